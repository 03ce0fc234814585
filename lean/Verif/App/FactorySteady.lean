import Verif.App.AlgorithmFactoryMore
import Verif.Algorithm.SteadyInstances

/-!
# Lemmas about the algorithms made by the factory: the evaluations of a run are not interrupted
-/

namespace Hnco

open Outcome

variable {K : Type}

/-- The algorithm adds only evaluations which are not stopped, and `finalize` makes none. -/
structure MadeAlgorithm.Steady (m : MadeAlgorithm K) (n : Nat) (env : Env K) : Prop where
  solution : m.start.solution.1.length = n
  start : m.start.calls = []
  maximize : ∀ fuel, Alg.Steady env (m.maximize env fuel)
  finalize : ∃ f : AlgState K m.σ → AlgState K m.σ, (∀ s, m.finalize s = pure (.ok (), f s)) ∧ ∀ s, (f s).calls = s.calls

theorem steady_of {m : MadeAlgorithm K} {n : Nat} {env : Env K} {f : AlgState K m.σ → AlgState K m.σ}
    (hf : ∀ s, m.finalize s = pure (.ok (), f s)) (hcalls : ∀ s, (f s).calls = s.calls) (hsize : m.start.solution.1.length = n)
    (hstart : m.start.calls = []) (h : ∀ fuel, Alg.Steady env (m.maximize env fuel)) : m.Steady n env := ⟨hsize, hstart, h, f, hf, hcalls⟩

/-- The evaluations of a run are not stopped by the function. -/
theorem MadeAlgorithm.Steady.extends {m : MadeAlgorithm K} {n : Nat} {env : Env K} (hm : m.Steady n env) {fuel : Nat} {ds : List Nat}
    {r : RunResult K} {rest : List Nat} (hr : m.run env fuel ds = .ok r rest) : env.Extends [] r.calls := by
  obtain ⟨_, hstart, h, f, hf, hcalls⟩ := hm
  unfold MadeAlgorithm.run at hr
  change Sim.bind _ _ ds = _ at hr
  unfold Sim.bind at hr
  cases hm : m.maximize env fuel m.start ds with
  | ok a rest' =>
    rw [hm] at hr
    obtain ⟨x, t⟩ := a
    have := (h fuel).out _ _ _ _ _ hm
    rw [hstart] at this
    cases x with
    | ok u =>
      simp only [hf] at hr
      cases hr
      rwa [hcalls]
    | error x =>
      cases x with
      | lastEvaluation =>
        simp only [hf] at hr
        cases hr
        rwa [hcalls]
      | targetReached => cases hr; exact this
      | runtimeError => cases hr; exact this
  | throw x => rw [hm] at hr; cases hr
  | ub => rw [hm] at hr; cases hr
  | out => rw [hm] at hr; cases hr

variable [LinearOrder K] [Zero K] {env : Env K} {n : Nat} {lib : AlgLib} {o : AlgOptions} {m : MadeAlgorithm K}

theorem completeLoop_steady (env : Env K) : ∀ fuel it, Alg.Steady env (completeLoop env fuel it)
  | 0, _ => by unfold completeLoop; infer_instance
  | fuel + 1, it => by
    have := fun it => completeLoop_steady env fuel it
    unfold completeLoop; steady

instance (env : Env K) (fuel : Nat) : Alg.Steady env (completeMaximize env fuel) := by
  have := fun it => completeLoop_steady env fuel it
  unfold completeMaximize; steady

theorem makeCompleteSearch_steady (h : makeCompleteSearch n = ok m) : m.Steady n env := by
  obtain ⟨a, ha, rfl⟩ := Outcome.made_eq_ok h
  exact steady_of (f := id) (fun s => rfl) (fun s => rfl) List.length_replicate rfl (fun fuel => by dsimp only; infer_instance)

theorem makeRandomSearch_steady (h : makeRandomSearch o n = ok m) : m.Steady n env := by
  obtain ⟨a, ha, rfl⟩ := Outcome.made_eq_ok h
  exact steady_of (f := id) (fun s => rfl) (fun s => rfl) List.length_replicate rfl (fun fuel => by dsimp only; infer_instance)

theorem makeRandomWalk_steady (h : makeRandomWalk o n = ok m) : m.Steady n env := by
  obtain ⟨a, ha, rfl⟩ := Outcome.made_eq_ok h
  exact steady_of (f := id) (fun s => rfl) (fun s => rfl) List.length_replicate rfl (fun fuel => by dsimp only; infer_instance)

theorem makeRandomLocalSearch_steady (h : makeRandomLocalSearch o n = ok m) : m.Steady n env := by
  obtain ⟨a, ha, rfl⟩ := Outcome.made_eq_ok h
  exact steady_of (f := fun s => { s with solution := (s.data.nbh.origin, s.solution.2) }) (fun s => rfl) (fun s => rfl) List.length_replicate rfl (fun fuel => by dsimp only; infer_instance)

theorem makeSteepestAscent_steady (h : makeSteepestAscent o n = ok m) : m.Steady n env := by
  obtain ⟨a, ha, rfl⟩ := Outcome.made_eq_ok h
  cases a with
  | singleBitFlip it => exact steady_of (f := id) (fun s => rfl) (fun s => rfl) List.length_replicate rfl (fun fuel => by dsimp only; infer_instance)
  | hammingSphere it => exact steady_of (f := id) (fun s => rfl) (fun s => rfl) List.length_replicate rfl (fun fuel => by dsimp only; infer_instance)

theorem makeFirstAscent_steady (h : makeFirstAscent o n = ok m) : m.Steady n env := by
  obtain ⟨a, ha, rfl⟩ := Outcome.made_eq_ok h
  cases a with
  | singleBitFlip it => exact steady_of (f := id) (fun s => rfl) (fun s => rfl) List.length_replicate rfl (fun fuel => by dsimp only; infer_instance)
  | hammingSphere it => exact steady_of (f := id) (fun s => rfl) (fun s => rfl) List.length_replicate rfl (fun fuel => by dsimp only; infer_instance)

theorem makeSimulatedAnnealing_steady (h : makeSimulatedAnnealing o n = ok m) : m.Steady n env := by
  obtain ⟨a, ha, rfl⟩ := Outcome.made_eq_ok h
  exact steady_of (f := id) (fun s => rfl) (fun s => rfl) List.length_replicate rfl (fun fuel => by dsimp only; infer_instance)

theorem makeOnePlusOneEa_steady (h : makeOnePlusOneEa o n = ok m) : m.Steady n env := by
  obtain ⟨a, ha, rfl⟩ := Outcome.made_eq_ok h
  exact steady_of (f := fun s => { s with solution := (s.data.nbh.origin, s.solution.2) }) (fun s => rfl) (fun s => rfl) List.length_replicate rfl (fun fuel => by dsimp only; infer_instance)

theorem makeSelfAdjusting_steady (h : makeSelfAdjusting lib o n = ok m) : m.Steady n env := by
  obtain ⟨a, ha, rfl⟩ := Outcome.made_eq_ok h
  exact steady_of (f := fun s => { s with solution := (s.data.mutation.origin, s.solution.2) }) (fun s => rfl) (fun s => rfl) List.length_replicate rfl (fun fuel => by dsimp only; infer_instance)

theorem makeMuPlusLambda_steady (h : makeMuPlusLambda o n = ok m) : m.Steady n env := by
  obtain ⟨a, ha, rfl⟩ := Outcome.made_eq_ok h
  exact steady_of (f := id) (fun s => rfl) (fun s => rfl) List.length_replicate rfl (fun fuel => by dsimp only; infer_instance)

theorem makeMuCommaLambda_steady (h : makeMuCommaLambda o n = ok m) : m.Steady n env := by
  obtain ⟨a, ha, rfl⟩ := Outcome.made_eq_ok h
  exact steady_of (f := id) (fun s => rfl) (fun s => rfl) List.length_replicate rfl (fun fuel => by dsimp only; infer_instance)

theorem makeTwoRate_steady (h : makeTwoRate o n = ok m) : m.Steady n env := by
  obtain ⟨a, ha, rfl⟩ := Outcome.made_eq_ok h
  exact steady_of (f := id) (fun s => rfl) (fun s => rfl) List.length_replicate rfl (fun fuel => by dsimp only; infer_instance)

theorem makeItEa_steady (h : makeItEa lib o n = ok m) : m.Steady n env := by
  obtain ⟨a, ha, rfl⟩ := Outcome.made_eq_ok h
  exact steady_of (f := id) (fun s => rfl) (fun s => rfl) List.length_replicate rfl (fun fuel => by dsimp only; infer_instance)

theorem makeGeneticAlgorithm_steady (h : makeGeneticAlgorithm o n = ok m) : m.Steady n env := by
  obtain ⟨a, ha, rfl⟩ := Outcome.made_eq_ok h
  exact steady_of (f := id) (fun s => rfl) (fun s => rfl) List.length_replicate rfl (fun fuel => by dsimp only; infer_instance)

theorem makeLambdaGa_steady (h : makeLambdaGa o n = ok m) : m.Steady n env := by
  obtain ⟨a, ha, rfl⟩ := Outcome.made_eq_ok h
  exact steady_of (f := id) (fun s => rfl) (fun s => rfl) List.length_replicate rfl (fun fuel => by dsimp only; infer_instance)

theorem makePbil_steady (h : makePbil o n = ok m) : m.Steady n env := by
  obtain ⟨a, ha, rfl⟩ := Outcome.made_eq_ok h
  exact steady_of (f := id) (fun s => rfl) (fun s => rfl) List.length_replicate rfl (fun fuel => by dsimp only; infer_instance)

theorem makeNpsPbil_steady (h : makeNpsPbil o n = ok m) : m.Steady n env := by
  obtain ⟨a, ha, rfl⟩ := Outcome.made_eq_ok h
  exact steady_of (f := id) (fun s => rfl) (fun s => rfl) List.length_replicate rfl (fun fuel => by dsimp only; infer_instance)

theorem makeUmda_steady (h : makeUmda o n = ok m) : m.Steady n env := by
  obtain ⟨a, ha, rfl⟩ := Outcome.made_eq_ok h
  exact steady_of (f := id) (fun s => rfl) (fun s => rfl) List.length_replicate rfl (fun fuel => by dsimp only; infer_instance)

theorem makeRamUmda_steady (h : makeRamUmda o n = ok m) : m.Steady n env := by
  obtain ⟨a, ha, rfl⟩ := Outcome.made_eq_ok h
  exact steady_of (f := id) (fun s => rfl) (fun s => rfl) List.length_replicate rfl (fun fuel => by dsimp only; infer_instance)

theorem makeRamUmda2_steady (h : makeRamUmda2 o n = ok m) : m.Steady n env := by
  obtain ⟨a, ha, rfl⟩ := Outcome.made_eq_ok h
  exact steady_of (f := id) (fun s => rfl) (fun s => rfl) List.length_replicate rfl (fun fuel => by dsimp only; infer_instance)

theorem makeCompactGa_steady (h : makeCompactGa lib o n = ok m) : m.Steady n env := by
  obtain ⟨a, ha, rfl⟩ := Outcome.made_eq_ok h
  exact steady_of (f := id) (fun s => rfl) (fun s => rfl) List.length_replicate rfl (fun fuel => by dsimp only; infer_instance)

theorem makeMmas_steady (h : makeMmas o n = ok m) : m.Steady n env := by
  obtain ⟨a, ha, rfl⟩ := Outcome.made_eq_ok h
  exact steady_of (f := id) (fun s => rfl) (fun s => rfl) List.length_replicate rfl (fun fuel => by dsimp only; infer_instance)

theorem makeHea_steady {full : Bool} (h : makeHea full o n = ok m) : m.Steady n env := by
  obtain ⟨a, ha, rfl⟩ := Outcome.made_eq_ok h
  exact steady_of (f := id) (fun s => rfl) (fun s => rfl) List.length_replicate rfl (fun fuel => by dsimp only; infer_instance)

theorem makeBmPbil_steady {full : Bool} (h : makeBmPbil lib full o n = ok m) : m.Steady n env := by
  obtain ⟨a, ha, rfl⟩ := Outcome.made_eq_ok h
  exact steady_of (f := id) (fun s => rfl) (fun s => rfl) List.length_replicate rfl (fun fuel => by dsimp only; infer_instance)

theorem makeMimic_steady (h : makeMimic lib o n = ok m) : m.Steady n env := by
  obtain ⟨a, ha, rfl⟩ := Outcome.made_eq_ok h
  exact steady_of (f := id) (fun s => rfl) (fun s => rfl) List.length_replicate rfl (fun fuel => by dsimp only; infer_instance)

theorem makeAlgorithm_steady (h30 : o.algorithm ≠ 30) (h : makeAlgorithm lib o n = .own (ok m)) :
    m.Steady n env := by
  unfold makeAlgorithm at h
  by_cases h0 : o.algorithm = 0
  · rw [if_pos h0] at h
    exact makeCompleteSearch_steady (FactoryResult.own.inj h)
  rw [if_neg h0] at h
  clear h0
  by_cases h0 : o.algorithm = 10
  · rw [if_pos h0] at h
    exact makeRandomSearch_steady (FactoryResult.own.inj h)
  rw [if_neg h0] at h
  clear h0
  by_cases h0 : o.algorithm = 20
  · rw [if_pos h0] at h
    exact makeRandomWalk_steady (FactoryResult.own.inj h)
  rw [if_neg h0] at h
  clear h0
  rw [if_neg h30] at h
  by_cases h0 : o.algorithm = 100
  · rw [if_pos h0] at h
    exact makeRandomLocalSearch_steady (FactoryResult.own.inj h)
  rw [if_neg h0] at h
  clear h0
  by_cases h0 : o.algorithm = 150
  · rw [if_pos h0] at h
    exact makeSteepestAscent_steady (FactoryResult.own.inj h)
  rw [if_neg h0] at h
  clear h0
  by_cases h0 : o.algorithm = 160
  · rw [if_pos h0] at h
    exact makeFirstAscent_steady (FactoryResult.own.inj h)
  rw [if_neg h0] at h
  clear h0
  by_cases h0 : o.algorithm = 200
  · rw [if_pos h0] at h
    exact makeSimulatedAnnealing_steady (FactoryResult.own.inj h)
  rw [if_neg h0] at h
  clear h0
  by_cases h0 : o.algorithm = 300
  · rw [if_pos h0] at h
    exact makeOnePlusOneEa_steady (FactoryResult.own.inj h)
  rw [if_neg h0] at h
  clear h0
  by_cases h0 : o.algorithm = 301
  · rw [if_pos h0] at h
    exact makeSelfAdjusting_steady (FactoryResult.own.inj h)
  rw [if_neg h0] at h
  clear h0
  by_cases h0 : o.algorithm = 310
  · rw [if_pos h0] at h
    exact makeMuPlusLambda_steady (FactoryResult.own.inj h)
  rw [if_neg h0] at h
  clear h0
  by_cases h0 : o.algorithm = 320
  · rw [if_pos h0] at h
    exact makeMuCommaLambda_steady (FactoryResult.own.inj h)
  rw [if_neg h0] at h
  clear h0
  by_cases h0 : o.algorithm = 330
  · rw [if_pos h0] at h
    exact makeTwoRate_steady (FactoryResult.own.inj h)
  rw [if_neg h0] at h
  clear h0
  by_cases h0 : o.algorithm = 340
  · rw [if_pos h0] at h
    exact makeItEa_steady (FactoryResult.own.inj h)
  rw [if_neg h0] at h
  clear h0
  by_cases h0 : o.algorithm = 400
  · rw [if_pos h0] at h
    exact makeGeneticAlgorithm_steady (FactoryResult.own.inj h)
  rw [if_neg h0] at h
  clear h0
  by_cases h0 : o.algorithm = 450
  · rw [if_pos h0] at h
    exact makeLambdaGa_steady (FactoryResult.own.inj h)
  rw [if_neg h0] at h
  clear h0
  by_cases h0 : o.algorithm = 500
  · rw [if_pos h0] at h
    exact makePbil_steady (FactoryResult.own.inj h)
  rw [if_neg h0] at h
  clear h0
  by_cases h0 : o.algorithm = 501
  · rw [if_pos h0] at h
    exact makeNpsPbil_steady (FactoryResult.own.inj h)
  rw [if_neg h0] at h
  clear h0
  by_cases h0 : o.algorithm = 600
  · rw [if_pos h0] at h
    exact makeUmda_steady (FactoryResult.own.inj h)
  rw [if_neg h0] at h
  clear h0
  by_cases h0 : o.algorithm = 610
  · rw [if_pos h0] at h
    exact makeRamUmda_steady (FactoryResult.own.inj h)
  rw [if_neg h0] at h
  clear h0
  by_cases h0 : o.algorithm = 612
  · rw [if_pos h0] at h
    exact makeRamUmda2_steady (FactoryResult.own.inj h)
  rw [if_neg h0] at h
  clear h0
  by_cases h0 : o.algorithm = 700
  · rw [if_pos h0] at h
    exact makeCompactGa_steady (FactoryResult.own.inj h)
  rw [if_neg h0] at h
  clear h0
  by_cases h0 : o.algorithm = 800
  · rw [if_pos h0] at h
    exact makeMmas_steady (FactoryResult.own.inj h)
  rw [if_neg h0] at h
  clear h0
  by_cases h0 : o.algorithm = 900
  · rw [if_pos h0] at h
    exact makeHea_steady (FactoryResult.own.inj h)
  rw [if_neg h0] at h
  clear h0
  by_cases h0 : o.algorithm = 901
  · rw [if_pos h0] at h
    exact makeHea_steady (FactoryResult.own.inj h)
  rw [if_neg h0] at h
  clear h0
  by_cases h0 : o.algorithm = 1000
  · rw [if_pos h0] at h
    exact makeBmPbil_steady (FactoryResult.own.inj h)
  rw [if_neg h0] at h
  clear h0
  by_cases h0 : o.algorithm = 1001
  · rw [if_pos h0] at h
    exact makeBmPbil_steady (FactoryResult.own.inj h)
  rw [if_neg h0] at h
  clear h0
  by_cases h0 : o.algorithm = 1100
  · rw [if_pos h0] at h
    exact makeMimic_steady (FactoryResult.own.inj h)
  rw [if_neg h0] at h
  clear h0
  split at h
  · cases h
  · cases FactoryResult.own.inj h

end Hnco
