import Verif.App.AlgorithmFactoryProps
import Verif.Algorithm.CalmInstances
import Verif.Algorithm.Total
import Verif.Iterator.Props

/-!
# Lemmas about the algorithms made by the factory: what interrupts a run, complete search
-/

namespace Hnco

open Outcome

variable {K : Type}

/-! ## Lemmas -/

instance : singleBitFlipIter.Calm := by
  constructor <;> intros <;> unfold singleBitFlipIter <;> infer_instance

instance : hammingSphereIter.Calm := by
  constructor <;> intros <;> unfold hammingSphereIter <;> infer_instance

/-- Only the function interrupts runs of the algorithm. -/
def MadeAlgorithm.Interrupted (m : MadeAlgorithm K) (env : Env K) : Prop :=
  ∀ fuel ds r rest e, m.run env fuel ds = .ok r rest → r.ending = .error e → env.Raises r.calls e

theorem interrupted_of_calm {m : MadeAlgorithm K} {env : Env K} {f : AlgState K m.σ → AlgState K m.σ}
    (hf : ∀ s, m.finalize s = pure (.ok (), f s)) (hcalls : ∀ s, (f s).calls = s.calls)
    (h : ∀ fuel, Alg.CalmAt env (m.maximize env fuel) m.start) : m.Interrupted env := by
  intro fuel ds r rest e hr he
  unfold MadeAlgorithm.run at hr
  change Sim.bind _ _ ds = _ at hr
  unfold Sim.bind at hr
  cases hm : m.maximize env fuel m.start ds with
  | ok a rest' =>
    rw [hm] at hr
    obtain ⟨x, t⟩ := a
    cases x with
    | ok u =>
      simp only [hf] at hr
      cases hr
      cases he
    | error x =>
      have := h fuel _ _ _ _ hm
      cases x with
      | lastEvaluation =>
        simp only [hf] at hr
        cases hr
        cases he
        rwa [hcalls]
      | targetReached => cases hr; cases he; exact this
      | runtimeError => cases hr; cases he; exact this
  | throw x => rw [hm] at hr; cases hr
  | ub => rw [hm] at hr; cases hr
  | out => rw [hm] at hr; cases hr

theorem Outcome.made_eq_ok {α : Type} {o : Outcome α} {f : α → MadeAlgorithm K} {m : MadeAlgorithm K} (h : o.made f = ok m) :
    ∃ a, o = ok a ∧ m = f a := by
  cases o with
  | ok a => cases h; exact ⟨a, rfl, rfl⟩
  | throw e => cases h
  | ub => cases h

theorem algorithmNew_eq_ok {n : Nat} {u : Unit} (h : algorithmNew n = ok u) : 0 < n := by
  unfold algorithmNew at h
  split at h
  · cases h
  · omega

section
variable [LinearOrder K] [Zero K] {env : Env K} {n : Nat} {lib : AlgLib} {o : AlgOptions} {m : MadeAlgorithm K}

theorem completeLoop_calm (env : Env K) : ∀ fuel it, Alg.Calm env (completeLoop env fuel it)
  | 0, _ => by unfold completeLoop; infer_instance
  | fuel + 1, it => by
    have := fun it => completeLoop_calm env fuel it
    unfold completeLoop; calm

theorem completeMaximize_calmAt {s : AlgState K Unit} (hs : 0 < s.solution.1.length) (fuel : Nat) :
    Alg.CalmAt env (completeMaximize env fuel) s := by
  have := fun it => completeLoop_calm env fuel it
  have hb : (HypercubeIterator.new s.solution.1.length).hasNext = ok true := by
    simp [HypercubeIterator.new, HypercubeIterator.hasNext, hs]
  have h : Alg.Calm env (do
      let r ← Alg.lift (HypercubeIterator.new s.solution.1.length).next
      setSolutionEval env r.1
      completeLoop env fuel r.2 : Alg (AlgState K Unit) Unit) := by calm
  unfold completeMaximize
  refine Alg.CalmAt.bind (Alg.Calm.out s) (fun a t ds rest hm => ?_)
  cases hm
  refine Alg.CalmAt.bind (Alg.Calm.out s) (fun a t ds rest hm => ?_)
  rw [hb] at hm
  cases hm
  exact h.out s

theorem makeCompleteSearch_interrupted (h : makeCompleteSearch n = ok m) : m.Interrupted env := by
  obtain ⟨a, ha, rfl⟩ := Outcome.made_eq_ok h
  have hn := algorithmNew_eq_ok ha
  refine interrupted_of_calm (f := id) (fun s => rfl) (fun s => rfl) (completeMaximize_calmAt ?_)
  change 0 < (List.replicate n false).length
  simpa using hn

theorem makeRandomSearch_interrupted (h : makeRandomSearch o n = ok m) : m.Interrupted env := by
  obtain ⟨a, ha, rfl⟩ := Outcome.made_eq_ok h
  exact interrupted_of_calm (f := id) (fun s => rfl) (fun s => rfl) (fun fuel => Alg.Calm.out _)

theorem makeRandomWalk_interrupted (h : makeRandomWalk o n = ok m) : m.Interrupted env := by
  obtain ⟨a, ha, rfl⟩ := Outcome.made_eq_ok h
  exact interrupted_of_calm (f := id) (fun s => rfl) (fun s => rfl) (fun fuel => Alg.Calm.out _)

theorem makeRandomLocalSearch_interrupted (h : makeRandomLocalSearch o n = ok m) : m.Interrupted env := by
  obtain ⟨a, ha, rfl⟩ := Outcome.made_eq_ok h
  exact interrupted_of_calm (f := fun s => { s with solution := (s.data.nbh.origin, s.solution.2) }) (fun s => rfl) (fun s => rfl) (fun fuel => Alg.Calm.out _)

theorem makeSteepestAscent_interrupted (h : makeSteepestAscent o n = ok m) : m.Interrupted env := by
  obtain ⟨a, ha, rfl⟩ := Outcome.made_eq_ok h
  cases a with
  | singleBitFlip it =>
    exact interrupted_of_calm (f := id) (fun s => rfl) (fun s => rfl) (fun fuel => by dsimp only; exact Alg.Calm.out _)
  | hammingSphere it =>
    exact interrupted_of_calm (f := id) (fun s => rfl) (fun s => rfl) (fun fuel => by dsimp only; exact Alg.Calm.out _)

theorem makeFirstAscent_interrupted (h : makeFirstAscent o n = ok m) : m.Interrupted env := by
  obtain ⟨a, ha, rfl⟩ := Outcome.made_eq_ok h
  cases a with
  | singleBitFlip it =>
    exact interrupted_of_calm (f := id) (fun s => rfl) (fun s => rfl) (fun fuel => by dsimp only; exact Alg.Calm.out _)
  | hammingSphere it =>
    exact interrupted_of_calm (f := id) (fun s => rfl) (fun s => rfl) (fun fuel => by dsimp only; exact Alg.Calm.out _)

theorem makeSimulatedAnnealing_interrupted (h : makeSimulatedAnnealing o n = ok m) : m.Interrupted env := by
  obtain ⟨a, ha, rfl⟩ := Outcome.made_eq_ok h
  exact interrupted_of_calm (f := id) (fun s => rfl) (fun s => rfl) (fun fuel => Alg.Calm.out _)

theorem makeOnePlusOneEa_interrupted (h : makeOnePlusOneEa o n = ok m) : m.Interrupted env := by
  obtain ⟨a, ha, rfl⟩ := Outcome.made_eq_ok h
  exact interrupted_of_calm (f := fun s => { s with solution := (s.data.nbh.origin, s.solution.2) }) (fun s => rfl) (fun s => rfl) (fun fuel => Alg.Calm.out _)

theorem makeSelfAdjusting_interrupted (h : makeSelfAdjusting lib o n = ok m) : m.Interrupted env := by
  obtain ⟨a, ha, rfl⟩ := Outcome.made_eq_ok h
  exact interrupted_of_calm (f := fun s => { s with solution := (s.data.mutation.origin, s.solution.2) }) (fun s => rfl) (fun s => rfl) (fun fuel => Alg.Calm.out _)

theorem makeMuPlusLambda_interrupted (h : makeMuPlusLambda o n = ok m) : m.Interrupted env := by
  obtain ⟨a, ha, rfl⟩ := Outcome.made_eq_ok h
  exact interrupted_of_calm (f := id) (fun s => rfl) (fun s => rfl) (fun fuel => Alg.Calm.out _)

theorem makeMuCommaLambda_interrupted (h : makeMuCommaLambda o n = ok m) : m.Interrupted env := by
  obtain ⟨a, ha, rfl⟩ := Outcome.made_eq_ok h
  exact interrupted_of_calm (f := id) (fun s => rfl) (fun s => rfl) (fun fuel => Alg.Calm.out _)

theorem makeTwoRate_interrupted (h : makeTwoRate o n = ok m) : m.Interrupted env := by
  obtain ⟨a, ha, rfl⟩ := Outcome.made_eq_ok h
  exact interrupted_of_calm (f := id) (fun s => rfl) (fun s => rfl) (fun fuel => Alg.Calm.out _)

theorem makeItEa_interrupted (hq : 0 ≤ o.eaItReplacement ∧ o.eaItReplacement ≤ 4) (h : makeItEa lib o n = ok m) : m.Interrupted env := by
  obtain ⟨a, ha, rfl⟩ := Outcome.made_eq_ok h
  have : Fact ((madeItParams lib o n a.2).replacement ≤ 4) := ⟨by
    unfold madeItParams
    dsimp only
    rw [if_neg (by omega)]
    omega⟩
  exact interrupted_of_calm (f := id) (fun s => rfl) (fun s => rfl) (fun fuel => Alg.Calm.out _)

theorem makeGeneticAlgorithm_interrupted (hq : 2 ≤ o.eaTournamentSize ∧ o.eaTournamentSize < o.eaMu)
    (h : makeGeneticAlgorithm o n = ok m) : m.Interrupted env := by
  obtain ⟨a, ha, rfl⟩ := Outcome.made_eq_ok h
  obtain ⟨_, _, ha⟩ := bind_eq_ok.mp ha
  refine interrupted_of_calm (f := id) (fun s => rfl) (fun s => rfl) (fun fuel => gaMaximize_calmAt ?_ _ _)
  have hs : a.parents.size = o.eaMu.toNat := (gaNew_valid ha).1.parents.bvs
  change 2 ≤ o.eaTournamentSize ∧ o.eaTournamentSize < a.parents.size
  rw [hs]
  omega

theorem makeLambdaGa_interrupted (h : makeLambdaGa o n = ok m) : m.Interrupted env := by
  obtain ⟨a, ha, rfl⟩ := Outcome.made_eq_ok h
  exact interrupted_of_calm (f := id) (fun s => rfl) (fun s => rfl) (fun fuel => Alg.Calm.out _)

theorem makePbil_interrupted (h : makePbil o n = ok m) : m.Interrupted env := by
  obtain ⟨a, ha, rfl⟩ := Outcome.made_eq_ok h
  exact interrupted_of_calm (f := id) (fun s => rfl) (fun s => rfl) (fun fuel => Alg.Calm.out _)

theorem makeNpsPbil_interrupted (h : makeNpsPbil o n = ok m) : m.Interrupted env := by
  obtain ⟨a, ha, rfl⟩ := Outcome.made_eq_ok h
  exact interrupted_of_calm (f := id) (fun s => rfl) (fun s => rfl) (fun fuel => Alg.Calm.out _)

theorem makeUmda_interrupted (h : makeUmda o n = ok m) : m.Interrupted env := by
  obtain ⟨a, ha, rfl⟩ := Outcome.made_eq_ok h
  exact interrupted_of_calm (f := id) (fun s => rfl) (fun s => rfl) (fun fuel => Alg.Calm.out _)

theorem makeRamUmda_interrupted (hq : 0 ≤ o.ramTsLengthMode ∧ o.ramTsLengthMode ≤ 5) (h : makeRamUmda o n = ok m) : m.Interrupted env := by
  obtain ⟨a, ha, rfl⟩ := Outcome.made_eq_ok h
  have : Fact ((madeRamParams o).mode ≠ .unknown) := ⟨by
    unfold madeRamParams ramModeOf
    dsimp only
    split_ifs <;> first | omega | simp⟩
  exact interrupted_of_calm (f := id) (fun s => rfl) (fun s => rfl) (fun fuel => Alg.Calm.out _)

theorem makeRamUmda2_interrupted (hq : 0 ≤ o.ramTsLengthMode ∧ o.ramTsLengthMode ≤ 5) (h : makeRamUmda2 o n = ok m) : m.Interrupted env := by
  obtain ⟨a, ha, rfl⟩ := Outcome.made_eq_ok h
  have : Fact ((madeRamParams o).mode ≠ .unknown) := ⟨by
    unfold madeRamParams ramModeOf
    dsimp only
    split_ifs <;> first | omega | simp⟩
  exact interrupted_of_calm (f := id) (fun s => rfl) (fun s => rfl) (fun fuel => Alg.Calm.out _)

theorem makeCompactGa_interrupted (h : makeCompactGa lib o n = ok m) : m.Interrupted env := by
  obtain ⟨a, ha, rfl⟩ := Outcome.made_eq_ok h
  exact interrupted_of_calm (f := id) (fun s => rfl) (fun s => rfl) (fun fuel => Alg.Calm.out _)

theorem makeMmas_interrupted (h : makeMmas o n = ok m) : m.Interrupted env := by
  obtain ⟨a, ha, rfl⟩ := Outcome.made_eq_ok h
  exact interrupted_of_calm (f := id) (fun s => rfl) (fun s => rfl) (fun fuel => Alg.Calm.out _)

theorem makeHea_interrupted {full : Bool} (h : makeHea full o n = ok m) : m.Interrupted env := by
  obtain ⟨a, ha, rfl⟩ := Outcome.made_eq_ok h
  exact interrupted_of_calm (f := id) (fun s => rfl) (fun s => rfl) (fun fuel => Alg.Calm.out _)

theorem makeBmPbil_interrupted {full : Bool} (hq : 0 ≤ o.bmSamplingMode ∧ o.bmSamplingMode ≤ 2) (h : makeBmPbil lib full o n = ok m) : m.Interrupted env := by
  obtain ⟨a, ha, rfl⟩ := Outcome.made_eq_ok h
  have : Fact ((madeBmParams full o).sampling ≠ .unknown) := ⟨by
    unfold madeBmParams bmSamplingOf
    dsimp only
    split_ifs <;> first | omega | simp⟩
  exact interrupted_of_calm (f := id) (fun s => rfl) (fun s => rfl) (fun fuel => Alg.Calm.out _)

theorem makeMimic_interrupted (h : makeMimic lib o n = ok m) : m.Interrupted env := by
  obtain ⟨a, ha, rfl⟩ := Outcome.made_eq_ok h
  exact interrupted_of_calm (f := id) (fun s => rfl) (fun s => rfl) (fun fuel => Alg.Calm.out _)

theorem makeAlgorithm_calm (hq : NoRefusal o) (h30 : o.algorithm ≠ 30) (h : makeAlgorithm lib o n = .own (ok m)) :
    m.Interrupted env := by
  unfold makeAlgorithm at h
  by_cases h0 : o.algorithm = 0
  · rw [if_pos h0] at h
    exact makeCompleteSearch_interrupted (FactoryResult.own.inj h)
  rw [if_neg h0] at h
  clear h0
  by_cases h0 : o.algorithm = 10
  · rw [if_pos h0] at h
    exact makeRandomSearch_interrupted (FactoryResult.own.inj h)
  rw [if_neg h0] at h
  clear h0
  by_cases h0 : o.algorithm = 20
  · rw [if_pos h0] at h
    exact makeRandomWalk_interrupted (FactoryResult.own.inj h)
  rw [if_neg h0] at h
  clear h0
  rw [if_neg h30] at h
  by_cases h0 : o.algorithm = 100
  · rw [if_pos h0] at h
    exact makeRandomLocalSearch_interrupted (FactoryResult.own.inj h)
  rw [if_neg h0] at h
  clear h0
  by_cases h0 : o.algorithm = 150
  · rw [if_pos h0] at h
    exact makeSteepestAscent_interrupted (FactoryResult.own.inj h)
  rw [if_neg h0] at h
  clear h0
  by_cases h0 : o.algorithm = 160
  · rw [if_pos h0] at h
    exact makeFirstAscent_interrupted (FactoryResult.own.inj h)
  rw [if_neg h0] at h
  clear h0
  by_cases h0 : o.algorithm = 200
  · rw [if_pos h0] at h
    exact makeSimulatedAnnealing_interrupted (FactoryResult.own.inj h)
  rw [if_neg h0] at h
  clear h0
  by_cases h0 : o.algorithm = 300
  · rw [if_pos h0] at h
    exact makeOnePlusOneEa_interrupted (FactoryResult.own.inj h)
  rw [if_neg h0] at h
  clear h0
  by_cases h0 : o.algorithm = 301
  · rw [if_pos h0] at h
    exact makeSelfAdjusting_interrupted (FactoryResult.own.inj h)
  rw [if_neg h0] at h
  clear h0
  by_cases h0 : o.algorithm = 310
  · rw [if_pos h0] at h
    exact makeMuPlusLambda_interrupted (FactoryResult.own.inj h)
  rw [if_neg h0] at h
  clear h0
  by_cases h0 : o.algorithm = 320
  · rw [if_pos h0] at h
    exact makeMuCommaLambda_interrupted (FactoryResult.own.inj h)
  rw [if_neg h0] at h
  clear h0
  by_cases h0 : o.algorithm = 330
  · rw [if_pos h0] at h
    exact makeTwoRate_interrupted (FactoryResult.own.inj h)
  rw [if_neg h0] at h
  clear h0
  by_cases h0 : o.algorithm = 340
  · rw [if_pos h0] at h
    exact makeItEa_interrupted (hq.replacement h0) (FactoryResult.own.inj h)
  rw [if_neg h0] at h
  clear h0
  by_cases h0 : o.algorithm = 400
  · rw [if_pos h0] at h
    exact makeGeneticAlgorithm_interrupted (hq.tournament h0) (FactoryResult.own.inj h)
  rw [if_neg h0] at h
  clear h0
  by_cases h0 : o.algorithm = 450
  · rw [if_pos h0] at h
    exact makeLambdaGa_interrupted (FactoryResult.own.inj h)
  rw [if_neg h0] at h
  clear h0
  by_cases h0 : o.algorithm = 500
  · rw [if_pos h0] at h
    exact makePbil_interrupted (FactoryResult.own.inj h)
  rw [if_neg h0] at h
  clear h0
  by_cases h0 : o.algorithm = 501
  · rw [if_pos h0] at h
    exact makeNpsPbil_interrupted (FactoryResult.own.inj h)
  rw [if_neg h0] at h
  clear h0
  by_cases h0 : o.algorithm = 600
  · rw [if_pos h0] at h
    exact makeUmda_interrupted (FactoryResult.own.inj h)
  rw [if_neg h0] at h
  clear h0
  by_cases h0 : o.algorithm = 610
  · rw [if_pos h0] at h
    exact makeRamUmda_interrupted (hq.lengthMode (.inl h0)) (FactoryResult.own.inj h)
  rw [if_neg h0] at h
  clear h0
  by_cases h0 : o.algorithm = 612
  · rw [if_pos h0] at h
    exact makeRamUmda2_interrupted (hq.lengthMode (.inr h0)) (FactoryResult.own.inj h)
  rw [if_neg h0] at h
  clear h0
  by_cases h0 : o.algorithm = 700
  · rw [if_pos h0] at h
    exact makeCompactGa_interrupted (FactoryResult.own.inj h)
  rw [if_neg h0] at h
  clear h0
  by_cases h0 : o.algorithm = 800
  · rw [if_pos h0] at h
    exact makeMmas_interrupted (FactoryResult.own.inj h)
  rw [if_neg h0] at h
  clear h0
  by_cases h0 : o.algorithm = 900
  · rw [if_pos h0] at h
    exact makeHea_interrupted (FactoryResult.own.inj h)
  rw [if_neg h0] at h
  clear h0
  by_cases h0 : o.algorithm = 901
  · rw [if_pos h0] at h
    exact makeHea_interrupted (FactoryResult.own.inj h)
  rw [if_neg h0] at h
  clear h0
  by_cases h0 : o.algorithm = 1000
  · rw [if_pos h0] at h
    exact makeBmPbil_interrupted (hq.samplingMode (.inl h0)) (FactoryResult.own.inj h)
  rw [if_neg h0] at h
  clear h0
  by_cases h0 : o.algorithm = 1001
  · rw [if_pos h0] at h
    exact makeBmPbil_interrupted (hq.samplingMode (.inr h0)) (FactoryResult.own.inj h)
  rw [if_neg h0] at h
  clear h0
  by_cases h0 : o.algorithm = 1100
  · rw [if_pos h0] at h
    exact makeMimic_interrupted (FactoryResult.own.inj h)
  rw [if_neg h0] at h
  clear h0
  split at h
  · cases h
  · cases FactoryResult.own.inj h

end

/-! ## Runs which end -/

theorem run_within {σ : Type} {start : AlgState K σ} {maximize : Env K → Nat → Alg (AlgState K σ) Unit} {env : Env K}
    {fuel c : Nat} {P E : BV × K → List (BV × K) → Prop}
    (h : Alg.Within c (maximize env fuel) start (fun _ t => P t.solution t.calls) (fun t => E t.solution t.calls)) :
    Sim.Within c (MadeAlgorithm.run ⟨σ, start, maximize, noFinalize⟩ env fuel) (fun r =>
      (r.ending = .ok () ∧ P r.solution r.calls) ∨ ((∃ e, r.ending = .error e) ∧ E r.solution r.calls)) := by
  unfold MadeAlgorithm.run
  refine Sim.Within.bind (c := c) (d := 0) h ?_
  rintro ⟨r, t⟩ hr
  cases r with
  | ok u =>
    refine Sim.Within.bind (c := 0) (d := 0) (P := fun x => x = (Except.ok (), t)) (Sim.Within.pure rfl) ?_
    rintro _ rfl
    exact Sim.Within.pure (.inl ⟨rfl, hr⟩)
  | error e =>
    cases e with
    | lastEvaluation =>
      refine Sim.Within.bind (c := 0) (d := 0) (P := fun x => x = (Except.ok (), t)) (Sim.Within.pure rfl) ?_
      rintro _ rfl
      exact Sim.Within.pure (.inr ⟨⟨_, rfl⟩, hr⟩)
    | targetReached => exact Sim.Within.pure (.inr ⟨⟨_, rfl⟩, hr⟩)
    | runtimeError => exact Sim.Within.pure (.inr ⟨⟨_, rfl⟩, hr⟩)

/-! ## Complete search -/

section
variable [LinearOrder K]

theorem BestOf.append_update {l : List (BV × K)} {s c : BV × K} (h : BestOf l s) :
    BestOf (l ++ [c]) (if s.2 < c.2 then c else s) := by
  obtain ⟨h1, h2⟩ := h
  split
  · rename_i hlt
    refine ⟨by simp, fun d hd => ?_⟩
    rcases List.mem_append.mp hd with hd | hd
    · exact le_trans (h2 d hd) (le_of_lt hlt)
    · rw [List.mem_singleton] at hd; rw [hd]
  · rename_i hlt
    refine ⟨List.mem_append_left _ h1, fun d hd => ?_⟩
    rcases List.mem_append.mp hd with hd | hd
    · exact h2 d hd
    · rw [List.mem_singleton] at hd; rw [hd]; exact not_lt.mp hlt

theorem completeLoop_within {env : Env K} {n : Nat} {val : BV → K} (henv : env.Computes n val) {it : HypercubeIterator}
    {l : List BV} (h : Enumerates HypercubeIterator.hasNext HypercubeIterator.next it l) :
    ∀ (fuel : Nat) (s : AlgState K Unit), l.length < fuel → (∀ x ∈ l, x.length = n) → BestOf s.calls s.solution →
      Alg.Within 0 (completeLoop env fuel it) s
        (fun _ t => t.calls = s.calls ++ l.map (fun x => (x, val x)) ∧ BestOf t.calls t.solution)
        (fun t => (∃ l', l' <+: l ∧ t.calls = s.calls ++ l'.map (fun x => (x, val x))) ∧ BestOf t.calls t.solution) := by
  induction h with
  | done h =>
    intro fuel s hf _ hs
    obtain ⟨fuel, rfl⟩ : ∃ k, fuel = k + 1 := ⟨fuel - 1, by simp at hf; omega⟩
    unfold completeLoop
    refine Alg.Within.lift_bind h ?_
    simp only [Bool.false_eq_true, if_false]
    exact Alg.Within.pure ⟨by simp, hs⟩
  | @step it it' x l h hnext henum ih =>
    intro fuel s hf hl hs
    obtain ⟨fuel, rfl⟩ : ∃ k, fuel = k + 1 := ⟨fuel - 1, by simp at hf; omega⟩
    unfold completeLoop
    refine Alg.Within.lift_bind h ?_
    simp only [if_true]
    refine Alg.Within.lift_bind hnext ?_
    refine (Alg.Within.bind (c := 0) (d := 0) (P := fun _ t => t.calls = s.calls ++ [(x, val x)] ∧ BestOf t.calls t.solution)
      ?_ ?_)
    · unfold updateSolutionEval
      refine evaluate_within henv (hl x (by simp)) ?_ ⟨⟨[], List.nil_prefix, by simp⟩, hs⟩
      unfold updateSolution
      refine Alg.Within.modify ?_
      have := hs.append_update (c := (x, val x))
      split
      · rename_i hlt
        rw [if_pos hlt] at this
        exact ⟨rfl, this⟩
      · rename_i hlt
        rw [if_neg hlt] at this
        exact ⟨rfl, this⟩
    · rintro _ t ⟨ht, hb⟩
      refine (ih fuel t (by simp at hf; omega) (fun y hy => hl y (by simp [hy])) hb).mono (le_refl _) ?_ ?_
      · rintro _ u ⟨hu, hbu⟩
        exact ⟨by rw [hu, ht]; simp, hbu⟩
      · rintro u ⟨⟨l', hp, hu⟩, hbu⟩
        exact ⟨⟨x :: l', List.cons_prefix_cons.mpr ⟨rfl, hp⟩, by rw [hu, ht]; simp⟩, hbu⟩

variable [Zero K] {env : Env K} {n : Nat} {val : BV → K} {lib : AlgLib} {o : AlgOptions}

theorem completeMaximize_within (henv : env.Computes n val) (hn : 0 < n) {fuel : Nat} (hf : 2 ^ n ≤ fuel) :
    ∃ l, IsFullEnumeration n l ∧ Alg.Within 0 (completeMaximize env fuel) (newState n ())
        (fun _ t => t.calls = l.map (fun x => (x, val x)) ∧ BestOf t.calls t.solution)
        (fun t => (∃ l', l' <+: l ∧ t.calls = l'.map (fun x => (x, val x))) ∧ (t.calls = [] ∨ BestOf t.calls t.solution)) := by
  obtain ⟨l, henum, hfull⟩ := hypercubeIterator_enumerates (HypercubeIterator.new n) (by simpa [HypercubeIterator.new] using hn)
  have hlen : (HypercubeIterator.new n).current.length = n := by simp [HypercubeIterator.new]
  rw [hlen] at hfull
  refine ⟨l, hfull, ?_⟩
  have hl : l.length = 2 ^ n := by
    have := congrArg List.length hfull.2
    simpa using this
  change Enumerates _ _ (HypercubeIterator.new n) l at henum
  unfold completeMaximize
  refine Alg.Within.get_bind ?_
  have hs : (newState (K := K) n ()).solution.1.length = n := by simp [newState]
  rw [hs]
  cases henum with
  | done h =>
    have := Nat.two_pow_pos n
    simp only [List.length_nil] at hl
    omega
  | @step _ it' x l h hnext henum =>
    refine Alg.Within.lift_bind h ?_
    simp only [if_true]
    refine Alg.Within.lift_bind hnext ?_
    refine (Alg.Within.bind (c := 0) (d := 0) (P := fun _ t => t.calls = [(x, val x)] ∧ BestOf t.calls t.solution) ?_ ?_)
    · unfold setSolutionEval
      refine evaluate_within henv (hfull.1 x (by simp)) ?_ ⟨⟨[], List.nil_prefix, rfl⟩, .inl rfl⟩
      exact Alg.Within.modify ⟨rfl, by simp [newState], by simp [newState]⟩
    · rintro _ t ⟨ht, hb⟩
      refine (completeLoop_within henv henum fuel t (by simp at hl; omega) (fun y hy => hfull.1 y (by simp [hy])) hb).mono
        (le_refl _) ?_ ?_
      · rintro _ u ⟨hu, hbu⟩
        exact ⟨by rw [hu, ht]; simp, hbu⟩
      · rintro u ⟨⟨l', hp, hu⟩, hbu⟩
        exact ⟨⟨x :: l', List.cons_prefix_cons.mpr ⟨rfl, hp⟩, by rw [hu, ht]; simp⟩, .inr hbu⟩

end

end Hnco
