import Verif.Algorithm.Counts
import Verif.Algorithm.LocalSearch
import Verif.Algorithm.ItEa
import Verif.Algorithm.LambdaLambda
import Verif.Algorithm.Mimic
import Verif.Algorithm.RamUmda
import Verif.Algorithm.EvolutionaryProps
import Verif.Walsh.Model

/-!
# The number of evaluations of a run

Property C84.
-/

namespace Hnco

open Outcome

variable {K σ : Type}

/-! ## Specification -/

/-- The runs with `k > 0` iterations: `first + k * each` evaluations, or fewer if the run is interrupted by an exception.
Without a number of iterations, a run can only be ended by an exception. -/
def Evaluations (maximize : Int → Alg (AlgState K σ) Unit) (s : AlgState K σ) (first each : Nat) : Prop :=
  (∀ k : Nat, 0 < k → ∀ ds r t rest, maximize k s ds = .ok (r, t) rest →
    t.calls.length ≤ s.calls.length + (first + k * each) ∧
    (r = .ok () → t.calls.length = s.calls.length + (first + k * each))) ∧
  ∀ k : Int, k ≤ 0 → ∀ ds r t rest, maximize k s ds = .ok (r, t) rest → r ≠ .ok ()

/-- The same, when the number of evaluations of an iteration is between `lo` and `hi`. -/
def EvaluationsBetween (maximize : Int → Alg (AlgState K σ) Unit) (s : AlgState K σ) (first lo hi : Nat) : Prop :=
  (∀ k : Nat, 0 < k → ∀ ds r t rest, maximize k s ds = .ok (r, t) rest →
    t.calls.length ≤ s.calls.length + (first + k * hi) ∧
    (r = .ok () → s.calls.length + (first + k * lo) ≤ t.calls.length)) ∧
  ∀ k : Int, k ≤ 0 → ∀ ds r t rest, maximize k s ds = .ok (r, t) rest → r ≠ .ok ()

/-! ## Lemmas -/

theorem Evaluations.of_counts {φ : σ → Prop} {init iterate : Alg (AlgState K σ) Unit} {first each fuel : Nat}
    {s : AlgState K σ} (h0 : Alg.Counts True φ first first init) (h : Alg.Counts True φ each each iterate)
    (hs : φ s.data) : Evaluations (fun k => algLoop init iterate k fuel) s first each := by
  refine ⟨fun k hk ds r t rest e => ?_, fun k hk ds r t rest e => ?_⟩
  · obtain ⟨h1, h2⟩ := algLoop_counts h0 h hk hs e
    refine ⟨h1, fun hr => ?_⟩
    have := h2 () hr trivial
    simp only at h1 this
    omega
  · exact algLoop_endless h0 h hk hs e trivial ()

theorem EvaluationsBetween.of_counts {φ : σ → Prop} {init iterate : Alg (AlgState K σ) Unit}
    {first lo hi fuel : Nat} {s : AlgState K σ} (h0 : Alg.Counts True φ first first init)
    (h : Alg.Counts True φ lo hi iterate) (hs : φ s.data) :
    EvaluationsBetween (fun k => algLoop init iterate k fuel) s first lo hi := by
  refine ⟨fun k hk ds r t rest e => ?_, fun k hk ds r t rest e => ?_⟩
  · obtain ⟨h1, h2⟩ := algLoop_counts h0 h hk hs e
    exact ⟨h1, fun hr => h2 () hr trivial⟩
  · exact algLoop_endless h0 h hk hs e trivial ()

/-- A change of the data which keeps `φ`. -/
theorem Alg.Counts.data {keep : Prop} {φ : σ → Prop} {g : AlgState K σ → AlgState K σ}
    (h1 : ∀ s, φ s.data → φ (g s).data) (h2 : ∀ s, (g s).calls = s.calls := by intro s; rfl)
    (h3 : ∀ s, (g s).lastIteration = s.lastIteration := by intro s; rfl) :
    Alg.Counts keep φ 0 0 (Alg.modify g) := Alg.Counts.modify h1 h2 (fun _ => h3)

theorem Alg.Counts.data_bind {α : Type} {keep : Prop} {φ : σ → Prop} {lo hi : Nat} {g : AlgState K σ → AlgState K σ}
    {f : Unit → Alg (AlgState K σ) α} (h1 : ∀ s, φ s.data → φ (g s).data) (hf : ∀ a, Alg.Counts keep φ lo hi (f a))
    (h2 : ∀ s, (g s).calls = s.calls := by intro s; rfl)
    (h3 : ∀ s, (g s).lastIteration = s.lastIteration := by intro s; rfl) :
    Alg.Counts keep φ lo hi (Alg.modify g >>= f) := (Alg.Counts.modify h1 h2 (fun _ => h3)).step hf

section
variable {keep : Prop} {φ : σ → Prop}

theorem initSolution_counts {env : Env K} {p : StartParams} :
    Alg.Counts keep φ 1 1 (initSolution env p : Alg (AlgState K σ) Unit) := by
  unfold initSolution
  exact Alg.Counts.ite (fun _ => Alg.Counts.randomSolution) (fun _ => Alg.Counts.setSolutionEval)

end

/-! ## Random search and local search -/

/-- C84: random search makes one evaluation, and one more per iteration. -/
theorem randomSearch_evaluations [LT K] [DecidableLT K] (env : Env K) (s : AlgState K BV) (fuel : Nat) :
    Evaluations (fun k => randomSearchMaximize env k fuel) s 1 1 := by
  refine Evaluations.of_counts (φ := fun _ => True) Alg.Counts.randomSolution ?_ trivial
  unfold randomSearchIterate
  exact Alg.Counts.get_bind (fun s _ => Alg.Counts.sim_bind Sim.Yields.trivial (fun x _ =>
    Alg.Counts.data_bind (fun _ _ => trivial) (fun _ => Alg.Counts.updateSolutionEval)))

/-- C84: a random walk makes one evaluation, and one more per iteration, incremental or not. -/
theorem randomWalk_evaluations [LT K] [DecidableLT K] (env : Env K) (p : StartParams) (sampler : Sampler)
    (incremental : Bool) (s : AlgState K (WalkData K)) (fuel : Nat) :
    Evaluations (fun k => walkMaximize env p sampler incremental k fuel) s 1 1 := by
  refine Evaluations.of_counts (φ := fun _ => True)
    (initSolution_counts.last (fun _ => Alg.Counts.data (fun _ _ => trivial))) ?_ trivial
  unfold walkIterate
  refine Alg.Counts.ite (fun _ => ?_) (fun _ => ?_)
  · unfold walkIterateIncremental
    exact Alg.Counts.get_bind (fun s _ => Alg.Counts.sim_bind Sim.Yields.trivial (fun x _ =>
      Alg.Counts.data_bind (fun _ _ => trivial) (fun _ => Alg.Counts.lift_bind (fun _ _ =>
        Alg.Counts.evaluateIncrementally.last (fun _ => Alg.Counts.data_bind (fun _ _ => trivial) (fun _ =>
          Alg.Counts.lift_bind (fun _ _ => Alg.Counts.data_bind (fun _ _ => trivial) (fun _ =>
            Alg.Counts.updateSolution))))))))
  · unfold walkIterateFull
    exact Alg.Counts.get_bind (fun s _ => Alg.Counts.sim_bind Sim.Yields.trivial (fun x _ =>
      Alg.Counts.data_bind (fun _ _ => trivial) (fun _ =>
        Alg.Counts.evaluate.last (fun _ => Alg.Counts.data_bind (fun _ _ => trivial) (fun _ =>
          Alg.Counts.lift_bind (fun _ _ => Alg.Counts.data_bind (fun _ _ => trivial) (fun _ =>
            Alg.Counts.updateSolution)))))))

theorem rlsIterate_counts (env : Env K) (p : RlsParams K) :
    Alg.Counts (p.patience ≤ 0) (fun _ : RlsData => True) 1 1 (rlsIterate env p) := by
  have hd : ∀ value, Alg.Counts (p.patience ≤ 0) (fun _ : RlsData => True) 0 0 (rlsDecide p value) := by
    intro value
    unfold rlsDecide
    refine Alg.Counts.step ?_ (fun _ => Alg.Counts.modify (fun _ _ => trivial) ?_ ?_)
    · unfold rlsAccept
      exact Alg.Counts.get_bind (fun s _ => Alg.Counts.ite
        (fun _ => Alg.Counts.lift_bind (fun _ _ => Alg.Counts.data (fun _ _ => trivial)))
        (fun _ => Alg.Counts.lift_bind (fun _ _ => Alg.Counts.data (fun _ _ => trivial))))
    · intro s
      split <;> rfl
    · intro hp s
      rw [if_neg (by omega)]
  unfold rlsIterate
  refine Alg.Counts.ite (fun _ => ?_) (fun _ => ?_)
  · unfold rlsIterateIncremental
    exact Alg.Counts.get_bind (fun s _ => Alg.Counts.sim_bind Sim.Yields.trivial (fun x _ =>
      Alg.Counts.data_bind (fun _ _ => trivial) (fun _ => Alg.Counts.evaluateIncrementally.last hd)))
  · unfold rlsIterateFull
    exact Alg.Counts.get_bind (fun s _ => Alg.Counts.sim_bind Sim.Yields.trivial (fun x _ =>
      Alg.Counts.data_bind (fun _ _ => trivial) (fun _ => Alg.Counts.evaluate.last hd)))

theorem rlsInit_counts {keep : Prop} (env : Env K) (p : RlsParams K) :
    Alg.Counts keep (fun _ : RlsData => True) 1 1 (rlsInit env p) :=
  initSolution_counts.last (fun _ => Alg.Counts.data (fun _ _ => trivial))

theorem Alg.Counts.congr {α : Type} {keep keep' : Prop} {φ : σ → Prop} {lo hi : Nat} {m : Alg (AlgState K σ) α}
    (h : Alg.Counts keep φ lo hi m) (hk : keep' → keep) : Alg.Counts keep' φ lo hi m := by
  intro s ds r rest hs e
  obtain ⟨h1, h2⟩ := h s ds r rest hs e
  exact ⟨h1, fun a ea => ⟨(h2 a ea).1, (h2 a ea).2.1, fun hk' => (h2 a ea).2.2 (hk hk')⟩⟩

/-- C84: random local search without patience makes one evaluation, and one more per iteration. -/
theorem randomLocalSearch_evaluations (env : Env K) (p : RlsParams K) (hp : p.patience ≤ 0)
    (s : AlgState K RlsData) (fuel : Nat) : Evaluations (fun k => rlsMaximize env p k fuel) s 1 1 :=
  Evaluations.of_counts (φ := fun _ => True) (rlsInit_counts env p)
    ((rlsIterate_counts env p).congr (fun _ => hp)) trivial

/-- C84: random local search with patience makes at most one evaluation, and one more per iteration. -/
theorem randomLocalSearch_evaluations_le (env : Env K) (p : RlsParams K) (s : AlgState K RlsData) {k : Nat} (hk : 0 < k)
    (fuel : Nat) {ds rest : List Nat} {r : Except Exn Unit} {t : AlgState K RlsData}
    (h : rlsMaximize env p k fuel s ds = .ok (r, t) rest) : t.calls.length ≤ s.calls.length + (1 + k * 1) :=
  (algLoop_counts (φ := fun _ => True) (rlsInit_counts env p) (rlsIterate_counts env p) hk trivial h).1

/-- C84: the (1+1) EA makes one evaluation, and one more per iteration. -/
theorem onePlusOneEa_evaluations [LE K] [DecidableLE K] (env : Env K) (q : OnePlusOneParams) (old : StandardParams)
    (start : StartParams) (s : AlgState K RlsData) (fuel : Nat) :
    Evaluations (fun k => onePlusOneMaximize env { q with numIterations := k } old start fuel) s 1 1 :=
  randomLocalSearch_evaluations env (onePlusOneParams q old start) (le_refl _) s fuel

theorem annealingIterate_counts [LT K] [DecidableLT K] [LE K] [DecidableLE K] (env : Env K) (k : Sampler)
    (numTransitions : Nat) :
    Alg.Counts True (fun _ : AnnealingData K => True) 1 1 (annealingIterate env k numTransitions) := by
  unfold annealingIterate
  refine Alg.Counts.get_bind (fun s _ => Alg.Counts.sim_bind Sim.Yields.trivial (fun x _ =>
    Alg.Counts.data_bind (fun _ _ => trivial) (fun _ => Alg.Counts.evaluate.last (fun v =>
      Alg.Counts.step ?_ (fun _ => Alg.Counts.data (fun _ _ => trivial) ?_ ?_)))))
  · unfold annealingAccept
    exact Alg.Counts.get_bind (fun s _ => Alg.Counts.ite
      (fun _ => Alg.Counts.lift_bind (fun _ _ => Alg.Counts.data_bind (fun _ _ => trivial) (fun _ =>
        Alg.Counts.updateSolution)))
      (fun _ => Alg.Counts.sim_bind Sim.Yields.trivial (fun b _ => Alg.Counts.ite
        (fun _ => Alg.Counts.lift_bind (fun _ _ => Alg.Counts.data (fun _ _ => trivial)))
        (fun _ => Alg.Counts.lift_bind (fun _ _ => Alg.Counts.data (fun _ _ => trivial))))))
  · intro s
    split <;> rfl
  · intro s
    split <;> rfl

theorem annealingInit_counts [LT K] [DecidableLT K] (env : Env K) (p : StartParams) (k : Sampler) (numTrials : Nat) :
    Alg.Counts True (fun _ : AnnealingData K => True) (1 + 2 * numTrials) (1 + 2 * numTrials)
      (annealingInit env p k numTrials) := by
  unfold annealingInit
  refine initSolution_counts.bind (fun _ => Alg.Counts.last ?_ (fun _ => Alg.Counts.data (fun _ _ => trivial)))
  unfold annealingInitBeta
  refine Alg.Counts.get_bind (fun s _ => ?_)
  rw [Nat.mul_comm]
  refine Alg.Counts.forRange (fun _ => ?_) numTrials
  refine Alg.Counts.sim_bind Sim.Yields.trivial (fun x _ => Alg.Counts.evaluate_bind (lo := 1) (hi := 1) (fun v =>
    Alg.Counts.updateSolution.step (fun _ => Alg.Counts.data_bind (fun _ _ => trivial) (fun _ =>
      Alg.Counts.get_bind (fun s _ => Alg.Counts.sim_bind Sim.Yields.trivial (fun y _ =>
        Alg.Counts.data_bind (fun _ _ => trivial) (fun _ => Alg.Counts.evaluate.last (fun w =>
          Alg.Counts.updateSolution.step (fun _ => Alg.Counts.lift_bind (fun _ _ =>
            Alg.Counts.data (fun _ _ => trivial)))))))))))

/-- C84: simulated annealing makes one evaluation, two per trial, and one per iteration. -/
theorem simulatedAnnealing_evaluations [LT K] [DecidableLT K] [LE K] [DecidableLE K] (env : Env K) (p : StartParams)
    (sampler : Sampler) (numTrials numTransitions : Nat) (s : AlgState K (AnnealingData K)) (fuel : Nat) :
    Evaluations (fun k => annealingMaximize env p sampler numTrials numTransitions k fuel) s (1 + 2 * numTrials) 1 :=
  Evaluations.of_counts (φ := fun _ => True) (annealingInit_counts env p sampler numTrials)
    (annealingIterate_counts env sampler numTransitions) trivial

/-- C84: the self-adjusting (1+1) EA makes one evaluation, and one more per iteration, incremental or not. -/
theorem selfAdjusting_evaluations [LE K] [DecidableLE K] (env : Env K) (q : SelfAdjustingParams)
    (s : AlgState K SelfAdjustingData) (fuel : Nat) :
    Evaluations (fun k => selfAdjustingMaximize env q k fuel) s 1 1 := by
  refine Evaluations.of_counts (φ := fun _ => True) ?_ ?_ trivial
  · unfold selfAdjustingInit
    exact Alg.Counts.data_bind (fun _ _ => trivial) (fun _ => Alg.Counts.randomSolution.last (fun _ =>
      Alg.Counts.data (fun _ _ => trivial)))
  · have hp : Alg.Counts True (fun _ : SelfAdjustingData => True) 0 0
        (selfAdjustingPropose : Alg (AlgState K SelfAdjustingData) Unit) :=
      Alg.Counts.get_bind (fun s _ => Alg.Counts.sim_bind Sim.Yields.trivial (fun x _ =>
        Alg.Counts.data (fun _ _ => trivial)))
    have hd : ∀ v : K, Alg.Counts True (fun _ : SelfAdjustingData => True) 0 0 (selfAdjustingDecide q v) := by
      intro v
      unfold selfAdjustingDecide
      exact Alg.Counts.get_bind (fun s _ => Alg.Counts.ite
        (fun _ => Alg.Counts.lift_bind (fun _ _ => Alg.Counts.data (fun _ _ => trivial)))
        (fun _ => Alg.Counts.lift_bind (fun _ _ => Alg.Counts.data (fun _ _ => trivial))))
    unfold selfAdjustingIterate
    refine Alg.Counts.ite (fun _ => ?_) (fun _ => ?_)
    · exact hp.step (fun _ => Alg.Counts.get_bind (fun s _ => Alg.Counts.evaluateIncrementally.last hd))
    · exact hp.step (fun _ => Alg.Counts.get_bind (fun s _ => Alg.Counts.evaluate.last hd))

/-! ## Evolutionary algorithms -/

/-- The sizes of parents and offsprings. -/
def EaSizes {τ : Type} (mu lam : Nat) (d : EaData K τ) : Prop :=
  d.parents.bvs.length = mu ∧ d.offsprings.bvs.length = lam

theorem parentsLens_keeps {τ : Type} {mu lam : Nat} : (parentsLens K τ).Keeps (EaSizes mu lam) :=
  fun _ _ h hp => ⟨hp.trans h.1, h.2⟩

theorem offspringsLens_keeps {τ : Type} {mu lam : Nat} : (offspringsLens K τ).Keeps (EaSizes mu lam) :=
  fun _ _ h hp => ⟨h.1, hp.trans h.2⟩

theorem takeBest_sizes {i : Nat} {s t : Pop K × Pop K} (h : takeBest i s = ok t) :
    t.1.bvs.length = s.1.bvs.length ∧ t.2.bvs.length = s.2.bvs.length := by
  unfold takeBest at h
  obtain ⟨_, _, h⟩ := bind_eq_ok.mp h
  obtain ⟨_, _, h⟩ := bind_eq_ok.mp h
  obtain ⟨_, _, h⟩ := bind_eq_ok.mp h
  obtain ⟨_, _, h⟩ := bind_eq_ok.mp h
  obtain ⟨bvs, hb, h⟩ := bind_eq_ok.mp h
  obtain ⟨pool, hp, h⟩ := bind_eq_ok.mp h
  cases h
  refine ⟨vset_ok_length hb, ?_⟩
  unfold Pop.setBestBv at hp
  obtain ⟨_, _, hp⟩ := bind_eq_ok.mp hp
  obtain ⟨_, _, hp⟩ := bind_eq_ok.mp hp
  obtain ⟨_, hb, hp⟩ := bind_eq_ok.mp hp
  cases hp
  exact vset_ok_length hb

theorem takeBest_loop_sizes {k : Nat} {s t : Pop K × Pop K} (h : forRange 0 k takeBest s = ok t) :
    t.1.bvs.length = s.1.bvs.length ∧ t.2.bvs.length = s.2.bvs.length :=
  forRange_ok (fun u : Pop K × Pop K => u.1.bvs.length = s.1.bvs.length ∧ u.2.bvs.length = s.2.bvs.length) ⟨rfl, rfl⟩ h
    (fun _ _ _ hu e => ⟨(takeBest_sizes e).1.trans hu.1, (takeBest_sizes e).2.trans hu.2⟩)

theorem partialSort_sizes [LT K] [DecidableLT K] (k : Nat) (p : Pop K) :
    Sim.Yields (p.partialSort k) (fun q => q.bvs.length = p.bvs.length) :=
  Sim.Yields.skip (fun _ => Sim.Yields.skip (fun _ => Sim.Yields.skip (fun _ => Sim.Yields.skip (fun _ =>
    Sim.Yields.pure rfl))))

theorem commaSelect_sizes [LT K] [DecidableLT K] (parents offsprings : Pop K) :
    Sim.Yields (commaSelect parents offsprings)
      (fun r => r.1.bvs.length = parents.bvs.length ∧ r.2.bvs.length = offsprings.bvs.length) :=
  (partialSort_sizes _ _).bind (fun p hp => Sim.Yields.lift_bind (fun r hr => Sim.Yields.pure
    ⟨(takeBest_loop_sizes hr).1, (takeBest_loop_sizes hr).2.trans hp⟩))

theorem fillPool_loop_sizes {o k : Nat} {s t : Pop K × Pop K} (h : forRange 0 k (fillPool o) s = ok t) :
    t.1.bvs.length = s.1.bvs.length ∧ t.2.bvs.length = s.2.bvs.length := by
  refine forRange_ok (fun u : Pop K × Pop K => u.1.bvs.length = s.1.bvs.length ∧ u.2.bvs.length = s.2.bvs.length)
    ⟨rfl, rfl⟩ h ?_
  intro i u v hu e
  unfold fillPool at e
  obtain ⟨_, _, e⟩ := bind_eq_ok.mp e
  obtain ⟨_, _, e⟩ := bind_eq_ok.mp e
  obtain ⟨_, _, e⟩ := bind_eq_ok.mp e
  obtain ⟨_, _, e⟩ := bind_eq_ok.mp e
  obtain ⟨_, h1, e⟩ := bind_eq_ok.mp e
  obtain ⟨_, h2, e⟩ := bind_eq_ok.mp e
  cases e
  exact ⟨(vset_ok_length h2).trans hu.1, (vset_ok_length h1).trans hu.2⟩

theorem plusSelect_sizes [LT K] [DecidableLT K] (parents offsprings pool : Pop K) :
    Sim.Yields (plusSelect parents offsprings pool)
      (fun r => r.1.bvs.length = parents.bvs.length ∧ r.2.1.bvs.length = offsprings.bvs.length) :=
  Sim.Yields.lift_bind (fun _ hs => Sim.Yields.lift_bind (fun _ ht => Sim.Yields.skip (fun _ =>
    Sim.Yields.lift_bind (fun _ hu => Sim.Yields.pure
      ⟨(takeBest_loop_sizes hu).1.trans (fillPool_loop_sizes hs).1, (fillPool_loop_sizes ht).1⟩))))

section
variable {τ : Type} {mu lam : Nat}

theorem setMutation_counts (q : MutationParams) :
    Alg.Counts True (EaSizes mu lam) 0 0 (setMutation q : Alg (AlgState K (EaData K τ)) Unit) :=
  Alg.Counts.data (fun _ h => h)

theorem makeOffsprings_counts :
    Alg.Counts True (EaSizes mu lam) 0 0 (makeOffsprings : Alg (AlgState K (EaData K τ)) Unit) := by
  unfold makeOffsprings
  refine Alg.Counts.get_bind (fun s hs => Alg.Counts.sim_bind
    (P := fun r => r.2.bvs.length = lam) (Sim.Yields.forRange _ hs.2 ?_)
    (fun r hr => Alg.Counts.data (fun _ h => ⟨h.1, hr⟩)))
  intro i u hu
  exact Sim.Yields.skip (fun _ => Sim.Yields.skip (fun _ => Sim.Yields.lift_bind (fun _ h1 => Sim.Yields.skip (fun _ =>
    Sim.Yields.lift_bind (fun _ h2 => Sim.Yields.pure
      (((vset_ok_length h2).trans (vset_ok_length h1)).trans hu))))))

theorem applyComma_counts [LT K] [DecidableLT K] :
    Alg.Counts True (EaSizes mu lam) 0 0 (applyComma : Alg (AlgState K (EaData K τ)) Unit) :=
  Alg.Counts.get_bind (fun _ hs => Alg.Counts.sim_bind (commaSelect_sizes _ _) (fun _ hr =>
    Alg.Counts.data (fun _ _ => ⟨hr.1.trans hs.1, hr.2.trans hs.2⟩)))

theorem applyPlus_counts [LT K] [DecidableLT K] :
    Alg.Counts True (EaSizes mu lam) 0 0 (applyPlus : Alg (AlgState K (EaData K (Pop K))) Unit) :=
  Alg.Counts.get_bind (fun _ hs => Alg.Counts.sim_bind (plusSelect_sizes _ _ _) (fun _ hr =>
    Alg.Counts.data (fun _ _ => ⟨hr.1.trans hs.1, hr.2.trans hs.2⟩)))

end

/-- C84: the (mu, lambda) EA makes one evaluation, and `lambda` per iteration. -/
theorem muCommaLambda_evaluations [LT K] [DecidableLT K] (env : Env K) (q : MutationParams) {mu lam : Nat}
    {s : AlgState K (EaData K Unit)} (hmu : s.data.parents.bvs.length = mu) (hlam : s.data.offsprings.bvs.length = lam)
    (fuel : Nat) : Evaluations (fun k => muCommaMaximize env q k fuel) s 1 lam := by
  refine Evaluations.of_counts (φ := EaSizes mu lam) ?_ ?_ ⟨hmu, hlam⟩
  · exact (setMutation_counts q).step (fun _ => (popRandom_counts parentsLens_keeps (fun _ h => h.1)).step (fun _ =>
      Alg.Counts.randomSolution))
  · exact makeOffsprings_counts.step (fun _ => (popEvaluate_counts offspringsLens_keeps (fun _ h => h.2)).last (fun _ =>
      applyComma_counts.step (fun _ => popUpdateSolution_counts)))

/-- C84: the (mu + lambda) EA makes `mu` evaluations, and `lambda` per iteration. -/
theorem muPlusLambda_evaluations [LT K] [DecidableLT K] (env : Env K) (q : MutationParams) {mu lam : Nat}
    {s : AlgState K (EaData K (Pop K))} (hmu : s.data.parents.bvs.length = mu)
    (hlam : s.data.offsprings.bvs.length = lam) (fuel : Nat) :
    Evaluations (fun k => muPlusMaximize env q k fuel) s mu lam := by
  refine Evaluations.of_counts (φ := EaSizes mu lam) ?_ ?_ ⟨hmu, hlam⟩
  · exact (setMutation_counts q).step (fun _ => (popRandom_counts parentsLens_keeps (fun _ h => h.1)).step (fun _ =>
      (popEvaluate_counts parentsLens_keeps (fun _ h => h.1)).last (fun _ =>
        (popSort_counts parentsLens_keeps (fun _ h => h.1)).step (fun _ => popSetSolution_counts))))
  · exact makeOffsprings_counts.step (fun _ => (popEvaluate_counts offspringsLens_keeps (fun _ h => h.2)).last (fun _ =>
      applyPlus_counts.step (fun _ => popUpdateSolution_counts)))

/-- C84: the genetic algorithm makes `mu` evaluations, and `mu` per iteration. -/
theorem geneticAlgorithm_evaluations [LT K] [DecidableLT K] (env : Env K) (q : GaParams) {mu : Nat}
    {s : AlgState K (EaData K Tournament)} (hmu : s.data.parents.bvs.length = mu)
    (hlam : s.data.offsprings.bvs.length = mu) (fuel : Nat) :
    Evaluations (fun k => gaMaximize env q k fuel) s mu mu := by
  refine Evaluations.of_counts (φ := EaSizes mu mu) ?_ ?_ ⟨hmu, hlam⟩
  · refine Alg.Counts.step ?_ (fun _ => (setMutation_counts q.toMutationParams).step (fun _ =>
      (popRandom_counts parentsLens_keeps (fun _ h => h.1)).step (fun _ =>
      (popEvaluate_counts parentsLens_keeps (fun _ h => h.1)).last (fun _ =>
        (popSort_counts parentsLens_keeps (fun _ h => h.1)).step (fun _ => popSetSolution_counts)))))
    exact Alg.Counts.get_bind (fun s _ => Alg.Counts.lift_bind (fun _ _ => Alg.Counts.sim_bind Sim.Yields.trivial
      (fun _ _ => Alg.Counts.data (fun _ h => h))))
  · refine Alg.Counts.step ?_ (fun _ => (popEvaluate_counts offspringsLens_keeps (fun _ h => h.2)).last (fun _ =>
      applyComma_counts.step (fun _ => popUpdateSolution_counts)))
    unfold gaOffsprings
    refine Alg.Counts.get_bind (fun s hs => Alg.Counts.sim_bind
      (P := fun r => r.2.2.bvs.length = mu) (Sim.Yields.forRange _ hs.2 ?_)
      (fun r hr => Alg.Counts.data (fun _ h => ⟨h.1, hr⟩)))
    intro i u hu
    exact Sim.Yields.skip (fun _ => Sim.Yields.skip (fun _ => Sim.Yields.skip (fun _ =>
      Sim.Yields.lift_bind (fun _ h2 => Sim.Yields.pure ((vset_ok_length h2).trans hu)))))

theorem mapOffspring_sizes {lam : Nat} (params : StandardParams) (x : BV) (i : Nat) (u : Nbh × Pop K)
    (hu : u.2.bvs.length = lam) : Sim.Yields (mapOffspring params x i u) (fun r => r.2.bvs.length = lam) :=
  Sim.Yields.skip (fun _ => Sim.Yields.skip (fun _ => Sim.Yields.lift_bind (fun _ h2 =>
    Sim.Yields.pure ((vset_ok_length h2).trans hu))))

/-- C84: the two-rate (1 + lambda) EA makes one evaluation, and `lambda` per iteration. -/
theorem twoRate_evaluations [LT K] [DecidableLT K] (env : Env K) (q : TwoRateParams) {lam : Nat}
    {s : AlgState K (TwoRateData K)} (hlam : s.data.population.bvs.length = lam) (fuel : Nat) :
    Evaluations (fun k => twoRateMaximize env q k fuel) s 1 lam := by
  have hL : (twoRateLens K).Keeps (fun d => d.population.bvs.length = lam) := fun _ _ h hp => hp.trans h
  refine Evaluations.of_counts (φ := fun d => d.population.bvs.length = lam) ?_ ?_ hlam
  · exact Alg.Counts.randomSolution.last (fun _ => Alg.Counts.data (fun _ h => h))
  · refine Alg.Counts.step ?_ (fun _ => popGeneration_counts hL (fun _ h => h) ?_)
    · exact Alg.Counts.get_bind (fun s hs => Alg.Counts.sim_bind
        (Sim.Yields.forRange (fun r => r.2.bvs.length = lam) hs (mapOffspring_sizes _ _)) (fun r hr =>
        Alg.Counts.sim_bind (Sim.Yields.forRange (fun r => r.2.bvs.length = lam) hr (mapOffspring_sizes _ _))
          (fun r hr => Alg.Counts.data (fun _ _ => hr))))
    · exact Alg.Counts.get_bind (fun s _ => Alg.Counts.sim_bind Sim.Yields.trivial (fun _ _ =>
        Alg.Counts.lift_bind (fun _ _ => Alg.Counts.lift_bind (fun _ _ => Alg.Counts.data (fun _ h => h)))))

/-- C84: the (1 + (lambda, lambda)) GA makes one evaluation, and two times `lambda` per iteration. -/
theorem lambda_evaluations [DecidableEq K] [LT K] [DecidableLT K] [LE K] [DecidableLE K] (env : Env K) (bias : Rat)
    {lam : Nat} {s : AlgState K (LambdaData K)} (hlam : s.data.offsprings.bvs.length = lam) (fuel : Nat) :
    Evaluations (fun k => lambdaMaximize env bias k fuel) s 1 (2 * lam) := by
  have hL : (lambdaLens K).Keeps (fun d => d.offsprings.bvs.length = lam) := fun _ _ h hp => hp.trans h
  refine Evaluations.of_counts (φ := fun d => d.offsprings.bvs.length = lam) ?_ ?_ hlam
  · exact Alg.Counts.lift_bind (fun _ _ => Alg.Counts.randomSolution)
  · rw [Nat.two_mul]
    refine Alg.Counts.step ?_ (fun _ => (popEvaluate_counts hL (fun _ h => h)).bind (fun _ =>
      (popSort_counts hL (fun _ h => h)).step (fun _ => Alg.Counts.step ?_ (fun _ => Alg.Counts.step ?_ (fun _ =>
        (popEvaluate_counts hL (fun _ h => h)).last (fun _ => (popSort_counts hL (fun _ h => h)).step (fun _ => ?_)))))))
    · refine Alg.Counts.get_bind (fun s hs => Alg.Counts.sim_bind Sim.Yields.trivial (fun _ _ => Alg.Counts.sim_bind
        (Sim.Yields.forRange (fun r => r.2.bvs.length = lam) hs ?_) (fun r hr => Alg.Counts.data (fun _ _ => hr))))
      intro i u hu
      exact Sim.Yields.skip (fun _ => Sim.Yields.skip (fun _ => Sim.Yields.lift_bind (fun _ h2 =>
        Sim.Yields.pure ((vset_ok_length h2).trans hu))))
    · exact Alg.Counts.get_bind (fun s _ => Alg.Counts.lift_bind (fun _ _ => Alg.Counts.sim_bind Sim.Yields.trivial
        (fun _ _ => Alg.Counts.data (fun _ h => h))))
    · refine Alg.Counts.get_bind (fun s hs => Alg.Counts.sim_bind
        (Sim.Yields.forRange (fun r => r.bvs.length = lam) hs ?_) (fun r hr => Alg.Counts.data (fun _ _ => hr)))
      intro i u hu
      exact Sim.Yields.skip (fun _ => Sim.Yields.skip (fun _ => Sim.Yields.lift_bind (fun _ h2 =>
        Sim.Yields.pure ((vset_ok_length h2).trans hu))))
    · exact Alg.Counts.get_bind (fun s _ => Alg.Counts.lift_bind (fun _ _ => Alg.Counts.ite
        (fun _ => Alg.Counts.sim_bind Sim.Yields.trivial (fun _ _ => Alg.Counts.data (fun _ h => h)))
        (fun _ => Alg.Counts.pure)))

/-! ### Information theoretic EA -/

section
variable {lam : Nat}

theorem evaluateCenter_counts [LT K] [DecidableLT K] (env : Env K) :
    Alg.Counts True (fun d : ItData K => d.population.bvs.length = lam) 1 1 (evaluateCenter env) :=
  Alg.Counts.get_bind (fun _ _ => Alg.Counts.evaluate_bind (fun _ => Alg.Counts.data_bind (fun _ h => h) (fun _ =>
    Alg.Counts.updateSolution)))

theorem bestCenter_counts :
    Alg.Counts True (fun d : ItData K => d.population.bvs.length = lam) 0 0 bestCenter :=
  Alg.Counts.get_bind (fun _ _ => Alg.Counts.lift_bind (fun _ _ => Alg.Counts.lift_bind (fun _ _ =>
    Alg.Counts.data (fun _ h => h))))

theorem itReplace_counts [LT K] [DecidableLT K] [LE K] [DecidableLE K] (env : Env K) (q : ItParams) (t : Ties) :
    Alg.Counts True (fun d : ItData K => d.population.bvs.length = lam) (if q.replacement = 2 then 1 else 0)
      (if q.replacement = 2 ∨ q.replacement = 3 then 1 else 0) (itReplace env q t) := by
  have key : ∀ m, q.replacement = m → Alg.Counts True (fun d : ItData K => d.population.bvs.length = lam)
      (if m = 2 then 1 else 0) (if m = 2 ∨ m = 3 then 1 else 0) (itReplace env q t) := by
    intro m hm
    unfold itReplace
    rw [hm]
    match m with
    | 0 =>
      exact Alg.Counts.get_bind (fun _ _ => Alg.Counts.lift_bind (fun _ _ => Alg.Counts.ite (fun _ => bestCenter_counts)
        (fun _ => Alg.Counts.pure)))
    | 1 => exact bestCenter_counts
    | 2 =>
      exact Alg.Counts.get_bind (fun _ _ => Alg.Counts.lift_bind (fun _ _ => Alg.Counts.sim_bind Sim.Yields.trivial
        (fun _ _ => Alg.Counts.data_bind (fun _ h => h) (fun _ => evaluateCenter_counts env))))
    | 3 =>
      have hf : ∀ i, Alg.Counts True (fun d : ItData K => d.population.bvs.length = lam) 0 1 (flipCenter env i) := by
        intro i
        refine Alg.Counts.mono (lo := 1) (hi := 1) ?_ (by omega) (by omega)
        exact Alg.Counts.get_bind (fun _ _ => Alg.Counts.lift_bind (fun _ _ =>
          Alg.Counts.data_bind (fun _ h => h) (fun _ => evaluateCenter_counts env)))
      have hp : Alg.Counts True (fun d : ItData K => d.population.bvs.length = lam) 0 1
          (pure () : Alg (AlgState K (ItData K)) Unit) := Alg.Counts.pure.mono (by omega) (by omega)
      refine Alg.Counts.get_bind (fun _ _ => Alg.Counts.lift_bind (fun _ _ => Alg.Counts.data_bind (fun _ h => h)
        (fun _ => Alg.Counts.sim_bind Sim.Yields.trivial (fun i _ => Alg.Counts.lift_bind (fun _ _ => ?_)))))
      exact Alg.Counts.ite (fun _ => hf i) (fun _ => Alg.Counts.ite (fun _ => Alg.Counts.sim_bind Sim.Yields.trivial
        (fun _ _ => Alg.Counts.ite (fun _ => hf i) (fun _ => hp))) (fun _ => hp))
    | 4 => exact Alg.Counts.pure
    | m + 5 =>
      rw [if_neg (by omega), if_neg (by omega)]
      exact Alg.Counts.lift
  exact key _ rfl

/-- C84: the information theoretic EA makes one evaluation and, per iteration, as many as the population has individuals,
and one more with maximum likelihood replacement, and at most one more with incremental maximum likelihood replacement. -/
theorem itEa_evaluations [DecidableEq K] [LT K] [DecidableLT K] [LE K] [DecidableLE K] (env : Env K) (q : ItParams)
    {s : AlgState K (ItData K)} (hlam : s.data.population.bvs.length = lam) (fuel : Nat) :
    EvaluationsBetween (fun k => itMaximize env q k fuel) s 1 (lam + if q.replacement = 2 then 1 else 0)
      (lam + if q.replacement = 2 ∨ q.replacement = 3 then 1 else 0) := by
  have hL : (itLens K).Keeps (fun d => d.population.bvs.length = lam) := fun _ _ h hp => hp.trans h
  refine EvaluationsBetween.of_counts (φ := fun d => d.population.bvs.length = lam) ?_ ?_ hlam
  · refine Alg.Counts.last ?_ (fun _ => Alg.Counts.data (fun _ h => h))
    unfold itFirst
    exact Alg.Counts.ite
      (fun _ => Alg.Counts.get_bind (fun s _ => Alg.Counts.sim_bind Sim.Yields.trivial (fun x _ =>
        Alg.Counts.data_bind (fun _ h => h) (fun _ => Alg.Counts.evaluate_bind (fun v =>
          Alg.Counts.data (fun _ h => h))))))
      (fun _ => Alg.Counts.randomSolution)
  · refine Alg.Counts.get_bind (fun s _ => Alg.Counts.lift_bind (fun _ _ => Alg.Counts.step ?_ (fun _ =>
      (popEvaluate_counts hL (fun _ h => h)).bind (fun _ => (popSort_counts hL (fun _ h => h)).step (fun _ =>
        popUpdateSolution_counts.step (fun _ => ?_))))))
    · exact Alg.Counts.get_bind (fun s hs => Alg.Counts.sim_bind
        (Sim.Yields.forRange (fun r => r.2.bvs.length = lam) hs (mapOffspring_sizes _ _)) (fun r hr =>
          Alg.Counts.data (fun _ _ => hr)))
    · exact Alg.Counts.get_bind (fun s _ => Alg.Counts.lift_bind (fun t _ => Alg.Counts.lift_bind (fun _ _ =>
        Alg.Counts.data_bind (fun _ h => h) (fun _ => (itReplace_counts env q t).last (fun _ =>
          Alg.Counts.get_bind (fun _ _ => Alg.Counts.lift_bind (fun _ _ => Alg.Counts.lift_bind (fun _ _ =>
            Alg.Counts.data (fun _ h => h)))))))))

end

/-! ## Estimation of distribution algorithms -/

section
variable {ρ : Type}

theorem pvStart_counts {φ : PvData ρ → Prop} (h : ∀ d pv, φ d → φ { d with pv := pv }) (env : Env K) :
    Alg.Counts True φ 1 1 (pvStart env) :=
  Alg.Counts.randomSolution.last (fun _ => Alg.Counts.data (fun _ hs => h _ _ hs))

theorem sample_sizes (sampler : BV → Sim BV) (p : Pop K) :
    Sim.Yields (p.sample sampler) (fun q => q.bvs.length = p.bvs.length) := by
  refine Sim.Yields.forRange (fun q : Pop K => q.bvs.length = p.bvs.length) rfl ?_
  intro i u hu
  exact Sim.Yields.skip (fun _ => Sim.Yields.skip (fun _ => Sim.Yields.lift_bind (fun _ h2 =>
    Sim.Yields.pure ((vset_ok_length h2).trans hu))))

theorem pvSamplePop_counts {φ : PvData ρ → Prop} {L : PopLens (PvData ρ) K} (hL : L.Keeps φ) {m : Nat}
    (hm : ∀ d, φ d → (L.get d).bvs.length = m) : Alg.Counts True φ 0 0 (pvSamplePop L) :=
  Alg.Counts.get_bind (fun s hs => Alg.Counts.sim_bind (sample_sizes _ _) (fun p hp =>
    Alg.Counts.data (fun t ht => hL _ _ ht (by rw [hp, hm _ hs, hm _ ht]))))

end

/-- C84: the compact GA makes one evaluation, and two per iteration; four if assertions are compiled. -/
theorem compactGa_evaluations [LT K] [DecidableLT K] [LE K] [DecidableLE K] (env : Env K) (q : CompactParams)
    (s : AlgState K (PvData (BV × BV))) (fuel : Nat) :
    Evaluations (fun k => compactMaximize env q k fuel) s 1 (if q.debug then 4 else 2) := by
  refine Evaluations.of_counts (φ := fun _ => True) (pvStart_counts (fun _ _ _ => trivial) env) ?_ trivial
  have hl : ∀ x y, Alg.Counts True (fun _ : PvData (BV × BV) => True) (if q.debug then 2 else 0)
      (if q.debug then 2 else 0) (compactLearn env q x y) := by
    intro x y
    refine Alg.Counts.last ?_ (fun _ => Alg.Counts.get_bind (fun s _ => Alg.Counts.lift_bind (fun _ _ =>
      Alg.Counts.lift_bind (fun _ _ => Alg.Counts.data (fun _ _ => trivial)))))
    unfold compactCheck
    cases q.debug with
    | true => exact Alg.Counts.evaluate_bind (fun _ => Alg.Counts.evaluate_bind (fun _ => Alg.Counts.lift))
    | false => exact Alg.Counts.pure
  have hc : (if q.debug = true then 4 else 2 : Nat) = (if q.debug = true then 2 else 0) + 1 + 1 := by split <;> rfl
  rw [hc]
  exact Alg.Counts.get_bind (fun s _ => Alg.Counts.sim_bind Sim.Yields.trivial (fun x _ => Alg.Counts.sim_bind
    Sim.Yields.trivial (fun y _ => Alg.Counts.data_bind (fun _ _ => trivial) (fun _ => Alg.Counts.evaluate_bind (fun v =>
      Alg.Counts.evaluate_bind (fun w => Alg.Counts.ite (fun _ => Alg.Counts.updateSolution.step (fun _ => hl _ _))
        (fun _ => Alg.Counts.updateSolution.step (fun _ => hl _ _))))))))

/-- C84: the max-min ant system makes one evaluation, and one more per iteration. -/
theorem mmas_evaluations (env : Env K) (q : MmasParams K) (s : AlgState K (PvData BV)) (fuel : Nat) :
    Evaluations (fun k => mmasMaximize env q k fuel) s 1 1 := by
  have hl : Alg.Counts True (fun _ : PvData BV => True) 0 0 (mmasLearn q.rate : Alg (AlgState K (PvData BV)) Unit) :=
    Alg.Counts.get_bind (fun s _ => Alg.Counts.lift_bind (fun _ _ => Alg.Counts.lift_bind (fun _ _ =>
      Alg.Counts.data (fun _ _ => trivial))))
  refine Evaluations.of_counts (φ := fun _ => True)
    ((pvStart_counts (fun _ _ _ => trivial) env).last (fun _ => hl)) ?_ trivial
  exact Alg.Counts.get_bind (fun s _ => Alg.Counts.sim_bind Sim.Yields.trivial (fun x _ =>
    Alg.Counts.data_bind (fun _ _ => trivial) (fun _ => Alg.Counts.evaluate_bind (fun v =>
      Alg.Counts.data_bind (fun _ _ => trivial) (fun _ => hl) (by intro s; split <;> rfl) (by intro s; split <;> rfl)))))

/-- C84: PBIL makes one evaluation, and as many as the population has individuals per iteration. -/
theorem pbil_evaluations [LT K] [DecidableLT K] (env : Env K) (q : PbilParams) {lam : Nat}
    {s : AlgState K (PvData (PbilRest K))} (hlam : s.data.rest.population.bvs.length = lam) (fuel : Nat) :
    Evaluations (fun k => pbilMaximize env q k fuel) s 1 lam := by
  have hL : (pbilLens K).Keeps (fun d => d.rest.population.bvs.length = lam) := fun _ _ h hp => hp.trans h
  refine Evaluations.of_counts (φ := fun d => d.rest.population.bvs.length = lam)
    (pvStart_counts (fun _ _ h => h) env) ?_ hlam
  refine (pvSamplePop_counts hL (fun _ h => h)).step (fun _ => popGeneration_counts hL (fun _ h => h) ?_)
  exact Alg.Counts.get_bind (fun s _ => Alg.Counts.lift_bind (fun _ _ => Alg.Counts.lift_bind (fun _ _ =>
    Alg.Counts.lift_bind (fun _ _ => Alg.Counts.data (fun _ h => h)))))

/-- C84: PBIL with negative and positive selection makes one evaluation, and as many as the population has individuals per
iteration. -/
theorem npsPbil_evaluations [LT K] [DecidableLT K] (env : Env K) (q : PbilParams) {lam : Nat}
    {s : AlgState K (PvData (NpsRest K))} (hlam : s.data.rest.population.bvs.length = lam) (fuel : Nat) :
    Evaluations (fun k => npsMaximize env q k fuel) s 1 lam := by
  have hL : (npsLens K).Keeps (fun d => d.rest.population.bvs.length = lam) := fun _ _ h hp => hp.trans h
  refine Evaluations.of_counts (φ := fun d => d.rest.population.bvs.length = lam)
    (pvStart_counts (fun _ _ h => h) env) ?_ hlam
  refine (pvSamplePop_counts hL (fun _ h => h)).step (fun _ => popGeneration_counts hL (fun _ h => h) ?_)
  exact Alg.Counts.get_bind (fun s _ => Alg.Counts.lift_bind (fun _ _ => Alg.Counts.lift_bind (fun _ _ =>
    Alg.Counts.lift_bind (fun _ _ => Alg.Counts.lift_bind (fun _ _ => Alg.Counts.data (fun _ h => h))))))

/-- C84: UMDA makes one evaluation, and as many as the population has individuals per iteration. -/
theorem umda_evaluations [LT K] [DecidableLT K] (env : Env K) (sel : Int) {lam : Nat}
    {s : AlgState K (PvData (Pop K))} (hlam : s.data.rest.bvs.length = lam) (fuel : Nat) :
    Evaluations (fun k => umdaMaximize env sel k fuel) s 1 lam := by
  have hL : (umdaLens K).Keeps (fun d => d.rest.bvs.length = lam) := fun _ _ h hp => hp.trans h
  refine Evaluations.of_counts (φ := fun d => d.rest.bvs.length = lam)
    (pvStart_counts (fun _ _ h => h) env) ?_ hlam
  refine (pvSamplePop_counts hL (fun _ h => h)).step (fun _ => popGeneration_counts hL (fun _ h => h) ?_)
  exact Alg.Counts.get_bind (fun s _ => Alg.Counts.lift_bind (fun _ _ => Alg.Counts.lift_bind (fun _ _ =>
    Alg.Counts.data (fun _ h => h))))

/-- C84: MIMIC makes one evaluation, and as many as the population has individuals per iteration. -/
theorem mimic_evaluations [LT K] [DecidableLT K] (env : Env K) (log : Rat → Rat) (sel : Int) {lam : Nat}
    {s : AlgState K (MimicData K)} (hlam : s.data.population.bvs.length = lam) (fuel : Nat) :
    Evaluations (fun k => mimicMaximize env log sel k fuel) s 1 lam := by
  have hL : (mimicLens K).Keeps (fun d => d.population.bvs.length = lam) := fun _ _ h hp => hp.trans h
  refine Evaluations.of_counts (φ := fun d => d.population.bvs.length = lam) ?_ ?_ hlam
  · exact Alg.Counts.lift_bind (fun _ _ => Alg.Counts.get_bind (fun _ _ => Alg.Counts.lift_bind (fun _ _ =>
      Alg.Counts.randomSolution.last (fun _ => Alg.Counts.get_bind (fun _ _ => Alg.Counts.sim_bind Sim.Yields.trivial
        (fun _ _ => Alg.Counts.data (fun _ h => h)))))))
  · refine Alg.Counts.get_bind (fun s hs => Alg.Counts.sim_bind (sample_sizes _ _) (fun p hp =>
      Alg.Counts.data_bind (fun _ _ => hp.trans hs) (fun _ => popGeneration_counts hL (fun _ h => h) ?_)))
    exact Alg.Counts.get_bind (fun s _ => Alg.Counts.lift_bind (fun _ _ => Alg.Counts.lift_bind (fun _ _ =>
      Alg.Counts.lift_bind (fun _ _ => Alg.Counts.lift_bind (fun _ _ => Alg.Counts.lift_bind (fun _ _ =>
        Alg.Counts.data (fun _ h => h)))))))

/-- C84: the herding EA makes one evaluation, and as many as the population has individuals per iteration. -/
theorem hea_evaluations [LT K] [DecidableLT K] (env : Env K) (q : HeaParams) {lam : Nat}
    {s : AlgState K (HeaData K)} (hlam : s.data.population.bvs.length = lam) (fuel : Nat) :
    Evaluations (fun k => heaMaximize env q k fuel) s 1 lam := by
  have hL : (heaLens K).Keeps (fun d => d.population.bvs.length = lam) := fun _ _ h hp => hp.trans h
  refine Evaluations.of_counts (φ := fun d : HeaData K => d.population.bvs.length = lam)
    (Alg.Counts.randomSolution.last (fun _ => Alg.Counts.data (fun _ h => h))) ?_ hlam
  refine Alg.Counts.data_bind (fun s hs => ?_) (fun _ => Alg.Counts.get_bind (fun s hs => Alg.Counts.sim_bind
    (P := fun r => r.2.bvs.length = lam) (Sim.Yields.forRange _ hs ?_)
    (fun r hr => Alg.Counts.data_bind (fun _ _ => hr) (fun _ => popGeneration_counts hL (fun _ h => h) ?_))))
  · unfold heaReset
    split <;> exact hs
  · intro i u hu
    exact Sim.Yields.skip (fun _ => Sim.Yields.skip (fun _ => Sim.Yields.lift_bind (fun _ h2 =>
      Sim.Yields.pure ((vset_ok_length h2).trans hu))))
  · exact Alg.Counts.get_bind (fun s _ => Alg.Counts.lift_bind (fun _ _ => Alg.Counts.lift_bind (fun _ _ =>
      Alg.Counts.lift_bind (fun _ _ => Alg.Counts.lift_bind (fun _ _ => Alg.Counts.data (fun _ h => h))))))

/-- C84: Boltzmann machine PBIL makes one evaluation, and as many as the population has individuals per iteration. -/
theorem bm_evaluations [LT K] [DecidableLT K] (env : Env K) (logistic : Rat → Rat) (q : BmParams) {lam : Nat}
    {s : AlgState K (BmData K)} (hlam : s.data.population.bvs.length = lam) (fuel : Nat) :
    Evaluations (fun k => bmMaximize env logistic q k fuel) s 1 lam := by
  have hL : (bmLens K).Keeps (fun d => d.population.bvs.length = lam) := fun _ _ h hp => hp.trans h
  refine Evaluations.of_counts (φ := fun d : BmData K => d.population.bvs.length = lam)
    (Alg.Counts.randomSolution.last (fun _ => Alg.Counts.data_bind (fun _ h => h) (fun _ =>
      Alg.Counts.get_bind (fun _ _ => Alg.Counts.sim_bind Sim.Yields.trivial (fun _ _ =>
        Alg.Counts.data (fun _ h => h)))))) ?_ hlam
  refine Alg.Counts.get_bind (fun s hs => Alg.Counts.sim_bind Sim.Yields.trivial (fun g _ => Alg.Counts.sim_bind
    (P := fun r => r.2.bvs.length = lam) (Sim.Yields.forRange _ hs ?_)
    (fun r hr => Alg.Counts.data_bind (fun _ _ => hr) (fun _ => popGeneration_counts hL (fun _ h => h) ?_))))
  · intro i u hu
    exact Sim.Yields.skip (fun _ => Sim.Yields.skip (fun _ => Sim.Yields.lift_bind (fun _ h2 =>
      Sim.Yields.pure ((vset_ok_length h2).trans hu))))
  · exact Alg.Counts.get_bind (fun s _ => Alg.Counts.lift_bind (fun _ _ => Alg.Counts.ite
      (fun _ => Alg.Counts.lift_bind (fun _ _ => Alg.Counts.lift_bind (fun _ _ => Alg.Counts.data (fun _ h => h))))
      (fun _ => Alg.Counts.lift_bind (fun _ _ => Alg.Counts.lift_bind (fun _ _ => Alg.Counts.data (fun _ h => h))))))

/-! ### UMDA with random affine maps -/

section
variable {lam : Nat}

theorem ramMaps_population (q : RamParams) (n : Nat) (r : RamRest K) :
    Sim.Yields (ramMaps q n r) (fun t => t.x = r.x) :=
  Sim.Yields.skip (fun _ => Sim.Yields.skip (fun _ => Sim.Yields.skip (fun _ => Sim.Yields.skip (fun _ =>
    Sim.Yields.pure rfl))))

theorem ramPopulation_sizes (sampler : BV → BV → Sim (BV × BV)) (a : BV) (p : Pop K) :
    Sim.Yields (ramPopulation sampler a p) (fun t => t.2.bvs.length = p.bvs.length) := by
  refine Sim.Yields.forRange (fun t : BV × Pop K => t.2.bvs.length = p.bvs.length) rfl ?_
  intro i u hu
  exact Sim.Yields.skip (fun _ => Sim.Yields.skip (fun _ => Sim.Yields.lift_bind (fun _ h2 =>
    Sim.Yields.pure ((vset_ok_length h2).trans hu))))

theorem ramLens_keeps : (ramLens K).Keeps (fun d => d.rest.x.bvs.length = lam) := fun _ _ h hp => hp.trans h

theorem ramInit_counts (env : Env K) :
    Alg.Counts True (fun d : PvData (RamRest K) => d.rest.x.bvs.length = lam) 1 1 (ramInit env) :=
  Alg.Counts.randomSolution.last (fun _ => (popRandom_counts ramLens_keeps (fun _ h => h)).step (fun _ =>
    Alg.Counts.data (fun _ h => h)))

/-- C84: UMDA with random affine maps makes one evaluation, and as many as the population has individuals per
iteration. -/
theorem ramUmda_evaluations [LT K] [DecidableLT K] (env : Env K) (q : RamParams)
    {s : AlgState K (PvData (RamRest K))} (hlam : s.data.rest.x.bvs.length = lam) (fuel : Nat) :
    Evaluations (fun k => ramMaximize env q k fuel) s 1 lam := by
  refine Evaluations.of_counts (φ := fun d => d.rest.x.bvs.length = lam) (ramInit_counts env)
    (popGeneration_counts ramLens_keeps (fun _ h => h) ?_) hlam
  exact Alg.Counts.get_bind (fun s hs => Alg.Counts.sim_bind (ramMaps_population _ _ _) (fun r hr =>
    Alg.Counts.lift_bind (fun _ _ => Alg.Counts.lift_bind (fun _ _ => Alg.Counts.sim_bind (ramPopulation_sizes _ _ _)
      (fun t ht => Alg.Counts.data (fun _ _ => by rw [hr] at ht; exact ht.trans hs))))))

/-- C84: the same for its second version. -/
theorem ramUmda2_evaluations [LT K] [DecidableLT K] (env : Env K) (q : RamParams)
    {s : AlgState K (PvData (RamRest K))} (hlam : s.data.rest.x.bvs.length = lam) (fuel : Nat) :
    Evaluations (fun k => ram2Maximize env q k fuel) s 1 lam := by
  refine Evaluations.of_counts (φ := fun d => d.rest.x.bvs.length = lam) (ramInit_counts env)
    (popGeneration_counts ramLens_keeps (fun _ h => h) ?_) hlam
  exact Alg.Counts.get_bind (fun s hs => Alg.Counts.lift_bind (fun _ _ => Alg.Counts.sim_bind (ramMaps_population _ _ _)
    (fun r hr => Alg.Counts.lift_bind (fun _ _ => Alg.Counts.lift_bind (fun _ _ => Alg.Counts.sim_bind
      (ramPopulation_sizes _ _ _) (fun t ht => Alg.Counts.data (fun _ _ => by rw [hr] at ht; exact ht.trans hs)))))))

end

/-! ## Examples -/

/-- The (2 + 2) EA for 7 iterations: 16 evaluations, if it is not interrupted. -/
example (d : EaData Int (Pop Int)) (h : muPlusNew 3 2 2 ⟨false, false⟩ = ok d) (ds rest : List Nat) (r : Except Exn Unit)
    (t : AlgState Int (EaData Int (Pop Int)))
    (e : muPlusMaximize exampleEnv ⟨false, false⟩ 7 10 (exampleStart d) ds = .ok (r, t) rest) :
    t.calls.length ≤ 16 ∧ (r = .ok () → t.calls.length = 16) := by
  obtain ⟨h1, h2⟩ := (muPlusLambda_evaluations exampleEnv ⟨false, false⟩ (s := exampleStart d) (mu := 2) (lam := 2)
    (muPlusNew_valid h).1.parents.bvs (muPlusNew_valid h).1.offsprings.bvs 10).1 7 (by decide) ds r t rest e
  have h0 : (exampleStart d).calls.length = 0 := rfl
  rw [h0] at h1 h2
  exact ⟨by omega, fun hr => by have := h2 hr; omega⟩

/-- Such a run exists. -/
example : (match (muPlusNew 3 2 2 ⟨false, false⟩ : Outcome (EaData Int (Pop Int))) with
    | .ok d =>
      match muPlusMaximize exampleEnv ⟨false, false⟩ 1 10 (exampleStart d)
        [0, 1, 0, 0, 0, 1, 0, 0, 0, 1, 0, 1, 0, 0, 0, 1, 0, 0, 0, 0] with
      | .ok (.ok _, t) _ => some t.calls.length
      | _ => none
    | _ => none) = some 4 := by decide +kernel

end Hnco
