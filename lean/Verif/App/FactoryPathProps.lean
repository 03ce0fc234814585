import Verif.App.FactoryPathSpec
import Verif.App.AlgorithmFactoryMoreProps
import Verif.Algorithm.PathReach
import Verif.Algorithm.PatienceLemmas
import Verif.Algorithm.ClimbPath

/-!
# The searches made by the factory

C86: the sequential searches made by the factory look at the vectors and move as the options say.
-/

namespace Hnco

open Outcome

section
variable {K : Type}

/-! ## Lemmas -/

theorem lowRate_iff {n : Nat} {rate : Rat} : belowInvSqrt n rate = true ↔ LowRate n rate := by
  unfold belowInvSqrt LowRate
  rw [decide_eq_true_eq, sq]

theorem count_neighborhood {o : AlgOptions} {n : Nat} {k : Sampler} {s : Nbh} (h : makeNeighborhood o n = ok (k, s)) (d : Nat) :
    k.Count d ↔ NeighborhoodStep o n d := by
  unfold makeNeighborhood at h
  split at h
  · rename_i h0
    obtain ⟨b, _, h⟩ := bind_eq_ok.mp h
    cases h
    constructor
    · rintro rfl
      exact .singleBitFlip h0
    · rintro (_ | ⟨h, _⟩ | ⟨h, _, _, _⟩ | ⟨h, _, _⟩ | ⟨h, _⟩)
      · rfl
      all_goals rw [h0] at h; exact absurd h (by decide)
  · split at h
    · rename_i h0
      obtain ⟨b, _, h⟩ := bind_eq_ok.mp h
      cases h
      constructor
      · rintro (h | ⟨h1, h2⟩)
        · exact .mutation h0 h
        · cases hr : o.eaMutationRate with
          | none => rw [hr] at h1; cases h1
          | some rate =>
            rw [hr] at h1 h2
            rw [setMutationRate_allow] at h2
            rcases Nat.eq_zero_or_pos d with rfl | hd
            · refine .noMutation h0 hr ?_ h2
              by_cases h3 : belowInvSqrt n rate = true
              · exact lowRate_iff.mp h3
              · unfold StandardParams.setMutationRate at h1
                simp only [if_neg h3] at h1
                cases h1
            · exact .mutation h0 hd
      · rintro (h | ⟨h, hd⟩ | ⟨h, hr, hl, ha⟩ | ⟨h, _, _⟩ | ⟨h, _⟩)
        · rw [h0] at h; exact absurd h (by decide)
        · exact .inl hd
        · refine .inr ?_
          rw [hr]
          dsimp only
          unfold StandardParams.setMutationRate
          rw [if_pos (lowRate_iff.mpr hl)]
          exact ⟨rfl, ha⟩
        all_goals rw [h0] at h; exact absurd h (by decide)
    · split at h
      · rename_i h0
        obtain ⟨r, hr, h⟩ := bind_eq_ok.mp h
        obtain ⟨b, _, h⟩ := bind_eq_ok.mp h
        cases h
        unfold radiusOf at hr
        by_cases hp : 0 ≤ o.radius
        · rw [assert_pos (decide_eq_true hp)] at hr
          cases hr
          constructor
          · rintro ⟨h1, h2⟩
            exact .ball h0 h1 (by omega)
          · rintro (h | ⟨h, hd⟩ | ⟨h, _, _, _⟩ | ⟨h, h1, h2⟩ | ⟨h, _⟩)
            · rw [h0] at h; exact absurd h (by decide)
            · rw [h0] at h; exact absurd h (by decide)
            · rw [h0] at h; exact absurd h (by decide)
            · exact ⟨h1, by omega⟩
            · rw [h0] at h; exact absurd h (by decide)
        · rw [assert_neg (decide_eq_false hp)] at hr
          cases hr
      · split at h
        · rename_i h0
          obtain ⟨r, hr, h⟩ := bind_eq_ok.mp h
          obtain ⟨b, _, h⟩ := bind_eq_ok.mp h
          cases h
          unfold radiusOf at hr
          by_cases hp : 0 ≤ o.radius
          · rw [assert_pos (decide_eq_true hp)] at hr
            cases hr
            constructor
            · intro h
              have h : d = o.radius.toNat := h
              exact .sphere h0 (by omega)
            · rintro (h | ⟨h, hd⟩ | ⟨h, _, _, _⟩ | ⟨h, h1, h2⟩ | ⟨h, hd⟩)
              · rw [h0] at h; exact absurd h (by decide)
              · rw [h0] at h; exact absurd h (by decide)
              · rw [h0] at h; exact absurd h (by decide)
              · rw [h0] at h; exact absurd h (by decide)
              · show d = o.radius.toNat
                omega
          · rw [assert_neg (decide_eq_false hp)] at hr
            cases hr
        · cases h

theorem count_mutation [LinearOrder K] (o : AlgOptions) (n : Nat) (d : Nat) :
    (onePlusOneParams (K := K) ⟨o.numIterations, belowInvSqrt n (madeRate o n), o.eaAllowNoMutation, o.incrementalEvaluation⟩
      newStandard (newStart n)).sampler.Count d ↔ MutationStep o n d := by
  have hr : madeRate o n = o.eaMutationRate.getD (1 / (n : Rat)) := by
    unfold madeRate
    cases o.eaMutationRate <;> rfl
  constructor
  · rintro (h | ⟨h1, h2⟩)
    · exact .mutation h
    · rcases Nat.eq_zero_or_pos d with rfl | hd
      · refine .noMutation ?_ h2
        rw [← hr]
        unfold StandardParams.setAllowNoMutation StandardParams.setMutationRate at h1
        split at h1
        · rename_i h3
          exact lowRate_iff.mp h3
        · cases h1
      · exact .mutation hd
  · rintro (hd | ⟨hl, ha⟩)
    · exact .inl hd
    · refine .inr ⟨?_, ha⟩
      unfold StandardParams.setAllowNoMutation StandardParams.setMutationRate
      rw [if_pos (by rw [hr]; exact lowRate_iff.mpr hl)]

theorem SearchPath.congr {step step' : Nat → Prop} {accept accept' : K → K → Bool → Prop} (hs : ∀ d, step d ↔ step' d)
    (ha : ∀ a b m, accept a b m ↔ accept' a b m) {start pos : BV × K} {later : List (BV × K)} :
    SearchPath step accept start later pos → SearchPath step' accept' start later pos := by
  intro h
  induction h with
  | start => exact .start
  | move h hd hm ih => exact ih.move ((hs _).mp hd) ((ha _ _ _).mp hm)
  | stay h hd hm ih => exact ih.stay ((hs _).mp hd) ((ha _ _ _).mp hm)

theorem HasPath.congr [LinearOrder K] {step step' : Nat → Prop} {accept accept' : K → K → Bool → Prop}
    (hs : ∀ d, step d ↔ step' d) (ha : ∀ a b m, accept a b m ↔ accept' a b m) {first : Nat} {calls : List (BV × K)} {pos : BV × K}
    (h : HasPath step accept first calls pos) : HasPath step' accept' first calls pos := by
  obtain ⟨trials, later, start, h1, h2, h3, h4⟩ := h
  exact ⟨trials, later, start, h1, h2, h3, h4.congr hs ha⟩

/-- From properties of `maximize` to a property of a run. -/
theorem run_holds {m : MadeAlgorithm K} {env : Env K} {fuel : Nat} {f : AlgState K m.σ → AlgState K m.σ}
    (hf : ∀ s, m.finalize s = pure (.ok (), f s)) {P : RunResult K → Prop}
    {Q : AlgState K m.σ → Prop} {E : AlgState K m.σ → Prop} (hh : Alg.Holds (m.maximize env fuel) m.start (fun _ => Q) E)
    (hq : ∀ t, Q t → P ⟨.ok (), (f t).solution, (f t).calls⟩)
    (he : ∀ t, E t → P ⟨.error .lastEvaluation, (f t).solution, (f t).calls⟩)
    (ho : ∀ t e, E t → e ≠ .lastEvaluation → P ⟨.error e, t.solution, t.calls⟩) : Sim.Post (m.run env fuel) P := by
  unfold MadeAlgorithm.run
  refine Sim.Post.bind (P := fun r => match r.1 with
    | .ok _ => Q r.2
    | .error _ => E r.2) ?_ ?_
  · intro ds
    have h := hh ds
    cases e : m.maximize env fuel m.start ds with
    | ok a rest =>
      rw [e] at h
      obtain ⟨r, t⟩ := a
      cases r with
      | ok _ => exact h
      | error _ => exact h
    | throw _ => rw [e] at h; exact h.elim
    | ub => rw [e] at h; exact h.elim
    | out => trivial
  · rintro ⟨r, t⟩ h
    cases r with
    | ok a =>
      refine Sim.Post.bind (P := fun x => x = (.ok (), f t)) (by rw [hf]; exact Sim.Post.pure rfl) ?_
      rintro _ rfl
      exact Sim.Post.pure (hq t h)
    | error x =>
      cases x with
      | lastEvaluation =>
        refine Sim.Post.bind (P := fun x => x = (.ok (), f t)) (by rw [hf]; exact Sim.Post.pure rfl) ?_
        rintro _ rfl
        exact Sim.Post.pure (he t h)
      | targetReached => exact Sim.Post.pure (ho t _ h (by decide))
      | runtimeError => exact Sim.Post.pure (ho t _ h (by decide))

theorem run_reaches {σ : Type} {start t : AlgState K σ} {maximize : Env K → Nat → Alg (AlgState K σ) Unit}
    {finalize : Alg (AlgState K σ) Unit} {env : Env K} {fuel : Nat} {f : AlgState K σ → AlgState K σ}
    (hf : ∀ s, finalize s = pure (.ok (), f s)) (h : Alg.Reaches (maximize env fuel) start () t) :
    Sim.Reaches (MadeAlgorithm.run ⟨σ, start, maximize, finalize⟩ env fuel) ⟨.ok (), (f t).solution, (f t).calls⟩ := by
  unfold MadeAlgorithm.run
  refine Sim.Reaches.bind h ?_
  refine Sim.Reaches.bind (a := (.ok (), f t)) (by show Sim.Reaches (finalize t) _; rw [hf]; exact Sim.Reaches.pure _) ?_
  exact Sim.Reaches.pure _

end

section
variable {K : Type} [LinearOrder K] [Zero K] {env : Env K} {n : Nat} {val : BV → K} {o : AlgOptions} {lib : AlgLib}

theorem rls_run_path {p : RlsParams K} (hcomp1 : ∀ a b, p.compare a b = true → b ≤ a)
    (hcomp2 : ∀ a b, p.compare a b = false → a ≤ b)
    (hinc : p.incremental = true → env.fn.hasInc = true → env.fn.size = n ∧ IncrementalExact env.fn)
    (hp : p.startingPoint.length = n) (henv : env.Computes n val) {s : Nbh} (hv : s.Valid p.sampler) (hn : s.n = n)
    {step : Nat → Prop} {accept : K → K → Bool → Prop} (hs : ∀ d, p.sampler.Count d ↔ step d)
    (ha : ∀ a b m, p.accepts a b m ↔ accept a b m) (k : Int) (fuel : Nat) :
    Sim.Post (MadeAlgorithm.run ⟨RlsData, newState n ⟨s, 0⟩, fun env => rlsMaximize env p k, rlsFinalize⟩ env fuel)
      (PathOk step accept) := by
  refine run_holds (m := ⟨RlsData, newState n ⟨s, 0⟩, fun env => rlsMaximize env p k, rlsFinalize⟩)
    (f := fun (s : AlgState K RlsData) => { s with solution := (s.data.nbh.origin, s.solution.2) }) (fun _ => rfl)
    (rlsMaximize_path henv hcomp1 hcomp2 hinc hp (by simp [newState]) hv hn rfl k fuel) ?_ ?_ ?_
  · exact fun t h => .inr ⟨_, HasPath.congr hs ha h, fun _ => rfl⟩
  · rintro t (h | h)
    · exact .inl ⟨by simp, h⟩
    · exact .inr ⟨_, HasPath.congr hs ha h, fun _ => rfl⟩
  · rintro t e (h | h) he
    · exact .inl ⟨by simp, h⟩
    · refine .inr ⟨_, HasPath.congr hs ha h, fun h' => ?_⟩
      simp at h'
      exact absurd h' he

theorem rls_run_patience {p : RlsParams K} (hcomp1 : ∀ a b, p.compare a b = true → b ≤ a)
    (hcomp2 : ∀ a b, p.compare a b = false → a ≤ b)
    (hinc : p.incremental = true → env.fn.hasInc = true → env.fn.size = n ∧ IncrementalExact env.fn)
    (hp : p.startingPoint.length = n) (henv : env.Computes n val) {s : Nbh} (hv : s.Valid p.sampler) (hn : s.n = n)
    (k : Int) (fuel : Nat) :
    Sim.Post (MadeAlgorithm.run ⟨RlsData, newState n ⟨s, 0⟩, fun env => rlsMaximize env p k, rlsFinalize⟩ env fuel)
      (PatienceOk p.compare p.patience k) := by
  refine run_holds (m := ⟨RlsData, newState n ⟨s, 0⟩, fun env => rlsMaximize env p k, rlsFinalize⟩)
    (f := fun (s : AlgState K RlsData) => { s with solution := (s.data.nbh.origin, s.solution.2) }) (fun _ => rfl)
    ((rlsMaximize_patience henv hcomp1 hcomp2 hinc hp (by simp [newState]) hv hn rfl k fuel).and
      (rlsMaximize_holds henv hcomp1 hcomp2 hinc hp (by simp [newState]) hv hn rfl k fuel)) ?_ ?_ ?_
  · rintro t ⟨⟨start, later, h1, h2⟩, h3⟩
    refine .inr ⟨start, later, h1.calls, h1.before, fun _ hk => ?_⟩
    rcases h2 with h2 | h2
    · obtain ⟨_, h4, h5⟩ := h3.last h2
      refine ⟨h4, ?_⟩
      unfold rejectedInARow
      rw [h1.replay]
      exact h5
    · omega
  · rintro t ⟨h | ⟨start, later, h⟩, _⟩
    · exact .inl ⟨by simp, h⟩
    · exact .inr ⟨start, later, h.calls, h.before, fun h => by cases h⟩
  · rintro t e ⟨h | ⟨start, later, h⟩, _⟩ _
    · exact .inl ⟨by simp, h⟩
    · exact .inr ⟨start, later, h.calls, h.before, fun h => by cases h⟩

theorem rlsAccepts_eq (k : Sampler) : (madeRlsParams (K := K) o n k).compare = rlsAccepts o := by
  unfold madeRlsParams rlsAccepts
  funext a b
  cases o.rlsStrict <;> rfl

theorem rlsAccepts_iff (k : Sampler) (a b : K) (m : Bool) :
    (madeRlsParams (K := K) o n k).accepts a b m ↔ (if o.rlsStrict then acceptBetter a b m else acceptNotWorse a b m) := by
  unfold RlsParams.accepts
  rw [rlsAccepts_eq]
  unfold rlsAccepts acceptBetter acceptNotWorse
  cases o.rlsStrict <;> cases m <;> simp

/-! ## Paths which are taken -/

/-- C86: random local search looks at vectors of the neighbourhood which is asked for around its position, moves to those which
are better, or at least as good if the comparison is not strict, and reports its position. -/
theorem makeAlgorithm_rls_path (h : o.algorithm = 100) (hnbh : NeighborhoodOk o n) (henv : env.Computes n val)
    (hinc : o.incrementalEvaluation = true → env.fn.hasInc = true → env.fn.size = n ∧ IncrementalExact env.fn) :
    ∃ m : MadeAlgorithm K, makeAlgorithm lib o n = .own (ok m) ∧ ∀ fuel, Sim.Post (m.run env fuel)
      (PathOk (NeighborhoodStep o n) (fun a b m => if o.rlsStrict then acceptBetter a b m else acceptNotWorse a b m)) := by
  obtain ⟨k, s, e, hv, hs, hn⟩ := makeNeighborhood_ok hnbh
  unfold makeAlgorithm
  simp only [h]
  unfold makeRandomLocalSearch
  simp only [e, algorithmNew_pos hn]
  exact ⟨_, rfl, fun fuel => rls_run_path (p := madeRlsParams o n k) strict_compare.1 strict_compare.2 hinc
    (by simp [madeRlsParams, newStart]) henv hv hs (count_neighborhood e) (rlsAccepts_iff k) _ fuel⟩

/-- C86: random local search loses patience exactly when as many vectors in a row as the option says have been rejected, and
does not end by itself for any other reason before the number of iterations asked for. -/
theorem makeAlgorithm_rls_patience (h : o.algorithm = 100) (hnbh : NeighborhoodOk o n) (henv : env.Computes n val)
    (hinc : o.incrementalEvaluation = true → env.fn.hasInc = true → env.fn.size = n ∧ IncrementalExact env.fn) :
    ∃ m : MadeAlgorithm K, makeAlgorithm lib o n = .own (ok m) ∧ ∀ fuel, Sim.Post (m.run env fuel)
      (PatienceOk (rlsAccepts o) o.rlsPatience o.numIterations) := by
  obtain ⟨k, s, e, hv, hs, hn⟩ := makeNeighborhood_ok hnbh
  unfold makeAlgorithm
  simp only [h]
  unfold makeRandomLocalSearch
  simp only [e, algorithmNew_pos hn]
  refine ⟨_, rfl, fun fuel => ?_⟩
  rw [← rlsAccepts_eq (n := n) k]
  exact rls_run_patience (p := madeRlsParams o n k) strict_compare.1 strict_compare.2 hinc
    (by simp [madeRlsParams, newStart]) henv hv hs _ fuel

/-- C86: the (1+1) EA looks at mutants of its position, moves to those which are at least as good, and reports its position. -/
theorem makeAlgorithm_ea_path (h : o.algorithm = 300) (hn : 0 < n) (henv : env.Computes n val)
    (hinc : o.incrementalEvaluation = true → env.fn.hasInc = true → env.fn.size = n ∧ IncrementalExact env.fn) :
    ∃ m : MadeAlgorithm K, makeAlgorithm lib o n = .own (ok m) ∧ ∀ fuel, Sim.Post (m.run env fuel)
      (PathOk (MutationStep o n) acceptNotWorse) := by
  obtain ⟨s, e, e1, e2, _⟩ := (construct_ready (.standardBitMutation newStandard) n).1 hn
  unfold makeAlgorithm
  simp only [h]
  unfold makeOnePlusOneEa
  simp only [e, algorithmNew_pos hn]
  exact ⟨_, rfl, fun fuel => rls_run_path (p := onePlusOneParams ⟨o.numIterations, belowInvSqrt n (madeRate o n),
    o.eaAllowNoMutation, o.incrementalEvaluation⟩ newStandard (newStart n)) (fun a b h => by simpa [onePlusOneParams] using h)
    (fun a b h => by simp [onePlusOneParams] at h; exact le_of_lt h) hinc
    (by simp [onePlusOneParams, newStart]) henv (standard_valid e2.toValid) e1 (count_mutation o n)
    (fun a b m => by unfold RlsParams.accepts onePlusOneParams acceptNotWorse; cases m <;> simp) _ fuel⟩

/-- C86: the (1+1) EA with a self-adjusting mutation rate moves in the same way; a mutant equal to its parent is possible only
if that is allowed. -/
theorem makeAlgorithm_self_adjusting_path (h : o.algorithm = 301) (hn : 0 < n) (henv : env.Computes n val)
    (hinc : o.incrementalEvaluation = true → env.fn.hasInc = true → env.fn.size = n ∧ IncrementalExact env.fn) :
    ∃ m : MadeAlgorithm K, makeAlgorithm lib o n = .own (ok m) ∧ ∀ fuel, Sim.Post (m.run env fuel)
      (PathOk (fun d => 1 ≤ d ∨ o.eaAllowNoMutation = true) acceptNotWorse) := by
  obtain ⟨s, e⟩ := nbhNew_ok hn
  obtain ⟨e1, e2⟩ := nbhNew_valid (p := newStandard) e
  unfold makeAlgorithm
  simp only [h]
  unfold makeSelfAdjusting
  simp only [e, algorithmNew_pos hn]
  refine ⟨_, rfl, fun fuel => run_holds
    (f := fun (s : AlgState K SelfAdjustingData) => { s with solution := (s.data.mutation.origin, s.solution.2) }) (fun _ => rfl) (selfAdjustingMaximize_path (q := madeSelfAdjustingParams lib o n) henv hinc (by simp [newState]) e1 e2 rfl
      o.numIterations fuel) ?_ ?_ ?_⟩
  · exact fun t h => .inr ⟨_, h, fun _ => rfl⟩
  · rintro t (h | h)
    · exact .inl ⟨by simp, h⟩
    · exact .inr ⟨_, h, fun _ => rfl⟩
  · rintro t e (h | h) he
    · exact .inl ⟨by simp, h⟩
    · refine .inr ⟨_, h, fun h' => ?_⟩
      simp at h'
      exact absurd h' he

/-- C86: a random walk looks at vectors of the neighbourhood which is asked for and always moves; it reports the first best
evaluation. -/
theorem makeAlgorithm_walk_path (h : o.algorithm = 20) (hnbh : NeighborhoodOk o n) (hinc : o.incrementalEvaluation = false)
    (henv : env.Computes n val) :
    ∃ m : MadeAlgorithm K, makeAlgorithm lib o n = .own (ok m) ∧ ∀ fuel, Sim.Post (m.run env fuel)
      (WanderOk (NeighborhoodStep o n) acceptAll 1) := by
  obtain ⟨k, s, e, hv, hs, hn⟩ := makeNeighborhood_ok hnbh
  unfold makeAlgorithm
  simp only [h]
  unfold makeRandomWalk
  simp only [e, algorithmNew_pos hn]
  have hc : ∀ {calls : List (BV × K)} {pos}, HasPath k.Count acceptAll 1 calls pos → HasPath (NeighborhoodStep o n) acceptAll 1 calls pos :=
    fun h => HasPath.congr (count_neighborhood e) (fun _ _ _ => Iff.rfl) h
  refine ⟨_, rfl, fun fuel => run_holds (f := fun s => s) (fun _ => rfl) (by
    rw [hinc]
    exact walkMaximize_path henv (by simp [newStart]) (by simp [newState]) hv hs rfl o.numIterations fuel) ?_ ?_ ?_⟩
  · exact fun t h => .inr ⟨h.1, h.2.choose, hc h.2.choose_spec⟩
  · rintro t (h | h)
    · exact .inl ⟨by simp, by simp [h]⟩
    · exact .inr ⟨h.1, h.2.choose, hc h.2.choose_spec⟩
  · rintro t e (h | h) he
    · exact .inl ⟨by simp, by simp [h]⟩
    · exact .inr ⟨h.1, h.2.choose, hc h.2.choose_spec⟩

/-- C86: simulated annealing makes two evaluations per trial after the first one, starts at the first best of them, looks at
vectors of the neighbourhood which is asked for, and moves at least to those which are not worse; it reports the first best
evaluation. -/
theorem makeAlgorithm_annealing_path (h : o.algorithm = 200) (hnbh : NeighborhoodOk o n) (henv : env.Computes n val) :
    ∃ m : MadeAlgorithm K, makeAlgorithm lib o n = .own (ok m) ∧ ∀ fuel, Sim.Post (m.run env fuel)
      (WanderOk (NeighborhoodStep o n) acceptPossibly (1 + 2 * o.saNumTrials.toNat)) := by
  obtain ⟨k, s, e, hv, hs, hn⟩ := makeNeighborhood_ok hnbh
  unfold makeAlgorithm
  simp only [h]
  unfold makeSimulatedAnnealing
  simp only [e, algorithmNew_pos hn]
  have hc : ∀ {calls : List (BV × K)} {pos}, HasPath k.Count acceptPossibly (1 + 2 * o.saNumTrials.toNat) calls pos →
      HasPath (NeighborhoodStep o n) acceptPossibly (1 + 2 * o.saNumTrials.toNat) calls pos :=
    fun h => HasPath.congr (count_neighborhood e) (fun _ _ _ => Iff.rfl) h
  refine ⟨_, rfl, fun fuel => run_holds (f := fun s => s) (fun _ => rfl) (Alg.Holds.and
    (annealingMaximize_path henv (by simp [newStart]) (by simp [newState]) hv hs rfl _ _ o.numIterations fuel)
    (simulatedAnnealing_best henv (by simp [newStart]) (by simp [newState]) hv hs rfl _ _ o.numIterations fuel)) ?_ ?_ ?_⟩
  · exact fun t h => .inr ⟨h.2.2, h.1.choose, hc h.1.choose_spec⟩
  · rintro t ⟨h | ⟨pos, h⟩, h2⟩
    · exact .inl ⟨by simp, h⟩
    · rcases h2.2 with h3 | h3
      · exact .inl ⟨by simp, by simp [h3]⟩
      · exact .inr ⟨h3, pos, hc h⟩
  · rintro t e ⟨h | ⟨pos, h⟩, h2⟩ he
    · exact .inl ⟨by simp, h⟩
    · rcases h2.2 with h3 | h3
      · exact .inl ⟨by simp, by simp [h3]⟩
      · exact .inr ⟨h3, pos, hc h⟩

/-- C86: first ascent hill climbing looks at vectors at distance 1, or at a distance equal to the radius, from its position,
moves as soon as one is better, and reports its position, also after the target is reached. -/
theorem makeAlgorithm_first_ascent_path {r : Nat} (h : o.algorithm = 160) (hit : IteratorOk o n r) (henv : env.Computes n val) :
    ∃ m : MadeAlgorithm K, makeAlgorithm lib o n = .own (ok m) ∧ ∀ fuel, Sim.Post (m.run env fuel) (fun q =>
      (q.ending ≠ .ok () ∧ q.calls = []) ∨ HasPath (fun d => d = r) acceptBetter 1 q.calls q.solution) := by
  obtain ⟨hn, h1, h2, hi⟩ := makeIterator_ok hit
  have hp : (newStart n).startingPoint.length = n := by simp [newStart]
  unfold makeAlgorithm
  simp only [h]
  unfold makeFirstAscent
  rcases hi with ⟨it, hi, rfl, hc⟩ | ⟨it, hi, hV⟩
  · rw [hi, ok_bind, algorithmNew_pos hn, ok_bind]
    refine ⟨_, rfl, fun fuel => run_holds (f := fun s => s) (fun _ => rfl) (firstAscentMaximize_path (s := newState n ⟨it, _⟩)
      henv (singleBitFlipIter_explores n) hp (by simp [newState]) hc rfl o.numIterations fuel fuel) (fun _ h => .inr h) ?_ ?_⟩
    · exact fun t h => h.imp (fun h => ⟨by simp, h⟩) id
    · exact fun t e h _ => h.imp (fun h => ⟨by simp, h⟩) id
  · rw [hi, ok_bind, algorithmNew_pos hn, ok_bind]
    refine ⟨_, rfl, fun fuel => run_holds (f := fun s => s) (fun _ => rfl) (firstAscentMaximize_path (s := newState n ⟨it, _⟩)
      henv (hammingSphereIter_explores h1 h2) hp (by simp [newState]) hV rfl o.numIterations fuel fuel) (fun _ h => .inr h) ?_ ?_⟩
    · exact fun t h => h.imp (fun h => ⟨by simp, h⟩) id
    · exact fun t e h _ => h.imp (fun h => ⟨by simp, h⟩) id

/-! ## Paths which are possible -/

/-- C86: random local search can take every path allowed by the options. -/
theorem makeAlgorithm_rls_any_path (h : o.algorithm = 100) (hnbh : NeighborhoodOk o n) (henv : env.Computes n val)
    (hinc : o.incrementalEvaluation = true → env.fn.hasInc = true → env.fn.size = n ∧ IncrementalExact env.fn)
    (hstop : ∀ calls x, env.stop calls x = none) {start pos : BV × K} {later : List (BV × K)}
    (hpath : SearchPath (NeighborhoodStep o n)
      (fun a b m => if o.rlsStrict then acceptBetter a b m else acceptNotWorse a b m) start later pos)
    (htrue : ∀ c ∈ start :: later, c.1.length = n ∧ c.2 = val c.1) (hk : o.numIterations = later.length) (hpos : 0 < later.length)
    (hpat : o.rlsPatience ≤ 0 ∨ (later.length : Int) < o.rlsPatience) :
    ∃ m : MadeAlgorithm K, makeAlgorithm lib o n = .own (ok m) ∧ ∀ fuel, ∃ ds, m.run env fuel ds = .ok ⟨.ok (), pos, start :: later⟩ [] := by
  obtain ⟨k, s, e, hv, hs, hn⟩ := makeNeighborhood_ok hnbh
  unfold makeAlgorithm
  simp only [h]
  unfold makeRandomLocalSearch
  simp only [e, algorithmNew_pos hn]
  refine ⟨_, rfl, fun fuel => ?_⟩
  obtain ⟨u, h1, h2⟩ := rlsMaximize_reaches (s := newState n ⟨s, 0⟩) (p := madeRlsParams o n k) henv hstop rfl hinc
    (hpath.congr (fun d => (count_neighborhood e d).symm) (fun a b m => (rlsAccepts_iff k a b m).symm)) (by simp [newState]) hv hs
    rfl htrue hpat hpos fuel
  obtain ⟨ds, hds⟩ := run_reaches (maximize := fun env => rlsMaximize env (madeRlsParams o n k) o.numIterations)
    (finalize := rlsFinalize) (f := fun s => { s with solution := (s.data.nbh.origin, s.solution.2) }) (fun _ => rfl)
    (by rw [hk]; exact h1)
  refine ⟨ds, ?_⟩
  have := hds []
  rw [List.append_nil] at this
  rw [show (⟨.ok (), pos, start :: later⟩ : RunResult K) = ⟨.ok (), (u.data.nbh.origin, u.solution.2), u.calls⟩ by
    rw [h2.pos, h2.calls]]
  exact this

/-- C86: the (1+1) EA can take every path of mutants. -/
theorem makeAlgorithm_ea_any_path (h : o.algorithm = 300) (hn : 0 < n) (henv : env.Computes n val)
    (hinc : o.incrementalEvaluation = true → env.fn.hasInc = true → env.fn.size = n ∧ IncrementalExact env.fn)
    (hstop : ∀ calls x, env.stop calls x = none) {start pos : BV × K} {later : List (BV × K)}
    (hpath : SearchPath (MutationStep o n) acceptNotWorse start later pos)
    (htrue : ∀ c ∈ start :: later, c.1.length = n ∧ c.2 = val c.1) (hk : o.numIterations = later.length) (hpos : 0 < later.length) :
    ∃ m : MadeAlgorithm K, makeAlgorithm lib o n = .own (ok m) ∧ ∀ fuel, ∃ ds, m.run env fuel ds = .ok ⟨.ok (), pos, start :: later⟩ [] := by
  obtain ⟨s, e, e1, e2, _⟩ := (construct_ready (.standardBitMutation newStandard) n).1 hn
  unfold makeAlgorithm
  simp only [h]
  unfold makeOnePlusOneEa
  simp only [e, algorithmNew_pos hn]
  refine ⟨_, rfl, fun fuel => ?_⟩
  obtain ⟨u, h1, h2⟩ := rlsMaximize_reaches (s := newState n ⟨s, 0⟩) (p := onePlusOneParams ⟨o.numIterations,
    belowInvSqrt n (madeRate o n), o.eaAllowNoMutation, o.incrementalEvaluation⟩ newStandard (newStart n)) henv hstop rfl hinc
    (hpath.congr (fun d => (count_mutation o n d).symm)
      (fun a b m => by unfold RlsParams.accepts onePlusOneParams acceptNotWorse; cases m <;> simp)) (by simp [newState])
    (standard_valid e2.toValid) e1 rfl htrue (.inl (le_refl 0)) hpos fuel
  obtain ⟨ds, hds⟩ := run_reaches (maximize := fun env => onePlusOneMaximize env ⟨o.numIterations,
      belowInvSqrt n (madeRate o n), o.eaAllowNoMutation, o.incrementalEvaluation⟩ newStandard (newStart n))
    (finalize := rlsFinalize) (f := fun s => { s with solution := (s.data.nbh.origin, s.solution.2) }) (fun _ => rfl)
    (by unfold onePlusOneMaximize; simp only [hk] at h1 ⊢; exact h1)
  refine ⟨ds, ?_⟩
  have := hds []
  rw [List.append_nil] at this
  rw [show (⟨.ok (), pos, start :: later⟩ : RunResult K) = ⟨.ok (), (u.data.nbh.origin, u.solution.2), u.calls⟩ by
    rw [h2.pos, h2.calls]]
  exact this

/-- C86: a random walk can take every path of neighbours. -/
theorem makeAlgorithm_walk_any_path (h : o.algorithm = 20) (hnbh : NeighborhoodOk o n) (hinc : o.incrementalEvaluation = false)
    (henv : env.Computes n val) (hstop : ∀ calls x, env.stop calls x = none) {start pos : BV × K} {later : List (BV × K)}
    (hpath : SearchPath (NeighborhoodStep o n) acceptAll start later pos)
    (htrue : ∀ c ∈ start :: later, c.1.length = n ∧ c.2 = val c.1) (hk : o.numIterations = later.length) (hpos : 0 < later.length) :
    ∃ m : MadeAlgorithm K, makeAlgorithm lib o n = .own (ok m) ∧ ∀ fuel, ∃ ds r, m.run env fuel ds = .ok r [] ∧ r.ending = .ok () ∧
      r.calls = start :: later := by
  obtain ⟨k, s, e, hv, hs, hn⟩ := makeNeighborhood_ok hnbh
  unfold makeAlgorithm
  simp only [h]
  unfold makeRandomWalk
  simp only [e, algorithmNew_pos hn]
  refine ⟨_, rfl, fun fuel => ?_⟩
  obtain ⟨u, h1, h2⟩ := walkMaximize_reaches (s := newState n ⟨s, none⟩) (p := newStart n) henv hstop rfl
    (hpath.congr (fun d => (count_neighborhood e d).symm) (fun _ _ _ => Iff.rfl)) (by simp [newState]) hv hs
    rfl htrue hpos fuel
  obtain ⟨ds, hds⟩ := run_reaches (maximize := fun env => walkMaximize env (newStart n) k o.incrementalEvaluation o.numIterations)
    (finalize := noFinalize) (f := fun s => s) (fun _ => rfl) (by rw [hk, hinc]; exact h1)
  have := hds []
  rw [List.append_nil] at this
  exact ⟨ds, _, this, rfl, h2.calls⟩

end

/-! ## Examples -/

-- A neighbourhood exists, and it is not of one kind of steps only.
example : NeighborhoodOk { neighborhood := 2, radius := 2 } 3 ∧ NeighborhoodStep { neighborhood := 2, radius := 2 } 3 2 ∧
    ¬ NeighborhoodStep { neighborhood := 3, radius := 2 } 3 1 := by
  refine ⟨.inr ⟨.inl rfl, by decide, by decide⟩, .ball rfl (by decide) (by decide), ?_⟩
  rintro (h | ⟨h, _⟩ | ⟨h, _, _, _⟩ | ⟨h, _, _⟩ | ⟨h, h1⟩)
  all_goals first | exact absurd h (by decide) | exact absurd h1 (by decide)

-- Random local search moves to a vector of the same value, then to a better one; the path meets the hypotheses.
example : ∃ m : MadeAlgorithm Int, makeAlgorithm exampleAlgLib { neighborhood := 3, radius := 2, numIterations := 2 } 3 = .own (ok m) ∧
    ∀ fuel, ∃ ds, m.run exampleFreeEnv fuel ds = .ok ⟨.ok (), ([true, true, true], 3),
      [([true, false, false], 1), ([false, false, true], 1), ([true, true, true], 3)]⟩ [] := by
  have h : SearchPath (K := Int) (NeighborhoodStep { neighborhood := 3, radius := 2, numIterations := 2 } 3)
      (fun a b m => if false then acceptBetter a b m else acceptNotWorse a b m) ([true, false, false], 1)
      (([] ++ [([false, false, true], 1)]) ++ [([true, true, true], 3)]) ([true, true, true], 3) :=
    (SearchPath.start.move (.sphere rfl rfl) (by simp [acceptNotWorse])).move (.sphere rfl rfl) (by simp [acceptNotWorse])
  exact makeAlgorithm_rls_any_path rfl (.inr ⟨.inr rfl, by decide, by decide⟩) (val := fun x => Int.ofNat (x.count true))
    (fun _ _ => rfl) (fun h => by cases h) (fun _ _ => rfl) h (by decide) rfl (by decide) (.inr (by decide))

-- Three vectors are rejected in a row.
example : rejectedInARow (rlsAccepts { rlsStrict := true }) ([true], (1 : Int))
    [([false], 0), ([true], 1), ([true], 2), ([false], 0), ([false], 1), ([true], 2)] = 3 := by decide

-- Random local search loses patience.
example : (exampleRun { rlsPatience := 2, numIterations := 9 } exampleFreeEnv 0 [1, 1, 1, 0, 0, 0, 0, 0]).map
    (fun r => (r.ending.isOk, r.solution.2, r.calls.length)) = some (true, 3, 3) := by decide +kernel

end Hnco
