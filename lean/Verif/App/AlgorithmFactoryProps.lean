import Verif.App.AlgorithmFactorySpec
import Verif.Algorithm.CountProps
import Verif.Algorithm.LocalSearchProps
import Verif.Algorithm.EvolutionaryProps
import Verif.Algorithm.RateProps
import Verif.Algorithm.ItEaProps
import Verif.Algorithm.LambdaLambdaProps
import Verif.Algorithm.HumanProps
import Verif.Algorithm.MimicProps
import Verif.Algorithm.RamUmdaProps
import Verif.Algorithm.ProbabilityVectorProps
import Verif.Algorithm.HillClimbingProps
import Verif.Walsh.HeaProps
import Verif.Walsh.BmProps

/-!
# Properties of the algorithms made by the factory
-/

namespace Hnco

open Outcome

variable {K : Type}

/-! ## Lemmas about runs -/

/-- The cost of a run of `maximize`. -/
def CostOk (k : Int) (plan : Plan) (r : Except Exn Unit) (calls : Nat) : Prop :=
  (0 < k → calls ≤ plan.first + k.toNat * plan.hi ∧
    (r = .ok () → plan.stops = false → plan.first + k.toNat * plan.lo ≤ calls)) ∧
  (k ≤ 0 → plan.stops = false → r ≠ .ok ())

theorem CostOk.of_between {σ : Type} {maximize : Int → Alg (AlgState K σ) Unit} {s : AlgState K σ} {b first lo hi : Nat}
    (h : EvaluationsBetween maximize s first lo hi) (hs : s.calls = []) (k : Int) {ds rest : List Nat}
    {r : Except Exn Unit} {t : AlgState K σ} (e : maximize k s ds = .ok (r, t) rest) :
    CostOk k ⟨b, first, lo, hi, false⟩ r t.calls.length := by
  refine ⟨fun hk => ?_, fun hk _ => h.2 k hk ds r t rest e⟩
  obtain ⟨j, rfl⟩ := Int.eq_ofNat_of_zero_le (le_of_lt hk)
  obtain ⟨h1, h2⟩ := h.1 j (by exact_mod_cast hk) ds r t rest e
  rw [hs] at h1 h2
  simp only [List.length_nil, Nat.zero_add] at h1 h2
  exact ⟨h1, fun hr _ => h2 hr⟩

theorem CostOk.of_evaluations {σ : Type} {maximize : Int → Alg (AlgState K σ) Unit} {s : AlgState K σ} {b first each : Nat}
    (h : Evaluations maximize s first each) (hs : s.calls = []) (k : Int) {ds rest : List Nat}
    {r : Except Exn Unit} {t : AlgState K σ} (e : maximize k s ds = .ok (r, t) rest) :
    CostOk k ⟨b, first, each, each, false⟩ r t.calls.length := by
  refine CostOk.of_between (hi := each) (lo := each) ⟨fun j hj ds r t rest e => ?_, h.2⟩ hs k e
  obtain ⟨h1, h2⟩ := h.1 j hj ds r t rest e
  exact ⟨h1, fun hr => (h2 hr).ge⟩

/-- From properties of `maximize` to a property of a run. -/
theorem run_ok [LinearOrder K] {m : MadeAlgorithm K} {env : Env K} {fuel n : Nat} {val : BV → K} {k : Int} {plan : Plan}
    {f : AlgState K m.σ → AlgState K m.σ} (hf : ∀ s, m.finalize s = pure (.ok (), f s)) (hcalls : ∀ s, (f s).calls = s.calls)
    (hh : Alg.Holds (m.maximize env fuel) m.start
      (fun _ t => TrueCalls n val t.calls ∧ BestOf t.calls (f t).solution)
      (fun t => TrueCalls n val t.calls ∧ BestExceptLast plan.batch (f t)))
    (hc : ∀ ds r t rest, m.maximize env fuel m.start ds = .ok (r, t) rest → CostOk k plan r t.calls.length) :
    Sim.Post (m.run env fuel) (RunOk n val k plan) := by
  unfold MadeAlgorithm.run
  refine Sim.Post.bind (P := fun r => (match r.1 with
    | .ok _ => TrueCalls n val r.2.calls ∧ BestOf r.2.calls (f r.2).solution
    | .error _ => TrueCalls n val r.2.calls ∧ BestExceptLast plan.batch (f r.2)) ∧ CostOk k plan r.1 r.2.calls.length) ?_ ?_
  · intro ds
    have h := hh ds
    have hc := hc ds
    cases e : m.maximize env fuel m.start ds with
    | ok a rest =>
      rw [e] at h
      obtain ⟨r, t⟩ := a
      refine ⟨?_, hc r t rest e⟩
      cases r with
      | ok _ => exact h
      | error _ => exact h
    | throw _ => rw [e] at h; exact h.elim
    | ub => rw [e] at h; exact h.elim
    | out => trivial
  · rintro ⟨r, t⟩ ⟨h, c1, c2⟩
    cases r with
    | ok a =>
      refine Sim.Post.bind (P := fun x => x = (.ok (), f t)) (by rw [hf]; exact Sim.Post.pure rfl) ?_
      rintro _ rfl
      refine Sim.Post.pure ⟨?_, fun _ => ?_, fun e => (by cases e), fun hk => ?_, fun hk hs => (c2 hk hs).elim rfl⟩
      · simp only [hcalls]; exact h.1
      · simp only [hcalls]; exact h.2
      · simp only [hcalls]
        exact ⟨(c1 hk).1, fun _ => (c1 hk).2 rfl⟩
    | error x =>
      have other : x ≠ .lastEvaluation → RunOk n val k plan ⟨.error x, t.solution, t.calls⟩ := by
        intro hx
        refine ⟨h.1, fun e => (by cases e), fun e => ?_, fun hk => ⟨(c1 hk).1, fun e => (by cases e)⟩, fun _ _ e => (by cases e)⟩
        simp only [Except.error.injEq] at e
        exact (hx e).elim
      cases x with
      | lastEvaluation =>
        refine Sim.Post.bind (P := fun x => x = (.ok (), f t)) (by rw [hf]; exact Sim.Post.pure rfl) ?_
        rintro _ rfl
        refine Sim.Post.pure ⟨?_, fun e => (by cases e), fun _ => ?_, fun hk => ⟨?_, fun e => (by cases e)⟩,
          fun _ _ e => (by cases e)⟩
        · simp only [hcalls]; exact h.1
        · exact h.2
        · simp only [hcalls]; exact (c1 hk).1
      | targetReached => exact Sim.Post.pure (other (by decide))
      | runtimeError => exact Sim.Post.pure (other (by decide))

/-- The same for an algorithm which has nothing to do in `finalize`. -/
theorem run_ok_plain [LinearOrder K] {σ : Type} {start : AlgState K σ} {maximize : Env K → Nat → Alg (AlgState K σ) Unit}
    {env : Env K} {fuel n : Nat} {val : BV → K} {k : Int} {plan : Plan}
    (hh : Alg.Holds (maximize env fuel) start (fun _ t => TrueCalls n val t.calls ∧ BestOf t.calls t.solution)
      (fun t => TrueCalls n val t.calls ∧ BestExceptLast plan.batch t))
    (hc : ∀ ds r t rest, maximize env fuel start ds = .ok (r, t) rest → CostOk k plan r t.calls.length) :
    Sim.Post (MadeAlgorithm.run ⟨σ, start, maximize, noFinalize⟩ env fuel) (RunOk n val k plan) :=
  run_ok (m := ⟨σ, start, maximize, noFinalize⟩) (f := id) (fun _ => rfl) (fun _ => rfl) hh hc

/-- An interruption of an algorithm which makes its evaluations one by one. -/
theorem bestExceptLast_one [LinearOrder K] {σ : Type} {t : AlgState K σ} (h : t.calls = [] ∨ BestOf t.calls t.solution) :
    BestExceptLast 1 t := ⟨t.calls, [], by simp, by simp, h⟩

/-! ## Construction -/

theorem algorithmNew_pos {n : Nat} (hn : 0 < n) : algorithmNew n = ok () := by
  unfold algorithmNew
  rw [if_neg (by omega)]

theorem popNew_ok [Zero K] {size : Int} {n : Nat} (hs : 1 ≤ size) (hn : 0 < n) : ∃ p : Pop K, Pop.new size n = ok p := by
  unfold Pop.new
  rw [if_neg (by omega), if_neg (by omega)]
  exact ⟨_, rfl⟩

theorem nbhNew_ok {n : Nat} (hn : 0 < n) : ∃ b, Nbh.new n = ok b := by
  unfold Nbh.new
  rw [Outcome.assert_pos (decide_eq_true hn)]
  exact ⟨_, rfl⟩

theorem makeNeighborhood_ok {o : AlgOptions} {n : Nat} (h : NeighborhoodOk o n) :
    ∃ k s, makeNeighborhood o n = ok (k, s) ∧ s.Valid k ∧ s.n = n ∧ 0 < n := by
  unfold makeNeighborhood
  rcases h with ⟨h | h, hn⟩ | ⟨h | h, h1, h2⟩
  · rw [if_pos h]
    obtain ⟨s, e, e1, e2, _⟩ := (construct_ready .singleBitFlip n).1 hn
    rw [e]
    exact ⟨_, s, rfl, e2.toValid, e1, hn⟩
  · rw [if_neg (by rw [h]; decide), if_pos h]
    obtain ⟨s, e, e1, e2, _⟩ := (construct_ready (.standardBitMutation newStandard) n).1 hn
    rw [e]
    exact ⟨_, s, rfl, standard_valid e2.toValid, e1, hn⟩
  all_goals
    obtain ⟨r, hr⟩ := Int.eq_ofNat_of_zero_le (show 0 ≤ o.radius by omega)
    have h0 : radiusOf o.radius = ok r := by
      rw [hr]
      unfold radiusOf
      rw [Outcome.assert_pos (decide_eq_true (by omega))]
      rfl
  · rw [if_neg (by rw [h]; decide), if_neg (by rw [h]; decide), if_pos h, h0]
    obtain ⟨s, e, e1, e2, _⟩ := (construct_ready (.hammingBall r) n).1 ⟨by omega, by omega⟩
    change ∃ k s, (do let s ← (Sampler.hammingBall r).construct n; ok (Sampler.hammingBall r, s)) = ok (k, s) ∧ _
    rw [e]
    exact ⟨_, s, rfl, e2.toValid, e1, by omega⟩
  · rw [if_neg (by rw [h]; decide), if_neg (by rw [h]; decide), if_neg (by rw [h]; decide), if_pos h, h0]
    obtain ⟨s, e, e1, e2, _⟩ := (construct_ready (.hammingSphere r) n).1 ⟨by omega, by omega⟩
    change ∃ k s, (do let s ← (Sampler.hammingSphere r).construct n; ok (Sampler.hammingSphere r, s)) = ok (k, s) ∧ _
    rw [e]
    exact ⟨_, s, rfl, e2.toValid, e1, by omega⟩

/-! ## Local search -/

section
variable [LinearOrder K] [Zero K] {env : Env K} {n : Nat} {val : BV → K} {o : AlgOptions} {lib : AlgLib}

/-- The environment computes the function, and does so incrementally if that is asked for. -/
def EnvOk (env : Env K) (o : AlgOptions) (n : Nat) (val : BV → K) : Prop :=
  env.Computes n val ∧
  (o.incrementalEvaluation = true → env.fn.hasInc = true → env.fn.size = n ∧ IncrementalExact env.fn)

/-- An algorithm is made and its runs are as expected. -/
def MadeOk (env : Env K) (val : BV → K) (n : Nat) (o : AlgOptions) (plan : Plan) (made : Outcome (MadeAlgorithm K)) : Prop :=
  ∃ m, made = ok m ∧ ∀ fuel, Sim.Post (m.run env fuel) (RunOk n val o.numIterations plan)

theorem makeRandomSearch_ok (hn : 0 < n) (henv : env.Computes n val) :
    MadeOk env val n o (.sequential 1) (makeRandomSearch o n) := by
  unfold makeRandomSearch
  rw [algorithmNew_pos hn]
  refine ⟨_, rfl, fun fuel => run_ok_plain
    ((randomSearch_best henv (by simp [newState]) (by simp [newState]) rfl o.numIterations fuel).mono
      (fun _ _ h => ⟨h.1, h.2.best⟩) (fun _ h => ⟨h.1, bestExceptLast_one (h.2.imp id FirstBestOf.best)⟩))
    (fun ds r t rest e => CostOk.of_evaluations (randomSearch_evaluations env _ fuel) rfl _ e)⟩

theorem makeRandomWalk_ok (hnbh : NeighborhoodOk o n) (hinc : o.incrementalEvaluation = false)
    (henv : env.Computes n val) : MadeOk env val n o (.sequential 1) (makeRandomWalk o n) := by
  obtain ⟨k, s, e, hv, hs, hn⟩ := makeNeighborhood_ok hnbh
  unfold makeRandomWalk
  simp only [e, algorithmNew_pos hn]
  refine ⟨_, rfl, fun fuel => run_ok_plain ?_
    (fun ds r t rest e => CostOk.of_evaluations (randomWalk_evaluations env _ _ _ _ fuel) rfl _ e)⟩
  rw [hinc]
  exact (randomWalk_best henv (by simp [newStart]) (by simp [newState]) hv hs rfl o.numIterations fuel).mono
    (fun _ _ h => ⟨h.1, h.2.best⟩) (fun _ h => ⟨h.1, bestExceptLast_one (h.2.imp id FirstBestOf.best)⟩)

theorem makeSimulatedAnnealing_ok (hnbh : NeighborhoodOk o n) (henv : env.Computes n val) :
    MadeOk env val n o (.sequential (1 + 2 * o.saNumTrials.toNat)) (makeSimulatedAnnealing o n) := by
  obtain ⟨k, s, e, hv, hs, hn⟩ := makeNeighborhood_ok hnbh
  unfold makeSimulatedAnnealing
  simp only [e, algorithmNew_pos hn]
  exact ⟨_, rfl, fun fuel => run_ok_plain
    ((simulatedAnnealing_best henv (by simp [newStart]) (by simp [newState]) hv hs rfl _ _ o.numIterations fuel).mono
      (fun _ _ h => ⟨h.1, h.2.best⟩) (fun _ h => ⟨h.1, bestExceptLast_one (h.2.imp id FirstBestOf.best)⟩))
    (fun ds r t rest e => CostOk.of_evaluations (simulatedAnnealing_evaluations env _ _ _ _ _ fuel) rfl _ e)⟩

theorem strict_compare {b : Bool} :
    (∀ x y : K, (if b then fun a b => decide (b < a) else fun a b : K => decide (b ≤ a)) x y = true → y ≤ x) ∧
    (∀ x y : K, (if b then fun a b => decide (b < a) else fun a b : K => decide (b ≤ a)) x y = false → x ≤ y) := by
  cases b <;> refine ⟨fun x y h => ?_, fun x y h => ?_⟩ <;> simp at h
  · exact h
  · exact le_of_lt h
  · exact le_of_lt h
  · exact h

theorem rls_run {p : RlsParams K} (hcomp1 : ∀ a b, p.compare a b = true → b ≤ a)
    (hcomp2 : ∀ a b, p.compare a b = false → a ≤ b)
    (hinc : p.incremental = true → env.fn.hasInc = true → env.fn.size = n ∧ IncrementalExact env.fn)
    (hp : p.startingPoint.length = n) (henv : env.Computes n val) {s : Nbh} (hv : s.Valid p.sampler) (hn : s.n = n) (k : Int)
    (fuel : Nat) :
    Sim.Post (MadeAlgorithm.run ⟨RlsData, newState n ⟨s, 0⟩, fun env => rlsMaximize env p k, rlsFinalize⟩ env fuel)
      (RunOk n val k ⟨1, 1, 1, 1, decide (0 < p.patience)⟩) := by
  refine run_ok (f := fun s => { s with solution := (s.data.nbh.origin, s.solution.2) }) (fun _ => rfl) (fun _ => rfl)
    ((rlsMaximize_holds henv hcomp1 hcomp2 hinc hp (by simp [newState]) hv hn rfl k fuel).mono
      (fun _ _ h => ⟨h.true_calls, h.best⟩) (fun _ h => ⟨h.true_calls, bestExceptLast_one h.best⟩)) ?_
  intro ds r t rest e
  by_cases hp : 0 < p.patience
  · refine ⟨fun hk => ⟨?_, fun _ h => by simp [hp] at h⟩, fun _ h => by simp [hp] at h⟩
    obtain ⟨j, rfl⟩ := Int.eq_ofNat_of_zero_le (le_of_lt hk)
    have := randomLocalSearch_evaluations_le env p _ (by exact_mod_cast hk) fuel e
    simpa [newState] using this
  · rw [decide_eq_false hp]
    exact CostOk.of_evaluations (randomLocalSearch_evaluations env p (by omega) _ fuel) rfl _ e

theorem makeRandomLocalSearch_ok (hnbh : NeighborhoodOk o n) (henv : EnvOk env o n val) :
    MadeOk env val n o ⟨1, 1, 1, 1, decide (0 < o.rlsPatience)⟩ (makeRandomLocalSearch o n) := by
  obtain ⟨k, s, e, hv, hs, hn⟩ := makeNeighborhood_ok hnbh
  unfold makeRandomLocalSearch
  simp only [e, algorithmNew_pos hn]
  exact ⟨_, rfl, fun fuel => rls_run (p := madeRlsParams o n k) strict_compare.1 strict_compare.2 henv.2
    (by simp [madeRlsParams, newStart]) henv.1 hv hs _ fuel⟩

theorem makeOnePlusOneEa_ok (hn : 0 < n) (henv : EnvOk env o n val) :
    MadeOk env val n o (.sequential 1) (makeOnePlusOneEa o n) := by
  obtain ⟨s, e, e1, e2, _⟩ := (construct_ready (.standardBitMutation newStandard) n).1 hn
  unfold makeOnePlusOneEa
  simp only [e, algorithmNew_pos hn]
  exact ⟨_, rfl, fun fuel => rls_run (p := onePlusOneParams ⟨o.numIterations, belowInvSqrt n (madeRate o n), o.eaAllowNoMutation,
    o.incrementalEvaluation⟩ newStandard (newStart n)) (fun a b h => by simpa [onePlusOneParams] using h)
    (fun a b h => by simp [onePlusOneParams] at h; exact le_of_lt h) henv.2
    (by simp [onePlusOneParams, newStart]) henv.1 (standard_valid e2.toValid) e1 _ fuel⟩

theorem makeSelfAdjusting_ok (hn : 0 < n) (henv : EnvOk env o n val) :
    MadeOk env val n o (.sequential 1) (makeSelfAdjusting lib o n) := by
  obtain ⟨s, e⟩ := nbhNew_ok hn
  obtain ⟨e1, e2⟩ := nbhNew_valid (p := newStandard) e
  unfold makeSelfAdjusting
  simp only [e, algorithmNew_pos hn]
  exact ⟨_, rfl, fun fuel => run_ok (f := fun s => { s with solution := (s.data.mutation.origin, s.solution.2) }) (fun _ => rfl)
    (fun _ => rfl) ((selfAdjusting_holds henv.1 henv.2 (by simp [newState]) e1 e2 rfl o.numIterations fuel).mono
      (fun _ _ h => ⟨h.true_calls, h.best⟩) (fun _ h => ⟨h.true_calls, bestExceptLast_one h.best⟩))
    (fun ds r t rest e => CostOk.of_evaluations (selfAdjusting_evaluations env _ _ fuel) rfl _ e)⟩

/-! ## The human -/

theorem humanParse_any (n : Nat) : ∀ (fuel : Nat) (s : AlgState K HumanData), Alg.Holds (humanParse n fuel) s
    (fun _ t => t.data.candidate.length = n ∧ ∃ d, t = { s with data := d }) (fun t => ∃ d, t = { s with data := d })
  | 0, _ => fun _ => trivial
  | fuel + 1, s => by
    intro ds
    rw [humanParse_step n fuel s ds rfl rfl]
    by_cases hq : s.data.input.headD [] = "quit".toList
    · rw [if_pos hq]
      exact ⟨_, rfl⟩
    · rw [if_neg hq]
      by_cases hl : (s.data.input.headD []).length < n
      · rw [if_pos hl]
        exact (humanParse_any n fuel { s with data := ⟨(s.data.input.headD []).map (fun c => c != '0'), s.data.input.tail⟩ }
          |>.mono (Q := fun _ t => t.data.candidate.length = n ∧ ∃ d, t = { s with data := d })
          (F := fun t => ∃ d, t = { s with data := d }) (by rintro _ _ ⟨h, d, rfl⟩; exact ⟨h, d, rfl⟩)
          (by rintro _ ⟨d, rfl⟩; exact ⟨d, rfl⟩)) ds
      · rw [if_neg hl]
        exact ⟨by simp at hl ⊢; omega, _, rfl⟩

theorem human_holds (henv : env.Computes n val) {s : AlgState K HumanData} (hcalls : s.calls = []) (k : Int) (fuel : Nat) :
    Alg.Holds (humanMaximize env n k fuel) s (fun _ t => TrueCalls n val t.calls ∧ FirstBestOf t.calls t.solution)
      (fun t => TrueCalls n val t.calls ∧ (t.calls = [] ∨ FirstBestOf t.calls t.solution)) := by
  refine algLoop_holds (fun t => TrueCalls n val t.calls ∧ FirstBestOf t.calls t.solution) _ ?_ ?_ k fuel
  · intro t ht _
    unfold humanIterate
    refine ((humanParse_any n fuel t).mono (fun _ _ h => h) (by rintro _ ⟨d, rfl⟩; exact ⟨ht.1, Or.inr ht.2⟩)).bind ?_
    rintro _ _ ⟨h, d, rfl⟩
    refine Alg.Holds.get_bind (evaluate_bind henv h ?_ ⟨ht.1, Or.inr ht.2⟩)
    refine Alg.Holds.modify ?_
    refine ⟨?_, ?_⟩
    · split <;> exact ht.1.snoc h
    · have := ht.2.update (d.candidate, val d.candidate)
      split
      · next h => rw [if_pos h] at this; exact this
      · next h => rw [if_neg h] at this; exact this
  · unfold humanInit
    refine ((humanParse_any n fuel s).mono (fun _ _ h => h) (by
      rintro _ ⟨d, rfl⟩; simp only [hcalls]; exact ⟨TrueCalls.nil, Or.inl trivial⟩)).bind ?_
    rintro _ _ ⟨h, d, rfl⟩
    refine Alg.Holds.get_bind (evaluate_bind henv h ?_ (by simp only [hcalls]; exact ⟨TrueCalls.nil, Or.inl trivial⟩))
    refine Alg.Holds.modify ?_
    simp only [hcalls]
    exact ⟨TrueCalls.nil.snoc h, [], [], rfl, by simp, by simp⟩

theorem humanParse_counts (n : Nat) : ∀ fuel : Nat,
    Alg.Counts True (fun _ : HumanData => True) 0 0 (humanParse n fuel : Alg (AlgState K HumanData) Unit)
  | 0 => by intro s ds r rest _ e; cases e
  | fuel + 1 => by
    unfold humanParse
    refine Alg.Counts.get_bind (fun s _ => Alg.Counts.data_bind (fun _ _ => trivial) (fun _ => Alg.Counts.ite
      (fun _ => Alg.Counts.lift) (fun _ => Alg.Counts.lift_bind (fun x _ => Alg.Counts.data_bind (fun _ _ => trivial) (fun _ =>
        Alg.Counts.ite (fun _ => humanParse_counts n fuel) (fun _ => Alg.Counts.ite
          (fun _ => Alg.Counts.data (fun _ _ => trivial)) (fun _ => Alg.Counts.pure)))))))

/-- C84: the human algorithm makes one evaluation, and one more per iteration. -/
theorem human_evaluations (env : Env K) (n : Nat) (s : AlgState K HumanData) (fuel : Nat) :
    Evaluations (fun k => humanMaximize env n k fuel) s 1 1 := by
  refine Evaluations.of_counts (φ := fun _ => True) ?_ ?_ trivial
  · exact (humanParse_counts n fuel).step (fun _ => Alg.Counts.get_bind (fun s _ => Alg.Counts.evaluate_bind (fun _ =>
      Alg.Counts.setSolution)))
  · exact (humanParse_counts n fuel).step (fun _ => Alg.Counts.get_bind (fun s _ => Alg.Counts.evaluate_bind (fun _ =>
      Alg.Counts.updateSolution)))

theorem makeHuman_ok (hn : 0 < n) (henv : env.Computes n val) :
    MadeOk env val n o (.sequential 1) (makeHuman lib o n) := by
  unfold makeHuman
  rw [algorithmNew_pos hn]
  exact ⟨_, rfl, fun fuel => run_ok_plain ((human_holds henv rfl o.numIterations fuel).mono
    (fun _ _ h => ⟨h.1, h.2.best⟩) (fun _ h => ⟨h.1, bestExceptLast_one (h.2.imp id FirstBestOf.best)⟩))
    (fun ds r t rest e => CostOk.of_evaluations (human_evaluations env n _ fuel) rfl _ e)⟩

/-! ## Evolutionary algorithms -/

theorem makeMuPlusLambda_ok (hn : 0 < n) (hmu : 1 ≤ o.eaMu) (hlam : 1 ≤ o.eaLambda) (henv : env.Computes n val) :
    MadeOk env val n o (.generations (max o.eaMu.toNat o.eaLambda.toNat) o.eaMu.toNat o.eaLambda.toNat)
      (makeMuPlusLambda o n) := by
  obtain ⟨p, hp⟩ := popNew_ok (K := K) hmu hn
  obtain ⟨q, hq⟩ := popNew_ok (K := K) hlam hn
  obtain ⟨b, hb⟩ := nbhNew_ok hn
  have hpv := (popNew_valid hp).2.2
  have hqv := (popNew_valid hq).2.2
  rw [Int.toNat_natCast] at hpv hqv
  obtain ⟨pool, hpool, _⟩ := plusNew_valid (by omega) (by omega) hn hpv hqv
  have hd : muPlusNew n o.eaMu o.eaLambda newStandard = ok ⟨p, q, b, newStandard, pool⟩ := by
    unfold muPlusNew
    rw [hp, ok_bind, hq, ok_bind, hpool, ok_bind, Int.toNat_natCast, hb]
    rfl
  obtain ⟨v1, v2⟩ := muPlusNew_valid hd
  rw [Int.toNat_natCast] at v1 v2
  unfold makeMuPlusLambda
  rw [algorithmNew_pos hn, ok_bind, hd]
  exact ⟨_, rfl, fun fuel => run_ok_plain
    ((muPlusLambda_best (s := newState n _) henv _ v1 v2 rfl o.numIterations fuel).mono
      (fun _ _ h => ⟨h.1, h.2.1⟩) (fun _ h => h))
    (fun ds r t rest e => CostOk.of_evaluations (muPlusLambda_evaluations (s := newState n _) env _ v1.parents.bvs
      v1.offsprings.bvs fuel) rfl _ e)⟩

theorem makeMuCommaLambda_ok (hn : 0 < n) (hmu : 1 ≤ o.eaMu) (hle : o.eaMu ≤ o.eaLambda) (henv : env.Computes n val) :
    MadeOk env val n o (.generations o.eaLambda.toNat 1 o.eaLambda.toNat) (makeMuCommaLambda o n) := by
  obtain ⟨p, hp⟩ := popNew_ok (K := K) hmu hn
  obtain ⟨q, hq⟩ := popNew_ok (K := K) (show 1 ≤ o.eaLambda by omega) hn
  obtain ⟨b, hb⟩ := nbhNew_ok hn
  have hpv := (popNew_valid hp).2.2
  have hqv := (popNew_valid hq).2.2
  have hc : commaNew p q = ok () := by
    unfold commaNew Pop.size
    rw [hpv.bvs, hqv.bvs, if_pos (by omega)]
  have hd : muCommaNew n o.eaMu o.eaLambda newStandard = ok ⟨p, q, b, newStandard, ()⟩ := by
    unfold muCommaNew
    rw [hp, ok_bind, hq, ok_bind, hc, ok_bind, Int.toNat_natCast, hb]
    rfl
  have v1 := (muCommaNew_valid hd).1
  rw [Int.toNat_natCast] at v1
  unfold makeMuCommaLambda
  rw [algorithmNew_pos hn, ok_bind, hd]
  exact ⟨_, rfl, fun fuel => run_ok_plain
    ((muCommaLambda_best (s := newState n _) henv _ (by simp [newState]) v1 (by omega) rfl o.numIterations fuel).mono
      (fun _ _ h => h) (fun _ h => h))
    (fun ds r t rest e => CostOk.of_evaluations (muCommaLambda_evaluations (s := newState n _) env _ v1.parents.bvs
      v1.offsprings.bvs fuel) rfl _ e)⟩

theorem makeGeneticAlgorithm_ok (hn : 0 < n) (hmu : 1 ≤ o.eaMu) (henv : env.Computes n val) :
    MadeOk env val n o (.generations o.eaMu.toNat o.eaMu.toNat o.eaMu.toNat) (makeGeneticAlgorithm o n) := by
  obtain ⟨p, hp⟩ := popNew_ok (K := K) hmu hn
  obtain ⟨b, hb⟩ := nbhNew_ok hn
  have hc : commaNew p p = ok () := by
    unfold commaNew
    rw [if_pos (le_refl _)]
  have hd : gaNew n o.eaMu newStandard = ok ⟨p, p, b, newStandard, ⟨permIdentity p.size, 0, 0, 2⟩⟩ := by
    unfold gaNew
    rw [hp, ok_bind, ok_bind, hc, ok_bind, Int.toNat_natCast, hb]
    rfl
  obtain ⟨v1, v2⟩ := gaNew_valid hd
  rw [Int.toNat_natCast] at v1
  unfold makeGeneticAlgorithm
  rw [algorithmNew_pos hn, ok_bind, hd]
  exact ⟨_, rfl, fun fuel => run_ok_plain
    ((geneticAlgorithm_best (s := newState n _) henv _ v1 v2 rfl o.numIterations fuel).mono (fun _ _ h => h) (fun _ h => h))
    (fun ds r t rest e => CostOk.of_evaluations (geneticAlgorithm_evaluations (s := newState n _) env _ v1.parents.bvs
      v1.offsprings.bvs fuel) rfl _ e)⟩

theorem makeTwoRate_ok (hn : 8 ≤ n) (hlam : 1 ≤ o.eaLambda)
    (hrate : 2 / (n : Rat) ≤ o.eaMutationRate.getD (2 / (n : Rat)) ∧ o.eaMutationRate.getD (2 / (n : Rat)) ≤ 1 / 4)
    (henv : env.Computes n val) :
    MadeOk env val n o (.generations o.eaLambda.toNat 1 o.eaLambda.toNat) (makeTwoRate o n) := by
  obtain ⟨p, hp⟩ := popNew_ok (K := K) hlam (show 0 < n by omega)
  obtain ⟨b, hb⟩ := nbhNew_ok (show 0 < n by omega)
  have hpv := (popNew_valid hp).2.2
  rw [Int.toNat_natCast] at hpv
  obtain ⟨b1, b2⟩ := nbhNew_valid (p := newStandard) hb
  have hd : twoRateNew n o.eaLambda newStandard = ok ⟨p, b, newStandard, 0⟩ := by
    unfold twoRateNew
    rw [hp, ok_bind, Int.toNat_natCast, hb]
    rfl
  have hq : (madeTwoRateParams o n).Sound := by
    have h0 : (0 : Rat) ≤ 2 / (n : Rat) := by positivity
    refine ⟨h0, ?_, ?_⟩
    all_goals
      unfold madeTwoRateParams
      cases h : o.eaMutationRate with
      | none => simpa [h] using hrate.2
      | some r => rw [h] at hrate; first | exact hrate.1 | exact hrate.2
  unfold makeTwoRate
  rw [algorithmNew_pos (by omega), ok_bind, hd]
  exact ⟨_, rfl, fun fuel => run_ok_plain
    ((twoRate_best (s := newState n ⟨p, b, newStandard, 0⟩) henv hq (by simp [newState]) ⟨by omega, hpv, b1, b2⟩ rfl o.numIterations fuel).mono
      (fun _ _ h => h) (fun _ h => h))
    (fun ds r t rest e => CostOk.of_evaluations (twoRate_evaluations (s := newState n ⟨p, b, newStandard, 0⟩) env _ hpv.bvs fuel) rfl _ e)⟩

theorem makeItEa_ok (hn : 0 < n) (hit : ItOk lib o n) (henv : env.Computes n val) :
    MadeOk env val n o ⟨o.populationSize.toNat, 1, o.populationSize.toNat + (if o.eaItReplacement = 2 then 1 else 0),
      o.populationSize.toNat + (if o.eaItReplacement = 2 ∨ o.eaItReplacement = 3 then 1 else 0), false⟩
      (makeItEa lib o n) := by
  obtain ⟨⟨s1, s2⟩, ⟨r1, r2⟩, ⟨p1, p2⟩, hw, hu⟩ := hit
  obtain ⟨p, hp⟩ := popNew_ok (K := K) (show 1 ≤ o.populationSize by omega) hn
  obtain ⟨b, hb⟩ := nbhNew_ok hn
  have hd : ∃ d : ItData K, itNew n o.populationSize newStandard = ok d := by
    unfold itNew
    rw [hp, ok_bind, Int.toNat_natCast, hb]
    exact ⟨_, rfl⟩
  obtain ⟨d, hd⟩ := hd
  have hv := itNew_valid hd
  rw [Int.toNat_natCast] at hv
  have hsel : setSelectionSize o.populationSize o.selectionSize = ok o.selectionSize.toNat := by
    unfold setSelectionSize
    rw [Outcome.assert_pos (decide_eq_true (by omega)), ok_bind, Outcome.assert_pos (decide_eq_true s2)]
    rfl
  have hrep : (madeItParams lib o n o.selectionSize.toNat).replacement = o.eaItReplacement.toNat := by
    simp [madeItParams, show ¬ o.eaItReplacement < 0 by omega]
  have hq : (madeItParams lib o n o.selectionSize.toNat).Sound n o.populationSize.toNat := by
    refine ⟨?_, ?_, ?_, ?_, by rw [hrep]; omega, ?_, hu⟩
    · change 1 ≤ o.selectionSize.toNat; omega
    · change o.selectionSize.toNat < _; omega
    · cases hm : o.eaMutationRateMin <;> cases hr : o.eaMutationRate <;> simp [madeItParams, hm, hr] at r1 ⊢ <;> exact r1
    · cases hr : o.eaMutationRate <;> simp [madeItParams, hr] at r2 ⊢ <;> exact r2
    · intro h
      rw [hrep] at h
      have := hw (by omega)
      simp only [madeItParams, if_neg (show ¬ o.eaItInitialHammingWeight < 0 by omega)]
      omega
  unfold makeItEa
  rw [algorithmNew_pos hn, ok_bind, hd, ok_bind, hsel]
  refine ⟨_, rfl, fun fuel => run_ok_plain
    ((itEa_best (s := newState n _) henv hq hn (by simp [newState]) hv rfl o.numIterations fuel).mono
      (fun _ _ h => ⟨h.1, h.2.1⟩) (fun _ h => h)) ?_⟩
  intro ds r t rest e
  have := CostOk.of_between (b := o.populationSize.toNat)
    (itEa_evaluations (s := newState n _) env (madeItParams lib o n o.selectionSize.toNat) hv.population.bvs fuel) rfl _ e
  rw [hrep] at this
  have e1 : (o.eaItReplacement.toNat = 2) = (o.eaItReplacement = 2) := by
    apply propext; omega
  have e2 : (o.eaItReplacement.toNat = 3) = (o.eaItReplacement = 3) := by
    apply propext; omega
  simpa only [e1, e2] using this

/-! ## Probability vectors -/

theorem makePbil_ok (hn : 2 ≤ n) (hsel : SelectionOk o) (henv : env.Computes n val) :
    MadeOk env val n o (.generations o.populationSize.toNat 1 o.populationSize.toNat) (makePbil o n) := by
  obtain ⟨size, hsize⟩ := Int.eq_ofNat_of_zero_le (show 0 ≤ o.populationSize from by have := hsel.1; have := hsel.2; omega)
  obtain ⟨sel, hs⟩ := Int.eq_ofNat_of_zero_le (show 0 ≤ o.selectionSize from by have := hsel.1; omega)
  obtain ⟨h1, h2⟩ := hsel
  unfold makePbil
  rw [hsize] at h2 ⊢
  rw [hs] at h1 h2 ⊢
  obtain ⟨p, hp⟩ := popNew_ok (K := K) (size := (size : Int)) (n := n) (by omega) (by omega)
  obtain ⟨_, _, hv⟩ := popNew_valid hp
  rw [Int.toNat_natCast, Int.toNat_natCast] at hv
  rw [Int.toNat_natCast]
  have hd : pbilNew n size = ok (pvNew n ⟨p, List.replicate n 0⟩) := by
    unfold pbilNew
    rw [hp]
    rfl
  rw [algorithmNew_pos (by omega), ok_bind, hd]
  exact ⟨_, rfl, fun fuel => run_ok_plain ((pbil_bounded (s := newState n (pvNew n ⟨p, List.replicate n 0⟩)) henv hn (by omega) (by omega) o.learningRate
    (by simp [newState]) rfl hd o.numIterations fuel).mono (fun _ _ h => h.2) (fun _ h => h.1))
    (fun ds r t rest e => CostOk.of_evaluations (pbil_evaluations (s := newState n (pvNew n ⟨p, List.replicate n 0⟩)) env _ (lam := size) hv.bvs fuel) rfl _ e)⟩

theorem makeNpsPbil_ok (hn : 2 ≤ n) (hsel : SelectionOk o) (henv : env.Computes n val) :
    MadeOk env val n o (.generations o.populationSize.toNat 1 o.populationSize.toNat) (makeNpsPbil o n) := by
  obtain ⟨size, hsize⟩ := Int.eq_ofNat_of_zero_le (show 0 ≤ o.populationSize from by have := hsel.1; have := hsel.2; omega)
  obtain ⟨sel, hs⟩ := Int.eq_ofNat_of_zero_le (show 0 ≤ o.selectionSize from by have := hsel.1; omega)
  obtain ⟨h1, h2⟩ := hsel
  unfold makeNpsPbil
  rw [hsize] at h2 ⊢
  rw [hs] at h1 h2 ⊢
  obtain ⟨p, hp⟩ := popNew_ok (K := K) (size := (size : Int)) (n := n) (by omega) (by omega)
  obtain ⟨_, _, hv⟩ := popNew_valid hp
  rw [Int.toNat_natCast, Int.toNat_natCast] at hv
  rw [Int.toNat_natCast]
  have hd : npsNew n size = ok (pvNew n ⟨p, List.replicate n 0, List.replicate n 0⟩) := by
    unfold npsNew
    rw [hp]
    rfl
  rw [algorithmNew_pos (by omega), ok_bind, hd]
  exact ⟨_, rfl, fun fuel => run_ok_plain ((npsPbil_constant (s := newState n (pvNew n ⟨p, List.replicate n 0, List.replicate n 0⟩)) henv hn (by omega) (by omega) o.learningRate
    (by simp [newState]) rfl hd o.numIterations fuel).mono (fun _ _ h => h.2) (fun _ h => h.1))
    (fun ds r t rest e => CostOk.of_evaluations (npsPbil_evaluations (s := newState n (pvNew n ⟨p, List.replicate n 0, List.replicate n 0⟩)) env _ (lam := size) hv.bvs fuel) rfl _ e)⟩

theorem makeUmda_ok (hn : 2 ≤ n) (hsel : SelectionOk o) (henv : env.Computes n val) :
    MadeOk env val n o (.generations o.populationSize.toNat 1 o.populationSize.toNat) (makeUmda o n) := by
  obtain ⟨size, hsize⟩ := Int.eq_ofNat_of_zero_le (show 0 ≤ o.populationSize from by have := hsel.1; have := hsel.2; omega)
  obtain ⟨sel, hs⟩ := Int.eq_ofNat_of_zero_le (show 0 ≤ o.selectionSize from by have := hsel.1; omega)
  obtain ⟨h1, h2⟩ := hsel
  unfold makeUmda
  rw [hsize] at h2 ⊢
  rw [hs] at h1 h2 ⊢
  obtain ⟨p, hp⟩ := popNew_ok (K := K) (size := (size : Int)) (n := n) (by omega) (by omega)
  obtain ⟨_, _, hv⟩ := popNew_valid hp
  rw [Int.toNat_natCast, Int.toNat_natCast] at hv
  rw [Int.toNat_natCast]
  have hd : umdaNew n size = ok (pvNew n p) := by
    unfold umdaNew
    rw [hp]
    rfl
  rw [algorithmNew_pos (by omega), ok_bind, hd]
  exact ⟨_, rfl, fun fuel => run_ok_plain ((umda_bounded (s := newState n (pvNew n p)) henv hn (by omega) (by omega)
    (by simp [newState]) rfl hd o.numIterations fuel).mono (fun _ _ h => h.2) (fun _ h => h.1))
    (fun ds r t rest e => CostOk.of_evaluations (umda_evaluations (s := newState n (pvNew n p)) env _ (lam := size) hv.bvs fuel) rfl _ e)⟩

theorem makeCompactGa_ok (hn : 2 ≤ n) (henv : env.Computes n val) :
    MadeOk env val n o (.generations 2 1 (if lib.debug then 4 else 2)) (makeCompactGa lib o n) := by
  unfold makeCompactGa
  rw [algorithmNew_pos (by omega)]
  exact ⟨_, rfl, fun fuel => run_ok_plain
    ((compactGa_bounded (s := newState n _) henv hn _ (by simp [newState]) rfl (by simp) (by simp) rfl o.numIterations fuel).mono
      (fun _ _ h => h.2) (fun _ h => h.1))
    (fun ds r t rest e => CostOk.of_evaluations (compactGa_evaluations env _ _ fuel) rfl _ e)⟩

theorem makeMmas_ok (hn : 2 ≤ n) (henv : env.Computes n val) : MadeOk env val n o (.sequential 1) (makeMmas o n) := by
  unfold makeMmas
  rw [algorithmNew_pos (by omega)]
  exact ⟨_, rfl, fun fuel => run_ok_plain
    ((mmas_bounded (s := newState n _) henv hn (q := madeMmasParams o) strict_compare.1 strict_compare.2 (by simp [newState]) rfl
      (by simp) rfl o.numIterations fuel).mono (fun _ _ h => h.2) (fun _ h => h.1))
    (fun ds r t rest e => CostOk.of_evaluations (mmas_evaluations env _ _ fuel) rfl _ e)⟩

/-- The parameters of UMDA with random affine maps. -/
theorem madeRamParams_sound {size : Nat} (hram : RamOk o) (hsize : o.populationSize = size) : (madeRamParams o).Sound size := by
  refine ⟨⟨hram.selection.1, by rw [← hsize]; exact hram.selection.2⟩, ?_, hram.bounds, hram.period, hram.parameter⟩
  obtain ⟨h1, h2⟩ := hram.mode
  have : o.ramTsLengthMode = 0 ∨ o.ramTsLengthMode = 1 ∨ o.ramTsLengthMode = 2 ∨ o.ramTsLengthMode = 3 ∨
    o.ramTsLengthMode = 4 ∨ o.ramTsLengthMode = 5 := by omega
  change ramModeOf o.ramTsLengthMode ≠ .unknown
  rcases this with h | h | h | h | h | h <;> rw [h] <;> decide

theorem ramNew_ok {size : Nat} (hs : 0 < size) (hn : 0 < n) :
    ∃ d : PvData (RamRest K), ramNew n (size : Int) = ok d ∧ d.rest.x.bvs.length = size := by
  obtain ⟨p, hp⟩ := popNew_ok (K := K) (size := (size : Int)) (n := n) (by omega) hn
  have hv := (popNew_valid hp).2.2
  rw [Int.toNat_natCast] at hv
  unfold ramNew
  rw [hp]
  exact ⟨_, rfl, hv.bvs⟩

theorem makeRamUmda_ok (hn : 2 ≤ n) (hram : RamOk o) (henv : env.Computes n val) :
    MadeOk env val n o (.generations o.populationSize.toNat 1 o.populationSize.toNat) (makeRamUmda o n) := by
  obtain ⟨size, hsize⟩ := Int.eq_ofNat_of_zero_le (show 0 ≤ o.populationSize by
    have := hram.selection.1; have := hram.selection.2; omega)
  have hq := madeRamParams_sound hram hsize
  obtain ⟨d, hd, hv⟩ := ramNew_ok (K := K) (size := size) (n := n)
    (by have := hram.selection.1; have := hram.selection.2; omega) (by omega)
  unfold makeRamUmda
  rw [algorithmNew_pos (by omega), ok_bind, hsize, hd, Int.toNat_natCast]
  exact ⟨_, rfl, fun fuel => run_ok_plain
    ((ramUmda_best (s := newState n _) henv hn hq (by simp [newState]) rfl hd hram.length rfl o.numIterations fuel).mono
      (fun _ _ h => h.2) (fun _ h => h.1))
    (fun ds r t rest e => CostOk.of_evaluations (ramUmda_evaluations (s := newState n (ramSetLength o.ramTsLength d)) env _ hv fuel) rfl _ e)⟩

theorem makeRamUmda2_ok (hn : 2 ≤ n) (hram : RamOk o) (henv : env.Computes n val) :
    MadeOk env val n o (.generations o.populationSize.toNat 1 o.populationSize.toNat) (makeRamUmda2 o n) := by
  obtain ⟨size, hsize⟩ := Int.eq_ofNat_of_zero_le (show 0 ≤ o.populationSize by
    have := hram.selection.1; have := hram.selection.2; omega)
  have hq := madeRamParams_sound hram hsize
  obtain ⟨d, hd, hv⟩ := ramNew_ok (K := K) (size := size) (n := n)
    (by have := hram.selection.1; have := hram.selection.2; omega) (by omega)
  unfold makeRamUmda2
  rw [algorithmNew_pos (by omega), ok_bind, hsize, hd, Int.toNat_natCast]
  exact ⟨_, rfl, fun fuel => run_ok_plain
    ((ramUmda2_best (s := newState n _) henv hn hq (by simp [newState]) rfl hd hram.length rfl o.numIterations fuel).mono
      (fun _ _ h => h.2) (fun _ h => h.1))
    (fun ds r t rest e => CostOk.of_evaluations (ramUmda2_evaluations (s := newState n (ramSetLength o.ramTsLength d)) env _ hv fuel) rfl _ e)⟩

/-! ## Walsh moments and MIMIC -/

theorem makeHea_ok (full : Bool) (hhea : HeaOk o n) (henv : env.Computes n val) :
    MadeOk env val n o (.generations o.populationSize.toNat 1 o.populationSize.toNat) (makeHea full o n) := by
  obtain ⟨⟨s1, s2⟩, hr, hn, hb⟩ := hhea
  obtain ⟨size, hsize⟩ := Int.eq_ofNat_of_zero_le (show 0 ≤ o.populationSize by omega)
  obtain ⟨p, hp⟩ := popNew_ok (K := K) (size := (size : Int)) (n := n) (by omega) hn
  have hv := (popNew_valid hp).2.2
  rw [Int.toNat_natCast, Int.toNat_natCast] at hv
  obtain ⟨m, hm, _⟩ := Moment.new_spec (full := full) hn
  have hd : heaNew full n size = ok ⟨m, m, p, ⟨m, m, List.replicate n 0, 0⟩, 0⟩ := by
    unfold heaNew Herding.new
    simp only [hm, ok_bind, hp, Int.toNat_natCast]
  have hq : (madeHeaParams full o n).Sound size := by
    refine ⟨⟨s1, by rw [← hsize]; exact s2⟩, hr, fun h => ?_⟩
    have h2 : (2 : Rat) ≤ n := by exact_mod_cast hb h
    change 0 ≤ 1 / (n : Rat) ∧ 1 / (n : Rat) < 1
    exact ⟨by positivity, by rw [div_lt_one (by linarith)]; linarith⟩
  unfold makeHea
  rw [algorithmNew_pos hn, ok_bind, hsize, hd, Int.toNat_natCast]
  exact ⟨_, rfl, fun fuel => run_ok_plain
    ((hea_best (s := newState n _) henv hq (by simp [newState]) rfl hd o.numIterations fuel).mono
      (fun _ _ h => h.2) (fun _ h => h.1))
    (fun ds r t rest e => CostOk.of_evaluations (hea_evaluations (s := newState n ⟨m, m, p, ⟨m, m, List.replicate n 0, 0⟩, 0⟩) env _
      hv.bvs fuel) rfl _ e)⟩

theorem makeBmPbil_ok (full : Bool) (hn : 0 < n) (hsel : SelectionOk o)
    (hmode : o.bmSamplingMode = 0 ∨ o.bmSamplingMode = 1 ∨ (o.bmSamplingMode = 2 ∧ full = true)) (henv : env.Computes n val) :
    MadeOk env val n o (.generations o.populationSize.toNat 1 o.populationSize.toNat) (makeBmPbil lib full o n) := by
  obtain ⟨s1, s2⟩ := hsel
  obtain ⟨size, hsize⟩ := Int.eq_ofNat_of_zero_le (show 0 ≤ o.populationSize by omega)
  obtain ⟨p, hp⟩ := popNew_ok (K := K) (size := (size : Int)) (n := n) (by omega) hn
  have hv := (popNew_valid hp).2.2
  rw [Int.toNat_natCast, Int.toNat_natCast] at hv
  obtain ⟨m, hm, _⟩ := Moment.new_spec (full := full) hn
  have hd : bmNew full n size = ok ⟨p, m, List.replicate n false, List.replicate n 0, m, m, m⟩ := by
    unfold bmNew
    simp only [hm, ok_bind, hp, Int.toNat_natCast]
  have hq : (madeBmParams full o).Sound size := by
    refine ⟨⟨s1, by rw [← hsize]; exact s2⟩, ?_, ?_⟩
    · change bmSamplingOf o.bmSamplingMode ≠ .unknown
      rcases hmode with h | h | ⟨h, _⟩ <;> rw [h] <;> decide
    · change bmSamplingOf o.bmSamplingMode = .synchronous → full = true
      rcases hmode with h | h | ⟨h, h'⟩
      · rw [h]; intro h; cases h
      · rw [h]; intro h; cases h
      · intro _; exact h'
  unfold makeBmPbil
  rw [algorithmNew_pos hn, ok_bind, hsize, hd, Int.toNat_natCast]
  exact ⟨_, rfl, fun fuel => run_ok_plain
    ((bm_best (s := newState n _) henv hq lib.logistic (by simp [newState]) rfl hd o.numIterations fuel).mono
      (fun _ _ h => h.2) (fun _ h => h.1))
    (fun ds r t rest e => CostOk.of_evaluations (bm_evaluations (s := newState n
      ⟨p, m, List.replicate n false, List.replicate n 0, m, m, m⟩) env _ _ hv.bvs fuel) rfl _ e)⟩

theorem makeMimic_ok (hn : 2 ≤ n) (hsel : 1 ≤ o.selectionSize ∧ o.selectionSize < o.populationSize)
    (hlog : ∀ x, 1 ≤ x → 0 ≤ lib.log x) (henv : env.Computes n val) :
    MadeOk env val n o (.generations o.populationSize.toNat 1 o.populationSize.toNat) (makeMimic lib o n) := by
  obtain ⟨s1, s2⟩ := hsel
  obtain ⟨size, hsize⟩ := Int.eq_ofNat_of_zero_le (show 0 ≤ o.populationSize by omega)
  obtain ⟨sel, hs⟩ := Int.eq_ofNat_of_zero_le (show 0 ≤ o.selectionSize by omega)
  obtain ⟨p, hp⟩ := popNew_ok (K := K) (size := (size : Int)) (n := n) (by omega) (by omega)
  have hv := (popNew_valid hp).2.2
  rw [Int.toNat_natCast, Int.toNat_natCast] at hv
  have hd : ∃ d : MimicData K, mimicNew n size = ok d ∧ d.population = p := by
    unfold mimicNew
    rw [hp, ok_bind]
    simp only [if_pos (show (1 : Int) < size by omega)]
    exact ⟨_, rfl, rfl⟩
  obtain ⟨d, hd, e⟩ := hd
  rw [← e] at hv
  unfold makeMimic
  rw [algorithmNew_pos (by omega), ok_bind, hsize, hd, Int.toNat_natCast, hs]
  exact ⟨_, rfl, fun fuel => run_ok_plain
    ((mimic_best (s := newState n _) henv hlog hn (by omega) (by omega) (by simp [newState]) rfl hd o.numIterations fuel).mono
      (fun _ _ h => h.2) (fun _ h => h))
    (fun ds r t rest e => CostOk.of_evaluations (mimic_evaluations (s := newState n _) env _ _ hv.bvs fuel) rfl _ e)⟩

/-! ## The factory -/

/-- C85: if the options are in order, the factory makes an algorithm each run of which, whatever the draws, has no undefined
behaviour, evaluates the function at vectors of the right size, makes the announced number of evaluations, and reports a best
evaluation; a run which has used up its budget reports one among the evaluations of all generations but the last. -/
theorem makeAlgorithm_ok {plan : Plan} (h : Accepted lib o n plan) (henv : env.Computes n val)
    (hinc : o.incrementalEvaluation = true → env.fn.hasInc = true → env.fn.size = n ∧ IncrementalExact env.fn) :
    ∃ m : MadeAlgorithm K, makeAlgorithm lib o n = .own (ok m) ∧
      ∀ fuel, Sim.Post (m.run env fuel) (RunOk n val o.numIterations plan) := by
  have key : ∃ made, makeAlgorithm lib o n = .own made ∧ MadeOk env val n o plan made := by
    unfold makeAlgorithm
    cases h with
    | randomSearch h hn => simp only [h]; exact ⟨_, rfl, makeRandomSearch_ok hn henv⟩
    | randomWalk h hnbh hinc => simp only [h]; exact ⟨_, rfl, makeRandomWalk_ok hnbh hinc henv⟩
    | human h hn => simp only [h]; exact ⟨_, rfl, makeHuman_ok hn henv⟩
    | randomLocalSearch h hnbh => simp only [h]; exact ⟨_, rfl, makeRandomLocalSearch_ok hnbh ⟨henv, hinc⟩⟩
    | simulatedAnnealing h hnbh => simp only [h]; exact ⟨_, rfl, makeSimulatedAnnealing_ok hnbh henv⟩
    | onePlusOneEa h hn => simp only [h]; exact ⟨_, rfl, makeOnePlusOneEa_ok hn ⟨henv, hinc⟩⟩
    | selfAdjusting h hn => simp only [h]; exact ⟨_, rfl, makeSelfAdjusting_ok hn ⟨henv, hinc⟩⟩
    | muPlusLambda h hn hmu hlam => simp only [h]; exact ⟨_, rfl, makeMuPlusLambda_ok hn hmu hlam henv⟩
    | muCommaLambda h hn hmu hle => simp only [h]; exact ⟨_, rfl, makeMuCommaLambda_ok hn hmu hle henv⟩
    | twoRate h hn hlam hrate => simp only [h]; exact ⟨_, rfl, makeTwoRate_ok hn hlam hrate henv⟩
    | itEa h hn hit => simp only [h]; exact ⟨_, rfl, makeItEa_ok hn hit henv⟩
    | geneticAlgorithm h hn hsize => simp only [h]; exact ⟨_, rfl, makeGeneticAlgorithm_ok hn (by omega) henv⟩
    | pbil h hn hsel => simp only [h]; exact ⟨_, rfl, makePbil_ok hn hsel henv⟩
    | npsPbil h hn hsel => simp only [h]; exact ⟨_, rfl, makeNpsPbil_ok hn hsel henv⟩
    | umda h hn hsel => simp only [h]; exact ⟨_, rfl, makeUmda_ok hn hsel henv⟩
    | ramUmda h hn hram =>
      rcases h with h | h <;> simp only [h]
      · exact ⟨_, rfl, makeRamUmda_ok hn hram henv⟩
      · exact ⟨_, rfl, makeRamUmda2_ok hn hram henv⟩
    | compactGa h hn => simp only [h]; exact ⟨_, rfl, makeCompactGa_ok hn henv⟩
    | mmas h hn => simp only [h]; exact ⟨_, rfl, makeMmas_ok hn henv⟩
    | hea h hhea =>
      rcases h with h | h <;> simp only [h]
      · exact ⟨_, rfl, makeHea_ok true hhea henv⟩
      · exact ⟨_, rfl, makeHea_ok false hhea henv⟩
    | bmPbil h hn hsel hmode =>
      rcases h with h | h <;> simp only [h]
      · exact ⟨_, rfl, makeBmPbil_ok true hn hsel (hmode.imp id (Or.imp id (fun h => ⟨h.1, rfl⟩))) henv⟩
      · exact ⟨_, rfl, makeBmPbil_ok false hn hsel
          (hmode.imp id (Or.imp id (fun h' => absurd (h.symm.trans h'.2) (by decide)))) henv⟩
    | mimic h hn hsel hlog => simp only [h]; exact ⟨_, rfl, makeMimic_ok hn hsel hlog henv⟩
  obtain ⟨made, e, m, rfl, hm⟩ := key
  exact ⟨m, e, hm⟩

end

end Hnco
