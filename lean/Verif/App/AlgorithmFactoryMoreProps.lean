import Verif.App.AlgorithmFactoryMore

/-!
# More properties of the algorithms made by the factory
-/

namespace Hnco

open Outcome

variable {K : Type}

section
variable [LinearOrder K] [Zero K] {env : Env K} {val : BV → K} {n : Nat} {lib : AlgLib} {o : AlgOptions} {m : MadeAlgorithm K}

/-! ## What interrupts a run -/

theorem Accepted.noRefusal {plan : Plan} (h : Accepted lib o n plan) : NoRefusal o := by
  cases h with
  | itEa h hn hit => exact ⟨fun _ => hit.replacement, fun h' => by omega, fun h' => by omega, fun h' => by omega⟩
  | geneticAlgorithm h hn hsize => exact ⟨fun h' => by omega, fun _ => hsize, fun h' => by omega, fun h' => by omega⟩
  | ramUmda h hn hram => exact ⟨fun h' => by omega, fun h' => by omega, fun _ => hram.mode, fun h' => by omega⟩
  | bmPbil h hn hsel hmode => exact ⟨fun h' => by omega, fun h' => by omega, fun h' => by omega, fun _ => by omega⟩
  | _ => exact ⟨fun h' => by omega, fun h' => by omega, fun h' => by omega, fun h' => by omega⟩

/-- C85: an exception which ends a run of an algorithm made by the factory has been raised by the function, given the
evaluations which have been made; the user who plays the part of the algorithm may end the run too. -/
theorem makeAlgorithm_interrupted (hq : NoRefusal o) (h30 : o.algorithm ≠ 30) (h : makeAlgorithm lib o n = .own (ok m))
    {fuel : Nat} {ds rest : List Nat} {r : RunResult K} {e : Exn} (hr : m.run env fuel ds = .ok r rest)
    (he : r.ending = .error e) :
    (∃ x, env.stop r.calls x = some e) ∨ (∃ x, env.fn.eval x = .throw e) ∨ ∃ x v l, env.fn.evalInc x v l = .throw e :=
  makeAlgorithm_calm hq h30 h fuel ds r rest e hr he

/-- The function raises no exception by itself. -/
def Env.NeverThrows (env : Env K) : Prop :=
  (∀ x e, env.fn.eval x ≠ .throw e) ∧ ∀ x v l e, env.fn.evalInc x v l ≠ .throw e

/-- C84, C85: if nothing stops the function, a run with a number `k > 0` of iterations ends normally, with a best evaluation as its
solution and the announced number of evaluations. -/
theorem makeAlgorithm_uninterrupted {plan : Plan} (h : Accepted lib o n plan) (h30 : o.algorithm ≠ 30)
    (henv : env.Computes n val)
    (hinc : o.incrementalEvaluation = true → env.fn.hasInc = true → env.fn.size = n ∧ IncrementalExact env.fn)
    (hthrow : env.NeverThrows) (hstop : ∀ calls x, env.stop calls x = none) (hk : 0 < o.numIterations) :
    ∃ m : MadeAlgorithm K, makeAlgorithm lib o n = .own (ok m) ∧ ∀ fuel, Sim.Post (m.run env fuel) (fun r =>
      r.ending = .ok () ∧ r.solution ∈ r.calls ∧ (∀ c ∈ r.calls, c.1.length = n ∧ c.2 = val c.1 ∧ c.2 ≤ r.solution.2) ∧
      r.calls.length ≤ plan.first + o.numIterations.toNat * plan.hi ∧
      (plan.stops = false → plan.first + o.numIterations.toNat * plan.lo ≤ r.calls.length)) := by
  obtain ⟨m, hm, hrun⟩ := makeAlgorithm_ok h henv hinc
  refine ⟨m, hm, fun fuel ds => ?_⟩
  have h1 := hrun fuel ds
  cases hr : m.run env fuel ds with
  | ok r rest =>
    rw [hr] at h1
    have hend : r.ending = .ok () := by
      cases he : r.ending with
      | ok u => rfl
      | error e =>
        rcases makeAlgorithm_interrupted h.noRefusal h30 hm hr he with ⟨x, hx⟩ | ⟨x, hx⟩ | ⟨x, v, l, hx⟩
        · rw [hstop] at hx; cases hx
        · exact (hthrow.1 x e hx).elim
        · exact (hthrow.2 x v l e hx).elim
    refine ⟨hend, (h1.finished hend).1, fun c hc => ⟨(h1.values c hc).1, (h1.values c hc).2, (h1.finished hend).2 c hc⟩,
      (h1.cost hk).1, (h1.cost hk).2 hend⟩
  | throw e => rw [hr] at h1; exact h1.elim
  | ub => rw [hr] at h1; exact h1.elim
  | out => trivial

/-- C84, C85: if the function is stopped only after `budget` evaluations, a run without a number of iterations of an algorithm
which does not stop by itself uses up its budget. -/
theorem makeAlgorithm_uses_budget {plan : Plan} (h : Accepted lib o n plan) (h30 : o.algorithm ≠ 30) (hplan : plan.stops = false)
    (henv : env.Computes n val)
    (hinc : o.incrementalEvaluation = true → env.fn.hasInc = true → env.fn.size = n ∧ IncrementalExact env.fn)
    (hthrow : env.NeverThrows) {budget : Nat}
    (hstop : ∀ calls x e, env.stop calls x = some e → e = .lastEvaluation ∧ budget ≤ calls.length) (hk : o.numIterations ≤ 0) :
    ∃ m : MadeAlgorithm K, makeAlgorithm lib o n = .own (ok m) ∧ ∀ fuel, Sim.Post (m.run env fuel) (fun r =>
      r.ending = .error .lastEvaluation ∧ budget ≤ r.calls.length ∧ (∀ c ∈ r.calls, c.1.length = n ∧ c.2 = val c.1) ∧
      ∃ done last, r.calls = done ++ last ∧ last.length < plan.batch ∧
        (done = [] ∨ (r.solution ∈ done ∧ ∀ c ∈ done, c.2 ≤ r.solution.2))) := by
  obtain ⟨m, hm, hrun⟩ := makeAlgorithm_ok h henv hinc
  refine ⟨m, hm, fun fuel ds => ?_⟩
  have h1 := hrun fuel ds
  cases hr : m.run env fuel ds with
  | ok r rest =>
    rw [hr] at h1
    have hend : r.ending = .error .lastEvaluation ∧ budget ≤ r.calls.length := by
      cases he : r.ending with
      | ok u => exact (h1.endless hk hplan he).elim
      | error e =>
        rcases makeAlgorithm_interrupted h.noRefusal h30 hm hr he with ⟨x, hx⟩ | ⟨x, hx⟩ | ⟨x, v, l, hx⟩
        · obtain ⟨rfl, h2⟩ := hstop _ _ _ hx
          exact ⟨rfl, h2⟩
        · exact (hthrow.1 x e hx).elim
        · exact (hthrow.2 x v l e hx).elim
    exact ⟨hend.1, hend.2, h1.values, h1.stopped hend.1⟩
  | throw e => rw [hr] at h1; exact h1.elim
  | ub => rw [hr] at h1; exact h1.elim
  | out => trivial

/-! ## Complete search -/

/-- C85: complete search evaluates no vector twice; at a normal end it has evaluated all of them and its solution is a global
maximum; a run which is interrupted reports a best evaluation.  It ends after at most `2 ^ n` turns and uses no draw. -/
theorem makeAlgorithm_complete_search (h : o.algorithm = 0) (hn : 0 < n) (henv : env.Computes n val) :
    ∃ m : MadeAlgorithm K, makeAlgorithm lib o n = .own (ok m) ∧ ∀ fuel, 2 ^ n ≤ fuel → Sim.Within 0 (m.run env fuel) (fun r =>
      (∀ c ∈ r.calls, c.1.length = n ∧ c.2 = val c.1) ∧ (r.calls.map Prod.fst).Nodup ∧
      (r.ending = .ok () → (∀ x : BV, x.length = n → x ∈ r.calls.map Prod.fst) ∧ r.solution.1.length = n ∧
        r.solution.2 = val r.solution.1 ∧ ∀ x : BV, x.length = n → val x ≤ r.solution.2) ∧
      (∀ e, r.ending = .error e → r.calls = [] ∨ (r.solution ∈ r.calls ∧ ∀ c ∈ r.calls, c.2 ≤ r.solution.2))) := by
  unfold makeAlgorithm
  rw [if_pos h]
  unfold makeCompleteSearch
  rw [algorithmNew_pos hn]
  refine ⟨_, rfl, fun fuel hf => ?_⟩
  obtain ⟨l, hl, hw⟩ := completeMaximize_within (env := env) henv hn hf
  have hval : ∀ l' : List BV, l' <+: l → (∀ c ∈ l'.map (fun x => (x, val x)), c.1.length = n ∧ c.2 = val c.1) ∧
      ((l'.map (fun x => (x, val x))).map Prod.fst).Nodup := by
    intro l' hp
    refine ⟨fun c hc => ?_, ?_⟩
    · obtain ⟨x, hx, rfl⟩ := List.mem_map.mp hc
      exact ⟨hl.1 x (hp.subset hx), rfl⟩
    · rw [List.map_map]
      change (l'.map (fun x => x)).Nodup
      rw [List.map_id']
      exact hl.exactly_once.1.sublist hp.sublist
  refine (run_within (P := fun s calls => calls = l.map (fun x => (x, val x)) ∧ BestOf calls s)
    (E := fun s calls => (∃ l', l' <+: l ∧ calls = l'.map (fun x => (x, val x))) ∧ (calls = [] ∨ BestOf calls s)) hw).mono
    (le_refl _) ?_
  rintro ⟨ending, solution, calls⟩ hr
  simp only at hr ⊢
  rcases hr with ⟨he, hc, hb⟩ | ⟨⟨e, he⟩, ⟨l', hp, hc⟩, hb⟩
  · obtain ⟨h1, h2⟩ := hval l List.prefix_rfl
    have hall : ∀ x : BV, x.length = n → (x, val x) ∈ calls := by
      intro x hx
      rw [hc]
      exact List.mem_map.mpr ⟨x, (hl.exactly_once.2 x).mpr hx, rfl⟩
    rw [← hc] at h1 h2
    refine ⟨h1, h2, fun _ => ⟨fun x hx => List.mem_map.mpr ⟨_, hall x hx, rfl⟩, (h1 _ hb.1).1, (h1 _ hb.1).2,
      fun x hx => hb.2 _ (hall x hx)⟩, fun e he' => ?_⟩
    rw [he] at he'; cases he'
  · obtain ⟨h1, h2⟩ := hval l' hp
    rw [← hc] at h1 h2
    refine ⟨h1, h2, fun he' => ?_, fun _ _ => hb⟩
    rw [he] at he'; cases he'

/-! ## Hill climbing -/

/-- What is expected of a run of hill climbing, where neighbours are at distance `r`. -/
def ClimbOk (n : Nat) (val : BV → K) (k : Int) (r : Nat) (q : RunResult K) : Prop :=
  (∀ c ∈ q.calls, c.1.length = n ∧ c.2 = val c.1) ∧
  (q.ending = .ok () → (q.solution ∈ q.calls ∧ ∀ c ∈ q.calls, c.2 ≤ q.solution.2) ∧
    (k ≤ 0 ∨ 2 ^ n ≤ k → ∀ y : BV, y.length = n → bvHammingDistance q.solution.1 y = ok r → val y ≤ val q.solution.1)) ∧
  (∀ e, q.ending = .error e → q.calls = [] ∨ q.solution ∈ q.calls)

theorem climb_run {σ : Type} {start : AlgState K σ} {maximize : Env K → Nat → Alg (AlgState K σ) Unit} {fuel c r : Nat} {k : Int}
    (h : Alg.Within c (maximize env fuel) start
      (fun _ t => TrueCalls n val t.calls ∧ BestOf t.calls t.solution ∧
        (t.lastIteration = true → LocalMax n val (fun x y => bvHammingDistance x y = ok r) t.solution.1) ∧
        (k ≤ 0 ∨ 2 ^ n ≤ k → t.lastIteration = true))
      (fun t => TrueCalls n val t.calls ∧ (t.calls = [] ∨ t.solution ∈ t.calls))) :
    Sim.Within c (MadeAlgorithm.run ⟨σ, start, maximize, noFinalize⟩ env fuel) (ClimbOk n val k r) := by
  refine (run_within (P := fun s calls => TrueCalls n val calls ∧ BestOf calls s ∧
      (k ≤ 0 ∨ 2 ^ n ≤ k → LocalMax n val (fun x y => bvHammingDistance x y = ok r) s.1))
    (E := fun s calls => TrueCalls n val calls ∧ (calls = [] ∨ s ∈ calls))
    (h.mono (le_refl _) (fun _ t ht => ⟨ht.1, ht.2.1, fun hk => ht.2.2.1 (ht.2.2.2 hk)⟩) (fun _ ht => ht))).mono (le_refl _) ?_
  rintro ⟨ending, solution, calls⟩ hr
  rcases hr with ⟨he, hc, hb, hl⟩ | ⟨⟨e, he⟩, hc, hb⟩
  · refine ⟨hc, fun _ => ⟨hb, fun hk y hy hd => hl hk y hy hd⟩, fun e he' => ?_⟩
    simp only at he he'
    rw [he] at he'; cases he'
  · refine ⟨hc, fun he' => ?_, fun _ _ => hb⟩
    simp only at he he'
    rw [he] at he'; cases he'

theorem makeIterator_ok {r : Nat} (hit : IteratorOk o n r) : 0 < n ∧ 1 ≤ r ∧ r ≤ n ∧
    ((∃ it, makeIterator o n = ok (.singleBitFlip it) ∧ r = 1 ∧ it.current.length = n) ∨
      ∃ it, makeIterator o n = ok (.hammingSphere it) ∧ it.current.length = n ∧ it.radius = r ∧ it.bitIndexes.length = r) := by
  unfold makeIterator
  rcases hit with ⟨h, hn, rfl⟩ | ⟨h, hr, h1, h2⟩
  · rw [if_pos h]
    exact ⟨hn, le_refl _, hn, .inl ⟨_, rfl, rfl, by simp [SingleBitFlipIterator.new]⟩⟩
  · rw [if_neg (by omega), if_pos h]
    obtain ⟨it, hit, h3, h4, h5, _⟩ := hammingSphereIterator_new n r h2
    refine ⟨by omega, h1, h2, .inr ⟨it, ?_, h3, h4, by rw [h5, h4]⟩⟩
    unfold radiusOf
    rw [hr, assert_pos (by simp), ok_bind, ok_bind, Int.toNat_natCast, hit]
    rfl

/-- C85: a run of steepest or first ascent hill climbing ends.  At a normal end the solution is a best evaluation, and, unless
the number of iterations is too small, no vector at distance `r` (1 or the radius) is better.  An interrupted run reports an
evaluated vector with its value. -/
theorem makeAlgorithm_hill_climbing {r : Nat} (h : o.algorithm = 150 ∨ o.algorithm = 160) (hit : IteratorOk o n r)
    (henv : env.Computes n val) :
    ∃ m : MadeAlgorithm K, makeAlgorithm lib o n = .own (ok m) ∧ ∀ fuel, 2 ^ n < fuel →
      Sim.Within (n + max o.numIterations.toNat fuel) (m.run env fuel) (ClimbOk n val o.numIterations r) := by
  obtain ⟨hn, h1, h2, hi⟩ := makeIterator_ok hit
  have hne : ∀ x : BV, x.length = n → ∃ y : BV, y.length = n ∧ bvHammingDistance x y = ok r := by
    intro x hx
    obtain ⟨y, h3, h4⟩ := exists_at_distance (r := r) x (by omega)
    exact ⟨y, by omega, h4⟩
  have hp : (newStart n).startingPoint.length = n := by simp [newStart]
  unfold makeAlgorithm
  rcases h with h | h
  · simp only [h]
    unfold makeSteepestAscent
    rcases hi with ⟨it, hi, rfl, hc⟩ | ⟨it, hi, hV⟩
    · rw [hi, ok_bind, algorithmNew_pos hn, ok_bind]
      exact ⟨_, rfl, fun fuel hf => climb_run ((steepestAscent_stops_at_local_maximum (s := newState n ⟨it, _⟩) henv
        (singleBitFlipIter_explores n) hne hp (by simp [newState]) hc (by simp [newState]; omega) rfl o.numIterations hf hf).mono
        (le_refl _) (fun _ _ h => ⟨h.1, h.2.1, h.2.2.1, h.2.2.2.1⟩) (fun _ h => h))⟩
    · rw [hi, ok_bind, algorithmNew_pos hn, ok_bind]
      exact ⟨_, rfl, fun fuel hf => climb_run ((steepestAscent_stops_at_local_maximum (s := newState n ⟨it, _⟩) henv
        (hammingSphereIter_explores h1 h2) hne hp (by simp [newState]) hV (by simp [newState]; omega) rfl o.numIterations hf
        hf).mono (le_refl _) (fun _ _ h => ⟨h.1, h.2.1, h.2.2.1, h.2.2.2.1⟩) (fun _ h => h))⟩
  · simp only [h]
    unfold makeFirstAscent
    rcases hi with ⟨it, hi, rfl, hc⟩ | ⟨it, hi, hV⟩
    · rw [hi, ok_bind, algorithmNew_pos hn, ok_bind]
      exact ⟨_, rfl, fun fuel hf => climb_run ((firstAscent_stops_at_local_maximum (s := newState n ⟨it, _⟩) henv
        (singleBitFlipIter_explores n) hp (by simp [newState]) hc rfl o.numIterations hf hf).mono (by omega) (fun _ _ h => ⟨h.1, h.2.1, h.2.2.1, h.2.2.2.1⟩)
        (fun _ h => ⟨h.1, h.2.imp id And.left⟩))⟩
    · rw [hi, ok_bind, algorithmNew_pos hn, ok_bind]
      exact ⟨_, rfl, fun fuel hf => climb_run ((firstAscent_stops_at_local_maximum (s := newState n ⟨it, _⟩) henv
        (hammingSphereIter_explores h1 h2) hp (by simp [newState]) hV rfl o.numIterations hf hf).mono (by omega) (fun _ _ h => ⟨h.1, h.2.1, h.2.2.1, h.2.2.2.1⟩)
        (fun _ h => ⟨h.1, h.2.imp id And.left⟩))⟩

/-! ## Options which are refused -/

/-- C85: options which are not in order are refused with an exception. -/
theorem makeAlgorithm_refuses (h : Refused o n) : makeAlgorithm (K := K) lib o n = .own (Outcome.throw .runtimeError) := by
  have hpop : ∀ size : Int, size ≤ 0 → ∀ n : Int, (Pop.new size n : Outcome (Pop K)) = Outcome.throw .runtimeError := by
    intro size hs n
    unfold Pop.new
    rw [if_pos hs]
  unfold makeAlgorithm
  cases h with
  | number h =>
    simp only [algorithmNumbers, List.mem_cons, List.not_mem_nil, or_false, not_or] at h
    simp only [h, if_false, or_self]
  | neighborhood h hnbh =>
    have hm : makeNeighborhood o n = Outcome.throw .runtimeError := by
      unfold makeNeighborhood
      rw [if_neg (by omega), if_neg (by omega), if_neg (by omega), if_neg (by omega)]
    rcases h with h | h | h <;> simp only [h]
    · unfold makeRandomWalk; rw [hm]; rfl
    · unfold makeRandomLocalSearch; rw [hm]; rfl
    · unfold makeSimulatedAnnealing; rw [hm]; rfl
  | iterator h hit =>
    have hm : makeIterator o n = Outcome.throw .runtimeError := by
      unfold makeIterator
      rw [if_neg (by omega), if_neg (by omega)]
    rcases h with h | h <;> simp only [h]
    · unfold makeSteepestAscent; rw [hm]; rfl
    · unfold makeFirstAscent; rw [hm]; rfl
  | population h hn hsize =>
    have hmom : ∀ full, ∃ m, Moment.new full (n : Int) = ok m := fun full => by
      obtain ⟨m, hm, _⟩ := Moment.new_spec (full := full) hn
      exact ⟨m, hm⟩
    obtain ⟨m1, hm1⟩ := hmom true
    obtain ⟨m2, hm2⟩ := hmom false
    simp only [List.mem_cons, List.not_mem_nil, or_false] at h
    rcases h with h | h | h | h | h | h | h | h | h | h | h <;> simp only [h]
    · unfold makeItEa itNew; rw [algorithmNew_pos hn, ok_bind, hpop _ hsize]; rfl
    · unfold makePbil pbilNew; rw [algorithmNew_pos hn, ok_bind, hpop _ hsize]; rfl
    · unfold makeNpsPbil npsNew; rw [algorithmNew_pos hn, ok_bind, hpop _ hsize]; rfl
    · unfold makeUmda umdaNew; rw [algorithmNew_pos hn, ok_bind, hpop _ hsize]; rfl
    · unfold makeRamUmda ramNew; rw [algorithmNew_pos hn, ok_bind, hpop _ hsize]; rfl
    · unfold makeRamUmda2 ramNew; rw [algorithmNew_pos hn, ok_bind, hpop _ hsize]; rfl
    · unfold makeHea heaNew; rw [algorithmNew_pos hn, ok_bind, hm1, ok_bind, ok_bind, hpop _ hsize]; rfl
    · unfold makeHea heaNew; rw [algorithmNew_pos hn, ok_bind, hm2, ok_bind, ok_bind, hpop _ hsize]; rfl
    · unfold makeBmPbil bmNew; rw [algorithmNew_pos hn, ok_bind, hpop _ hsize]; rfl
    · unfold makeBmPbil bmNew; rw [algorithmNew_pos hn, ok_bind, hpop _ hsize]; rfl
    · unfold makeMimic mimicNew; rw [algorithmNew_pos hn, ok_bind, hpop _ hsize]; rfl
  | mimic h hn hsize =>
    simp only [h]
    unfold makeMimic mimicNew
    rw [algorithmNew_pos hn, ok_bind]
    by_cases h0 : o.populationSize ≤ 0
    · rw [hpop _ h0]; rfl
    · obtain ⟨p, hp⟩ := popNew_ok (K := K) (size := o.populationSize) (n := n) (by omega) hn
      rw [hp, ok_bind]
      simp only [if_neg (show ¬ 1 < o.populationSize by omega)]
      rfl
  | parents h hn hmu =>
    simp only [List.mem_cons, List.not_mem_nil, or_false] at h
    rcases h with h | h | h | h <;> simp only [h]
    · unfold makeMuPlusLambda muPlusNew; rw [algorithmNew_pos hn, ok_bind, hpop _ hmu]; rfl
    · unfold makeMuCommaLambda muCommaNew; rw [algorithmNew_pos hn, ok_bind, hpop _ hmu]; rfl
    · unfold makeGeneticAlgorithm gaNew; rw [algorithmNew_pos hn, ok_bind, hpop _ hmu]; rfl
    · unfold makeLambdaGa lambdaNew; rw [algorithmNew_pos hn, ok_bind, hpop _ hmu]; rfl
  | offsprings h hn hlam =>
    have hmu : (Pop.new o.eaMu n : Outcome (Pop K)) = Outcome.throw .runtimeError ∨ ∃ p, (Pop.new o.eaMu n : Outcome (Pop K)) = ok p := by
      by_cases h0 : o.eaMu ≤ 0
      · exact .inl (hpop _ h0 _)
      · exact .inr (popNew_ok (by omega) hn)
    simp only [List.mem_cons, List.not_mem_nil, or_false] at h
    rcases h with h | h | h <;> simp only [h]
    · unfold makeMuPlusLambda muPlusNew
      rw [algorithmNew_pos hn, ok_bind]
      rcases hmu with hmu | ⟨p, hmu⟩ <;> rw [hmu]
      · rfl
      · rw [ok_bind, hpop _ hlam]; rfl
    · unfold makeMuCommaLambda muCommaNew
      rw [algorithmNew_pos hn, ok_bind]
      rcases hmu with hmu | ⟨p, hmu⟩ <;> rw [hmu]
      · rfl
      · rw [ok_bind, hpop _ hlam]; rfl
    · unfold makeTwoRate twoRateNew; rw [algorithmNew_pos hn, ok_bind, hpop _ hlam]; rfl
  | selection h hn hlt =>
    simp only [h]
    unfold makeMuCommaLambda muCommaNew
    rw [algorithmNew_pos hn, ok_bind]
    by_cases h0 : o.eaMu ≤ 0
    · rw [hpop _ h0]; rfl
    · obtain ⟨p, hp⟩ := popNew_ok (K := K) (size := o.eaMu) (n := n) (by omega) hn
      rw [hp, ok_bind]
      by_cases h1 : o.eaLambda ≤ 0
      · rw [hpop _ h1]; rfl
      · obtain ⟨q, hq⟩ := popNew_ok (K := K) (size := o.eaLambda) (n := n) (by omega) hn
        rw [hq, ok_bind]
        have h2 : p.bvs.length = o.eaMu.toNat := (popNew_valid hp).2.2.bvs
        have h3 : q.bvs.length = o.eaLambda.toNat := (popNew_valid hq).2.2.bvs
        have hc : commaNew p q = Outcome.throw .runtimeError := by
          unfold commaNew Pop.size
          rw [if_neg (by omega)]
        rw [hc]
        rfl

theorem size_zero1 {f : Unit → MadeAlgorithm K} (h : FactoryResult.own ((algorithmNew 0).made f) = .own (ok m)) : False := by
  obtain ⟨a, ha, _⟩ := Outcome.made_eq_ok (FactoryResult.own.inj h)
  exact lt_irrefl 0 (algorithmNew_eq_ok ha)

theorem size_zero2 {α : Type} {g : Unit → Outcome α} {f : α → MadeAlgorithm K}
    (h : FactoryResult.own ((algorithmNew 0 >>= g).made f) = .own (ok m)) : False := by
  obtain ⟨a, ha, _⟩ := Outcome.made_eq_ok (FactoryResult.own.inj h)
  obtain ⟨_, ha, _⟩ := bind_eq_ok.mp ha
  exact lt_irrefl 0 (algorithmNew_eq_ok ha)

theorem size_zero3 {α β : Type} {p : Outcome β} {g : β → Unit → Outcome α} {f : α → MadeAlgorithm K}
    (h : FactoryResult.own ((p >>= fun b => algorithmNew 0 >>= g b).made f) = .own (ok m)) : False := by
  obtain ⟨a, ha, _⟩ := Outcome.made_eq_ok (FactoryResult.own.inj h)
  obtain ⟨_, _, ha⟩ := bind_eq_ok.mp ha
  obtain ⟨_, ha, _⟩ := bind_eq_ok.mp ha
  exact lt_irrefl 0 (algorithmNew_eq_ok ha)

/-- C85: no algorithm is made for vectors of size zero. -/
theorem makeAlgorithm_size_zero : ¬ ∃ m : MadeAlgorithm K, makeAlgorithm lib o 0 = .own (ok m) := by
  rintro ⟨m, h⟩
  unfold makeAlgorithm at h
  by_cases h0 : o.algorithm = 0
  · rw [if_pos h0] at h
    exact size_zero1 h
  rw [if_neg h0] at h
  clear h0
  by_cases h0 : o.algorithm = 10
  · rw [if_pos h0] at h
    exact size_zero1 h
  rw [if_neg h0] at h
  clear h0
  by_cases h0 : o.algorithm = 20
  · rw [if_pos h0] at h
    exact size_zero3 h
  rw [if_neg h0] at h
  clear h0
  by_cases h0 : o.algorithm = 30
  · rw [if_pos h0] at h
    exact size_zero1 h
  rw [if_neg h0] at h
  clear h0
  by_cases h0 : o.algorithm = 100
  · rw [if_pos h0] at h
    exact size_zero3 h
  rw [if_neg h0] at h
  clear h0
  by_cases h0 : o.algorithm = 150
  · rw [if_pos h0] at h
    exact size_zero3 h
  rw [if_neg h0] at h
  clear h0
  by_cases h0 : o.algorithm = 160
  · rw [if_pos h0] at h
    exact size_zero3 h
  rw [if_neg h0] at h
  clear h0
  by_cases h0 : o.algorithm = 200
  · rw [if_pos h0] at h
    exact size_zero3 h
  rw [if_neg h0] at h
  clear h0
  by_cases h0 : o.algorithm = 300
  · rw [if_pos h0] at h
    exact size_zero2 h
  rw [if_neg h0] at h
  clear h0
  by_cases h0 : o.algorithm = 301
  · rw [if_pos h0] at h
    exact size_zero2 h
  rw [if_neg h0] at h
  clear h0
  by_cases h0 : o.algorithm = 310
  · rw [if_pos h0] at h
    exact size_zero2 h
  rw [if_neg h0] at h
  clear h0
  by_cases h0 : o.algorithm = 320
  · rw [if_pos h0] at h
    exact size_zero2 h
  rw [if_neg h0] at h
  clear h0
  by_cases h0 : o.algorithm = 330
  · rw [if_pos h0] at h
    exact size_zero2 h
  rw [if_neg h0] at h
  clear h0
  by_cases h0 : o.algorithm = 340
  · rw [if_pos h0] at h
    exact size_zero2 h
  rw [if_neg h0] at h
  clear h0
  by_cases h0 : o.algorithm = 400
  · rw [if_pos h0] at h
    exact size_zero2 h
  rw [if_neg h0] at h
  clear h0
  by_cases h0 : o.algorithm = 450
  · rw [if_pos h0] at h
    exact size_zero2 h
  rw [if_neg h0] at h
  clear h0
  by_cases h0 : o.algorithm = 500
  · rw [if_pos h0] at h
    exact size_zero2 h
  rw [if_neg h0] at h
  clear h0
  by_cases h0 : o.algorithm = 501
  · rw [if_pos h0] at h
    exact size_zero2 h
  rw [if_neg h0] at h
  clear h0
  by_cases h0 : o.algorithm = 600
  · rw [if_pos h0] at h
    exact size_zero2 h
  rw [if_neg h0] at h
  clear h0
  by_cases h0 : o.algorithm = 610
  · rw [if_pos h0] at h
    exact size_zero2 h
  rw [if_neg h0] at h
  clear h0
  by_cases h0 : o.algorithm = 612
  · rw [if_pos h0] at h
    exact size_zero2 h
  rw [if_neg h0] at h
  clear h0
  by_cases h0 : o.algorithm = 700
  · rw [if_pos h0] at h
    exact size_zero1 h
  rw [if_neg h0] at h
  clear h0
  by_cases h0 : o.algorithm = 800
  · rw [if_pos h0] at h
    exact size_zero1 h
  rw [if_neg h0] at h
  clear h0
  by_cases h0 : o.algorithm = 900
  · rw [if_pos h0] at h
    exact size_zero2 h
  rw [if_neg h0] at h
  clear h0
  by_cases h0 : o.algorithm = 901
  · rw [if_pos h0] at h
    exact size_zero2 h
  rw [if_neg h0] at h
  clear h0
  by_cases h0 : o.algorithm = 1000
  · rw [if_pos h0] at h
    exact size_zero2 h
  rw [if_neg h0] at h
  clear h0
  by_cases h0 : o.algorithm = 1001
  · rw [if_pos h0] at h
    exact size_zero2 h
  rw [if_neg h0] at h
  clear h0
  by_cases h0 : o.algorithm = 1100
  · rw [if_pos h0] at h
    exact size_zero2 h
  rw [if_neg h0] at h
  clear h0
  split at h
  · cases h
  · cases FactoryResult.own.inj h

/-! ## The (1+(lambda, lambda)) genetic algorithm -/

theorem run_result {σ : Type} {start : AlgState K σ} {maximize : Env K → Nat → Alg (AlgState K σ) Unit} {fuel : Nat}
    {ds rest : List Nat} {r : RunResult K}
    (h : MadeAlgorithm.run ⟨σ, start, maximize, noFinalize⟩ env fuel ds = .ok r rest) :
    ∃ x t, maximize env fuel start ds = .ok (x, t) rest ∧ r = ⟨x, t.solution, t.calls⟩ := by
  unfold MadeAlgorithm.run at h
  change Sim.bind _ _ ds = _ at h
  unfold Sim.bind at h
  cases hm : maximize env fuel start ds with
  | ok a rest' =>
    simp only [hm] at h
    obtain ⟨x, t⟩ := a
    cases x with
    | ok u => cases h; exact ⟨_, _, rfl, rfl⟩
    | error e => cases e <;> (cases h; exact ⟨_, _, rfl, rfl⟩)
  | throw x => simp only [hm] at h; cases h
  | ub => simp only [hm] at h; cases h
  | out => simp only [hm] at h; cases h

theorem makeLambdaGa_eq (h : o.algorithm = 450) (hmu : 1 ≤ o.eaMu) (hle : o.eaMu ≤ n) :
    ∃ d : LambdaData K, lambdaNew n o.eaMu = ok d ∧ makeAlgorithm lib o n = .own (ok ⟨LambdaData K, newState n d,
      fun env => lambdaMaximize env o.eaCrossoverBias o.numIterations, noFinalize⟩) := by
  obtain ⟨p, hp⟩ := popNew_ok (K := K) (size := o.eaMu) (n := n) (by omega) (by omega)
  have hd : ∃ d : LambdaData K, lambdaNew n o.eaMu = ok d := by
    obtain ⟨b, hb, _⟩ := (construct_ready (.hammingSphere 1) n).1 ⟨by omega, by omega⟩
    unfold lambdaNew
    rw [hp, ok_bind, Int.toNat_natCast, hb, ok_bind, assert_pos (decide_eq_true (by omega)), ok_bind,
      assert_pos (decide_eq_true (by omega)), ok_bind, assert_pos (decide_eq_true hle), ok_bind]
    exact ⟨_, rfl⟩
  obtain ⟨d, hd⟩ := hd
  refine ⟨d, hd, ?_⟩
  unfold makeAlgorithm
  simp only [h]
  unfold makeLambdaGa
  rw [algorithmNew_pos (by omega), ok_bind, hd]
  rfl

/-- C85: the factory makes a (1+(lambda, lambda)) genetic algorithm with `ea_mu` for lambda.  Every run without undefined
behaviour makes one evaluation and `2 * lambda` per iteration; it reports an evaluated vector with its value, which is as good as
the first vector and all vectors made by crossover.  Partial, as `lambda_best_partial` is: there is undefined behaviour if all
values of a generation are equal, and a best mutant may be lost. -/
theorem makeAlgorithm_lambda_partial (h : o.algorithm = 450) (hmu : 1 ≤ o.eaMu) (hle : o.eaMu ≤ n) (henv : env.Computes n val) :
    ∃ m : MadeAlgorithm K, makeAlgorithm lib o n = .own (ok m) ∧ ∀ fuel, Sim.PostOk (m.run env fuel) (fun r =>
      (∀ c ∈ r.calls, c.1.length = n ∧ c.2 = val c.1) ∧
      (r.ending = .ok () → r.solution ∈ r.calls ∧ ∀ (j : Nat) c, r.calls[j]? = some c →
        (j = 0 ∨ o.eaMu.toNat ≤ (j - 1) % (2 * o.eaMu.toNat)) → c.2 ≤ r.solution.2) ∧
      (∀ e, r.ending = .error e → r.calls = [] ∨ r.solution ∈ r.calls) ∧
      (0 < o.numIterations → r.calls.length ≤ 1 + o.numIterations.toNat * (2 * o.eaMu.toNat) ∧
        (r.ending = .ok () → 1 + o.numIterations.toNat * (2 * o.eaMu.toNat) ≤ r.calls.length)) ∧
      (o.numIterations ≤ 0 → r.ending ≠ .ok ())) := by
  obtain ⟨d, hd, hm⟩ := makeLambdaGa_eq (K := K) (lib := lib) h hmu hle
  refine ⟨_, hm, fun fuel ds r rest hr => ?_⟩
  obtain ⟨x, t, ht, rfl⟩ := run_result hr
  have hv := lambdaNew_valid hd
  rw [Int.toNat_natCast] at hv
  have hb := lambda_best_partial (s := newState n d) henv o.eaCrossoverBias (by simp [newState]) hv rfl o.numIterations fuel
    ds (x, t) rest ht
  obtain ⟨c1, c2⟩ := CostOk.of_evaluations (b := 1) (lambda_evaluations (s := newState n d) env o.eaCrossoverBias hv.offsprings.bvs
    fuel) rfl _ ht
  cases x with
  | ok u =>
    exact ⟨hb.1, fun _ => hb.2, fun e he => (by cases he), fun hk => ⟨(c1 hk).1, fun _ => (c1 hk).2 rfl rfl⟩,
      fun hk => (c2 hk rfl)⟩
  | error e =>
    exact ⟨hb.1, fun he => (by cases he), fun _ _ => hb.2, fun hk => ⟨(c1 hk).1, fun he => (by cases he)⟩,
      fun hk => (c2 hk rfl)⟩

/-- C85 (negative part): the option for lambda has no effect on the (1+(lambda, lambda)) genetic algorithm. -/
theorem lambda_option_ignored (h : o.algorithm = 450) (lam : Int) :
    makeAlgorithm (K := K) lib { o with eaLambda := lam } n = makeAlgorithm lib o n := by
  unfold makeAlgorithm
  simp only [h]
  rfl

/-- C85 (negative part): with the default options, except for the algorithm, an assertion fails in the constructor of the
(1+(lambda, lambda)) genetic algorithm if vectors have fewer than 10 bits. -/
theorem lambda_default_undefined (hn : 0 < n) (hlt : n < 10) :
    makeAlgorithm (K := K) lib { algorithm := 450 } n = .own ub := by
  obtain ⟨p, hp⟩ := popNew_ok (K := K) (size := 10) (n := n) (by omega) hn
  obtain ⟨b, hb, _⟩ := (construct_ready (.hammingSphere 1) n).1 ⟨by omega, hn⟩
  have hd : (lambdaNew n 10 : Outcome (LambdaData K)) = ub := by
    unfold lambdaNew
    rw [hp, ok_bind, Int.toNat_natCast, hb, ok_bind, assert_pos (decide_eq_true (by omega)), ok_bind,
      assert_pos (decide_eq_true (by omega)), ok_bind, assert_neg (decide_eq_false (by omega))]
    rfl
  change FactoryResult.own (makeLambdaGa _ n) = _
  unfold makeLambdaGa
  rw [algorithmNew_pos hn, ok_bind, hd]
  rfl

/-! ## The genetic algorithm -/

theorem Alg.error_bind {S α β : Type} {g : Alg S α} {f : α → Alg S β} {s t : S} {e : Exn} (h : g s = pure (.error e, t)) :
    (g >>= f) s = pure (.error e, t) := by
  funext ds
  rw [Alg.bind_apply, h]
  rfl

/-- C85 (negative part): the size of tournaments is checked only when the genetic algorithm runs.  If it is not in order, every
run ends with an exception before the first evaluation. -/
theorem tournament_refused_in_run (h : o.algorithm = 400) (hn : 0 < n) (hmu : 1 ≤ o.eaMu)
    (hsize : o.eaTournamentSize < 2 ∨ o.eaMu ≤ o.eaTournamentSize) :
    ∃ m : MadeAlgorithm K, makeAlgorithm lib o n = .own (ok m) ∧ ∀ env fuel ds,
      m.run env fuel ds = .ok ⟨.error .runtimeError, (List.replicate n false, 0), []⟩ ds := by
  obtain ⟨p, hp⟩ := popNew_ok (K := K) hmu hn
  obtain ⟨b, hb⟩ := nbhNew_ok hn
  have hc : commaNew p p = ok () := by
    unfold commaNew
    rw [if_pos (le_refl _)]
  have hd : gaNew n o.eaMu newStandard = ok ⟨p, p, b, newStandard, ⟨permIdentity p.size, 0, 0, 2⟩⟩ := by
    unfold gaNew
    rw [hp, ok_bind, ok_bind, hc, ok_bind, Int.toNat_natCast, hb]
    rfl
  have hs : p.size = o.eaMu.toNat := (popNew_valid hp).2.2.bvs
  refine ⟨⟨EaData K Tournament, newState n ⟨p, p, b, newStandard, ⟨permIdentity p.size, 0, 0, 2⟩⟩,
    fun env => gaMaximize env ⟨madeMutation o n, o.eaTournamentSize⟩ o.numIterations, noFinalize⟩, ?_, fun env fuel ds => ?_⟩
  · unfold makeAlgorithm
    simp only [h]
    unfold makeGeneticAlgorithm
    rw [algorithmNew_pos hn, ok_bind, hd]
    rfl
  · have ht : Tournament.setSize p.size o.eaTournamentSize ⟨permIdentity p.size, 0, 0, 2⟩ = Outcome.throw .runtimeError := by
      unfold Tournament.setSize
      rw [if_neg (by omega)]
    have hi : initTournament (K := K) o.eaTournamentSize (newState n ⟨p, p, b, newStandard, ⟨permIdentity p.size, 0, 0, 2⟩⟩) =
        pure (.error .runtimeError, newState n ⟨p, p, b, newStandard, ⟨permIdentity p.size, 0, 0, 2⟩⟩) := by
      funext ds
      unfold initTournament
      rw [Alg.bind_apply]
      change (Alg.lift (Tournament.setSize p.size o.eaTournamentSize ⟨permIdentity p.size, 0, 0, 2⟩) >>= _ :
        Alg (AlgState K (EaData K Tournament)) Unit) _ ds = _
      rw [ht]
      rfl
    have hg : gaMaximize env ⟨madeMutation o n, o.eaTournamentSize⟩ o.numIterations fuel
        (newState n ⟨p, p, b, newStandard, ⟨permIdentity p.size, 0, 0, 2⟩⟩) =
        pure (.error .runtimeError, newState n ⟨p, p, b, newStandard, ⟨permIdentity p.size, 0, 0, 2⟩⟩) :=
      Alg.error_bind (Alg.error_bind hi)
    unfold MadeAlgorithm.run
    simp only [hg]
    rfl

/-! ## The default options -/

/-- C85: the default options are in order for every algorithm of the library but those which are treated separately (complete
search, hill climbing and the (1+(lambda, lambda)) genetic algorithm). -/
theorem default_accepted (hn : 8 ≤ n) (hlog : ∀ x, 1 ≤ x → 0 ≤ lib.log x) (huniform : ∀ d j, lib.uniform d j < 1) {a : Int}
    (ha : a ∈ ([10, 20, 30, 100, 200, 300, 301, 310, 320, 330, 340, 400, 500, 501, 600, 610, 612, 700, 800, 900, 901, 1000, 1001,
      1100] : List Int)) :
    ∃ plan, Accepted lib { algorithm := a } n plan := by
  have hnbh : NeighborhoodOk { algorithm := a } n := .inl ⟨.inl rfl, by omega⟩
  have hsel : SelectionOk { algorithm := a } := ⟨by simp, by simp⟩
  have hq : (8 : Rat) ≤ n := by exact_mod_cast hn
  have hram : RamOk { algorithm := a } := ⟨hsel, by simp, by simp, by simp, by simp, by norm_num, by norm_num⟩
  have hhea : HeaOk { algorithm := a } n := ⟨hsel, by norm_num, by omega, fun _ => by omega⟩
  simp only [List.mem_cons, List.not_mem_nil, or_false] at ha
  rcases ha with h | h | h | h | h | h | h | h | h | h | h | h | h | h | h | h | h | h | h | h | h | h | h | h
  · exact ⟨_, .randomSearch h (by omega)⟩
  · exact ⟨_, .randomWalk h hnbh rfl⟩
  · exact ⟨_, .human h (by omega)⟩
  · exact ⟨_, .randomLocalSearch h hnbh⟩
  · exact ⟨_, .simulatedAnnealing h hnbh⟩
  · exact ⟨_, .onePlusOneEa h (by omega)⟩
  · exact ⟨_, .selfAdjusting h (by omega)⟩
  · exact ⟨_, .muPlusLambda h (by omega) (by simp) (by simp)⟩
  · exact ⟨_, .muCommaLambda h (by omega) (by simp) (by simp)⟩
  · refine ⟨_, .twoRate h hn (by simp) ⟨le_refl _, ?_⟩⟩
    change 2 / (n : Rat) ≤ 1 / 4
    rw [div_le_div_iff₀ (by linarith) (by norm_num)]
    linarith
  · refine ⟨_, .itEa h (by omega) ⟨by simp, ⟨le_refl _, ?_⟩, by simp, by simp, huniform⟩⟩
    change 1 / (n : Rat) ≤ 1 / 2
    rw [div_le_div_iff₀ (by linarith) (by norm_num)]
    linarith
  · exact ⟨_, .geneticAlgorithm h (by omega) (by simp)⟩
  · exact ⟨_, .pbil h (by omega) hsel⟩
  · exact ⟨_, .npsPbil h (by omega) hsel⟩
  · exact ⟨_, .umda h (by omega) hsel⟩
  · exact ⟨_, .ramUmda (.inl h) (by omega) hram⟩
  · exact ⟨_, .ramUmda (.inr h) (by omega) hram⟩
  · exact ⟨_, .compactGa h (by omega)⟩
  · exact ⟨_, .mmas h (by omega)⟩
  · exact ⟨_, .hea (.inl h) hhea⟩
  · exact ⟨_, .hea (.inr h) hhea⟩
  · exact ⟨_, .bmPbil (.inl h) (by omega) hsel (.inr (.inl rfl))⟩
  · exact ⟨_, .bmPbil (.inr h) (by omega) hsel (.inr (.inl rfl))⟩
  · exact ⟨_, .mimic h (by omega) (by simp) hlog⟩

end

/-! ## Examples -/

/-- Library of the examples. -/
def exampleAlgLib : AlgLib := ⟨fun _ => 0, fun x => x, fun x _ => x, fun _ _ => 0, true, []⟩

/-- The function of the examples, which is never stopped. -/
def exampleFreeEnv : Env Int := { exampleEnv with stop := fun _ _ => none }

/-- The result of a run of an algorithm made by the factory. -/
def exampleRun (o : AlgOptions) (env : Env Int) (fuel : Nat) (ds : List Nat) : Option (RunResult Int) :=
  match makeAlgorithm exampleAlgLib o 3 with
  | .own (.ok m) =>
    match m.run env fuel ds with
    | .ok r _ => some r
    | _ => none
  | _ => none

-- Random local search with three iterations.
example : (exampleRun { numIterations := 3 } exampleFreeEnv 0 [1, 0, 0, 1, 2, 0]).map (fun r => (r.solution, r.calls.length)) =
    some (([true, true, true], 3), 4) := by decide +kernel

-- The budget of five evaluations is used up by the (mu+lambda) EA.
example : (exampleRun { algorithm := 310, eaMu := 2, eaLambda := 2 } exampleEnv 10 (List.replicate 40 1)).map
    (fun r => (r.ending.isOk, r.calls.length)) = some (false, 5) := by decide +kernel

-- Complete search finds the maximum.
example : (exampleRun { algorithm := 0 } exampleFreeEnv 8 []).map (fun r => (r.solution, r.calls.length)) =
    some (([true, true, true], 3), 8) := by decide +kernel

-- Hill climbing.
example : (exampleRun { algorithm := 150 } exampleFreeEnv 9 (List.replicate 40 0)).map (fun r => (r.solution.2, r.calls.length)) =
    some (3, 13) := by decide +kernel

example : Accepted exampleAlgLib { numIterations := 3 } 3 ⟨1, 1, 1, 1, true⟩ :=
  .randomLocalSearch rfl (.inl ⟨.inl rfl, by omega⟩)

example : exampleFreeEnv.Computes 3 (fun x => Int.ofNat (x.count true)) := fun _ _ => rfl

example : IteratorOk { neighborhoodIterator := 1 } 3 2 := .inr ⟨rfl, rfl, by omega, by omega⟩

example : Refused { algorithm := 320, eaMu := 3, eaLambda := 2 } 3 := .selection rfl (by omega) (by decide)

end Hnco
