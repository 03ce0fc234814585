import Verif.App.HncoRunLemmas
import Verif.App.AlgorithmFactoryMoreProps

/-!
# Runs of the application with the algorithms made by the factory (C87)
-/

namespace Hnco

open Outcome

variable {K : Type}

/-! ## Specification -/

/-- A vector whose evaluation has interrupted the run, if it has been interrupted. -/
def RunResult.Last (r : RunResult K) (env : Env K) (x : BV) : Prop := ∀ e, r.ending = .error e → env.stop r.calls x = some e

/-- What is known at the end of a run on the function `g`, where `k` is the number of iterations asked for, `h` are the vectors
which the algorithm has evaluated, in order, and `xs` those which have reached the function. -/
structure HncoEnd [LinearOrder K] (o : AppOptions K) (n : Nat) (goal : Option K) (g : BV → K) (k : Int) (plan : Plan)
    (h xs : List BV) (res : AppResult K) : Prop where
  /-- calls, best value, success and exit status -/
  reported : AppReported o goal g xs res
  /-- the cache answers the vectors which have already been evaluated -/
  seen : xs = if o.cache then firsts h else h
  sizes : ∀ y ∈ h, y.length = n
  /-- the budget is not exceeded -/
  budget : o.budget > 0 → (xs.length : Int) ≤ o.budget
  cacheBudget : o.budget > 0 → o.cache = true → o.cacheBudget = true → (h.length : Int) ≤ o.budget
  /-- the solution is the best one, except that the last vectors may not have been considered -/
  solution : (∀ t, goal = some t → ∀ x ∈ h, g x < t) → ∃ done late, h = done ++ late ∧ late.length < plan.batch ∧
    (done = [] ∨ (res.solution ∈ done ∧ ∀ y ∈ done, g y ≤ g res.solution))
  /-- for an algorithm which considers each vector at once, the value which is reported is the one of the solution -/
  value : plan.batch = 1 → h ≠ [] → res.solution ∈ h ∧ res.value = g res.solution
  /-- the solution has been evaluated, if the budget is at least the size of a batch -/
  solved : (o.budget > 0 → (plan.batch : Int) ≤ o.budget) → res.solution ∈ h
  /-- the number of evaluations, if there is a number of iterations -/
  cost : 0 < k → h.length ≤ plan.first + k.toNat * plan.hi + 1
  /-- otherwise the budget is used up, unless the goal is reached -/
  usesUp : k ≤ 0 → plan.stops = false → (∀ t, goal = some t → ∀ x ∈ h, g x < t) → o.budget > 0 ∧
    ((if o.cache = true ∧ o.cacheBudget = false then (xs.length : Int) else (h.length : Int)) = o.budget)

/-! ## Lemmas -/

section
variable [LinearOrder K] [Zero K] {val : BV → K} {n : Nat} {lib : AlgLib} {ao : AlgOptions} {m : MadeAlgorithm K}
variable {fn : Fn K} {g : BV → K} {o : AppOptions K} {v : K} {st : FnStack K}

omit [Zero K] [LinearOrder K] in
theorem env_computes (hf : ∀ x, x.length = fn.size → fn.eval x = ok (g x)) : (st.env fn).Computes fn.size g := by
  intro x hx
  change (if x.length = fn.size then fn.eval x else ub) = _
  rw [if_pos hx, hf x hx]

omit [Zero K] in
/-- The value which is reported is the one of a best vector among those which have been evaluated. -/
theorem reported_value {goal : Option K} {xs h : List BV} {res : AppResult K} (hr : AppReported o goal g xs res)
    (hseen : xs = if o.cache then firsts h else h) {y : BV} (hy : y ∈ h) (hbest : ∀ z ∈ h, g z ≤ g y) : res.value = g y := by
  have hmem : ∀ y, y ∈ xs ↔ y ∈ h := by
    intro y
    rw [hseen]
    exact mem_appSeen (o := o)
  obtain ⟨z, _, z2, z3, _⟩ := hr.best (List.ne_nil_of_mem ((hmem y).mpr hy))
  obtain ⟨w, hw, hw2⟩ := List.mem_map.mp (List.mem_of_getElem? z2)
  simp only [Prod.mk.injEq] at hw2
  refine le_antisymm ?_ (z3 (y, g y) (List.mem_map.mpr ⟨y, (hmem y).mpr hy, rfl⟩))
  rw [← hw2.2]
  exact hbest w ((hmem w).mp hw)

theorem Accepted.batch_pos {plan : Plan} (h : Accepted lib ao n plan) : 0 < plan.batch := by
  have hsel : SelectionOk ao → 0 < ao.populationSize.toNat := by
    rintro ⟨h1, h2⟩
    omega
  cases h with
  | itEa _ _ h => have := h.selection; change 0 < ao.populationSize.toNat; omega
  | pbil _ _ h => exact hsel h
  | npsPbil _ _ h => exact hsel h
  | umda _ _ h => exact hsel h
  | ramUmda _ _ h => exact hsel h.selection
  | hea _ h => exact hsel h.selection
  | bmPbil _ _ h => exact hsel h
  | mimic _ _ h => change 0 < ao.populationSize.toNat; omega
  | _ => simp [Plan.sequential, Plan.generations] <;> omega

/-! ## Runs -/

/-- C87: a run of the application with an accepted algorithm on a function of its controllers has no undefined behaviour and no
uncaught exception; the report is right, the budget is respected, and used up if nothing else ends the run; the solution is the
best one, up to the last vectors. -/
theorem hnco_run {plan : Plan} (h : Accepted lib ao fn.size plan) (h30 : ao.algorithm ≠ 30)
    (hf : ∀ x, x.length = fn.size → fn.eval x = ok (g x)) (hst : makeController o fn v = ok st) :
    ∃ m : MadeAlgorithm K, makeAlgorithm lib ao fn.size = .own (ok m) ∧ ∀ fuel, Sim.Post (m.run (st.env fn) fuel) (fun r =>
      (∃ x, r.Last (st.env fn) x) ∧ ∀ x, r.Last (st.env fn) x → ∃ res h xs, appConclude o st r x = ok res ∧
        HncoEnd o fn.size (appGoal o fn) g ao.numIterations plan h xs res) := by
  obtain ⟨m, hm, hrun⟩ := makeAlgorithm_ok (lib := lib) (o := ao) (env := st.env fn) (val := g) h (env_computes hf)
    (fun _ h => by cases h)
  refine ⟨m, hm, fun fuel ds => ?_⟩
  have h1 := hrun fuel ds
  cases hr : m.run (st.env fn) fuel ds with
  | throw e => rw [hr] at h1; exact h1.elim
  | ub => rw [hr] at h1; exact h1.elim
  | out => trivial
  | ok r rest =>
    rw [hr] at h1
    refine ⟨?_, fun x hx => ?_⟩
    · cases he : r.ending with
      | ok u => exact ⟨[], fun e h' => by rw [he] at h'; cases h'⟩
      | error e =>
        obtain ⟨x, hx⟩ := env_raises hf (makeAlgorithm_interrupted h.noRefusal h30 hm hr he)
        exact ⟨x, fun e' h' => by rw [he] at h'; cases h'; exact hx⟩
    · obtain ⟨res, xs, hs, hres, hrep, hseen, hlen, hb, hcb, hgoal, hcount⟩ :=
        appConclude_report hf hst ((makeAlgorithm_steady h30 hm).extends hr) hx
      have hsol : (∀ t, appGoal o fn = some t → ∀ x ∈ hs, g x < t) → ∃ done late, hs = done ++ late ∧ late.length < plan.batch ∧
          (done = [] ∨ (res.solution ∈ done ∧ ∀ y ∈ done, g y ≤ g res.solution)) := by
        intro hno
        obtain ⟨rfl, hsol, hend⟩ := hgoal hno
        have key : ∃ done late, r.calls = done ++ late ∧ late.length < plan.batch ∧
            (done = [] ∨ (r.solution ∈ done ∧ ∀ c ∈ done, c.2 ≤ r.solution.2)) := by
          cases he : r.ending with
          | ok u =>
            refine ⟨r.calls, [], by simp, ?_, Or.inr (h1.finished he)⟩
            simpa using h.batch_pos
          | error e =>
            obtain ⟨rfl, _⟩ := hend e he
            exact h1.stopped he
        obtain ⟨done, late, h2, h3, h4⟩ := key
        refine ⟨done.map Prod.fst, late.map Prod.fst, by rw [h2, List.map_append], by simpa using h3, ?_⟩
        rcases h4 with h4 | ⟨h4, h5⟩
        · left; simp [h4]
        · right
          have htrue : ∀ c ∈ done, c.2 = g c.1 := fun c hc => (h1.values c (by rw [h2]; exact List.mem_append_left _ hc)).2
          rw [hsol]
          refine ⟨List.mem_map.mpr ⟨_, h4, rfl⟩, ?_⟩
          intro y hy
          obtain ⟨c, hc, rfl⟩ := List.mem_map.mp hy
          rw [← htrue c hc, ← htrue _ h4]
          exact h5 c hc
      refine ⟨res, hs, xs, hres, ⟨hrep, hseen, hlen, hb, hcb, hsol, ?_, ?_, ?_, ?_⟩⟩
      · intro hbatch hne
        by_cases hreach : ∃ t, appGoal o fn = some t ∧ ∃ x ∈ hs, t ≤ g x
        · obtain ⟨t, ht, y, hy, hty⟩ := hreach
          have hmem : ∀ y, y ∈ xs ↔ y ∈ hs := by
            intro y
            rw [hseen]
            exact mem_appSeen (o := o)
          obtain ⟨ys, hys, _, _, hv, _⟩ := hrep.stops t ht ⟨y, (hmem y).mpr hy, hty⟩
          exact ⟨(hmem _).mp (by rw [hys]; simp), hv⟩
        · obtain ⟨done, late, h2, h3, h4⟩ := hsol (by
            intro t ht y hy
            by_contra hn
            exact hreach ⟨t, ht, y, hy, not_lt.mp hn⟩)
          have hl : late = [] := List.eq_nil_of_length_eq_zero (by omega)
          rw [hl, List.append_nil] at h2
          subst h2
          rcases h4 with h4 | ⟨h4, h5⟩
          · exact (hne h4).elim
          · exact ⟨h4, reported_value hrep hseen h4 h5⟩
      · intro hbig
        by_cases hreach : ∃ t, appGoal o fn = some t ∧ ∃ x ∈ hs, t ≤ g x
        · obtain ⟨t, ht, y, hy, hty⟩ := hreach
          have hmem : ∀ y, y ∈ xs ↔ y ∈ hs := by
            intro y
            rw [hseen]
            exact mem_appSeen (o := o)
          obtain ⟨ys, hys, _⟩ := hrep.stops t ht ⟨y, (hmem y).mpr hy, hty⟩
          exact (hmem _).mp (by rw [hys]; simp)
        · have hno : ∀ t, appGoal o fn = some t → ∀ x ∈ hs, g x < t := by
            intro t ht y hy
            by_contra hn
            exact hreach ⟨t, ht, y, hy, not_lt.mp hn⟩
          obtain ⟨h2, h3, hend⟩ := hgoal hno
          cases he : r.ending with
          | ok u =>
            rw [h2, h3]
            exact List.mem_map.mpr ⟨_, (h1.finished he).1, rfl⟩
          | error e =>
            obtain ⟨rfl, hex⟩ := hend e he
            obtain ⟨done, late, h4, h5, h6⟩ := hsol hno
            rcases h6 with h6 | ⟨h6, _⟩
            · exfalso
              have h7 := hex.2
              have h8 := hbig hex.1
              have h9 : hs.length < plan.batch := by rw [h4, h6]; simpa using h5
              have h10 : (firsts hs).length ≤ hs.length := by
                unfold firsts
                rw [List.length_reverse]
                exact ((List.dedup_sublist _).length_le).trans (by simp)
              split at h7
              · have := h7.2
                omega
              · omega
            · rw [h4]
              exact List.mem_append_left _ h6
      · intro hk
        have := (h1.cost hk).1
        rcases hcount with rfl | ⟨rfl, _⟩ <;> simp <;> omega
      · intro hk hstops hno
        obtain ⟨rfl, hsol', hend⟩ := hgoal hno
        cases he : r.ending with
        | ok u => exact (h1.endless hk hstops he).elim
        | error e =>
          obtain ⟨_, hex⟩ := hend e he
          refine ⟨hex.1, ?_⟩
          have h2 := hex.2
          by_cases hc : o.cache = true ∧ o.cacheBudget = false
          · rw [if_pos hc] at h2 ⊢
            rw [hseen, if_pos hc.1]
            exact h2.2
          · rw [if_neg hc] at h2 ⊢
            exact h2

omit [Zero K] in
/-- C87: if the application is asked to stop on the maximum, and the maximum which the function declares is an upper bound, then
the exit status is zero exactly if the solution is a maximum; its value is then the one which is reported. -/
theorem hnco_maximum {plan : Plan} {h xs : List BV} {res : AppResult K} {k : Int} {M : K}
    (hend : HncoEnd o fn.size (appGoal o fn) g k plan h xs res) (ho : o.stopOnMaximum = true) (hM : fn.maximum = ok M)
    (hmax : ∀ x, x.length = fn.size → g x ≤ M) :
    (res.exit = 0 ∨ res.exit = 2) ∧ (res.exit = 0 → res.solution.length = fn.size ∧ g res.solution = M ∧ res.value = M ∧
      ∀ x, x.length = fn.size → g x ≤ g res.solution) ∧ (res.exit = 2 → ∀ x ∈ h, g x < M) := by
  have hg : appGoal o fn = some M := by simp [appGoal, ho, hM]
  have hexit := hend.reported.exit.2 M hg
  rw [if_pos ho] at hexit
  have hmem : ∀ y, y ∈ xs ↔ y ∈ h := by
    intro y
    rw [hend.seen]
    exact mem_appSeen (o := o)
  by_cases hex : ∃ x ∈ xs, M ≤ g x
  · rw [if_pos hex] at hexit
    obtain ⟨ys, hys, _, hle, hv, _⟩ := hend.reported.stops M hg hex
    have hlen := hend.sizes _ ((hmem res.solution).mp (by rw [hys]; simp))
    have heq := le_antisymm (hmax _ hlen) hle
    exact ⟨.inl hexit, fun _ => ⟨hlen, heq, hv.trans heq, fun x hx => heq.symm ▸ hmax x hx⟩, fun h2 => by omega⟩
  · rw [if_neg hex] at hexit
    refine ⟨.inr hexit, fun h0 => by omega, fun _ x hx => ?_⟩
    by_contra hn
    exact hex ⟨x, (hmem x).mpr hx, not_lt.mp hn⟩

/-- C87: a run with complete search, without budget: if the goal is reached by a vector, then it is reported as reached;
otherwise, all vectors have reached the function, and the solution is a maximum, the value of which is reported. -/
theorem hnco_complete_search (h : ao.algorithm = 0) (hn : 0 < fn.size) (hf : ∀ x, x.length = fn.size → fn.eval x = ok (g x))
    (hst : makeController o fn v = ok st) (hbudget : o.budget ≤ 0) :
    ∃ m : MadeAlgorithm K, makeAlgorithm lib ao fn.size = .own (ok m) ∧ ∀ fuel, 2 ^ fn.size ≤ fuel →
      Sim.Within 0 (m.run (st.env fn) fuel) (fun r => (∃ x, r.Last (st.env fn) x) ∧ ∀ x, r.Last (st.env fn) x → ∃ res xs,
        appConclude o st r x = ok res ∧ AppReported o (appGoal o fn) g xs res ∧ xs.Nodup ∧ (∀ y ∈ xs, y.length = fn.size) ∧
        (∀ t, appGoal o fn = some t → (∃ y : BV, y.length = fn.size ∧ t ≤ g y) → res.success = some true ∧ res.exit = 0) ∧
        ((∀ t, appGoal o fn = some t → ∀ y : BV, y.length = fn.size → g y < t) → (∀ y : BV, y.length = fn.size → y ∈ xs) ∧
          res.solution.length = fn.size ∧ res.value = g res.solution ∧ ∀ y : BV, y.length = fn.size → g y ≤ g res.solution)) := by
  obtain ⟨m, hm, hrun⟩ := makeAlgorithm_complete_search (lib := lib) (o := ao) (env := st.env fn) (val := g) h hn (env_computes hf)
  have h30 : ao.algorithm ≠ 30 := by omega
  have hno : NoRefusal ao := ⟨fun h' => by omega, fun h' => by omega, fun h' => by omega, fun h' => by omega⟩
  refine ⟨m, hm, fun fuel hfuel ds hds => ?_⟩
  obtain ⟨r, rest, hr, hlen, hvals, hnodup, hfin, _⟩ := hrun fuel hfuel ds hds
  refine ⟨r, rest, hr, hlen, ?_, fun x hx => ?_⟩
  · cases he : r.ending with
    | ok u => exact ⟨[], fun e h' => by rw [he] at h'; cases h'⟩
    | error e =>
      obtain ⟨x, hx⟩ := env_raises hf (makeAlgorithm_interrupted hno h30 hm hr he)
      exact ⟨x, fun e' h' => by rw [he] at h'; cases h'; exact hx⟩
  · obtain ⟨res, xs, hs, hres, hrep, hseen, hsizes, _, _, hgoal, hcount⟩ :=
      appConclude_report hf hst ((makeAlgorithm_steady h30 hm).extends hr) hx
    have hmem : ∀ y, y ∈ xs ↔ y ∈ hs := by
      intro y
      rw [hseen]
      exact mem_appSeen (o := o)
    have hall : (∀ t, appGoal o fn = some t → ∀ x ∈ hs, g x < t) → hs = r.calls.map Prod.fst ∧ res.solution = r.solution.1 ∧
        r.ending = .ok () := by
      intro hno
      obtain ⟨h1, h2, h3⟩ := hgoal hno
      refine ⟨h1, h2, ?_⟩
      cases he : r.ending with
      | ok u => rfl
      | error e => exact absurd (h3 e he).2.1 (by omega)
    have hnd : xs.Nodup := by
      have : hs.Nodup := by
        rcases hcount with rfl | ⟨rfl, hnew⟩
        · exact hnodup
        · exact List.nodup_append.mpr ⟨hnodup, by simp, fun a ha b hb => by
            rw [List.mem_singleton.mp hb]; rintro rfl; exact hnew ha⟩
      rw [hseen]
      split
      · exact List.nodup_reverse.mpr (List.nodup_dedup _)
      · exact this
    refine ⟨res, xs, hres, hrep, hnd, fun y hy => hsizes y ((hmem y).mp hy), ?_, ?_⟩
    · rintro t ht ⟨y, hy, hty⟩
      have hex : ∃ x ∈ xs, t ≤ g x := by
        by_contra hn
        have hlt : ∀ x ∈ hs, g x < t := fun x hx => by
          by_contra hn'
          exact hn ⟨x, (hmem x).mpr hx, not_lt.mp hn'⟩
        obtain ⟨h1, _, h3⟩ := hall (fun t' ht' => by rw [ht] at ht'; cases ht'; exact hlt)
        have := hlt y (by rw [h1]; exact (hfin h3).1 y hy)
        exact absurd this (not_lt.mpr hty)
      refine ⟨?_, ?_⟩
      · rw [hrep.success, ht]
        simp only [Option.map_some, Option.some.injEq, decide_eq_true_eq]
        exact hex
      · rw [hrep.exit.2 t ht, if_pos hex]
    · intro hno
      obtain ⟨h1, h2, h3⟩ := hall (fun t ht x hx => hno t ht x (hsizes x hx))
      obtain ⟨h4, h5, h6, h7⟩ := hfin h3
      rw [h2]
      refine ⟨fun y hy => (hmem y).mpr (by rw [h1]; exact h4 y hy), h5, ?_, fun y hy => by rw [← h6]; exact h7 y hy⟩
      exact reported_value hrep hseen (by rw [h1]; exact h4 _ h5) (fun z hz => by rw [← h6]; exact h7 z (hsizes z hz))

/-! ## Restart -/

/-- C87: with restart too, the report is right and the budget is respected, whatever the algorithm. -/
theorem hnco_restart_report (h30 : ao.algorithm ≠ 30) (hm : makeAlgorithm lib ao fn.size = .own (ok m))
    (hf : ∀ x, x.length = fn.size → fn.eval x = ok (g x)) (hst : makeController o fn v = ok st) {fuel : Nat}
    {ds rest : List Nat} {r : RunResult K} (hr : m.restart.run (st.env fn) fuel ds = .ok r rest) {x : BV}
    (hx : r.Last (st.env fn) x) :
    ∃ res xs h, appConclude o st r x = ok res ∧ AppReported o (appGoal o fn) g xs res ∧
      xs = (if o.cache then firsts h else h) ∧ (∀ y ∈ h, y.length = fn.size) ∧
      (o.budget > 0 → (xs.length : Int) ≤ o.budget) ∧
      (o.budget > 0 → o.cache = true → o.cacheBudget = true → (h.length : Int) ≤ o.budget) := by
  obtain ⟨res, xs, h, h1, h2, h3, h4, h5, h6, _⟩ := appConclude_report hf hst (restart_extends (makeAlgorithm_steady h30 hm) hr) hx
  exact ⟨res, xs, h, h1, h2, h3, h4, h5, h6⟩

/-- C87 (negative part): with restart, if there is no number of iterations and the algorithm does not stop by itself, then the
solution is the vector of zeros, whatever has been evaluated, unless the goal is reached: the wrapped algorithm never returns,
and its solution is lost. -/
theorem hnco_restart_zeros {plan : Plan} (h : Accepted lib ao fn.size plan) (h30 : ao.algorithm ≠ 30) (hplan : plan.stops = false)
    (hk : ao.numIterations ≤ 0) (hf : ∀ x, x.length = fn.size → fn.eval x = ok (g x)) (hst : makeController o fn v = ok st) :
    ∃ m : MadeAlgorithm K, makeAlgorithm lib ao fn.size = .own (ok m) ∧ ∀ fuel ds r rest,
      m.restart.run (st.env fn) fuel ds = .ok r rest → ∀ x, r.Last (st.env fn) x →
        ∃ res xs, appConclude o st r x = ok res ∧ AppReported o (appGoal o fn) g xs res ∧
          ((∀ t, appGoal o fn = some t → ∀ y ∈ xs, g y < t) → res.solution = List.replicate fn.size false) := by
  obtain ⟨m, hm, hrun⟩ := makeAlgorithm_ok (lib := lib) (o := ao) (env := st.env fn) (val := g) h (env_computes hf)
    (fun _ h => by cases h)
  refine ⟨m, hm, fun fuel ds r rest hr x hx => ?_⟩
  have hsteady := makeAlgorithm_steady (env := st.env fn) h30 hm
  obtain ⟨res, xs, hs, h1, h2, h3, _, _, _, h4, _⟩ := appConclude_report hf hst (restart_extends hsteady hr) hx
  refine ⟨res, xs, h1, h2, fun hno => ?_⟩
  obtain ⟨_, hsol, _⟩ := h4 (fun t ht y hy => hno t ht y (by rw [h3]; exact mem_appSeen.mpr hy))
  rw [hsol]
  have := (restart_untouched hsteady (fun ds' r' rest' hr' => by
    have := hrun fuel ds'
    rw [hr'] at this
    exact this.endless hk hplan) hr).1
  rw [this]

/-- C87: with restart, if the algorithm returns when it is run for the first time, then the solution is that of this first run or
has a greater value, hence it is at least as good as all the vectors evaluated in the first run (unless the goal is reached). -/
theorem hnco_restart_first {plan : Plan} (h : Accepted lib ao fn.size plan) (h30 : ao.algorithm ≠ 30)
    (hf : ∀ x, x.length = fn.size → fn.eval x = ok (g x)) (hst : makeController o fn v = ok st) :
    ∃ m : MadeAlgorithm K, makeAlgorithm lib ao fn.size = .own (ok m) ∧ ∀ fuel ds r₁ rest₁ r rest,
      m.run (st.env fn) fuel ds = .ok r₁ rest₁ → r₁.ending = .ok () → m.restart.run (st.env fn) fuel ds = .ok r rest →
        ∀ x, r.Last (st.env fn) x → ∃ res xs, appConclude o st r x = ok res ∧ AppReported o (appGoal o fn) g xs res ∧
          ((∀ t, appGoal o fn = some t → ∀ y ∈ xs, g y < t) → res.solution = r.solution.1 ∧
            (r.solution = r₁.solution ∨ r₁.solution.2 < r.solution.2) ∧ r₁.solution ∈ r₁.calls ∧
            ∀ c ∈ r₁.calls, c.2 = g c.1 ∧ g c.1 ≤ r.solution.2) := by
  obtain ⟨m, hm, hrun⟩ := makeAlgorithm_ok (lib := lib) (o := ao) (env := st.env fn) (val := g) h (env_computes hf)
    (fun _ h => by cases h)
  refine ⟨m, hm, fun fuel ds r₁ rest₁ r rest h₁ hend hr x hx => ?_⟩
  have hsteady := makeAlgorithm_steady (env := st.env fn) h30 hm
  obtain ⟨res, xs, hs, h1, h2, h3, _, _, _, h4, _⟩ := appConclude_report hf hst (restart_extends hsteady hr) hx
  refine ⟨res, xs, h1, h2, fun hno => ?_⟩
  obtain ⟨_, hsol, _⟩ := h4 (fun t ht y hy => hno t ht y (by rw [h3]; exact mem_appSeen.mpr hy))
  have hok : RunOk fn.size g ao.numIterations plan r₁ := by
    have := hrun fuel ds
    rw [h₁] at this
    exact this
  have hfirst := restart_first hsteady h₁ hend hr
  obtain ⟨hmem, hbest⟩ := hok.finished hend
  refine ⟨hsol, hfirst, hmem, fun c hc => ?_⟩
  have hv := (hok.values c hc).2
  refine ⟨hv, ?_⟩
  rw [← hv]
  rcases hfirst with hfirst | hfirst
  · rw [hfirst]; exact hbest c hc
  · exact (hbest c hc).trans hfirst.le

end

/-! ## Examples -/

/-- The number of ones, with its maximum. -/
def exampleOnes : Fn Int where
  size := 3
  hasMax := true
  maximum := ok 3
  eval := fun x => ok (x.count true : Nat)
  hasInc := false
  evalInc := fun _ _ _ => ub

/-- The result of the application, with restart or not, where `last` is the vector whose evaluation is interrupted. -/
def exampleHnco (o : AppOptions Int) (ao : AlgOptions) (restart : Bool) (fuel : Nat) (ds : List Nat) (last : BV) :
    Option (AppResult Int) :=
  match makeController o exampleOnes 0, makeAlgorithm exampleAlgLib ao 3 with
  | .ok st, .own (.ok m) =>
    match (if restart then m.restart else m).run (st.env exampleOnes) fuel ds with
    | .ok r _ =>
      match appConclude o st r last with
      | .ok res => some res
      | _ => none
    | _ => none
  | _, _ => none

/-- C87 (negative part): with a (1+2) EA and a budget of two evaluations, the second vector is better than the first one, and its
value is reported; but the solution is the first vector, since the second one has not been considered when the budget is used
up. -/
theorem hnco_population_value :
    (exampleHnco ⟨2, false, false, false, none, false, false⟩ { algorithm := 310, eaMu := 1, eaLambda := 2 } false 20
      [0, 1, 0, 0, 0, 0, 1, 0, 0, 0, 1, 1, 0, 1, 0, 1, 1, 0, 1, 0] [false, false, false]).map
        (fun res => (res.value, res.numEvaluations, res.total, res.solution)) = some (2, 2, 2, [false, true, false]) := by
  decide +kernel

-- Random local search stops as soon as the maximum is reached; the budget is not used up.
example : (exampleHnco ⟨9, true, false, true, none, false, false⟩ {} false 20 (List.range 60) [true, true, true]).map
    (fun res => (res.value, res.total, res.success, res.solution, res.exit)) =
      some (3, 4, some true, [true, true, true], 0) := by decide +kernel

-- With restart, the maximum is found and its value reported, but the solution is lost.
example : (exampleHnco ⟨4, false, false, false, none, false, false⟩ { rlsPatience := 0 } true 20 (List.range 60)
    [true, true, false]).map (fun res => (res.value, res.total, res.solution)) = some (3, 4, [false, false, false]) := by
  decide +kernel

-- With restart and a number of iterations, the solution of the first run is kept.
example : (exampleHnco ⟨4, false, false, false, none, false, false⟩ { rlsPatience := 0, numIterations := 1 } true 3 (List.range 60)
    [true, true, false]).map (fun res => (res.value, res.total, res.solution)) = some (2, 4, [true, true, false]) := by
  decide +kernel

-- Complete search.
example : (exampleHnco ⟨0, false, false, true, none, false, false⟩ { algorithm := 0 } false 20 [] [true, true, true]).map
    (fun res => (res.value, res.total, res.solution, res.exit)) = some (3, 8, [true, true, true], 0) := by decide +kernel

example : Accepted exampleAlgLib { rlsPatience := 0 } exampleOnes.size ⟨1, 1, 1, 1, false⟩ :=
  .randomLocalSearch rfl (.inl ⟨.inl rfl, by decide⟩)

example : (∀ x : BV, x.length = exampleOnes.size → exampleOnes.eval x = ok ((fun x => ((x.count true : Nat) : Int)) x)) ∧
    ∀ x : BV, x.length = exampleOnes.size → ((x.count true : Nat) : Int) ≤ 3 := by
  refine ⟨fun _ _ => rfl, fun x hx => ?_⟩
  have : x.count true ≤ x.length := List.count_le_length
  change x.length = 3 at hx
  omega

example : ∃ st, makeController ⟨4, true, false, true, none, false, false⟩ exampleOnes 0 = ok st := ⟨_, rfl⟩

end Hnco
