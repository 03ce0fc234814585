import Verif.App.Application
import Verif.Function.ControllerProps
import Verif.BitVector.Props
import Mathlib.Data.List.MinMax

/-!
# The command line application (C71)
-/

namespace Hnco

open Outcome

variable {K : Type}

/-! ## Specification -/

/-- The goal of a run: the declared maximum, or the target, if any. -/
def appGoal (o : AppOptions K) (fn : Fn K) : Option K :=
  if o.stopOnMaximum then (match fn.maximum with
    | .ok m => some m
    | _ => none)
  else o.target

/-- An algorithm whose solution has the best value it has seen, as soon as it has seen one. -/
def Searcher.Elitist [LE K] (a : Searcher K) : Prop :=
  ∀ h, h ≠ [] → a.solution h ∈ h ∧ ∀ p ∈ h, p.2 ≤ (a.solution h).2

/-- What is reported about a run of an algorithm on the function `g`, when `xs` are the vectors which have reached the function,
in order. -/
structure AppReported [LinearOrder K] (o : AppOptions K) (goal : Option K) (g : BV → K) (xs : List BV) (r : AppResult K) : Prop where
  /-- the calls are counted -/
  log : r.log = xs.map .full
  total : r.total = xs.length
  /-- the value is the best one, with the rank of its first occurrence -/
  best : xs ≠ [] → ∃ x, IsFirstBest (xs.map (fun x => (x, g x))) r.numEvaluations x r.value
  /-- success is reported if there is a goal, and says whether it has been reached -/
  success : r.success = goal.map (fun t => decide (∃ x ∈ xs, t ≤ g x))
  /-- the run stops as soon as the goal is reached, and the solution is the last vector -/
  stops : ∀ t, goal = some t → (∃ x ∈ xs, t ≤ g x) → ∃ ys, xs = ys ++ [r.solution] ∧ (∀ y ∈ ys, g y < t) ∧ t ≤ g r.solution ∧
    r.value = g r.solution ∧ r.numEvaluations = xs.length
  /-- the exit status is not zero if there is a goal which has not been reached -/
  exit : (goal = none → r.exit = 0) ∧
    ∀ t, goal = some t → r.exit = if ∃ x ∈ xs, t ≤ g x then 0 else if o.stopOnMaximum then 2 else 3

/-! ## Runs of the stack of controllers -/

/-- First occurrences. -/
def firsts (h : List BV) : List BV := h.reverse.dedup.reverse

theorem firsts_snoc_mem {h : List BV} {x : BV} (hx : x ∈ h) : firsts (h ++ [x]) = firsts h := by
  unfold firsts
  rw [List.reverse_append, List.reverse_singleton, List.singleton_append, List.dedup_cons_of_mem (by simpa using hx)]

theorem firsts_snoc_new {h : List BV} {x : BV} (hx : x ∉ h) : firsts (h ++ [x]) = firsts h ++ [x] := by
  unfold firsts
  rw [List.reverse_append, List.reverse_singleton, List.singleton_append, List.dedup_cons_of_notMem (by simpa using hx)]
  simp

theorem mem_firsts {h : List BV} {x : BV} : x ∈ firsts h ↔ x ∈ h := by simp [firsts]

/-- The state of the tracker after the vectors `l` have reached it. -/
def Tracked [LinearOrder K] (g : BV → K) (l : List BV) (s : (List (Call K) × Nat) × Event K) : Prop :=
  s.1.1 = l.map .full ∧ s.1.2 = l.length ∧
    (l ≠ [] → ∃ x, IsFirstBest (l.map (fun x => (x, g x))) s.2.numEvaluations x s.2.value)

/-- After the evaluations of `h`, the tracker has seen `seen h`, and the evaluation of `x` is interrupted as `stop h x` tells. -/
def FnStack.Good [LinearOrder K] (st : FnStack K) (n : Nat) (g : BV → K) (seen : List BV → List BV)
    (stop : List BV → BV → Option Exn) : Prop :=
  ∃ R : List BV → st.σ → Prop, R [] st.init ∧ (∀ h s, R h s → Tracked g (seen h) (st.tracker s)) ∧
    ∀ h s x, R h s → x.length = n →
      match stop h x with
      | none => ∃ s', st.obj.evaluate x s = (ok (g x), s') ∧ R (h ++ [x]) s'
      | some e => ∃ s', st.obj.evaluate x s = (.throw e, s') ∧ (e = .lastEvaluation ∧ Tracked g (seen h) (st.tracker s') ∨
          e = .targetReached ∧ Tracked g (seen (h ++ [x])) (st.tracker s') ∧
            ∃ tr, st.trigger = some tr ∧ tr s' = some (x, g x))

theorem firstBest_step [LinearOrder K] {l : List (BV × K)} {ev : Event K} {y : BV} {v : K}
    (h : l ≠ [] → ∃ x, IsFirstBest l ev.numEvaluations x ev.value) :
    ∃ x, IsFirstBest (l ++ [(y, v)]) (trackStep false (l.length + 1) y v ev).numEvaluations x
      (trackStep false (l.length + 1) y v ev).value := by
  unfold trackStep
  by_cases hl : l = []
  · subst hl
    exact ⟨y, by simp [IsFirstBest]⟩
  obtain ⟨x, h1, h2, h3, h4⟩ := h hl
  have hpos := List.length_pos_iff.mpr hl
  by_cases hv : ev.value < v
  · rw [if_pos (.inr hv)]
    refine ⟨y, by simp, ?_, ?_, ?_⟩
    · simp
    · intro p hp
      rcases List.mem_append.mp hp with hp | hp
      · exact (h3 p hp).trans hv.le
      · rw [List.mem_singleton.mp hp]
    · intro j p hj hp
      simp only [Nat.add_sub_cancel] at hj
      rw [List.getElem?_append_left hj] at hp
      exact lt_of_le_of_lt (h3 p (List.mem_of_getElem? hp)) hv
  · rw [if_neg (by rintro (h | h); · omega
                   · exact hv h)]
    have hlt := (List.getElem?_eq_some_iff.mp h2).1
    refine ⟨x, h1, ?_, ?_, ?_⟩
    · rw [List.getElem?_append_left hlt, h2]
    · intro p hp
      rcases List.mem_append.mp hp with hp | hp
      · exact h3 p hp
      · rw [List.mem_singleton.mp hp]; exact not_lt.mp hv
    · intro j p hj hp
      rw [List.getElem?_append_left (by omega)] at hp
      exact h4 j p hj hp

theorem good_tracked [LinearOrder K] {fn : Fn K} {n : Nat} {g : BV → K} (v : K) (hf : ∀ x, x.length = n → fn.eval x = ok (g x)) :
    (FnStack.tracked fn v).Good n g id (fun _ _ => none) := by
  refine ⟨fun h s => Tracked g h s, ⟨rfl, rfl, by simp⟩, fun _ _ h => h, ?_⟩
  rintro h ⟨⟨log, c⟩, ev⟩ x ⟨h1, h2, h3⟩ hx
  simp only at h1 h2 h3 ⊢
  have hcall : (FnObj.base fn).call (.full x) log = (ok (g x), log ++ [.full x]) := by
    simp [FnObj.call, FnObj.base, Act.bind_def, hf x hx]
  have := progressTracker_call false (FnObj.base fn) (.full x) log c ev
  rw [hcall] at this
  simp only at this
  refine ⟨_, this, ?_⟩
  refine ⟨by simp [h1], by simp [h2], fun _ => ?_⟩
  have hs := firstBest_step (l := h.map (fun x => (x, g x))) (ev := ev) (y := x) (v := g x) (fun hne => h3 (by simpa using hne))
  rw [List.length_map, ← h2] at hs
  simpa [Call.arg] using hs

theorem good_budgeted [LinearOrder K] {st : FnStack K} {n : Nat} {g : BV → K} {seen : List BV → List BV}
    {stop : List BV → BV → Option Exn} (hst : st.Good n g seen stop) (hstop : ∀ h x, stop h x ≠ some .targetReached) (B : Int) :
    (st.budgeted B).Good n g seen (fun h x => if (h.length : Int) = B then some .lastEvaluation else stop h x) := by
  obtain ⟨R, h0, h1, h2⟩ := hst
  refine ⟨fun h s => R h s.1 ∧ s.2 = h.length, ⟨h0, rfl⟩, fun h s hs => h1 h _ hs.1, ?_⟩
  rintro h ⟨s, c⟩ x ⟨hR, hc⟩ hx
  simp only at hR hc
  have hcall := onBudget_call B st.obj (.full x) s c
  rw [callCounter_call] at hcall
  simp only [FnObj.call] at hcall
  have hstep := h2 h s x hR hx
  subst hc
  simp only [FnStack.budgeted, hcall]
  by_cases hB : (h.length : Int) = B
  · simp only [hB, if_true]
    exact ⟨_, rfl, .inl ⟨trivial, h1 h _ hR⟩⟩
  · simp only [hB, if_false]
    cases he : stop h x with
    | none =>
      rw [he] at hstep
      obtain ⟨s', hs', hR'⟩ := hstep
      simp only [hs']
      exact ⟨_, rfl, hR', by simp⟩
    | some e =>
      rw [he] at hstep
      obtain ⟨s', hs', hR'⟩ := hstep
      simp only [hs']
      refine ⟨_, rfl, ?_⟩
      rcases hR' with hR' | ⟨rfl, _⟩
      · exact .inl hR'
      · exact absurd he (hstop h x)

theorem good_cached [LinearOrder K] {st : FnStack K} {n : Nat} {g : BV → K} {seen : List BV → List BV}
    {stop : List BV → BV → Option Exn} (hst : st.Good n g seen stop) (hstop : ∀ h x, stop h x ≠ some .targetReached) :
    (st.withCache n).Good n g (fun h => seen (firsts h)) (fun h x => if x ∈ h then none else stop (firsts h) x) := by
  obtain ⟨R, h0, h1, h2⟩ := hst
  refine ⟨fun h s => R (firsts h) s.1 ∧ s.2.key.length = n ∧ (∀ e ∈ s.2.cache, e.2 = g e.1) ∧
    ∀ x, (∃ e ∈ s.2.cache, e.1 = x) ↔ x ∈ h, ⟨h0, by simp [FnStack.withCache, cacheNew], by simp [FnStack.withCache, cacheNew],
    by simp [FnStack.withCache, cacheNew]⟩, fun h s hs => h1 _ _ hs.1, ?_⟩
  rintro h ⟨s, c⟩ x ⟨hR, hk, hval, hseen⟩ hx
  simp only at hR hk hval hseen
  have hcall := cacheEvaluate_eq st.obj x s c (hx.trans hk.symm)
  simp only [FnStack.withCache, cached, hcall]
  by_cases hmem : x ∈ h
  · obtain ⟨e, he, hex⟩ := (hseen x).mpr hmem
    have hsome : (c.cache.find? (fun e => e.1 == x)).isSome := by
      rw [List.find?_isSome]
      exact ⟨e, he, by simp [hex]⟩
    obtain ⟨e', he'⟩ := Option.isSome_iff_exists.mp hsome
    have g1 := List.mem_of_find?_eq_some he'
    have g2 := List.find?_some he'
    simp only [beq_iff_eq] at g2
    rw [if_pos hmem]
    simp only [he', hval e' g1, g2]
    refine ⟨_, rfl, by rw [firsts_snoc_mem hmem]; exact hR, hx, hval, ?_⟩
    intro y
    rw [hseen y]
    simp only [List.mem_append, List.mem_singleton]
    constructor
    · exact .inl
    · rintro (hy | rfl)
      · exact hy
      · exact hmem
  · have hnone : c.cache.find? (fun e => e.1 == x) = none := by
      rw [List.find?_eq_none]
      intro e he hex
      simp only [beq_iff_eq] at hex
      exact hmem ((hseen x).mp ⟨e, he, hex⟩)
    rw [if_neg hmem]
    simp only [hnone]
    have hstep := h2 _ s x hR hx
    cases he : stop (firsts h) x with
    | none =>
      rw [he] at hstep
      obtain ⟨s', hs', hR'⟩ := hstep
      simp only [hs']
      refine ⟨_, rfl, by rw [firsts_snoc_new hmem]; exact hR', hx, ?_, ?_⟩
      · intro e hm
        rcases List.mem_cons.mp hm with rfl | hm
        · rfl
        · exact hval e hm
      · intro y
        rw [List.mem_append, List.mem_singleton, ← hseen y]
        constructor
        · rintro ⟨e, he, rfl⟩
          rcases List.mem_cons.mp he with rfl | he
          · right; rfl
          · left; exact ⟨e, he, rfl⟩
        · rintro (⟨e, he, rfl⟩ | rfl)
          · exact ⟨e, List.mem_cons_of_mem _ he, rfl⟩
          · exact ⟨_, List.mem_cons_self, rfl⟩
    | some e =>
      rw [he] at hstep
      obtain ⟨s', hs', hR'⟩ := hstep
      simp only [hs']
      refine ⟨_, rfl, ?_⟩
      rcases hR' with ⟨g1, g2⟩ | ⟨rfl, _⟩
      · exact .inl ⟨g1, g2⟩
      · exact absurd he (hstop _ x)

theorem good_stopping [LinearOrder K] {st : FnStack K} {n : Nat} {g : BV → K} {seen : List BV → List BV}
    {stop : List BV → BV → Option Exn} (hst : st.Good n g seen stop) (hstop : ∀ h x, stop h x ≠ some .targetReached) (t : K) :
    (st.stopping t).Good n g seen (fun h x => match stop h x with
      | none => if t ≤ g x then some .targetReached else none
      | some e => some e) := by
  obtain ⟨R, h0, h1, h2⟩ := hst
  refine ⟨fun h s => R h s.1, h0, fun h s hs => h1 h _ hs, ?_⟩
  rintro h ⟨s, tr⟩ x hR hx
  simp only at hR
  have hcall := stopOnTarget_call t st.obj (.full x) s tr
  simp only [FnObj.call, Call.arg] at hcall
  simp only [FnStack.stopping, hcall]
  have hstep := h2 h s x hR hx
  cases he : stop h x with
  | none =>
    rw [he] at hstep
    obtain ⟨s', hs', hR'⟩ := hstep
    simp only [hs']
    by_cases ht : t ≤ g x
    · simp only [ht, if_true]
      exact ⟨_, rfl, .inr ⟨trivial, h1 _ _ hR', _, rfl, rfl⟩⟩
    · simp only [ht, if_false]
      exact ⟨_, rfl, hR'⟩
  | some e =>
    rw [he] at hstep
    obtain ⟨s', hs', hR'⟩ := hstep
    simp only [hs']
    refine ⟨_, rfl, ?_⟩
    rcases hR' with hR' | ⟨rfl, _⟩
    · exact .inl hR'
    · exact absurd he (hstop _ x)

/-- The vectors which reach the tracker. -/
def appSeen (o : AppOptions K) (h : List BV) : List BV := if o.cache then firsts h else h

/-- Whether the budget is exhausted. -/
def appExhausted (o : AppOptions K) (h : List BV) (x : BV) : Prop :=
  o.budget > 0 ∧ if o.cache = true ∧ o.cacheBudget = false then x ∉ h ∧ ((firsts h).length : Int) = o.budget
    else (h.length : Int) = o.budget

instance (o : AppOptions K) (h : List BV) (x : BV) : Decidable (appExhausted o h x) := by
  unfold appExhausted
  infer_instance

theorem good_congr [LinearOrder K] {st : FnStack K} {n : Nat} {g : BV → K} {seen seen' : List BV → List BV}
    {stop stop' : List BV → BV → Option Exn} (hst : st.Good n g seen stop) (h1 : seen = seen') (h2 : stop = stop') :
    st.Good n g seen' stop' := by
  subst h1
  subst h2
  exact hst

theorem good_limited [LinearOrder K] {st : FnStack K} {n : Nat} {g : BV → K} (o : AppOptions K)
    (hst : st.Good n g id (fun _ _ => none)) :
    (st.limited o n).Good n g (appSeen o) (fun h x => if appExhausted o h x then some .lastEvaluation else none) := by
  unfold FnStack.limited
  by_cases hb : o.budget > 0
  · have hb' : ¬ o.budget ≤ 0 := by omega
    by_cases hc : o.cache = true
    · have hc' : ¬ o.cache = false := by simp [hc]
      simp only [hb, hb', hc, true_and, false_and, if_false, if_true]
      by_cases hcb : o.cacheBudget = true
      · simp only [hcb, if_true]
        refine good_congr (good_budgeted (good_cached hst (by simp)) (by intro h x; simp) o.budget) ?_ ?_
        · funext h; simp [appSeen, hc]
        · funext h x; simp [appExhausted, hb, hc, hcb]
      · simp only [hcb]
        refine good_congr (good_cached (good_budgeted hst (by simp) o.budget) (by intro h x; split <;> simp)) ?_ ?_
        · funext h; simp [appSeen, hc]
        · funext h x
          by_cases hm : x ∈ h <;> simp [appExhausted, hb, hc, hcb, hm]
    · simp only [Bool.not_eq_true] at hc
      simp only [hb, hb', hc, true_and, false_and, if_false, if_true]
      refine good_congr (good_budgeted hst (by simp) o.budget) ?_ ?_
      · funext h; simp [appSeen, hc]
      · funext h x; simp [appExhausted, hb, hc]
  · have hb' : o.budget ≤ 0 := by omega
    by_cases hc : o.cache = true
    · simp only [hb, hb', hc, true_and, false_and, if_false, if_true]
      refine good_congr (good_cached hst (by simp)) ?_ ?_
      · funext h; simp [appSeen, hc]
      · funext h x; simp [appExhausted, hb]
    · simp only [Bool.not_eq_true] at hc
      simp only [hb, hc, false_and, and_false, if_false, Bool.false_eq_true]
      refine good_congr hst ?_ ?_
      · funext h; simp [appSeen, hc]
      · funext h x; simp [appExhausted, hb]

/-- When the evaluation of `x` is interrupted, after the evaluations of `h`. -/
def appStop [LE K] [DecidableLE K] (o : AppOptions K) (goal : Option K) (g : BV → K) (h : List BV) (x : BV) : Option Exn :=
  if appExhausted o h x then some .lastEvaluation
  else match goal with
    | none => none
    | some t => if t ≤ g x then some .targetReached else none

theorem makeController_good [LinearOrder K] {fn : Fn K} {g : BV → K} {o : AppOptions K} {v : K} {st : FnStack K}
    (hf : ∀ x, x.length = fn.size → fn.eval x = ok (g x)) (hst : makeController o fn v = ok st) :
    st.Good fn.size g (appSeen o) (appStop o (appGoal o fn) g) := by
  have hgood := good_limited o (good_tracked v hf)
  have hno : ∀ h x, (if appExhausted o h x then some Exn.lastEvaluation else none) ≠ some .targetReached := by
    intro h x; split <;> simp
  have hstop : ∀ t, (((FnStack.tracked fn v).limited o fn.size).stopping t).Good fn.size g (appSeen o) (appStop o (some t) g) := by
    intro t
    refine good_congr (good_stopping hgood hno t) rfl ?_
    funext h x
    unfold appStop
    by_cases he : appExhausted o h x <;> simp [he]
  unfold makeController at hst
  unfold appGoal
  by_cases hs : o.stopOnMaximum = true
  · simp only [hs, if_true] at hst ⊢
    by_cases hm : fn.hasMax = true
    · simp only [hm, if_true] at hst
      cases he : fn.maximum with
      | ok m =>
        simp only [he, Outcome.ok.injEq] at hst
        rw [← hst]
        exact hstop m
      | throw e => simp [he] at hst
      | ub => simp [he] at hst
    · simp [hm] at hst
  · simp only [hs, Bool.false_eq_true, if_false] at hst ⊢
    cases he : o.target with
    | some t =>
      simp only [he, Outcome.ok.injEq] at hst
      rw [← hst]
      exact hstop t
    | none =>
      simp only [he, Outcome.ok.injEq] at hst
      rw [← hst]
      refine good_congr hgood rfl ?_
      funext h x
      unfold appStop
      rfl

/-- The evaluations of a run which has not been interrupted. -/
inductive Uninterrupted (stop : List BV → BV → Option Exn) : List BV → Prop where
  | nil : Uninterrupted stop []
  | snoc {h x} : Uninterrupted stop h → stop h x = none → Uninterrupted stop (h ++ [x])

theorem search_spec [LinearOrder K] {st : FnStack K} {n : Nat} {g : BV → K} {seen : List BV → List BV}
    {stop : List BV → BV → Option Exn} {R : List BV → st.σ → Prop}
    (hR1 : ∀ h s, R h s → Tracked g (seen h) (st.tracker s))
    (hR2 : ∀ h s x, R h s → x.length = n →
      match stop h x with
      | none => ∃ s', st.obj.evaluate x s = (ok (g x), s') ∧ R (h ++ [x]) s'
      | some e => ∃ s', st.obj.evaluate x s = (.throw e, s') ∧ (e = .lastEvaluation ∧ Tracked g (seen h) (st.tracker s') ∨
          e = .targetReached ∧ Tracked g (seen (h ++ [x])) (st.tracker s') ∧
            ∃ tr, st.trigger = some tr ∧ tr s' = some (x, g x)))
    {a : Searcher K} (ha : ∀ h x, a.next h = some x → x.length = n) :
    ∀ (fuel : Nat) (h : List BV) (s : st.σ) r, R h s → Uninterrupted stop h →
      st.search a fuel (h.map (fun x => (x, g x))) s = some r →
      ∃ h' s', Uninterrupted stop h' ∧ r.2 = (h'.map (fun x => (x, g x)), s') ∧
        (r.1 = ok () ∧ Tracked g (seen h') (st.tracker s') ∨
         r.1 = .throw .lastEvaluation ∧ Tracked g (seen h') (st.tracker s') ∨
         ∃ x, r.1 = .throw .targetReached ∧ stop h' x = some .targetReached ∧ Tracked g (seen (h' ++ [x])) (st.tracker s') ∧
            ∃ tr, st.trigger = some tr ∧ tr s' = some (x, g x)) := by
  intro fuel
  induction fuel with
  | zero => intro h s r _ _ hr; simp [FnStack.search] at hr
  | succ fuel ih =>
    intro h s r hR hu hr
    simp only [FnStack.search] at hr
    cases hx : a.next (h.map (fun x => (x, g x))) with
    | none =>
      simp only [hx, Option.some.injEq] at hr
      subst hr
      exact ⟨h, s, hu, rfl, .inl ⟨rfl, hR1 _ _ hR⟩⟩
    | some x =>
      simp only [hx] at hr
      have hstep := hR2 h s x hR (ha _ _ hx)
      cases he : stop h x with
      | none =>
        rw [he] at hstep
        obtain ⟨s', hs', hR'⟩ := hstep
        simp only [hs'] at hr
        refine ih (h ++ [x]) s' r hR' (.snoc hu he) ?_
        rw [List.map_append]
        exact hr
      | some e =>
        rw [he] at hstep
        obtain ⟨s', hs', hR'⟩ := hstep
        simp only [hs', Option.some.injEq] at hr
        subst hr
        refine ⟨h, s', hu, rfl, .inr ?_⟩
        rcases hR' with ⟨rfl, g1⟩ | ⟨rfl, g1⟩
        · exact .inl ⟨rfl, g1⟩
        · exact .inr ⟨x, rfl, he, g1⟩

theorem uninterrupted_below [LinearOrder K] {o : AppOptions K} {t : K} {g : BV → K} {h : List BV}
    (hu : Uninterrupted (appStop o (some t) g) h) : ∀ x ∈ h, g x < t := by
  induction hu with
  | nil => simp
  | @snoc h x _ hs ih =>
    intro y hy
    rcases List.mem_append.mp hy with hy | hy
    · exact ih y hy
    · rw [List.mem_singleton.mp hy]
      unfold appStop at hs
      by_cases he : appExhausted o h x
      · simp [he] at hs
      · by_cases ht : t ≤ g x
        · simp [he, ht] at hs
        · exact not_le.mp ht

theorem uninterrupted_budget [LinearOrder K] {o : AppOptions K} {goal : Option K} {g : BV → K} {h : List BV} (hb : o.budget > 0)
    (hu : Uninterrupted (appStop o goal g) h) :
    ((appSeen o h).length : Int) ≤ o.budget ∧ (o.cache = true → o.cacheBudget = true → (h.length : Int) ≤ o.budget) := by
  have hle : ∀ h : List BV, (firsts h).length ≤ h.length := by
    intro h
    unfold firsts
    rw [List.length_reverse]
    have := (List.dedup_sublist h.reverse).length_le
    rwa [List.length_reverse] at this
  have hmain : if o.cache = true ∧ o.cacheBudget = false then ((firsts h).length : Int) ≤ o.budget
      else (h.length : Int) ≤ o.budget := by
    induction hu with
    | nil => split <;> simp [firsts] <;> omega
    | @snoc h x _ hs ih =>
      have he : ¬ appExhausted o h x := by
        intro he
        simp [appStop, he] at hs
      unfold appExhausted at he
      simp only [hb, true_and] at he
      by_cases hc : o.cache = true ∧ o.cacheBudget = false
      · rw [if_pos hc] at ih he ⊢
        by_cases hx : x ∈ h
        · rw [firsts_snoc_mem hx]; exact ih
        · rw [firsts_snoc_new hx, List.length_append]
          simp only [hx, not_false_eq_true, true_and] at he
          simp only [List.length_singleton]
          omega
      · rw [if_neg hc] at ih he ⊢
        simp only [List.length_append, List.length_singleton]
        omega
  unfold appSeen
  have := hle h
  by_cases hc : o.cache = true
  · simp only [hc, if_true]
    by_cases hcb : o.cacheBudget = true
    · simp only [hc, hcb, Bool.true_eq_false, and_false, if_false] at hmain
      exact ⟨by omega, fun _ _ => hmain⟩
    · simp only [Bool.not_eq_true] at hcb
      simp only [hc, hcb, and_self, if_true] at hmain
      exact ⟨hmain, by simp [hcb]⟩
  · simp only [hc, Bool.false_eq_true, false_and, if_false] at hmain ⊢
    exact ⟨hmain, by simp⟩

theorem uninterrupted_no_goal [LinearOrder K] {o : AppOptions K} {goal : Option K} {g : BV → K} {h : List BV}
    (hu : Uninterrupted (appStop o goal g) h) : Uninterrupted (appStop o none g) h := by
  induction hu with
  | nil => exact .nil
  | @snoc h x _ hs ih =>
    refine .snoc ih ?_
    unfold appStop at hs ⊢
    by_cases he : appExhausted o h x
    · simp [he] at hs
    · simp [he]

theorem appGoal_isSome [LinearOrder K] {fn : Fn K} {o : AppOptions K} {v : K} {st : FnStack K} (hst : makeController o fn v = ok st) :
    (appGoal o fn).isSome = (o.stopOnMaximum || o.target.isSome) := by
  unfold makeController at hst
  unfold appGoal
  by_cases hs : o.stopOnMaximum = true
  · simp only [hs, if_true] at hst ⊢
    by_cases hm : fn.hasMax = true
    · simp only [hm, if_true] at hst
      cases he : fn.maximum with
      | ok m => simp
      | throw e => simp [he] at hst
      | ub => simp [he] at hst
    · simp [hm] at hst
  · simp [hs]

theorem mem_appSeen {o : AppOptions K} {h : List BV} {x : BV} : x ∈ appSeen o h ↔ x ∈ h := by
  unfold appSeen
  split
  · exact mem_firsts
  · rfl

theorem appReported_finish [LinearOrder K] {fn : Fn K} {o : AppOptions K} {v : K} {st : FnStack K} {g : BV → K}
    (hst : makeController o fn v = ok st) {xs : List BV} {tracker : (List (Call K) × Nat) × Event K} (ht : Tracked g xs tracker)
    {x : BV} {reached : Bool}
    (hno : reached = false → ∀ t, appGoal o fn = some t → ∀ y ∈ xs, g y < t)
    (hyes : reached = true → ∃ t, appGoal o fn = some t ∧ t ≤ g x ∧ ∃ ys, xs = ys ++ [x] ∧ ∀ y ∈ ys, g y < t) :
    AppReported o (appGoal o fn) g xs (appFinish o tracker x reached) := by
  have hsome := appGoal_isSome hst
  obtain ⟨h1, h2, h3⟩ := ht
  have hiff : ∀ t, appGoal o fn = some t → ((∃ x ∈ xs, t ≤ g x) ↔ reached = true) := by
    intro t hg
    constructor
    · rintro ⟨y, hy, hty⟩
      by_contra hr
      simp only [Bool.not_eq_true] at hr
      exact absurd (hno hr t hg y hy) (not_lt.mpr hty)
    · intro hr
      obtain ⟨t', hg', htx, ys, rfl, _⟩ := hyes hr
      rw [hg] at hg'
      cases hg'
      exact ⟨x, by simp, htx⟩
  refine ⟨h1, h2, h3, ?_, ?_, ?_⟩
  · simp only [appFinish]
    cases hg : appGoal o fn with
    | none =>
      rw [hg] at hsome
      rw [if_neg (by rw [← hsome]; simp)]
      rfl
    | some t =>
      rw [hg] at hsome
      rw [if_pos (by rw [← hsome]; simp)]
      simp only [Option.map_some, Option.some.injEq]
      have := hiff t hg
      by_cases hr : reached = true
      · rw [hr, decide_eq_true (this.mpr hr)]
      · simp only [Bool.not_eq_true] at hr
        rw [hr, decide_eq_false (by rw [this, hr]; simp)]
  · intro t hg hex
    obtain ⟨t', hg', htx, ys, rfl, hys⟩ := hyes ((hiff t hg).mp hex)
    rw [hg] at hg'
    cases hg'
    refine ⟨ys, rfl, hys, htx, ?_⟩
    obtain ⟨y, hy1, hy2, hy3, hy4⟩ := h3 (by simp)
    simp only [appFinish]
    have hlt := (List.getElem?_eq_some_iff.mp hy2).1
    simp only [List.length_map, List.length_append, List.length_singleton] at hlt
    have hlast : tracker.2.numEvaluations = ys.length + 1 := by
      by_contra hne
      have hlt' : tracker.2.numEvaluations - 1 < ys.length := by omega
      rw [List.map_append, List.getElem?_append_left (by simpa using hlt'), List.getElem?_map] at hy2
      obtain ⟨z, hz, hz2⟩ := Option.map_eq_some_iff.mp hy2
      simp only [Prod.mk.injEq] at hz2
      rw [← hz2.2] at hy3
      have h5 := hys _ (List.mem_of_getElem? hz)
      have h6 := hy3 (x, g x) (by simp)
      exact absurd (lt_of_lt_of_le h5 (htx.trans h6)) (lt_irrefl _)
    rw [hlast, Nat.add_sub_cancel, List.map_append, List.getElem?_append_right (by simp)] at hy2
    simp only [List.length_map, Nat.sub_self, List.map_cons, List.map_nil, List.getElem?_cons_zero, Option.some.injEq, Prod.mk.injEq] at hy2
    exact ⟨hy2.2.symm, by simp [hlast]⟩
  · simp only [appFinish]
    constructor
    · intro hg
      rw [hg] at hsome
      simp only [Option.isSome_none, Bool.false_eq, Bool.or_eq_false_iff] at hsome
      simp [hsome.1, hsome.2]
    · intro t hg
      rw [hg] at hsome
      simp only [Option.isSome_some, Bool.true_eq, Bool.or_eq_true] at hsome
      have := hiff t hg
      by_cases hr : reached = true
      · rw [if_pos (this.mpr hr)]
        simp [hr]
      · have hn : ¬ ∃ x ∈ xs, t ≤ g x := by rw [this]; exact hr
        rw [if_neg hn]
        simp only [Bool.not_eq_true] at hr
        by_cases hs : o.stopOnMaximum = true
        · simp [hr, hs]
        · simp only [hs, Bool.false_eq_true, false_or] at hsome
          simp [hr, hs, hsome]

/-- C71: whatever the algorithm and the options, a run of the application which ends has no undefined behaviour and no uncaught
exception.  The report counts the calls of the function, gives the best value, the rank of its first occurrence, and whether
the goal has been reached; the run stops as soon as it is reached, and the solution is then the vector which has reached it.
The number of calls of the function is within the budget; if the budget counts the cached evaluations too, then so is the
number of evaluations.  If the goal is not reached then the solution is the one of the algorithm. -/
theorem appMaximize_spec [LinearOrder K] {fn : Fn K} {g : BV → K} {o : AppOptions K} {v : K} {st : FnStack K}
    (hf : ∀ x, x.length = fn.size → fn.eval x = ok (g x)) (hst : makeController o fn v = ok st) {a : Searcher K}
    (ha : ∀ h x, a.next h = some x → x.length = fn.size) {fuel : Nat} {r : Outcome (AppResult K)}
    (hr : appMaximize o st a fuel = some r) :
    ∃ res xs h, r = ok res ∧ AppReported o (appGoal o fn) g xs res ∧
      xs = (if o.cache then firsts h else h) ∧
      (o.budget > 0 → (xs.length : Int) ≤ o.budget) ∧
      (o.budget > 0 → o.cache = true → o.cacheBudget = true → (h.length : Int) ≤ o.budget) ∧
      ((∀ t, appGoal o fn = some t → ∀ x ∈ xs, g x < t) → res.solution = (a.solution (h.map (fun x => (x, g x)))).1) := by
  obtain ⟨R, hR0, hR1, hR2⟩ := makeController_good hf hst
  unfold appMaximize at hr
  cases hs : st.search a fuel [] st.init with
  | none => simp [hs] at hr
  | some q =>
    obtain ⟨h, s', hu, hq, hcase⟩ := search_spec hR1 hR2 ha fuel [] st.init q hR0 .nil hs
    obtain ⟨q1, q2⟩ := q
    simp only at hq hcase
    subst hq
    have hnot : Tracked g (appSeen o h) (st.tracker s') →
        r = ok (appFinish o (st.tracker s') (a.solution (h.map (fun x => (x, g x)))).1 false) →
        ∃ res xs h, r = ok res ∧ AppReported o (appGoal o fn) g xs res ∧
          xs = (if o.cache then firsts h else h) ∧
          (o.budget > 0 → (xs.length : Int) ≤ o.budget) ∧
          (o.budget > 0 → o.cache = true → o.cacheBudget = true → (h.length : Int) ≤ o.budget) ∧
          ((∀ t, appGoal o fn = some t → ∀ x ∈ xs, g x < t) → res.solution = (a.solution (h.map (fun x => (x, g x)))).1) := by
      intro ht hr
      refine ⟨_, appSeen o h, h, hr, appReported_finish hst ht ?_ (by simp), rfl, fun hb => (uninterrupted_budget hb hu).1,
        fun hb => (uninterrupted_budget hb hu).2, fun _ => rfl⟩
      intro _ t hg y hy
      rw [hg] at hu
      exact uninterrupted_below hu y (mem_appSeen.mp hy)
    rcases hcase with ⟨rfl, ht⟩ | ⟨rfl, ht⟩ | ⟨x, rfl, hx, ht, tr, htr, htx⟩
    · simp only [hs, Option.some.injEq] at hr
      exact hnot ht hr.symm
    · simp only [hs, Option.some.injEq] at hr
      exact hnot ht hr.symm
    · simp only [hs, htr, htx, Option.some.injEq] at hr
      have hxs : ¬ appExhausted o h x := by
        intro he
        simp [appStop, he] at hx
      obtain ⟨t, hg, htx'⟩ : ∃ t, appGoal o fn = some t ∧ t ≤ g x := by
        unfold appStop at hx
        rw [if_neg hxs] at hx
        cases hg : appGoal o fn with
        | none => simp [hg] at hx
        | some t =>
          refine ⟨t, rfl, ?_⟩
          by_contra hn
          simp [hg, hn] at hx
      have hbelow : ∀ y ∈ h, g y < t := by
        rw [hg] at hu
        exact uninterrupted_below hu
      have hnew : x ∉ h := fun hm => absurd (hbelow x hm) (not_lt.mpr htx')
      have hseen : appSeen o (h ++ [x]) = appSeen o h ++ [x] := by
        unfold appSeen
        split
        · exact firsts_snoc_new hnew
        · rfl
      have hu' : Uninterrupted (appStop o none g) (h ++ [x]) := by
        refine .snoc (uninterrupted_no_goal hu) ?_
        simp [appStop, hxs]
      refine ⟨_, appSeen o (h ++ [x]), h ++ [x], hr.symm, appReported_finish hst ht (by simp) ?_, rfl,
        fun hb => (uninterrupted_budget hb hu').1, fun hb => (uninterrupted_budget hb hu').2, ?_⟩
      · intro _
        exact ⟨t, hg, htx', _, hseen, fun y hy => hbelow y (mem_appSeen.mp hy)⟩
      · intro hall
        exact absurd (hall t hg x (by rw [hseen]; simp)) (not_lt.mpr htx')

/-- C71: with an algorithm which returns the best vector it has seen, the value which is reported is the value of the solution
which is printed. -/
theorem appMaximize_value [LinearOrder K] {fn : Fn K} {g : BV → K} {o : AppOptions K} {v : K} {st : FnStack K}
    (hf : ∀ x, x.length = fn.size → fn.eval x = ok (g x)) (hst : makeController o fn v = ok st) {a : Searcher K}
    (ha : ∀ h x, a.next h = some x → x.length = fn.size) (he : a.Elitist) {fuel : Nat} {res : AppResult K}
    (hr : appMaximize o st a fuel = some (ok res)) (hne : res.total ≠ 0) :
    res.value = g res.solution ∧ .full res.solution ∈ res.log := by
  obtain ⟨res', xs, h, h1, h2, h3, _, _, h6⟩ := appMaximize_spec hf hst ha hr
  cases h1
  have hxs : xs ≠ [] := by
    rintro rfl
    exact hne h2.total
  have hmem : ∀ y, y ∈ xs ↔ y ∈ h := by
    intro y
    rw [h3]
    exact mem_appSeen (o := o)
  rw [h2.log]
  by_cases hgoal : ∃ t, appGoal o fn = some t ∧ ∃ x ∈ xs, t ≤ g x
  · obtain ⟨t, hg, hx⟩ := hgoal
    obtain ⟨ys, hys, _, _, hv, _⟩ := h2.stops t hg hx
    exact ⟨hv, List.mem_map.mpr ⟨_, by rw [hys]; simp, rfl⟩⟩
  · have hsol := h6 (by
      intro t hg x hx
      by_contra hn
      exact hgoal ⟨t, hg, x, hx, not_lt.mp hn⟩)
    have hh : h.map (fun x => (x, g x)) ≠ [] := by
      obtain ⟨y, hy⟩ := List.exists_mem_of_ne_nil _ hxs
      exact List.ne_nil_of_mem (List.mem_map.mpr ⟨y, (hmem y).mp hy, rfl⟩)
    obtain ⟨e1, e2⟩ := he _ hh
    obtain ⟨y, hy, hy2⟩ := List.mem_map.mp e1
    rw [← hy2] at hsol e2
    simp only at hsol e2
    obtain ⟨z, _, z2, z3, _⟩ := h2.best hxs
    obtain ⟨w, hw, hw2⟩ := List.mem_map.mp (List.mem_of_getElem? z2)
    simp only [Prod.mk.injEq] at hw2
    rw [hsol]
    refine ⟨le_antisymm ?_ (z3 (y, g y) (List.mem_map.mpr ⟨y, (hmem y).mpr hy, rfl⟩)), List.mem_map.mpr ⟨y, (hmem y).mpr hy, rfl⟩⟩
    rw [← hw2.2]
    exact e2 (w, g w) (List.mem_map.mpr ⟨w, (hmem w).mp hw, rfl⟩)

/-- C71: the solution which is saved, without the option to save the concrete one, has its value printed when it is loaded,
provided that it does not trigger the controllers. -/
theorem appLoad_saved [LinearOrder K] {fn : Fn K} {g : BV → K} {o : AppOptions K} {v : K} {st : FnStack K}
    (hf : ∀ x, x.length = fn.size → fn.eval x = ok (g x)) (hst : makeController o fn v = ok st) (map : Option MapObj)
    (hc : o.concreteSolution = false) {x : BV} (hx : x.length = fn.size) (rest : List Char) :
    appConcrete o map x = ok x ∧ appLoad st fn.size (bvDisplay x ++ '\n' :: rest) =
      match appGoal o fn with
      | none => ok (g x)
      | some t => if t ≤ g x then .throw .targetReached else ok (g x) := by
  refine ⟨by simp [appConcrete, hc], ?_⟩
  obtain ⟨R, hR0, hR1, hR2⟩ := makeController_good hf hst
  unfold appLoad
  rw [bvFromStream_display, ok_bind]
  simp only [hx, ne_eq, not_true_eq_false, if_false]
  have hne : ¬ appExhausted o [] x := by
    rintro ⟨h1, h2⟩
    split at h2 <;> simp [firsts] at h2 <;> omega
  have hstep := hR2 [] st.init x hR0 hx
  unfold appStop at hstep
  rw [if_neg hne] at hstep
  cases hg : appGoal o fn with
  | none =>
    rw [hg] at hstep
    obtain ⟨s', hs', _⟩ := hstep
    rw [hs']
  | some t =>
    rw [hg] at hstep
    by_cases ht : t ≤ g x
    · simp only [ht, if_true] at hstep ⊢
      obtain ⟨s', hs', _⟩ := hstep
      rw [hs']
    · simp only [ht, if_false] at hstep ⊢
      obtain ⟨s', hs', _⟩ := hstep
      rw [hs']

/-- C71: without the option for the concrete solution, the function describes the vector it has evaluated. -/
theorem appDescribed_abstract {o : AppOptions K} (hc : o.concreteSolution = false) (m : MapObj) (output : BV) {x : BV}
    (hx : x.length = m.inputSize) : appDescribed o (some m) output x = m.map x output := by
  simp [appDescribed, appConcrete, hc, fnDescribed, hx]

/-- C71 (negative part): with this option, the map is applied twice: the vector which is described is the image of the
concrete solution, or the size is wrong. -/
theorem appDescribed_concrete {o : AppOptions K} (hc : o.concreteSolution = true) (m : MapObj) (output : BV) {x y : BV}
    (hy : m.map x (List.replicate m.outputSize false) = ok y) :
    appDescribed o (some m) output x = if y.length = m.inputSize then m.map y output else ub := by
  unfold appDescribed appConcrete fnDescribed
  simp only [hc, if_true, hy, ok_bind]
  by_cases h : y.length = m.inputSize
  · simp [h]
  · rw [if_neg h, assert_neg (by simpa using h)]
    rfl

/-- The map which flips a bit. -/
def flipMap : MapObj := ⟨1, 1, fun x _ => ok (x.map (!·)), ok true⟩

/-- C71 (negative part): for example, with a map which flips a bit, the solution which is printed is 1 and the one which is
described is 0. -/
theorem appDescribed_twice : ∃ o : AppOptions Int, appConcrete o (some flipMap) [false] = ok [true] ∧
    appDescribed o (some flipMap) [false] [false] = ok [false] :=
  ⟨⟨0, false, false, false, none, true, true⟩, by decide, by decide⟩

/-- The algorithm of the example: a list of vectors, and the best of them. -/
def listSearch (xs : List BV) : Searcher Int where
  next h := xs[h.length]?
  solution h := (h.argmax (fun p => p.2)).getD ([], 0)

/-- The function of the example. -/
def countOnes : Fn Int := ⟨2, true, ok 2, fun x => ok (x.count true), false, fun _ _ _ => .throw .runtimeError⟩

/-- Value, ranks, solution and exit status of a run of the example. -/
def countOnesRun (o : AppOptions Int) (xs : List BV) : Option ((Int × Nat × Nat) × Option Bool × BV × Nat) :=
  match makeController o countOnes 0 with
  | .ok st =>
    match appMaximize o st (listSearch xs) 10 with
    | some (.ok r) => some ((r.value, r.numEvaluations, r.total), r.success, r.solution, r.exit)
    | _ => none
  | _ => none

example : countOnesRun ⟨5, true, true, true, none, false, false⟩ [[false, true], [false, true], [true, true], [false, false]] =
    some ((2, 2, 2), some true, [true, true], 0) := by decide +kernel

example : countOnesRun ⟨2, false, false, false, some 2, false, false⟩ [[false, true], [false, true], [true, true], [false, false]] =
    some ((1, 1, 2), some false, [false, true], 3) := by decide +kernel

example : (listSearch [[false, true], [true, true]]).Elitist := by
  intro h hne
  cases hm : h.argmax (fun p => p.2) with
  | none => exact absurd (List.argmax_eq_none.mp hm) hne
  | some p =>
    simp only [listSearch, hm, Option.getD_some]
    exact ⟨List.argmax_mem hm, fun q hq => List.le_of_mem_argmax hq hm⟩

end Hnco
