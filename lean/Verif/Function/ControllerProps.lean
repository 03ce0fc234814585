import Verif.BitVector.Props
import Verif.Function.Controller
import Mathlib.Order.Defs.LinearOrder
import Mathlib.Data.List.Dedup

/-! # Properties of function controllers (C22-C25, C63) -/

namespace Hnco

open Outcome

variable {σ K : Type}

/-! ### Vocabulary -/

/-- The calls that return normally, as pairs (vector passed, value returned), in order. -/
def FnObj.successes (f : FnObj σ K) (calls : List (Call K)) (s : σ) : List (BV × K) :=
  (calls.zip (f.runAll calls s).1).filterMap (fun p =>
    match p.2 with
    | ok v => some (p.1.arg, v)
    | _ => none)

/-- `(x, v)` is the entry of rank `k` (starting at 1) of a history, has the greatest value of the
history, and no earlier entry has the same value. -/
def IsFirstBest [LE K] [LT K] (history : List (BV × K)) (k : Nat) (x : BV) (v : K) : Prop :=
  1 ≤ k ∧ history[k - 1]? = some (x, v) ∧ (∀ p ∈ history, p.2 ≤ v) ∧
    ∀ (j : Nat) (p : BV × K), j < k - 1 → history[j]? = some p → p.2 < v

/-! ### Helper lemmas -/

theorem runAll_cons (f : FnObj σ K) (c : Call K) (cs : List (Call K)) (s : σ) :
    f.runAll (c :: cs) s
      = ((f.call c s).1 :: (f.runAll cs (f.call c s).2).1, (f.runAll cs (f.call c s).2).2) := rfl

theorem runAll_length (f : FnObj σ K) :
    ∀ (calls : List (Call K)) (s : σ), (f.runAll calls s).1.length = calls.length
  | [], _ => rfl
  | c :: cs, s => by simp [runAll_cons, runAll_length f cs]

theorem callCounter_call (f : FnObj σ K) (c : Call K) (s : σ) (n : Nat) :
    (callCounter f).call c (s, n) = match f.call c s with
      | (ok v, t) => (ok v, (t, n + 1))
      | (.throw e, t) => (.throw e, (t, n))
      | (ub, t) => (ub, (t, n)) := by
  cases c with
  | full x =>
    simp only [FnObj.call, callCounter, Act.bind_def, Act.inner_def]
    rcases f.evaluate x s with ⟨r, t⟩
    cases r <;> rfl
  | inc x v fl =>
    simp only [FnObj.call, callCounter, Act.bind_def, Act.inner_def]
    rcases f.evaluateInc x v fl s with ⟨r, t⟩
    cases r <;> rfl
  | upd x v =>
    simp only [FnObj.call, callCounter, Act.bind_def, Act.inner_def]
    rcases f.update x v s with ⟨r, t⟩
    cases r <;> rfl

theorem onBudget_call (B : Int) (f : FnObj σ K) (c : Call K) (s : σ) (n : Nat) :
    (onBudget B f).call c (s, n) = if (n : Int) = B then (.throw .lastEvaluation, (s, n))
      else (callCounter f).call c (s, n) := by
  cases c <;>
  · simp only [FnObj.call, onBudget, budgetCheck, Act.bind_def, Act.get_def]
    by_cases h : (n : Int) = B <;> simp [h]

theorem logged_call (f : FnObj σ K) (c : Call K) (s : σ) (log : List (Call K)) :
    f.logged.call c (s, log) = ((f.call c s).1, ((f.call c s).2, log ++ [c])) := by
  cases c with
  | full x => simp [FnObj.call, FnObj.logged, Act.bind_def]
  | inc x v fl => simp [FnObj.call, FnObj.logged, Act.bind_def]
  | upd x v =>
    simp only [FnObj.call, FnObj.logged, Act.bind_def, Act.modify_def, Act.inner_def]
    rcases f.update x v s with ⟨r, t⟩
    cases r <;> rfl

/-- Change of the recorded event. -/
def trackStep [LT K] [DecidableLT K] (record : Bool) (n : Nat) (x : BV) (v : K) (e : Event K) :
    Event K :=
  if n = 1 ∨ e.value < v then
    { numEvaluations := n, bv := if record then x else e.bv, value := v }
  else e

theorem updateImprovement_eq [LT K] [DecidableLT K] (record : Bool) (x : BV) (v : K) (s : σ) (n : Nat)
    (hn : 1 ≤ n) (e : Event K) :
    updateImprovement record x v ((s, n), e) = (ok (), ((s, n), trackStep record n x v e)) := by
  simp only [updateImprovement, trackStep, Act.bind_def, Act.get_def]
  by_cases h1 : n = 1
  · simp [h1, improvementDetails]
  · by_cases h2 : e.value < v
    · have h3 : 1 < n := by omega
      simp [h1, h2, h3, improvementDetails, Act.bind_def]
    · simp [h1, h2]

theorem progressTracker_call [LT K] [DecidableLT K] (record : Bool) (f : FnObj σ K) (c : Call K)
    (s : σ) (n : Nat) (e : Event K) :
    (progressTracker record f).call c ((s, n), e) = match f.call c s with
      | (ok v, t) => (ok v, ((t, n + 1), trackStep record (n + 1) c.arg v e))
      | (.throw x, t) => (.throw x, ((t, n), e))
      | (ub, t) => (ub, ((t, n), e)) := by
  have hc := callCounter_call f c s n
  cases c with
  | full x =>
    simp only [FnObj.call, progressTracker, Act.bind_def, Act.inner_def, Call.arg] at hc ⊢
    rw [hc]
    rcases f.evaluate x s with ⟨r, t⟩
    cases r <;> simp [updateImprovement_eq]
  | inc x v fl =>
    simp only [FnObj.call, progressTracker, Act.bind_def, Act.inner_def, Call.arg] at hc ⊢
    rw [hc]
    rcases f.evaluateInc x v fl s with ⟨r, t⟩
    cases r <;> simp [updateImprovement_eq]
  | upd x v =>
    simp only [FnObj.call, progressTracker, callCounter, countCall, Act.bind_def, Act.inner_def,
      Call.arg] at hc ⊢
    rcases f.update x v s with ⟨r, t⟩
    cases r <;> simp [updateImprovement_eq]

theorem stopOnTarget_call [LE K] [DecidableLE K] (target : K) (f : FnObj σ K) (c : Call K) (s : σ)
    (tr : Option (BV × K)) :
    (stopOnTarget target f).call c (s, tr) = match f.call c s with
      | (ok v, t) => if target ≤ v then (.throw .targetReached, (t, some (c.arg, v))) else (ok v, (t, tr))
      | (.throw x, t) => (.throw x, (t, tr))
      | (ub, t) => (ub, (t, tr)) := by
  cases c with
  | full x =>
    simp only [FnObj.call, stopOnTarget, targetCheck, Act.bind_def, Act.inner_def, Call.arg]
    rcases f.evaluate x s with ⟨r, t⟩
    cases r with
    | ok w => by_cases h : target ≤ w <;> simp [h, Act.bind_def]
    | throw _ => rfl
    | ub => rfl
  | inc x v fl =>
    simp only [FnObj.call, stopOnTarget, targetCheck, Act.bind_def, Act.inner_def, Call.arg]
    rcases f.evaluateInc x v fl s with ⟨r, t⟩
    cases r with
    | ok w => by_cases h : target ≤ w <;> simp [h, Act.bind_def]
    | throw _ => rfl
    | ub => rfl
  | upd x v =>
    simp only [FnObj.call, stopOnTarget, targetCheck, Act.bind_def, Act.inner_def, Call.arg]
    rcases f.update x v s with ⟨r, t⟩
    cases r with
    | ok w => by_cases h : target ≤ v <;> simp [h, Act.bind_def]
    | throw _ => rfl
    | ub => rfl

/-! ### C23: budget -/

/-- The number of calls that return normally in a list of replies. -/
def numReturned (rs : List (Outcome K)) : Nat :=
  (rs.filter (fun r => match r with | ok _ => true | _ => false)).length

/-- C23: whatever the wrapped object does (including throwing exceptions of its own) and whatever the
history of calls (exceptions being caught), the counter is the number of calls that returned, which never
exceeds the budget. -/
theorem onBudget_returned (B : Nat) (f : FnObj σ K) (calls : List (Call K)) (s : σ) :
    ((onBudget (B : Int) f).runAll calls (s, 0)).2.2
        = numReturned ((onBudget (B : Int) f).runAll calls (s, 0)).1 ∧
    numReturned ((onBudget (B : Int) f).runAll calls (s, 0)).1 ≤ B := by
  have key : ∀ (calls : List (Call K)) (s : σ) (n : Nat), n ≤ B →
      ((onBudget (B : Int) f).runAll calls (s, n)).2.2
        = n + numReturned ((onBudget (B : Int) f).runAll calls (s, n)).1 ∧
      n + numReturned ((onBudget (B : Int) f).runAll calls (s, n)).1 ≤ B := by
    intro calls
    induction calls with
    | nil => intro s n hn; simp [FnObj.runAll, numReturned, hn]
    | cons c cs ih =>
      intro s n hn
      rw [runAll_cons, onBudget_call, callCounter_call]
      by_cases h : (n : Int) = B
      · simp only [h, if_true]
        have := ih s n hn
        simpa [numReturned] using this
      · simp only [h, if_false]
        rcases hr : f.call c s with ⟨r, t⟩
        cases r with
        | ok v =>
          have hn' : n + 1 ≤ B := by omega
          have := ih t (n + 1) hn'
          simp only [numReturned, List.filter_cons_of_pos, List.length_cons] at this ⊢
          omega
        | throw e => simpa [numReturned] using ih t n hn
        | ub => simpa [numReturned] using ih t n hn
  simpa using key calls s 0 (Nat.zero_le B)

/-- C23: if the wrapped object never fails, exactly the first `B` calls of any history reach it, they
get its replies, and all later calls raise the last-evaluation exception. -/
theorem onBudget_reaches (B : Nat) (f : FnObj σ K) (calls : List (Call K)) (s : σ)
    (hf : ∀ c t, ∃ v t', f.call c t = (ok v, t')) :
    ((onBudget (B : Int) f.logged).runAll calls ((s, []), 0)).2.1.2 = calls.take B ∧
    ((onBudget (B : Int) f.logged).runAll calls ((s, []), 0)).1
      = (f.runAll (calls.take B) s).1
        ++ List.replicate (calls.length - B) (.throw .lastEvaluation) := by
  have key : ∀ (calls : List (Call K)) (s : σ) (log : List (Call K)) (n : Nat), n ≤ B →
      ((onBudget (B : Int) f.logged).runAll calls ((s, log), n)).2.1.2 = log ++ calls.take (B - n) ∧
      ((onBudget (B : Int) f.logged).runAll calls ((s, log), n)).1
        = (f.runAll (calls.take (B - n)) s).1
          ++ List.replicate (calls.length - (B - n)) (.throw .lastEvaluation) := by
    intro calls
    induction calls with
    | nil => intro s log n _; simp [FnObj.runAll]
    | cons c cs ih =>
      intro s log n hn
      rw [runAll_cons, onBudget_call, callCounter_call]
      by_cases h : (n : Int) = B
      · have hnB : n = B := by omega
        subst hnB
        have := ih s log n hn
        simp only [if_true, Nat.sub_self, List.take_zero, List.append_nil, Nat.sub_zero,
          List.length_cons, FnObj.runAll, List.nil_append] at this ⊢
        rw [this.1, this.2]
        simp [List.replicate_succ]
      · simp only [h, if_false]
        obtain ⟨v, t, hv⟩ := hf c s
        have hn' : n + 1 ≤ B := by omega
        have hB : B - n = (B - (n + 1)) + 1 := by omega
        rw [logged_call, hv]
        obtain ⟨h1, h2⟩ := ih t (log ++ [c]) (n + 1) hn'
        simp only
        rw [h1, h2, hB]
        simp only [List.take_succ_cons, runAll_cons, hv, List.length_cons, List.append_assoc,
          List.cons_append, List.nil_append, Nat.add_sub_add_right, true_and]
  simpa using key calls s [] 0 (Nat.zero_le B)

/-- A case that meets the hypothesis: a function without state that always returns. -/
example : ∀ (c : Call Nat) (t : List (Call Nat)), ∃ v t',
    (FnObj.base (Fn.mk (K := Nat) 2 false (ok 0) (fun x => ok (x.count true)) true
      (fun _ v _ => ok v))).call c t = (ok v, t') := by
  intro c t
  cases c <;> exact ⟨_, _, rfl⟩

/-- C23: with a negative budget the controller never stops: it only counts. -/
theorem onBudget_negative (B : Int) (hB : B < 0) (f : FnObj σ K) (calls : List (Call K)) (s : σ)
    (n : Nat) :
    (onBudget B f).runAll calls (s, n) = (callCounter f).runAll calls (s, n) := by
  induction calls generalizing s n with
  | nil => rfl
  | cons c cs ih =>
    have h : ¬ (n : Int) = B := by omega
    rw [runAll_cons, runAll_cons, onBudget_call, if_neg h]
    rcases (callCounter f).call c (s, n) with ⟨r, t, m⟩
    simp only
    rw [ih]

/-- C23: a call that throws in the wrapped function is not counted, so that a function that throws can
be reached more often than the budget. -/
theorem onBudget_throwing_reached :
    ∃ (f : FnObj (List (Call Nat)) Nat) (calls : List (Call Nat)) (B : Nat),
      B < ((onBudget (B : Int) f).runAll calls ([], 0)).2.1.length := by
  refine ⟨FnObj.base (Fn.ofEval 1 (fun _ => .throw .runtimeError)),
    [.full [true], .full [true]], 1, ?_⟩
  decide

/-! ### C24: progress tracker -/

/-- C24: the tracker does not change the replies of the object it decorates, nor its state. -/
theorem progressTracker_transparent [LT K] [DecidableLT K] (record : Bool) (f : FnObj σ K)
    (calls : List (Call K)) (s : σ) (n : Nat) (e : Event K) :
    ((progressTracker record f).runAll calls ((s, n), e)).1 = (f.runAll calls s).1 ∧
    ((progressTracker record f).runAll calls ((s, n), e)).2.1.1 = (f.runAll calls s).2 := by
  induction calls generalizing s n e with
  | nil => exact ⟨rfl, rfl⟩
  | cons c cs ih =>
    rw [runAll_cons, runAll_cons, progressTracker_call]
    rcases f.call c s with ⟨r, t⟩
    cases r with
    | ok v => exact ⟨by rw [(ih _ _ _).1], (ih _ _ _).2⟩
    | throw x => exact ⟨by rw [(ih _ _ _).1], (ih _ _ _).2⟩
    | ub => exact ⟨by rw [(ih _ _ _).1], (ih _ _ _).2⟩

/-- The event recorded after a history of successful calls. -/
def trackHistory [LT K] [DecidableLT K] (record : Bool) (e : Event K) :
    List (BV × K) → Nat → Event K
  | [], _ => e
  | p :: h, n => trackHistory record (trackStep record (n + 1) p.1 p.2 e) h (n + 1)

theorem successes_cons (f : FnObj σ K) (c : Call K) (cs : List (Call K)) (s : σ) :
    f.successes (c :: cs) s = match f.call c s with
      | (ok v, t) => (c.arg, v) :: f.successes cs t
      | (.throw _, t) => f.successes cs t
      | (ub, t) => f.successes cs t := by
  unfold FnObj.successes
  rw [runAll_cons]
  rcases f.call c s with ⟨r, t⟩
  cases r <;> simp

theorem progressTracker_history [LT K] [DecidableLT K] (record : Bool) (f : FnObj σ K)
    (calls : List (Call K)) (s : σ) (n : Nat) (e : Event K) :
    ((progressTracker record f).runAll calls ((s, n), e)).2.2
      = trackHistory record e (f.successes calls s) n ∧
    ((progressTracker record f).runAll calls ((s, n), e)).2.1.2
      = n + (f.successes calls s).length := by
  induction calls generalizing s n e with
  | nil => exact ⟨rfl, rfl⟩
  | cons c cs ih =>
    rw [runAll_cons, progressTracker_call, successes_cons]
    rcases f.call c s with ⟨r, t⟩
    cases r with
    | ok v =>
      refine ⟨(ih _ _ _).1, ?_⟩
      simp only [List.length_cons]
      rw [(ih _ _ _).2]
      omega
    | throw x => exact ih _ _ _
    | ub => exact ih _ _ _

theorem trackHistory_first [LinearOrder K] (record : Bool) (bv0 : BV) (done : List (BV × K))
    (e : Event K) (x : BV) (hx : IsFirstBest done e.numEvaluations x e.value)
    (hb : e.bv = if record then x else bv0) (h : List (BV × K)) :
    ∃ x, IsFirstBest (done ++ h) (trackHistory record e h done.length).numEvaluations x
        (trackHistory record e h done.length).value ∧
      (trackHistory record e h done.length).bv = if record then x else bv0 := by
  induction h generalizing done e x with
  | nil => exact ⟨x, by simpa [trackHistory] using hx, hb⟩
  | cons p h ih =>
    have hdone : done ≠ [] := by
      rintro rfl
      simp [IsFirstBest] at hx
    have hlen : done.length + 1 ≠ 1 := by
      have := List.length_pos_iff.mpr hdone
      omega
    have e1 : done ++ p :: h = (done ++ [p]) ++ h := by simp
    have e2 : done.length + 1 = (done ++ [p]).length := by simp
    simp only [trackHistory]
    rw [e1]
    obtain ⟨h1, h2, h3, h4⟩ := hx
    by_cases hlt : e.value < p.2
    · have hs : trackStep record (done.length + 1) p.1 p.2 e
          = { numEvaluations := done.length + 1, bv := if record then p.1 else e.bv, value := p.2 } := by
        simp [trackStep, hlt]
      rw [hs, e2]
      apply ih _ _ p.1
      · refine ⟨by simp, by simp, ?_, ?_⟩
        · intro q hq
          rcases List.mem_append.mp hq with hq | hq
          · exact le_of_lt (lt_of_le_of_lt (h3 q hq) hlt)
          · simp at hq; subst hq; exact le_refl _
        · intro j q hj hq
          simp only [List.length_append, List.length_singleton, Nat.add_sub_cancel] at hj
          rw [List.getElem?_append_left hj] at hq
          exact lt_of_le_of_lt (h3 q (List.mem_of_getElem? hq)) hlt
      · cases record with
        | true => rfl
        | false => exact hb
    · have hs : trackStep record (done.length + 1) p.1 p.2 e = e := by
        unfold trackStep
        rw [if_neg]
        rintro (hc | hc)
        · exact hlen hc
        · exact hlt hc
      rw [hs, e2]
      have hk : e.numEvaluations - 1 < done.length := by
        by_contra hc
        rw [List.getElem?_eq_none (by omega)] at h2
        cases h2
      apply ih _ _ x
      · refine ⟨h1, by rw [List.getElem?_append_left hk, h2], ?_, ?_⟩
        · intro q hq
          rcases List.mem_append.mp hq with hq | hq
          · exact h3 q hq
          · simp at hq; subst hq; exact not_lt.mp hlt
        · intro j q hj hq
          rw [List.getElem?_append_left (by omega)] at hq
          exact h4 j q hj hq
      · exact hb

/-- C24: after any history with at least one successful call, through a fresh tracker, the recorded
event holds the greatest value obtained and the rank, among successful calls, of its first occurrence;
its bit vector is the one passed to that call if recording is on, and is left unchanged otherwise.  The
counter holds the number of successful calls. -/
theorem progressTracker_first_best [LinearOrder K] (record : Bool) (f : FnObj σ K)
    (calls : List (Call K)) (s : σ) (size : Nat) (v0 : K) (hne : f.successes calls s ≠ []) :
    let final := ((progressTracker record f).runAll calls (trackerNew s size v0)).2
    (∃ x, IsFirstBest (f.successes calls s) final.2.numEvaluations x final.2.value ∧
      final.2.bv = if record then x else List.replicate size false) ∧
    final.1.2 = (f.successes calls s).length := by
  simp only [trackerNew]
  obtain ⟨h1, h2⟩ := progressTracker_history record f calls s 0
    { numEvaluations := 0, bv := List.replicate size false, value := v0 }
  refine ⟨?_, by rw [h2]; simp⟩
  rw [h1]
  generalize f.successes calls s = h at hne
  cases h with
  | nil => exact absurd rfl hne
  | cons p h =>
    simp only [trackHistory]
    have := trackHistory_first record (List.replicate size false) [p]
      (trackStep record (0 + 1) p.1 p.2
        { numEvaluations := 0, bv := List.replicate size false, value := v0 }) p.1 ?_ ?_ h
    · simpa using this
    · simp [trackStep, IsFirstBest]
    · cases record <;> simp [trackStep]

/-- A history with a tie: the best value 2 is first obtained at the second call. -/
example :
    let f : FnObj (List (Call Nat)) Nat := FnObj.base (Fn.ofEval 2 (fun x => ok (x.count true)))
    let calls : List (Call Nat) := [.full [true, false], .full [true, true], .upd [true, true] 2]
    f.successes calls [] ≠ [] ∧
    ((progressTracker true f).runAll calls (trackerNew [] 2 7)).2.2
      = { numEvaluations := 2, bv := [true, true], value := 2 } := by
  decide

/-- C24: for a function of the bit vector and a history of full evaluations, the recorded vector has the
recorded value. -/
theorem progressTracker_consistent [LinearOrder K] (f : Fn K) (g : BV → K)
    (hf : ∀ x, f.eval x = ok (g x)) (xs : List BV) (hne : xs ≠ []) (size : Nat) (v0 : K) :
    let final := ((progressTracker true (FnObj.base f)).runAll (xs.map .full)
      (trackerNew [] size v0)).2
    final.2.value = g final.2.bv := by
  have hs : ∀ (xs : List BV) (log : List (Call K)),
      (FnObj.base f).successes (xs.map .full) log = xs.map (fun x => (x, g x)) := by
    intro xs
    induction xs with
    | nil => intro log; rfl
    | cons x xs ih =>
      intro log
      rw [List.map_cons, successes_cons]
      simp [FnObj.call, FnObj.base, Act.bind_def, hf, Call.arg] at ih ⊢
      exact ih _
  obtain ⟨⟨x, hx, hb⟩, _⟩ := progressTracker_first_best true (FnObj.base f) (xs.map .full) [] size v0
    (by rw [hs]; simpa using hne)
  simp only at hx hb ⊢
  obtain ⟨_, h2, _⟩ := hx
  rw [hs] at h2
  have := List.mem_of_getElem? h2
  simp only [List.mem_map, Prod.mk.injEq] at this
  obtain ⟨y, _, rfl, hv⟩ := this
  rw [hb]
  exact hv.symm

/-- C24: with incremental evaluation the recorded bit vector is the one before the flips, so that it need
not have the recorded value, although the incremental evaluation itself is exact. -/
theorem progressTracker_incremental_wrong :
    ∃ (f : Fn Nat) (calls : List (Call Nat)),
      (∀ c ∈ calls, ∀ x v fl y, c = .inc x v fl → f.eval x = ok v → bvFlipSparse x fl = ok y →
        f.evalInc x v fl = f.eval y) ∧
      let final := ((progressTracker true (FnObj.base f)).runAll calls (trackerNew [] 2 0)).2
      f.eval final.2.bv ≠ ok final.2.value := by
  refine ⟨⟨2, false, .throw .runtimeError, fun x => ok (x.count true), true,
    fun x _ fl => do
      let y ← bvFlipSparse x fl
      return y.count true⟩,
    [.full [false, false], .inc [false, false] 0 [0, 1]], ?_, ?_⟩
  · intro c _ x v fl y _ _ hy
    simp [hy]
  · decide

/-! ### C25: stop on target -/

/-- C25: a call through the controller raises the target exception exactly when the wrapped object
returns a value that is at least the target; otherwise the reply is that of the wrapped object. -/
theorem stopOnTarget_replies [LE K] [DecidableLE K] (target : K) (f : FnObj σ K)
    (calls : List (Call K)) (s : σ) (tr : Option (BV × K)) :
    ((stopOnTarget target f).runAll calls (s, tr)).1 = (f.runAll calls s).1.map (fun r =>
      match r with
      | ok v => if target ≤ v then .throw .targetReached else ok v
      | r => r) := by
  induction calls generalizing s tr with
  | nil => rfl
  | cons c cs ih =>
    rw [runAll_cons, runAll_cons, stopOnTarget_call]
    rcases f.call c s with ⟨r, t⟩
    cases r with
    | ok v =>
      by_cases h : target ≤ v
      · simp [h, ih]
      · simp [h, ih]
    | throw x => simp [ih]
    | ub => simp [ih]

/-- C25: a run that is stopped by its first exception ends at the first call whose value is at least the
target: the calls before it returned smaller values, and the trigger is the vector passed to that call
with the value obtained. -/
theorem stopOnTarget_stops [LinearOrder K] (target : K) (f : FnObj σ K) (calls : List (Call K)) (s : σ)
    (tr : Option (BV × K)) (hf : ∀ c t, ∃ v t', f.call c t = (ok v, t')) :
    let vals := (f.runUntil calls s).1
    let run := (stopOnTarget target f).runUntil calls (s, tr)
    vals.length = calls.length ∧
    run.1 = vals.takeWhile (fun v => decide (v < target)) ∧
    ((∀ v ∈ vals, v < target) → run.2.1 = ok () ∧ run.2.2.2 = tr) ∧
    (∀ (i : Nat) (c : Call K) (v : K), calls[i]? = some c → vals[i]? = some v → target ≤ v →
      (∀ (j : Nat) (w : K), j < i → vals[j]? = some w → w < target) →
      run.2.1 = .throw .targetReached ∧ run.2.2.2 = some (c.arg, v)) := by
  induction calls generalizing s with
  | nil => simp [FnObj.runUntil]
  | cons c cs ih =>
    obtain ⟨v, t, hv⟩ := hf c s
    obtain ⟨h0, h1, h2, h3⟩ := ih t
    simp only [FnObj.runUntil, stopOnTarget_call, hv] at h0 h1 h2 h3 ⊢
    by_cases h : target ≤ v
    · have hnot : ¬ v < target := not_lt.mpr h
      simp only [h, if_true]
      refine ⟨by simp [h0], by simp [hnot], ?_, ?_⟩
      · intro hall
        exact absurd (hall v (by simp)) hnot
      · intro i c' v' hc hv' ht hbefore
        cases i with
        | zero => simp at hc hv'; subst hc; subst hv'; simp
        | succ i => exact absurd (hbefore 0 v (by omega) (by simp)) hnot
    · have hlt : v < target := not_le.mp h
      simp only [h, if_false]
      refine ⟨by simp [h0], by simp [hlt, h1], ?_, ?_⟩
      · intro hall
        exact h2 (fun w hw => hall w (by simp [hw]))
      · intro i c' v' hc hv' ht hbefore
        cases i with
        | zero => simp at hv'; subst hv'; exact absurd ht h
        | succ i =>
          simp only [List.getElem?_cons_succ] at hc hv'
          exact h3 i c' v' hc hv' ht (fun j w hj hw => hbefore (j + 1) w (by omega) (by simpa using hw))

/-- A run stopped at its second call. -/
example :
    let f : FnObj (List (Call Nat)) Nat := FnObj.base (Fn.ofEval 2 (fun x => ok (x.count true)))
    (stopOnTarget 2 f).runUntil [.full [true, false], .full [true, true], .full [false, false]] ([], none)
      = ([1], .throw .targetReached,
          ([.full [true, false], .full [true, true]], some ([true, true], 2))) := by
  decide

/-- C25: with incremental evaluation the trigger holds the vector before the flips, which need not reach
the target, although the incremental evaluation itself is exact. -/
theorem stopOnTarget_incremental_wrong :
    ∃ (f : Fn Nat) (x : BV) (v : Nat) (fl : List Nat) (y : BV) (w : Nat),
      f.eval x = ok v ∧ bvFlipSparse x fl = ok y ∧ f.evalInc x v fl = f.eval y ∧
      ((stopOnTarget 2 (FnObj.base f)).call (.inc x v fl) ([], none)).2.2 = some (x, w) ∧
      f.eval x ≠ ok w := by
  refine ⟨⟨2, false, .throw .runtimeError, fun x => ok (x.count true), true,
    fun x _ fl => do
      let y ← bvFlipSparse x fl
      return y.count true⟩, [false, false], 0, [0, 1], [true, true], 2, ?_⟩
  decide

/-! ### C22: cache -/

theorem cacheEvaluate_eq (f : FnObj σ K) (x : BV) (s : σ) (c : CacheState K)
    (hx : x.length = c.key.length) :
    cacheEvaluate f x (s, c) = match c.cache.find? (fun e => e.1 == x) with
      | some e => (ok e.2, (s, { c with key := x, numEvaluations := c.numEvaluations + 1,
                                        numLookups := c.numLookups + 1 }))
      | none => match f.evaluate x s with
        | (ok v, t) => (ok v, (t, { c with cache := (x, v) :: c.cache, key := x,
                                           numEvaluations := c.numEvaluations + 1 }))
        | (.throw e, t) => (.throw e, (t, { c with key := x, numEvaluations := c.numEvaluations + 1 }))
        | (ub, t) => (ub, (t, { c with key := x, numEvaluations := c.numEvaluations + 1 })) := by
  have hk : bvToVectorBool c.key x = ok x := by
    simp only [bvToVectorBool, hx, beq_self_eq_true, assert_true, ok_bind]
    rw [← hx]
    exact copyLoop_ok hx.symm
  simp only [cacheEvaluate, Act.bind_def, Act.get_def, Act.lift_def, hx, beq_self_eq_true,
    assert_true, Act.modify_def, hk, cacheFind]
  cases hfind : c.cache.find? (fun e => e.1 == x) with
  | none =>
    simp only [Act.bind_def, Act.inner_def]
    rcases f.evaluate x s with ⟨r, t⟩
    cases r <;> simp
  | some e =>
    have he : (e.1 == x) = true := by
      have := List.find?_some hfind
      exact this
    show Act.bind (Act.modify _) _ _ = _
    simp only [Act.bind, Act.bind_def, Act.modify_def, Act.lift_def, he, assert_true, Act.pure_def]

/-- C22: for every function of the bit vector, every sequence of evaluations of vectors of the right
size through a fresh cache returns the values of the function; the wrapped function is evaluated exactly
once for each distinct vector, in the order of first occurrences (`dedup` keeps last occurrences, hence
the reversals); and the number of evaluations is the
number of lookups plus the number of evaluations of the wrapped function. -/
theorem cache_transparent [DecidableEq K] (f : Fn K) (g : BV → K) (n : Nat)
    (hf : ∀ x, x.length = n → f.eval x = ok (g x)) (xs : List BV) (hxs : ∀ x ∈ xs, x.length = n) :
    let run := (cached (FnObj.base f)).runAll (xs.map .full) ([], cacheNew n)
    run.1 = xs.map (fun x => ok (g x)) ∧
    run.2.1 = (xs.reverse.dedup.reverse).map .full ∧
    run.2.2.numEvaluations = xs.length ∧
    run.2.2.numEvaluations = run.2.2.numLookups + run.2.1.length := by
  have key : ∀ (xs : List BV) (seen : List BV) (c : CacheState K), (∀ x ∈ xs, x.length = n) →
      c.key.length = n → (∀ e ∈ c.cache, e.2 = g e.1) →
      (∀ x, (∃ e ∈ c.cache, e.1 = x) ↔ x ∈ seen) →
      c.numEvaluations = c.numLookups + (seen.reverse.dedup.reverse).length →
      let run := (cached (FnObj.base f)).runAll (xs.map .full)
        ((seen.reverse.dedup.reverse).map .full, c)
      run.1 = xs.map (fun x => ok (g x)) ∧
      run.2.1 = ((seen ++ xs).reverse.dedup.reverse).map .full ∧
      run.2.2.numEvaluations = c.numEvaluations + xs.length ∧
      run.2.2.numEvaluations = run.2.2.numLookups + run.2.1.length := by
    intro xs
    induction xs with
    | nil =>
      intro seen c _ _ _ _ hc
      simp only [List.map_nil, FnObj.runAll, List.append_nil, List.length_nil, Nat.add_zero,
        List.length_map, true_and]
      exact hc
    | cons x xs ih =>
      intro seen c hx hk hval hseen hc
      have hxn : x.length = n := hx x (by simp)
      have hstep : (cached (FnObj.base f)).call (.full x) ((seen.reverse.dedup.reverse).map .full, c)
          = cacheEvaluate (FnObj.base f) x ((seen.reverse.dedup.reverse).map .full, c) := rfl
      simp only [List.map_cons, runAll_cons, hstep, cacheEvaluate_eq _ _ _ _ (hxn.trans hk.symm)]
      have hrev : (seen ++ x :: xs) = (seen ++ [x]) ++ xs := by simp
      by_cases hmem : x ∈ seen
      · obtain ⟨e, he, hex⟩ := (hseen x).mpr hmem
        have hsome : (c.cache.find? (fun e => e.1 == x)).isSome := by
          rw [List.find?_isSome]
          exact ⟨e, he, by simp [hex]⟩
        obtain ⟨e', he'⟩ := Option.isSome_iff_exists.mp hsome
        have h1 := List.mem_of_find?_eq_some he'
        have h2 := List.find?_some he'
        simp only [beq_iff_eq] at h2
        have hd : (seen ++ [x]).reverse.dedup.reverse = seen.reverse.dedup.reverse := by
          rw [List.reverse_append, List.reverse_singleton, List.singleton_append,
            List.dedup_cons_of_mem (by simpa using hmem)]
        have := ih (seen ++ [x]) { c with key := x, numEvaluations := c.numEvaluations + 1,
                                          numLookups := c.numLookups + 1 }
          (fun y hy => hx y (by simp [hy])) hxn hval
          (by intro y
              rw [hseen y]
              constructor
              · intro hy; simp [hy]
              · intro hy
                rcases List.mem_append.mp hy with hy | hy
                · exact hy
                · simp at hy; subst hy; exact hmem)
          (by rw [hd]; simp only; omega)
        rw [hd] at this
        simp only [he']
        rw [this.1, this.2.1, hval e' h1, h2, hrev]
        refine ⟨rfl, rfl, ?_, ?_⟩
        · rw [this.2.2.1]; simp only [List.length_cons]; omega
        · rw [this.2.2.2, this.2.1]
      · have hnone : c.cache.find? (fun e => e.1 == x) = none := by
          rw [List.find?_eq_none]
          intro e he hex
          simp only [beq_iff_eq] at hex
          exact hmem ((hseen x).mp ⟨e, he, hex⟩)
        have hd : (seen ++ [x]).reverse.dedup.reverse = seen.reverse.dedup.reverse ++ [x] := by
          rw [List.reverse_append, List.reverse_singleton, List.singleton_append,
            List.dedup_cons_of_notMem (by simpa using hmem)]
          simp
        have := ih (seen ++ [x]) { c with cache := (x, g x) :: c.cache, key := x,
                                          numEvaluations := c.numEvaluations + 1 }
          (fun y hy => hx y (by simp [hy])) hxn
          (by intro e he
              rcases List.mem_cons.mp he with he | he
              · subst he; rfl
              · exact hval e he)
          (by intro y
              rw [List.mem_append, List.mem_singleton, ← hseen y]
              constructor
              · rintro ⟨e, he, rfl⟩
                rcases List.mem_cons.mp he with rfl | he
                · right; rfl
                · left; exact ⟨e, he, rfl⟩
              · rintro (⟨e, he, rfl⟩ | rfl)
                · exact ⟨e, List.mem_cons_of_mem _ he, rfl⟩
                · exact ⟨_, List.mem_cons_self, rfl⟩)
          (by rw [hd]; simp only [List.length_append, List.length_singleton]; omega)
        rw [hd] at this
        simp only [hnone, FnObj.base, Act.bind_def, Act.modify_def, Act.lift_def, hf x hxn]
        simp only [List.map_append, List.map_cons, List.map_nil, FnObj.base] at this
        rw [this.1, this.2.1, hrev]
        refine ⟨rfl, rfl, ?_, ?_⟩
        · rw [this.2.2.1]; simp only [List.length_cons]; omega
        · rw [this.2.2.2, this.2.1]
  have := key xs [] (cacheNew n) hxs (by simp [cacheNew]) (by simp [cacheNew]) (by simp [cacheNew])
    (by simp [cacheNew])
  simpa [cacheNew] using this

/-- A sequence of queries with repetitions. -/
example :
    let f : FnObj (List (Call Nat)) Nat := FnObj.base (Fn.ofEval 2 (fun x => ok (x.count true)))
    let run := (cached f).runAll [.full [true, true], .full [true, false], .full [true, true]]
      ([], cacheNew 2)
    run.1 = [ok 2, ok 1, ok 2] ∧ run.2.1 = [.full [true, true], .full [true, false]] ∧
      run.2.2.numLookups = 1 := by
  decide

/-- C22: evaluating a vector of another size is outside the contract. -/
theorem cache_wrong_size (f : FnObj σ K) (x : BV) (s : σ) (c : CacheState K)
    (hx : x.length ≠ c.key.length) : (cacheEvaluate f x (s, c)).1 = ub := by
  have hb : (x.length == c.key.length) = false := by simp [hx]
  simp only [cacheEvaluate, Act.bind_def, Act.get_def, Act.lift_def, hb, assert_false]

end Hnco
