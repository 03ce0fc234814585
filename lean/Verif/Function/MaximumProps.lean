import Verif.Function.Cancellation
import Verif.Function.IncrementalProps
import Mathlib.Algebra.BigOperators.Intervals
import Mathlib.Algebra.Order.BigOperators.Group.Finset
import Mathlib.Algebra.Order.Ring.Abs
import Mathlib.Algebra.Order.Field.Rat
import Mathlib.Tactic.FieldSimp
import Mathlib.Tactic.Positivity
import Mathlib.Tactic.Linarith
import Mathlib.Tactic.NormNum
import Mathlib.Tactic.IntervalCases

/-!
# Maxima of linear functions, Walsh expansions of degree 1 and summation cancellation (C33)
-/

namespace Hnco

open Outcome

section Linear

variable {K : Type} [Ring K] [LinearOrder K] [IsStrictOrderedRing K]

/-- C33: the value of a linear function is the sum of the weights of the ones. -/
theorem linear_value {n : Nat} (w : Fin n → K) (x : Fin n → Bool) :
    (linearFunction (List.ofFn w)).eval (List.ofFn x) = ok (∑ i, if x i then w i else 0) :=
  linearEval_ofFn w x

/-- C33: the declared maximum of a linear function is its maximum. -/
theorem linear_maximum (w : List K) : DeclaresMaximum (linearFunction w) := by
  obtain ⟨n, hn⟩ : ∃ n, w.length = n := ⟨_, rfl⟩
  obtain ⟨w, rfl⟩ := exists_ofFn w hn
  have hsz : (linearFunction (List.ofFn w)).size = n := by simp [linearFunction]
  refine ⟨rfl, ∑ i, if 0 < w i then w i else 0, ?_, ?_⟩
  · simp only [linearFunction, linearMaximum, List.length_ofFn]
    rw [forRange_sum _ (fun i => if 0 < w i then w i else 0)]
    · simp
    · intro i r
      simp only [vget_ofFn _ _ i.isLt, ok_bind, Fin.eta]
      split <;> simp
  · rw [hsz]
    apply isMaximum_of _ _ (fun x => ∑ i, if x i then w i else 0) (linear_value w)
    · intro x
      apply Finset.sum_le_sum
      intro i _
      by_cases h : 0 < w i
      · rw [if_pos h]
        split
        · exact le_refl _
        · exact h.le
      · rw [if_neg h]
        split
        · exact not_lt.mp h
        · exact le_refl _
    · exact ⟨fun i => decide (0 < w i), by simp⟩

example : (linearFunction [3, -5, (7 : Int)]).maximum = ok 10 ∧
    (linearFunction [3, -5, (7 : Int)]).eval [true, false, true] = ok 10 := by decide

/-- C33: the value of a Walsh expansion of degree 1 is the sum of the weights, negated at the ones. -/
theorem walsh1_value {n : Nat} (w : Fin n → K) (x : Fin n → Bool) :
    (walshExpansion1 (List.ofFn w)).eval (List.ofFn x) = ok (∑ i, if x i then -w i else w i) :=
  walsh1Eval_ofFn w x

/-- C33: the declared maximum of a Walsh expansion of degree 1 is its maximum. -/
theorem walsh1_maximum (w : List K) : DeclaresMaximum (walshExpansion1 w) := by
  obtain ⟨n, hn⟩ : ∃ n, w.length = n := ⟨_, rfl⟩
  obtain ⟨w, rfl⟩ := exists_ofFn w hn
  have hsz : (walshExpansion1 (List.ofFn w)).size = n := by simp [walshExpansion1]
  refine ⟨rfl, ∑ i, |w i|, ?_, ?_⟩
  · simp only [walshExpansion1, walsh1Maximum]
    rw [forEach_sum _ (fun a => |a|), ← List.sum_ofFn, zero_add]
    · congr 2
      simp [List.map_ofFn, Function.comp_def]
    · intro a _ r
      simp only [Outcome.pure_eq, Outcome.ok.injEq]
      by_cases h : 0 < a
      · rw [if_pos h, abs_of_pos h]
      · rw [if_neg h, abs_of_nonpos (not_lt.mp h), sub_eq_add_neg]
  · rw [hsz]
    apply isMaximum_of _ _ (fun x => ∑ i, if x i then -w i else w i) (walsh1_value w)
    · intro x
      apply Finset.sum_le_sum
      intro i _
      split
      · exact neg_le_abs (w i)
      · exact le_abs_self (w i)
    · refine ⟨fun i => decide (w i < 0), ?_⟩
      apply Finset.sum_congr rfl
      intro i _
      by_cases h : w i < 0
      · simp [h, abs_of_neg h]
      · simp [h, abs_of_nonneg (not_lt.mp h)]

example : (walshExpansion1 [3, -5, (7 : Int)]).maximum = ok 15 ∧
    (walshExpansion1 [3, -5, (7 : Int)]).eval [false, true, false] = ok 15 := by decide

end Linear

/-! ## Summation cancellation -/

/-- Bit `p` of `x` as a number. -/
def bitAt (x : BV) (p : Nat) : Int := if x[p]? = some true then 1 else 0

/-- The integer encoded in two's complement by nine bits, the first of which is the sign. -/
def encoded (x : BV) (i : Nat) : Int :=
  ∑ j ∈ Finset.range 8, bitAt x (9 * i + 1 + j) * 2 ^ j - 256 * bitAt x (9 * i)

section Cancellation

variable {K : Type} [Field K] [LinearOrder K]

theorem readByte_spec (x : BV) (offset : Nat) (bit : Bool) (h : offset + 9 ≤ x.length) :
    readByte x offset bit = ok (∑ j ∈ Finset.range 8,
      (if x[offset + 1 + j]? = some bit then (2 : Int) ^ j else 0), 256) := by
  unfold readByte
  have := forRange_returns (body := fun j (s : Int × Int) => do
      let b ← vget x j
      return (if b == bit then s.1 + s.2 else s.1, s.2 * 2))
      (fun k s => s.1 = ∑ j ∈ Finset.range (k - (offset + 1)),
        (if x[offset + 1 + j]? = some bit then (2 : Int) ^ j else 0) ∧ s.2 = 2 ^ (k - (offset + 1)))
      (show offset + 1 ≤ offset + 9 by omega) (s := (0, 1)) (by simp) ?_
  · obtain ⟨s, h1, h2, h3⟩ := this
    rw [show offset + 9 - (offset + 1) = 8 by omega] at h2 h3
    rw [h1]
    congr 1
    exact Prod.ext h2 (h3.trans (by norm_num))
  · intro j s hj1 hj2 ⟨e1, e2⟩
    rw [vget_eq (show j < x.length by omega), ok_bind]
    simp only [Outcome.pure_eq, returns_ok]
    rw [show j + 1 - (offset + 1) = (j - (offset + 1)) + 1 by omega, Finset.sum_range_succ,
      show offset + 1 + (j - (offset + 1)) = j by omega, List.getElem?_eq_getElem (by omega), pow_succ, ← e2]
    refine ⟨?_, rfl⟩
    rw [← e1]
    simp only [beq_iff_eq, Option.some.injEq]
    split <;> simp

theorem byte_bounds (x : BV) (offset : Nat) (bit : Bool) :
    0 ≤ ∑ j ∈ Finset.range 8, (if x[offset + 1 + j]? = some bit then (2 : Int) ^ j else 0) ∧
      ∑ j ∈ Finset.range 8, (if x[offset + 1 + j]? = some bit then (2 : Int) ^ j else 0) ≤ 255 := by
  constructor
  · apply Finset.sum_nonneg
    intro j _
    split <;> positivity
  · calc _ ≤ ∑ j ∈ Finset.range 8, (2 : Int) ^ j := by
          apply Finset.sum_le_sum
          intro j _
          split
          · exact le_refl _
          · positivity
      _ = 255 := by decide

theorem byte_compl (x : BV) (offset : Nat) (h : offset + 9 ≤ x.length) :
    ∑ j ∈ Finset.range 8, (if x[offset + 1 + j]? = some false then (2 : Int) ^ j else 0) =
      255 - ∑ j ∈ Finset.range 8, bitAt x (offset + 1 + j) * 2 ^ j := by
  have : (255 : Int) = ∑ j ∈ Finset.range 8, (2 : Int) ^ j := by decide
  rw [this, ← Finset.sum_sub_distrib]
  apply Finset.sum_congr rfl
  intro j hj
  rw [Finset.mem_range] at hj
  unfold bitAt
  rw [List.getElem?_eq_getElem (by omega)]
  cases x[offset + 1 + j] <;> simp

theorem byte_true (x : BV) (offset : Nat) :
    ∑ j ∈ Finset.range 8, (if x[offset + 1 + j]? = some true then (2 : Int) ^ j else 0) =
      ∑ j ∈ Finset.range 8, bitAt x (offset + 1 + j) * 2 ^ j := by
  apply Finset.sum_congr rfl
  intro j _
  unfold bitAt
  split <;> simp

theorem convertOne_spec (x : BV) (i : Nat) (h : 9 * i + 9 ≤ x.length) :
    (convertOne x i : Outcome K) = ok ((encoded x i : K) / 100) := by
  unfold convertOne
  simp only [vget_eq (show 9 * i < x.length by omega), ok_bind]
  have hb := byte_bounds x (9 * i)
  by_cases hs : x[9 * i] = false
  · rw [if_pos (by simp [hs]), readByte_spec x _ _ h, ok_bind, assert_pos (by simpa using (hb true).1),
      ok_bind, assert_pos (by simpa using (hb true).2), ok_bind]
    simp only [Outcome.pure_eq, Outcome.ok.injEq, encoded]
    rw [byte_true]
    have : bitAt x (9 * i) = 0 := by
      unfold bitAt
      rw [List.getElem?_eq_getElem (by omega), hs]; simp
    rw [this]
    simp
  · have hs' : x[9 * i] = true := by simpa using hs
    rw [if_neg (by simp [hs']), readByte_spec x _ _ h, ok_bind, assert_pos (by
        have := (hb false).1
        simp only [decide_eq_true_eq]
        omega), ok_bind, assert_pos (by
        have := (hb false).2
        simp only [decide_eq_true_eq]
        omega), ok_bind]
    simp only [Outcome.pure_eq, Outcome.ok.injEq, encoded]
    have : bitAt x (9 * i) = 1 := by
      unfold bitAt
      rw [List.getElem?_eq_getElem (by omega), hs']; simp
    rw [byte_compl x _ h, this]
    congr 1
    push_cast
    ring

theorem convert_spec (m : Nat) (x : BV) (h : x.length = 9 * m) :
    (cancellationConvert m x : Outcome (List K)) =
      ok ((List.range m).map (fun i => (encoded x i : K) / 100)) := by
  unfold cancellationConvert
  rw [assert_pos (by simp [h]), ok_bind]
  have := forRange_returns (body := fun i buffer => do
      let t ← (convertOne x i : Outcome K)
      return buffer ++ [t])
      (fun k s => s = (List.range k).map (fun i => (encoded x i : K) / 100)) (Nat.zero_le m) (s := [])
      (by simp) ?_
  · obtain ⟨s, h1, rfl⟩ := this
    exact h1
  · rintro j s _ hj rfl
    rw [convertOne_spec x j (by omega), ok_bind]
    simp [List.range_succ]

variable [IsStrictOrderedRing K]

omit [IsStrictOrderedRing K] in
theorem sumAbs_eq (l : List K) : sumAbs l = (l.map (fun a => |a|)).sum := by
  unfold sumAbs
  rw [List.sum_eq_foldl]

theorem sumAbs_nonneg (l : List K) : 0 ≤ sumAbs l := by
  rw [sumAbs_eq]
  apply List.sum_nonneg
  intro a ha
  obtain ⟨b, _, rfl⟩ := List.mem_map.mp ha
  exact abs_nonneg b

theorem sumAbs_eq_zero (l : List K) : sumAbs l = 0 ↔ ∀ a ∈ l, a = 0 := by
  induction l with
  | nil => simp [sumAbs]
  | cons a l ih =>
    have h : sumAbs (a :: l) = |a| + sumAbs l := by rw [sumAbs_eq, sumAbs_eq]; simp
    rw [h, add_eq_zero_iff_of_nonneg (abs_nonneg a) (sumAbs_nonneg l), ih, abs_eq_zero]
    simp

omit [IsStrictOrderedRing K] in
theorem sumAbs_partialSum (f : Nat → K) (m s : Nat) (acc : K) :
    sumAbs (partialSum acc ((List.range' s m).map f)) =
      ∑ k ∈ Finset.range m, |acc + ∑ i ∈ Finset.range (k + 1), f (s + i)| := by
  induction m generalizing s acc with
  | zero => simp [partialSum, sumAbs]
  | succ m ih =>
    have h : ∀ (a : K) (l : List K), sumAbs (a :: l) = |a| + sumAbs l := by
      intro a l; rw [sumAbs_eq, sumAbs_eq]; simp
    rw [List.range'_succ, List.map_cons, partialSum, h, ih, Finset.sum_range_succ', add_comm]
    congr 1
    · apply Finset.sum_congr rfl
      intro k _
      congr 1
      rw [Finset.sum_range_succ' _ (k + 1), add_assoc]
      congr 1
      rw [add_comm]
      congr 1
      apply Finset.sum_congr rfl
      intro i _
      congr 1
      omega
    · simp

theorem encoded_bits (x : BV) (m : Nat) (hx : x.length = 9 * m) (h : ∀ i < m, encoded x i = 0) :
    x = List.replicate (9 * m) false := by
  rw [← hx, List.eq_replicate_iff]
  refine ⟨rfl, ?_⟩
  have key : ∀ p < 9 * m, bitAt x p = 0 := by
    intro p hp
    have he := h (p / 9) (by omega)
    have h01 : ∀ p, 0 ≤ bitAt x p ∧ bitAt x p ≤ 1 := by
      intro p; unfold bitAt; split <;> omega
    unfold encoded at he
    simp only [Finset.sum_range_succ, Finset.sum_range_zero] at he
    have e0 := h01 (9 * (p / 9))
    have e1 := h01 (9 * (p / 9) + 1 + 0)
    have e2 := h01 (9 * (p / 9) + 1 + 1)
    have e3 := h01 (9 * (p / 9) + 1 + 2)
    have e4 := h01 (9 * (p / 9) + 1 + 3)
    have e5 := h01 (9 * (p / 9) + 1 + 4)
    have e6 := h01 (9 * (p / 9) + 1 + 5)
    have e7 := h01 (9 * (p / 9) + 1 + 6)
    have e8 := h01 (9 * (p / 9) + 1 + 7)
    have hp9 : p = 9 * (p / 9) + p % 9 := (Nat.div_add_mod p 9).symm
    have hlt : p % 9 < 9 := Nat.mod_lt _ (by norm_num)
    norm_num at he
    rw [hp9]
    generalize p / 9 = q at *
    generalize p % 9 = r at *
    interval_cases r
    all_goals (simp only [Nat.add_assoc, Nat.reduceAdd, Nat.add_zero] at *; omega)
  intro b hb
  obtain ⟨p, hp, rfl⟩ := List.mem_iff_getElem.mp hb
  have := key p (by omega)
  unfold bitAt at this
  rw [List.getElem?_eq_getElem hp] at this
  by_contra hc
  simp [show x[p] = true by simpa using hc] at this

theorem encoded_zero (m i : Nat) : encoded (List.replicate (9 * m) false) i = 0 := by
  have : ∀ p, bitAt (List.replicate (9 * m) false) p = 0 := by
    intro p
    unfold bitAt
    rw [List.getElem?_replicate]
    split <;> simp_all
  simp [encoded, this]

/-- C33: the constructor of summation cancellation accepts exactly the multiples of 9. -/
theorem cancellationNew_spec (n : Nat) :
    (∀ m, cancellationNew n = ok m ↔ n = 9 * m) ∧ (¬ 9 ∣ n → cancellationNew n = .throw .runtimeError) := by
  unfold cancellationNew
  constructor
  · intro m
    by_cases h : n % 9 = 0
    · simp only [h, bne_self_eq_false, Bool.false_eq_true, if_false, Outcome.pure_eq, Outcome.ok.injEq]
      omega
    · rw [if_pos (by simpa using h)]
      simp only [reduceCtorEq, false_iff]
      omega
  · intro h
    rw [if_pos (by simp; omega)]

omit [IsStrictOrderedRing K] in
/-- C33: the value of summation cancellation is minus the sum of the absolute values of the partial sums of
the encoded numbers, in hundredths. -/
theorem summationCancellation_value (m : Nat) (x : BV) (hx : x.length = 9 * m) :
    (summationCancellation (9 * m) m : Fn K).eval x =
      ok (-∑ k ∈ Finset.range m, |∑ i ∈ Finset.range (k + 1), (encoded x i : K) / 100|) := by
  simp only [summationCancellation, cancellationEval]
  rw [convert_spec m x hx, ok_bind, List.range_eq_range', sumAbs_partialSum]
  simp

/-- C33: the declared maximum 0 of summation cancellation is its maximum, and the zero vector is the only one
to reach it. -/
theorem summationCancellation_maximum (n m : Nat) (h : cancellationNew n = ok m) :
    DeclaresMaximum (summationCancellation n m : Fn K) ∧
      ∀ x : BV, x.length = n →
        ((summationCancellation n m : Fn K).eval x = ok 0 ↔ x = List.replicate n false) := by
  obtain rfl := ((cancellationNew_spec n).1 m).mp h
  have hiff : ∀ x : BV, x.length = 9 * m →
      ((summationCancellation (9 * m) m : Fn K).eval x = ok 0 ↔ x = List.replicate (9 * m) false) := by
    intro x hx
    rw [summationCancellation_value m x hx]
    simp only [Outcome.ok.injEq, neg_eq_zero]
    rw [Finset.sum_eq_zero_iff_of_nonneg (fun _ _ => abs_nonneg _)]
    constructor
    · intro h
      have hs : ∀ k < m, ∑ i ∈ Finset.range (k + 1), (encoded x i : K) / 100 = 0 := by
        intro k hk
        exact abs_eq_zero.mp (h k (Finset.mem_range.mpr hk))
      apply encoded_bits x m hx
      intro i hi
      have h0 : (encoded x i : K) / 100 = 0 := by
        cases i with
        | zero =>
          have := hs 0 hi
          simpa using this
        | succ i =>
          have h1 := hs i (by omega)
          have h2 := hs (i + 1) hi
          rw [Finset.sum_range_succ, h1, zero_add] at h2
          exact h2
      have : (encoded x i : K) = 0 := by
        rcases div_eq_zero_iff.mp h0 with h | h
        · exact h
        · exact absurd h (by norm_num)
      exact_mod_cast this
    · rintro rfl k _
      simp [encoded_zero]
  refine ⟨⟨rfl, 0, rfl, ?_, List.replicate (9 * m) false, by simp [summationCancellation], ?_⟩, hiff⟩
  · intro x hx
    refine ⟨_, summationCancellation_value m x hx, ?_⟩
    rw [neg_nonpos]
    exact Finset.sum_nonneg (fun _ _ => abs_nonneg _)
  · exact (hiff _ (by simp)).mpr rfl

example : cancellationNew 18 = ok 2 ∧ cancellationNew 20 = .throw .runtimeError ∧
    encoded [true, true, false, true, true, true, true, true, true] 0 = -3 := by decide

omit [IsStrictOrderedRing K] in
theorem sinusSum_zero (sin : K → K) (h0 : sin 0 = 0) (l : List K) :
    (∀ a ∈ sinusSum sin 0 l, a = 0) ↔ ∀ a ∈ l, a = 0 := by
  induction l with
  | nil => simp [sinusSum]
  | cons a l ih =>
    simp only [sinusSum, h0, add_zero, List.mem_cons, forall_eq_or_imp]
    constructor
    · rintro ⟨rfl, h⟩
      exact ⟨rfl, ih.mp h⟩
    · rintro ⟨rfl, h⟩
      exact ⟨rfl, ih.mpr h⟩

omit [IsStrictOrderedRing K] in
theorem sumAbs_sinusSum (sin : K → K) (f y : Nat → K) (hy : ∀ i, y (i + 1) = f (i + 1) + sin (y i)) (m s : Nat) :
    sumAbs (sinusSum sin (y s) ((List.range' (s + 1) m).map f)) = ∑ k ∈ Finset.range m, |y (s + 1 + k)| := by
  induction m generalizing s with
  | zero => simp [sinusSum, sumAbs]
  | succ m ih =>
    have h : ∀ (a : K) (l : List K), sumAbs (a :: l) = |a| + sumAbs l := by
      intro a l; rw [sumAbs_eq, sumAbs_eq]; simp
    rw [List.range'_succ, List.map_cons, sinusSum, ← hy, h, ih, Finset.sum_range_succ', add_comm]
    congr 1
    apply Finset.sum_congr rfl
    intro k _
    congr 2
    omega

omit [IsStrictOrderedRing K] in
/-- C33: the value of the sinus summation cancellation is minus the sum of the absolute values of the sequence in which the
sine of each term is added to the next encoded number, in hundredths. -/
theorem sinusSummationCancellation_value (sin : K → K) (m : Nat) (x : BV) (hx : x.length = 9 * m) (y : Nat → K)
    (h0 : y 0 = (encoded x 0 : K) / 100) (hy : ∀ i, y (i + 1) = (encoded x (i + 1) : K) / 100 + sin (y i)) :
    (sinusSummationCancellation sin (9 * m) m : Fn K).eval x = ok (-∑ k ∈ Finset.range m, |y k|) := by
  simp only [sinusSummationCancellation, sinusCancellationEval]
  rw [convert_spec m x hx, ok_bind]
  cases m with
  | zero => simp [sinusSumFrom, sumAbs]
  | succ m =>
    have h : ∀ (a : K) (l : List K), sumAbs (a :: l) = |a| + sumAbs l := by
      intro a l; rw [sumAbs_eq, sumAbs_eq]; simp
    have hs := sumAbs_sinusSum sin (fun i => (encoded x i : K) / 100) y hy m 0
    rw [List.range_eq_range', List.range'_succ, List.map_cons, sinusSumFrom, ← h0, h, hs, Finset.sum_range_succ', add_comm]
    simp [add_comm]

example (sin : Rat → Rat) (x : BV) : ∃ y : Nat → Rat, y 0 = (encoded x 0 : Rat) / 100 ∧
    ∀ i, y (i + 1) = (encoded x (i + 1) : Rat) / 100 + sin (y i) :=
  ⟨fun n => Nat.rec ((encoded x 0 : Rat) / 100) (fun i v => (encoded x (i + 1) : Rat) / 100 + sin v) n, rfl, fun _ => rfl⟩

/-- C33: with sine (or any function vanishing at 0), the declared maximum 0 is the maximum, and the zero
vector is the only one to reach it. -/
theorem sinusSummationCancellation_maximum (sin : K → K) (h0 : sin 0 = 0) (n m : Nat)
    (h : cancellationNew n = ok m) :
    DeclaresMaximum (sinusSummationCancellation sin n m : Fn K) ∧
      ∀ x : BV, x.length = n →
        ((sinusSummationCancellation sin n m : Fn K).eval x = ok 0 ↔ x = List.replicate n false) := by
  obtain rfl := ((cancellationNew_spec n).1 m).mp h
  have hev : ∀ x : BV, x.length = 9 * m → (sinusSummationCancellation sin (9 * m) m : Fn K).eval x =
      ok (-(sumAbs (sinusSumFrom sin ((List.range m).map (fun i => (encoded x i : K) / 100))))) := by
    intro x hx
    simp only [sinusSummationCancellation, sinusCancellationEval]
    rw [convert_spec m x hx, ok_bind]
    rfl
  have hfrom : ∀ l : List K, (∀ a ∈ sinusSumFrom sin l, a = 0) ↔ ∀ a ∈ l, a = 0 := by
    intro l
    cases l with
    | nil => simp [sinusSumFrom]
    | cons a l =>
      simp only [sinusSumFrom, List.mem_cons, forall_eq_or_imp]
      constructor
      · rintro ⟨rfl, h⟩
        exact ⟨rfl, (sinusSum_zero sin h0 l).mp h⟩
      · rintro ⟨rfl, h⟩
        exact ⟨rfl, (sinusSum_zero sin h0 l).mpr h⟩
  have hiff : ∀ x : BV, x.length = 9 * m →
      ((sinusSummationCancellation sin (9 * m) m : Fn K).eval x = ok 0 ↔
        x = List.replicate (9 * m) false) := by
    intro x hx
    rw [hev x hx]
    simp only [Outcome.ok.injEq, neg_eq_zero]
    rw [sumAbs_eq_zero, hfrom]
    constructor
    · intro h
      apply encoded_bits x m hx
      intro i hi
      have h1 := h ((encoded x i : K) / 100) (List.mem_map.mpr ⟨i, by simpa using hi, rfl⟩)
      have : (encoded x i : K) = 0 := by
        rcases div_eq_zero_iff.mp h1 with h | h
        · exact h
        · exact absurd h (by norm_num)
      exact_mod_cast this
    · rintro rfl a ha
      obtain ⟨i, _, rfl⟩ := List.mem_map.mp ha
      simp [encoded_zero]
  refine ⟨⟨rfl, 0, rfl, ?_, List.replicate (9 * m) false, by simp [sinusSummationCancellation], ?_⟩, hiff⟩
  · intro x hx
    refine ⟨_, hev x hx, ?_⟩
    rw [neg_nonpos]
    exact sumAbs_nonneg _
  · exact (hiff _ (by simp)).mpr rfl

example : (fun a : Rat => a * (1 - a)) 0 = 0 ∧ cancellationNew 9 = ok 1 := by
  constructor
  · simp
  · decide

end Cancellation

end Hnco
