import Verif.Function.ComplementProps
import Mathlib.Tactic.Linarith
import Mathlib.Algebra.Order.BigOperators.Group.Finset

/-!
# Factorization (C42)
-/

namespace Hnco

open Outcome

/-! ## Specification -/

/-- Number with the given binary digits, most significant first. -/
def binaryNumber (digits : List Bool) : Nat := digits.foldl (fun v b => 2 * v + b.toNat) 0

/-- First factor encoded by a bit vector: its first `⌈s / 2⌉` bits, for a number with `s` binary digits. -/
def firstFactor (number : Nat) (x : BV) : Nat := binaryNumber (x.take ((sizeInBase2 number + 1) / 2))

/-- Second factor encoded by a bit vector: the remaining bits. -/
def secondFactor (number : Nat) (x : BV) : Nat := binaryNumber (x.drop ((sizeInBase2 number + 1) / 2))

/-- Length of bit vectors. -/
def factorizationSize (number : Nat) : Nat := (sizeInBase2 number + 1) / 2 + (sizeInBase2 number - 1)

/-! ## Proofs -/

theorem firstFactorSize_eq (number : Nat) : firstFactorSize number = (sizeInBase2 number + 1) / 2 := by
  unfold firstFactorSize
  simp only
  split <;> omega

theorem binaryNumber_snoc (l : List Bool) (b : Bool) : binaryNumber (l ++ [b]) = 2 * binaryNumber l + b.toNat := by
  simp [binaryNumber]

theorem convertFactor_eq (x : BV) (start size previous : Nat) (h : start + size ≤ x.length) (hs : 0 < size) :
    convertFactor x start size previous = ok (binaryNumber ((x.drop start).take size)) := by
  unfold convertFactor
  rw [if_neg (by omega)]
  obtain ⟨v, e1, e2⟩ := forRange_returns (a := 0) (b := size) (body := fun i (v : Nat) => do
    let b ← vget x (start + i)
    ok (2 * v + b.toNat)) (I := fun k v => v = binaryNumber ((x.drop start).take k)) (s := 0) (Nat.zero_le _)
    (by simp [binaryNumber]) (by
      intro k v _ hk hv
      have hlt : start + k < x.length := by omega
      refine ⟨_, by rw [vget_eq hlt, ok_bind], ?_⟩
      rw [hv, List.take_add_one, List.getElem?_drop, List.getElem?_eq_getElem hlt]
      exact (binaryNumber_snoc _ _).symm)
  rw [e1, e2]

theorem lt_sizeInBase2 (n : Nat) : n < 2 ^ sizeInBase2 n := by
  unfold sizeInBase2
  exact Nat.lt_log2_self

theorem sizeInBase2_le (n : Nat) (hn : n ≠ 0) : 2 ^ (sizeInBase2 n - 1) ≤ n := by
  unfold sizeInBase2
  exact Nat.log2_self_le hn

theorem testBit_of_size (n i : Nat) (h : sizeInBase2 n ≤ i) : n.testBit i = false :=
  Nat.testBit_lt_two_pow (lt_of_lt_of_le (lt_sizeInBase2 n) (Nat.pow_le_pow_right (by omega) h))

/-- The value once factors are converted. -/
theorem factorization_compare (number product : Nat) :
    (do
      let result ← forRange 0 (min (sizeInBase2 number) (sizeInBase2 product)) (fun i (r : Nat) =>
        ok (if product.testBit i ≠ number.testBit i then r + (i + 1) else r)) 0
      let result ← if max (sizeInBase2 number) (sizeInBase2 product) = sizeInBase2 product then
          forRange (min (sizeInBase2 number) (sizeInBase2 product)) (max (sizeInBase2 number) (sizeInBase2 product))
            (fun i (r : Nat) => ok (if product.testBit i then r + (i + 1) else r)) result
        else
          forRange (min (sizeInBase2 number) (sizeInBase2 product)) (max (sizeInBase2 number) (sizeInBase2 product))
            (fun i (r : Nat) => ok (if number.testBit i then r + (i + 1) else r)) result
      ok (-(result : Int)) : Outcome Int) =
    ok (-((∑ i ∈ Finset.range (max (sizeInBase2 number) (sizeInBase2 product)),
      if product.testBit i ≠ number.testBit i then i + 1 else 0 : Nat) : Int)) := by
  set s := sizeInBase2 number with hs
  set t := sizeInBase2 product with ht
  let f : Nat → Nat := fun i => if product.testBit i ≠ number.testBit i then i + 1 else 0
  rw [forRange_sum_range (min s t) _ f 0 (by intro i hi r; simp only [f]; split <;> simp), ok_bind]
  simp only
  split
  · rename_i h
    rw [forRange_sum_Ico (min s t) (max s t) _ f _ ?_, ok_bind, zero_add,
      Finset.sum_range_add_sum_Ico _ (by omega)]
    intro i hi1 hi2 r
    have hz : number.testBit i = false := testBit_of_size number i (by omega)
    simp only [f, hz]
    cases product.testBit i <;> simp
  · rename_i h
    rw [forRange_sum_Ico (min s t) (max s t) _ f _ ?_, ok_bind, zero_add,
      Finset.sum_range_add_sum_Ico _ (by omega)]
    intro i hi1 hi2 r
    have hz : product.testBit i = false := testBit_of_size product i (by omega)
    simp only [f, hz]
    cases number.testBit i <;> simp

theorem factorization_convert (number first second : Nat) (x : BV) (hx : x.length = factorizationSize number)
    (hsecond : 2 ≤ number ∨ second = 0) :
    convertFactor x 0 (firstFactorSize number) first = ok (firstFactor number x) ∧
    convertFactor x (firstFactorSize number) (secondFactorSize number) second = ok (secondFactor number x) := by
  have hs : 1 ≤ sizeInBase2 number := by unfold sizeInBase2; omega
  unfold factorizationSize at hx
  rw [firstFactorSize_eq]
  refine ⟨by rw [convertFactor_eq _ _ _ _ (by omega) (by omega), List.drop_zero]; rfl, ?_⟩
  unfold secondFactorSize
  rcases Nat.eq_zero_or_pos (sizeInBase2 number - 1) with h0 | h0
  · have : second = 0 := by
      rcases hsecond with h | h
      · have := lt_sizeInBase2 number
        rw [show sizeInBase2 number = 1 by omega] at this
        omega
      · exact h
    unfold convertFactor secondFactor
    rw [if_pos h0, List.drop_eq_nil_of_le (by omega), this]
    rfl
  · rw [convertFactor_eq _ _ _ _ (by omega) h0, List.take_of_length_le (by rw [List.length_drop]; omega)]
    rfl

/-- C42: the value is minus the sum of the ranks, counted from 1, of the binary digits at which the product of
the decoded factors and the given number differ.

The previous value of the second factor matters only for the numbers 0 and 1, which have an empty second
factor: it must be 0, as in a new object. -/
theorem factorization_value (number first second : Nat) (x : BV) (hx : x.length = factorizationSize number)
    (hsecond : 2 ≤ number ∨ second = 0) :
    factorizationEval number first second x =
      ok (-((∑ i ∈ Finset.range
        (max (sizeInBase2 number) (sizeInBase2 (firstFactor number x * secondFactor number x))),
        if (firstFactor number x * secondFactor number x).testBit i ≠ number.testBit i then i + 1 else 0 : Nat)
          : Int)) := by
  obtain ⟨h1, h2⟩ := factorization_convert number first second x hx hsecond
  have hx' : x.length = firstFactorSize number + secondFactorSize number := by
    rw [hx, firstFactorSize_eq]; rfl
  unfold factorizationEval
  simp only
  rw [assert_pos (by simpa using hx'), ok_bind, h1, ok_bind, h2, ok_bind, factorization_compare]

/-- C42: the value is at most 0, and it is 0 exactly when the product of the decoded factors is the given
number. -/
theorem factorization_zero (number first second : Nat) (x : BV) (hx : x.length = factorizationSize number)
    (hsecond : 2 ≤ number ∨ second = 0) :
    ∃ v, factorizationEval number first second x = ok v ∧ v ≤ 0 ∧
      (v = 0 ↔ firstFactor number x * secondFactor number x = number) := by
  refine ⟨_, factorization_value number first second x hx hsecond, by omega, ?_⟩
  rw [neg_eq_zero, Int.natCast_eq_zero, Finset.sum_eq_zero_iff]
  constructor
  · intro h
    apply Nat.eq_of_testBit_eq
    intro i
    by_cases hi : i < max (sizeInBase2 number) (sizeInBase2 (firstFactor number x * secondFactor number x))
    · have := h i (Finset.mem_range.mpr hi)
      by_contra hc
      rw [if_pos hc] at this
      omega
    · rw [testBit_of_size _ _ (by omega), testBit_of_size _ _ (by omega)]
  · intro h i _
    rw [h, if_neg (by simp)]

theorem binaryNumber_lt (l : List Bool) : binaryNumber l < 2 ^ l.length := by
  induction l using List.reverseRecOn with
  | nil => simp [binaryNumber]
  | append_singleton l b ih =>
    rw [binaryNumber_snoc, List.length_append, List.length_singleton, pow_succ]
    cases b <;> simp <;> omega

theorem exists_binaryNumber (k v : Nat) (h : v < 2 ^ k) : ∃ l : List Bool, l.length = k ∧ binaryNumber l = v := by
  induction k generalizing v with
  | zero => exact ⟨[], rfl, by simp at h; subst h; rfl⟩
  | succ k ih =>
    obtain ⟨l, h1, h2⟩ := ih (v / 2) (by rw [pow_succ] at h; omega)
    refine ⟨l ++ [decide (v % 2 = 1)], by simp [h1], ?_⟩
    rw [binaryNumber_snoc, h2]
    by_cases h3 : v % 2 = 1
    · simp [h3]; omega
    · simp [h3]; omega

/-- C42: some bit vector reaches 0 exactly when the number is the product of two numbers greater than 1, or
is 0. -/
theorem factorization_reaches_zero (number first second : Nat) (hsecond : 2 ≤ number ∨ second = 0) :
    (∃ x : BV, x.length = factorizationSize number ∧ factorizationEval number first second x = ok 0) ↔
      ((∃ a b, 1 < a ∧ 1 < b ∧ a * b = number) ∨ number = 0) := by
  have hiff : ∀ x : BV, x.length = factorizationSize number →
      (factorizationEval number first second x = ok 0 ↔ firstFactor number x * secondFactor number x = number) := by
    intro x hx
    obtain ⟨v, h1, -, h3⟩ := factorization_zero number first second x hx hsecond
    rw [h1, ← h3]
    simp
  have hs : 1 ≤ sizeInBase2 number := by unfold sizeInBase2; omega
  constructor
  · rintro ⟨x, hx, h⟩
    rw [hiff x hx] at h
    rcases Nat.eq_zero_or_pos number with h0 | h0
    · exact Or.inr h0
    left
    have hle := sizeInBase2_le number (by omega)
    have hf : firstFactor number x < 2 ^ ((sizeInBase2 number + 1) / 2) := by
      have := binaryNumber_lt (x.take ((sizeInBase2 number + 1) / 2))
      rw [List.length_take, min_eq_left (by unfold factorizationSize at hx; omega)] at this
      exact this
    have hg : secondFactor number x < 2 ^ (sizeInBase2 number - 1) := by
      have := binaryNumber_lt (x.drop ((sizeInBase2 number + 1) / 2))
      rw [List.length_drop, hx, show factorizationSize number - (sizeInBase2 number + 1) / 2 =
        sizeInBase2 number - 1 by unfold factorizationSize; omega] at this
      exact this
    have hsize : 2 ≤ sizeInBase2 number := by
      by_contra hc
      have h1 : sizeInBase2 number = 1 := by omega
      rw [h1] at hg
      simp at hg
      rw [hg] at h
      omega
    have hf' : firstFactor number x < number :=
      lt_of_lt_of_le hf (le_trans (Nat.pow_le_pow_right (by omega) (by omega)) hle)
    have hg' : secondFactor number x < number := lt_of_lt_of_le hg hle
    refine ⟨_, _, ?_, ?_, h⟩
    · by_contra hc
      interval_cases hv : firstFactor number x <;> omega
    · by_contra hc
      interval_cases hv : secondFactor number x <;> omega
  · intro h
    -- numbers with enough digits
    have hmake : ∀ a b, a < 2 ^ ((sizeInBase2 number + 1) / 2) → b < 2 ^ (sizeInBase2 number - 1) →
        a * b = number →
        ∃ x : BV, x.length = factorizationSize number ∧ factorizationEval number first second x = ok 0 := by
      intro a b ha hb hab
      obtain ⟨l1, e1, e2⟩ := exists_binaryNumber _ _ ha
      obtain ⟨l2, e3, e4⟩ := exists_binaryNumber _ _ hb
      have hl : (l1 ++ l2).length = factorizationSize number := by
        rw [List.length_append, e1, e3]; rfl
      refine ⟨l1 ++ l2, hl, ?_⟩
      rw [hiff _ hl]
      unfold firstFactor secondFactor
      rw [← e1, List.take_left, List.drop_left, e2, e4, hab]
    rcases h with ⟨a, b, ha, hb, hab⟩ | h0
    · have hlt := lt_sizeInBase2 number
      -- ordered factors
      have key : ∀ a b, 1 < a → a ≤ b → a * b = number →
          a < 2 ^ ((sizeInBase2 number + 1) / 2) ∧ b < 2 ^ (sizeInBase2 number - 1) := by
        intro a b ha hle hab
        constructor
        · by_contra hc
          have hc := not_lt.mp hc
          have h1 : 2 ^ ((sizeInBase2 number + 1) / 2) * 2 ^ ((sizeInBase2 number + 1) / 2) ≤ a * b :=
            Nat.mul_le_mul hc (le_trans hc hle)
          rw [← pow_add] at h1
          have h2 : 2 ^ sizeInBase2 number ≤ 2 ^ ((sizeInBase2 number + 1) / 2 + (sizeInBase2 number + 1) / 2) :=
            Nat.pow_le_pow_right (by omega) (by omega)
          omega
        · have h1 : 2 * b ≤ number := by rw [← hab]; exact Nat.mul_le_mul_right b ha
          have h2 : 2 ^ sizeInBase2 number = 2 * 2 ^ (sizeInBase2 number - 1) := by
            rw [← pow_succ', Nat.sub_add_cancel hs]
          omega
      rcases Nat.le_total a b with hle | hle
      · obtain ⟨h1, h2⟩ := key a b ha hle hab
        exact hmake a b h1 h2 hab
      · obtain ⟨h1, h2⟩ := key b a hb hle (by rw [Nat.mul_comm]; exact hab)
        exact hmake b a h1 h2 (by rw [Nat.mul_comm]; exact hab)
    · exact hmake 0 0 (by positivity) (by positivity) (by omega)

/-- C42 (negative part): for the number 1, whose second factor has no digit, a value left in the second factor
by a previous number is used: 1 is "factored". -/
theorem factorization_stale : factorizationEval 1 0 1 [true] = ok 0 ∧
    ¬ ∃ x : BV, x.length = factorizationSize 1 ∧ factorizationEval 1 0 0 x = ok 0 := by
  refine ⟨by decide, ?_⟩
  rw [factorization_reaches_zero 1 0 0 (Or.inr rfl)]
  rintro (⟨a, b, ha, hb, h⟩ | h)
  · have := Nat.mul_le_mul ha hb
    omega
  · omega

-- 15 = 3 * 5: 2 bits and 3 bits
example : factorizationEval 15 0 0 [true, true, true, false, true] = ok 0 := by decide
example : factorizationEval 15 0 0 [true, true, true, false, false] = ok (-3) := by decide
example : [true, true, true, false, true].length = factorizationSize 15 := by decide

end Hnco
