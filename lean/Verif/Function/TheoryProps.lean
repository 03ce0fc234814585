import Verif.BitVector.Lemmas
import Verif.Function.Theory
import Verif.Function.Spec
import Mathlib.Algebra.BigOperators.Intervals
import Mathlib.Algebra.Order.BigOperators.Group.Finset
import Mathlib.Algebra.Order.Ring.Int
import Mathlib.Data.Fintype.Defs
import Mathlib.Data.Nat.Bitwise
import Mathlib.Tactic.Linarith
import Mathlib.Tactic.Ring

/-!
# Values and maxima of theory functions (C28, C29)
-/

namespace Hnco

open Outcome

/-! ## Specification -/

/-- The vector made of `k` ones followed by zeros, of size `n`. -/
def onesZeros (n k : Nat) : BV := List.replicate k true ++ List.replicate (n - k) false

/-- The `s` bits of `x` from position `a` on exist and are all equal. -/
def UniformBlock (x : BV) (a s : Nat) : Prop := ∃ b : Bool, ∀ k < s, x[a + k]? = some b

instance (x : BV) (a s : Nat) : Decidable (UniformBlock x a s) := by
  unfold UniformBlock; infer_instance

/-- Sum over all levels `i ≤ d` and all aligned uniform blocks of size `2 ^ i` of the block size, for
vectors of size `2 ^ d`. -/
def hiffValue (d : Nat) (x : BV) : Int :=
  ∑ i ∈ Finset.range (d + 1), ∑ j ∈ Finset.range (2 ^ (d - i)),
    if UniformBlock x (j * 2 ^ i) (2 ^ i) then 2 ^ i else 0

/-! ## Helper lemmas -/

theorem findZero_decomp (x : BV) :
    x = List.replicate (findZero x) true ++ x.drop (findZero x) ∧
      (x.drop (findZero x))[0]? ≠ some true := by
  induction x with
  | nil => simp [findZero]
  | cons b x ih =>
    cases b with
    | false => simp [findZero]
    | true =>
      have hf : findZero (true :: x) = findZero x + 1 := by simp [findZero]
      rw [hf]
      constructor
      · rw [List.replicate_succ, List.cons_append, List.drop_succ_cons, ← ih.1]
      · simpa using ih.2

theorem findZero_le (x : BV) : findZero x ≤ x.length := by
  unfold findZero
  exact (List.takeWhile_sublist _).length_le

theorem all_false_iff (l : BV) : l.all (fun b => b == false) = true ↔ l = List.replicate l.length false := by
  rw [List.eq_replicate_iff]
  simp

/-- The tail test of `Ridge` and `Plateau`. -/
theorem tail_iff (x : BV) : (x.drop (findZero x)).all (fun b => b == false) = true ↔
    x = onesZeros x.length (findZero x) := by
  rw [all_false_iff, List.length_drop]
  unfold onesZeros
  constructor
  · intro h
    rw [← h]
    exact (findZero_decomp x).1
  · intro h
    have := (findZero_decomp x).1
    have h2 := this.symm.trans h
    exact List.append_cancel_left h2

theorem findZero_onesZeros (n k : Nat) : findZero (onesZeros n k) = k := by
  unfold findZero onesZeros
  rw [List.takeWhile_append_of_pos (by intro a ha; simp [List.eq_of_mem_replicate ha])]
  have : List.takeWhile (fun b => b != false) (List.replicate (n - k) false) = [] := by
    cases n - k <;> simp [List.replicate_succ]
  rw [this]
  simp

theorem length_onesZeros {n k : Nat} (h : k ≤ n) : (onesZeros n k).length = n := by
  simp [onesZeros]; omega

theorem count_onesZeros (n k : Nat) : (onesZeros n k).count true = k := by
  simp [onesZeros, List.count_append, List.count_replicate]

theorem onesZeros_iff (x : BV) : (∃ k ≤ x.length, x = onesZeros x.length k) ↔
    x = onesZeros x.length (findZero x) := by
  constructor
  · rintro ⟨k, _, h⟩
    rw [h, length_onesZeros (by omega), findZero_onesZeros]
  · intro h
    exact ⟨_, findZero_le x, h⟩

theorem count_le (x : BV) : x.count true ≤ x.length := List.count_le_length

theorem count_full (x : BV) : x.count true = x.length ↔ x = List.replicate x.length true := by
  rw [List.count_eq_length, List.eq_replicate_iff]
  simp [eq_comm]

/-! ## C28 -/

/-- C28: the value of `OneMax` is the number of ones. -/
theorem oneMax_value (n : Nat) (x : BV) : (oneMax n).eval x = ok (x.count true : Int) := by
  simp [oneMax, bvHammingWeight_eq]

/-- C28: the declared maximum of `OneMax` is its maximum. -/
theorem oneMax_maximum (n : Nat) : DeclaresMaximum (oneMax n) := by
  refine ⟨rfl, n, rfl, ?_, List.replicate n true, by simp [oneMax], ?_⟩
  · intro x hx
    refine ⟨_, oneMax_value n x, ?_⟩
    have := count_le x
    simp only [oneMax] at hx
    omega
  · rw [oneMax_value]; simp

/-- C28: the value of `LeadingOnes` is the number `k` of ones before the first zero. -/
theorem leadingOnes_value (n : Nat) (x : BV) : ∃ k : Nat, (leadingOnes n).eval x = ok (k : Int) ∧
    k ≤ x.length ∧ (∀ i < k, x[i]? = some true) ∧ x[k]? ≠ some true := by
  refine ⟨leadingOnesLoop x, rfl, ?_⟩
  induction x with
  | nil => simp [leadingOnesLoop]
  | cons b x ih =>
    cases b with
    | false => simp [leadingOnesLoop]
    | true =>
      simp only [leadingOnesLoop, Bool.true_eq_false, beq_iff_eq, if_false]
      refine ⟨by simpa using ih.1, ?_, by simpa using ih.2.2⟩
      intro i hi
      cases i with
      | zero => rfl
      | succ i => simpa using ih.2.1 i (by omega)

/-- C28: the declared maximum of `LeadingOnes` is its maximum. -/
theorem leadingOnes_maximum (n : Nat) : DeclaresMaximum (leadingOnes n) := by
  refine ⟨rfl, n, rfl, ?_, List.replicate n true, by simp [leadingOnes], ?_⟩
  · intro x hx
    obtain ⟨k, h1, h2, _⟩ := leadingOnes_value n x
    refine ⟨_, h1, ?_⟩
    simp only [leadingOnes] at hx
    omega
  · obtain ⟨k, h1, h2, h3, h4⟩ := leadingOnes_value n (List.replicate n true)
    rw [h1]
    simp only [List.length_replicate] at h2
    by_cases hk : k < n
    · exact absurd (by simp [hk]) h4
    · rw [show k = n by omega]

/-- C28: the value of `Needle` is 1 on the vector of ones and 0 elsewhere. -/
theorem needle_value (n : Nat) (x : BV) :
    (needle n).eval x = ok (if x = List.replicate x.length true then 1 else 0) := by
  simp only [needle, Outcome.ok.injEq]
  induction x with
  | nil => rfl
  | cons b x ih =>
    cases b with
    | false => simp [needleLoop, List.replicate_succ]
    | true => simp [needleLoop, List.replicate_succ, ih]

/-- C28: the declared maximum of `Needle` is its maximum. -/
theorem needle_maximum (n : Nat) : DeclaresMaximum (needle n) := by
  refine ⟨rfl, 1, rfl, ?_, List.replicate n true, by simp [needle], ?_⟩
  · intro x _
    refine ⟨_, needle_value n x, ?_⟩
    split <;> omega
  · rw [needle_value]; simp

/-- C28: the value of `Ridge` on `k` ones followed by zeros is `n + k`; on the other vectors it is `n`
minus the number of ones. -/
theorem ridge_value (n : Nat) :
    (∀ k ≤ n, (ridge n).eval (onesZeros n k) = ok ((n : Int) + k)) ∧
    (∀ x : BV, x.length = n → (∀ k ≤ n, x ≠ onesZeros n k) →
      (ridge n).eval x = ok ((n : Int) - x.count true)) := by
  constructor
  · intro k hk
    have ht := (tail_iff (onesZeros n k)).mpr (by rw [length_onesZeros hk, findZero_onesZeros])
    rw [findZero_onesZeros] at ht
    simp only [ridge, ridgeEval, findZero_onesZeros, ht, if_true, bvHammingWeight_eq, count_onesZeros]
    simp
  · intro x hx hne
    have ht : ¬ (x.drop (findZero x)).all (fun b => b == false) = true := by
      rw [tail_iff]
      intro h
      exact hne _ (hx ▸ findZero_le x) (by rw [hx] at h; exact h)
    simp only [ridge, ridgeEval, ht, bvHammingWeight_eq]
    simp

/-- C28: the declared maximum of `Ridge` is its maximum. -/
theorem ridge_maximum (n : Nat) : DeclaresMaximum (ridge n) := by
  refine ⟨rfl, 2 * n, rfl, ?_, onesZeros n n, length_onesZeros (le_refl _), ?_⟩
  · intro x hx
    change x.length = n at hx
    by_cases h : ∃ k ≤ n, x = onesZeros n k
    · obtain ⟨k, hk, rfl⟩ := h
      exact ⟨_, (ridge_value n).1 k hk, by omega⟩
    · refine ⟨_, (ridge_value n).2 x hx (fun k hk e => h ⟨k, hk, e⟩), by omega⟩
  · rw [(ridge_value n).1 n (le_refl _)]
    congr 1; ring

/-- C28: the value of `Plateau` is `n + 2` on the vector of ones, `n + 1` on the other vectors made of
ones followed by zeros, and `n` minus the number of ones elsewhere. -/
theorem plateau_value (n : Nat) :
    (plateau n).eval (List.replicate n true) = ok ((n : Int) + 2) ∧
    (∀ k < n, (plateau n).eval (onesZeros n k) = ok ((n : Int) + 1)) ∧
    (∀ x : BV, x.length = n → (∀ k ≤ n, x ≠ onesZeros n k) →
      (plateau n).eval x = ok ((n : Int) - x.count true)) := by
  refine ⟨?_, ?_, ?_⟩
  · have h : List.replicate n true = onesZeros n n := by simp [onesZeros]
    rw [h]
    simp only [plateau, plateauEval, findZero_onesZeros, length_onesZeros (le_refl n), if_true,
      bvHammingWeight_eq, count_onesZeros]
    simp
  · intro k hk
    have ht := (tail_iff (onesZeros n k)).mpr (by rw [length_onesZeros hk.le, findZero_onesZeros])
    rw [findZero_onesZeros] at ht
    simp only [plateau, plateauEval, findZero_onesZeros, length_onesZeros hk.le, ht, if_true, hk.ne,
      if_false]
    simp
  · intro x hx hne
    have ht : ¬ (x.drop (findZero x)).all (fun b => b == false) = true := by
      rw [tail_iff]
      intro h
      exact hne _ (hx ▸ findZero_le x) (by rw [hx] at h; exact h)
    have hn : findZero x ≠ x.length := by
      intro h
      apply ht
      simp [h]
    simp only [plateau, plateauEval, ht, hn, bvHammingWeight_eq]
    simp

/-- C28: the declared maximum of `Plateau` is its maximum. -/
theorem plateau_maximum (n : Nat) : DeclaresMaximum (plateau n) := by
  refine ⟨rfl, n + 2, rfl, ?_, List.replicate n true, by simp [plateau], (plateau_value n).1⟩
  intro x hx
  change x.length = n at hx
  by_cases h : ∃ k ≤ n, x = onesZeros n k
  · obtain ⟨k, hk, rfl⟩ := h
    by_cases hkn : k = n
    · subst hkn
      refine ⟨_, ?_, le_refl _⟩
      have := (plateau_value k).1
      rwa [show List.replicate k true = onesZeros k k by simp [onesZeros]] at this
    · exact ⟨_, (plateau_value n).2.1 k (by omega), by omega⟩
  · exact ⟨_, (plateau_value n).2.2 x hx (fun k hk e => h ⟨k, hk, e⟩), by omega⟩

example : (oneMax 3).eval [true, false, true] = ok 2 ∧ (leadingOnes 3).eval [true, false, true] = ok 1 ∧
    (needle 3).eval [true, false, true] = ok 0 ∧ (ridge 3).eval [true, false, true] = ok 1 ∧
    (ridge 3).eval [true, true, false] = ok 5 ∧ (plateau 3).eval [true, false, true] = ok 1 ∧
    (plateau 3).eval [true, true, false] = ok 4 ∧ (plateau 3).eval [true, true, true] = ok 5 := by decide

/-! ## C29 -/

theorem allOf_uniform (x : BV) (a s : Nat) (hs : 0 < s) (h : a + s ≤ x.length) :
    (do let b0 ← vget x a
        allOf x a (a + s) (fun b => b == b0)) = ok (decide (UniformBlock x a s)) := by
  rw [vget_eq (show a < x.length by omega), ok_bind]
  unfold allOf
  rw [if_pos ⟨by omega, h⟩]
  congr 1
  rw [Bool.eq_iff_iff, decide_eq_true_iff, List.all_eq_true]
  have hl : ((x.drop a).take (a + s - a)).length = s := by simp; omega
  constructor
  · intro hall
    refine ⟨x[a], ?_⟩
    intro k hk
    have hm : x[a + k]'(by omega) ∈ (x.drop a).take (a + s - a) := by
      rw [List.mem_iff_getElem]
      exact ⟨k, by omega, by simp⟩
    have := hall _ hm
    rw [List.getElem?_eq_getElem (by omega)]
    simpa using this
  · rintro ⟨b, hb⟩ c hc
    obtain ⟨k, hk, rfl⟩ := List.mem_iff_getElem.mp hc
    rw [hl] at hk
    have h0 := hb 0 hs
    have h1 := hb k hk
    simp only [Nat.add_zero] at h0
    rw [List.getElem?_eq_getElem (by omega)] at h0 h1
    simp only [Option.some.injEq] at h0 h1
    simp [h0, h1]

/-- One level of `Hiff::evaluate`. -/
theorem hiffLevel_spec (x : BV) (nb bs : Nat) (hbs : 0 < bs) (hl : nb * bs = x.length) (r : Int) :
    (hiffLevel x nb bs r).Returns (fun s =>
      s.1 = r + ∑ j ∈ Finset.range nb, (if UniformBlock x (j * bs) bs then (bs : Int) else 0) ∧
      (s.2.1 = true ↔ ∀ j < nb, ¬ UniformBlock x (j * bs) bs)) := by
  unfold hiffLevel
  refine Returns.mono (forRange_returns (fun k (s : Int × Bool × Nat) => s.2.2 = k * bs ∧
      s.1 = r + ∑ j ∈ Finset.range k, (if UniformBlock x (j * bs) bs then (bs : Int) else 0) ∧
      (s.2.1 = true ↔ ∀ j < k, ¬ UniformBlock x (j * bs) bs)) (Nat.zero_le _) (by simp) ?_)
    (fun s h => h.2)
  rintro k ⟨r', last, off⟩ _ hk ⟨h1, h2, h3⟩
  simp only at h1 h2 h3
  subst h1
  have hle : k * bs + bs ≤ x.length := by
    rw [← hl, ← Nat.succ_mul]; exact Nat.mul_le_mul_right _ hk
  have hu := allOf_uniform x (k * bs) bs hbs hle
  rw [← bind_assoc, hu, ok_bind]
  simp only [decide_eq_true_eq, Outcome.pure_eq, returns_ok]
  by_cases hub : UniformBlock x (k * bs) bs
  · rw [if_pos hub]
    refine ⟨by simp [Nat.succ_mul], ?_, ?_⟩
    · rw [Finset.sum_range_succ, if_pos hub, h2]; ring
    · simp only [Bool.false_eq_true, false_iff]
      intro h
      exact h k (by omega) hub
  · rw [if_neg hub]
    refine ⟨by simp [Nat.succ_mul], ?_, ?_⟩
    · rw [Finset.sum_range_succ, if_neg hub, h2]; ring
    · rw [h3]
      constructor
      · intro h j hj
        rcases Nat.lt_succ_iff_lt_or_eq.mp hj with h' | rfl
        · exact h j h'
        · exact hub
      · intro h j hj
        exact h j (by omega)

/-- If no block of a level is uniform, no block of a later level is. -/
theorem not_uniform_mono (x : BV) (d i i' : Nat) (hi : i ≤ i') (hd : i' ≤ d)
    (h : ∀ j < 2 ^ (d - i), ¬ UniformBlock x (j * 2 ^ i) (2 ^ i)) :
    ∀ j < 2 ^ (d - i'), ¬ UniformBlock x (j * 2 ^ i') (2 ^ i') := by
  rintro j hj ⟨b, hb⟩
  refine h (j * 2 ^ (i' - i)) ?_ ⟨b, ?_⟩
  · rw [show d - i = (d - i') + (i' - i) by omega, pow_add]
    exact Nat.mul_lt_mul_of_pos_right hj (by positivity)
  · intro k hk
    rw [Nat.mul_assoc, ← pow_add, show i' - i + i = i' by omega]
    exact hb k (lt_of_lt_of_le hk (Nat.pow_le_pow_right (by norm_num) hi))

theorem hiffLoop_spec (x : BV) (d : Nat) (hx : x.length = 2 ^ d) :
    ∀ (m i : Nat) (r : Int), i + m = d + 1 →
      hiffLoop x m (2 ^ (d - i)) (2 ^ i) r = ok (r + ∑ l ∈ Finset.Ico i (d + 1),
        ∑ j ∈ Finset.range (2 ^ (d - l)), if UniformBlock x (j * 2 ^ l) (2 ^ l) then 2 ^ l else 0) := by
  intro m
  induction m with
  | zero =>
    intro i r h
    rw [Finset.Ico_eq_empty (by omega)]
    simp [hiffLoop]
  | succ m ih =>
    intro i r h
    have hid : i ≤ d := by omega
    obtain ⟨⟨r', last, off⟩, he, h1, h2⟩ := hiffLevel_spec x (2 ^ (d - i)) (2 ^ i) (by positivity)
      (by rw [← pow_add, Nat.sub_add_cancel hid, hx]) r
    simp only at h1 h2
    push_cast at h1
    simp only [hiffLoop, he, ok_bind]
    cases last with
    | true =>
      simp only [if_true, Outcome.pure_eq, Outcome.ok.injEq]
      have hno := h2.mp rfl
      have hz : ∀ l ∈ Finset.Ico i (d + 1), ∑ j ∈ Finset.range (2 ^ (d - l)),
          (if UniformBlock x (j * 2 ^ l) (2 ^ l) then (2 : Int) ^ l else 0) = 0 := by
        intro l hl
        rw [Finset.mem_Ico] at hl
        apply Finset.sum_eq_zero
        intro j hj
        rw [if_neg (not_uniform_mono x d i l hl.1 (by omega) hno j (Finset.mem_range.mp hj))]
      rw [Finset.sum_eq_zero hz, h1, hz i (by rw [Finset.mem_Ico]; omega)]
    | false =>
      simp only [Bool.false_eq_true, if_false]
      rw [Finset.sum_eq_sum_Ico_succ_bot (by omega), ← add_assoc, ← h1]
      by_cases hlast : i = d
      · subst hlast
        have hm : m = 0 := by omega
        subst hm
        simp [hiffLoop]
      · have := ih (i + 1) r' (by omega)
        rwa [show 2 ^ (d - (i + 1)) = 2 ^ (d - i) / 2 by
          rw [show d - i = d - (i + 1) + 1 by omega, pow_succ]; simp, pow_succ] at this

/-- C29: on a vector whose size is the power of two `2 ^ d`, the value of `Hiff`, computed with an early
stop, is the sum over all levels and all aligned uniform blocks of the block size. -/
theorem hiff_value (d : Nat) (x : BV) (hx : x.length = 2 ^ d) :
    (hiff (2 ^ d) d).eval x = ok (hiffValue d x) := by
  have := hiffLoop_spec x d hx (d + 1) 0 0 (by omega)
  simp only [Nat.sub_zero, pow_zero, zero_add] at this
  simp only [hiff, hiffValue, Finset.range_eq_Ico]
  rw [this]
  simp only [Finset.range_eq_Ico]

example : hiffValue 2 [true, true, false, true] = 6 ∧
    (hiff 4 2).eval [true, true, false, true] = ok 6 := by decide

theorem hiff_level_le (d i : Nat) (hi : i ≤ d) (x : BV) :
    ∑ j ∈ Finset.range (2 ^ (d - i)), (if UniformBlock x (j * 2 ^ i) (2 ^ i) then (2 : Int) ^ i else 0) ≤
      2 ^ d := by
  calc _ ≤ ∑ j ∈ Finset.range (2 ^ (d - i)), (2 : Int) ^ i := by
        apply Finset.sum_le_sum
        intro j _
        split
        · exact le_refl _
        · positivity
    _ = 2 ^ d := by
        rw [Finset.sum_const, Finset.card_range, nsmul_eq_mul]
        push_cast
        rw [← pow_add, Nat.sub_add_cancel hi]

/-- C29: no value exceeds `(d + 1) * 2 ^ d`, and this value is reached exactly by the two constant
vectors. -/
theorem hiff_maximum_iff (d : Nat) (x : BV) (hx : x.length = 2 ^ d) :
    hiffValue d x ≤ (d + 1) * 2 ^ d ∧
      (hiffValue d x = (d + 1) * 2 ^ d ↔
        x = List.replicate (2 ^ d) false ∨ x = List.replicate (2 ^ d) true) := by
  have hle : hiffValue d x ≤ (d + 1) * 2 ^ d := by
    unfold hiffValue
    calc _ ≤ ∑ i ∈ Finset.range (d + 1), (2 : Int) ^ d := by
          apply Finset.sum_le_sum
          intro i hi
          exact hiff_level_le d i (by rw [Finset.mem_range] at hi; omega) x
      _ = _ := by simp
  refine ⟨hle, ?_, ?_⟩
  · intro h
    by_contra hne
    have hnu : ¬ UniformBlock x (0 * 2 ^ d) (2 ^ d) := by
      rintro ⟨b, hb⟩
      have : x = List.replicate (2 ^ d) b := by
        apply List.ext_getElem?
        intro k
        by_cases hk : k < 2 ^ d
        · have := hb k hk
          rw [show 0 * 2 ^ d + k = k by omega] at this
          rw [this]
          simp [hk]
        · rw [List.getElem?_eq_none (by omega), List.getElem?_eq_none (by simp; omega)]
      cases b
      · exact hne (Or.inl this)
      · exact hne (Or.inr this)
    have : hiffValue d x < (d + 1) * 2 ^ d := by
      unfold hiffValue
      rw [Finset.sum_range_succ]
      have h1 : ∑ i ∈ Finset.range d, ∑ j ∈ Finset.range (2 ^ (d - i)),
          (if UniformBlock x (j * 2 ^ i) (2 ^ i) then (2 : Int) ^ i else 0) ≤ d * 2 ^ d := by
        calc _ ≤ ∑ i ∈ Finset.range d, (2 : Int) ^ d := by
              apply Finset.sum_le_sum
              intro i hi
              exact hiff_level_le d i (by rw [Finset.mem_range] at hi; omega) x
          _ = _ := by simp
      have h2 : ∑ j ∈ Finset.range (2 ^ (d - d)),
          (if UniformBlock x (j * 2 ^ d) (2 ^ d) then (2 : Int) ^ d else 0) = 0 := by
        rw [Nat.sub_self, pow_zero, Finset.sum_range_one, if_neg hnu]
      rw [h2]
      have : (0 : Int) < 2 ^ d := by positivity
      linarith
    omega
  · intro h
    have hu : ∀ i ≤ d, ∀ j < 2 ^ (d - i), UniformBlock x (j * 2 ^ i) (2 ^ i) := by
      intro i hi j hj
      have hb : ∀ k < 2 ^ i, j * 2 ^ i + k < 2 ^ d := by
        intro k hk
        calc j * 2 ^ i + k < (j + 1) * 2 ^ i := by rw [Nat.succ_mul]; omega
          _ ≤ 2 ^ (d - i) * 2 ^ i := Nat.mul_le_mul_right _ hj
          _ = 2 ^ d := by rw [← pow_add, Nat.sub_add_cancel hi]
      rcases h with rfl | rfl
      · exact ⟨false, fun k hk => by simp [hb k hk]⟩
      · exact ⟨true, fun k hk => by simp [hb k hk]⟩
    unfold hiffValue
    rw [Finset.sum_congr rfl (g := fun _ => (2 : Int) ^ d)]
    · simp
    · intro i hi
      rw [Finset.mem_range] at hi
      rw [Finset.sum_congr rfl (g := fun _ => (2 : Int) ^ i)]
      · rw [Finset.sum_const, Finset.card_range, nsmul_eq_mul]
        push_cast
        rw [← pow_add, Nat.sub_add_cancel (by omega)]
      · intro j hj
        rw [if_pos (hu i (by omega) j (Finset.mem_range.mp hj))]

example : hiffValue 2 [true, true, true, true] = 12 ∧ hiffValue 2 [true, true, false, false] = 8 := by
  decide

/-- C29: the declared maximum of `Hiff` is its maximum, when its computation does not overflow. -/
theorem hiff_maximum (d : Nat) (hd : (d + 1) * 2 ^ d < 2 ^ 31) : DeclaresMaximum (hiff (2 ^ d) d) := by
  refine ⟨rfl, (d + 1) * 2 ^ d, ?_, ?_, List.replicate (2 ^ d) true, by simp [hiff], ?_⟩
  · simp only [hiff, intMul]
    rw [if_pos hd]
    push_cast
    rfl
  · intro x hx
    exact ⟨_, hiff_value d x hx, (hiff_maximum_iff d x hx).1⟩
  · rw [hiff_value d _ (by simp)]
    rw [(hiff_maximum_iff d (List.replicate (2 ^ d) true) (by simp)).2.mpr (Or.inr rfl)]

example : (4 + 1) * 2 ^ 4 < 2 ^ 31 := by norm_num

/-- C29 (negative part): the constructor accepts size `2 ^ 27`, for which computing the declared maximum
overflows. -/
theorem hiff_maximum_overflow : hiffNew (2 ^ 27) = ok 27 ∧ (hiff (2 ^ 27) 27).maximum = ub := by
  decide +kernel

theorem testBit_pow_list (d : Nat) (hd : d < intBits) :
    ((List.range intBits).map (fun i => (2 ^ d).testBit i)).count true = 1 ∧
      ((List.range intBits).map (fun i => (2 ^ d).testBit i)).findIdx (fun b => b) = d := by
  have : ∀ d < intBits, ((List.range intBits).map (fun i => (2 ^ d).testBit i)).count true = 1 ∧
      ((List.range intBits).map (fun i => (2 ^ d).testBit i)).findIdx (fun b => b) = d := by
    decide +kernel
  exact this d hd

/-- C29: the constructor accepts a positive value of type `int` exactly when it is a power of two, and
then the depth is its logarithm. -/
theorem hiffNew_spec (n : Nat) (h0 : 0 < n) (h1 : n < 2 ^ 31) :
    (∀ d, hiffNew n = ok d ↔ n = 2 ^ d) ∧ ((¬ ∃ d, n = 2 ^ d) → hiffNew n = .throw .runtimeError) := by
  have hpow : ∀ d, n = 2 ^ d → hiffNew n = ok d := by
    intro d hd
    have hlt : d < intBits := by
      unfold intBits
      by_contra hc
      have : 2 ^ 32 ≤ 2 ^ d := Nat.pow_le_pow_right (by norm_num) (by omega)
      omega
    obtain ⟨e1, e2⟩ := testBit_pow_list d hlt
    subst hd
    unfold hiffNew
    rw [assert_pos (by simpa using h0), ok_bind]
    simp only [e1, e2]
    simp
  have hcount : ((List.range intBits).map (fun i => n.testBit i)).count true = 1 → ∃ d, n = 2 ^ d := by
    intro hc
    obtain ⟨d, hd⟩ : ∃ d, (List.range intBits).filter (fun i => n.testBit i) = [d] := by
      rw [← List.length_eq_one_iff]
      rw [List.count, List.countP_map, List.countP_eq_length_filter] at hc
      rw [← hc]
      congr 2
      funext i
      simp
    refine ⟨d, ?_⟩
    apply Nat.eq_of_testBit_eq
    intro i
    rw [Nat.testBit_two_pow]
    by_cases hi : i < intBits
    · have : i ∈ (List.range intBits).filter (fun i => n.testBit i) ↔ n.testBit i = true := by
        simp [hi]
      rw [hd] at this
      rw [Bool.eq_iff_iff, ← this]
      simp [eq_comm]
    · have hd' : d ∈ (List.range intBits).filter (fun i => n.testBit i) := by rw [hd]; simp
      simp only [List.mem_filter, List.mem_range] at hd'
      have : n.testBit i = false := by
        apply Nat.testBit_lt_two_pow
        calc n < 2 ^ 31 := h1
          _ ≤ 2 ^ i := Nat.pow_le_pow_right (by norm_num) (by unfold intBits at hi; omega)
      rw [this]
      simp; omega
  have hnot : (¬ ∃ d, n = 2 ^ d) → hiffNew n = .throw .runtimeError := by
    intro hn
    have hc : ¬ ((List.range intBits).map (fun i => n.testBit i)).count true = 1 := fun h => hn (hcount h)
    unfold hiffNew
    rw [assert_pos (by simpa using h0), ok_bind]
    simp [hc]
  refine ⟨?_, hnot⟩
  intro d
  constructor
  · intro h
    by_contra hne
    by_cases hex : ∃ d, n = 2 ^ d
    · obtain ⟨d', hd'⟩ := hex
      rw [hpow d' hd'] at h
      cases h
      exact hne hd'
    · rw [hnot hex] at h
      cases h
  · exact hpow d

example : hiffNew 8 = ok 3 ∧ hiffNew 12 = .throw .runtimeError := by decide

end Hnco
