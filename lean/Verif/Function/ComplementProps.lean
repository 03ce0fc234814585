import Verif.Function.Collection
import Verif.Function.QuboProps
import Mathlib.Algebra.Order.Ring.Int
import Mathlib.Algebra.Order.Field.Rat
import Mathlib.Tactic.Positivity

/-!
# Partition, equal products, LABS: values and complement (C45)
-/

namespace Hnco

open Outcome

/-! ## Specification -/

/-- The numbers at the positions where the bit is `b`. -/
def side {α : Type} (numbers : List α) (s : BV) (b : Bool) : List α :=
  ((numbers.zip s).filter (fun p => p.2 == b)).map Prod.fst

/-- All bits flipped. -/
def complement (x : BV) : BV := x.map not

/-- Bit `i` as a number of {-1, 1}. -/
def pm (x : BV) (i : Nat) : Int := if x[i]? = some true then 1 else -1

/-! ## Partition and equal products -/

theorem side_complement {α : Type} (numbers : List α) (s : BV) (b : Bool) :
    side numbers (complement s) b = side numbers s (!b) := by
  unfold side complement
  induction numbers generalizing s with
  | nil => simp
  | cons a numbers ih =>
    cases s with
    | nil => simp
    | cons c s =>
      simp only [List.map_cons, List.zip_cons_cons, List.filter_cons]
      have := ih s
      cases b <;> cases c <;> simp_all

/-- A loop that folds each number into the accumulator of its side. -/
theorem side_loop {α L : Type} (op : L → α → L) (numbers : List α) (s : BV) (h : s.length = numbers.length)
    (e0 e1 : L) :
    forRange 0 numbers.length (fun i (r : L × L) => do
      let b ← vget s i
      let a ← vget numbers i
      ok (if b then (r.1, op r.2 a) else (op r.1 a, r.2))) (e0, e1) =
    ok ((side numbers s false).foldl op e0, (side numbers s true).foldl op e1) := by
  have key := forRange_returns (a := 0) (b := numbers.length) (body := fun i (r : L × L) => do
      let b ← vget s i
      let a ← vget numbers i
      ok (if b then (r.1, op r.2 a) else (op r.1 a, r.2)))
    (I := fun k r => r = ((side (numbers.take k) (s.take k) false).foldl op e0,
      (side (numbers.take k) (s.take k) true).foldl op e1)) (s := (e0, e1)) (Nat.zero_le _)
    (by simp [side]) (by
      intro k r _ hk hr
      rw [vget_eq (h ▸ hk), ok_bind, vget_eq hk, ok_bind]
      refine ⟨_, rfl, ?_⟩
      have ht1 : numbers.take (k + 1) = numbers.take k ++ [numbers[k]] := by simp
      have hk' : k < s.length := h ▸ hk
      have ht2 : s.take (k + 1) = s.take k ++ [s[k]] := by simp
      have hz : side (numbers.take (k + 1)) (s.take (k + 1)) = fun b =>
          side (numbers.take k) (s.take k) b ++ (if s[k] = b then [numbers[k]] else []) := by
        funext b
        unfold side
        rw [ht1, ht2, List.zip_append (by simp; omega), List.filter_append, List.map_append]
        congr 1
        cases s[k] <;> cases b <;> rfl
      rw [hz, hr]
      cases s[k] <;> simp)
  obtain ⟨r, h1, h2⟩ := key
  rw [h1, h2]
  simp [List.take_of_length_le (Nat.le_of_eq h)]

theorem foldl_add (l : List Int) (a : Int) : l.foldl (· + ·) a = a + l.sum := by
  induction l generalizing a with
  | nil => simp
  | cons b l ih => rw [List.foldl_cons, ih, List.sum_cons, add_assoc]

/-- C45: the value of a partition is minus the distance between the sums of both sides. -/
theorem partition_value (numbers : List Int) (s : BV) (h : s.length = numbers.length) :
    partitionEval numbers s = ok (-|(side numbers s true).sum - (side numbers s false).sum|) := by
  unfold partitionEval
  rw [assert_pos (by simpa using h), ok_bind, h, side_loop (· + ·) numbers s h, ok_bind]
  simp [foldl_add]

/-- C45: the value of a partition is at most 0, and 0 exactly for a perfect split. -/
theorem partition_perfect (numbers : List Int) (s : BV) (h : s.length = numbers.length) :
    ∃ v, partitionEval numbers s = ok v ∧ v ≤ 0 ∧
      (v = 0 ↔ (side numbers s true).sum = (side numbers s false).sum) := by
  refine ⟨_, partition_value numbers s h, ?_, ?_⟩
  · have := abs_nonneg ((side numbers s true).sum - (side numbers s false).sum); omega
  · rw [neg_eq_zero, abs_eq_zero, sub_eq_zero]

/-- C45: complementing all bits does not change the value of a partition. -/
theorem partition_complement (numbers : List Int) (s : BV) (h : s.length = numbers.length) :
    partitionEval numbers (complement s) = partitionEval numbers s := by
  rw [partition_value numbers s h, partition_value numbers (complement s) (by simpa [complement] using h),
    side_complement, side_complement, abs_sub_comm]
  rfl

example : partitionEval [3, 1, 4, 2] [true, false, false, true] = ok 0 := by decide +kernel
example : partitionEval [3, 1, 4, 2] [true, true, false, true] = ok (-2) := by decide +kernel

section
variable {K : Type} [Field K] [LinearOrder K] [IsStrictOrderedRing K]

omit [LinearOrder K] [IsStrictOrderedRing K] in
theorem foldl_mul (l : List K) (a : K) : l.foldl (· * ·) a = a * l.prod := by
  induction l generalizing a with
  | nil => simp
  | cons b l ih => rw [List.foldl_cons, ih, List.prod_cons, mul_assoc]

omit [IsStrictOrderedRing K] in
/-- C45: the value of equal products is minus the distance between the products of both sides. -/
theorem equalProducts_value (numbers : List K) (s : BV) (h : s.length = numbers.length) :
    equalProductsEval numbers s = ok (-|(side numbers s true).prod - (side numbers s false).prod|) := by
  unfold equalProductsEval
  rw [side_loop (· * ·) numbers s h, ok_bind]
  simp [foldl_mul]

/-- C45: the value of equal products is at most 0, and 0 exactly when both products agree. -/
theorem equalProducts_zero (numbers : List K) (s : BV) (h : s.length = numbers.length) :
    ∃ v, equalProductsEval numbers s = ok v ∧ v ≤ 0 ∧
      (v = 0 ↔ (side numbers s true).prod = (side numbers s false).prod) := by
  refine ⟨_, equalProducts_value numbers s h, ?_, ?_⟩
  · exact neg_nonpos.mpr (abs_nonneg _)
  · rw [neg_eq_zero, abs_eq_zero, sub_eq_zero]

/-- C45: complementing all bits does not change the value of equal products. -/
theorem equalProducts_complement (numbers : List K) (s : BV) (h : s.length = numbers.length) :
    equalProductsEval numbers (complement s) = equalProductsEval numbers s := by
  rw [equalProducts_value numbers s h, equalProducts_value numbers (complement s) (by simpa [complement] using h),
    side_complement, side_complement, abs_sub_comm]
  rfl

end

example : equalProductsEval [2, 3, (6 : ℚ)] [true, true, false] = ok 0 := by decide +kernel

/-! ## LABS -/

theorem pm_complement (x : BV) (i : Nat) (h : i < x.length) : pm (complement x) i = -pm x i := by
  unfold pm complement
  rw [List.getElem?_map, List.getElem?_eq_getElem h]
  cases x[i] <;> simp

theorem labsSequence_eq (sequence : List Int) (x : BV) (h : x.length = sequence.length) :
    ∃ t, labsSequence sequence x = ok t ∧ t.length = x.length ∧ ∀ i < x.length, t[i]? = some (pm x i) := by
  have key := forRange_returns (a := 0) (b := x.length) (body := fun i (sequence : List Int) => do
      let b ← vget x i
      vset sequence i (if b then 1 else -1))
    (I := fun k (t : List Int) => t.length = x.length ∧ ∀ i < k, t[i]? = some (pm x i)) (s := sequence)
    (Nat.zero_le _) ⟨h.symm, by omega⟩ (by
      rintro k t _ hk ⟨h1, h2⟩
      rw [vget_eq hk, ok_bind, vset_eq (by omega)]
      refine ⟨_, rfl, by simpa using h1, ?_⟩
      intro i hi
      by_cases hik : i = k
      · subst hik
        rw [List.getElem?_set_self (by omega)]
        unfold pm
        rw [List.getElem?_eq_getElem hk]
        cases x[i] <;> simp
      · rw [List.getElem?_set_ne (Ne.symm hik)]
        exact h2 i (by omega))
  obtain ⟨t, h1, h2, h3⟩ := key
  exact ⟨t, h1, h2, h3⟩

/-- C45: the energy of LABS is the sum over all distances `k` of the squared autocorrelation at distance `k`
of the sequence of -1 and 1; the previous contents of the buffer do not matter. -/
theorem labs_autocorrelation (sequence : List Int) (x : BV) (h : x.length = sequence.length) :
    labsAutocorrelation sequence x =
      ok (∑ k ∈ Finset.Ico 1 x.length, (∑ i ∈ Finset.range (x.length - k), pm x i * pm x (i + k)) ^ 2) := by
  unfold labsAutocorrelation
  obtain ⟨t, h1, h2, h3⟩ := labsSequence_eq sequence x h
  rw [assert_pos (by simpa using h), ok_bind, h1, ok_bind]
  rw [forRange_sum_Ico 1 x.length _
    (fun k => (∑ i ∈ Finset.range (x.length - k), pm x i * pm x (i + k)) ^ 2), zero_add]
  intro k hk1 hk2 r
  rw [forRange_sum_range (x.length - k) _ (fun i => pm x i * pm x (i + k)), ok_bind, zero_add]
  intro i hi c
  have e1 : vget t i = ok (pm x i) := by unfold vget; rw [h3 i (by omega)]
  have e2 : vget t (i + k) = ok (pm x (i + k)) := by unfold vget; rw [h3 (i + k) (by omega)]
  rw [e1, ok_bind, e2, ok_bind]

/-- C45: complementing all bits changes neither the energy of LABS nor the merit factor. -/
theorem labs_complement {K : Type} [Field K] (meritFactor : Bool) (sequence : List Int) (x : BV)
    (h : x.length = sequence.length) :
    labsEval (K := K) meritFactor sequence (complement x) = labsEval meritFactor sequence x := by
  have hlen : (complement x).length = x.length := by simp [complement]
  have he : labsAutocorrelation sequence (complement x) = labsAutocorrelation sequence x := by
    rw [labs_autocorrelation sequence x h, labs_autocorrelation sequence (complement x) (by rw [hlen, h]), hlen]
    congr 1
    apply Finset.sum_congr rfl
    intro k hk
    rw [Finset.mem_Ico] at hk
    congr 1
    apply Finset.sum_congr rfl
    intro i hi
    rw [Finset.mem_range] at hi
    rw [pm_complement x i (by omega), pm_complement x (i + k) (by omega)]
    ring
  unfold labsEval
  rw [he, hlen]

theorem pm_sq (x : BV) (i : Nat) : pm x i = 1 ∨ pm x i = -1 := by
  unfold pm; split <;> simp

/-- C45: from two bits on the energy of LABS is positive, so that the merit factor is well defined. -/
theorem labs_merit {K : Type} [Field K] (sequence : List Int) (x : BV) (h : x.length = sequence.length)
    (h2 : 2 ≤ x.length) : ∃ e : Int, 0 < e ∧ labsAutocorrelation sequence x = ok e ∧
      labsEval (K := K) true sequence x = ok ((x.length : K) ^ 2 / (2 * (e : K))) ∧
      labsEval (K := K) false sequence x = ok (-(e : K)) := by
  have he := labs_autocorrelation sequence x h
  have hpos : 0 < ∑ k ∈ Finset.Ico 1 x.length,
      (∑ i ∈ Finset.range (x.length - k), pm x i * pm x (i + k)) ^ 2 := by
    apply Finset.sum_pos'
    · intro k _; positivity
    · refine ⟨x.length - 1, by rw [Finset.mem_Ico]; omega, ?_⟩
      rw [show x.length - (x.length - 1) = 1 by omega, Finset.sum_range_one]
      rcases pm_sq x 0 with h1 | h1 <;> rcases pm_sq x (0 + (x.length - 1)) with h2 | h2 <;> rw [h1, h2] <;> decide
  refine ⟨_, hpos, he, ?_, ?_⟩
  · unfold labsEval
    rw [assert_pos (by simpa using h), ok_bind, he, ok_bind, if_pos rfl, if_neg (ne_of_gt hpos)]
  · unfold labsEval
    rw [assert_pos (by simpa using h), ok_bind, he, ok_bind, if_neg (by simp)]

example : labsAutocorrelation [7, 7, 7] [true, true, false] = ok 1 := by decide
example : labsEval (K := ℚ) true [0, 0, 0] [true, true, false] = ok (9 / 2) := by decide +kernel
/-- The merit factor of a single bit divides by zero. -/
example : labsEval (K := ℚ) true [0] [true] = ub := by decide +kernel

/-! ## Ising models without field -/

section
variable {K : Type} [CommRing K]

theorem spin_complement (x : BV) (i : Nat) (h : i < x.length) : spin K (complement x) i = -spin K x i := by
  unfold spin complement
  rw [List.getElem?_map, List.getElem?_eq_getElem h]
  cases x[i] <;> simp

theorem spin_pair (x : BV) (i j : Nat) (hi : i < x.length) (hj : j < x.length) (c : K) :
    c * spin K (complement x) i * spin K (complement x) j = c * spin K x i * spin K x j := by
  rw [spin_complement x i hi, spin_complement x j hj]; ring

/-- C45: without field, complementing all bits does not change the value of the Ising model in one
dimension. -/
theorem ising1_complement (m : Ising1 K) (n : Nat) (hn : 0 < n) (hc : m.coupling.length = n)
    (hh : m.field = List.replicate n 0) (x : BV) (hx : x.length = n) :
    ising1Eval m (complement x) = ising1Eval m x := by
  have hx' : (complement x).length = n := by simpa [complement] using hx
  have hz : ∀ i, entry m.field i = 0 := by
    intro i; unfold entry; rw [hh, List.getElem?_replicate]; split <;> rfl
  rw [ising1_value m n hn hc (by simp [hh]) x hx, ising1_value m n hn hc (by simp [hh]) _ hx']
  congr 1
  congr 1
  · congr 1
    · apply Finset.sum_congr rfl
      intro i hi
      rw [Finset.mem_range] at hi
      exact spin_pair x _ _ (by omega) (by omega) _
    · rw [spin_pair x _ _ (by omega) (by omega)]
  · simp [hz]

/-- C45: without field, complementing all bits does not change the value of the Ising model in two
dimensions. -/
theorem ising2_complement (m : Ising2 K) (rows columns : Nat) (hr : 0 < rows) (hc : 0 < columns)
    (h1 : GridShape m.right rows columns) (h2 : GridShape m.below rows columns)
    (h3 : m.field = List.replicate rows (List.replicate columns 0)) (x : BV)
    (hx : x.length = rows * columns) :
    ising2Eval m (complement x) = ising2Eval m x := by
  have hx' : (complement x).length = rows * columns := by simpa [complement] using hx
  have h3' : GridShape m.field rows columns := by
    rw [h3]
    exact ⟨by simp, fun row hrow => by rw [(List.mem_replicate.mp hrow).2]; simp⟩
  have hz : ∀ i j, gridEntry m.field i j = 0 := by
    intro i j; unfold gridEntry entry; rw [h3, List.getElem?_replicate]
    split
    · simp only [Option.getD_some]; rw [List.getElem?_replicate]; split <;> rfl
    · rfl
  rw [ising2_value m rows columns hr hc h1 h2 h3' x hx, ising2_value m rows columns hr hc h1 h2 h3' _ hx']
  have hp : ∀ i1 j1 i2 j2 (c : K), i1 < rows → j1 < columns → i2 < rows → j2 < columns →
      c * spin K (complement x) (i1 * columns + j1) * spin K (complement x) (i2 * columns + j2) =
      c * spin K x (i1 * columns + j1) * spin K x (i2 * columns + j2) := by
    intro i1 j1 i2 j2 c a1 a2 a3 a4
    exact spin_pair x _ _ (by rw [hx]; exact site_lt a1 a2) (by rw [hx]; exact site_lt a3 a4) _
  congr 1
  congr 1
  · congr 1
    · congr 1
      · apply Finset.sum_congr rfl
        intro i hi
        apply Finset.sum_congr rfl
        intro j hj
        rw [Finset.mem_range] at hi hj
        exact hp _ _ _ _ _ hi (by omega) hi (by omega)
      · apply Finset.sum_congr rfl
        intro i hi
        apply Finset.sum_congr rfl
        intro j hj
        rw [Finset.mem_range] at hi hj
        exact hp _ _ _ _ _ (by omega) (by omega) (by omega) (by omega)
    · congr 1
      congr 1
      · apply Finset.sum_congr rfl
        intro i hi
        rw [Finset.mem_range] at hi
        have := hp i (columns - 1) i 0 (gridEntry m.right i (columns - 1)) hi (by omega) hi hc
        simpa using this
      · apply Finset.sum_congr rfl
        intro j hj
        rw [Finset.mem_range] at hj
        have := hp (rows - 1) j 0 j (gridEntry m.below (rows - 1) j) (by omega) hj hr hj
        simpa using this
  · simp [hz]

end

end Hnco
