import Verif.Walsh.Matrix
import Mathlib.Algebra.Order.Ring.Int

/-!
# What the predicates on matrices say (C124)
-/

namespace Hnco

open Outcome

variable {T : Type} [LinearOrder T] {n : Nat} {A : List (List T)} {e : Nat → Nat → T}

/-- `A` is the square matrix of size `n` with elements `e i j`. -/
structure IsMatrix (A : List (List T)) (n : Nat) (e : Nat → Nat → T) : Prop where
  rows : A.length = n
  elements : ∀ i j, i < n → j < n → ∃ row, A[i]? = some row ∧ row[j]? = some (e i j)

theorem forLoop_all {test : Nat → Outcome Bool} {t : Nat → Bool} : ∀ (m i : Nat) (r : Bool), (∀ k, i ≤ k → k < i + m → test k = ok (t k)) →
    ∃ b, forLoop m i (fun i (r : Bool) => if r then test i else ok false) r = ok b ∧ (b = true ↔ r = true ∧ ∀ k, i ≤ k → k < i + m → t k = true)
  | 0, i, r, _ => ⟨r, rfl, by constructor; exact fun h => ⟨h, fun k h1 h2 => by omega⟩; exact fun h => h.1⟩
  | m + 1, i, r, h => by
    cases r with
    | false =>
      obtain ⟨b, e, hb⟩ := forLoop_all (t := t) m (i + 1) false (fun k h1 h2 => h k (by omega) (by omega))
      refine ⟨b, e, ?_⟩
      rw [hb]
      simp
    | true =>
      obtain ⟨b, e, hb⟩ := forLoop_all (t := t) m (i + 1) (t i) (fun k h1 h2 => h k (by omega) (by omega))
      refine ⟨b, ?_, ?_⟩
      · rw [forLoop]
        simp only [if_true]
        rw [h i (Nat.le_refl i) (by omega), ok_bind]
        exact e
      · rw [hb]
        constructor
        · rintro ⟨h1, h2⟩
          refine ⟨rfl, fun k hk1 hk2 => ?_⟩
          by_cases hk : k = i
          · rw [hk]; exact h1
          · exact h2 k (by omega) (by omega)
        · rintro ⟨_, h2⟩
          exact ⟨h2 i (Nat.le_refl i) (by omega), fun k h3 h4 => h2 k (by omega) (by omega)⟩

theorem forAll_eq {a b : Nat} {test : Nat → Outcome Bool} {P : Nat → Prop}
    (h : ∀ k, a ≤ k → k < b → ∃ r, test k = ok r ∧ (r = true ↔ P k)) :
    ∃ r, forAll a b test = ok r ∧ (r = true ↔ ∀ k, a ≤ k → k < b → P k) := by
  classical
  obtain ⟨r, e, hr⟩ := forLoop_all (test := test) (t := fun k => decide (P k)) (b - a) a true (fun k h1 h2 => by
    obtain ⟨r, e, hr⟩ := h k h1 (by omega)
    rw [e]
    congr 1
    rw [Bool.eq_iff_iff, hr, decide_eq_true_iff])
  refine ⟨r, e, ?_⟩
  rw [hr]
  constructor
  · rintro ⟨_, h2⟩ k h3 h4
    exact of_decide_eq_true (h2 k h3 (by omega))
  · exact fun h2 => ⟨rfl, fun k h3 h4 => decide_eq_true (h2 k h3 (by omega))⟩

/-- Two loops, one within the other. -/
theorem forAll_two {m : Nat} {a b : Nat → Nat} {test : Nat → Nat → Outcome Bool} {P : Nat → Nat → Prop}
    (h : ∀ i, i < m → ∀ j, a i ≤ j → j < b i → ∃ r, test i j = ok r ∧ (r = true ↔ P i j)) :
    ∃ r, forAll 0 m (fun i => forAll (a i) (b i) (test i)) = ok r ∧ (r = true ↔ ∀ i, i < m → ∀ j, a i ≤ j → j < b i → P i j) := by
  obtain ⟨r, h1, h2⟩ := forAll_eq (a := 0) (b := m) (test := fun i => forAll (a i) (b i) (test i))
    (P := fun i => ∀ j, a i ≤ j → j < b i → P i j) (fun i _ hi => forAll_eq (h i hi))
  exact ⟨r, h1, h2.trans ⟨fun hs i hi => hs i (Nat.zero_le i) hi, fun hs i _ hi => hs i hi⟩⟩

omit [LinearOrder T] in
theorem matrixRead_eq (h : IsMatrix A n e) {i j : Nat} (hi : i < n) (hj : j < n) : matrixRead A i j = ok (e i j) := by
  obtain ⟨row, h1, h2⟩ := h.elements i j hi hj
  obtain ⟨hl, rfl⟩ := List.getElem?_eq_some_iff.mp h1
  obtain ⟨hl', he⟩ := List.getElem?_eq_some_iff.mp h2
  unfold matrixRead
  rw [vget_eq hl, ok_bind, vget_eq hl', he]

/-- C124: symmetric matrices are recognized. -/
theorem matrixSymmetric_iff (h : IsMatrix A n e) : ∃ b, matrixSymmetric A = ok b ∧ (b = true ↔ ∀ i j, i < n → j < n → e i j = e j i) := by
  unfold matrixSymmetric
  rw [h.rows]
  obtain ⟨b, h1, h2⟩ := forAll_two (m := n) (a := fun _ => 0) (b := fun i => i) (P := fun i j => e i j = e j i) (test := fun i j => do
    let x ← matrixRead A i j
    let y ← matrixRead A j i
    ok (decide (x = y))) (fun i hi j _ hj =>
      ⟨decide (e i j = e j i), by rw [matrixRead_eq h hi (by omega), ok_bind, matrixRead_eq h (by omega) hi, ok_bind], decide_eq_true_iff⟩)
  refine ⟨b, h1, h2.trans ⟨fun hs i j hi hj => ?_, fun hs i hi j _ hj => hs i j hi (by omega)⟩⟩
  rcases Nat.lt_trichotomy i j with hij | hij | hij
  · exact (hs j hj i (Nat.zero_le i) hij).symm
  · rw [hij]
  · exact hs i hi j (Nat.zero_le j) hij

/-- C124: strictly lower triangular matrices are recognized. -/
theorem matrixStrictlyLower_iff [Zero T] (h : IsMatrix A n e) :
    ∃ b, matrixStrictlyLower A = ok b ∧ (b = true ↔ ∀ i j, i < n → j < n → i ≤ j → e i j = 0) := by
  unfold matrixStrictlyLower
  rw [h.rows]
  obtain ⟨b, h1, h2⟩ := forAll_two (m := n) (a := fun i => i) (b := fun _ => n) (P := fun i j => e i j = 0) (test := fun i j => do
    let x ← matrixRead A i j
    ok (decide (x = 0))) (fun i hi j _ hj => ⟨decide (e i j = 0), by rw [matrixRead_eq h hi hj, ok_bind], decide_eq_true_iff⟩)
  exact ⟨b, h1, h2.trans ⟨fun hs i j hi hj hij => hs i hi j hij hj, fun hs i hi j hij hj => hs i j hi hj hij⟩⟩

/-- C124: constant diagonals are recognized. -/
theorem matrixDiagonal_iff (h : IsMatrix A n e) (d : T) : ∃ b, matrixDiagonal A d = ok b ∧ (b = true ↔ ∀ i, i < n → e i i = d) := by
  unfold matrixDiagonal
  rw [h.rows]
  obtain ⟨b, h1, h2⟩ := forAll_eq (a := 0) (b := n) (P := fun i => e i i = d) (test := fun i => do
    let x ← matrixRead A i i
    ok (decide (x = d))) (fun i _ hi =>
    ⟨decide (e i i = d), by rw [matrixRead_eq h hi hi, ok_bind], decide_eq_true_iff⟩)
  exact ⟨b, h1, h2.trans ⟨fun hs i hi => hs i (Nat.zero_le i) hi, fun hs i _ hi => hs i hi⟩⟩

/-- C124: the check for the range of the elements only looks below the diagonal. -/
theorem matrixRange_iff (h : IsMatrix A n e) (inf sup : T) :
    ∃ b, matrixRange A inf sup = ok b ∧ (b = true ↔ ∀ i j, i < n → j < i → inf ≤ e i j ∧ e i j ≤ sup) := by
  unfold matrixRange
  rw [h.rows]
  obtain ⟨b, h1, h2⟩ := forAll_two (m := n) (a := fun _ => 0) (b := fun i => i) (P := fun i j => inf ≤ e i j ∧ e i j ≤ sup) (test := fun i j => do
    let x ← matrixRead A i j
    ok (!decide (x < inf) && !decide (sup < x))) (fun i hi j _ hj =>
      ⟨!decide (e i j < inf) && !decide (sup < e i j), by rw [matrixRead_eq h hi (by omega), ok_bind], by simp⟩)
  exact ⟨b, h1, h2.trans ⟨fun hs i j hi hj => hs i hi j (Nat.zero_le j) hj, fun hs i hi j _ hj => hs i j hi hj⟩⟩

/-- C124: for symmetric matrices with a diagonal in the range, this is all elements. -/
theorem matrixRange_symmetric (h : IsMatrix A n e) {inf sup : T} (hs : ∀ i j, i < n → j < n → e i j = e j i)
    (hd : ∀ i, i < n → inf ≤ e i i ∧ e i i ≤ sup) :
    ∃ b, matrixRange A inf sup = ok b ∧ (b = true ↔ ∀ i j, i < n → j < n → inf ≤ e i j ∧ e i j ≤ sup) := by
  obtain ⟨b, h1, h2⟩ := matrixRange_iff h inf sup
  refine ⟨b, h1, h2.trans ⟨fun hr i j hi hj => ?_, fun hr i j hi hj => hr i j hi (by omega)⟩⟩
  rcases Nat.lt_trichotomy i j with hij | hij | hij
  · rw [hs i j hi hj]
    exact hr j i hj hij
  · rw [hij]
    exact hd j hj
  · exact hr i j hi hij

/-- C124 (negative part): the check for a dominant diagonal compares each element with itself and accepts all matrices. -/
theorem matrixDominant_always (h : IsMatrix A n e) : matrixDominant A = ok true := by
  unfold matrixDominant
  rw [h.rows]
  obtain ⟨b, h1, h2⟩ := forAll_two (m := n) (a := fun _ => 0) (b := fun i => i) (P := fun _ _ => True) (test := fun i j => do
    let x ← matrixRead A i j
    let y ← matrixRead A i j
    ok (!decide (y < x))) (fun i hi j _ hj => ⟨true, by rw [matrixRead_eq h hi (by omega), ok_bind, ok_bind]; simp, by simp⟩)
  rw [h1]
  congr 1
  exact h2.mpr (fun _ _ _ _ _ => trivial)

/-! ## Examples -/

/-- A matrix whose diagonal is not dominant, with elements out of the range above the diagonal. -/
theorem example_matrix : IsMatrix [[0, 9], [5, 0]] 2 (fun i j => ([[0, 9], [5, 0]] : List (List Int)).getD i [] |>.getD j 0) :=
  ⟨rfl, fun i j hi hj => by
    have : i = 0 ∨ i = 1 := by omega
    have : j = 0 ∨ j = 1 := by omega
    rcases ‹i = 0 ∨ i = 1› with rfl | rfl <;> rcases ‹j = 0 ∨ j = 1› with rfl | rfl <;> exact ⟨_, rfl, rfl⟩⟩

example : matrixDominant ([[0, 9], [5, 0]] : List (List Int)) = ok true := matrixDominant_always example_matrix

/-- C124 (negative part): there are matrices with elements out of the range which pass the check. -/
theorem matrixRange_above : matrixRange ([[0, 9], [5, 0]] : List (List Int)) (-5) 5 = ok true ∧
    ¬ ∀ i j, i < 2 → j < 2 → (([[0, 9], [5, 0]] : List (List Int)).getD i []).getD j 0 ≤ 5 := by
  refine ⟨rfl, fun h => ?_⟩
  exact absurd (h 0 1 (by decide) (by decide)) (by decide)

example : matrixSymmetric ([[0, 5], [5, 0]] : List (List Int)) = ok true := rfl
example : matrixSymmetric ([[0, 9], [5, 0]] : List (List Int)) = ok false := rfl
example : matrixStrictlyLower ([[0, 0], [5, 0]] : List (List Int)) = ok true := rfl
example : matrixDiagonal ([[3, 9], [5, 3]] : List (List Int)) 3 = ok true := rfl

end Hnco
