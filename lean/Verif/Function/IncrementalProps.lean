import Verif.BitVector.Lemmas
import Verif.Function.Theory
import Verif.Function.Sums
import Mathlib.Tactic.Abel
import Mathlib.Tactic.Ring
import Mathlib.Algebra.Order.Ring.Int

/-!
# Incremental evaluation of separable functions; their maxima (C26, part of C28 and C33)
-/

namespace Hnco

open Outcome

/-! ## Helper lemmas -/

/-- Value of a separable function at the flipped vector. -/
theorem sum_separable {K : Type} [AddCommGroup K] {n : Nat} (t : Fin n → Bool → K) (x : Fin n → Bool)
    (flips : List Nat) :
    ∑ i, t i (if (i : Nat) ∈ flips then !x i else x i) =
      ∑ i, t i (x i) + ∑ i : Fin n, if (i : Nat) ∈ flips then t i (!x i) - t i (x i) else 0 := by
  rw [← Finset.sum_add_distrib]
  apply Finset.sum_congr rfl
  intro i _
  split <;> simp

/-- A loop over the flipped bits that adds the variations of the terms. -/
theorem forEach_flips {K : Type} [AddCommGroup K] {n : Nat} (body : Nat → K → Outcome K)
    (d : Fin n → K) (flips : List Nat) (hnd : flips.Nodup) (hr : ∀ i ∈ flips, i < n)
    (h : ∀ (i : Fin n) (r : K), body i r = ok (r + d i)) (r : K) :
    forEach flips body r = ok (r + ∑ i : Fin n, if (i : Nat) ∈ flips then d i else 0) := by
  have hu : ∀ i : Fin n, (fun i => if h : i < n then d ⟨i, h⟩ else 0) (i : Nat) = d i := by
    intro i; simp
  rw [← sum_flips d flips hnd hr (fun i => if h : i < n then d ⟨i, h⟩ else 0) hu]
  apply forEach_sum
  intro i hi r
  simp only [hr i hi, dif_pos]
  exact h ⟨i, hr i hi⟩ r

theorem bvHammingWeight_ofFn {n : Nat} (x : Fin n → Bool) :
    (bvHammingWeight (List.ofFn x) : Int) = ∑ i, if x i then 1 else 0 := by
  rw [bvHammingWeight_eq]
  induction n with
  | zero => simp
  | succ n ih =>
    rw [List.ofFn_succ, List.count_cons, Fin.sum_univ_succ, ← ih]
    cases x 0 <;> simp [add_comm]

section
variable {K : Type} [Ring K]

theorem linearEval_ofFn {n : Nat} (w : Fin n → K) (x : Fin n → Bool) :
    linearEval (List.ofFn w) (List.ofFn x) = ok (∑ i, if x i then w i else 0) := by
  unfold linearEval
  rw [assert_pos (by simp), ok_bind, List.length_ofFn, forRange_sum _ (fun i => if x i then w i else 0)]
  · simp
  · intro i r
    simp only [vget_ofFn _ _ i.isLt, ok_bind, Fin.eta]
    cases x i <;> simp

theorem walsh1Eval_ofFn {n : Nat} (w : Fin n → K) (x : Fin n → Bool) :
    walsh1Eval (List.ofFn w) (List.ofFn x) = ok (∑ i, if x i then -w i else w i) := by
  unfold walsh1Eval
  rw [assert_pos (by simp), ok_bind, List.length_ofFn, forRange_sum _ (fun i => if x i then -w i else w i)]
  · simp
  · intro i r
    simp only [vget_ofFn _ _ i.isLt, ok_bind, Fin.eta]
    cases x i <;> simp [sub_eq_add_neg]

end

/-! ## C26 -/

/-- C26: incremental evaluation of `OneMax` is exact. -/
theorem oneMax_incremental (n : Nat) : IncrementalExact (oneMax n) := by
  apply incrementalExact_of _ rfl
  intro x v flips hnd _ hr hv
  change Fin n → Bool at x
  simp only [oneMax, Outcome.ok.injEq] at hv hr ⊢
  rw [bvHammingWeight_ofFn] at hv ⊢
  refine ⟨_, ?_, rfl⟩
  have hs := sum_separable (fun _ b => if b then (1 : Int) else 0) x flips
  rw [hs, hv]
  unfold oneMaxInc
  rw [forEach_flips _ (fun i => (if !x i then (1 : Int) else 0) - if x i then 1 else 0) flips hnd hr]
  · simp
  · intro i r
    simp only [vget_ofFn _ _ i.isLt, ok_bind, Fin.eta]
    cases x i <;> simp [sub_eq_add_neg]

example : (oneMax 4).evalInc [true, false, true, true] 3 [0, 1] = ok 3 ∧
    (oneMax 4).eval [false, true, true, true] = ok 3 := by decide

/-- C26: incremental evaluation of linear functions is exact. -/
theorem linear_incremental {K : Type} [Ring K] [LinearOrder K] (w : List K) :
    IncrementalExact (linearFunction w) := by
  obtain ⟨n, hn⟩ : ∃ n, w.length = n := ⟨_, rfl⟩
  obtain ⟨w, rfl⟩ := exists_ofFn w hn
  have hsz : (linearFunction (List.ofFn w)).size = n := by simp [linearFunction]
  apply incrementalExact_of _ rfl
  rw [hsz]
  intro x v flips hnd _ hr hv
  simp only [linearFunction] at hv ⊢
  rw [linearEval_ofFn] at hv ⊢
  refine ⟨_, ?_, rfl⟩
  have hs := sum_separable (fun i b => if b then w i else 0) x flips
  simp only [Outcome.ok.injEq] at hv
  rw [hs, hv]
  unfold linearInc
  rw [forEach_flips _ (fun i => (if !x i then w i else 0) - if x i then w i else 0) flips hnd hr]
  intro i r
  simp only [vget_ofFn _ _ i.isLt, ok_bind, Fin.eta]
  cases x i <;> simp [sub_eq_add_neg]

example : (linearFunction [3, -5, (7 : Int)]).evalInc [true, true, false] (-2) [0, 2] = ok 2 ∧
    (linearFunction [3, -5, (7 : Int)]).eval [false, true, true] = ok 2 := by decide

/-- C26: incremental evaluation of Walsh expansions of degree 1 is exact. -/
theorem walsh1_incremental {K : Type} [Ring K] [LinearOrder K] (w : List K) :
    IncrementalExact (walshExpansion1 w) := by
  obtain ⟨n, hn⟩ : ∃ n, w.length = n := ⟨_, rfl⟩
  obtain ⟨w, rfl⟩ := exists_ofFn w hn
  have hsz : (walshExpansion1 (List.ofFn w)).size = n := by simp [walshExpansion1]
  apply incrementalExact_of _ rfl
  rw [hsz]
  intro x v flips hnd _ hr hv
  simp only [walshExpansion1] at hv ⊢
  rw [walsh1Eval_ofFn] at hv ⊢
  refine ⟨_, ?_, rfl⟩
  have hs := sum_separable (fun i b => if b then -w i else w i) x flips
  simp only [Outcome.ok.injEq] at hv
  rw [hs, hv]
  unfold walsh1Inc
  rw [assert_pos (by simp), ok_bind,
    forEach_flips _ (fun i => (if !x i then -w i else w i) - if x i then -w i else w i) flips hnd hr]
  intro i r
  simp only [vget_ofFn _ _ i.isLt, ok_bind, Fin.eta]
  cases x i <;> simp [two_mul, sub_eq_add_neg]

example : (walshExpansion1 [3, -5, (7 : Int)]).evalInc [true, true, false] 9 [0, 2] = ok 1 ∧
    (walshExpansion1 [3, -5, (7 : Int)]).eval [false, true, true] = ok 1 := by decide

/-- C26: the opposite of a function whose incremental evaluation is exact has an exact incremental
evaluation. -/
theorem opposite_incremental {K : Type} [AddGroup K] (f : Fn K) (h : IncrementalExact f) :
    IncrementalExact (opposite f) := by
  refine ⟨rfl, ?_⟩
  intro x y v flips hx hy hs hr hf hv
  simp only [opposite, bind_eq_ok, Outcome.pure_eq, Outcome.ok.injEq] at hv ⊢
  obtain ⟨u, hu, rfl⟩ := hv
  obtain ⟨w, h1, h2⟩ := h.2 x y u flips hx hy hs hr hf hu
  exact ⟨-w, ⟨w, by rw [neg_neg]; exact h1, rfl⟩, w, h2, rfl⟩

example : IncrementalExact (opposite (oneMax 4)) := opposite_incremental _ (oneMax_incremental 4)

/-- C26 (negative part): `OppositeFunction` says that it provides incremental evaluation even when the
function it negates does not; its incremental evaluation then throws. -/
theorem opposite_claims_incremental (n : Nat) (x : BV) (v : Int) (flips : List Nat) :
    (leadingOnes n).hasInc = false ∧ (opposite (leadingOnes n)).hasInc = true ∧
      (opposite (leadingOnes n)).evalInc x v flips = .throw .runtimeError :=
  ⟨rfl, rfl, rfl⟩

/-- C26 (negative part): a list with a repeated index passes the validity check of sparse bit vectors,
but for it the incremental evaluation of `OneMax` differs from the value of the vector flipped by
`bv_flip`. -/
theorem oneMax_incremental_repeated_index :
    ∃ (x y : BV) (flips : List Nat) (v w w' : Int), sbvIsValid flips x.length = true ∧
      (oneMax x.length).eval x = ok v ∧ bvFlipSparse x flips = ok y ∧
      (oneMax x.length).eval y = ok w ∧ (oneMax x.length).evalInc x v flips = ok w' ∧ w' ≠ w :=
  ⟨[false], [false], [0, 0], 0, 0, 2, by decide⟩

end Hnco
