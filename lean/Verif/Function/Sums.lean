import Verif.Base
import Verif.Function.Spec
import Mathlib.Algebra.BigOperators.Fin
import Mathlib.Algebra.BigOperators.Group.Finset.Basic
import Mathlib.Data.List.OfFn

/-! # Loops that add up values (helper lemmas) -/

namespace Hnco

open Outcome

theorem vget_ofFn {α : Type} {n : Nat} (x : Fin n → α) (i : Nat) (h : i < n) :
    vget (List.ofFn x) i = ok (x ⟨i, h⟩) := by
  simp [vget, h]

/-- Every list is a family. -/
theorem exists_ofFn {α : Type} {n : Nat} (l : List α) (h : l.length = n) :
    ∃ x : Fin n → α, l = List.ofFn x := by
  subst h
  exact ⟨fun i => l[i], (List.ofFn_getElem (xs := l)).symm⟩

theorem forLoop_sum {K : Type} [AddCommMonoid K] {n : Nat} (body : Nat → K → Outcome K)
    (a : Nat) (t : Fin n → K) (r : K) (h : ∀ (i : Fin n) (r : K), body (a + i) r = ok (r + t i)) :
    forLoop n a body r = ok (r + ∑ i, t i) := by
  induction n generalizing a r with
  | zero => simp [forLoop]
  | succ n ih =>
    have h0 := h 0 r
    simp only [Fin.val_zero, Nat.add_zero] at h0
    simp only [forLoop, h0, ok_bind]
    rw [ih (a + 1) (fun i => t i.succ) (r + t 0)]
    · rw [Fin.sum_univ_succ, add_assoc]
    · intro i r
      have := h i.succ r
      rwa [Fin.val_succ, show a + (i.val + 1) = a + 1 + i.val by omega] at this

/-- A counted loop that adds `t i` at iteration `i`. -/
theorem forRange_sum {K : Type} [AddCommMonoid K] {n : Nat} (body : Nat → K → Outcome K)
    (t : Fin n → K) (r : K) (h : ∀ (i : Fin n) (r : K), body i r = ok (r + t i)) :
    forRange 0 n body r = ok (r + ∑ i, t i) := by
  unfold forRange
  exact forLoop_sum body 0 t r (by simpa using h)

theorem forEach_sum {α K : Type} [AddMonoid K] (body : α → K → Outcome K) (t : α → K) :
    ∀ (l : List α) (r : K), (∀ a ∈ l, ∀ r, body a r = ok (r + t a)) →
      forEach l body r = ok (r + (l.map t).sum)
  | [], r, _ => by simp [forEach]
  | a :: l, r, h => by
    simp only [forEach, h a (by simp) r, ok_bind]
    rw [forEach_sum body t l _ (fun b hb => h b (by simp [hb]))]
    simp [add_assoc]

/-- The sum over a list of distinct positions, as a sum over all positions. -/
theorem sum_flips {K : Type} [AddCommMonoid K] {n : Nat} (t : Fin n → K) (flips : List Nat)
    (hnd : flips.Nodup) (hr : ∀ i ∈ flips, i < n) (u : Nat → K) (hu : ∀ i : Fin n, u i = t i) :
    (flips.map u).sum = ∑ i : Fin n, if (i : Nat) ∈ flips then t i else 0 := by
  rw [← List.sum_toFinset u hnd, ← Finset.sum_filter]
  symm
  apply Finset.sum_bij (fun (i : Fin n) _ => (i : Nat))
  · intro i hi
    simpa using hi
  · intro i _ j _ h
    exact Fin.ext h
  · intro j hj
    have hj' : j ∈ flips := by simpa using hj
    exact ⟨⟨j, hr j hj'⟩, by simpa using hj', rfl⟩
  · intro i _
    exact (hu i).symm

/-- The flipped vector, as a family. -/
theorem flipped_ofFn {n : Nat} (x : Fin n → Bool) (y : BV) (flips : List Nat) (hy : y.length = n)
    (h : ∀ (i : Nat) (b : Bool), (List.ofFn x)[i]? = some b → y[i]? = some (if i ∈ flips then !b else b)) :
    y = List.ofFn (fun i : Fin n => if (i : Nat) ∈ flips then !x i else x i) := by
  apply List.ext_getElem?
  intro i
  by_cases hi : i < n
  · rw [h i (x ⟨i, hi⟩) (by simp [hi])]
    simp [hi]
  · rw [List.getElem?_eq_none (by omega), List.getElem?_eq_none (by simp; omega)]

/-- Exactness of incremental evaluation, in terms of families. -/
theorem incrementalExact_of {K : Type} (f : Fn K) (hinc : f.hasInc = true)
    (h : ∀ (x : Fin f.size → Bool) (v : K) (flips : List Nat), flips.Nodup → flips.Pairwise (· < ·) →
      (∀ i ∈ flips, i < f.size) → f.eval (List.ofFn x) = ok v →
      ∃ w, f.evalInc (List.ofFn x) v flips = ok w ∧
        f.eval (List.ofFn (fun i : Fin f.size => if (i : Nat) ∈ flips then !x i else x i)) = ok w) :
    IncrementalExact f := by
  refine ⟨hinc, ?_⟩
  intro x y v flips hx hy hs hr hf hv
  obtain ⟨x, rfl⟩ := exists_ofFn x hx
  rw [flipped_ofFn x y flips hy hf]
  exact h x v flips (hs.imp (fun h => Nat.ne_of_lt h)) hs hr hv

/-- Maxima, in terms of families. -/
theorem isMaximum_of {K : Type} [LE K] {n : Nat} (eval : BV → Outcome K) (m : K) (val : (Fin n → Bool) → K)
    (hval : ∀ x, eval (List.ofFn x) = ok (val x)) (hle : ∀ x, val x ≤ m) (hex : ∃ x, val x = m) :
    IsMaximum n eval m := by
  constructor
  · intro x hx
    obtain ⟨x, rfl⟩ := exists_ofFn x hx
    exact ⟨_, hval x, hle x⟩
  · obtain ⟨x, hx⟩ := hex
    exact ⟨List.ofFn x, by simp, by rw [hval, hx]⟩

end Hnco
