import Verif.Iterator.Model
import Verif.BitVector.Props

/-!
# Helper lemmas about iterators
-/

namespace Hnco

open Outcome

namespace HypercubeIterator

theorem length_increment (x : BV) : (increment x).length = x.length := by
  induction x with
  | nil => rfl
  | cons b t ih => cases b <;> simp [increment, ih]

theorem bitsToNat_increment (x : BV) (h : x.any (fun b => b == false) = true) :
    bitsToNat (increment x) = bitsToNat x + 1 := by
  induction x with
  | nil => simp at h
  | cons b t ih =>
    cases b
    · simp [increment, bitsToNat]; omega
    · have := ih (by simpa using h)
      simp [increment, bitsToNat, this]; omega

theorem bitsToNat_max (x : BV) (h : x.any (fun b => b == false) = false) :
    bitsToNat x + 1 = 2 ^ x.length := by
  induction x with
  | nil => rfl
  | cons b t ih =>
    cases b
    · simp at h
    · have := ih (by simpa using h)
      simp [bitsToNat, Nat.pow_succ]; omega

theorem bitsToNat_not_max (x : BV) (h : x.any (fun b => b == false) = true) :
    bitsToNat x + 1 < 2 ^ x.length := by
  have := bitsToNat_increment x h
  have h2 := bitsToNat_lt (increment x)
  rw [length_increment] at h2
  omega

theorem bitsToNat_replicate (n : Nat) : bitsToNat (List.replicate n false) = 0 := by
  induction n with
  | zero => rfl
  | succ n ih => simp [List.replicate_succ, bitsToNat, ih]

theorem bitsToNat_inj {x y : BV} (hl : x.length = y.length) (h : bitsToNat x = bitsToNat y) :
    x = y := by
  induction x generalizing y with
  | nil => cases y <;> simp_all
  | cons a t ih =>
    cases y with
    | nil => simp at hl
    | cons b u =>
      simp only [bitsToNat] at h
      have : a = b := by cases a <;> cases b <;> simp at h ⊢ <;> omega
      subst this
      rw [ih (by simpa using hl) (by omega)]

/-- Enumeration from a non initial state. -/
theorem enumerates_from : ∀ (m : Nat) (x : BV), bitsToNat x + 1 + m = 2 ^ x.length →
    ∃ l : List BV,
      Enumerates hasNext next { current := x, initialState := false } l ∧
      Enumerates extHasNext extNext { current := x, initialState := false } l ∧
      (∀ y ∈ l, y.length = x.length) ∧ l.map bitsToNat = List.range' (bitsToNat x + 1) m := by
  intro m
  induction m with
  | zero =>
    intro x hx
    have : x.any (fun b => b == false) = false := by
      by_cases h : x.any (fun b => b == false) = true
      · have := bitsToNat_not_max x h; omega
      · simpa using h
    exact ⟨[], .done (congrArg ok this), .done (congrArg ok this), by simp, by simp⟩
  | succ m ih =>
    intro x hx
    have h : x.any (fun b => b == false) = true := by
      by_cases h : x.any (fun b => b == false) = false
      · have := bitsToNat_max x h; omega
      · simpa using h
    have hi := bitsToNat_increment x h
    obtain ⟨l, h1, h2, h3, h4⟩ := ih (increment x) (by rw [length_increment, hi]; omega)
    have e1 : hasNext { current := x, initialState := false } = ok true := congrArg ok h
    have e2 : extHasNext { current := x, initialState := false } = ok true := congrArg ok h
    refine ⟨increment x :: l, .step e1 (by simp [next, e1]) h1,
      .step e2 (by simp [extNext, e2]) h2, ?_, ?_⟩
    · intro y hy
      rcases List.mem_cons.mp hy with rfl | hy
      · exact length_increment x
      · rw [h3 y hy, length_increment]
    · simp [h4, hi, List.range'_succ]

end HypercubeIterator

end Hnco
