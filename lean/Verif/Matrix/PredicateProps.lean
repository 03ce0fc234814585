import Verif.Matrix.Props

/-!
# What the predicates on bit matrices say
-/

namespace Hnco

open Outcome

variable {n m : Nat} {M : BM}

theorem zeroPrefix_eq (hM : M.Valid n m) {i : Nat} (hi : i < n) : ∀ (k j : Nat), j + k ≤ m →
    ∃ b, zeroPrefix M i k j = ok b ∧ (b = true ↔ ∀ c, j ≤ c → c < j + k → ent M i c = false) := by
  intro k
  induction k with
  | zero => exact fun j _ => ⟨true, rfl, by simp; intros; omega⟩
  | succ k ih =>
    intro j hj
    unfold zeroPrefix
    rw [hM.mget hi (by omega), ok_bind]
    cases hb : ent M i j with
    | true =>
      refine ⟨false, rfl, ?_⟩
      simp only [Bool.false_eq_true, false_iff]
      intro h
      rw [h j (Nat.le_refl _) (by omega)] at hb
      cases hb
    | false =>
      obtain ⟨b, h1, h2⟩ := ih (j + 1) (by omega)
      refine ⟨b, h1, h2.trans ⟨fun h c h3 h4 => ?_, fun h c h3 h4 => h c (by omega) (by omega)⟩⟩
      rcases Nat.eq_or_lt_of_le h3 with rfl | h5
      · exact hb
      · exact h c h5 (by omega)

theorem upperRows_eq (hM : M.Valid n m) : ∀ (k i : Nat), i + k = n →
    ∃ b, upperRows M m k i = ok b ∧ (b = true ↔ ∀ a c, i ≤ a → a < n → c < a → c < m → ent M a c = false) := by
  intro k
  induction k with
  | zero => exact fun i _ => ⟨true, rfl, by simp; intros; omega⟩
  | succ k ih =>
    intro i hi
    unfold upperRows
    obtain ⟨b, h1, h2⟩ := zeroPrefix_eq hM (i := i) (by omega) (min i m) 0 (by omega)
    rw [h1, ok_bind]
    cases b with
    | false =>
      refine ⟨false, rfl, ?_⟩
      simp only [Bool.false_eq_true, false_iff] at h2 ⊢
      exact fun h => h2 (fun c _ hc => h i c (Nat.le_refl _) (by omega) (by omega) (by omega))
    | true =>
      obtain ⟨b, h3, h4⟩ := ih (i + 1) (by omega)
      refine ⟨b, h3, h4.trans ⟨fun h a c h5 h6 h7 h8 => ?_, fun h a c h5 h6 h7 h8 => h a c (by omega) h6 h7 h8⟩⟩
      rcases Nat.eq_or_lt_of_le h5 with rfl | h9
      · exact h2.mp rfl c (Nat.zero_le _) (by omega)
      · exact h a c h9 h6 h7 h8

/-- C14: the triangularity test returns true exactly if the elements below the diagonal are zero, for matrices of any shape. -/
theorem bmIsUpperTriangular_spec (hn : 0 < n) (hM : F2.HasShape n m M) :
    ∃ b, bmIsUpperTriangular M = ok b ∧
      (b = true ↔ ∀ i j, i < n → j < m → j < i → (M[i]?.bind (fun row => row[j]?)) = some false) := by
  have hV : M.Valid n m := hM
  unfold bmIsUpperTriangular
  rw [hV.numColumns hn, ok_bind, hV.1]
  obtain ⟨b, h1, h2⟩ := upperRows_eq hV n 0 (by omega)
  refine ⟨b, h1, h2.trans ?_⟩
  have key : ∀ i j, i < n → j < m → ((M[i]?.bind (fun row => row[j]?)) = some false ↔ ent M i j = false) := by
    intro i j hi hj
    have hi' : i < M.length := by rw [hM.1]; exact hi
    have hj' : j < M[i].length := by rw [hM.2 _ (List.getElem_mem hi')]; exact hj
    unfold ent
    rw [List.getElem?_eq_getElem hi']
    simp [List.getElem?_eq_getElem hj']
  exact ⟨fun h i j hi hj hlt => (key i j hi hj).mpr (h i j (Nat.zero_le _) hi hlt hj),
    fun h a c _ ha hlt hc => (key a c ha hc).mp (h a c ha hc hlt)⟩

/-- A matrix with three rows and two columns. -/
example : bmIsUpperTriangular [[true, true], [false, true], [false, false]] = ok true ∧
    bmIsUpperTriangular [[true, true], [false, true], [false, true]] = ok false := by decide

/-- C14: the validity test always returns, true exactly for matrices with at least one row and one column, and rows of the same
size. -/
theorem bmIsValid_spec (M : BM) :
    ∃ b, bmIsValid M = ok b ∧ (b = true ↔ ∃ n m, 0 < n ∧ 0 < m ∧ F2.HasShape n m M) := by
  have h : ∃ b, bmIsValid M = ok b := by
    unfold bmIsValid
    cases M with
    | nil => exact ⟨false, rfl⟩
    | cons row rows =>
      rw [if_neg (by simp)]
      change ∃ b, (if row.length = 0 then ok false
        else if (!(row :: rows).all fun r => r.length == row.length) = true then ok false else ok true) = ok b
      split
      · exact ⟨_, rfl⟩
      · split
        · exact ⟨_, rfl⟩
        · exact ⟨_, rfl⟩
  obtain ⟨b, hb⟩ := h
  refine ⟨b, hb, ?_⟩
  have e := BM.Valid.isValid_iff (M := M)
  rw [hb] at e
  constructor
  · rintro rfl
    exact e.mp rfl
  · intro h
    have := e.mpr h
    cases this
    rfl

example : bmIsValid [[true, false], [true]] = ok false ∧ bmIsValid [[], []] = ok false ∧ bmIsValid [[true, false, true]] = ok true := by
  decide

/-- C14: the squareness test compares the numbers of rows and of columns. -/
theorem bmIsSquare_spec (hn : 0 < n) (hM : F2.HasShape n m M) : bmIsSquare M = ok (decide (n = m)) := by
  have hV : M.Valid n m := hM
  rw [hV.isSquare hn]
  by_cases h : n = m <;> simp [h]

example : bmIsSquare [[true, false], [true, true]] = ok true ∧ bmIsSquare [[true, false]] = ok false := by decide

end Hnco
