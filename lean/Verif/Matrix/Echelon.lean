import Verif.Matrix.Elim2

/-! # Row echelon form and rank: helper lemmas -/

namespace Hnco

open Outcome Matrix

/-- Echelon shape of the columns before `j`: the first `r` rows have their leading ones in columns
`piv 0 < piv 1 < ...`, the other rows are zero (in these columns). -/
structure EchelonUpTo (n j r : Nat) (A : BM) (piv : Nat → Nat) : Prop where
  le : r ≤ n
  lt : ∀ k, k < r → piv k < j
  mono : ∀ k l, k < l → l < r → piv k < piv l
  one : ∀ k, k < r → ent A k (piv k) = true
  zero : ∀ k c, k < r → c < piv k → ent A k c = false
  below : ∀ a c, r ≤ a → a < n → c < j → ent A a c = false

variable {n m : Nat} {A0 : Matrix (Fin n) (Fin m) (ZMod 2)}

/-- The matrix results from row operations on the original matrix. -/
def RowEquiv (A0 : Matrix (Fin n) (Fin m) (ZMod 2)) (A : BM) : Prop :=
  A.Valid n m ∧ ∃ P : Matrix (Fin n) (Fin n) (ZMod 2), IsUnit P ∧ toMat n m A = P * A0

theorem RowEquiv.add {A : BM} (h : RowEquiv A0 A) {j i : Nat} (hj : j < n) (hi : i < n)
    (hij : i ≠ j) :
    (bmAddRows A j i).Returns (fun A' => RowEquiv A0 A' ∧
      ∀ a c, ent A' a c = if a = j then (ent A j c ^^ ent A i c) else ent A a c) := by
  obtain ⟨hv, P, hP, hA⟩ := h
  refine (hv.addRows hj hi hij).mono ?_
  rintro A' ⟨hv', he⟩
  refine ⟨⟨hv', _, (isUnit_transvection (i := ⟨j, hj⟩) (j := ⟨i, hi⟩) ?_).mul hP, ?_⟩, he⟩
  · intro e; exact hij (congrArg Fin.val e).symm
  · rw [toMat_addRows hj hi he, hA, Matrix.mul_assoc]

theorem RowEquiv.pivot {A : BM} (h : RowEquiv A0 A) {i p : Nat} (hi : i < n) (hp : p < n) :
    (echelonPivot A p i).Returns (fun A' => RowEquiv A0 A' ∧
      ∀ a c, a < n → c < m → ent A' a c =
        if a = i then ent A p c else if a = p then ent A i c else ent A a c) := by
  unfold echelonPivot
  by_cases hpi : p = i
  · subst hpi
    simp only [ne_eq, not_true_eq_false, if_false]
    refine ⟨A, rfl, h, ?_⟩
    intro a c _ _
    by_cases ha : a = p <;> simp [ha]
  · rw [if_pos hpi]
    obtain ⟨hv, P, hP, hA⟩ := h
    refine (hv.swapRows hp hi).mono ?_
    rintro A' ⟨hv', he⟩
    refine ⟨⟨hv', _, (isUnit_swap ⟨p, hp⟩ ⟨i, hi⟩).mul hP, ?_⟩, ?_⟩
    · rw [toMat_swapRows hp hi he, hA, Matrix.mul_assoc]
    · intro a c ha hc
      rw [he a c ha hc]
      by_cases h1 : a = p
      · have : ¬ a = i := fun e => hpi (h1.symm.trans e)
        simp [h1, hpi]
      · simp [h1]

theorem clearBelow_ok {A : BM} (h : RowEquiv A0 A) {r j : Nat} (hr : r < n) (hj : j < m)
    (hone : ent A r j = true) :
    (clearBelow A n r j).Returns (fun A' => RowEquiv A0 A' ∧
      (∀ a c, a ≤ r → ent A' a c = ent A a c) ∧
      (∀ a, r < a → a < n → ent A' a j = false) ∧
      (∀ a c, r < a → a < n → ent A a c = false → ent A r c = false → ent A' a c = false)) := by
  unfold clearBelow
  refine (forRange_returns (fun i A' => RowEquiv A0 A' ∧
      (∀ a c, a ≤ r → ent A' a c = ent A a c) ∧
      (∀ a c, i ≤ a → ent A' a c = ent A a c) ∧
      (∀ a, r < a → a < i → ent A' a j = false) ∧
      (∀ a c, r < a → a < n → ent A a c = false → ent A r c = false → ent A' a c = false))
      (by omega)
      ⟨h, fun _ _ _ => rfl, fun _ _ _ => rfl, by intro a h1 h2; omega, fun _ _ _ _ h _ => h⟩ ?_).mono ?_
  · rintro i B h1 h2 ⟨hB, hb1, hb2, hb3, hb4⟩
    rw [hB.1.mget h2 hj]
    simp only [ok_bind]
    cases hb : ent B i j with
    | false =>
      refine ⟨B, rfl, hB, hb1, fun a c h => hb2 a c (by omega), ?_, hb4⟩
      intro a h3 h4
      rcases Nat.eq_or_lt_of_le (Nat.le_of_lt_succ h4) with e | e
      · rw [e]; exact hb
      · exact hb3 a h3 e
    | true =>
      refine (hB.add h2 hr (by omega)).mono ?_
      rintro B' ⟨hB', he⟩
      refine ⟨hB', ?_, ?_, ?_, ?_⟩
      · intro a c h3
        rw [he, if_neg (by omega)]; exact hb1 a c h3
      · intro a c h3
        rw [he, if_neg (by omega)]; exact hb2 a c (by omega)
      · intro a h3 h4
        rw [he]
        split
        · rw [hb, hb1 r j (Nat.le_refl _), hone]; rfl
        · exact hb3 a h3 (by omega)
      · intro a c h3 h4 h5 h6
        rw [he]
        split
        · next e => rw [← e, hb4 a c h3 h4 h5 h6, hb1 r c (Nat.le_refl _), h6]; rfl
        · exact hb4 a c h3 h4 h5 h6
  · rintro B ⟨hB, hb1, -, hb3, hb4⟩
    exact ⟨hB, hb1, hb3, hb4⟩

theorem echelonLoop_ok : ∀ (k j : Nat) (A : BM) (r : Nat) (piv : Nat → Nat), j + k = m → r < n →
    RowEquiv A0 A → EchelonUpTo n j r A piv →
    (echelonLoop n k j A r).Returns (fun A' => RowEquiv A0 A' ∧
      ∃ r' piv', EchelonUpTo n m r' A' piv') := by
  intro k
  induction k with
  | zero =>
    intro j A r piv hj hr hA hE
    have : j = m := by omega
    subst this
    exact ⟨A, rfl, hA, r, piv, hE⟩
  | succ k ih =>
    intro j A r piv hj hr hA hE
    have hjm : j < m := by omega
    unfold echelonLoop
    refine (findPivot_ok hA.1 hjm (n - r) r (by omega)).bind ?_
    intro o ho
    cases o with
    | none =>
      apply ih (j + 1) A r piv (by omega) hr hA
      refine ⟨hE.le, fun k hk => by have := hE.lt k hk; omega, hE.mono, hE.one, hE.zero, ?_⟩
      intro a c h1 h2 h3
      rcases Nat.eq_or_lt_of_le (Nat.le_of_lt_succ h3) with e | e
      · rw [e]; exact ho a h1 h2
      · exact hE.below a c h1 h2 e
    | some p =>
      obtain ⟨h1, h2, h3, -⟩ := ho
      simp only
      refine (hA.pivot hr h2).bind ?_
      rintro B ⟨hB, heB⟩
      have hB1 : ent B r j = true := by rw [heB r j hr hjm, if_pos rfl]; exact h3
      have hBtop : ∀ a c, a < r → c < m → ent B a c = ent A a c := by
        intro a c ha hc
        rw [heB a c (by omega) hc, if_neg (by omega), if_neg (by omega)]
      have hBbelow : ∀ a c, r ≤ a → a < n → c < j → ent B a c = false := by
        intro a c ha han hc
        rw [heB a c han (by omega)]
        split
        · exact hE.below p c h1 h2 hc
        · split
          · exact hE.below r c (Nat.le_refl _) hr hc
          · exact hE.below a c ha han hc
      refine (clearBelow_ok hB hr hjm hB1).bind ?_
      rintro C ⟨hC, hc1, hc2, hc3⟩
      have hEC : EchelonUpTo n (j + 1) (r + 1) C (fun k => if k = r then j else piv k) := by
        refine ⟨by omega, ?_, ?_, ?_, ?_, ?_⟩
        · intro k hk
          by_cases e : k = r
          · simp [e]
          · simp only [e, if_false]
            have := hE.lt k (by omega)
            omega
        · intro k l hkl hl
          have hk : k ≠ r := by omega
          simp only [hk, if_false]
          by_cases e : l = r
          · simp only [e, if_true]
            exact hE.lt k (by omega)
          · simp only [e, if_false]
            exact hE.mono k l hkl (by omega)
        · intro k hk
          rw [hc1 k _ (by omega)]
          by_cases e : k = r
          · simp only [e, if_true]; exact hB1
          · simp only [e, if_false]
            have hlt := hE.lt k (by omega)
            rw [hBtop k _ (by omega) (by omega)]
            exact hE.one k (by omega)
        · intro k c hk hc
          rw [hc1 k _ (by omega)]
          by_cases e : k = r
          · simp only [e, if_true] at hc ⊢
            exact hBbelow r c (Nat.le_refl _) hr hc
          · simp only [e, if_false] at hc
            have hlt := hE.lt k (by omega)
            rw [hBtop k _ (by omega) (by omega)]
            exact hE.zero k c (by omega) hc
        · intro a c h4 h5 h6
          rcases Nat.eq_or_lt_of_le (Nat.le_of_lt_succ h6) with e | e
          · rw [e]; exact hc2 a (by omega) h5
          · exact hc3 a c (by omega) h5 (hBbelow a c (by omega) h5 e)
              (hBbelow r c (Nat.le_refl _) hr e)
      by_cases hrn : r + 1 = n
      · rw [if_pos hrn]
        refine ⟨C, rfl, hC, r + 1, fun k => if k = r then j else piv k, ?_⟩
        exact ⟨hEC.le, fun k hk => by have := hEC.lt k hk; omega, hEC.mono, hEC.one, hEC.zero,
          by intro a c h4 h5 h6; omega⟩
      · rw [if_neg hrn]
        exact ih (j + 1) C (r + 1) _ (by omega) (by omega) hC hEC

theorem bmRowEchelonForm_ok (hn : 0 < n) {A : BM} (hA : A.Valid n m) :
    (bmRowEchelonForm A).Returns (fun A' => RowEquiv (toMat n m A) A' ∧
      ∃ r piv, EchelonUpTo n m r A' piv) := by
  simp only [bmRowEchelonForm, hA.numColumns hn, ok_bind, hA.1]
  refine echelonLoop_ok m 0 A 0 id (by omega) hn ⟨hA, 1, isUnit_one, by simp⟩ ?_
  exact ⟨by omega, by intro k h; omega, by intro k l h1 h2; omega, by intro k h; omega,
    by intro k c h; omega, by intro a c h1 h2 h3; omega⟩

theorem echelon_rank_le {A : BM} {r : Nat} {piv : Nat → Nat}
    (hE : EchelonUpTo n m r A piv) : (toMat n m A).rank = r := by
  apply Nat.le_antisymm
  · have := rank_le_card_of_support_subset (toMat n m A)
      (Finset.univ.filter (fun a : Fin n => a.val < r)) ?_
    · refine this.trans ?_
      have hinj : (Finset.univ.filter (fun a : Fin n => a.val < r)).card
          ≤ (Finset.range r).card := by
        apply Finset.card_le_card_of_injOn (fun a => a.val)
        · intro a ha
          simpa using ha
        · intro a _ b _ h
          exact Fin.ext h
      simpa using hinj
    · rw [Function.support_subset_iff']
      intro a ha
      replace ha : r ≤ a.val := by simpa using ha
      funext c
      simp [Matrix.row, toMat, hE.below a c ha a.2 c.2]
  · let f : Fin r → Fin n := fun k => ⟨k, Nat.lt_of_lt_of_le k.2 hE.le⟩
    let g : Fin r → Fin m := fun k => ⟨piv k, hE.lt k k.2⟩
    have hdet : ((toMat n m A).submatrix f g).det = 1 := by
      rw [det_of_isUpperTriangular]
      · apply Finset.prod_eq_one
        intro k _
        simp [submatrix_apply, toMat, f, g, hE.one k k.2]
      · intro a c hlt
        have hlt' : c.val < a.val := hlt
        simp [submatrix_apply, toMat, f, g, hE.zero a (piv c) a.2 (hE.mono c a hlt' a.2)]
    have hrank : ((toMat n m A).submatrix f g).rank = r := by
      rw [rank_of_isUnit]
      · simp
      · rw [isUnit_iff_isUnit_det, hdet]; exact isUnit_one
    rw [← hrank]
    exact rank_submatrix_le _ _ _

theorem bvIsZero_false {x : BV} {c : Nat} (h : bit x c = true) : bvIsZero x = false := by
  unfold bvIsZero
  rw [Bool.eq_false_iff]
  intro hall
  rw [List.all_eq_true] at hall
  unfold bit at h
  cases hx : x[c]? with
  | none => rw [hx] at h; simp at h
  | some b =>
    rw [hx] at h
    have := hall b (List.mem_of_getElem? hx)
    simp at h this
    rw [h] at this
    cases this

theorem bvIsZero_true {x : BV} (h : ∀ c, c < x.length → bit x c = false) : bvIsZero x = true := by
  unfold bvIsZero
  rw [List.all_eq_true]
  intro b hb
  obtain ⟨i, hi, rfl⟩ := List.getElem_of_mem hb
  have := h i hi
  rw [bit_lt hi] at this
  simp [this]

theorem rankLoop_ok {A : BM} {r : Nat} {piv : Nat → Nat} (hA : A.Valid n m)
    (hE : EchelonUpTo n m r A piv) : ∀ (k i : Nat), i + k = n → i ≤ r →
    rankLoop A k i i = ok r := by
  intro k
  induction k with
  | zero =>
    intro i hi hir
    have := hE.le
    simp only [rankLoop, pure_eq]
    congr 1
    omega
  | succ k ih =>
    intro i hi hir
    have hi' : i < A.length := by rw [hA.1]; omega
    unfold rankLoop
    rw [vget_eq hi']
    simp only [ok_bind]
    by_cases e : i = r
    · rw [bvIsZero_true, if_pos rfl, e]; rfl
      intro c hc
      rw [← ent_eq_bit hi']
      rw [hA.row_length hi'] at hc
      exact hE.below i c (by omega) (by omega) hc
    · rw [bvIsZero_false (c := piv i)]
      · simp only [Bool.false_eq_true, if_false]
        exact ih (i + 1) (by omega) (by omega)
      · rw [← ent_eq_bit hi']
        exact hE.one i (by omega)

theorem bmRank_ok (hn : 0 < n) {A : BM} {r : Nat} {piv : Nat → Nat} (hA : A.Valid n m)
    (hE : EchelonUpTo n m r A piv) : bmRank A = ok r := by
  have hr : r ≤ m := by
    rw [← echelon_rank_le hE]
    simpa using rank_le_width (toMat n m A)
  simp only [bmRank, hA.1]
  rw [rankLoop_ok hA hE n 0 (by omega) (by omega)]
  simp only [ok_bind]
  rw [assert_pos (decide_eq_true hE.le), hA.numColumns hn]
  simp only [ok_bind]
  rw [assert_pos (decide_eq_true hr)]
  rfl

end Hnco
