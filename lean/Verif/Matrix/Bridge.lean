import Verif.Matrix.Echelon
import Verif.Matrix.Spec

/-! # From the specification vocabulary to Mathlib matrices (helper lemmas) -/

namespace Hnco

open Outcome Matrix

variable {n m : Nat} {M : BM}

theorem hasShape_iff : F2.HasShape n m M ↔ M.Valid n m := Iff.rfl

theorem mulVec_length (M : BM) (x : BV) : (F2.mulVec M x).length = M.length := by
  simp [F2.mulVec]

theorem toVec_mulVec (hM : M.Valid n m) {x : BV} (hx : x.length = m) :
    toVec n (F2.mulVec M x) = toMat n m M *ᵥ toVec m x := by
  funext i
  have hi : i.val < M.length := by rw [hM.1]; exact i.2
  have : bit (F2.mulVec M x) i = F2.dot M[i.val] x := by
    rw [bit_lt (by rw [mulVec_length]; exact hi)]
    simp [F2.mulVec]
  unfold toVec
  rw [this, F2.dot, toF_parity, count_and_cast m _ _ (hM.row_length hi) hx]
  simp only [Matrix.mulVec, dotProduct, toMat, ent_eq_bit hi]

theorem mulVec_eq_iff (hM : M.Valid n m) {x y : BV} (hx : x.length = m) (hy : y.length = n) :
    F2.mulVec M x = y ↔ toMat n m M *ᵥ toVec m x = toVec n y := by
  rw [← toVec_mulVec hM hx]
  constructor
  · intro h; rw [h]
  · intro h; exact toVec_inj (by rw [mulVec_length, hM.1]) hy h

theorem onto_iff (hM : M.Valid n m) :
    F2.Onto n m M ↔ Function.Surjective (fun v => toMat n m M *ᵥ v) := by
  constructor
  · intro h v
    obtain ⟨y, hy, rfl⟩ := toVec_surj v
    obtain ⟨x, hx, hxy⟩ := h y hy
    exact ⟨toVec m x, (mulVec_eq_iff hM hx hy).mp hxy⟩
  · intro h y hy
    obtain ⟨v, hv⟩ := h (toVec n y)
    obtain ⟨x, hx, rfl⟩ := toVec_surj v
    exact ⟨x, hx, (mulVec_eq_iff hM hx hy).mpr hv⟩

theorem invertible_iff (hM : M.Valid n n) : F2.Invertible n M ↔ (toMat n n M).det ≠ 0 := by
  have hu : IsUnit (toMat n n M) ↔ (toMat n n M).det ≠ 0 := by
    rw [isUnit_iff_isUnit_det, isUnit_iff_ne_zero]
  rw [← hu]
  constructor
  · intro h
    have : F2.Onto n n M := fun y hy => by
      obtain ⟨x, hx, hxy, _⟩ := h y hy
      exact ⟨x, hx, hxy⟩
    exact mulVec_surjective_iff_isUnit.mp ((onto_iff hM).mp this)
  · intro h y hy
    obtain ⟨x, hx, hxy⟩ := (onto_iff hM).mpr (mulVec_surjective_iff_isUnit.mpr h) y hy
    refine ⟨x, hx, hxy, ?_⟩
    intro x' hx' hxy'
    apply toVec_inj hx' hx
    apply mulVec_injective_iff_isUnit.mpr h
    change toMat n n M *ᵥ toVec n x' = toMat n n M *ᵥ toVec n x
    rw [(mulVec_eq_iff hM hx' hy).mp hxy', (mulVec_eq_iff hM hx hy).mp hxy]

theorem isIdentity_iff : F2.IsIdentity n M ↔
    M.Valid n n ∧ ∀ a c, a < n → c < n → ent M a c = decide (a = c) := by
  constructor
  · rintro ⟨h, he⟩
    refine ⟨h, ?_⟩
    intro a c ha hc
    have := he a c ha hc
    have ha' : a < M.length := by rw [h.1]; exact ha
    rw [List.getElem?_eq_getElem ha'] at this
    simp only [Option.bind_some] at this
    rw [ent_eq_bit ha', bit, this]; rfl
  · rintro ⟨h, he⟩
    refine ⟨h, ?_⟩
    intro a c ha hc
    have ha' : a < M.length := by rw [h.1]; exact ha
    have hc' : c < (M[a]).length := by rw [BM.Valid.row_length h ha']; exact hc
    rw [List.getElem?_eq_getElem ha', Option.bind_some, List.getElem?_eq_getElem hc', ← he a c ha hc,
      ent_eq_bit ha', bit_lt hc']

theorem vec_add {x y : BV} (hx : x.length = n) (hy : y.length = n) :
    toVec n (F2.add x y) = toVec n x + toVec n y := by
  funext i
  have h1 : i.val < x.length := by omega
  have h2 : i.val < y.length := by omega
  simp only [toVec, Pi.add_apply, ← toF_xor]
  congr 1
  rw [bit_lt h1, bit_lt h2, bit_lt (by simp [F2.add]; omega)]
  simp [F2.add]

theorem bmMultiply_ok (hM : M.Valid n m) (hn : 0 < n) (hm : 0 < m) {x y : BV} (hx : x.length = m)
    (hy : y.length = n) : bmMultiply y M x = ok (F2.mulVec M x) := by
  simp only [bmMultiply, hM.isValid hn hm, hM.numColumns hn, ok_bind, assert_true, hx, hy, hM.1,
    beq_self_eq_true]
  have : F2.mulVec M x = List.ofFn (fun i : Fin n => F2.dot (M[i.val]?.getD []) x) := by
    apply List.ext_getElem
    · simp [F2.mulVec, hM.1]
    · intro i h1 h2
      have hi : i < M.length := by simpa [F2.mulVec] using h1
      simp [F2.mulVec, hi]
  rw [this]
  apply forRange_write (fun i => F2.dot (M[i]?.getD []) x) y hy
  intro i l hi hl _
  have hi' : i < M.length := by rw [hM.1]; exact hi
  rw [vget_eq hi']
  simp only [ok_bind]
  rw [bvDotProduct_ok (by rw [hM.row_length hi', hx])]
  simp only [ok_bind]
  rw [vset_eq (by omega), List.getElem?_eq_getElem hi']
  rfl

end Hnco
