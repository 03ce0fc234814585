import Verif.Matrix.Model
import Verif.BitVector.Lemmas
import Mathlib.LinearAlgebra.Matrix.Rank
import Mathlib.LinearAlgebra.Matrix.Swap
import Mathlib.LinearAlgebra.Matrix.Transvection
import Mathlib.LinearAlgebra.Matrix.Block
import Mathlib.LinearAlgebra.Matrix.NonsingularInverse
import Mathlib.LinearAlgebra.Matrix.ToLinearEquiv
import Mathlib.Algebra.Field.ZMod

/-! # Helper lemmas on bit matrices -/

namespace Hnco

open Outcome

/-- `M` has `n` rows of `m` components. -/
def BM.Valid (n m : Nat) (M : BM) : Prop := M.length = n ∧ ∀ row ∈ M, row.length = m

/-- The entry at row `i` and column `j`, false outside of the matrix. -/
def ent (M : BM) (i j : Nat) : Bool := ((M[i]?.getD [])[j]?).getD false

/-- The entry at position `i`, false outside. -/
def bit (x : BV) (i : Nat) : Bool := (x[i]?).getD false

theorem bit_lt {x : BV} {i : Nat} (h : i < x.length) : bit x i = x[i] := by simp [bit, h]

theorem ent_eq_bit {M : BM} {i : Nat} (h : i < M.length) (j : Nat) : ent M i j = bit M[i] j := by
  simp [ent, bit, h]

theorem vget_bit {x : BV} {i : Nat} (h : i < x.length) : vget x i = ok (bit x i) := by
  rw [vget_eq h, bit_lt h]

theorem bit_set {x : BV} {i k : Nat} {b : Bool} (h : i < x.length) :
    bit (x.set i b) k = if k = i then b else bit x k := by
  unfold bit
  by_cases hk : k = i
  · subst hk; simp [h]
  · rw [List.getElem?_set_ne (fun e => hk e.symm), if_neg hk]

theorem bv_ext {x y : BV} (h : x.length = y.length)
    (h2 : ∀ i, i < x.length → bit x i = bit y i) : x = y := by
  apply List.ext_getElem h
  intro i h3 h4
  have := h2 i h3
  rwa [bit_lt h3, bit_lt h4] at this

namespace BM.Valid

variable {n m : Nat} {M N : BM}

theorem row_length (h : Valid n m M) {i : Nat} (hi : i < M.length) : (M[i]).length = m :=
  h.2 _ (List.getElem_mem hi)

theorem numColumns (h : Valid n m M) (hn : 0 < n) : bmNumColumns M = ok m := by
  have h0 : 0 < M.length := by rw [h.1]; exact hn
  simp [bmNumColumns, vget_eq h0, h.row_length h0]

theorem mget (h : Valid n m M) {i j : Nat} (hi : i < n) (hj : j < m) :
    Hnco.mget M i j = ok (ent M i j) := by
  have hi' : i < M.length := by rw [h.1]; exact hi
  have hj' : j < (M[i]).length := by rw [h.row_length hi']; exact hj
  rw [ent_eq_bit hi', bit_lt hj']
  simp [Hnco.mget, vget_eq hi', vget_eq hj']

theorem setRow (h : Valid n m M) {i : Nat} {r : BV} (hr : r.length = m) :
    Valid n m (M.set i r) := by
  refine ⟨by rw [List.length_set, h.1], ?_⟩
  intro row hrow
  rcases List.mem_or_eq_of_mem_set hrow with h' | h'
  · exact h.2 _ h'
  · rw [h', hr]

theorem ent_setRow {i a : Nat} {r : BV} (hi : i < M.length) (c : Nat) :
    ent (M.set i r) a c = if a = i then bit r c else ent M a c := by
  unfold ent bit
  by_cases ha : a = i
  · subst ha; simp [hi]
  · rw [List.getElem?_set_ne (fun e => ha e.symm), if_neg ha]

theorem mset (h : Valid n m M) {i j : Nat} (hi : i < n) (hj : j < m) (b : Bool) :
    (Hnco.mset M i j b).Returns (fun M' => Valid n m M' ∧
      ∀ a c, ent M' a c = if a = i ∧ c = j then b else ent M a c) := by
  have hi' : i < M.length := by rw [h.1]; exact hi
  have hj' : j < (M[i]).length := by rw [h.row_length hi']; exact hj
  refine ⟨M.set i ((M[i]).set j b), ?_, ?_, ?_⟩
  · simp [Hnco.mset, vget_eq hi', vset_eq hj', vset_eq hi']
  · exact h.setRow (by rw [List.length_set, h.row_length hi'])
  · intro a c
    rw [ent_setRow hi', bit_set hj', ent]
    by_cases ha : a = i
    · subst ha
      by_cases hc : c = j <;> simp [hc, hi', bit]
    · simp [ha]

theorem ext (h : Valid n m M) (h' : Valid n m N)
    (he : ∀ i j, i < n → j < m → ent M i j = ent N i j) : M = N := by
  apply List.ext_getElem (by rw [h.1, h'.1])
  intro i h1 h2
  have hl1 := h.row_length h1
  have hl2 := h'.row_length h2
  apply bv_ext (by rw [hl1, hl2])
  intro j hj
  rw [← ent_eq_bit h1, ← ent_eq_bit h2]
  exact he i j (by rw [← h.1]; exact h1) (by rw [← hl1]; exact hj)

theorem isValid_iff : bmIsValid M = ok true ↔ ∃ n m, 0 < n ∧ 0 < m ∧ Valid n m M := by
  unfold bmIsValid
  cases M with
  | nil =>
    simp only [List.length_nil, if_true]
    constructor
    · intro h; cases h
    · rintro ⟨n, m, hn, hm, h1, h2⟩
      simp at h1; omega
  | cons r M =>
    simp only [List.length_cons, bmNumColumns, vget, List.getElem?_cons_zero, ok_bind, pure_eq,
      Nat.succ_ne_zero, if_false]
    by_cases h0 : r.length = 0
    · simp only [h0, if_true]
      constructor
      · intro h; cases h
      · rintro ⟨n, m, hn, hm, h1, h2⟩
        have := h2 r (by simp)
        omega
    · simp only [h0, if_false]
      by_cases hall : ((r :: M).all (fun row => row.length == r.length)) = true
      · simp only [hall, Bool.not_true, Bool.false_eq_true, if_false, true_iff]
        refine ⟨(r :: M).length, r.length, by simp, by omega, rfl, ?_⟩
        intro row hrow
        have := List.all_eq_true.mp hall row hrow
        simpa using this
      · simp only [Bool.not_eq_true] at hall
        simp only [hall, Bool.not_false, if_true]
        constructor
        · intro h; cases h
        · rintro ⟨n, m, hn, hm, h1, h2⟩
          exfalso
          have hr := h2 r (by simp)
          have : ((r :: M).all (fun row => row.length == r.length)) = true := by
            rw [List.all_eq_true]
            intro row hrow
            simp [hr, h2 row hrow]
          rw [this] at hall
          cases hall

theorem isValid (h : Valid n m M) (hn : 0 < n) (hm : 0 < m) : bmIsValid M = ok true :=
  isValid_iff.mpr ⟨n, m, hn, hm, h⟩

theorem isSquare (h : Valid n m M) (hn : 0 < n) : bmIsSquare M = ok (n == m) := by
  simp [bmIsSquare, h.numColumns hn, h.1]

theorem swapRows (h : Valid n m M) {i j : Nat} (hi : i < n) (hj : j < n) :
    (bmSwapRows M i j).Returns (fun M' => Valid n m M' ∧
      ∀ a c, a < n → c < m →
        ent M' a c = if a = i then ent M j c else if a = j then ent M i c else ent M a c) := by
  have hn : 0 < n := by omega
  have e : bmSwapRows M i j = forRange 0 m (fun k M => do
      let a ← Hnco.mget M i k
      let b ← Hnco.mget M j k
      let M ← Hnco.mset M i k b
      Hnco.mset M j k a) M := by
    simp only [bmSwapRows, h.1]
    rw [assert_pos (decide_eq_true hi), assert_pos (decide_eq_true hj), h.numColumns hn]
    rfl
  rw [e]
  refine (forRange_returns (fun k M' => Valid n m M' ∧ ∀ a c, a < n → c < m →
      ent M' a c = if c < k then
          (if a = i then ent M j c else if a = j then ent M i c else ent M a c)
        else ent M a c) (Nat.zero_le m) ⟨h, by intro a c _ _; simp⟩ ?_).mono ?_
  · rintro k N - hk ⟨hN, hent⟩
    rw [hN.mget hi hk, hN.mget hj hk]
    simp only [ok_bind]
    refine (hN.mset hi hk (ent N j k)).bind ?_
    rintro N1 ⟨hN1, h1⟩
    refine (hN1.mset hj hk (ent N i k)).mono ?_
    rintro N2 ⟨hN2, h2⟩
    refine ⟨hN2, ?_⟩
    intro a c ha hc
    rw [h2, h1, hent i k hi hk, hent j k hj hk, hent a c ha hc]
    by_cases hck : c = k
    · subst hck
      by_cases hai : a = i
      · by_cases haj : a = j
        · simp only [← hai, ← haj]; simp
        · simp [hai, show ¬ i = j by rw [← hai]; exact haj]
      · by_cases haj : a = j
        · subst haj; simp [hai]
        · simp [hai, haj]
    · have : c < k + 1 ↔ c < k := by omega
      simp [hck, this]
  · rintro N ⟨hN, hent⟩
    refine ⟨hN, ?_⟩
    intro a c ha hc
    rw [hent a c ha hc, if_pos hc]

theorem addRows (h : Valid n m M) {d s : Nat} (hd : d < n) (hs : s < n) (hds : s ≠ d) :
    (bmAddRows M d s).Returns (fun M' => Valid n m M' ∧
      ∀ a c, ent M' a c = if a = d then (ent M d c ^^ ent M s c) else ent M a c) := by
  have hd' : d < M.length := by rw [h.1]; exact hd
  have hs' : s < M.length := by rw [h.1]; exact hs
  have hl : (M[d]).length = (M[s]).length := by rw [h.row_length, h.row_length]
  refine ⟨M.set d (List.zipWith xor M[d] M[s]), ?_, ?_, ?_⟩
  · simp only [bmAddRows]
    rw [assert_pos (decide_eq_true hs'), assert_pos (decide_eq_true hd'),
      assert_pos (decide_eq_true hds), vget_eq hd', vget_eq hs']
    simp only [ok_bind]
    rw [bvAdd_ok hl]
    simp [vset_eq hd']
  · exact h.setRow (by rw [List.length_zipWith, h.row_length, h.row_length]; simp)
  · intro a c
    rw [ent_setRow hd', ent_eq_bit hd', ent_eq_bit hs']
    by_cases ha : a = d
    · simp only [ha, if_true, bit]
      rw [List.getElem?_zipWith]
      by_cases hc : c < (M[d]).length
      · simp [hc, hl ▸ hc]
      · have hc' : ¬ c < (M[s]).length := by rw [← hl]; exact hc
        simp [hc, hc']
    · simp [ha]

end BM.Valid

end Hnco
