import Verif.Map.Model
import Verif.Matrix.Bridge

/-! # Helper lemmas about transvections and maps -/

namespace Hnco

open Outcome Matrix

/-! ## The action of a transvection on bits -/

/-- Add bit `col` to bit `row`. -/
def tvAct (t : Transvection) (x : BV) : BV := x.set t.row (bit x t.row ^^ bit x t.col)

/-- Apply the transvections of a sequence one after the other. -/
def tsAct (ts : List Transvection) (x : BV) : BV := ts.foldl (fun y t => tvAct t y) x

@[simp] theorem tvAct_length (t : Transvection) (x : BV) : (tvAct t x).length = x.length := by
  simp [tvAct]

@[simp] theorem tsAct_nil (x : BV) : tsAct [] x = x := rfl
@[simp] theorem tsAct_cons (t : Transvection) (ts : List Transvection) (x : BV) :
    tsAct (t :: ts) x = tsAct ts (tvAct t x) := rfl

theorem tsAct_append (ts us : List Transvection) (x : BV) :
    tsAct (ts ++ us) x = tsAct us (tsAct ts x) := by simp [tsAct]

@[simp] theorem tsAct_length (ts : List Transvection) (x : BV) : (tsAct ts x).length = x.length := by
  induction ts generalizing x with
  | nil => rfl
  | cons t ts ih => simp [ih]

theorem bit_set' {x : BV} {i k : Nat} {b : Bool} :
    bit (x.set i b) k = if k = i ∧ i < x.length then b else bit x k := by
  by_cases h : i < x.length
  · rw [bit_set h]; simp [h]
  · rw [List.set_eq_of_length_le (by omega)]; simp [h]

theorem bit_tvAct (t : Transvection) (x : BV) (k : Nat) :
    bit (tvAct t x) k =
      if k = t.row ∧ t.row < x.length then (bit x t.row ^^ bit x t.col) else bit x k := bit_set'

theorem bit_add {x y : BV} (h : x.length = y.length) (k : Nat) :
    bit (F2.add x y) k = (bit x k ^^ bit y k) := by
  unfold bit F2.add
  by_cases hk : k < x.length
  · have hk' : k < y.length := by omega
    simp [hk, hk']
  · have hk' : ¬ k < y.length := by omega
    simp [hk, hk']

theorem add_length {x y : BV} (h : x.length = y.length) : (F2.add x y).length = x.length := by
  simp [F2.add, h]

theorem bit_ge {x : BV} {k : Nat} (h : x.length ≤ k) : bit x k = false := by simp [bit, h]

theorem tvIsValidN_iff {t : Transvection} {n : Nat} :
    tvIsValidN t n = true ↔ t.row < n ∧ t.col < n ∧ t.row ≠ t.col := by
  unfold tvIsValidN tvIsValid
  by_cases h : t.row = t.col
  · simp [h]
  · by_cases h1 : t.row < n <;> by_cases h2 : t.col < n <;> simp [h, h1, h2]

theorem tvIsValid_of_validN {t : Transvection} {n : Nat} (h : tvIsValidN t n = true) :
    tvIsValid t = true := by
  have := (tvIsValidN_iff.mp h).2.2
  simp [tvIsValid, this]

theorem tvMultiply_ok {t : Transvection} {x : BV} (h : tvIsValidN t x.length = true) :
    tvMultiply t x = ok (tvAct t x) := by
  obtain ⟨h1, h2, h3⟩ := tvIsValidN_iff.mp h
  simp only [tvMultiply, tvIsValid_of_validN h, h, assert_true, ok_bind, vget_bit h2]
  cases hb : bit x t.col with
  | false =>
    simp only [Bool.false_eq_true, if_false, pure_eq, tvAct, hb, Bool.xor_false]
    congr 1
    apply bv_ext (by simp)
    intro k _
    rw [bit_set h1]
    split <;> simp_all
  | true =>
    simp only [if_true, bvFlip_ok h1, tvAct, hb, Bool.xor_true, bit_lt h1]

theorem tsIsValid_of_validN {ts : List Transvection} {n : Nat} (h : tsIsValidN ts n = true) :
    tsIsValid ts = true := by
  simp only [tsIsValidN, tsIsValid, List.all_eq_true] at *
  exact fun t ht => tvIsValid_of_validN (h t ht)

theorem tsMultiplyLoop_ok : ∀ {ts : List Transvection} {x : BV}, tsIsValidN ts x.length = true →
    tsMultiplyLoop ts x = ok (tsAct ts x)
  | [], x, _ => rfl
  | t :: ts, x, h => by
    simp only [tsIsValidN, List.all_cons, Bool.and_eq_true] at h
    simp only [tsMultiplyLoop, tvMultiply_ok h.1, ok_bind, tsAct_cons]
    exact tsMultiplyLoop_ok (by simpa [tsIsValidN] using h.2)

theorem tsMultiply_ok {ts : List Transvection} {x : BV} (h : tsIsValidN ts x.length = true) :
    tsMultiply x ts = ok (tsAct ts x) := by
  simp only [tsMultiply, tsIsValid_of_validN h, h, assert_true, ok_bind, tsMultiplyLoop_ok h]

theorem tsIsValidN_reverse {ts : List Transvection} {n : Nat} :
    tsIsValidN ts.reverse n = tsIsValidN ts n := by simp [tsIsValidN]

theorem tvAct_add (t : Transvection) {x y : BV} (h : x.length = y.length) :
    tvAct t (F2.add x y) = F2.add (tvAct t x) (tvAct t y) := by
  apply bv_ext (by rw [add_length (by simp [h])]; simp [add_length h])
  intro k _
  have h' : (tvAct t x).length = (tvAct t y).length := by simp [h]
  simp only [bit_tvAct, bit_add h', bit_add h, add_length h, ← h]
  split
  · cases bit x t.row <;> cases bit x t.col <;> cases bit y t.row <;> cases bit y t.col <;> rfl
  · rfl

theorem tsAct_add (ts : List Transvection) : ∀ {x y : BV}, x.length = y.length →
    tsAct ts (F2.add x y) = F2.add (tsAct ts x) (tsAct ts y) := by
  induction ts with
  | nil => intros; rfl
  | cons t ts ih =>
    intro x y h
    rw [tsAct_cons, tvAct_add t h, ih (by simp [h])]; rfl

theorem tvAct_tvAct {t : Transvection} (h : t.row ≠ t.col) (x : BV) : tvAct t (tvAct t x) = x := by
  apply bv_ext (by simp)
  intro k _
  have hc : bit (tvAct t x) t.col = bit x t.col := by
    rw [bit_tvAct, if_neg]; exact fun e => h e.1.symm
  rw [bit_tvAct, tvAct_length, hc, bit_tvAct]
  split
  · rename_i hk
    rw [if_pos ⟨rfl, hk.2⟩, hk.1]
    cases bit x t.row <;> cases bit x t.col <;> rfl
  · rename_i hk
    rw [bit_tvAct, if_neg hk]

theorem tsAct_reverse {ts : List Transvection} (h : tsIsValid ts = true) (x : BV) :
    tsAct ts.reverse (tsAct ts x) = x := by
  induction ts generalizing x with
  | nil => rfl
  | cons t ts ih =>
    simp only [tsIsValid, List.all_cons, Bool.and_eq_true] at h
    rw [List.reverse_cons, tsAct_append, tsAct_cons (ts := ts), ih (by simpa [tsIsValid] using h.2)]
    exact tvAct_tvAct (by simpa [tvIsValid] using h.1) x

theorem tsAct_reverse' {ts : List Transvection} (h : tsIsValid ts = true) (x : BV) :
    tsAct ts (tsAct ts.reverse x) = x := by
  have := tsAct_reverse (ts := ts.reverse) (by simpa [tsIsValid] using h) x
  rwa [List.reverse_reverse] at this

theorem tvAct_comm {a b : Transvection} (h1 : a.row ≠ b.col) (h2 : b.row ≠ a.col) (x : BV) :
    tvAct a (tvAct b x) = tvAct b (tvAct a x) := by
  apply bv_ext (by simp)
  intro k _
  have e1 : bit (tvAct b x) a.col = bit x a.col := by
    rw [bit_tvAct, if_neg]; exact fun e => h2 e.1.symm
  have e2 : bit (tvAct a x) b.col = bit x b.col := by
    rw [bit_tvAct, if_neg]; exact fun e => h1 e.1.symm
  rw [bit_tvAct a (tvAct b x), bit_tvAct b (tvAct a x), e1, e2, tvAct_length, tvAct_length]
  simp only [bit_tvAct]
  by_cases hr : a.row = b.row
  · by_cases hk : k = b.row ∧ b.row < x.length
    · simp [hr, hk]
      cases bit x b.row <;> cases bit x b.col <;> cases bit x a.col <;> rfl
    · simp [hr, hk]
  · by_cases hk : k = a.row
    · subst hk; simp [hr]
    · by_cases hk' : k = b.row
      · subst hk'; simp [Ne.symm hr]
      · simp [hk, hk']

theorem tvCommute_iff {a b : Transvection} : tvCommute a b = true ↔ a.row ≠ b.col ∧ b.row ≠ a.col := by
  unfold tvCommute
  by_cases h1 : a.row = b.col <;> by_cases h2 : b.row = a.col <;> simp [h1, h2]

theorem tvDisjoint_iff {a b : Transvection} : tvDisjoint a b = true ↔
    a.row ≠ b.row ∧ a.row ≠ b.col ∧ a.col ≠ b.row ∧ a.col ≠ b.col := by
  unfold tvDisjoint
  by_cases h1 : a.row = b.row <;> by_cases h2 : a.row = b.col <;> by_cases h3 : a.col = b.row <;>
    by_cases h4 : a.col = b.col <;> simp [*]

theorem tvAct_not_comm {a b : Transvection} {n : Nat} (ha : tvIsValidN a n = true)
    (hb : tvIsValidN b n = true) (h : a.row = b.col) :
    ∃ x : BV, x.length = n ∧ tvAct b (tvAct a x) ≠ tvAct a (tvAct b x) := by
  obtain ⟨ha1, ha2, ha3⟩ := tvIsValidN_iff.mp ha
  obtain ⟨hb1, hb2, hb3⟩ := tvIsValidN_iff.mp hb
  refine ⟨(List.replicate n false).set a.col true, by simp, ?_⟩
  intro he
  generalize hx : (List.replicate n false).set a.col true = x at he
  have hl : x.length = n := by rw [← hx]; simp
  have hbit : ∀ k, bit x k = decide (k = a.col) := by
    intro k
    rw [← hx, bit_set (by simpa using ha2)]
    by_cases hk : k = a.col
    · simp [hk]
    · simp [hk, bit, List.getElem?_replicate]; split <;> rfl
  have := congrArg (fun y => bit y b.row) he
  simp only [bit_tvAct, tvAct_length, hl, hbit] at this
  have hba : ¬ b.row = a.row := by rw [h]; exact hb3
  simp [hb1, h.symm, ha1, ha3, hba] at this

theorem tsAct_perm {ts us : List Transvection} (hp : ts.Perm us)
    (h : ∀ a ∈ ts, ∀ b ∈ ts, a.row ≠ b.col) (x : BV) : tsAct ts x = tsAct us x := by
  apply List.Perm.foldl_eq' hp
  intro a ha b hb z
  exact tvAct_comm (h b hb a ha) (h a ha b hb) z

/-! ## Transvections and matrices -/

theorem toVec_tvAct {t : Transvection} {n : Nat} (h1 : t.row < n) (h2 : t.col < n) {x : BV}
    (hx : x.length = n) :
    toVec n (tvAct t x) = transvection ⟨t.row, h1⟩ ⟨t.col, h2⟩ (1 : ZMod 2) *ᵥ toVec n x := by
  funext k
  rw [transvection, Matrix.add_mulVec, Matrix.one_mulVec]
  have hs : (Matrix.single (⟨t.row, h1⟩ : Fin n) (⟨t.col, h2⟩ : Fin n) (1 : ZMod 2) *ᵥ toVec n x) k
      = if k = ⟨t.row, h1⟩ then toVec n x ⟨t.col, h2⟩ else 0 := by
    rw [Matrix.single_mulVec]
    by_cases hk : k = ⟨t.row, h1⟩
    · subst hk; simp
    · simp [hk]
  rw [Pi.add_apply, hs]
  simp only [toVec, bit_tvAct, hx, h1, and_true]
  by_cases hk : k = ⟨t.row, h1⟩
  · subst hk; simp [toF_xor]
  · have : ¬ k.val = t.row := fun e => hk (Fin.ext e)
    simp [hk, this]

theorem tvMultiplyMatrix_ok {t : Transvection} {n m : Nat} {M : BM} (hM : M.Valid n m)
    (h : tvIsValidN t n = true) :
    (tvMultiplyMatrix t M).Returns (fun M' => BM.Valid n m M' ∧
      ∀ x : BV, x.length = m → F2.mulVec M' x = tvAct t (F2.mulVec M x)) := by
  obtain ⟨h1, h2, h3⟩ := tvIsValidN_iff.mp h
  simp only [tvMultiplyMatrix, hM.1, h, tvIsValid_of_validN h, assert_true, ok_bind]
  obtain ⟨M', e, hM', hent⟩ := hM.addRows h1 h2 (Ne.symm h3)
  refine ⟨M', e, hM', ?_⟩
  intro x hx
  have hl : (F2.mulVec M x).length = n := by rw [mulVec_length, hM.1]
  rw [mulVec_eq_iff hM' hx (by rw [tvAct_length, hl]), toMat_addRows h1 h2 hent,
    toVec_tvAct h1 h2 hl, toVec_mulVec hM hx, Matrix.mulVec_mulVec]

theorem tsMultiplyMatrixLoop_ok {n m : Nat} : ∀ {ts : List Transvection} {M : BM}, M.Valid n m →
    tsIsValidN ts n = true →
    (tsMultiplyMatrixLoop ts M).Returns (fun M' => BM.Valid n m M' ∧
      ∀ x : BV, x.length = m → F2.mulVec M' x = tsAct ts (F2.mulVec M x))
  | [], M, hM, _ => ⟨M, rfl, hM, fun _ _ => rfl⟩
  | t :: ts, M, hM, h => by
    simp only [tsIsValidN, List.all_cons, Bool.and_eq_true] at h
    refine (tvMultiplyMatrix_ok hM h.1).bind ?_
    intro M' ⟨hM', he⟩
    refine (tsMultiplyMatrixLoop_ok hM' (by simpa [tsIsValidN] using h.2)).mono ?_
    intro M'' ⟨hM'', he'⟩
    refine ⟨hM'', fun x hx => ?_⟩
    rw [he' x hx, he x hx]; rfl

/-! ## Permutations -/

theorem permIsValidLoop_ok {n : Nat} : ∀ (ps : List Int) (checked : List Bool), checked.length = n →
    permIsValidLoop n ps checked = ok (decide
      ((∀ p ∈ ps, 0 ≤ p ∧ p < (n : Int) ∧ checked[p.toNat]? = some false) ∧ ps.Nodup))
  | [], checked, _ => by simp [permIsValidLoop]
  | p :: ps, checked, hc => by
    unfold permIsValidLoop
    by_cases h0 : p < 0
    · rw [if_pos h0]
      simp only [pure_eq, Outcome.ok.injEq]
      symm; rw [decide_eq_false_iff_not]
      rintro ⟨h, _⟩
      have := (h p (by simp)).1; omega
    · rw [if_neg h0]
      by_cases h1 : p ≥ (n : Int)
      · rw [if_pos h1]
        simp only [pure_eq, Outcome.ok.injEq]
        symm; rw [decide_eq_false_iff_not]
        rintro ⟨h, _⟩
        have := (h p (by simp)).2.1; omega
      · rw [if_neg h1]
        have hlt : p.toNat < checked.length := by omega
        rw [vget_eq hlt, ok_bind]
        cases hb : checked[p.toNat] with
        | true =>
          simp only [if_true, pure_eq, Outcome.ok.injEq]
          symm; rw [decide_eq_false_iff_not]
          rintro ⟨h, _⟩
          have := (h p (by simp)).2.2
          rw [List.getElem?_eq_getElem hlt, hb] at this
          cases this
        | false =>
          simp only [Bool.false_eq_true, if_false, vset_eq hlt, ok_bind]
          rw [permIsValidLoop_ok ps _ (by simpa using hc)]
          congr 1
          rw [decide_eq_decide]
          constructor
          · rintro ⟨h, hn⟩
            refine ⟨?_, List.nodup_cons.mpr ⟨?_, hn⟩⟩
            · intro q hq
              rcases List.mem_cons.mp hq with rfl | hq
              · exact ⟨by omega, by omega, by rw [List.getElem?_eq_getElem hlt, hb]⟩
              · obtain ⟨a1, a2, a3⟩ := h q hq
                refine ⟨a1, a2, ?_⟩
                rw [List.getElem?_set] at a3
                split at a3
                · cases a3
                · exact a3
            · intro hp
              have := (h p hp).2.2
              rw [List.getElem?_set_self hlt] at this
              cases this
          · rintro ⟨h, hn⟩
            obtain ⟨hp, hn⟩ := List.nodup_cons.mp hn
            refine ⟨?_, hn⟩
            intro q hq
            obtain ⟨a1, a2, a3⟩ := h q (by simp [hq])
            refine ⟨a1, a2, ?_⟩
            rw [List.getElem?_set_ne, a3]
            intro e
            have : p = q := by omega
            exact hp (this ▸ hq)

theorem permIsValid_ok (p : List Int) : permIsValid p = ok (decide
    ((∀ a ∈ p, 0 ≤ a ∧ a < (p.length : Int)) ∧ p.Nodup)) := by
  unfold permIsValid
  rw [permIsValidLoop_ok p _ (by simp)]
  congr 1
  rw [decide_eq_decide]
  constructor
  · rintro ⟨h, hn⟩; exact ⟨fun a ha => ⟨(h a ha).1, (h a ha).2.1⟩, hn⟩
  · rintro ⟨h, hn⟩
    refine ⟨fun a ha => ⟨(h a ha).1, (h a ha).2, ?_⟩, hn⟩
    have := h a ha
    rw [List.getElem?_replicate, if_pos (by omega)]

end Hnco
