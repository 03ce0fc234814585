import Verif.Map.Lemmas
import Verif.Map.Spec
import Verif.Matrix.Props

/-! # Properties of transvections and maps (C11, C15, C16, C18, C19, C20) -/

namespace Hnco

open Outcome

/-! ## C15: transvections are invertible linear maps -/

/-- C15: multiplying by a valid transvection adds the bit at the column index to the bit at the row
index and changes nothing else. -/
theorem tvMultiply_spec (t : Transvection) (x : BV) (hr : t.row < x.length) (hc : t.col < x.length)
    (hne : t.row ≠ t.col) :
    ∃ y, tvMultiply t x = ok y ∧ y.length = x.length ∧
      y[t.row]? = some (x[t.row] ^^ x[t.col]) ∧
      ∀ (k : Nat), k ≠ t.row → y[k]? = x[k]? := by
  refine ⟨tvAct t x, tvMultiply_ok (tvIsValidN_iff.mpr ⟨hr, hc, hne⟩), by simp, ?_, ?_⟩
  · simp [tvAct, hr, hc, bit_lt]
  · intro k hk
    simp [tvAct, List.getElem?_set_ne (Ne.symm hk)]

example : tvMultiply ⟨0, 2⟩ [false, true, true] = ok [true, true, true] := by decide

/-- C15: an invalid transvection is a violated precondition. -/
theorem tvMultiply_invalid (t : Transvection) (x : BV)
    (h : t.row = t.col ∨ x.length ≤ t.row ∨ x.length ≤ t.col) : tvMultiply t x = ub := by
  have hN : tvIsValidN t x.length = false := by
    rw [Bool.eq_false_iff]
    intro h'
    obtain ⟨h1, h2, h3⟩ := tvIsValidN_iff.mp h'
    omega
  unfold tvMultiply
  cases hv : tvIsValid t <;> simp [hN]

example : tvMultiply ⟨1, 1⟩ [false, true] = ub := tvMultiply_invalid _ _ (Or.inl rfl)

/-- C15: multiplication by a transvection sequence is linear. -/
theorem tsMultiply_linear (ts : List Transvection) (n : Nat) (hts : tsIsValidN ts n = true)
    (x y : BV) (hx : x.length = n) (hy : y.length = n) :
    ∃ u v, tsMultiply x ts = ok u ∧ tsMultiply y ts = ok v ∧ u.length = n ∧ v.length = n ∧
      tsMultiply (F2.add x y) ts = ok (F2.add u v) := by
  refine ⟨tsAct ts x, tsAct ts y, tsMultiply_ok (by rw [hx]; exact hts),
    tsMultiply_ok (by rw [hy]; exact hts), by simp [hx], by simp [hy], ?_⟩
  rw [tsMultiply_ok (by rw [add_length (by omega), hx]; exact hts), tsAct_add ts (by omega)]

example : tsIsValidN [⟨0, 1⟩, ⟨2, 0⟩] 3 = true := by decide

/-- C15: multiplication by a valid transvection is linear. -/
theorem tvMultiply_linear (t : Transvection) (n : Nat) (ht : tvIsValidN t n = true)
    (x y : BV) (hx : x.length = n) (hy : y.length = n) :
    ∃ u v, tvMultiply t x = ok u ∧ tvMultiply t y = ok v ∧ u.length = n ∧ v.length = n ∧
      tvMultiply t (F2.add x y) = ok (F2.add u v) := by
  refine ⟨tvAct t x, tvAct t y, tvMultiply_ok (by rw [hx]; exact ht),
    tvMultiply_ok (by rw [hy]; exact ht), by simp [hx], by simp [hy], ?_⟩
  rw [tvMultiply_ok (by rw [add_length (by omega), hx]; exact ht), tvAct_add t (by omega)]

example : tvIsValidN ⟨2, 0⟩ 3 = true := by decide

/-- C15: multiplication by a valid transvection is an involution. -/
theorem tvMultiply_involution (t : Transvection) (x : BV) (ht : tvIsValidN t x.length = true) :
    (do let y ← tvMultiply t x
        tvMultiply t y) = ok x := by
  rw [tvMultiply_ok ht, ok_bind, tvMultiply_ok (by simpa using ht),
    tvAct_tvAct (tvIsValidN_iff.mp ht).2.2]

example : tvIsValidN ⟨0, 2⟩ ([false, true, true] : BV).length = true := by decide

/-- C15: multiplying by a sequence and then by the inverted sequence gives back the vector, and so
does the other order. -/
theorem tsInvert_correct (ts : List Transvection) (x : BV) (hts : tsIsValidN ts x.length = true) :
    ∃ us, tsInvert ts = ok us ∧
      (do let y ← tsMultiply x ts
          tsMultiply y us) = ok x ∧
      (do let y ← tsMultiply x us
          tsMultiply y ts) = ok x := by
  have hv := tsIsValid_of_validN hts
  refine ⟨ts.reverse, by simp [tsInvert, hv], ?_, ?_⟩
  · rw [tsMultiply_ok hts, ok_bind, tsMultiply_ok (by rw [tsIsValidN_reverse]; simpa using hts),
      tsAct_reverse hv]
  · rw [tsMultiply_ok (by rw [tsIsValidN_reverse]; exact hts), ok_bind,
      tsMultiply_ok (by simpa using hts), tsAct_reverse' hv]

example : tsIsValidN [⟨0, 1⟩, ⟨1, 2⟩, ⟨2, 0⟩] ([true, false, true] : BV).length = true := by decide
/-- The order matters: applying the sequence itself a second time is not the identity. -/
example : (do let y ← tsMultiply [true, false, true] [⟨0, 1⟩, ⟨1, 2⟩, ⟨2, 0⟩]
              tsMultiply y [⟨0, 1⟩, ⟨1, 2⟩, ⟨2, 0⟩]) ≠ ok [true, false, true] := by decide

/-- C15: multiplying a matrix by a sequence and then applying it to `x` is applying the matrix to `x`
and multiplying the result by the sequence. -/
theorem tsMultiplyMatrix_spec (ts : List Transvection) (n m : Nat) (M : BM)
    (hM : F2.HasShape n m M) (hts : tsIsValidN ts n = true) :
    ∃ M', tsMultiplyMatrix M ts = ok M' ∧ F2.HasShape n m M' ∧
      ∀ x : BV, x.length = m → tsMultiply (F2.mulVec M x) ts = ok (F2.mulVec M' x) := by
  have hM' : M.Valid n m := hM
  simp only [tsMultiplyMatrix, tsIsValid_of_validN hts, hM'.1, hts, assert_true, ok_bind]
  obtain ⟨M', e, h1, h2⟩ := tsMultiplyMatrixLoop_ok hM' hts
  refine ⟨M', e, h1, fun x hx => ?_⟩
  rw [tsMultiply_ok (by rw [mulVec_length, hM'.1]; exact hts), h2 x hx]

example : tsMultiplyMatrix [[true, false], [false, true]] [⟨0, 1⟩, ⟨1, 0⟩]
    = ok [[true, true], [true, false]] := by decide

/-! ## C16: the commutation test -/

/-- C16: the commutation test answers true exactly when the two orders give the same result on every
vector. -/
theorem tvCommute_correct (n : Nat) (a b : Transvection) (ha : tvIsValidN a n = true)
    (hb : tvIsValidN b n = true) :
    tvCommute a b = true ↔ ∀ x : BV, x.length = n →
      (do let y ← tvMultiply a x
          tvMultiply b y) = (do let y ← tvMultiply b x
                                tvMultiply a y) := by
  have key : ∀ x : BV, x.length = n →
      ((do let y ← tvMultiply a x
           tvMultiply b y) = ok (tvAct b (tvAct a x))) ∧
      ((do let y ← tvMultiply b x
           tvMultiply a y) = ok (tvAct a (tvAct b x))) := by
    intro x hx
    subst hx
    rw [tvMultiply_ok ha, tvMultiply_ok hb, ok_bind, ok_bind, tvMultiply_ok (by simpa using hb),
      tvMultiply_ok (by simpa using ha)]
    exact ⟨rfl, rfl⟩
  rw [tvCommute_iff]
  constructor
  · rintro ⟨h1, h2⟩ x hx
    rw [(key x hx).1, (key x hx).2, tvAct_comm h1 h2]
  · intro h
    constructor
    · intro e
      obtain ⟨x, hx, hne⟩ := tvAct_not_comm ha hb e
      have := h x hx
      rw [(key x hx).1, (key x hx).2] at this
      exact hne (by simpa using this)
    · intro e
      obtain ⟨x, hx, hne⟩ := tvAct_not_comm hb ha e
      have := h x hx
      rw [(key x hx).1, (key x hx).2] at this
      exact hne (by simpa using this.symm)

example : tvCommute ⟨0, 1⟩ ⟨0, 2⟩ = true ∧ tvCommute ⟨0, 1⟩ ⟨2, 0⟩ = false := by decide

/-- C16: the disjointness test answers true exactly when no index is used by both transvections. -/
theorem tvDisjoint_correct (a b : Transvection) : tvDisjoint a b = true ↔
    ∀ i ∈ [a.row, a.col], i ∉ [b.row, b.col] := by
  rw [tvDisjoint_iff]
  simp
  tauto

/-- C16: disjoint transvections commute. -/
theorem tvDisjoint_commute (a b : Transvection) (h : tvDisjoint a b = true) :
    tvCommute a b = true := by
  obtain ⟨_, h2, h3, _⟩ := tvDisjoint_iff.mp h
  exact tvCommute_iff.mpr ⟨h2, Ne.symm h3⟩

example : tvDisjoint ⟨0, 3⟩ ⟨2, 1⟩ = true := by decide

theorem pairwise_all {ts : List Transvection} (hv : tsIsValid ts = true)
    (hc : ts.Pairwise (fun a b => tvCommute a b = true)) :
    ∀ a ∈ ts, ∀ b ∈ ts, a.row ≠ b.col := by
  have hv' : ∀ t ∈ ts, t.row ≠ t.col := by
    intro t ht
    have := List.all_eq_true.mp hv t ht
    simpa [tvIsValid] using this
  induction hc with
  | nil => intro a ha; cases ha
  | cons h1 _ ih =>
    rename_i t ts _
    have ih := ih (by simp only [tsIsValid, List.all_cons, Bool.and_eq_true] at hv; exact hv.2)
      (fun u hu => hv' u (by simp [hu]))
    intro a ha b hb
    rcases List.mem_cons.mp ha with ha1 | ha1 <;> rcases List.mem_cons.mp hb with hb1 | hb1
    · rw [ha1, hb1]; exact hv' _ (by simp)
    · rw [ha1]; exact (tvCommute_iff.mp (h1 b hb1)).1
    · rw [hb1]; exact (tvCommute_iff.mp (h1 a ha1)).2
    · exact ih a ha1 b hb1

/-- C16: a sequence of pairwise commuting transvections can be applied in any order. -/
theorem tsMultiply_reorder (ts us : List Transvection) (x : BV) (hp : us.Perm ts)
    (hts : tsIsValidN ts x.length = true) (hc : ts.Pairwise (fun a b => tvCommute a b = true)) :
    tsMultiply x us = tsMultiply x ts := by
  have hus : tsIsValidN us x.length = true := by
    unfold tsIsValidN at *
    rw [List.all_eq_true] at *
    exact fun t ht => hts t (hp.mem_iff.mp ht)
  rw [tsMultiply_ok hus, tsMultiply_ok hts,
    tsAct_perm hp.symm (pairwise_all (tsIsValid_of_validN hts) hc)]

example : ([⟨0, 1⟩, ⟨2, 1⟩, ⟨0, 3⟩] : List Transvection).Pairwise (fun a b => tvCommute a b = true) := by
  decide

/-- C16: a sequence of pairwise commuting transvections is an involution. -/
theorem tsMultiply_involution (ts : List Transvection) (x : BV)
    (hts : tsIsValidN ts x.length = true) (hc : ts.Pairwise (fun a b => tvCommute a b = true)) :
    (do let y ← tsMultiply x ts
        tsMultiply y ts) = ok x := by
  have hv := tsIsValid_of_validN hts
  rw [tsMultiply_ok hts, ok_bind, tsMultiply_ok (by simpa using hts),
    tsAct_perm (List.reverse_perm ts).symm (pairwise_all hv hc), tsAct_reverse hv]

/-! ## C11: surjectivity tests of linear and affine maps -/

/-- C11: a linear map computes the product by its matrix. -/
theorem linearMap_spec (n m : Nat) (hn : 0 < n) (hm : 0 < m) (M : BM) (hM : F2.HasShape n m M) :
    MapSpec.Computes (linearMap M) m n (F2.mulVec M) := by
  intro x y hx hy
  have hM' : M.Valid n m := hM
  refine ⟨?_, by rw [mulVec_length, hM'.1]⟩
  simp only [linearMap, hy, hM'.1, beq_self_eq_true, assert_true, ok_bind]
  exact bmMultiply_ok hM' hn hm hx hy

/-- C11: an affine map computes the product by its matrix, plus its vector. -/
theorem affineMap_spec (n m : Nat) (hn : 0 < n) (hm : 0 < m) (M : BM) (hM : F2.HasShape n m M)
    (b : BV) (hb : b.length = n) :
    MapSpec.Computes (affineMap M b) m n (fun x => F2.add (F2.mulVec M x) b) := by
  intro x y hx hy
  have hM' : M.Valid n m := hM
  have hl : (F2.mulVec M x).length = n := by rw [mulVec_length, hM'.1]
  refine ⟨?_, by rw [add_length (by omega), hl]⟩
  simp only [affineMap, hy, hM'.1, beq_self_eq_true, assert_true, ok_bind,
    bmMultiply_ok hM' hn hm hx hy]
  rw [bvAdd_ok (by omega)]; rfl

theorem linearIsSurjective_ok (n m : Nat) (hn : 0 < n) (M : BM) (hM : F2.HasShape n m M) :
    ∃ b, linearIsSurjective M = ok b ∧ (b = true ↔ F2.Onto n m M) := by
  have h1 := bmRank_echelon n m hn M hM
  have h2 := bmRank_eq_rows_iff n m hn M hM
  unfold linearIsSurjective
  cases hE : bmRowEchelonForm M with
  | ok E =>
    rw [hE, ok_bind] at h1 h2
    rw [ok_bind]
    rw [h1] at h2 ⊢
    simp only [ok_bind, pure_eq]
    refine ⟨_, rfl, ?_⟩
    rw [← h2, hM.1]
    simp
  | throw e => rw [hE] at h1; simp at h1
  | ub => rw [hE] at h1; simp at h1

/-- C11: the surjectivity test of a linear map never fails, and answers true exactly when every output
vector is the result of the map for some input vector. -/
theorem linearIsSurjective_correct (n m : Nat) (hn : 0 < n) (hm : 0 < m) (M : BM)
    (hM : F2.HasShape n m M) :
    ∃ b, linearIsSurjective M = ok b ∧
      (b = true ↔ ∀ y : BV, y.length = n → ∃ x : BV, x.length = m ∧
        ∀ o : BV, o.length = n → linearMap M x o = ok y) := by
  obtain ⟨b, e, h⟩ := linearIsSurjective_ok n m hn M hM
  refine ⟨b, e, h.trans ?_⟩
  constructor
  · intro ho y hy
    obtain ⟨x, hx, rfl⟩ := ho y hy
    exact ⟨x, hx, fun o ho => (linearMap_spec n m hn hm M hM x o hx ho).1⟩
  · intro ho y hy
    obtain ⟨x, hx, h⟩ := ho y hy
    refine ⟨x, hx, ?_⟩
    have := h y hy
    rw [(linearMap_spec n m hn hm M hM x y hx hy).1] at this
    simpa using this

example : linearIsSurjective [[true, false, true], [false, true, true]] = ok true ∧
    linearIsSurjective [[true, false, true], [true, false, true]] = ok false := by decide

/-- C11: the surjectivity test of an affine map never fails, and answers true exactly when every
output vector is the result of the map for some input vector. -/
theorem affineIsSurjective_correct (n m : Nat) (hn : 0 < n) (hm : 0 < m) (M : BM)
    (hM : F2.HasShape n m M) (v : BV) (hv : v.length = n) :
    ∃ b, linearIsSurjective M = ok b ∧
      (b = true ↔ ∀ y : BV, y.length = n → ∃ x : BV, x.length = m ∧
        ∀ o : BV, o.length = n → affineMap M v x o = ok y) := by
  obtain ⟨b, e, h⟩ := linearIsSurjective_ok n m hn M hM
  have hadd : ∀ {a c : BV}, a.length = n → c.length = n → F2.add (F2.add a c) c = a := by
    intro a c ha hc
    apply bv_ext (by rw [add_length (by rw [add_length] <;> omega), add_length (by omega)])
    intro k _
    rw [bit_add (by rw [add_length] <;> omega), bit_add (by omega)]
    cases bit a k <;> cases bit c k <;> rfl
  have hM' : M.Valid n m := hM
  refine ⟨b, e, h.trans ?_⟩
  constructor
  · intro ho y hy
    obtain ⟨x, hx, hxy⟩ := ho (F2.add y v) (by rw [add_length (by omega), hy])
    refine ⟨x, hx, fun o ho => ?_⟩
    rw [(affineMap_spec n m hn hm M hM v hv x o hx ho).1]
    simp only [hxy, hadd hy hv]
  · intro ho y hy
    obtain ⟨x, hx, h⟩ := ho (F2.add y v) (by rw [add_length (by omega), hy])
    refine ⟨x, hx, ?_⟩
    have := h y hy
    rw [(affineMap_spec n m hn hm M hM v hv x y hx hy).1] at this
    have h2 := congrArg (fun u => F2.add u v) (Outcome.ok.inj this)
    simp only at h2
    rwa [hadd (by rw [mulVec_length, hM'.1]) hv, hadd hy hv] at h2

theorem bmRandom_post (rows cols : Nat) (hr : 0 < rows) (hc : 0 < cols) :
    Sim.Post (bmRandom rows cols) (F2.HasShape rows cols) := by
  refine (Sim.Post.assert (decide_eq_true hr)).bind fun _ _ =>
    (Sim.Post.assert (decide_eq_true hc)).bind fun _ _ => ?_
  refine (Sim.Post.forRange (fun i (M : List (List Bool)) => M.length = i ∧ ∀ row ∈ M, row.length = cols)
    (Nat.zero_le _) (by simp) ?_).mono (fun _ h => h)
  intro i M _ _ hM
  refine (Sim.Post.forRange (fun j (r : List Bool) => r.length = j) (Nat.zero_le _) rfl ?_).bind ?_
  · intro j r _ _ hj
    exact Sim.Post.bernoulli.bind fun b _ => Sim.Post.pure (by simp [hj])
  · intro r hrl
    refine Sim.Post.pure ⟨by simp [hM.1], ?_⟩
    intro row hrow
    rcases List.mem_append.mp hrow with h | h
    · exact hM.2 row h
    · rw [List.mem_singleton.mp h]; exact hrl

/-- C11: whatever the random draws, sampling a surjective linear map with at most as many rows as
columns gives a matrix of the requested shape for which every output vector has a preimage. -/
theorem linearRandom_surjective (rows cols : Nat) (hr : 0 < rows) (hc : 0 < cols)
    (hle : rows ≤ cols) :
    Sim.Post (linearRandom rows cols true)
      (fun M => F2.HasShape rows cols M ∧ F2.Onto rows cols M) := by
  refine (Sim.Post.assert (decide_eq_true hr)).bind fun _ _ =>
    (Sim.Post.assert (decide_eq_true hc)).bind fun _ _ => ?_
  rw [if_pos rfl, if_neg (by omega)]
  refine (Sim.Post.repeatUntil (P := fun r : BM × Bool =>
    F2.HasShape rows cols r.1 ∧ (r.2 = true ↔ F2.Onto rows cols r.1)) ?_).bind ?_
  · refine (bmRandom_post rows cols hr hc).bind fun M hM => ?_
    obtain ⟨b, e, h⟩ := linearIsSurjective_ok rows cols hr M hM
    exact (Sim.Post.lift ⟨b, e, h⟩).bind fun s hs => Sim.Post.pure ⟨hM, hs⟩
  · intro r ⟨⟨h1, h2⟩, h3⟩
    exact Sim.Post.pure ⟨h1, h2.mp h3⟩

example : ∃ M rest, linearRandom 1 2 true [0, 0, 1, 0, 7] = .ok M rest := ⟨[[true, false]], [7], by decide⟩

/-- C11: a surjective linear map with more rows than columns is refused. -/
theorem linearRandom_refused (rows cols : Nat) (hc : 0 < cols) (hlt : cols < rows) (ds : List Nat) :
    linearRandom rows cols true ds = .throw .runtimeError := by
  have hr : 0 < rows := by omega
  unfold linearRandom
  rw [assert_pos (decide_eq_true hr), assert_pos (decide_eq_true hc), if_pos rfl, if_pos hlt]
  rfl

/-- C11: the unconstrained sampler gives a matrix of the requested shape. -/
theorem linearRandom_shape (rows cols : Nat) (hr : 0 < rows) (hc : 0 < cols) :
    Sim.Post (linearRandom rows cols false) (F2.HasShape rows cols) := by
  refine (Sim.Post.assert (decide_eq_true hr)).bind fun _ _ =>
    (Sim.Post.assert (decide_eq_true hc)).bind fun _ _ => ?_
  rw [if_neg (by decide)]
  exact bmRandom_post rows cols hr hc

/-! ## C18: affine maps given by transvections -/

theorem add_cancel {a c : BV} (h : a.length = c.length) : F2.add (F2.add a c) c = a := by
  apply bv_ext (by rw [add_length (by rw [add_length] <;> omega), add_length (by omega)])
  intro k _
  rw [bit_add (by rw [add_length] <;> omega), bit_add (by omega)]
  cases bit a k <;> cases bit c k <;> rfl

theorem tsAffineMap_computes (f : TsAffine) (n : Nat) (hn : f.bv.length = n)
    (hts : tsIsValidN f.ts n = true) :
    MapSpec.Computes (tsAffineMap f) n n (fun x => F2.add (tsAct f.ts x) f.bv) := by
  intro x y hx hy
  have hl : (tsAct f.ts x).length = f.bv.length := by simp; omega
  refine ⟨?_, by rw [add_length hl]; omega⟩
  simp only [tsAffineMap, hx, hy, hn, beq_self_eq_true, assert_true, ok_bind,
    tsMultiply_ok (show tsIsValidN f.ts x.length = true by rw [hx]; exact hts)]
  rw [bvAdd_ok hl]; rfl

theorem tsAffineInvert_ok (f : TsAffine) (n : Nat) (hn : f.bv.length = n)
    (hts : tsIsValidN f.ts n = true) :
    tsAffineInvert f = ok ⟨f.ts.reverse, tsAct f.ts.reverse f.bv⟩ := by
  simp only [tsAffineInvert]
  rw [tsMultiply_ok (by rw [tsIsValidN_reverse, hn]; exact hts)]
  rfl

/-- C18: the map of a valid transvection sequence and a translation vector, and the map obtained by
inverting it, are total and undo each other, so that both are bijections. -/
theorem tsAffineInvert_correct (f : TsAffine) (n : Nat) (hn : f.bv.length = n)
    (hts : tsIsValidN f.ts n = true) :
    ∃ g u v, tsAffineInvert f = ok g ∧ g.bv.length = n ∧ tsIsValidN g.ts n = true ∧
      MapSpec.Computes (tsAffineMap f) n n u ∧ MapSpec.Computes (tsAffineMap g) n n v ∧
      MapSpec.Undoes n v u ∧ MapSpec.Undoes n u v ∧
      MapSpec.Injective n u ∧ MapSpec.Surjective n n u := by
  have hv := tsIsValid_of_validN hts
  have hg : (⟨f.ts.reverse, tsAct f.ts.reverse f.bv⟩ : TsAffine).bv.length = n := by simp [hn]
  have hgt : tsIsValidN f.ts.reverse n = true := by rw [tsIsValidN_reverse]; exact hts
  have c1 := tsAffineMap_computes f n hn hts
  have c2 := tsAffineMap_computes ⟨f.ts.reverse, tsAct f.ts.reverse f.bv⟩ n hg hgt
  have u1 : MapSpec.Undoes n (fun x => F2.add (tsAct f.ts.reverse x) (tsAct f.ts.reverse f.bv))
      (fun x => F2.add (tsAct f.ts x) f.bv) := by
    intro x hx
    simp only
    rw [tsAct_add _ (by simp; omega), tsAct_reverse hv, add_cancel (by simp; omega)]
  have u2 : MapSpec.Undoes n (fun x => F2.add (tsAct f.ts x) f.bv)
      (fun x => F2.add (tsAct f.ts.reverse x) (tsAct f.ts.reverse f.bv)) := by
    intro x hx
    simp only
    rw [tsAct_add _ (by simp; omega), tsAct_reverse' hv, tsAct_reverse' hv, add_cancel (by omega)]
  refine ⟨_, _, _, tsAffineInvert_ok f n hn hts, hg, hgt, c1, c2, u1, u2, ?_, ?_⟩
  · intro x x' hx hx' e
    rw [← u1 x hx, ← u1 x' hx', e]
  · intro y hy
    exact ⟨_, (c2 y y hy hy).2, u2 y hy⟩

example : tsAffineInvert ⟨[⟨0, 1⟩, ⟨1, 2⟩], [true, true, false]⟩
    = ok ⟨[⟨1, 2⟩, ⟨0, 1⟩], [false, true, false]⟩ := by decide

/-- C18: inverting twice gives back the same map. -/
theorem tsAffineInvert_twice (f : TsAffine) (n : Nat) (hn : f.bv.length = n)
    (hts : tsIsValidN f.ts n = true) :
    (do let g ← tsAffineInvert f
        tsAffineInvert g) = ok f := by
  rw [tsAffineInvert_ok f n hn hts, ok_bind, tsAffineInvert_ok _ n (by simp [hn])
    (by rw [tsIsValidN_reverse]; exact hts)]
  simp [tsAct_reverse' (tsIsValid_of_validN hts)]

/-! ## C19: permutations -/

theorem perm_range_iff (p : List Int) :
    p.Perm ((List.range p.length).map Int.ofNat) ↔
      (∀ a ∈ p, 0 ≤ a ∧ a < (p.length : Int)) ∧ p.Nodup := by
  have hnd : ((List.range p.length).map Int.ofNat).Nodup :=
    List.Nodup.map (fun a b h => Int.ofNat.inj h) List.nodup_range
  constructor
  · intro h
    refine ⟨?_, h.nodup_iff.mpr hnd⟩
    intro a ha
    obtain ⟨i, hi, rfl⟩ := List.mem_map.mp (h.mem_iff.mp ha)
    have := List.mem_range.mp hi
    simp; omega
  · rintro ⟨h, hn⟩
    have hsub : p ⊆ (List.range p.length).map Int.ofNat := by
      intro a ha
      obtain ⟨h1, h2⟩ := h a ha
      exact List.mem_map.mpr ⟨a.toNat, List.mem_range.mpr (by omega), by simp [h1]⟩
    exact (List.subperm_of_subset hn hsub).perm_of_length_le (by simp)

/-- C19: the validity check never reads out of range, and accepts a vector of integers exactly when it
is a rearrangement of `0, ..., n - 1`. -/
theorem permIsValid_correct (p : List Int) :
    ∃ b, permIsValid p = ok b ∧ (b = true ↔ p.Perm ((List.range p.length).map Int.ofNat)) := by
  refine ⟨_, permIsValid_ok p, ?_⟩
  rw [perm_range_iff, decide_eq_true_iff]

example : permIsValid [2, 0, 1] = ok true ∧ permIsValid [2, 0, 2] = ok false ∧
    permIsValid [0, -1] = ok false ∧ permIsValid [0, 2] = ok false := by decide

/-- The vector of the bits of `x` at the positions `p`. -/
def pick (p : List Int) (x : BV) : BV := p.map (fun i => bit x i.toNat)

theorem permutationMap_computes (p : List Int)
    (hp : p.Perm ((List.range p.length).map Int.ofNat)) :
    MapSpec.Computes (permutationMap p) p.length p.length (pick p) := by
  intro x y hx hy
  refine ⟨?_, by simp [pick]⟩
  have hv : permIsValid p = ok true := by
    rw [permIsValid_ok, Outcome.ok.injEq, decide_eq_true_iff]; exact (perm_range_iff p).mp hp
  simp only [permutationMap, hx, hy, beq_self_eq_true, assert_true, ok_bind, hv]
  have : pick p x = List.ofFn (fun i : Fin p.length => bit x (p[i.val]?.getD 0).toNat) := by
    apply List.ext_getElem
    · simp [pick]
    · intro i h1 h2
      have hi : i < p.length := by simpa [pick] using h1
      simp [pick]
  rw [this]
  apply forRange_write (fun i => bit x (p[i]?.getD 0).toNat) y hy
  intro i l hi hl _
  have h := ((perm_range_iff p).mp hp).1 p[i] (List.getElem_mem hi)
  rw [vget_eq hi]
  simp only [ok_bind, List.getElem?_eq_getElem hi, Option.getD_some]
  rw [assert_pos (decide_eq_true h.1), ok_bind, vget_bit (by omega), ok_bind, vset_eq (by omega)]

theorem map_bit_range (x : BV) : (List.range x.length).map (fun i => bit x i) = x := by
  apply List.ext_getElem (by simp)
  intro i h1 h2
  simp [bit_lt h2]

theorem pick_perm {p : List Int} (hp : p.Perm ((List.range p.length).map Int.ofNat)) {x : BV}
    (hx : x.length = p.length) : (pick p x).Perm x := by
  have h := hp.map (fun i : Int => bit x i.toNat)
  rw [List.map_map] at h
  have e : List.map ((fun i : Int => bit x i.toNat) ∘ Int.ofNat) (List.range p.length) = x := by
    have := map_bit_range x
    rw [hx] at this
    exact this
  rw [e] at h
  exact h

/-- C19: the map of a valid permutation takes bit `p i` of the input as bit `i` of the output; it is a
bijection and preserves the number of ones. -/
theorem permutationMap_correct (p : List Int) (n : Nat) (hn : p.length = n)
    (hp : permIsValid p = ok true) :
    ∃ f, MapSpec.Computes (permutationMap p) n n f ∧
      (∀ (x : BV) (i : Nat) (j : Nat), x.length = n → p[i]? = some (j : Int) → (f x)[i]? = x[j]?) ∧
      MapSpec.Injective n f ∧ MapSpec.Surjective n n f ∧
      ∀ x : BV, x.length = n → (f x).count true = x.count true := by
  subst hn
  have hp : p.Perm ((List.range p.length).map Int.ofNat) := by
    obtain ⟨b, e, h⟩ := permIsValid_correct p
    rw [hp] at e
    exact h.mp (by simpa using e.symm)
  have hin := (perm_range_iff p).mp hp
  have hget : ∀ (x : BV) (i : Nat) (j : Nat), x.length = p.length → p[i]? = some (j : Int) →
      (pick p x)[i]? = x[j]? := by
    intro x i j hx hij
    have hm := hin.1 _ (List.mem_of_getElem? hij)
    have hj : j < x.length := by omega
    simp [pick, hij, bit_lt hj, hj]
  refine ⟨pick p, permutationMap_computes p hp, hget, ?_, ?_, ?_⟩
  · intro x x' hx hx' e
    apply List.ext_getElem?
    intro j
    by_cases hj : j < p.length
    · have hmem : (j : Int) ∈ p := hp.mem_iff.mpr (List.mem_map.mpr ⟨j, List.mem_range.mpr hj, rfl⟩)
      obtain ⟨i, hi⟩ := List.getElem?_of_mem hmem
      rw [← hget x i j hx hi, ← hget x' i j hx' hi, e]
    · rw [List.getElem?_eq_none (by omega), List.getElem?_eq_none (by omega)]
  · intro y hy
    refine ⟨(List.range p.length).map (fun j : Nat => bit y (p.idxOf (j : Int))), by simp, ?_⟩
    apply bv_ext (by simp [pick, hy])
    intro i hi
    have hi' : i < p.length := by simpa [pick] using hi
    have hm := hin.1 p[i] (List.getElem_mem hi')
    have hlt : p[i].toNat < p.length := by omega
    rw [bit_lt hi]
    simp only [pick, List.getElem_map]
    rw [bit_lt (by simpa using hlt)]
    simp only [List.getElem_map, List.getElem_range]
    rw [Int.toNat_of_nonneg hm.1, List.Nodup.idxOf_getElem hin.2]
  · intro x hx
    exact (pick_perm hp hx).count_eq true

example : permIsValid [2, 0, 1] = ok true := by decide
example : permutationMap [2, 0, 1] [true, false, true] [false, false, false]
    = ok [true, true, false] := by decide

/-- C19: an invalid permutation is a violated precondition of the map. -/
theorem permutationMap_invalid (p : List Int) (x y : BV) (hp : permIsValid p ≠ ok true) :
    permutationMap p x y = ub := by
  unfold permutationMap
  obtain ⟨b, e, h⟩ := permIsValid_correct p
  have : b = false := by cases b <;> simp_all
  subst this
  rw [e]
  simp only [ok_bind, assert_false, ub_bind]
  cases h1 : (p.length == x.length) <;> cases h2 : (p.length == y.length) <;> simp

example : permIsValid [0, 0] ≠ ok true := by decide

/-- C19: a translation adds its vector; it is its own inverse. -/
theorem translationMap_correct (v : BV) (n : Nat) (hn : v.length = n) :
    MapSpec.Computes (translationMap v) n n (fun x => F2.add x v) ∧
      MapSpec.Undoes n (fun x => F2.add x v) (fun x => F2.add x v) := by
  constructor
  · intro x y hx hy
    refine ⟨?_, by rw [add_length (by omega), hx]⟩
    simp only [translationMap, hx, hy, hn, beq_self_eq_true, assert_true, ok_bind]
    rw [bvAdd3_ok (by omega) (by omega)]; rfl
  · intro x hx
    exact add_cancel (by omega)

/-! ## C20: injections and projections -/

/-- Distinct positions smaller than `size`. -/
def Positions (positions : List Nat) (size : Nat) : Prop :=
  positions.Nodup ∧ ∀ p ∈ positions, p < size

theorem injectionMap_ok {ps : List Nat} {size : Nat} (hps : Positions ps size) {x o : BV}
    (hx : x.length = ps.length) (ho : o.length = size) :
    (injectionMap ps size x o).Returns (fun r => r.length = size ∧
      (∀ (i p : Nat), ps[i]? = some p → r[p]? = x[i]?) ∧ ∀ (p : Nat), p ∉ ps → r[p]? = o[p]?) := by
  simp only [injectionMap, hx, ho, beq_self_eq_true, assert_true, ok_bind]
  refine (forRange_returns (fun k (r : BV) => r.length = size ∧
      (∀ (i p : Nat), i < k → ps[i]? = some p → r[p]? = x[i]?) ∧
      ∀ (p : Nat), p ∉ ps.take k → r[p]? = o[p]?) (Nat.zero_le _) ?_ ?_).mono ?_
  · simp [ho]
  · intro k r _ hk ⟨h1, h2, h3⟩
    have hp : ps[k] < r.length := by rw [h1]; exact hps.2 _ (List.getElem_mem hk)
    rw [vget_eq hk, ok_bind, vget_eq (by omega), ok_bind, vset_eq hp]
    refine ⟨_, rfl, by simp [h1], ?_, ?_⟩
    · intro i p hi hip
      rcases Nat.lt_succ_iff_lt_or_eq.mp hi with hi | rfl
      · have hil : i < ps.length := by omega
        rw [List.getElem?_eq_getElem hil] at hip
        have hne : ps[k] ≠ p := by
          intro e
          have : ps[k] = ps[i] := by simp at hip; rw [e, hip]
          have := (List.Nodup.getElem_inj_iff hps.1).mp this
          omega
        rw [List.getElem?_set_ne hne]
        exact h2 i p hi (by rw [List.getElem?_eq_getElem hil]; exact hip)
      · rw [List.getElem?_eq_getElem hk] at hip
        simp only [Option.some.injEq] at hip
        subst hip
        rw [List.getElem?_set_self hp, List.getElem?_eq_getElem (by omega)]
    · intro p hp'
      rw [List.take_succ_eq_append_getElem hk] at hp'
      simp only [List.mem_append, List.mem_singleton, not_or] at hp'
      rw [List.getElem?_set_ne (Ne.symm hp'.2)]
      exact h3 p hp'.1
  · intro r ⟨h1, h2, h3⟩
    refine ⟨h1, fun i p hip => h2 i p ?_ hip, fun p hp => h3 p (by simpa using hp)⟩
    by_contra h
    rw [List.getElem?_eq_none (by omega)] at hip
    cases hip

theorem projectionMap_ok {ps : List Nat} {size : Nat} (hps : ∀ p ∈ ps, p < size) {x o : BV}
    (hx : x.length = size) (ho : o.length = ps.length) :
    projectionMap ps size x o = ok (ps.map (fun p => bit x p)) := by
  simp only [projectionMap, hx, ho, beq_self_eq_true, assert_true, ok_bind]
  have : ps.map (fun p => bit x p) = List.ofFn (fun i : Fin ps.length => bit x (ps[i.val]?.getD 0)) := by
    apply List.ext_getElem
    · simp
    · intro i h1 h2
      simp
  rw [this]
  apply forRange_write (fun i => bit x (ps[i]?.getD 0)) o ho
  intro i l hi hl _
  have := hps ps[i] (List.getElem_mem hi)
  rw [vget_eq hi]
  simp only [ok_bind, List.getElem?_eq_getElem hi, Option.getD_some]
  rw [vget_bit (by omega), ok_bind, vset_eq (by omega)]

/-- C20: injecting writes bit `i` of the input at position `positions[i]` of the output and leaves the
other output bits untouched. -/
theorem injectionMap_spec (ps : List Nat) (size : Nat) (hps : Positions ps size) (x o : BV)
    (hx : x.length = ps.length) (ho : o.length = size) :
    ∃ r, injectionMap ps size x o = ok r ∧ r.length = size ∧
      (∀ (i p : Nat), ps[i]? = some p → r[p]? = x[i]?) ∧
      ∀ (p : Nat), p ∉ ps → r[p]? = o[p]? := injectionMap_ok hps hx ho

example : Positions [3, 0] 4 := by simp [Positions]
example : injectionMap [3, 0] 4 [true, false] [true, true, false, false]
    = ok [false, true, false, true] := by decide

/-- C20: projecting copies the bit at `positions[i]` of the input to bit `i` of the output, whatever the
previous contents of the output. -/
theorem projectionMap_spec (ps : List Nat) (size : Nat) (hps : ∀ p ∈ ps, p < size) (x o : BV)
    (hx : x.length = size) (ho : o.length = ps.length) :
    ∃ r, projectionMap ps size x o = ok r ∧ r.length = ps.length ∧
      ∀ (i p : Nat), ps[i]? = some p → r[i]? = x[p]? := by
  refine ⟨_, projectionMap_ok hps hx ho, by simp, ?_⟩
  intro i p hip
  have hp := hps p (List.mem_of_getElem? hip)
  simp [hip, bit_lt (show p < x.length by omega), show p < x.length by omega]

/-- C20: projecting after injecting is the identity, whatever the previous contents of the buffers. -/
theorem projection_injection (ps : List Nat) (size : Nat) (hps : Positions ps size) (x o o' : BV)
    (hx : x.length = ps.length) (ho : o.length = size) (ho' : o'.length = ps.length) :
    (do let y ← injectionMap ps size x o
        projectionMap ps size y o') = ok x := by
  obtain ⟨r, e, h1, h2, _⟩ := injectionMap_ok hps hx ho
  rw [e, ok_bind, projectionMap_ok hps.2 h1 ho']
  congr 1
  apply bv_ext (by simp [hx])
  intro i hi
  have hi' : i < ps.length := by simpa using hi
  have := h2 i ps[i] (List.getElem?_eq_getElem hi')
  rw [bit_lt hi]
  simp only [List.getElem_map, bit, this]

/-- C20: with distinct positions an injection is injective and a projection is surjective. -/
theorem injection_injective_projection_surjective (ps : List Nat) (size : Nat)
    (hps : Positions ps size) :
    (∀ x x' o o' r : BV, x.length = ps.length → x'.length = ps.length → o.length = size →
      o'.length = size → injectionMap ps size x o = ok r → injectionMap ps size x' o' = ok r →
      x = x') ∧
    (∀ y : BV, y.length = ps.length → ∃ x : BV, x.length = size ∧
      ∀ o : BV, o.length = ps.length → projectionMap ps size x o = ok y) := by
  constructor
  · intro x x' o o' r hx hx' ho ho' e e'
    have h1 := projection_injection ps size hps x o x hx ho hx
    have h2 := projection_injection ps size hps x' o' x hx' ho' hx
    rw [e, ok_bind] at h1
    rw [e', ok_bind] at h2
    rw [h1] at h2
    simpa using h2
  · intro y hy
    obtain ⟨r, e, h1, _⟩ := injectionMap_ok hps hy (o := List.replicate size false) (by simp)
    refine ⟨r, h1, fun o ho => ?_⟩
    have := projection_injection ps size hps y (List.replicate size false) o hy (by simp) ho
    rwa [e, ok_bind] at this

/-- C20: with distinct positions the surjectivity test of an injection is right: it answers true
exactly when every output vector is the image of an input vector. -/
theorem injectionIsSurjective_correct (ps : List Nat) (size : Nat) (hps : Positions ps size) :
    injectionIsSurjective ps size = true ↔ ∀ y o : BV, y.length = size → o.length = size →
      ∃ x : BV, x.length = ps.length ∧ injectionMap ps size x o = ok y := by
  have hle : ps.length ≤ size := by
    have := List.Subperm.length_le (List.subperm_of_subset hps.1
      (fun p hp => List.mem_range.mpr (hps.2 p hp)))
    simpa using this
  unfold injectionIsSurjective
  rw [beq_iff_eq]
  constructor
  · intro hs y o hy ho
    have hperm : ps.Perm (List.range size) :=
      (List.subperm_of_subset hps.1 (fun p hp => List.mem_range.mpr (hps.2 p hp))).perm_of_length_le
        (by simp [hs])
    refine ⟨ps.map (fun p => bit y p), by simp, ?_⟩
    obtain ⟨r, e, h1, h2, _⟩ := injectionMap_ok hps (x := ps.map (fun p => bit y p)) (by simp) ho
    rw [e]
    congr 1
    apply bv_ext (by omega)
    intro p hp
    have hmem : p ∈ ps := hperm.mem_iff.mpr (List.mem_range.mpr (by omega))
    obtain ⟨i, hi⟩ := List.getElem?_of_mem hmem
    have := h2 i p hi
    have hpy : p < y.length := by omega
    rw [bit, this]
    simp [hi]
  · intro h
    by_contra hne
    have hlt : ps.length < size := by omega
    have : ∃ p, p < size ∧ p ∉ ps := by
      by_contra hcon
      push Not at hcon
      have hsub : List.range size ⊆ ps := fun p hp => hcon p (List.mem_range.mp hp)
      have := List.Subperm.length_le (List.subperm_of_subset List.nodup_range hsub)
      simp at this
      omega
    obtain ⟨p, hp, hnp⟩ := this
    obtain ⟨x, hx, e⟩ := h (List.replicate size true) (List.replicate size false) (by simp) (by simp)
    obtain ⟨r, e', _, _, h3⟩ := injectionMap_ok hps hx (o := List.replicate size false) (by simp)
    rw [e'] at e
    simp only [Outcome.ok.injEq] at e
    have := h3 p hnp
    rw [e] at this
    simp [hp] at this

/-- C20: with repeated positions the constructors accept the map, which claims to be surjective, but it
is not. -/
theorem surjectivity_wrong_with_repeated_positions :
    (projectionNew [0, 0] 2 = ok () ∧ projectionIsSurjective = true ∧
      ¬ ∃ x : BV, x.length = 2 ∧ projectionMap [0, 0] 2 x [false, false] = ok [true, false]) ∧
    (injectionNew [0, 0] 2 = ok () ∧ injectionIsSurjective [0, 0] 2 = true ∧
      ¬ ∃ x : BV, x.length = 2 ∧ injectionMap [0, 0] 2 x [false, false] = ok [true, true]) := by
  refine ⟨⟨by decide, rfl, ?_⟩, by decide, by decide, ?_⟩
  all_goals
    rintro ⟨x, hx, h⟩
    match x, hx with
    | [a, b], _ => cases a <;> cases b <;> revert h <;> decide

/-- C20: the constructors refuse more positions than the size of the larger side. -/
theorem injection_projection_refused (ps : List Nat) (size : Nat) :
    (injectionNew ps size = .throw .runtimeError ↔ size < ps.length) ∧
    (projectionNew ps size = .throw .runtimeError ↔ size < ps.length) := by
  unfold injectionNew projectionNew
  by_cases h : size < ps.length <;> simp [h]

end Hnco
