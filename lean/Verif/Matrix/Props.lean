import Verif.Matrix.Bridge

/-! # Properties of bit matrices (C11-C14) -/

namespace Hnco

open Outcome Matrix

/-! ## C14: elementary operations -/

/-- C14: multiplication computes the product over F2, whatever the previous contents of the result,
without out of range access. -/
theorem bmMultiply_spec (n m : Nat) (hn : 0 < n) (hm : 0 < m) (M : BM) (hM : F2.HasShape n m M)
    (x y : BV) (hx : x.length = m) (hy : y.length = n) :
    bmMultiply y M x = ok (F2.mulVec M x) := bmMultiply_ok hM hn hm hx hy

example : bmMultiply [false, false] [[true, true, false], [false, true, true]] [true, true, true]
    = ok [false, false] := by decide
example : F2.HasShape 2 3 [[true, true, false], [false, true, true]] := by simp [F2.HasShape]

/-- C14: multiplication is linear. -/
theorem bmMultiply_linear (n m : Nat) (hn : 0 < n) (hm : 0 < m) (M : BM) (hM : F2.HasShape n m M)
    (x x' y : BV) (hx : x.length = m) (hx' : x'.length = m) (hy : y.length = n) :
    ∃ u v, bmMultiply y M x = ok u ∧ bmMultiply y M x' = ok v ∧
      bmMultiply y M (F2.add x x') = ok (F2.add u v) := by
  have hl : (F2.add x x').length = m := by simp [F2.add]; omega
  refine ⟨_, _, bmMultiply_ok hM hn hm hx hy, bmMultiply_ok hM hn hm hx' hy, ?_⟩
  rw [bmMultiply_ok hM hn hm hl hy]
  congr 1
  have h1 : (F2.mulVec M x).length = n := by rw [mulVec_length, hM.1]
  have h2 : (F2.mulVec M x').length = n := by rw [mulVec_length, hM.1]
  rw [mulVec_eq_iff hM hl (by simp [F2.add]; omega), vec_add hx hx', vec_add h1 h2,
    toVec_mulVec hM hx, toVec_mulVec hM hx', Matrix.mulVec_add]

example : ([true, false, true] : BV).length = 3 ∧ F2.add [true, false, true] [true, true, false]
    = [false, true, true] := by decide

/-- C14: the identity matrix of any positive size is built, and acts as the identity. -/
theorem bmIdentityN_spec (n : Nat) (hn : 0 < n) :
    ∃ I, bmIdentityN n = ok I ∧ F2.IsIdentity n I ∧
      ∀ x y : BV, x.length = n → y.length = n → bmMultiply y I x = ok x := by
  have hv : BM.Valid n n (List.replicate n (List.replicate n false)) := by
    refine ⟨by simp, ?_⟩
    intro row hrow
    rw [List.eq_of_mem_replicate hrow]
    simp
  obtain ⟨I, hI, hIv, hIe⟩ := bmIdentity_ok hn hv
  refine ⟨I, ?_, isIdentity_iff.mpr ⟨hIv, hIe⟩, ?_⟩
  · simp only [bmIdentityN, bmRectangular]
    rw [assert_pos (decide_eq_true hn)]
    exact hI
  · intro x y hx hy
    rw [bmMultiply_ok hIv hn hn hx hy]
    congr 1
    rw [mulVec_eq_iff hIv hx hx, toMat_eq_one hIe, Matrix.one_mulVec]

example : bmIdentityN 3 = ok [[true, false, false], [false, true, false], [false, false, true]] := by
  decide

/-- C14: the in-place version overwrites any square matrix by the identity. -/
theorem bmIdentity_spec (n : Nat) (hn : 0 < n) (M : BM) (hM : F2.HasShape n n M) :
    (bmIdentity M).Returns (F2.IsIdentity n) :=
  (bmIdentity_ok hn hM).mono (fun _ h => isIdentity_iff.mpr h)

example : F2.HasShape 2 2 [[true, true], [true, false]] := by simp [F2.HasShape]

theorem bmIdentityRow_true {row : BV} {i n : Nat} (hl : row.length = n) : ∀ (k j : Nat), j + k = n →
    identityRow row i k j = ok true → ∀ c, j ≤ c → c < n → bit row c = decide (i = c) := by
  intro k
  induction k with
  | zero => intro j hj _ c h1 h2; omega
  | succ k ih =>
    intro j hj h c h1 h2
    unfold identityRow at h
    rw [vget_bit (by omega)] at h
    simp only [ok_bind] at h
    rcases Nat.eq_or_lt_of_le h1 with e | e
    · subst e
      by_cases hij : i = j
      · simp only [hij, if_true] at h
        cases hb : bit row j with
        | true => simp [hij]
        | false => rw [hb] at h; cases h
      · simp only [hij, if_false] at h
        cases hb : bit row j with
        | false => simp [hij]
        | true => rw [hb] at h; cases h
    · refine ih (j + 1) (by omega) ?_ c (by omega) h2
      by_cases hij : i = j
      · simp only [hij, if_true] at h
        cases hb : bit row j with
        | true => rw [hb] at h; rw [hij]; exact h
        | false => rw [hb] at h; cases h
      · simp only [hij, if_false] at h
        cases hb : bit row j with
        | false => rw [hb] at h; exact h
        | true => rw [hb] at h; cases h

theorem bmIdentityRows_true {M : BM} {n : Nat} (hM : M.Valid n n) : ∀ (k i : Nat), i + k = n →
    identityRows M k i = ok true →
    ∀ a c, i ≤ a → a < n → c < n → ent M a c = decide (a = c) := by
  intro k
  induction k with
  | zero => intro i hi _ a c h1 h2; omega
  | succ k ih =>
    intro i hi h a c h1 h2 h3
    have hi' : i < M.length := by rw [hM.1]; omega
    unfold identityRows at h
    rw [vget_eq hi'] at h
    simp only [ok_bind, hM.1] at h
    cases hb : identityRow M[i] i n 0 with
    | ub => rw [hb] at h; cases h
    | throw e => rw [hb] at h; cases h
    | ok b =>
      rw [hb] at h
      cases b with
      | false => cases h
      | true =>
        rcases Nat.eq_or_lt_of_le h1 with e | e
        · subst e
          rw [ent_eq_bit hi']
          exact bmIdentityRow_true (hM.row_length hi') n 0 (by omega) hb c (by omega) h3
        · exact ih (i + 1) (by omega) h a c e h2 h3

/-- C14: the identity test answers true on identity matrices only. -/
theorem bmIsIdentity_iff (M : BM) :
    bmIsIdentity M = ok true ↔ ∃ n, 0 < n ∧ F2.IsIdentity n M := by
  constructor
  · intro h
    simp only [bmIsIdentity] at h
    cases hv : bmIsValid M with
    | ub => rw [hv] at h; cases h
    | throw e => rw [hv] at h; cases h
    | ok v =>
      rw [hv] at h
      cases v with
      | false => cases h
      | true =>
        obtain ⟨n, m, hn, hm, hM⟩ := BM.Valid.isValid_iff.mp hv
        simp only [ok_bind, hM.isSquare hn] at h
        by_cases hnm : n = m
        · subst hnm
          refine ⟨n, hn, isIdentity_iff.mpr ⟨hM, ?_⟩⟩
          simp only [beq_self_eq_true, Bool.not_true, Bool.false_eq_true, if_false, hM.1] at h
          intro a c ha hc
          exact bmIdentityRows_true hM n 0 (by omega) h a c (by omega) ha hc
        · have : (n == m) = false := by simpa using hnm
          rw [this] at h; cases h
  · rintro ⟨n, hn, h⟩
    obtain ⟨hM, he⟩ := isIdentity_iff.mp h
    exact bmIsIdentity_ok hn hM he

example : bmIsIdentity [[true, false], [false, true]] = ok true ∧
    bmIsIdentity [[true, true], [false, true]] = ok false ∧
    bmIsIdentity [[true, false]] = ok false := by decide

/-- C14: transposing exchanges row and column indices. -/
theorem bmTranspose_spec (n m : Nat) (hn : 0 < n) (hm : 0 < m) (M : BM) (hM : F2.HasShape n m M) :
    ∃ T, bmTranspose M = ok T ∧ F2.HasShape m n T ∧
      ∀ (i j : Nat), i < n → j < m →
        (T[j]?.bind (fun row => row[i]?)) = (M[i]?.bind (fun row => row[j]?)) := by
  have hr : BM.Valid m n (List.replicate m (List.replicate n false)) := by
    refine ⟨by simp, ?_⟩
    intro row hrow
    rw [List.eq_of_mem_replicate hrow]
    simp
  have hM' : M.Valid n m := hM
  have e : bmTranspose M = forRange 0 m (fun i N =>
      forRange 0 n (fun j N => do
        let b ← mget M j i
        mset N i j b) N) (List.replicate m (List.replicate n false)) := by
    simp only [bmTranspose, bmRectangular, bmTransposeInto, hM'.isValid hn hm, hM'.numColumns hn,
      hM'.1, ok_bind, assert_true]
    rw [assert_pos (decide_eq_true hn), assert_pos (decide_eq_true hm)]
    simp only [ok_bind, pure_eq, hr.numColumns hm, hr.1, beq_self_eq_true, assert_true]
  rw [e]
  obtain ⟨T, hT, hTv, hTe⟩ := forRange_returns (a := 0) (b := m)
    (s := (List.replicate m (List.replicate n false) : BM))
    (body := fun i N => forRange 0 n (fun j N => do
        let b ← mget M j i
        mset N i j b) N)
    (fun i N => N.Valid m n ∧ ∀ a c, a < i → c < n → ent N a c = ent M c a) (Nat.zero_le m)
    ⟨hr, by intro a c h; omega⟩ (by
      rintro i N - hi ⟨hN, he⟩
      refine (forRange_returns (fun j N => N.Valid m n ∧ (∀ a c, a < i → c < n → ent N a c = ent M c a)
        ∧ ∀ c, c < j → ent N i c = ent M c i) (Nat.zero_le n) ⟨hN, he, by intro c h; omega⟩ ?_).mono ?_
      · rintro j N - hj ⟨hN, he, he'⟩
        rw [hM'.mget hj hi]
        refine (hN.mset hi hj (ent M j i)).mono ?_
        rintro N' ⟨hN', hn'⟩
        refine ⟨hN', ?_, ?_⟩
        · intro a c h1 h2
          rw [hn', if_neg (by omega)]
          exact he a c h1 h2
        · intro c hc
          rw [hn']
          by_cases hcj : c = j
          · simp [hcj]
          · simp only [hcj, and_false, if_false]
            exact he' c (by omega)
      · rintro N' ⟨hN', h1, h2⟩
        refine ⟨hN', ?_⟩
        intro a c ha hc
        rcases Nat.eq_or_lt_of_le (Nat.le_of_lt_succ ha) with e | e
        · rw [e]; exact h2 c hc
        · exact h1 a c e hc)
  refine ⟨T, hT, hTv, ?_⟩
  intro i j hi hj
  have hi' : i < M.length := by rw [hM'.1]; exact hi
  have hj' : j < T.length := by rw [hTv.1]; exact hj
  have h1 : j < (M[i]).length := by rw [hM'.row_length hi']; exact hj
  have h2 : i < (T[j]).length := by rw [hTv.row_length hj']; exact hi
  rw [List.getElem?_eq_getElem hi', List.getElem?_eq_getElem hj', Option.bind_some, Option.bind_some,
    List.getElem?_eq_getElem h1, List.getElem?_eq_getElem h2, ← bit_lt h1, ← bit_lt h2,
    ← ent_eq_bit hi', ← ent_eq_bit hj', hTe j i hj hi]

example : bmTranspose [[true, true, false], [false, true, true]]
    = ok [[true, false], [true, true], [false, true]] := by decide

theorem entries_ext {n m : Nat} {A B : BM} (hA : F2.HasShape n m A) (hB : F2.HasShape n m B)
    (h : ∀ (i j : Nat), i < n → j < m →
      (A[i]?.bind (fun row => row[j]?)) = (B[i]?.bind (fun row => row[j]?))) : A = B := by
  apply BM.Valid.ext hA hB
  intro i j hi hj
  have h1 : i < A.length := by rw [hA.1]; exact hi
  have h2 : i < B.length := by rw [hB.1]; exact hi
  have := h i j hi hj
  rw [List.getElem?_eq_getElem h1, List.getElem?_eq_getElem h2] at this
  simp only [Option.bind_some] at this
  rw [ent_eq_bit h1, ent_eq_bit h2, bit, bit, this]

/-- C14: transposing twice gives the original matrix. -/
theorem bmTranspose_twice (n m : Nat) (hn : 0 < n) (hm : 0 < m) (M : BM) (hM : F2.HasShape n m M) :
    (do let T ← bmTranspose M
        bmTranspose T) = ok M := by
  obtain ⟨T, hT, hTs, hTe⟩ := bmTranspose_spec n m hn hm M hM
  obtain ⟨U, hU, hUs, hUe⟩ := bmTranspose_spec m n hm hn T hTs
  rw [hT, ok_bind, hU]
  congr 1
  apply entries_ext hUs hM
  intro i j hi hj
  rw [hUe j i hj hi, hTe i j hi hj]

example : F2.HasShape 2 3 [[true, true, false], [false, true, true]] := by simp [F2.HasShape]

/-- C14: swapping two rows exchanges them and leaves the other rows alone. -/
theorem bmSwapRows_spec (n m : Nat) (M : BM) (hM : F2.HasShape n m M) (i j : Nat) (hi : i < n)
    (hj : j < n) : ∃ M', bmSwapRows M i j = ok M' ∧ F2.HasShape n m M' ∧
      M'[i]? = M[j]? ∧ M'[j]? = M[i]? ∧ ∀ (k : Nat), k ≠ i → k ≠ j → M'[k]? = M[k]? := by
  obtain ⟨M', hM', hv, he⟩ := BM.Valid.swapRows hM hi hj
  have hrow : ∀ k l, k < n → l < n → (∀ c, c < m → ent M' k c = ent M l c) → M'[k]? = M[l]? := by
    intro k l hk hl h
    have h1 : k < M'.length := by rw [hv.1]; exact hk
    have h2 : l < M.length := by rw [hM.1]; exact hl
    rw [List.getElem?_eq_getElem h1, List.getElem?_eq_getElem h2]
    congr 1
    apply bv_ext (by rw [hv.row_length h1, BM.Valid.row_length hM h2])
    intro c hc
    rw [← ent_eq_bit h1, ← ent_eq_bit h2]
    exact h c (by rw [← hv.row_length h1]; exact hc)
  refine ⟨M', hM', hv, ?_, ?_, ?_⟩
  · apply hrow i j hi hj
    intro c hc
    rw [he i c hi hc, if_pos rfl]
  · apply hrow j i hj hi
    intro c hc
    rw [he j c hj hc]
    by_cases h : j = i
    · simp [h]
    · simp [h]
  · intro k h1 h2
    by_cases hk : k < n
    · apply hrow k k hk hk
      intro c hc
      rw [he k c hk hc, if_neg h1, if_neg h2]
    · rw [List.getElem?_eq_none (by rw [hv.1]; omega), List.getElem?_eq_none (by rw [hM.1]; omega)]

example : bmSwapRows [[true, true], [false, true], [false, false]] 0 2
    = ok [[false, false], [false, true], [true, true]] := by decide

/-- C14: swapping the same rows twice gives the original matrix. -/
theorem bmSwapRows_twice (n m : Nat) (M : BM) (hM : F2.HasShape n m M) (i j : Nat) (hi : i < n)
    (hj : j < n) : (do let M' ← bmSwapRows M i j
                       bmSwapRows M' i j) = ok M := by
  obtain ⟨A, hA, hAs, h1, h2, h3⟩ := bmSwapRows_spec n m M hM i j hi hj
  obtain ⟨B, hB, hBs, g1, g2, g3⟩ := bmSwapRows_spec n m A hAs i j hi hj
  rw [hA, ok_bind, hB]
  congr 1
  apply List.ext_getElem?
  intro k
  by_cases hk : k = i
  · rw [hk, g1, h2]
  · by_cases hk' : k = j
    · rw [hk', g2, h1]
    · rw [g3 k hk hk', h3 k hk hk']

/-- C14: adding a row to another one replaces the destination by the sum and leaves the other rows
alone. -/
theorem bmAddRows_spec (n m : Nat) (M : BM) (hM : F2.HasShape n m M) (dest src : Nat)
    (hd : dest < n) (hs : src < n) (hne : src ≠ dest) :
    ∃ M' d s, bmAddRows M dest src = ok M' ∧ M[dest]? = some d ∧ M[src]? = some s ∧
      M' = M.set dest (F2.add d s) := by
  have hd' : dest < M.length := by rw [hM.1]; exact hd
  have hs' : src < M.length := by rw [hM.1]; exact hs
  refine ⟨_, M[dest], M[src], ?_, by simp [hd'], by simp [hs'], rfl⟩
  have hl : (M[dest]).length = (M[src]).length := by
    rw [BM.Valid.row_length hM, BM.Valid.row_length hM]
  simp only [bmAddRows]
  rw [assert_pos (decide_eq_true hs'), assert_pos (decide_eq_true hd'),
    assert_pos (decide_eq_true hne), vget_eq hd', vget_eq hs']
  simp only [ok_bind]
  rw [bvAdd_ok hl]
  simp only [ok_bind]
  rw [vset_eq hd']
  rfl

example : bmAddRows [[true, true], [false, true]] 1 0 = ok [[true, true], [true, false]] := by decide

/-- C14: adding the same row twice gives the original matrix. -/
theorem bmAddRows_twice (n m : Nat) (M : BM) (hM : F2.HasShape n m M) (dest src : Nat)
    (hd : dest < n) (hs : src < n) (hne : src ≠ dest) :
    (do let M' ← bmAddRows M dest src
        bmAddRows M' dest src) = ok M := by
  obtain ⟨A, hA, hAv, he⟩ := BM.Valid.addRows hM hd hs hne
  obtain ⟨B, hB, hBv, he'⟩ := hAv.addRows hd hs hne
  rw [hA, ok_bind, hB]
  congr 1
  apply hBv.ext hM
  intro i j hi hj
  rw [he', he, he]
  by_cases h : i = dest
  · subst h
    simp [hne]
  · simp [h, he]

theorem bmAddColumns_ent {n m : Nat} {M : BM} (hM : F2.HasShape n m M) {dest src : Nat}
    (hn : 0 < n) (hd : dest < m) (hs : src < m) (hne : src ≠ dest) :
    (bmAddColumns M dest src).Returns (fun M' => M'.Valid n m ∧ ∀ i j, i < n → j < m →
      ent M' i j = if j = dest then (ent M i dest ^^ ent M i src) else ent M i j) := by
  have hM' : M.Valid n m := hM
  simp only [bmAddColumns, hM'.numColumns hn, ok_bind, hM'.1]
  rw [assert_pos (decide_eq_true hd), assert_pos (decide_eq_true hs),
    assert_pos (decide_eq_true hne)]
  simp only [ok_bind]
  refine (forRange_returns (fun k N => N.Valid n m ∧ ∀ i j, i < n → j < m →
    ent N i j = if i < k ∧ j = dest then (ent M i dest ^^ ent M i src) else ent M i j)
    (Nat.zero_le n) ⟨hM', by intro i j _ _; simp⟩ ?_).mono ?_
  · rintro k N - hk ⟨hN, he⟩
    rw [hN.mget hk hs, he k src hk hs, if_neg (by omega)]
    simp only [ok_bind]
    cases hb : ent M k src with
    | false =>
      refine ⟨N, rfl, hN, ?_⟩
      intro i j hi hj
      rw [he i j hi hj]
      by_cases hj' : j = dest
      · subst hj'
        by_cases hik : i = k
        · subst hik; simp [hb]
        · have : i < k + 1 ↔ i < k := by omega
          simp [this]
      · simp [hj']
    | true =>
      have hk' : k < N.length := by rw [hN.1]; exact hk
      have hd' : dest < (N[k]).length := by rw [hN.row_length hk']; exact hd
      rw [if_pos rfl, vget_eq hk']
      simp only [ok_bind]
      rw [bvFlip_ok hd']
      simp only [ok_bind]
      rw [vset_eq hk']
      refine ⟨_, rfl, hN.setRow (by rw [List.length_set]; exact hN.row_length hk'), ?_⟩
      intro i j hi hj
      rw [BM.Valid.ent_setRow hk', bit_set hd', ← ent_eq_bit hk', ← bit_lt hd', ← ent_eq_bit hk']
      by_cases hik : i = k
      · subst hik
        by_cases hj' : j = dest
        · subst hj'
          have := he i j hi hj
          rw [if_neg (by omega)] at this
          simp [hb, this]
        · rw [he i j hi hj]
          simp [hj']
      · have : i < k + 1 ↔ i < k := by omega
        rw [if_neg hik, he i j hi hj]
        simp [this]
  · rintro N ⟨hN, he⟩
    refine ⟨hN, ?_⟩
    intro i j hi hj
    rw [he i j hi hj]
    simp [hi]

/-- C14: adding column `src` to column `dest` amounts, for the action on vectors, to first adding
component `dest` to component `src`. -/
theorem bmAddColumns_spec (n m : Nat) (hn : 0 < n) (M : BM) (hM : F2.HasShape n m M)
    (dest src : Nat) (hd : dest < m) (hs : src < m) (hne : src ≠ dest) :
    ∃ M', bmAddColumns M dest src = ok M' ∧ F2.HasShape n m M' ∧
      ∀ x : BV, ∀ _ : x.length = m, ∀ bd bs : Bool, x[dest]? = some bd → x[src]? = some bs →
        F2.mulVec M' x = F2.mulVec M (x.set src (bs ^^ bd)) := by
  obtain ⟨M', h1, hv, he⟩ := bmAddColumns_ent hM hn hd hs hne
  refine ⟨M', h1, hv, ?_⟩
  intro x hx bd bs hbd hbs
  have hl : (x.set src (bs ^^ bd)).length = m := by simp [hx]
  have hbd' : bit x dest = bd := by simp [bit, hbd]
  have hbs' : bit x src = bs := by simp [bit, hbs]
  rw [mulVec_eq_iff hv hx (by rw [mulVec_length, hM.1]), toVec_mulVec hM hl]
  have hmat : toMat n m M' = toMat n m M * transvection ⟨src, hs⟩ ⟨dest, hd⟩ (1 : ZMod 2) := by
    ext i j
    by_cases hj : j = ⟨dest, hd⟩
    · subst hj
      rw [mul_transvection_apply_same]
      simp [toMat, he i dest i.2 hd, toF_xor]
    · have : j.val ≠ dest := fun e => hj (Fin.ext e)
      rw [mul_transvection_apply_of_ne _ _ _ _ hj]
      simp [toMat, he i j i.2 j.2, this]
  rw [hmat, ← Matrix.mulVec_mulVec]
  congr 1
  ext a
  simp only [transvection, Matrix.add_mulVec, Matrix.one_mulVec, Pi.add_apply]
  rw [Matrix.single_mulVec]
  by_cases h : a = ⟨src, hs⟩
  · subst h
    simp [toVec, bit_set (x := x) (i := src) (by omega), toF_xor, hbd', hbs']
  · have h' : a.val ≠ src := fun e => h (Fin.ext e)
    simp [toVec, bit_set (x := x) (i := src) (by omega), h, h']

example : bmAddColumns [[true, true], [false, true]] 0 1 = ok [[false, true], [true, true]] := by
  decide

/-- C14: setting a column writes exactly that column. -/
theorem bmSetColumn_spec (n m : Nat) (hn : 0 < n) (M : BM) (hM : F2.HasShape n m M) (j : Nat)
    (hj : j < m) (b : BV) (hb : b.length = n) :
    ∃ M', bmSetColumn M j b = ok M' ∧ F2.HasShape n m M' ∧ ∀ (i k : Nat), i < n → k < m →
      (M'[i]?.bind (fun row => row[k]?)) =
        if k = j then b[i]? else (M[i]?.bind (fun row => row[k]?)) := by
  have hM' : M.Valid n m := hM
  have : (bmSetColumn M j b).Returns (fun N => N.Valid n m ∧ ∀ i k, i < n → k < m →
      ent N i k = if k = j then bit b i else ent M i k) := by
    simp only [bmSetColumn, hM'.numColumns hn, ok_bind, hM'.1, hb, beq_self_eq_true, assert_true]
    rw [assert_pos (decide_eq_true hj)]
    simp only [ok_bind]
    refine (forRange_returns (fun r N => N.Valid n m ∧ ∀ i k, i < n → k < m →
      ent N i k = if i < r ∧ k = j then bit b i else ent M i k) (Nat.zero_le n)
      ⟨hM', by intro i k _ _; simp⟩ ?_).mono ?_
    · rintro r N - hr ⟨hN, he⟩
      rw [vget_bit (by omega)]
      refine (hN.mset hr hj (bit b r)).mono ?_
      rintro N' ⟨hN', he'⟩
      refine ⟨hN', ?_⟩
      intro i k hi hk
      rw [he', he i k hi hk]
      by_cases h1 : i = r
      · subst h1
        by_cases h2 : k = j <;> simp [h2]
      · have : i < r + 1 ↔ i < r := by omega
        simp [h1, this]
    · rintro N ⟨hN, he⟩
      refine ⟨hN, ?_⟩
      intro i k hi hk
      rw [he i k hi hk]; simp [hi]
  obtain ⟨N, hN, hNv, he⟩ := this
  refine ⟨N, hN, hNv, ?_⟩
  intro i k hi hk
  have h1 : i < N.length := by rw [hNv.1]; exact hi
  have h2 : i < M.length := by rw [hM'.1]; exact hi
  have h3 : k < (N[i]).length := by rw [hNv.row_length h1]; exact hk
  have h4 : k < (M[i]).length := by rw [hM'.row_length h2]; exact hk
  have h5 : i < b.length := by omega
  rw [List.getElem?_eq_getElem h1, List.getElem?_eq_getElem h2, Option.bind_some, Option.bind_some,
    List.getElem?_eq_getElem h3, List.getElem?_eq_getElem h4, List.getElem?_eq_getElem h5,
    ← bit_lt h3, ← bit_lt h4, ← bit_lt h5, ← ent_eq_bit h1, ← ent_eq_bit h2, he i k hi hk]
  split <;> rfl

example : bmSetColumn [[true, true], [false, true]] 0 [false, true]
    = ok [[false, true], [true, true]] := by decide

/-! ## C11: row echelon form and rank -/

/-- A bit matrix as a matrix over the field with two elements. -/
def F2.matrix (n m : Nat) (M : List BV) : Matrix (Fin n) (Fin m) (ZMod 2) :=
  fun i j => match M[i.val]?.bind (fun row => row[j.val]?) with
    | some true => 1
    | _ => 0

theorem matrix_eq (n m : Nat) (M : BM) : F2.matrix n m M = toMat n m M := by
  ext i j
  simp only [F2.matrix, toMat, ent]
  cases h : M[i.val]? with
  | none => simp
  | some row =>
    simp only [Option.bind_some, Option.getD_some]
    cases h' : row[j.val]? with
    | none => simp
    | some b => cases b <;> simp

/-- Rows are in echelon form: each non zero row starts strictly after all the rows above it (so zero
rows are at the bottom). -/
def F2.IsEchelon (E : List BV) : Prop :=
  E.Pairwise (fun r s => true ∈ s → r.idxOf true < s.idxOf true)

theorem idxOf_eq_of_first {r : BV} {p : Nat} (h1 : bit r p = true)
    (h2 : ∀ c, c < p → bit r c = false) : r.idxOf true = p := by
  have hp : p < r.length := by
    by_contra h
    rw [bit, List.getElem?_eq_none (by omega)] at h1
    cases h1
  have hmem : true ∈ r := by
    rw [bit_lt hp] at h1
    rw [← h1]
    exact List.getElem_mem hp
  have hlt := List.idxOf_lt_length_of_mem hmem
  have hget : r[r.idxOf true] = true := List.getElem_idxOf hlt
  rcases Nat.lt_trichotomy (r.idxOf true) p with h | h | h
  · have := h2 _ h
    rw [bit_lt hlt, hget] at this
    cases this
  · exact h
  · exfalso
    have := List.not_of_lt_findIdx (p := (· == true)) (xs := r) (i := p) h
    rw [bit_lt hp] at h1
    simp [h1] at this

/-- C11: computing the row echelon form never reads out of range; its result is in row echelon form,
and has the same kernel as the original matrix. -/
theorem bmRowEchelonForm_spec (n m : Nat) (hn : 0 < n) (M : BM) (hM : F2.HasShape n m M) :
    ∃ E, bmRowEchelonForm M = ok E ∧ F2.HasShape n m E ∧ F2.IsEchelon E ∧
      ∀ x : BV, x.length = m →
        (F2.mulVec E x = List.replicate n false ↔ F2.mulVec M x = List.replicate n false) := by
  obtain ⟨E, hE, ⟨hEv, P, hP, hPE⟩, r, piv, hech⟩ := bmRowEchelonForm_ok hn hM
  refine ⟨E, hE, hEv, ?_, ?_⟩
  · rw [F2.IsEchelon, List.pairwise_iff_getElem]
    intro i j hi hj hij hmem
    have hjr : j < r := by
      by_contra hjr
      obtain ⟨c, hc, hct⟩ := List.getElem_of_mem hmem
      have h1 := hech.below j c (by omega) (by rw [← hEv.1]; exact hj)
        (by rw [← hEv.row_length hj]; exact hc)
      rw [ent_eq_bit hj, bit_lt hc, hct] at h1
      cases h1
    have hlead : ∀ k (hk : k < E.length), k < r → (E[k]).idxOf true = piv k := by
      intro k hk hkr
      apply idxOf_eq_of_first
      · rw [← ent_eq_bit hk]; exact hech.one k hkr
      · intro c hc
        rw [← ent_eq_bit hk]; exact hech.zero k c hkr hc
    rw [hlead i hi (by omega), hlead j hj hjr]
    exact hech.mono i j hij hjr
  · intro x hx
    have hz : (List.replicate n false).length = n := by simp
    have h0 : toVec n (List.replicate n false) = 0 := by
      funext i
      simp [toVec, bit]
    rw [mulVec_eq_iff hEv hx hz, mulVec_eq_iff hM hx hz, h0, hPE, ← Matrix.mulVec_mulVec]
    constructor
    · intro h
      apply mulVec_injective_iff_isUnit.mpr hP
      change P *ᵥ _ = P *ᵥ 0
      rw [h, Matrix.mulVec_zero]
    · intro h; rw [h, Matrix.mulVec_zero]

example : bmRowEchelonForm [[false, true, true], [true, true, false], [true, false, true]]
    = ok [[true, true, false], [false, true, true], [false, false, false]] := by decide
example : F2.IsEchelon [[true, true, false], [false, true, true], [false, false, false]] := by
  simp [F2.IsEchelon]

/-- C11: the rank computed from the row echelon form is the rank of the original matrix (the
dimension of its row space and of its column space). -/
theorem bmRank_echelon (n m : Nat) (hn : 0 < n) (M : BM) (hM : F2.HasShape n m M) :
    (do let E ← bmRowEchelonForm M
        bmRank E) = ok (F2.matrix n m M).rank := by
  obtain ⟨E, hE, ⟨hEv, P, hP, hPE⟩, r, piv, hech⟩ := bmRowEchelonForm_ok hn hM
  rw [hE, ok_bind, bmRank_ok hn hEv hech]
  congr 1
  rw [← echelon_rank_le hech, hPE, matrix_eq,
    rank_mul_eq_right_of_isUnit_det P _ ((isUnit_iff_isUnit_det P).mp hP)]

example : (do let E ← bmRowEchelonForm [[false, true, true], [true, true, false], [true, false, true]]
              bmRank E) = ok 2 := by decide

/-- C11: the rank equals the number of rows exactly when every vector has a preimage. -/
theorem bmRank_eq_rows_iff (n m : Nat) (hn : 0 < n) (M : BM) (hM : F2.HasShape n m M) :
    (do let E ← bmRowEchelonForm M
        bmRank E) = ok n ↔ F2.Onto n m M := by
  rw [bmRank_echelon n m hn M hM, onto_iff hM, matrix_eq]
  constructor
  · intro h
    have hr : (toMat n m M).rank = n := by simpa using h
    rw [Matrix.rank] at hr
    have htop : LinearMap.range (toMat n m M).mulVecLin = ⊤ := by
      apply Submodule.eq_top_of_finrank_eq
      rw [hr]; simp
    intro v
    obtain ⟨u, hu⟩ := LinearMap.range_eq_top.mp htop v
    exact ⟨u, by simpa using hu⟩
  · intro h
    congr 1
    rw [Matrix.rank, LinearMap.range_eq_top.mpr, finrank_top]
    · simp
    · intro v
      obtain ⟨u, hu⟩ := h v
      exact ⟨u, by simpa using hu⟩

/-! ## C12: solving linear systems -/

theorem rhs_solution {n : Nat} {A A' : BM} {b x : BV} (hA : A.Valid n n)
    (hl : Linked (toMat n n A) (RhsOf (n := n) b) (A', x)) (hb : b.length = n)
    (hone : toMat n n A' = 1) : x.length = n ∧ F2.mulVec A x = b := by
  obtain ⟨hv, P, hP, hPA, hx, hPx⟩ := hl
  have h1 : P * toMat n n A = 1 := by rw [← hPA]; exact hone
  have h2 : toMat n n A * P = 1 := mul_eq_one_comm.mp h1
  refine ⟨hx, ?_⟩
  rw [mulVec_eq_iff hA hx hb, hPx, Matrix.mulVec_mulVec, h2, Matrix.one_mulVec]

theorem linked_det {n : Nat} {A0 : Matrix (Fin n) (Fin n) (ZMod 2)} {τ : Type}
    {Q : Matrix (Fin n) (Fin n) (ZMod 2) → τ → Prop} {s : BM × τ} (hl : Linked A0 Q s)
    (hone : toMat n n s.1 = 1) : A0.det ≠ 0 := by
  obtain ⟨hv, P, hP, hPA, -⟩ := hl
  rw [hone] at hPA
  intro h
  have := congrArg Matrix.det hPA
  rw [det_mul, h, det_one, mul_zero] at this
  exact one_ne_zero this

/-- C12: for every square matrix and right-hand side, the solver runs without out of range access or
failed assertion; it answers true exactly when the matrix is invertible; in that case the right-hand
side has become the unique solution and the matrix has become the identity. -/
theorem bmSolve_correct (n : Nat) (hn : 0 < n) (A : BM) (hA : F2.HasShape n n A) (b : BV)
    (hb : b.length = n) :
    ∃ found A' x, bmSolve A b = ok (found, A', x) ∧ (found = true ↔ F2.Invertible n A) ∧
      (found = true → x.length = n ∧ F2.mulVec A x = b ∧
        (∀ x' : BV, x'.length = n → F2.mulVec A x' = b → x' = x) ∧ F2.IsIdentity n A') := by
  obtain ⟨⟨found, A', x⟩, h, hl, h1, h2⟩ := bmSolve_ok hn hA hb
  have hiff : found = true ↔ F2.Invertible n A := by
    rw [invertible_iff hA]
    constructor
    · intro hf; exact linked_det hl (h1 hf)
    · intro hd
      cases found with
      | true => rfl
      | false => exact absurd (h2 rfl) hd
  refine ⟨found, A', x, h, hiff, ?_⟩
  intro hf
  have hone := h1 hf
  obtain ⟨hx, hAx⟩ := rhs_solution hA hl hb hone
  refine ⟨hx, hAx, ?_, ?_⟩
  · intro x' hx' hAx'
    obtain ⟨z, _, _, hz⟩ := hiff.mp hf b hb
    rw [hz x' hx' hAx', hz x hx hAx]
  · exact isIdentity_iff.mpr ⟨hl.1, ent_of_toMat_eq_one hone⟩

example : bmSolve [[false, true, true], [true, true, false], [false, false, true]]
      [true, false, true] = ok (true, [[true, false, false], [false, true, false],
        [false, false, true]], [false, false, true]) := by decide
example : (bmSolve [[true, true], [true, true]] [true, false]).Returns (fun r => r.1 = false) :=
  ⟨_, rfl, rfl⟩

/-- C12: on a unit upper triangular matrix the triangular solver answers true with the unique
solution. -/
theorem bmSolveUpperTriangular_correct (n : Nat) (hn : 0 < n) (A : BM) (hA : F2.HasShape n n A)
    (hu : ∀ (i j : Nat), j < i → i < n → (A[i]?.bind (fun row => row[j]?)) = some false)
    (hd : ∀ (i : Nat), i < n → (A[i]?.bind (fun row => row[i]?)) = some true)
    (b : BV) (hb : b.length = n) :
    ∃ A' x, bmSolveUpperTriangular A b = ok (true, A', x) ∧ x.length = n ∧ F2.mulVec A x = b ∧
      (∀ x' : BV, x'.length = n → F2.mulVec A x' = b → x' = x) ∧ F2.IsIdentity n A' := by
  have hent : ∀ i j v, i < n → (A[i]?.bind (fun row => row[j]?)) = some v → ent A i j = v := by
    intro i j v hi h
    have h1 : i < A.length := by rw [hA.1]; exact hi
    rw [List.getElem?_eq_getElem h1, Option.bind_some] at h
    rw [ent_eq_bit h1, bit, h]; rfl
  have hup : UpTo n n A := by
    refine ⟨?_, ?_⟩
    · intro a c _ hca ha; exact hent a c _ ha (hu a c hca ha)
    · intro a ha; exact hent a a _ ha (hd a ha)
  obtain ⟨⟨f, A', x⟩, h, hf, hl, hone⟩ := bmSolveUpperTriangular_ok (A0 := toMat n n A) (b0 := b) hn
    (A := A) (b := b) ⟨hA, 1, isUnit_one, by simp, hb, by simp⟩ hup
  simp only at hf
  subst hf
  obtain ⟨hx, hAx⟩ := rhs_solution hA hl hb hone
  refine ⟨A', x, h, hx, hAx, ?_, ?_⟩
  · intro x' hx' hAx'
    have hinv := (invertible_iff hA).mpr (linked_det hl hone)
    obtain ⟨z, _, _, hz⟩ := hinv b hb
    rw [hz x' hx' hAx', hz x hx hAx]
  · exact isIdentity_iff.mpr ⟨hl.1, ent_of_toMat_eq_one hone⟩

example : bmSolveUpperTriangular [[true, true], [false, true]] [true, true]
    = ok (true, [[true, false], [false, true]], [false, true]) := by decide

theorem backwardG_linked {n : Nat} {τ : Type} {sw : τ → Nat → Nat → Outcome τ}
    {ad : BM × τ → Nat → Nat → Outcome (BM × τ)} {Q : Matrix (Fin n) (Fin n) (ZMod 2) → τ → Prop}
    {A0 : Matrix (Fin n) (Fin n) (ZMod 2)} (hc : Companion n sw ad Q) {s : BM × τ}
    (hs : Linked A0 Q s) : (backwardG ad n s).Returns (Linked A0 Q) := by
  unfold backwardG
  refine forRange_returns (fun _ t => Linked A0 Q t) (Nat.zero_le n) hs ?_
  rintro k t - hk ht
  refine forRange_returns (fun _ t => Linked A0 Q t) (Nat.zero_le _) ht ?_
  rintro j u - hj hu
  rw [hu.1.mget (show j < n by omega) (show n - 1 - k < n by omega)]
  simp only [ok_bind]
  split
  · exact (hu.add hc (by omega) (by omega) (by omega)).mono (fun _ h => h.1)
  · exact ⟨u, rfl, hu⟩

/-- C12: the triangular solver never answers false: on an upper triangular matrix that is not
invertible (a zero on the diagonal) its final assertion fails. -/
theorem bmSolveUpperTriangular_singular (n : Nat) (hn : 0 < n) (A : BM) (hA : F2.HasShape n n A)
    (hs : ¬ F2.Invertible n A) (b : BV) : bmSolveUpperTriangular A b = ub := by
  have hA' : A.Valid n n := hA
  simp only [bmSolveUpperTriangular, hA'.isSquare hn, ok_bind, beq_self_eq_true, assert_true]
  by_cases hb : b.length = n
  · have : (A.length == b.length) = true := by rw [hA.1, hb]; simp
    rw [this]
    simp only [assert_true, ok_bind]
    have hup : (bmIsUpperTriangular A).Returns (fun _ => True) := by
      simp only [bmIsUpperTriangular, hA'.numColumns hn, ok_bind, hA.1]
      have hz : ∀ i, i < n → ∀ k j, j + k ≤ n → (zeroPrefix A i k j).Returns (fun _ => True) := by
        intro i hi k
        induction k with
        | zero => intro j _; exact ⟨true, rfl, trivial⟩
        | succ k ih =>
          intro j hj
          unfold zeroPrefix
          rw [hA'.mget hi (by omega)]
          simp only [ok_bind]
          split
          · exact ⟨false, rfl, trivial⟩
          · exact ih (j + 1) (by omega)
      have hr : ∀ k i, i + k = n → (upperRows A n k i).Returns (fun _ => True) := by
        intro k
        induction k with
        | zero => intro i _; exact ⟨true, rfl, trivial⟩
        | succ k ih =>
          intro i hi
          unfold upperRows
          refine (hz i (by omega) _ 0 (by omega)).bind ?_
          intro v _
          split
          · exact ih (i + 1) (by omega)
          · exact ⟨false, rfl, trivial⟩
      exact hr n 0 (by omega)
    obtain ⟨v, hv, -⟩ := hup
    rw [hv]
    cases v with
    | false => rfl
    | true =>
      simp only [ok_bind, assert_true, hA.1, solveBackward_eq]
      obtain ⟨t, ht, hl⟩ := backwardG_linked (A0 := toMat n n A) (solve_companion b) (s := (A, b))
        ⟨hA, 1, isUnit_one, by simp, hb, by simp⟩
      rw [ht]
      simp only [ok_bind]
      have hnot : bmIsIdentity t.1 ≠ ok true := by
        intro h
        obtain ⟨k, hk, hid⟩ := (bmIsIdentity_iff t.1).mp h
        have hkn : k = n := by rw [← hid.1.1, hl.1.1]
        subst hkn
        exact hs ((invertible_iff hA).mpr (linked_det hl (toMat_eq_one (isIdentity_iff.mp hid).2)))
      cases hi : bmIsIdentity t.1 with
      | ub => rfl
      | throw e =>
        exfalso
        have hsq := hl.1.isSquare hn
        simp only [bmIsIdentity, hl.1.isValid hn hn, ok_bind, hsq, beq_self_eq_true,
          Bool.not_true, Bool.false_eq_true, if_false] at hi
        have hrow : ∀ row i k j, identityRow row i k j ≠ .throw e := by
          intro row i k
          induction k with
          | zero => intro j h; cases h
          | succ k ih =>
            intro j h
            unfold identityRow vget at h
            cases hj : row[j]? with
            | none => rw [hj] at h; cases h
            | some c =>
              rw [hj] at h
              simp only [ok_bind] at h
              split at h
              · split at h
                · cases h
                · exact ih _ h
              · split at h
                · cases h
                · exact ih _ h
        have hrows : ∀ k i, identityRows t.1 k i ≠ .throw e := by
          intro k
          induction k with
          | zero => intro i h; cases h
          | succ k ih =>
            intro i h
            unfold identityRows vget at h
            cases hj : t.1[i]? with
            | none => rw [hj] at h; cases h
            | some c =>
              rw [hj] at h
              simp only [ok_bind] at h
              cases hc : identityRow c i t.1.length 0 with
              | ub => rw [hc] at h; cases h
              | throw e' =>
                rw [hc] at h
                simp only [throw_bind, Outcome.throw.injEq] at h
                exact hrow c i _ _ (h ▸ hc)
              | ok v =>
                rw [hc] at h
                simp only [ok_bind] at h
                split at h
                · exact ih _ h
                · cases h
        exact hrows _ _ hi
      | ok v =>
        cases v with
        | true => exact absurd hi hnot
        | false => rfl
  · have : (A.length == b.length) = false := by
      rw [hA.1]; simpa using fun h => hb h.symm
    rw [this]
    rfl

example : bmSolveUpperTriangular [[true, true], [false, false]] [true, true] = ub := by decide

/-! ## C13: inverting matrices -/

/-- C13: for every square matrix, and whatever the previous contents of the second argument, inversion
runs without out of range access or failed assertion; it answers true exactly when the matrix is
invertible; in that case the matrix has become the identity and the second argument is the two-sided
inverse of the original matrix. -/
theorem bmInvert_correct (n : Nat) (hn : 0 < n) (M N : BM) (hM : F2.HasShape n n M)
    (hN : F2.HasShape n n N) :
    ∃ found M' N', bmInvert M N = ok (found, M', N') ∧ (found = true ↔ F2.Invertible n M) ∧
      (found = true → F2.IsIdentity n M' ∧ F2.HasShape n n N' ∧
        (∀ x : BV, x.length = n → F2.mulVec N' (F2.mulVec M x) = x) ∧
        (∀ x : BV, x.length = n → F2.mulVec M (F2.mulVec N' x) = x)) := by
  obtain ⟨⟨found, M', N'⟩, h, hl, h1, h2⟩ := bmInvert_ok hn hM hN
  refine ⟨found, M', N', h, ?_, ?_⟩
  · rw [invertible_iff hM]
    constructor
    · intro hf; exact linked_det hl (h1 hf)
    · intro hd
      cases found with
      | true => rfl
      | false => exact absurd (h2 rfl) hd
  · intro hf
    have hone := h1 hf
    refine ⟨isIdentity_iff.mpr ⟨hl.1, ent_of_toMat_eq_one hone⟩, ?_⟩
    obtain ⟨hv, P, hP, hPM, hN', hPN⟩ := hl
    simp only at hPN hN' hPM hone
    have g1 : P * toMat n n M = 1 := by rw [← hPM]; exact hone
    have g2 : toMat n n M * P = 1 := mul_eq_one_comm.mp g1
    have hlen : ∀ x : BV, (F2.mulVec M x).length = n := fun x => by rw [mulVec_length, hM.1]
    have hlen' : ∀ x : BV, (F2.mulVec N' x).length = n := fun x => by rw [mulVec_length, hN'.1]
    refine ⟨hN', ?_, ?_⟩
    · intro x hx
      rw [mulVec_eq_iff hN' (hlen x) hx, hPN, toVec_mulVec hM hx, Matrix.mulVec_mulVec, g1,
        Matrix.one_mulVec]
    · intro x hx
      rw [mulVec_eq_iff hM (hlen' x) hx, toVec_mulVec hN' hx, hPN, Matrix.mulVec_mulVec, g2,
        Matrix.one_mulVec]

example : bmInvert [[false, true], [true, true]] [[true, true], [true, true]]
    = ok (true, [[true, false], [false, true]], [[true, true], [true, false]]) := by decide
example : (bmInvert [[true, true], [true, true]] [[true, true], [true, true]]).Returns
    (fun r => r.1 = false) := ⟨_, rfl, rfl⟩

end Hnco
