import Verif.Matrix.Elim

/-! # Solving, inverting and echelon form: helper lemmas -/

namespace Hnco

open Outcome Matrix

variable {n m : Nat} {M : BM}

theorem identityRow_ok {row : BV} {i : Nat} : ∀ (k j : Nat), j + k = n → row.length = n →
    (∀ c, j ≤ c → c < n → bit row c = decide (i = c)) → identityRow row i k j = ok true := by
  intro k
  induction k with
  | zero => intros; rfl
  | succ k ih =>
    intro j hj hl h
    unfold identityRow
    rw [vget_bit (by omega), h j (Nat.le_refl _) (by omega)]
    simp only [ok_bind]
    have := ih (j + 1) (by omega) hl (fun c h1 h2 => h c (by omega) h2)
    by_cases hij : i = j
    · simp [hij] at this ⊢; exact this
    · simp [hij]; exact this

theorem identityRows_ok (hM : M.Valid n n) (h : ∀ a c, a < n → c < n → ent M a c = decide (a = c)) :
    ∀ (k i : Nat), i + k = n → identityRows M k i = ok true := by
  intro k
  induction k with
  | zero => intros; rfl
  | succ k ih =>
    intro i hi
    have hi' : i < M.length := by rw [hM.1]; omega
    unfold identityRows
    rw [vget_eq hi']
    simp only [ok_bind]
    rw [hM.1, identityRow_ok (n := n) n 0 (by omega) (hM.row_length hi')]
    · simp only [ok_bind, if_true]; exact ih (i + 1) (by omega)
    · intro c _ hc
      rw [← ent_eq_bit hi']
      exact h i c (by omega) hc

theorem bmIsIdentity_ok (hn : 0 < n) (hM : M.Valid n n)
    (h : ∀ a c, a < n → c < n → ent M a c = decide (a = c)) : bmIsIdentity M = ok true := by
  simp only [bmIsIdentity, hM.isValid hn hn, ok_bind, hM.isSquare hn, beq_self_eq_true,
    Bool.not_true, Bool.false_eq_true, if_false, hM.1]
  exact identityRows_ok hM h n 0 (by omega)

theorem zeroPrefix_ok (hM : M.Valid n m) {i : Nat} (hi : i < n) : ∀ (k j : Nat), j + k ≤ m →
    (∀ c, j ≤ c → c < j + k → ent M i c = false) → zeroPrefix M i k j = ok true := by
  intro k
  induction k with
  | zero => intros; rfl
  | succ k ih =>
    intro j hj h
    unfold zeroPrefix
    rw [hM.mget hi (by omega), h j (Nat.le_refl _) (by omega)]
    simp only [ok_bind]
    exact ih (j + 1) (by omega) (fun c h1 h2 => h c (by omega) (by omega))

theorem upperRows_ok (hM : M.Valid n m)
    (h : ∀ a c, c < m → c < a → a < n → ent M a c = false) :
    ∀ (k i : Nat), i + k = n → upperRows M m k i = ok true := by
  intro k
  induction k with
  | zero => intros; rfl
  | succ k ih =>
    intro i hi
    unfold upperRows
    rw [zeroPrefix_ok hM (by omega) _ _ (by omega)]
    · simp only [ok_bind, if_true]; exact ih (i + 1) (by omega)
    · intro c _ hc
      exact h i c (by omega) (by omega) (by omega)

theorem bmIsUpperTriangular_ok (hn : 0 < n) (hM : M.Valid n m)
    (h : ∀ a c, c < m → c < a → a < n → ent M a c = false) : bmIsUpperTriangular M = ok true := by
  simp only [bmIsUpperTriangular, hM.numColumns hn, ok_bind, hM.1]
  exact upperRows_ok hM h n 0 (by omega)

theorem toMat_eq_one (h : ∀ a c, a < n → c < n → ent M a c = decide (a = c)) :
    toMat n n M = 1 := by
  ext a c
  simp only [toMat, h a c a.2 c.2, Matrix.one_apply]
  by_cases e : a = c
  · subst e; simp
  · have : a.val ≠ c.val := fun e' => e (Fin.ext e')
    simp [e, this]

theorem ent_of_toMat_eq_one (h : toMat n n M = 1) :
    ∀ a c, a < n → c < n → ent M a c = decide (a = c) := by
  intro a c ha hc
  have := congrFun (congrFun h ⟨a, ha⟩) ⟨c, hc⟩
  simp only [toMat, Matrix.one_apply, Fin.mk.injEq] at this
  by_cases e : a = c
  · subst e
    simp at this ⊢
    rw [← toF_true] at this
    exact toF_inj.mp this
  · simp [e] at this ⊢
    rw [← toF_false] at this
    exact toF_inj.mp this

theorem bmIdentity_ok (hn : 0 < n) (hM : M.Valid n n) :
    (bmIdentity M).Returns (fun I => I.Valid n n ∧
      ∀ a c, a < n → c < n → ent I a c = decide (a = c)) := by
  have hv : (bmClear M).Valid n n := by
    refine ⟨by rw [bmClear, List.length_map, hM.1], ?_⟩
    intro row hrow
    obtain ⟨r, hr, rfl⟩ := List.mem_map.mp hrow
    simp [bvClear, hM.2 r hr]
  have hz : ∀ a c, ent (bmClear M) a c = false := by
    intro a c
    unfold ent bmClear bvClear
    rw [List.getElem?_map]
    cases h : M[a]? with
    | none => simp
    | some r => simp [List.getElem?_replicate]; split <;> rfl
  simp only [bmIdentity]
  rw [hM.isValid hn hn, hM.isSquare hn]
  simp only [ok_bind, beq_self_eq_true, assert_true]
  rw [hv.1]
  refine (forRange_returns (fun i I => I.Valid n n ∧
    ∀ a c, a < n → c < n → ent I a c = (decide (a < i) && decide (a = c))) (Nat.zero_le n)
    ⟨hv, by intro a c _ _; rw [hz]; simp⟩ ?_).mono ?_
  · rintro i I - hi ⟨hI, he⟩
    refine (hI.mset hi hi true).mono ?_
    rintro I' ⟨hI', he'⟩
    refine ⟨hI', ?_⟩
    intro a c ha hc
    rw [he', he a c ha hc]
    by_cases h1 : a = i
    · subst h1
      by_cases h2 : c = a
      · simp [h2]
      · have h2' : ¬ a = c := fun e => h2 e.symm
        simp [h2, h2']
    · have : a < i + 1 ↔ a < i := by omega
      simp [h1, this]
  · rintro I ⟨hI, he⟩
    refine ⟨hI, ?_⟩
    intro a c ha hc
    rw [he a c ha hc]; simp [ha]

/-- The state of the right-hand side relative to the original one. -/
def RhsOf (b0 : BV) (P : Matrix (Fin n) (Fin n) (ZMod 2)) (b : BV) : Prop :=
  b.length = n ∧ toVec n b = P *ᵥ toVec n b0

theorem bvSwap_ok {b : BV} {i p : Nat} (hi : i < b.length) (hp : p < b.length) :
    (bvSwap b i p).Returns (fun b' => b'.length = b.length ∧
      ∀ a, bit b' a = if a = i then bit b p else if a = p then bit b i else bit b a) := by
  refine ⟨(b.set i (bit b p)).set p (bit b i), ?_, by simp, ?_⟩
  · simp only [bvSwap, vget_bit hi, vget_bit hp, ok_bind, vset_eq hi]
    rw [vset_eq (by simpa using hp)]
  · intro a
    rw [bit_set (by simpa using hp), bit_set hi]
    by_cases h1 : a = p
    · subst h1
      by_cases h2 : a = i
      · simp [h2]
      · simp [h2]
    · simp [h1]

theorem solve_companion (b0 : BV) :
    Companion n bvSwap addRowsAndRhs (RhsOf (n := n) b0) where
  swap := by
    rintro P b i p hi hp ⟨hb, hv⟩
    refine (bvSwap_ok (by omega) (by omega)).mono ?_
    rintro b' ⟨hl, he⟩
    refine ⟨by omega, ?_⟩
    rw [← Matrix.mulVec_mulVec, ← hv]
    ext a
    rw [swap_mulVec]
    simp only [toVec, he, Function.comp_apply]
    by_cases h1 : a = ⟨i, hi⟩
    · subst h1; simp
    · have h1' : a.val ≠ i := fun e => h1 (Fin.ext e)
      by_cases h2 : a = ⟨p, hp⟩
      · subst h2; simp at h1' ⊢; simp [h1']
      · have h2' : a.val ≠ p := fun e => h2 (Fin.ext e)
        rw [Equiv.swap_apply_of_ne_of_ne h1 h2]; simp [h1', h2']
  add := by
    rintro P A b j i hj hi hij hA ⟨hb, hv⟩
    obtain ⟨A', hA', hvA, he⟩ := hA.addRows hj hi hij
    have hib : i < b.length := by omega
    have hjb : j < b.length := by omega
    refine ⟨(A', b.set j (bit b i ^^ bit b j)), ?_, hvA, he, ?_, ?_⟩
    · simp only [addRowsAndRhs, hA', ok_bind, vget_bit hib, vget_bit hjb, vset_eq hjb, pure_eq]
    · simp [hb]
    · rw [← Matrix.mulVec_mulVec, ← hv]
      ext a
      simp only [toVec, bit_set hjb, transvection, Matrix.add_mulVec, Matrix.one_mulVec,
        Pi.add_apply]
      rw [Matrix.single_mulVec]
      by_cases h1 : a = ⟨j, hj⟩
      · subst h1
        simp [toF_xor, add_comm, toVec]
      · have h1' : a.val ≠ j := fun e => h1 (Fin.ext e)
        simp [h1', h1]

theorem solveForward_eq (nrows : Nat) : ∀ k i s,
    solveForward nrows k i s = forwardG bvSwap addRowsAndRhs nrows k i s := by
  intro k
  induction k with
  | zero => intros; rfl
  | succ k ih =>
    intro i s
    unfold solveForward forwardG
    congr 1
    funext o
    cases o with
    | none => rfl
    | some p => simp only [ih]; rfl

theorem solveBackward_eq (nrows : Nat) (s : BM × BV) :
    solveBackward nrows s = backwardG addRowsAndRhs nrows s := rfl

theorem bmSolveUpperTriangular_ok (hn : 0 < n) {A : BM} {b : BV} {A0 : Matrix (Fin n) (Fin n) (ZMod 2)}
    {b0 : BV} (hl : Linked A0 (RhsOf (n := n) b0) (A, b)) (hu : UpTo n n A) :
    (bmSolveUpperTriangular A b).Returns (fun r => r.1 = true ∧
      Linked A0 (RhsOf (n := n) b0) r.2 ∧ toMat n n r.2.1 = 1) := by
  have hA : A.Valid n n := hl.1
  have hb : b.length = n := by obtain ⟨_, P, _, _, h⟩ := hl; exact h.1
  simp only [bmSolveUpperTriangular, hA.isSquare hn, ok_bind, beq_self_eq_true, assert_true, hA.1, hb,
    bmIsUpperTriangular_ok hn hA (fun a c h1 h2 h3 => hu.1 a c h1 h2 h3), solveBackward_eq]
  refine (backwardG_ok (solve_companion b0) hl hu).bind ?_
  rintro t ⟨ht, hid⟩
  rw [bmIsIdentity_ok hn ht.1 hid]
  exact ⟨(true, t), rfl, rfl, ht, toMat_eq_one hid⟩

theorem UpTo_zero (A : BM) : UpTo n 0 A :=
  ⟨by intro a c h; omega, by intro a h; omega⟩

theorem bmSolve_ok (hn : 0 < n) {A : BM} {b : BV} (hA : A.Valid n n) (hb : b.length = n) :
    (bmSolve A b).Returns (fun r => Linked (toMat n n A) (RhsOf (n := n) b) r.2 ∧
      (r.1 = true → toMat n n r.2.1 = 1) ∧ (r.1 = false → (toMat n n A).det = 0)) := by
  simp only [bmSolve, hA.isSquare hn, ok_bind, beq_self_eq_true, assert_true, hA.1, hb,
    solveForward_eq]
  refine (forwardG_ok (A0 := toMat n n A) (solve_companion b) n 0 (A, b) (by omega)
    ⟨hA, 1, isUnit_one, by simp, hb, by simp⟩ (UpTo_zero A)).bind ?_
  rintro ⟨found, s⟩ ⟨hl, h1, h2⟩
  cases found with
  | false => exact ⟨(false, s), rfl, hl, (by intro h; cases h), fun _ => h2 rfl⟩
  | true =>
    have hu := h1 rfl
    simp only [Bool.not_true, Bool.false_eq_true, if_false]
    rw [bmIsUpperTriangular_ok hn hl.1 (fun a c h1 h2 h3 => hu.1 a c h1 h2 h3)]
    simp only [ok_bind, assert_true]
    refine (bmSolveUpperTriangular_ok hn hl hu).mono ?_
    rintro ⟨f, t⟩ ⟨hf, ht, hone⟩
    refine ⟨ht, fun _ => hone, ?_⟩
    intro h
    rw [hf] at h
    cases h

/-- The companion matrix is the accumulated product of row operations. -/
def IsProd (P : Matrix (Fin n) (Fin n) (ZMod 2)) (N : BM) : Prop :=
  N.Valid n n ∧ toMat n n N = P

theorem invert_companion : Companion n bmSwapRows addRowsBoth (IsProd (n := n)) where
  swap := by
    rintro P N i p hi hp ⟨hN, hv⟩
    refine (hN.swapRows hi hp).mono ?_
    rintro N' ⟨hN', he⟩
    exact ⟨hN', by rw [toMat_swapRows hi hp he, hv]⟩
  add := by
    rintro P A N j i hj hi hij hA ⟨hN, hv⟩
    obtain ⟨A', hA', hvA, he⟩ := hA.addRows hj hi hij
    obtain ⟨N', hN', hvN, heN⟩ := hN.addRows hj hi hij
    refine ⟨(A', N'), ?_, hvA, he, hvN, ?_⟩
    · simp only [addRowsBoth, hA', hN', ok_bind, pure_eq]
    · rw [toMat_addRows hj hi heN, hv]

theorem invertForward_eq (nrows : Nat) : ∀ k i s,
    invertForward nrows k i s = forwardG bmSwapRows addRowsBoth nrows k i s := by
  intro k
  induction k with
  | zero => intros; rfl
  | succ k ih =>
    intro i s
    unfold invertForward forwardG
    congr 1
    funext o
    cases o with
    | none => rfl
    | some p => simp only [ih]; rfl

theorem invertBackward_eq (nrows : Nat) (s : BM × BM) :
    invertBackward nrows s = backwardG addRowsBoth nrows s := rfl

theorem bmInvert_ok (hn : 0 < n) {A N : BM} (hA : A.Valid n n) (hN : N.Valid n n) :
    (bmInvert A N).Returns (fun r => Linked (toMat n n A) (IsProd (n := n)) r.2 ∧
      (r.1 = true → toMat n n r.2.1 = 1) ∧ (r.1 = false → (toMat n n A).det = 0)) := by
  simp only [bmInvert, hA.isSquare hn, hN.isSquare hn, ok_bind, beq_self_eq_true, assert_true, hA.1,
    hN.1, invertForward_eq, invertBackward_eq]
  refine (bmIdentity_ok hn hN).bind ?_
  rintro I ⟨hI, hIe⟩
  refine (forwardG_ok (A0 := toMat n n A) invert_companion n 0 (A, I) (by omega)
    ⟨hA, 1, isUnit_one, by simp, hI, toMat_eq_one hIe⟩ (UpTo_zero A)).bind ?_
  rintro ⟨found, s⟩ ⟨hl, h1, h2⟩
  cases found with
  | false => exact ⟨(false, s), rfl, hl, (by intro h; cases h), fun _ => h2 rfl⟩
  | true =>
    have hu := h1 rfl
    simp only [Bool.not_true, Bool.false_eq_true, if_false]
    rw [bmIsUpperTriangular_ok hn hl.1 (fun a c h1 h2 h3 => hu.1 a c h1 h2 h3)]
    simp only [ok_bind, assert_true]
    refine (backwardG_ok invert_companion hl hu).bind ?_
    rintro t ⟨ht, hid⟩
    rw [bmIsIdentity_ok hn ht.1 hid]
    exact ⟨(true, t), rfl, ht, fun _ => toMat_eq_one hid, by intro h; cases h⟩

end Hnco
