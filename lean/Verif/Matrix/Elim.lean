import Verif.Matrix.Lemmas

/-! # Gaussian elimination: helper lemmas -/

namespace Hnco

open Outcome Matrix

/-- A bit as an element of the field with two elements. -/
def toF (b : Bool) : ZMod 2 := if b then 1 else 0

theorem toF_xor (a b : Bool) : toF (a ^^ b) = toF a + toF b := by cases a <;> cases b <;> decide

theorem toF_and (a b : Bool) : toF (a && b) = toF a * toF b := by cases a <;> cases b <;> decide

theorem toF_inj {a b : Bool} : toF a = toF b ↔ a = b := by cases a <;> cases b <;> decide

theorem toF_surj (u : ZMod 2) : ∃ b, toF b = u := by
  revert u; decide

@[simp] theorem toF_true : toF true = 1 := rfl
@[simp] theorem toF_false : toF false = 0 := rfl

/-- A bit matrix as a Mathlib matrix. -/
def toMat (n m : Nat) (M : BM) : Matrix (Fin n) (Fin m) (ZMod 2) := fun i j => toF (ent M i j)

/-- A bit vector as a Mathlib vector. -/
def toVec (n : Nat) (x : BV) : Fin n → ZMod 2 := fun i => toF (bit x i)

theorem toVec_inj {n : Nat} {x y : BV} (hx : x.length = n) (hy : y.length = n)
    (h : toVec n x = toVec n y) : x = y := by
  apply bv_ext (by rw [hx, hy])
  intro i hi
  exact toF_inj.mp (congrFun h ⟨i, by omega⟩)

theorem toVec_surj {n : Nat} (v : Fin n → ZMod 2) : ∃ x : BV, x.length = n ∧ toVec n x = v := by
  refine ⟨List.ofFn (fun i => decide (v i = 1)), by simp, ?_⟩
  funext i
  have hb : bit (List.ofFn (fun i => decide (v i = 1))) i = decide (v i = 1) := by
    rw [bit_lt (by simp)]; simp
  unfold toVec
  rw [hb]
  generalize v i = u
  revert u
  decide

theorem toMat_inj {n m : Nat} {A B : BM} (hA : A.Valid n m) (hB : B.Valid n m)
    (h : toMat n m A = toMat n m B) : A = B := by
  apply hA.ext hB
  intro i j hi hj
  exact toF_inj.mp (congrFun (congrFun h ⟨i, hi⟩) ⟨j, hj⟩)

/-- Number of common ones modulo 2, as a sum. -/
theorem count_and_cast : ∀ (n : Nat) (r x : BV), r.length = n → x.length = n →
    (((List.zipWith and r x).count true : Nat) : ZMod 2)
      = ∑ i : Fin n, toF (bit r i) * toF (bit x i) := by
  intro n
  induction n with
  | zero => intro r x hr hx; rw [List.length_eq_zero_iff] at hr; subst hr; simp
  | succ n ih =>
    intro r x hr hx
    match r, x, hr, hx with
    | a :: r, b :: x, hr, hx =>
      simp only [List.length_cons, Nat.add_right_cancel_iff] at hr hx
      rw [Fin.sum_univ_succ, List.zipWith_cons_cons, List.count_cons]
      have := ih r x hr hx
      rw [Nat.cast_add, this, add_comm]
      congr 1
      · rw [← toF_and]
        simp only [bit, Fin.val_zero, List.getElem?_cons_zero, Option.getD_some]
        cases a <;> cases b <;> simp

theorem toF_parity (k : Nat) : toF (decide (k % 2 = 1)) = (k : ZMod 2) := by
  rcases Nat.mod_two_eq_zero_or_one k with h | h
  · rw [h]
    have : (k : ZMod 2) = 0 := by
      rw [ZMod.natCast_eq_zero_iff]; omega
    rw [this]; rfl
  · rw [h]
    have : (k : ZMod 2) = 1 := by
      have : ((k - 1 : Nat) : ZMod 2) = 0 := by rw [ZMod.natCast_eq_zero_iff]; omega
      have h2 : k = (k - 1) + 1 := by omega
      rw [h2, Nat.cast_add, this]; simp
    rw [this]; rfl

theorem toMat_addRows {n m : Nat} {M M' : BM} {d s : Nat} (hd : d < n) (hs : s < n)
    (h : ∀ a c, ent M' a c = if a = d then (ent M d c ^^ ent M s c) else ent M a c) :
    toMat n m M' = transvection ⟨d, hd⟩ ⟨s, hs⟩ (1 : ZMod 2) * toMat n m M := by
  ext a c
  by_cases ha : a = ⟨d, hd⟩
  · subst ha
    rw [transvection_mul_apply_same]
    simp only [toMat, h, if_true, toF_xor, one_mul]
  · rw [transvection_mul_apply_of_ne _ _ _ _ ha]
    have : a.val ≠ d := fun e => ha (Fin.ext e)
    simp only [toMat, h, this, if_false]

theorem toMat_swapRows {n m : Nat} {M M' : BM} {i j : Nat} (hi : i < n) (hj : j < n)
    (h : ∀ a c, a < n → c < m →
        ent M' a c = if a = i then ent M j c else if a = j then ent M i c else ent M a c) :
    toMat n m M' = swap (ZMod 2) ⟨i, hi⟩ ⟨j, hj⟩ * toMat n m M := by
  ext a c
  by_cases ha : a = ⟨i, hi⟩
  · subst ha
    rw [swap_mul_apply_left]
    simp [toMat, h i c hi c.2]
  · have hai : a.val ≠ i := fun e => ha (Fin.ext e)
    by_cases hb : a = ⟨j, hj⟩
    · subst hb
      rw [swap_mul_apply_right]
      simp only [toMat, h j c hj c.2]
      simp only at hai
      simp [hai]
    · have haj : a.val ≠ j := fun e => hb (Fin.ext e)
      rw [swap_mul_of_ne ha hb]
      simp [toMat, h a c a.2 c.2, hai, haj]

theorem isUnit_transvection {n : Nat} {i j : Fin n} (h : i ≠ j) :
    IsUnit (transvection i j (1 : ZMod 2)) := by
  rw [isUnit_iff_isUnit_det, det_transvection_of_ne _ _ h]
  exact isUnit_one

theorem isUnit_swap {n : Nat} (i j : Fin n) : IsUnit (swap (ZMod 2) i j) :=
  IsUnit.of_mul_eq_one _ (swap_mul_self _ _)

theorem findPivot_ok {n m : Nat} {A : BM} (hA : A.Valid n m) {col : Nat} (hcol : col < m) :
    ∀ (k i : Nat), i + k = n → (findPivot A col k i).Returns (fun o =>
      match o with
      | none => ∀ a, i ≤ a → a < n → ent A a col = false
      | some p => i ≤ p ∧ p < n ∧ ent A p col = true ∧
          ∀ a, i ≤ a → a < p → ent A a col = false) := by
  intro k
  induction k with
  | zero => intro i hi; exact ⟨none, rfl, by intro a h1 h2; omega⟩
  | succ k ih =>
    intro i hi
    have hin : i < n := by omega
    unfold findPivot
    rw [hA.mget hin hcol]
    simp only [ok_bind]
    cases hb : ent A i col with
    | true =>
      exact ⟨some i, rfl, Nat.le_refl _, hin, hb, by intro a h1 h2; omega⟩
    | false =>
      refine (ih (i + 1) (by omega)).mono ?_
      intro o ho
      cases o with
      | none =>
        intro a h1 h2
        rcases Nat.eq_or_lt_of_le h1 with e | e
        · rw [← e]; exact hb
        · exact ho a e h2
      | some p =>
        obtain ⟨h1, h2, h3, h4⟩ := ho
        refine ⟨by omega, h2, h3, ?_⟩
        intro a h5 h6
        rcases Nat.eq_or_lt_of_le h5 with e | e
        · rw [← e]; exact hb
        · exact h4 a e h6

section generic

variable {τ : Type} {n : Nat}

/-- Common shape of the conditional swaps. -/
def pivotG (sw : τ → Nat → Nat → Outcome τ) (s : BM × τ) (i pivot : Nat) : Outcome (BM × τ) :=
  if pivot ≠ i then do
    let A ← bmSwapRows s.1 i pivot
    let b ← sw s.2 i pivot
    return (A, b)
  else return s

/-- Common shape of the forward eliminations. -/
def forwardG (sw : τ → Nat → Nat → Outcome τ) (ad : BM × τ → Nat → Nat → Outcome (BM × τ))
    (nrows : Nat) : Nat → Nat → BM × τ → Outcome (Bool × BM × τ)
  | 0, _, s => return (true, s)
  | k + 1, i, s => do
    match ← findPivot s.1 i (nrows - i) i with
    | none => return (false, s)
    | some pivot => do
      let s ← pivotG sw s i pivot
      let s ← forRange (i + 1) nrows (fun j s => do
        let b ← mget s.1 j i
        if b then ad s j i else return s) s
      forwardG sw ad nrows k (i + 1) s

/-- Common shape of the backward eliminations. -/
def backwardG (ad : BM × τ → Nat → Nat → Outcome (BM × τ)) (nrows : Nat) (s : BM × τ) :
    Outcome (BM × τ) :=
  forRange 0 nrows (fun k s =>
    forRange 0 (nrows - 1 - k) (fun j s => do
      let b ← mget s.1 j (nrows - 1 - k)
      if b then ad s j (nrows - 1 - k) else return s) s) s

/-- What the companion of the matrix must satisfy under the row operations. -/
structure Companion (n : Nat) (sw : τ → Nat → Nat → Outcome τ)
    (ad : BM × τ → Nat → Nat → Outcome (BM × τ))
    (Q : Matrix (Fin n) (Fin n) (ZMod 2) → τ → Prop) : Prop where
  swap : ∀ P b i p (hi : i < n) (hp : p < n), Q P b →
    (sw b i p).Returns (Q (Matrix.swap (ZMod 2) ⟨i, hi⟩ ⟨p, hp⟩ * P))
  add : ∀ P A b j i (hj : j < n) (hi : i < n), i ≠ j → A.Valid n n → Q P b →
    (ad (A, b) j i).Returns (fun s' => s'.1.Valid n n ∧
      (∀ a c, ent s'.1 a c = if a = j then (ent A j c ^^ ent A i c) else ent A a c) ∧
      Q (transvection ⟨j, hj⟩ ⟨i, hi⟩ 1 * P) s'.2)

variable {sw : τ → Nat → Nat → Outcome τ} {ad : BM × τ → Nat → Nat → Outcome (BM × τ)}
  {Q : Matrix (Fin n) (Fin n) (ZMod 2) → τ → Prop} {A0 : Matrix (Fin n) (Fin n) (ZMod 2)}

/-- The state results from row operations on the original state. -/
def Linked (A0 : Matrix (Fin n) (Fin n) (ZMod 2))
    (Q : Matrix (Fin n) (Fin n) (ZMod 2) → τ → Prop) (s : BM × τ) : Prop :=
  s.1.Valid n n ∧ ∃ P, IsUnit P ∧ toMat n n s.1 = P * A0 ∧ Q P s.2

theorem Linked.add (hc : Companion n sw ad Q) {s : BM × τ} (hs : Linked A0 Q s) {j i : Nat}
    (hj : j < n) (hi : i < n) (hij : i ≠ j) :
    (ad s j i).Returns (fun s' => Linked A0 Q s' ∧
      ∀ a c, ent s'.1 a c = if a = j then (ent s.1 j c ^^ ent s.1 i c) else ent s.1 a c) := by
  obtain ⟨hv, P, hP, hA, hQ⟩ := hs
  refine (hc.add P s.1 s.2 j i hj hi hij hv hQ).mono ?_
  rintro s' ⟨hv', he, hQ'⟩
  refine ⟨⟨hv', _, (isUnit_transvection ?_).mul hP, ?_, hQ'⟩, he⟩
  · intro e; exact hij (congrArg Fin.val e).symm
  · rw [toMat_addRows hj hi he, hA, Matrix.mul_assoc]

theorem Linked.swap (hc : Companion n sw ad Q) {s : BM × τ} (hs : Linked A0 Q s) {i p : Nat}
    (hi : i < n) (hp : p < n) :
    (do let A ← bmSwapRows s.1 i p
        let b ← sw s.2 i p
        pure (A, b) : Outcome (BM × τ)).Returns (fun s' => Linked A0 Q s' ∧
      ∀ a c, a < n → c < n → ent s'.1 a c =
        if a = i then ent s.1 p c else if a = p then ent s.1 i c else ent s.1 a c) := by
  obtain ⟨hv, P, hP, hA, hQ⟩ := hs
  refine (hv.swapRows hi hp).bind ?_
  rintro A ⟨hvA, he⟩
  refine (hc.swap P s.2 i p hi hp hQ).bind ?_
  intro b hb
  refine ⟨(A, b), rfl, ⟨hvA, _, (isUnit_swap _ _).mul hP, ?_, hb⟩, he⟩
  rw [toMat_swapRows hi hp he, hA, Matrix.mul_assoc]

/-- Columns before `i` are those of a unit upper triangular matrix. -/
def UpTo (n i : Nat) (A : BM) : Prop :=
  (∀ a c, c < i → c < a → a < n → ent A a c = false) ∧ (∀ a, a < i → ent A a a = true)

theorem det_zero {A : BM} {i : Nat} (hi : i < n) (h : UpTo n i A)
    (h0 : ∀ a, i ≤ a → a < n → ent A a i = false) : (toMat n n A).det = 0 := by
  rw [twoBlockTriangular_det (toMat n n A) (fun a => a.val ≤ i)]
  · rw [det_of_isUpperTriangular]
    · rw [Finset.prod_eq_zero (Finset.mem_univ (⟨⟨i, hi⟩, Nat.le_refl _⟩ : {a : Fin n // a.val ≤ i})),
        zero_mul]
      simp [toSquareBlockProp, toMat, h0 i (Nat.le_refl _) hi]
    · rintro ⟨a, ha⟩ ⟨c, hca⟩ hlt
      have hlt' : c.val < a.val := hlt
      have : ent A a c = false := h.1 a c (by omega) hlt' a.2
      simp [toSquareBlockProp, toMat, this]
  · intro a ha c hcc
    have : ent A a c = false := by
      rcases Nat.eq_or_lt_of_le hcc with e | e
      · rw [e]; exact h0 a (by omega) a.2
      · exact h.1 a c e (by omega) a.2
    simp [toMat, this]

theorem forwardG_ok (hc : Companion n sw ad Q) : ∀ (k i : Nat) (s : BM × τ), i + k = n →
    Linked A0 Q s → UpTo n i s.1 →
    (forwardG sw ad n k i s).Returns (fun r => Linked A0 Q r.2 ∧
      (r.1 = true → UpTo n n r.2.1) ∧ (r.1 = false → A0.det = 0)) := by
  intro k
  induction k with
  | zero =>
    intro i s hi hs hu
    have : i = n := by omega
    subst this
    exact ⟨(true, s), rfl, hs, fun _ => hu, fun h => by cases h⟩
  | succ k ih =>
    intro i s hik hs hu
    have hin : i < n := by omega
    unfold forwardG
    refine (findPivot_ok hs.1 hin (n - i) i (by omega)).bind ?_
    intro o ho
    cases o with
    | none =>
      refine ⟨(false, s), rfl, hs, (by intro h; cases h), fun _ => ?_⟩
      have hd := det_zero hin hu ho
      obtain ⟨hv, P, hP, hA, hQ⟩ := hs
      rw [hA, det_mul] at hd
      rcases mul_eq_zero.mp hd with h | h
      · exfalso
        have := (isUnit_iff_isUnit_det P).mp hP
        rw [h] at this
        exact not_isUnit_zero this
      · exact h
    | some p =>
      obtain ⟨h1, h2, h3, h4⟩ := ho
      simp only
      have hswap : (pivotG sw s i p).Returns (fun s' => Linked A0 Q s' ∧
              UpTo n i s'.1 ∧ ent s'.1 i i = true) := by
        unfold pivotG
        by_cases hp : p = i
        · subst hp
          simp only [ne_eq, not_true_eq_false, if_false]
          exact ⟨s, rfl, hs, hu, h3⟩
        · rw [if_pos hp]
          refine (hs.swap hc hin h2).mono ?_
          rintro s' ⟨hs', he⟩
          refine ⟨hs', ⟨?_, ?_⟩, ?_⟩
          · intro a c hci hca han
            rw [he a c han (by omega)]
            split
            · exact hu.1 p c hci (by omega) h2
            · split
              · exact hu.1 i c hci (by omega) hin
              · exact hu.1 a c hci hca han
          · intro a ha
            rw [he a a (by omega) (by omega), if_neg (by omega), if_neg (by omega)]
            exact hu.2 a ha
          · rw [he i i hin hin, if_pos rfl]; exact h3
      refine hswap.bind ?_
      rintro s1 ⟨hs1, hu1, hii⟩
      refine (forRange_returns (fun j t => Linked A0 Q t ∧ UpTo n i t.1 ∧ ent t.1 i i = true ∧
        ∀ a, i < a → a < j → ent t.1 a i = false) (by omega)
        ⟨hs1, hu1, hii, by intro a h5 h6; omega⟩ ?_).bind ?_
      · rintro j t h5 h6 ⟨ht, hut, htt, hz⟩
        rw [ht.1.mget h6 hin]
        simp only [ok_bind]
        cases hb : ent t.1 j i with
        | false =>
          refine ⟨t, rfl, ht, hut, htt, ?_⟩
          intro a h7 h8
          rcases Nat.eq_or_lt_of_le (Nat.le_of_lt_succ h8) with e | e
          · rw [e]; exact hb
          · exact hz a h7 e
        | true =>
          refine (ht.add hc h6 hin (by omega)).mono ?_
          rintro t' ⟨ht', he⟩
          refine ⟨ht', ⟨?_, ?_⟩, ?_, ?_⟩
          · intro a c hci hca han
            rw [he]
            split
            · rw [hut.1 j c hci (by omega) h6, hut.1 i c hci (by omega) hin]; rfl
            · exact hut.1 a c hci hca han
          · intro a ha
            rw [he, if_neg (by omega)]; exact hut.2 a ha
          · rw [he, if_neg (by omega)]; exact htt
          · intro a h7 h8
            rw [he]
            split
            · rw [hb, htt]; rfl
            · exact hz a h7 (by omega)
      · rintro t ⟨ht, hut, htt, hz⟩
        apply ih (i + 1) t (by omega) ht
        refine ⟨?_, ?_⟩
        · intro a c h5 h6 h7
          rcases Nat.eq_or_lt_of_le (Nat.le_of_lt_succ h5) with e | e
          · rw [e]; exact hz a (by omega) h7
          · exact hut.1 a c e h6 h7
        · intro a ha
          rcases Nat.eq_or_lt_of_le (Nat.le_of_lt_succ ha) with e | e
          · rw [e]; exact htt
          · exact hut.2 a e

/-- Back substitution turns a unit upper triangular matrix into the identity. -/
theorem backwardG_ok (hc : Companion n sw ad Q) {s : BM × τ} (hs : Linked A0 Q s)
    (hu : UpTo n n s.1) :
    (backwardG ad n s).Returns (fun t => Linked A0 Q t ∧
      ∀ a c, a < n → c < n → ent t.1 a c = decide (a = c)) := by
  unfold backwardG
  refine (forRange_returns (fun k t => Linked A0 Q t ∧ UpTo n n t.1 ∧
    ∀ a c, a < c → n - k ≤ c → c < n → ent t.1 a c = false) (Nat.zero_le n)
    ⟨hs, hu, by intro a c h1 h2 h3; omega⟩ ?_).mono ?_
  · rintro k t - hk ⟨ht, hut, hz⟩
    have hi : n - 1 - k < n := by omega
    refine (forRange_returns (fun j t => Linked A0 Q t ∧ UpTo n n t.1 ∧
      (∀ a c, a < c → n - k ≤ c → c < n → ent t.1 a c = false) ∧
      ∀ a, a < j → ent t.1 a (n - 1 - k) = false) (Nat.zero_le _)
      ⟨ht, hut, hz, by intro a h1; omega⟩ ?_).mono ?_
    · rintro j u - hj ⟨hu1, hu2, hu3, hu4⟩
      have hjn : j < n := by omega
      rw [hu1.1.mget hjn hi]
      simp only [ok_bind]
      cases hb : ent u.1 j (n - 1 - k) with
      | false =>
        refine ⟨u, rfl, hu1, hu2, hu3, ?_⟩
        intro a h8
        rcases Nat.eq_or_lt_of_le (Nat.le_of_lt_succ h8) with e | e
        · rw [e]; exact hb
        · exact hu4 a e
      | true =>
        refine (hu1.add hc hjn hi (by omega)).mono ?_
        rintro v ⟨hv, he⟩
        refine ⟨hv, ⟨?_, ?_⟩, ?_, ?_⟩
        · intro a c h1 h2 h3
          rw [he]
          split
          · rw [hu2.1 j c h1 (by omega) hjn, hu2.1 (n - 1 - k) c h1 (by omega) hi]; rfl
          · exact hu2.1 a c h1 h2 h3
        · intro a ha
          rw [he]
          split
          · next e => rw [e, hu2.2 j hjn, hu2.1 (n - 1 - k) j hjn hj hi]; rfl
          · exact hu2.2 a ha
        · intro a c h1 h2 h3
          rw [he]
          split
          · next e =>
            rw [hu3 j c (by omega) h2 h3, hu3 (n - 1 - k) c (by omega) h2 h3]; rfl
          · exact hu3 a c h1 h2 h3
        · intro a ha
          rw [he]
          split
          · rw [hb, hu2.2 _ hi]; rfl
          · exact hu4 a (by omega)
    · rintro u ⟨hu1, hu2, hu3, hu4⟩
      refine ⟨hu1, hu2, ?_⟩
      intro a c h1 h2 h3
      rcases Nat.eq_or_lt_of_le (show n - 1 - k ≤ c by omega) with e | e
      · rw [← e]; exact hu4 a (by omega)
      · exact hu3 a c h1 (by omega) h3
  · rintro t ⟨ht, hut, hz⟩
    refine ⟨ht, ?_⟩
    intro a c ha hcn
    rcases Nat.lt_trichotomy a c with h | h | h
    · rw [hz a c h (by omega) hcn]; simp; omega
    · subst h; rw [hut.2 a ha]; simp
    · rw [hut.1 a c hcn h ha]; simp; omega

end generic

end Hnco
