import Verif.BitVector.Model

/-!
# Helper lemmas about bit vectors
-/

namespace Hnco

open Outcome

/-- A loop that writes `h i` at each position `i`. -/
theorem forRange_write {α : Type u} {n : Nat} {body : Nat → List α → Outcome (List α)}
    (h : Nat → α) (d : List α) (hn : d.length = n)
    (hb : ∀ i t, i < n → t.length = n → t[i]? = d[i]? → body i t = ok (t.set i (h i))) :
    forRange 0 n body d = ok (List.ofFn (fun i : Fin n => h i)) := by
  have := forRange_returns (body := body) (a := 0) (b := n) (s := d)
    (fun i t => t.length = n ∧ (∀ j, j < i → t[j]? = some (h j)) ∧ ∀ j, i ≤ j → t[j]? = d[j]?)
    (Nat.zero_le _) ⟨hn, by intro j hj; omega, by simp⟩ (by
      rintro i t - hi ⟨h1, h2, h3⟩
      rw [hb i t hi h1 (h3 i (Nat.le_refl _))]
      refine ⟨_, rfl, by simpa using h1, ?_, ?_⟩
      · intro j hj
        rw [List.getElem?_set]
        by_cases hij : i = j
        · subst hij; simp [h1, hi]
        · simp [hij]; exact h2 j (by omega)
      · intro j hj
        rw [List.getElem?_set]
        simp [show i ≠ j by omega]
        exact h3 j (by omega))
  obtain ⟨t, ht, h1, h2, -⟩ := this
  rw [ht]
  congr 1
  apply List.ext_getElem?
  intro j
  by_cases hj : j < n
  · rw [h2 j hj]; simp [hj]
  · rw [List.getElem?_eq_none (by omega), List.getElem?_eq_none (by simp; omega)]

theorem ofFn_getElem {α : Type u} {l : List α} {n : Nat} (hn : l.length = n) :
    List.ofFn (fun i : Fin n => l[(i : Nat)]'(by omega)) = l := by
  subst hn
  simp

theorem bvHammingWeight_eq (x : BV) : bvHammingWeight x = x.count true := by
  have : ∀ (x : BV) (a : Nat), x.foldl (fun acc b => acc + b.toNat) a = a + x.count true := by
    intro x
    induction x with
    | nil => simp
    | cons b t ih => intro a; cases b <;> simp [ih] <;> omega
  simpa [bvHammingWeight] using this x 0

theorem vbHammingWeight_eq (x : BV) : vbHammingWeight x = x.count true := by
  have : ∀ (x : BV) (a : Nat), x.foldl (fun acc b => if b then acc + 1 else acc) a
      = a + x.count true := by
    intro x
    induction x with
    | nil => simp
    | cons b t ih => intro a; cases b <;> simp [ih] <;> omega
  simpa [vbHammingWeight] using this x 0

/-- Counting loop over two vectors. -/
theorem forRange_count {x y : BV} (hxy : x.length = y.length) (f : Bool → Bool → Bool) :
    forRange 0 x.length (fun i d => do
      let a ← vget x i
      let b ← vget y i
      return if f a b then d + 1 else d) 0 = ok ((List.zipWith f x y).count true) := by
  have := forRange_returns (a := 0) (b := x.length) (s := 0)
    (body := fun i d => do
      let a ← vget x i
      let b ← vget y i
      return if f a b then d + 1 else d)
    (fun i d => d = ((List.zipWith f x y).take i).count true)
    (Nat.zero_le _) (by simp) (by
      rintro i d - hi rfl
      rw [vget_eq hi, vget_eq (by omega : i < y.length)]
      simp only [ok_bind, pure_eq, returns_ok]
      rw [List.take_add_one, List.count_append]
      have : (List.zipWith f x y)[i]? = some (f x[i] y[i]) := by
        simp [List.getElem?_zipWith, hi, show i < y.length by omega]
      rw [this]
      cases f x[i] y[i] <;> simp)
  obtain ⟨d, hd, rfl⟩ := this
  rw [hd, List.take_of_length_le (by simp; omega)]

theorem bvHammingDistance_ok {x y : BV} (h : x.length = y.length) :
    bvHammingDistance x y = ok ((List.zipWith (fun a b => a != b) x y).count true) := by
  unfold bvHammingDistance
  simp only [h, beq_self_eq_true, assert_true, ok_bind]
  rw [← h]
  exact forRange_count h _

theorem bvDotProduct_ok {x y : BV} (h : x.length = y.length) :
    bvDotProduct x y = ok ((List.zipWith (fun a b => a && b) x y).count true % 2 == 1) := by
  unfold bvDotProduct
  simp only [h, beq_self_eq_true, assert_true, ok_bind]
  rw [← h, forRange_count h (fun a b => a && b)]
  rfl

theorem bvAdd_ok {x y : BV} (h : x.length = y.length) :
    bvAdd x y = ok (List.zipWith xor x y) := by
  unfold bvAdd
  simp only [h, beq_self_eq_true, assert_true, ok_bind]
  rw [forRange_write (fun i => (x[i]?.getD false) ^^ (y[i]?.getD false)) x h]
  · congr 1
    apply List.ext_getElem
    · simp [h]
    · intro i h1 h2
      simp at h1 h2
      simp [show i < x.length by omega]
  · intro i t hi ht hti
    have hix : i < x.length := by omega
    rw [vget_eq (by omega : i < t.length), vget_eq hi]
    simp only [ok_bind]
    rw [vset_eq (by omega)]
    have : t[i] = x[i] := by
      have h1 : t[i]? = some t[i] := List.getElem?_eq_getElem (by omega)
      rw [h1, List.getElem?_eq_getElem hix] at hti
      exact Option.some.inj hti
    simp [this, hix, hi]

theorem bvAdd3_ok {d x y : BV} (hx : d.length = x.length) (h : d.length = y.length) :
    bvAdd3 d x y = ok (List.zipWith xor x y) := by
  unfold bvAdd3
  rw [show (d.length == x.length) = true by simpa using hx,
    show (d.length == y.length) = true by simpa using h]
  simp only [assert_true, ok_bind]
  rw [forRange_write (fun i => (x[i]?.getD false) ^^ (y[i]?.getD false)) d rfl]
  · congr 1
    apply List.ext_getElem
    · simp; omega
    · intro i h1 h2
      simp at h1 h2
      simp [show i < x.length by omega, show i < y.length by omega]
  · intro i t hi ht hti
    rw [vget_eq (by omega : i < x.length), vget_eq (by omega : i < y.length)]
    simp only [ok_bind]
    rw [vset_eq (by omega)]
    simp [show i < x.length by omega, show i < y.length by omega]

theorem copyLoop_ok {x y : BV} (h : y.length = x.length) :
    forRange 0 x.length (fun i d => do
      let a ← vget x i
      if a then vset d i true else vset d i false) y = ok x := by
  rw [forRange_write (fun i => x[i]?.getD false) y h]
  · congr 1
    apply List.ext_getElem
    · simp
    · intro i h1 h2
      simp
  · intro i t hi ht hti
    rw [vget_eq hi]
    simp only [ok_bind]
    rw [vset_eq (by omega), vset_eq (by omega)]
    simp only [hi, List.getElem?_eq_getElem, Option.getD_some]
    cases x[i] <;> rfl

theorem bvAdd_ub {x y : BV} (h : x.length ≠ y.length) : bvAdd x y = ub := by
  unfold bvAdd; rw [assert_neg (by simpa using h)]; rfl

theorem bvHammingDistance_ub {x y : BV} (h : x.length ≠ y.length) :
    bvHammingDistance x y = ub := by
  unfold bvHammingDistance; rw [assert_neg (by simpa using h)]; rfl

theorem bvDotProduct_ub {x y : BV} (h : x.length ≠ y.length) :
    bvDotProduct x y = ub := by
  unfold bvDotProduct; rw [assert_neg (by simpa using h)]; rfl

theorem bvFlip_ok {x : BV} {i : Nat} (h : i < x.length) :
    bvFlip x i = ok (x.set i (!x[i])) := by
  simp [bvFlip, vget_eq h, vset_eq h]

theorem bvFlip_ub {x : BV} {i : Nat} (h : x.length ≤ i) : bvFlip x i = ub := by
  simp [bvFlip, vget_ub h]

/-- The flips of a list of in-range positions: position `j` is negated once per occurrence. -/
theorem flipLoop_ok : ∀ (l : List Nat) (x : BV), (∀ i ∈ l, i < x.length) →
    ∃ y, flipLoop x l = ok y ∧ y.length = x.length ∧
      ∀ j (h : j < x.length), y[j]? = some (x[j] ^^ (l.count j % 2 == 1)) := by
  intro l
  induction l with
  | nil => intro x _; exact ⟨x, rfl, rfl, by intro j h; simp [h]⟩
  | cons i l ih =>
    intro x hx
    have hi : i < x.length := hx i (by simp)
    obtain ⟨y, hy, hlen, hget⟩ := ih (x.set i (!x[i])) (by
      intro k hk; simpa using hx k (by simp [hk]))
    refine ⟨y, by simp [flipLoop, bvFlip_ok hi, hy], by simpa using hlen, ?_⟩
    intro j hj
    rw [hget j (by simpa using hj), List.getElem_set]
    by_cases hij : i = j
    · subst hij
      simp only [List.count_cons_self, if_true]
      congr 1
      rcases Nat.mod_two_eq_zero_or_one (l.count i) with h | h
      · have : (l.count i + 1) % 2 = 1 := by omega
        simp [h, this]
      · have : (l.count i + 1) % 2 = 0 := by omega
        simp [h, this]
    · simp [hij]

/-! ### Machine words -/

/-- The natural number whose binary expansion is the vector, least significant bit first. -/
def bitsToNat : BV → Nat
  | [] => 0
  | b :: t => b.toNat + 2 * bitsToNat t

theorem bitsToNat_lt (x : BV) : bitsToNat x < 2 ^ x.length := by
  induction x with
  | nil => simp [bitsToNat]
  | cons b t ih =>
    have : b.toNat ≤ 1 := by cases b <;> simp
    simp only [bitsToNat, List.length_cons, Nat.pow_succ]
    omega

theorem bitsToNat_testBit (x : BV) (i : Nat) : (bitsToNat x).testBit i = (x[i]?.getD false) := by
  induction x generalizing i with
  | nil => simp [bitsToNat]
  | cons b t ih =>
    cases i with
    | zero => cases b <;> simp [bitsToNat, Nat.testBit_zero] <;> omega
    | succ i =>
      rw [Nat.testBit_succ]
      have : (bitsToNat (b :: t)) / 2 = bitsToNat t := by
        cases b <;> simp [bitsToNat] <;> omega
      rw [this, ih]
      simp

theorem one_shiftLeft_getLsbD (i k : Nat) (hk : k < 64) :
    ((1#64) <<< i).getLsbD k = decide (k = i) := by
  simp only [BitVec.getLsbD_shiftLeft, BitVec.getLsbD_one]
  by_cases h : k = i
  · subst h; simp [hk]
  · by_cases h2 : k < i
    · simp [h, h2]
    · have : k - i ≠ 0 := by omega
      simp [h, this]

theorem toWordLoop_ok (x : BV) (a b : Nat) (hab : a ≤ b) (hb : b ≤ x.length) :
    ∃ m, forRange a b (toWordBody x) (0, 1)
      = ok (BitVec.ofNat 64 (bitsToNat ((x.drop a).take (b - a))), m) := by
  have := forRange_returns (a := a) (b := b) (s := ((0 : Word), (1 : Word)))
    (body := toWordBody x)
    (fun i s => s.2 = 1#64 <<< (i - a) ∧
      ∀ k, k < 64 → s.1.getLsbD k = (decide (k < i - a) && (x[a + k]?.getD false)))
    hab (by simp) (by
      rintro i ⟨r, m⟩ hai hib ⟨hm, hr⟩
      simp only at hm hr
      have hix : i < x.length := by omega
      simp only [toWordBody, vget_eq hix, ok_bind, pure_eq, returns_ok]
      refine ⟨?_, ?_⟩
      · rw [hm, ← BitVec.shiftLeft_add]; congr 1; omega
      · intro k hk
        have hstep : (if x[i] then r ||| m else r).getLsbD k
            = (r.getLsbD k || (x[i] && m.getLsbD k)) := by
          cases x[i] <;> simp
        rw [hstep, hr k hk, hm, one_shiftLeft_getLsbD _ _ hk]
        by_cases h1 : k < i - a
        · simp [h1, show k < i + 1 - a by omega, show k ≠ i - a by omega]
        · by_cases h2 : k = i - a
          · have : a + k = i := by omega
            simp [h2, show i - a < i + 1 - a by omega, show a + (i - a) = i by omega, hix]
          · simp [h1, h2, show ¬ k < i + 1 - a by omega])
  obtain ⟨⟨r, m⟩, hrm, h1, h2⟩ := this
  refine ⟨m, ?_⟩
  rw [hrm]
  congr 2
  apply BitVec.eq_of_getLsbD_eq
  intro k hk
  rw [h2 k hk, BitVec.getLsbD_ofNat, bitsToNat_testBit]
  by_cases h : k < b - a
  · simp [hk, h]
  · have : (List.take (b - a) (List.drop a x))[k]? = none := by simp; omega
    rw [this]
    simp [h]

theorem and_shift_ne_zero (u : Word) (i : Nat) (hi : i < 64) :
    (u &&& (1#64 <<< i) != 0) = u.getLsbD i := by
  by_cases h : u.getLsbD i
  · rw [h]
    simp only [bne_iff_ne, ne_eq]
    intro h0
    have := congrArg (fun w : Word => w.getLsbD i) h0
    simp only [BitVec.getLsbD_and, one_shiftLeft_getLsbD _ _ hi, h] at this
    simp at this
  · have h0 : u &&& (1#64 <<< i) = 0 := by
      apply BitVec.eq_of_getLsbD_eq
      intro k hk
      rw [BitVec.getLsbD_and, one_shiftLeft_getLsbD _ _ hk]
      by_cases hki : k = i
      · subst hki; simp [h]
      · simp [hki]
    rw [h0]
    simp [h]

theorem bvFromWord_ok (x : BV) (u : Word) (h : x.length ≤ 64) :
    bvFromWord x u = ok (List.ofFn (fun i : Fin x.length => u.getLsbD i)) := by
  unfold bvFromWord
  rw [show decide (x.length ≤ 8 * 8) = true by simpa using h]
  simp only [assert_true, ok_bind]
  have := forRange_returns (a := 0) (b := x.length) (s := (x, (1 : Word)))
    (body := fun i (s : BV × Word) => (do
      let y ← (if u &&& s.2 != 0 then vset s.1 i true else vset s.1 i false)
      return (y, s.2 <<< 1) : Outcome (BV × Word)))
    (fun i s => s.2 = 1#64 <<< i ∧ s.1.length = x.length ∧
      ∀ k, k < i → s.1[k]? = some (u.getLsbD k))
    (Nat.zero_le _) (by simp) (by
      rintro i ⟨y, m⟩ - hi ⟨hm, hl, hy⟩
      simp only at hm hl hy
      simp only [hm, and_shift_ne_zero u i (by omega)]
      have : (if u.getLsbD i = true then vset y i true else vset y i false)
          = ok (y.set i (u.getLsbD i)) := by
        rw [vset_eq (by omega), vset_eq (by omega)]
        cases u.getLsbD i <;> rfl
      rw [this]
      simp only [ok_bind, pure_eq, returns_ok]
      refine ⟨by rw [← BitVec.shiftLeft_add], by simpa using hl, ?_⟩
      intro k hk
      rw [List.getElem?_set]
      by_cases hki : i = k
      · subst hki; simp [hl, hi]
      · simp [hki, hy k (by omega)])
  obtain ⟨⟨y, m⟩, hym, -, hl, hy⟩ := this
  simp only at hl hy
  rw [hym]
  simp only [ok_bind, pure_eq]
  congr 1
  apply List.ext_getElem?
  intro j
  by_cases hj : j < x.length
  · rw [hy j hj]; simp [hj]
  · rw [List.getElem?_eq_none (by omega), List.getElem?_eq_none (by simp; omega)]

/-! ### Text -/

theorem bvDisplay_eq (x : BV) : bvDisplay x = x.map (fun b => if b then '1' else '0') := by
  induction x with
  | nil => rfl
  | cons b t ih => cases b <;> simp_all [bvDisplay]

theorem bvFromString_ok (s : List Char) : bvFromString s = ok (s.map (fun c => c != '0')) := by
  have : ∀ (s : List Char) (acc : BV),
      s.foldl (fun acc c => if c == '0' then acc ++ [false] else acc ++ [true]) acc
        = acc ++ s.map (fun c => c != '0') := by
    intro s
    induction s with
    | nil => simp
    | cons c t ih =>
      intro acc
      simp only [List.foldl_cons, List.map_cons]
      rw [ih]
      by_cases h : c = '0' <;> simp [h]
  simp only [bvFromString, this s []]
  simp

end Hnco
