import Verif.Representation.Model
import Verif.Function.WalshProps
import Mathlib.Data.Nat.Log
import Mathlib.Algebra.Order.Ring.Rat
import Mathlib.Tactic.NormNum

/-!
# C36: dyadic integer representations are total, in range and onto
-/

namespace Hnco

open Outcome

/-! ## Specification -/

/-- The integer is a value of the signed integer type of `w` bits. -/
def InType (w : Nat) (z : Int) : Prop := -2 ^ (w - 1) ≤ z ∧ z ≤ 2 ^ (w - 1) - 1

instance (w : Nat) (z : Int) : Decidable (InType w z) := inferInstanceAs (Decidable (_ ∧ _))

/-- The bits of the slice of length `size` starting at `start`. -/
def sliceOf (bv : BV) (start size : Nat) : BV := (bv.drop start).take size

/-- The representation is the result of one of the constructors, called with values of the type. -/
def DyadicInteger.Constructed (w : Nat) (ceilLog2 : Nat → Nat) (r : DyadicInteger) : Prop :=
  (∃ lower upper size, InType w lower ∧ InType w upper ∧ dyadicWithSize w ceilLog2 lower upper size = ok r) ∨
  (∃ lower upper, InType w lower ∧ InType w upper ∧ dyadicExact w ceilLog2 lower upper = ok r) ∨
  (∃ precisionSize lower upper precision, InType w lower ∧ InType w upper ∧
    dyadicWithPrecision w ceilLog2 precisionSize lower upper precision = ok r) ∨
  (∃ n, InType w n ∧ dyadicCount w ceilLog2 n = ok r)

/-! ## Lemmas -/

theorem assert_eq_ok {b : Bool} {u : Unit} : assert b = ok u ↔ b = true := by
  cases b
  · constructor <;> intro h <;> cases h
  · exact ⟨fun _ => rfl, fun _ => rfl⟩

theorem checked_ok {w : Nat} {z : Int} (h : InType w z) : checked w z = ok z := by
  obtain ⟨h1, h2⟩ := h
  exact if_pos ⟨h1, by omega⟩

theorem checked_ub {w : Nat} {z : Int} (h : ¬ InType w z) : checked w z = ub := by
  refine if_neg ?_
  rintro ⟨h1, h2⟩
  exact h ⟨h1, by omega⟩

theorem checked_eq_ok {w : Nat} {z y : Int} (h : checked w z = ok y) : y = z ∧ InType w z := by
  by_cases hz : InType w z
  · rw [checked_ok hz] at h; cases h; exact ⟨rfl, hz⟩
  · rw [checked_ub hz] at h; cases h

theorem two_pow_pos_int (w : Nat) : (0 : Int) < 2 ^ w := Int.pow_pos (by decide)

theorem sliceOf_length {bv : BV} {start size : Nat} (h : start + size ≤ bv.length) :
    (sliceOf bv start size).length = size := by
  unfold sliceOf
  rw [List.length_take, List.length_drop]
  omega

theorem bvToWordSlice_sliceOf {bv : BV} {start size : Nat} (h0 : 0 < size) (h1 : size ≤ 64)
    (h2 : start + size ≤ bv.length) :
    ∃ u : Word, bvToWordSlice bv start (start + size) = ok u ∧ u.toNat = bitsToNat (sliceOf bv start size) := by
  rw [(bvToWordSlice_eq bv start (start + size) (by omega) h2 (by omega)).1, Nat.add_sub_cancel_left]
  have hl := sliceOf_length h2
  unfold sliceOf at hl ⊢
  exact bvToWord_bitsToNat _ (by omega)

/-- What the constructors ensure. -/
structure DyadicInteger.WellFormed (w : Nat) (r : DyadicInteger) : Prop where
  width : r.width = w
  size_pos : 0 < r.size
  size_le : r.size ≤ r.exactSize
  exact_lt : r.exactSize < w
  lower : InType w r.lower
  upper : InType w r.upper
  lt : r.lower < r.upper
  safe : r.upper - r.lower ≤ 2 ^ (w - 1) - 2

theorem dyadicExactSize_eq_ok {w : Nat} {ceilLog2 : Nat → Nat} {lower upper : Int} {e : Nat}
    (h : dyadicExactSize w ceilLog2 lower upper = ok e) :
    lower < upper ∧ upper - lower ≤ 2 ^ (w - 1) - 2 ∧ e = ceilLog2 (upper - lower + 1).toNat ∧ 0 < e ∧ e < w := by
  unfold dyadicExactSize at h
  simp only [bind_eq_ok] at h
  obtain ⟨_, h1, safe, h2, _, h3, d, h4, c, h5, h6⟩ := h
  obtain ⟨_, h7, _, h8, h9⟩ := h6
  obtain ⟨rfl, h10⟩ := checked_eq_ok h4
  obtain ⟨rfl, _, h11⟩ := checked_eq_ok h5
  simp only [assert_eq_ok, decide_eq_true_eq] at h1 h7 h8
  obtain rfl := Outcome.ok.inj h9
  exact ⟨h1, by omega, rfl, h7, h8⟩

theorem DyadicInteger.Constructed.wellFormed {w : Nat} {ceilLog2 : Nat → Nat} {r : DyadicInteger}
    (h : r.Constructed w ceilLog2) : r.WellFormed w := by
  rcases h with ⟨l, u, size, hl, hu, h⟩ | ⟨l, u, hl, hu, h⟩ | ⟨f, l, u, p, hl, hu, h⟩ | ⟨n, hn, h⟩
  · unfold dyadicWithSize at h
    simp only [bind_eq_ok] at h
    obtain ⟨_, h1, _, h2, e, h3, h4⟩ := h
    simp only [assert_eq_ok, decide_eq_true_eq] at h1 h2
    obtain ⟨a1, a2, a3, a4, a5⟩ := dyadicExactSize_eq_ok h3
    cases h4
    refine ⟨rfl, ?_, ?_, a5, hl, hu, a1, a2⟩
    · show 0 < if e < size then e else size
      split <;> omega
    · show (if e < size then e else size) ≤ e
      split <;> omega
  · unfold dyadicExact at h
    simp only [bind_eq_ok] at h
    obtain ⟨e, h3, h4⟩ := h
    obtain ⟨a1, a2, a3, a4, a5⟩ := dyadicExactSize_eq_ok h3
    cases h4
    exact ⟨rfl, a4, le_refl _, a5, hl, hu, a1, a2⟩
  · unfold dyadicWithPrecision at h
    split at h
    · cases h
    simp only [bind_eq_ok] at h
    obtain ⟨e, h3, h4⟩ := h
    obtain ⟨a1, a2, a3, a4, a5⟩ := dyadicExactSize_eq_ok h3
    cases h4
    refine ⟨rfl, ?_, ?_, a5, hl, hu, a1, a2⟩
    · show 0 < Int.toNat _
      split
      · decide
      · split <;> omega
    · show Int.toNat _ ≤ e
      split
      · show 1 ≤ e; omega
      · split <;> omega
  · unfold dyadicCount at h
    simp only [bind_eq_ok] at h
    obtain ⟨u, h1, _, h2, e, h3, h4⟩ := h
    obtain ⟨rfl, h5⟩ := checked_eq_ok h1
    obtain ⟨a1, a2, a3, a4, a5⟩ := dyadicExactSize_eq_ok h3
    cases h4
    refine ⟨rfl, a4, le_refl _, a5, ?_, h5, a1, a2⟩
    show InType w 0
    have := two_pow_pos_int (w - 1)
    exact ⟨by omega, by omega⟩

theorem dyadicUnpack_wellFormed {w : Nat} {r : DyadicInteger} (hw : w ≤ 64) (h : r.WellFormed w) {bv : BV}
    {start : Nat} (hb : start + r.size ≤ bv.length) :
    dyadicUnpack r bv start =
      ok (min (r.lower + (bitsToNat (sliceOf bv start r.size) : Int) * 2 ^ (r.exactSize - r.size)) r.upper) := by
  obtain ⟨h1, h2, h3, h4, ⟨h5, h5'⟩, ⟨h6, h6'⟩, h7, h8⟩ := h
  obtain ⟨u, hu, hn⟩ := bvToWordSlice_sliceOf (bv := bv) h2 (by omega) hb
  have hslice : bitsToNat (sliceOf bv start r.size) < 2 ^ r.size := by
    have := bitsToNat_lt (sliceOf bv start r.size)
    rwa [sliceOf_length hb] at this
  generalize bitsToNat (sliceOf bv start r.size) = m at *
  have hshift : m * 2 ^ (r.exactSize - r.size) < 2 ^ r.exactSize := by
    rw [show r.exactSize = r.size + (r.exactSize - r.size) by omega, pow_add,
      Nat.add_sub_cancel_left]
    exact Nat.mul_lt_mul_of_pos_right hslice (Nat.two_pow_pos _)
  have hpw : 2 ^ r.exactSize ≤ 2 ^ (w - 1) := Nat.pow_le_pow_right (by decide) (by omega)
  have hp63 : 2 ^ (w - 1) ≤ 2 ^ 63 := Nat.pow_le_pow_right (by decide) (by omega)
  have hpw' : ((2 : Int) ^ (w - 1)) = ((2 ^ (w - 1) : Nat) : Int) := by push_cast; rfl
  obtain ⟨v, hv⟩ : ∃ v : Word,
      (if r.size < r.exactSize then u <<< (r.exactSize - r.size) else u) = v := ⟨_, rfl⟩
  have hvn : v.toNat = m * 2 ^ (r.exactSize - r.size) := by
    rw [← hv]
    split
    · rw [BitVec.toNat_shiftLeft, Nat.shiftLeft_eq, hn, Nat.mod_eq_of_lt (by omega)]
    · rw [hn, show r.exactSize - r.size = 0 by omega]; simp
  obtain ⟨d, hd⟩ : ∃ d : Nat, r.upper - r.lower = (d : Int) := ⟨(r.upper - r.lower).toNat, by omega⟩
  have hdn : (BitVec.ofInt 64 (r.upper - r.lower)).toNat = d := by
    rw [hd, BitVec.ofInt_natCast, BitVec.toNat_ofNat, Nat.mod_eq_of_lt (by omega)]
  obtain ⟨t, ht⟩ : ∃ t : Word,
      (if BitVec.ofInt 64 (r.upper - r.lower) < v then BitVec.ofInt 64 (r.upper - r.lower) else v) = t := ⟨_, rfl⟩
  have htn : t.toNat = min (m * 2 ^ (r.exactSize - r.size)) d := by
    rw [← ht]
    split
    · rename_i hlt
      rw [BitVec.lt_def, hdn, hvn] at hlt
      rw [hdn]; omega
    · rename_i hlt
      rw [BitVec.lt_def, hdn, hvn] at hlt
      rw [hvn]; omega
  have htd : t.toNat ≤ d := by rw [htn]; exact Nat.min_le_right _ _
  have hti : (t.setWidth r.width).toInt = (t.toNat : Int) := by
    rw [h1, BitVec.toInt_eq_toNat_of_lt, BitVec.toNat_setWidth, Nat.mod_eq_of_lt]
    · have : 2 ^ w = 2 * 2 ^ (w - 1) := by rw [← pow_succ']; congr 1; omega
      omega
    · have : 2 ^ w = 2 * 2 ^ (w - 1) := by rw [← pow_succ']; congr 1; omega
      rw [BitVec.toNat_setWidth, Nat.mod_eq_of_lt (by omega)]
      omega
  unfold dyadicUnpack
  simp only [hu, ok_bind, hv]
  rw [h1, checked_ok (show InType w (r.upper - r.lower) from ⟨by omega, by omega⟩), ok_bind]
  simp only [ht]
  rw [← h1, hti, h1, checked_ok (show InType w (r.lower + (t.toNat : Int)) from ⟨by omega, by omega⟩), ok_bind,
    show decide (r.lower ≤ r.lower + (t.toNat : Int)) = true by simp, assert_true, ok_bind, if_neg (by omega)]
  congr 1
  rw [htn]
  have : ((m * 2 ^ (r.exactSize - r.size) : Nat) : Int) = (m : Int) * 2 ^ (r.exactSize - r.size) := by
    push_cast; rfl
  rw [← this]
  omega

/-! ## Theorems -/

/-- C36: for two values of the type, the check of the difference says whether the difference is a value of the
type, except that it overflows itself when the smallest value of the type is one of the bounds and the other is
not negative. -/
theorem differenceIsSafe_spec {w : Nat} {a b : Int} (ha : InType w a) (hb : InType w b) (hab : a < b) :
    differenceIsSafe w a b =
      if a = -2 ^ (w - 1) ∧ 0 ≤ b then ub else ok (decide (InType w (b - a))) := by
  have hp := two_pow_pos_int (w - 1)
  obtain ⟨ha1, ha2⟩ := ha
  obtain ⟨hb1, hb2⟩ := hb
  unfold differenceIsSafe
  rw [show decide (a < b) = true by simpa using hab, assert_true, ok_bind]
  by_cases h1 : a < 0 ∧ b < 0
  · rw [if_pos h1, if_neg (by omega), show decide (InType w (b - a)) = true by
      rw [decide_eq_true_eq]; exact ⟨by omega, by omega⟩]
  rw [if_neg h1]
  by_cases h2 : 0 ≤ a ∧ 0 ≤ b
  · rw [if_pos h2, if_neg (by omega), show decide (InType w (b - a)) = true by
      rw [decide_eq_true_eq]; exact ⟨by omega, by omega⟩]
  rw [if_neg h2, show decide (a < 0) = true by rw [decide_eq_true_eq]; omega,
    show decide (0 ≤ b) = true by rw [decide_eq_true_eq]; omega]
  simp only [assert_true, ok_bind]
  by_cases h3 : a = -2 ^ (w - 1)
  · rw [if_pos ⟨h3, by omega⟩, checked_ub (by rintro ⟨_, h⟩; omega)]
    rfl
  · rw [if_neg (fun h => h3 h.1), checked_ok ⟨by omega, by omega⟩, checked_ok ⟨by omega, by omega⟩]
    simp only [ok_bind]
    split
    · rw [show decide (InType w (b - a)) = true by rw [decide_eq_true_eq]; exact ⟨by omega, by omega⟩]
    · rw [show decide (InType w (b - a)) = false by
        rw [decide_eq_false_iff_not]; rintro ⟨_, h⟩; omega]

/-- C36: the constructor accepts exactly the bounds whose difference, plus one, is a value of the type, if the
logarithm is exact. -/
theorem dyadicExact_accepts {w : Nat} {ceilLog2 : Nat → Nat} (hlog : ∀ m, ceilLog2 m = Nat.clog 2 m)
    {lower upper : Int} (hl : InType w lower) (hu : InType w upper) :
    (∃ r, dyadicExact w ceilLog2 lower upper = ok r) ↔ lower < upper ∧ InType w (upper - lower + 1) := by
  have hp := two_pow_pos_int (w - 1)
  constructor
  · rintro ⟨r, h⟩
    obtain ⟨_, _, _, _, _, _, h7, h8⟩ := DyadicInteger.Constructed.wellFormed (w := w) (ceilLog2 := ceilLog2)
      (r := r) (Or.inr (Or.inl ⟨lower, upper, hl, hu, h⟩))
    unfold dyadicExact at h
    simp only [bind_eq_ok] at h
    obtain ⟨e, _, h4⟩ := h
    obtain rfl := Outcome.ok.inj h4
    simp only at h7 h8
    exact ⟨h7, by omega, by omega⟩
  · rintro ⟨h1, h2, h3⟩
    unfold dyadicExact dyadicExactSize
    obtain ⟨ha1, ha2⟩ := hl
    obtain ⟨hb1, hb2⟩ := hu
    rw [differenceIsSafe_spec ⟨ha1, ha2⟩ ⟨hb1, hb2⟩ h1, if_neg (by omega),
      show decide (InType w (upper - lower)) = true by rw [decide_eq_true_eq]; exact ⟨by omega, by omega⟩,
      checked_ok (show InType w (upper - lower) from ⟨by omega, by omega⟩),
      show decide (lower < upper) = true by simpa using h1]
    simp only [assert_true, ok_bind]
    rw [checked_ok ⟨h2, h3⟩, ok_bind, hlog]
    have hm : 2 ≤ (upper - lower + 1).toNat := by omega
    have hpn : ((2 : Int) ^ (w - 1)) = ((2 ^ (w - 1) : Nat) : Int) := by push_cast; rfl
    have h0 : 0 < Nat.clog 2 (upper - lower + 1).toNat := Nat.clog_pos (by decide) hm
    have h4 : Nat.clog 2 (upper - lower + 1).toNat ≤ w - 1 :=
      (Nat.clog_le_iff_le_pow (by decide)).mpr (by omega)
    have hw : 0 < w := by omega
    rw [show decide (0 < Nat.clog 2 (upper - lower + 1).toNat) = true by simpa using h0,
      show decide (Nat.clog 2 (upper - lower + 1).toNat < w) = true by rw [decide_eq_true_eq]; omega]
    exact ⟨_, rfl⟩

/-- C36 (negative part): bounds whose difference is the greatest value of the type pass the check of the
difference, but computing the size overflows. -/
theorem dyadicExact_overflow {w : Nat} (ceilLog2 : Nat → Nat) {lower upper : Int} (hl : InType w lower)
    (hu : InType w upper) (hlt : lower < upper) (h : upper - lower = 2 ^ (w - 1) - 1) :
    differenceIsSafe w lower upper = ok true ∧ dyadicExact w ceilLog2 lower upper = ub := by
  have hp := two_pow_pos_int (w - 1)
  obtain ⟨ha1, ha2⟩ := hl
  obtain ⟨hb1, hb2⟩ := hu
  have hs : differenceIsSafe w lower upper = ok true := by
    rw [differenceIsSafe_spec ⟨ha1, ha2⟩ ⟨hb1, hb2⟩ hlt, if_neg (by omega),
      show decide (InType w (upper - lower)) = true by rw [decide_eq_true_eq]; exact ⟨by omega, by omega⟩]
  refine ⟨hs, ?_⟩
  unfold dyadicExact dyadicExactSize
  rw [hs, checked_ok (show InType w (upper - lower) from ⟨by omega, by omega⟩),
    show decide (lower < upper) = true by simpa using hlt]
  simp only [assert_true, ok_bind]
  rw [checked_ub (by rintro ⟨_, h⟩; omega)]
  rfl

/-- C36: whatever the constructor, the size and the rounding of the logarithm, every slice of a bit vector
unpacks to a value between the bounds: the number coded by the slice, times a power of two, above the lower
bound, and no greater than the upper bound. -/
theorem dyadicUnpack_spec {w : Nat} (hw : w ≤ 64) {ceilLog2 : Nat → Nat} {r : DyadicInteger}
    (hr : r.Constructed w ceilLog2) {bv : BV} {start : Nat} (hb : start + r.size ≤ bv.length) :
    ∃ v, dyadicUnpack r bv start = ok v ∧ r.lower ≤ v ∧ v ≤ r.upper ∧
      v = min (r.lower + (bitsToNat (sliceOf bv start r.size) : Int) * 2 ^ (r.exactSize - r.size)) r.upper ∧
      r.size ≤ r.exactSize ∧ r.exactSize = ceilLog2 (r.upper - r.lower + 1).toNat := by
  have h := hr.wellFormed
  refine ⟨_, dyadicUnpack_wellFormed hw h hb, ?_, Int.min_le_right _ _, rfl, h.size_le, ?_⟩
  · have : 0 ≤ (bitsToNat (sliceOf bv start r.size) : Int) * 2 ^ (r.exactSize - r.size) :=
      Int.mul_nonneg (Int.natCast_nonneg _) (le_of_lt (two_pow_pos_int _))
    have := h.lt
    omega
  · rcases hr with ⟨l, u, size, hl, hu, h⟩ | ⟨l, u, hl, hu, h⟩ | ⟨f, l, u, p, hl, hu, h⟩ | ⟨n, hn, h⟩
    · simp only [dyadicWithSize, bind_eq_ok] at h
      obtain ⟨_, _, _, _, e, h3, h4⟩ := h
      obtain rfl := Outcome.ok.inj h4
      exact (dyadicExactSize_eq_ok h3).2.2.1
    · simp only [dyadicExact, bind_eq_ok] at h
      obtain ⟨e, h3, h4⟩ := h
      obtain rfl := Outcome.ok.inj h4
      exact (dyadicExactSize_eq_ok h3).2.2.1
    · unfold dyadicWithPrecision at h
      split at h
      · cases h
      simp only [bind_eq_ok] at h
      obtain ⟨e, h3, h4⟩ := h
      obtain rfl := Outcome.ok.inj h4
      exact (dyadicExactSize_eq_ok h3).2.2.1
    · simp only [dyadicCount, bind_eq_ok] at h
      obtain ⟨u, _, _, _, e, h3, h4⟩ := h
      obtain rfl := Outcome.ok.inj h4
      exact (dyadicExactSize_eq_ok h3).2.2.1

/-- C36: zeros unpack to the lower bound. -/
theorem dyadicUnpack_zeros {w : Nat} (hw : w ≤ 64) {ceilLog2 : Nat → Nat} {r : DyadicInteger}
    (hr : r.Constructed w ceilLog2) {bv : BV} {start : Nat} (hb : start + r.size ≤ bv.length)
    (hz : sliceOf bv start r.size = List.replicate r.size false) : dyadicUnpack r bv start = ok r.lower := by
  have h := hr.wellFormed
  rw [dyadicUnpack_wellFormed hw h hb, hz, HypercubeIterator.bitsToNat_replicate]
  have := h.lt
  congr 1
  simp only [Nat.cast_zero, zero_mul, add_zero]
  omega

theorem exists_bitsToNat : ∀ (n m : Nat), m < 2 ^ n → ∃ x : BV, x.length = n ∧ bitsToNat x = m
  | 0, m, h => ⟨[], rfl, by simp at h; simp [bitsToNat, h]⟩
  | n + 1, m, h => by
    obtain ⟨x, hx, hm⟩ := exists_bitsToNat n (m / 2) (by rw [pow_succ] at h; omega)
    refine ⟨(decide (m % 2 = 1)) :: x, by simp [hx], ?_⟩
    rw [bitsToNat, hm]
    by_cases hb : m % 2 = 1
    · simp [hb]; omega
    · simp [hb]; omega

/-- C36: a representation whose size is the exact size reaches every value between the bounds if, and only if,
its size is large enough to count them. -/
theorem dyadicUnpack_onto {w : Nat} (hw : w ≤ 64) {ceilLog2 : Nat → Nat} {r : DyadicInteger}
    (hr : r.Constructed w ceilLog2) (hs : r.size = r.exactSize) :
    (∀ v, r.lower ≤ v → v ≤ r.upper → ∃ bv : BV, bv.length = r.size ∧ dyadicUnpack r bv 0 = ok v) ↔
      r.upper - r.lower + 1 ≤ 2 ^ r.size := by
  have h := hr.wellFormed
  have hlt := h.lt
  have hcast : ((2 ^ r.size : Nat) : Int) = 2 ^ r.size := by push_cast; rfl
  have hun : ∀ bv : BV, bv.length = r.size →
      dyadicUnpack r bv 0 = ok (min (r.lower + (bitsToNat bv : Int)) r.upper) := by
    intro bv hb
    rw [dyadicUnpack_wellFormed hw h (by omega), ← hs, Nat.sub_self, pow_zero, mul_one]
    unfold sliceOf
    rw [List.drop_zero, ← hb, List.take_length]
  constructor
  · intro honto
    obtain ⟨bv, hb, hv⟩ := honto r.upper (by omega) (le_refl _)
    rw [hun bv hb] at hv
    have hv := Outcome.ok.inj hv
    have hn := bitsToNat_lt bv
    rw [hb] at hn
    omega
  · intro hc v hv1 hv2
    obtain ⟨bv, hb, hm⟩ := exists_bitsToNat r.size (v - r.lower).toNat (by omega)
    refine ⟨bv, hb, ?_⟩
    rw [hun bv hb, hm]
    congr 1
    omega

/-- C36: the default constructor and the constructor for `[0..n-1]` give representations with the exact size. -/
theorem dyadicExact_size {w : Nat} {ceilLog2 : Nat → Nat} {r : DyadicInteger} :
    (∀ lower upper, dyadicExact w ceilLog2 lower upper = ok r →
      r.size = r.exactSize ∧ r.lower = lower ∧ r.upper = upper) ∧
    (∀ n, dyadicCount w ceilLog2 n = ok r → r.size = r.exactSize ∧ r.lower = 0 ∧ r.upper = n - 1) := by
  constructor
  · intro lower upper h
    simp only [dyadicExact, bind_eq_ok] at h
    obtain ⟨e, h3, h4⟩ := h
    obtain rfl := Outcome.ok.inj h4
    exact ⟨rfl, rfl, rfl⟩
  · intro n h
    simp only [dyadicCount, bind_eq_ok] at h
    obtain ⟨u, h1, _, _, e, h3, h4⟩ := h
    obtain rfl := Outcome.ok.inj h4
    exact ⟨rfl, rfl, (checked_eq_ok h1).1⟩

/-- C36: with an exact logarithm, every value between the bounds is reached. -/
theorem dyadicExact_onto {w : Nat} (hw : w ≤ 64) {ceilLog2 : Nat → Nat} (hlog : ∀ m, ceilLog2 m = Nat.clog 2 m)
    {lower upper : Int} (hl : InType w lower) (hu : InType w upper) {r : DyadicInteger}
    (hr : dyadicExact w ceilLog2 lower upper = ok r) {v : Int} (h1 : lower ≤ v) (h2 : v ≤ upper) :
    ∃ bv : BV, bv.length = r.size ∧ dyadicUnpack r bv 0 = ok v := by
  have hc : r.Constructed w ceilLog2 := Or.inr (Or.inl ⟨lower, upper, hl, hu, hr⟩)
  obtain ⟨hs, rfl, rfl⟩ := dyadicExact_size.1 lower upper hr
  refine (dyadicUnpack_onto hw hc hs).mpr ?_ v h1 h2
  have h := hc.wellFormed
  have hlt := h.lt
  obtain ⟨_, _, _, _, _, _, he⟩ := dyadicUnpack_spec hw hc (bv := List.replicate r.size false) (start := 0) (by simp)
  rw [hs, he, hlog]
  have := Nat.le_pow_clog (b := 2) (by decide) (r.upper - r.lower + 1).toNat
  have hcast : ((2 ^ (Nat.clog 2 (r.upper - r.lower + 1).toNat) : Nat) : Int) =
    2 ^ (Nat.clog 2 (r.upper - r.lower + 1).toNat) := by push_cast; rfl
  omega

/-- C36: a smaller size is used as is, with step `2 ^ (exactSize - size)`; a greater size is reduced to the
exact size. -/
theorem dyadicWithSize_size {w : Nat} {ceilLog2 : Nat → Nat} {lower upper : Int} {size : Nat} {r : DyadicInteger}
    (hr : dyadicWithSize w ceilLog2 lower upper size = ok r) :
    r.lower = lower ∧ r.upper = upper ∧ r.size = min size r.exactSize := by
  simp only [dyadicWithSize, bind_eq_ok] at hr
  obtain ⟨_, _, _, _, e, h3, h4⟩ := hr
  obtain rfl := Outcome.ok.inj h4
  refine ⟨rfl, rfl, ?_⟩
  show (if e < size then e else size) = min size e
  split <;> omega

/-- C36: with a given precision, if the floating point computation of the size is no less than its exact value
`exactSize - log2 precision`, the step between consecutive values is no greater than the precision. -/
theorem dyadicWithPrecision_step {w : Nat} {ceilLog2 : Nat → Nat} {precisionSize : Nat → Int → Int}
    {lower upper precision : Int} {r : DyadicInteger}
    (hr : dyadicWithPrecision w ceilLog2 precisionSize lower upper precision = ok r)
    (hround : (2 : Rat) ^ ((r.exactSize : Int) - precisionSize r.exactSize precision) ≤ precision) :
    r.lower = lower ∧ r.upper = upper ∧ (2 : Int) ^ (r.exactSize - r.size) ≤ precision := by
  unfold dyadicWithPrecision at hr
  split at hr
  · cases hr
  rename_i hp
  simp only [bind_eq_ok] at hr
  obtain ⟨e, h3, h4⟩ := hr
  obtain ⟨_, _, _, he, _⟩ := dyadicExactSize_eq_ok h3
  obtain rfl := Outcome.ok.inj h4
  simp only at hround
  refine ⟨rfl, rfl, ?_⟩
  have key : ∀ k : Nat, (k : Int) ≤ (e : Int) - precisionSize e precision → (2 : Int) ^ k ≤ precision := by
    intro k hk
    have h1 : (2 : Rat) ^ (k : Int) ≤ 2 ^ ((e : Int) - precisionSize e precision) :=
      zpow_le_zpow_right₀ (by norm_num) hk
    have h2 : (2 : Rat) ^ k ≤ precision := by
      rw [zpow_natCast] at h1
      exact le_trans h1 hround
    exact_mod_cast h2
  show (2 : Int) ^ (e - Int.toNat _) ≤ precision
  split
  · exact key _ (by omega)
  · split
    · rw [Int.toNat_natCast, Nat.sub_self, pow_zero]; omega
    · exact key _ (by omega)

/-! ## Examples -/

/-- An exact logarithm. -/
example : ∀ m, (Nat.clog 2) m = Nat.clog 2 m := fun _ => rfl

/-- A representation of `[-3..5]` in 32 bits. -/
def exampleDyadic : DyadicInteger := { width := 32, size := 4, exactSize := 4, lower := -3, upper := 5 }

theorem exampleDyadic_constructed : exampleDyadic.Constructed 32 (Nat.clog 2) :=
  Or.inr (Or.inl ⟨-3, 5, by decide, by decide, by decide +kernel⟩)

example : dyadicUnpack exampleDyadic [true, true, false, true, false] 1 = ok 2 := by decide +kernel
example : dyadicUnpack exampleDyadic [true, true, true, true, false] 0 = ok 5 := by decide +kernel
example : exampleDyadic.upper - exampleDyadic.lower + 1 ≤ 2 ^ exampleDyadic.size := by decide

example : InType 32 (-2147483648) ∧ InType 32 0 ∧ differenceIsSafe 32 (-2147483648) 0 = ub := by
  refine ⟨by decide, by decide, ?_⟩
  rw [differenceIsSafe_spec (by decide) (by decide) (by decide)]
  rfl

example : InType 32 0 ∧ InType 32 2147483647 ∧ (2147483647 - 0 : Int) = 2 ^ (32 - 1) - 1 := by decide

example : dyadicWithSize 32 (Nat.clog 2) (-3) 5 2 = ok { exampleDyadic with size := 2 } := by decide +kernel

/-- The precision 3 needs three bits out of four, and the step is 2. -/
example : dyadicWithPrecision 32 (Nat.clog 2) (fun e p => e - Nat.log 2 p.toNat) (-3) 5 3 =
    ok { exampleDyadic with size := 3 } ∧ (2 : Rat) ^ ((4 : Int) - ((4 : Int) - Nat.log 2 3)) ≤ 3 := by
  refine ⟨by decide +kernel, ?_⟩
  rw [show ((4 : Int) - ((4 : Int) - Nat.log 2 3)) = 1 by decide +kernel]
  norm_num

end Hnco
