import Verif.Representation.IntegerProps
import Verif.Function.FactorizationProps
import Mathlib.Data.List.Sort
import Mathlib.Algebra.Order.Floor.Ring
import Mathlib.Algebra.Order.Floor.Semiring
import Mathlib.Tactic.FieldSimp
import Mathlib.Tactic.Linarith
import Mathlib.Tactic.Positivity

/-!
# C37: value set and float representations decode to admissible values
-/

namespace Hnco

open Outcome

/-! ## Value sets -/

theorem valueSetNew_eq_ok {α : Type} [LinearOrder α] {ceilLog2 : Nat → Nat} {values : List α} {r : ValueSet α}
    (hr : valueSetNew ceilLog2 values = ok r) :
    dyadicCount 32 ceilLog2 values.length = ok r.index ∧
      r.values = values.mergeSort (fun a b => decide (a ≤ b)) := by
  simp only [valueSetNew, bind_eq_ok] at hr
  obtain ⟨i, h1, h2⟩ := hr
  obtain rfl := Outcome.ok.inj h2
  exact ⟨h1, rfl⟩

theorem valueSetUnpack_eq {α : Type} [LinearOrder α] {ceilLog2 : Nat → Nat} {values : List α} {r : ValueSet α}
    (hn : values.length < 2 ^ 31) (hr : valueSetNew ceilLog2 values = ok r) {bv : BV} {start : Nat}
    (hb : start + r.index.size ≤ bv.length) :
    ∃ h : min (bitsToNat (sliceOf bv start r.index.size)) (values.length - 1) < r.values.length,
      valueSetUnpack r bv start =
        ok (r.values[min (bitsToNat (sliceOf bv start r.index.size)) (values.length - 1)]'h) := by
  obtain ⟨h1, h2⟩ := valueSetNew_eq_ok hr
  have hc : r.index.Constructed 32 ceilLog2 := Or.inr (Or.inr (Or.inr ⟨_, ⟨by omega, by omega⟩, h1⟩))
  obtain ⟨h3, h4, h5⟩ := dyadicExact_size.2 _ h1
  have hw := hc.wellFormed
  have hlt := hw.lt
  have hpos := hw.size_pos
  have hl : r.values.length = values.length := by rw [h2, List.length_mergeSort]
  have hu := dyadicUnpack_wellFormed (by decide) hw hb
  rw [h3, Nat.sub_self, pow_zero, mul_one, ← h3, h4, h5] at hu
  generalize bitsToNat (sliceOf bv start r.index.size) = m at *
  rw [h4, h5] at hlt
  have hm : min (m : Int) ((values.length : Int) - 1) = ((min m (values.length - 1) : Nat) : Int) := by omega
  rw [zero_add, hm] at hu
  refine ⟨by omega, ?_⟩
  unfold valueSetUnpack
  rw [show decide (start < bv.length) = true by rw [decide_eq_true_eq]; omega, assert_true, ok_bind, hu, ok_bind,
    show decide ((0 : Int) ≤ ((min m (values.length - 1) : Nat) : Int) ∧
      ((min m (values.length - 1) : Nat) : Int) < (r.values.length : Int)) = true by
        rw [decide_eq_true_eq]; omega, assert_true, ok_bind, Int.toNat_natCast, vget_eq (by omega)]

/-- C37: every slice unpacks to one of the values. -/
theorem valueSetUnpack_mem {α : Type} [LinearOrder α] {ceilLog2 : Nat → Nat} {values : List α} {r : ValueSet α}
    (hn : values.length < 2 ^ 31) (hr : valueSetNew ceilLog2 values = ok r) {bv : BV} {start : Nat}
    (hb : start + r.index.size ≤ bv.length) : ∃ v ∈ values, valueSetUnpack r bv start = ok v := by
  obtain ⟨h, hu⟩ := valueSetUnpack_eq hn hr hb
  refine ⟨_, ?_, hu⟩
  have hmem : ∀ v, v ∈ r.values → v ∈ values := by
    intro v hv
    rwa [(valueSetNew_eq_ok hr).2, List.mem_mergeSort] at hv
  exact hmem _ (List.getElem_mem h)

/-- C37: with an exact logarithm, every value is reached. -/
theorem valueSetUnpack_onto {α : Type} [LinearOrder α] {ceilLog2 : Nat → Nat}
    (hlog : ∀ m, ceilLog2 m = Nat.clog 2 m) {values : List α} {r : ValueSet α} (hn : values.length < 2 ^ 31)
    (hr : valueSetNew ceilLog2 values = ok r) {v : α} (hv : v ∈ values) :
    ∃ bv : BV, bv.length = r.index.size ∧ valueSetUnpack r bv 0 = ok v := by
  obtain ⟨h1, h2⟩ := valueSetNew_eq_ok hr
  have hl : r.values.length = values.length := by rw [h2, List.length_mergeSort]
  have hv' : v ∈ r.values := by rw [h2, List.mem_mergeSort]; exact hv
  obtain ⟨i, hi, rfl⟩ := List.getElem_of_mem hv'
  have hc : r.index.Constructed 32 ceilLog2 := Or.inr (Or.inr (Or.inr ⟨_, ⟨by omega, by omega⟩, h1⟩))
  obtain ⟨h3, h4, h5⟩ := dyadicExact_size.2 _ h1
  obtain ⟨_, _, _, _, _, _, he⟩ :=
    dyadicUnpack_spec (by decide) hc (bv := List.replicate r.index.size false) (start := 0) (by simp)
  have hsize : values.length ≤ 2 ^ r.index.size := by
    rw [h3, he, hlog, h4, h5]
    have := Nat.le_pow_clog (b := 2) (by decide) values.length
    rwa [show ((values.length : Int) - 1 - 0 + 1).toNat = values.length by omega]
  obtain ⟨bv, hb, hm⟩ := exists_bitsToNat r.index.size i (by omega)
  refine ⟨bv, hb, ?_⟩
  obtain ⟨h, hu⟩ := valueSetUnpack_eq hn hr (bv := bv) (start := 0) (by omega)
  rw [hu]
  have hs : sliceOf bv 0 r.index.size = bv := by
    unfold sliceOf; rw [List.drop_zero, ← hb, List.take_length]
  have hmin : min (bitsToNat (sliceOf bv 0 r.index.size)) (values.length - 1) = i := by rw [hs, hm]; omega
  simp only [hmin]

/-- C37: the values are coded in increasing order: a greater number codes a value that is not less. -/
theorem valueSetUnpack_mono {α : Type} [LinearOrder α] {ceilLog2 : Nat → Nat} {values : List α} {r : ValueSet α}
    (hn : values.length < 2 ^ 31) (hr : valueSetNew ceilLog2 values = ok r) {x y : BV} {start start' : Nat}
    (hx : start + r.index.size ≤ x.length) (hy : start' + r.index.size ≤ y.length)
    (h : bitsToNat (sliceOf x start r.index.size) ≤ bitsToNat (sliceOf y start' r.index.size)) :
    ∃ u v, valueSetUnpack r x start = ok u ∧ valueSetUnpack r y start' = ok v ∧ u ≤ v := by
  obtain ⟨h1, hu⟩ := valueSetUnpack_eq hn hr hx
  obtain ⟨h2, hv⟩ := valueSetUnpack_eq hn hr hy
  refine ⟨_, _, hu, hv, ?_⟩
  have hs : r.values.Pairwise (· ≤ ·) := by
    rw [(valueSetNew_eq_ok hr).2]
    refine (List.pairwise_mergeSort ?_ ?_ values).imp ?_
    · intro a b c hab hbc
      rw [decide_eq_true_eq] at *
      exact le_trans hab hbc
    · intro a b
      rw [Bool.or_eq_true, decide_eq_true_eq, decide_eq_true_eq]
      exact le_total a b
    · intro a b hab
      simpa using hab
  rcases Nat.lt_or_eq_of_le (show min (bitsToNat (sliceOf x start r.index.size)) (values.length - 1) ≤
      min (bitsToNat (sliceOf y start' r.index.size)) (values.length - 1) by omega) with hlt | heq
  · exact List.pairwise_iff_getElem.mp hs _ _ h1 h2 hlt
  · simp only [heq]; exact le_refl _

/-- C37: with an exact logarithm, the constructor accepts exactly the sets of at least two values.  A single
value, which needs no bits, is an error. -/
theorem valueSetNew_accepts {α : Type} [LinearOrder α] {ceilLog2 : Nat → Nat}
    (hlog : ∀ m, ceilLog2 m = Nat.clog 2 m) {values : List α} (hn : values.length < 2 ^ 31) :
    (∃ r, valueSetNew ceilLog2 values = ok r) ↔ 2 ≤ values.length := by
  constructor
  · rintro ⟨r, hr⟩
    obtain ⟨h1, _⟩ := valueSetNew_eq_ok hr
    have hc : r.index.Constructed 32 ceilLog2 := Or.inr (Or.inr (Or.inr ⟨_, ⟨by omega, by omega⟩, h1⟩))
    obtain ⟨_, h4, h5⟩ := dyadicExact_size.2 _ h1
    have := hc.wellFormed.lt
    omega
  · intro h
    obtain ⟨r, hr⟩ := (dyadicExact_accepts hlog (w := 32) (lower := 0) (upper := (values.length : Int) - 1)
      ⟨by omega, by omega⟩ ⟨by omega, by omega⟩).mpr ⟨by omega, by omega, by omega⟩
    simp only [dyadicExact, bind_eq_ok] at hr
    obtain ⟨e, he, _⟩ := hr
    unfold valueSetNew dyadicCount
    rw [checked_ok ⟨by omega, by omega⟩, ok_bind,
      show decide (0 < (values.length : Int)) = true by rw [decide_eq_true_eq]; omega, assert_true, ok_bind, he]
    exact ⟨_, rfl⟩

/-- The index representation of three values. -/
def exampleIndex : DyadicInteger := { width := 32, size := 2, exactSize := 2, lower := 0, upper := 2 }

example : ∃ r, valueSetNew (Nat.clog 2) [30, 10, 20] = ok r ∧ r.index.size = 2 ∧
    valueSetUnpack r [false, true, true] 0 = ok 30 := by
  have h : valueSetNew (Nat.clog 2) [30, 10, 20] = ok ⟨[10, 20, 30], exampleIndex⟩ := by
    have : dyadicCount 32 (Nat.clog 2) 3 = ok exampleIndex := by decide +kernel
    unfold valueSetNew
    rw [show (([30, 10, 20] : List Nat).length : Int) = 3 from rfl, this]
    simp [List.mergeSort, List.merge, List.MergeSort.Internal.splitInTwo]
  exact ⟨_, h, rfl, by decide +kernel⟩

/-! ## Floats -/

section
variable {K : Type} [Field K] [LinearOrder K] [IsStrictOrderedRing K]

theorem floatLengths_eq {size : Int} (h : 0 < size) :
    (floatLengths size : Outcome (List K)) = ok ((List.range size.toNat).map (fun i => 1 / 2 ^ (i + 1))) := by
  unfold floatLengths
  rw [show decide (0 < size) = true by simpa using h, assert_true, ok_bind]
  have hr : (forRange 0 size.toNat (fun i (st : List K × K) => do
      let lengths ← vset st.1 i st.2
      ok (lengths, st.2 / 2)) (List.replicate size.toNat 0, 1 / 2)).Returns
      (fun st => st.1 = (List.range size.toNat).map (fun i => (1 : K) / 2 ^ (i + 1))) := by
    refine (forRange_returns (I := fun i (st : List K × K) => st.2 = 1 / 2 ^ (i + 1) ∧
      st.1.length = size.toNat ∧ ∀ k : Nat, k < i → st.1[k]? = some (1 / 2 ^ (k + 1))) (Nat.zero_le _)
      ⟨by simp, by simp, by intro k hk; omega⟩ ?_).mono ?_
    · rintro j ⟨l, t⟩ _ hj ⟨h1, h2, h3⟩
      simp only at h1 h2 h3
      rw [vset_eq (show j < (l, t).1.length by simp only; omega), ok_bind, returns_ok]
      refine ⟨?_, by simpa using h2, ?_⟩
      · simp only [h1]
        rw [div_div, ← pow_succ]
      · intro k hk
        rw [List.getElem?_set]
        by_cases hkj : j = k
        · subst hkj
          rw [if_pos rfl, if_pos (by simp only; omega), h1]
        · rw [if_neg hkj]; exact h3 k (by omega)
    · rintro ⟨l, t⟩ ⟨_, h2, h3⟩
      simp only at h2 h3 ⊢
      apply List.ext_getElem?
      intro k
      by_cases hk : k < size.toNat
      · rw [h3 k hk, List.getElem?_map, List.getElem?_range hk]; rfl
      · rw [List.getElem?_eq_none (by omega), List.getElem?_eq_none (by simp; omega)]
  obtain ⟨st, hst, h1⟩ := hr
  rw [hst, ok_bind, h1]

/-- C37: a float representation is built exactly when the bounds are in order and the size is positive; a slice
unpacks to the point of the interval at the binary fraction that it codes. -/
theorem floatUnpack_spec {lower upper : K} {size : Int} :
    ((∃ r, floatWithSize lower upper size = ok r) ↔ lower < upper ∧ 0 < size) ∧
    ∀ r, floatWithSize lower upper size = ok r → (r.lengths.length : Int) = size ∧
      ∀ (bv : BV) (start : Nat), start + r.lengths.length ≤ bv.length →
        floatUnpack r bv start = ok (lower + (upper - lower) *
          ((binaryNumber (sliceOf bv start r.lengths.length) : K) / 2 ^ r.lengths.length)) := by
  refine ⟨?_, ?_⟩
  · unfold floatWithSize
    constructor
    · rintro ⟨r, h⟩
      simp only [bind_eq_ok] at h
      obtain ⟨_, h1, _, h2, _⟩ := h
      simp only [assert_eq_ok, decide_eq_true_eq] at h1 h2
      exact ⟨h1, h2⟩
    · rintro ⟨h1, h2⟩
      rw [show decide (lower < upper) = true by simpa using h1, show decide (0 < size) = true by simpa using h2,
        floatLengths_eq h2]
      exact ⟨_, rfl⟩
  · intro r h
    simp only [floatWithSize, bind_eq_ok] at h
    obtain ⟨_, h1, _, h2, l, h3, h4⟩ := h
    simp only [assert_eq_ok, decide_eq_true_eq] at h1 h2
    rw [floatLengths_eq h2] at h3
    obtain rfl := Outcome.ok.inj h3
    obtain rfl := Outcome.ok.inj h4
    have hlen : ((List.range size.toNat).map (fun i => (1 : K) / 2 ^ (i + 1))).length = size.toNat := by simp
    simp only [hlen]
    refine ⟨by omega, ?_⟩
    intro bv start hb
    unfold floatUnpack
    simp only [hlen]
    rw [show decide (start < bv.length) = true by rw [decide_eq_true_eq]; omega,
      show decide (start + 1 ≤ start + size.toNat ∧ start + size.toNat < bv.length + 1) = true by
        rw [decide_eq_true_eq]; omega]
    simp only [assert_true, ok_bind]
    have hr : (forRange start (start + size.toNat) (fun i (result : K) => do
        let b ← vget bv i
        let l ← vget ((List.range size.toNat).map (fun i => (1 : K) / 2 ^ (i + 1))) (i - start)
        ok (if b then result + l else result)) 0).Returns (fun t => t =
          (binaryNumber (sliceOf bv start size.toNat) : K) / 2 ^ size.toNat) := by
      refine (forRange_returns (I := fun i (t : K) => t =
        (binaryNumber (sliceOf bv start (i - start)) : K) / 2 ^ (i - start)) (by omega)
        (by simp [sliceOf, binaryNumber]) ?_).mono ?_
      · intro j t hj1 hj2 ht
        rw [vget_eq (by omega), ok_bind, vget_eq (by simp; omega), ok_bind, returns_ok]
        simp only [List.getElem_map, List.getElem_range]
        have hs : sliceOf bv start (j + 1 - start) = sliceOf bv start (j - start) ++ [bv[j]] := by
          unfold sliceOf
          rw [show j + 1 - start = (j - start) + 1 by omega, List.take_succ_eq_append_getElem (by simp; omega)]
          congr 2
          rw [List.getElem_drop]
          congr 1
          omega
        rw [hs, binaryNumber_snoc, show j + 1 - start = (j - start) + 1 by omega, pow_succ, ht]
        have h2 : (2 : K) ^ (j - start) ≠ 0 := by positivity
        split
        · rename_i hbit
          rw [hbit]
          push_cast
          simp only [Bool.toNat_true, Nat.cast_one]
          field_simp
        · rename_i hbit
          rw [Bool.not_eq_true] at hbit
          rw [hbit]
          push_cast
          simp only [Bool.toNat_false, Nat.cast_zero, add_zero]
          field_simp
      · intro t ht
        rw [ht, Nat.add_sub_cancel_left]
    obtain ⟨t, ht, he⟩ := hr
    rw [ht, ok_bind, he]

/-- C37: every slice unpacks to a value of the interval `[lower, upper)`, zeros to the lower bound. -/
theorem floatUnpack_range {lower upper : K} {size : Int} {r : DyadicFloat K}
    (hr : floatWithSize lower upper size = ok r) {bv : BV} {start : Nat} (hb : start + r.lengths.length ≤ bv.length) :
    ∃ v, floatUnpack r bv start = ok v ∧ lower ≤ v ∧ v < upper ∧
      (sliceOf bv start r.lengths.length = List.replicate r.lengths.length false → v = lower) := by
  obtain ⟨h1, _⟩ := floatUnpack_spec.1.mp ⟨r, hr⟩
  obtain ⟨_, h2⟩ := floatUnpack_spec.2 r hr
  refine ⟨_, h2 bv start hb, ?_, ?_, ?_⟩
  · have : 0 ≤ (upper - lower) * ((binaryNumber (sliceOf bv start r.lengths.length) : K) / 2 ^ r.lengths.length) := by
      have : 0 < upper - lower := sub_pos.mpr h1
      positivity
    linarith
  · have hlt : (binaryNumber (sliceOf bv start r.lengths.length) : K) / 2 ^ r.lengths.length < 1 := by
      rw [div_lt_one (by positivity)]
      have := binaryNumber_lt (sliceOf bv start r.lengths.length)
      rw [sliceOf_length hb] at this
      exact_mod_cast this
    have := mul_lt_mul_of_pos_left hlt (sub_pos.mpr h1)
    linarith
  · intro hz
    have h0 : ∀ n, binaryNumber (List.replicate n false) = 0 := by
      intro n
      induction n with
      | zero => rfl
      | succ n ih => rw [List.replicate_succ', binaryNumber_snoc, ih]; rfl
    rw [hz, h0]
    simp

/-- C37: a greater binary number codes a greater value. -/
theorem floatUnpack_strictMono {lower upper : K} {size : Int} {r : DyadicFloat K}
    (hr : floatWithSize lower upper size = ok r) {x y : BV} {start start' : Nat}
    (hx : start + r.lengths.length ≤ x.length) (hy : start' + r.lengths.length ≤ y.length)
    (h : binaryNumber (sliceOf x start r.lengths.length) < binaryNumber (sliceOf y start' r.lengths.length)) :
    ∃ u v, floatUnpack r x start = ok u ∧ floatUnpack r y start' = ok v ∧ u < v := by
  obtain ⟨h1, _⟩ := floatUnpack_spec.1.mp ⟨r, hr⟩
  obtain ⟨_, h2⟩ := floatUnpack_spec.2 r hr
  refine ⟨_, _, h2 x start hx, h2 y start' hy, ?_⟩
  have hc : (binaryNumber (sliceOf x start r.lengths.length) : K) / 2 ^ r.lengths.length <
      (binaryNumber (sliceOf y start' r.lengths.length) : K) / 2 ^ r.lengths.length :=
    div_lt_div_of_pos_right (by exact_mod_cast h) (by positivity)
  have := mul_lt_mul_of_pos_left hc (sub_pos.mpr h1)
  linarith

/-- C37: with a given precision, if the floating point computation of the size is no less than its exact value,
every point of the interval is within the precision of a decoded value that is not greater. -/
theorem floatWithPrecision_dense [FloorRing K] {ceilLog2 : K → Int} {lower upper precision : K} {r : DyadicFloat K}
    (hr : floatWithPrecision ceilLog2 lower upper precision = ok r)
    (hround : (upper - lower) / precision ≤ 2 ^ (ceilLog2 ((upper - lower) / precision))) {t : K} (h1 : lower ≤ t)
    (h2 : t < upper) :
    ∃ (bv : BV) (v : K), bv.length = r.lengths.length ∧ floatUnpack r bv 0 = ok v ∧ v ≤ t ∧ t < v + precision := by
  simp only [floatWithPrecision, bind_eq_ok] at hr
  obtain ⟨_, h3, _, h4, l, h5, h6⟩ := hr
  simp only [assert_eq_ok, decide_eq_true_eq] at h3 h4
  generalize hs : ceilLog2 ((upper - lower) / precision) = s at *
  have hpos : 0 < s := by
    by_contra hc
    unfold floatLengths at h5
    rw [show decide (0 < s) = false by simpa using hc] at h5
    cases h5
  have hr' : floatWithSize lower upper s = ok r := by
    unfold floatWithSize
    rw [show decide (lower < upper) = true by simpa using h3, show decide (0 < s) = true by simpa using hpos]
    simp only [assert_true, ok_bind, h5]
    exact h6
  obtain ⟨hl, hu⟩ := floatUnpack_spec.2 r hr'
  have hL : 0 < upper - lower := sub_pos.mpr h3
  have hp : (0 : K) < 2 ^ r.lengths.length := by positivity
  have hround' : (upper - lower) / 2 ^ r.lengths.length ≤ precision := by
    rw [← hl, zpow_natCast, div_le_iff₀ h4] at hround
    rw [div_le_iff₀ hp]
    linarith [mul_comm precision (2 ^ r.lengths.length)]
  have hq : 0 ≤ (t - lower) / (upper - lower) * 2 ^ r.lengths.length := by
    have : 0 ≤ t - lower := sub_nonneg.mpr h1
    positivity
  have hq1 : (t - lower) / (upper - lower) < 1 := by rw [div_lt_one hL]; linarith
  have hlt : ⌊(t - lower) / (upper - lower) * 2 ^ r.lengths.length⌋₊ < 2 ^ r.lengths.length := by
    rw [Nat.floor_lt hq]
    push_cast
    have := mul_lt_mul_of_pos_right hq1 hp
    linarith
  obtain ⟨bv, hb, hn⟩ := exists_binaryNumber _ _ hlt
  refine ⟨bv, _, hb, hu bv 0 (by omega), ?_⟩
  have hsl : sliceOf bv 0 r.lengths.length = bv := by
    unfold sliceOf; rw [List.drop_zero, ← hb, List.take_length]
  rw [hsl, hn]
  have hf1 := Nat.floor_le hq
  have hf2 := Nat.lt_floor_add_one ((t - lower) / (upper - lower) * 2 ^ r.lengths.length)
  generalize (⌊(t - lower) / (upper - lower) * 2 ^ r.lengths.length⌋₊ : K) = m at *
  have e : (t - lower) = (upper - lower) * ((t - lower) / (upper - lower)) := by field_simp
  have f1 : (upper - lower) * (m / 2 ^ r.lengths.length) ≤ t - lower := by
    rw [e]
    refine mul_le_mul_of_nonneg_left ?_ hL.le
    rw [div_le_iff₀ hp]
    exact hf1
  have f2 : t - lower < (upper - lower) * ((m + 1) / 2 ^ r.lengths.length) := by
    rw [e]
    refine mul_lt_mul_of_pos_left ?_ hL
    rw [lt_div_iff₀ hp]
    exact hf2
  have f3 : (upper - lower) * ((m + 1) / 2 ^ r.lengths.length) =
      (upper - lower) * (m / 2 ^ r.lengths.length) + (upper - lower) / 2 ^ r.lengths.length := by ring
  constructor <;> linarith

/-- C37: a precision no less than the length of the interval, for which no bits are needed, is an error. -/
theorem floatWithPrecision_coarse {ceilLog2 : K → Int} {lower upper precision : K}
    (h : ceilLog2 ((upper - lower) / precision) ≤ 0) : floatWithPrecision ceilLog2 lower upper precision = ub := by
  unfold floatWithPrecision floatLengths
  by_cases h1 : lower < upper
  · by_cases h2 : 0 < precision
    · rw [show decide (lower < upper) = true by simpa using h1, show decide (0 < precision) = true by simpa using h2]
      simp only [assert_true, ok_bind]
      rw [show decide (0 < ceilLog2 ((upper - lower) / precision)) = false by simpa using h]
      rfl
    · rw [show decide (lower < upper) = true by simpa using h1, show decide (0 < precision) = false by simpa using h2]
      rfl
  · rw [show decide (lower < upper) = false by simpa using h1]
    rfl

/-- C37: a complex number is decoded from two consecutive slices, the first for the real part. -/
theorem complexUnpack_spec {a b c d : K} {n m : Int} {re im : DyadicFloat K} (hre : floatWithSize a b n = ok re)
    (him : floatWithSize c d m = ok im) {bv : BV} {start : Nat}
    (hb : start + (re.lengths.length + im.lengths.length) ≤ bv.length) :
    ∃ x y, complexUnpack re im bv start = ok (x, y) ∧ floatUnpack re (sliceOf bv start re.lengths.length) 0 = ok x ∧
      floatUnpack im (sliceOf bv (start + re.lengths.length) im.lengths.length) 0 = ok y ∧
      a ≤ x ∧ x < b ∧ c ≤ y ∧ y < d := by
  obtain ⟨hl, hu⟩ := floatUnpack_spec.2 re hre
  obtain ⟨hl', hu'⟩ := floatUnpack_spec.2 im him
  have hn := (floatUnpack_spec.1.mp ⟨re, hre⟩).2
  obtain ⟨x, hx, hx1, hx2, _⟩ := floatUnpack_range hre (bv := bv) (start := start) (by omega)
  obtain ⟨y, hy, hy1, hy2, _⟩ := floatUnpack_range him (bv := bv) (start := start + re.lengths.length) (by omega)
  have hss : ∀ (s k : Nat), sliceOf (sliceOf bv s k) 0 k = sliceOf bv s k := by
    intro s k
    unfold sliceOf
    rw [List.drop_zero, List.take_take, Nat.min_self]
  refine ⟨x, y, ?_, ?_, ?_, hx1, hx2, hy1, hy2⟩
  · unfold complexUnpack
    rw [show decide (start < bv.length) = true by rw [decide_eq_true_eq]; omega, assert_true, ok_bind, hx, ok_bind,
      hy, ok_bind]
  · rw [hu _ 0 (by rw [sliceOf_length (by omega)]; omega), hss, ← hu bv start (by omega)]
    exact hx
  · rw [hu' _ 0 (by rw [sliceOf_length (by omega)]; omega), hss, ← hu' bv _ (by omega)]
    exact hy

end

example : ∃ r, floatWithSize (-1 : Rat) 3 3 = ok r ∧ floatUnpack r [false, true, false, true] 1 = ok (3 / 2) := by
  refine ⟨⟨[1 / 2, 1 / 4, 1 / 8], -1, 4⟩, by decide +kernel, by decide +kernel⟩

/-- Precision 1 on an interval of length 4 needs two bits. -/
example : ∃ r, floatWithPrecision (fun _ => 2) (-1 : Rat) 3 1 = ok r ∧
    ((3 - -1) / 1 : Rat) ≤ 2 ^ ((fun _ => 2 : Rat → Int) ((3 - -1) / 1)) := by
  refine ⟨⟨[1 / 2, 1 / 4], -1, 4⟩, by decide +kernel, by norm_num⟩

end Hnco
