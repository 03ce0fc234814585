import Verif.Representation.IntegerProps
import Verif.Matrix.Props
import Verif.Function.SudokuProps

/-!
# C37: categorical representations decode to categories and reach them all
-/

namespace Hnco

open Outcome

/-! ## Lemmas -/

theorem msbIndex_eq (n : Nat) (hn : 0 < n) : ∀ w, n < 2 ^ w → msbIndex n w = Nat.log 2 n
  | 0, h => by simp at h; omega
  | w + 1, h => by
    unfold msbIndex
    split
    · rename_i hb
      refine (Nat.log_eq_of_pow_le_of_lt_pow ?_ h).symm
      exact Nat.ge_two_pow_of_testBit hb
    · rename_i hb
      refine msbIndex_eq n hn w ?_
      by_contra hc
      refine hb ?_
      rw [Nat.testBit_eq_decide_div_mod_eq, decide_eq_true_eq]
      rw [pow_succ] at h
      have : n / 2 ^ w = 1 := by
        rw [Nat.div_eq_iff (Nat.two_pow_pos _)]; omega
      rw [this]

theorem bitCount_eq_one {w n : Nat} (hn : 0 < n) (h : n < 2 ^ w) :
    bitCount w n = 1 ↔ n = 2 ^ Nat.log 2 n := by
  have key : bitCount w n = 1 ↔ ∃! i, i < w ∧ n.testBit i = true := by
    unfold bitCount
    have := countP_eq_one_iff (List.range w) List.nodup_range (fun i => n.testBit i = true)
    simp only [List.mem_range, Bool.decide_eq_true] at this
    exact this
  have hlog : Nat.log 2 n < w := (Nat.log_lt_iff_lt_pow (by decide) (by omega)).mpr h
  have htop : n.testBit (Nat.log 2 n) = true := by
    have h1 := Nat.pow_log_le_self 2 (show n ≠ 0 by omega)
    have h2 := Nat.lt_pow_succ_log_self (b := 2) (by decide) n
    rw [Nat.testBit_eq_decide_div_mod_eq, decide_eq_true_eq]
    rw [Nat.succ_eq_add_one, pow_succ] at h2
    have : n / 2 ^ Nat.log 2 n = 1 := by
      rw [Nat.div_eq_iff (Nat.two_pow_pos _)]; omega
    rw [this]
  rw [key]
  constructor
  · rintro ⟨i, ⟨hi, hb⟩, huniq⟩
    have := huniq _ ⟨hlog, htop⟩
    apply Nat.eq_of_testBit_eq
    intro j
    rw [Nat.testBit_two_pow]
    by_cases hj : Nat.log 2 n = j
    · rw [← hj, htop]; simp
    · rw [show decide (Nat.log 2 n = j) = false by simpa using hj]
      by_contra hc
      rw [Bool.not_eq_false] at hc
      have hjw : j < w := by
        by_contra hjw
        have := Nat.ge_two_pow_of_testBit hc
        have h2 : 2 ^ w ≤ 2 ^ j := Nat.pow_le_pow_right (by decide) (by omega)
        omega
      have := huniq _ ⟨hjw, hc⟩
      omega
  · intro he
    refine ⟨Nat.log 2 n, ⟨hlog, htop⟩, ?_⟩
    rintro j ⟨_, hb⟩
    rw [he, Nat.testBit_two_pow, decide_eq_true_eq] at hb
    exact hb.symm

/-- The number of bits computed by both constructors. -/
theorem categoryBits {w n : Nat} (hn : 0 < n) (h : n < 2 ^ w) :
    (if bitCount w n ≠ 1 then msbIndex n w + 1 else msbIndex n w) = Nat.clog 2 n := by
  rw [msbIndex_eq n hn w h]
  have h1 := Nat.pow_log_le_self 2 (show n ≠ 0 by omega)
  have h2 := Nat.lt_pow_succ_log_self (b := 2) (by decide) n
  split
  · rename_i hc
    rw [ne_eq, bitCount_eq_one hn h] at hc
    refine le_antisymm ?_ ?_
    · exact (Nat.lt_clog_iff_pow_lt (by decide)).mpr (by omega)
    · exact (Nat.clog_le_iff_le_pow (by decide)).mpr (le_of_lt h2)
  · rename_i hc
    rw [ne_eq, not_not, bitCount_eq_one hn h] at hc
    conv_rhs => rw [hc]
    rw [Nat.clog_pow _ _ (by decide)]

/-! ## Integer categorical representation -/

/-- C37: the integer representation has the least number of bits that count the categories. -/
theorem integerCategoricalNew_spec {n : Nat} (hn : 0 < n) (h : n < 2 ^ 31) :
    integerCategoricalNew n = ok { count := n, size := Nat.clog 2 n } := by
  have h64 : n < 2 ^ 64 := by omega
  have hmsb : msbIndex n 64 < 64 := by
    rw [msbIndex_eq n hn 64 h64, Nat.log_lt_iff_lt_pow (by decide) (by omega)]; exact h64
  unfold integerCategoricalNew
  simp only [categoryBits hn h64]
  rw [show decide (0 < n) = true by simpa using hn, show decide (msbIndex n 64 < 64) = true by simpa using hmsb]
  rfl

/-- C37: with at least two categories, every slice unpacks to a category: the number it codes, modulo the number of
categories. -/
theorem integerCategoricalUnpack_spec {n : Nat} (hn : 2 ≤ n) (h : n < 2 ^ 31) {r : IntegerCategorical}
    (hr : integerCategoricalNew n = ok r) {bv : BV} {start : Nat} (hb : start + r.size ≤ bv.length) :
    ∃ c, integerCategoricalUnpack r bv start = ok c ∧ c < n ∧ c = bitsToNat (sliceOf bv start r.size) % n := by
  rw [integerCategoricalNew_spec (by omega) h] at hr
  obtain rfl := Outcome.ok.inj hr
  simp only at hb ⊢
  have h0 : 0 < Nat.clog 2 n := Nat.clog_pos (by decide) hn
  have h64 : Nat.clog 2 n ≤ 31 := (Nat.clog_le_iff_le_pow (by decide)).mpr (le_of_lt h)
  obtain ⟨u, hu, hun⟩ := bvToWordSlice_sliceOf h0 (by omega) hb
  refine ⟨_, ?_, Nat.mod_lt _ (by omega), rfl⟩
  unfold integerCategoricalUnpack
  simp only
  rw [show decide (start < bv.length) = true by rw [decide_eq_true_eq]; omega,
    show decide (start + 1 ≤ start + Nat.clog 2 n ∧ start + Nat.clog 2 n < bv.length + 1) = true by
      rw [decide_eq_true_eq]; omega, show decide (0 < n) = true by rw [decide_eq_true_eq]; omega, hu]
  simp only [assert_true, ok_bind, hun]

/-- C37: every category is reached. -/
theorem integerCategoricalUnpack_onto {n : Nat} (hn : 2 ≤ n) (h : n < 2 ^ 31) {r : IntegerCategorical}
    (hr : integerCategoricalNew n = ok r) {c : Nat} (hc : c < n) :
    ∃ bv : BV, bv.length = r.size ∧ integerCategoricalUnpack r bv 0 = ok c := by
  have hs : r.size = Nat.clog 2 n := by
    rw [integerCategoricalNew_spec (by omega) h] at hr
    obtain rfl := Outcome.ok.inj hr
    rfl
  have := Nat.le_pow_clog (b := 2) (by decide) n
  obtain ⟨bv, hb, hm⟩ := exists_bitsToNat r.size c (by rw [hs]; omega)
  refine ⟨bv, hb, ?_⟩
  obtain ⟨c', h1, h2, h3⟩ := integerCategoricalUnpack_spec hn h hr (bv := bv) (start := 0) (by omega)
  have hsl : sliceOf bv 0 r.size = bv := by unfold sliceOf; rw [List.drop_zero, ← hb, List.take_length]
  rw [h1, h3, hsl, hm, Nat.mod_eq_of_lt hc]

/-- C37 (negative part): a single category has a representation of no bits, which cannot be unpacked. -/
theorem integerCategorical_single :
    ∃ r, integerCategoricalNew 1 = ok r ∧ r.size = 0 ∧ ∀ bv start, integerCategoricalUnpack r bv start = ub := by
  refine ⟨{ count := 1, size := 0 }, by decide +kernel, rfl, ?_⟩
  intro bv start
  unfold integerCategoricalUnpack
  simp only
  by_cases h : start < bv.length
  · rw [show decide (start < bv.length) = true by simpa using h,
      show decide (start + 1 ≤ start + 0 ∧ start + 0 < bv.length + 1) = false by
        rw [decide_eq_false_iff_not]; omega]
    rfl
  · rw [show decide (start < bv.length) = false by simpa using h]
    rfl

example : ∃ r, integerCategoricalNew 5 = ok r ∧ r.size = 3 ∧
    integerCategoricalUnpack r [false, true, true, true] 1 = ok 2 :=
  ⟨{ count := 5, size := 3 }, by decide +kernel, rfl, by decide +kernel⟩

/-! ## Linear categorical representation -/

/-- Component `i` of column `j`. -/
def matrixEntry (M : BM) (i j : Nat) : Option Bool := M[i]?.bind (fun row => row[j]?)

theorem linearCategoricalNew_spec {n : Nat} (hn : 2 ≤ n) (h : n ≤ 2 ^ 30) :
    ∃ r, linearCategoricalNew n = ok r ∧ r.count = n ∧ r.nrows = Nat.clog 2 n ∧ r.ncols = 2 ^ Nat.clog 2 n - 1 ∧
      F2.HasShape r.nrows r.ncols r.matrix ∧
      ∀ (i j : Nat), i < r.nrows → j < r.ncols → matrixEntry r.matrix i j = some ((j + 1).testBit i) := by
  have h32 : n < 2 ^ 32 := by omega
  have hk0 : 0 < Nat.clog 2 n := Nat.clog_pos (by decide) hn
  have hk30 : Nat.clog 2 n ≤ 30 := (Nat.clog_le_iff_le_pow (by decide)).mpr h
  have hmsb : msbIndex n 32 < 32 := by
    rw [msbIndex_eq n (by omega) 32 h32, Nat.log_lt_iff_lt_pow (by decide) (by omega)]; exact h32
  have hbits := categoryBits (w := 32) (n := n) (by omega) h32
  generalize Nat.clog 2 n = k at *
  have hpow : (2 : Nat) ^ k ≤ 2 ^ 30 := Nat.pow_le_pow_right (by decide) hk30
  have hpow1 : (2 : Nat) ^ 1 ≤ 2 ^ k := Nat.pow_le_pow_right (by decide) hk0
  have hcast : ((2 : Int) ^ k) = ((2 ^ k : Nat) : Int) := by push_cast; rfl
  have hchecked : checked 32 ((2 : Int) ^ k) = ok ((2 : Int) ^ k) := checked_ok ⟨by omega, by omega⟩
  have hncols : ((2 : Int) ^ k - 1).toNat = 2 ^ k - 1 := by omega
  obtain ⟨l, hl1, _, hl3, hl4⟩ := HypercubeIterator.enumerates_from (2 ^ k - 1) (List.replicate k false)
    (by rw [HypercubeIterator.bitsToNat_replicate, List.length_replicate]; omega)
  rw [HypercubeIterator.bitsToNat_replicate] at hl4
  simp only [List.length_replicate] at hl3
  have hllen : l.length = 2 ^ k - 1 := by
    have := congrArg List.length hl4
    simpa using this
  have hbit : ∀ (j i : Nat), j < 2 ^ k - 1 → i < k → (l[j]?.bind (fun y => y[i]?)) = some ((j + 1).testBit i) := by
    intro j i hj hi
    have hj' : j < l.length := by omega
    have hlen : (l[j]).length = k := hl3 _ (List.getElem_mem hj')
    have hval : bitsToNat l[j] = j + 1 := by
      have := congrArg (fun t => t[j]?) hl4
      simp only [List.getElem?_map, List.getElem?_eq_getElem hj', Option.map_some] at this
      rw [List.getElem?_eq_getElem (by simpa using hj), List.getElem_range'] at this
      have := Option.some.inj this
      omega
    have hb := bitsToNat_testBit l[j] i
    rw [hval, List.getElem?_eq_getElem (by omega), Option.getD_some] at hb
    rw [List.getElem?_eq_getElem hj', Option.bind_some, List.getElem?_eq_getElem (by omega), hb]
  have hloop : (forEach l (fun y (st : BM × Nat) => do
      assert (decide (st.2 < 2 ^ k - 1))
      let A ← bmSetColumn st.1 st.2 y
      ok (A, st.2 + 1)) (List.replicate k (List.replicate (2 ^ k - 1) false), 0)).Returns
      (fun st => F2.HasShape k (2 ^ k - 1) st.1 ∧ ∀ (i j : Nat), i < k → j < 2 ^ k - 1 →
        matrixEntry st.1 i j = some ((j + 1).testBit i)) := by
    refine (forEach_returns (fun done (st : BM × Nat) => st.2 = done.length ∧ F2.HasShape k (2 ^ k - 1) st.1 ∧
      ∀ (i j : Nat), i < k → j < done.length → matrixEntry st.1 i j = some ((j + 1).testBit i)) l _
      ⟨rfl, ⟨by simp, by simp⟩, by intro i j _ hj; simp at hj⟩ ?_).mono ?_
    · rintro done y rest ⟨A, c⟩ hdone ⟨h1, h2, h3⟩
      simp only at h1 h2 h3
      have hdl : done.length < l.length := by rw [hdone]; simp
      have hy : l[done.length]? = some y := by rw [hdone]; simp
      have hylen : y.length = k := hl3 y (by rw [hdone]; simp)
      obtain ⟨A', hA, hshape, hent⟩ := bmSetColumn_spec k (2 ^ k - 1) hk0 A h2 c (by omega) y hylen
      simp only
      rw [show decide (c < 2 ^ k - 1) = true by rw [decide_eq_true_eq]; omega, assert_true, ok_bind, hA, ok_bind,
        returns_ok]
      refine ⟨by simp [h1], hshape, ?_⟩
      intro i j hi hj
      simp only [List.length_append, List.length_singleton] at hj
      unfold matrixEntry
      rw [hent i j hi (by omega)]
      by_cases hjc : j = c
      · rw [if_pos hjc]
        have := hbit j i (by omega) hi
        rw [hjc, h1, hy, Option.bind_some] at this
        rw [this, hjc, h1]
      · rw [if_neg hjc]
        exact h3 i j hi (by omega)
    · rintro ⟨A, c⟩ ⟨h1, h2, h3⟩
      exact ⟨h2, fun i j hi hj => h3 i j hi (by omega)⟩
  obtain ⟨⟨A, c⟩, hst, hshape, hent⟩ := hloop
  obtain ⟨it', hit, _⟩ := iterLoop_enumerates (fun _ => True) (fun _ _ _ _ => trivial) hl1 trivial (2 ^ k)
    _ _ (by omega) hst
  refine ⟨{ count := n, nrows := k, ncols := 2 ^ k - 1, matrix := A }, ?_, rfl, rfl, rfl, hshape, hent⟩
  unfold linearCategoricalNew
  simp only [hbits]
  rw [show decide (0 < n) = true by rw [decide_eq_true_eq]; omega, show decide (msbIndex n 32 < 32) = true by
    simpa using hmsb, show decide (k < 32) = true by rw [decide_eq_true_eq]; omega, hchecked]
  simp only [assert_true, ok_bind, hncols]
  rw [show decide (0 < 2 ^ k - 1) = true by rw [decide_eq_true_eq]; omega]
  unfold bmRectangular
  rw [show decide (k > 0) = true by simpa using hk0, show decide (2 ^ k - 1 > 0) = true by
    rw [decide_eq_true_eq]; omega]
  have hhas : (HypercubeIterator.new k).hasNext = ok true := by
    simp [HypercubeIterator.hasNext, HypercubeIterator.new, hk0]
  have hnext : (HypercubeIterator.new k).next =
      ok (List.replicate k false, { current := List.replicate k false, initialState := false }) := by
    simp only [HypercubeIterator.next, hhas, ok_bind, assert_true]
    simp [HypercubeIterator.new, bvClear]
  have hzero : (List.replicate k false).any (fun b => b) = false := by simp
  simp only [assert_true, ok_bind, pure_eq, hhas, hnext, hzero, Bool.not_false, hit]

theorem F2.dot_unit {row : BV} {m j : Nat} (hrow : row.length = m) (hj : j < m) :
    F2.dot row ((List.replicate m false).set j true) = row[j]'(by omega) := by
  have key : (List.zipWith and row ((List.replicate m false).set j true)).count true = (row[j]'(by omega)).toNat := by
    have hz : List.zipWith and row ((List.replicate m false).set j true) =
        (List.replicate m false).set j (row[j]'(by omega)) := by
      apply List.ext_getElem
      · simp [hrow]
      · intro i h1 h2
        simp only [List.getElem_zipWith, List.getElem_set, List.getElem_replicate]
        by_cases hij : j = i
        · subst hij; simp
        · simp [hij]
    rw [hz, List.count_set (by simpa using hj)]
    cases row[j]'(by omega) <;> simp [List.count_replicate]
  unfold F2.dot
  rw [key]
  cases row[j]'(by omega) <;> simp

/-- What decoding computes: the product of the matrix and the slice, as a number, modulo the number of
categories. -/
theorem linearCategoricalUnpack_eq {n : Nat} (hn : 2 ≤ n) (h : n ≤ 2 ^ 30) {r : LinearCategorical}
    (hr : linearCategoricalNew n = ok r) {bv : BV} {start : Nat} (hb : start + r.ncols ≤ bv.length) :
    linearCategoricalUnpack r bv start = ok (bitsToNat (F2.mulVec r.matrix (sliceOf bv start r.ncols)) % n) := by
  obtain ⟨r', hr', h1, h2, h3, h4, _⟩ := linearCategoricalNew_spec hn h
  rw [hr] at hr'
  obtain rfl := Outcome.ok.inj hr'
  have hk0 : 0 < Nat.clog 2 n := Nat.clog_pos (by decide) hn
  have hk30 : Nat.clog 2 n ≤ 30 := (Nat.clog_le_iff_le_pow (by decide)).mpr h
  have hpow1 : (2 : Nat) ^ 1 ≤ 2 ^ Nat.clog 2 n := Nat.pow_le_pow_right (by decide) hk0
  unfold linearCategoricalUnpack
  simp only
  rw [show decide (start < bv.length) = true by rw [decide_eq_true_eq]; omega,
    show decide (start + 1 ≤ start + r.ncols ∧ start + r.ncols < bv.length + 1) = true by
      rw [decide_eq_true_eq]; omega]
  simp only [assert_true, ok_bind]
  have hx : (forRange start (start + r.ncols) (fun src (x : BV) => do
      let b ← vget bv src
      vset x (src - start) b) (List.replicate r.ncols false)).Returns (fun x => x = sliceOf bv start r.ncols) := by
    refine (forRange_returns (I := fun s (x : BV) => x.length = r.ncols ∧
      ∀ i : Nat, i < s - start → x[i]? = bv[start + i]?) (by omega) ⟨by simp, by intro i hi; omega⟩ ?_).mono ?_
    · rintro j x hj1 hj2 ⟨hl, hx⟩
      rw [vget_eq (by omega), ok_bind, vset_eq (by omega), returns_ok]
      refine ⟨by simpa using hl, ?_⟩
      intro i hi
      rw [List.getElem?_set]
      by_cases hij : j - start = i
      · rw [if_pos hij, if_pos (by omega), List.getElem?_eq_getElem (by omega)]
        congr 2
        omega
      · rw [if_neg hij]; exact hx i (by omega)
    · rintro x ⟨hl, hx⟩
      apply List.ext_getElem?
      intro i
      unfold sliceOf
      by_cases hi : i < r.ncols
      · rw [hx i (by omega), List.getElem?_take_of_lt hi, List.getElem?_drop]
      · rw [List.getElem?_eq_none (by omega), List.getElem?_eq_none (by simp; omega)]
  obtain ⟨x, hx, rfl⟩ := hx
  rw [hx, ok_bind, bmMultiply_spec r.nrows r.ncols (by omega) (by omega) r.matrix h4 _ _ (sliceOf_length hb) (by simp),
    ok_bind, h1, show decide (0 < n) = true by rw [decide_eq_true_eq]; omega, assert_true, ok_bind]
  have hlen : (F2.mulVec r.matrix (sliceOf bv start r.ncols)).length = Nat.clog 2 n := by
    unfold F2.mulVec
    rw [List.length_map, h4.1, h2]
  obtain ⟨u, hu, hun⟩ := bvToWord_bitsToNat (F2.mulVec r.matrix (sliceOf bv start r.ncols)) (by omega)
  rw [hu, ok_bind, hun]

/-- C37: with at least two categories, the linear representation is built, and every slice unpacks to a
category. -/
theorem linearCategoricalUnpack_range {n : Nat} (hn : 2 ≤ n) (h : n ≤ 2 ^ 30) :
    ∃ r, linearCategoricalNew n = ok r ∧ r.ncols = 2 ^ Nat.clog 2 n - 1 ∧
      ∀ (bv : BV) (start : Nat), start + r.ncols ≤ bv.length →
        ∃ c, linearCategoricalUnpack r bv start = ok c ∧ c < n := by
  obtain ⟨r, hr, _, _, h3, _⟩ := linearCategoricalNew_spec hn h
  exact ⟨r, hr, h3, fun bv start hb => ⟨_, linearCategoricalUnpack_eq hn h hr hb, Nat.mod_lt _ (by omega)⟩⟩

/-- C37: every category is reached: the first by zeros, the others by a single one. -/
theorem linearCategoricalUnpack_onto {n : Nat} (hn : 2 ≤ n) (h : n ≤ 2 ^ 30) {r : LinearCategorical}
    (hr : linearCategoricalNew n = ok r) :
    linearCategoricalUnpack r (List.replicate r.ncols false) 0 = ok 0 ∧
    ∀ c, c + 1 < n → linearCategoricalUnpack r ((List.replicate r.ncols false).set c true) 0 = ok (c + 1) := by
  obtain ⟨r', hr', h1, h2, h3, h4, h5⟩ := linearCategoricalNew_spec hn h
  rw [hr] at hr'
  obtain rfl := Outcome.ok.inj hr'
  have hk := Nat.le_pow_clog (b := 2) (by decide) n
  have hslice : ∀ x : BV, x.length = r.ncols → sliceOf x 0 r.ncols = x := by
    intro x hx
    unfold sliceOf
    rw [List.drop_zero, ← hx, List.take_length]
  refine ⟨?_, ?_⟩
  · rw [linearCategoricalUnpack_eq hn h hr (by simp), hslice _ (by simp)]
    have : F2.mulVec r.matrix (List.replicate r.ncols false) = List.replicate r.nrows false := by
      unfold F2.mulVec
      rw [List.eq_replicate_iff]
      refine ⟨by rw [List.length_map, h4.1], ?_⟩
      intro b hb
      obtain ⟨row, hrow, rfl⟩ := List.mem_map.mp hb
      have hz : List.zipWith and row (List.replicate r.ncols false) = List.replicate r.ncols false := by
        apply List.ext_getElem
        · simp [h4.2 row hrow]
        · intro i _ _; simp
      unfold F2.dot
      rw [hz]
      simp [List.count_replicate]
    rw [this, HypercubeIterator.bitsToNat_replicate]
    simp
  · intro c hc
    rw [linearCategoricalUnpack_eq hn h hr (by simp), hslice _ (by simp)]
    have hcc : c < r.ncols := by omega
    have : bitsToNat (F2.mulVec r.matrix ((List.replicate r.ncols false).set c true)) = c + 1 := by
      apply Nat.eq_of_testBit_eq
      intro i
      rw [bitsToNat_testBit]
      unfold F2.mulVec
      rw [List.getElem?_map]
      by_cases hi : i < r.nrows
      · have hi' : i < r.matrix.length := by rw [h4.1]; exact hi
        rw [List.getElem?_eq_getElem hi', Option.map_some, Option.getD_some]
        have hrl := h4.2 _ (List.getElem_mem hi')
        rw [F2.dot_unit hrl hcc]
        have := h5 i c hi hcc
        unfold matrixEntry at this
        rw [List.getElem?_eq_getElem hi', Option.bind_some, List.getElem?_eq_getElem (by omega)] at this
        exact Option.some.inj this
      · rw [List.getElem?_eq_none (by rw [h4.1]; omega), Option.map_none, Option.getD_none]
        symm
        apply Nat.testBit_lt_two_pow
        have : (2 : Nat) ^ r.nrows ≤ 2 ^ i := Nat.pow_le_pow_right (by decide) (by omega)
        rw [h2] at this
        omega
    rw [this, Nat.mod_eq_of_lt hc]

/-- C37 (negative part): there is no linear representation of a single category. -/
theorem linearCategorical_single : linearCategoricalNew 1 = ub := by decide +kernel

example : ∃ r, linearCategoricalNew 3 = ok r ∧ r.nrows = 2 ∧ r.ncols = 3 ∧
    linearCategoricalUnpack r [true, false, true, false] 1 = ok 2 :=
  ⟨{ count := 3, nrows := 2, ncols := 3, matrix := [[true, false, true], [false, true, true]] },
    by decide +kernel, rfl, rfl, by decide +kernel⟩

end Hnco
