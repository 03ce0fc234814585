import Verif.Algorithm.ItEa
import Verif.BitVector.Props
import Verif.Population.Props
import Mathlib.Algebra.BigOperators.Intervals
import Mathlib.Algebra.BigOperators.Ring.Finset
import Mathlib.Algebra.Order.BigOperators.Group.Finset
import Mathlib.Algebra.Order.Ring.Rat
import Mathlib.Tactic.Linarith
import Mathlib.Tactic.FieldSimp
import Mathlib.Tactic.Ring

/-! # C46: weights of tied individuals in the information theoretic evolutionary algorithm -/

namespace Hnco

open Outcome

variable {K : Type}

/-! ## Specification -/

/-- Weights of the ranks by which `sel` individuals out of `size` are selected without breaking ties: weights are
between 0 and 1 and sum to `sel`, equal values have equal weights, and of two different values, the greater one has
weight 1 or the smaller one has weight 0. -/
structure FairWeights [LinearOrder K] (p : Pop K) (size sel : Nat) (w : Nat → Rat) : Prop where
  unit : ∀ k, k < size → 0 ≤ w k ∧ w k ≤ 1
  total : ∑ k ∈ Finset.range size, w k = (sel : Rat)
  ties : ∀ i j v, p.RankValue i v → p.RankValue j v → w i = w j
  order : ∀ i j v v', p.RankValue i v → p.RankValue j v' → v < v' → w i = 0 ∨ w j = 1

/-! ## Lemmas -/

/-- The weight given by the loops to rank `k`. -/
def Ties.weight (t : Ties) (sel k : Nat) : Rat :=
  if t.equivalent then (if k < t.first then 1 else if k < t.second then t.c else 0) else if k < sel then 1 else 0

/-- The number of ranks visited by the loops. -/
def Ties.stop (t : Ties) (sel : Nat) : Nat := if t.equivalent then t.second else sel

/-- The loops are well formed. -/
structure Ties.Fits (t : Ties) (size sel : Nat) : Prop where
  first : t.equivalent = true → t.first ≤ t.second
  stop : t.stop sel ≤ size

theorem weightedLoop_returns {σ : Type} {t : Ties} {size sel : Nat} (ht : t.Fits size sel)
    {body : Rat → Nat → σ → Outcome σ} {s : σ} (I : Nat → σ → Prop) (h0 : I 0 s)
    (hb : ∀ k s, k < t.stop sel → I k s → (body (t.weight sel k) k s).Returns (I (k + 1))) :
    (weightedLoop t sel body s).Returns (I (t.stop sel)) := by
  unfold weightedLoop
  by_cases he : t.equivalent = true
  · have hfirst := ht.first he
    have hstop : t.stop sel = t.second := by simp [Ties.stop, he]
    rw [if_pos he]
    refine (forRange_returns I (Nat.zero_le _) h0 ?_).bind (fun s1 hs1 => ?_)
    · intro k s _ hk hs
      have := hb k s (by omega) hs
      rwa [show t.weight sel k = 1 by unfold Ties.weight; simp only [he, if_true, hk]] at this
    · rw [hstop]
      refine forRange_returns I hfirst hs1 ?_
      intro k s hk1 hk2 hs
      have := hb k s (by omega) hs
      rwa [show t.weight sel k = t.c by
        unfold Ties.weight
        simp only [he, if_true, hk2]
        rw [if_neg (by omega)]] at this
  · have hstop : t.stop sel = sel := by simp [Ties.stop, he]
    rw [if_neg he, hstop]
    refine forRange_returns I (Nat.zero_le _) h0 ?_
    intro k s _ hk hs
    have := hb k s (by omega) hs
    rwa [show t.weight sel k = 1 by unfold Ties.weight; simp [he, hk]] at this

theorem Ties.weight_stop {t : Ties} {size sel : Nat} (ht : t.Fits size sel) {k : Nat} (hk : t.stop sel ≤ k) :
    t.weight sel k = 0 := by
  unfold Ties.stop at hk
  unfold Ties.weight
  by_cases he : t.equivalent = true
  · have := ht.first he
    simp only [he, if_true] at hk ⊢
    rw [if_neg (by omega), if_neg (by omega)]
  · simp only [he] at hk ⊢
    simp at hk ⊢
    omega

theorem Ties.sum_stop {t : Ties} {size sel : Nat} (ht : t.Fits size sel) (f : Nat → Rat) :
    ∑ k ∈ Finset.range (t.stop sel), t.weight sel k * f k = ∑ k ∈ Finset.range size, t.weight sel k * f k := by
  apply Finset.sum_subset
  · intro k hk
    rw [Finset.mem_range] at hk ⊢
    exact Nat.lt_of_lt_of_le hk ht.stop
  · intro k _ hk
    rw [Finset.mem_range, not_lt] at hk
    rw [Ties.weight_stop ht hk, zero_mul]

theorem sum_range_prefix {size m : Nat} (h : m ≤ size) (c : Rat) :
    ∑ k ∈ Finset.range size, (if k < m then c else 0) = m * c := by
  rw [← Finset.sum_filter]
  have : (Finset.range size).filter (fun k => k < m) = Finset.range m := by
    ext k
    simp only [Finset.mem_filter, Finset.mem_range]
    omega
  rw [this, Finset.sum_const, Finset.card_range, nsmul_eq_mul]

/-! ## The weights -/

/-- C46: in a sorted population, if fewer individuals are selected than there are, then the weights given to the ranks
by the loops of `ml_update`, `incremental_ml_update` and `igo_update` are fair: in particular they sum to the selection
size, and tied individuals have the same weight.  All ranks with a weight are in range. -/
theorem tie_weights_fair [LinearOrder K] {size n : Nat} {p : Pop K} (hp : p.Valid size n) (hs : p.Sorted) {sel : Nat}
    (h1 : 1 ≤ sel) (h2 : sel < size) :
    (itTies p sel).Returns (fun t => FairWeights p size sel (t.weight sel) ∧ t.Fits size sel) := by
  obtain ⟨k1, x1, v1, _, p1, q1, r1, _, _, e1⟩ := hp.ranked_read (i := sel - 1) (by omega)
  obtain ⟨k2, x2, v2, _, p2, q2, r2, _, _, e2⟩ := hp.ranked_read (i := sel - 1 + 1) (by omega)
  have hrank1 : p.RankValue (sel - 1) v1 := ⟨k1, p1, r1⟩
  have hrank2 : p.RankValue sel v2 := ⟨k2, by rw [← p2]; congr 1; omega, r2⟩
  unfold itTies
  dsimp only
  rw [e1, ok_bind, e2, ok_bind]
  by_cases hv : v1 = v2
  · subst hv
    rw [if_pos rfl]
    refine (pop_equivalent_spec hp hs (index := sel - 1) (by omega)).bind ?_
    rintro ⟨a, b⟩ ⟨h3, h4, h5, h6⟩
    dsimp only at h3 h4 h5 h6 ⊢
    have hab : (0 : Rat) < (b : Rat) - a := by
      have : (a : Rat) < b := by exact_mod_cast (by omega : a < b)
      linarith
    have hidx : ((sel - 1 : Nat) : Rat) = (sel : Rat) - 1 := by
      rw [Nat.cast_sub h1]; simp
    rw [hidx]
    have hc0 : (0 : Rat) ≤ ((sel : Rat) - 1 - a + 1) / (b - a) := by
      have : (a : Rat) ≤ (sel : Rat) - 1 := by rw [← hidx]; exact_mod_cast h3
      apply div_nonneg <;> linarith
    have hc1 : ((sel : Rat) - 1 - a + 1) / (b - a) ≤ 1 := by
      have : (sel : Rat) ≤ b := by exact_mod_cast (by omega : sel ≤ b)
      rw [div_le_one hab]
      linarith
    have htot : (b : Rat) * (((sel : Rat) - 1 - a + 1) / (b - a)) + a * (1 - ((sel : Rat) - 1 - a + 1) / (b - a)) = sel := by
      have : (b : Rat) - a ≠ 0 := ne_of_gt hab
      field_simp
      ring
    generalize ((sel : Rat) - 1 - a + 1) / (b - a) = c at hc0 hc1 htot ⊢
    rw [assert_pos (by rw [decide_eq_true_eq]; exact ⟨hc0, hc1⟩), ok_bind]
    have hw : ∀ k, Ties.weight ⟨true, a, b, c⟩ sel k = if k < a then 1 else if k < b then c else 0 := fun k => by
      unfold Ties.weight
      simp
    refine returns_ok.mpr ⟨⟨?_, ?_, ?_, ?_⟩, ⟨fun _ => by dsimp only; omega, by simpa [Ties.stop] using h5⟩⟩
    · intro k hk
      rw [hw]
      split
      · exact ⟨zero_le_one, le_refl _⟩
      · split
        · exact ⟨hc0, hc1⟩
        · exact ⟨le_refl _, zero_le_one⟩
    · have : ∀ k, Ties.weight ⟨true, a, b, c⟩ sel k = (if k < b then c else 0) + (if k < a then 1 - c else 0) := by
        intro k
        rw [hw]
        by_cases hka : k < a
        · rw [if_pos hka, if_pos hka, if_pos (by omega)]; ring
        · rw [if_neg hka, if_neg hka, add_zero]
      rw [Finset.sum_congr rfl (fun k _ => this k), Finset.sum_add_distrib, sum_range_prefix h5,
        sum_range_prefix (by omega), htot]
    · intro i j v hi hj
      obtain ⟨g1, g2, g3⟩ := h6 i v v1 hi hrank1
      obtain ⟨f1, f2, f3⟩ := h6 j v v1 hj hrank1
      rw [hw, hw]
      by_cases hia : i < a
      · rw [if_pos hia, if_pos (f1.mpr (g1.mp hia))]
      · rw [if_neg hia, if_neg (fun h => hia (g1.mpr (f1.mp h)))]
        by_cases hib : i < b
        · have := f2.mpr (g2.mp ⟨by omega, hib⟩)
          rw [if_pos hib, if_pos this.2]
        · have := f3.mpr (g3.mp (by omega))
          rw [if_neg hib, if_neg (by omega)]
    · intro i j v v' hi hj hlt
      obtain ⟨g1, g2, g3⟩ := h6 i v v1 hi hrank1
      obtain ⟨f1, f2, f3⟩ := h6 j v' v1 hj hrank1
      rw [hw, hw]
      rcases lt_or_ge v1 v' with h | h
      · right
        rw [if_pos (f1.mpr h)]
      · left
        have := g3.mpr (lt_of_lt_of_le hlt h)
        rw [if_neg (by omega), if_neg (by omega)]
  · rw [if_neg hv]
    have hlt : v2 < v1 := lt_of_le_of_ne (hs (sel - 1) sel v1 v2 (by omega) hrank1 hrank2) (Ne.symm hv)
    have hw : ∀ k, Ties.weight ⟨false, 0, 0, 0⟩ sel k = if k < sel then 1 else 0 := fun k => by
      unfold Ties.weight
      simp
    have hin : ∀ i v, p.RankValue i v → (i < sel ↔ v1 ≤ v) := by
      intro i v hi
      constructor
      · intro h
        exact hs i (sel - 1) v v1 (by omega) hi hrank1
      · intro h
        by_contra hc
        have := hs sel i v2 v (by omega) hrank2 hi
        exact absurd (lt_of_le_of_lt (le_trans h this) hlt) (lt_irrefl _)
    refine returns_ok.mpr ⟨⟨?_, ?_, ?_, ?_⟩, ⟨fun h => by simp at h, by simpa [Ties.stop] using le_of_lt h2⟩⟩
    · intro k hk
      rw [hw]
      split
      · exact ⟨zero_le_one, le_refl _⟩
      · exact ⟨le_refl _, zero_le_one⟩
    · rw [Finset.sum_congr rfl (fun k _ => hw k), sum_range_prefix (le_of_lt h2), mul_one]
    · intro i j v hi hj
      rw [hw, hw]
      by_cases h : i < sel
      · rw [if_pos h, if_pos ((hin j v hj).mpr ((hin i v hi).mp h))]
      · rw [if_neg h, if_neg (fun h' => h ((hin i v hi).mpr ((hin j v hj).mp h')))]
    · intro i j v v' hi hj hvv
      rw [hw, hw]
      by_cases h : i < sel
      · right
        rw [if_pos ((hin j v' hj).mpr (le_trans ((hin i v hi).mp h) (le_of_lt hvv)))]
      · left
        rw [if_neg h]

/-! ## The weighted sums -/

theorem addWeighted_spec {w : Rat} {bv : BV} {l : List Rat} {n : Nat} (hl : l.length = n) (hb : bv.length = n) :
    (addWeighted w bv l n).Returns (fun r => r.length = n ∧ ∀ (i : Nat) a b, l[i]? = some a → bv[i]? = some b →
      r[i]? = some (a + w * bitRat b)) := by
  unfold addWeighted
  refine (forRange_returns (fun j (r : List Rat) => r.length = n ∧ ∀ (i : Nat) a b, l[i]? = some a → bv[i]? = some b →
    r[i]? = some (if i < j then a + w * bitRat b else a)) (Nat.zero_le _) ⟨hl, ?_⟩ ?_).mono ?_
  · intro i a b ha hb
    rw [if_neg (by omega)]
    exact ha
  · rintro j r _ hj ⟨h1, h2⟩
    have hjl : j < l.length := by omega
    have hjb : j < bv.length := by omega
    have hrj := h2 j l[j] bv[j] (List.getElem?_eq_getElem hjl) (List.getElem?_eq_getElem hjb)
    rw [if_neg (by omega)] at hrj
    have hjr : j < r.length := by omega
    have hrj' : r[j] = l[j] := by
      rw [List.getElem?_eq_getElem hjr] at hrj
      exact Option.some.inj hrj
    rw [vget_eq hjr, ok_bind, vget_eq hjb, ok_bind, vset_eq hjr]
    refine returns_ok.mpr ⟨by simpa using h1, ?_⟩
    intro i a b ha hb
    by_cases hij : i = j
    · subst hij
      rw [List.getElem?_set_self hjr, if_pos (by omega), hrj']
      rw [List.getElem?_eq_getElem hjl] at ha
      rw [List.getElem?_eq_getElem hjb] at hb
      rw [Option.some.inj ha, Option.some.inj hb]
    · rw [List.getElem?_set_ne (Ne.symm hij), h2 i a b ha hb]
      by_cases hlt : i < j
      · rw [if_pos hlt, if_pos (by omega)]
      · rw [if_neg hlt, if_neg (by omega)]
  · rintro r ⟨h1, h2⟩
    refine ⟨h1, ?_⟩
    intro i a b ha hb
    have := h2 i a b ha hb
    rwa [if_pos (by have := (List.getElem?_eq_some_iff.mp ha).1; omega)] at this

/-- Bit `i` of a vector, as a number. -/
def bitValue (x : BV) (i : Nat) : Rat := bitRat (x[i]?.getD false)

/-- The loops compute weighted sums of bits. -/
theorem likelihoods_spec {t : Ties} {size sel n : Nat} (ht : t.Fits size sel) (x : Nat → BV)
    (hx : ∀ k, k < t.stop sel → (x k).length = n) (read : Nat → Outcome BV)
    (hread : ∀ k, k < t.stop sel → read k = ok (x k)) {l : List Rat} (hl : l.length = n) :
    (weightedLoop t sel (fun w k l => do
      let bv ← read k
      addWeighted w bv l n) (List.replicate l.length 0)).Returns
      (fun r => r.length = n ∧ ∀ i, i < n →
        r[i]? = some (∑ k ∈ Finset.range size, t.weight sel k * bitValue (x k) i)) := by
  refine (weightedLoop_returns ht (fun k (r : List Rat) => r.length = n ∧ ∀ i, i < n →
    r[i]? = some (∑ j ∈ Finset.range k, t.weight sel j * bitValue (x j) i)) ⟨by simp [hl], ?_⟩ ?_).mono ?_
  · intro i hi
    rw [List.getElem?_replicate, if_pos (by omega)]
    simp
  · rintro k r hk ⟨h1, h2⟩
    rw [hread k hk, ok_bind]
    refine (addWeighted_spec h1 (hx k hk)).mono ?_
    rintro r' ⟨h3, h4⟩
    refine ⟨h3, ?_⟩
    intro i hi
    rw [Finset.sum_range_succ]
    have hxi : i < (x k).length := by rw [hx k hk]; exact hi
    rw [h4 i _ _ (h2 i hi) (List.getElem?_eq_getElem hxi)]
    unfold bitValue
    rw [List.getElem?_eq_getElem hxi]
    rfl
  · rintro r ⟨h1, h2⟩
    refine ⟨h1, ?_⟩
    intro i hi
    rw [h2 i hi, Ties.sum_stop ht]

/-- The vector of rank `k`. -/
theorem bestBv_length [LinearOrder K] {size n : Nat} {p : Pop K} (hp : p.Valid size n) {k : Nat} (hk : k < size) {x : BV}
    (hx : p.bestBv k = ok x) : x.length = n := by
  obtain ⟨_, y, _, _, _, e, _, _, e', _⟩ := hp.ranked_read hk
  rw [hx] at e'
  cases e'
  exact hp.bits _ (List.mem_of_getElem? e)

/-- C46: the likelihoods of `ml_update` are sums of the bits of the individuals with fair weights. -/
theorem mlLikelihoods_spec [LinearOrder K] {size n : Nat} {p : Pop K} (hp : p.Valid size n) (hs : p.Sorted) {sel : Nat}
    (h1 : 1 ≤ sel) (h2 : sel < size) {l : List Rat} (hl : l.length = n) {x : Nat → BV}
    (hx : ∀ k, k < size → p.bestBv k = ok (x k)) :
    (itTies p sel).Returns (fun t => ∃ w, FairWeights p size sel w ∧
      (mlLikelihoods t sel n p l).Returns (fun r => r.length = n ∧ ∀ i, i < n →
        r[i]? = some (∑ k ∈ Finset.range size, w k * bitValue (x k) i))) := by
  refine (tie_weights_fair hp hs h1 h2).mono ?_
  rintro t ⟨hw, ht⟩
  refine ⟨t.weight sel, hw, ?_⟩
  exact likelihoods_spec ht x (fun k hk => bestBv_length hp (Nat.lt_of_lt_of_le hk ht.stop)
    (hx k (Nat.lt_of_lt_of_le hk ht.stop))) _ (fun k hk => hx k (Nat.lt_of_lt_of_le hk ht.stop)) hl

/-- The masks which are used are the differences between the center and the individuals. -/
theorem computeMasks_spec [LinearOrder K] {size n sel : Nat} {p : Pop K} (hp : p.Valid size n) {t : Ties}
    (ht : t.Fits size sel) {x : Nat → BV} (hx : ∀ k, k < size → p.bestBv k = ok (x k)) {center : BV}
    (hc : center.length = n) {masks : List BV} (hm : masks.length = size) (hmn : ∀ m ∈ masks, m.length = n) :
    (computeMasks t sel center p masks).Returns (fun r => r.length = size ∧ (∀ m ∈ r, m.length = n) ∧
      ∀ k, k < t.stop sel → r[k]? = some (List.zipWith xor center (x k))) := by
  have key : (forRange 0 (t.stop sel) (computeMask center p) masks).Returns (fun r => r.length = size ∧
      (∀ m ∈ r, m.length = n) ∧ ∀ k, k < t.stop sel → r[k]? = some (List.zipWith xor center (x k))) := by
    refine forRange_returns (fun j (r : List BV) => r.length = size ∧ (∀ m ∈ r, m.length = n) ∧
      ∀ k, k < j → r[k]? = some (List.zipWith xor center (x k))) (Nat.zero_le _) ⟨hm, hmn, by intro k hk; omega⟩ ?_
    rintro j r _ hj ⟨g1, g2, g3⟩
    have hjs : j < size := Nat.lt_of_lt_of_le hj ht.stop
    have hjr : j < r.length := by omega
    have hxl := bestBv_length hp hjs (hx j hjs)
    have hrj := g2 _ (List.getElem_mem hjr)
    unfold computeMask
    rw [vget_eq hjr, ok_bind, hx j hjs, ok_bind, bvAdd3_ok (by omega) (by omega), ok_bind, vset_eq hjr]
    refine returns_ok.mpr ⟨by simpa using g1, ?_, ?_⟩
    · intro m hmem
      rcases List.mem_or_eq_of_mem_set hmem with h | h
      · exact g2 m h
      · rw [h, List.length_zipWith, hc, hxl, min_self]
    · intro k hk
      by_cases hkj : k = j
      · subst hkj
        rw [List.getElem?_set_self hjr]
      · rw [List.getElem?_set_ne (Ne.symm hkj)]
        exact g3 k (by omega)
  unfold computeMasks
  unfold Ties.stop at key ⊢
  by_cases he : t.equivalent = true
  · simp only [he, if_true] at key ⊢
    exact key
  · simp only [he] at key ⊢
    simpa using key

/-- C46: the target mutation rate of `igo_update` is the sum, with fair weights, of the numbers of bits on which the
individuals differ from the center, divided by the selection size and the number of bits. -/
theorem igoTarget_spec [LinearOrder K] {size n : Nat} {p : Pop K} (hp : p.Valid size n) (hs : p.Sorted) {sel : Nat}
    (h1 : 1 ≤ sel) (h2 : sel < size) {x : Nat → BV} (hx : ∀ k, k < size → p.bestBv k = ok (x k)) {center : BV}
    (hc : center.length = n) {masks : List BV} (hm : masks.length = size) (hmn : ∀ m ∈ masks, m.length = n) :
    (itTies p sel).Returns (fun t => (computeMasks t sel center p masks).Returns (fun masks' =>
      ∃ w, FairWeights p size sel w ∧ igoTarget t sel n masks' = ok
        ((∑ k ∈ Finset.range size, w k * ((List.zipWith xor center (x k)).count true : Rat)) / (sel * n)))) := by
  refine (tie_weights_fair hp hs h1 h2).mono ?_
  rintro t ⟨hw, ht⟩
  refine (computeMasks_spec hp ht hx hc hm hmn).mono ?_
  rintro r ⟨g1, g2, g3⟩
  refine ⟨t.weight sel, hw, ?_⟩
  obtain ⟨a, e, ha⟩ := weightedLoop_returns ht (body := fun w k (target : Rat) => do
    let mask ← vget r k
    ok (target + w * (bvHammingWeight mask : Rat))) (s := 0)
    (fun k (target : Rat) => target =
      ∑ j ∈ Finset.range k, t.weight sel j * ((List.zipWith xor center (x j)).count true : Rat)) (by simp) (by
      intro k a hk ha
      have hkr : k < r.length := by rw [g1]; exact Nat.lt_of_lt_of_le hk ht.stop
      have hrk := g3 k hk
      rw [List.getElem?_eq_getElem hkr] at hrk
      rw [vget_eq hkr, ok_bind, Option.some.inj hrk, bvHammingWeight_eq]
      refine returns_ok.mpr ?_
      rw [Finset.sum_range_succ, ha])
  unfold igoTarget
  rw [e, ok_bind, ha, Ties.sum_stop ht]

/-- Sums with fair weights of numbers between 0 and `m` are between 0 and `sel * m`. -/
theorem FairWeights.sum_bounds [LinearOrder K] {p : Pop K} {size sel : Nat} {w : Nat → Rat}
    (hw : FairWeights p size sel w) {f : Nat → Rat} {m : Rat} (hf : ∀ k, k < size → 0 ≤ f k ∧ f k ≤ m) :
    0 ≤ ∑ k ∈ Finset.range size, w k * f k ∧ ∑ k ∈ Finset.range size, w k * f k ≤ sel * m := by
  constructor
  · refine Finset.sum_nonneg (fun k hk => ?_)
    rw [Finset.mem_range] at hk
    exact mul_nonneg (hw.unit k hk).1 (hf k hk).1
  · rw [← hw.total, Finset.sum_mul]
    refine Finset.sum_le_sum (fun k hk => ?_)
    rw [Finset.mem_range] at hk
    exact mul_le_mul_of_nonneg_left (hf k hk).2 (hw.unit k hk).1

/-! ## Examples -/

/-- Four individuals with values 3, 2, 2, 2, of which two are selected: the last three have weight 1/3. -/
example : itTies (⟨[[true, true], [true, false], [false, true], [false, false]], [2, 3, 2, 2], [1, 0, 3, 2]⟩ : Pop Int) 2 =
    ok ⟨true, 1, 4, 1 / 3⟩ := by decide +kernel

example : mlLikelihoods ⟨true, 1, 4, 1 / 3⟩ 2 2
    (⟨[[true, true], [true, false], [false, true], [false, false]], [2, 3, 2, 2], [1, 0, 3, 2]⟩ : Pop Int) [5, 7] =
    ok [4 / 3, 2 / 3] := by decide +kernel

/-- The hypotheses are met. -/
example : Pop.Valid 4 2
    (⟨[[true, true], [true, false], [false, true], [false, false]], [2, 3, 2, 2], [1, 0, 3, 2]⟩ : Pop Int) :=
  ⟨rfl, rfl, by decide, by decide⟩

end Hnco
