import Verif.Prob.MoreLaws
import Verif.Neighborhood.Props
import Mathlib.MeasureTheory.Measure.Lebesgue.Basic

/-!
# Properties of the laws of the samplers (C110)
-/

namespace Hnco.Prob

open Outcome
open scoped ENNReal

/-! ## The primitive test -/

/-- C110: the law given to the test `Generator::uniform() < p` is the one of a uniform number: the numbers of `[0, 1)`
which are below `p` have the measure which is the probability of true. -/
theorem coin_uniform (p : ℝ) :
    MeasureTheory.volume {u : ℝ | u ∈ Set.Ico 0 1 ∧ u < p} = Dist.coin (ENNReal.ofReal p) true := by
  have h : {u : ℝ | u ∈ Set.Ico 0 1 ∧ u < p} = Set.Ico 0 (min 1 p) := by
    ext u
    simp only [Set.mem_setOf_eq, Set.mem_Ico, lt_min_iff, and_assoc]
  rw [h, Real.volume_Ico, sub_zero]
  change _ = min (ENNReal.ofReal p) 1
  rw [min_comm, ENNReal.ofReal_min, ENNReal.ofReal_one]

/-! ## Mutation -/

/-- C110: single bit flip makes each of the `n` neighbours with probability `1 / n`. -/
theorem singleBitFlip_law {x : BV} (hn : 0 < x.length) (y : BV) :
    mutate (singleBitFlip x.length) x y
      = if y.length = x.length ∧ distance x y = 1 then (x.length : ℝ≥0∞)⁻¹ else 0 := by
  classical
  have hd : ∀ l, singleBitFlip x.length l = if Ascending 0 x.length l ∧ l.length = 1 then (x.length : ℝ≥0∞)⁻¹ else 0 := by
    intro l
    change (Dist.uniformInt 0 (x.length - 1) >>= fun i => (pure [i] : Dist (List ℕ))) l = _
    by_cases hl : ∃ i, l = [i]
    · obtain ⟨i, rfl⟩ := hl
      rw [Dist.map_apply_inj (Dist.uniformInt 0 (x.length - 1)) (f := fun i => [i])
        (fun _ _ h => (List.cons.inj h).1), uniformBelow hn]
      refine if_congr ?_ rfl rfl
      simp [Ascending]
    · rw [if_neg, Dist.bind_apply, ENNReal.tsum_eq_zero]
      · intro i
        rw [Dist.pure_apply, if_neg (fun e => hl ⟨i, e⟩), mul_zero]
      · rintro ⟨_, h⟩
        exact hl (List.length_eq_one_iff.mp h)
  rw [mutate_apply]
  · rw [hd]
    by_cases h : y.length = x.length
    · rw [if_pos h]
      refine if_congr ?_ rfl rfl
      exact ⟨fun e => ⟨h, e.2⟩, fun e => ⟨differences_ascending x y, e.2⟩⟩
    · rw [if_neg h, if_neg (fun e => h e.1)]
  · intro l hl
    rw [hd] at hl
    by_contra h'
    exact hl (if_neg (fun e => h' e.1))

theorem sphere_choose {n r : ℕ} (hn : 0 < n) (hr : r ≤ n) : hammingSphere n r = chooseLaw 0 n r := by
  unfold hammingSphere
  split
  · exact rejectionSampling_law hr hn
  · exact bernoulliTrials_law hr

theorem mutate_choose {x y : BV} {k : ℕ} :
    mutate (chooseLaw 0 x.length k) x y
      = if y.length = x.length ∧ distance x y = k then ((x.length.choose k : ℕ) : ℝ≥0∞)⁻¹ else 0 := by
  classical
  rw [mutate_apply (fun l hl => chooseLaw_support hl), chooseLaw_apply]
  by_cases h : y.length = x.length
  · rw [if_pos h]
    refine if_congr ?_ rfl rfl
    exact ⟨fun e => ⟨h, e.2⟩, fun e => ⟨differences_ascending x y, e.2⟩⟩
  · rw [if_neg h, if_neg (fun e => h e.1)]

/-- C110: the Hamming sphere makes each of the vectors at distance `r` with the same probability, whether it uses
rejection sampling or Bernoulli trials. -/
theorem hammingSphere_law {x : BV} {r : ℕ} (hn : 0 < x.length) (hr : r ≤ x.length) (y : BV) :
    mutate (hammingSphere x.length r) x y
      = if y.length = x.length ∧ distance x y = r then ((x.length.choose r : ℕ) : ℝ≥0∞)⁻¹ else 0 := by
  rw [sphere_choose hn hr, mutate_choose]

example : mutate (hammingSphere 4 2) [true, false, false, true] [false, false, true, true] = (6 : ℝ≥0∞)⁻¹ := by
  have := hammingSphere_law (x := [true, false, false, true]) (r := 2) (by decide) (by decide) [false, false, true, true]
  rw [if_pos (by decide), show ([true, false, false, true] : BV).length = 4 from rfl,
    show Nat.choose 4 2 = 6 from by decide] at this
  exact this

theorem uniformFrom {lo hi i : ℕ} : Dist.uniformInt lo hi i
    = if lo ≤ i ∧ i ≤ hi then ((hi - lo + 1 : ℕ) : ℝ≥0∞)⁻¹ else 0 := rfl

theorem ball_law {n r : ℕ} (hr : 0 < r) (hrn : r ≤ n) (l : List ℕ) :
    hammingBall n r l = (r : ℝ≥0∞)⁻¹ * (if 1 ≤ l.length ∧ l.length ≤ r then chooseLaw 0 n l.length l else 0) := by
  classical
  have h1 : hammingBall n r = (Dist.uniformInt 1 r >>= fun k => chooseLaw 0 n k) := by
    refine Dist.bind_congr_support (fun k hk => ?_)
    have hk' : 1 ≤ k ∧ k ≤ r := by
      by_contra h
      exact hk (if_neg h)
    rw [Dist.assert_bind (by simp; omega), Dist.assert_bind (by simp; omega)]
    exact sphere_choose (r := k) (by omega) (by omega)
  rw [h1, Dist.bind_apply, tsum_eq_single l.length]
  · rw [uniformFrom, show r - 1 + 1 = r by omega]
    split <;> simp
  · intro k hk
    rw [chooseLaw_apply, if_neg (fun e => hk e.2.symm), mul_zero]

/-- C110: the Hamming ball first chooses the distance uniformly between 1 and `r`: a given vector at distance `d` is
made with probability `1 / (r C(n, d))`. -/
theorem hammingBall_law {x : BV} {r : ℕ} (hr : 0 < r) (hrn : r ≤ x.length) (y : BV) :
    mutate (hammingBall x.length r) x y
      = if y.length = x.length ∧ 1 ≤ distance x y ∧ distance x y ≤ r
        then (r : ℝ≥0∞)⁻¹ * ((x.length.choose (distance x y) : ℕ) : ℝ≥0∞)⁻¹ else 0 := by
  classical
  rw [mutate_apply]
  · by_cases h : y.length = x.length
    · rw [if_pos h, ball_law hr hrn]
      change (r : ℝ≥0∞)⁻¹ * (if 1 ≤ distance x y ∧ distance x y ≤ r then chooseLaw 0 x.length (distance x y)
        (differences x y) else 0) = _
      rw [chooseLaw_apply, if_pos (c := Ascending 0 x.length (differences x y) ∧ (differences x y).length = distance x y)
        ⟨differences_ascending x y, rfl⟩]
      by_cases h2 : 1 ≤ distance x y ∧ distance x y ≤ r
      · rw [if_pos h2, if_pos ⟨h, h2⟩]
      · rw [if_neg h2, if_neg (fun e => h2 e.2), mul_zero]
    · rw [if_neg h, if_neg (fun e => h e.1)]
  · intro l hl
    rw [ball_law hr hrn] at hl
    by_contra h'
    refine hl ?_
    rw [chooseLaw_apply, if_neg (c := Ascending 0 x.length l ∧ _) (fun e => h' e.1), ite_self, mul_zero]

example : mutate (hammingBall 3 2) [true, false, false] [false, false, true] = (2 : ℝ≥0∞)⁻¹ * (3 : ℝ≥0∞)⁻¹ := by
  have := hammingBall_law (x := [true, false, false]) (r := 2) (by decide) (by decide) [false, false, true]
  rw [if_pos (by decide), show ([true, false, false] : BV).length = 3 from rfl,
    show Nat.choose 3 (distance [true, false, false] [false, false, true]) = 3 from by decide] at this
  exact this

theorem some_support {n : ℕ} {p : ℝ≥0∞} {l : List ℕ} (h : someFlipsLaw n p l ≠ 0) : Ascending 0 n l := by
  rw [someFlipsLaw_apply] at h
  by_contra h'
  refine h ?_
  have : flipsLaw 0 n p l = 0 := by
    by_contra h2
    exact h' (flipsLaw_support h2)
  rw [this]
  simp

theorem standard_some {n : ℕ} (hn : 0 < n) {m : StandardBitMutation} (hp : m.rate ≤ 1)
    (h : m.allowNoMutation = false ∨ m.rejectionSampling = false) : m.sampleBits n = someFlipsLaw n m.rate := by
  unfold StandardBitMutation.sampleBits
  cases hr : m.rejectionSampling with
  | true =>
    have ha : m.allowNoMutation = false := by
      rcases h with h | h
      · exact h
      · rw [hr] at h; cases h
    simp only [ha, if_true, Bool.false_eq_true, if_false]
    exact binomial_some hn m.rate
  | false =>
    simp only [Bool.false_eq_true, if_false]
    exact process_some n hp

/-- C110: standard bit mutation flips each bit with probability `p`, independently of the others, given that some bit is
flipped.  It does so with both methods: the Bernoulli process, and a binomial number of bits chosen by rejection. -/
theorem standardBitMutation_law {x : BV} (hn : 0 < x.length) {m : StandardBitMutation} (hp : m.rate ≤ 1)
    (ha : m.allowNoMutation = false) (y : BV) :
    mutate (m.sampleBits x.length) x y = if y.length = x.length ∧ y ≠ x
      then m.rate ^ distance x y * (1 - m.rate) ^ (x.length - distance x y) / (1 - (1 - m.rate) ^ x.length) else 0 := by
  classical
  rw [standard_some hn hp (Or.inl ha), mutate_apply (fun l hl => some_support hl), someFlipsLaw_apply, flipsLaw_apply,
    if_pos (differences_ascending x y)]
  by_cases h : y.length = x.length
  · rw [if_pos h]
    have hz := distance_zero h
    unfold distance at hz
    rw [List.length_eq_zero_iff] at hz
    by_cases hy : y = x
    · rw [if_pos (hz.mpr hy), if_neg (fun e => e.2 hy)]
    · rw [if_neg (fun e => hy (hz.mp e)), if_pos ⟨h, hy⟩]
      rfl
  · rw [if_neg h, if_neg (fun e => h e.1)]

/-- C110: when no mutation is allowed and bits are chosen by rejection, each bit is flipped with probability `p`,
independently of the others. -/
theorem standardBitMutation_allowed {x : BV} (hn : 0 < x.length) {m : StandardBitMutation}
    (ha : m.allowNoMutation = true) (hr : m.rejectionSampling = true) (y : BV) :
    mutate (m.sampleBits x.length) x y = if y.length = x.length
      then m.rate ^ distance x y * (1 - m.rate) ^ (x.length - distance x y) else 0 := by
  classical
  have h1 : m.sampleBits x.length = flipsLaw 0 x.length m.rate := by
    unfold StandardBitMutation.sampleBits
    simp only [ha, hr, if_true]
    ext l
    exact binomial_choose hn m.rate l
  rw [h1, mutate_apply (fun l hl => flipsLaw_support hl), flipsLaw_apply, if_pos (differences_ascending x y)]
  rfl

/-- C110 (negative part): when no mutation is allowed but the Bernoulli process is used, a mutation always takes place:
the law is the one of a neighbourhood which does not allow it. -/
theorem standardBitMutation_never_none {x : BV} (hn : 0 < x.length) {m : StandardBitMutation} (hp : m.rate ≤ 1)
    (hr : m.rejectionSampling = false) :
    mutate (m.sampleBits x.length) x x = 0 ∧
    mutate (m.sampleBits x.length) x = mutate ((m.setAllowNoMutation false).sampleBits x.length) x := by
  have h1 : m.sampleBits x.length = (m.setAllowNoMutation false).sampleBits x.length := by
    rw [standard_some hn hp (Or.inr hr)]
    exact (standard_some (m := m.setAllowNoMutation false) hn hp (Or.inl rfl)).symm
  refine ⟨?_, by rw [h1]⟩
  rw [h1, standardBitMutation_law hn (m := m.setAllowNoMutation false) hp rfl]
  exact if_neg (fun e => e.2 rfl)

/-- C110 (negative part): such a neighbourhood is made by the constructor and the setters, with rate one half and four
bits; the vector itself should be made with probability `1 / 16`, and never is. -/
theorem standardBitMutation_never_none_example :
    let m := ((StandardBitMutation.new 4⁻¹).setMutationRate 4 2⁻¹).setAllowNoMutation true
    mutate (m.sampleBits 4) [true, false, true, true] [true, false, true, true] = 0 := by
  intro m
  have h2 : (2⁻¹ : ℝ≥0∞) * 2⁻¹ * (4 : ℕ) = 1 := by
    rw [← ENNReal.mul_inv (Or.inl (by norm_num)) (Or.inl (by norm_num))]
    norm_num
    exact ENNReal.inv_mul_cancel (by norm_num) (by norm_num)
  have hm : (StandardBitMutation.new 4⁻¹).setMutationRate 4 2⁻¹ = ⟨2⁻¹, false, false⟩ := by
    unfold StandardBitMutation.setMutationRate
    rw [if_neg (by rw [h2]; exact lt_irrefl _)]
    rfl
  have hm' : m = ⟨2⁻¹, false, true⟩ := by
    change ((StandardBitMutation.new 4⁻¹).setMutationRate 4 2⁻¹).setAllowNoMutation true = _
    rw [hm]
    rfl
  rw [hm']
  exact (standardBitMutation_never_none (x := [true, false, true, true]) (by decide)
    (m := ⟨2⁻¹, false, true⟩) (ENNReal.inv_le_one.mpr (by norm_num)) rfl).1

example : mutate ((StandardBitMutation.new 2⁻¹).sampleBits 2) [true, false] [true, true]
    = 2⁻¹ ^ 1 * (1 - 2⁻¹) ^ (2 - 1) / (1 - (1 - 2⁻¹) ^ 2) := by
  have := standardBitMutation_law (x := [true, false]) (by decide) (m := StandardBitMutation.new 2⁻¹)
    (ENNReal.inv_le_one.mpr (by norm_num)) rfl [true, true]
  rw [if_pos (by decide)] at this
  exact this

/-! ## Mutation ends -/

theorem chooseLaw_total : ∀ (m i k : ℕ), k ≤ m → (chooseLaw i m k).total = 1 := by
  intro m
  induction m with
  | zero =>
    intro i k hk
    obtain rfl : k = 0 := by omega
    rw [chooseLaw_zero, Dist.total_pure]
  | succ m ih =>
    intro i k hk
    rw [chooseLaw_succ i m k hk, Dist.total_bind, tsum_fintype, Fintype.sum_bool]
    simp only [if_true, Bool.false_eq_true, if_false, Dist.total_bind, Dist.total_pure, mul_one]
    have h1 : (∑' a, chooseLaw (i + 1) m (k - 1) a) = 1 := ih (i + 1) (k - 1) (by omega)
    rw [h1, mul_one]
    by_cases hkm : k = m + 1
    · have : (k : ℝ≥0∞) / ((m + 1 : ℕ) : ℝ≥0∞) = 1 := by
        rw [hkm]
        exact ENNReal.div_self (by simp) (ENNReal.natCast_ne_top _)
      rw [this]
      change min 1 1 + (1 - 1) * _ = _
      simp
    · rw [ih (i + 1) k (by omega), mul_one]
      have := @Dist.coin_total ((k : ℝ≥0∞) / ((m + 1 : ℕ) : ℝ≥0∞))
      unfold Dist.total at this
      rw [tsum_fintype, Fintype.sum_bool] at this
      exact this

theorem mutate_total {d : Dist (List ℕ)} {x : BV} (hd : ∀ l, d l ≠ 0 → Ascending 0 x.length l) :
    (mutate d x).total = d.total := by
  have h1 : (mutate d x).total = ∑' l, d l * (Dist.lift (bvFlipSparse x l)).total := Dist.total_bind _ _
  rw [h1]
  refine tsum_congr (fun l => ?_)
  by_cases hl : d l = 0
  · rw [hl, zero_mul]
  · have ha := hd l hl
    obtain ⟨y, hy, _⟩ := bvFlipSparse_exact x l ha.1 (fun i hi => by have := ha.2 i hi; omega)
    rw [hy, Dist.lift_ok, Dist.total_pure, mul_one]

/-- C110: the Hamming sphere returns with probability one. -/
theorem hammingSphere_ends {x : BV} {r : ℕ} (hn : 0 < x.length) (hr : r ≤ x.length) :
    (mutate (hammingSphere x.length r) x).total = 1 := by
  rw [sphere_choose hn hr, mutate_total (fun l hl => chooseLaw_support hl), chooseLaw_total _ _ _ hr]

/-- C110: standard bit mutation returns with probability one, if its rate is not zero. -/
theorem standardBitMutation_ends {x : BV} (hn : 0 < x.length) {m : StandardBitMutation} (hp : m.rate ≤ 1)
    (h0 : m.rate ≠ 0) : (mutate (m.sampleBits x.length) x).total = 1 := by
  classical
  by_cases h : m.allowNoMutation = false ∨ m.rejectionSampling = false
  · rw [standard_some hn hp h, mutate_total (fun l hl => some_support hl)]
    have ht := flipsLaw_total x.length hp 0
    unfold Dist.total at ht ⊢
    have h1 : ∀ l, someFlipsLaw x.length m.rate l
        = (if l = [] then 0 else flipsLaw 0 x.length m.rate l) * (1 - (1 - m.rate) ^ x.length)⁻¹ := by
      intro l
      rw [someFlipsLaw_apply]
      split
      · rw [zero_mul]
      · rfl
    simp only [h1]
    rw [ENNReal.tsum_mul_right]
    have h2 : flipsLaw 0 x.length m.rate [] = (1 - m.rate) ^ x.length := by
      rw [flipsLaw_apply, if_pos ⟨List.Pairwise.nil, by simp⟩]
      simp
    have h3 : (1 - m.rate) ^ x.length + (∑' l, if l = [] then 0 else flipsLaw 0 x.length m.rate l) = 1 := by
      rw [← h2]
      have := (ENNReal.tsum_eq_add_tsum_ite (f := (flipsLaw 0 x.length m.rate).mass) ([] : List ℕ)).symm.trans ht
      convert this
    have hlt : (1 - m.rate) ^ x.length < 1 := by
      refine pow_lt_one₀ (zero_le) ?_ hn.ne'
      exact ENNReal.sub_lt_self (by norm_num) (by norm_num) h0
    have h4 : (∑' l, if l = [] then 0 else flipsLaw 0 x.length m.rate l) = 1 - (1 - m.rate) ^ x.length := by
      exact ENNReal.eq_sub_of_add_eq' (by norm_num) (by rw [add_comm]; exact h3)
    rw [h4]
    refine ENNReal.mul_inv_cancel (tsub_pos_of_lt hlt).ne' ?_
    exact (lt_of_le_of_lt tsub_le_self ENNReal.one_lt_top).ne
  · rw [not_or] at h
    have ha : m.allowNoMutation = true := by simpa using h.1
    have hr : m.rejectionSampling = true := by simpa using h.2
    have h1 : m.sampleBits x.length = flipsLaw 0 x.length m.rate := by
      unfold StandardBitMutation.sampleBits
      simp only [ha, hr, if_true]
      ext l
      exact binomial_choose hn m.rate l
    rw [h1, mutate_total (fun l hl => flipsLaw_support hl), flipsLaw_total _ hp]

/-- C110 (negative part): with rate zero, standard bit mutation never returns, unless no mutation is allowed and bits
are chosen by rejection. -/
theorem standardBitMutation_zero {x : BV} (hn : 0 < x.length) {m : StandardBitMutation} (h0 : m.rate = 0)
    (h : m.allowNoMutation = false ∨ m.rejectionSampling = false) : (mutate (m.sampleBits x.length) x).total = 0 := by
  rw [standard_some hn (by rw [h0]; exact zero_le) h, mutate_total (fun l hl => some_support hl)]
  unfold Dist.total
  rw [ENNReal.tsum_eq_zero]
  classical
  intro l
  rw [someFlipsLaw_apply, flipsLaw_apply, h0]
  split
  · rfl
  · next hl =>
    have : l.length ≠ 0 := by simpa using hl
    simp [zero_pow this]

/-! ## What may be sampled is what has a positive probability -/

/-- The law of a neighbourhood of the first model, with mutation rate `p`. -/
noncomputable def samplerLaw (p : ℝ≥0∞) (n : ℕ) : Sampler → Dist (List ℕ)
  | .singleBitFlip => singleBitFlip n
  | .standardBitMutation params => (⟨p, params.rejection, params.allowNoMutation⟩ : StandardBitMutation).sampleBits n
  | .hammingBall r => hammingBall n r
  | .hammingSphere r => hammingSphere n r

theorem flipsLaw_pos {n : ℕ} {p : ℝ≥0∞} (h0 : 0 < p) (h1 : p < 1) {l : List ℕ} (h : Ascending 0 n l) :
    flipsLaw 0 n p l ≠ 0 := by
  classical
  rw [flipsLaw_apply, if_pos h]
  exact mul_ne_zero (pow_ne_zero _ h0.ne') (pow_ne_zero _ (tsub_pos_of_lt h1).ne')

theorem law_positive {k : Sampler} {n : ℕ} (hf : k.Fits n) {p : ℝ≥0∞} (h0 : 0 < p) (h1 : p < 1) (l : List ℕ) :
    samplerLaw p n k l ≠ 0 ↔ k.Flips n l := by
  classical
  have hasc : Ascending 0 n l ↔ l.Pairwise (· < ·) ∧ ∀ i ∈ l, i < n := by
    unfold Ascending
    simp
  have hchoose : ∀ r, r ≤ n → (chooseLaw 0 n r l ≠ 0 ↔ Ascending 0 n l ∧ l.length = r) := by
    intro r hr
    rw [chooseLaw_apply]
    constructor
    · intro h
      by_contra h'
      exact h (if_neg h')
    · intro h
      rw [if_pos h]
      exact ENNReal.inv_ne_zero.mpr (ENNReal.natCast_ne_top _)
  unfold Sampler.Flips
  rw [← and_assoc, ← hasc]
  cases k with
  | singleBitFlip =>
    have hn : 0 < n := hf
    change singleBitFlip n l ≠ 0 ↔ Ascending 0 n l ∧ l.length = 1
    have : singleBitFlip n = chooseLaw 0 n 1 := by
      ext l
      change (Dist.uniformInt 0 (n - 1) >>= fun i => (pure [i] : Dist (List ℕ))) l = _
      rw [chooseLaw_apply]
      by_cases hl : ∃ i, l = [i]
      · obtain ⟨i, rfl⟩ := hl
        rw [Dist.map_apply_inj (Dist.uniformInt 0 (n - 1)) (f := fun i => [i])
          (fun _ _ h => (List.cons.inj h).1), uniformBelow hn, Nat.choose_one_right]
        refine if_congr ?_ rfl rfl
        simp [Ascending]
      · rw [if_neg, Dist.bind_apply, ENNReal.tsum_eq_zero]
        · intro i
          rw [Dist.pure_apply, if_neg (fun e => hl ⟨i, e⟩), mul_zero]
        · rintro ⟨_, h⟩
          exact hl (List.length_eq_one_iff.mp h)
    rw [this, hchoose 1 hn]
  | standardBitMutation params =>
    have hn : 0 < n := hf
    change (⟨p, params.rejection, params.allowNoMutation⟩ : StandardBitMutation).sampleBits n l ≠ 0 ↔
      Ascending 0 n l ∧ (1 ≤ l.length ∨ (params.rejection = true ∧ params.allowNoMutation = true))
    by_cases h : params.allowNoMutation = false ∨ params.rejection = false
    · rw [standard_some hn (m := ⟨p, params.rejection, params.allowNoMutation⟩) h1.le h, someFlipsLaw_apply]
      have h2 : ¬ (params.rejection = true ∧ params.allowNoMutation = true) := by
        rintro ⟨ha, hb⟩
        rcases h with h | h
        · rw [hb] at h; cases h
        · rw [ha] at h; cases h
      simp only [h2, or_false]
      by_cases hl : l = []
      · subst hl; simp
      · rw [if_neg hl]
        have hlen : 1 ≤ l.length := Nat.one_le_iff_ne_zero.mpr (by simpa using hl)
        simp only [hlen, and_true]
        constructor
        · intro h3
          refine flipsLaw_support (p := p) (fun e => h3 ?_)
          rw [e, ENNReal.zero_div]
        · intro h3
          refine ENNReal.div_ne_zero.mpr ⟨flipsLaw_pos h0 h1 h3, ?_⟩
          exact (lt_of_le_of_lt tsub_le_self ENNReal.one_lt_top).ne
    · rw [not_or] at h
      have ha : params.allowNoMutation = true := by simpa using h.1
      have hr : params.rejection = true := by simpa using h.2
      have h2 : (⟨p, params.rejection, params.allowNoMutation⟩ : StandardBitMutation).sampleBits n l
          = flipsLaw 0 n p l := by
        unfold StandardBitMutation.sampleBits
        simp only [ha, hr, if_true]
        exact binomial_choose hn p l
      rw [h2]
      simp only [ha, hr, and_self, or_true, and_true]
      exact ⟨fun h => flipsLaw_support h, fun h => flipsLaw_pos h0 h1 h⟩
  | hammingBall r =>
    obtain ⟨hr, hrn⟩ : 0 < r ∧ r ≤ n := hf
    change hammingBall n r l ≠ 0 ↔ Ascending 0 n l ∧ 1 ≤ l.length ∧ l.length ≤ r
    rw [ball_law hr hrn]
    have hi : (r : ℝ≥0∞)⁻¹ ≠ 0 := ENNReal.inv_ne_zero.mpr (ENNReal.natCast_ne_top _)
    by_cases h2 : 1 ≤ l.length ∧ l.length ≤ r
    · rw [if_pos h2, mul_ne_zero_iff, hchoose _ (by omega)]
      simp only [hi, h2, ne_eq, not_false_eq_true, true_and, and_true, and_self]
    · rw [if_neg h2, mul_zero]
      simp only [ne_eq, not_true_eq_false, false_iff]
      exact fun e => h2 e.2
  | hammingSphere r =>
    obtain ⟨hr, hrn⟩ : 0 < r ∧ r ≤ n := hf
    change hammingSphere n r l ≠ 0 ↔ Ascending 0 n l ∧ l.length = r
    rw [sphere_choose (by omega) hrn, hchoose r hrn]

/-- C110: both models agree: the bits which are sampled for some draws in the model without probabilities are those
which are sampled with a positive probability. -/
theorem law_reached {k : Sampler} {s : Nbh} (hs : s.Valid k) {p : ℝ≥0∞} (h0 : 0 < p) (h1 : p < 1) (l : List ℕ) :
    samplerLaw p s.n k l ≠ 0 ↔ ∃ ds rest, k.sampleBits s ds = .ok l rest := by
  rw [law_positive hs.fits h0 h1]
  constructor
  · intro h
    obtain ⟨ds, hds⟩ := sampleBits_onto hs h
    exact ⟨ds ++ [], [], hds []⟩
  · rintro ⟨ds, rest, h⟩
    exact (sampleBits_flips hs).elim h

/-! ## Random bit vectors -/

/-- C110: a random bit vector is uniform. -/
theorem bvRandomBits_law (x y : BV) :
    bvRandomBits x y = if y.length = x.length then ((2 : ℝ≥0∞) ^ x.length)⁻¹ else 0 := by
  have h : bvRandomBits x = bitsLaw ((List.range x.length).map (fun _ => Dist.bernoulli)) := by
    refine bits_range (fun _ => Dist.bernoulli) (fun j y hj hy => ?_)
    congr 1
    funext b
    rw [vset_eq (by omega), Dist.lift_ok]
  rw [h, bitsLaw_apply, List.length_map, List.length_range]
  by_cases hy : y.length = x.length
  · rw [if_pos hy, if_pos hy]
    have : List.zipWith (fun (c : Dist Bool) b => c.mass b) ((List.range x.length).map (fun _ => Dist.bernoulli)) y
        = List.replicate x.length (2⁻¹ : ℝ≥0∞) := by
      apply List.ext_getElem
      · simp [hy]
      · intro i h1 h2
        rw [List.getElem_zipWith, List.getElem_map, List.getElem_replicate]
        exact bernoulli_apply _
    rw [this, List.prod_replicate, ENNReal.inv_pow]
  · rw [if_neg hy, if_neg hy]

/-- C110: a random bit vector of given weight is uniform among the vectors of this weight. -/
theorem bvRandom_uniform {x : BV} {k : ℕ} (hk : k ≤ x.length) (y : BV) :
    bvRandom x k y = if y.length = x.length ∧ ones y = k then ((x.length.choose k : ℕ) : ℝ≥0∞)⁻¹ else 0 := by
  rw [bvRandom_law hk]
  rfl

example : bvRandom [false, false, false, false] 2 [true, false, true, false] = (6 : ℝ≥0∞)⁻¹ := by
  rw [bvRandom_uniform (by decide), if_pos (by decide)]
  norm_num [Nat.choose]

theorem getD_of_lt {α : Type} {l : List α} {d : α} {i : ℕ} (h : i < l.length) : l.getD i d = l[i] := by
  simp [List.getD, h]

/-- C110: sampling a probability vector: the bits are independent, and bit `i` is one with probability `pv[i]`. -/
theorem pvSample_law {pv : List ℝ≥0∞} {bv : BV} (hl : bv.length = pv.length) (hp : ∀ p ∈ pv, p ≤ 1) (y : BV) :
    pvSample pv bv y = if y.length = pv.length
      then (List.zipWith (fun p b => if b then p else 1 - p) pv y).prod else 0 := by
  unfold pvSample
  rw [Dist.assert_bind (by simpa using hl)]
  let c : ℕ → Dist Bool := fun i => Dist.coin (pv.getD i 0)
  rw [bits_range c]
  · rw [bitsLaw_apply, List.length_map, List.length_range, hl]
    refine if_congr Iff.rfl ?_ rfl
    congr 1
    apply List.ext_getElem
    · simp
    · intro i h1 h2
      rw [List.getElem_zipWith, List.getElem_zipWith, List.getElem_map, List.getElem_range]
      have hi : i < pv.length := by simp at h1; omega
      have hi' : i < y.length := by simp at h1; omega
      change (if y[i] then min (pv.getD i 0) 1 else 1 - pv.getD i 0) = _
      rw [getD_of_lt hi, min_eq_left (hp _ (List.getElem_mem hi))]
  · intro j z hj hz
    rw [vget_eq (by omega : j < pv.length), Dist.lift_ok, Dist.pure_bind']
    have : c j = Dist.coin pv[j] := by
      change Dist.coin (pv.getD j 0) = _
      rw [getD_of_lt (by omega)]
    rw [this]
    congr 1
    funext b
    rw [vset_eq (by omega), vset_eq (by omega), Dist.lift_ok, Dist.lift_ok]
    cases b <;> rfl

example : pvSample [2⁻¹, 1] [false, false] [false, true] = (1 - 2⁻¹) * (1 * 1) := by
  rw [pvSample_law rfl (by
    intro p hp
    simp only [List.mem_cons, List.not_mem_nil, or_false] at hp
    rcases hp with rfl | rfl
    · exact ENNReal.inv_le_one.mpr (by norm_num)
    · exact le_refl _)]
  rw [if_pos (by rfl)]
  simp

/-! ## Crossover -/

/-- C110: biased crossover: bits are independent, and each comes from the second parent with probability `bias`, from the
first one otherwise. -/
theorem biasedCrossover_law {bias : ℝ≥0∞} (hb : bias ≤ 1) {p1 p2 o : BV} (h1 : o.length = p1.length)
    (h2 : o.length = p2.length) (y : BV) :
    biasedCrossover bias p1 p2 o y = if y.length = p1.length
      then (List.zipWith (fun (ab : Bool × Bool) c =>
        (if c = ab.2 then bias else 0) + (if c = ab.1 then 1 - bias else 0)) (p1.zip p2) y).prod else 0 := by
  classical
  unfold biasedCrossover
  rw [Dist.assert_bind (by simpa using h1), Dist.assert_bind (by simpa using h2)]
  let c : ℕ → Dist Bool := fun i => do
    let b ← Dist.coin bias
    pure (if b then p2.getD i false else p1.getD i false)
  rw [bits_range c]
  · rw [bitsLaw_apply, List.length_map, List.length_range, h1]
    refine if_congr Iff.rfl ?_ rfl
    congr 1
    apply List.ext_getElem
    · simp; omega
    · intro i hi1 hi2
      rw [List.getElem_zipWith, List.getElem_zipWith, List.getElem_map, List.getElem_range, List.getElem_zip]
      have hi : i < p1.length := by simp at hi1; omega
      have hi' : i < p2.length := by omega
      have hi3 : i < y.length := by simp at hi1; omega
      change (Dist.coin bias >>= fun b => (pure (if b then p2.getD i false else p1.getD i false) : Dist Bool)) y[i] = _
      rw [Dist.coin_bind, min_eq_left hb, Dist.pure_apply, Dist.pure_apply, getD_of_lt hi, getD_of_lt hi']
      simp only [mul_ite, mul_one, mul_zero, if_true, Bool.false_eq_true, if_false]
  · intro j z hj hz
    change _ = ((Dist.coin bias >>= fun b => (pure (if b then p2.getD j false else p1.getD j false) : Dist Bool))
      >>= fun b => pure (z.set j b))
    rw [Dist.bind_assoc']
    congr 1
    funext b
    rw [Dist.pure_bind', vget_eq (by omega : j < p1.length), vget_eq (by omega : j < p2.length),
      getD_of_lt (by omega : j < p1.length), getD_of_lt (by omega : j < p2.length)]
    cases b
    · simp only [Bool.false_eq_true, if_false, Dist.lift_ok]
      rw [Dist.pure_bind', vset_eq (by omega), Dist.lift_ok]
    · simp only [if_true, Dist.lift_ok]
      rw [Dist.pure_bind', vset_eq (by omega), Dist.lift_ok]

/-- C110: uniform crossover is biased crossover with bias one half, whatever the order of the parents. -/
theorem uniformCrossover_law {p1 p2 o : BV} (h1 : o.length = p1.length) (h2 : o.length = p2.length) (y : BV) :
    uniformCrossover p1 p2 o y = biasedCrossover 2⁻¹ p1 p2 o y ∧
    uniformCrossover p1 p2 o y = uniformCrossover p2 p1 o y := by
  have h : ∀ p1 p2 : BV, uniformCrossover p1 p2 o y = biasedCrossover 2⁻¹ p2 p1 o y ∨ o.length ≠ p1.length ∨
      o.length ≠ p2.length := by
    intro p1 p2
    by_cases h1 : o.length = p1.length
    · by_cases h2 : o.length = p2.length
      · left
        unfold uniformCrossover biasedCrossover Dist.bernoulli
        rw [Dist.assert_bind (by simpa using h1), Dist.assert_bind (by simpa using h2),
          Dist.assert_bind (by simpa using h2), Dist.assert_bind (by simpa using h1)]
      · exact Or.inr (Or.inr h2)
    · exact Or.inr (Or.inl h1)
  have hu : ∀ {p1 p2 : BV}, o.length = p1.length → o.length = p2.length →
      uniformCrossover p1 p2 o y = biasedCrossover 2⁻¹ p2 p1 o y := by
    intro p1 p2 h1 h2
    rcases h p1 p2 with h | h | h
    · exact h
    · exact absurd h1 h
    · exact absurd h2 h
  have hle : (2⁻¹ : ℝ≥0∞) ≤ 1 := ENNReal.inv_le_one.mpr (by norm_num)
  have hs : biasedCrossover 2⁻¹ p2 p1 o y = biasedCrossover 2⁻¹ p1 p2 o y := by
    rw [biasedCrossover_law hle h2 h1, biasedCrossover_law hle h1 h2]
    refine if_congr (by omega) ?_ rfl
    congr 1
    apply List.ext_getElem
    · simp; omega
    · intro i hi1 hi2
      rw [List.getElem_zipWith, List.getElem_zipWith, List.getElem_zip, List.getElem_zip]
      simp only [ENNReal.one_sub_inv_two]
      rw [add_comm]
  exact ⟨(hu h1 h2).trans hs, (hu h1 h2).trans (hs.trans (hu h2 h1).symm)⟩

example : biasedCrossover 4⁻¹ [true, false, true] [false, false, true] [true, true, true] [false, false, true]
    = 4⁻¹ * (1 * 1) := by
  rw [biasedCrossover_law (p1 := [true, false, true]) (p2 := [false, false, true]) (o := [true, true, true])
    (ENNReal.inv_le_one.mpr (by norm_num)) rfl rfl, if_pos (by rfl)]
  have : (4⁻¹ : ℝ≥0∞) + (1 - 4⁻¹) = 1 := add_tsub_cancel_of_le (ENNReal.inv_le_one.mpr (by norm_num))
  simp [this]

/-! ## Maps -/

/-- C110: a random transvection is uniform among the ordered pairs of different indices. -/
theorem tvRandom_law {n : ℕ} (hn : 1 < n) (t : Transvection) :
    tvRandom n t = if t.row < n ∧ t.col < n ∧ t.row ≠ t.col then ((n * (n - 1) : ℕ) : ℝ≥0∞)⁻¹ else 0 := by
  unfold tvRandom
  rw [Dist.assert_bind (by simpa using hn)]
  have hne : (allPairs n).Nonempty := ⟨⟨0, 0⟩, mem_allPairs.mpr ⟨by simp; omega, by simp; omega⟩⟩
  rw [cond_uniform hne (pairs_law (by omega)), offDiag_count]
  refine if_congr ?_ rfl rfl
  rw [mem_allPairs]
  simp [and_assoc]

/-- C110: a random transvection which does not commute with a given one.  The law is not uniform: the transvection with
both indices exchanged is twice as likely as each of the others. -/
theorem tvRandomNonCommuting_law {n : ℕ} (hn : 1 < n) {a : Transvection} (h1 : a.row < n) (h2 : a.col < n)
    (h3 : a.row ≠ a.col) (t : Transvection) :
    tvRandomNonCommuting n a t =
      if t.row < n ∧ t.col < n ∧ t.row ≠ t.col ∧ tvCommute t a = false then
        if t = ⟨a.col, a.row⟩ then ((n - 1 : ℕ) : ℝ≥0∞)⁻¹ else 2⁻¹ * ((n - 1 : ℕ) : ℝ≥0∞)⁻¹
      else 0 := by
  classical
  have hrej : ∀ c i, c < n → Dist.repeatUntil (Dist.uniformInt 0 (n - 1)) (fun i => !(i == c)) i
      = if i < n ∧ i ≠ c then ((n - 1 : ℕ) : ℝ≥0∞)⁻¹ else 0 := by
    intro c i hc
    have := uniform_reject (n := n) (l := [c]) (by omega) (by simp) (by simpa using hc) i
    have he : (fun i => !([c] : List ℕ).contains i) = (fun i => !(i == c)) := by
      funext i
      by_cases h : i = c <;> simp [h]
    rw [he] at this
    rw [this]
    refine if_congr ?_ rfl rfl
    simp
  let f : Transvection → Dist Transvection := fun t => do
    Dist.lift (assert (tvIsValidN t n))
    Dist.lift (assert (!tvCommute t a))
    pure t
  have hf : ∀ u, u.row < n → u.col < n → u.row ≠ u.col → tvCommute u a = false → f u = pure u := by
    intro u h1 h2 h3 h4
    change (Dist.lift (assert (tvIsValidN u n)) >>= fun _ => Dist.lift (assert (!tvCommute u a)) >>= fun _ => pure u) = _
    rw [Dist.assert_bind, Dist.assert_bind (by rw [h4]; rfl)]
    unfold tvIsValidN tvIsValid
    simp [h3]
    omega
  have hA : (Dist.repeatUntil (Dist.uniformInt 0 (n - 1)) (fun i => !(i == a.col)) >>= fun i =>
      (pure ⟨a.col, i⟩ : Dist Transvection) >>= f) t
      = if t.row = a.col ∧ t.col < n ∧ t.col ≠ a.col then ((n - 1 : ℕ) : ℝ≥0∞)⁻¹ else 0 := by
    rw [Dist.bind_congr_support (g := fun i => pure ⟨a.col, i⟩)]
    · rw [Dist.bind_apply]
      by_cases ht : t.row = a.col
      · rw [tsum_eq_single t.col]
        · have e : t = ⟨a.col, t.col⟩ := by rw [← ht]
          rw [hrej _ _ h2, Dist.pure_apply, if_pos (c := t = _) e, mul_one]
          refine if_congr ?_ rfl rfl
          simp [ht]
        · intro i hi
          rw [Dist.pure_apply, if_neg (fun e => hi (by rw [e])), mul_zero]
      · rw [if_neg (fun e => ht e.1), ENNReal.tsum_eq_zero]
        intro i
        rw [Dist.pure_apply, if_neg (fun e => ht (by rw [e])), mul_zero]
    · intro i hi
      rw [hrej _ _ h2] at hi
      have hi' : i < n ∧ i ≠ a.col := by
        by_contra h
        exact hi (if_neg h)
      rw [Dist.pure_bind']
      refine hf _ h2 hi'.1 (fun e => hi'.2 e.symm) ?_
      unfold tvCommute
      simp
  have hB : (Dist.repeatUntil (Dist.uniformInt 0 (n - 1)) (fun i => !(i == a.row)) >>= fun i =>
      (pure ⟨i, a.row⟩ : Dist Transvection) >>= f) t
      = if t.col = a.row ∧ t.row < n ∧ t.row ≠ a.row then ((n - 1 : ℕ) : ℝ≥0∞)⁻¹ else 0 := by
    rw [Dist.bind_congr_support (g := fun i => pure ⟨i, a.row⟩)]
    · rw [Dist.bind_apply]
      by_cases ht : t.col = a.row
      · rw [tsum_eq_single t.row]
        · have e : t = ⟨t.row, a.row⟩ := by rw [← ht]
          rw [hrej _ _ h1, Dist.pure_apply, if_pos (c := t = _) e, mul_one]
          refine if_congr ?_ rfl rfl
          simp [ht]
        · intro i hi
          rw [Dist.pure_apply, if_neg (fun e => hi (by rw [e])), mul_zero]
      · rw [if_neg (fun e => ht e.1), ENNReal.tsum_eq_zero]
        intro i
        rw [Dist.pure_apply, if_neg (fun e => ht (by rw [e])), mul_zero]
    · intro i hi
      rw [hrej _ _ h1] at hi
      have hi' : i < n ∧ i ≠ a.row := by
        by_contra h
        exact hi (if_neg h)
      rw [Dist.pure_bind']
      refine hf _ hi'.1 h1 hi'.2 ?_
      unfold tvCommute
      simp
  have hlaw : tvRandomNonCommuting n a t
      = 2⁻¹ * (if t.row = a.col ∧ t.col < n ∧ t.col ≠ a.col then ((n - 1 : ℕ) : ℝ≥0∞)⁻¹ else 0)
        + 2⁻¹ * (if t.col = a.row ∧ t.row < n ∧ t.row ≠ a.row then ((n - 1 : ℕ) : ℝ≥0∞)⁻¹ else 0) := by
    unfold tvRandomNonCommuting
    rw [Dist.assert_bind (by simpa using hn), Dist.bind_apply, tsum_fintype, Fintype.sum_bool, bernoulli_apply,
      bernoulli_apply]
    simp only [if_true, Bool.false_eq_true, if_false]
    rw [← hA, ← hB, Dist.bind_assoc', Dist.bind_assoc']
  rw [hlaw]
  have hcomm : tvCommute t a = false ↔ t.row = a.col ∨ t.col = a.row := by
    unfold tvCommute
    by_cases e1 : t.row = a.col
    · simp [e1]
    · by_cases e2 : a.row = t.col
      · simp [e2]
      · have e2' : t.col ≠ a.row := fun e => e2 e.symm
        simp [e1, e2, e2']
  simp only [hcomm]
  obtain ⟨r, c⟩ := t
  obtain ⟨ar, ac⟩ := a
  simp only [Transvection.mk.injEq] at *
  have hhalf : (2⁻¹ : ℝ≥0∞) * ((n - 1 : ℕ) : ℝ≥0∞)⁻¹ + 2⁻¹ * ((n - 1 : ℕ) : ℝ≥0∞)⁻¹ = ((n - 1 : ℕ) : ℝ≥0∞)⁻¹ := by
    rw [← add_mul, ENNReal.inv_two_add_inv_two, one_mul]
  by_cases e1 : r = ac
  · by_cases e2 : c = ar
    · subst e1 e2
      have : c ≠ r := h3
      have h' : r ≠ c := fun e => h3 e.symm
      rw [if_pos ⟨rfl, h1, this⟩, if_pos ⟨rfl, h2, h'⟩, if_pos ⟨h2, h1, h', Or.inl rfl⟩, if_pos ⟨rfl, rfl⟩, hhalf]
    · subst e1
      by_cases e3 : c < n
      · by_cases e4 : r = c
        · subst e4; simp [e2]
        · have e4' : c ≠ r := fun e => e4 e.symm
          simp [e2, e3, e4, e4', h2]
      · simp [e2, e3]
  · by_cases e2 : c = ar
    · subst e2
      by_cases e3 : r < n
      · by_cases e4 : r = c
        · subst e4; simp [e1]
        · simp [e1, e3, e4, h1]
      · simp [e1, e3]
    · simp [e1, e2]

example : tvRandomNonCommuting 3 ⟨0, 1⟩ ⟨1, 0⟩ = (2 : ℝ≥0∞)⁻¹ ∧
    tvRandomNonCommuting 3 ⟨0, 1⟩ ⟨1, 2⟩ = 2⁻¹ * (2 : ℝ≥0∞)⁻¹ ∧ tvRandomNonCommuting 3 ⟨0, 1⟩ ⟨0, 2⟩ = 0 := by
  refine ⟨?_, ?_, ?_⟩
  · rw [tvRandomNonCommuting_law (by decide) (by decide) (by decide) (by decide), if_pos (by decide), if_pos (by decide)]
    norm_num
  · rw [tvRandomNonCommuting_law (by decide) (by decide) (by decide) (by decide), if_pos (by decide), if_neg (by decide)]
    norm_num
  · rw [tvRandomNonCommuting_law (by decide) (by decide) (by decide) (by decide), if_neg (by decide)]

open Classical in
/-- C110: a random matrix is uniform among the matrices of the requested shape. -/
theorem linearRandom_uniform {rows cols : ℕ} (hr : 0 < rows) (hc : 0 < cols) (M : BM) :
    linearRandom rows cols false M
      = if F2.HasShape rows cols M then ((2 : ℝ≥0∞) ^ (rows * cols))⁻¹ else 0 := by
  classical
  unfold linearRandom
  rw [Dist.assert_bind (by simpa using hr), Dist.assert_bind (by simpa using hc), if_neg (by simp), bmRandom_law hr hc]

theorem pad_eq {y : BV} {k : ℕ} {x : BV} (hx : x = y ++ List.replicate k false) {i : ℕ} (hi : i < y.length) :
    F2.dot ((List.range x.length).map (fun j => decide (i = j))) x = y[i] := by
  have hz : ∀ (x : BV) (o : ℕ), (List.zipWith and ((List.range' o x.length).map (fun j => decide (i = j))) x).count true
      = if o ≤ i ∧ x[i - o]? = some true then 1 else 0 := by
    intro x
    induction x with
    | nil => intro o; simp
    | cons b x ih =>
      intro o
      simp only [List.length_cons, List.range'_succ, List.map_cons, List.zipWith_cons_cons, List.count_cons]
      rw [ih (o + 1)]
      by_cases h : i = o
      · subst h
        cases b <;> simp
      · by_cases h2 : o + 1 ≤ i
        · have : i - o = (i - (o + 1)) + 1 := by omega
          rw [this, List.getElem?_cons_succ]
          have h3 : o ≤ i := by omega
          simp [h, h2, h3]
        · have h3 : ¬ o ≤ i := by omega
          simp [h, h2, h3]
  unfold F2.dot
  rw [List.range_eq_range', hz x 0, hx]
  simp only [Nat.zero_le, true_and, Nat.sub_zero]
  rw [List.getElem?_append_left hi, List.getElem?_eq_getElem hi]
  cases y[i] <;> simp

/-- There are surjective matrices, if there are at least as many columns as rows. -/
theorem onto_exists {rows cols : ℕ} (h : rows ≤ cols) : ∃ M, F2.HasShape rows cols M ∧ F2.Onto rows cols M := by
  refine ⟨(List.range rows).map (fun i => (List.range cols).map (fun j => decide (i = j))), ⟨by simp, ?_⟩, ?_⟩
  · intro row hrow
    simp only [List.mem_map] at hrow
    obtain ⟨i, _, rfl⟩ := hrow
    simp
  · intro y hy
    refine ⟨y ++ List.replicate (cols - rows) false, by simp [hy]; omega, ?_⟩
    unfold F2.mulVec
    rw [List.map_map]
    apply List.ext_getElem
    · simp [hy]
    · intro i h1 h2
      rw [List.getElem_map, List.getElem_range]
      have := pad_eq (y := y) (k := cols - rows) rfl h2
      rw [← this]
      have hl : (y ++ List.replicate (cols - rows) false).length = cols := by simp [hy]; omega
      rw [hl]
      rfl

theorem bmRandom_total {rows cols : ℕ} (hr : 0 < rows) (hc : 0 < cols) : (bmRandom rows cols).total = 1 := by
  unfold bmRandom
  rw [Dist.assert_bind (by simpa using hr), Dist.assert_bind (by simpa using hc)]
  have hloop : ∀ {α : Type} (d : Dist α) (n i : ℕ) (l : List α), d.total = 1 →
      (Dist.forLoop n i (fun _ l => d >>= fun a => pure (l ++ [a])) l).total = 1 := by
    intro α d n
    induction n with
    | zero => intro i l _; exact Dist.total_pure _
    | succ n ih =>
      intro i l hd
      change ((d >>= fun a => pure (l ++ [a])) >>= fun l => Dist.forLoop n (i + 1) (fun _ l => d >>= fun a => pure (l ++ [a])) l).total = 1
      rw [Dist.bind_assoc', Dist.total_bind]
      simp only [Dist.pure_bind', ih _ _ hd, mul_one]
      exact hd
  refine hloop _ _ _ _ ?_
  exact hloop _ _ _ _ Dist.coin_total

open Classical in
/-- C110: a random surjective matrix is uniform among the surjective matrices of the requested shape, and one is always
found: the loop ends with probability one. -/
theorem linearRandom_surjective_law {rows cols : ℕ} (hr : 0 < rows) (hle : rows ≤ cols) :
    (∃ c : ℝ≥0∞, ∀ M, linearRandom rows cols true M = if F2.HasShape rows cols M ∧ F2.Onto rows cols M then c else 0) ∧
    (linearRandom rows cols true).total = 1 := by
  have hc : 0 < cols := by omega
  let body : Dist (BM × Bool) := do
    let M ← bmRandom rows cols
    let s ← Dist.lift (linearIsSurjective M)
    pure (M, s)
  have hbody : body = (bmRandom rows cols >>= fun M => pure (M, decide (F2.Onto rows cols M))) := by
    refine Dist.bind_congr_support (fun M hM => ?_)
    rw [bmRandom_law hr hc] at hM
    have hs : F2.HasShape rows cols M := by
      by_contra h
      exact hM (if_neg h)
    obtain ⟨b, hb, hiff⟩ := linearIsSurjective_ok rows cols hr M hs
    rw [hb, Dist.lift_ok, Dist.pure_bind']
    congr 2
    by_cases h : F2.Onto rows cols M
    · rw [hiff.mpr h, decide_eq_true h]
    · rw [decide_eq_false h]
      cases b
      · rfl
      · exact absurd (hiff.mp rfl) h
  have hmass : ∀ M s, body (M, s) = if s = decide (F2.Onto rows cols M) then bmRandom rows cols M else 0 := by
    intro M s
    rw [hbody, Dist.bind_apply, tsum_eq_single M]
    · rw [Dist.pure_apply]
      by_cases h : s = decide (F2.Onto rows cols M)
      · rw [if_pos h, if_pos (by rw [h]), mul_one]
      · rw [if_neg h, if_neg (fun e => h (congrArg Prod.snd e)), mul_zero]
    · intro M' hM'
      rw [Dist.pure_apply, if_neg (fun e => hM' (congrArg Prod.fst e).symm), mul_zero]
  have hlaw : linearRandom rows cols true = (Dist.repeatUntil body (fun r => r.2) >>= fun r => pure r.1) := by
    unfold linearRandom
    rw [Dist.assert_bind (by simpa using hr), Dist.assert_bind (by simpa using hc), if_pos rfl, if_neg (by omega)]
  have hm : ∀ M, linearRandom rows cols true M = if F2.HasShape rows cols M ∧ F2.Onto rows cols M
      then ((2 : ℝ≥0∞) ^ (rows * cols))⁻¹ * (1 - Dist.miss body (fun r => r.2))⁻¹ else 0 := by
    intro M
    rw [hlaw, Dist.bind_apply, tsum_eq_single (M, true)]
    · rw [Dist.pure_apply, if_pos (c := M = _) rfl, mul_one, Dist.repeatUntil_apply, if_pos rfl, hmass, bmRandom_law hr hc]
      by_cases h1 : F2.HasShape rows cols M
      · by_cases h2 : F2.Onto rows cols M
        · rw [if_pos (decide_eq_true h2).symm, if_pos h1, if_pos ⟨h1, h2⟩]
        · rw [if_neg (by simp [h2]), if_neg (fun e => h2 e.2), zero_mul]
      · rw [if_neg (c := F2.HasShape rows cols M) h1, ite_self, zero_mul, if_neg (fun e => h1 e.1)]
    · rintro ⟨M', s⟩ hne
      cases s with
      | false => rw [Dist.repeatUntil_apply, if_neg (by simp), zero_mul]
      | true =>
        rw [Dist.pure_apply, if_neg, mul_zero]
        intro e
        exact hne (by rw [e])
  refine ⟨⟨_, hm⟩, ?_⟩
  have ht : body.total = 1 := by
    rw [hbody, Dist.total_bind]
    simp only [Dist.total_pure, mul_one]
    exact bmRandom_total hr hc
  rw [hlaw, Dist.total_bind]
  simp only [Dist.total_pure, mul_one]
  obtain ⟨M, hs, ho⟩ := onto_exists hle
  have hpos : (∑' b, if b.2 = true then body b else 0) ≠ 0 := by
    intro h
    have h2 := ENNReal.tsum_eq_zero.mp h (M, true)
    rw [if_pos (c := (M, true).2 = true) rfl, hmass, if_pos (decide_eq_true ho).symm, bmRandom_law hr hc, if_pos hs] at h2
    exact ENNReal.inv_ne_zero.mpr (ENNReal.pow_ne_top (by norm_num)) h2
  have hfin : (∑' b, if b.2 = true then body b else 0) ≠ ∞ := by
    have h := Dist.hit_add_miss body (fun r => r.2)
    rw [ht] at h
    intro e
    rw [e] at h
    simp at h
  have heq : ∀ r, Dist.repeatUntil body (fun r => r.2) r
      = (if r.2 = true then body r else 0) * (∑' b, if b.2 = true then body b else 0)⁻¹ := by
    intro r
    rw [Dist.repeatUntil_cond ht]
    split
    · rw [div_eq_mul_inv]
    · rw [zero_mul]
  simp only [heq]
  rw [ENNReal.tsum_mul_right, ENNReal.mul_inv_cancel hpos hfin]

example : (linearRandom 2 3 true).total = 1 := (linearRandom_surjective_law (by decide) (by decide)).2

/-! ## Selection -/

/-- C110: uniform selection gives each individual of a population with the same probability, and nothing else. -/
theorem uniformSelection_law {size : ℕ} (h : 0 < size) (i : ℕ) :
    uniformSelection size i = if i < size then (size : ℝ≥0∞)⁻¹ else 0 := uniformBelow h i

/-- C110: fitness proportionate selection chooses an individual with probability proportional to its value. -/
theorem fitnessProportionate_law {values : List ℝ≥0∞} {i : ℕ} (hi : i < values.length) :
    fitnessProportionateSelection values i = values[i] / values.sum := by
  change (match values[i]? with | some w => w / values.sum | none => 0) = _
  rw [List.getElem?_eq_getElem hi]

theorem le_maxValue (y : ℝ) (ys : List ℝ) : ∀ v ∈ y :: ys, v ≤ maxValue y ys := by
  unfold maxValue
  induction ys generalizing y with
  | nil => intro v hv; simp at hv; simp [hv]
  | cons z ys ih =>
    intro v hv
    rw [List.foldl_cons]
    have h1 : ∀ w ∈ [y, z], w ≤ (if y < z then z else y) := by
      intro w hw
      simp only [List.mem_cons, List.not_mem_nil, or_false] at hw
      split <;> rcases hw with rfl | rfl <;> linarith
    have hm := ih (if y < z then z else y) (if y < z then z else y) List.mem_cons_self
    rcases List.mem_cons.mp hv with rfl | hv
    · exact (h1 v (by simp)).trans hm
    · rcases List.mem_cons.mp hv with rfl | hv
      · exact (h1 v (by simp)).trans hm
      · exact ih _ v (List.mem_cons_of_mem _ hv)

theorem maxValue_mem (y : ℝ) (ys : List ℝ) : maxValue y ys ∈ y :: ys := by
  unfold maxValue
  induction ys generalizing y with
  | nil => simp
  | cons z ys ih =>
    rw [List.foldl_cons]
    have := ih (if y < z then z else y)
    split at this
    · rw [if_pos (by assumption)]
      exact List.mem_cons_of_mem _ this
    · rw [if_neg (by assumption)]
      rcases List.mem_cons.mp this with h | h
      · rw [h]; exact List.mem_cons_self
      · exact List.mem_cons_of_mem _ (List.mem_cons_of_mem _ h)

theorem sum_exp_pos : ∀ (l : List ℝ) (b : ℝ), l ≠ [] → 0 < (l.map (fun v => Real.exp (b * v))).sum := by
  intro l b h
  refine List.sum_pos _ ?_ (by simpa using h)
  intro x hx
  rw [List.mem_map] at hx
  obtain ⟨v, _, rfl⟩ := hx
  exact Real.exp_pos _

/-- C110: Boltzmann selection with inverse temperature at least zero chooses individual `i` with probability
`exp(β f(x_i)) / Σ exp(β f(x_j))`, although the maximum is subtracted from the values. -/
theorem boltzmannSelection_law {beta : ℝ} (hb : 0 ≤ beta) (y : ℝ) (ys : List ℝ) {i : ℕ} (hi : i < (y :: ys).length) :
    boltzmannSelection beta y ys i
      = ENNReal.ofReal (Real.exp (beta * (y :: ys)[i]) / ((y :: ys).map (fun v => Real.exp (beta * v))).sum) := by
  classical
  have hle : ∀ z ∈ (y :: ys).map (fun v => Real.exp (beta * (v - maxValue y ys))), z ≤ 1 := by
    intro z hz
    rw [List.mem_map] at hz
    obtain ⟨v, hv, rfl⟩ := hz
    rw [Real.exp_le_one_iff]
    exact mul_nonpos_of_nonneg_of_nonpos hb (by have := le_maxValue y ys v hv; linarith)
  unfold boltzmannSelection
  rw [Dist.assert_bind (by simpa using hle)]
  set c := Real.exp (-(beta * maxValue y ys)) with hcdef
  have hcpos : 0 < c := Real.exp_pos _
  have hexp : ∀ v, Real.exp (beta * (v - maxValue y ys)) = Real.exp (beta * v) * c := by
    intro v
    rw [hcdef, ← Real.exp_add]
    congr 1
    ring
  simp only [hexp]
  have hsum : ∀ l : List ℝ, ((l.map (fun v => Real.exp (beta * v) * c)).map ENNReal.ofReal).sum
      = ENNReal.ofReal ((l.map (fun v => Real.exp (beta * v))).sum * c) := by
    intro l
    induction l with
    | nil => simp
    | cons a l ih =>
      rw [List.map_cons, List.map_cons, List.sum_cons, ih, List.map_cons, List.sum_cons, add_mul, ENNReal.ofReal_add]
      · positivity
      · refine mul_nonneg (List.sum_nonneg ?_) hcpos.le
        intro x hx
        rw [List.mem_map] at hx
        obtain ⟨v, _, rfl⟩ := hx
        positivity
  change (match (((y :: ys).map (fun v => Real.exp (beta * v) * c)).map ENNReal.ofReal)[i]? with
    | some w => w / (((y :: ys).map (fun v => Real.exp (beta * v) * c)).map ENNReal.ofReal).sum | none => 0) = _
  rw [hsum, List.getElem?_eq_getElem (by simpa using hi), List.getElem_map, List.getElem_map]
  have hpos := sum_exp_pos (y :: ys) beta (by simp)
  change ENNReal.ofReal (Real.exp (beta * (y :: ys)[i]) * c) / _ = _
  rw [← ENNReal.ofReal_div_of_pos (mul_pos hpos hcpos), mul_div_mul_right _ _ hcpos.ne']

/-- C110 (negative part): with a negative inverse temperature, Boltzmann selection fails on an assertion, unless all
values are equal. -/
theorem boltzmannSelection_negative {beta : ℝ} (hb : beta < 0) (y : ℝ) (ys : List ℝ) (hne : ∃ v ∈ ys, v ≠ y) :
    (boltzmannSelection beta y ys).total = 0 := by
  classical
  have hex : ∃ v ∈ y :: ys, v < maxValue y ys := by
    obtain ⟨v, hv, hvy⟩ := hne
    have h1 := le_maxValue y ys y List.mem_cons_self
    have h2 := le_maxValue y ys v (List.mem_cons_of_mem _ hv)
    rcases lt_or_eq_of_le h1 with h | h
    · exact ⟨y, List.mem_cons_self, h⟩
    · exact ⟨v, List.mem_cons_of_mem _ hv, lt_of_le_of_ne h2 (fun e => hvy (e.trans h.symm))⟩
  obtain ⟨v, hv, hlt⟩ := hex
  unfold boltzmannSelection
  have hfalse : ¬ ∀ z ∈ (y :: ys).map (fun v => Real.exp (beta * (v - maxValue y ys))), z ≤ 1 := by
    intro h
    have h1 := h _ (List.mem_map.mpr ⟨v, hv, rfl⟩)
    rw [Real.exp_le_one_iff] at h1
    have := mul_pos_of_neg_of_neg hb (by linarith : v - maxValue y ys < 0)
    linarith
  simp only [hfalse, decide_false]
  change Dist.total (Dist.never >>= _) = 0
  rw [Dist.total_bind]
  simp only [Dist.never_apply, zero_mul, tsum_zero]

example : boltzmannSelection 1 0 [0] 1 = ENNReal.ofReal (1 / 2) := by
  rw [boltzmannSelection_law (by norm_num) 0 [0] (i := 1) (by decide)]
  norm_num

/-- C110: a random bit with parameter `p` is one with probability `p`. -/
theorem bitRandom_law {p : ℝ≥0∞} (hp : p ≤ 1) (b : Bool) : bitRandom p b = if b then p else 1 - p := by
  unfold bitRandom
  classical
  rw [Dist.coin_bind, Dist.pure_apply, Dist.pure_apply, min_eq_left hp]
  cases b <;> simp

/-! ## Further examples -/

example : bitRandom 4⁻¹ false = 1 - 4⁻¹ := by
  rw [bitRandom_law (ENNReal.inv_le_one.mpr (by norm_num))]
  rfl

example : mutate (singleBitFlip 3) [true, false, false] [true, false, true] = (3 : ℝ≥0∞)⁻¹ := by
  have := singleBitFlip_law (x := [true, false, false]) (by decide) [true, false, true]
  rw [if_pos (by decide)] at this
  simpa using this

example : (mutate (hammingSphere 4 2) [true, false, false, true]).total = 1 :=
  hammingSphere_ends (x := [true, false, false, true]) (by decide) (by decide)

example : (mutate ((StandardBitMutation.new 2⁻¹).sampleBits 2) [true, false]).total = 1 :=
  standardBitMutation_ends (x := [true, false]) (by decide) (ENNReal.inv_le_one.mpr (by norm_num)) (by simp [StandardBitMutation.new])

example : (mutate ((StandardBitMutation.new 0).sampleBits 2) [true, false]).total = 0 :=
  standardBitMutation_zero (x := [true, false]) (by decide) rfl (Or.inl rfl)

example : mutate ((⟨4⁻¹, true, true⟩ : StandardBitMutation).sampleBits 2) [true, false] [true, false] = (1 - 4⁻¹) ^ 2 := by
  have := standardBitMutation_allowed (x := [true, false]) (by decide) (m := ⟨4⁻¹, true, true⟩) rfl rfl [true, false]
  rw [if_pos rfl, show distance [true, false] [true, false] = 0 by decide] at this
  simpa using this

example : bvRandomBits [false, false, true] [true, false, true] = ((2 : ℝ≥0∞) ^ 3)⁻¹ := by
  rw [bvRandomBits_law, if_pos (by decide)]
  rfl

example : uniformCrossover [true, false] [false, false] [true, true] [true, false]
    = uniformCrossover [false, false] [true, false] [true, true] [true, false] :=
  (uniformCrossover_law (by decide) (by decide) _).2

example : tvRandom 3 ⟨2, 0⟩ = (6 : ℝ≥0∞)⁻¹ := by
  rw [tvRandom_law (by decide), if_pos (by decide)]
  norm_num

example : linearRandom 2 2 false [[true, false], [true, true]] = ((2 : ℝ≥0∞) ^ 4)⁻¹ := by
  rw [linearRandom_uniform (by decide) (by decide), if_pos]
  exact ⟨rfl, by simp⟩

example : uniformSelection 3 2 = (3 : ℝ≥0∞)⁻¹ ∧ uniformSelection 3 3 = 0 := by
  constructor <;> simp [uniformSelection_law]

example : fitnessProportionateSelection [1, 3] 1 = 3 / (1 + (3 + 0)) := fitnessProportionate_law (values := [1, 3]) (i := 1) (by decide)

example : (boltzmannSelection (-1) 0 [1]).total = 0 := boltzmannSelection_negative (by norm_num) 0 [1] ⟨1, by simp, by norm_num⟩

/-- The hypotheses of `law_reached`: a Hamming sphere of radius 2 on four bits. -/
example : ∃ s : Nbh, s.Valid (.hammingSphere 2) ∧ (samplerLaw 2⁻¹ s.n (.hammingSphere 2) [0, 3] ≠ 0 ↔
    ∃ ds rest, (Sampler.hammingSphere 2).sampleBits s ds = .ok [0, 3] rest) :=
  have h : Nbh.Valid (.hammingSphere 2) ⟨4, [true, false, false, true], [true, false, false, true], []⟩ :=
    ⟨⟨by decide, by decide⟩, rfl, rfl, fun h => by cases h⟩
  ⟨_, h, law_reached h (by simp) (by rw [ENNReal.inv_lt_one]; norm_num) _⟩

end Hnco.Prob
