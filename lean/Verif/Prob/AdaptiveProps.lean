import Verif.Prob.AdaptiveLemmas

/-!
# Evolutionary algorithms which adjust their mutation rate find the maximum

The specification is `Evaluates`, `IsMax` and `missProb` (`Verif/Prob/SearchSpec.lean`) and `Choices.Valid`
(`Verif/Prob/PopulationSpec.lean`).
-/

namespace Hnco.Prob

open Outcome
open scoped ENNReal
open Classical

variable {K : Type} [LinearOrder K] {f : Fn K} {n size : ℕ} {val : BV → K} {c : Choices K}

/-! ## Two-rate (1+lambda) evolutionary algorithm -/

/-- The state between two iterations. -/
structure TwoRateGood (n size : ℕ) (val : BV → K) (lo hi : ℝ≥0∞) (s : TwoRateLawState K) : Prop where
  solution : Good n val s.solution
  population : s.population.Valid size n
  lower : lo ≤ s.rate
  upper : s.rate ≤ hi

theorem twoRateInit_sure (hf : Evaluates f n val) {q : TwoRateLaw} {lo hi : ℝ≥0∞} (h1 : lo ≤ q.rateInit) (h2 : q.rateInit ≤ hi) {p : Pop K}
    (hp : p.Valid size n) : Sure (twoRateInit f q n p) (TwoRateGood n size val lo hi) := by
  unfold twoRateInit
  exact (randomSolution_sure hf).bind (fun s hs => Sure.pure ⟨hs, hp, h1, h2⟩)

theorem twoRateInit_le (hf : Evaluates f n val) {q : TwoRateLaw} {p : Pop K} :
    (twoRateInit f q n p).expect (missing (fun s => IsMax n val s.solution.1)) ≤ 1 - ((2 : ℝ≥0∞) ^ n)⁻¹ := by
  unfold twoRateInit
  rw [Dist.expect_bind]
  refine le_trans (le_of_eq ?_) (randomBits_le (val := val) (List.replicate n false) (by simp))
  rw [← randomSolution_expect hf (IsMax n val)]
  refine Dist.expect_congr (fun s _ => ?_)
  rw [Dist.expect_pure]
  rfl

theorem quarter_eq : (2 : ℝ≥0∞) / 8 = 1 / 4 := by
  rw [ENNReal.div_eq_div_iff (by norm_num) (by norm_num) (by norm_num) (by norm_num)]
  norm_num

theorem min_le_max (hn : 8 ≤ n) : twoRateMin n ≤ twoRateMax := by
  unfold twoRateMin twoRateMax
  rw [← quarter_eq]
  exact ENNReal.div_le_div_left (by exact_mod_cast hn) 2

theorem max_lt_min (h0 : 0 < n) (hn : n < 8) : twoRateMax < twoRateMin n := by
  unfold twoRateMin twoRateMax
  have h0' : (n : ℝ≥0∞) ≠ 0 := by exact_mod_cast h0.ne'
  rw [ENNReal.lt_div_iff_mul_lt (.inl h0') (.inl (ENNReal.natCast_ne_top n)), one_div, mul_comm, ← div_eq_mul_inv,
    ENNReal.div_lt_iff (.inl (by norm_num)) (.inl (by norm_num)), show (2 : ℝ≥0∞) * 4 = ((8 : ℕ) : ℝ≥0∞) by norm_num]
  exact_mod_cast hn

theorem half_max : twoRateMax * 2 = 2⁻¹ := by
  unfold twoRateMax
  rw [one_div, show (4 : ℝ≥0∞) = 2 * 2 by norm_num, ENNReal.mul_inv (by simp) (by simp), mul_assoc,
    ENNReal.inv_mul_cancel (by simp) (by simp), mul_one]

theorem half_min (n : ℕ) : twoRateMin n / 2 = (n : ℝ≥0∞)⁻¹ := by
  unfold twoRateMin
  rw [div_eq_mul_inv, div_eq_mul_inv, mul_comm (2 : ℝ≥0∞), mul_assoc, ENNReal.mul_inv_cancel (by simp) (by simp), mul_one]

theorem half_mono {a b : ℝ≥0∞} (h : a ≤ b) : a / 2 ≤ b / 2 := ENNReal.div_le_div_right h 2

theorem le_double (a : ℝ≥0∞) : a ≤ a * 2 := by rw [mul_two]; exact le_add_self

/-- The rates of an iteration, with at least eight bits. -/
theorem twoRate_mutates (hn : 8 ≤ n) {s : TwoRateLawState K} (hs : TwoRateGood n size val (twoRateMin n) twoRateMax s) :
    Mutates ((s.slow n).sampleBits n) n ((n : ℝ≥0∞)⁻¹ ^ n) ∧ Mutates ((s.fast n).sampleBits n) n ((n : ℝ≥0∞)⁻¹ ^ n) := by
  have hpos : 0 < (n : ℝ≥0∞)⁻¹ := by simp
  have hlow : (n : ℝ≥0∞)⁻¹ ≤ s.rate / 2 := by rw [← half_min]; exact half_mono hs.lower
  have hself : s.rate / 2 ≤ s.rate := ENNReal.half_le_self
  have hhigh : s.rate * 2 ≤ 2⁻¹ := by rw [← half_max]; exact mul_le_mul_left hs.upper 2
  have hup : s.rate / 2 ≤ 2⁻¹ := hself.trans ((le_double _).trans hhigh)
  have hhalf : (2⁻¹ : ℝ≥0∞) ≤ 1 := ENNReal.inv_le_one.mpr (by norm_num)
  have hninv : (n : ℝ≥0∞)⁻¹ ≤ 2⁻¹ := hlow.trans hup
  have hcomp : ∀ r : ℝ≥0∞, r ≤ 2⁻¹ → (n : ℝ≥0∞)⁻¹ ≤ 1 - r := fun r hr =>
    hninv.trans (by rw [← ENNReal.one_sub_inv_two]; exact tsub_le_tsub_left hr 1)
  have e1 : (s.slow n).rate = s.rate / 2 := setRate_rate _ _ _
  have e2 : (s.fast n).rate = s.rate * 2 := setRate_rate _ _ _
  have hlow2 : (n : ℝ≥0∞)⁻¹ ≤ s.rate * 2 := (hlow.trans hself).trans (le_double _)
  exact ⟨mutates_between (by omega) (by rw [e1]; exact hpos.trans_le hlow) (by rw [e1]; exact hup.trans hhalf) (by rw [e1]; exact hlow)
      (by rw [e1]; exact hcomp _ hup),
    mutates_between (by omega) (by rw [e2]; exact hpos.trans_le hlow2) (by rw [e2]; exact hhigh.trans hhalf) (by rw [e2]; exact hlow2)
      (by rw [e2]; exact hcomp _ hhigh)⟩

theorem twoRateRest_sure (hf : Evaluates f n val) (hc : c.Valid) (hn : 8 ≤ n) (hsize : 0 < size) {s : TwoRateLawState K}
    (hs : TwoRateGood n size val (twoRateMin n) twoRateMax s) (m : StandardBitMutation) {p : Pop K} (hp : p.Valid size n) :
    Sure (twoRateRest f c n s m p) (fun t => TwoRateGood n size val (twoRateMin n) twoRateMax t ∧
      (IsMax n val t.solution.1 ↔ IsMax n val s.solution.1 ∨ ∃ y ∈ p.bvs, IsMax n val y)) := by
  rw [twoRateRest_eq]
  exact (twoRateSelect_sure hf hc hsize hs.solution hp).bind (fun r hr =>
    (twoRateUpdate_sure hsize hr.2.1 (min_le_max hn) (ENNReal.half_le_self.trans hs.upper) (hs.lower.trans (le_double _))).bind
      (fun rate hrate => Sure.pure ⟨⟨hr.1, hr.2.1, hrate.1, hrate.2⟩, hr.2.2⟩))

theorem twoRateIterate_step (hf : Evaluates f n val) (hc : c.Valid) (hn : 8 ≤ n) (hsize : 0 < size) {s : TwoRateLawState K}
    (hs : TwoRateGood n size val (twoRateMin n) twoRateMax s) :
    Sure (twoRateIterate f c n s) (TwoRateGood n size val (twoRateMin n) twoRateMax) ∧
    (twoRateIterate f c n s).expect (missing (fun s => IsMax n val s.solution.1))
      ≤ (1 - (n : ℝ≥0∞)⁻¹ ^ n) ^ size * missing (fun s : TwoRateLawState K => IsMax n val s.solution.1) s := by
  obtain ⟨m1, m2⟩ := twoRate_mutates hn hs
  have h1 := twoLoops_sure m1 m2 hs.solution.1 (Nat.div_le_self size 2) hs.population
  rw [twoRateIterate_eq, show s.population.size = size from hs.population.bvs]
  refine ⟨h1.bind (fun p hp => (twoRateRest_sure hf hc hn hsize hs _ hp).mono (fun _ h => h.1)), ?_⟩
  rw [expect_after h1 (fun p hp => (twoRateRest_sure hf hc hn hsize hs _ hp).mono (fun _ h => h.2))]
  exact missing_mul_le (fun h => le_trans (le_of_eq (by congr!)) (twoLoops_le (val := val) m1 m2 hs.solution.1 (Nat.div_le_self size 2)
    hs.population h))

theorem margin_le_uniform (hn : 2 ≤ n) : (n : ℝ≥0∞)⁻¹ ^ n ≤ ((2 : ℝ≥0∞) ^ n)⁻¹ := by
  rw [ENNReal.inv_pow]
  exact pow_le_pow_left' (ENNReal.inv_le_inv.mpr (by exact_mod_cast hn)) n

/-- C114: with at least eight bits, and an initial rate between the bounds `2/n` and `1/4` (as the default one is), the two-rate
(1+lambda) evolutionary algorithm finds a maximum of any function, whatever the order in which equal individuals are sorted: the
probability that it has not been found after `t` iterations is at most `(1 - 1/n^n)^(lambda t + 1)`. -/
theorem twoRate_converges [Zero K] (hf : Evaluates f n val) (hc : c.Valid) (hn : 8 ≤ n) (hsize : 0 < size) {q : TwoRateLaw}
    (h1 : 2 / (n : ℝ≥0∞) ≤ q.rateInit) (h2 : q.rateInit ≤ 1 / 4) {t : ℕ} (ht : 0 < t) :
    missProb (twoRateEa f c q n size t) (IsMax n val) ≤ (1 - (n : ℝ≥0∞)⁻¹ ^ n) ^ (size * t + 1) := by
  obtain ⟨p, e, hp⟩ := popNew_ok (K := K) (n := n) (by omega) hsize
  unfold twoRateEa
  rw [e, Dist.lift_ok, Dist.pure_bind']
  refine (run_miss_le (solution := TwoRateLawState.solution) (found := IsMax n val) (I := TwoRateGood n size val (twoRateMin n) twoRateMax)
    (twoRateInit_sure hf h1 h2 hp) (fun s hs => (twoRateIterate_step hf hc hn hsize hs).1)
    ((twoRateInit_le hf).trans (tsub_le_tsub_left (margin_le_uniform (by omega)) 1))
    (fun s hs => (twoRateIterate_step hf hc hn hsize hs).2) ht).trans (le_of_eq ?_)
  rw [← pow_mul, ← pow_succ]

/-! ## Too few bits -/

theorem four_min (hn : 4 ≤ n) : twoRateMin n * 2 ≤ 1 := by
  unfold twoRateMin
  have h0 : (n : ℝ≥0∞) ≠ 0 := by exact_mod_cast (by omega : n ≠ 0)
  rw [mul_comm, ← mul_div_assoc, ENNReal.div_le_iff h0 (ENNReal.natCast_ne_top n), one_mul, show (2 : ℝ≥0∞) * 2 = ((4 : ℕ) : ℝ≥0∞) by norm_num]
  exact_mod_cast hn

theorem few_mutates (hn : 4 ≤ n) {s : TwoRateLawState K} (hs : TwoRateGood n size val twoRateMax (twoRateMin n) s) :
    Mutates ((s.slow n).sampleBits n) n (0 ^ n) ∧ Mutates ((s.fast n).sampleBits n) n (0 ^ n) := by
  have hpos : 0 < s.rate := lt_of_lt_of_le (by unfold twoRateMax; simp) hs.lower
  have hhigh : s.rate * 2 ≤ 1 := (mul_le_mul_left hs.upper 2).trans (four_min hn)
  have hup : s.rate / 2 ≤ 1 := ENNReal.half_le_self.trans ((le_double _).trans hhigh)
  have e1 : (s.slow n).rate = s.rate / 2 := setRate_rate _ _ _
  have e2 : (s.fast n).rate = s.rate * 2 := setRate_rate _ _ _
  exact ⟨mutates_between (by omega) (by rw [e1]; exact ENNReal.half_pos hpos.ne') (by rw [e1]; exact hup) zero_le zero_le,
    mutates_between (by omega) (by rw [e2]; exact hpos.trans_le (le_double _)) (by rw [e2]; exact hhigh) zero_le zero_le⟩

theorem total_bind_const {α β : Type} {d : Dist α} {g : α → Dist β} {P : α → Prop} (hd : ∀ a, d a ≠ 0 → P a) {r : ℝ≥0∞}
    (h : ∀ a, P a → (g a).total = r) : (d >>= g).total = d.total * r := by
  rw [Dist.total_bind]
  unfold Dist.total at *
  rw [← ENNReal.tsum_mul_right]
  refine tsum_congr (fun a => ?_)
  by_cases ha : d a = 0
  · rw [ha, zero_mul, zero_mul]
  · rw [h a (hd a ha)]

theorem few_iterate (hf : Evaluates f n val) (hc : c.Valid) (h4 : 4 ≤ n) (h8 : n < 8) (hsize : 0 < size) {s : TwoRateLawState K}
    (hs : TwoRateGood n size val twoRateMax (twoRateMin n) s) :
    (twoRateIterate f c n s).total = 1 / 2 ∧
      ∀ t, twoRateIterate f c n s t ≠ 0 → TwoRateGood n size val twoRateMax (twoRateMin n) t := by
  obtain ⟨m1, m2⟩ := few_mutates h4 hs
  have h1 := twoLoops_sure m1 m2 hs.solution.1 (Nat.div_le_self size 2) hs.population
  rw [twoRateIterate_eq, show s.population.size = size from hs.population.bvs]
  have hup := fun (r : Pop K) (hr : r.Valid size n) => twoRateUpdate_half hsize hr (max_lt_min (by omega) h8) (mid := s.population.size / 2)
    (ENNReal.half_le_self.trans hs.upper) (hs.lower.trans (le_double _))
  refine ⟨?_, fun t ht => ?_⟩
  · rw [total_bind_const h1.holds (r := 1 / 2), h1.total, one_mul]
    intro p hp
    have h2 := twoRateSelect_sure hf hc hsize hs.solution hp
    rw [twoRateRest_eq, total_bind_const h2.holds (r := 1 / 2), h2.total, one_mul]
    intro r hr
    rw [total_bind_const (P := fun _ => True) (fun _ _ => trivial) (fun _ _ => Dist.total_pure _), mul_one]
    exact (hup r.2 hr.2.1).1
  · obtain ⟨p, hp, ht⟩ := bind_support ht
    rw [twoRateRest_eq] at ht
    obtain ⟨r, hr, ht⟩ := bind_support ht
    obtain ⟨rate, hrate, ht⟩ := bind_support ht
    have h2 := (twoRateSelect_sure hf hc hsize hs.solution (h1.holds p hp)).holds r hr
    have h3 := (hup r.2 h2.2.1).2 rate hrate
    rw [pure_support ht]
    exact ⟨h2.1, h2.2.1, h3.1, h3.2⟩

theorem steps_total_pow {σ : Type} {iterate : σ → Dist σ} {I : σ → Prop} {r : ℝ≥0∞} (h1 : ∀ s, I s → (iterate s).total = r)
    (h2 : ∀ s, I s → ∀ t, iterate s t ≠ 0 → I t) : ∀ (t : ℕ) (s : σ), I s → (Dist.steps iterate t s).total = r ^ t := by
  intro t
  induction t with
  | zero =>
    intro s _
    change (pure s : Dist σ).total = _
    rw [Dist.total_pure, pow_zero]
  | succ t ih =>
    intro s hs
    change (iterate s >>= fun s => Dist.steps iterate t s).total = _
    rw [total_bind_const (h2 s hs) ih, h1 s hs, pow_succ, mul_comm]

/-- C114 (negative part): with four to seven bits and the default parameters, the two-rate (1+lambda) evolutionary algorithm is
undefined: the probability that `t` iterations have a defined behaviour is exactly `(1/2)^t`, whatever the function and the size of
the population. -/
theorem twoRate_undefined [Zero K] (hf : Evaluates f n val) (hc : c.Valid) (h4 : 4 ≤ n) (h8 : n < 8) (hsize : 0 < size) (allow : Bool)
    {t : ℕ} (ht : 0 < t) : (twoRateEa f c ⟨2 / (n : ℝ≥0∞), allow⟩ n size t).total = (1 / 2) ^ t := by
  obtain ⟨p, e, hp⟩ := popNew_ok (K := K) (n := n) (by omega) hsize
  unfold twoRateEa
  rw [e, Dist.lift_ok, Dist.pure_bind', run_eq ht]
  have hi := twoRateInit_sure (q := ⟨2 / (n : ℝ≥0∞), allow⟩) (lo := twoRateMax) (hi := twoRateMin n) hf (max_lt_min (by omega) h8).le (le_refl _) hp
  rw [total_bind_const (P := fun _ => True) (fun _ _ => trivial) (fun _ _ => Dist.total_pure _), mul_one,
    total_bind_const hi.holds (steps_total_pow (fun s hs => (few_iterate hf hc h4 h8 hsize hs).1) (fun s hs => (few_iterate hf hc h4 h8 hsize hs).2) t),
    hi.total, one_mul]

/-! ## Self-adjusting (1+1) evolutionary algorithm -/

/-- The state between two iterations. -/
structure AdjustGood (n : ℕ) (val : BV → K) (q : AdjustLaw) (s : AdjustLawState K) : Prop where
  candidate : s.nbh.candidate = s.nbh.origin
  length : s.nbh.origin.length = n
  value : s.solution.2 = val s.nbh.origin
  operator : s.operator.rate = s.rate
  lower : q.rateMin ≤ s.rate
  upper : s.rate ≤ q.rateMax

/-- What is assumed about the parameters. -/
structure AdjustLaw.Valid (q : AdjustLaw) : Prop where
  positive : 0 < q.rateMin
  first : q.rateMin ≤ q.rateInit
  last : q.rateInit ≤ q.rateMax
  proper : q.rateMax < 1
  strength : 1 ≤ q.strength
  ratio : 0 ≤ q.successRatio

/-- The state after an iteration which has flipped the bits `l`. -/
noncomputable def adjustNext (q : AdjustLaw) (n : ℕ) (val : BV → K) (s : AdjustLawState K) (l : List ℕ) (y : BV) : AdjustLawState K :=
  if val s.nbh.origin ≤ val y then
    ⟨(s.solution.1, val y), ⟨y, y, l⟩, s.operator.setMutationRate n (min (s.rate * q.coefficient) q.rateMax),
      min (s.rate * q.coefficient) q.rateMax⟩
  else
    ⟨s.solution, ⟨s.nbh.origin, s.nbh.origin, l⟩, s.operator.setMutationRate n (max (s.rate / q.strength) q.rateMin),
      max (s.rate / q.strength) q.rateMin⟩

theorem adjust_samples {q : AdjustLaw} (hq : q.Valid) (hn : 0 < n) {s : AdjustLawState K} (hs : AdjustGood n val q s) :
    (∀ l, s.operator.sampleBits n l ≠ 0 → Ascending 0 n l) ∧ (s.operator.sampleBits n).total = 1 :=
  standard_samples hn (by rw [hs.operator]; exact hs.upper.trans hq.proper.le)
    (by rw [hs.operator]; exact (hq.positive.trans_le hs.lower).ne')

theorem adjust_mutates {q : AdjustLaw} (hq : q.Valid) (hn : 0 < n) {s : AdjustLawState K} (hs : AdjustGood n val q s) :
    Mutates (s.operator.sampleBits n) n (min q.rateMin (1 - q.rateMax) ^ n) := by
  have e := hs.operator
  exact mutates_between hn (by rw [e]; exact hq.positive.trans_le hs.lower) (by rw [e]; exact hs.upper.trans hq.proper.le)
    (by rw [e]; exact (min_le_left _ _).trans hs.lower) (by rw [e]; exact (min_le_right _ _).trans (tsub_le_tsub_left hs.upper 1))

theorem adjustIterate_eq (hf : Evaluates f n val) {q : AdjustLaw} (hq : q.Valid) (hn : 0 < n) {s : AdjustLawState K} (hs : AdjustGood n val q s) :
    adjustIterate f q n s = (s.operator.sampleBits n >>= fun l => Dist.lift (bvFlipSparse s.nbh.origin l) >>= fun y =>
      pure (adjustNext q n val s l y)) := by
  unfold adjustIterate NbhState.propose
  rw [Dist.assert_bind (by rw [hs.candidate]; exact beq_self_eq_true _), Dist.bind_assoc']
  refine Dist.bind_congr_support (fun l hl => ?_)
  have ha : Ascending 0 s.nbh.origin.length l := by rw [hs.length]; exact (adjust_samples hq hn hs).1 l hl
  obtain ⟨y, hy, hlen, hget⟩ := bvFlipSparse_exact s.nbh.origin l ha.1 (fun i hi => by have := ha.2 i hi; omega)
  have hyn : y.length = n := hlen.trans hs.length
  rw [hs.candidate, hy]
  simp only [Dist.lift_ok, Dist.pure_bind']
  have hv : (if q.incremental && f.hasInc then Dist.lift (f.evalInc s.nbh.origin s.solution.2 l)
      else Dist.lift (f.eval y)) = (pure (val y) : Dist K) := by
    split
    · next h =>
      rw [Bool.and_eq_true] at h
      obtain ⟨w, hw, hw2⟩ := (hf.inc h.2).2 s.nbh.origin y (val s.nbh.origin) l (by rw [hf.size, hs.length])
        (by rw [hf.size, hyn]) ha.1 (fun i hi => by have := ha.2 i hi; rw [hf.size, ← hs.length]; omega) hget (hf.eval _ hs.length)
      rw [hf.eval y hyn] at hw2
      rw [hs.value, hw, Outcome.ok.inj hw2, Dist.lift_ok]
    · rw [hf.eval y hyn, Dist.lift_ok]
  rw [hv, Dist.pure_bind']
  unfold adjustRest adjustNext
  dsimp only
  rw [hs.value]
  by_cases h : val s.nbh.origin ≤ val y
  · rw [if_pos h, if_pos h]
    unfold NbhState.keep
    simp only [hy, Dist.lift_ok, Dist.pure_bind']
    rw [Dist.assert_bind (beq_self_eq_true _)]
    simp only [Dist.pure_bind']
  · rw [if_neg h, if_neg h]
    unfold NbhState.forget
    simp only [flip_back ha hy, Dist.lift_ok, Dist.pure_bind']
    rw [Dist.assert_bind (beq_self_eq_true _)]
    simp only [Dist.pure_bind']

theorem coefficient_ge {q : AdjustLaw} (hq : q.Valid) : 1 ≤ q.coefficient := by
  unfold AdjustLaw.coefficient
  rcases hq.ratio.eq_or_lt with h | h
  · rw [← h, ENNReal.rpow_zero]
  · exact ENNReal.one_le_rpow hq.strength h

theorem adjustNext_good {q : AdjustLaw} (hq : q.Valid) {s : AdjustLawState K} (hs : AdjustGood n val q s) (l : List ℕ) {y : BV}
    (hy : y.length = n) : AdjustGood n val q (adjustNext q n val s l y) ∧
      (IsMax n val (adjustNext q n val s l y).nbh.origin ↔ IsMax n val s.nbh.origin ∨ IsMax n val y) := by
  unfold adjustNext
  have hle : q.rateMin ≤ q.rateMax := hq.first.trans hq.last
  by_cases h : val s.nbh.origin ≤ val y
  · rw [if_pos h]
    refine ⟨⟨rfl, hy, rfl, setRate_rate _ _ _, le_min (hs.lower.trans ?_) hle, min_le_right _ _⟩, ⟨.inr, ?_⟩⟩
    · exact le_mul_of_one_le_right zero_le (coefficient_ge hq)
    · rintro (e | e)
      · exact isMax_of_le hy e h
      · exact e
  · rw [if_neg h]
    refine ⟨⟨rfl, hs.length, hs.value, setRate_rate _ _ _, le_max_right _ _, max_le (le_trans ?_ hs.upper) hle⟩, ⟨.inl, ?_⟩⟩
    · exact ENNReal.div_le_of_le_mul (le_mul_of_one_le_right zero_le hq.strength)
    · rintro (e | e)
      · exact e
      · exact isMax_of_le hs.length e (not_le.mp h).le

theorem adjustIterate_step (hf : Evaluates f n val) {q : AdjustLaw} (hq : q.Valid) (hn : 0 < n) {s : AdjustLawState K}
    (hs : AdjustGood n val q s) :
    Sure (adjustIterate f q n s) (AdjustGood n val q) ∧
    (adjustIterate f q n s).expect (missing (fun s => IsMax n val s.nbh.origin))
      ≤ (1 - min q.rateMin (1 - q.rateMax) ^ n) * missing (fun s : AdjustLawState K => IsMax n val s.nbh.origin) s := by
  have hm := adjust_mutates hq hn hs
  have hsam := adjust_samples hq hn hs
  have hpair : Sure (s.operator.sampleBits n >>= fun l => Dist.lift (bvFlipSparse s.nbh.origin l) >>= fun y => pure (l, y))
      (fun r => r.2.length = n) := by
    refine (⟨hsam.2, hsam.1⟩ : Sure _ (Ascending 0 n)).bind (fun l hl => ?_)
    have ha : Ascending 0 s.nbh.origin.length l := by rw [hs.length]; exact hl
    obtain ⟨y, hy, hlen, _⟩ := bvFlipSparse_exact s.nbh.origin l ha.1 (fun i hi => by have := ha.2 i hi; omega)
    rw [hy, Dist.lift_ok, Dist.pure_bind']
    exact Sure.pure (hlen.trans hs.length)
  have heq : adjustIterate f q n s = ((s.operator.sampleBits n >>= fun l => Dist.lift (bvFlipSparse s.nbh.origin l) >>= fun y =>
      pure (l, y)) >>= fun r : List ℕ × BV => pure (adjustNext q n val s r.1 r.2)) := by
    rw [adjustIterate_eq hf hq hn hs, Dist.bind_assoc']
    congr 1
    funext l
    rw [Dist.bind_assoc']
    congr 1
    funext y
    rw [Dist.pure_bind']
  rw [heq]
  refine ⟨hpair.bind (fun r hr => Sure.pure (adjustNext_good hq hs r.1 hr).1), ?_⟩
  rw [expect_after (found := fun s : AdjustLawState K => IsMax n val s.nbh.origin) hpair (hit := fun r => IsMax n val r.2)
    (old := IsMax n val s.nbh.origin)
    (fun r hr => Sure.pure (adjustNext_good hq hs r.1 hr).2)]
  refine missing_mul_le (fun h => ?_)
  obtain ⟨y, hy⟩ := max_exists n val
  refine le_trans (le_of_eq ?_) (one_sub_mass (hm.sure _ hs.length).total hy (hm.ge _ y hs.length hy.1 (fun e => h (e ▸ hy))))
  unfold mutate
  rw [Dist.expect_bind, Dist.expect_bind]
  refine Dist.expect_congr (fun l _ => ?_)
  rw [Dist.expect_bind]
  refine Dist.expect_congr (fun z _ => ?_)
  rw [Dist.expect_pure]
  unfold missing
  rfl

theorem adjustInit_sure (hf : Evaluates f n val) {q : AdjustLaw} (hq : q.Valid) : Sure (adjustInit f q n) (AdjustGood n val q) := by
  unfold adjustInit
  refine (randomSolution_sure hf).bind (fun s hs => Sure.pure ⟨rfl, hs.1, hs.2, ?_, hq.first, hq.last⟩)
  exact setRate_rate _ _ _

theorem adjustInit_le (hf : Evaluates f n val) (q : AdjustLaw) :
    (adjustInit f q n).expect (missing (fun s => IsMax n val s.nbh.origin)) ≤ 1 - ((2 : ℝ≥0∞) ^ n)⁻¹ := by
  unfold adjustInit
  rw [Dist.expect_bind]
  refine le_trans (le_of_eq ?_) (randomBits_le (val := val) (List.replicate n false) (by simp))
  rw [← randomSolution_expect hf (IsMax n val)]
  refine Dist.expect_congr (fun s _ => ?_)
  rw [Dist.expect_pure]
  rfl

theorem margins_le_uniform {a b : ℝ≥0∞} (h : a ≤ b) (n : ℕ) : min a (1 - b) ^ n ≤ ((2 : ℝ≥0∞) ^ n)⁻¹ :=
  (pow_le_pow_left' (min_le_min_left _ (tsub_le_tsub_left h 1)) n).trans (min_pow_le (p := a) n)

/-- C114: the self-adjusting (1+1) evolutionary algorithm finds a maximum of any function, with full or incremental evaluation: with
`c = min(a, 1 - b)^n` for the bounds `a` and `b` of the mutation rate, the probability that it has not been found after `t` iterations
is at most `(1 - c)^(t + 1)`. -/
theorem adjust_converges (hf : Evaluates f n val) (hn : 0 < n) {q : AdjustLaw} (hq : q.Valid) {t : ℕ} (ht : 0 < t) :
    missProb (adjustEa f q n t) (IsMax n val) ≤ (1 - min q.rateMin (1 - q.rateMax) ^ n) ^ (t + 1) := by
  unfold adjustEa
  refine (run_miss_le (solution := fun s : AdjustLawState K => (s.nbh.origin, s.solution.2)) (found := IsMax n val) (I := AdjustGood n val q)
    (adjustInit_sure hf hq) (fun s hs => (adjustIterate_step hf hq hn hs).1)
    ((adjustInit_le hf q).trans (tsub_le_tsub_left (margins_le_uniform (hq.first.trans hq.last) n) 1))
    (fun s hs => (adjustIterate_step hf hq hn hs).2) ht).trans (le_of_eq ?_)
  rw [← pow_succ]

/-- C114: the solution it returns comes with its value. -/
theorem adjust_value (hf : Evaluates f n val) (hn : 0 < n) {q : AdjustLaw} (hq : q.Valid) {t : ℕ} (ht : 0 < t) :
    (adjustEa f q n t).total = 1 ∧ ∀ s, adjustEa f q n t s ≠ 0 → s.1.length = n ∧ s.2 = val s.1 := by
  unfold adjustEa
  rw [run_eq ht]
  have h := ((adjustInit_sure hf hq).bind (fun s hs => sure_steps (fun s hs => (adjustIterate_step hf hq hn hs).1) t s hs)).bind
    (f := fun s => pure (s.nbh.origin, s.solution.2)) (Q := fun s => s.1.length = n ∧ s.2 = val s.1)
    (fun s hs => Sure.pure ⟨hs.length, hs.value⟩)
  exact ⟨h.total, h.holds⟩

/-- C114: the default parameters are within the hypotheses when there are at least two bits. -/
theorem adjustDefault_valid (hn : 2 ≤ n) : (AdjustLaw.default n).Valid := by
  have h0 : (n : ℝ≥0∞) ≠ 0 := by exact_mod_cast (by omega : n ≠ 0)
  have ht : (n : ℝ≥0∞) ≠ ∞ := ENNReal.natCast_ne_top n
  have h2 : (2 : ℝ≥0∞) ≤ n := by exact_mod_cast hn
  unfold AdjustLaw.default
  refine ⟨?_, ?_, ?_, ?_, ?_, ?_⟩
  · dsimp only
    rw [one_div]
    exact ENNReal.inv_pos.mpr (ENNReal.mul_ne_top ht ht)
  · exact ENNReal.div_le_div_left (le_mul_of_one_le_right zero_le (le_trans (by norm_num) h2)) 1
  · exact ENNReal.div_le_div_left h2 1
  · dsimp only
    rw [one_div]
    exact ENNReal.inv_lt_one.mpr (by norm_num)
  · exact le_self_add
  · norm_num

/-- C114: the algorithms which adjust their mutation rate find a maximum with probability one. -/
theorem adaptive_find [Zero K] (hf : Evaluates f n val) (hc : c.Valid) :
    (∀ q : TwoRateLaw, 8 ≤ n → 0 < size → 2 / (n : ℝ≥0∞) ≤ q.rateInit → q.rateInit ≤ 1 / 4 →
      Filter.Tendsto (fun t : ℕ => missProb (twoRateEa f c q n size (t + 1 : ℕ)) (IsMax n val)) Filter.atTop (nhds 0)) ∧
    (∀ q : AdjustLaw, 0 < n → q.Valid →
      Filter.Tendsto (fun t : ℕ => missProb (adjustEa f q n (t + 1 : ℕ)) (IsMax n val)) Filter.atTop (nhds 0)) := by
  refine ⟨fun q hn hsize h1 h2 => tendsto_of_le_pow (one_sub_lt (margin_pos n)) (e := fun t => size * (t + 1) + 1) (fun t => ?_)
      (fun t => twoRate_converges hf hc hn hsize h1 h2 (Nat.succ_pos t)),
    fun q hn hq => tendsto_of_le_pow (one_sub_lt (z := min q.rateMin (1 - q.rateMax) ^ n) ?_) (e := fun t => t + 1 + 1) (fun t => by omega)
      (fun t => adjust_converges hf hn hq (Nat.succ_pos t))⟩
  · exact (le_mul_pos hsize).trans (by rw [mul_add]; omega)
  · exact pos_iff_ne_zero.mpr (pow_ne_zero _ (lt_min hq.positive (tsub_pos_of_lt hq.proper)).ne')

/-! ## Examples -/

/-- The two-rate (1+5) evolutionary algorithm on one max with ten bits and the default parameters. -/
example (t : ℕ) : missProb (twoRateEa (oneMax 10) (someChoices ℤ) ⟨2 / (10 : ℕ), false⟩ 10 (5 : ℕ) (t + 1 : ℕ))
    (fun x => x = List.replicate 10 true) ≤ (1 - ((10 : ℕ) : ℝ≥0∞)⁻¹ ^ 10) ^ (5 * (t + 1) + 1) := by
  have h := twoRate_converges (oneMax_evaluates 10) (someChoices_valid ℤ) (by norm_num) (size := 5) (by norm_num)
    (q := ⟨2 / (10 : ℕ), false⟩) (le_refl _) (min_le_max (n := 10) (by norm_num)) (Nat.succ_pos t)
  rw [show IsMax 10 (fun x => (ones x : ℤ)) = fun x => x = List.replicate 10 true from funext (fun x => propext (oneMax_found 10 x))] at h
  exact h

/-- With five bits, three iterations are defined with probability `1/8` only. -/
example : (twoRateEa (oneMax 5) (someChoices ℤ) ⟨2 / (5 : ℕ), false⟩ 5 (4 : ℕ) (3 : ℕ)).total = (1 / 2) ^ 3 :=
  twoRate_undefined (oneMax_evaluates 5) (someChoices_valid ℤ) (by norm_num) (by norm_num) (by norm_num) false (by norm_num)

/-- The self-adjusting (1+1) evolutionary algorithm on one max with ten bits and the default parameters. -/
example : Filter.Tendsto (fun t : ℕ => missProb (adjustEa (oneMax 10) (AdjustLaw.default 10) 10 (t + 1 : ℕ))
    (IsMax 10 (fun x => (ones x : ℤ)))) Filter.atTop (nhds 0) :=
  (adaptive_find (size := 1) (oneMax_evaluates 10) (someChoices_valid ℤ)).2 _ (by norm_num) (adjustDefault_valid (by norm_num))

end Hnco.Prob
