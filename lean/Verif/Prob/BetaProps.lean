import Verif.Prob.BetaLemmas
import Verif.Prob.WalkProps

/-!
# The initial temperature of simulated annealing
-/

namespace Hnco.Prob

open Outcome
open scoped ENNReal

variable {d : Dist (List ℕ)} {n : ℕ} {f g : Fn ℝ} {val : BV → ℝ}

/-! ## The law of the inverse temperature -/

/-- C126: the law of the inverse temperature computed by `init_beta` is that obtained from independent trials, each of them being
made of a uniform vector and of the result of flipping in it the bits sampled by the neighbourhood: the logarithm of the initial
acceptance probability over the mean loss of the trials which lead to a worse vector, and NaN if there is no such trial. -/
theorem initBeta_law (hd : BitSampler d n) (hf : Evaluates f n val) {q : BetaParams} (hq : 0 < q.initialAcceptance) (nbh : NbhState)
    {s : BV × ℝ} (hs : s.1.length = n) :
    betaLaw (initBeta q d f nbh s) = (trialsLaw n d q.numTrials.toNat >>= fun l =>
      pure (if losses val l = [] then none else some (Real.log q.initialAcceptance / listMean (losses val l)))) := by
  unfold betaLaw initBeta
  simp only [Dist.bind_assoc', Dist.pure_bind']
  simp only [Dist.assert_bind (decide_eq_true hq)]
  unfold Dist.forRange
  have := betaLoop_law hd hf (fun u : ℝ × ℕ => (pure (betaOf q.initialAcceptance u.1 u.2) : Dist (Option ℝ))) q.numTrials.toNat 0
    ⟨s.1, nbh, s, 0, 0⟩ hs
  rw [Nat.sub_zero]
  dsimp only at this
  rw [this]
  congr 1
  funext l
  rw [addLoss_fold]
  dsimp only
  rw [zero_add, zero_add]
  unfold betaOf listMean
  congr 1
  simp only [List.length_eq_zero_iff]

/-- C126: if some trial leads to a worse vector then the inverse temperature fits the trials: a loss equal to their mean loss is
accepted with the initial acceptance probability.  It is the only one, and it is positive, zero or negative according to whether
that probability is less than, equal to or greater than one. -/
theorem beta_fits {q : ℝ} (hq : 0 < q) {l : List (BV × BV)} (hl : losses val l ≠ []) :
    (∀ beta, FitsTrials val q l beta ↔ beta = Real.log q / listMean (losses val l)) ∧ listMean (losses val l) < 0 ∧
    (q < 1 → 0 < Real.log q / listMean (losses val l)) ∧ (q = 1 → Real.log q / listMean (losses val l) = 0) ∧
    (1 < q → Real.log q / listMean (losses val l) < 0) := by
  have hneg : ∀ x ∈ losses val l, x < 0 := by
    intro x hx
    unfold losses at hx
    exact of_decide_eq_true (List.mem_filter.mp hx).2
  have hsum : (losses val l).sum < 0 := by
    revert hl hneg
    generalize losses val l = m
    intro hm hneg
    induction m with
    | nil => exact absurd rfl hm
    | cons a m ih =>
      rw [List.sum_cons]
      have ha := hneg a (by simp)
      by_cases h : m = []
      · rw [h]; simpa using ha
      · exact add_neg ha (ih h (fun x hx => hneg x (by simp [hx])))
  have hlen : (0 : ℝ) < (losses val l).length := by
    exact_mod_cast List.length_pos_of_ne_nil hl
  have hmean : listMean (losses val l) < 0 := div_neg_of_neg_of_pos hsum hlen
  refine ⟨fun beta => ?_, hmean, fun h => div_pos_of_neg_of_neg (Real.log_neg hq h) hmean, fun h => by rw [h, Real.log_one, zero_div],
    fun h => div_neg_of_pos_of_neg (Real.log_pos h) hmean⟩
  unfold FitsTrials
  rw [eq_div_iff hmean.ne, mul_comm beta]
  constructor
  · intro h
    rw [← h, Real.log_exp]
  · intro h
    rw [h, Real.exp_log hq]

open Classical in
/-- C126 (negative part): the inverse temperature is NaN if no trial leads to a worse vector.  Since trials are independent, the
probability of this is a power of the probability that a trial does not. -/
theorem beta_nan (hd : BitSampler d n) (hf : Evaluates f n val) {q : BetaParams} (hq : 0 < q.initialAcceptance) (nbh : NbhState)
    {s : BV × ℝ} (hs : s.1.length = n) :
    betaLaw (initBeta q d f nbh s) none = (1 - (trialLaw n d).prob (fun r => val r.2 < val r.1)) ^ q.numTrials.toNat := by
  rw [initBeta_law hd hf hq nbh hs, Dist.bind_apply]
  have h1 : (trialLaw n d).prob (fun r => ¬ val r.2 < val r.1) = 1 - (trialLaw n d).prob (fun r => val r.2 < val r.1) := by
    have h := Dist.prob_add_not (trialLaw n d) (fun r => val r.2 < val r.1)
    rw [trial_total hd] at h
    have hnot : (trialLaw n d).prob (fun r => ¬ val r.2 < val r.1) = (trialLaw n d).expect (fun r => if val r.2 < val r.1 then 0 else 1) := by
      rw [Dist.prob_expect]
      exact Dist.expect_congr (fun r _ => by split <;> simp_all)
    rw [hnot]
    refine ENNReal.eq_sub_of_add_eq ?_ (by rw [add_comm]; exact h)
    exact ne_top_of_le_ne_top ENNReal.one_ne_top (le_of_le_of_eq le_self_add h)
  rw [← h1, ← trials_none]
  unfold Dist.expect
  refine tsum_congr (fun l => ?_)
  rw [Dist.pure_apply]
  congr 1
  dsimp only
  by_cases h : losses val l = []
  · rw [if_pos h, if_pos h, if_pos rfl]
  · rw [if_neg h, if_neg h, if_neg (by simp)]

open Classical in
/-- C126 (negative part): a trial leads to a worse vector with probability at most one half, whatever the function.  Hence the
inverse temperature is NaN with probability at least two to the minus the number of trials. -/
theorem beta_nan_ge (hd : BitSampler d n) (hf : Evaluates f n val) {q : BetaParams} (hq : 0 < q.initialAcceptance) (nbh : NbhState)
    {s : BV × ℝ} (hs : s.1.length = n) :
    (trialLaw n d).prob (fun r => val r.2 < val r.1) ≤ 2⁻¹ ∧
    (2⁻¹ : ℝ≥0∞) ^ q.numTrials.toNat ≤ betaLaw (initBeta q d f nbh s) none := by
  have h : (trialLaw n d).prob (fun r => val r.2 < val r.1) ≤ 2⁻¹ := by
    have hswap : (trialLaw n d).prob (fun r => val r.2 < val r.1) = (trialLaw n d).prob (fun r => val r.1 < val r.2) := by
      unfold Dist.prob
      rw [← (Equiv.prodComm BV BV).tsum_eq]
      refine tsum_congr (fun r => ?_)
      change (if val r.1 < val r.2 then trialLaw n d (r.2, r.1) else 0) = _
      rw [trial_swap hd]
    have hadd : (trialLaw n d).prob (fun r => val r.2 < val r.1) + (trialLaw n d).prob (fun r => val r.2 < val r.1) ≤ 1 := by
      rw [← trial_total hd]
      nth_rewrite 2 [hswap]
      unfold Dist.prob Dist.total
      rw [← ENNReal.tsum_add]
      refine ENNReal.tsum_le_tsum (fun r => ?_)
      by_cases h1 : val r.2 < val r.1
      · rw [if_pos h1, if_neg (not_lt.mpr h1.le), add_zero]
      · rw [if_neg h1, zero_add]
        split
        · exact le_refl _
        · exact zero_le
    rw [← two_mul] at hadd
    rw [← one_div, ENNReal.le_div_iff_mul_le (by simp) (by simp), mul_comm]
    exact hadd
  refine ⟨h, ?_⟩
  rw [beta_nan hd hf hq nbh hs]
  refine pow_le_pow_left' ?_ _
  calc (2⁻¹ : ℝ≥0∞) = 1 - 2⁻¹ := ENNReal.one_sub_inv_two.symm
    _ ≤ _ := tsub_le_tsub_left h 1

open Classical in
/-- C126 (negative part): if all vectors have the same value except one, which is better, and if the neighbourhood always flips
some bit, then a trial leads to a worse vector only if its uniform vector is the best one.  The inverse temperature is NaN with
probability the power of `1 - 2 ^ (- n)`, which is close to one unless there are about `2 ^ n` trials. -/
theorem beta_nan_needle (hd : BitSampler d n) (hmove : d [] = 0) {z : BV} (hz : z.length = n) {lo hi : ℝ} (hlo : lo < hi)
    (hf : Evaluates f n (fun x => if x = z then hi else lo)) {q : BetaParams} (hq : 0 < q.initialAcceptance) (nbh : NbhState)
    {s : BV × ℝ} (hs : s.1.length = n) :
    betaLaw (initBeta q d f nbh s) none = (1 - ((2 : ℝ≥0∞) ^ n)⁻¹) ^ q.numTrials.toNat := by
  rw [beta_nan hd hf hq nbh hs]
  congr 2
  have hdiff : mutate d z z = 0 := by
    rw [mutate_apply (fun l hl => by rw [hz]; exact hd.support l hl), if_pos rfl]
    have : differences z z = [] := List.length_eq_zero_iff.mp ((distance_zero rfl).mpr rfl)
    rw [this, hmove]
  rw [Dist.prob_expect]
  unfold trialLaw
  rw [Dist.expect_bind]
  have h1 : ∀ x : BV, (mutate d x >>= fun y => (pure (x, y) : Dist (BV × BV))).expect
      (fun r => if (if r.2 = z then hi else lo) < (if r.1 = z then hi else lo) then (1 : ℝ≥0∞) else 0)
      = if x = z then 1 else 0 := by
    intro x
    rw [Dist.expect_bind]
    by_cases hx : x = z
    · subst hx
      rw [if_pos rfl]
      have : (mutate d x).expect (fun y => (pure (x, y) : Dist (BV × BV)).expect
          (fun r => if (if r.2 = x then hi else lo) < (if r.1 = x then hi else lo) then (1 : ℝ≥0∞) else 0))
          = (mutate d x).expect (fun _ => 1) := by
        refine Dist.expect_congr (fun y hy => ?_)
        have hne : y ≠ x := by
          rintro rfl
          exact hy hdiff
        rw [Dist.expect_pure]
        dsimp only
        rw [if_neg hne, if_pos rfl, if_pos hlo]
      rw [this, Dist.expect_const, mutate_one hd hz, one_mul]
    · rw [if_neg hx]
      have : (mutate d x).expect (fun y => (pure (x, y) : Dist (BV × BV)).expect
          (fun r => if (if r.2 = z then hi else lo) < (if r.1 = z then hi else lo) then (1 : ℝ≥0∞) else 0))
          = (mutate d x).expect (fun _ => 0) := by
        refine Dist.expect_congr (fun y hy => ?_)
        rw [Dist.expect_pure]
        dsimp only
        rw [if_neg hx, if_neg]
        split
        · exact not_lt.mpr hlo.le
        · exact lt_irrefl _
      rw [this, Dist.expect_const, mul_zero]
  have h2 : ((uniformLaw n).expect fun x => if x = z then 1 else 0) = uniformLaw n z := by
    unfold Dist.expect
    rw [tsum_eq_single z]
    · dsimp only
      rw [if_pos rfl, mul_one]
    · intro x hx
      dsimp only
      rw [if_neg hx, mul_zero]
  simp only [h1, h2]
  exact if_pos hz

/-! ## Initialization -/

/-- C126: the initialization of simulated annealing always ends.  It leaves the algorithm at the best vector seen, which is not
worse than the starting point; the law of the inverse temperature is the one above. -/
theorem fullSaInit_starts (hd : BitSampler d n) (hf : Evaluates f n val) {q : BetaParams} (hq : 0 < q.initialAcceptance) {p : StartParams}
    (hp : p.randomInitialization = false → p.startingPoint.length = n) :
    (fullSaInit p q d f n).total = 1 ∧
    (∀ s, fullSaInit p q d f n s ≠ 0 → Starting n val s ∧ (p.randomInitialization = false → val p.startingPoint ≤ s.value)) ∧
    (fullSaInit p q d f n >>= fun s => pure s.beta) = (trialsLaw n d q.numTrials.toNat >>= fun l =>
      pure (if losses val l = [] then none else some (Real.log q.initialAcceptance / listMean (losses val l)))) := by
  have h0 : Sure (if p.randomInitialization then randomSolution f (List.replicate n false) else (do
      let v ← Dist.lift (f.eval p.startingPoint)
      pure (p.startingPoint, v) : Dist (BV × ℝ)))
      (fun s => s.1.length = n ∧ s.2 = val s.1 ∧ (p.randomInitialization = false → val p.startingPoint ≤ s.2)) := by
    by_cases h : p.randomInitialization = true
    · rw [if_pos h]
      exact (randomSolution_sure hf).mono (fun s hs => ⟨hs.1, hs.2, fun h' => by rw [h] at h'; cases h'⟩)
    · rw [if_neg h, hf.eval _ (hp (by simpa using h)), Dist.lift_ok, Dist.pure_bind']
      exact Sure.pure ⟨hp (by simpa using h), rfl, fun _ => le_refl _⟩
  have hall : Sure (fullSaInit p q d f n) (fun s => Starting n val s ∧ (p.randomInitialization = false → val p.startingPoint ≤ s.value)) := by
    unfold fullSaInit
    refine h0.bind (fun s hs => ?_)
    refine Sure.bind (P := fun u : BetaState × Option ℝ => u.1.solution.1.length = n ∧ u.1.solution.2 = val u.1.solution.1 ∧
      (p.randomInitialization = false → val p.startingPoint ≤ u.1.solution.2)) ?_ (fun u hu => Sure.pure
        ⟨⟨hu.1, hu.2.1, rfl, rfl, rfl, rfl⟩, hu.2.2⟩)
    unfold initBeta
    refine Sure.bind (P := fun u : BetaState => u.bv.length = n ∧ u.solution.1.length = n ∧ u.solution.2 = val u.solution.1 ∧
      (p.randomInitialization = false → val p.startingPoint ≤ u.solution.2)) ?_ (fun u hu => ?_)
    · refine Sure.forRange (I := fun _ (u : BetaState) => u.bv.length = n ∧ u.solution.1.length = n ∧ u.solution.2 = val u.solution.1 ∧
        (p.randomInitialization = false → val p.startingPoint ≤ u.solution.2)) ⟨hs.1, hs.1, hs.2.1, hs.2.2⟩ (fun _ u _ hu => ?_)
      exact betaTrial_sure hd hf hu.1 hu.2
    · rw [Dist.assert_bind (decide_eq_true hq)]
      exact Sure.pure hu.2
  refine ⟨hall.total, hall.holds, ?_⟩
  unfold fullSaInit
  simp only [Dist.bind_assoc', Dist.pure_bind']
  have h := fun s hs => initBeta_law hd hf hq ⟨List.replicate n false, List.replicate n false, []⟩ (s := s) hs
  unfold betaLaw at h
  rw [Dist.bind_congr_support (fun s hs => h s (h0.holds s hs).1)]
  refine Dist.ext (fun b => ?_)
  rw [Dist.bind_apply, ENNReal.tsum_mul_right]
  have := h0.total
  unfold Dist.total at this
  rw [this, one_mul]

/-! ## Iterations -/

/-- C126: when the inverse temperature is a number, iterations are those of claim C112. -/
theorem fullSa_number (p : SaParams) (f : Fn ℝ) (s : SaState) :
    fullSaIterate p f s.full = (saIterate p f s >>= fun t => pure t.full) := by
  have hcool : ∀ t : SaState, fullSaCool p t.full = (saCool p t).full := by
    intro t
    unfold fullSaCool saCool SaState.full
    dsimp only
    split <;> rfl
  have hacc : ∀ (v : ℝ) (s : SaState), fullSaAccept v s.full = (saAccept v s >>= fun t => pure t.full) := by
    intro v s
    unfold fullSaAccept saAccept
    by_cases h : s.value ≤ v
    · rw [if_pos h, if_pos (show s.full.value ≤ v from h), Dist.bind_assoc']
      refine Dist.bind_congr_support (fun nbh _ => ?_)
      rw [Dist.pure_bind']
      unfold SaState.full keepBest
      congr 1
    · rw [if_neg h, if_neg (show ¬ s.full.value ≤ v from h), Dist.bind_assoc']
      refine Dist.bind_congr_support (fun b _ => ?_)
      cases b with
      | true =>
        rw [if_pos rfl, if_pos rfl, Dist.bind_assoc']
        exact Dist.bind_congr_support (fun nbh _ => by rw [Dist.pure_bind']; rfl)
      | false =>
        rw [if_neg (by decide), if_neg (by decide), Dist.bind_assoc']
        exact Dist.bind_congr_support (fun nbh _ => by rw [Dist.pure_bind']; rfl)
  unfold fullSaIterate saIterate
  simp only [Dist.bind_assoc', Dist.pure_bind']
  refine Dist.bind_congr_support (fun nbh _ => Dist.bind_congr_support (fun v _ => ?_))
  have := hacc v { s with nbh := nbh }
  change (fullSaAccept v (SaState.full { s with nbh := nbh }) >>= _) = _
  rw [this, Dist.bind_assoc']
  refine Dist.bind_congr_support (fun t _ => ?_)
  rw [Dist.pure_bind', hcool]

/-- C126 (negative part): when the inverse temperature is NaN, simulated annealing never accepts a worse vector, and the inverse
temperature remains NaN whatever the number of iterations. -/
theorem nan_climbs {p : SaParams} (t : ℕ) : ∀ {s u : FullSa}, s.beta = none →
    boundedLoop (fun _ => false) (fullSaIterate p f) t s u ≠ 0 → u.beta = none ∧ s.value ≤ u.value := by
  induction t with
  | zero =>
    intro s u hs hu
    have : u = s := pure_support hu
    rw [this]
    exact ⟨hs, le_refl _⟩
  | succ t ih =>
    intro s u hs hu
    obtain ⟨w, hw, hu⟩ := bind_support hu
    suffices h : w.beta = none ∧ s.value ≤ w.value from ⟨(ih h.1 hu).1, h.2.trans (ih h.1 hu).2⟩
    obtain ⟨nbh, _, hw⟩ := bind_support hw
    obtain ⟨v, _, hw⟩ := bind_support hw
    obtain ⟨a, ha, hw⟩ := bind_support hw
    rw [pure_support hw]
    suffices h : a.beta = none ∧ s.value ≤ a.value by
      unfold fullSaCool
      split
      · exact ⟨by dsimp only; rw [h.1]; rfl, h.2⟩
      · exact h
    unfold fullSaAccept at ha
    dsimp only at ha
    split at ha
    · next hle =>
      obtain ⟨nbh', _, ha⟩ := bind_support ha
      rw [pure_support ha]
      exact ⟨hs, hle⟩
    · rw [hs] at ha
      change ((pure false >>= _ : Dist FullSa) a) ≠ 0 at ha
      rw [Dist.pure_bind', if_neg (by decide)] at ha
      obtain ⟨nbh', _, ha⟩ := bind_support ha
      rw [pure_support ha]
      exact ⟨rfl, le_refl _⟩

/-! ## Scale of the values -/

/-- C126: simulated annealing does not depend on the scale of the function.  If all values are multiplied by a positive number and
increased by a constant then the run, `init_beta` and any number of iterations, has the same law: the same vectors, the values
changed accordingly, and the temperature multiplied by that number. -/
theorem annealing_scale {c e : ℝ} (hc : 0 < c) (hg : ∀ x, g.eval x = (f.eval x >>= fun v => ok (c * v + e))) (start : StartParams)
    (q : BetaParams) (p : SaParams) (t : ℕ) :
    fullSa start q p g n t = (fullSa start q p f n t >>= fun s => pure (s.rescale c e)) := by
  unfold fullSa
  rw [fullSaInit_rescale hc hg, Dist.bind_assoc']
  congr 1
  funext s
  exact fullSaLoop_rescale hc hg p t s

/-! ## Examples -/

/-- The hypotheses of the theorems about the law of the inverse temperature. -/
example (nbh : NbhState) : betaLaw (initBeta ⟨100, 3 / 5⟩ (singleBitFlip 3) (realOnes 3) nbh ([true, false, true], 2))
    = (trialsLaw 3 (singleBitFlip 3) 100 >>= fun l => pure (if losses (fun x => (ones x : ℝ)) l = [] then none
      else some (Real.log (3 / 5) / listMean (losses (fun x => (ones x : ℝ)) l)))) :=
  initBeta_law (n := 3) (neighborhoods_sample (by decide)).1 (realOnes_evaluates 3) (q := ⟨100, 3 / 5⟩) (by norm_num) nbh (by rfl)

example : losses (fun x => (ones x : ℝ)) [([true, true], [false, true]), ([true, false], [true, true])] ≠ [] := by
  have h : losses (fun x => (ones x : ℝ)) [([true, true], [false, true]), ([true, false], [true, true])] = [-1] := by
    unfold losses
    simp [ones]
    norm_num
  rw [h]
  simp

example (nbh : NbhState) : (2⁻¹ : ℝ≥0∞) ^ 100
    ≤ betaLaw (initBeta ⟨100, 3 / 5⟩ (singleBitFlip 3) (realOnes 3) nbh ([true, false, true], 2)) none :=
  (beta_nan_ge (n := 3) (neighborhoods_sample (by decide)).1 (realOnes_evaluates 3) (q := ⟨100, 3 / 5⟩) (by norm_num) nbh (by rfl)).2

example : (fullSaInit ⟨false, [true, false, true]⟩ ⟨100, 3 / 5⟩ (singleBitFlip 3) (realOnes 3) 3).total = 1 :=
  (fullSaInit_starts (n := 3) (neighborhoods_sample (by decide)).1 (realOnes_evaluates 3) (q := ⟨100, 3 / 5⟩) (by norm_num)
    (fun _ => by rfl)).1

/-- A peak. -/
noncomputable def peakReal (n : ℕ) (z : BV) : Fn ℝ := ⟨n, false, ub, fun x => ok (if x = z then 1 else 0), false, fun _ v _ => ok v⟩

example (nbh : NbhState) : betaLaw (initBeta ⟨100, 3 / 5⟩ (singleBitFlip 20) (peakReal 20 (List.replicate 20 true)) nbh
    (List.replicate 20 false, 0)) none = (1 - ((2 : ℝ≥0∞) ^ 20)⁻¹) ^ 100 :=
  beta_nan_needle (n := 20) (neighborhoods_sample (by decide)).1 (by
    by_contra h
    obtain ⟨i, _, hi⟩ := bind_support h
    cases pure_support hi) (z := List.replicate 20 true) (by simp) (lo := 0) (hi := 1) (by norm_num)
    ⟨rfl, fun _ _ => rfl, fun h => by cases h⟩ (q := ⟨100, 3 / 5⟩) (by norm_num) nbh (by simp)

/-- A state without temperature, from which the vector may be improved. -/
example (u : FullSa) (h : boundedLoop (fun _ => false) (fullSaIterate exampleParams (realOnes 3)) 50
    ⟨⟨[true, false, true], [true, false, true], []⟩, ([true, false, true], 2), 2, none, 0⟩ u ≠ 0) : 2 ≤ u.value :=
  (nan_climbs 50 rfl h).2

example (start : StartParams) (q : BetaParams) (p : SaParams) (t : ℕ) :
    fullSa start q p ⟨3, false, ub, fun x => ok (2 * (ones x : ℝ) + 5), false, fun _ v _ => ok v⟩ 3 t
      = (fullSa start q p (realOnes 3) 3 t >>= fun s => pure (s.rescale 2 5)) :=
  annealing_scale (by norm_num) (fun _ => rfl) start q p t

end Hnco.Prob
