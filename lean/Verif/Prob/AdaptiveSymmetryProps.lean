import Verif.Prob.AdaptiveProps
import Verif.Prob.UnbiasedProps

/-!
# Algorithms which adjust their mutation rate are invariant under the symmetries of the hypercube (C123)
-/

namespace Hnco.Prob

open Outcome
open scoped ENNReal

variable {K : Type} [LinearOrder K] {n size : ℕ} {σ : Symmetry n} {f g : Fn K} {val val' : BV → K} {c : Choices K}

theorem rate_setMutationRate (m : StandardBitMutation) (p : ℝ≥0∞) : (m.setMutationRate n p).rate = p := by
  unfold StandardBitMutation.setMutationRate
  split <;> rfl

theorem setMutationRate_fair (hn : 0 < n) (m : StandardBitMutation) {p : ℝ≥0∞} (hp : p ≤ 1) : Fair ((m.setMutationRate n p).sampleBits n) n :=
  standardBitMutation_fair hn (by rw [rate_setMutationRate]; exact hp)

theorem Paired.restrict {α β : Type} {R : α → β → Prop} {P : α → Prop} {d : Dist α} {e : Dist β} (h : Paired R d e) (hd : ∀ a, d a ≠ 0 → P a) :
    Paired (fun a b => R a b ∧ P a) d e := by
  classical
  obtain ⟨c, h1, h2, h3⟩ := h
  refine ⟨c, h1, h2, fun p hp => ⟨h3 p hp, hd _ (fun h0 => hp ?_)⟩⟩
  rw [← h1, Dist.bind_apply, ENNReal.tsum_eq_zero] at h0
  have := h0 p
  rwa [Dist.pure_apply, if_pos rfl, mul_one] at this

/-! ## Two rates -/

/-- Related states. -/
structure TwoRateR (n : ℕ) (σ : Symmetry n) (size : ℕ) (s s' : TwoRateLawState K) : Prop where
  solution : SolR n σ s.solution s'.solution
  population : RoughR n σ size 0 s.population s'.population
  operator : s'.operator = s.operator
  rate : s'.rate = s.rate
  bound : s.rate ≤ 2⁻¹

theorem mapOffspring_paired {d : Dist (List ℕ)} (hd : Fair d n) {x : BV} (hx : x.length = n) {j : ℕ} (hj : j < size) {p p' : Pop K}
    (hp : RoughR n σ size j p p') : Paired (RoughR n σ size (j + 1)) (mapOffspring d x j p) (mapOffspring d (σ.act x) j p') := by
  unfold mapOffspring
  refine (mutate_paired hd hx).bind (fun y y' hy => ?_)
  obtain ⟨hy, rfl⟩ := hy
  rw [vset_eq (by rw [hp.valid.bvs]; exact hj), vset_eq (by rw [hp.valid'.bvs]; exact hj), Dist.lift_ok, Dist.lift_ok, Dist.pure_bind', Dist.pure_bind']
  exact Paired.pure (hp.step hj hy)

theorem half_le {r : ℝ≥0∞} (h : r ≤ 2⁻¹) : r / 2 ≤ 1 := (ENNReal.half_le_self).trans (h.trans (by simp))

theorem double_le {r : ℝ≥0∞} (h : r ≤ 2⁻¹) : r * 2 ≤ 1 := by
  calc r * 2 ≤ 2⁻¹ * 2 := by gcongr
    _ = 1 := ENNReal.inv_mul_cancel (by simp) (by simp)

theorem quarter_le : twoRateMax ≤ (2⁻¹ : ℝ≥0∞) := by
  unfold twoRateMax
  rw [one_div, ENNReal.inv_le_inv]
  norm_num

theorem min_le_half (hn : 4 ≤ n) : twoRateMin n ≤ (2⁻¹ : ℝ≥0∞) := by
  unfold twoRateMin
  have h4 : (4 : ℝ≥0∞) ≤ n := by exact_mod_cast hn
  calc (2 : ℝ≥0∞) / n ≤ 2 / 4 := ENNReal.div_le_div_left h4 2
    _ = 2⁻¹ := by
      rw [show (4 : ℝ≥0∞) = 2 * 2 by norm_num, ENNReal.div_eq_inv_mul, ENNReal.mul_inv (by simp) (by simp), mul_assoc,
        ENNReal.inv_mul_cancel (by simp) (by simp), mul_one]

theorem twoRateUpdate_paired (hn : 4 ≤ n) (mid : ℕ) {r : ℝ≥0∞} (hr : r ≤ 2⁻¹) {p p' : Pop K} (hp : p'.perm = p.perm) :
    Paired (fun a b => b = a ∧ a ≤ 2⁻¹) (twoRateUpdate n mid (r / 2) (r * 2) p) (twoRateUpdate n mid (r / 2) (r * 2) p') := by
  have hb : p'.bestIndex 0 = p.bestIndex 0 := by unfold Pop.bestIndex; rw [hp]
  have he : twoRateUpdate n mid (r / 2) (r * 2) p' = twoRateUpdate n mid (r / 2) (r * 2) p := by
    unfold twoRateUpdate
    rw [hb]
  rw [he]
  refine Paired.same (fun a ha => ⟨rfl, ?_⟩)
  have h2 : r / 2 ≤ 2⁻¹ := ENNReal.half_le_self.trans hr
  unfold twoRateUpdate at ha
  obtain ⟨b, _, ha⟩ := bind_support ha
  split at ha
  · rw [pure_support ha]
    exact max_le h2 (min_le_half hn)
  · obtain ⟨b, _, ha⟩ := bind_support ha
    split at ha
    · rw [pure_support ha]
      exact (min_le_right _ _).trans quarter_le
    · obtain ⟨k, _, ha⟩ := bind_support ha
      have := lift_support ha
      generalize (if k < mid then r / 2 else r * 2) = w at this
      unfold clampRate at this
      split at this
      · cases this
      · injection this with this
        rw [← this]
        split
        · exact min_le_half hn
        · split
          · exact quarter_le
          · next h => exact (not_lt.mp h).trans quarter_le

theorem twoRateIterate_paired (h : Relabeled σ f g val val') (hc : Blind c) (hn : 4 ≤ n) (h0 : 0 < size) {s s' : TwoRateLawState K}
    (hs : TwoRateR n σ size s s') : Paired (TwoRateR n σ size) (twoRateIterate f c n s) (twoRateIterate g c n s') := by
  unfold twoRateIterate
  obtain ⟨hs1, hs2⟩ := hs.solution
  have e1 : s.population.size = size := hs.population.valid.bvs
  have e2 : s'.population.size = size := hs.population.valid'.bvs
  simp only [e1, e2, hs.operator, hs.rate, hs2]
  refine Paired.bind (R := RoughR n σ size (size / 2)) (Paired.forRange (fun j p p' => RoughR n σ size j p p') hs.population (fun j p p' hj hp =>
    mapOffspring_paired (setMutationRate_fair (by omega) _ (half_le hs.bound)) hs1 (by omega) hp)) (fun p p' hp => ?_)
  have hloop := Paired.forLoop (R := fun j p p' => RoughR n σ size j p p') (size - size / 2) (size / 2) p p' hp
    (body := mapOffspring (((s.operator.setMutationRate n (s.rate / 2)).setMutationRate n (s.rate * 2)).sampleBits n) s.solution.1)
    (body' := mapOffspring (((s.operator.setMutationRate n (s.rate / 2)).setMutationRate n (s.rate * 2)).sampleBits n) (σ.act s.solution.1))
    (fun j p p' _ hj hp => mapOffspring_paired (setMutationRate_fair (by omega) _ (double_le hs.bound)) hs1 (by omega) hp)
  rw [show size / 2 + (size - size / 2) = size by omega] at hloop
  refine hloop.bind (fun p p' hp => ?_)
  unfold twoRateRest
  refine (Paired.lift (popEvaluate_related h hp.done)).bind (fun p p' hp => ?_)
  refine (sort_paired hc hp).bind (fun p p' hp => ?_)
  refine (Paired.lift (popUpdateSolution_related hp h0 hs.solution)).bind (fun t t' ht => ?_)
  rw [e1, e2, hs.rate]
  refine (twoRateUpdate_paired hn _ hs.bound hp.perm).bind (fun r r' hr => Paired.pure ?_)
  obtain ⟨rfl, hr⟩ := hr
  exact ⟨ht, hp.rough, rfl, rfl, hr⟩

/-- C123: the two-rate (1+lambda) evolutionary algorithm treats all positions, zeros and ones alike. -/
theorem twoRateEa_unbiased [Zero K] (hc : Blind c) (hn : 4 ≤ n) {q : TwoRateLaw} (hq : q.rateInit ≤ 2⁻¹) (lam : ℕ) (num : ℤ) :
    Unbiased n (fun f => twoRateEa f c q n lam num) := by
  intro σ f g val val' h
  apply relabeled_of
  unfold twoRateEa
  refine (Paired.same (R := fun p p' : Pop K => p = p' ∧ Pop.new (lam : ℤ) n = ok p) (fun a ha => ⟨rfl, lift_support ha⟩)).bind (fun p p' hp => ?_)
  obtain ⟨rfl, hp⟩ := hp
  have hv := popNew_valid hp
  rw [Int.toNat_natCast] at hv
  refine (Paired.loop (R := TwoRateR n σ lam) ?_ (fun _ _ _ => rfl) (fun s s' hs _ => twoRateIterate_paired h hc hn (by have := hv.1; omega) hs) num).bind
    (fun s s' hs => Paired.pure hs.solution)
  exact (randomSolution_paired h (by simp) (by simp)).bind (fun r r' hr => Paired.pure ⟨hr.1, RoughR.refl hv.2.2, rfl, rfl, hq⟩)

/-! ## Self-adjustment -/

/-- Related states. -/
structure AdjustR (n : ℕ) (σ : Symmetry n) (val : BV → K) (s s' : AdjustLawState K) : Prop where
  nbh : NbhR n σ s.nbh s'.nbh
  value : s.solution.2 = val s.nbh.origin
  value' : s'.solution.2 = s.solution.2
  operator : s'.operator = s.operator
  rate : s'.rate = s.rate
  bound : s.operator.rate ≤ 1
  rate_le : s.rate ≤ 1

theorem adjustRest_paired (h : Relabeled σ f g val val') {q : AdjustLaw} (h1 : q.rateMax ≤ 1) (h2 : q.rateMin ≤ 1) (h3 : 1 ≤ q.strength)
    {s s' : AdjustLawState K} (hp : PendingR n σ s.nbh s'.nbh) (hv : s.solution.2 = val s.nbh.origin) (hv' : s'.solution.2 = s.solution.2)
    (ho : s'.operator = s.operator) (hr : s'.rate = s.rate) (hb : s.rate ≤ 1) :
    Paired (AdjustR n σ val) (adjustRest q n (val s.nbh.candidate) s) (adjustRest q n (val s.nbh.candidate) s') := by
  unfold adjustRest
  refine Paired.ite (by rw [hv']) (fun _ => ?_) (fun _ => ?_)
  · rw [ho, hr]
    have hm : min (s.rate * q.coefficient) q.rateMax ≤ 1 := (min_le_right _ _).trans h1
    exact (keep_paired hp).bind (fun t t' ht => Paired.pure ⟨ht.1, by rw [ht.2.1], rfl, rfl, rfl, by rw [rate_setMutationRate]; exact hm, hm⟩)
  · rw [ho, hr]
    have hd : s.rate / q.strength ≤ 1 := by
      refine le_trans ?_ hb
      calc s.rate / q.strength ≤ s.rate / 1 := ENNReal.div_le_div_left h3 _
        _ = s.rate := by rw [div_one]
    have hm : max (s.rate / q.strength) q.rateMin ≤ 1 := max_le hd h2
    exact (forget_paired hp).bind (fun t t' ht => Paired.pure ⟨ht.1, by rw [ht.2]; exact hv, hv', rfl, rfl, by rw [rate_setMutationRate]; exact hm, hm⟩)

theorem adjustIterate_paired (h : Relabeled σ f g val val') (hn : 0 < n) {q : AdjustLaw} (h1 : q.rateMax ≤ 1) (h2 : q.rateMin ≤ 1)
    (h3 : 1 ≤ q.strength) {s s' : AdjustLawState K} (hs : AdjustR n σ val s s') :
    Paired (AdjustR n σ val) (adjustIterate f q n s) (adjustIterate g q n s') := by
  unfold adjustIterate
  refine Paired.bind (R := fun t t' => PendingR n σ t t' ∧ t.origin = s.nbh.origin) ?_ (fun t t' ht => ?_)
  · have hk : ∀ t, s.nbh.propose (s.operator.sampleBits n) t ≠ 0 → t.origin = s.nbh.origin := by
      intro t ht
      unfold NbhState.propose at ht
      obtain ⟨_, _, ht⟩ := bind_support ht
      obtain ⟨_, _, ht⟩ := bind_support ht
      obtain ⟨_, _, ht⟩ := bind_support ht
      rw [pure_support ht]
    rw [hs.operator]
    exact (propose_paired (standardBitMutation_fair hn hs.bound) hs.nbh).restrict hk
  · obtain ⟨ht, hto⟩ := ht
    have hl' : Ascending 0 n (σ.move t.flipped) := filter_range_ascending _
    have hv : s.solution.2 = val t.origin := by rw [hto]; exact hs.value
    have hy' : bvFlipSparse t'.origin t'.flipped = ok t'.candidate := by
      rw [ht.origin, ht.flipped, ht.candidate']
      exact (σ.flip ht.length ht.sorted ht.candidate).2
    rw [increment_eq h.left ht.length ht.sorted ht.candidate hv,
      increment_eq h.right (by rw [ht.origin]; exact σ.act_length _) (by rw [ht.flipped]; exact hl') hy'
        (by rw [hs.value', hv, ht.origin, h.same _ ht.length]), ht.candidate', h.same _ ht.size, Dist.pure_bind', Dist.pure_bind']
    exact adjustRest_paired (s := { s with nbh := t }) (s' := { s' with nbh := t' }) h h1 h2 h3 ht hv hs.value' hs.operator hs.rate hs.rate_le

/-- C123: the self-adjusting (1+1) evolutionary algorithm treats all positions, zeros and ones alike, with full or incremental evaluation. -/
theorem adjustEa_unbiased (hn : 0 < n) {q : AdjustLaw} (h0 : q.rateInit ≤ 1) (h1 : q.rateMax ≤ 1) (h2 : q.rateMin ≤ 1) (h3 : 1 ≤ q.strength)
    (num : ℤ) : Unbiased (K := K) n (fun f => adjustEa f q n num) := by
  intro σ f g val val' h
  apply relabeled_of
  unfold adjustEa
  refine (Paired.loop (R := AdjustR n σ val) ?_ (fun _ _ _ => rfl) (fun s s' hs _ => adjustIterate_paired h hn h1 h2 h3 hs) num).bind
    (fun s s' hs => Paired.pure ⟨hs.nbh.length, by simp only [hs.nbh.origin, hs.value']⟩)
  refine (randomSolution_paired h (by simp) (by simp)).bind (fun r r' hr => Paired.pure ?_)
  obtain ⟨⟨hr1, rfl⟩, hr2⟩ := hr
  exact ⟨⟨hr1, rfl, rfl, rfl⟩, hr2, rfl, rfl, rfl, by
    unfold StandardBitMutation.setAllowNoMutation
    rw [rate_setMutationRate]
    exact h0, h0⟩

/-- C123: in particular with the default parameters. -/
theorem adjustEa_default_unbiased (hn : 2 ≤ n) (num : ℤ) : Unbiased (K := K) n (fun f => adjustEa f (AdjustLaw.default n) n num) := by
  have hn' : (1 : ℝ≥0∞) ≤ n := by exact_mod_cast (by omega : 1 ≤ n)
  have hnn : (1 : ℝ≥0∞) ≤ (n : ℝ≥0∞) * n := by
    calc (1 : ℝ≥0∞) = 1 * 1 := (one_mul 1).symm
      _ ≤ n * n := by gcongr
  refine adjustEa_unbiased (by omega) ?_ ?_ ?_ ?_ num
  · change 1 / (n : ℝ≥0∞) ≤ 1
    rw [one_div]
    exact ENNReal.inv_le_one.mpr hn'
  · change 1 / (2 : ℝ≥0∞) ≤ 1
    simp
  · change 1 / ((n : ℝ≥0∞) * n) ≤ 1
    rw [one_div]
    exact ENNReal.inv_le_one.mpr hnn
  · change (1 : ℝ≥0∞) ≤ 1 + 1 / n
    exact le_self_add

/-! ## Examples -/

/-- Vectors with as many ones, on one max with four bits. -/
example (v : ℤ) : twoRateEa (oneMax 4) (blindChoices ℤ) ⟨2⁻¹, false⟩ 4 (10 : ℕ) 20 ([true, true, false, false], v) =
    twoRateEa (oneMax 4) (blindChoices ℤ) ⟨2⁻¹, false⟩ 4 (10 : ℕ) 20 ([false, true, true, false], v) :=
  (twoRateEa_unbiased (n := 4) (q := ⟨2⁻¹, false⟩) (blindChoices_blind ℤ) (by decide) (le_refl _) 10 20).unitation (oneMax_evaluates 4)
    (fun x y _ _ h => by simp only [h]) (x := [true, true, false, false]) (y := [false, true, true, false]) rfl rfl rfl v

example : Unbiased (K := ℤ) 3 (fun f => adjustEa f (AdjustLaw.default 3) 3 20) := adjustEa_default_unbiased (by decide) 20

end Hnco.Prob
