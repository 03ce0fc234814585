import Verif.Prob.Adaptive
import Verif.Prob.EvolutionProps

/-!
# Lemmas about evolutionary algorithms which adjust their mutation rate, with probabilities
-/

namespace Hnco.Prob

open Outcome
open scoped ENNReal
open Classical

variable {K : Type} {n size : ℕ}

/-! ## Mutation -/

theorem mutates_between {m : StandardBitMutation} {z : ℝ≥0∞} (hn : 0 < n) (h0 : 0 < m.rate) (h1 : m.rate ≤ 1)
    (hz1 : z ≤ m.rate) (hz2 : z ≤ 1 - m.rate) : Mutates (m.sampleBits n) n (z ^ n) := by
  obtain ⟨s1, s2⟩ := standard_samples (m := m) hn h1 h0.ne'
  refine ⟨fun x hx => ?_, fun x y hx hy hne => ?_⟩
  · subst hx
    refine ⟨by rw [mutate_total s1, s2], fun y hy => ?_⟩
    rw [mutate_apply s1] at hy
    by_contra h
    exact hy (if_neg h)
  · subst hx
    exact (pow_le_pow_left' (le_min hz1 hz2) _).trans ((pow_min_le (distance_le x y)).trans (standard_ge hn h1 hy hne))

theorem setRate_rate (m : StandardBitMutation) (n : ℕ) (p : ℝ≥0∞) : (m.setMutationRate n p).rate = p := by
  unfold StandardBitMutation.setMutationRate
  split <;> rfl

/-! ## Loops -/

section
variable {σ : Type}

theorem forLoop_append (body : ℕ → σ → Dist σ) : ∀ (a b i : ℕ) (s : σ),
    (Dist.forLoop a i body s >>= fun s => Dist.forLoop b (i + a) body s) = Dist.forLoop (a + b) i body s := by
  intro a
  induction a with
  | zero =>
    intro b i s
    change ((pure s : Dist σ) >>= _) = _
    rw [Dist.pure_bind', Nat.zero_add, Nat.add_zero]
  | succ a ih =>
    intro b i s
    rw [show a + 1 + b = (a + b) + 1 by omega]
    change ((body i s >>= fun s => Dist.forLoop a (i + 1) body s) >>= _) = (body i s >>= fun s => Dist.forLoop (a + b) (i + 1) body s)
    rw [Dist.bind_assoc']
    congr 1
    funext s'
    rw [← ih b (i + 1) s', show i + 1 + a = i + (a + 1) by omega]

theorem forLoop_congr {body body' : ℕ → σ → Dist σ} : ∀ (k i : ℕ) (s : σ), (∀ j, i ≤ j → j < i + k → body j = body' j) →
    Dist.forLoop k i body s = Dist.forLoop k i body' s := by
  intro k
  induction k with
  | zero => intro i s _; rfl
  | succ k ih =>
    intro i s h
    change (body i s >>= fun s => Dist.forLoop k (i + 1) body s) = (body' i s >>= fun s => Dist.forLoop k (i + 1) body' s)
    rw [h i (le_refl _) (by omega)]
    congr 1
    funext s'
    exact ih (i + 1) s' (fun j h1 h2 => h j (by omega) (by omega))

/-- Two loops, one after the other, are one loop. -/
theorem forRange_split {b1 b2 : ℕ → σ → Dist σ} {mid m : ℕ} (hm : mid ≤ m) (s : σ) :
    (Dist.forRange 0 mid b1 s >>= fun s => Dist.forRange mid m b2 s) = Dist.forRange 0 m (fun i => if i < mid then b1 i else b2 i) s := by
  unfold Dist.forRange
  have h1 : Dist.forLoop (mid - 0) 0 b1 s = Dist.forLoop mid 0 (fun i => if i < mid then b1 i else b2 i) s :=
    forLoop_congr mid 0 s (fun j _ h => by rw [if_pos (by omega)])
  rw [h1, ← show mid + (m - mid) = m - 0 by omega, ← forLoop_append]
  congr 1
  funext s'
  rw [Nat.zero_add]
  exact forLoop_congr (m - mid) mid s' (fun j h _ => by rw [if_neg (by omega)])

end

/-! ## Offsprings -/

section
variable {o : Pop K} {d d1 d2 : Dist (List ℕ)} {z : ℝ≥0∞} {x : BV}

theorem mapOffspring_eq {i : ℕ} (hi : i < o.bvs.length) :
    mapOffspring d x i o = (mutate d x >>= fun y => pure { o with bvs := o.bvs.set i y }) := by
  unfold mapOffspring
  congr 1
  funext y
  rw [vset_eq hi, Dist.lift_ok, Dist.pure_bind']

theorem mapOffspring_sure (hd : Mutates d n z) (hx : x.length = n) {j : ℕ} (hj : j < size) (ho : o.Valid size n) :
    Sure (mapOffspring d x j o) (fun q => q.Valid size n ∧ ∀ i < j, q.bvs[i]? = o.bvs[i]?) := by
  rw [mapOffspring_eq (by rw [ho.bvs]; exact hj)]
  refine (hd.sure x hx).bind (fun y hy => Sure.pure ⟨ho.setBv j hy, fun i hi => ?_⟩)
  dsimp only
  rw [List.getElem?_set_ne (by omega)]

theorem mapOffspring_le [LinearOrder K] {val : BV → K} (hd : Mutates d n z) (hx : x.length = n) {j : ℕ} (hj : j < size) (ho : o.Valid size n)
    (hno : ¬ IsMax n val x) :
    (mapOffspring d x j o).expect (missing (fun q => ∃ y, q.bvs[j]? = some y ∧ IsMax n val y)) ≤ 1 - z := by
  have hj' : j < o.bvs.length := by rw [ho.bvs]; exact hj
  obtain ⟨y, hy⟩ := max_exists n val
  rw [mapOffspring_eq hj', Dist.expect_bind]
  refine le_trans (le_of_eq (Dist.expect_congr (fun y _ => ?_)))
    (one_sub_mass (hd.sure x hx).total hy (hd.ge x y hx hy.1 (fun e => hno (e ▸ hy))))
  rw [Dist.expect_pure]
  unfold missing
  refine if_congr ?_ rfl rfl
  dsimp only
  rw [List.getElem?_set_self hj']
  simp

/-- Offsprings made with one rate and then with the other. -/
noncomputable def twoLoops (d1 d2 : Dist (List ℕ)) (x : BV) (mid m : ℕ) (p : Pop K) : Dist (Pop K) := do
  let p ← Dist.forRange 0 mid (mapOffspring d1 x) p
  Dist.forRange mid m (mapOffspring d2 x) p

theorem twoLoops_eq {mid m : ℕ} (h : mid ≤ m) : twoLoops d1 d2 x mid m o
    = Dist.forRange 0 m (fun i => mapOffspring (if i < mid then d1 else d2) x i) o := by
  unfold twoLoops
  rw [forRange_split h]
  congr 1
  funext i
  split <;> rfl

theorem either_mutates {z1 z2 : ℝ≥0∞} (h1 : Mutates d1 n z1) (h2 : Mutates d2 n z2) (i mid : ℕ) (e : z1 = z2) :
    Mutates (if i < mid then d1 else d2) n z1 := by
  subst e
  split
  · exact h1
  · exact h2

theorem twoLoops_sure (h1 : Mutates d1 n z) (h2 : Mutates d2 n z) (hx : x.length = n) {mid : ℕ} (hm : mid ≤ size) (ho : o.Valid size n) :
    Sure (twoLoops d1 d2 x mid size o) (fun q => q.Valid size n) := by
  rw [twoLoops_eq hm]
  exact breed_sure (get := Pop.bvs) ho (fun j o hj ho => mapOffspring_sure (either_mutates h1 h2 j mid rfl) hx hj ho)

theorem twoLoops_le [LinearOrder K] {val : BV → K} (h1 : Mutates d1 n z) (h2 : Mutates d2 n z) (hx : x.length = n) {mid : ℕ}
    (hm : mid ≤ size) (ho : o.Valid size n) (hno : ¬ IsMax n val x) :
    (twoLoops d1 d2 x mid size o).expect (missing (fun q => ∃ y ∈ q.bvs, IsMax n val y)) ≤ (1 - z) ^ size := by
  rw [twoLoops_eq hm]
  exact breed_le (get := Pop.bvs) (I := Pop.Valid size n) ho (fun p hp => hp.bvs)
    (fun j o hj ho => mapOffspring_sure (either_mutates h1 h2 j mid rfl) hx hj ho)
    (fun j o hj ho => mapOffspring_le (either_mutates h1 h2 j mid rfl) hx hj ho hno)

end

/-! ## The solution -/

section
variable [LinearOrder K] {f : Fn K} {val : BV → K} {c : Choices K}

/-- Evaluation, sorting and the update of the solution. -/
noncomputable def twoRateSelect (f : Fn K) (c : Choices K) (s : BV × K) (p : Pop K) : Dist ((BV × K) × Pop K) := do
  let p ← Dist.lift (popEvaluate f p)
  let p ← c.sort p
  let solution ← Dist.lift (popUpdateSolution s p)
  pure (solution, p)

theorem twoRateSelect_sure (hf : Evaluates f n val) (hc : c.Valid) (hsize : 0 < size) {s : BV × K} (hs : Good n val s) {p : Pop K}
    (hp : p.Valid size n) : Sure (twoRateSelect f c s p) (fun r => Good n val r.1 ∧ r.2.Valid size n ∧
      (IsMax n val r.1.1 ↔ IsMax n val s.1 ∨ ∃ y ∈ p.bvs, IsMax n val y)) := by
  unfold twoRateSelect
  refine (Sure.lift (popEvaluate_returns hf hp)).bind (fun q hq => ?_)
  obtain ⟨h1, h2, h3⟩ := hq
  refine (Sure.of_follows (hc.sort q size n h1) (Pop.sort_valid h1)).bind (fun r hr => ?_)
  obtain ⟨g1, g2, g3, g4⟩ := hr
  obtain ⟨x, v, e1, e2, e3, e4⟩ := g4.first g1 hsize
  rw [g3, h3] at e3 e4
  have hpool := evaluated_good (val := val) hp.bits
  have hu := update_found hpool e3 e4 hs
  unfold popUpdateSolution
  rw [e1, ok_bind, e2, ok_bind, Dist.lift_ok, Dist.pure_bind']
  exact Sure.pure ⟨hu.1, g1, hu.2.trans (or_congr Iff.rfl evaluated_found)⟩

theorem twoRateRest_eq (s : TwoRateLawState K) (m : StandardBitMutation) (p : Pop K) : twoRateRest f c n s m p
    = (twoRateSelect f c s.solution p >>= fun r =>
        twoRateUpdate n (s.population.size / 2) (s.rate / 2) (s.rate * 2) r.2 >>= fun rate => pure ⟨r.1, r.2, m, rate⟩) := by
  unfold twoRateRest twoRateSelect
  rw [Dist.bind_assoc']
  congr 1
  funext q
  rw [Dist.bind_assoc']
  congr 1
  funext r
  rw [Dist.bind_assoc']
  congr 1
  funext u
  rw [Dist.pure_bind']

/-- The operators of an iteration. -/
noncomputable def TwoRateLawState.slow (s : TwoRateLawState K) (n : ℕ) : StandardBitMutation := s.operator.setMutationRate n (s.rate / 2)

noncomputable def TwoRateLawState.fast (s : TwoRateLawState K) (n : ℕ) : StandardBitMutation :=
  (s.slow n).setMutationRate n (s.rate * 2)

theorem twoRateIterate_eq (s : TwoRateLawState K) : twoRateIterate f c n s
    = (twoLoops ((s.slow n).sampleBits n) ((s.fast n).sampleBits n) s.solution.1 (s.population.size / 2) s.population.size s.population
        >>= fun p => twoRateRest f c n s (s.fast n) p) := by
  unfold twoRateIterate twoLoops
  rw [Dist.bind_assoc']
  rfl

/-! ## The rate -/

theorem bestIndex_returns (hsize : 0 < size) {p : Pop K} (hp : p.Valid size n) : (p.bestIndex 0).Returns (fun _ => True) := by
  have h : 0 < p.perm.length := by rw [hp.perm.length_eq, List.length_range]; exact hsize
  unfold Pop.bestIndex
  rw [assert_pos (decide_eq_true h), ok_bind, vget_eq h]
  exact returns_ok.mpr trivial

theorem clampRate_between {v lo hi : ℝ≥0∞} (h : lo ≤ hi) : (clampRate v lo hi).Returns (fun r => lo ≤ r ∧ r ≤ hi) := by
  unfold clampRate
  rw [if_neg (not_lt.mpr h)]
  refine returns_ok.mpr ?_
  split
  · exact ⟨le_refl _, h⟩
  · next h1 =>
    split
    · exact ⟨h, le_refl _⟩
    · next h2 => exact ⟨not_lt.mp h1, not_lt.mp h2⟩

theorem coin_sure (p : ℝ≥0∞) : Sure (Dist.coin p) (fun _ => True) := ⟨coin_total p, fun _ _ => trivial⟩

theorem twoRateUpdate_sure (hsize : 0 < size) {p : Pop K} (hp : p.Valid size n) (hle : twoRateMin n ≤ twoRateMax) {mid : ℕ}
    {low high : ℝ≥0∞} (hlow : low ≤ twoRateMax) (hhigh : twoRateMin n ≤ high) :
    Sure (twoRateUpdate n mid low high p) (fun r => twoRateMin n ≤ r ∧ r ≤ twoRateMax) := by
  unfold twoRateUpdate
  refine (coin_sure _).bind (fun b _ => ?_)
  split
  · exact Sure.pure ⟨le_max_right _ _, max_le hlow hle⟩
  · refine (coin_sure _).bind (fun b _ => ?_)
    split
    · exact Sure.pure ⟨le_min hhigh hle, min_le_right _ _⟩
    · exact (Sure.lift (bestIndex_returns hsize hp)).bind (fun k _ => Sure.lift (clampRate_between hle))

/-- When the bounds are in the wrong order, the rate is defined with probability one half. -/
theorem twoRateUpdate_half (hsize : 0 < size) {p : Pop K} (hp : p.Valid size n) (hlt : twoRateMax < twoRateMin n) {mid : ℕ}
    {low high : ℝ≥0∞} (hlow : low ≤ twoRateMin n) (hhigh : twoRateMax ≤ high) :
    (twoRateUpdate n mid low high p).total = 1 / 2 ∧
      ∀ r, twoRateUpdate n mid low high p r ≠ 0 → twoRateMax ≤ r ∧ r ≤ twoRateMin n := by
  obtain ⟨k, hk, -⟩ := bestIndex_returns hsize hp
  have hub : ∀ v, (Dist.lift (clampRate v (twoRateMin n) twoRateMax)) = ⟨fun _ => 0⟩ := by
    intro v
    unfold clampRate
    rw [if_pos hlt]
    rfl
  unfold twoRateUpdate
  refine ⟨?_, fun r hr => ?_⟩
  · rw [hk]
    simp only [Dist.lift_ok, Dist.pure_bind', hub]
    rw [Dist.total_bind, tsum_fintype, Fintype.sum_bool]
    simp only [if_true, Bool.false_eq_true, if_false, Dist.total_pure]
    rw [Dist.total_bind, tsum_fintype, Fintype.sum_bool]
    simp only [if_true, Bool.false_eq_true, if_false, Dist.total_pure]
    have h0 : (⟨fun _ => 0⟩ : Dist ℝ≥0∞).total = 0 := by
      change ∑' _, (0 : ℝ≥0∞) = 0
      exact tsum_zero
    rw [h0, mul_zero, add_zero, mul_one, mul_one]
    change min (4⁻¹ : ℝ≥0∞) 1 + (1 - 4⁻¹) * min 3⁻¹ 1 = _
    have e4 : min (4⁻¹ : ℝ≥0∞) 1 = 4⁻¹ := min_eq_left (ENNReal.inv_le_one.mpr (by norm_num))
    have e3 : min (3⁻¹ : ℝ≥0∞) 1 = 3⁻¹ := min_eq_left (ENNReal.inv_le_one.mpr (by norm_num))
    rw [e4, e3]
    have e1 : (1 : ℝ≥0∞) - 4⁻¹ = 3 * 4⁻¹ := by
      refine ENNReal.sub_eq_of_eq_add (by simp) ?_
      rw [show (3 : ℝ≥0∞) * 4⁻¹ + 4⁻¹ = 4 * 4⁻¹ by ring, ENNReal.mul_inv_cancel (by norm_num) (by norm_num)]
    rw [e1, mul_right_comm, ENNReal.mul_inv_cancel (by norm_num) (by norm_num), one_mul]
    rw [show (4 : ℝ≥0∞) = 2 * 2 by norm_num, ENNReal.mul_inv (by simp) (by simp), ← mul_add, ENNReal.inv_two_add_inv_two, mul_one, one_div]
  · obtain ⟨b, _, hr⟩ := bind_support hr
    split at hr
    · rw [pure_support hr]
      exact ⟨hlt.le.trans (le_max_right _ _), max_le hlow (le_refl _)⟩
    · obtain ⟨b, _, hr⟩ := bind_support hr
      split at hr
      · rw [pure_support hr]
        exact ⟨le_min hhigh (le_refl _), (min_le_right _ _).trans hlt.le⟩
      · obtain ⟨k, _, hr⟩ := bind_support hr
        rw [hub] at hr
        exact absurd rfl hr

end

end Hnco.Prob
