import Verif.Prob.WalkLemmas
import Verif.Function.IncrementalProps
import Verif.Function.PeaksProps

/-!
# Properties of the time to find a maximum (C111)
-/

namespace Hnco.Prob

open Outcome
open scoped ENNReal

variable {K : Type} [LinearOrder K] {f : Fn K} {n : ℕ} {val : BV → K} {p : RlsParams K}

/-! ## Iterations -/

/-- C111: the solution after `t` iterations is what is returned when the number of iterations is set to `t`. -/
theorem rls_after {t : ℕ} (ht : 0 < t) : randomLocalSearch p f n t = rlsAfter p f n t := by
  unfold randomLocalSearch loop rlsAfter
  rw [Dist.bind_assoc']
  congr 1
  funext s
  rw [if_pos (by omega), Int.toNat_natCast]

/-- C111 (negative part): a search which never gives up and whose number of iterations is not set does not return. -/
theorem rls_endless (hf : Evaluates f n val) (hp : Elitist p) (hd : Samples p n) (hs : Starts p n) {k : ℤ} (hk : k ≤ 0) :
    (randomLocalSearch p f n k).total = 0 := by
  have hgo : ∀ (j : ℕ) (s : RlsState K), GoodState n val s → ∀ u,
      indefiniteGo (fun s => s.last) (rlsIterate p f) j s u = 0 := by
    intro j
    induction j with
    | zero => intro s _ u; rfl
    | succ j ih =>
      intro s hs u
      change (if s.last = true then pure s else rlsIterate p f s >>= indefiniteGo (fun s => s.last) (rlsIterate p f) j) u = 0
      rw [if_neg (by rw [hs.last]; decide)]
      by_contra h
      obtain ⟨v, hv, h⟩ := bind_support h
      exact h (ih v (rlsIterate_good hf hp hd.support hs hv) u)
  unfold randomLocalSearch loop Dist.total
  rw [ENNReal.tsum_eq_zero]
  intro a
  by_contra h
  obtain ⟨s, hs1, _⟩ := bind_support h
  obtain ⟨s0, hs0, h2⟩ := bind_support hs1
  rw [if_neg (by omega)] at h2
  rw [rlsInit_eq hf hs] at hs0
  obtain ⟨x, hx, h3⟩ := bind_support hs0
  have hgood : GoodState n val s0 := by
    rw [pure_support h3]
    exact ⟨rfl, startLaw_support hs hx, rfl, rfl⟩
  refine h2 ?_
  change (⨆ j, indefiniteGo (fun s => s.last) (rlsIterate p f) j s0 s) = 0
  simp [hgo _ s0 hgood]

/-! ## (1+1) evolutionary algorithm, any function -/

/-- C111: the (1+1) evolutionary algorithm starts from a uniform vector, with its value. -/
theorem ea_start (hf : Evaluates f n val) (q : EaParams) (x : BV) (v : K) :
    rlsAfter (eaSearch q n) f n 0 (x, v) = if x.length = n ∧ v = val x then ((2 : ℝ≥0∞) ^ n)⁻¹ else 0 := by
  classical
  unfold rlsAfter
  rw [rlsInit_eq hf (fun h => by cases h), Dist.bind_assoc']
  have h1 : (startLaw (eaSearch (K := K) q n) n >>= fun x =>
      (pure ⟨(x, val x), x, x, [], 0, false⟩ : Dist (RlsState K)) >>= fun s =>
        boundedLoop (fun s => s.last) (rlsIterate (eaSearch q n) f) 0 s >>= fun s => pure (s.origin, s.solution.2))
      = (bvRandomBits (List.replicate n false) >>= fun x => pure (x, val x)) := by
    change (bvRandomBits (List.replicate n false) >>= _) = _
    congr 1
    funext x
    rw [Dist.pure_bind']
    change ((pure _ : Dist _) >>= _) = _
    rw [Dist.pure_bind']
  rw [h1, Dist.bind_apply]
  rw [tsum_eq_single x (fun y hy => by rw [Dist.pure_apply, if_neg (fun e => hy (Prod.mk.inj e).1.symm), mul_zero]),
    bvRandomBits_law, List.length_replicate, Dist.pure_apply]
  by_cases hx : x.length = n
  · by_cases hv : v = val x
    · subst hv
      rw [if_pos hx, if_pos rfl, if_pos ⟨hx, rfl⟩, mul_one]
    · rw [if_neg (c := (x, v) = (x, val x)) (fun e => hv (Prod.mk.inj e).2), mul_zero, if_neg (fun e => hv e.2)]
  · rw [if_neg hx, zero_mul, if_neg (fun e => hx e.1)]

/-- C111: the (1+1) evolutionary algorithm mutates with its mutation rate; mutations which change nothing do not take place, unless
they are allowed and the rate is less than `1 / sqrt(n)`. -/
theorem ea_mutation {x : BV} (hn : 0 < x.length) {q : EaParams} (h1 : q.mutationRate ≤ 1) (y : BV) :
    mutate (eaSearch (K := K) q x.length).sampleBits x y
      = if q.allowNoMutation ∧ q.mutationRate * q.mutationRate * x.length < 1 then
          (if y.length = x.length then q.mutationRate ^ distance x y * (1 - q.mutationRate) ^ (x.length - distance x y) else 0)
        else (if y.length = x.length ∧ y ≠ x then q.mutationRate ^ distance x y * (1 - q.mutationRate) ^ (x.length - distance x y)
          / (1 - (1 - q.mutationRate) ^ x.length) else 0) := by
  classical
  change mutate ((eaNeighborhood q x.length).sampleBits x.length) x y = _
  have hr := eaNeighborhood_rate q x.length
  have hall : (eaNeighborhood q x.length).allowNoMutation = q.allowNoMutation := rfl
  have hrej : (eaNeighborhood q x.length).rejectionSampling = decide (q.mutationRate * q.mutationRate * x.length < 1) := by
    unfold eaNeighborhood StandardBitMutation.setAllowNoMutation StandardBitMutation.setMutationRate
    split
    · next h => simp [h]
    · next h => simp [h, StandardBitMutation.new]
  by_cases ha : q.allowNoMutation = true
  · by_cases hs : q.mutationRate * q.mutationRate * x.length < 1
    · rw [if_pos ⟨ha, hs⟩, standardBitMutation_allowed hn (hall.trans ha) (hrej.trans (decide_eq_true hs)), hr]
    · rw [if_neg (fun e => hs e.2), (standardBitMutation_never_none hn (by rw [hr]; exact h1) (hrej.trans (decide_eq_false hs))).2,
        standardBitMutation_law hn (m := (eaNeighborhood q x.length).setAllowNoMutation false) (by
          change (eaNeighborhood q x.length).rate ≤ 1
          rw [hr]; exact h1) rfl]
      change (if _ then (eaNeighborhood q x.length).rate ^ _ * (1 - (eaNeighborhood q x.length).rate) ^ _ /
        (1 - (1 - (eaNeighborhood q x.length).rate) ^ _) else 0) = _
      rw [hr]
  · rw [if_neg (fun e => ha e.1), standardBitMutation_law hn (by rw [hr]; exact h1) (hall.trans (by simpa using ha)), hr]

theorem max_exists (n : ℕ) (val : BV → K) : ∃ x, IsMax n val x := by
  obtain ⟨x, hx, hmax⟩ := Set.exists_max_image {x : BV | x.length = n} val (List.finite_length_eq Bool n)
    ⟨List.replicate n false, by simp⟩
  exact ⟨x, hx, fun y hy => hmax y hy⟩

theorem pow_min_le {p : ℝ≥0∞} {d n : ℕ} (h : d ≤ n) : min p (1 - p) ^ n ≤ p ^ d * (1 - p) ^ (n - d) := by
  calc min p (1 - p) ^ n = min p (1 - p) ^ d * min p (1 - p) ^ (n - d) := by rw [← pow_add]; congr 1; omega
    _ ≤ p ^ d * (1 - p) ^ (n - d) :=
        mul_le_mul' (pow_le_pow_left' (min_le_left _ _) _) (pow_le_pow_left' (min_le_right _ _) _)

open Classical in
theorem ea_steps (hf : Evaluates f n val) (hn : 0 < n) {q : EaParams} (h1 : q.mutationRate ≤ 1) (h0 : q.mutationRate ≠ 0) (t : ℕ) :
    missProb (rlsAfter (eaSearch q n) f n t) (IsMax n val) ≤ (1 - min q.mutationRate (1 - q.mutationRate) ^ n) ^ t := by
  have hd := eaSearch_samples (K := K) (q := q) hn h1 h0
  rw [missProb_after hf (eaSearch_elitist q) hd (eaSearch_starts q)]
  have hx : ∀ x : BV, x.length = n → (Dist.steps (move (eaSearch (K := K) q n).sampleBits val) t x).expect (missing (IsMax n val))
      ≤ (1 - min q.mutationRate (1 - q.mutationRate) ^ n) ^ t := by
    refine steps_geometric (inv := fun x : BV => x.length = n) ?_ ?_ ?_ ?_ t
    · exact fun a ha b hb => (move_support hd.support ha hb).1
    · exact fun a ha => move_total hd.support hd.total ha
    · intro a ha hm b hb
      obtain ⟨g1, g2⟩ := move_support hd.support ha hb
      exact ⟨g1, fun y hy => (hm.2 y hy).trans g2⟩
    · intro x hx hm
      obtain ⟨y, hy⟩ := max_exists n val
      have hne : y ≠ x := fun e => hm (e ▸ hy)
      have hge := ea_ge (K := K) hn h1 hx hy.1 hne
      have hdist : distance x y ≤ n := by rw [← hx]; exact distance_le x y
      rw [Dist.prob_expect, move_expect]
      refine le_trans (pow_min_le hdist) (hge.trans ?_)
      have h2 : mutate (eaSearch (K := K) q n).sampleBits x y
          = mutate (eaSearch (K := K) q n).sampleBits x y * (if IsMax n val (if val x ≤ val y then y else x) then 1 else 0) := by
        rw [if_pos (hy.2 x hx), if_pos hy, mul_one]
      rw [h2]
      exact ENNReal.le_tsum y
  calc (startLaw (eaSearch q n) n).expect _
      ≤ (startLaw (eaSearch (K := K) q n) n).expect (fun _ => (1 - min q.mutationRate (1 - q.mutationRate) ^ n) ^ t) :=
        Dist.expect_mono (fun x hx' => hx x (startLaw_support (eaSearch_starts q) hx'))
    _ = _ := by rw [Dist.expect_const, startLaw_total, one_mul]

/-- C111: the (1+1) evolutionary algorithm finds a maximum of any function: with mutation rate `p`, the probability that it has not
been found after `t` iterations is at most `(1 - min(p, 1 - p)^n)^t`. -/
theorem ea_converges (hf : Evaluates f n val) (hn : 0 < n) {q : EaParams} (h0 : 0 < q.mutationRate) (h1 : q.mutationRate ≤ 1)
    {t : ℕ} (ht : 0 < t) :
    missProb (onePlusOneEa { q with numIterations := t } f n) (IsMax n val)
      ≤ (1 - min q.mutationRate (1 - q.mutationRate) ^ n) ^ t := by
  unfold onePlusOneEa
  rw [rls_after ht]
  exact ea_steps (q := { q with numIterations := t }) hf hn h1 h0.ne' t

/-- C111: the expected number of iterations to find a maximum is finite, whatever the function. -/
theorem ea_expected (hf : Evaluates f n val) (hn : 0 < n) {q : EaParams} (h0 : 0 < q.mutationRate) (h1 : q.mutationRate < 1) :
    expectedTime (rlsAfter (eaSearch q n) f n) (IsMax n val) ≤ (min q.mutationRate (1 - q.mutationRate) ^ n)⁻¹ ∧
    (min q.mutationRate (1 - q.mutationRate) ^ n)⁻¹ < ∞ := by
  have hpos : 0 < min q.mutationRate (1 - q.mutationRate) := lt_min h0 (tsub_pos_of_lt h1)
  refine ⟨?_, ENNReal.inv_lt_top.mpr (ENNReal.pow_pos hpos n)⟩
  have hle : min q.mutationRate (1 - q.mutationRate) ^ n ≤ 1 := pow_le_one' ((min_le_left _ _).trans h1.le) n
  unfold expectedTime
  refine (ENNReal.tsum_le_tsum (fun t => ea_steps hf hn h1.le h0.ne' t)).trans ?_
  rw [ENNReal.tsum_geometric, ENNReal.sub_sub_cancel ENNReal.one_ne_top hle]

/-- C111: with the default rate `1 / n`, the bound is `n^n`. -/
theorem ea_default (hf : Evaluates f n val) (hn : 2 ≤ n) :
    expectedTime (rlsAfter (eaSearch (EaParams.new n) n) f n) (IsMax n val) ≤ (n : ℝ≥0∞) ^ n := by
  have h1 : ((n : ℝ≥0∞)⁻¹) < 1 := ENNReal.inv_lt_one.mpr (by exact_mod_cast hn)
  have h0 : 0 < (n : ℝ≥0∞)⁻¹ := ENNReal.inv_pos.mpr (ENNReal.natCast_ne_top _)
  have h := (ea_expected hf (by omega) (q := EaParams.new n) h0 h1).1
  have hmin : min (n : ℝ≥0∞)⁻¹ (1 - (n : ℝ≥0∞)⁻¹) = (n : ℝ≥0∞)⁻¹ := by
    refine min_eq_left (ENNReal.le_sub_of_add_le_left (ENNReal.inv_ne_top.mpr (by simp; omega)) ?_)
    calc (n : ℝ≥0∞)⁻¹ + (n : ℝ≥0∞)⁻¹ = 2 * (n : ℝ≥0∞)⁻¹ := by ring
      _ ≤ n * (n : ℝ≥0∞)⁻¹ := mul_le_mul' (by exact_mod_cast hn) (le_refl _)
      _ = 1 := ENNReal.mul_inv_cancel (by simp; omega) (ENNReal.natCast_ne_top _)
  change _ ≤ (min (n : ℝ≥0∞)⁻¹ (1 - (n : ℝ≥0∞)⁻¹) ^ n)⁻¹ at h
  rw [hmin, ENNReal.inv_pow, inv_inv] at h
  exact h

/-- C111: the (1+1) evolutionary algorithm finds a maximum with probability one. -/
theorem ea_finds (hf : Evaluates f n val) (hn : 0 < n) {q : EaParams} (h0 : 0 < q.mutationRate) (h1 : q.mutationRate < 1) :
    Filter.Tendsto (fun t : ℕ => missProb (onePlusOneEa { q with numIterations := (t + 1 : ℕ) } f n) (IsMax n val))
      Filter.atTop (nhds 0) := by
  have h := (ea_expected hf hn h0 h1)
  have hne : ∑' t, missProb (rlsAfter (eaSearch q n) f n t) (IsMax n val) ≠ ∞ := (lt_of_le_of_lt h.1 h.2).ne
  have hlim := ENNReal.tendsto_atTop_zero_of_tsum_ne_top hne
  have h2 := hlim.comp (Filter.tendsto_add_atTop_nat 1)
  refine h2.congr (fun t => ?_)
  unfold onePlusOneEa
  rw [rls_after (Nat.succ_pos t)]
  rfl

/-! ## One max -/

theorem oneMax_evaluates (n : ℕ) : Evaluates (oneMax n) n (fun x => (ones x : ℤ)) :=
  ⟨rfl, fun x _ => oneMax_value n x, fun _ => oneMax_incremental n⟩

theorem ones_le (x : BV) : ones x ≤ x.length := List.count_le_length

theorem oneMax_isMax {x : BV} (hx : x.length = n) : IsMax n (fun x => (ones x : ℤ)) x ↔ n ≤ ones x := by
  constructor
  · intro h
    have := h.2 (List.replicate n true) (by simp)
    simp only [ones, List.count_replicate_self] at this
    exact_mod_cast this
  · intro h
    refine ⟨hx, fun y hy => ?_⟩
    have := ones_le y
    simp only
    exact_mod_cast (by omega : ones y ≤ ones x)

theorem oneMax_found (n : ℕ) (x : BV) : IsMax n (fun x => (ones x : ℤ)) x ↔ x = List.replicate n true := by
  constructor
  · intro h
    have h2 := (oneMax_isMax h.1).mp h
    rw [List.eq_replicate_iff]
    refine ⟨h.1, ?_⟩
    have h3 : x.count true = x.length := le_antisymm (ones_le x) (by rw [h.1]; exact h2)
    intro b hb
    exact (List.count_eq_length.mp h3 b hb).symm
  · rintro rfl
    rw [oneMax_isMax (by simp)]
    simp [ones]

theorem harmonic_Ico {n l : ℕ} (hl : l ≤ n) (c : ℝ≥0∞) :
    ∑ j ∈ Finset.Ico l n, (((n - j : ℕ) : ℝ≥0∞) * c)⁻¹ = c⁻¹ * harmonicNumber (n - l) := by
  have h1 : ∀ j ∈ Finset.Ico l n, (((n - j : ℕ) : ℝ≥0∞) * c)⁻¹ = c⁻¹ * ((n - j : ℕ) : ℝ≥0∞)⁻¹ := by
    intro j hj
    have := Finset.mem_Ico.mp hj
    rw [ENNReal.mul_inv (Or.inl (by
      have : n - j ≠ 0 := by omega
      exact_mod_cast this)) (Or.inl (ENNReal.natCast_ne_top _)), mul_comm]
  rw [Finset.sum_congr rfl h1, ← Finset.mul_sum]
  congr 1
  unfold harmonicNumber
  rw [Finset.sum_Ico_eq_sum_range, ← Finset.sum_range_reflect]
  refine Finset.sum_congr rfl (fun i hi => ?_)
  have := Finset.mem_range.mp hi
  congr 2
  omega

theorem harmonic_mono {a b : ℕ} (h : a ≤ b) : harmonicNumber a ≤ harmonicNumber b := by
  unfold harmonicNumber
  refine Finset.sum_le_sum_of_subset ?_
  intro i hi
  rw [Finset.mem_range] at *
  omega

open Classical in
/-- A bound from fitness levels, for the whole search. -/
theorem ea_levels (hf : Evaluates f n val) (hn : 0 < n) {q : EaParams} (h1 : q.mutationRate ≤ 1) (h0 : q.mutationRate ≠ 0)
    {level : BV → ℕ} (hdone : ∀ x : BV, x.length = n → (IsMax n val x ↔ n ≤ level x))
    (hlevel : ∀ x y : BV, val x ≤ val y ↔ level x ≤ level y) {b : ℕ → ℝ≥0∞}
    (hb : ∀ x : BV, x.length = n → level x < n → b (level x) ≤ (move (eaSearch (K := K) q n).sampleBits val x).prob (fun y => level x < level y)) :
    expectedTime (rlsAfter (eaSearch q n) f n) (IsMax n val) ≤ ∑ j ∈ Finset.range n, (b j)⁻¹ := by
  have hd := eaSearch_samples (K := K) (q := q) hn h1 h0
  rw [expectedTime_eq hf (eaSearch_elitist q) hd (eaSearch_starts q)]
  calc (startLaw (eaSearch (K := K) q n) n).expect _
      ≤ (startLaw (eaSearch (K := K) q n) n).expect (fun _ => ∑ j ∈ Finset.range n, (b j)⁻¹) := by
        refine Dist.expect_mono (fun x hx => ?_)
        have hxn := startLaw_support (eaSearch_starts q) hx
        refine (levels_le (inv := fun x : BV => x.length = n) (level := level) (m := n) (b := b) ?_ ?_ hdone ?_ hb hxn).trans ?_
        · exact fun a ha b hb => (move_support hd.support ha hb).1
        · exact fun a ha => move_total hd.support hd.total ha
        · exact fun a ha b hb => (hlevel a b).mp (move_support hd.support ha hb).2
        · refine Finset.sum_le_sum_of_subset ?_
          intro i hi
          rw [Finset.mem_Ico] at hi
          rw [Finset.mem_range]
          omega
    _ = _ := by rw [Dist.expect_const, startLaw_total, one_mul]

/-- C111: on one max, the expected number of iterations of the (1+1) evolutionary algorithm with rate `1 / n` is at most
`e n (1 + 1/2 + ... + 1/n)`, whether no mutation is allowed or not, with full or incremental evaluation. -/
theorem ea_oneMax (hn : 0 < n) {q : EaParams} (hq : q.mutationRate = (n : ℝ≥0∞)⁻¹) :
    expectedTime (rlsAfter (eaSearch q n) (oneMax n) n) (fun x => x = List.replicate n true)
      ≤ ENNReal.ofReal (Real.exp 1) * n * harmonicNumber n := by
  classical
  set c := (n : ℝ≥0∞)⁻¹ * (1 - (n : ℝ≥0∞)⁻¹) ^ (n - 1) with hc
  have h1 : q.mutationRate ≤ 1 := by rw [hq]; exact ENNReal.inv_le_one.mpr (by exact_mod_cast hn)
  have h0 : q.mutationRate ≠ 0 := by rw [hq]; exact ENNReal.inv_ne_zero.mpr (ENNReal.natCast_ne_top _)
  rw [show (fun x : BV => x = List.replicate n true) = IsMax n (fun x => (ones x : ℤ)) from
    funext (fun x => propext (oneMax_found n x).symm)]
  have h := ea_levels (oneMax_evaluates n) hn h1 h0 (level := ones) (fun x hx => oneMax_isMax hx)
    (fun x y => by exact_mod_cast Iff.rfl) (b := fun j => ((n - j : ℕ) : ℝ≥0∞) * c) (by
      intro x hx _
      have hcard : ((zeroPositions x).image (fun i => x.set i true)).card = n - ones x := by
        rw [Finset.card_image_of_injOn]
        · have := zeroPositions_card x
          omega
        · intro i hi j hj he
          simp only [zeroPositions, Finset.coe_filter, Finset.mem_range, Set.mem_ofPred_eq] at hi hj
          by_contra hne
          have h2 := congrArg (fun l : List Bool => l[i]?) he
          simp only [List.getElem?_set_self hi.1, List.getElem?_set_ne (fun e => hne e.symm), hi.2] at h2
          cases h2
      have hup := up_ge (val := fun x => (ones x : ℤ)) (d := (eaSearch (K := ℤ) q n).sampleBits) (x := x) (level := ones)
        (fun y hy => by exact_mod_cast hy.le) (Y := (zeroPositions x).image (fun i => x.set i true)) (c := c) (by
          intro y hy
          rw [Finset.mem_image] at hy
          obtain ⟨i, hi, rfl⟩ := hy
          simp only [zeroPositions, Finset.mem_filter, Finset.mem_range] at hi
          have hxi : x[i] = false := by
            have := hi.2
            rw [List.getElem?_eq_getElem hi.1] at this
            exact Option.some.inj this
          have hon := (ones_set hi.1).1 hxi
          refine ⟨by omega, ?_⟩
          have hdis := distance_set hi.1 true (by rw [hxi]; decide)
          have hge := ea_ge (K := ℤ) (q := q) (x := x) (y := x.set i true) hn h1 hx (by rw [List.length_set]; exact hx)
            (fun e => by rw [e] at hon; omega)
          rw [hdis, pow_one, hq] at hge
          exact hge)
      rw [hcard] at hup
      exact hup)
  refine h.trans ?_
  rw [Finset.range_eq_Ico, harmonic_Ico (Nat.zero_le n), Nat.sub_zero]
  exact mul_le_mul' (one_bit_inv n hn) (le_refl _)

/-! ## Random local search on one max -/

open Classical in
theorem oneMax_steps {x : BV} (hn : 0 < n) (hx : x.length = n) :
    ∑' t, (Dist.steps (move (singleBitFlip n) (fun x => (ones x : ℤ))) t x).expect (missing (IsMax n (fun x => (ones x : ℤ))))
      = (n : ℝ≥0∞) * harmonicNumber (n - ones x) := by
  let P : RlsParams ℤ := ⟨⟨false, []⟩, singleBitFlip n, fun _ _ => false, 0, false⟩
  refine drift_eq (inv := fun x : BV => x.length = n) (V := fun x => (n : ℝ≥0∞) * harmonicNumber (n - ones x)) ?_ ?_
    (C := (n : ℝ≥0∞) * n) (ENNReal.mul_ne_top (ENNReal.natCast_ne_top _) (ENNReal.natCast_ne_top _)) ?_ hx
  · exact fun a ha b hb => (move_support (p := P) (fun l hl => singleBitFlip_support hn hl) ha hb).1
  · intro a ha
    subst ha
    by_cases h : ones a < a.length
    · rw [missing, if_neg (fun hm => by have := (oneMax_isMax rfl).mp hm; omega)]
      exact oneMax_drift hn h
    · have hle := ones_le a
      have he : ones a = a.length := by omega
      rw [missing, if_pos ((oneMax_isMax rfl).mpr (by omega)), zero_add,
        oneMax_move hn (fun k => (a.length : ℝ≥0∞) * harmonicNumber (a.length - k)), he]
      simp [harmonicNumber]
  · intro a ha
    by_cases h : IsMax n (fun x => (ones x : ℤ)) a
    · have := (oneMax_isMax ha).mp h
      rw [missing, if_pos h, show n - ones a = 0 by omega]
      simp [harmonicNumber]
    · rw [missing, if_neg h, mul_one]
      refine mul_le_mul' (le_refl _) ((harmonic_le _).trans ?_)
      exact_mod_cast Nat.sub_le n (ones a)

/-- C111: on one max, the expected number of iterations of random local search with single bit flips, from a given starting
point with `d` zeros, is exactly `n (1 + 1/2 + ... + 1/d)`, with full or incremental evaluation. -/
theorem rls_oneMax {p : RlsParams ℤ} (hn : 0 < n) (hp : Elitist p) (hb : p.sampleBits = singleBitFlip n)
    (hr : p.randomInitialization = false) (hl : p.startingPoint.length = n) :
    expectedTime (rlsAfter p (oneMax n) n) (fun x => x = List.replicate n true)
      = n * harmonicNumber (p.startingPoint.count false) := by
  classical
  rw [show (fun x : BV => x = List.replicate n true) = IsMax n (fun x => (ones x : ℤ)) from
    funext (fun x => propext (oneMax_found n x).symm)]
  rw [expectedTime_eq (oneMax_evaluates n) hp (singleBitFlip_samples hn hb) (fun _ => hl), hb]
  unfold startLaw
  rw [hr, if_neg (by decide), Dist.expect_pure, oneMax_steps hn hl]
  congr 2
  have h1 : p.startingPoint.length = p.startingPoint.count true + p.startingPoint.count false := by
    rw [List.length_eq_countP_add_countP (· == true)]
    congr 1
    refine List.countP_congr (fun b _ => ?_)
    cases b <;> simp
  unfold ones
  omega

/-- C111: from a random starting point, it is at most `n (1 + 1/2 + ... + 1/n)`. -/
theorem rls_oneMax_random {p : RlsParams ℤ} (hn : 0 < n) (hp : Elitist p) (hb : p.sampleBits = singleBitFlip n)
    (hs : Starts p n) :
    expectedTime (rlsAfter p (oneMax n) n) (fun x => x = List.replicate n true) ≤ n * harmonicNumber n := by
  classical
  rw [show (fun x : BV => x = List.replicate n true) = IsMax n (fun x => (ones x : ℤ)) from
    funext (fun x => propext (oneMax_found n x).symm)]
  rw [expectedTime_eq (oneMax_evaluates n) hp (singleBitFlip_samples hn hb) hs, hb]
  calc (startLaw p n).expect _ ≤ (startLaw p n).expect (fun _ => (n : ℝ≥0∞) * harmonicNumber n) := by
        refine Dist.expect_mono (fun x hx => ?_)
        rw [oneMax_steps hn (startLaw_support hs hx)]
        exact mul_le_mul' (le_refl _) (harmonic_mono (Nat.sub_le _ _))
    _ = _ := by rw [Dist.expect_const, startLaw_total, one_mul]

/-- C111 (negative part): with single bit flips, random local search does not leave a vector which is strictly better than its
neighbours: started there, it never finds a maximum if that vector is not one. -/
theorem rls_trapped (hf : Evaluates f n val) (hn : 0 < n) (hp : Elitist p) (hb : p.sampleBits = singleBitFlip n)
    (hr : p.randomInitialization = false) (hl : p.startingPoint.length = n)
    (hloc : ∀ i, (h : i < p.startingPoint.length) → val (p.startingPoint.set i (!p.startingPoint[i])) < val p.startingPoint)
    (t : ℕ) : rlsAfter p f n t = pure (p.startingPoint, val p.startingPoint) := by
  have hd := singleBitFlip_samples hn hb
  rw [rlsAfter_steps hf hp hd.support (fun _ => hl)]
  unfold startLaw
  rw [hr, if_neg (by decide), Dist.pure_bind']
  have hmove : move p.sampleBits val p.startingPoint = pure p.startingPoint := by
    unfold move mutate
    rw [hb]
    unfold singleBitFlip
    simp only [Dist.bind_assoc', Dist.pure_bind']
    have h1 : (Dist.uniformInt 0 (n - 1) >>= fun i => Dist.lift (bvFlipSparse p.startingPoint [i]) >>= fun y =>
        (pure (if val p.startingPoint ≤ val y then y else p.startingPoint) : Dist BV))
        = (Dist.uniformInt 0 (n - 1) >>= fun _ => pure p.startingPoint) := by
      refine Dist.bind_congr_support (fun i hi => ?_)
      rw [uniformBelow hn] at hi
      have hlt : i < p.startingPoint.length := by
        rw [hl]
        by_contra h'
        exact hi (if_neg h')
      rw [flip_one hlt, Dist.lift_ok, Dist.pure_bind', if_neg (not_le.mpr (hloc i hlt))]
    rw [h1]
    have h2 := singleBitFlip_total hn
    unfold singleBitFlip at h2
    rw [Dist.total_bind] at h2
    simp only [Dist.total_pure, mul_one] at h2
    refine Dist.ext (fun y => ?_)
    rw [Dist.bind_apply, ENNReal.tsum_mul_right, h2, one_mul]
  have hsteps : ∀ t, Dist.steps (move p.sampleBits val) t p.startingPoint = pure p.startingPoint := by
    intro t
    induction t with
    | zero => rfl
    | succ t ih =>
      change (move p.sampleBits val p.startingPoint >>= Dist.steps (move p.sampleBits val) t) = _
      rw [hmove, Dist.pure_bind', ih]
  rw [hsteps, Dist.pure_bind']

/-- C111 (negative part): random local search with single bit flips, started from the vector of zeros, never finds the maximum of
a trap: the expected number of iterations is infinite. -/
theorem rls_trap {p : RlsParams ℤ} (hn : 2 ≤ n) (hp : Elitist p) (hb : p.sampleBits = singleBitFlip n)
    (hr : p.randomInitialization = false) (hl : p.startingPoint = List.replicate n false) :
    (∀ t, missProb (rlsAfter p (trap n 1 n) n t) (fun x => x = List.replicate n true) = 1) ∧
    expectedTime (rlsAfter p (trap n 1 n) n) (fun x => x = List.replicate n true) = ∞ := by
  classical
  have hev : Evaluates (trap n 1 n) n (fun x => trapBlock n ((x.take n).count true)) := by
    refine ⟨rfl, fun x hx => ?_, fun h => by cases h⟩
    have := trap_value 1 n x (by omega)
    simpa using this
  have hlen : p.startingPoint.length = n := by rw [hl, List.length_replicate]
  have hmiss : ∀ t, missProb (rlsAfter p (trap n 1 n) n t) (fun x => x = List.replicate n true) = 1 := by
    intro t
    rw [rls_trapped hev (by omega) hp hb hr hlen ?_ t]
    · unfold missProb
      rw [Dist.prob_expect, Dist.expect_pure, if_neg, tsub_zero]
      intro h
      rw [hl] at h
      have := congrArg (fun l : List Bool => l.count true) h
      simp [List.count_replicate] at this
      omega
    · intro i hi
      have h0 : p.startingPoint[i] = false := by simp [hl]
      have hc0 : p.startingPoint.count true = 0 := by rw [hl]; simp [List.count_replicate]
      have h1 := (ones_set hi).1 h0
      unfold ones at h1
      rw [h0, Bool.not_false, List.take_of_length_le (by rw [List.length_set]; omega), List.take_of_length_le (by omega), h1, hc0]
      unfold trapBlock
      rw [if_neg (by omega), if_neg (by omega)]
      push_cast
      omega
  refine ⟨hmiss, ?_⟩
  unfold expectedTime
  simp only [hmiss]
  exact ENNReal.tsum_const_eq_top_of_ne_zero one_ne_zero

/-! ## Random search -/

open Classical in
/-- C111: the probability that random search has not found one of the `N` maxima after `t` iterations is exactly
`(1 - N / 2^n)^(t + 1)`: it draws `t + 1` uniform vectors. -/
theorem randomSearch_law (hf : Evaluates f n val) {t : ℕ} (ht : 0 < t) :
    missProb (randomSearch f n t) (IsMax n val) = (1 - {x | IsMax n val x}.ncard / (2 : ℝ≥0∞) ^ n) ^ (t + 1) := by
  have hinit : searchInit f n = (bvRandomBits (List.replicate n false) >>= fun x => pure ⟨List.replicate n false, (x, val x)⟩) := by
    unfold searchInit randomSolution
    rw [Dist.bind_assoc']
    refine Dist.bind_congr_support (fun x hx => ?_)
    have hlen : x.length = n := by
      rw [bvRandomBits_law] at hx
      by_contra h'
      exact hx (if_neg (by simpa using h'))
    rw [hf.eval x hlen, Dist.lift_ok, Dist.pure_bind', Dist.pure_bind']
  have hgood : ∀ x, bvRandomBits (List.replicate n false) x ≠ 0 →
      GoodSearch n val (⟨List.replicate n false, (x, val x)⟩ : SearchState K) := by
    intro x hx
    refine ⟨by simp, ?_, rfl⟩
    rw [bvRandomBits_law] at hx
    by_contra h'
    exact hx (if_neg (by simpa using h'))
  have heq : randomSearch f n t = (bvRandomBits (List.replicate n false) >>= fun x =>
      boundedLoop (fun _ => false) (searchIterate f) t ⟨List.replicate n false, (x, val x)⟩ >>= fun s => pure s.solution) := by
    unfold randomSearch loop
    rw [hinit, Dist.bind_assoc', Dist.bind_assoc']
    congr 1
    funext x
    rw [Dist.pure_bind', if_pos (by omega), Int.toNat_natCast]
  have htot : (randomSearch f n t).total = 1 := by
    rw [heq, Dist.total_bind]
    have h2 := Dist.expect_congr (d := bvRandomBits (List.replicate n false))
      (V := fun x => (boundedLoop (fun _ => false) (searchIterate f) t ⟨List.replicate n false, (x, val x)⟩ >>= fun s =>
        (pure s.solution : Dist (BV × K))).total)
      (W := fun _ => 1) (fun x hx => by
        rw [Dist.total_bind]
        simp only [Dist.total_pure, mul_one]
        exact (search_steps hf t (hgood x hx)).1)
    rw [Dist.expect_const, bvRandomBits_total, one_mul] at h2
    exact h2
  unfold missProb
  rw [Dist.one_sub_prob htot, heq, Dist.expect_bind]
  rw [Dist.expect_congr (W := fun x => (1 - ({y | IsMax n val y}.ncard : ℝ≥0∞) * ((2 : ℝ≥0∞) ^ n)⁻¹) ^ t
      * (if IsMax n val x then 0 else 1)) (fun x hx => by
    rw [Dist.expect_bind, mul_comm]
    simp only [Dist.expect_pure]
    exact (search_steps hf t (hgood x hx)).2)]
  have h3 := Dist.expect_mul_left (bvRandomBits (List.replicate n false))
    ((1 - ({y | IsMax n val y}.ncard : ℝ≥0∞) * ((2 : ℝ≥0∞) ^ n)⁻¹) ^ t) (fun x => if IsMax n val x then 0 else 1)
  rw [h3, ← Dist.one_sub_prob (bvRandomBits_total _), uniform_prob (P := IsMax n val) _ (fun y hy => by simpa using hy.1),
    List.length_replicate, pow_succ, div_eq_mul_inv]

/-! ## Leading ones -/

theorem leadingOnes_evaluates (n : ℕ) : Evaluates (leadingOnes n) n (fun x => (leadingOnesLoop x : ℤ)) :=
  ⟨rfl, fun _ _ => rfl, fun h => by cases h⟩

theorem leading_le : ∀ x : BV, leadingOnesLoop x ≤ x.length
  | [] => le_refl _
  | b :: x => by
    have := leading_le x
    cases b
    · simp [leadingOnesLoop]
    · simpa [leadingOnesLoop] using this

theorem leading_replicate : ∀ n : ℕ, leadingOnesLoop (List.replicate n true) = n
  | 0 => rfl
  | n + 1 => by
    rw [List.replicate_succ]
    simpa [leadingOnesLoop] using leading_replicate n

theorem leading_full : ∀ x : BV, leadingOnesLoop x = x.length → x = List.replicate x.length true
  | [], _ => rfl
  | b :: x, h => by
    cases b
    · simp [leadingOnesLoop] at h
    · have h2 : leadingOnesLoop x = x.length := by simpa [leadingOnesLoop] using h
      have := leading_full x h2
      rw [List.length_cons, List.replicate_succ, ← this]

theorem leading_next : ∀ x : BV, (h : leadingOnesLoop x < x.length) → x[leadingOnesLoop x] = false ∧
    leadingOnesLoop x < leadingOnesLoop (x.set (leadingOnesLoop x) true)
  | [], h => by simp [leadingOnesLoop] at h
  | b :: x, h => by
    cases b
    · simp [leadingOnesLoop]
    · have h2 : leadingOnesLoop x < x.length := by simpa [leadingOnesLoop] using h
      obtain ⟨g1, g2⟩ := leading_next x h2
      have e : leadingOnesLoop (true :: x) = leadingOnesLoop x + 1 := by simp [leadingOnesLoop]
      simp only [e, List.getElem_cons_succ, List.set_cons_succ]
      refine ⟨g1, ?_⟩
      have : leadingOnesLoop (true :: x.set (leadingOnesLoop x) true) = leadingOnesLoop (x.set (leadingOnesLoop x) true) + 1 := by
        simp [leadingOnesLoop]
      omega

theorem leading_isMax {x : BV} (hx : x.length = n) : IsMax n (fun x => (leadingOnesLoop x : ℤ)) x ↔ n ≤ leadingOnesLoop x := by
  constructor
  · intro h
    have := h.2 (List.replicate n true) (by simp)
    simp only [leading_replicate] at this
    exact_mod_cast this
  · intro h
    refine ⟨hx, fun y hy => ?_⟩
    have := leading_le y
    simp only
    exact_mod_cast (by omega : leadingOnesLoop y ≤ leadingOnesLoop x)

/-- C111: on leading ones, the expected number of iterations of the (1+1) evolutionary algorithm with rate `1 / n` is at most
`e n^2`. -/
theorem ea_leadingOnes (hn : 0 < n) {q : EaParams} (hq : q.mutationRate = (n : ℝ≥0∞)⁻¹) :
    expectedTime (rlsAfter (eaSearch q n) (leadingOnes n) n) (fun x => x = List.replicate n true)
      ≤ ENNReal.ofReal (Real.exp 1) * (n : ℝ≥0∞) ^ 2 := by
  classical
  set c := (n : ℝ≥0∞)⁻¹ * (1 - (n : ℝ≥0∞)⁻¹) ^ (n - 1) with hc
  have h1 : q.mutationRate ≤ 1 := by rw [hq]; exact ENNReal.inv_le_one.mpr (by exact_mod_cast hn)
  have h0 : q.mutationRate ≠ 0 := by rw [hq]; exact ENNReal.inv_ne_zero.mpr (ENNReal.natCast_ne_top _)
  have hmax : ∀ x : BV, IsMax n (fun x => (leadingOnesLoop x : ℤ)) x ↔ x = List.replicate n true := by
    intro x
    constructor
    · intro h
      have h2 := (leading_isMax h.1).mp h
      have h3 := leading_full x (le_antisymm (leading_le x) (by rw [h.1]; exact h2))
      rw [h.1] at h3
      exact h3
    · rintro rfl
      rw [leading_isMax (by simp), leading_replicate]
  rw [show (fun x : BV => x = List.replicate n true) = IsMax n (fun x => (leadingOnesLoop x : ℤ)) from
    funext (fun x => propext (hmax x).symm)]
  have h := ea_levels (leadingOnes_evaluates n) hn h1 h0 (level := leadingOnesLoop) (fun x hx => leading_isMax hx)
    (fun x y => by exact_mod_cast Iff.rfl) (b := fun _ => c) (by
      intro x hx hlt
      have hlt' : leadingOnesLoop x < x.length := by omega
      obtain ⟨g1, g2⟩ := leading_next x hlt'
      have hup := up_ge (val := fun x => (leadingOnesLoop x : ℤ)) (d := (eaSearch (K := ℤ) q n).sampleBits) (x := x)
        (level := leadingOnesLoop) (fun y hy => by exact_mod_cast hy.le) (Y := {x.set (leadingOnesLoop x) true}) (c := c) (by
          intro y hy
          rw [Finset.mem_singleton] at hy
          subst hy
          refine ⟨g2, ?_⟩
          have hdis := distance_set hlt' true (by rw [g1]; decide)
          have hge := ea_ge (K := ℤ) (q := q) (x := x) (y := x.set (leadingOnesLoop x) true) hn h1 hx
            (by rw [List.length_set]; exact hx) (fun e => by rw [e] at g2; omega)
          rw [hdis, pow_one, hq] at hge
          exact hge)
      rw [Finset.card_singleton, Nat.cast_one, one_mul] at hup
      exact hup)
  refine h.trans ?_
  rw [Finset.sum_const, Finset.card_range, nsmul_eq_mul]
  calc (n : ℝ≥0∞) * c⁻¹ ≤ n * (ENNReal.ofReal (Real.exp 1) * n) := mul_le_mul' (le_refl _) (one_bit_inv n hn)
    _ = _ := by ring

/-! ## Examples -/

/-- Random local search with single bit flips and incremental evaluation, from a given starting point. -/
noncomputable def exampleSearch (x : BV) : RlsParams ℤ where
  randomInitialization := false
  startingPoint := x
  sampleBits := singleBitFlip x.length
  compare := fun a b => decide (b ≤ a)
  patience := 0
  incremental := true

theorem exampleSearch_elitist (x : BV) : Elitist (exampleSearch x) := ⟨fun _ _ => rfl, le_refl _⟩

/-- Three bits, two of which are zeros: `3 (1 + 1/2)` iterations. -/
example : expectedTime (rlsAfter (exampleSearch [false, true, false]) (oneMax 3) 3) (fun x => x = List.replicate 3 true)
    = (3 : ℕ) * harmonicNumber 2 :=
  rls_oneMax (by decide) (exampleSearch_elitist _) rfl rfl rfl

example : expectedTime (rlsAfter { exampleSearch [false, true, false] with randomInitialization := true } (oneMax 3) 3)
    (fun x => x = List.replicate 3 true) ≤ (3 : ℕ) * harmonicNumber 3 :=
  rls_oneMax_random (by decide) ⟨fun _ _ => rfl, le_refl _⟩ rfl (fun h => by cases h)

example : expectedTime (rlsAfter (exampleSearch [false, false, false]) (trap 3 1 3) 3) (fun x => x = List.replicate 3 true) = ∞ :=
  (rls_trap (by decide) (exampleSearch_elitist _) rfl rfl rfl).2

example : (randomLocalSearch (exampleSearch [false, true]) (oneMax 2) 2 0).total = 0 :=
  rls_endless (oneMax_evaluates 2) (exampleSearch_elitist _) (singleBitFlip_samples (by decide) rfl) (fun _ => rfl) (le_refl _)

example : randomLocalSearch (exampleSearch [false, true]) (oneMax 2) 2 (7 : ℕ) = rlsAfter (exampleSearch [false, true]) (oneMax 2) 2 7 :=
  rls_after (by decide)

example : rlsAfter (eaSearch (EaParams.new 2) 2) (oneMax 2) 2 0 ([true, false], 1) = (2 ^ 2)⁻¹ := by
  rw [ea_start (oneMax_evaluates 2)]
  exact if_pos ⟨rfl, by decide⟩

example : mutate (eaSearch (K := ℤ) ⟨0, 3⁻¹, true, false⟩ 1).sampleBits [true] [true] = 1 - 3⁻¹ := by
  have h := ea_mutation (K := ℤ) (x := [true]) (by decide) (q := ⟨0, 3⁻¹, true, false⟩) (by simp) [true]
  have h1 : (3 : ℝ≥0∞)⁻¹ * 3⁻¹ < 1 := by
    refine lt_of_le_of_lt (mul_le_of_le_one_left' (ENNReal.inv_le_one.mpr (by norm_num))) (ENNReal.inv_lt_one.mpr (by norm_num))
  have hd : distance [true] [true] = 0 := by decide
  rw [if_pos ⟨rfl, by simpa using h1⟩, hd] at h
  simpa using h

/-- One max on five bits, three iterations: no more than `(31/32)^4`, since there is one maximum. -/
example : missProb (randomSearch (oneMax 5) 5 (3 : ℕ)) (IsMax 5 (fun x => (ones x : ℤ))) = (1 - 1 / 2 ^ 5) ^ 4 := by
  rw [randomSearch_law (oneMax_evaluates 5) (by decide)]
  have : {x : BV | IsMax 5 (fun x => (ones x : ℤ)) x} = {List.replicate 5 true} := by
    ext x
    exact oneMax_found 5 x
  rw [this, Set.ncard_singleton, Nat.cast_one]

/-- The rate `1 / 2`, with which the bound is `(1 - 1/8)^20`. -/
example : missProb (onePlusOneEa ⟨20, 2⁻¹, true, false⟩ (trap 3 1 3) 3)
    (IsMax 3 (fun x => trapBlock 3 ((x.take 3).count true))) ≤ (1 - min 2⁻¹ (1 - 2⁻¹) ^ 3) ^ 20 :=
  ea_converges (n := 3) (q := ⟨20, 2⁻¹, true, false⟩) ⟨rfl, fun x hx => by simpa using trap_value 1 3 x (by simpa using hx), fun h => by cases h⟩
    (by decide) (by simp) (by simp) (by decide)

example : expectedTime (rlsAfter (eaSearch (EaParams.new 10) 10) (oneMax 10) 10) (IsMax 10 (fun x => (ones x : ℤ)))
    ≤ ((10 : ℕ) : ℝ≥0∞) ^ 10 := ea_default (oneMax_evaluates 10) (by decide)

example : expectedTime (rlsAfter (eaSearch { EaParams.new 10 with allowNoMutation := true, incremental := true } 10) (oneMax 10) 10)
    (fun x => x = List.replicate 10 true) ≤ ENNReal.ofReal (Real.exp 1) * (10 : ℕ) * harmonicNumber 10 :=
  ea_oneMax (by decide) rfl

example : expectedTime (rlsAfter (eaSearch (EaParams.new 10) 10) (leadingOnes 10) 10) (fun x => x = List.replicate 10 true)
    ≤ ENNReal.ofReal (Real.exp 1) * ((10 : ℕ) : ℝ≥0∞) ^ 2 := ea_leadingOnes (by decide) rfl

end Hnco.Prob
