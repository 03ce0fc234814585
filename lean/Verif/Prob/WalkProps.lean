import Verif.Prob.AnnealingLemmas
import Verif.Prob.TimeProps

/-!
# Properties of the random walk, of simulated annealing and of the Gibbs sampler, with probabilities
-/

namespace Hnco.Prob

open Outcome
open scoped ENNReal

/-! ## The neighbourhoods -/

/-- C112: all neighbourhoods sample sorted bits in range with probability one. -/
theorem neighborhoods_sample {n : ℕ} (hn : 0 < n) :
    BitSampler (singleBitFlip n) n ∧
    (∀ m : StandardBitMutation, m.rate ≤ 1 → m.rate ≠ 0 → BitSampler (m.sampleBits n) n) ∧
    (∀ r, r ≤ n → BitSampler (hammingSphere n r) n) ∧ (∀ r, 0 < r → r ≤ n → BitSampler (hammingBall n r) n) := by
  have hof : ∀ {d : Dist (List ℕ)}, (∀ l, d l ≠ 0 → Ascending 0 n l) → d.total = 1 → BitSampler d n := fun h ht =>
    ⟨fun l hl => ⟨(h l hl).1, fun i hi => by have := (h l hl).2 i hi; omega⟩, ht⟩
  refine ⟨hof (fun l hl => singleBitFlip_support hn hl) (singleBitFlip_total hn), ?_, ?_, ?_⟩
  · intro m h1 h0
    exact hof (standard_samples hn h1 h0).1 (standard_samples hn h1 h0).2
  · intro r hr
    rw [sphere_choose hn hr]
    exact hof (fun l hl => chooseLaw_support hl) (chooseLaw_total n 0 r hr)
  · intro r h0 hr
    have hb : hammingBall n r = (Dist.uniformInt 1 r >>= fun k => chooseLaw 0 n k) := by
      refine Dist.bind_congr_support (fun k hk => ?_)
      have hk' : 1 ≤ k ∧ k ≤ r := by
        by_contra h
        exact hk (if_neg h)
      rw [Dist.assert_bind (by simp; omega), Dist.assert_bind (by simp; omega)]
      exact sphere_choose hn (by omega)
    refine hof ?_ ?_
    · intro l hl
      rw [hb] at hl
      obtain ⟨k, _, hl⟩ := bind_support hl
      exact chooseLaw_support hl
    · rw [hb, Dist.total_bind]
      have ht := Dist.uniformInt_total h0
      unfold Dist.total at ht
      rw [← ht]
      refine tsum_congr (fun k => ?_)
      by_cases hk : Dist.uniformInt 1 r k = 0
      · rw [hk, zero_mul]
      · have hk' : 1 ≤ k ∧ k ≤ r := by
          by_contra h
          exact hk (if_neg h)
        rw [chooseLaw_total n 0 k (by omega), mul_one]

example : BitSampler (hammingBall 5 2) 5 := (neighborhoods_sample (by decide)).2.2.2 2 (by decide) (by decide)

/-! ## Random walk -/

section Walk

variable {K : Type} [LinearOrder K] {f : Fn K} {n : ℕ} {val : BV → K} {d : Dist (List ℕ)}

/-- C112: an iteration of the random walk moves from the vector `x` to `y` with the probability that the neighbourhood flips
the bits in which they differ. -/
theorem walk_step (hd : BitSampler d n) (hf : Evaluates f n val) {s : WalkState K} (hc : s.nbh.candidate = s.nbh.origin)
    (hs : s.nbh.origin.length = n) (y : BV) :
    walkVector (walkIterate d f s) y = if y.length = n then d (differences s.nbh.origin y) else 0 := by
  have := walk_move hd hf (s := s) ⟨hc, hs⟩
  unfold walkVector
  rw [this, mutate_apply (fun l hl => by rw [hs]; exact hd.support l hl), hs]

/-- C112: with random initialization the vector of the random walk is uniform after any number of iterations, whatever the
neighbourhood and the function. -/
theorem walk_uniform (hd : BitSampler d n) (hf : Evaluates f n val) {p : StartParams} (hp : p.randomInitialization = true) (t : ℕ) :
    walkVector (randomWalk p d f n t) = uniformLaw n := by
  unfold walkVector
  rw [randomWalk_eq hd hf p (fun h => by rw [hp] at h; cases h)]
  unfold walkStart
  rw [if_pos hp]
  exact stationary_steps (mutate_stationary hd) t

/-- C112: a random walk which flips one bit at a time never forgets its starting point: the parity of the number of ones
changes at every iteration. -/
theorem walk_parity (hn : 0 < n) (hf : Evaluates f n val) {p : StartParams} (hp : p.randomInitialization = false)
    (hs : p.startingPoint.length = n) (t : ℕ) {y : BV} (hy : walkVector (randomWalk p (singleBitFlip n) f n t) y ≠ 0) :
    ones y % 2 = (ones p.startingPoint + t) % 2 := by
  have hd := (neighborhoods_sample hn).1
  have hone : ∀ x y : BV, x.length = n → mutate (singleBitFlip n) x y ≠ 0 → y.length = n ∧ ones y % 2 = (ones x + 1) % 2 := by
    intro x y hx h
    refine ⟨mutate_length hd hx h, ?_⟩
    obtain ⟨l, hl, h⟩ := bind_support h
    obtain ⟨i, hi, hl⟩ := bind_support hl
    have hi' : i < x.length := by
      rw [uniformBelow hn] at hi
      by_contra h'
      exact hi (if_neg (by omega))
    rw [pure_support hl] at h
    have h := lift_support h
    rw [flip_one hi'] at h
    rw [← Outcome.ok.inj h]
    cases hb : x[i] with
    | false =>
      have := (ones_set hi').1 hb
      rw [show (!false) = true from rfl, this]
    | true =>
      have := (ones_set hi').2 hb
      rw [show (!true) = false from rfl]
      omega
  have hsteps : ∀ t (x y : BV), x.length = n → Dist.steps (mutate (singleBitFlip n)) t x y ≠ 0 → ones y % 2 = (ones x + t) % 2 := by
    intro t
    induction t with
    | zero => intro x y _ h; rw [pure_support h]; rfl
    | succ t ih =>
      intro x y hx h
      obtain ⟨z, hz, h⟩ := bind_support h
      have h1 := hone x z hx hz
      have h2 := ih z y h1.1 h
      omega
  unfold walkVector at hy
  rw [randomWalk_eq hd hf p (fun _ => hs)] at hy
  unfold walkStart at hy
  rw [if_neg (by rw [hp]; decide), Dist.pure_bind'] at hy
  exact hsteps t _ _ hs hy

end Walk

/-! ## Simulated annealing -/

section Annealing

variable {f : Fn ℝ} {n : ℕ} {val : BV → ℝ} {p : SaParams}

/-- C112: an iteration of simulated annealing always ends, leaves it between two iterations, and moves from the vector `x` to
another one `y` with the probability that the neighbourhood flips the bits in which they differ times that of acceptance: one
if `y` is not worse, otherwise the exponential of the inverse temperature times the difference of the values. -/
theorem annealing_step (hd : BitSampler p.sampleBits n) (hf : Evaluates f n val) {s : SaState} (hs : Annealing n val s)
    (hb : 0 ≤ s.beta) :
    (saIterate p f s).total = 1 ∧ (∀ t, saIterate p f s t ≠ 0 → Annealing n val t) ∧
    ∀ y : BV, y.length = n → y ≠ s.nbh.origin → saVector (saIterate p f s) y
      = p.sampleBits (differences s.nbh.origin y) *
        (if val s.nbh.origin ≤ val y then 1 else ENNReal.ofReal (Real.exp (s.beta * (val y - val s.nbh.origin)))) := by
  have hm := sa_metropolis hd hf hs
  refine ⟨?_, fun t ht => sa_good hd hf hs ht, ?_⟩
  · have : (saIterate p f s >>= fun t => (pure t.nbh.origin : Dist BV)).total = 1 := by
      rw [hm]
      exact metropolis_total hd hs.length
    rw [Dist.total_bind] at this
    simp only [Dist.total_pure, mul_one] at this
    exact this
  · intro y hy hne
    unfold saVector
    rw [hm, metropolis_ne hb hne, mutate_apply (fun l hl => by rw [hs.length]; exact hd.support l hl), if_pos (by rw [hs.length, hy])]
    unfold acceptance
    rw [mul_comm s.beta]

/-- C112: simulated annealing counts the worse vectors it has accepted.  When the count is the required one at the end of an
iteration, the inverse temperature is multiplied by the ratio and the count starts again; otherwise the temperature is not
changed. -/
theorem annealing_cools (hd : BitSampler p.sampleBits n) (hf : Evaluates f n val) {s t : SaState} (hs : Annealing n val s)
    (ht : saIterate p f s t ≠ 0) :
    ∃ k : ℤ, (k = if val t.nbh.origin < val s.nbh.origin then s.transitions + 1 else s.transitions) ∧
      (k ≠ p.numTransitions → t.beta = s.beta ∧ t.transitions = k) ∧
      (k = p.numTransitions → t.beta = s.beta * p.betaRatio ∧ t.transitions = 0) := by
  obtain ⟨l, y, b, hlen, rfl⟩ := sa_outcome hd hf hs ht
  rw [saCool_nbh]
  have key : ∀ u : SaState, u.beta = s.beta → u.transitions = (if val u.nbh.origin < val s.nbh.origin then s.transitions + 1 else s.transitions) →
      ∃ k : ℤ, (k = if val u.nbh.origin < val s.nbh.origin then s.transitions + 1 else s.transitions) ∧
        (k ≠ p.numTransitions → (saCool p u).beta = s.beta ∧ (saCool p u).transitions = k) ∧
        (k = p.numTransitions → (saCool p u).beta = s.beta * p.betaRatio ∧ (saCool p u).transitions = 0) := by
    intro u hu ht
    refine ⟨_, rfl, ?_, ?_⟩
    · intro h
      rw [← ht] at h ⊢
      unfold saCool
      rw [if_neg h]
      exact ⟨hu, rfl⟩
    · intro h
      rw [← ht] at h
      unfold saCool
      rw [if_pos h]
      exact ⟨by rw [← hu], rfl⟩
  refine key _ ?_ ?_
  · unfold saNext
    split
    · rfl
    · split <;> rfl
  · unfold saNext
    split
    · next h => exact (if_neg (not_lt.mpr h)).symm
    · next h =>
      split
      · exact (if_pos (not_le.mp h)).symm
      · exact (if_neg (lt_irrefl _)).symm

/-- C112: the Boltzmann law at the current temperature is kept by an iteration of simulated annealing, whatever the
neighbourhood. -/
theorem annealing_boltzmann (hd : BitSampler p.sampleBits n) (hf : Evaluates f n val) {beta : ℝ} (hb : 0 ≤ beta) {state : BV → SaState}
    (hstate : ∀ x : BV, x.length = n → Annealing n val (state x) ∧ (state x).nbh.origin = x ∧ (state x).beta = beta) :
    Stationary (boltzmannLaw n (fun x => beta * val x)) (fun x => saVector (saIterate p f (state x))) := by
  refine stationary_congr (step' := metropolis p.sampleBits val beta) ?_ (metropolis_stationary hd hb)
  intro x hx
  obtain ⟨h1, h2, h3⟩ := hstate x (boltzmann_support.mp hx)
  have := sa_metropolis hd hf h1
  rw [h2, h3] at this
  exact this

/-- C112: at constant temperature, with a neighbourhood which may flip any set of bits, simulated annealing forgets its
starting point exponentially fast, and its vector tends to the Boltzmann law. -/
theorem annealing_converges (hd : BitSampler p.sampleBits n)
    (hpos : ∀ l : List ℕ, l.Pairwise (· < ·) → (∀ i ∈ l, i < n) → p.sampleBits l ≠ 0)
    (hf : Evaluates f n val) (hr : p.betaRatio = 1) {beta : ℝ} (hb : 0 ≤ beta) :
    ∃ c : ℝ≥0∞, c ≠ 0 ∧ ∀ s, Annealing n val s → s.beta = beta → ∀ t,
      Within ((1 - c) ^ t) (saVector (annealing p f t s)) (boltzmannLaw n (fun x => beta * val x)) := by
  obtain ⟨c, hc, hmin⟩ := metropolis_min (val := val) hd hb hpos (List.replicate n false) (by simp)
  refine ⟨c, hc, fun s hs hsb t => ?_⟩
  unfold saVector annealing
  have h1 := sa_steps hd hf hr t hs
  rw [hsb] at h1
  rw [h1]
  have hsteps1 : ∀ a, Dist.steps (metropolis p.sampleBits val beta) 1 a = metropolis p.sampleBits val beta a := fun a => Dist.bind_pure' _
  have := doeblin_within (step := metropolis p.sampleBits val beta) (inv := fun x => x.length = n)
    (fun a ha b hab => metropolis_length hd ha hab) (fun a ha => metropolis_total hd ha) (k := 1) (c := c)
    (z := List.replicate n false) (fun a ha => by rw [hsteps1]; exact hmin a ha) (by simp)
    (metropolis_stationary hd hb) (boltzmann_total _ _) (fun a ha => boltzmann_support.mp ha) hs.length 0 t
  rwa [one_mul, add_zero] at this

open Classical in
/-- C112: if all vectors which are not maxima are worse than the maxima by at least `gap` then the Boltzmann law gives them a
probability which tends to zero exponentially with the inverse temperature. -/
theorem boltzmann_maxima {beta gap : ℝ} (hb : 0 ≤ beta)
    (hgap : ∀ x y : BV, IsMax n val x → y.length = n → ¬ IsMax n val y → val y + gap ≤ val x) :
    (boltzmannLaw n (fun x => beta * val x)).prob (fun x => ¬ IsMax n val x) ≤ 2 ^ n * ENNReal.ofReal (Real.exp (-(beta * gap))) := by
  obtain ⟨z, hz, hmax⟩ := Set.exists_max_image {x : BV | x.length = n} val (List.finite_length_eq Bool n) ⟨List.replicate n false, by simp⟩
  have hzmax : IsMax n val z := ⟨hz, fun y hy => hmax y hy⟩
  have hz : z.length = n := hz
  rw [Dist.prob_expect]
  unfold Dist.expect
  have hw : weight (fun x => beta * val x) z ≤ partition n (fun x => beta * val x) := by
    have := ENNReal.le_tsum (f := fun y : BV => if y.length = n then weight (fun x => beta * val x) y else 0) z
    rwa [if_pos hz] at this
  have hterm : ∀ y, boltzmannLaw n (fun x => beta * val x) y * (if ¬ IsMax n val y then 1 else 0)
      ≤ (2 ^ n * uniformLaw n y) * ENNReal.ofReal (Real.exp (-(beta * gap))) := by
    intro y
    by_cases hy : y.length = n
    · by_cases hm : IsMax n val y
      · rw [if_neg (not_not.mpr hm), mul_zero]
        exact zero_le
      · rw [if_pos hm, mul_one, boltzmann_apply, if_pos hy]
        have hu : (2 : ℝ≥0∞) ^ n * uniformLaw n y = 1 := by
          change (2 : ℝ≥0∞) ^ n * (if y.length = n then _ else 0) = 1
          rw [if_pos hy]
          exact ENNReal.mul_inv_cancel (by simp) (by simp)
        rw [hu, one_mul]
        refine ENNReal.div_le_of_le_mul ?_
        calc weight (fun x => beta * val x) y
            ≤ ENNReal.ofReal (Real.exp (-(beta * gap))) * weight (fun x => beta * val x) z := by
              unfold weight
              rw [← ENNReal.ofReal_mul (Real.exp_pos _).le, ← Real.exp_add]
              refine ENNReal.ofReal_le_ofReal (Real.exp_le_exp.mpr ?_)
              have := mul_le_mul_of_nonneg_left (hgap z y hzmax hy hm) hb
              dsimp only
              linarith
          _ ≤ _ := mul_le_mul' (le_refl _) hw
    · rw [boltzmann_apply, if_neg hy, zero_mul]
      exact zero_le
  refine (ENNReal.tsum_le_tsum hterm).trans ?_
  rw [ENNReal.tsum_mul_right, ENNReal.tsum_mul_left]
  have ht : ∑' y, uniformLaw n y = 1 := by
    rw [uniform_boltzmann]
    exact boltzmann_total _ _
  rw [ht, mul_one]

end Annealing

/-! ## Gibbs sampler -/

section Gibbs

variable {full : Bool} {n : ℕ} {m : Moment} {F : ℕ → Rat} {G : ℕ → ℕ → Rat}

/-- C112: an update of the Gibbs sampler only changes the given bit, and its new value has the conditional law given the other
bits. -/
theorem gibbs_step (h : m.Is full n F G) {x : BV} (hx : x.length = n) {i : ℕ} (hi : i < n) (y : BV) [Decidable (∃ b, y = x.set i b)] :
    gibbsUpdate m x i y = if ∃ b, y = x.set i b then ENNReal.ofReal (Real.exp (goodness n F G y)) /
      (ENNReal.ofReal (Real.exp (goodness n F G (x.set i true))) + ENNReal.ofReal (Real.exp (goodness n F G (x.set i false)))) else 0 := by
  classical
  rw [gibbsUpdate_eq h hx hi, conditional_apply _ (by omega)]
  unfold weight
  congr

/-- C112: an update of the Gibbs sampler keeps the law of the Boltzmann machine. -/
theorem gibbs_stationary (h : m.Is full n F G) {i : ℕ} (hi : i < n) :
    Stationary (boltzmannLaw n (fun x => (goodness n F G x : ℝ))) (fun x => gibbsUpdate m x i) :=
  stationary_congr (fun x hx => gibbsUpdate_eq h (boltzmann_support.mp hx) hi) (conditional_stationary _ hi)

theorem bmFullScan_eq (h : m.Is full n F G) (k : ℤ) {x : BV} (hx : x.length = n) :
    bmFullScan k m x = Dist.steps (cycle (fun y => (goodness n F G y : ℝ)) n) k.toNat x := by
  unfold bmFullScan Dist.forRange
  exact forLoop_cycle h _ _ x hx

theorem bmAsynchronous_eq (h : m.Is full n F G) (hn : 0 < n) (k : ℤ) {x : BV} (hx : x.length = n) :
    bmAsynchronous k m x = Dist.steps (randomUpdate (fun y => (goodness n F G y : ℝ)) n) k.toNat x := by
  unfold bmAsynchronous Dist.forRange
  rw [hx]
  exact forLoop_random h hn _ _ x hx

/-- C112: asynchronous sampling keeps the law of the Boltzmann machine, whatever the number of steps. -/
theorem asynchronous_stationary (h : m.Is full n F G) (hn : 0 < n) (k : ℤ) :
    Stationary (boltzmannLaw n (fun x => (goodness n F G x : ℝ))) (bmAsynchronous k m) :=
  stationary_congr (fun x hx => bmAsynchronous_eq h hn k (boltzmann_support.mp hx)) (stationary_steps (randomUpdate_stationary _ hn) _)

/-- C112: asynchronous sampling with full scan keeps the law of the Boltzmann machine, whatever the number of cycles. -/
theorem fullScan_stationary (h : m.Is full n F G) (k : ℤ) :
    Stationary (boltzmannLaw n (fun x => (goodness n F G x : ℝ))) (bmFullScan k m) :=
  stationary_congr (fun x hx => bmFullScan_eq h k (boltzmann_support.mp hx)) (stationary_steps (cycle_stationary _ n) _)

/-- C112: the law of asynchronous sampling with full scan tends exponentially fast to the one of the Boltzmann machine, from
any state. -/
theorem fullScan_converges (h : m.Is full n F G) :
    ∃ c : ℝ≥0∞, c ≠ 0 ∧ ∀ x : BV, x.length = n → ∀ k : ℕ,
      Within ((1 - c) ^ k) (bmFullScan k m x) (boltzmannLaw n (fun x => (goodness n F G x : ℝ))) := by
  obtain ⟨c, hc, hmin⟩ := boltzmann_min n (fun x => (goodness n F G x : ℝ))
  refine ⟨c ^ n, pow_ne_zero n hc, fun x hx k => ?_⟩
  rw [bmFullScan_eq h k hx, Int.toNat_natCast]
  have := doeblin_within (step := cycle (fun y => (goodness n F G y : ℝ)) n) (inv := fun x => x.length = n)
    (fun a ha b hab => (cycle_length hab).trans ha) (fun a _ => cycle_total _ n a) (k := 1) (c := c ^ n)
    (z := List.replicate n false) (fun a ha => by
      rw [show Dist.steps (cycle (fun y => (goodness n F G y : ℝ)) n) 1 a = cycle (fun y => (goodness n F G y : ℝ)) n a from Dist.bind_pure' _]
      exact cycle_ge _ hmin ha (by simp)) (by simp)
    (cycle_stationary _ n) (boltzmann_total _ _) (fun a ha => boltzmann_support.mp ha) hx 0 k
  rwa [one_mul, add_zero] at this

/-- C112: the law of asynchronous sampling tends exponentially fast to the one of the Boltzmann machine, from any state. -/
theorem asynchronous_converges (h : m.Is full n F G) (hn : 0 < n) :
    ∃ c : ℝ≥0∞, c ≠ 0 ∧ ∀ x : BV, x.length = n → ∀ k : ℕ,
      Within ((1 - c) ^ (k / n)) (bmAsynchronous k m x) (boltzmannLaw n (fun x => (goodness n F G x : ℝ))) := by
  obtain ⟨c, hc, hmin⟩ := boltzmann_min n (fun x => (goodness n F G x : ℝ))
  have hinv : (((n : ℕ) : ℝ≥0∞)⁻¹) ≠ 0 := ENNReal.inv_ne_zero.mpr (ENNReal.natCast_ne_top _)
  refine ⟨(((n : ℕ) : ℝ≥0∞)⁻¹) ^ n * c ^ n, mul_ne_zero (pow_ne_zero n hinv) (pow_ne_zero n hc), fun x hx k => ?_⟩
  rw [bmAsynchronous_eq h hn k hx, Int.toNat_natCast]
  have hrange : ∀ i ∈ List.range n, i < n := fun i hi => List.mem_range.mp hi
  have := doeblin_within (step := randomUpdate (fun y => (goodness n F G y : ℝ)) n) (inv := fun x => x.length = n)
    (fun a ha b hab => (randomUpdate_length hab).trans ha) (fun a _ => randomUpdate_total _ n a) (k := n)
    (c := (((n : ℕ) : ℝ≥0∞)⁻¹) ^ n * c ^ n)
    (z := List.replicate n false) (fun a ha => by
      have h1 := randomUpdates_ge (fun y => (goodness n F G y : ℝ)) hn (List.range n) hrange a (List.replicate n false)
      have h2 := updates_ge (fun y => (goodness n F G y : ℝ)) hmin (z := List.replicate n false) (by simp) (List.range n) hrange a ha
        (fun i hi hil => absurd (List.mem_range.mpr hi) hil)
      rw [List.length_range] at h1 h2
      exact (mul_le_mul' (le_refl _) h2).trans h1) (by simp)
    (randomUpdate_stationary _ hn) (boltzmann_total _ _) (fun a ha => boltzmann_support.mp ha) hx (k % n) (k / n)
  rwa [Nat.div_add_mod] at this

end Gibbs

/-! ## Examples -/

/-- C112: standard bit mutation may flip any set of bits if no mutation is allowed, as assumed in `annealing_converges`. -/
theorem standard_positive {n : ℕ} (hn : 0 < n) {m : StandardBitMutation} (ha : m.allowNoMutation = true) (hr : m.rejectionSampling = true)
    (h0 : m.rate ≠ 0) (h1 : m.rate < 1) (l : List ℕ) (hl : l.Pairwise (· < ·)) (hi : ∀ i ∈ l, i < n) : m.sampleBits n l ≠ 0 := by
  have hasc : Ascending 0 (List.replicate n false).length l := ⟨hl, fun i hi' => by have := hi i hi'; simp; exact this⟩
  obtain ⟨y, hy, _, _⟩ := bvFlipSparse_exact (List.replicate n false) l hasc.1 (fun i hi => by have := hasc.2 i hi; omega)
  have hd := (flip_iff hasc).mp hy
  have hs := (neighborhoods_sample hn).2.1 m h1.le h0
  have h2 := mutate_apply (d := m.sampleBits n) (x := List.replicate n false) (fun l hl => by
    rw [List.length_replicate]; exact hs.support l hl) y
  rw [if_pos hd.1, ← hd.2] at h2
  rw [← h2]
  have h3 := standardBitMutation_allowed (x := List.replicate n false) (by simpa using hn) ha hr y
  rw [if_pos hd.1, List.length_replicate] at h3
  rw [h3]
  exact mul_ne_zero (pow_ne_zero _ h0) (pow_ne_zero _ (tsub_pos_of_lt h1).ne')

/-- The number of ones, with real values. -/
noncomputable def realOnes (n : ℕ) : Fn ℝ := ⟨n, false, ub, fun x => ok (ones x : ℝ), false, fun _ v _ => ok v⟩

theorem realOnes_evaluates (n : ℕ) : Evaluates (realOnes n) n (fun x => (ones x : ℝ)) :=
  ⟨rfl, fun _ _ => rfl, fun h => by cases h⟩

/-- Simulated annealing at `x`. -/
noncomputable def exampleAnnealing (x : BV) : SaState := ⟨⟨x, x, []⟩, (x, ones x), ones x, 2, 0⟩

/-- Its parameters, at constant temperature. -/
noncomputable def exampleParams : SaParams := ⟨(⟨4⁻¹, true, true⟩ : StandardBitMutation).sampleBits 3, 50, 1⟩

theorem exampleParams_sampler : BitSampler exampleParams.sampleBits 3 :=
  (neighborhoods_sample (by decide)).2.1 ⟨4⁻¹, true, true⟩ (ENNReal.inv_le_one.mpr (by norm_num)) (by simp)

/-- The hypotheses of the theorems about simulated annealing. -/
example : ∃ c : ℝ≥0∞, c ≠ 0 ∧ ∀ s, Annealing 3 (fun x => (ones x : ℝ)) s → s.beta = 2 → ∀ t,
    Within ((1 - c) ^ t) (saVector (annealing exampleParams (realOnes 3) t s)) (boltzmannLaw 3 (fun x => 2 * (ones x : ℝ))) :=
  annealing_converges exampleParams_sampler (standard_positive (n := 3) (m := ⟨4⁻¹, true, true⟩) (by decide) rfl rfl (by simp) (by
    change (4 : ℝ≥0∞)⁻¹ < 1
    rw [ENNReal.inv_lt_one]; norm_num)) (realOnes_evaluates 3) rfl (by norm_num)

example : (saIterate exampleParams (realOnes 3) (exampleAnnealing [true, false, true])).total = 1 :=
  (annealing_step exampleParams_sampler (realOnes_evaluates 3) (s := exampleAnnealing [true, false, true]) ⟨rfl, rfl, rfl⟩
    (by change (0 : ℝ) ≤ 2; norm_num)).1

example : Stationary (boltzmannLaw 3 (fun x => 2 * (ones x : ℝ)))
    (fun x => saVector (saIterate exampleParams (realOnes 3) (exampleAnnealing x))) :=
  annealing_boltzmann exampleParams_sampler (realOnes_evaluates 3) (by norm_num) (fun _ hx => ⟨⟨rfl, hx, rfl⟩, rfl, rfl⟩)

example : ∃ t, saIterate exampleParams (realOnes 3) (exampleAnnealing [true, false, true]) t ≠ 0 := by
  by_contra h
  rw [not_exists] at h
  have h1 := (annealing_step exampleParams_sampler (realOnes_evaluates 3) (s := exampleAnnealing [true, false, true]) ⟨rfl, rfl, rfl⟩
    (by change (0 : ℝ) ≤ 2; norm_num)).1
  unfold Dist.total at h1
  rw [ENNReal.tsum_eq_zero.mpr (fun t => not_not.mp (h t))] at h1
  exact zero_ne_one h1

/-- The number of ones has a gap of one. -/
example : ∀ x y : BV, IsMax 3 (fun x => (ones x : ℝ)) x → y.length = 3 → ¬ IsMax 3 (fun x => (ones x : ℝ)) y →
    (ones y : ℝ) + 1 ≤ ones x := by
  intro x y hx hy hn
  have h : ones y < ones x := by
    by_contra h
    refine hn ⟨hy, fun z hz => (hx.2 z hz).trans ?_⟩
    change (ones x : ℝ) ≤ ones y
    exact_mod_cast not_lt.mp h
  exact_mod_cast h

example : walkVector (randomWalk ⟨true, []⟩ (hammingBall 5 2) (oneMax 5) 5 8) [true, false, true, true, false] = (2 ^ 5)⁻¹ := by
  rw [walk_uniform ((neighborhoods_sample (by decide)).2.2.2 2 (by decide) (by decide)) (oneMax_evaluates 5) rfl]
  rfl

example {y : BV} (hy : walkVector (randomWalk ⟨false, [true, false]⟩ (singleBitFlip 2) (oneMax 2) 2 7) y ≠ 0) : ones y % 2 = 0 :=
  walk_parity (by decide) (oneMax_evaluates 2) rfl rfl 7 hy

/-- The triangular moment of the examples of C59 satisfies the hypotheses. -/
theorem exampleTriangular_is : exampleTriangular.Is false 3 (fun i => if i = 0 then 1 else if i = 1 then -2 else 3)
    (fun i j => if i = 1 then 5 else if j = 0 then -7 else 11) := by
  refine ⟨⟨rfl, rfl, ?_⟩, ?_, ?_⟩
  · intro i row h
    match i, h with
    | 0, h => cases h; rfl
    | 1, h => cases h; rfl
    | 2, h => cases h; rfl
  · intro i hi
    match i, hi with
    | 0, _ => rfl
    | 1, _ => rfl
    | 2, _ => rfl
  · intro i j hi hj
    match i, j, hi, hj with
    | 1, 0, _, _ => rfl
    | 2, 0, _, _ => rfl
    | 2, 1, _, _ => rfl

example : ∃ c : ℝ≥0∞, c ≠ 0 ∧ ∀ x : BV, x.length = 3 → ∀ k : ℕ, Within ((1 - c) ^ k) (bmFullScan k exampleTriangular x)
    (boltzmannLaw 3 (fun x => (goodness 3 (fun i => if i = 0 then 1 else if i = 1 then -2 else 3)
      (fun i j => if i = 1 then 5 else if j = 0 then -7 else 11) x : ℝ))) := fullScan_converges exampleTriangular_is

end Hnco.Prob
