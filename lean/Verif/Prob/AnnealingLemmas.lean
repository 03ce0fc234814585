import Verif.Prob.GibbsLemmas

/-!
# Lemmas about the random walk and simulated annealing, with probabilities
-/

namespace Hnco.Prob

open Outcome
open scoped ENNReal

/-! ## Mutations are symmetric -/

theorem BitSampler.support {d : Dist (List ℕ)} {n : ℕ} (hd : BitSampler d n) : ∀ l, d l ≠ 0 → Ascending 0 n l :=
  fun l hl => ⟨(hd.sorted l hl).1, fun i hi => ⟨Nat.zero_le _, by have := (hd.sorted l hl).2 i hi; omega⟩⟩

theorem differences_symm {x y : BV} (h : x.length = y.length) : differences x y = differences y x := by
  unfold differences
  rw [h]
  refine List.filter_congr (fun i _ => ?_)
  exact decide_eq_decide.mpr ⟨Ne.symm, Ne.symm⟩

variable {d : Dist (List ℕ)} {n : ℕ}

theorem mutate_symm (hd : BitSampler d n) {x y : BV} (hx : x.length = n) (hy : y.length = n) : mutate d x y = mutate d y x := by
  rw [mutate_apply (fun l hl => by rw [hx]; exact hd.support l hl), mutate_apply (fun l hl => by rw [hy]; exact hd.support l hl),
    if_pos (by omega), if_pos (by omega), differences_symm (by omega)]

theorem mutate_length (hd : BitSampler d n) {x y : BV} (hx : x.length = n) (h : mutate d x y ≠ 0) : y.length = n := by
  rw [mutate_apply (fun l hl => by rw [hx]; exact hd.support l hl)] at h
  by_contra h'
  exact h (if_neg (by omega))

theorem mutate_one (hd : BitSampler d n) {x : BV} (hx : x.length = n) : (mutate d x).total = 1 :=
  (mutate_total (fun l hl => by rw [hx]; exact hd.support l hl)).trans hd.total

theorem mutate_stationary (hd : BitSampler d n) : Stationary (uniformLaw n) (mutate d) := by
  rw [uniform_boltzmann]
  refine boltzmann_stationary ?_ (fun x hx y hy => mutate_length hd hx hy) (fun x hx => mutate_one hd hx)
  intro x y hx hy
  rw [mutate_symm hd hx hy]
  unfold weight
  rfl

/-! ## Neighbourhoods -/

theorem propose_eq {s : NbhState} (hc : s.candidate = s.origin) :
    s.propose d = (d >>= fun l => Dist.lift (bvFlipSparse s.origin l) >>= fun y => pure ⟨s.origin, y, l⟩) := by
  unfold NbhState.propose
  rw [Dist.assert_bind (by rw [hc]; exact beq_self_eq_true _), hc]

theorem keep_eq {x y : BV} {l : List ℕ} (h : bvFlipSparse x l = ok y) : NbhState.keep ⟨x, y, l⟩ = pure ⟨y, y, l⟩ := by
  unfold NbhState.keep
  simp only [h, Dist.lift_ok, Dist.pure_bind']
  rw [Dist.assert_bind (beq_self_eq_true _)]

theorem forget_eq {x y : BV} {l : List ℕ} (hl : Ascending 0 x.length l) (h : bvFlipSparse x l = ok y) :
    NbhState.forget ⟨x, y, l⟩ = pure ⟨x, x, l⟩ := by
  unfold NbhState.forget
  simp only [flip_back hl h, Dist.lift_ok, Dist.pure_bind']
  rw [Dist.assert_bind (beq_self_eq_true _)]

/-! ## Random walk -/

section Walk

variable {K : Type} [LinearOrder K] {f : Fn K} {val : BV → K}

/-- States between iterations. -/
structure GoodWalk (n : ℕ) (s : WalkState K) : Prop where
  candidate : s.nbh.candidate = s.nbh.origin
  length : s.nbh.origin.length = n

theorem walkIterate_eq (hd : BitSampler d n) (hf : Evaluates f n val) {s : WalkState K} (hs : GoodWalk n s) :
    walkIterate d f s = (d >>= fun l => Dist.lift (bvFlipSparse s.nbh.origin l) >>= fun y =>
      pure ⟨⟨y, y, l⟩, if s.solution.2 < val y then (y, val y) else s.solution⟩) := by
  unfold walkIterate
  rw [propose_eq hs.candidate, Dist.bind_assoc']
  refine Dist.bind_congr_support (fun l hl => ?_)
  rw [Dist.bind_assoc']
  refine Dist.bind_congr_support (fun y hy => ?_)
  have hy := lift_support hy
  have hlen : y.length = n := ((flip_iff (by rw [hs.length]; exact hd.support l hl)).mp hy).1.trans hs.length
  rw [Dist.pure_bind']
  dsimp only
  rw [hf.eval y hlen, Dist.lift_ok, Dist.pure_bind', keep_eq hy, Dist.pure_bind']

theorem walk_move (hd : BitSampler d n) (hf : Evaluates f n val) {s : WalkState K} (hs : GoodWalk n s) :
    (walkIterate d f s >>= fun t => pure t.nbh.origin) = mutate d s.nbh.origin := by
  rw [walkIterate_eq hd hf hs, Dist.bind_assoc']
  unfold mutate
  congr 1
  funext l
  rw [Dist.bind_assoc']
  simp only [Dist.pure_bind']
  exact Dist.bind_pure' _

theorem walk_good (hd : BitSampler d n) (hf : Evaluates f n val) {s t : WalkState K} (hs : GoodWalk n s)
    (ht : walkIterate d f s t ≠ 0) : GoodWalk n t := by
  rw [walkIterate_eq hd hf hs] at ht
  obtain ⟨l, hl, ht⟩ := bind_support ht
  obtain ⟨y, hy, ht⟩ := bind_support ht
  rw [pure_support ht]
  exact ⟨rfl, ((flip_iff (by rw [hs.length]; exact hd.support l hl)).mp (lift_support hy)).1.trans hs.length⟩

theorem walk_steps (hd : BitSampler d n) (hf : Evaluates f n val) (t : ℕ) : ∀ {s : WalkState K}, GoodWalk n s →
    (boundedLoop (fun _ => false) (walkIterate d f) t s >>= fun t => pure t.nbh.origin) = Dist.steps (mutate d) t s.nbh.origin := by
  induction t with
  | zero =>
    intro s hs
    exact Dist.pure_bind' _ _
  | succ t ih =>
    intro s hs
    change ((walkIterate d f s >>= boundedLoop (fun _ => false) (walkIterate d f) t) >>= _)
      = (mutate d s.nbh.origin >>= Dist.steps (mutate d) t)
    rw [Dist.bind_assoc', ← walk_move hd hf hs, Dist.bind_assoc']
    refine Dist.bind_congr_support (fun u hu => ?_)
    rw [Dist.pure_bind']
    exact ih (walk_good hd hf hs hu)

/-- The law of the starting point. -/
noncomputable def walkStart (p : StartParams) (n : ℕ) : Dist BV :=
  if p.randomInitialization then uniformLaw n else pure p.startingPoint

theorem uniform_bits (n : ℕ) : bvRandomBits (List.replicate n false) = uniformLaw n := by
  refine Dist.ext (fun y => ?_)
  rw [bvRandomBits_law, List.length_replicate]
  rfl

theorem uniformLaw_length {x : BV} (h : uniformLaw n x ≠ 0) : x.length = n := by
  by_contra h'
  exact h (if_neg h')

theorem randomWalk_eq (hd : BitSampler d n) (hf : Evaluates f n val) (p : StartParams)
    (hp : p.randomInitialization = false → p.startingPoint.length = n) (t : ℕ) :
    (randomWalk p d f n t >>= fun s => pure s.nbh.origin) = (walkStart p n >>= Dist.steps (mutate d) t) := by
  unfold randomWalk walkInit walkStart
  split
  · next h =>
    unfold randomSolution
    rw [uniform_bits]
    simp only [Dist.bind_assoc']
    refine Dist.bind_congr_support (fun x hx => ?_)
    rw [hf.eval x (uniformLaw_length hx), Dist.lift_ok]
    simp only [Dist.pure_bind']
    exact walk_steps hd hf t (s := ⟨⟨x, x, []⟩, (x, val x)⟩) ⟨rfl, uniformLaw_length hx⟩
  · next h =>
    have hx := hp (by simpa using h)
    rw [hf.eval _ hx, Dist.lift_ok]
    simp only [Dist.pure_bind']
    exact walk_steps hd hf t (s := ⟨⟨p.startingPoint, p.startingPoint, []⟩, (p.startingPoint, val p.startingPoint)⟩) ⟨rfl, hx⟩

end Walk

/-! ## Simulated annealing -/

/-- The probability of acceptance. -/
noncomputable def acceptance (val : BV → ℝ) (beta : ℝ) (x y : BV) : ℝ≥0∞ :=
  if val x ≤ val y then 1 else ENNReal.ofReal (Real.exp ((val y - val x) * beta))

/-- The algorithm of Metropolis. -/
noncomputable def metropolis (d : Dist (List ℕ)) (val : BV → ℝ) (beta : ℝ) (x : BV) : Dist BV := do
  let y ← mutate d x
  let b ← Dist.coin (acceptance val beta x y)
  pure (if b then y else x)

section Annealing

variable {f : Fn ℝ} {val : BV → ℝ} {p : SaParams}

/-- The state after the acceptance or the rejection of `y`. -/
noncomputable def saNext (val : BV → ℝ) (s : SaState) (l : List ℕ) (y : BV) (b : Bool) : SaState :=
  if val s.nbh.origin ≤ val y then
    { s with nbh := ⟨y, y, l⟩, value := val y, solution := if s.solution.2 < val y then (y, val y) else s.solution }
  else if b then { s with nbh := ⟨y, y, l⟩, value := val y, transitions := s.transitions + 1 }
  else { s with nbh := ⟨s.nbh.origin, s.nbh.origin, l⟩ }

theorem coin_one {β : Type} (g : Bool → Dist β) : (Dist.coin 1 >>= g) = g true := by
  refine Dist.ext (fun b => ?_)
  rw [Dist.coin_bind]
  simp

theorem saIterate_eq (hd : BitSampler p.sampleBits n) (hf : Evaluates f n val) {s : SaState} (hs : Annealing n val s) :
    saIterate p f s = (p.sampleBits >>= fun l => Dist.lift (bvFlipSparse s.nbh.origin l) >>= fun y =>
      Dist.coin (acceptance val s.beta s.nbh.origin y) >>= fun b => pure (saCool p (saNext val s l y b))) := by
  unfold saIterate
  rw [propose_eq hs.candidate, Dist.bind_assoc']
  refine Dist.bind_congr_support (fun l hl => ?_)
  rw [Dist.bind_assoc']
  refine Dist.bind_congr_support (fun y hy => ?_)
  have hy := lift_support hy
  have ha : Ascending 0 s.nbh.origin.length l := by rw [hs.length]; exact hd.support l hl
  have hlen : y.length = n := ((flip_iff ha).mp hy).1.trans hs.length
  rw [Dist.pure_bind']
  dsimp only
  rw [hf.eval y hlen, Dist.lift_ok, Dist.pure_bind']
  unfold saAccept acceptance
  dsimp only
  rw [hs.value]
  by_cases h : val s.nbh.origin ≤ val y
  · rw [if_pos h, if_pos h, keep_eq hy, Dist.pure_bind', Dist.pure_bind', coin_one]
    unfold saNext
    rw [if_pos h]
  · rw [if_neg h, if_neg h, Dist.bind_assoc']
    congr 1
    funext b
    unfold saNext
    rw [if_neg h]
    cases b
    · simp only [Bool.false_eq_true, if_false]
      rw [forget_eq ha hy, Dist.pure_bind', Dist.pure_bind', ← hs.value]
    · simp only [if_true]
      rw [keep_eq hy, Dist.pure_bind', Dist.pure_bind']

theorem saCool_nbh (s : SaState) : (saCool p s).nbh = s.nbh := by
  unfold saCool
  split <;> rfl

theorem saCool_value (s : SaState) : (saCool p s).value = s.value := by
  unfold saCool
  split <;> rfl

theorem saNext_origin {s : SaState} {l : List ℕ} {y : BV} (b : Bool) (hb : val s.nbh.origin ≤ val y → b = true) :
    (saNext val s l y b).nbh.origin = if b then y else s.nbh.origin := by
  unfold saNext
  split
  · next h => rw [hb h]; rfl
  · split <;> rfl

theorem coin_support {q : ℝ≥0∞} (hq : 1 ≤ q) {b : Bool} (h : Dist.coin q b ≠ 0) : b = true := by
  cases b with
  | true => rfl
  | false => exact absurd (tsub_eq_zero_of_le hq) h

theorem sa_metropolis (hd : BitSampler p.sampleBits n) (hf : Evaluates f n val) {s : SaState} (hs : Annealing n val s) :
    (saIterate p f s >>= fun t => pure t.nbh.origin) = metropolis p.sampleBits val s.beta s.nbh.origin := by
  rw [saIterate_eq hd hf hs]
  unfold metropolis mutate
  simp only [Dist.bind_assoc']
  congr 1
  funext l
  congr 1
  funext y
  refine Dist.bind_congr_support (fun b hb => ?_)
  rw [Dist.pure_bind', saCool_nbh, saNext_origin]
  intro h
  unfold acceptance at hb
  rw [if_pos h] at hb
  exact coin_support (le_refl _) hb

/-- What an iteration may do. -/
theorem sa_outcome (hd : BitSampler p.sampleBits n) (hf : Evaluates f n val) {s t : SaState} (hs : Annealing n val s)
    (ht : saIterate p f s t ≠ 0) : ∃ l y b, y.length = n ∧ t = saCool p (saNext val s l y b) := by
  rw [saIterate_eq hd hf hs] at ht
  obtain ⟨l, hl, ht⟩ := bind_support ht
  obtain ⟨y, hy, ht⟩ := bind_support ht
  obtain ⟨b, hb, ht⟩ := bind_support ht
  have ha : Ascending 0 s.nbh.origin.length l := by rw [hs.length]; exact hd.support l hl
  exact ⟨l, y, b, ((flip_iff ha).mp (lift_support hy)).1.trans hs.length, pure_support ht⟩

theorem sa_good (hd : BitSampler p.sampleBits n) (hf : Evaluates f n val) {s t : SaState} (hs : Annealing n val s)
    (ht : saIterate p f s t ≠ 0) : Annealing n val t := by
  obtain ⟨l, y, b, hlen, rfl⟩ := sa_outcome hd hf hs ht
  have : Annealing n val (saNext val s l y b) := by
    unfold saNext
    split
    · exact ⟨rfl, hlen, rfl⟩
    · split
      · exact ⟨rfl, hlen, rfl⟩
      · exact ⟨rfl, hs.length, hs.value⟩
  exact ⟨by rw [saCool_nbh]; exact this.candidate, by rw [saCool_nbh]; exact this.length,
    by rw [saCool_nbh, saCool_value]; exact this.value⟩

theorem sa_beta (hd : BitSampler p.sampleBits n) (hf : Evaluates f n val) (hr : p.betaRatio = 1) {s t : SaState} (hs : Annealing n val s)
    (ht : saIterate p f s t ≠ 0) : t.beta = s.beta := by
  obtain ⟨l, y, b, hlen, rfl⟩ := sa_outcome hd hf hs ht
  have : (saNext val s l y b).beta = s.beta := by
    unfold saNext
    split
    · rfl
    · split <;> rfl
  unfold saCool
  split
  · change _ * p.betaRatio = _
    rw [hr, mul_one, this]
  · exact this

theorem sa_steps (hd : BitSampler p.sampleBits n) (hf : Evaluates f n val) (hr : p.betaRatio = 1) (t : ℕ) :
    ∀ {s : SaState}, Annealing n val s → (boundedLoop (fun _ => false) (saIterate p f) t s >>= fun t => pure t.nbh.origin)
      = Dist.steps (metropolis p.sampleBits val s.beta) t s.nbh.origin := by
  induction t with
  | zero =>
    intro s hs
    exact Dist.pure_bind' _ _
  | succ t ih =>
    intro s hs
    change ((saIterate p f s >>= boundedLoop (fun _ => false) (saIterate p f) t) >>= _)
      = (metropolis p.sampleBits val s.beta s.nbh.origin >>= Dist.steps (metropolis p.sampleBits val s.beta) t)
    rw [Dist.bind_assoc', ← sa_metropolis hd hf hs, Dist.bind_assoc']
    refine Dist.bind_congr_support (fun u hu => ?_)
    rw [Dist.pure_bind', ← sa_beta hd hf hr hs hu]
    exact ih (sa_good hd hf hs hu)

/-! ## The chain of Metropolis -/

variable {beta : ℝ}

theorem acceptance_le (hb : 0 ≤ beta) (x y : BV) : acceptance val beta x y ≤ 1 := by
  unfold acceptance
  split
  · exact le_refl _
  · next h =>
    rw [ENNReal.ofReal_le_one, Real.exp_le_one_iff]
    exact mul_nonpos_of_nonpos_of_nonneg (by linarith [not_le.mp h]) hb

theorem metropolis_ne (hb : 0 ≤ beta) {x y : BV} (h : y ≠ x) : metropolis d val beta x y = mutate d x y * acceptance val beta x y := by
  classical
  unfold metropolis
  rw [Dist.bind_apply, tsum_eq_single y]
  · rw [Dist.coin_bind, Dist.pure_apply, Dist.pure_apply, if_pos (by simp), if_neg (by simpa using h), mul_one, mul_zero, add_zero,
      min_eq_left (acceptance_le hb x y)]
  · intro z hz
    rw [Dist.coin_bind, Dist.pure_apply, Dist.pure_apply, if_neg (by simpa using hz.symm), if_neg (by simpa using h), mul_zero, mul_zero,
      add_zero, mul_zero]

theorem metropolis_length (hd : BitSampler d n) {x y : BV} (hx : x.length = n) (h : metropolis d val beta x y ≠ 0) : y.length = n := by
  unfold metropolis at h
  obtain ⟨z, hz, h⟩ := bind_support h
  obtain ⟨b, hb, h⟩ := bind_support h
  rw [pure_support h]
  split
  · exact mutate_length hd hx hz
  · exact hx

theorem metropolis_total (hd : BitSampler d n) {x : BV} (hx : x.length = n) : (metropolis d val beta x).total = 1 := by
  unfold metropolis
  simp only [Dist.total_bind, Dist.total_pure, mul_one]
  have : ∀ y, ∑' b, Dist.coin (acceptance val beta x y) b = 1 := fun y => coin_total _
  simp only [this, mul_one]
  exact mutate_one hd hx

theorem acceptance_balance (x y : BV) : weight (fun x => beta * val x) x * acceptance val beta x y
    = weight (fun x => beta * val x) y * acceptance val beta y x := by
  unfold acceptance weight
  rcases lt_trichotomy (val x) (val y) with h | h | h
  · rw [if_pos h.le, if_neg (not_le.mpr h), mul_one, ← ENNReal.ofReal_mul (Real.exp_pos _).le, ← Real.exp_add]
    congr 2
    ring
  · rw [if_pos h.le, if_pos h.ge]
    dsimp only
    rw [h]
  · rw [if_neg (not_le.mpr h), if_pos h.le, mul_one, ← ENNReal.ofReal_mul (Real.exp_pos _).le, ← Real.exp_add]
    congr 2
    ring

theorem metropolis_stationary (hd : BitSampler d n) (hb : 0 ≤ beta) :
    Stationary (boltzmannLaw n (fun x => beta * val x)) (metropolis d val beta) := by
  refine boltzmann_stationary ?_ (fun x hx y hy => metropolis_length hd hx hy) (fun x hx => metropolis_total hd hx)
  intro x y hx hy
  by_cases h : y = x
  · rw [h]
  · rw [metropolis_ne hb h, metropolis_ne hb (fun e => h e.symm), mutate_symm hd hx hy, mul_left_comm, acceptance_balance,
      mul_left_comm]

theorem metropolis_ge (hb : 0 ≤ beta) (x y : BV) : mutate d x y * acceptance val beta x y ≤ metropolis d val beta x y := by
  classical
  unfold metropolis
  rw [Dist.bind_apply]
  refine le_trans ?_ (ENNReal.le_tsum y)
  refine mul_le_mul' (le_refl _) ?_
  rw [Dist.coin_bind, Dist.pure_apply, if_pos (by simp), mul_one, min_eq_left (acceptance_le hb x y)]
  exact le_self_add

theorem metropolis_min (hd : BitSampler d n) (hb : 0 ≤ beta) (hpos : ∀ l : List ℕ, l.Pairwise (· < ·) → (∀ i ∈ l, i < n) → d l ≠ 0)
    (z : BV) (hz : z.length = n) : ∃ c : ℝ≥0∞, c ≠ 0 ∧ ∀ x : BV, x.length = n → c ≤ metropolis d val beta x z := by
  obtain ⟨x, hx, hmin⟩ := Set.exists_min_image {x : BV | x.length = n} (fun x => metropolis d val beta x z) (List.finite_length_eq Bool n)
    ⟨z, hz⟩
  have hx : x.length = n := hx
  refine ⟨metropolis d val beta x z, ?_, fun y hy => hmin y hy⟩
  have h1 : mutate d x z ≠ 0 := by
    rw [mutate_apply (fun l hl => by rw [hx]; exact hd.support l hl), if_pos (by omega)]
    have := differences_ascending x z
    exact hpos _ this.1 (fun i hi => by have := this.2 i hi; omega)
  have h2 : acceptance val beta x z ≠ 0 := by
    unfold acceptance
    split
    · exact one_ne_zero
    · rw [Ne, ENNReal.ofReal_eq_zero, not_le]
      exact Real.exp_pos _
  exact fun h => mul_ne_zero h1 h2 (le_antisymm (h ▸ metropolis_ge hb x z) zero_le)

end Annealing

end Hnco.Prob
