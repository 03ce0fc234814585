import Verif.Prob.Restarts
import Verif.Prob.PopulationLoops
import Verif.Prob.TimeProps

/-!
# Properties of restarts, with probabilities (C118)
-/

namespace Hnco.Prob

open Outcome
open scoped ENNReal

/-! ## Specification -/

/-- The runs of an algorithm on a function: whatever the state in which a run begins (among those with property `inv`), it returns
with probability one, returns a vector of the right size with its value, ends in such a state, and misses the maximum with
probability `q`. -/
structure Runs {K τ : Type} [LinearOrder K] (n : ℕ) (val : BV → K) (run : τ → Dist ((BV × K) × τ)) (inv : τ → Prop) (q : ℝ≥0∞) : Prop where
  total : ∀ s, inv s → (run s).total = 1
  result : ∀ s, inv s → ∀ r, run s r ≠ 0 → r.1.1.length = n ∧ r.1.2 = val r.1.1 ∧ inv r.2
  miss : ∀ s, inv s → missProb (run s >>= fun r => pure r.1) (IsMax n val) = q

/-- Only vectors which are not worse are accepted. -/
def NeverWorse {K : Type} [LinearOrder K] (p : RlsParams K) : Prop := ∀ a b, p.compare a b = true → b ≤ a

variable {K τ : Type} [LinearOrder K] {n : ℕ} {val : BV → K} {run : τ → Dist ((BV × K) × τ)} {inv : τ → Prop} {q : ℝ≥0∞}

/-! ## Restarts -/

open Classical in
theorem missing_update {x y : BV} (hx : x.length = n) (hy : y.length = n) :
    missing (IsMax n val) (updateSolution (x, val x) y (val y)).1 = missing (IsMax n val) x * missing (IsMax n val) y := by
  unfold missing updateSolution
  by_cases hlt : val x < val y
  · rw [if_pos hlt]
    by_cases h1 : IsMax n val x
    · exact absurd (h1.2 y hy) (not_le.mpr hlt)
    · rw [if_neg h1, one_mul]
  · rw [if_neg hlt]
    by_cases h1 : IsMax n val x
    · rw [if_pos h1, zero_mul]
    · rw [if_neg h1, one_mul, if_neg]
      intro h2
      exact h1 ⟨hx, fun z hz => (h2.2 z hz).trans (not_lt.mp hlt)⟩

open Classical in
theorem run_expect (h : Runs n val run inv q) {s : τ} (hs : inv s) : (run s).expect (fun r => missing (IsMax n val) r.1.1) = q := by
  rw [← h.miss s hs]
  unfold missProb
  have ht : (run s >>= fun r => pure r.1).total = 1 := by
    rw [Dist.total_bind]
    simp only [Dist.total_pure, mul_one]
    exact h.total s hs
  rw [← expect_missing_prob ht, Dist.expect_bind]
  congr 1
  funext r
  rw [Dist.expect_pure]
  rfl

/-- The later runs. -/
theorem restart_loop (h : Runs n val run inv q) : ∀ (T i : ℕ), 0 < i → ∀ (s : (BV × K) × τ), s.1.1.length = n → s.1.2 = val s.1.1 →
    inv s.2 → Sure (Dist.forLoop T i (fun i => restartIterate run (i == 0)) s) (fun r => r.1.1.length = n ∧ r.1.2 = val r.1.1) ∧
      ∀ [DecidablePred (IsMax n val)], (Dist.forLoop T i (fun i => restartIterate run (i == 0)) s).expect (fun r => missing (IsMax n val) r.1.1)
        = missing (IsMax n val) s.1.1 * q ^ T
  | 0, i, _, s, h1, h2, h3 => by
    refine ⟨⟨Dist.total_pure _, fun r hr => ?_⟩, ?_⟩
    · rw [pure_support hr]
      exact ⟨h1, h2⟩
    · intro _
      change (pure s : Dist _).expect _ = _
      rw [Dist.expect_pure, pow_zero, mul_one]
  | T + 1, i, hi, s, h1, h2, h3 => by
    have hne : (i == 0) = false := by simp; omega
    have hstep : restartIterate run (i == 0) s = (run s.2 >>= fun r => pure (updateSolution s.1 r.1.1 r.1.2, r.2)) := by
      unfold restartIterate
      rw [hne]
      rfl
    have hbody : Dist.forLoop (T + 1) i (fun i => restartIterate run (i == 0)) s = (run s.2 >>= fun r =>
        Dist.forLoop T (i + 1) (fun i => restartIterate run (i == 0)) (updateSolution s.1 r.1.1 r.1.2, r.2)) := by
      rw [Dist.forLoop, hstep, Dist.bind_assoc']
      refine Dist.bind_congr_support (fun r _ => ?_)
      rw [Dist.pure_bind']
    have hnext : ∀ r, run s.2 r ≠ 0 → (updateSolution s.1 r.1.1 r.1.2).1.length = n ∧
        (updateSolution s.1 r.1.1 r.1.2).2 = val (updateSolution s.1 r.1.1 r.1.2).1 ∧ inv r.2 := by
      intro r hr
      obtain ⟨g1, g2, g3⟩ := h.result s.2 h3 r hr
      unfold updateSolution
      split
      · exact ⟨g1, g2, g3⟩
      · exact ⟨h1, h2, g3⟩
    have ih := fun r hr => restart_loop h T (i + 1) (by omega) (updateSolution s.1 r.1.1 r.1.2, r.2) (hnext r hr).1 (hnext r hr).2.1
      (hnext r hr).2.2
    rw [hbody]
    refine ⟨⟨?_, fun u hu => ?_⟩, ?_⟩
    · rw [Dist.total_bind]
      have : ∀ r, run s.2 r * (Dist.forLoop T (i + 1) (fun i => restartIterate run (i == 0)) (updateSolution s.1 r.1.1 r.1.2, r.2)).total
          = run s.2 r := by
        intro r
        by_cases hr : run s.2 r = 0
        · rw [hr, zero_mul]
        · rw [(ih r hr).1.1, mul_one]
      rw [tsum_congr this]
      exact h.total s.2 h3
    · obtain ⟨r, hr, hu⟩ := bind_support hu
      exact (ih r hr).1.2 u hu
    · intro _
      have hs : s.1 = (s.1.1, val s.1.1) := by rw [← h2]
      rw [Dist.expect_bind, Dist.expect_congr (W := fun r => (missing (IsMax n val) s.1.1 * q ^ T) * missing (IsMax n val) r.1.1)]
      · rw [Dist.expect_mul_left]
        have := run_expect h h3
        rw [show (run s.2).expect (fun r => missing (IsMax n val) r.1.1) = q by rw [← this]; congr 1; funext r; unfold missing; congr, pow_succ]
        ring
      · intro r hr
        obtain ⟨g1, g2, g3⟩ := h.result s.2 h3 r hr
        rw [(ih r hr).2]
        have hm := missing_update (val := val) h1 g1
        rw [← hs, ← g2] at hm
        have hm' : missing (IsMax n val) (updateSolution s.1 r.1.1 r.1.2).1 = missing (IsMax n val) s.1.1 * missing (IsMax n val) r.1.1 := by
          convert hm
        dsimp only
        rw [hm']
        ring

/-- C118: restarting multiplies the probabilities of missing the maximum: after `T + 1` runs it is `q ^ (T + 1)` if it is `q` for
one run. -/
theorem restart_miss (h : Runs n val run inv q) {s : (BV × K) × τ} (hs : inv s.2) (T : ℕ) :
    missProb (restart run s (T + 1 : ℕ)) (IsMax n val) = q ^ (T + 1) := by
  classical
  have hbody : restart run s (T + 1 : ℕ) = (run s.2 >>= fun r =>
      Dist.forLoop T 1 (fun i => restartIterate run (i == 0)) (r.1, r.2) >>= fun s => pure s.1) := by
    unfold restart Dist.forRange
    rw [if_pos (by omega), Int.toNat_natCast, Nat.sub_zero, Dist.forLoop]
    unfold restartIterate
    simp only [beq_self_eq_true, if_true, Dist.bind_assoc', Dist.pure_bind']
  have hl : ∀ r, run s.2 r ≠ 0 → _ := fun r hr => restart_loop h T 1 (by omega) (r.1, r.2) (h.result s.2 hs r hr).1
    (h.result s.2 hs r hr).2.1 (h.result s.2 hs r hr).2.2
  have ht : (restart run s (T + 1 : ℕ)).total = 1 := by
    rw [hbody, Dist.total_bind]
    have : ∀ r, run s.2 r * (Dist.forLoop T 1 (fun i => restartIterate run (i == 0)) (r.1, r.2) >>= fun s => (pure s.1 : Dist (BV × K))).total
        = run s.2 r := by
      intro r
      by_cases hr : run s.2 r = 0
      · rw [hr, zero_mul]
      · rw [Dist.total_bind]
        simp only [Dist.total_pure, mul_one]
        have := (hl r hr).1.1
        unfold Dist.total at this
        rw [this, mul_one]
    rw [tsum_congr this]
    exact h.total s.2 hs
  unfold missProb
  rw [← expect_missing_prob ht, hbody, Dist.expect_bind,
    Dist.expect_congr (W := fun r => q ^ T * missing (IsMax n val) r.1.1)]
  · rw [Dist.expect_mul_left, run_expect h hs, pow_succ]
  · intro r hr
    rw [Dist.expect_bind]
    simp only [Dist.expect_pure]
    rw [mul_comm]
    exact (hl r hr).2

/-- C118: the expected number of runs until the maximum has been found is `1 / (1 - q)`. -/
theorem restart_time (h : Runs n val run inv q) {s : (BV × K) × τ} (hs : inv s.2) :
    1 + ∑' T : ℕ, missProb (restart run s (T + 1 : ℕ)) (IsMax n val) = (1 - q)⁻¹ := by
  simp only [restart_miss h hs]
  rw [← ENNReal.tsum_geometric, tsum_eq_zero_add' (f := fun T : ℕ => q ^ T) ENNReal.summable, pow_zero]

/-- C118: if a run may find the maximum, then restarting finds it with probability one. -/
theorem restart_converges (h : Runs n val run inv q) (hq : q < 1) {s : (BV × K) × τ} (hs : inv s.2) :
    Filter.Tendsto (fun T : ℕ => missProb (restart run s (T + 1 : ℕ)) (IsMax n val)) Filter.atTop (nhds 0) := by
  simp only [restart_miss h hs]
  exact (ENNReal.tendsto_pow_atTop_nhds_zero_of_lt_one hq).comp (Filter.tendsto_add_atTop_nat 1)

/-- C118: without a number of runs, restarting never returns. -/
theorem restart_indefinite (s : (BV × K) × τ) {T : ℤ} (hT : T ≤ 0) (r : BV × K) : restart run s T r = 0 := by
  unfold restart
  rw [if_neg (by omega)]
  rfl

/-! ## Random local search -/

/-- The state between two iterations. -/
structure AnyState (n : ℕ) (val : BV → K) (s : RlsState K) : Prop where
  candidate : s.candidate = s.origin
  length : s.origin.length = n
  value : s.solution.2 = val s.origin

variable {f : Fn K} {p : RlsParams K}

theorem rlsIterate_any (hf : Evaluates f n val) (hp : NeverWorse p) (hd : Samples p n) {s : RlsState K} (hs : AnyState n val s) :
    Sure (rlsIterate p f s) (fun t => AnyState n val t ∧ val s.origin ≤ val t.origin) := by
  unfold rlsIterate propose
  rw [Dist.assert_bind (by rw [hs.candidate]; exact beq_self_eq_true _), Dist.bind_assoc']
  refine Sure.bind (P := Ascending 0 n) ⟨hd.total, hd.support⟩ (fun l hl => ?_)
  have ha : Ascending 0 s.origin.length l := by rw [hs.length]; exact hl
  obtain ⟨y, hy, hlen, hget⟩ := bvFlipSparse_exact s.origin l ha.1 (fun i hi => by have := ha.2 i hi; omega)
  have hyn : y.length = n := hlen.trans hs.length
  rw [hs.candidate, hy]
  simp only [Dist.lift_ok, Dist.pure_bind']
  have hv : (if p.incremental && f.hasInc then Dist.lift (f.evalInc s.origin s.solution.2 l)
      else Dist.lift (f.eval y)) = (pure (val y) : Dist K) := by
    split
    · next h =>
      rw [Bool.and_eq_true] at h
      obtain ⟨w, hw, hw2⟩ := (hf.inc h.2).2 s.origin y (val s.origin) l (by rw [hf.size, hs.length])
        (by rw [hf.size, hyn]) ha.1 (fun i hi => by have := ha.2 i hi; rw [hf.size, ← hs.length]; omega) hget (hf.eval _ hs.length)
      rw [hf.eval y hyn] at hw2
      rw [hs.value, hw, Outcome.ok.inj hw2, Dist.lift_ok]
    · rw [hf.eval y hyn, Dist.lift_ok]
  rw [hv, Dist.pure_bind']
  unfold decideMove
  rw [hs.value]
  by_cases h : p.compare (val y) (val s.origin) = true
  · rw [if_pos h]
    unfold keep
    simp only [hy, Dist.lift_ok, Dist.pure_bind']
    rw [Dist.assert_bind (beq_self_eq_true _)]
    simp only [Dist.pure_bind']
    split
    · exact Sure.pure ⟨⟨rfl, hyn, rfl⟩, hp _ _ h⟩
    · exact Sure.pure ⟨⟨rfl, hyn, rfl⟩, hp _ _ h⟩
  · rw [if_neg h]
    unfold forget
    simp only [flip_back ha hy, Dist.lift_ok, Dist.pure_bind']
    rw [Dist.assert_bind (beq_self_eq_true _)]
    simp only [Dist.pure_bind']
    split
    · exact Sure.pure ⟨⟨rfl, hs.length, hs.value⟩, le_refl _⟩
    · exact Sure.pure ⟨⟨rfl, hs.length, hs.value⟩, le_refl _⟩

theorem boundedLoop_any (hf : Evaluates f n val) (hp : NeverWorse p) (hd : Samples p n) : ∀ (T : ℕ) {s : RlsState K}, AnyState n val s →
    Sure (boundedLoop (fun s => s.last) (rlsIterate p f) T s) (fun t => AnyState n val t ∧ val s.origin ≤ val t.origin)
  | 0, s, hs => Sure.pure ⟨hs, le_refl _⟩
  | T + 1, s, hs => by
    rw [boundedLoop]
    split
    · exact Sure.pure ⟨hs, le_refl _⟩
    · exact (rlsIterate_any hf hp hd hs).bind (fun t ht => (boundedLoop_any hf hp hd T ht.1).mono (fun u hu => ⟨hu.1, ht.2.trans hu.2⟩))

omit [LinearOrder K] in
theorem rlsIterate_flipped (s : RlsState K) (l : List ℕ) : rlsIterate p f { s with flipped := l } = rlsIterate p f s := by
  unfold rlsIterate propose
  rfl

theorem rlsAgain_eq (hf : Evaluates f n val) (hs : Starts p n) {t : RlsState K} (ht : t.solution.1.length = n) :
    rlsAgain p f t = (startLaw p n >>= fun x => pure ⟨(x, val x), x, x, t.flipped, 0, false⟩) := by
  have hr : bvRandomBits t.solution.1 = bvRandomBits (List.replicate n false) := by
    ext y
    rw [bvRandomBits_law, bvRandomBits_law, ht, List.length_replicate]
  unfold rlsAgain
  have h1 : (if p.randomInitialization then randomSolution f t.solution.1 else
      (Dist.lift (f.eval p.startingPoint) >>= fun v => pure (p.startingPoint, v)))
      = (startLaw p n >>= fun x => pure (x, val x)) := by
    have hsup := fun x => startLaw_support (p := p) (n := n) hs (x := x)
    unfold startLaw at hsup ⊢
    split
    · next h =>
      simp only [h, if_true] at hsup
      unfold randomSolution
      rw [hr]
      refine Dist.bind_congr_support (fun x hx => ?_)
      rw [hf.eval x (hsup x hx), Dist.lift_ok, Dist.pure_bind']
    · next h =>
      rw [hf.eval _ (hs (by simpa using h)), Dist.lift_ok, Dist.pure_bind', Dist.pure_bind']
  rw [h1, Dist.bind_assoc']
  simp only [Dist.pure_bind']

theorem rlsRun_eq (hf : Evaluates f n val) (hs : Starts p n) {t : RlsState K} (ht : t.solution.1.length = n) {T : ℕ} (hT : 0 < T) :
    rlsRun p f T t = (startLaw p n >>= fun x => boundedLoop (fun s => s.last) (rlsIterate p f) T ⟨(x, val x), x, x, [], 0, false⟩ >>=
      fun s => pure ((s.origin, s.solution.2), { s with solution := (s.origin, s.solution.2) })) := by
  unfold rlsRun loop
  simp only [show (T : ℤ) > 0 by omega, if_true, Int.toNat_natCast]
  rw [rlsAgain_eq hf hs ht, Dist.bind_assoc', Dist.bind_assoc']
  refine Dist.bind_congr_support (fun x _ => ?_)
  rw [Dist.pure_bind']
  obtain ⟨T, rfl⟩ : ∃ k, T = k + 1 := ⟨T - 1, by omega⟩
  rw [boundedLoop, boundedLoop, if_neg (by simp), if_neg (by simp)]
  have := rlsIterate_flipped (p := p) (f := f) (⟨(x, val x), x, x, [], 0, false⟩ : RlsState K) t.flipped
  dsimp only at this
  rw [this]

theorem randomLocalSearch_eq (hf : Evaluates f n val) (hs : Starts p n) {T : ℕ} (hT : 0 < T) :
    randomLocalSearch p f n T = (startLaw p n >>= fun x => boundedLoop (fun s => s.last) (rlsIterate p f) T ⟨(x, val x), x, x, [], 0, false⟩ >>=
      fun s => pure (s.origin, s.solution.2)) := by
  unfold randomLocalSearch loop
  simp only [show (T : ℤ) > 0 by omega, if_true, Int.toNat_natCast]
  rw [rlsInit_eq hf hs, Dist.bind_assoc', Dist.bind_assoc']
  refine Dist.bind_congr_support (fun x _ => ?_)
  rw [Dist.pure_bind']

theorem startLaw_sure (hs : Starts p n) : Sure (startLaw p n) (fun x => x.length = n) := by
  refine ⟨?_, fun x hx => startLaw_support hs hx⟩
  unfold startLaw
  split
  · exact bvRandomBits_total _
  · exact Dist.total_pure _

/-- C118: the runs of random local search are independent of each other: whatever the previous run has left, the solution of the next
run has the law of the solution of the first one. -/
theorem rls_runs (hf : Evaluates f n val) (hp : NeverWorse p) (hd : Samples p n) (hs : Starts p n) {T : ℕ} (hT : 0 < T) :
    (∀ t : RlsState K, t.solution.1.length = n → (rlsRun p f T t >>= fun r => pure r.1) = randomLocalSearch p f n T) ∧
    Runs n val (rlsRun p f T) (fun t => t.solution.1.length = n) (missProb (randomLocalSearch p f n T) (IsMax n val)) := by
  have h1 : ∀ t : RlsState K, t.solution.1.length = n → (rlsRun p f T t >>= fun r => pure r.1) = randomLocalSearch p f n T := by
    intro t ht
    rw [rlsRun_eq hf hs ht hT, randomLocalSearch_eq hf hs hT, Dist.bind_assoc']
    refine Dist.bind_congr_support (fun x _ => ?_)
    rw [Dist.bind_assoc']
    refine Dist.bind_congr_support (fun u _ => ?_)
    rw [Dist.pure_bind']
  have h2 : ∀ t : RlsState K, t.solution.1.length = n → Sure (rlsRun p f T t) (fun r => r.1.1.length = n ∧ r.1.2 = val r.1.1 ∧
      r.2.solution.1.length = n) := by
    intro t ht
    rw [rlsRun_eq hf hs ht hT]
    refine (startLaw_sure hs).bind (fun x hx => (boundedLoop_any hf hp hd T (s := ⟨(x, val x), x, x, [], 0, false⟩) ⟨rfl, hx, rfl⟩).bind
      (fun u hu => Sure.pure ⟨hu.1.length, hu.1.value, hu.1.length⟩))
  exact ⟨h1, ⟨fun t ht => (h2 t ht).total, fun t ht r hr => (h2 t ht).holds r hr, fun t ht => by rw [h1 t ht]⟩⟩

/-- C118: a run of random local search from a random vector finds a maximum at least when it begins with one, whatever its patience
and its neighbourhood. -/
theorem rls_miss_le (hf : Evaluates f n val) (hp : NeverWorse p) (hd : Samples p n) (hr : p.randomInitialization = true) {T : ℕ}
    (hT : 0 < T) : missProb (randomLocalSearch p f n T) (IsMax n val) ≤ 1 - {x | IsMax n val x}.ncard / (2 : ℝ≥0∞) ^ n := by
  classical
  have hs : Starts p n := fun h => by rw [hr] at h; cases h
  have hsure : Sure (randomLocalSearch p f n T) (fun _ => True) := by
    rw [randomLocalSearch_eq hf hs hT]
    exact (startLaw_sure hs).bind (fun x hx => (boundedLoop_any hf hp hd T (s := ⟨(x, val x), x, x, [], 0, false⟩) ⟨rfl, hx, rfl⟩).bind
      (fun u hu => Sure.pure trivial))
  unfold missProb
  have h1 : (startLaw p n).expect (missing (IsMax n val)) = 1 - {x | IsMax n val x}.ncard / (2 : ℝ≥0∞) ^ n := by
    have hst : startLaw p n = bvRandomBits (List.replicate n false) := by
      unfold startLaw
      rw [hr, if_pos rfl]
    rw [hst]
    have := expect_missing_prob (bvRandomBits_total (List.replicate n false)) (IsMax n val)
    rw [uniform_prob (P := IsMax n val) _ (fun y hy => by simpa using hy.1), List.length_replicate] at this
    rw [div_eq_mul_inv, ← this]
  rw [← expect_missing_prob hsure.total, ← h1, randomLocalSearch_eq hf hs hT, Dist.expect_bind]
  refine Dist.expect_mono (fun x hx => ?_)
  have hl := boundedLoop_any hf hp hd T (s := ⟨(x, val x), x, x, [], 0, false⟩) ⟨rfl, startLaw_support hs hx, rfl⟩
  rw [Dist.expect_bind]
  simp only [Dist.expect_pure]
  refine le_trans (Dist.expect_mono (W := fun _ => missing (IsMax n val) x) (fun u hu => ?_)) ?_
  · obtain ⟨g1, g2⟩ := hl.holds u hu
    unfold missing
    by_cases h : IsMax n val x
    · rw [if_pos h, if_pos (show IsMax n val (u.origin, u.solution.2).1 from ⟨g1.length, fun y hy => (h.2 y hy).trans g2⟩)]
    · rw [if_neg h]
      split
      · exact zero_le
      · exact le_refl _
  · rw [Dist.expect_const, hl.total, one_mul]

/-- C118: with restarts, random local search finds the maximum of any function with probability one, from random vectors: the
probability that `R + 1` runs miss it is the one of one run to the power `R + 1`, and at most `(1 - N / 2^n)^(R + 1)` if there are
`N` maxima. -/
theorem restart_rls (hf : Evaluates f n val) (hp : NeverWorse p) (hd : Samples p n) (hr : p.randomInitialization = true) {T : ℕ}
    (hT : 0 < T) (s : (BV × K) × RlsState K) (hs : s.2.solution.1.length = n) :
    (∀ R : ℕ, missProb (restart (rlsRun p f T) s (R + 1 : ℕ)) (IsMax n val) =
      missProb (randomLocalSearch p f n T) (IsMax n val) ^ (R + 1)) ∧
    (∀ R : ℕ, missProb (restart (rlsRun p f T) s (R + 1 : ℕ)) (IsMax n val) ≤ (1 - {x | IsMax n val x}.ncard / (2 : ℝ≥0∞) ^ n) ^ (R + 1)) ∧
    Filter.Tendsto (fun R : ℕ => missProb (restart (rlsRun p f T) s (R + 1 : ℕ)) (IsMax n val)) Filter.atTop (nhds 0) := by
  have hst : Starts p n := fun h => by rw [hr] at h; cases h
  have hruns := (rls_runs hf hp hd hst hT).2
  have hle := rls_miss_le hf hp hd hr hT
  refine ⟨restart_miss hruns hs, fun R => ?_, restart_converges hruns ?_ hs⟩
  · rw [restart_miss hruns hs]
    exact pow_le_pow_left' hle _
  · refine lt_of_le_of_lt hle ?_
    refine ENNReal.sub_lt_self ENNReal.one_ne_top one_ne_zero ?_
    obtain ⟨x, hx⟩ := max_exists n val
    have hfin : {x | IsMax n val x}.Finite := (List.finite_length_eq Bool n).subset (fun y hy => hy.1)
    have : {x | IsMax n val x}.ncard ≠ 0 := by
      rw [Ne, Set.ncard_eq_zero hfin]
      exact fun h => by
        have : x ∈ ({x | IsMax n val x} : Set BV) := hx
        rw [h] at this
        exact this
    exact (ENNReal.div_pos (by exact_mod_cast this) (by simp)).ne'

/-! ## Examples -/

/-- A search with single bit flips which gives up after three failures. -/
noncomputable def impatient (n : ℕ) : RlsParams ℤ := ⟨⟨true, List.replicate n false⟩, singleBitFlip n, fun a b => decide (b < a), 3, false⟩

/-- Such a search may be trapped; restarted, it finds the maximum of a trap. -/
example (n : ℕ) (hn : 2 ≤ n) (s : (BV × ℤ) × RlsState ℤ) (hs : s.2.solution.1.length = n) :
    Filter.Tendsto (fun R : ℕ => missProb (restart (rlsRun (impatient n) (trap n 1 n) (100 : ℕ)) s (R + 1 : ℕ))
      (IsMax n (fun x => trapBlock n ((x.take n).count true)))) Filter.atTop (nhds 0) := by
  have hev : Evaluates (trap n 1 n) n (fun x => trapBlock n ((x.take n).count true)) := by
    refine ⟨rfl, fun x hx => ?_, fun h => by cases h⟩
    have := trap_value 1 n x (by omega)
    simpa using this
  exact (restart_rls hev (p := impatient n) (fun a b h => le_of_lt (by simpa [impatient] using h)) (singleBitFlip_samples (by omega) rfl) rfl
    (by norm_num) s hs).2.2

end Hnco.Prob
