import Verif.Prob.EvolutionLemmas
import Verif.Algorithm.GenerationReach
import Verif.Algorithm.Total
import Verif.Prob.VectorProps

/-!
# Evolutionary algorithms with populations find the maximum
-/

namespace Hnco.Prob

open Outcome
open scoped ENNReal
open Classical

variable {K τ : Type} [LinearOrder K] {f : Fn K} {n mu lam : ℕ} {val : BV → K} {c : Choices K}

/-! ## Plus selection -/

theorem muPlusIterate_eq (d : Dist (List ℕ)) (s : EaState K (Pop K)) : muPlusIterate f c d s
    = (Dist.forRange 0 s.offsprings.size (makeOffspring d s.parents) s.offsprings >>= plusRest f c s) := rfl

/-- What an old solution is worth, and a bound when it is not a maximum. -/
theorem missing_mul_le {old : Prop} {a r : ℝ≥0∞} (h : ¬ old → a ≤ r) :
    missing (fun _ : Unit => old) () * a ≤ r * missing (fun _ : Unit => old) () := by
  unfold missing
  by_cases ho : old
  · rw [if_pos ho, zero_mul]
    exact zero_le
  · rw [if_neg ho, one_mul, mul_one]
    exact h ho

theorem muPlusIterate_step (hf : Evaluates f n val) (hc : c.Valid) (hmu : 0 < mu) {d : Dist (List ℕ)} {z : ℝ≥0∞} (hd : Mutates d n z)
    {s : EaState K (Pop K)} (hs : EaGood n mu lam val (Pop.Valid (mu + lam) n) s) :
    Sure (muPlusIterate f c d s) (EaGood n mu lam val (Pop.Valid (mu + lam) n)) ∧
    (muPlusIterate f c d s).expect (missing (fun s => IsMax n val s.solution.1))
      ≤ (1 - z) ^ lam * missing (fun s : EaState K (Pop K) => IsMax n val s.solution.1) s := by
  have h1 := offsprings_sure hd hmu hs.parents hs.offsprings
  rw [muPlusIterate_eq]
  refine ⟨h1.bind (fun o ho => (plusRest_sure hf hc hmu hs ho).mono (fun _ h => h.1)), ?_⟩
  rw [expect_after h1 (fun o ho => (plusRest_sure hf hc hmu hs ho).mono (fun _ h => h.2))]
  exact missing_mul_le (fun h => le_trans (le_of_eq (by congr!)) (offsprings_le (val := val) hd hmu hs.parents hs.offsprings (fun h' => h (hs.best h'))))

/-- C113: the (mu+lambda) evolutionary algorithm finds a maximum of any function, whatever the order in which equal individuals
are sorted: with `c = min(p, 1 - p)^n` for the mutation rate `p`, the probability that it has not been found after `t`
iterations is at most `(1 - c)^(mu + lambda t)`. -/
theorem muPlusLambda_converges [Zero K] (hf : Evaluates f n val) (hc : c.Valid) (hn : 0 < n) (hmu : 0 < mu) (hlam : 0 < lam)
    {m : MutationLaw} (h0 : 0 < m.rate) (h1 : m.rate ≤ 1) {t : ℕ} (ht : 0 < t) :
    missProb (muPlusLambdaEa f c m n mu lam t) (IsMax n val) ≤ (1 - min m.rate (1 - m.rate) ^ n) ^ (mu + lam * t) := by
  obtain ⟨d, e, hv, hx⟩ := muPlusNew_ok (K := K) hn hmu hlam ⟨false, false⟩
  have hd := operator_mutates hn h0 h1
  unfold muPlusLambdaEa
  rw [e, Dist.lift_ok, Dist.pure_bind']
  refine (run_miss_le (solution := EaState.solution) (found := IsMax n val) (I := EaGood n mu lam val (Pop.Valid (mu + lam) n))
    (parentsInit_sure hf hc hmu hv.parents hv.offsprings hx) (fun s hs => (muPlusIterate_step hf hc hmu hd hs).1)
    (parentsInit_le hf hc hmu hv.parents hv.offsprings hx (tsub_le_tsub_left (min_pow_le (p := m.rate) n) 1))
    (fun s hs => (muPlusIterate_step hf hc hmu hd hs).2) ht).trans (le_of_eq ?_)
  rw [← pow_mul, ← pow_add, add_comm]

/-! ## Comma selection -/

theorem muCommaIterate_eq (d : Dist (List ℕ)) (s : EaState K Unit) : muCommaIterate f c d s
    = (Dist.forRange 0 s.offsprings.size (makeOffspring d s.parents) s.offsprings >>= commaRest f c () s) := rfl

theorem muCommaInit_sure (hf : Evaluates f n val) {d : EaData K Unit} (hv : d.Valid n mu lam) :
    Sure (muCommaInit f n d) (EaStart n mu lam val (fun _ => True)) := by
  unfold muCommaInit
  rw [popRandom_sample]
  exact (popSample_sure hv.parents (randomBits_sure n)).bind (fun p hp => (randomSolution_sure hf).bind (fun s hs =>
    Sure.pure ⟨hs, hp, hv.offsprings, trivial⟩))

theorem muCommaInit_le (hf : Evaluates f n val) {d : EaData K Unit} (hv : d.Valid n mu lam) :
    (muCommaInit f n d).expect (missing (fun s => IsMax n val s.solution.1)) ≤ 1 - ((2 : ℝ≥0∞) ^ n)⁻¹ := by
  unfold muCommaInit
  rw [popRandom_sample, Dist.expect_bind]
  have h := popSample_sure hv.parents (randomBits_sure n)
  calc (popSample bvRandomBits d.parents).expect _ ≤ (popSample bvRandomBits d.parents).expect (fun _ => 1 - ((2 : ℝ≥0∞) ^ n)⁻¹) := by
        refine Dist.expect_mono (fun p _ => ?_)
        rw [Dist.expect_bind]
        refine le_trans (le_of_eq ?_) (randomBits_le (val := val) (List.replicate n false) (by simp))
        rw [← randomSolution_expect hf (IsMax n val)]
        refine Dist.expect_congr (fun s _ => ?_)
        rw [Dist.expect_pure]
        rfl
    _ = _ := by rw [Dist.expect_const, h.total, one_mul]

theorem muCommaIterate_start (hf : Evaluates f n val) (hc : c.Valid) (hmu : 0 < mu) (hle : mu ≤ lam) {d : Dist (List ℕ)} {z : ℝ≥0∞}
    (hd : Mutates d n z) {s : EaState K Unit} (hs : EaStart n mu lam val (fun _ => True) s) :
    Sure (muCommaIterate f c d s) (EaGood n mu lam val (fun _ => True)) ∧
    (muCommaIterate f c d s).expect (missing (fun s => IsMax n val s.solution.1))
      ≤ missing (fun s : EaState K Unit => IsMax n val s.solution.1) s := by
  have h1 := offsprings_sure hd hmu hs.parents hs.offsprings
  rw [muCommaIterate_eq]
  refine ⟨h1.bind (fun o ho => (commaRest_sure hf hc hmu hle hs trivial ho).mono (fun _ h => h.1)), ?_⟩
  rw [expect_after h1 (fun o ho => (commaRest_sure hf hc hmu hle hs trivial ho).mono (fun _ h => h.2))]
  exact (missing_mul_le (fun _ => h1.expect_le_one _ (missing_le_one _))).trans (by rw [one_mul]; exact le_refl _)

theorem muCommaIterate_step (hf : Evaluates f n val) (hc : c.Valid) (hmu : 0 < mu) (hle : mu ≤ lam) {d : Dist (List ℕ)} {z : ℝ≥0∞}
    (hd : Mutates d n z) {s : EaState K Unit} (hs : EaGood n mu lam val (fun _ => True) s) :
    (muCommaIterate f c d s).expect (missing (fun s => IsMax n val s.solution.1))
      ≤ (1 - z) ^ lam * missing (fun s : EaState K Unit => IsMax n val s.solution.1) s := by
  have h1 := offsprings_sure hd hmu hs.parents hs.offsprings
  rw [muCommaIterate_eq, expect_after h1 (fun o ho => (commaRest_sure hf hc hmu hle hs.toEaStart trivial ho).mono (fun _ h => h.2))]
  exact missing_mul_le (fun h => le_trans (le_of_eq (by congr!)) (offsprings_le (val := val) hd hmu hs.parents hs.offsprings (fun h' => h (hs.best h'))))

/-- C113: the (mu,lambda) evolutionary algorithm finds a maximum of any function: with `c = min(p, 1 - p)^n` for the mutation rate
`p`, the probability that it has not been found after `t + 1` iterations is at most `(1 - c)^(1 + lambda t)`.  The first
iteration does not count: the first parents are never evaluated, hence the offsprings of a maximum may be lost with it. -/
theorem muCommaLambda_converges [Zero K] (hf : Evaluates f n val) (hc : c.Valid) (hn : 0 < n) (hmu : 0 < mu) (hle : mu ≤ lam)
    {m : MutationLaw} (h0 : 0 < m.rate) (h1 : m.rate ≤ 1) (t : ℕ) :
    missProb (muCommaLambdaEa f c m n mu lam (t + 1 : ℕ)) (IsMax n val) ≤ (1 - min m.rate (1 - m.rate) ^ n) ^ (1 + lam * t) := by
  obtain ⟨d, e, hv⟩ := muCommaNew_ok (K := K) hn hmu hle ⟨false, false⟩
  have hd := operator_mutates hn h0 h1
  unfold muCommaLambdaEa
  rw [e, Dist.lift_ok, Dist.pure_bind']
  rw [missProb_run (solution := EaState.solution) (found := IsMax n val) (I := EaStart n mu lam val (fun _ => True))
    (muCommaInit_sure hf hv) (fun s hs => (muCommaIterate_start hf hc hmu hle hd hs).1.mono (fun _ h => h.toEaStart)) (Nat.succ_pos t),
    Dist.expect_bind]
  have key : ∀ s, EaStart n mu lam val (fun _ => True) s →
      (Dist.steps (muCommaIterate f c ((m.operator n).sampleBits n)) (t + 1) s).expect (missing (fun s => IsMax n val s.solution.1))
        ≤ ((1 - min m.rate (1 - m.rate) ^ n) ^ lam) ^ t * missing (fun s : EaState K Unit => IsMax n val s.solution.1) s := by
    intro s hs
    have hs1 := muCommaIterate_start hf hc hmu hle hd hs
    change (muCommaIterate f c ((m.operator n).sampleBits n) s >>= fun s => Dist.steps _ t s).expect _ ≤ _
    rw [Dist.expect_bind]
    refine (Dist.expect_mono (fun s' hs' => steps_le (I := EaGood n mu lam val (fun _ => True))
      (fun s hs => (muCommaIterate_start hf hc hmu hle hd hs.toEaStart).1)
      (fun s hs => muCommaIterate_step hf hc hmu hle hd hs) t s' (hs1.1.holds s' hs'))).trans ?_
    rw [Dist.expect_mul_left]
    exact mul_le_mul_right hs1.2 _
  refine (Dist.expect_mono (fun s hs => key s ((muCommaInit_sure hf hv).holds s hs))).trans ?_
  rw [Dist.expect_mul_left, ← pow_mul, pow_add, pow_one, mul_comm]
  exact mul_le_mul_left ((muCommaInit_le hf hv).trans (tsub_le_tsub_left (min_pow_le (p := m.rate) n) 1)) _

/-! ## Genetic algorithm -/

/-- What follows the making of offsprings. -/
noncomputable def gaRest (f : Fn K) (c : Choices K) (s : EaState K Tournament) (o : Tournament × Pop K) : Dist (EaState K Tournament) :=
  commaRest f c o.1 s o.2

theorem gaIterate_eq (q : GaLaw) (s : EaState K Tournament) : gaIterate f c q n s
    = (Dist.forRange 0 s.offsprings.size (gaOffspring c q n s.parents) (s.extra, s.offsprings) >>= gaRest f c s) := rfl

theorem gaIterate_step (hf : Evaluates f n val) (hc : c.Valid) (hmu : 0 < mu) {q : GaLaw} {z : ℝ≥0∞}
    (hd : Mutates ((q.operator n).sampleBits n) n z) {s : EaState K Tournament} (hs : EaGood n mu mu val (Tournament.Valid mu) s) :
    Sure (gaIterate f c q n s) (EaGood n mu mu val (Tournament.Valid mu)) ∧
    (gaIterate f c q n s).expect (missing (fun s => IsMax n val s.solution.1))
      ≤ (1 - z / 2) ^ mu * missing (fun s : EaState K Tournament => IsMax n val s.solution.1) s := by
  have h1 := gaLoop_sure (s := (s.extra, s.offsprings)) hc hd hs.parents ⟨hs.extra, hs.offsprings⟩
  rw [gaIterate_eq, show s.offsprings.size = mu from hs.offsprings.bvs]
  refine ⟨h1.bind (fun o ho => (commaRest_sure hf hc hmu (le_refl _) hs.toEaStart ho.1 ho.2).mono (fun _ h => h.1)), ?_⟩
  rw [expect_after (rest := gaRest f c s) h1 (fun o ho =>
    (commaRest_sure hf hc hmu (le_refl _) hs.toEaStart ho.1 ho.2).mono (fun _ h => h.2))]
  exact missing_mul_le (fun h => le_trans (le_of_eq (by congr!)) (gaLoop_le (val := val) hc hd hs.parents ⟨hs.extra, hs.offsprings⟩ (fun h' => h (hs.best h'))))

/-- C113: the genetic algorithm, with tournaments of `k < mu` individuals, finds a maximum of any function, whatever the crossover
probability: with `c = min(p, 1 - p)^n` for the mutation rate `p`, the probability that it has not been found after `t`
iterations is at most `(1 - c/2)^(mu (t + 1))`. -/
theorem geneticAlgorithm_converges [Zero K] (hf : Evaluates f n val) (hc : c.Valid) (hn : 0 < n) {q : GaLaw} (h2 : 2 ≤ q.tournamentSize)
    (hmu : q.tournamentSize < mu) (h0 : 0 < q.rate) (h1 : q.rate ≤ 1) {t : ℕ} (ht : 0 < t) :
    missProb (geneticAlgorithm f c q n mu t) (IsMax n val) ≤ (1 - min q.rate (1 - q.rate) ^ n / 2) ^ (mu * (t + 1)) := by
  have hmu0 : 0 < mu := by omega
  obtain ⟨d, e, hv, hx⟩ := gaNew_ok (K := K) hn hmu0 ⟨false, false⟩
  have hd := operator_mutates hn h0 h1
  have hinit : Sure (c.start { d.extra with size := q.tournamentSize.toNat }) (Tournament.Valid mu) :=
    (Sure.of_follows (hc.start { d.extra with size := q.tournamentSize.toNat } mu hx)
      (Tournament.init_valid (N := mu) (t := { d.extra with size := q.tournamentSize.toNat }) hx (by dsimp only; omega) (by dsimp only; omega))).mono
      (fun _ h => h.1)
  have hr : 1 - ((2 : ℝ≥0∞) ^ n)⁻¹ ≤ 1 - min q.rate (1 - q.rate) ^ n / 2 := by
    refine tsub_le_tsub_left (le_trans ?_ (min_pow_le (p := q.rate) n)) 1
    exact ENNReal.half_le_self
  unfold geneticAlgorithm
  rw [e, Dist.lift_ok, Dist.pure_bind']
  have heq : gaInit f c q d = (c.start { d.extra with size := q.tournamentSize.toNat } >>= fun t => parentsInit f c d t) := by
    unfold gaInit
    unfold Tournament.setSize
    rw [if_pos ⟨h2, by rw [show d.parents.size = mu from hv.parents.bvs]; exact hmu⟩, Dist.lift_ok, Dist.pure_bind']
  rw [heq]
  refine (run_miss_le (solution := EaState.solution) (found := IsMax n val) (I := EaGood n mu mu val (Tournament.Valid mu))
    (hinit.bind (fun t ht => parentsInit_sure hf hc hmu0 hv.parents hv.offsprings ht)) (fun s hs => (gaIterate_step hf hc hmu0 hd hs).1)
    (a := (1 - min q.rate (1 - q.rate) ^ n / 2) ^ mu) ?_
    (fun s hs => (gaIterate_step hf hc hmu0 hd hs).2) ht).trans (le_of_eq ?_)
  · rw [Dist.expect_bind]
    refine (Dist.expect_mono (W := fun _ => (1 - min q.rate (1 - q.rate) ^ n / 2) ^ mu) (fun t ht =>
      parentsInit_le hf hc hmu0 hv.parents hv.offsprings (hinit.holds t ht) hr)).trans ?_
    rw [Dist.expect_const, hinit.total, one_mul]
  · rw [← pow_mul, ← pow_add, mul_add, mul_one]

/-! ## Limits -/

theorem tendsto_of_le_pow {u : ℕ → ℝ≥0∞} {r : ℝ≥0∞} (hr : r < 1) {e : ℕ → ℕ} (he : ∀ t, t ≤ e t) (h : ∀ t, u t ≤ r ^ e t) :
    Filter.Tendsto u Filter.atTop (nhds 0) :=
  tendsto_of_tendsto_of_tendsto_of_le_of_le tendsto_const_nhds (ENNReal.tendsto_pow_atTop_nhds_zero_of_lt_one hr) (fun _ => zero_le)
    (fun t => (h t).trans (pow_le_pow_right_of_le_one' hr.le (he t)))

theorem one_sub_lt {z : ℝ≥0∞} (hz : 0 < z) : 1 - z < 1 := ENNReal.sub_lt_self ENNReal.one_ne_top one_ne_zero hz.ne'

theorem margin_pos (n : ℕ) : 0 < ((n : ℝ≥0∞)⁻¹) ^ n := by
  refine pos_iff_ne_zero.mpr (pow_ne_zero _ ?_)
  simp

theorem rate_pos {p : ℝ≥0∞} (h0 : 0 < p) (h1 : p < 1) (n : ℕ) : 0 < min p (1 - p) ^ n := by
  refine pos_iff_ne_zero.mpr (pow_ne_zero _ ?_)
  exact (lt_min h0 (tsub_pos_of_lt h1)).ne'

theorem le_mul_pos {a b : ℕ} (h : 0 < a) : b ≤ a * b := Nat.le_mul_of_pos_left b h

/-- C113: the algorithms with a probability vector with margins find a maximum with probability one. -/
theorem vectors_find [Zero K] (hf : Evaluates f n val) (hc : c.Valid) (hn : 2 ≤ n) :
    (∀ q : CompactParams, Filter.Tendsto (fun t : ℕ => missProb (compactGa f q n (t + 1 : ℕ)) (IsMax n val)) Filter.atTop (nhds 0)) ∧
    (∀ q : MmasParams K, Compares q.compare →
      Filter.Tendsto (fun t : ℕ => missProb (mmas f q n (t + 1 : ℕ)) (IsMax n val)) Filter.atTop (nhds 0)) ∧
    (∀ (sel size : ℕ) (rate : ℚ), 1 ≤ sel → sel ≤ size →
      Filter.Tendsto (fun t : ℕ => missProb (pbil f c ⟨sel, rate⟩ n size (t + 1 : ℕ)) (IsMax n val)) Filter.atTop (nhds 0)) ∧
    (∀ sel size : ℕ, 1 ≤ sel → sel ≤ size →
      Filter.Tendsto (fun t : ℕ => missProb (umda f c sel n size (t + 1 : ℕ)) (IsMax n val)) Filter.atTop (nhds 0)) := by
  have hr := one_sub_lt (margin_pos n)
  have he : ∀ sel size : ℕ, 1 ≤ sel → sel ≤ size → ∀ t, t ≤ size * (t + 1) + 1 := fun sel size h1 h2 t =>
    (le_mul_pos (by omega : 0 < size)).trans (by rw [mul_add]; omega)
  exact ⟨fun q => tendsto_of_le_pow hr (e := fun t => 2 * (t + 1) + 1) (fun t => by omega)
      (fun t => compactGa_converges hf hn q (Nat.succ_pos t)),
    fun q hq => tendsto_of_le_pow hr (e := fun t => t + 1 + 1) (fun t => by omega) (fun t => mmas_converges hf hn hq (Nat.succ_pos t)),
    fun sel size rate h1 h2 => tendsto_of_le_pow hr (he sel size h1 h2) (fun t => pbil_converges hf hc hn h1 h2 rate (Nat.succ_pos t)),
    fun sel size h1 h2 => tendsto_of_le_pow hr (he sel size h1 h2) (fun t => umda_converges hf hc hn h1 h2 (Nat.succ_pos t))⟩

/-- C113: the evolutionary algorithms with populations find a maximum with probability one, if the mutation rate is neither zero
nor one. -/
theorem populations_find [Zero K] (hf : Evaluates f n val) (hc : c.Valid) (hn : 0 < n) :
    (∀ m : MutationLaw, 0 < m.rate → m.rate < 1 → 0 < mu → 0 < lam →
      Filter.Tendsto (fun t : ℕ => missProb (muPlusLambdaEa f c m n mu lam (t + 1 : ℕ)) (IsMax n val)) Filter.atTop (nhds 0)) ∧
    (∀ m : MutationLaw, 0 < m.rate → m.rate < 1 → 0 < mu → mu ≤ lam →
      Filter.Tendsto (fun t : ℕ => missProb (muCommaLambdaEa f c m n mu lam (t + 1 : ℕ)) (IsMax n val)) Filter.atTop (nhds 0)) ∧
    (∀ q : GaLaw, 0 < q.rate → q.rate < 1 → 2 ≤ q.tournamentSize → q.tournamentSize < mu →
      Filter.Tendsto (fun t : ℕ => missProb (geneticAlgorithm f c q n mu (t + 1 : ℕ)) (IsMax n val)) Filter.atTop (nhds 0)) := by
  refine ⟨fun m h0 h1 hmu hlam => tendsto_of_le_pow (one_sub_lt (rate_pos h0 h1 n)) (e := fun t => mu + lam * (t + 1)) (fun t => ?_)
      (fun t => muPlusLambda_converges hf hc hn hmu hlam h0 h1.le (Nat.succ_pos t)),
    fun m h0 h1 hmu hle => tendsto_of_le_pow (one_sub_lt (rate_pos h0 h1 n)) (e := fun t => 1 + lam * t) (fun t => ?_)
      (fun t => muCommaLambda_converges hf hc hn hmu hle h0 h1.le t),
    fun q h0 h1 h2 hmu => tendsto_of_le_pow (one_sub_lt (ENNReal.half_pos (rate_pos h0 h1 n).ne')) (e := fun t => mu * (t + 1 + 1))
      (fun t => ?_) (fun t => geneticAlgorithm_converges hf hc hn h2 hmu h0 h1.le (Nat.succ_pos t))⟩
  · exact (le_mul_pos hlam).trans (by rw [mul_add]; omega)
  · exact (le_mul_pos (by omega : 0 < lam)).trans (by omega)
  · exact (le_mul_pos (by omega : 0 < mu)).trans (by rw [mul_add, mul_add]; omega)

/-! ## Examples -/

/-- Some possible result, always the same. -/
noncomputable def someResult {α : Type} (m : Sim α) : Dist α :=
  if h : ∃ a ds rest, m ds = .ok a rest then pure h.choose else Dist.never

theorem someResult_follows {α : Type} {m : Sim α} (h : ∃ a ds rest, m ds = .ok a rest) :
    Follows (someResult m) m := by
  unfold someResult
  rw [dif_pos h]
  exact ⟨Dist.total_pure _, fun a ha => by rw [pure_support ha]; exact h.choose_spec⟩

theorem reaches_given {α : Type} {m : Sim α} {a : α} (h : Sim.Reaches m a) : ∃ a ds rest, m ds = .ok a rest := by
  obtain ⟨ds, h⟩ := h
  exact ⟨a, _, _, h []⟩

theorem within_given {α : Type} {k : ℕ} {m : Sim α} {P : α → Prop} (h : Sim.Within k m P) : ∃ a ds rest, m ds = .ok a rest := by
  obtain ⟨a, rest, e, _⟩ := h (List.replicate k 0) (by simp)
  exact ⟨a, _, _, e⟩

theorem shuffle_within {α : Type} (l : List α) : Sim.Within 1 (Sim.shuffle l) (fun _ => True) := by
  intro ds hds
  cases ds with
  | nil => simp at hds
  | cons d ds => exact ⟨_, ds, rfl, by simp, trivial⟩

theorem descending_take {l : List (BV × K)} (h : Descending l) (k : ℕ) :
    Descending (l.take k) ∧ ∀ a ∈ l.take k, ∀ b ∈ l.drop k, b.2 ≤ a.2 := by
  have h' : Descending (l.take k ++ l.drop k) := by rw [List.take_append_drop]; exact h
  exact ⟨(List.pairwise_append.mp h').1, (List.pairwise_append.mp h').2.2⟩

/-- Some laws of sorting and of tournaments. -/
noncomputable def someChoices (K : Type) [LinearOrder K] : Choices K where
  sort p := someResult p.sort
  comma parents offsprings := someResult (commaSelect parents offsprings)
  plus parents offsprings pool := someResult (plusSelect parents offsprings pool)
  start t := someResult t.init
  select parents t := someResult (t.select (fun a b => decide (b < a)) parents.bvs parents.values)

theorem someChoices_valid (K : Type) [LinearOrder K] : (someChoices K).Valid := by
  refine ⟨fun p size n hp => someResult_follows ?_, fun parents offsprings mu lam n hmu hle hp ho => someResult_follows ?_,
    fun parents offsprings pool mu lam n hmu hp ho hpool => someResult_follows ?_, fun t mu ht => someResult_follows ?_,
    fun parents t mu n hp ht => someResult_follows ?_⟩
  · obtain ⟨l, h1, h2⟩ := exists_descending p.individuals
    obtain ⟨q, hq, _⟩ := pop_sort_reaches hp h1 h2
    exact reaches_given hq
  · obtain ⟨l, h1, h2⟩ := exists_descending offsprings.individuals
    obtain ⟨h3, h4⟩ := descending_take h2 mu
    have hl : l.length = lam := by rw [h1.length_eq, ← List.length_map (f := Prod.fst), individuals_fst ho, ho.bvs]
    obtain ⟨p, o, h, _⟩ := comma_select_reaches hmu hle hp ho (l := l.take mu) (others := l.drop mu) (by rw [List.length_take]; omega)
      (by rw [List.take_append_drop]; exact h1) h3 h4
    exact reaches_given h
  · obtain ⟨l, h1, h2⟩ := exists_descending (parents.individuals ++ offsprings.individuals)
    obtain ⟨h3, h4⟩ := descending_take h2 mu
    have hl : l.length = mu + lam := by
      rw [h1.length_eq, List.length_append, ← List.length_map (f := Prod.fst) (as := parents.individuals), individuals_fst hp, hp.bvs,
        ← List.length_map (f := Prod.fst) (as := offsprings.individuals), individuals_fst ho, ho.bvs]
    obtain ⟨p, o, r, h, _⟩ := plus_select_reaches hmu hp ho hpool (l := l.take mu) (others := l.drop mu)
      (by rw [List.length_take]; omega) (by rw [List.take_append_drop]; exact h1) h3 h4
    exact reaches_given h
  · unfold Tournament.init
    exact within_given ((shuffle_within t.perm).bind (d := 0) (fun _ _ => Sim.Within.pure (P := fun _ => True) trivial))
  · have hle := ht.le
    have hstop := ht.stop
    have hsize := ht.size
    by_cases hlast : mu < t.stop + t.size
    · have h0 : 0 < parents.bvs.length := by rw [hp.bvs]; omega
      obtain ⟨u, h⟩ := tournament_last_round_any strictWeak_greater ht hp.bvs hp.values hlast (List.getElem?_eq_getElem h0)
      exact reaches_given h
    · unfold Tournament.select Tournament.next
      rw [hp.bvs, if_neg hlast]
      refine within_given (k := 0 + (0 + (0 + (0 + (0 + 0))))) (P := fun _ => True) ?_
      refine (Sim.Within.lift (P := fun _ => True) ⟨(), assert_pos (by
        rw [Bool.and_eq_true, decide_eq_true_eq, decide_eq_true_eq]; omega), trivial⟩).bind (fun _ _ => ?_)
      refine (Sim.Within.lift (Tournament.round_spec strictWeak_greater ht hp.values)).bind ?_
      rintro ⟨w, v⟩ ⟨w1, w2, k, w3, w4, w5⟩
      refine (Sim.Within.pure (a := { t with start := t.stop, stop := t.stop + t.size }) (P := fun u : Tournament => u.perm = t.perm)
        rfl).bind (fun u hu => ?_)
      rw [hu]
      have hkg : vget t.perm w = ok k := by unfold vget; rw [w3]
      have hkb : k < parents.bvs.length := by
        rw [hp.bvs]
        simpa using ht.perm.mem_iff.mp (List.mem_of_getElem? w3)
      refine (Sim.Within.lift (P := fun j => j = k) ⟨k, hkg, rfl⟩).bind (fun j hj => ?_)
      rw [hj]
      exact (Sim.Within.lift (P := fun _ => True) ⟨_, vget_eq hkb, trivial⟩).bind (fun _ _ => Sim.Within.pure trivial)

/-- The hypotheses are met by one max, with some order of sorting: for example by the (3+4) evolutionary algorithm on ten bits
with mutation rate `1/2`. -/
example (t : ℕ) : missProb (muPlusLambdaEa (oneMax 10) (someChoices ℤ) ⟨2⁻¹, false⟩ 10 (3 : ℕ) (4 : ℕ) (t + 1 : ℕ))
    (fun x => x = List.replicate 10 true) ≤ (1 - min 2⁻¹ (1 - 2⁻¹) ^ 10) ^ (3 + 4 * (t + 1)) := by
  have h := muPlusLambda_converges (oneMax_evaluates 10) (someChoices_valid ℤ) (by norm_num) (mu := 3) (lam := 4) (by norm_num) (by norm_num)
    (m := ⟨2⁻¹, false⟩) (by simp) (by simp) (Nat.succ_pos t)
  rw [show IsMax 10 (fun x => (ones x : ℤ)) = fun x => x = List.replicate 10 true from funext (fun x => propext (oneMax_found 10 x))] at h
  exact h

/-- The genetic algorithm with three parents and tournaments of two. -/
example : Filter.Tendsto (fun t : ℕ => missProb (geneticAlgorithm (oneMax 10) (someChoices ℤ) ⟨⟨2⁻¹, false⟩, 2⁻¹, 2⟩ 10 (3 : ℕ) (t + 1 : ℕ))
    (IsMax 10 (fun x => (ones x : ℤ)))) Filter.atTop (nhds 0) :=
  (populations_find (lam := 1) (oneMax_evaluates 10) (someChoices_valid ℤ) (by norm_num)).2.2 _ (by simp) (by simp) (by simp) (by simp)

/-- The (2,5) evolutionary algorithm. -/
example : Filter.Tendsto (fun t : ℕ => missProb (muCommaLambdaEa (oneMax 10) (someChoices ℤ) ⟨2⁻¹, false⟩ 10 (2 : ℕ) (5 : ℕ) (t + 1 : ℕ))
    (IsMax 10 (fun x => (ones x : ℤ)))) Filter.atTop (nhds 0) :=
  (populations_find (oneMax_evaluates 10) (someChoices_valid ℤ) (by norm_num)).2.1 _ (by simp) (by simp) (by norm_num) (by norm_num)

/-- Population-based incremental learning with ten vectors, of which the best two are learnt. -/
example : Filter.Tendsto (fun t : ℕ => missProb (pbil (oneMax 10) (someChoices ℤ) ⟨(2 : ℕ), 1 / 2⟩ 10 (10 : ℕ) (t + 1 : ℕ))
    (IsMax 10 (fun x => (ones x : ℤ)))) Filter.atTop (nhds 0) :=
  (vectors_find (oneMax_evaluates 10) (someChoices_valid ℤ) (by norm_num)).2.2.1 2 10 (1 / 2) (by norm_num) (by norm_num)

/-- The compact genetic algorithm on two bits. -/
example (q : CompactParams) : missProb (compactGa (oneMax 2) q 2 (3 : ℕ)) (IsMax 2 (fun x => (ones x : ℤ)))
    ≤ (1 - ((2 : ℕ) : ℝ≥0∞)⁻¹ ^ 2) ^ (2 * 3 + 1) := compactGa_converges (oneMax_evaluates 2) (le_refl _) q (by norm_num)

/-- Population-based incremental learning with negative and positive selection finds the maximum of one max on two bits no sooner
than random search. -/
example : missProb (npsPbil (oneMax 2) (someChoices ℤ) ⟨(2 : ℕ), 1 / 2⟩ 2 (4 : ℕ) (3 : ℕ)) (IsMax 2 (fun x => (ones x : ℤ)))
    = (1 - ({x : BV | IsMax 2 (fun x => (ones x : ℤ)) x}.ncard : ℝ≥0∞) * ((2 : ℝ≥0∞) ^ 2)⁻¹) ^ (4 * 3 + 1) :=
  npsPbil_random (oneMax_evaluates 2) (someChoices_valid ℤ) (le_refl _) (by norm_num) (by norm_num) _ (by norm_num)

/-- The number of zeros of one bit. -/
def zeroBit : Fn ℤ := Fn.ofEval 1 (fun x => Outcome.ok (if x = [true] then 0 else 1))

/-- The max-min ant system on the number of zeros of one bit. -/
example : missProb (mmas zeroBit ⟨fun a b => decide (b ≤ a), 1 / 2⟩ 1 (5 : ℕ)) (IsMax 1 (fun x => if x = [true] then (0 : ℤ) else 1))
    = 2⁻¹ :=
  mmas_single ⟨rfl, fun _ _ => rfl, by intro h; cases h⟩ (by decide)
    ⟨fun a b h => decide_eq_true h.le, fun a b h => decide_eq_false (not_le.mpr h)⟩ (by norm_num)

end Hnco.Prob
