import Verif.Prob.BetaSpec
import Verif.Prob.AnnealingLemmas
import Verif.Prob.PopulationLoops
import Verif.Prob.SymmetryLemmas

/-!
# Lemmas about the initial temperature of simulated annealing
-/

namespace Hnco.Prob

open Outcome
open scoped ENNReal

variable {d : Dist (List ℕ)} {n : ℕ} {f : Fn ℝ} {val : BV → ℝ}

theorem bits_uniform {x : BV} (hx : x.length = n) : bvRandomBits x = uniformLaw n := by
  refine Dist.ext (fun y => ?_)
  rw [bvRandomBits_law, hx]
  rfl

theorem uniform_total (n : ℕ) : (uniformLaw n).total = 1 := by
  rw [uniform_boltzmann]
  exact boltzmann_total _ _

/-! ## The law of the sum and of the counter -/

open Classical in
/-- What a trial adds. -/
noncomputable def addLoss (val : BV → ℝ) (s : ℝ × ℕ) (r : BV × BV) : ℝ × ℕ :=
  if val r.2 < val r.1 then (s.1 + (val r.2 - val r.1), s.2 + 1) else s

theorem addLoss_fold (l : List (BV × BV)) : ∀ s : ℝ × ℕ,
    l.foldl (addLoss val) s = (s.1 + (losses val l).sum, s.2 + (losses val l).length) := by
  induction l with
  | nil => intro s; simp [losses]
  | cons r l ih =>
    intro s
    rw [List.foldl_cons, ih]
    unfold addLoss losses
    by_cases h : val r.2 < val r.1
    · have h' : val r.2 - val r.1 < 0 := by linarith
      simp only [List.map_cons, List.filter_cons, h, h', if_true, decide_true, List.sum_cons, List.length_cons]
      refine Prod.ext ?_ ?_
      · dsimp only; ring
      · dsimp only; omega
    · have h' : ¬ val r.2 - val r.1 < 0 := by linarith
      simp only [List.map_cons, List.filter_cons, h, h', if_false, decide_false, Bool.false_eq_true]

theorem betaTrial_law (hd : BitSampler d n) (hf : Evaluates f n val) {s : BetaState} (hs : s.bv.length = n) {γ : Type}
    (g : BetaState → Dist γ) (G : BV × BV → Dist γ)
    (hg : ∀ x y t, x.length = n → t.bv.length = n → (t.delta, t.count) = addLoss val (s.delta, s.count) (x, y) → g t = G (x, y)) :
    (betaTrial d f s >>= g) = (trialLaw n d >>= G) := by
  unfold betaTrial trialLaw
  rw [bits_uniform hs]
  simp only [Dist.bind_assoc']
  refine Dist.bind_congr_support (fun x hx => ?_)
  have hx := uniformLaw_length hx
  rw [hf.eval x hx, Dist.lift_ok, Dist.pure_bind', propose_eq rfl]
  unfold mutate
  simp only [Dist.bind_assoc']
  refine Dist.bind_congr_support (fun l hl => ?_)
  change (Dist.lift (bvFlipSparse x l) >>= _) = (Dist.lift (bvFlipSparse x l) >>= _)
  refine Dist.bind_congr_support (fun y hy => ?_)
  have hy := lift_support hy
  have ha : Ascending 0 x.length l := by rw [hx]; exact hd.support l hl
  have hlen : y.length = n := ((flip_iff ha).mp hy).1.trans hx
  simp only [Dist.pure_bind']
  rw [hf.eval y hlen, Dist.lift_ok, Dist.pure_bind']
  change (NbhState.forget ⟨x, y, l⟩ >>= _) = _
  rw [forget_eq ha hy, Dist.pure_bind']
  refine hg x y _ hx hx ?_
  unfold addLoss
  dsimp only
  split <;> rfl

theorem betaLoop_law (hd : BitSampler d n) (hf : Evaluates f n val) {γ : Type} (g : ℝ × ℕ → Dist γ) (t : ℕ) : ∀ (i : ℕ) (s : BetaState),
    s.bv.length = n → (Dist.forLoop t i (fun _ => betaTrial d f) s >>= fun u => g (u.delta, u.count))
      = (trialsLaw n d t >>= fun l => g (l.foldl (addLoss val) (s.delta, s.count))) := by
  induction t with
  | zero =>
    intro i s hs
    change (pure s >>= _) = (pure [] >>= _)
    rw [Dist.pure_bind', Dist.pure_bind']
    rfl
  | succ t ih =>
    intro i s hs
    change ((betaTrial d f s >>= fun s => Dist.forLoop t (i + 1) (fun _ => betaTrial d f) s) >>= _) = _
    unfold trialsLaw
    simp only [Dist.bind_assoc']
    refine betaTrial_law hd hf hs _ _ (fun x y u hx hu hadd => ?_)
    rw [ih (i + 1) u hu]
    simp only [Dist.pure_bind', List.foldl_cons, hadd]

theorem keepBest_good {x : BV} (hx : x.length = n) {s : BV × ℝ} {Q : Prop} {a : ℝ}
    (hs : s.1.length = n ∧ s.2 = val s.1 ∧ (Q → a ≤ s.2)) :
    (keepBest x (val x) s).1.length = n ∧ (keepBest x (val x) s).2 = val (keepBest x (val x) s).1 ∧ (Q → a ≤ (keepBest x (val x) s).2) := by
  unfold keepBest
  split
  · next h => exact ⟨hx, rfl, fun q => (hs.2.2 q).trans h.le⟩
  · exact hs

theorem betaTrial_sure (hd : BitSampler d n) (hf : Evaluates f n val) {s : BetaState} (hs : s.bv.length = n) {Q : Prop} {a : ℝ}
    (h : s.solution.1.length = n ∧ s.solution.2 = val s.solution.1 ∧ (Q → a ≤ s.solution.2)) :
    Sure (betaTrial d f s) (fun u => u.bv.length = n ∧ u.solution.1.length = n ∧ u.solution.2 = val u.solution.1 ∧ (Q → a ≤ u.solution.2)) := by
  unfold betaTrial
  rw [bits_uniform hs]
  refine Sure.bind (P := fun x => x.length = n) ⟨uniform_total n, fun x hx => uniformLaw_length hx⟩ (fun x hx => ?_)
  rw [hf.eval x hx, Dist.lift_ok, Dist.pure_bind', propose_eq rfl]
  change Sure ((d >>= fun l => Dist.lift (bvFlipSparse x l) >>= fun y => pure (⟨x, y, l⟩ : NbhState)) >>= _) _
  rw [Dist.bind_assoc']
  refine Sure.bind (P := fun l => Ascending 0 n l) ⟨hd.total, fun l hl => hd.support l hl⟩ (fun l hl => ?_)
  have ha : Ascending 0 x.length l := by rw [hx]; exact hl
  rw [Dist.bind_assoc']
  obtain ⟨y, hy⟩ := flip_ok hx hl
  have hlen : y.length = n := ((flip_iff ha).mp hy).1.trans hx
  rw [hy, Dist.lift_ok, Dist.pure_bind', Dist.pure_bind']
  dsimp only
  rw [hf.eval y hlen, Dist.lift_ok, Dist.pure_bind', forget_eq ha hy, Dist.pure_bind']
  exact Sure.pure ⟨hx, keepBest_good hlen (keepBest_good hx h)⟩

/-! ## Trials -/

theorem trial_apply (x y : BV) : trialLaw n d (x, y) = uniformLaw n x * mutate d x y := by
  classical
  unfold trialLaw
  rw [Dist.bind_apply, tsum_eq_single x]
  · rw [Dist.bind_apply, tsum_eq_single y]
    · rw [Dist.pure_apply, if_pos rfl, mul_one]
    · intro z hz
      rw [Dist.pure_apply, if_neg (fun h => hz (Prod.mk.inj h).2.symm), mul_zero]
  · intro z hz
    rw [Dist.bind_apply]
    have : ∀ w, mutate d z w * (pure (z, w) : Dist (BV × BV)) (x, y) = 0 := by
      intro w
      rw [Dist.pure_apply, if_neg (fun h => hz (Prod.mk.inj h).1.symm), mul_zero]
    simp only [this, tsum_zero, mul_zero]

theorem trial_swap (hd : BitSampler d n) (x y : BV) : trialLaw n d (x, y) = trialLaw n d (y, x) := by
  rw [trial_apply, trial_apply]
  by_cases hx : x.length = n
  · by_cases hy : y.length = n
    · rw [mutate_symm hd hx hy]
      unfold uniformLaw
      dsimp only [DFunLike.coe]
      rw [if_pos hx, if_pos hy]
    · have h1 : mutate d x y = 0 := by
        by_contra h
        exact hy (mutate_length hd hx h)
      have h2 : uniformLaw n y = 0 := if_neg hy
      rw [h1, h2, mul_zero, zero_mul]
  · have h2 : uniformLaw n x = 0 := if_neg hx
    rw [h2, zero_mul]
    by_cases hy : y.length = n
    · have h1 : mutate d y x = 0 := by
        by_contra h
        exact hx (mutate_length hd hy h)
      rw [h1, mul_zero]
    · have h3 : uniformLaw n y = 0 := if_neg hy
      rw [h3, zero_mul]

theorem trial_total (hd : BitSampler d n) : (trialLaw n d).total = 1 := by
  unfold trialLaw
  rw [Dist.total_bind]
  have : ∀ x, uniformLaw n x * (mutate d x >>= fun y => (pure (x, y) : Dist (BV × BV))).total = uniformLaw n x := by
    intro x
    by_cases hx : uniformLaw n x = 0
    · rw [hx, zero_mul]
    · rw [Dist.total_bind]
      simp only [Dist.total_pure, mul_one]
      have := mutate_one hd (uniformLaw_length hx)
      unfold Dist.total at this
      rw [this, mul_one]
  simp only [this]
  exact uniform_total n

theorem losses_nil {r : BV × BV} {l : List (BV × BV)} : losses val (r :: l) = [] ↔ ¬ val r.2 < val r.1 ∧ losses val l = [] := by
  unfold losses
  rw [List.map_cons, List.filter_cons]
  by_cases h : val r.2 < val r.1
  · have h' : val r.2 - val r.1 < 0 := by linarith
    simp [h, h']
  · have h' : ¬ val r.2 - val r.1 < 0 := by linarith
    simp [h, h']

open Classical in
theorem trials_none (t : ℕ) : (trialsLaw n d t).expect (fun l => if losses val l = [] then 1 else 0)
    = ((trialLaw n d).prob (fun r => ¬ val r.2 < val r.1)) ^ t := by
  induction t with
  | zero =>
    unfold trialsLaw
    rw [Dist.expect_pure, if_pos (by rfl), pow_zero]
  | succ t ih =>
    unfold trialsLaw
    rw [Dist.expect_bind, pow_succ', ← ih, Dist.prob_expect]
    have h : ∀ r : BV × BV, (trialsLaw n d t >>= fun rest => (pure (r :: rest) : Dist _)).expect (fun l => if losses val l = [] then (1 : ℝ≥0∞) else 0)
        = (trialsLaw n d t).expect (fun l => if losses val l = [] then 1 else 0) * (if ¬ val r.2 < val r.1 then 1 else 0) := by
      intro r
      rw [Dist.expect_bind, mul_comm, ← Dist.expect_mul_left]
      refine Dist.expect_congr (fun l _ => ?_)
      rw [Dist.expect_pure]
      by_cases h1 : val r.2 < val r.1
      · rw [if_neg (fun h => (losses_nil.mp h).1 h1), if_neg (by simpa using h1), zero_mul]
      · rw [if_pos h1, one_mul]
        exact if_congr (by rw [losses_nil]; exact ⟨fun h => h.2, fun h => ⟨h1, h⟩⟩) rfl rfl
    simp only [h]
    rw [Dist.expect_mul_left, mul_comm]

/-! ## Rescaling -/

theorem lift_map {α β γ : Type} (o : Outcome α) (g : α → β) (k : β → Dist γ) :
    (Dist.lift (o >>= fun a => ok (g a)) >>= k) = (Dist.lift o >>= fun a => k (g a)) := by
  cases o with
  | ok a =>
    change (Dist.lift (ok (g a)) >>= k) = _
    rw [Dist.lift_ok, Dist.lift_ok, Dist.pure_bind', Dist.pure_bind']
  | _ =>
    refine Dist.ext (fun c => ?_)
    rw [Dist.bind_apply, Dist.bind_apply]
    exact (ENNReal.tsum_eq_zero.mpr (fun _ => zero_mul _)).trans (ENNReal.tsum_eq_zero.mpr (fun _ => zero_mul _)).symm

/-- The state of the loop when values are rescaled. -/
noncomputable def BetaState.rescale (c e : ℝ) (s : BetaState) : BetaState :=
  { s with solution := (s.solution.1, c * s.solution.2 + e), delta := c * s.delta }

theorem keepBest_rescale {c e : ℝ} (hc : 0 < c) (x : BV) (v : ℝ) (s : BV × ℝ) :
    keepBest x (c * v + e) (s.1, c * s.2 + e) = ((keepBest x v s).1, c * (keepBest x v s).2 + e) := by
  unfold keepBest
  have : c * s.2 + e < c * v + e ↔ s.2 < v := by rw [add_lt_add_iff_right, mul_lt_mul_iff_right₀ hc]
  by_cases h : s.2 < v
  · rw [if_pos h, if_pos (this.mpr h)]
  · rw [if_neg h, if_neg (fun h' => h (this.mp h'))]

variable {g : Fn ℝ} {c e : ℝ}

theorem betaTrial_rescale (hc : 0 < c) (hg : ∀ x, g.eval x = (f.eval x >>= fun v => ok (c * v + e))) (s : BetaState) {γ : Type}
    (k : BetaState → Dist γ) : (betaTrial d g (s.rescale c e) >>= k) = (betaTrial d f s >>= fun u => k (u.rescale c e)) := by
  unfold betaTrial
  simp only [Dist.bind_assoc', hg, lift_map, Dist.pure_bind']
  congr 1
  funext x
  congr 1
  funext a
  congr 1
  funext nbh
  congr 1
  funext b
  congr 1
  funext back
  have hlt : c * b + e < c * a + e ↔ b < a := by rw [add_lt_add_iff_right, mul_lt_mul_iff_right₀ hc]
  congr 1
  unfold BetaState.rescale
  dsimp only
  rw [keepBest_rescale hc, show keepBest nbh.candidate (c * b + e) ((keepBest x a s.solution).1, c * (keepBest x a s.solution).2 + e) = _
    from keepBest_rescale hc _ _ (keepBest x a s.solution)]
  by_cases h : b < a
  · simp only [if_pos h, if_pos (hlt.mpr h)]
    congr 1
    ring
  · simp only [if_neg h, if_neg (fun h' => h (hlt.mp h'))]

theorem betaLoop_rescale (hc : 0 < c) (hg : ∀ x, g.eval x = (f.eval x >>= fun v => ok (c * v + e))) {γ : Type} (k : BetaState → Dist γ)
    (t : ℕ) : ∀ (i : ℕ) (s : BetaState), (Dist.forLoop t i (fun _ => betaTrial d g) (s.rescale c e) >>= k)
      = (Dist.forLoop t i (fun _ => betaTrial d f) s >>= fun u => k (u.rescale c e)) := by
  induction t with
  | zero =>
    intro i s
    change (pure _ >>= _) = (pure _ >>= _)
    rw [Dist.pure_bind', Dist.pure_bind']
  | succ t ih =>
    intro i s
    change ((betaTrial d g (s.rescale c e) >>= fun s => Dist.forLoop t (i + 1) (fun _ => betaTrial d g) s) >>= _)
      = ((betaTrial d f s >>= fun s => Dist.forLoop t (i + 1) (fun _ => betaTrial d f) s) >>= _)
    rw [Dist.bind_assoc', Dist.bind_assoc', betaTrial_rescale hc hg]
    congr 1
    funext u
    exact ih (i + 1) u

theorem betaOf_rescale (q delta : ℝ) (count : ℕ) : betaOf q (c * delta) count = (betaOf q delta count).map (· / c) := by
  unfold betaOf
  split
  · rfl
  · rw [Option.map_some]
    congr 1
    rw [mul_div_assoc, mul_comm c, div_mul_eq_div_div]

theorem fullSaInit_rescale (hc : 0 < c) (hg : ∀ x, g.eval x = (f.eval x >>= fun v => ok (c * v + e))) (p : StartParams) (q : BetaParams)
    {γ : Type} (k : FullSa → Dist γ) : (fullSaInit p q d g n >>= k) = (fullSaInit p q d f n >>= fun s => k (s.rescale c e)) := by
  have hb : ∀ (nbh : NbhState) (s : BV × ℝ) (k : BetaState × Option ℝ → Dist γ),
      (initBeta q d g nbh (s.1, c * s.2 + e) >>= k) = (initBeta q d f nbh s >>= fun u => k (u.1.rescale c e, u.2.map (· / c))) := by
    intro nbh s k
    unfold initBeta
    simp only [Dist.bind_assoc', Dist.pure_bind']
    have := betaLoop_rescale (d := d) (e := e) hc hg (fun u => Dist.lift (assert (decide (0 < q.initialAcceptance))) >>= fun _ =>
      k (u, betaOf q.initialAcceptance u.delta u.count)) q.numTrials.toNat 0 ⟨s.1, nbh, s, 0, 0⟩
    unfold BetaState.rescale at this ⊢
    dsimp only at this
    rw [mul_zero] at this
    unfold Dist.forRange
    rw [Nat.sub_zero, this]
    simp only [betaOf_rescale]
  unfold fullSaInit randomSolution
  split
  · simp only [Dist.bind_assoc', Dist.pure_bind', hg, lift_map]
    congr 1
    funext x
    congr 1
    funext v
    exact hb _ (x, v) _
  · simp only [Dist.bind_assoc', Dist.pure_bind', hg, lift_map]
    congr 1
    funext v
    exact hb _ (p.startingPoint, v) _

theorem fullSaCool_rescale (p : SaParams) (s : FullSa) : fullSaCool p (s.rescale c e) = (fullSaCool p s).rescale c e := by
  unfold fullSaCool FullSa.rescale
  dsimp only
  split
  · dsimp only
    congr 1
    rw [Option.map_map, Option.map_map]
    congr 1
    funext b
    dsimp only [Function.comp]
    ring
  · rfl

theorem fullSaTest_rescale (hc : 0 < c) (loss : ℝ) (b : Option ℝ) : fullSaTest (c * loss) (b.map (· / c)) = fullSaTest loss b := by
  cases b with
  | none => rfl
  | some b =>
    change Dist.coin _ = Dist.coin _
    rw [show c * loss * (b / c) = loss * b by field_simp]

theorem fullSaIterate_rescale (hc : 0 < c) (hg : ∀ x, g.eval x = (f.eval x >>= fun v => ok (c * v + e))) (p : SaParams) (s : FullSa)
    {γ : Type} (k : FullSa → Dist γ) : (fullSaIterate p g (s.rescale c e) >>= k) = (fullSaIterate p f s >>= fun u => k (u.rescale c e)) := by
  unfold fullSaIterate
  simp only [Dist.bind_assoc', hg, lift_map, Dist.pure_bind']
  change (s.nbh.propose p.sampleBits >>= _) = _
  congr 1
  funext nbh
  congr 1
  funext v
  unfold fullSaAccept FullSa.rescale
  dsimp only
  have hle : c * s.value + e ≤ c * v + e ↔ s.value ≤ v := by rw [add_le_add_iff_right, mul_le_mul_iff_right₀ hc]
  have hcool := fun u => fullSaCool_rescale (c := c) (e := e) p u
  unfold FullSa.rescale at hcool
  by_cases h : s.value ≤ v
  · rw [if_pos h, if_pos (hle.mpr h)]
    simp only [Dist.bind_assoc', Dist.pure_bind']
    congr 1
    funext nbh'
    rw [← hcool, keepBest_rescale hc]
  · rw [if_neg h, if_neg (fun h' => h (hle.mp h')), show c * v + e - (c * s.value + e) = c * (v - s.value) by ring, fullSaTest_rescale hc]
    simp only [Dist.bind_assoc']
    congr 1
    funext b
    cases b with
    | true =>
      simp only [if_true, Dist.bind_assoc', Dist.pure_bind', ← hcool]
    | false =>
      simp only [Bool.false_eq_true, if_false, Dist.bind_assoc', Dist.pure_bind', ← hcool]

theorem fullSaLoop_rescale (hc : 0 < c) (hg : ∀ x, g.eval x = (f.eval x >>= fun v => ok (c * v + e))) (p : SaParams) (t : ℕ) : ∀ s : FullSa,
    boundedLoop (fun _ => false) (fullSaIterate p g) t (s.rescale c e)
      = (boundedLoop (fun _ => false) (fullSaIterate p f) t s >>= fun u => pure (u.rescale c e)) := by
  induction t with
  | zero =>
    intro s
    change pure (s.rescale c e) = (pure s >>= fun u => pure (u.rescale c e))
    rw [Dist.pure_bind']
  | succ t ih =>
    intro s
    change (fullSaIterate p g (s.rescale c e) >>= boundedLoop (fun _ => false) (fullSaIterate p g) t)
      = ((fullSaIterate p f s >>= boundedLoop (fun _ => false) (fullSaIterate p f) t) >>= _)
    rw [fullSaIterate_rescale hc hg, Dist.bind_assoc']
    congr 1
    funext u
    exact ih u

end Hnco.Prob
