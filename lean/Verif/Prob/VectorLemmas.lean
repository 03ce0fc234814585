import Verif.Prob.PopulationLoops

/-!
# Lemmas about algorithms with a probability vector, with probabilities
-/

namespace Hnco.Prob

open Outcome
open scoped ENNReal
open Classical

variable {K ρ : Type} {n : ℕ}

/-! ## Sampling of a probability vector -/

theorem sampleVector_sure {pv : List ℚ} (hpv : pv.length = n) : ∀ x : BV, x.length = n → Sure (sampleVector pv x) (fun y => y.length = n) := by
  intro x hx
  unfold sampleVector pvSample
  rw [Dist.assert_bind (by simp [hx, hpv]), hx]
  refine Sure.forRange (fun _ (y : BV) => y.length = n) hx (fun j y hj hy => ?_)
  rw [vget_eq (by simpa [hpv] using hj), Dist.lift_ok, Dist.pure_bind', vset_eq (by omega), vset_eq (by omega)]
  refine Sure.bind (P := fun _ => True) ⟨Dist.coin_total, fun _ _ => trivial⟩ (fun b _ => ?_)
  cases b
  · exact Sure.pure (by simpa using hy)
  · exact Sure.pure (by simpa using hy)

theorem ofReal_le {p : ℚ} (h : p ≤ 1) : ENNReal.ofReal (p : ℝ) ≤ 1 := by
  rw [← ENNReal.ofReal_one]
  exact ENNReal.ofReal_le_ofReal (by exact_mod_cast h)

theorem inv_ofReal (hn : 0 < n) : (n : ℝ≥0∞)⁻¹ = ENNReal.ofReal ((1 / (n : ℚ) : ℚ) : ℝ) := by
  have : (0 : ℝ) < n := by exact_mod_cast hn
  rw [Rat.cast_div, Rat.cast_one, Rat.cast_natCast, one_div, ENNReal.ofReal_inv_of_pos this, ENNReal.ofReal_natCast]

theorem bounded_le {pv : List ℚ} (hpv : PvBounded n pv) : ∀ p ∈ pv, p ≤ 1 := by
  intro p hp
  have h := (hpv.2 p hp).2
  have : (0 : ℚ) ≤ 1 / (n : ℚ) := by positivity
  linarith

theorem sampleVector_ge (hn : 0 < n) {pv : List ℚ} (hpv : PvBounded n pv) {x y : BV} (hx : x.length = n) (hy : y.length = n) :
    ((n : ℝ≥0∞)⁻¹) ^ n ≤ sampleVector pv x y := by
  unfold sampleVector
  rw [pvSample_law (by simp [hx, hpv.1]) (by
    intro p hp
    obtain ⟨a, ha, rfl⟩ := List.mem_map.mp hp
    exact ofReal_le (bounded_le hpv a ha)), if_pos (by simp [hy, hpv.1])]
  have hlen : (List.zipWith (fun p b => if b = true then p else 1 - p) (pv.map (fun p : ℚ => ENNReal.ofReal (p : ℝ))) y).length = n := by
    simp [hy, hpv.1]
  have := List.pow_card_le_prod (l := List.zipWith (fun p b => if b = true then p else 1 - p) (pv.map (fun p : ℚ => ENNReal.ofReal (p : ℝ))) y)
    (n := (n : ℝ≥0∞)⁻¹) (by
      intro z hz
      obtain ⟨i, hi, rfl⟩ := List.mem_iff_getElem.mp hz
      rw [List.getElem_zipWith, List.getElem_map]
      have hi' : i < pv.length := by rw [hlen] at hi; rw [hpv.1]; exact hi
      obtain ⟨h1, h2⟩ := hpv.2 pv[i] (List.getElem_mem hi')
      rw [inv_ofReal hn]
      split
      · exact ENNReal.ofReal_le_ofReal (by exact_mod_cast h1)
      · have h0 : (0 : ℚ) ≤ 1 / (n : ℚ) := by positivity
        have h3 : (1 : ℝ≥0∞) - ENNReal.ofReal ((pv[i] : ℚ) : ℝ) = ENNReal.ofReal (1 - ((pv[i] : ℚ) : ℝ)) := by
          rw [ENNReal.ofReal_sub 1 (by exact_mod_cast h0.trans h1), ENNReal.ofReal_one]
        rw [h3]
        refine ENNReal.ofReal_le_ofReal ?_
        have : 1 / (n : ℚ) ≤ 1 - pv[i] := by linarith
        exact_mod_cast this)
  rw [hlen] at this
  exact this

theorem sampleVector_uniform (x : BV) (hx : x.length = n) : sampleVector (List.replicate n (1 / 2)) x = bvRandomBits x := by
  ext y
  unfold sampleVector
  have hhalf : ENNReal.ofReal (((1 / 2 : ℚ)) : ℝ) = 2⁻¹ := by
    have := inv_ofReal (n := 2) (by norm_num)
    push_cast at this ⊢
    exact this.symm
  rw [List.map_replicate, hhalf, pvSample_law (by simp [hx]) (by
    intro p hp
    rw [List.eq_of_mem_replicate hp]
    exact ENNReal.inv_le_one.mpr (by norm_num)), bvRandomBits_law, hx, List.length_replicate]
  have hz : ∀ (y : BV), (List.zipWith (fun (p : ℝ≥0∞) (b : Bool) => if b = true then p else 1 - p) (List.replicate y.length 2⁻¹) y).prod
      = ((2 : ℝ≥0∞) ^ y.length)⁻¹ := by
    intro y
    induction y with
    | nil => simp
    | cons b y ih =>
      rw [List.length_cons, List.replicate_succ, List.zipWith_cons_cons, List.prod_cons, ih]
      have : (if b = true then (2⁻¹ : ℝ≥0∞) else 1 - 2⁻¹) = 2⁻¹ := by
        cases b
        · exact ENNReal.one_sub_inv_two
        · rfl
      rw [this, ENNReal.inv_pow, ENNReal.inv_pow, pow_succ']
  by_cases hy : y.length = n
  · rw [if_pos hy, if_pos hy, ← hy]
    exact hz y
  · rw [if_neg hy, if_neg hy]

/-! ## Updates of the probability vector -/

/-- The state between two iterations. -/
structure PvGood (n : ℕ) (val : BV → K) (R : ρ → Prop) (s : PvState K ρ) : Prop where
  solution : Good n val s.solution
  bounded : PvBounded n s.data.pv
  margins : s.data.Margins n
  rest : R s.data.rest

theorem compactLearn_returns [LinearOrder K] {f : Fn K} {val : BV → K} (hf : Evaluates f n val) (hn : 2 ≤ n) (q : CompactParams)
    {best worst : BV} (hb : best.length = n) (hw : worst.length = n) (hbw : val worst ≤ val best) {d : PvData ρ}
    (hd : d.pv.length = n) (hm : d.Margins n) :
    (compactLearn f q best worst d).Returns (fun e => PvBounded n e.pv ∧ e.Margins n ∧ e.rest = d.rest) := by
  have htail : (do
      let pv ← compactMove q.rate best worst d.pv
      let pv ← pvBound pv d.lower d.upper
      ok { d with pv := pv } : Outcome (PvData ρ)).Returns (fun e => PvBounded n e.pv ∧ e.Margins n ∧ e.rest = d.rest) := by
    refine (compactMove_spec hd hb hw q.rate).bind (fun pv hpv => ?_)
    rw [hm.1, hm.2]
    exact (pvBound_bounded hn hpv.1).bind (fun pv hpv => returns_ok.mpr ⟨hpv, ⟨rfl, rfl⟩, rfl⟩)
  unfold compactLearn
  dsimp only
  split
  · rw [hf.eval best hb, hf.eval worst hw, ok_bind, ok_bind, assert_pos (decide_eq_true hbw), ok_bind]
    exact htail
  · rw [ok_bind]
    exact htail

theorem mmasLearn_returns (hn : 2 ≤ n) (rate : ℚ) {x : BV} (hx : x.length = n) {d : PvData ρ} (hd : d.pv.length = n) (hm : d.Margins n) :
    (mmasLearn rate x d).Returns (fun e => PvBounded n e.pv ∧ e.Margins n ∧ e.rest = d.rest) := by
  unfold mmasLearn
  rw [pvUpdateBits_eq (by rw [hx, hd]), ok_bind, hm.1, hm.2]
  exact (pvBound_bounded hn (by simp [hx, hd])).bind (fun pv hpv => returns_ok.mpr ⟨hpv, ⟨rfl, rfl⟩, rfl⟩)

/-- The members of PBIL. -/
def PbilGood (n size : ℕ) (r : PbilRest K) : Prop := r.population.Valid size n ∧ r.mean.length = n

theorem pbilLearn_returns [LinearOrder K] (hn : 2 ≤ n) {size sel : ℕ} (h1 : 1 ≤ sel) (h2 : sel ≤ size) (rate : ℚ) {p : Pop K}
    (hp : p.Valid size n) {d : PvData (PbilRest K)} (hd : d.pv.length = n) (hm : d.Margins n) (hmean : d.rest.mean.length = n) :
    (pbilLearn ⟨sel, rate⟩ p d).Returns (fun e => PvBounded n e.pv ∧ e.Margins n ∧ PbilGood n size e.rest) := by
  obtain ⟨x, hx⟩ := hp.reads
  unfold pbilLearn
  refine (selectionMean_spec hp h1 h2 hx hmean).bind (fun mean hmean => ?_)
  rw [pvUpdate_eq (by rw [hmean.1, hd]), ok_bind, hm.1, hm.2]
  exact (pvBound_bounded hn (by simp [hmean.1, hd])).bind (fun pv hpv => returns_ok.mpr ⟨hpv, ⟨rfl, rfl⟩, hp, hmean.1⟩)

theorem umdaLearn_returns [LinearOrder K] (hn : 2 ≤ n) {size sel : ℕ} (h1 : 1 ≤ sel) (h2 : sel ≤ size) {p : Pop K}
    (hp : p.Valid size n) {d : PvData (Pop K)} (hd : d.pv.length = n) (hm : d.Margins n) :
    (umdaLearn sel p d).Returns (fun e => PvBounded n e.pv ∧ e.Margins n ∧ e.rest.Valid size n) := by
  obtain ⟨x, hx⟩ := hp.reads
  unfold umdaLearn
  refine (selectionMean_spec hp h1 h2 hx hd).bind (fun pv hpv => ?_)
  rw [hm.1, hm.2]
  exact (pvBound_bounded hn hpv.1).bind (fun pv hpv => returns_ok.mpr ⟨hpv, ⟨rfl, rfl⟩, hp⟩)

/-- The members of PBIL with negative and positive selection. -/
def NpsGood (n size : ℕ) (r : NpsRest K) : Prop := r.population.Valid size n ∧ r.meanBest.length = n ∧ r.meanWorst.length = n

theorem npsLearn_returns [LinearOrder K] {size sel : ℕ} (h1 : 1 ≤ sel) (h2 : sel ≤ size) (rate : ℚ) {p : Pop K}
    (hp : p.Valid size n) {d : PvData (NpsRest K)} (hpv : PvBounded n d.pv) (hm : d.Margins n) (hbest : d.rest.meanBest.length = n)
    (hworst : d.rest.meanWorst.length = n) :
    (npsLearn ⟨sel, rate⟩ p d).Returns (fun e => e.pv = d.pv ∧ e.Margins n ∧ NpsGood n size e.rest) := by
  obtain ⟨x, hx⟩ := hp.reads
  obtain ⟨m1, e1, g1, k1⟩ := selectionMean_spec hp h1 h2 hx hbest
  obtain ⟨m2, e2, g2, k2⟩ := selectionMean_spec hp h1 h2 hx hworst
  have hmm : m1 = m2 := by
    refine List.ext_getElem? (fun i => ?_)
    by_cases hi : i < n
    · rw [k1 i hi, k2 i hi]
    · rw [List.getElem?_eq_none (by omega), List.getElem?_eq_none (by omega)]
  subst hmm
  have hpv1 : pvUpdateBetween d.pv m1 m1 rate = ok d.pv := by
    rw [pvUpdateBetween_eq (by rw [g1, hpv.1]) (by rw [g1, hpv.1])]
    congr 1
    refine List.ext_getElem (by simp [g1, hpv.1]) (fun i hi hi' => ?_)
    simp
  have hpv2 : pvBound d.pv d.lower d.upper = ok d.pv := by
    rw [pvBound_eq, hm.1, hm.2]
    congr 1
    rw [List.map_congr_left (g := id), List.map_id]
    intro p hp
    obtain ⟨a, b⟩ := hpv.2 p hp
    rw [min_eq_right b, max_eq_right a]
    rfl
  unfold npsLearn
  rw [e1, ok_bind, e2, ok_bind, hpv1, ok_bind, hpv2, ok_bind]
  exact returns_ok.mpr ⟨rfl, hm, hp, g1, g2⟩

/-! ## Generations -/

theorem expect_keep {α β : Type} {d : Dist α} {rest : α → Dist β} {P : α → Prop} {found : β → Prop} {hit : α → Prop}
    (hd : Sure d P) (hrest : ∀ a, P a → Sure (rest a) (fun b => found b ↔ hit a)) :
    (d >>= rest).expect (missing found) = d.expect (missing hit) := by
  rw [expect_after (old := False) (hit := hit) hd (fun a ha => (hrest a ha).mono (fun b hb => by rw [hb, false_or]))]
  unfold missing
  simp

section
variable [LinearOrder K] {f : Fn K} {val : BV → K} {c : Choices K} {size : ℕ}

/-- What follows the sampling of a population. -/
noncomputable def generationRest (f : Fn K) (c : Choices K) (s : BV × K) (p : Pop K) : Dist ((BV × K) × Pop K) := do
  let p ← Dist.lift (popEvaluate f p)
  let p ← c.sort p
  let s ← Dist.lift (popUpdateSolution s p)
  pure (s, p)

theorem generationRest_sure (hf : Evaluates f n val) (hc : c.Valid) (h0 : 0 < size) {s : BV × K} (hs : Good n val s) {p : Pop K}
    (hp : p.Valid size n) : Sure (generationRest f c s p) (fun r => Good n val r.1 ∧ r.2.Valid size n ∧
      (IsMax n val r.1.1 ↔ IsMax n val s.1 ∨ ∃ y ∈ p.bvs, IsMax n val y)) := by
  unfold generationRest
  refine (Sure.lift (popEvaluate_returns hf hp)).bind (fun q hq => ?_)
  obtain ⟨h1, h2, h3⟩ := hq
  refine (Sure.of_follows (hc.sort q size n h1) (Pop.sort_valid h1)).bind (fun r hr => ?_)
  obtain ⟨g1, g2, g3, g4⟩ := hr
  obtain ⟨x, v, e1, e2, e3, e4⟩ := g4.first g1 h0
  rw [g3, h3] at e3 e4
  have := update_found (evaluated_good (val := val) hp.bits) e3 e4 hs
  unfold popUpdateSolution
  rw [e1, ok_bind, e2, ok_bind, Dist.lift_ok, Dist.pure_bind']
  exact Sure.pure ⟨this.1, g1, this.2.trans (or_congr Iff.rfl evaluated_found)⟩

theorem pvGeneration_eq (pv : List ℚ) (s : BV × K) (p : Pop K) :
    pvGeneration f c pv s p = (popSample (sampleVector pv) p >>= fun p => generationRest f c s p) := rfl

theorem pvGeneration_sure (hf : Evaluates f n val) (hc : c.Valid) (h0 : 0 < size) {pv : List ℚ} (hpv : pv.length = n) {s : BV × K}
    (hs : Good n val s) {p : Pop K} (hp : p.Valid size n) :
    Sure (pvGeneration f c pv s p) (fun r => Good n val r.1 ∧ r.2.Valid size n) := by
  rw [pvGeneration_eq]
  exact (popSample_sure hp (sampleVector_sure hpv)).bind (fun q hq => (generationRest_sure hf hc h0 hs hq).mono (fun r hr => ⟨hr.1, hr.2.1⟩))

theorem pvGeneration_expect (hf : Evaluates f n val) (hc : c.Valid) (h0 : 0 < size) {pv : List ℚ} (hpv : pv.length = n) {s : BV × K}
    (hs : Good n val s) {p : Pop K} (hp : p.Valid size n) :
    (pvGeneration f c pv s p).expect (missing (fun r => IsMax n val r.1.1))
      = missing (fun s : BV × K => IsMax n val s.1) s
        * (popSample (sampleVector pv) p).expect (missing (fun q => ∃ y ∈ q.bvs, IsMax n val y)) := by
  rw [pvGeneration_eq, expect_after (popSample_sure hp (sampleVector_sure hpv))
    (fun q hq => (generationRest_sure hf hc h0 hs hq).mono (fun r hr => hr.2.2))]
  congr!

/-- The missed probability of a vector which is sampled with margins. -/
theorem sampleVector_le (hn : 0 < n) {pv : List ℚ} (hpv : PvBounded n pv) (x : BV) (hx : x.length = n) :
    (sampleVector pv x).expect (missing (IsMax n val)) ≤ 1 - ((n : ℝ≥0∞)⁻¹) ^ n := by
  obtain ⟨y, hy⟩ := max_exists n val
  exact one_sub_mass (sampleVector_sure hpv.1 x hx).total hy (sampleVector_ge hn hpv hx hy.1)

theorem pvGeneration_le (hn : 0 < n) (hf : Evaluates f n val) (hc : c.Valid) (h0 : 0 < size) {pv : List ℚ} (hpv : PvBounded n pv)
    {s : BV × K} (hs : Good n val s) {p : Pop K} (hp : p.Valid size n) :
    (pvGeneration f c pv s p).expect (missing (fun r => IsMax n val r.1.1))
      ≤ (1 - ((n : ℝ≥0∞)⁻¹) ^ n) ^ size * missing (fun s : BV × K => IsMax n val s.1) s := by
  rw [pvGeneration_expect hf hc h0 hpv.1 hs hp, mul_comm]
  exact mul_le_mul_left (popSample_le hp (sampleVector_sure hpv.1) (sampleVector_le hn hpv)) _

theorem pvGeneration_uniform (hf : Evaluates f n val) (hc : c.Valid) (h0 : 0 < size) {s : BV × K} (hs : Good n val s) {p : Pop K}
    (hp : p.Valid size n) :
    (pvGeneration f c (List.replicate n (1 / 2)) s p).expect (missing (fun r => IsMax n val r.1.1))
      = (1 - numMax n val * ((2 : ℝ≥0∞) ^ n)⁻¹) ^ size * missing (fun s : BV × K => IsMax n val s.1) s := by
  rw [pvGeneration_expect hf hc h0 List.length_replicate hs hp, mul_comm]
  congr 1
  refine popSample_eq hp (sampleVector_sure List.length_replicate) (fun x hx => ?_)
  rw [sampleVector_uniform x hx]
  exact randomBits_eq x hx

/-! ## The beginning -/

theorem inv_two_pow_ge (hn : 2 ≤ n) : ((n : ℝ≥0∞)⁻¹) ^ n ≤ ((2 : ℝ≥0∞) ^ n)⁻¹ := by
  rw [ENNReal.inv_pow]
  exact pow_le_pow_left' (ENNReal.inv_le_inv.mpr (by exact_mod_cast hn)) n

theorem randomSolution_le (hf : Evaluates f n val) (hn : 2 ≤ n) :
    (randomSolution f (List.replicate n false)).expect (missing (fun s => IsMax n val s.1)) ≤ 1 - ((n : ℝ≥0∞)⁻¹) ^ n := by
  rw [randomSolution_expect hf (IsMax n val)]
  exact (randomBits_le _ (by simp)).trans (tsub_le_tsub_left (inv_two_pow_ge hn) 1)

omit [LinearOrder K] in
theorem pvStart_sure (hf : Evaluates f n val) (hn : 2 ≤ n) {r : ρ} {R : ρ → Prop} (hr : R r) :
    Sure (pvStart f n (pvNew n r)) (fun s => PvGood n val R s ∧ s.data.pv = List.replicate n (1 / 2)) := by
  unfold pvStart
  refine (randomSolution_sure hf).bind (fun s hs => ?_)
  have h : pvUniform (pvNew n r).pv = List.replicate n (1 / 2) := by simp [pvUniform, pvNew]
  exact Sure.pure ⟨⟨hs, by dsimp only; rw [h]; exact uniform_bounded hn, ⟨rfl, rfl⟩, hr⟩, h⟩

omit [LinearOrder K] in
theorem pvStart_expect (d : PvData ρ) (found : BV → Prop) : (pvStart f n d).expect (missing (fun s => found s.solution.1))
    = (randomSolution f (List.replicate n false)).expect (missing (fun s => found s.1)) := by
  unfold pvStart
  rw [Dist.expect_bind]
  refine Dist.expect_congr (fun s _ => ?_)
  rw [Dist.expect_pure]
  rfl

end

end Hnco.Prob
