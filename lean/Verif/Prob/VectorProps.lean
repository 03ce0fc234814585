import Verif.Prob.VectorLemmas

/-!
# Algorithms with a probability vector, with probabilities: properties

The specification is `Evaluates`, `IsMax` and `missProb` (`Verif/Prob/SearchSpec.lean`) and `Choices.Valid` and `Compares`
(`Verif/Prob/PopulationSpec.lean`).
-/

namespace Hnco.Prob

open Outcome
open scoped ENNReal
open Classical

variable {K : Type} [LinearOrder K] {f : Fn K} {n : ℕ} {val : BV → K} {c : Choices K}

/-! ## Compact genetic algorithm -/

/-- What follows the sampling of two vectors. -/
noncomputable def compactRest (f : Fn K) (q : CompactParams) (s : PvState K (BV × BV)) (r : BV × BV) : Dist (PvState K (BV × BV)) := do
  let v ← Dist.lift (f.eval r.1)
  let w ← Dist.lift (f.eval r.2)
  if v < w then do
    let d ← Dist.lift (compactLearn f q r.2 r.1 { s.data with rest := r })
    pure ⟨updateSolution s.solution r.2 w, d⟩
  else do
    let d ← Dist.lift (compactLearn f q r.1 r.2 { s.data with rest := r })
    pure ⟨updateSolution s.solution r.1 v, d⟩

/-- Two vectors. -/
noncomputable def samplePair (pv : List ℚ) (x y : BV) : Dist (BV × BV) := do
  let a ← sampleVector pv x
  let b ← sampleVector pv y
  pure (a, b)

theorem compactIterate_eq (q : CompactParams) (s : PvState K (BV × BV)) :
    compactIterate f q s = (samplePair s.data.pv s.data.rest.1 s.data.rest.2 >>= fun r => compactRest f q s r) := by
  unfold samplePair compactIterate
  rw [Dist.bind_assoc']
  congr 1
  funext x
  rw [Dist.bind_assoc']
  congr 1
  funext y
  rw [Dist.pure_bind']
  rfl

theorem samplePair_sure {pv : List ℚ} (hpv : pv.length = n) {x y : BV} (hx : x.length = n) (hy : y.length = n) :
    Sure (samplePair pv x y) (fun r => r.1.length = n ∧ r.2.length = n) :=
  (sampleVector_sure hpv x hx).bind (fun _ ha => (sampleVector_sure hpv y hy).bind (fun _ hb => Sure.pure ⟨ha, hb⟩))

theorem samplePair_le (hn : 0 < n) {pv : List ℚ} (hpv : PvBounded n pv) {x y : BV} (hx : x.length = n) (hy : y.length = n) :
    (samplePair pv x y).expect (missing (fun r => IsMax n val r.1 ∨ IsMax n val r.2)) ≤ (1 - ((n : ℝ≥0∞)⁻¹) ^ n) ^ 2 := by
  unfold samplePair
  rw [Dist.expect_bind]
  have h : ∀ a, (sampleVector pv y >>= fun b => (pure (a, b) : Dist (BV × BV))).expect (missing (fun r => IsMax n val r.1 ∨ IsMax n val r.2))
      ≤ (1 - ((n : ℝ≥0∞)⁻¹) ^ n) * missing (IsMax n val) a := by
    intro a
    rw [Dist.expect_bind, mul_comm]
    refine le_trans (le_of_eq ?_) (mul_le_mul_right (sampleVector_le (val := val) hn hpv y hy) _)
    rw [← Dist.expect_mul_left]
    refine Dist.expect_congr (fun b _ => ?_)
    rw [Dist.expect_pure]
    unfold missing
    by_cases h1 : IsMax n val a <;> by_cases h2 : IsMax n val b <;> simp [h1, h2]
  refine (Dist.expect_mono (fun a _ => h a)).trans ?_
  rw [Dist.expect_mul_left, pow_two]
  exact mul_le_mul_right (sampleVector_le hn hpv x hx) _

theorem compactRest_sure (hf : Evaluates f n val) (hn : 2 ≤ n) (q : CompactParams) {s : PvState K (BV × BV)}
    (hs : PvGood n val (fun r => r.1.length = n ∧ r.2.length = n) s) {r : BV × BV} (h1 : r.1.length = n) (h2 : r.2.length = n) :
    Sure (compactRest f q s r) (fun t => PvGood n val (fun r => r.1.length = n ∧ r.2.length = n) t ∧
      (IsMax n val t.solution.1 ↔ IsMax n val s.solution.1 ∨ (IsMax n val r.1 ∨ IsMax n val r.2))) := by
  unfold compactRest
  rw [hf.eval _ h1, Dist.lift_ok, Dist.pure_bind', hf.eval _ h2, Dist.lift_ok, Dist.pure_bind']
  have hpool : ∀ c ∈ [(r.1, val r.1), (r.2, val r.2)], Good n val c := by
    intro c hc
    simp only [List.mem_cons, List.not_mem_nil, or_false] at hc
    rcases hc with rfl | rfl
    · exact ⟨h1, rfl⟩
    · exact ⟨h2, rfl⟩
  have hfound : (∃ c ∈ [(r.1, val r.1), (r.2, val r.2)], IsMax n val c.1) ↔ IsMax n val r.1 ∨ IsMax n val r.2 := by simp
  split
  · next h =>
    refine (Sure.lift (compactLearn_returns hf hn q (ρ := BV × BV) h2 h1 h.le (d := { s.data with rest := r }) hs.bounded.1 hs.margins)).bind
      (fun d hd => Sure.pure ?_)
    have hu := update_found (x := r.2) (v := val r.2) hpool (by simp) (by simpa using h.le) hs.solution
    rw [hfound] at hu
    exact ⟨⟨hu.1, hd.1, hd.2.1, by rw [hd.2.2]; exact ⟨h1, h2⟩⟩, hu.2⟩
  · next h =>
    refine (Sure.lift (compactLearn_returns hf hn q (ρ := BV × BV) h1 h2 (not_lt.mp h) (d := { s.data with rest := r }) hs.bounded.1
      hs.margins)).bind (fun d hd => Sure.pure ?_)
    have hu := update_found (x := r.1) (v := val r.1) hpool (by simp) (by simpa using not_lt.mp h) hs.solution
    rw [hfound] at hu
    exact ⟨⟨hu.1, hd.1, hd.2.1, by rw [hd.2.2]; exact ⟨h1, h2⟩⟩, hu.2⟩

/-- C113: a probability vector with margins `1/n` and `1 - 1/n` gives any vector with probability at least `(1/n)^n`. -/
theorem margins_sample (hn : 0 < n) {pv : List ℚ} (hpv : PvBounded n pv) {x y : BV} (hx : x.length = n) (hy : y.length = n) :
    ((n : ℝ≥0∞)⁻¹) ^ n ≤ sampleVector pv x y := sampleVector_ge hn hpv hx hy

/-- C113: the compact genetic algorithm finds a maximum of any function of at least two bits, whatever the learning rate: the
probability that it has not been found after `t` iterations is at most `(1 - 1/n^n)^(2t + 1)`. -/
theorem compactGa_converges (hf : Evaluates f n val) (hn : 2 ≤ n) (q : CompactParams) {t : ℕ} (ht : 0 < t) :
    missProb (compactGa f q n t) (IsMax n val) ≤ (1 - ((n : ℝ≥0∞)⁻¹) ^ n) ^ (2 * t + 1) := by
  have hn0 : 0 < n := by omega
  have hR : (fun r : BV × BV => r.1.length = n ∧ r.2.length = n) (List.replicate n false, List.replicate n false) := by simp
  have h := run_miss_le (solution := PvState.solution) (found := IsMax n val) (a := 1 - ((n : ℝ≥0∞)⁻¹) ^ n)
    (r := (1 - ((n : ℝ≥0∞)⁻¹) ^ n) ^ 2) (iterate := compactIterate f q)
    (init := pvStart f n (pvNew n (List.replicate n false, List.replicate n false)))
    ((pvStart_sure (R := fun r : BV × BV => r.1.length = n ∧ r.2.length = n) hf hn hR).mono (fun _ h => h.1))
    (fun s hs => by
      rw [compactIterate_eq]
      exact (samplePair_sure hs.bounded.1 hs.rest.1 hs.rest.2).bind (fun r hr =>
        (compactRest_sure hf hn q hs hr.1 hr.2).mono (fun _ h => h.1)))
    (by
      rw [pvStart_expect]
      exact randomSolution_le hf hn)
    (fun s hs => by
      rw [compactIterate_eq, expect_after (samplePair_sure hs.bounded.1 hs.rest.1 hs.rest.2) (fun r hr =>
        (compactRest_sure hf hn q hs hr.1 hr.2).mono (fun _ h => h.2)), mul_comm]
      refine mul_le_mul_left (le_trans (le_of_eq ?_) (samplePair_le (val := val) hn0 hs.bounded hs.rest.1 hs.rest.2)) _
      congr!) ht
  refine h.trans (le_of_eq ?_)
  rw [← pow_mul, ← pow_succ]

/-! ## Max-min ant system -/

/-- What follows the sampling of a vector. -/
noncomputable def mmasRest (f : Fn K) (q : MmasParams K) (s : PvState K BV) (x : BV) : Dist (PvState K BV) := do
  let v ← Dist.lift (f.eval x)
  let solution := if q.compare v s.solution.2 then (x, v) else s.solution
  let d ← Dist.lift (mmasLearn q.rate solution.1 { s.data with rest := x })
  pure ⟨solution, d⟩

theorem mmas_found {compare : K → K → Bool} (hq : Compares compare) {s : BV × K} (hs : Good n val s) {x : BV} (hx : x.length = n) :
    Good n val (if compare (val x) s.2 then (x, val x) else s) ∧
    (IsMax n val (if compare (val x) s.2 then (x, val x) else s).1 ↔ IsMax n val s.1 ∨ IsMax n val x) := by
  have hsv := hs.2
  split
  · next h =>
    have hle : s.2 ≤ val x := by
      by_contra hlt
      rw [hq.worse _ _ (not_le.mp hlt)] at h
      cases h
    exact ⟨⟨hx, rfl⟩, .inr, fun e => e.elim (fun hm => isMax_of_le hx hm (by rw [← hsv]; exact hle)) id⟩
  · next h =>
    have hle : val x ≤ s.2 := by
      by_contra hlt
      exact h (hq.better _ _ (not_le.mp hlt))
    exact ⟨hs, .inl, fun e => e.elim id (fun hm => isMax_of_le hs.1 hm (by rw [← hsv]; exact hle))⟩

theorem mmasRest_sure (hf : Evaluates f n val) (hn : 2 ≤ n) {q : MmasParams K} (hq : Compares q.compare) {s : PvState K BV}
    (hs : PvGood n val (fun r => r.length = n) s) {x : BV} (hx : x.length = n) :
    Sure (mmasRest f q s x) (fun t => PvGood n val (fun r => r.length = n) t ∧
      (IsMax n val t.solution.1 ↔ IsMax n val s.solution.1 ∨ IsMax n val x)) := by
  unfold mmasRest
  rw [hf.eval _ hx, Dist.lift_ok, Dist.pure_bind']
  obtain ⟨h1, h2⟩ := mmas_found hq hs.solution hx
  refine (Sure.lift (mmasLearn_returns hn q.rate (ρ := BV) h1.1 (d := { s.data with rest := x }) hs.bounded.1 hs.margins)).bind
    (fun d hd => Sure.pure ⟨⟨h1, hd.1, hd.2.1, by rw [hd.2.2]; exact hx⟩, h2⟩)

/-- C113: the max-min ant system finds a maximum of any function of at least two bits, whatever the learning rate, and whether or not
it accepts vectors of the same value: the probability that it has not been found after `t` iterations is at most
`(1 - 1/n^n)^(t + 1)`. -/
theorem mmas_converges (hf : Evaluates f n val) (hn : 2 ≤ n) {q : MmasParams K} (hq : Compares q.compare) {t : ℕ} (ht : 0 < t) :
    missProb (mmas f q n t) (IsMax n val) ≤ (1 - ((n : ℝ≥0∞)⁻¹) ^ n) ^ (t + 1) := by
  have hn0 : 0 < n := by omega
  have hR : (fun r : BV => r.length = n) (List.replicate n false) := by simp
  have hlearn : ∀ s : PvState K BV, PvGood n val (fun r => r.length = n) s →
      Sure (Dist.lift (mmasLearn q.rate s.solution.1 s.data) >>= fun d => pure { s with data := d })
        (fun t => PvGood n val (fun r => r.length = n) t ∧ (IsMax n val t.solution.1 ↔ IsMax n val s.solution.1)) := by
    intro s hs
    refine (Sure.lift (mmasLearn_returns hn q.rate hs.solution.1 hs.bounded.1 hs.margins)).bind (fun d hd => Sure.pure ?_)
    exact ⟨⟨hs.solution, hd.1, hd.2.1, by rw [hd.2.2]; exact hs.rest⟩, Iff.rfl⟩
  have hstart := (pvStart_sure (r := List.replicate n false) (R := fun r : BV => r.length = n) hf hn hR).mono (fun _ h => h.1)
  have h := run_miss_le (solution := PvState.solution) (found := IsMax n val) (a := 1 - ((n : ℝ≥0∞)⁻¹) ^ n)
    (r := 1 - ((n : ℝ≥0∞)⁻¹) ^ n) (iterate := mmasIterate f q) (init := mmasInit f q n) (I := PvGood n val (fun r => r.length = n))
    (hstart.bind (fun s hs => (hlearn s hs).mono (fun _ h => h.1)))
    (fun s hs => (sampleVector_sure hs.bounded.1 _ hs.rest).bind (fun x hx => (mmasRest_sure hf hn hq hs hx).mono (fun _ h => h.1)))
    (by
      refine le_trans (le_of_eq (expect_keep hstart (fun s hs => (hlearn s hs).mono (fun _ h => h.2)))) ?_
      rw [pvStart_expect]
      exact randomSolution_le hf hn)
    (fun s hs => by
      refine le_trans (le_of_eq (expect_after (sampleVector_sure hs.bounded.1 _ hs.rest) (fun x hx =>
        (mmasRest_sure hf hn hq hs hx).mono (fun _ h => h.2)))) ?_
      rw [mul_comm]
      exact mul_le_mul_left (sampleVector_le hn0 hs.bounded _ hs.rest) _) ht
  rw [pow_succ]
  exact h

theorem sampleVector_one (x : BV) (hx : x.length = 1) : Sure (sampleVector [1] x) (fun y => y = [true]) := by
  refine ⟨(sampleVector_sure (n := 1) rfl x hx).total, fun y hy => ?_⟩
  have hlen := (sampleVector_sure (n := 1) rfl x hx).holds y hy
  obtain ⟨b, rfl⟩ := List.length_eq_one_iff.mp hlen
  cases b
  · exfalso
    apply hy
    unfold sampleVector
    rw [pvSample_law (by simpa using hx) (by simp)]
    simp
  · rfl

theorem mmasLearn_one {ρ : Type} (rate : ℚ) {x : BV} (hx : x.length = 1) {d : PvData ρ} (hd : d.pv.length = 1) (hm : d.Margins 1) :
    (mmasLearn rate x d).Returns (fun e => e.pv = [1] ∧ e.Margins 1 ∧ e.rest = d.rest) := by
  unfold mmasLearn
  rw [pvUpdateBits_eq (by rw [hx, hd]), ok_bind]
  obtain ⟨b, rfl⟩ := List.length_eq_one_iff.mp hx
  obtain ⟨p, hp⟩ := List.length_eq_one_iff.mp hd
  rw [hp, hm.1, hm.2, pvBound_eq, ok_bind]
  refine returns_ok.mpr ⟨?_, ⟨rfl, rfl⟩, rfl⟩
  simp only [List.zipWith_cons_cons, List.zipWith_nil_right, List.map_cons, List.map_nil]
  congr 1
  rw [max_eq_left]
  · norm_num
  · exact le_trans (min_le_left _ _) (by norm_num)

/-- C113 (negative part): with vectors of one bit, the margins are in the wrong order and the probability becomes 1: the max-min ant
system never samples the other vector, and if it is the maximum, then it is missed with probability 1/2, however long the search. -/
theorem mmas_single (hf : Evaluates f 1 val) (hval : val [true] < val [false]) {q : MmasParams K} (hq : Compares q.compare) {t : ℕ}
    (ht : 0 < t) : missProb (mmas f q 1 t) (IsMax 1 val) = 2⁻¹ := by
  have hmax : ∀ x : BV, x.length = 1 → (IsMax 1 val x ↔ x = [false]) := by
    intro x hx
    obtain ⟨b, rfl⟩ := List.length_eq_one_iff.mp hx
    constructor
    · rintro ⟨-, h⟩
      cases b
      · rfl
      · exact absurd (h [false] rfl) (not_le.mpr hval)
    · intro e
      rw [e]
      refine ⟨rfl, fun y hy => ?_⟩
      obtain ⟨b', rfl⟩ := List.length_eq_one_iff.mp hy
      cases b'
      · exact le_refl _
      · exact hval.le
  let I : PvState K BV → Prop := fun s => Good 1 val s.solution ∧ s.data.pv = [1] ∧ s.data.Margins 1 ∧ s.data.rest.length = 1
  have hstart : Sure (pvStart f 1 (pvNew 1 (List.replicate 1 false))) (fun s => Good 1 val s.solution ∧ s.data.pv.length = 1 ∧
      s.data.Margins 1 ∧ s.data.rest.length = 1) := by
    unfold pvStart
    exact (randomSolution_sure hf).bind (fun s hs => Sure.pure ⟨hs, by simp [pvUniform, pvNew], ⟨rfl, rfl⟩, rfl⟩)
  have hlearn : ∀ s : PvState K BV, (Good 1 val s.solution ∧ s.data.pv.length = 1 ∧ s.data.Margins 1 ∧ s.data.rest.length = 1) →
      Sure (Dist.lift (mmasLearn q.rate s.solution.1 s.data) >>= fun d => pure { s with data := d })
        (fun t => I t ∧ (IsMax 1 val t.solution.1 ↔ IsMax 1 val s.solution.1)) := by
    rintro s ⟨h1, h2, h3, h4⟩
    refine (Sure.lift (mmasLearn_one q.rate h1.1 h2 h3)).bind (fun d hd => Sure.pure ?_)
    exact ⟨⟨h1, hd.1, hd.2.1, by dsimp only; rw [hd.2.2]; exact h4⟩, Iff.rfl⟩
  have hrest : ∀ s, I s → ∀ x, x = [true] → Sure (mmasRest f q s x) (fun t => I t ∧ (IsMax 1 val t.solution.1 ↔ IsMax 1 val s.solution.1 ∨ False)) := by
    rintro s ⟨h1, h2, h3, h4⟩ x rfl
    unfold mmasRest
    rw [hf.eval _ rfl, Dist.lift_ok, Dist.pure_bind']
    obtain ⟨g1, g2⟩ := mmas_found hq h1 (x := [true]) rfl
    refine (Sure.lift (mmasLearn_one q.rate (ρ := BV) g1.1 (d := { s.data with rest := [true] }) (by rw [h2]; rfl) h3)).bind
      (fun d hd => Sure.pure ⟨⟨g1, hd.1, hd.2.1, by dsimp only; rw [hd.2.2]; rfl⟩, ?_⟩)
    dsimp only
    rw [g2, or_congr Iff.rfl (iff_false_intro (fun h => by simpa using (hmax [true] rfl).mp h))]
  have hsample : ∀ s, I s → Sure (sampleVector s.data.pv s.data.rest) (fun y => y = [true]) := by
    rintro s ⟨-, h2, -, h4⟩
    rw [h2]
    exact sampleVector_one _ h4
  have h := run_miss_eq (solution := PvState.solution) (found := IsMax 1 val) (a := 2⁻¹)
    (r := 1) (iterate := mmasIterate f q) (init := mmasInit f q 1) (I := I)
    (hstart.bind (fun s hs => (hlearn s hs).mono (fun _ h => h.1)))
    (fun s hs => (hsample s hs).bind (fun x hx => (hrest s hs x hx).mono (fun _ h => h.1)))
    (by
      refine (expect_keep hstart (fun s hs => (hlearn s hs).mono (fun _ h => h.2))).trans ?_
      rw [pvStart_expect, randomSolution_expect hf (IsMax 1 val), expect_missing_prob (bvRandomBits_total _)]
      have : (bvRandomBits (List.replicate 1 false)).prob (IsMax 1 val) = 2⁻¹ := by
        unfold Dist.prob
        rw [tsum_eq_single [false] (fun y hy => by
          split
          · next h => exact absurd ((hmax y h.1).mp h) hy
          · rfl), if_pos ((hmax [false] rfl).mpr rfl), bvRandomBits_law]
        simp
      rw [this, ENNReal.one_sub_inv_two])
    (fun s hs => by
      refine (expect_after (hsample s hs) (fun x hx => (hrest s hs x hx).mono (fun _ h => h.2))).trans ?_
      unfold missing
      simp only [if_false]
      rw [Dist.expect_const, (hsample s hs).total]
      ring) ht
  unfold mmas
  rw [h, one_pow, one_mul]

/-! ## PBIL and UMDA -/

variable [Zero K]

omit [LinearOrder K] in
theorem popNew_ok {size n : ℕ} (hn : 0 < n) (h : 0 < size) : ∃ p : Pop K, Pop.new (size : ℤ) (n : ℤ) = ok p ∧ p.Valid size n := by
  have : ∃ p : Pop K, Pop.new (size : ℤ) (n : ℤ) = ok p := by
    unfold Pop.new
    rw [if_neg (by omega), if_neg (by omega)]
    exact ⟨_, rfl⟩
  obtain ⟨p, hp⟩ := this
  exact ⟨p, hp, by simpa using (popNew_valid hp).2.2⟩

/-- C113: PBIL finds a maximum of any function of at least two bits, whatever the learning rate and the number of selected
individuals, and however ties are broken: with a population of size `size`, the probability that it has not been found after `t`
iterations is at most `(1 - 1/n^n)^(size * t + 1)`. -/
theorem pbil_converges (hf : Evaluates f n val) (hc : c.Valid) (hn : 2 ≤ n) {size sel : ℕ} (h1 : 1 ≤ sel) (h2 : sel ≤ size) (rate : ℚ)
    {t : ℕ} (ht : 0 < t) :
    missProb (pbil f c ⟨sel, rate⟩ n size t) (IsMax n val) ≤ (1 - ((n : ℝ≥0∞)⁻¹) ^ n) ^ (size * t + 1) := by
  have hn0 : 0 < n := by omega
  obtain ⟨p, hp, hv⟩ := popNew_ok (K := K) hn0 (by omega : 0 < size)
  unfold pbil pbilNew
  rw [hp, ok_bind, Dist.lift_ok, Dist.pure_bind']
  have hR : PbilGood n size (⟨p, List.replicate n 0⟩ : PbilRest K) := ⟨hv, by simp⟩
  have hlearn : ∀ s : PvState K (PbilRest K), PvGood n val (PbilGood n size) s → ∀ r : (BV × K) × Pop K, Good n val r.1 ∧ r.2.Valid size n →
      Sure (Dist.lift (pbilLearn ⟨sel, rate⟩ r.2 s.data) >>= fun d => (pure ⟨r.1, d⟩ : Dist (PvState K (PbilRest K))))
        (fun t => PvGood n val (PbilGood n size) t ∧ (IsMax n val t.solution.1 ↔ IsMax n val r.1.1)) := by
    intro s hs r hr
    refine (Sure.lift (pbilLearn_returns hn h1 h2 rate hr.2 hs.bounded.1 hs.margins hs.rest.2)).bind (fun d hd => Sure.pure ?_)
    exact ⟨⟨hr.1, hd.1, hd.2.1, hd.2.2⟩, Iff.rfl⟩
  have hgen : ∀ s : PvState K (PbilRest K), PvGood n val (PbilGood n size) s → _ := fun s hs =>
    pvGeneration_sure hf hc (by omega : 0 < size) hs.bounded.1 hs.solution hs.rest.1
  have h := run_miss_le (solution := PvState.solution) (found := IsMax n val) (a := 1 - ((n : ℝ≥0∞)⁻¹) ^ n)
    (r := (1 - ((n : ℝ≥0∞)⁻¹) ^ n) ^ size) (iterate := pbilIterate f c ⟨sel, rate⟩)
    ((pvStart_sure hf hn hR).mono (fun _ h => h.1))
    (fun s hs => (hgen s hs).bind (fun r hr => (hlearn s hs r hr).mono (fun _ h => h.1)))
    (by
      rw [pvStart_expect]
      exact randomSolution_le hf hn)
    (fun s hs => le_trans (le_of_eq (expect_keep (hgen s hs) (fun r hr => (hlearn s hs r hr).mono (fun _ h => h.2))))
      (pvGeneration_le hn0 hf hc (by omega) hs.bounded hs.solution hs.rest.1)) ht
  refine h.trans (le_of_eq ?_)
  rw [← pow_mul, ← pow_succ]

/-- C113: UMDA finds a maximum of any function of at least two bits: with a population of size `size`, the probability that it has not
been found after `t` iterations is at most `(1 - 1/n^n)^(size * t + 1)`. -/
theorem umda_converges (hf : Evaluates f n val) (hc : c.Valid) (hn : 2 ≤ n) {size sel : ℕ} (h1 : 1 ≤ sel) (h2 : sel ≤ size)
    {t : ℕ} (ht : 0 < t) :
    missProb (umda f c sel n size t) (IsMax n val) ≤ (1 - ((n : ℝ≥0∞)⁻¹) ^ n) ^ (size * t + 1) := by
  have hn0 : 0 < n := by omega
  obtain ⟨p, hp, hv⟩ := popNew_ok (K := K) hn0 (by omega : 0 < size)
  unfold umda umdaNew
  rw [hp, ok_bind, Dist.lift_ok, Dist.pure_bind']
  have hlearn : ∀ s : PvState K (Pop K), PvGood n val (Pop.Valid size n) s → ∀ r : (BV × K) × Pop K, Good n val r.1 ∧ r.2.Valid size n →
      Sure (Dist.lift (umdaLearn sel r.2 s.data) >>= fun d => (pure ⟨r.1, d⟩ : Dist (PvState K (Pop K))))
        (fun t => PvGood n val (Pop.Valid size n) t ∧ (IsMax n val t.solution.1 ↔ IsMax n val r.1.1)) := by
    intro s hs r hr
    refine (Sure.lift (umdaLearn_returns hn h1 h2 hr.2 hs.bounded.1 hs.margins)).bind (fun d hd => Sure.pure ?_)
    exact ⟨⟨hr.1, hd.1, hd.2.1, hd.2.2⟩, Iff.rfl⟩
  have hgen : ∀ s : PvState K (Pop K), PvGood n val (Pop.Valid size n) s → _ := fun s hs =>
    pvGeneration_sure hf hc (by omega : 0 < size) hs.bounded.1 hs.solution hs.rest
  have h := run_miss_le (solution := PvState.solution) (found := IsMax n val) (a := 1 - ((n : ℝ≥0∞)⁻¹) ^ n)
    (r := (1 - ((n : ℝ≥0∞)⁻¹) ^ n) ^ size) (iterate := umdaIterate f c sel)
    ((pvStart_sure hf hn hv).mono (fun _ h => h.1))
    (fun s hs => (hgen s hs).bind (fun r hr => (hlearn s hs r hr).mono (fun _ h => h.1)))
    (by
      rw [pvStart_expect]
      exact randomSolution_le hf hn)
    (fun s hs => le_trans (le_of_eq (expect_keep (hgen s hs) (fun r hr => (hlearn s hs r hr).mono (fun _ h => h.2))))
      (pvGeneration_le hn0 hf hc (by omega) hs.bounded hs.solution hs.rest)) ht
  refine h.trans (le_of_eq ?_)
  rw [← pow_mul, ← pow_succ]

/-- C113 (negative part): PBIL with negative and positive selection learns nothing: whatever the learning rate, its chance to find one
of the maxima in `t` iterations is exactly that of `size * t + 1` vectors drawn uniformly. -/
theorem npsPbil_random (hf : Evaluates f n val) (hc : c.Valid) (hn : 2 ≤ n) {size sel : ℕ} (h1 : 1 ≤ sel) (h2 : sel ≤ size) (rate : ℚ)
    {t : ℕ} (ht : 0 < t) :
    missProb (npsPbil f c ⟨sel, rate⟩ n size t) (IsMax n val)
      = (1 - ({x : BV | IsMax n val x}.ncard : ℝ≥0∞) * ((2 : ℝ≥0∞) ^ n)⁻¹) ^ (size * t + 1) := by
  have hn0 : 0 < n := by omega
  obtain ⟨p, hp, hv⟩ := popNew_ok (K := K) hn0 (by omega : 0 < size)
  unfold npsPbil npsNew
  rw [hp, ok_bind, Dist.lift_ok, Dist.pure_bind']
  have hR : NpsGood n size (⟨p, List.replicate n 0, List.replicate n 0⟩ : NpsRest K) := ⟨hv, by simp, by simp⟩
  have hlearn : ∀ s : PvState K (NpsRest K), PvGood n val (NpsGood n size) s ∧ s.data.pv = List.replicate n (1 / 2) →
      ∀ r : (BV × K) × Pop K, Good n val r.1 ∧ r.2.Valid size n →
      Sure (Dist.lift (npsLearn ⟨sel, rate⟩ r.2 s.data) >>= fun d => (pure ⟨r.1, d⟩ : Dist (PvState K (NpsRest K))))
        (fun t => (PvGood n val (NpsGood n size) t ∧ t.data.pv = List.replicate n (1 / 2)) ∧
          (IsMax n val t.solution.1 ↔ IsMax n val r.1.1)) := by
    rintro s ⟨hs, hu⟩ r hr
    refine (Sure.lift (npsLearn_returns h1 h2 rate hr.2 hs.bounded hs.margins hs.rest.2.1 hs.rest.2.2)).bind (fun d hd => Sure.pure ?_)
    exact ⟨⟨⟨hr.1, by rw [hd.1]; exact hs.bounded, hd.2.1, hd.2.2⟩, by rw [hd.1]; exact hu⟩, Iff.rfl⟩
  have hgen : ∀ s : PvState K (NpsRest K), PvGood n val (NpsGood n size) s ∧ s.data.pv = List.replicate n (1 / 2) → _ := fun s hs =>
    pvGeneration_sure hf hc (by omega : 0 < size) hs.1.bounded.1 hs.1.solution hs.1.rest.1
  have h := run_miss_eq (solution := PvState.solution) (found := IsMax n val) (a := 1 - numMax n val * ((2 : ℝ≥0∞) ^ n)⁻¹)
    (r := (1 - numMax n val * ((2 : ℝ≥0∞) ^ n)⁻¹) ^ size) (iterate := npsIterate f c ⟨sel, rate⟩)
    (pvStart_sure hf hn hR)
    (fun s hs => (hgen s hs).bind (fun r hr => (hlearn s hs r hr).mono (fun _ h => h.1)))
    (by
      rw [pvStart_expect, randomSolution_expect hf (IsMax n val)]
      exact randomBits_eq _ (by simp))
    (fun s hs => by
      refine (expect_keep (hgen s hs) (fun r hr => (hlearn s hs r hr).mono (fun _ h => h.2))).trans ?_
      rw [hs.2]
      exact pvGeneration_uniform hf hc (by omega) hs.1.solution hs.1.rest.1) ht
  rw [h, ← pow_mul, ← pow_succ]
  rfl

end Hnco.Prob
