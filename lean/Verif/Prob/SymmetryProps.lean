import Verif.Prob.SymmetryLemmas
import Verif.Prob.WalkProps
import Verif.Prob.TimeProps

/-!
# Invariance under the symmetries of the hypercube (C120)
-/

namespace Hnco.Prob

open Outcome
open scoped ENNReal

variable {K : Type} [LinearOrder K] {n : ℕ} {σ : Symmetry n} {f g : Fn K} {val val' : BV → K}

/-! ## The neighbourhoods -/

theorem fair_choose {k : ℕ} : Fair (chooseLaw 0 n k) n :=
  ⟨fun l hl => ⟨(chooseLaw_support hl).1, fun i hi => by have := (chooseLaw_support hl).2 i hi; omega⟩, fun l l' h1 h2 h3 h4 he => by
    have a1 : Ascending 0 n l := ⟨h1, fun i hi => by have := h2 i hi; omega⟩
    have a2 : Ascending 0 n l' := ⟨h3, fun i hi => by have := h4 i hi; omega⟩
    rw [chooseLaw_apply, chooseLaw_apply, he]
    simp only [a1, a2]⟩

theorem fair_flips {p : ℝ≥0∞} : Fair (flipsLaw 0 n p) n :=
  ⟨fun l hl => ⟨(flipsLaw_support hl).1, fun i hi => by have := (flipsLaw_support hl).2 i hi; omega⟩, fun l l' h1 h2 h3 h4 he => by
    have a1 : Ascending 0 n l := ⟨h1, fun i hi => by have := h2 i hi; omega⟩
    have a2 : Ascending 0 n l' := ⟨h3, fun i hi => by have := h4 i hi; omega⟩
    rw [flipsLaw_apply, flipsLaw_apply, he]
    simp only [a1, a2]⟩

theorem fair_some {p : ℝ≥0∞} : Fair (someFlipsLaw n p) n :=
  ⟨fun l hl => ⟨(some_support hl).1, fun i hi => by have := (some_support hl).2 i hi; omega⟩, fun l l' h1 h2 h3 h4 he => by
    rw [someFlipsLaw_apply, someFlipsLaw_apply, fair_flips.even l l' h1 h2 h3 h4 he]
    have : l = [] ↔ l' = [] := by rw [← List.length_eq_zero_iff, ← List.length_eq_zero_iff, he]
    simp only [this]⟩

/-- C120: single bit flips are fair. -/
theorem singleBitFlip_fair (hn : 0 < n) : Fair (singleBitFlip n) n := by
  classical
  have hd : ∀ l, singleBitFlip n l = if Ascending 0 n l ∧ l.length = 1 then (n : ℝ≥0∞)⁻¹ else 0 := by
    intro l
    change (Dist.uniformInt 0 (n - 1) >>= fun i => (pure [i] : Dist (List ℕ))) l = _
    by_cases hl : ∃ i, l = [i]
    · obtain ⟨i, rfl⟩ := hl
      rw [Dist.map_apply_inj (Dist.uniformInt 0 (n - 1)) (f := fun i => [i]) (fun _ _ h => (List.cons.inj h).1), uniformBelow hn]
      refine if_congr ?_ rfl rfl
      simp [Ascending]
    · rw [if_neg, Dist.bind_apply, ENNReal.tsum_eq_zero]
      · intro i
        rw [Dist.pure_apply, if_neg (fun e => hl ⟨i, e⟩), mul_zero]
      · rintro ⟨_, h⟩
        exact hl (List.length_eq_one_iff.mp h)
  have he : singleBitFlip n = chooseLaw 0 n 1 := by
    ext l
    rw [hd, chooseLaw_apply, Nat.choose_one_right]
  rw [he]
  exact fair_choose

/-- C120: so is the Hamming sphere. -/
theorem hammingSphere_fair {r : ℕ} (hn : 0 < n) (hr : r ≤ n) : Fair (hammingSphere n r) n := by
  rw [sphere_choose hn hr]
  exact fair_choose

/-- C120: so is the Hamming ball. -/
theorem hammingBall_fair {r : ℕ} (hr : 0 < r) (hrn : r ≤ n) : Fair (hammingBall n r) n := by
  have hs : ∀ l, hammingBall n r l ≠ 0 → Ascending 0 n l := by
    intro l hl
    rw [ball_law hr hrn] at hl
    by_contra h'
    refine hl ?_
    rw [chooseLaw_apply, if_neg (c := Ascending 0 n l ∧ _) (fun e => h' e.1), ite_self, mul_zero]
  refine ⟨fun l hl => ⟨(hs l hl).1, fun i hi => by have := (hs l hl).2 i hi; omega⟩, fun l l' h1 h2 h3 h4 he => ?_⟩
  rw [ball_law hr hrn, ball_law hr hrn, fair_choose.even l l' h1 h2 h3 h4 he, he]

/-- C120: so is standard bit mutation. -/
theorem standardBitMutation_fair (hn : 0 < n) {m : StandardBitMutation} (hp : m.rate ≤ 1) : Fair (m.sampleBits n) n := by
  by_cases h : m.allowNoMutation = false ∨ m.rejectionSampling = false
  · rw [standard_some hn hp h]
    exact fair_some
  · rw [not_or] at h
    have h1 : m.sampleBits n = flipsLaw 0 n m.rate := by
      unfold StandardBitMutation.sampleBits
      have ha : m.allowNoMutation = true := by simpa using h.1
      have hr : m.rejectionSampling = true := by simpa using h.2
      simp only [ha, hr, if_true]
      ext l
      exact binomial_choose hn m.rate l
    rw [h1]
    exact fair_flips

/-! ## Random search -/

omit [LinearOrder K] in
theorem relabeled_of {d e : Dist (BV × K)} (h : Paired (fun r r' => SolR n σ r r') d e) : e = relabeled σ d :=
  (h.mono (fun _ _ h => h.2)).eq_image

/-- C120: random search treats all positions, zeros and ones alike. -/
theorem randomSearch_unbiased (h : Relabeled σ f g val val') (num : ℤ) : randomSearch g n num = relabeled σ (randomSearch f n num) := by
  apply relabeled_of
  refine (Paired.loop (R := fun s s' => s.candidate.length = n ∧ s'.candidate.length = n ∧ SolR n σ s.solution s'.solution) ?_
    (fun _ _ _ => rfl) (fun s s' hs _ => ?_) num).bind (fun s s' hs => Paired.pure hs.2.2)
  · refine (randomSolution_paired h (List.length_replicate ..) (List.length_replicate ..)).bind (fun r r' hr => Paired.pure ?_)
    exact ⟨List.length_replicate .., List.length_replicate .., hr.1⟩
  · refine (randomBits_paired σ hs.1 hs.2.1).bind (fun a b hab => ?_)
    obtain ⟨ha, rfl⟩ := hab
    rw [h.left.eval a ha, h.right.eval _ (σ.act_length a), h.same a ha]
    simp only [Dist.lift_ok, Dist.pure_bind']
    refine Paired.pure ⟨ha, σ.act_length a, ?_⟩
    obtain ⟨h1, h2⟩ := hs.2.2
    rw [h2]
    simp only
    split
    · exact ⟨ha, rfl⟩
    · exact ⟨h1, rfl⟩

/-! ## Random local search -/

/-- Related states of random local search. -/
structure RlsR (n : ℕ) (σ : Symmetry n) (val : BV → K) (s s' : RlsState K) : Prop where
  length : s.origin.length = n
  origin : s'.origin = σ.act s.origin
  candidate : s.candidate = s.origin
  candidate' : s'.candidate = s'.origin
  value : s.solution.2 = val s.origin
  value' : s'.solution.2 = s.solution.2
  failures : s'.numFailures = s.numFailures
  last : s'.last = s.last

/-- The same search from the image of the starting point. -/
def RlsParams.moved (p : RlsParams K) (σ : Symmetry n) : RlsParams K := { p with startingPoint := σ.act p.startingPoint }

theorem rlsInit_paired (h : Relabeled σ f g val val') {p : RlsParams K} (hs : Starts p n) :
    Paired (RlsR n σ val) (rlsInit p f n) (rlsInit (p.moved σ) g n) := by
  unfold rlsInit
  refine Paired.bind (R := fun r r' => SolR n σ r r' ∧ r.2 = val r.1) ?_ (fun r r' hr => ?_)
  · refine Paired.ite Iff.rfl (fun _ => randomSolution_paired h (List.length_replicate ..) (List.length_replicate ..)) (fun hr => ?_)
    have hl := hs (by simpa using hr)
    change Paired _ _ (Dist.lift (g.eval (σ.act p.startingPoint)) >>= fun v => pure (σ.act p.startingPoint, v))
    rw [h.left.eval _ hl, h.right.eval _ (σ.act_length _), h.same _ hl]
    simp only [Dist.lift_ok, Dist.pure_bind']
    exact Paired.pure ⟨⟨hl, rfl⟩, rfl⟩
  · obtain ⟨⟨h1, rfl⟩, h2⟩ := hr
    exact Paired.pure ⟨h1, rfl, rfl, rfl, h2, rfl, rfl, rfl⟩

omit [LinearOrder K] in
theorem increment_eq {f : Fn K} {val : BV → K} (hf : Evaluates f n val) {x y : BV} {v : K} {l : List ℕ} (hx : x.length = n) (hl : Ascending 0 n l)
    (h : bvFlipSparse x l = ok y) (hv : v = val x) (b : Bool) :
    (if b && f.hasInc then Dist.lift (f.evalInc x v l) else Dist.lift (f.eval y)) = (pure (val y) : Dist K) := by
  obtain ⟨z, hz, hlen, hget⟩ := bvFlipSparse_exact x l hl.1 (fun i hi => by have := hl.2 i hi; omega)
  rw [h] at hz
  obtain rfl := Outcome.ok.inj hz
  have hyn : y.length = n := hlen.trans hx
  split
  · next hb =>
    rw [Bool.and_eq_true] at hb
    obtain ⟨w, hw, hw2⟩ := (hf.inc hb.2).2 x y v l (by rw [hf.size, hx]) (by rw [hf.size, hyn]) hl.1
      (fun i hi => by have := hl.2 i hi; rw [hf.size]; omega) hget (by rw [hf.eval x hx, hv])
    rw [hf.eval y hyn] at hw2
    rw [hw, ← Outcome.ok.inj hw2, Dist.lift_ok]
  · rw [hf.eval y hyn, Dist.lift_ok]

theorem rlsIterate_paired (h : Relabeled σ f g val val') {p : RlsParams K} (hd : Fair p.sampleBits n) {s s' : RlsState K} (hs : RlsR n σ val s s') :
    Paired (RlsR n σ val) (rlsIterate p f s) (rlsIterate (p.moved σ) g s') := by
  unfold rlsIterate propose
  rw [Dist.assert_bind (by rw [hs.candidate]; exact beq_self_eq_true _), Dist.assert_bind (by rw [hs.candidate']; exact beq_self_eq_true _),
    Dist.bind_assoc', Dist.bind_assoc']
  refine (hd.paired σ).bind (fun l l' hl => ?_)
  obtain ⟨hl, rfl⟩ := hl
  obtain ⟨y, hy⟩ := flip_ok hs.length hl
  obtain ⟨hyn, hy'⟩ := σ.flip hs.length hl hy
  rw [hs.candidate, hs.candidate', hs.origin, hy, hy']
  simp only [Dist.lift_ok, Dist.pure_bind']
  have hl' : Ascending 0 n (σ.move l) := filter_range_ascending _
  rw [increment_eq h.left hs.length hl hy hs.value]
  have e2 : (if (p.moved σ).incremental && g.hasInc then Dist.lift (g.evalInc s'.origin s'.solution.2 (σ.move l)) else Dist.lift (g.eval (σ.act y))) =
      (pure (val y) : Dist K) := by
    rw [increment_eq h.right (by rw [hs.origin]; exact σ.act_length _) hl' (by rw [hs.origin]; exact hy')
      (by rw [hs.value', hs.value, hs.origin, h.same _ hs.length]), h.same y hyn]
  rw [← hs.origin, e2]
  simp only [Dist.pure_bind']
  unfold decideMove keep forget
  have hback : bvFlipSparse y l = ok s.origin := flip_back (by rw [hs.length]; exact hl) hy
  have hback' : bvFlipSparse (σ.act y) (σ.move l) = ok s'.origin := by
    rw [hs.origin]
    exact (σ.flip hyn hl hback).2
  refine Paired.bind (R := RlsR n σ val) (Paired.ite (by rw [hs.value']; rfl) (fun _ => ?_) (fun _ => ?_)) (fun s s' hs => ?_)
  · simp only
    rw [hy, hs.origin, hy']
    simp only [Dist.lift_ok, Dist.pure_bind']
    rw [Dist.assert_bind (by simp), Dist.assert_bind (by simp)]
    simp only [Dist.pure_bind']
    exact Paired.pure ⟨hyn, rfl, rfl, rfl, rfl, rfl, rfl, hs.last⟩
  · simp only
    rw [hback, hback']
    simp only [Dist.lift_ok, Dist.pure_bind']
    rw [Dist.assert_bind (by simp), Dist.assert_bind (by simp)]
    simp only [Dist.pure_bind']
    exact Paired.pure ⟨hs.length, hs.origin, rfl, rfl, hs.value, hs.value', by simp [hs.failures], hs.last⟩
  · refine Paired.ite (by rw [hs.failures]; rfl) (fun _ => Paired.pure ?_) (fun _ => Paired.pure hs)
    exact ⟨hs.length, hs.origin, hs.candidate, hs.candidate', hs.value, hs.value', hs.failures, rfl⟩

/-- C120: random local search treats all positions, zeros and ones alike, whatever the comparison, the patience and the kind of evaluation. -/
theorem randomLocalSearch_unbiased (h : Relabeled σ f g val val') {p : RlsParams K} (hs : Starts p n) (hd : Fair p.sampleBits n) (num : ℤ) :
    randomLocalSearch (p.moved σ) g n num = relabeled σ (randomLocalSearch p f n num) := by
  apply relabeled_of
  refine (Paired.loop (rlsInit_paired h hs) (fun s s' hs => hs.last.symm) (fun s s' hs _ => rlsIterate_paired h hd hs) num).bind (fun s s' hs => ?_)
  refine Paired.pure ⟨hs.length, ?_⟩
  rw [hs.origin, hs.value']

/-- C120: the (1+1) evolutionary algorithm treats all positions, zeros and ones alike. -/
theorem onePlusOneEa_unbiased (h : Relabeled σ f g val val') (hn : 0 < n) {q : EaParams} (hq : q.mutationRate ≤ 1) :
    onePlusOneEa q g n = relabeled σ (onePlusOneEa q f n) := by
  have hd : Fair (eaSearch (K := K) q n).sampleBits n := by
    refine standardBitMutation_fair hn ?_
    unfold eaNeighborhood StandardBitMutation.setMutationRate StandardBitMutation.setAllowNoMutation
    split <;> exact hq
  have := randomLocalSearch_unbiased h (p := eaSearch q n) (fun h => by simp [eaSearch] at h) hd q.numIterations
  rw [onePlusOneEa, onePlusOneEa, ← this]
  have hi : rlsInit ((eaSearch (K := K) q n).moved σ) g n = rlsInit (eaSearch q n) g n := by
    unfold rlsInit
    have h1 : ((eaSearch (K := K) q n).moved σ).randomInitialization = true := rfl
    have h2 : (eaSearch (K := K) q n).randomInitialization = true := rfl
    rw [h1, h2]
    simp only [if_true]
  unfold randomLocalSearch
  rw [hi]
  rfl

/-! ## Random walk -/

/-- Related neighbourhoods, between two iterations. -/
structure NbhR (n : ℕ) (σ : Symmetry n) (s s' : NbhState) : Prop where
  length : s.origin.length = n
  origin : s'.origin = σ.act s.origin
  candidate : s.candidate = s.origin
  candidate' : s'.candidate = s'.origin

/-- Related neighbourhoods, with pending candidates. -/
structure PendingR (n : ℕ) (σ : Symmetry n) (s s' : NbhState) : Prop where
  length : s.origin.length = n
  origin : s'.origin = σ.act s.origin
  sorted : Ascending 0 n s.flipped
  flipped : s'.flipped = σ.move s.flipped
  candidate : bvFlipSparse s.origin s.flipped = ok s.candidate
  candidate' : s'.candidate = σ.act s.candidate

theorem PendingR.size {s s' : NbhState} (h : PendingR n σ s s') : s.candidate.length = n := (σ.flip h.length h.sorted h.candidate).1

theorem propose_paired {d : Dist (List ℕ)} (hd : Fair d n) {s s' : NbhState} (hs : NbhR n σ s s') :
    Paired (PendingR n σ) (s.propose d) (s'.propose d) := by
  unfold NbhState.propose
  rw [Dist.assert_bind (by rw [hs.candidate]; exact beq_self_eq_true _), Dist.assert_bind (by rw [hs.candidate']; exact beq_self_eq_true _)]
  refine (hd.paired σ).bind (fun l l' hl => ?_)
  obtain ⟨hl, rfl⟩ := hl
  obtain ⟨y, hy⟩ := flip_ok hs.length hl
  obtain ⟨hyn, hy'⟩ := σ.flip hs.length hl hy
  rw [hs.candidate, hs.candidate', hs.origin, hy, hy']
  simp only [Dist.lift_ok, Dist.pure_bind']
  exact Paired.pure ⟨hs.length, rfl, hl, rfl, hy, rfl⟩

theorem keep_paired {s s' : NbhState} (hs : PendingR n σ s s') :
    Paired (fun t t' => NbhR n σ t t' ∧ t.origin = s.candidate ∧ t.candidate = s.candidate) s.keep s'.keep := by
  unfold NbhState.keep
  have h' := (σ.flip hs.length hs.sorted hs.candidate).2
  rw [hs.candidate, hs.origin, hs.flipped, h', hs.candidate']
  simp only [Dist.lift_ok, Dist.pure_bind']
  rw [Dist.assert_bind (by simp), Dist.assert_bind (by simp)]
  exact Paired.pure ⟨⟨hs.size, rfl, rfl, rfl⟩, rfl, rfl⟩

theorem forget_paired {s s' : NbhState} (hs : PendingR n σ s s') :
    Paired (fun t t' => NbhR n σ t t' ∧ t.origin = s.origin) s.forget s'.forget := by
  unfold NbhState.forget
  have hb : bvFlipSparse s.candidate s.flipped = ok s.origin := flip_back (by rw [hs.length]; exact hs.sorted) hs.candidate
  have h' := (σ.flip hs.size hs.sorted hb).2
  rw [hb, hs.candidate', hs.flipped, h', hs.origin]
  simp only [Dist.lift_ok, Dist.pure_bind']
  rw [Dist.assert_bind (by simp), Dist.assert_bind (by simp)]
  exact Paired.pure ⟨⟨hs.length, rfl, rfl, rfl⟩, rfl⟩

/-- The same start from the image of the starting point. -/
def StartParams.moved (p : StartParams) (σ : Symmetry n) : StartParams := { p with startingPoint := σ.act p.startingPoint }

theorem walkInit_paired (h : Relabeled σ f g val val') {p : StartParams} (hs : p.randomInitialization = false → p.startingPoint.length = n) :
    Paired (fun s s' => NbhR n σ s.nbh s'.nbh ∧ SolR n σ s.solution s'.solution) (walkInit p f n) (walkInit (StartParams.moved p σ) g n) := by
  unfold walkInit
  refine Paired.bind (R := fun r r' => SolR n σ r r' ∧ r.2 = val r.1) ?_ (fun r r' hr => ?_)
  · refine Paired.ite Iff.rfl (fun _ => randomSolution_paired h (List.length_replicate ..) (List.length_replicate ..)) (fun hr => ?_)
    have hl := hs (by simpa using hr)
    change Paired _ _ (Dist.lift (g.eval (σ.act p.startingPoint)) >>= fun v => pure (σ.act p.startingPoint, v))
    rw [h.left.eval _ hl, h.right.eval _ (σ.act_length _), h.same _ hl]
    simp only [Dist.lift_ok, Dist.pure_bind']
    exact Paired.pure ⟨⟨hl, rfl⟩, rfl⟩
  · obtain ⟨⟨h1, rfl⟩, h2⟩ := hr
    exact Paired.pure ⟨⟨h1, rfl, rfl, rfl⟩, h1, rfl⟩

theorem walkIterate_paired (h : Relabeled σ f g val val') {d : Dist (List ℕ)} (hd : Fair d n) {s s' : WalkState K}
    (hs : NbhR n σ s.nbh s'.nbh ∧ SolR n σ s.solution s'.solution) :
    Paired (fun s s' => NbhR n σ s.nbh s'.nbh ∧ SolR n σ s.solution s'.solution) (walkIterate d f s) (walkIterate d g s') := by
  unfold walkIterate
  refine (propose_paired hd hs.1).bind (fun t t' ht => ?_)
  rw [h.left.eval _ ht.size, ht.candidate', h.right.eval _ (σ.act_length _), h.same _ ht.size]
  simp only [Dist.lift_ok, Dist.pure_bind']
  refine (keep_paired ht).bind (fun u u' hu => Paired.pure ⟨hu.1, ?_⟩)
  obtain ⟨h1, h2⟩ := hs.2
  rw [h2]
  simp only
  split
  · exact ⟨by rw [hu.1.candidate]; exact hu.1.length, by rw [hu.1.candidate', hu.1.origin, hu.1.candidate]⟩
  · exact ⟨h1, rfl⟩

/-- C120: the random walk treats all positions, zeros and ones alike. -/
theorem randomWalk_unbiased (h : Relabeled σ f g val val') {p : StartParams} (hs : p.randomInitialization = false → p.startingPoint.length = n)
    {d : Dist (List ℕ)} (hd : Fair d n) (t : ℕ) :
    walkResult (randomWalk (StartParams.moved p σ) d g n t) =
      (walkResult (randomWalk p d f n t) >>= fun r => pure (σ.act r.1, (σ.act r.2.1, r.2.2))) := by
  apply Paired.eq_image
  refine Paired.bind (R := fun s s' => NbhR n σ s.nbh s'.nbh ∧ SolR n σ s.solution s'.solution) ?_ (fun s s' hs => Paired.pure ?_)
  · exact (walkInit_paired h hs).bind (fun s s' hs => Paired.boundedLoop (fun _ _ _ => rfl) (fun s s' hs _ => walkIterate_paired h hd hs) t s s' hs)
  · rw [hs.1.origin, hs.2.2]

/-! ## Simulated annealing -/

/-- Related states of simulated annealing. -/
structure SaR (n : ℕ) (σ : Symmetry n) (s s' : SaState) : Prop where
  nbh : NbhR n σ s.nbh s'.nbh
  solution : SolR n σ s.solution s'.solution
  value : s'.value = s.value
  beta : s'.beta = s.beta
  transitions : s'.transitions = s.transitions

theorem saIterate_paired {f g : Fn ℝ} {val val' : BV → ℝ} (h : Relabeled σ f g val val') {p : SaParams} (hd : Fair p.sampleBits n) {s s' : SaState}
    (hs : SaR n σ s s') : Paired (SaR n σ) (saIterate p f s) (saIterate p g s') := by
  unfold saIterate
  refine (propose_paired hd hs.nbh).bind (fun t t' ht => ?_)
  rw [h.left.eval _ ht.size, ht.candidate', h.right.eval _ (σ.act_length _), h.same _ ht.size]
  simp only [Dist.lift_ok, Dist.pure_bind']
  refine Paired.bind (R := SaR n σ) ?_ (fun s s' hs => Paired.pure ?_)
  · unfold saAccept
    refine Paired.ite (by simp [hs.value]) (fun _ => ?_) (fun _ => ?_)
    · refine (keep_paired ht).bind (fun u u' hu => Paired.pure ⟨hu.1, ?_, rfl, hs.beta, hs.transitions⟩)
      obtain ⟨h1, h2⟩ := hs.solution
      simp only
      rw [h2]
      simp only
      split
      · exact ⟨hu.1.length, by rw [hu.1.origin]⟩
      · exact ⟨h1, rfl⟩
    · simp only [hs.value, hs.beta]
      refine Paired.bind (R := fun a b => a = b) (Paired.same (fun _ _ => rfl)) (fun b b' hb => ?_)
      subst hb
      refine Paired.ite Iff.rfl (fun _ => ?_) (fun _ => ?_)
      · exact (keep_paired ht).bind (fun u u' hu => Paired.pure ⟨hu.1, hs.solution, rfl, rfl, by simp [hs.transitions]⟩)
      · exact (forget_paired ht).bind (fun u u' hu => Paired.pure ⟨hu.1, hs.solution, rfl, rfl, hs.transitions⟩)
  · unfold saCool
    rw [hs.transitions]
    split
    · exact ⟨hs.nbh, hs.solution, hs.value, by simp [hs.beta], rfl⟩
    · exact hs

/-- C120: simulated annealing treats all positions, zeros and ones alike, from any state between two iterations. -/
theorem annealing_unbiased {f g : Fn ℝ} {val val' : BV → ℝ} (h : Relabeled σ f g val val') {p : SaParams} (hd : Fair p.sampleBits n) {s s' : SaState}
    (hs : Annealing n val s) (hs' : Annealing n val' s') (ho : s'.nbh.origin = σ.act s.nbh.origin) (hl : s.solution.1.length = n)
    (h1 : s'.solution = (σ.act s.solution.1, s.solution.2)) (h2 : s'.beta = s.beta) (h3 : s'.transitions = s.transitions) (t : ℕ) :
    saResult (annealing p g t s') =
      (saResult (annealing p f t s) >>= fun r => pure (σ.act r.1, (σ.act r.2.1.1, r.2.1.2), r.2.2)) := by
  apply Paired.eq_image
  have hR : SaR n σ s s' := ⟨⟨hs.length, ho, hs.candidate, hs'.candidate⟩, ⟨hl, h1⟩, by rw [hs'.value, hs.value, ho, h.same _ hs.length], h2, h3⟩
  refine (Paired.boundedLoop (fun _ _ _ => rfl) (fun s s' hs _ => saIterate_paired h hd hs) t s s' hR).bind (fun s s' hs => Paired.pure ?_)
  rw [hs.nbh.origin, hs.solution.2, hs.beta, hs.transitions]

/-! ## Examples -/

/-- Three bits are rotated, and then zeros and ones are exchanged in the first one. -/
def rotation : Symmetry 3 where
  source i := (i + 1) % 3
  dest j := (j + 2) % 3
  exchange i := i == 0
  source_lt i _ := by omega
  dest_lt j _ := by omega
  source_dest j _ := by omega
  dest_source i _ := by omega

example : rotation.act [true, false, false] = [true, false, true] := rfl

/-- A function given by its values. -/
def valuesFn (n : ℕ) (val : BV → K) : Fn K := ⟨n, false, ub, fun x => ok (val x), false, fun _ v _ => ok v⟩

theorem valuesFn_evaluates (n : ℕ) (val : BV → K) : Evaluates (valuesFn n val) n val := ⟨rfl, fun _ _ => rfl, fun h => by cases h⟩

/-- Every function can be relabelled. -/
theorem relabeled_exists (hf : Evaluates f n val) : Relabeled σ f (valuesFn n (fun y => val (σ.unact y))) val (fun y => val (σ.unact y)) :=
  ⟨hf, valuesFn_evaluates n _, fun x hx => by rw [σ.unact_act hx]⟩

/-- The number of ones, and the number of bits equal to those of the vector 100. -/
theorem rotation_oneMax : Relabeled rotation (oneMax 3) (valuesFn 3 (fun y => (ones (rotation.unact y) : ℤ))) (fun x => (ones x : ℤ))
    (fun y => (ones (rotation.unact y) : ℤ)) := relabeled_exists (oneMax_evaluates 3)

example : (ones (rotation.unact [false, true, true]) : ℤ) = 3 := rfl

example : randomSearch (valuesFn 3 (fun y => (ones (rotation.unact y) : ℤ))) 3 20 = relabeled rotation (randomSearch (oneMax 3) 3 20) :=
  randomSearch_unbiased rotation_oneMax 20

example {p : RlsParams ℤ} (h1 : p.startingPoint = [true, false, false]) (h2 : p.sampleBits = singleBitFlip 3) (num : ℤ) :
    randomLocalSearch (p.moved rotation) (valuesFn 3 (fun y => (ones (rotation.unact y) : ℤ))) 3 num =
      relabeled rotation (randomLocalSearch p (oneMax 3) 3 num) :=
  randomLocalSearch_unbiased rotation_oneMax (fun _ => by rw [h1]; rfl) (by rw [h2]; exact singleBitFlip_fair (by decide)) num

example {q : EaParams} (hq : q.mutationRate = 3⁻¹) :
    onePlusOneEa q (valuesFn 3 (fun y => (ones (rotation.unact y) : ℤ))) 3 = relabeled rotation (onePlusOneEa q (oneMax 3) 3) :=
  onePlusOneEa_unbiased rotation_oneMax (by decide) (by rw [hq]; exact ENNReal.inv_le_one.mpr (by norm_num))

example : walkResult (randomWalk (StartParams.moved ⟨false, [true, false, false]⟩ rotation) (hammingBall 3 2)
      (valuesFn 3 (fun y => (ones (rotation.unact y) : ℤ))) 3 7) =
    (walkResult (randomWalk ⟨false, [true, false, false]⟩ (hammingBall 3 2) (oneMax 3) 3 7) >>=
      fun r => pure (rotation.act r.1, (rotation.act r.2.1, r.2.2))) :=
  randomWalk_unbiased rotation_oneMax (fun _ => rfl) (hammingBall_fair (by decide) (by decide)) 7

example (x : BV) (hx : x.length = 3) (t : ℕ) :
    saResult (annealing exampleParams (valuesFn 3 (fun y => (ones (rotation.unact y) : ℝ))) t ⟨⟨rotation.act x, rotation.act x, []⟩, (rotation.act x, ones x), ones x, 2, 0⟩) =
      (saResult (annealing exampleParams (realOnes 3) t (exampleAnnealing x)) >>=
        fun r => pure (rotation.act r.1, (rotation.act r.2.1.1, r.2.1.2), r.2.2)) := by
  have h : Annealing 3 (fun y => (ones (rotation.unact y) : ℝ)) ⟨⟨rotation.act x, rotation.act x, []⟩, (rotation.act x, ones x), ones x, 2, 0⟩ :=
    ⟨rfl, rotation.act_length x, by
      change (ones x : ℝ) = (ones (rotation.unact (rotation.act x)) : ℝ)
      exact congrArg (fun y => (ones y : ℝ)) (rotation.unact_act hx).symm⟩
  have h' : Annealing 3 (fun x => (ones x : ℝ)) (exampleAnnealing x) := ⟨rfl, hx, rfl⟩
  have hd : Fair exampleParams.sampleBits 3 :=
    standardBitMutation_fair (n := 3) (m := ⟨4⁻¹, true, true⟩) (by decide) (ENNReal.inv_le_one.mpr (by norm_num))
  exact annealing_unbiased (relabeled_exists (realOnes_evaluates 3)) hd h' h rfl hx rfl rfl rfl t

end Hnco.Prob
