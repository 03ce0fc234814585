import Verif.Prob.RefineEvolution
import Verif.Prob.SearchLemmas
import Verif.Prob.TimeProps

/-! # What happens with positive probability can happen: random search, random local search and the (1+1) EA -/

namespace Hnco.Prob

open Outcome
open scoped ENNReal

variable {K σ : Type} {f : Fn K} {n : ℕ} {r : BV × K}

/-! ## Random search -/

/-- C115: random search. -/
theorem randomSearch_possible [LinearOrder K] {T : ℤ} (h : randomSearch f n T r ≠ 0) :
    CanReturn (fun env => randomSearchMaximize env T) f n (List.replicate n false) r := by
  refine canReturn_of (fun v last => run_reaches (S := SearchState K) (solution := SearchState.solution)
    (R := fun s t => t.lastIteration = false ∧ t.solution = s.solution ∧ t.data = s.candidate)
    (fun _ _ h => h.1) (fun _ _ h => h.2.1) (fun s hs => ?_) (fun s t s' hR hs => ?_) h)
  · unfold searchInit at hs
    obtain ⟨x, hx, hs⟩ := bind_support hs
    rw [pure_support hs]
    exact ⟨_, randomSolution_reaches hx (by simp), rfl, rfl, rfl⟩
  · obtain ⟨hl, h1, h2⟩ := hR
    unfold searchIterate at hs
    obtain ⟨x, hx, hs⟩ := bind_support hs
    obtain ⟨w, hw, hs⟩ := bind_support hs
    rw [pure_support hs]
    have hx := randomBits_given _ _ hx
    rw [← h2] at hx
    rw [← h1]
    exact ⟨_, Alg.Reaches.get_bind (Alg.Reaches.sim_bind hx (Alg.Reaches.modify_bind (evaluate_bind_reaches (lift_support hw)
      (updateSolution_reaches x w _)))), hl, rfl, rfl⟩

/-! ## Neighbourhoods -/

theorem coin_ratio {k n : ℕ} (hn : 0 < n) : ENNReal.ofReal (((k : ℚ) / (n : ℚ) : ℚ) : ℝ) = (k : ℝ≥0∞) / (n : ℝ≥0∞) := by
  have : (0 : ℝ) < n := by exact_mod_cast hn
  push_cast
  rw [ENNReal.ofReal_div_of_pos this, ENNReal.ofReal_natCast, ENNReal.ofReal_natCast]

theorem trialsLoop_given : ∀ (k i : ℕ) (s : List ℕ × ℕ × ℕ), s.2.2 = k →
    Given (Dist.forLoop k i (fun i (s : List ℕ × ℕ × ℕ) => do
      let b ← Dist.coin ((s.2.1 : ℝ≥0∞) / (s.2.2 : ℝ≥0∞))
      if b then pure (s.1 ++ [i], s.2.1 - 1, s.2.2 - 1) else pure (s.1, s.2.1, s.2.2 - 1)) s)
    (Sim.forLoop k i (fun i (st : List Nat × Nat × Nat) => do
      let p : Rat := (st.2.1 : Rat) / (st.2.2 : Rat)
      let u ← Sim.uniform
      if u < p then pure (st.1 ++ [i], st.2.1 - 1, st.2.2 - 1) else pure (st.1, st.2.1, st.2.2 - 1)) s)
  | 0, _, s, _ => Given.pure s
  | k + 1, i, s, hs => by
    intro t ht
    obtain ⟨u, hu, ht⟩ := bind_support ht
    obtain ⟨b, hb, hu⟩ := bind_support hu
    rw [← coin_ratio (by omega)] at hb
    obtain ⟨w, hw, e⟩ := coin_given hb
    refine Sim.Reaches.bind (a := u) ?_ ?_
    · refine Sim.Reaches.bind hw ?_
      cases b with
      | true =>
        rw [if_pos (of_decide_eq_true e)]
        rw [if_pos rfl] at hu
        rw [pure_support hu]
        exact Sim.Reaches.pure _
      | false =>
        rw [if_neg (of_decide_eq_false e)]
        rw [if_neg (by decide)] at hu
        rw [pure_support hu]
        exact Sim.Reaches.pure _
    · refine trialsLoop_given k (i + 1) u ?_ t ht
      cases b with
      | true => rw [if_pos rfl] at hu; rw [pure_support hu]; dsimp only; omega
      | false => rw [if_neg (by decide)] at hu; rw [pure_support hu]; dsimp only; omega

theorem bernoulliTrials_given {s : Nbh} (h : s.candidate.length = n) (k : ℕ) : Given (bernoulliTrials n k) (Hnco.bernoulliTrials k s) := by
  unfold bernoulliTrials Hnco.bernoulliTrials
  rw [h]
  exact (trialsLoop_given (n - 0) 0 _ rfl).bind (fun _ _ => (Given.lift _).bind (fun _ _ => Given.pure _))

/-- The flipped bits which are sampled with positive probability can be sampled. -/
theorem sampledBy_given {k : Sampler} {d : Dist (List ℕ)} (h : SampledBy n k d) {s : Nbh} (hs : Nbh.Sized n s)
    (h1 : k = .singleBitFlip → s.flipped.length = 1) :
    Given d (k.sampleBits s) ∧ ∀ l, d l ≠ 0 → k = .singleBitFlip → l.length = 1 := by
  cases h with
  | singleBitFlip =>
    have h1 := h1 rfl
    have hl : ∀ l, singleBitFlip n l ≠ 0 → l.length = 1 ∧ Sim.Reaches (Sampler.sampleBits .singleBitFlip s) l := by
      intro l hl
      obtain ⟨i, hi, hl⟩ := bind_support hl
      rw [pure_support hl]
      refine ⟨rfl, ?_⟩
      unfold Sampler.sampleBits
      refine Sim.Reaches.bind (a := ()) (Sim.Reaches.lift (assert_pos (by rw [h1]; rfl))) ?_
      rw [hs.range]
      refine Sim.Reaches.bind (Given.uniformInt _ _ i hi) (Sim.Reaches.lift ?_)
      obtain ⟨a, ha⟩ := List.length_eq_one_iff.mp h1
      rw [ha]
      rfl
    exact ⟨fun l h => (hl l h).2, fun l h _ => (hl l h).1⟩
  | standardBitMutation m => exact ⟨sampleBits_given hs.range hs.candidate m, fun _ _ e => by cases e⟩
  | hammingBall radius =>
    refine ⟨?_, fun _ _ e => by cases e⟩
    unfold hammingBall Sampler.sampleBits
    dsimp only
    rw [hs.candidate]
    refine (Given.uniformInt _ _).bind (fun k _ => (Given.lift _).bind (fun _ _ => (Given.lift _).bind (fun _ _ => ?_)))
    split
    · exact rejectionSampling_given hs.range k
    · exact bernoulliTrials_given hs.candidate k
  | hammingSphere radius =>
    refine ⟨?_, fun _ _ e => by cases e⟩
    unfold hammingSphere Sampler.sampleBits
    dsimp only
    rw [hs.candidate]
    split
    · exact rejectionSampling_given hs.range radius
    · exact bernoulliTrials_given hs.candidate radius

/-! ## Random local search -/

/-- The states of both models have the same solution, the same neighbourhood and the same number of failures. -/
structure SameRls (n : ℕ) (k : Sampler) (s : RlsState K) (t : AlgState K RlsData) : Prop where
  last : t.lastIteration = s.last
  solution : t.solution = s.solution
  origin : t.data.nbh.origin = s.origin
  candidate : t.data.nbh.candidate = s.candidate
  failures : t.data.numFailures = s.numFailures
  sized : Nbh.Sized n t.data.nbh
  single : k = .singleBitFlip → t.data.nbh.flipped.length = 1

theorem rlsInit_lands {p : RlsParams K} (hp : p.randomInitialization = false → p.startingPoint.length = n) {k : Sampler} {s : RlsState K}
    (h : rlsInit p f n s ≠ 0) {t : AlgState K RlsData} (ht : t.solution.1.length = n) (hn : t.data.nbh.n = n)
    (h1 : k = .singleBitFlip → t.data.nbh.flipped.length = 1) :
    ∃ u, Alg.Reaches (Hnco.rlsInit (freely f) (p.withSampler k)) t () u ∧ SameRls n k s { u with lastIteration := false } := by
  unfold rlsInit at h
  obtain ⟨x, hx, h⟩ := bind_support h
  rw [pure_support h]
  have hstart : ∃ calls, Alg.Reaches (initSolution (freely f) p.toStartParams) t () { t with solution := x, calls := calls } ∧ x.1.length = n := by
    unfold initSolution
    split at hx
    · next e =>
      rw [if_pos e]
      refine ⟨_, randomSolution_reaches hx ht, ?_⟩
      unfold randomSolution at hx
      obtain ⟨y, hy, hx⟩ := bind_support hx
      obtain ⟨v, _, hx⟩ := bind_support hx
      rw [pure_support hx]
      exact (randomBits_sure n _ (by simp)).holds y hy
    · next e =>
      rw [if_neg e]
      obtain ⟨v, hv, hx⟩ := bind_support hx
      rw [pure_support hx]
      exact ⟨_, evaluate_bind_reaches (lift_support hv) (Alg.Reaches.modify _ _), hp (by simpa using e)⟩
  obtain ⟨calls, h2, h3⟩ := hstart
  exact ⟨_, h2.bind (Alg.Reaches.modify _ _), rfl, rfl, rfl, rfl, rfl, ⟨hn, h3, h3⟩, h1⟩

theorem propose_lands {p : RlsParams K} {k : Sampler} (hk : SampledBy n k p.sampleBits) {s u : RlsState K} {t : AlgState K RlsData}
    (hR : SameRls n k s t) (h : propose p s u ≠ 0) :
    ∃ b, Sim.Reaches (t.data.nbh.propose k) b ∧ b.origin = u.origin ∧ b.candidate = u.candidate ∧ b.flipped = u.flipped ∧ Nbh.Sized n b ∧
      (k = .singleBitFlip → b.flipped.length = 1) ∧ u.solution = s.solution ∧ u.numFailures = s.numFailures ∧ u.last = s.last ∧
      bvFlipSparse u.origin u.flipped = ok u.candidate := by
  unfold propose at h
  obtain ⟨_, ha, h⟩ := bind_support h
  obtain ⟨l, hl, h⟩ := bind_support h
  obtain ⟨y, hy, h⟩ := bind_support h
  rw [pure_support h]
  have ha := lift_support ha
  have hy := lift_support hy
  obtain ⟨g1, g2⟩ := sampledBy_given hk hR.sized hR.single
  have hco : s.candidate = s.origin := by
    by_contra hne
    rw [show (s.candidate == s.origin) = false by simpa using hne] at ha
    cases ha
  rw [← hR.origin, ← hR.candidate] at ha hco
  refine ⟨{ t.data.nbh with candidate := y, flipped := l }, ?_, hR.origin, rfl, rfl, ⟨hR.sized.range, hR.sized.origin, ?_⟩, g2 l hl, rfl, rfl, rfl, ?_⟩
  · unfold Nbh.propose
    exact Sim.Reaches.bind (Sim.Reaches.lift ha) (Sim.Reaches.bind (g1 l hl) (Sim.Reaches.bind (Sim.Reaches.lift (by rw [hR.candidate]; exact hy))
      (Sim.Reaches.pure _)))
  · dsimp only
    rw [flipSparse_length hy, ← hR.candidate, hR.sized.candidate]
  · dsimp only
    rw [← hR.origin, ← hco, hR.candidate]
    exact hy

theorem decideMove_lands {p : RlsParams K} {k : Sampler} {v : K} {s s' : RlsState K} {t : AlgState K RlsData} (hR : SameRls n k s t)
    (hf : t.data.nbh.flipped = s.flipped) (h : decideMove p v s s' ≠ 0) :
    ∃ t', Alg.Reaches (rlsDecide (p.withSampler k) v) t () t' ∧ SameRls n k s' t' := by
  unfold decideMove at h
  obtain ⟨u, hu, h⟩ := bind_support h
  have hacc : ∃ t', Alg.Reaches (rlsAccept (p.withSampler k) v) t () t' ∧ SameRls n k u t' := by
    unfold rlsAccept
    rw [← hR.solution] at hu
    split at hu
    · next e =>
      obtain ⟨w, hw, hu⟩ := bind_support hu
      unfold keep at hw
      obtain ⟨o, ho, hw⟩ := bind_support hw
      obtain ⟨_, ha, hw⟩ := bind_support hw
      rw [pure_support hu, pure_support hw]
      have ho := lift_support ho
      have ha := lift_support ha
      have hkeep : t.data.nbh.keep = ok { t.data.nbh with origin := o } := by
        unfold Nbh.keep
        rw [show bvFlipSparse t.data.nbh.origin t.data.nbh.flipped = ok o by rw [hf, hR.origin]; exact ho, ok_bind,
          show assert (t.data.nbh.candidate == o) = ok () by rw [hR.candidate]; exact ha, ok_bind]
      refine ⟨{ t with solution := (t.solution.1, v), data := ⟨{ t.data.nbh with origin := o }, 0⟩ }, Alg.Reaches.get_bind ?_, hR.last, ?_, rfl, hR.candidate, rfl,
        ⟨hR.sized.range, ?_, hR.sized.candidate⟩, hR.single⟩
      · rw [if_pos (show (p.withSampler k).compare v t.solution.2 = true from e)]
        exact Alg.Reaches.lift_bind hkeep (Alg.Reaches.modify _ _)
      · rw [hR.solution]
      · dsimp only
        rw [flipSparse_length ho, ← hR.origin, hR.sized.origin]
    · next e =>
      obtain ⟨w, hw, hu⟩ := bind_support hu
      unfold forget at hw
      obtain ⟨o, ho, hw⟩ := bind_support hw
      obtain ⟨_, ha, hw⟩ := bind_support hw
      rw [pure_support hu, pure_support hw]
      have ho := lift_support ho
      have ha := lift_support ha
      have hforget : t.data.nbh.forget = ok { t.data.nbh with candidate := o } := by
        unfold Nbh.forget
        rw [show bvFlipSparse t.data.nbh.candidate t.data.nbh.flipped = ok o by rw [hf, hR.candidate]; exact ho, ok_bind,
          show assert (o == t.data.nbh.origin) = ok () by rw [hR.origin]; exact ha, ok_bind]
      refine ⟨{ t with data := ⟨{ t.data.nbh with candidate := o }, t.data.numFailures + 1⟩ }, Alg.Reaches.get_bind ?_, hR.last, hR.solution, hR.origin, rfl, ?_,
        ⟨hR.sized.range, hR.sized.origin, ?_⟩, hR.single⟩
      · rw [if_neg (show ¬ (p.withSampler k).compare v t.solution.2 = true from e)]
        exact Alg.Reaches.lift_bind hforget (Alg.Reaches.modify _ _)
      · dsimp only
        rw [hR.failures]
      · dsimp only
        rw [flipSparse_length ho, ← hR.candidate, hR.sized.candidate]
  obtain ⟨t', e1, hR'⟩ := hacc
  unfold rlsDecide
  have hm := Alg.Reaches.modify (fun s : AlgState K RlsData =>
    if 0 < (p.withSampler k).patience ∧ (s.data.numFailures : Int) = (p.withSampler k).patience then
      { s with solution := (s.data.nbh.origin, s.solution.2), lastIteration := true }
    else s) t'
  split at h
  · next e =>
    rw [pure_support h]
    refine ⟨_, e1.bind hm, ?_⟩
    rw [if_pos (show 0 < (p.withSampler k).patience ∧ (t'.data.numFailures : Int) = (p.withSampler k).patience from
      ⟨e.1, by rw [hR'.failures]; exact e.2⟩)]
    exact ⟨rfl, by dsimp only; rw [hR'.origin, hR'.solution], hR'.origin, hR'.candidate, hR'.failures, hR'.sized, hR'.single⟩
  · next e =>
    rw [pure_support h]
    refine ⟨_, e1.bind hm, ?_⟩
    rw [if_neg (show ¬ (0 < (p.withSampler k).patience ∧ (t'.data.numFailures : Int) = (p.withSampler k).patience) from
      fun h => e ⟨h.1, by rw [← hR'.failures]; exact h.2⟩)]
    exact hR'

theorem evaluateIncrementally_reaches {x y : BV} {v w : K} {l : List ℕ} (hy : bvFlipSparse x l = ok y) (h : f.evalInc x v l = ok w)
    (t : AlgState K σ) : Alg.Reaches (evaluateIncrementally (freely f) x v l) t w { t with calls := t.calls ++ [(y, w)] } := by
  unfold evaluateIncrementally
  refine Alg.Reaches.lift_bind hy (Alg.Reaches.get_bind ?_)
  exact Alg.Reaches.lift_bind h (Alg.Reaches.modify_bind (Alg.Reaches.pure _ _))

theorem rlsIterate_lands {p : RlsParams K} {k : Sampler} (hk : SampledBy n k p.sampleBits) (s : RlsState K) (t : AlgState K RlsData)
    (s' : RlsState K) (hR : SameRls n k s t) (h : rlsIterate p f s s' ≠ 0) :
    ∃ t', Alg.Reaches (Hnco.rlsIterate (freely f) (p.withSampler k)) t () t' ∧ SameRls n k s' t' := by
  unfold rlsIterate at h
  obtain ⟨u, hu, h⟩ := bind_support h
  obtain ⟨v, hv, h⟩ := bind_support h
  obtain ⟨b, e1, b1, b2, b3, b4, b5, b6, b7, b8, b9⟩ := propose_lands hk hR hu
  have hR' : ∀ calls, SameRls n k u { t with calls := calls, data := ⟨b, t.data.numFailures⟩ } := fun calls =>
    ⟨hR.last.trans b8.symm, hR.solution.trans b6.symm, b1, b2, hR.failures.trans b7.symm, b4, b5⟩
  unfold Hnco.rlsIterate
  split at hv
  · next e =>
    rw [if_pos (show ((p.withSampler k).incremental && (freely f).fn.hasInc) = true from e)]
    have hv := lift_support hv
    rw [← b1, ← b3, b6, ← hR.solution] at hv
    rw [← b1, ← b3] at b9
    have e2 := evaluateIncrementally_reaches b9 hv (⟨t.solution, t.lastIteration, t.calls, ⟨b, t.data.numFailures⟩⟩ : AlgState K RlsData)
    obtain ⟨t', e3, hR''⟩ := decideMove_lands (hR' (t.calls ++ [(u.candidate, v)])) b3 h
    exact ⟨t', Alg.Reaches.get_bind (Alg.Reaches.sim_bind e1 (Alg.Reaches.modify_bind (e2.bind e3))), hR''⟩
  · next e =>
    rw [if_neg (show ¬ ((p.withSampler k).incremental && (freely f).fn.hasInc) = true from e)]
    have hv := lift_support hv
    rw [← b2] at hv
    obtain ⟨t', e3, hR''⟩ := decideMove_lands (hR' (t.calls ++ [(b.candidate, v)])) b3 h
    exact ⟨t', Alg.Reaches.get_bind (Alg.Reaches.sim_bind e1 (Alg.Reaches.modify_bind (evaluate_bind_reaches hv e3))), hR''⟩

theorem construct_sized {k : Sampler} {b : Nbh} (h : k.construct n = ok b) : b.n = n ∧ (k = .singleBitFlip → b.flipped.length = 1) := by
  unfold Sampler.construct Nbh.new at h
  obtain ⟨s, hs, h⟩ := bind_eq_ok.mp h
  obtain ⟨_, _, hs⟩ := bind_eq_ok.mp hs
  cases hs
  cases k with
  | singleBitFlip => cases h; exact ⟨rfl, fun _ => rfl⟩
  | standardBitMutation p => cases h; exact ⟨rfl, fun e => by cases e⟩
  | hammingBall r =>
    obtain ⟨_, _, h⟩ := bind_eq_ok.mp h
    obtain ⟨_, _, h⟩ := bind_eq_ok.mp h
    cases h
    exact ⟨rfl, fun e => by cases e⟩
  | hammingSphere r =>
    obtain ⟨_, _, h⟩ := bind_eq_ok.mp h
    obtain ⟨_, _, h⟩ := bind_eq_ok.mp h
    cases h
    exact ⟨rfl, fun e => by cases e⟩

/-- C115: random local search and `finalize`, with any neighbourhood, comparison and patience, from a starting point of the right size
or a random one, with full or incremental evaluation. -/
theorem randomLocalSearch_possible {p : RlsParams K} (hp : p.randomInitialization = false → p.startingPoint.length = n) {k : Sampler}
    (hk : SampledBy n k p.sampleBits) {b : Nbh} (hb : k.construct n = ok b) {T : ℤ} (h : randomLocalSearch p f n T r ≠ 0) :
    CanReturn (fun env fuel => do
      rlsMaximize env (p.withSampler k) T fuel
      rlsFinalize) f n ⟨b, 0⟩ r := by
  unfold randomLocalSearch at h
  obtain ⟨s, hs, h⟩ := bind_support h
  obtain ⟨hb1, hb2⟩ := construct_sized hb
  refine canReturn_of (fun v last => ?_)
  obtain ⟨fuel, t, e, hR⟩ := loop_reaches (R := SameRls n k) (fun _ _ h => h.last)
    (fun _ hs => rlsInit_lands hp hs (t := ⟨(List.replicate n false, v), last, [], ⟨b, 0⟩⟩) (by simp) hb1 hb2) (rlsIterate_lands hk) hs
  refine ⟨fuel, _, e.bind (Alg.Reaches.modify _ _), ?_⟩
  rw [pure_support h]
  dsimp only
  rw [hR.origin, hR.solution]

/-- C115: the (1+1) evolutionary algorithm. -/
theorem onePlusOneEa_possible [LinearOrder K] {q : EaParams} (hn : 0 < n) (h : onePlusOneEa q f n r ≠ 0) :
    ∃ b, Sampler.construct (.standardBitMutation ⟨false, false⟩) n = ok b ∧ CanReturn (fun env fuel => do
      onePlusOneMaximize env (q.first n) ⟨false, false⟩ ⟨true, List.replicate n false⟩ fuel
      rlsFinalize) f n ⟨b, 0⟩ r := by
  have hb : ∀ p, Sampler.construct (.standardBitMutation p) n = ok ⟨n, List.replicate n false, List.replicate n false, []⟩ := by
    intro p
    unfold Sampler.construct Nbh.new
    rw [assert_pos (by simpa using hn), ok_bind, ok_bind]
  refine ⟨_, hb _, ?_⟩
  have e := operator_params ⟨q.mutationRate, q.allowNoMutation⟩ n
  have := randomLocalSearch_possible (p := eaSearch q n) (fun h => by cases h) (SampledBy.standardBitMutation (eaNeighborhood q n)) (hb _) h
  have e' : (eaSearch (K := K) q n).withSampler (.standardBitMutation ⟨(eaNeighborhood q n).rejectionSampling, (eaNeighborhood q n).allowNoMutation⟩)
      = onePlusOneParams (q.first n) ⟨false, false⟩ ⟨true, List.replicate n false⟩ := by
    unfold RlsParams.withSampler onePlusOneParams
    rw [show (⟨(eaNeighborhood q n).rejectionSampling, (eaNeighborhood q n).allowNoMutation⟩ : StandardParams)
      = ((⟨false, false⟩ : StandardParams).setMutationRate (q.first n).lowRate).setAllowNoMutation (q.first n).allowNoMutation from e]
    rfl
  rw [e'] at this
  exact this

/-! ## Examples -/

/-- Random search can find the maximum of one max on five bits. -/
example : ∃ r : BV × ℤ, IsMax 5 (fun x => (ones x : ℤ)) r.1 ∧
    CanReturn (fun env => randomSearchMaximize env 3) (oneMax 5) 5 (List.replicate 5 false) r := by
  have h := randomSearch_law (oneMax_evaluates 5) (t := 3) (by decide)
  have hne : {x : BV | IsMax 5 (fun x => (ones x : ℤ)) x} = {List.replicate 5 true} := by
    ext x
    exact oneMax_found 5 x
  rw [hne, Set.ncard_singleton, Nat.cast_one] at h
  obtain ⟨r, h1, h2⟩ := found_positive (lt_of_eq_of_lt h (pow_lt_one' (one_sub_lt (by simp)) (by norm_num)))
  exact ⟨r, h1, randomSearch_possible h2⟩

/-- The (1+1) evolutionary algorithm can find the maximum of a trap on three bits. -/
example : ∃ r : BV × ℤ, IsMax 3 (fun x => trapBlock 3 ((x.take 3).count true)) r.1 ∧
    ∃ b, Sampler.construct (.standardBitMutation ⟨false, false⟩) 3 = ok b ∧ CanReturn (fun env fuel => do
      onePlusOneMaximize env (EaParams.first ⟨20, 2⁻¹, true, false⟩ 3) ⟨false, false⟩ ⟨true, List.replicate 3 false⟩ fuel
      rlsFinalize) (trap 3 1 3) 3 ⟨b, 0⟩ r := by
  have h := ea_converges (n := 3) (q := ⟨20, 2⁻¹, true, false⟩) (t := 20) ⟨rfl, fun x hx => by simpa using trap_value 1 3 x (by simpa using hx), fun h => by cases h⟩
    (by decide) (by simp) (by simp) (by decide)
  obtain ⟨r, h1, h2⟩ := found_positive (lt_of_le_of_lt h (pow_lt_one' (one_sub_lt (pos_iff_ne_zero.mpr (pow_ne_zero _ (by simp)))) (by norm_num)))
  exact ⟨r, h1, onePlusOneEa_possible (by decide) h2⟩

/-- Random local search with single bit flips can return the maximum of one max from which it starts. -/
example : CanReturn (fun env fuel => do
    rlsMaximize env ((exampleSearch [true, true]).withSampler .singleBitFlip) 7 fuel
    rlsFinalize) (oneMax 2) 2 ⟨⟨2, [false, false], [false, false], [0]⟩, 0⟩ ([true, true], 2) := by
  have hb : Sampler.construct .singleBitFlip 2 = ok ⟨2, [false, false], [false, false], [0]⟩ := by
    unfold Sampler.construct Nbh.new
    rw [assert_pos (by decide), ok_bind]
    rfl
  refine randomLocalSearch_possible (n := 2) (fun _ => rfl) SampledBy.singleBitFlip hb ?_
  have h1 := rls_after (p := exampleSearch [true, true]) (f := oneMax 2) (n := 2) (t := 7) (by decide)
  have h2 := rls_trapped (oneMax_evaluates 2) (by decide) (exampleSearch_elitist [true, true]) rfl rfl rfl (by decide) 7
  rw [show ((7 : ℤ)) = ((7 : ℕ) : ℤ) from rfl, h1, h2]
  simp [exampleSearch, ones, Pure.pure, Dist.pure]

end Hnco.Prob
