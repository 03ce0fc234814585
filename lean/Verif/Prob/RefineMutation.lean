import Verif.Prob.RefineLemmas
import Verif.Algorithm.HillClimbingProps

/-! # Lemmas which compare mutation and crossover in the two models -/

namespace Hnco.Prob

open Outcome
open scoped ENNReal

variable {K σ τ α : Type}

/-! ## Loops -/

theorem forLoop_rel {R : σ → τ → Prop} {body : ℕ → σ → Dist σ} {body' : ℕ → τ → Sim τ}
    (h : ∀ i s t s', R s t → body i s s' ≠ 0 → ∃ t', Sim.Reaches (body' i t) t' ∧ R s' t') :
    ∀ (k i : ℕ) (s : σ) (t : τ) (s' : σ), R s t → Dist.forLoop k i body s s' ≠ 0 →
      ∃ t', Sim.Reaches (Sim.forLoop k i body' t) t' ∧ R s' t'
  | 0, _, s, t, s', hR, hs => by
    rw [pure_support hs]
    exact ⟨t, Sim.Reaches.pure t, hR⟩
  | k + 1, i, s, t, s', hR, hs => by
    obtain ⟨u, hu, hs⟩ := bind_support hs
    obtain ⟨v, hv, hR⟩ := h i s t u hR hu
    obtain ⟨w, hw, hR⟩ := forLoop_rel h k (i + 1) u v s' hR hs
    exact ⟨w, Sim.Reaches.bind hv hw, hR⟩

theorem forRange_rel {R : σ → τ → Prop} {body : ℕ → σ → Dist σ} {body' : ℕ → τ → Sim τ}
    (h : ∀ i s t s', R s t → body i s s' ≠ 0 → ∃ t', Sim.Reaches (body' i t) t' ∧ R s' t') {a b : ℕ} {s : σ} {t : τ} {s' : σ}
    (hR : R s t) (hs : Dist.forRange a b body s s' ≠ 0) : ∃ t', Sim.Reaches (Sim.forRange a b body' t) t' ∧ R s' t' :=
  forLoop_rel h _ _ _ _ _ hR hs

theorem forLoop_support {I : σ → Prop} {body : ℕ → σ → Dist σ} (h : ∀ i s s', I s → body i s s' ≠ 0 → I s') :
    ∀ (k i : ℕ) (s s' : σ), I s → Dist.forLoop k i body s s' ≠ 0 → I s'
  | 0, _, s, s', hI, hs => by rw [pure_support hs]; exact hI
  | k + 1, i, s, s', hI, hs => by
    obtain ⟨u, hu, hs⟩ := bind_support hs
    exact forLoop_support h k (i + 1) u s' (h i s u hI hu) hs

theorem outcomeLoop_keeps {I : σ → Prop} {body : ℕ → σ → Outcome σ} (h : ∀ i s s', I s → body i s = ok s' → I s') :
    ∀ (k i : ℕ) (s s' : σ), I s → Hnco.forLoop k i body s = ok s' → I s'
  | 0, _, s, s', hI, hs => by cases hs; exact hI
  | k + 1, i, s, s', hI, hs => by
    obtain ⟨u, hu, hs⟩ := bind_eq_ok.mp hs
    exact outcomeLoop_keeps h k (i + 1) u s' (h i s u hI hu) hs

theorem repeatGo_support {body : Dist α} {stop : α → Bool} : ∀ (k : ℕ) (a : α), Dist.repeatGo body stop k a ≠ 0 → body a ≠ 0 ∧ stop a = true
  | 0, _, h => absurd rfl h
  | k + 1, a, h => by
    obtain ⟨b, hb, h⟩ := bind_support h
    split at h
    · next e => rw [pure_support h]; exact ⟨hb, e⟩
    · exact repeatGo_support k a h

theorem Given.repeatUntil {d : Dist α} {m : Sim α} (h : Given d m) (stop : α → Bool) :
    Given (Dist.repeatUntil d stop) (Sim.repeatUntil m stop) := by
  intro a ha
  have : ∃ k, Dist.repeatGo d stop k a ≠ 0 := by
    by_contra hno
    push Not at hno
    exact ha (by change (⨆ k, Dist.repeatGo d stop k a) = 0; simp [hno])
  obtain ⟨k, hk⟩ := this
  obtain ⟨h1, h2⟩ := repeatGo_support k a hk
  exact Sim.Reaches.repeatUntil (h a h1) h2

theorem doWhileGo_support {body : σ → Dist σ} {again : σ → Bool} {s : σ} (h : ∀ t, body s t ≠ 0 → again t = true → t = s) :
    ∀ (k : ℕ) (t : σ), Dist.doWhileGo body again k s t ≠ 0 → body s t ≠ 0 ∧ again t = false
  | 0, _, ht => absurd rfl ht
  | k + 1, t, ht => by
    obtain ⟨u, hu, ht⟩ := bind_support ht
    split at ht
    · next e =>
      rw [h u hu e] at ht
      exact doWhileGo_support h k t ht
    · next e =>
      rw [pure_support ht]
      exact ⟨hu, by simpa using e⟩

theorem doWhile_support {body : σ → Dist σ} {again : σ → Bool} {s t : σ} (h : ∀ t, body s t ≠ 0 → again t = true → t = s)
    (ht : Dist.doWhile body again s t ≠ 0) : body s t ≠ 0 ∧ again t = false := by
  have : ∃ k, Dist.doWhileGo body again k s t ≠ 0 := by
    by_contra hno
    push Not at hno
    exact ht (by change (⨆ k, Dist.doWhileGo body again k s t) = 0; simp [hno])
  obtain ⟨k, hk⟩ := this
  exact doWhileGo_support h k t hk

/-! ## Mutation -/

theorem rejectionSampling_given {n : ℕ} {s : Nbh} (hs : s.n = n) (k : ℕ) :
    Given (rejectionSampling n k) (Hnco.rejectionSampling k s) := by
  unfold rejectionSampling Hnco.rejectionSampling
  rw [hs]
  refine Given.bind (Given.forRange (fun i l => ?_) _ _ _) (fun l _ => ?_)
  · exact ((Given.uniformInt _ _).repeatUntil _).bind (fun _ _ => Given.pure _)
  · intro r hr
    rw [pure_support hr]
    refine Sim.Reaches.sort (List.perm_insertionSort _ _) ?_
    refine (List.pairwise_insertionSort (· ≤ ·) l).imp (fun h => ?_)
    exact decide_eq_false (not_lt.mpr h)

theorem bernoulliProcess_given {n : ℕ} {s : Nbh} (hs : s.candidate.length = n) (p : ℝ≥0∞) :
    Given (bernoulliProcess n p) (Hnco.bernoulliProcess s) := by
  unfold bernoulliProcess Hnco.bernoulliProcess
  rw [hs]
  refine Given.bind (fun t ht => ?_) (fun _ _ => Given.pure _)
  have hbody : ∀ u : List ℕ × Bool, Given (Dist.forRange 0 n (fun i (s : List ℕ × Bool) => do
        let b ← Dist.coin p
        if b then pure (s.1 ++ [i], false) else pure s) u) (Sim.forRange 0 n (fun i (st : List Nat × Bool) => do
        let b ← Sim.bernoulli
        if b then pure (st.1 ++ [i], false) else pure st) u) := by
    intro u
    refine Given.forRange (fun i s => (Given.coin p).bind (fun b _ => ?_)) _ _ _
    cases b
    · exact Given.pure _
    · exact Given.pure _
  have hstart : ∀ u : List ℕ × Bool, Dist.forRange 0 n (fun i (s : List ℕ × Bool) => do
        let b ← Dist.coin p
        if b then pure (s.1 ++ [i], false) else pure s) ([], true) u ≠ 0 → u.2 = true → u = ([], true) := by
    intro u hu
    refine forLoop_support (I := fun u : List ℕ × Bool => u.2 = true → u = ([], true)) (fun i s s' hI h e => ?_) _ _ _ _ (fun _ => rfl) hu
    obtain ⟨b, _, h⟩ := bind_support h
    cases b
    · have h := pure_support h
      rw [h] at e ⊢
      exact hI e
    · have h := pure_support h
      rw [h] at e
      cases e
  obtain ⟨h1, h2⟩ := doWhile_support hstart ht
  exact Sim.Reaches.doWhile (hbody _ t h1) h2

theorem binomial_given (n : ℕ) (p : ℝ≥0∞) : Given (Dist.binomial n p) (Sim.uniformInt 0 n) := by
  intro k hk
  refine Sim.Reaches.uniformInt (Nat.zero_le _) ?_
  by_contra h
  exact hk (if_neg h)

theorem sampleBits_given {n : ℕ} {s : Nbh} (h1 : s.n = n) (h2 : s.candidate.length = n) (m : StandardBitMutation) :
    Given (m.sampleBits n) (Sampler.sampleBits (.standardBitMutation ⟨m.rejectionSampling, m.allowNoMutation⟩) s) := by
  unfold StandardBitMutation.sampleBits Sampler.sampleBits
  dsimp only
  cases m.rejectionSampling with
  | false => exact bernoulliProcess_given h2 _
  | true =>
    simp only [if_true]
    rw [h1]
    cases m.allowNoMutation with
    | false => exact ((binomial_given n _).repeatUntil _).bind (fun k _ => rejectionSampling_given h1 k)
    | true => exact (binomial_given n _).bind (fun k _ => rejectionSampling_given h1 k)

/-- The mutation operator is one for vectors of size `n`. -/
structure Nbh.Sized (n : ℕ) (s : Nbh) : Prop where
  range : s.n = n
  origin : s.origin.length = n
  candidate : s.candidate.length = n

theorem mutate_lands {n : ℕ} {m : StandardBitMutation} {x y : BV} (h : mutate (m.sampleBits n) x y ≠ 0) (hx : x.length = n) {s : Nbh}
    (hs : Nbh.Sized n s) : ∃ t, Sim.Reaches (s.mutate (.standardBitMutation ⟨m.rejectionSampling, m.allowNoMutation⟩) x) (t, y) ∧
      Nbh.Sized n t ∧ y.length = n := by
  obtain ⟨l, hl, h⟩ := bind_support h
  have h := lift_support h
  refine ⟨{ s with flipped := l }, ?_, ⟨hs.range, hs.origin, hs.candidate⟩, by rw [flipSparse_length h, hx]⟩
  unfold Nbh.mutate
  refine Sim.Reaches.bind (a := ()) (Sim.Reaches.lift (by rw [hx, hs.origin]; exact assert_pos (by simp)))
    (Sim.Reaches.bind (sampleBits_given hs.range hs.candidate m l hl) (Sim.Reaches.bind (Sim.Reaches.lift h) (Sim.Reaches.pure _)))

theorem operator_params (m : MutationLaw) (n : ℕ) : (⟨(m.operator n).rejectionSampling, (m.operator n).allowNoMutation⟩ : StandardParams)
    = ((⟨false, false⟩ : StandardParams).setMutationRate (@decide (m.rate * m.rate * n < 1) (Classical.dec _))).setAllowNoMutation m.allowNoMutation := by
  unfold MutationLaw.operator StandardBitMutation.setAllowNoMutation StandardBitMutation.setMutationRate StandardBitMutation.new
    StandardParams.setMutationRate StandardParams.setAllowNoMutation
  by_cases h : m.rate * m.rate * n < 1
  · simp [h]
  · simp [h]

/-! ## Crossover -/

theorem uniformCrossover_given (a b x : BV) : Given (uniformCrossover a b x) (uniformRecombine a b x) := by
  unfold uniformCrossover uniformRecombine
  refine (Given.lift _).bind (fun _ _ => (Given.lift _).bind (fun _ _ => Given.forRange (fun i y => ?_) _ _ _))
  refine Given.bernoulli.bind (fun c _ => ?_)
  intro z hz
  refine Sim.Reaches.lift ?_
  unfold recombineBit
  cases c
  · obtain ⟨v, hv, hz⟩ := bind_support hz
    simp only [Bool.false_eq_true, if_false]
    rw [lift_support hv, ok_bind]
    exact lift_support hz
  · obtain ⟨v, hv, hz⟩ := bind_support hz
    simp only [if_true]
    rw [lift_support hv, ok_bind]
    exact lift_support hz

theorem vset_length {α : Type} {l r : List α} {i : ℕ} {a : α} (h : vset l i a = ok r) : i < l.length ∧ r = l.set i a := by
  unfold vset at h
  split at h
  · next e => cases h; exact ⟨e, rfl⟩
  · cases h

theorem uniformCrossover_length {a b x y : BV} (h : uniformCrossover a b x y ≠ 0) : y.length = x.length := by
  unfold uniformCrossover at h
  obtain ⟨_, _, h⟩ := bind_support h
  obtain ⟨_, _, h⟩ := bind_support h
  refine forLoop_support (I := fun z : BV => z.length = x.length) (fun i s s' hI h => ?_) _ _ _ _ rfl h
  obtain ⟨c, _, h⟩ := bind_support h
  cases c
  · obtain ⟨v, _, h⟩ := bind_support h
    rw [(vset_length (lift_support h)).2, List.length_set, hI]
  · obtain ⟨v, _, h⟩ := bind_support h
    rw [(vset_length (lift_support h)).2, List.length_set, hI]

/-! ## Populations -/

/-- One vector of a population is replaced. -/
theorem setBv_keeps {size n : ℕ} {p : Pop K} (hp : p.Valid size n) {i : ℕ} {y : BV} {bvs : List BV} (h : vset p.bvs i y = ok bvs)
    (hy : y.length = n) : Pop.Valid size n { p with bvs := bvs } := by
  obtain ⟨_, rfl⟩ := vset_length h
  refine ⟨by rw [List.length_set, hp.bvs], hp.values, hp.perm, fun x hx => ?_⟩
  rcases List.mem_or_eq_of_mem_set hx with h | h
  · exact hp.bits x h
  · rw [h, hy]

theorem popEvaluate_keeps {f : Fn K} {size n : ℕ} {p q : Pop K} (hp : p.Valid size n) (h : popEvaluate f p = ok q) : q.Valid size n := by
  unfold popEvaluate at h
  obtain ⟨_, _, h⟩ := bind_eq_ok.mp h
  refine outcomeLoop_keeps (I := Pop.Valid size n) (fun i s s' hI h => ?_) _ _ _ _ hp h
  obtain ⟨_, _, h⟩ := bind_eq_ok.mp h
  obtain ⟨_, _, h⟩ := bind_eq_ok.mp h
  obtain ⟨values, h1, h⟩ := bind_eq_ok.mp h
  cases h
  obtain ⟨_, rfl⟩ := vset_length h1
  exact ⟨hI.bvs, by rw [List.length_set, hI.values], hI.perm, hI.bits⟩

theorem popRandom_lands {L : PopLens σ K} {size n : ℕ} {p q : Pop K} (hp : p.Valid size n) (h : popRandom p q ≠ 0) {t : AlgState K σ}
    (ht : L.get t.data = p) : Alg.Reaches (Hnco.popRandom L) t () { t with data := L.put q t.data } ∧ q.Valid size n := by
  have hq : q.Valid size n ∧ q = { p with bvs := q.bvs } := by
    unfold popRandom at h
    refine forLoop_support (I := fun q : Pop K => q.Valid size n ∧ q = { p with bvs := q.bvs }) (fun i s s' hI h => ?_) _ _ _ _ ⟨hp, rfl⟩ h
    obtain ⟨x, hx, h⟩ := bind_support h
    obtain ⟨y, hy, h⟩ := bind_support h
    obtain ⟨bvs, h1, h⟩ := bind_support h
    rw [pure_support h]
    have hx := lift_support hx
    have hxn : x.length = n := by
      unfold vget at hx
      cases e : s.bvs[i]? with
      | none => rw [e] at hx; cases hx
      | some a =>
        rw [e] at hx
        cases hx
        exact hI.1.bits _ (List.mem_of_getElem? e)
    have hyn := (randomBits_sure n x hxn).holds y hy
    refine ⟨setBv_keeps hI.1 (lift_support h1) hyn, ?_⟩
    rw [hI.2]
  refine ⟨?_, hq.1⟩
  have := popRandom_reaches (L := L) ht hp hq.1.bvs hq.1.bits
  rwa [← hq.2] at this

theorem popSetSolution_lands {L : PopLens σ K} {p : Pop K} {s : BV × K} (h : popSetSolution p = ok s) {t : AlgState K σ} (ht : L.get t.data = p) :
    Alg.Reaches (Hnco.popSetSolution L) t () { t with solution := s } := by
  subst ht
  unfold popSetSolution at h
  unfold Hnco.popSetSolution
  obtain ⟨x, h1, h⟩ := bind_eq_ok.mp h
  obtain ⟨v, h2, h⟩ := bind_eq_ok.mp h
  cases h
  exact Alg.Reaches.get_bind (Alg.Reaches.lift_bind h1 (Alg.Reaches.lift_bind h2 (Alg.Reaches.modify _ _)))

end Hnco.Prob
