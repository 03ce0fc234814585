import Verif.Prob.VectorSymmetryLemmas

/-!
# Algorithms with a probability vector are invariant under the symmetries of the hypercube (C121)
-/

namespace Hnco.Prob

open Outcome
open scoped ENNReal

variable {K ρ : Type} [LinearOrder K] {n : ℕ} {σ : Symmetry n} {f g : Fn K} {val val' : BV → K}

/-- Related states: the solutions and the probability vectors correspond to each other, whatever the remaining data members, which have
property `R`, contain. -/
structure PvR (n : ℕ) (σ : Symmetry n) (R : ρ → Prop) (s s' : PvState K ρ) : Prop where
  solution : SolR n σ s.solution s'.solution
  length : s.data.pv.length = n
  turn : s'.data.pv = σ.turn s.data.pv
  lower : s.data.lower = 1 / (n : ℚ)
  upper : s.data.upper = 1 - 1 / (n : ℚ)
  lower' : s'.data.lower = 1 / (n : ℚ)
  upper' : s'.data.upper = 1 - 1 / (n : ℚ)
  rest : R s.data.rest
  rest' : R s'.data.rest

theorem margins_le (hn : 2 ≤ n) : 1 / (n : ℚ) ≤ 1 - 1 / (n : ℚ) := by
  have h : (2 : ℚ) ≤ n := by exact_mod_cast hn
  have : 1 / (n : ℚ) ≤ 1 / 2 := one_div_le_one_div_of_le (by norm_num) h
  linarith

theorem pvStart_paired (h : Relabeled σ f g val val') {R : ρ → Prop} {d d' : PvData ρ} (hd : d.pv.length = n) (hd' : d'.pv.length = n)
    (h1 : d.lower = 1 / (n : ℚ)) (h2 : d.upper = 1 - 1 / (n : ℚ)) (h1' : d'.lower = 1 / (n : ℚ)) (h2' : d'.upper = 1 - 1 / (n : ℚ)) (hr : R d.rest)
    (hr' : R d'.rest) : Paired (PvR n σ R) (pvStart f n d) (pvStart g n d') := by
  refine (randomSolution_paired h (by simp) (by simp)).bind (fun r r' hr => Paired.pure ⟨hr.1, ?_, ?_, h1, h2, h1', h2', by assumption, by assumption⟩)
  · simp [pvUniform, hd]
  · simp only [pvUniform, hd, hd']
    exact σ.turn_half.symm

/-- The two steps of learning: moving and bounding. -/
theorem bound_step (hn : 2 ≤ n) {pv : List ℚ} (hpv : pv.length = n) :
    ∃ r, pvBound pv (1 / (n : ℚ)) (1 - 1 / (n : ℚ)) = ok r ∧ r.length = n ∧
      pvBound (σ.turn pv) (1 / (n : ℚ)) (1 - 1 / (n : ℚ)) = ok (σ.turn r) := by
  refine ⟨_, pvBound_eq, by simpa using hpv, ?_⟩
  exact (σ.turn_bound (by ring) (margins_le hn) hpv pvBound_eq).2

/-! ## The compact genetic algorithm -/

theorem updateSolution_related {s s' : BV × K} (hs : SolR n σ s s') {x : BV} (hx : x.length = n) (v : K) :
    SolR n σ (updateSolution s x v) (updateSolution s' (σ.act x) v) := by
  obtain ⟨h1, h2⟩ := hs
  rw [h2]
  unfold updateSolution
  split
  · exact ⟨hx, rfl⟩
  · exact ⟨h1, rfl⟩

theorem compactLearn_paired (h : Relabeled σ f g val val') (hn : 2 ≤ n) (q : CompactParams) {s s' : PvState K (BV × BV)}
    (hs : PvR n σ (fun r => r.1.length = n ∧ r.2.length = n) s s') {x y : BV} (hx : x.length = n) (hy : y.length = n) (hle : val y ≤ val x)
    {a b : BV} (ha : a.length = n) (hb : b.length = n) (v : K) :
    Paired (PvR n σ (fun r => r.1.length = n ∧ r.2.length = n))
      (Dist.lift (compactLearn f q x y { s.data with rest := (a, b) }) >>= fun d => pure ⟨updateSolution s.solution x v, d⟩)
      (Dist.lift (compactLearn g q (σ.act x) (σ.act y) { s'.data with rest := (σ.act a, σ.act b) }) >>=
        fun d => pure ⟨updateSolution s'.solution (σ.act x) v, d⟩) := by
  obtain ⟨r, h1, h2, h3⟩ := σ.turn_move q.rate hs.length hx hy
  obtain ⟨u, h4, h5, h6⟩ := bound_step (σ := σ) hn h2
  have e1 : compactLearn f q x y { s.data with rest := (a, b) } = ok { s.data with pv := u, rest := (a, b) } := by
    unfold compactLearn
    rw [h.left.eval x hx, h.left.eval y hy]
    simp only [ok_bind]
    rw [assert_pos (by simpa using hle)]
    simp only [ite_self, ok_bind, h1, hs.lower, hs.upper, h4]
  have e2 : compactLearn g q (σ.act x) (σ.act y) { s'.data with rest := (σ.act a, σ.act b) } =
      ok { s'.data with pv := σ.turn u, rest := (σ.act a, σ.act b) } := by
    unfold compactLearn
    rw [h.right.eval _ (σ.act_length x), h.right.eval _ (σ.act_length y), h.same x hx, h.same y hy]
    simp only [ok_bind]
    rw [assert_pos (by simpa using hle)]
    simp only [ite_self, ok_bind, hs.turn, h3, hs.lower', hs.upper', h6]
  rw [e1, e2, Dist.lift_ok, Dist.lift_ok, Dist.pure_bind', Dist.pure_bind']
  exact Paired.pure ⟨updateSolution_related hs.solution hx v, h5, rfl, hs.lower, hs.upper, hs.lower', hs.upper', ⟨ha, hb⟩,
    ⟨σ.act_length a, σ.act_length b⟩⟩

theorem compactIterate_paired (h : Relabeled σ f g val val') (hn : 2 ≤ n) (q : CompactParams) {s s' : PvState K (BV × BV)}
    (hs : PvR n σ (fun r => r.1.length = n ∧ r.2.length = n) s s') :
    Paired (PvR n σ (fun r => r.1.length = n ∧ r.2.length = n)) (compactIterate f q s) (compactIterate g q s') := by
  unfold compactIterate
  rw [hs.turn]
  refine (σ.sample_paired hs.length hs.rest.1 hs.rest'.1).bind (fun x x' hx => ?_)
  refine (σ.sample_paired hs.length hs.rest.2 hs.rest'.2).bind (fun y y' hy => ?_)
  obtain ⟨hx, rfl⟩ := hx
  obtain ⟨hy, rfl⟩ := hy
  rw [h.left.eval x hx, h.left.eval y hy, h.right.eval _ (σ.act_length x), h.right.eval _ (σ.act_length y), h.same x hx, h.same y hy]
  simp only [Dist.lift_ok, Dist.pure_bind']
  refine Paired.ite Iff.rfl (fun hlt => ?_) (fun hlt => ?_)
  · exact compactLearn_paired h hn q hs hy hx hlt.le hx hy _
  · exact compactLearn_paired h hn q hs hx hy (not_lt.mp hlt) hx hy _

/-- C121: the compact genetic algorithm treats all positions, zeros and ones alike. -/
theorem compactGa_unbiased (h : Relabeled σ f g val val') (hn : 2 ≤ n) (q : CompactParams) (num : ℤ) :
    compactGa g q n num = relabeled σ (compactGa f q n num) := by
  apply relabeled_of
  refine (Paired.loop (R := PvR n σ (fun r : BV × BV => r.1.length = n ∧ r.2.length = n)) ?_ (fun _ _ _ => rfl)
    (fun s s' hs _ => compactIterate_paired h hn q hs) num).bind (fun s s' hs => Paired.pure hs.solution)
  exact pvStart_paired h (by simp [pvNew]) (by simp [pvNew]) rfl rfl rfl rfl (by simp [pvNew]) (by simp [pvNew])

/-! ## The max-min ant system -/

theorem mmasLearn_paired (hn : 2 ≤ n) (rate : ℚ) {s s' : PvState K BV} (hs : PvR n σ (fun r => r.length = n) s s') {r r' : BV × K} (hr : SolR n σ r r')
    {x x' : BV} (hx : x.length = n) (hx' : x'.length = n) :
    Paired (PvR n σ (fun r => r.length = n)) (Dist.lift (mmasLearn rate r.1 { s.data with rest := x }) >>= fun d => pure ⟨r, d⟩)
      (Dist.lift (mmasLearn rate r'.1 { s'.data with rest := x' }) >>= fun d => pure ⟨r', d⟩) := by
  obtain ⟨hr1, rfl⟩ := hr
  obtain ⟨u, h1, h2, h3⟩ := σ.turn_update rate hs.length hr1
  obtain ⟨w, h4, h5, h6⟩ := bound_step (σ := σ) hn h2
  have e1 : mmasLearn rate r.1 { s.data with rest := x } = ok { s.data with pv := w, rest := x } := by
    unfold mmasLearn
    simp only [h1, ok_bind, hs.lower, hs.upper, h4]
  have e2 : mmasLearn rate (σ.act r.1) { s'.data with rest := x' } = ok { s'.data with pv := σ.turn w, rest := x' } := by
    unfold mmasLearn
    simp only [hs.turn, h3, ok_bind, hs.lower', hs.upper', h6]
  rw [e1, e2, Dist.lift_ok, Dist.lift_ok, Dist.pure_bind', Dist.pure_bind']
  exact Paired.pure ⟨⟨hr1, rfl⟩, h5, rfl, hs.lower, hs.upper, hs.lower', hs.upper', hx, hx'⟩

theorem mmasIterate_paired (h : Relabeled σ f g val val') (hn : 2 ≤ n) (q : MmasParams K) {s s' : PvState K BV}
    (hs : PvR n σ (fun r => r.length = n) s s') : Paired (PvR n σ (fun r => r.length = n)) (mmasIterate f q s) (mmasIterate g q s') := by
  unfold mmasIterate
  rw [hs.turn]
  refine (σ.sample_paired hs.length hs.rest hs.rest').bind (fun x x' hx => ?_)
  obtain ⟨hx, rfl⟩ := hx
  rw [h.left.eval x hx, h.right.eval _ (σ.act_length x), h.same x hx]
  simp only [Dist.lift_ok, Dist.pure_bind']
  refine mmasLearn_paired hn q.rate hs ?_ hx (σ.act_length x)
  obtain ⟨h1, h2⟩ := hs.solution
  rw [h2]
  split
  · exact ⟨hx, rfl⟩
  · exact ⟨h1, rfl⟩

/-- C121: the max-min ant system treats all positions, zeros and ones alike, whatever the comparison. -/
theorem mmas_unbiased (h : Relabeled σ f g val val') (hn : 2 ≤ n) (q : MmasParams K) (num : ℤ) :
    mmas g q n num = relabeled σ (mmas f q n num) := by
  apply relabeled_of
  refine (Paired.loop (R := PvR n σ (fun r : BV => r.length = n)) ?_ (fun _ _ _ => rfl) (fun s s' hs _ => mmasIterate_paired h hn q hs) num).bind
    (fun s s' hs => Paired.pure hs.solution)
  refine (pvStart_paired (R := fun r : BV => r.length = n) h (by simp [pvNew]) (by simp [pvNew]) rfl rfl rfl rfl (by simp [pvNew]) (by simp [pvNew])).bind
    (fun s s' hs => mmasLearn_paired hn q.rate hs hs.solution hs.rest hs.rest')

/-- On one bit, the max-min ant system surely returns the vector 1 after an iteration, if it is the maximum. -/
theorem mmas_one (hf : Evaluates f 1 val) (hval : val [false] < val [true]) {q : MmasParams K} (hq : Compares q.compare) :
    Sure (mmas f q 1 1) (fun r => r.1 = [true]) := by
  have hlearn : ∀ s : PvState K BV, (Good 1 val s.solution ∧ s.data.pv.length = 1 ∧ s.data.Margins 1 ∧ s.data.rest.length = 1) →
      Sure (Dist.lift (mmasLearn q.rate s.solution.1 s.data) >>= fun d => pure { s with data := d })
        (fun s => Good 1 val s.solution ∧ s.data.pv = [1] ∧ s.data.Margins 1 ∧ s.data.rest.length = 1) := by
    rintro s ⟨h1, h2, h3, h4⟩
    refine (Sure.lift (mmasLearn_one q.rate h1.1 h2 h3)).bind (fun d hd => Sure.pure ?_)
    exact ⟨h1, hd.1, hd.2.1, by dsimp only; rw [hd.2.2]; exact h4⟩
  have hinit : Sure (mmasInit f q 1) (fun s => Good 1 val s.solution ∧ s.data.pv = [1] ∧ s.data.Margins 1 ∧ s.data.rest.length = 1) := by
    unfold mmasInit pvStart
    rw [Dist.bind_assoc']
    simp only [Dist.pure_bind']
    exact (randomSolution_sure hf).bind (fun s hs => hlearn ⟨s, _⟩ ⟨hs, by simp [pvUniform, pvNew], ⟨rfl, rfl⟩, rfl⟩)
  unfold mmas
  rw [show (1 : ℤ) = ((1 : ℕ) : ℤ) from rfl, run_eq (by decide), Dist.bind_assoc']
  refine hinit.bind (fun s hs => ?_)
  obtain ⟨h1, h2, h3, h4⟩ := hs
  change Sure ((mmasIterate f q s >>= fun s => pure s) >>= fun s => pure s.solution) _
  rw [Dist.bind_pure']
  unfold mmasIterate
  rw [h2, Dist.bind_assoc']
  refine (sampleVector_one _ h4).bind (fun x hx => ?_)
  subst hx
  rw [hf.eval [true] rfl, Dist.lift_ok, Dist.pure_bind', Dist.bind_assoc']
  have hr : (if q.compare (val [true]) s.solution.2 = true then ([true], val [true]) else s.solution).1 = [true] := by
    split
    · rfl
    · next hc =>
      obtain ⟨b, hb⟩ := List.length_eq_one_iff.mp h1.1
      cases b
      · have := h1.2
        rw [hb] at this
        exact absurd (hq.better _ _ (by rw [this]; exact hval)) hc
      · exact hb
  refine (Sure.lift (mmasLearn_one q.rate (ρ := BV) (d := { s.data with rest := [true] }) (by rw [hr]; rfl) (by rw [h2]; rfl) h3)).bind (fun d hd => ?_)
  rw [Dist.pure_bind']
  exact Sure.pure hr

/-- C121 (negative part): on one bit, the max-min ant system does not treat zeros and ones alike. -/
theorem mmas_biased {σ : Symmetry 1} (hσ : σ.exchange 0 = true) (h : Relabeled σ f g val val') (hval : val [false] < val [true]) {q : MmasParams K}
    (hq : Compares q.compare) : mmas g q 1 1 ≠ relabeled σ (mmas f q 1 1) := by
  intro he
  have hs0 : σ.source 0 = 0 := by have := σ.source_lt 0 (by decide); omega
  have hact : ∀ b, σ.act [b] = [!b] := by
    intro b
    simp [Symmetry.act, hσ, hs0]
  have h1 : val' [true] < val' [false] := by
    have a := h.same [false] rfl
    have b := h.same [true] rfl
    rw [hact] at a b
    simpa [← a, ← b] using hval
  have h2 := mmas_single h.right h1 hq (t := 1) (by decide)
  have h3 : Sure (relabeled σ (mmas f q 1 1)) (fun r => IsMax 1 val' r.1) :=
    (mmas_one h.left hval hq).bind (fun r hr => Sure.pure (by
      dsimp only
      rw [hr, hact]
      refine ⟨rfl, fun y hy => ?_⟩
      obtain ⟨b, rfl⟩ := List.length_eq_one_iff.mp hy
      cases b
      · exact le_refl _
      · exact h1.le))
  rw [← he] at h3
  classical
  have h4 : (mmas g q 1 1).prob (fun s => IsMax 1 val' s.1) = 1 := by
    rw [← h3.total]
    unfold Dist.prob Dist.total
    refine tsum_congr (fun r => ?_)
    split
    · rfl
    · next hr => exact (not_not.mp (fun h0 => hr (h3.holds r h0))).symm
  unfold missProb at h2
  rw [show ((1 : ℕ) : ℤ) = 1 from rfl, h4, tsub_self] at h2
  exact ENNReal.inv_ne_zero.mpr (by norm_num) h2.symm

/-! ## Examples -/

example (q : CompactParams) : compactGa (valuesFn 3 (fun y => (ones (rotation.unact y) : ℤ))) q 3 20 = relabeled rotation (compactGa (oneMax 3) q 3 20) :=
  compactGa_unbiased rotation_oneMax (by decide) q 20

example (q : MmasParams ℤ) : mmas (valuesFn 3 (fun y => (ones (rotation.unact y) : ℤ))) q 3 20 = relabeled rotation (mmas (oneMax 3) q 3 20) :=
  mmas_unbiased rotation_oneMax (by decide) q 20

/-- Zeros and ones are exchanged. -/
def exchangeOne : Symmetry 1 where
  source i := i
  dest j := j
  exchange _ := true
  source_lt i h := h
  dest_lt j h := h
  source_dest _ _ := rfl
  dest_source _ _ := rfl

example : mmas (valuesFn 1 (fun y => (ones (exchangeOne.unact y) : ℤ))) ⟨fun a b => decide (b ≤ a), 1 / 2⟩ 1 1 ≠
    relabeled exchangeOne (mmas (oneMax 1) ⟨fun a b => decide (b ≤ a), 1 / 2⟩ 1 1) :=
  mmas_biased rfl (relabeled_exists (oneMax_evaluates 1)) (by decide)
    ⟨fun a b h => decide_eq_true h.le, fun a b h => decide_eq_false (not_le.mpr h)⟩

end Hnco.Prob
