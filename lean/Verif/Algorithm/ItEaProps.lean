import Verif.Algorithm.TieProps
import Verif.Algorithm.RateProps
import Verif.Function.MaxSatProps
import Verif.Population.Generation

/-! # C50 and C65: the information theoretic evolutionary algorithm -/

namespace Hnco

open Outcome

variable {K : Type}

/-! ## Specification -/

/-- The data of the algorithm with a population of size `lam` and vectors of `n` bits. -/
structure ItData.Valid (n lam : Nat) (d : ItData K) : Prop where
  population : d.population.Valid lam n
  masks : d.masks.length = lam
  mask_bits : ∀ m ∈ d.masks, m.length = n
  likelihoods : d.likelihoods.length = n
  mutation : d.mutation.Valid (.standardBitMutation d.params)
  bits : d.mutation.n = n

/-- The parameters are usable. -/
structure ItParams.Sound (q : ItParams) (n lam : Nat) : Prop where
  selection_pos : 1 ≤ q.selectionSize
  selection_lt : q.selectionSize < lam
  min_init : q.rateMin ≤ q.rateInit
  init_max : q.rateInit ≤ q.rateMax
  replacement : q.replacement ≤ 4
  weight : q.replacement = 4 → q.initialWeight ≤ n
  uniform : ∀ d j, q.uniform d j < 1

/-! ## Lemmas -/

/-- The constructor makes valid data. -/
theorem itNew_valid [Zero K] {n size : Int} {params : StandardParams} {d : ItData K} (h : itNew n size params = ok d) :
    d.Valid n.toNat size.toNat := by
  unfold itNew at h
  obtain ⟨p, h1, h⟩ := bind_eq_ok.mp h
  obtain ⟨b, h2, h⟩ := bind_eq_ok.mp h
  cases h
  obtain ⟨g1, g2, g3⟩ := popNew_valid h1
  obtain ⟨g4, g5⟩ := nbhNew_valid (p := params) h2
  refine ⟨g3, List.length_replicate, ?_, List.length_replicate, g4, g5⟩
  intro m hm
  rw [List.eq_of_mem_replicate hm, List.length_replicate]

theorem firstBest_post (lt : Rat → Rat → Bool) {l : List Rat} (hl : 0 < l.length) :
    (firstBest lt l).Returns (fun i => i < l.length) := by
  unfold firstBest
  refine forRange_returns (fun _ i => i < l.length) hl hl ?_
  intro j i _ hj hi
  rw [vget_eq hi, ok_bind, vget_eq hj, ok_bind]
  split
  · exact returns_ok.mpr hj
  · exact returns_ok.mpr hi

/-- A position is sampled among those of the values equal to the first best one. -/
theorem sampleFromArg_post (lt : Rat → Rat → Bool) {l : List Rat} (hl : 0 < l.length) :
    Sim.Post (sampleFromArg lt l) (fun i => i < l.length) := by
  unfold sampleFromArg
  refine Sim.Post.returns_bind (firstBest_post lt hl) (fun index hi => ?_)
  refine (Sim.Post.assert (decide_eq_true hi)).bind (fun _ _ => ?_)
  refine Sim.Post.lift_bind (vget_eq hi) ?_
  refine Sim.Post.returns_bind (P := fun (c : List Nat) => index ∈ c ∧ ∀ i ∈ c, i < l.length) ?_ ?_
  · refine (forRange_returns (fun j (c : List Nat) => (index < j → index ∈ c) ∧ ∀ i ∈ c, i < l.length) (Nat.zero_le _)
      ⟨by omega, by intro i hi; cases hi⟩ ?_).mono (fun c hc => ⟨hc.1 hi, hc.2⟩)
    rintro j c _ hj ⟨h1, h2⟩
    rw [vget_eq hj, ok_bind]
    split
    · refine returns_ok.mpr ⟨?_, ?_⟩
      · intro h
        by_cases hij : index = j
        · subst hij; simp
        · exact List.mem_append_left _ (h1 (by omega))
      · intro i hi
        rcases List.mem_append.mp hi with hi | hi
        · exact h2 i hi
        · rw [List.mem_singleton.mp hi]; exact hj
    · rename_i hne
      refine returns_ok.mpr ⟨?_, h2⟩
      intro h
      by_cases hij : index = j
      · subst hij; exact absurd rfl hne
      · exact h1 (by omega)
  · rintro c ⟨h1, h2⟩
    have hpos : 0 < c.length := List.length_pos_of_mem h1
    refine (Sim.Post.assert (decide_eq_true hpos)).bind (fun _ _ => ?_)
    split
    · refine (Sim.Post.uniformInt (Nat.zero_le _)).bind ?_
      rintro i ⟨_, hi'⟩
      have hic : i < c.length := by omega
      refine (Sim.Post.assert (decide_eq_true hic)).bind (fun _ _ => ?_)
      exact Sim.Post.lift ⟨_, vget_eq hic, h2 _ (List.getElem_mem hic)⟩
    · exact Sim.Post.pure hi

theorem mlBit_post {rate : Rat} {sel n i : Nat} {l : List Rat} (hl : l.length = n) (hi : i < n) {x : BV}
    (hx : x.length = n) : Sim.Post (mlBit rate sel l i x) (fun y => y.length = n) := by
  have hil : i < l.length := by omega
  have hix : i < x.length := by omega
  unfold mlBit
  refine Sim.Post.lift_bind (vget_eq hil) ?_
  have hset : ∀ b, Sim.Post (Sim.lift (vset x i b)) (fun y => y.length = n) := fun b =>
    Sim.Post.lift ⟨_, vset_eq hix, by simpa using hx⟩
  split
  · exact hset _
  · split
    · exact hset _
    · exact Sim.Post.bernoulli.bind (fun b _ => hset b)

/-! ## Replacement -/

/-- During an iteration which began in state `s`, after the population has been offered to the solution. -/
structure ItStep [LinearOrder K] (n lam : Nat) (val : BV → K) (s t : AlgState K (ItData K)) : Prop where
  valid : t.data.Valid n lam
  sorted : t.data.population.Sorted
  population : ∀ c ∈ t.data.population.individuals, c ∈ t.calls
  step : ∃ gen, TrueCalls n val gen ∧ StrictStep s t gen

/-- The center is an evaluated vector with its value, and not better than the solution. -/
def CenterEvaluated [LinearOrder K] (t : AlgState K (ItData K)) : Prop :=
  t.data.center ∈ t.calls ∧ t.data.center.2 ≤ t.solution.2

/-- An interruption. -/
def ItStop [LinearOrder K] (n lam : Nat) (val : BV → K) (t : AlgState K (ItData K)) : Prop :=
  TrueCalls n val t.calls ∧ BestExceptLast lam t

theorem ItStep.stop [LinearOrder K] {n lam : Nat} {val : BV → K} {s t : AlgState K (ItData K)}
    (h : ItStep n lam val s t) (hlam : 0 < lam) (hs : TrueCalls n val s.calls) (hbest : BestOf s.calls s.solution) :
    ItStop n lam val t := by
  obtain ⟨gen, hg, hst⟩ := h.step
  exact ⟨by rw [hst.1]; exact hs.append hg, t.calls, [], (List.append_nil _).symm, hlam, Or.inr (hst.best hbest)⟩

theorem ItStep.bits [LinearOrder K] {n lam : Nat} {val : BV → K} {s t : AlgState K (ItData K)}
    (h : ItStep n lam val s t) (hs : TrueCalls n val s.calls) (hbest : BestOf s.calls s.solution) :
    t.solution.1.length = n := by
  obtain ⟨gen, hg, hst⟩ := h.step
  have : TrueCalls n val t.calls := by rw [hst.1]; exact hs.append hg
  exact (this _ (hst.best hbest).1).1

theorem evaluateCenter_holds [LinearOrder K] {env : Env K} {n lam : Nat} {val : BV → K} (henv : env.Computes n val)
    {s t : AlgState K (ItData K)} (hlam : 0 < lam) (hs : TrueCalls n val s.calls) (hbest : BestOf s.calls s.solution)
    (ht : ItStep n lam val s t) (hc : t.data.center.1.length = n) :
    Alg.Holds (evaluateCenter env) t (fun _ u => ItStep n lam val s u ∧ CenterEvaluated u ∧ u.data.rate = t.data.rate ∧
      u.data.masks = t.data.masks) (ItStop n lam val) := by
  unfold evaluateCenter
  refine Alg.Holds.get_bind (evaluate_bind henv hc (Alg.Holds.modify_bind (Alg.Holds.modify ?_)) (ht.stop hlam hs hbest))
  have hst := updateSolution_step (s := t) (x := t.data.center.1) (v := val t.data.center.1)
    (t := { t with
      calls := t.calls ++ [(t.data.center.1, val t.data.center.1)]
      data := { t.data with center := (t.data.center.1, val t.data.center.1) } }) rfl rfl
  dsimp only at hst ⊢
  have hd : (if t.solution.2 < val t.data.center.1
    then { t with
      calls := t.calls ++ [(t.data.center.1, val t.data.center.1)]
      data := { t.data with center := (t.data.center.1, val t.data.center.1) }
      solution := (t.data.center.1, val t.data.center.1) }
    else { t with
      calls := t.calls ++ [(t.data.center.1, val t.data.center.1)]
      data := { t.data with center := (t.data.center.1, val t.data.center.1) } }).data =
      { t.data with center := (t.data.center.1, val t.data.center.1) } := by split <;> rfl
  generalize (if t.solution.2 < val t.data.center.1
    then { t with
      calls := t.calls ++ [(t.data.center.1, val t.data.center.1)]
      data := { t.data with center := (t.data.center.1, val t.data.center.1) }
      solution := (t.data.center.1, val t.data.center.1) }
    else { t with
      calls := t.calls ++ [(t.data.center.1, val t.data.center.1)]
      data := { t.data with center := (t.data.center.1, val t.data.center.1) } }) = u at hst hd
  obtain ⟨gen, hg, hst0⟩ := ht.step
  refine ⟨⟨?_, ?_, ?_, gen ++ [(t.data.center.1, val t.data.center.1)], ?_, hst0.trans hst⟩, ⟨?_, ?_⟩, ?_, ?_⟩
  · rw [hd]; exact ⟨ht.valid.population, ht.valid.masks, ht.valid.mask_bits, ht.valid.likelihoods, ht.valid.mutation, ht.valid.bits⟩
  · rw [hd]; exact ht.sorted
  · rw [hd, hst.1]
    intro c hcc
    exact List.mem_append_left _ (ht.population c hcc)
  · exact hg.snoc hc
  · rw [hd, hst.1]; simp
  · rw [hd]; exact hst.gen_le _ (List.mem_singleton.mpr rfl)
  · rw [hd]
  · rw [hd]

/-- A change of the center, or of the likelihoods, before an evaluation. -/
theorem ItStep.change [LinearOrder K] {n lam : Nat} {val : BV → K} {s t : AlgState K (ItData K)}
    (h : ItStep n lam val s t) {c : BV × K} {l : List Rat} (hl : l.length = n) :
    ItStep n lam val s { t with data := { t.data with likelihoods := l, center := c } } :=
  ⟨⟨h.valid.population, h.valid.masks, h.valid.mask_bits, hl, h.valid.mutation, h.valid.bits⟩, h.sorted, h.population,
    h.step⟩

theorem flipCenter_holds [LinearOrder K] {env : Env K} {n lam : Nat} {val : BV → K} (henv : env.Computes n val)
    {s t : AlgState K (ItData K)} (hlam : 0 < lam) (hs : TrueCalls n val s.calls) (hbest : BestOf s.calls s.solution)
    (ht : ItStep n lam val s t) (hc : t.data.center.1.length = n) {i : Nat} (hi : i < n) :
    Alg.Holds (flipCenter env i) t (fun _ u => ItStep n lam val s u ∧ CenterEvaluated u ∧ u.data.rate = t.data.rate ∧
      u.data.masks = t.data.masks) (ItStop n lam val) := by
  unfold flipCenter
  refine Alg.Holds.get_bind (Alg.Holds.lift_bind (bvFlip_ok (by omega)) (Alg.Holds.modify_bind ?_))
  exact evaluateCenter_holds henv hlam hs hbest (ht.change (c := (_, t.data.center.2)) ht.valid.likelihoods)
    (by simpa using hc)

theorem bestCenter_holds [LinearOrder K] {n lam : Nat} {val : BV → K} {s t : AlgState K (ItData K)} (hlam : 0 < lam)
    (ht : ItStep n lam val s t) (hpop : ∀ c ∈ t.data.population.individuals, c.2 ≤ t.solution.2)
    {E : AlgState K (ItData K) → Prop} :
    Alg.Holds bestCenter t (fun _ u => ItStep n lam val s u ∧ CenterEvaluated u ∧ u.data.rate = t.data.rate ∧
      u.data.masks = t.data.masks) E := by
  obtain ⟨x, v, e1, e2, e3, e4⟩ := Pop.Sorted.first ht.valid.population ht.sorted hlam
  unfold bestCenter
  refine Alg.Holds.get_bind (Alg.Holds.lift_bind e1 (Alg.Holds.lift_bind e2 (Alg.Holds.modify ?_)))
  exact ⟨ht.change ht.valid.likelihoods, ⟨ht.population _ e3, hpop _ e3⟩, rfl, rfl⟩

theorem itReplace_holds [LinearOrder K] {env : Env K} {n lam : Nat} {val : BV → K} (henv : env.Computes n val)
    {q : ItParams} (hq : q.Sound n lam) (hn : 0 < n) {s t : AlgState K (ItData K)}
    (hs : TrueCalls n val s.calls) (hbest : BestOf s.calls s.solution)
    (ht : ItStep n lam val s t) (hcb : t.data.center.1.length = n) (hc : CenterEvaluated t)
    (hpop : ∀ c ∈ t.data.population.individuals, c.2 ≤ t.solution.2) {ties : Ties}
    (hties : ties.Fits lam q.selectionSize) :
    Alg.Holds (itReplace env q ties) t (fun _ u => ItStep n lam val s u ∧ CenterEvaluated u ∧ u.data.rate = t.data.rate ∧
      u.data.masks = t.data.masks) (ItStop n lam val) := by
  have hlam : 0 < lam := by have := hq.selection_lt; omega
  have hsame : Alg.Holds (pure () : Alg (AlgState K (ItData K)) Unit) t (fun _ u => ItStep n lam val s u ∧
      CenterEvaluated u ∧ u.data.rate = t.data.rate ∧ u.data.masks = t.data.masks) (ItStop n lam val) :=
    Alg.Holds.pure ⟨ht, hc, rfl, rfl⟩
  have hbits := ht.bits hs hbest
  obtain ⟨x, v, e1, e2, e3, e4⟩ := Pop.Sorted.first ht.valid.population ht.sorted hlam
  have hread : ∀ k, k < lam → ∃ y : BV, t.data.population.bestBv k = ok y ∧ y.length = n := by
    intro k hk
    obtain ⟨_, y, _, _, _, _, _, _, e, _⟩ := ht.valid.population.ranked_read hk
    exact ⟨y, e, bestBv_length ht.valid.population hk e⟩
  unfold itReplace
  have hr := hq.replacement
  split
  · refine Alg.Holds.get_bind (Alg.Holds.lift_bind e2 ?_)
    split
    · exact bestCenter_holds hlam ht hpop
    · exact hsame
  · exact bestCenter_holds hlam ht hpop
  · unfold mlUpdate
    refine Alg.Holds.get_bind ?_
    dsimp only
    rw [hbits]
    have hml : (mlLikelihoods ties q.selectionSize n t.data.population t.data.likelihoods).Returns
        (fun r => r.length = n) := by
      unfold mlLikelihoods
      refine weightedLoop_returns hties (fun _ (r : List Rat) => r.length = n) (by simp [ht.valid.likelihoods]) ?_
      intro k r hk hrl
      obtain ⟨y, e, hy⟩ := hread k (Nat.lt_of_lt_of_le hk hties.stop)
      rw [e, ok_bind]
      exact (addWeighted_spec hrl hy).mono (fun _ h => h.1)
    refine Alg.Holds.returns_bind hml (fun l hl => ?_)
    refine Alg.Holds.sim_bind (Sim.Post.forRange (I := fun _ (y : BV) => y.length = n) (Nat.zero_le _) hcb ?_) ?_
    · intro i y _ hi hy
      exact mlBit_post hl hi hy
    · intro y hy
      refine Alg.Holds.modify_bind ?_
      exact evaluateCenter_holds henv hlam hs hbest (ht.change (c := (y, t.data.center.2)) hl) hy
  · unfold incrementalMlUpdate
    refine Alg.Holds.get_bind ?_
    dsimp only
    rw [hbits]
    have hml : (maskLikelihoods ties q.selectionSize n t.data.masks t.data.likelihoods).Returns
        (fun r => r.length = n) := by
      unfold maskLikelihoods
      refine weightedLoop_returns hties (fun _ (r : List Rat) => r.length = n) (by simp [ht.valid.likelihoods]) ?_
      intro k r hk hrl
      have hkm : k < t.data.masks.length := by rw [ht.valid.masks]; exact Nat.lt_of_lt_of_le hk hties.stop
      rw [vget_eq hkm, ok_bind]
      exact (addWeighted_spec hrl (ht.valid.mask_bits _ (List.getElem_mem hkm))).mono (fun _ h => h.1)
    refine Alg.Holds.returns_bind hml (fun l hl => Alg.Holds.modify_bind ?_)
    have ht' := ht.change (c := t.data.center) hl
    have hflip : ∀ i, i < n → Alg.Holds (flipCenter env i) { t with data := { t.data with likelihoods := l } }
        (fun _ u => ItStep n lam val s u ∧ CenterEvaluated u ∧ u.data.rate = t.data.rate ∧
          u.data.masks = t.data.masks) (ItStop n lam val) := fun i hi =>
      flipCenter_holds henv hlam hs hbest ht' (by exact hcb) hi
    have hsame' : Alg.Holds (pure () : Alg (AlgState K (ItData K)) Unit) { t with data := { t.data with likelihoods := l } }
        (fun _ u => ItStep n lam val s u ∧ CenterEvaluated u ∧ u.data.rate = t.data.rate ∧
          u.data.masks = t.data.masks) (ItStop n lam val) := Alg.Holds.pure ⟨ht', hc, rfl, rfl⟩
    generalize (if t.data.rate < 1 / 2 then fun a b => decide (a < b) else fun a b => decide (b < a) :
      Rat → Rat → Bool) = lt
    refine Alg.Holds.sim_bind (sampleFromArg_post lt (by omega)) (fun i hi => ?_)
    refine Alg.Holds.lift_bind (vget_eq hi) ?_
    rw [hl] at hi
    split
    · exact hflip i hi
    · split
      · refine Alg.Holds.sim_bind Sim.Post.bernoulli (fun b _ => ?_)
        split
        · exact hflip i hi
        · exact hsame'
      · exact hsame'
  · exact hsame
  · rename_i g0 g1 g2 g3 g4
    have : q.replacement = 0 ∨ q.replacement = 1 ∨ q.replacement = 2 ∨ q.replacement = 3 ∨ q.replacement = 4 := by omega
    rcases this with h | h | h | h | h
    · exact (g0 h).elim
    · exact (g1 h).elim
    · exact (g2 h).elim
    · exact (g3 h).elim
    · exact (g4 h).elim

/-! ## The algorithm -/

/-- The invariant of the algorithm. -/
structure ItInv [LinearOrder K] (n lam : Nat) (q : ItParams) (s : AlgState K (ItData K)) : Prop where
  valid : s.data.Valid n lam
  center : CenterEvaluated s
  rate_min : q.rateMin ≤ s.data.rate
  rate_max : s.data.rate ≤ q.rateMax

theorem it_iterate_holds [LinearOrder K] {env : Env K} {n lam : Nat} {val : BV → K} (henv : env.Computes n val)
    {q : ItParams} (hq : q.Sound n lam) (hn : 0 < n) (s : AlgState K (ItData K)) (hinv : ItInv n lam q s)
    (hs : TrueCalls n val s.calls) (hbest : BestOf s.calls s.solution) :
    Alg.Holds (itIterate env q) s (fun _ t => ItInv n lam q t ∧ ∃ gen, TrueCalls n val gen ∧ StrictStep s t gen)
      (fun t => TrueCalls n val t.calls ∧ BestExceptLast lam t) := by
  have hlam : 0 < lam := by have := hq.selection_lt; omega
  have hcb : s.data.center.1.length = n := (hs _ hinv.center.1).1
  have hv := hinv.valid
  unfold itIterate
  refine Alg.Holds.get_bind (Alg.Holds.assert_bind (decide_eq_true hinv.center.2) ?_)
  -- generation of the population
  refine Alg.Holds.bind (P := fun _ t => ∃ m p r, ItData.Valid n lam { s.data with population := p, mutation := m, params := r } ∧
    t = { s with data := { s.data with population := p, mutation := m, params := r } }) ?_ ?_
  · unfold itGenerate Pop.size
    refine Alg.Holds.get_bind ?_
    dsimp only
    refine Alg.Holds.sim_bind (Sim.Post.forRange (I := fun _ (r : Nbh × Pop K) =>
      r.1.Valid (.standardBitMutation (s.data.params.setMutationRate (q.belowSqrt s.data.rate))) ∧ r.1.n = n ∧
        r.2.Valid lam n) (Nat.zero_le _) ⟨standard_valid hv.mutation, hv.bits, hv.population⟩ ?_) ?_
    · intro i r _ hi hr
      exact mapOffspring_post hcb (by rw [hv.population.bvs] at hi; exact hi) hr
    · rintro r ⟨h1, h2, h3⟩
      exact Alg.Holds.modify ⟨r.1, r.2, _, ⟨h3, hv.masks, hv.mask_bits, hv.likelihoods, h1, h2⟩, rfl⟩
  rintro _ _ ⟨m, p, r, hmp, rfl⟩
  have hp : p.Valid lam n := hmp.population
  refine generation_bind (L := itLens K) (p := p) henv rfl hp hlam ?_ ?_
  · intro k values hk _
    refine ⟨hs.append (evaluated_true (fun x hx => hp.bits x (List.mem_of_mem_take hx))),
      BestExceptLast.of_best hbest rfl rfl ?_⟩
    simp [evaluated]
    omega
  intro w u h1 _ h3 h4 hud hst
  have hud' : u.data = { s.data with population := w, mutation := m, params := r } := hud
  have hst' : StrictStep s u (evaluated val p.bvs) := hst
  have hstep : ItStep n lam val s u := by
    refine ⟨?_, ?_, ?_, _, evaluated_true hp.bits, hst'⟩
    · rw [hud']; exact ⟨h1, hmp.masks, hmp.mask_bits, hmp.likelihoods, hmp.mutation, hmp.bits⟩
    · rw [hud']; exact h4
    · rw [hud', hst'.1]
      intro c hc
      exact List.mem_append_right _ (by rw [← h3]; exact hc)
  have hcenter : CenterEvaluated u := by
    unfold CenterEvaluated
    rw [hud', hst'.1]
    exact ⟨List.mem_append_left _ hinv.center.1, le_trans hinv.center.2 hst'.le⟩
  have hpop : ∀ c ∈ u.data.population.individuals, c.2 ≤ u.solution.2 := by
    rw [hud']
    intro c hc
    exact hst'.gen_le c (by rw [← h3]; exact hc)
  have hrate : u.data.rate = s.data.rate := by rw [hud']
  have hucb : u.data.center.1.length = n := by rw [hud']; exact hcb
  clear hud hst
  unfold itUpdate
  refine Alg.Holds.get_bind ?_
  refine Alg.Holds.returns_bind (tie_weights_fair hstep.valid.population hstep.sorted hq.selection_pos hq.selection_lt) ?_
  rintro ties ⟨hfair, hfits⟩
  have hread : ∃ x : Nat → BV, ∀ k, k < lam → u.data.population.bestBv k = ok (x k) := by
    have : ∀ k, ∃ x : BV, k < lam → u.data.population.bestBv k = ok x := by
      intro k
      by_cases hk : k < lam
      · obtain ⟨_, y, _, _, _, _, _, _, e, _⟩ := hstep.valid.population.ranked_read hk
        exact ⟨y, fun _ => e⟩
      · exact ⟨[], fun h => absurd h hk⟩
    exact ⟨fun k => (this k).choose, fun k hk => (this k).choose_spec hk⟩
  obtain ⟨x, hx⟩ := hread
  refine Alg.Holds.returns_bind (computeMasks_spec hstep.valid.population hfits hx hucb hstep.valid.masks
    hstep.valid.mask_bits) ?_
  rintro masks ⟨g1, g2, g3⟩
  refine Alg.Holds.modify_bind ?_
  have hstep' : ItStep n lam val s { u with data := { u.data with masks := masks } } :=
    ⟨⟨hstep.valid.population, g1, g2, hstep.valid.likelihoods, hstep.valid.mutation, hstep.valid.bits⟩, hstep.sorted,
      hstep.population, hstep.step⟩
  refine (itReplace_holds henv hq hn hs hbest hstep' hucb hcenter hpop hfits).bind ?_
  rintro _ t ⟨ht, htc, htr, htm⟩
  dsimp only at htr htm
  -- update of the mutation rate
  unfold igoUpdate
  refine Alg.Holds.get_bind ?_
  have hloop := weightedLoop_returns hfits (body := fun w k (target : Rat) => do
    let mask ← vget t.data.masks k
    ok (target + w * (bvHammingWeight mask : Rat))) (s := 0) (fun _ _ => True) trivial (by
      intro k a hk _
      have hkr : k < t.data.masks.length := by rw [ht.valid.masks]; exact Nat.lt_of_lt_of_le hk hfits.stop
      rw [vget_eq hkr, ok_bind]
      exact returns_ok.mpr trivial)
  have htarget : (igoTarget ties q.selectionSize t.solution.1.length t.data.masks).Returns (fun _ => True) := by
    unfold igoTarget
    exact hloop.bind (fun _ _ => returns_ok.mpr trivial)
  refine Alg.Holds.returns_bind htarget (fun target _ => ?_)
  have hle : q.rateMin ≤ q.rateMax := le_trans hq.min_init hq.init_max
  refine Alg.Holds.lift_bind (stdClamp_eq hle) (Alg.Holds.modify ⟨⟨?_, ?_, ?_, ?_⟩, ht.step⟩)
  · exact ⟨ht.valid.population, ht.valid.masks, ht.valid.mask_bits, ht.valid.likelihoods, ht.valid.mutation, ht.valid.bits⟩
  · exact htc
  · exact (clamp_bounds hle).1
  · exact (clamp_bounds hle).2

theorem itFirst_holds {env : Env K} {n lam : Nat} {val : BV → K} (henv : env.Computes n val)
    {q : ItParams} (hq : q.Sound n lam) {s : AlgState K (ItData K)} (hs : s.solution.1.length = n)
    {Q : Unit → AlgState K (ItData K) → Prop} {E : AlgState K (ItData K) → Prop}
    (hQ : ∀ x : BV, x.length = n → Q () { s with solution := (x, val x), calls := s.calls ++ [(x, val x)] })
    (hE : ∀ x : BV, x.length = n → E { s with solution := (x, s.solution.2) }) :
    Alg.Holds (itFirst env q) s Q E := by
  unfold itFirst
  split
  · rename_i hr
    refine Alg.Holds.get_bind (Alg.Holds.sim_bind (Post_bvRandomSim _ _ ?_ _ _ (by rw [hs]; exact hq.weight hr)) ?_)
    · intro d k j hk
      rw [div_self (by exact_mod_cast (Nat.pos_iff_ne_zero.mp hk))]
      exact hq.uniform d j
    · rintro x ⟨hx, _⟩
      rw [hs] at hx
      exact Alg.Holds.modify_bind (evaluate_bind henv hx (Alg.Holds.modify (hQ x hx)) (hE x hx))
  · exact randomSolution_holds henv hs hQ hE

theorem itMaximize_holds [LinearOrder K] {env : Env K} {n lam : Nat} {val : BV → K} (henv : env.Computes n val)
    {q : ItParams} (hq : q.Sound n lam) (hn : 0 < n) {s : AlgState K (ItData K)} (hs : s.solution.1.length = n)
    (hv : s.data.Valid n lam) (hcalls : s.calls = []) (numIterations : Int) (fuel : Nat) :
    Alg.Holds (itMaximize env q numIterations fuel) s
      (fun _ t => ItInv n lam q t ∧ TrueCalls n val t.calls ∧ BestOf t.calls t.solution)
      (fun t => TrueCalls n val t.calls ∧ BestExceptLast lam t) := by
  have hlam : 0 < lam := by have := hq.selection_lt; omega
  refine algLoop_best (ItInv n lam q) (fun _ _ h => ⟨h.valid, h.center, h.rate_min, h.rate_max⟩)
    (it_iterate_holds henv hq hn) ?_ numIterations fuel
  unfold itInit
  refine Alg.Holds.bind (P := fun _ t => ∃ x : BV, x.length = n ∧
    t = { s with solution := (x, val x), calls := s.calls ++ [(x, val x)] })
    (itFirst_holds henv hq hs (fun x hx => ⟨x, hx, rfl⟩) (fun x hx => ⟨?_, ?_⟩)) ?_
  · simp only [hcalls]; exact TrueCalls.nil
  · exact ⟨[], [], by simp [hcalls], hlam, Or.inl rfl⟩
  · rintro _ _ ⟨x, hx, rfl⟩
    refine Alg.Holds.modify ⟨⟨?_, ⟨?_, le_refl _⟩, hq.min_init, hq.init_max⟩, ?_, ?_⟩
    · exact ⟨hv.population, hv.masks, hv.mask_bits, hv.likelihoods, standard_valid hv.mutation, hv.bits⟩
    · simp
    · simp only [hcalls]; exact TrueCalls.nil.snoc hx
    · simp only [hcalls]; exact BestOf.single _

/-- C50: the information theoretic evolutionary algorithm, with any kind of replacement, reports a best one of all
evaluated vectors with its value, after any number of iterations; its center is an evaluated vector with its value.  If
it is interrupted, then only vectors of the generation under evaluation can be better than the solution. -/
theorem itEa_best [LinearOrder K] {env : Env K} {n lam : Nat} {val : BV → K} (henv : env.Computes n val)
    {q : ItParams} (hq : q.Sound n lam) (hn : 0 < n) {s : AlgState K (ItData K)} (hs : s.solution.1.length = n)
    (hv : s.data.Valid n lam) (hcalls : s.calls = []) (numIterations : Int) (fuel : Nat) :
    Alg.Holds (itMaximize env q numIterations fuel) s
      (fun _ t => TrueCalls n val t.calls ∧ BestOf t.calls t.solution ∧ t.data.center ∈ t.calls)
      (fun t => TrueCalls n val t.calls ∧ BestExceptLast lam t) :=
  (itMaximize_holds henv hq hn hs hv hcalls numIterations fuel).mono
    (fun _ _ h => ⟨h.2.1, h.2.2, h.1.center.1⟩) (fun _ h => h)

/-- C65: the mutation rate of the information theoretic evolutionary algorithm stays between its bounds, if they are in
order and the initial rate is between them. -/
theorem itEa_rate_bounds [LinearOrder K] {env : Env K} {n lam : Nat} {val : BV → K} (henv : env.Computes n val)
    {q : ItParams} (hq : q.Sound n lam) (hn : 0 < n) {s : AlgState K (ItData K)} (hs : s.solution.1.length = n)
    (hv : s.data.Valid n lam) (hcalls : s.calls = []) (numIterations : Int) (fuel : Nat) :
    Alg.Holds (itMaximize env q numIterations fuel) s
      (fun _ t => q.rateMin ≤ t.data.rate ∧ t.data.rate ≤ q.rateMax) (fun _ => True) :=
  (itMaximize_holds henv hq hn hs hv hcalls numIterations fuel).mono
    (fun _ _ h => ⟨h.1.rate_min, h.1.rate_max⟩) (fun _ _ => trivial)

/-- Sums of weights of vectors of `n` bits with fair weights give a target rate between 0 and 1. -/
theorem fair_rate_unit [LinearOrder K] {p : Pop K} {size sel n : Nat} (hsel : 1 ≤ sel) (hn : 0 < n) {w : Nat → Rat}
    (hw : FairWeights p size sel w) {weight : Nat → Nat} (hweight : ∀ k, k < size → weight k ≤ n)
    {rate learning : Rat} (hr0 : 0 ≤ rate) (hr1 : rate ≤ 1) (hl0 : 0 ≤ learning) (hl1 : learning ≤ 1) :
    0 ≤ rate + learning * ((∑ k ∈ Finset.range size, w k * (weight k : Rat)) / (sel * n) - rate) ∧
      rate + learning * ((∑ k ∈ Finset.range size, w k * (weight k : Rat)) / (sel * n) - rate) ≤ 1 := by
  obtain ⟨h1, h2⟩ := hw.sum_bounds (f := fun k => (weight k : Rat)) (m := n) (fun k hk =>
    ⟨by exact_mod_cast Nat.zero_le _, by exact_mod_cast hweight k hk⟩)
  have hpos : (0 : Rat) < sel * n := by
    have : (0 : Rat) < sel := by exact_mod_cast hsel
    have : (0 : Rat) < n := by exact_mod_cast hn
    positivity
  have h3 := div_nonneg h1 (le_of_lt hpos)
  have h4 := (div_le_one hpos).mpr h2
  generalize (∑ k ∈ Finset.range size, w k * (weight k : Rat)) / (sel * n) = target at h3 h4
  constructor
  · nlinarith
  · nlinarith

/-- C65: with a learning rate between 0 and 1 and a mutation rate between 0 and 1, the updated rate is between 0 and 1
even before it is clamped. -/
theorem igo_rate_unit [LinearOrder K] {size n : Nat} {p : Pop K} (hp : p.Valid size n) (hs : p.Sorted) {sel : Nat}
    (h1 : 1 ≤ sel) (h2 : sel < size) (hn : 0 < n) {center : BV} (hc : center.length = n) {masks : List BV}
    (hm : masks.length = size) (hmn : ∀ m ∈ masks, m.length = n) {rate learning : Rat} (hr0 : 0 ≤ rate)
    (hr1 : rate ≤ 1) (hl0 : 0 ≤ learning) (hl1 : learning ≤ 1) :
    (itTies p sel).Returns (fun t => (computeMasks t sel center p masks).Returns (fun masks' =>
      (igoTarget t sel n masks').Returns (fun target =>
        0 ≤ rate + learning * (target - rate) ∧ rate + learning * (target - rate) ≤ 1))) := by
  have hread : ∀ k, ∃ x : BV, k < size → p.bestBv k = ok x ∧ x.length = n := by
    intro k
    by_cases hk : k < size
    · obtain ⟨_, y, _, _, _, _, _, _, e, _⟩ := hp.ranked_read hk
      exact ⟨y, fun _ => ⟨e, bestBv_length hp hk e⟩⟩
    · exact ⟨[], fun h => absurd h hk⟩
  refine (igoTarget_spec hp hs h1 h2 (x := fun k => (hread k).choose) (fun k hk => ((hread k).choose_spec hk).1) hc hm
    hmn).mono (fun t ht => ht.mono ?_)
  rintro r ⟨w, hw, e⟩
  rw [e]
  refine returns_ok.mpr (fair_rate_unit h1 hn hw ?_ hr0 hr1 hl0 hl1)
  intro k hk
  refine le_trans List.count_le_length ?_
  rw [List.length_zipWith, hc]
  exact Nat.min_le_left _ _

/-- The default parameters (`it-ea.hh:41-42`, `113-131`) for vectors of `n` bits. -/
def itDefault (n : Nat) (belowSqrt : Rat → Bool) (uniform : Nat → Nat → Rat) : ItParams :=
  { selectionSize := 1, learningRate := 1 / 100, rateInit := 1 / n, rateMin := 1 / n, rateMax := 1 / 2,
    initialWeight := 0, replacement := 0, allowNoMutation := false, belowSqrt := belowSqrt, uniform := uniform }

/-- The default parameters are sound for two bits or more and populations of two individuals or more. -/
theorem itDefault_sound {n lam : Nat} (hn : 2 ≤ n) (hlam : 2 ≤ lam) (belowSqrt : Rat → Bool)
    {uniform : Nat → Nat → Rat} (hu : ∀ d j, uniform d j < 1) : (itDefault n belowSqrt uniform).Sound n lam := by
  have h : (2 : Rat) ≤ n := by exact_mod_cast hn
  refine ⟨le_refl _, hlam, le_refl _, ?_, Nat.zero_le _, (by intro h; cases h), hu⟩
  show (1 : Rat) / n ≤ 1 / 2
  rw [div_le_div_iff₀ (by linarith) (by norm_num)]
  linarith

/-- C65 (negative part): with the default parameters and a single bit, the bounds given to `std::clamp` are in the wrong
order. -/
theorem itEa_clamp_undefined (x : Rat) (belowSqrt : Rat → Bool) (uniform : Nat → Nat → Rat) :
    stdClamp x (itDefault 1 belowSqrt uniform).rateMin (itDefault 1 belowSqrt uniform).rateMax = ub := by
  unfold stdClamp itDefault
  rw [assert_neg (by simp only [decide_eq_false_iff_not, not_not]; norm_num)]
  rfl

/-- With a population of a single individual, the default selection size leads to a read out of range. -/
theorem itEa_single_undefined [LinearOrder K] {n : Nat} {p : Pop K} (hp : p.Valid 1 n) : itTies p 1 = ub := by
  obtain ⟨_, _, v, _, _, _, _, _, _, e⟩ := hp.ranked_read (i := 0) Nat.zero_lt_one
  unfold itTies
  dsimp only
  rw [show 1 - 1 = 0 from rfl, e, ok_bind]
  unfold Pop.bestValue
  rw [assert_neg (by rw [decide_eq_false_iff_not, hp.perm_length]; omega)]
  rfl

/-! ## Examples -/

example : ∀ d : ItData Int, itNew 3 3 ⟨false, false⟩ = ok d →
    Alg.Holds (itMaximize exampleEnv (itDefault 3 (fun _ => false) (fun _ _ => 0)) 7 10) (exampleStart d)
      (fun _ t => TrueCalls 3 (fun x => Int.ofNat (x.count true)) t.calls ∧ BestOf t.calls t.solution ∧
        t.data.center ∈ t.calls)
      (fun t => TrueCalls 3 (fun x => Int.ofNat (x.count true)) t.calls ∧ BestExceptLast 3 t) :=
  fun d h => itEa_best (lam := 3) (s := exampleStart d) exampleEnv_computes
    (itDefault_sound (by decide) (by decide) _ (fun _ _ => by norm_num)) (by decide) rfl (by exact itNew_valid h) rfl 7 10

/-- One iteration with the update of maximal likelihood. -/
example : (match (itNew 3 3 ⟨false, false⟩ : Outcome (ItData Int)) with
    | .ok d =>
      match itMaximize exampleEnv { itDefault 3 (fun _ => false) (fun _ _ => 0) with replacement := 2 } 1 10
        (exampleStart d) [0, 1, 0, 0, 0, 1, 1, 0, 0, 1, 0, 1, 0, 0] with
      | .ok r _ => some (r.2.solution, r.2.calls, r.2.data.center, r.2.data.rate)
      | _ => none
    | _ => none) = some (([true, true, true], 3),
      [([false, true, false], 1), ([false, true, true], 2), ([true, true, false], 2), ([true, true, true], 3),
        ([true, true, true], 3)], ([true, true, true], 3), 101 / 300) := by decide +kernel

/-- One iteration with the incremental update of maximal likelihood: the center is worse than the solution. -/
example : (match (itNew 3 3 ⟨false, false⟩ : Outcome (ItData Int)) with
    | .ok d =>
      match itMaximize exampleEnv { itDefault 3 (fun _ => false) (fun _ _ => 0) with replacement := 3 } 1 10
        (exampleStart d) [0, 1, 0, 0, 0, 1, 1, 0, 0, 1, 0, 1, 0, 0, 0, 0, 0] with
      | .ok r _ => some (r.2.solution, r.2.calls, r.2.data.center, r.2.data.rate)
      | _ => none
    | _ => none) = some (([true, true, true], 3),
      [([false, true, false], 1), ([false, true, true], 2), ([true, true, false], 2), ([true, true, true], 3),
        ([true, true, false], 2)], ([true, true, false], 2), 101 / 300) := by decide +kernel

end Hnco
