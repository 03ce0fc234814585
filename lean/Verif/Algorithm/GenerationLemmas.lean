import Verif.Algorithm.GenerationSpec
import Verif.Algorithm.EvolutionaryProps
import Verif.Algorithm.PathLemmas
import Verif.Algorithm.RateProps

/-! # Lemmas on searches by generations -/

namespace Hnco

open Outcome

variable {K P σ : Type}

/-! ## Generations -/

section
variable [LinearOrder K] {first : Nat} {startOk : List (BV × K) → P → BV × K → Prop} {size : Nat}
  {breed : P → BV × K → BV → Prop} {survive : P → List (BV × K) → List (BV × K) → P → Prop} {calls : List (BV × K)} {kept : P}
  {solution : BV × K}

theorem HasGenerations.begin {initial : List (BV × K)} (h1 : initial.length = first) (h2 : startOk initial kept solution) :
    HasGenerations first startOk size breed survive initial kept solution :=
  ⟨initial, [], kept, solution, by simp, h1, h2, .start⟩

theorem HasGenerations.next (h : HasGenerations first startOk size breed survive calls kept solution)
    {generation chosen : List (BV × K)} {kept' : P} {solution' : BV × K} (h1 : generation.length = size)
    (h2 : ∀ c ∈ generation, breed kept solution c.1) (h3 : survive kept generation chosen kept')
    (h4 : Improves solution generation chosen solution') :
    HasGenerations first startOk size breed survive (calls ++ generation) kept' solution' := by
  obtain ⟨initial, later, kept₀, solution₀, rfl, g1, g2, g3⟩ := h
  exact ⟨initial, later ++ generation, kept₀, solution₀, by simp, g1, g2, g3.next h1 h2 h3 h4⟩

theorem HasGenerations.unfinished (h : HasGenerations first startOk size breed survive calls kept solution)
    {last : List (BV × K)} (h1 : last.length < size) (h2 : ∀ c ∈ last, breed kept solution c.1) :
    HasUnfinished first startOk size breed survive (calls ++ last) solution :=
  ⟨calls, last, kept, rfl, h, h1, h2⟩

theorem StrictStep.improves {s t : AlgState K σ} {gen : List (BV × K)} (h : StrictStep s t gen) :
    Improves s.solution gen gen t.solution := by
  rcases h.2 with h | ⟨h1, h2, h3⟩
  · exact .inl h
  · exact .inr ⟨h1, h1, h2, h3⟩

end

/-! ## Breeding -/

/-- The vectors before position `i` satisfy `B`. -/
def BredBefore (i : Nat) (B : BV → Prop) (bvs : List BV) : Prop := ∀ j x, j < i → bvs[j]? = some x → B x

theorem BredBefore.zero {B : BV → Prop} {bvs : List BV} : BredBefore 0 B bvs := fun _ _ h => absurd h (Nat.not_lt_zero _)

theorem BredBefore.set {i : Nat} {B : BV → Prop} {bvs : List BV} (h : BredBefore i B bvs) (hi : i < bvs.length) {y : BV}
    (hy : B y) : BredBefore (i + 1) B (bvs.set i y) := by
  intro j x hj hx
  rcases Nat.lt_or_ge j i with h' | h'
  · rw [List.getElem?_set_ne (by omega)] at hx
    exact h j x h' hx
  · obtain rfl : j = i := by omega
    rw [List.getElem?_set_self hi] at hx
    cases hx
    exact hy

theorem BredBefore.all {B : BV → Prop} {bvs : List BV} (h : BredBefore bvs.length B bvs) : ∀ x ∈ bvs, B x := by
  intro x hx
  obtain ⟨j, hj⟩ := List.mem_iff_getElem?.mp hx
  refine h j x ?_ hj
  by_contra hc
  rw [List.getElem?_eq_none (by omega)] at hj
  cases hj

theorem mutantOf_flipped {k : Sampler} {n : Nat} {step : Nat → Prop} (hstep : ∀ d, k.Count d → step d) {x y : BV} (hx : x.length = n)
    {l : List Nat} (hl : k.Flips n l) (h : FlippedAt x l y) : MutantOf step x y := by
  refine ⟨h.1, hstep _ ?_⟩
  rw [differing_of_flipped h hl.1 (by rw [hx]; exact hl.2.1)]
  exact hl.2.2

theorem makeOffspring_bred {step : Nat → Prop} {params : StandardParams}
    (hstep : ∀ d, (Sampler.standardBitMutation params).Count d → step d) {parents : Pop K} {mu lam n : Nat} (hmu : 0 < mu)
    (hp : parents.Valid mu n) {i : Nat} (hi : i < lam) {s : Nbh × Pop K}
    (hs : s.1.Valid (.standardBitMutation params) ∧ s.1.n = n ∧ s.2.Valid lam n)
    (hb : BredBefore i (MutantOfParent step parents.bvs) s.2.bvs) :
    Sim.Post (makeOffspring params parents i s)
      (fun r => (r.1.Valid (.standardBitMutation params) ∧ r.1.n = n ∧ r.2.Valid lam n) ∧
        BredBefore (i + 1) (MutantOfParent step parents.bvs) r.2.bvs) := by
  obtain ⟨h1, h2, h3⟩ := hs
  unfold makeOffspring Pop.size
  rw [hp.bvs]
  refine (Sim.Post.uniformInt (Nat.zero_le _)).bind ?_
  rintro k ⟨_, hk⟩
  have hkl : k < parents.bvs.length := by rw [hp.bvs]; omega
  have hx : parents.bvs[k].length = n := hp.bits _ (List.getElem_mem hkl)
  have hil : i < s.2.bvs.length := by rw [h3.bvs]; exact hi
  refine Sim.Post.lift_bind (vget_eq hkl) (Sim.Post.lift_bind (vset_eq hil) ?_)
  refine (mutate_spec h1 (by rw [hx, h2])).bind ?_
  rintro ⟨b, y⟩ ⟨g1, g2, g3, g4⟩
  dsimp only at g1 g2 g3 g4 ⊢
  refine Sim.Post.lift_bind (vset_eq (by simp [hil])) (Sim.Post.pure ⟨⟨g2, by rw [g1]; exact h2, ?_⟩, ?_⟩)
  · rw [List.set_set]
    exact h3.setBv i (by rw [g4.1, hx])
  · rw [List.set_set]
    exact hb.set hil ⟨_, List.getElem_mem hkl, mutantOf_flipped hstep (by rw [hx, h2]) g3 g4⟩

theorem makeOffsprings_bred {τ : Type} {s : AlgState K (EaData K τ)} {n mu lam : Nat} (hv : s.data.Valid n mu lam)
    {step : Nat → Prop} (hstep : ∀ d, (Sampler.standardBitMutation s.data.params).Count d → step d)
    {β : Type} {f : Unit → Alg (AlgState K (EaData K τ)) β}
    {Q : β → AlgState K (EaData K τ) → Prop} {E : AlgState K (EaData K τ) → Prop}
    (hQ : ∀ m p, EaData.Valid n mu lam { s.data with mutation := m, offsprings := p } →
      (∀ y ∈ p.bvs, MutantOfParent step s.data.parents.bvs y) →
      Alg.Holds (f ()) { s with data := { s.data with mutation := m, offsprings := p } } Q E) :
    Alg.Holds (makeOffsprings >>= f) s Q E := by
  refine Alg.Holds.bind (P := fun _ t => ∃ m p, (EaData.Valid n mu lam { s.data with mutation := m, offsprings := p } ∧
      ∀ y ∈ p.bvs, MutantOfParent step s.data.parents.bvs y) ∧
    t = { s with data := { s.data with mutation := m, offsprings := p } }) ?_ ?_
  · unfold makeOffsprings Pop.size
    refine Alg.Holds.get_bind (Alg.Holds.sim_bind (Sim.Post.forRange (I := fun i (r : Nbh × Pop K) =>
      (r.1.Valid (.standardBitMutation s.data.params) ∧ r.1.n = n ∧ r.2.Valid lam n) ∧
        BredBefore i (MutantOfParent step s.data.parents.bvs) r.2.bvs) (Nat.zero_le _)
      ⟨⟨hv.mutation, hv.bits, hv.offsprings⟩, .zero⟩ ?_) ?_)
    · intro i r _ hi hr
      exact makeOffspring_bred hstep hv.mu_pos hv.parents (by rw [← hv.offsprings.bvs]; exact hi) hr.1 hr.2
    · rintro r ⟨⟨h1, h2, h3⟩, h4⟩
      refine Alg.Holds.modify ⟨r.1, r.2, ⟨⟨hv.mu_pos, hv.lam_pos, hv.parents, h3, h1, h2⟩, ?_⟩, rfl⟩
      exact BredBefore.all (by rw [h3.bvs, ← hv.offsprings.bvs]; exact h4)
  · rintro _ _ ⟨m, p, h, rfl⟩
    exact hQ m p h.1 h.2

theorem mixtureOf_mixes {x y z : BV} (hxy : y.length = x.length) (h : Mixes x y z) : MixtureOf x y z := by
  refine ⟨h.1, by rw [h.1, hxy], fun i => ?_⟩
  by_cases hi : i < x.length
  · exact h.2 i hi
  · left
    have := h.1
    rw [List.getElem?_eq_none (by omega), List.getElem?_eq_none (by omega)]

theorem select_parent [LinearOrder K] {mu n : Nat} {parents : Pop K} (hp : parents.Valid mu n) {t : Tournament}
    (ht : t.Valid mu) : Sim.Post (t.select (fun a b => decide (b < a)) parents.bvs parents.values)
      (fun r => r.2.1 ∈ parents.bvs ∧ r.2.2.Valid mu) := by
  refine (tournament_select_partial strictWeak_greater ht hp.bvs hp.values).mono ?_
  rintro ⟨k, x, u⟩ ⟨h1, h2, _⟩
  exact ⟨List.mem_of_getElem? h1, h2⟩

theorem reproduce_mixture [LinearOrder K] {mu n : Nat} {parents : Pop K} (hp : parents.Valid mu n) {t : Tournament}
    (ht : t.Valid mu) {old : BV} (hold : old.length = n) :
    Sim.Post (reproduce parents t old) (fun r => r.1.Valid mu ∧ r.2.length = n ∧
      (r.2 ∈ parents.bvs ∨ ∃ a ∈ parents.bvs, ∃ b ∈ parents.bvs, MixtureOf a b r.2)) := by
  unfold reproduce
  refine Sim.Post.bernoulli.bind (fun c _ => ?_)
  split
  · refine (select_parent hp ht).bind ?_
    rintro a ⟨ha1, ha2⟩
    refine (select_parent hp ha2).bind ?_
    rintro b ⟨hb1, hb2⟩
    have ha := hp.bits _ ha1
    have hb := hp.bits _ hb1
    refine (uniformRecombine_mixes (by rw [hold, ha]) (by rw [hold, hb])).bind ?_
    intro x hx
    exact Sim.Post.pure ⟨hb2, by rw [hx.1, ha], .inr ⟨_, ha1, _, hb1, mixtureOf_mixes (by rw [ha, hb]) hx⟩⟩
  · refine (select_parent hp ht).bind ?_
    rintro a ⟨ha1, ha2⟩
    exact Sim.Post.pure ⟨ha2, hp.bits _ ha1, .inl ha1⟩

theorem gaOffspring_bred [LinearOrder K] {step : Nat → Prop} {params : StandardParams}
    (hstep : ∀ d, (Sampler.standardBitMutation params).Count d → step d) {parents : Pop K} {mu lam n : Nat}
    (hp : parents.Valid mu n) {i : Nat} (hi : i < lam) {s : Tournament × Nbh × Pop K}
    (hs : s.1.Valid mu ∧ s.2.1.Valid (.standardBitMutation params) ∧ s.2.1.n = n ∧ s.2.2.Valid lam n)
    (hb : BredBefore i (MutantOfMixture step parents.bvs) s.2.2.bvs) :
    Sim.Post (gaOffspring params parents i s)
      (fun r => (r.1.Valid mu ∧ r.2.1.Valid (.standardBitMutation params) ∧ r.2.1.n = n ∧ r.2.2.Valid lam n) ∧
        BredBefore (i + 1) (MutantOfMixture step parents.bvs) r.2.2.bvs) := by
  obtain ⟨h0, h1, h2, h3⟩ := hs
  unfold gaOffspring
  have hil : i < s.2.2.bvs.length := by rw [h3.bvs]; exact hi
  refine Sim.Post.lift_bind (vget_eq hil) ?_
  refine (reproduce_mixture hp h0 (h3.bits _ (List.getElem_mem hil))).bind ?_
  rintro x ⟨hx1, hx2, hx3⟩
  refine (mutate_spec h1 (by rw [hx2, h2])).bind ?_
  rintro ⟨b, y⟩ ⟨g1, g2, g3, g4⟩
  dsimp only at g1 g2 g3 g4 ⊢
  exact Sim.Post.lift_bind (vset_eq hil) (Sim.Post.pure ⟨⟨hx1, g2, by rw [g1]; exact h2,
    h3.setBv i (by rw [g4.1, hx2])⟩, hb.set hil ⟨_, hx3, mutantOf_flipped hstep (by rw [hx2, h2]) g3 g4⟩⟩)

theorem gaOffsprings_bred [LinearOrder K] {s : AlgState K (EaData K Tournament)} {n mu lam : Nat}
    (hv : s.data.Valid n mu lam) (ht : s.data.extra.Valid mu)
    {step : Nat → Prop} (hstep : ∀ d, (Sampler.standardBitMutation s.data.params).Count d → step d)
    {β : Type} {f : Unit → Alg (AlgState K (EaData K Tournament)) β}
    {Q : β → AlgState K (EaData K Tournament) → Prop} {E : AlgState K (EaData K Tournament) → Prop}
    (hQ : ∀ (e : Tournament) m p, e.Valid mu →
      EaData.Valid n mu lam { s.data with extra := e, mutation := m, offsprings := p } →
      (∀ y ∈ p.bvs, MutantOfMixture step s.data.parents.bvs y) →
      Alg.Holds (f ()) { s with data := { s.data with extra := e, mutation := m, offsprings := p } } Q E) :
    Alg.Holds (gaOffsprings >>= f) s Q E := by
  refine Alg.Holds.bind (P := fun _ t => ∃ (e : Tournament) (m : Nbh) (p : Pop K), e.Valid mu ∧
    EaData.Valid n mu lam { s.data with extra := e, mutation := m, offsprings := p } ∧
    (∀ y ∈ p.bvs, MutantOfMixture step s.data.parents.bvs y) ∧
    t = { s with data := { s.data with extra := e, mutation := m, offsprings := p } }) ?_ ?_
  · unfold gaOffsprings Pop.size
    refine Alg.Holds.get_bind (Alg.Holds.sim_bind (Sim.Post.forRange (I := fun i (r : Tournament × Nbh × Pop K) =>
      (r.1.Valid mu ∧ r.2.1.Valid (.standardBitMutation s.data.params) ∧ r.2.1.n = n ∧ r.2.2.Valid lam n) ∧
        BredBefore i (MutantOfMixture step s.data.parents.bvs) r.2.2.bvs)
      (Nat.zero_le _) ⟨⟨ht, hv.mutation, hv.bits, hv.offsprings⟩, .zero⟩ ?_) ?_)
    · intro i r _ hi hr
      exact gaOffspring_bred hstep hv.parents (by rw [← hv.offsprings.bvs]; exact hi) hr.1 hr.2
    · rintro r ⟨⟨h0, h1, h2, h3⟩, h4⟩
      exact Alg.Holds.modify ⟨r.1, r.2.1, r.2.2, h0, ⟨hv.mu_pos, hv.lam_pos, hv.parents, h3, h1, h2⟩,
        BredBefore.all (by rw [h3.bvs, ← hv.offsprings.bvs]; exact h4), rfl⟩
  · rintro _ _ ⟨e, m, p, h0, h, h1, rfl⟩
    exact hQ e m p h0 h h1

theorem mapOffspring_bred {step : Nat → Prop} {params : StandardParams}
    (hstep : ∀ d, (Sampler.standardBitMutation params).Count d → step d) {x : BV} {lam n : Nat} (hx : x.length = n) {i : Nat}
    (hi : i < lam) {s : Nbh × Pop K}
    (hs : s.1.Valid (.standardBitMutation params) ∧ s.1.n = n ∧ s.2.Valid lam n)
    (hb : BredBefore i (MutantOf step x) s.2.bvs) :
    Sim.Post (mapOffspring params x i s)
      (fun r => (r.1.Valid (.standardBitMutation params) ∧ r.1.n = n ∧ r.2.Valid lam n) ∧
        BredBefore (i + 1) (MutantOf step x) r.2.bvs) := by
  obtain ⟨h1, h2, h3⟩ := hs
  have hil : i < s.2.bvs.length := by rw [h3.bvs]; exact hi
  unfold mapOffspring
  refine Sim.Post.lift_bind (vget_eq hil) ?_
  refine (map_spec h1 (by rw [hx, h2]) (by rw [h3.bits _ (List.getElem_mem hil), h2])).bind ?_
  rintro ⟨b, y⟩ ⟨g1, g2, g3, g4⟩
  dsimp only at g1 g2 g3 g4 ⊢
  exact Sim.Post.lift_bind (vset_eq hil) (Sim.Post.pure ⟨⟨g2, by rw [g1]; exact h2, h3.setBv i (by rw [g4.1, hx])⟩,
    hb.set hil (mutantOf_flipped hstep (by rw [hx, h2]) g3 g4)⟩)

theorem twoRateOffsprings_bred {q : TwoRateParams} {s : AlgState K (TwoRateData K)} {n lam : Nat}
    (hv : s.data.Valid n lam) (hs : s.solution.1.length = n) (hallow : s.data.params.allowNoMutation = q.allowNoMutation)
    {β : Type} {f : Unit → Alg (AlgState K (TwoRateData K)) β}
    {Q : β → AlgState K (TwoRateData K) → Prop} {E : AlgState K (TwoRateData K) → Prop}
    (hQ : ∀ m p r, TwoRateData.Valid n lam ⟨p, m, r, s.data.rate⟩ → r.allowNoMutation = q.allowNoMutation →
      (∀ y ∈ p.bvs, MutantOf (fun d => 1 ≤ d ∨ q.allowNoMutation = true) s.solution.1 y) →
      Alg.Holds (f ()) { s with data := ⟨p, m, r, s.data.rate⟩ } Q E) :
    Alg.Holds (twoRateOffsprings q >>= f) s Q E := by
  refine Alg.Holds.bind (P := fun _ t => ∃ m p r, TwoRateData.Valid n lam ⟨p, m, r, s.data.rate⟩ ∧
    r.allowNoMutation = q.allowNoMutation ∧ (∀ y ∈ p.bvs, MutantOf (fun d => 1 ≤ d ∨ q.allowNoMutation = true) s.solution.1 y) ∧
    t = { s with data := ⟨p, m, r, s.data.rate⟩ }) ?_ ?_
  · unfold twoRateOffsprings Pop.size
    refine Alg.Holds.get_bind ?_
    dsimp only
    have hlen := hv.population.bvs
    have hlow : (s.data.params.setMutationRate (q.belowSqrt (s.data.rate / 2))).allowNoMutation = q.allowNoMutation := by
      rw [setMutationRate_allow, hallow]
    have hhigh : ((s.data.params.setMutationRate (q.belowSqrt (s.data.rate / 2))).setMutationRate
        (q.belowSqrt (s.data.rate * 2))).allowNoMutation = q.allowNoMutation := by rw [setMutationRate_allow, hlow]
    generalize s.data.params.setMutationRate (q.belowSqrt (s.data.rate / 2)) = low at hlow hhigh ⊢
    generalize low.setMutationRate (q.belowSqrt (s.data.rate * 2)) = high at hhigh ⊢
    have hstep : ∀ params : StandardParams, params.allowNoMutation = q.allowNoMutation →
        ∀ d, (Sampler.standardBitMutation params).Count d → 1 ≤ d ∨ q.allowNoMutation = true := by
      rintro params h d (hd | ⟨_, hd⟩)
      · exact .inl hd
      · exact .inr (by rw [← h]; exact hd)
    refine Alg.Holds.sim_bind (Sim.Post.forRange (I := fun i (r : Nbh × Pop K) =>
      (r.1.Valid (.standardBitMutation low) ∧ r.1.n = n ∧ r.2.Valid lam n) ∧
        BredBefore i (MutantOf (fun d => 1 ≤ d ∨ q.allowNoMutation = true) s.solution.1) r.2.bvs) (Nat.zero_le _)
        ⟨⟨standard_valid hv.mutation, hv.bits, hv.population⟩, .zero⟩ ?_) ?_
    · intro i r _ hi hr
      exact mapOffspring_bred (hstep _ hlow) hs (by omega) hr.1 hr.2
    · rintro r ⟨⟨h1, h2, h3⟩, h4⟩
      refine Alg.Holds.sim_bind (Sim.Post.forRange (I := fun i (r : Nbh × Pop K) =>
        (r.1.Valid (.standardBitMutation high) ∧ r.1.n = n ∧ r.2.Valid lam n) ∧
        BredBefore i (MutantOf (fun d => 1 ≤ d ∨ q.allowNoMutation = true) s.solution.1) r.2.bvs) (Nat.div_le_self _ _)
          ⟨⟨standard_valid h1, h2, h3⟩, h4⟩ ?_) ?_
      · intro i r _ hi hr
        exact mapOffspring_bred (hstep _ hhigh) hs (by omega) hr.1 hr.2
      · rintro r ⟨⟨h1, h2, h3⟩, h4⟩
        exact Alg.Holds.modify ⟨r.1, r.2, _, ⟨hv.lam_pos, h3, h1, h2⟩, hhigh,
          BredBefore.all (by rw [h3.bvs, ← hlen]; exact h4), rfl⟩
  · rintro _ _ ⟨m, p, r, h, h1, h2, rfl⟩
    exact hQ m p r h h1 h2

/-! ## Selection -/

theorem individuals_fst {size n : Nat} {p : Pop K} (h : p.Valid size n) : p.individuals.map Prod.fst = p.bvs := by
  unfold Pop.individuals
  exact List.map_fst_zip (by rw [h.bvs, h.values])

theorem selectsBest_among [LinearOrder K] {mu n : Nat} {pool : List (BV × K)} {p : Pop K} (h : SelectsBest mu n pool p) :
    p.individuals.length = mu ∧ BestAmong pool p.individuals := by
  obtain ⟨others, h1, h2⟩ := h.best
  exact ⟨h.valid.individuals_length, others, h1, fun a ha b hb => h2 b hb a ha⟩

theorem selectsBest_head [LinearOrder K] {mu n : Nat} {pool : List (BV × K)} {p : Pop K} (h : SelectsBest mu n pool p)
    (hmu : 0 < mu) {x : BV} {v : K} (h1 : p.bestBv 0 = ok x) (h2 : p.bestValue 0 = ok v) : (x, v) ∈ p.individuals := by
  obtain ⟨k, x', v', _, _, e2, e3, _, e5, e6⟩ := h.valid.ranked_read hmu
  rw [e5] at h1
  rw [e6] at h2
  cases h1
  cases h2
  exact List.mem_of_getElem? (individuals_getElem?.mpr ⟨e2, e3⟩)

theorem Improves.chosen [LinearOrder K] {old new : BV × K} {generation chosen chosen' : List (BV × K)}
    (h : Improves old generation chosen new) (hc : ∀ c ∈ chosen, c ∈ chosen') : Improves old generation chosen' new := by
  rcases h with h | ⟨h1, h2, h3⟩
  · exact .inl h
  · exact .inr ⟨h1, hc _ h2, h3⟩

theorem length_evaluated (val : BV → K) (bvs : List BV) : (evaluated val bvs).length = bvs.length := by
  unfold evaluated
  exact List.length_map _

theorem evaluated_bred {val : BV → K} {bvs : List BV} {B : BV → Prop} (h : ∀ y ∈ bvs, B y) :
    ∀ c ∈ evaluated val bvs, B c.1 := by
  intro c hc
  obtain ⟨x, hx, rfl⟩ := List.mem_map.mp hc
  exact h x hx

theorem commaGeneration_bred [LinearOrder K] {τ : Type} {env : Env K} {n mu lam : Nat} {val : BV → K}
    (henv : env.Computes n val) (hle : mu ≤ lam) {t : AlgState K (EaData K τ)} (hv : t.data.Valid n mu lam)
    {Q : Unit → AlgState K (EaData K τ) → Prop} {E : List (BV × K) → BV × K → Prop}
    (hQ : ∀ p o sol, EaData.Valid n mu lam { t.data with parents := p, offsprings := o } →
      SelectsBest mu n (evaluated val t.data.offsprings.bvs) p → Improves t.solution (evaluated val t.data.offsprings.bvs) p.individuals sol →
      Q () { t with solution := sol, calls := t.calls ++ evaluated val t.data.offsprings.bvs, data := { t.data with parents := p, offsprings := o } })
    (hE : ∀ k, k < lam → E (t.calls ++ evaluated val (t.data.offsprings.bvs.take k)) t.solution) :
    Alg.Holds (do
        popEvaluate env (offspringsLens K τ)
        applyComma
        popUpdateSolution (parentsLens K τ)) t Q (fun u => E u.calls u.solution) := by
  refine Alg.Holds.bind (P := fun _ u => u = { t with
      calls := t.calls ++ evaluated val t.data.offsprings.bvs
      data := { t.data with
        offsprings := { t.data.offsprings with values := t.data.offsprings.bvs.map val } } })
    (popEvaluate_holds (L := offspringsLens K τ) (p := t.data.offsprings) henv rfl hv.offsprings rfl ?_) ?_
  · intro k values hk _
    exact hE k hk
  · rintro _ _ rfl
    have ho := hv.offsprings.withValues (values := t.data.offsprings.bvs.map val) (by simp [hv.offsprings.bvs])
    unfold applyComma
    refine Alg.Holds.bind (P := fun _ u => ∃ p o, SelectsBest mu n (evaluated val t.data.offsprings.bvs) p ∧
      o.Valid lam n ∧ u = { t with
        calls := t.calls ++ evaluated val t.data.offsprings.bvs
        data := { t.data with parents := p, offsprings := o } }) ?_ ?_
    · refine Alg.Holds.get_bind (Alg.Holds.sim_bind (comma_select_spec hv.mu_pos hv.parents ho ?_) ?_)
      · unfold commaNew Pop.size
        dsimp only
        rw [hv.parents.bvs, hv.offsprings.bvs, if_pos hle]
      · rintro ⟨p, o⟩ ⟨h1, h2⟩
        rw [evaluated_individuals] at h1
        exact Alg.Holds.modify ⟨p, o, h1, h2, rfl⟩
    · rintro _ _ ⟨p, o, h1, h2, rfl⟩
      obtain ⟨x, v, e1, e2, e3, e4⟩ := selectsBest_first h1 hv.mu_pos
      have hd : EaData.Valid n mu lam { t.data with parents := p, offsprings := o } :=
        ⟨hv.mu_pos, hv.lam_pos, h1.valid, h2, hv.mutation, hv.bits⟩
      refine popUpdateSolution_holds (L := parentsLens K τ) (x := x) (v := v) (by exact e1) (by exact e2) ?_
      split
      · rename_i hlt
        exact hQ p o (x, v) hd h1 (.inr ⟨e3, selectsBest_head h1 hv.mu_pos e1 e2, hlt, e4⟩)
      · rename_i hlt
        exact hQ p o t.solution hd h1 (.inl ⟨rfl, fun c hc => le_trans (e4 c hc) (not_lt.mp hlt)⟩)

theorem plusGeneration_bred [LinearOrder K] {env : Env K} {n mu lam : Nat} {val : BV → K}
    (henv : env.Computes n val) {t : AlgState K (EaData K (Pop K))} (hv : t.data.Valid n mu lam)
    (hpool : t.data.extra.Valid (mu + lam) n) (hpar : ∀ c ∈ t.data.parents.individuals, c.2 ≤ t.solution.2)
    {Q : Unit → AlgState K (EaData K (Pop K)) → Prop} {E : List (BV × K) → BV × K → Prop}
    (hQ : ∀ p o pool sol, EaData.Valid n mu lam { t.data with parents := p, offsprings := o, extra := pool } →
      pool.Valid (mu + lam) n →
      SelectsBest mu n (t.data.parents.individuals ++ evaluated val t.data.offsprings.bvs) p →
      Improves t.solution (evaluated val t.data.offsprings.bvs) p.individuals sol →
      Q () { t with solution := sol, calls := t.calls ++ evaluated val t.data.offsprings.bvs, data := { t.data with parents := p, offsprings := o, extra := pool } })
    (hE : ∀ k, k < lam → E (t.calls ++ evaluated val (t.data.offsprings.bvs.take k)) t.solution) :
    Alg.Holds (do
        popEvaluate env (offspringsLens K (Pop K))
        applyPlus
        popUpdateSolution (parentsLens K (Pop K))) t Q (fun u => E u.calls u.solution) := by
  refine Alg.Holds.bind (P := fun _ u => u = { t with
      calls := t.calls ++ evaluated val t.data.offsprings.bvs
      data := { t.data with
        offsprings := { t.data.offsprings with values := t.data.offsprings.bvs.map val } } })
    (popEvaluate_holds (L := offspringsLens K (Pop K)) (p := t.data.offsprings) henv rfl hv.offsprings rfl ?_) ?_
  · intro k values hk _
    exact hE k hk
  · rintro _ _ rfl
    have ho := hv.offsprings.withValues (values := t.data.offsprings.bvs.map val) (by simp [hv.offsprings.bvs])
    refine Alg.Holds.bind (P := fun _ u => ∃ p o pool,
      SelectsBest mu n (t.data.parents.individuals ++ evaluated val t.data.offsprings.bvs) p ∧ o.Valid lam n ∧
      pool.Valid (mu + lam) n ∧ u = { t with
        calls := t.calls ++ evaluated val t.data.offsprings.bvs
        data := { t.data with parents := p, offsprings := o, extra := pool } }) ?_ ?_
    · unfold applyPlus
      refine Alg.Holds.get_bind (Alg.Holds.sim_bind (plus_select_spec hv.mu_pos hv.parents ho hpool) ?_)
      rintro ⟨p, o, pool⟩ ⟨h1, h2, h3⟩
      rw [evaluated_individuals] at h1
      exact Alg.Holds.modify ⟨p, o, pool, h1, h2, h3, rfl⟩
    · rintro _ _ ⟨p, o, pool, h1, h2, h3, rfl⟩
      obtain ⟨x, v, e1, e2, e3, e4⟩ := selectsBest_first h1 hv.mu_pos
      have hd : EaData.Valid n mu lam { t.data with parents := p, offsprings := o, extra := pool } :=
        ⟨hv.mu_pos, hv.lam_pos, h1.valid, h2, hv.mutation, hv.bits⟩
      have e5 : ∀ c ∈ evaluated val t.data.offsprings.bvs, c.2 ≤ v := fun c hc => e4 c (List.mem_append_right _ hc)
      refine popUpdateSolution_holds (L := parentsLens K (Pop K)) (x := x) (v := v) (by exact e1) (by exact e2) ?_
      split
      · rename_i hlt
        refine hQ p o pool (x, v) hd h3 h1 (.inr ⟨?_, selectsBest_head h1 hv.mu_pos e1 e2, hlt, e5⟩)
        rcases List.mem_append.mp e3 with h | h
        · exact absurd (hpar _ h) (not_le.mpr hlt)
        · exact h
      · rename_i hlt
        exact hQ p o pool t.solution hd h3 h1 (.inl ⟨rfl, fun c hc => le_trans (e5 c hc) (not_lt.mp hlt)⟩)

/-- The start of the algorithms which evaluate their first parents. -/
theorem firstParents_bred [LinearOrder K] {τ : Type} {env : Env K} {n mu lam : Nat} {val : BV → K}
    (henv : env.Computes n val) {s : AlgState K (EaData K τ)} (hv : s.data.Valid n mu lam) (hcalls : s.calls = [])
    {Q : Unit → AlgState K (EaData K τ) → Prop} {E : AlgState K (EaData K τ) → Prop}
    (hQ : ∀ (p : Pop K) sol, EaData.Valid n mu lam { s.data with parents := p } → BestOf p.individuals sol →
      Q () { s with solution := sol, calls := p.individuals, data := { s.data with parents := p } })
    (hE : ∀ u : AlgState K (EaData K τ), u.calls.length < mu → E u) :
    Alg.Holds (do
        popRandom (parentsLens K τ)
        popEvaluate env (parentsLens K τ)
        popSort (parentsLens K τ)
        popSetSolution (parentsLens K τ)) s Q E := by
  refine Alg.Holds.bind (P := fun _ t => ∃ q : Pop K, q.Valid mu n ∧
    t = { s with data := { s.data with parents := q } }) (popRandom_holds (L := parentsLens K τ) hv.parents
      (fun q hq => ⟨q, hq, rfl⟩)) ?_
  rintro _ _ ⟨q, hq, rfl⟩
  refine Alg.Holds.bind (P := fun _ u => u = { s with
      calls := evaluated val q.bvs
      data := { s.data with parents := { q with values := q.bvs.map val } } })
    (popEvaluate_holds (L := parentsLens K τ) (p := q) henv rfl hq (by rw [hcalls, List.nil_append]; rfl) ?_) ?_
  · intro k values hk _
    refine hE _ ?_
    rw [hcalls, List.nil_append, length_evaluated, List.length_take]
    omega
  · rintro _ _ rfl
    have hq' := hq.withValues (values := q.bvs.map val) (by simp [hq.bvs])
    refine Alg.Holds.bind (P := fun _ u => ∃ r : Pop K, r.Valid mu n ∧ r.individuals = evaluated val q.bvs ∧ r.Sorted ∧
      u = { s with calls := evaluated val q.bvs, data := { s.data with parents := r } })
      (popSort_holds (L := parentsLens K τ) (p := { q with values := q.bvs.map val }) rfl hq'
        (fun r h1 h2 h3 h4 => ⟨r, h1, by rw [h3, evaluated_individuals], h4, rfl⟩)) ?_
    rintro _ _ ⟨r, h1, h2, h3, rfl⟩
    obtain ⟨x, v, e1, e2, e3, e4⟩ := Pop.Sorted.first h1 h3 hv.mu_pos
    unfold popSetSolution
    refine Alg.Holds.get_bind (Alg.Holds.lift_bind e1 (Alg.Holds.lift_bind e2 (Alg.Holds.modify ?_)))
    rw [← h2]
    exact hQ r (x, v) ⟨hv.mu_pos, hv.lam_pos, h1, hv.offsprings, hv.mutation, hv.bits⟩ ⟨e3, e4⟩

/-! ## The algorithms -/

/-- The number of bits flipped by the mutation operator with the parameters of the algorithm. -/
def MutationParams.Count (q : MutationParams) (d : Nat) : Prop := 1 ≤ d ∨ (q.belowSqrt = true ∧ q.allowNoMutation = true)

theorem setMutation_count {p : StandardParams} (hp : p.rejection = false) {q : MutationParams} {d : Nat}
    (h : (Sampler.standardBitMutation ((p.setMutationRate q.belowSqrt).setAllowNoMutation q.allowNoMutation)).Count d) :
    q.Count d := by
  rcases h with h | ⟨h1, h2⟩
  · exact .inl h
  · refine .inr ⟨?_, h2⟩
    unfold StandardParams.setAllowNoMutation StandardParams.setMutationRate at h1
    split at h1
    · assumption
    · rw [hp] at h1
      cases h1

/-- The parameters of the mutation operator are those of the algorithm. -/
def EaData.Mutates {τ : Type} (q : MutationParams) (d : EaData K τ) : Prop :=
  ∀ c, (Sampler.standardBitMutation d.params).Count c → q.Count c

theorem setMutation_bred {τ : Type} {q : MutationParams} {s : AlgState K (EaData K τ)} {n mu lam : Nat}
    (hv : s.data.Valid n mu lam) (hr : s.data.params.rejection = false) {β : Type}
    {f : Unit → Alg (AlgState K (EaData K τ)) β}
    {Q : β → AlgState K (EaData K τ) → Prop} {E : AlgState K (EaData K τ) → Prop}
    (hQ : ∀ p, EaData.Valid n mu lam { s.data with params := p } → EaData.Mutates q { s.data with params := p } →
      Alg.Holds (f ()) { s with data := { s.data with params := p } } Q E) :
    Alg.Holds (setMutation q >>= f) s Q E := by
  unfold setMutation
  exact Alg.Holds.modify_bind (hQ _
    ⟨hv.mu_pos, hv.lam_pos, hv.parents, hv.offsprings, standard_valid hv.mutation, hv.bits⟩ (fun _ h => setMutation_count hr h))

section
variable [LinearOrder K]

/-- The generations of the (mu + lambda) EA. -/
def PlusGenerations (q : MutationParams) (mu lam : Nat) (calls : List (BV × K)) (kept : List (BV × K)) (sol : BV × K) : Prop :=
  HasGenerations mu StartsWithAll lam (fun kept _ => MutantOfParent q.Count (kept.map Prod.fst)) (SurvivePlus mu) calls kept sol

/-- The same with an unfinished generation. -/
def PlusUnfinished (q : MutationParams) (mu lam : Nat) (calls : List (BV × K)) (sol : BV × K) : Prop :=
  HasUnfinished mu StartsWithAll lam (fun kept _ => MutantOfParent q.Count (kept.map Prod.fst)) (SurvivePlus mu) calls sol

theorem plusGenerations_le {q : MutationParams} {mu lam : Nat} {calls kept : List (BV × K)} {sol : BV × K}
    (h : PlusGenerations q mu lam calls kept sol) : ∀ c ∈ kept, c.2 ≤ sol.2 := by
  obtain ⟨initial, later, kept₀, sol₀, _, _, ⟨rfl, h1⟩, h2⟩ := h
  clear * - h1 h2
  induction h2 with
  | start => exact h1.2
  | next _ _ _ hs hi ih =>
    rename_i gen kept kept' sol sol' _ _ _
    obtain ⟨rfl, _, others, hperm, _⟩ := hs
    have hle : sol.2 ≤ sol'.2 := by
      rcases hi with ⟨rfl, _⟩ | ⟨_, _, hlt, _⟩
      · exact le_refl _
      · exact le_of_lt hlt
    intro c hc
    rcases List.mem_append.mp (hperm.mem_iff.mp (List.mem_append_left others hc)) with h | h
    · exact le_trans (ih c h) hle
    · rcases hi with ⟨rfl, h'⟩ | ⟨_, _, _, h'⟩
      · exact h' c h
      · exact h' c h

theorem muPlus_generations {env : Env K} {n mu lam : Nat} {val : BV → K} (henv : env.Computes n val)
    (q : MutationParams) {s : AlgState K (EaData K (Pop K))} (hv : s.data.Valid n mu lam)
    (hpool : s.data.extra.Valid (mu + lam) n) (hr : s.data.params.rejection = false) (hcalls : s.calls = []) (numIterations : Int) (fuel : Nat) :
    Alg.Holds (muPlusMaximize env q numIterations fuel) s
      (fun _ t => ∃ kept, PlusGenerations q mu lam t.calls kept t.solution)
      (fun t => t.calls.length < mu ∨ PlusUnfinished q mu lam t.calls t.solution) := by
  refine (algLoop_holds (fun t => t.data.Valid n mu lam ∧ t.data.extra.Valid (mu + lam) n ∧ t.data.Mutates q ∧
    PlusGenerations q mu lam t.calls t.data.parents.individuals t.solution) _ ?_ ?_ numIterations fuel).mono
    (fun _ t h => ⟨_, h.2.2.2⟩) (fun _ h => h)
  · rintro t ⟨h1, h2, h3, h4⟩ _
    unfold muPlusIterate
    refine makeOffsprings_bred h1 h3 (fun m p hmp hbred => ?_)
    have hbred' : ∀ y ∈ p.bvs, MutantOfParent q.Count (t.data.parents.individuals.map Prod.fst) y := by
      rw [individuals_fst h1.parents]
      exact hbred
    refine plusGeneration_bred henv (by exact hmp) (by exact h2) (by exact plusGenerations_le h4) ?_ (E := fun calls sol => calls.length < mu ∨ PlusUnfinished q mu lam calls sol) ?_
    · intro p' o pool sol g1 g2 g3 g4
      refine ⟨g1, g2, h3, ?_⟩
      exact HasGenerations.next h4 (by rw [length_evaluated]; exact hmp.offsprings.bvs) (evaluated_bred hbred')
        ⟨rfl, selectsBest_among g3⟩ g4
    · intro k hk
      refine .inr (HasGenerations.unfinished h4 ?_ (evaluated_bred fun y hy => hbred' y (List.mem_of_mem_take hy)))
      rw [length_evaluated, List.length_take]
      omega
  · unfold muPlusInit
    refine setMutation_bred hv hr (fun p hp hm => ?_)
    refine firstParents_bred (lam := lam) henv (by exact hp) (by exact hcalls) ?_ (fun u hu => .inl hu)
    intro r sol hr hb
    exact ⟨hr, hpool, hm, HasGenerations.begin hr.parents.individuals_length ⟨rfl, hb⟩⟩

/-- The generations of the (mu, lambda) EA. -/
def CommaGenerations (q : MutationParams) (n mu lam : Nat) (calls : List (BV × K)) (kept : List BV) (sol : BV × K) : Prop :=
  HasGenerations 1 (StartsUnevaluated n mu) lam (fun kept _ => MutantOfParent q.Count kept) (SurviveComma mu) calls kept sol

/-- The same with an unfinished generation. -/
def CommaUnfinished (q : MutationParams) (n mu lam : Nat) (calls : List (BV × K)) (sol : BV × K) : Prop :=
  HasUnfinished 1 (StartsUnevaluated n mu) lam (fun kept _ => MutantOfParent q.Count kept) (SurviveComma mu) calls sol

theorem muComma_generations {env : Env K} {n mu lam : Nat} {val : BV → K} (henv : env.Computes n val)
    (q : MutationParams) {s : AlgState K (EaData K Unit)} (hs : s.solution.1.length = n)
    (hv : s.data.Valid n mu lam) (hle : mu ≤ lam) (hr : s.data.params.rejection = false) (hcalls : s.calls = []) (numIterations : Int) (fuel : Nat) :
    Alg.Holds (muCommaMaximize env q numIterations fuel) s
      (fun _ t => ∃ kept, CommaGenerations q n mu lam t.calls kept t.solution)
      (fun t => t.calls.length < 1 ∨ CommaUnfinished q n mu lam t.calls t.solution) := by
  refine (algLoop_holds (fun t => t.data.Valid n mu lam ∧ t.data.Mutates q ∧
    CommaGenerations q n mu lam t.calls t.data.parents.bvs t.solution) _ ?_ ?_ numIterations fuel).mono
    (fun _ t h => ⟨_, h.2.2⟩) (fun _ h => h)
  · rintro t ⟨h1, h3, h4⟩ _
    unfold muCommaIterate
    refine makeOffsprings_bred h1 h3 (fun m p hmp hbred => ?_)
    refine commaGeneration_bred henv hle (by exact hmp) ?_ (E := fun calls sol => calls.length < 1 ∨ CommaUnfinished q n mu lam calls sol) ?_
    · intro p' o sol g1 g3 g4
      refine ⟨g1, h3, ?_⟩
      obtain ⟨g5, g6⟩ := selectsBest_among g3
      exact HasGenerations.next h4 (by rw [length_evaluated]; exact hmp.offsprings.bvs) (evaluated_bred hbred)
        ⟨(individuals_fst g1.parents).symm, g5, g6⟩ g4
    · intro k hk
      refine .inr (HasGenerations.unfinished h4 ?_ (evaluated_bred fun y hy => hbred y (List.mem_of_mem_take hy)))
      rw [length_evaluated, List.length_take]
      omega
  · unfold muCommaInit
    refine setMutation_bred hv hr (fun p hp hm => ?_)
    refine Alg.Holds.bind (P := fun _ t => ∃ r : Pop K, r.Valid mu n ∧
      t = { s with data := { s.data with params := p, parents := r } }) (popRandom_holds (L := parentsLens K Unit)
        (size := mu) (n := n) (by exact hp.parents) (by intro r hr; exact ⟨r, hr, rfl⟩)) ?_
    rintro _ _ ⟨r, hr, rfl⟩
    refine randomSolution_holds henv (by exact hs) ?_ ?_
    · intro x hx
      refine ⟨⟨hp.mu_pos, hp.lam_pos, hr, hp.offsprings, hp.mutation, hp.bits⟩, hm, ?_⟩
      simp only [hcalls]
      exact HasGenerations.begin rfl ⟨hr.bvs, hr.bits, rfl⟩
    · intro x hx
      left
      simp only [hcalls]
      exact Nat.zero_lt_one

/-- The generations of the genetic algorithm. -/
def GaGenerations (q : MutationParams) (mu : Nat) (calls kept : List (BV × K)) (sol : BV × K) : Prop :=
  HasGenerations mu StartsWithAll mu (fun kept _ => MutantOfMixture q.Count (kept.map Prod.fst)) SurviveAll calls kept sol

/-- The same with an unfinished generation. -/
def GaUnfinished (q : MutationParams) (mu : Nat) (calls : List (BV × K)) (sol : BV × K) : Prop :=
  HasUnfinished mu StartsWithAll mu (fun kept _ => MutantOfMixture q.Count (kept.map Prod.fst)) SurviveAll calls sol

omit [LinearOrder K] in
theorem initTournament_holds {mu n lam : Nat} {s : AlgState K (EaData K Tournament)} {size : Int} (hv : s.data.Valid n mu lam)
    (hperm : s.data.extra.perm.Perm (List.range mu)) (hsize : 2 ≤ size ∧ size < mu) {β : Type}
    {f : Unit → Alg (AlgState K (EaData K Tournament)) β} {Q : β → AlgState K (EaData K Tournament) → Prop}
    {E : AlgState K (EaData K Tournament) → Prop}
    (hQ : ∀ e : Tournament, e.Valid mu → Alg.Holds (f ()) { s with data := { s.data with extra := e } } Q E) :
    Alg.Holds (initTournament size >>= f) s Q E := by
  refine Alg.Holds.bind (P := fun _ t => ∃ e : Tournament, e.Valid mu ∧
    t = { s with data := { s.data with extra := e } }) ?_ (by rintro _ _ ⟨e, he, rfl⟩; exact hQ e he)
  unfold initTournament
  refine Alg.Holds.get_bind ?_
  unfold Tournament.setSize Pop.size
  rw [hv.parents.bvs, if_pos hsize]
  refine Alg.Holds.lift_bind rfl ?_
  unfold Tournament.init
  refine Alg.Holds.sim_bind (P := fun e => e.Valid mu) ?_ (fun e he => Alg.Holds.modify ⟨e, he, rfl⟩)
  refine (Sim.Post.shuffle _).bind (fun perm hp => Sim.Post.pure ?_)
  refine ⟨hp.trans hperm, ?_, by simp, ?_⟩ <;> dsimp only <;> omega

theorem ga_generations {env : Env K} {n mu : Nat} {val : BV → K} (henv : env.Computes n val)
    (q : GaParams) (hsize : 2 ≤ q.tournamentSize ∧ q.tournamentSize < mu) {s : AlgState K (EaData K Tournament)}
    (hv : s.data.Valid n mu mu) (hperm : s.data.extra.perm.Perm (List.range mu)) (hr : s.data.params.rejection = false) (hcalls : s.calls = [])
    (numIterations : Int) (fuel : Nat) :
    Alg.Holds (gaMaximize env q numIterations fuel) s
      (fun _ t => ∃ kept, GaGenerations q.toMutationParams mu t.calls kept t.solution)
      (fun t => t.calls.length < mu ∨ GaUnfinished q.toMutationParams mu t.calls t.solution) := by
  refine (algLoop_holds (fun t => t.data.Valid n mu mu ∧ t.data.extra.Valid mu ∧ t.data.Mutates q.toMutationParams ∧
    GaGenerations q.toMutationParams mu t.calls t.data.parents.individuals t.solution) _ ?_ ?_ numIterations fuel).mono
    (fun _ t h => ⟨_, h.2.2.2⟩) (fun _ h => h)
  · rintro t ⟨h1, h2, h3, h4⟩ _
    unfold gaIterate
    refine gaOffsprings_bred h1 h2 h3 (fun e m p he hmp hbred => ?_)
    have hbred' : ∀ y ∈ p.bvs, MutantOfMixture q.toMutationParams.Count (t.data.parents.individuals.map Prod.fst) y := by
      rw [individuals_fst h1.parents]
      exact hbred
    have hlen : (evaluated val p.bvs).length = mu := by rw [length_evaluated]; exact hmp.offsprings.bvs
    refine commaGeneration_bred henv (le_refl _) (by exact hmp) ?_ (E := fun calls sol => calls.length < mu ∨ GaUnfinished q.toMutationParams mu calls sol) ?_
    · intro p' o sol g1 g3 g4
      refine ⟨g1, he, h3, ?_⟩
      obtain ⟨g5, others, g6, _⟩ := selectsBest_among g3
      have h0 : others = [] := by
        have := g6.length_eq
        rw [List.length_append] at this
        exact List.length_eq_zero_iff.mp (by simp only at hlen this; omega)
      rw [h0, List.append_nil] at g6
      exact HasGenerations.next h4 hlen (evaluated_bred hbred') ⟨rfl, g6⟩ (g4.chosen fun c h => g6.mem_iff.mp h)
    · intro k hk
      refine .inr (HasGenerations.unfinished h4 ?_ (evaluated_bred fun y hy => hbred' y (List.mem_of_mem_take hy)))
      rw [length_evaluated, List.length_take]
      omega
  · unfold gaInit
    refine initTournament_holds hv hperm hsize (fun e he => ?_)
    have hv' : EaData.Valid n mu mu { s.data with extra := e } :=
      ⟨hv.mu_pos, hv.lam_pos, hv.parents, hv.offsprings, hv.mutation, hv.bits⟩
    refine setMutation_bred (s := { s with data := { s.data with extra := e } }) hv' (by exact hr) (fun p hp hm => ?_)
    refine firstParents_bred (lam := mu) henv (by exact hp) (by exact hcalls) ?_ (fun u hu => .inl hu)
    intro r sol hr hb
    exact ⟨hr, he, hm, HasGenerations.begin hr.parents.individuals_length ⟨rfl, hb⟩⟩

/-- The generations of the two-rate (1 + lambda) EA, which keeps nothing but the solution. -/
def TwoRateGenerations (q : TwoRateParams) (lam : Nat) (calls : List (BV × K)) (sol : BV × K) : Prop :=
  HasGenerations 1 (fun initial (_ : Unit) sol => initial = [sol]) lam
    (fun _ sol => MutantOf (fun d => 1 ≤ d ∨ q.allowNoMutation = true) sol.1) SurviveNone calls () sol

/-- The same with an unfinished generation. -/
def TwoRateUnfinished (q : TwoRateParams) (lam : Nat) (calls : List (BV × K)) (sol : BV × K) : Prop :=
  HasUnfinished 1 (fun initial (_ : Unit) sol => initial = [sol]) lam
    (fun _ sol => MutantOf (fun d => 1 ≤ d ∨ q.allowNoMutation = true) sol.1) SurviveNone calls sol

theorem twoRate_generations {env : Env K} {n lam : Nat} {val : BV → K} (henv : env.Computes n val)
    {q : TwoRateParams} (hq : q.Sound) {s : AlgState K (TwoRateData K)} (hs : s.solution.1.length = n)
    (hv : s.data.Valid n lam) (hcalls : s.calls = []) (numIterations : Int) (fuel : Nat) :
    Alg.Holds (twoRateMaximize env q numIterations fuel) s
      (fun _ t => TwoRateGenerations q lam t.calls t.solution)
      (fun t => t.calls.length < 1 ∨ TwoRateUnfinished q lam t.calls t.solution) := by
  refine (algLoop_holds (fun t => TwoRateInv n lam q t ∧ t.solution.1.length = n ∧
    t.data.params.allowNoMutation = q.allowNoMutation ∧ TwoRateGenerations q lam t.calls t.solution) _ ?_ ?_ numIterations fuel).mono
    (fun _ t h => h.2.2.2) (fun _ h => h)
  · rintro t ⟨⟨ht, hr1, hr2⟩, hl, ha, h4⟩ _
    unfold twoRateIterate
    refine twoRateOffsprings_bred ht hl ha (fun m p r hmp hr hbred => ?_)
    have hpv : p.Valid lam n := hmp.population
    refine Alg.Holds.bind (P := fun _ u => u = { t with
        calls := t.calls ++ evaluated val p.bvs
        data := ⟨{ p with values := p.bvs.map val }, m, r, t.data.rate⟩ })
      (popEvaluate_holds (L := twoRateLens K) (p := p) henv rfl hpv rfl ?_) ?_
    · intro k values hk _
      refine .inr (HasGenerations.unfinished h4 ?_ (evaluated_bred fun y hy => hbred y (List.mem_of_mem_take hy)))
      rw [length_evaluated, List.length_take]
      omega
    · rintro _ _ rfl
      have hp' := hpv.withValues (values := p.bvs.map val) (by simp [hpv.bvs])
      refine Alg.Holds.bind (P := fun _ u => ∃ w : Pop K, w.Valid lam n ∧ w.individuals = evaluated val p.bvs ∧
          w.Sorted ∧ u = { t with calls := t.calls ++ evaluated val p.bvs, data := ⟨w, m, r, t.data.rate⟩ })
        (popSort_holds (L := twoRateLens K) (p := { p with values := p.bvs.map val }) rfl hp'
          (fun w h1 h2 h3 h4 => ⟨w, h1, by rw [h3, evaluated_individuals], h4, rfl⟩)) ?_
      rintro _ _ ⟨w, h1, h2, h3, rfl⟩
      obtain ⟨x, v, e1, e2, e3, e4⟩ := Pop.Sorted.first h1 h3 ht.lam_pos
      rw [h2] at e3 e4
      refine popUpdateSolution_bind (L := twoRateLens K) (x := x) (v := v) (by exact e1) (by exact e2) ?_
      have hst := strictStep_update (s := t)
        (t := { t with calls := t.calls ++ evaluated val p.bvs, data := (⟨w, m, r, t.data.rate⟩ : TwoRateData K) })
        (x := x) (v := v) rfl rfl (fun _ => e3) (fun c hc => le_trans (e4 c hc) (le_max_left _ _))
      have hd : (if t.solution.2 < v
        then { t with calls := t.calls ++ evaluated val p.bvs, data := (⟨w, m, r, t.data.rate⟩ : TwoRateData K), solution := (x, v) }
        else { t with calls := t.calls ++ evaluated val p.bvs, data := (⟨w, m, r, t.data.rate⟩ : TwoRateData K) }).data
          = ⟨w, m, r, t.data.rate⟩ := by split <;> rfl
      dsimp only at hst hd ⊢
      generalize (if t.solution.2 < v
        then { t with calls := t.calls ++ evaluated val p.bvs, data := (⟨w, m, r, t.data.rate⟩ : TwoRateData K), solution := (x, v) }
        else { t with calls := t.calls ++ evaluated val p.bvs, data := (⟨w, m, r, t.data.rate⟩ : TwoRateData K) }) = u
        at hst hd
      have hlu : u.solution.1.length = n := by
        rcases hst.2 with ⟨h, _⟩ | ⟨h, _⟩
        · rw [h]; exact hl
        · exact (evaluated_true hpv.bits _ h).1
      unfold twoRateSetRate
      refine Alg.Holds.get_bind (Alg.Holds.sim_bind Sim.Post.uniform (fun number _ => ?_))
      rw [hd]
      obtain ⟨k, x', v', hk, g1, g2, g3, g4, g5, g6⟩ := h1.ranked_read ht.lam_pos
      have hbi : w.bestIndex 0 = ok k := by
        unfold Pop.bestIndex
        have : 0 < w.perm.length := by rw [h1.perm_length]; exact ht.lam_pos
        rw [assert_pos (decide_eq_true this), ok_bind, vget_eq this]
        rw [List.getElem?_eq_getElem this] at g1
        exact congrArg ok (Option.some.inj g1)
      refine Alg.Holds.lift_bind hbi ?_
      refine Alg.Holds.returns_bind (twoRate_update_bounds hq.min_nonneg hr1 hr2 _ _ _) ?_
      rintro rate ⟨hb1, hb2⟩
      refine Alg.Holds.modify ⟨⟨?_, hb1, hb2⟩, hlu, ?_, ?_⟩
      · rw [hd]
        exact ⟨ht.lam_pos, h1, hmp.mutation, hmp.bits⟩
      · rw [hd]
        exact hr
      · show TwoRateGenerations q lam u.calls u.solution
        rw [hst.1]
        exact HasGenerations.next h4 (by rw [length_evaluated]; exact hpv.bvs) (evaluated_bred hbred) rfl hst.improves
  · unfold twoRateInit
    refine Alg.Holds.bind (P := fun _ t => ∃ x : BV, x.length = n ∧
      t = { s with solution := (x, val x), calls := s.calls ++ [(x, val x)] })
      (randomSolution_holds henv hs (fun x hx => ⟨x, hx, rfl⟩) (fun x hx => ?_)) ?_
    · left
      simp only [hcalls]
      exact Nat.zero_lt_one
    · rintro _ _ ⟨x, hx, rfl⟩
      refine Alg.Holds.modify ⟨⟨⟨hv.lam_pos, hv.population, standard_valid hv.mutation, hv.bits⟩, hq.min_init,
        hq.init_max⟩, hx, ?_, ?_⟩
      · rfl
      · simp only [hcalls]
        exact HasGenerations.begin rfl rfl

end

end Hnco
