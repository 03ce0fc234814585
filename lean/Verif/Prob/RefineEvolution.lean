import Verif.Prob.RefineProps
import Verif.Prob.RefineMutation

/-! # What happens with positive probability can happen: evolutionary algorithms -/

namespace Hnco.Prob

open Outcome
open scoped ENNReal

variable {K τ : Type} [LinearOrder K] {f : Fn K} {n mu lam : ℕ} {c : Choices K} {r : BV × K}

/-- The states of both models have the same solution, the same populations and the same rest, and all are of the right sizes. -/
structure SameEa (n mu lam : ℕ) (m : MutationLaw) (T : τ → Prop) (s : EaState K τ) (t : AlgState K (EaData K τ)) : Prop where
  last : t.lastIteration = false
  solution : t.solution = s.solution
  parents : t.data.parents = s.parents
  offsprings : t.data.offsprings = s.offsprings
  extra : t.data.extra = s.extra
  params : t.data.params = ⟨(m.operator n).rejectionSampling, (m.operator n).allowNoMutation⟩
  mutation : Nbh.Sized n t.data.mutation
  parentsValid : s.parents.Valid mu n
  offspringsValid : s.offsprings.Valid lam n
  extraValid : T s.extra

theorem vget_bits {size : ℕ} {p : Pop K} (hp : p.Valid size n) {i : ℕ} {x : BV} (h : vget p.bvs i = ok x) : x.length = n := by
  unfold vget at h
  cases e : p.bvs[i]? with
  | none => rw [e] at h; cases h
  | some a =>
    rw [e] at h
    cases h
    exact hp.bits _ (List.mem_of_getElem? e)

omit [LinearOrder K] in
theorem setMutation_lands (m : MutationLaw) (n : ℕ) {t : AlgState K (EaData K τ)} (hp : t.data.params = ⟨false, false⟩) :
    Alg.Reaches (setMutation (m.params n)) t ()
      { t with data := { t.data with params := ⟨(m.operator n).rejectionSampling, (m.operator n).allowNoMutation⟩ } } := by
  have := Alg.Reaches.modify (fun s : AlgState K (EaData K τ) => { s with data := { s.data with
    params := (s.data.params.setMutationRate (m.params n).belowSqrt).setAllowNoMutation (m.params n).allowNoMutation } }) t
  rw [operator_params]
  dsimp only at this
  rw [hp] at this
  exact this

/-! ## Offsprings -/

theorem makeOffspring_lands {m : StandardBitMutation} {parents : Pop K} (hp : parents.Valid mu n) (i : ℕ) (o : Pop K) (t : Nbh × Pop K)
    (o' : Pop K) (hR : t.2 = o ∧ Nbh.Sized n t.1 ∧ o.Valid lam n) (h : makeOffspring (m.sampleBits n) parents i o o' ≠ 0) :
    ∃ t', Sim.Reaches (Hnco.makeOffspring ⟨m.rejectionSampling, m.allowNoMutation⟩ parents i t) t' ∧
      (t'.2 = o' ∧ Nbh.Sized n t'.1 ∧ o'.Valid lam n) := by
  obtain ⟨e, hb, ho⟩ := hR
  subst e
  unfold makeOffspring at h
  obtain ⟨k, hk, h⟩ := bind_support h
  obtain ⟨x, hx, h⟩ := bind_support h
  obtain ⟨y, hy, h⟩ := bind_support h
  obtain ⟨bvs, h1, h⟩ := bind_support h
  rw [pure_support h]
  have hx := lift_support hx
  have h1 := lift_support h1
  obtain ⟨b, hm, hb', hyn⟩ := mutate_lands hy (vget_bits hp hx) hb
  obtain ⟨hi, e⟩ := vset_length h1
  refine ⟨(b, { t.2 with bvs := bvs }), ?_, rfl, hb', setBv_keeps ho h1 hyn⟩
  unfold Hnco.makeOffspring
  refine Sim.Reaches.bind (Given.uniformInt _ _ k hk) (Sim.Reaches.bind (Sim.Reaches.lift hx)
    (Sim.Reaches.bind (a := t.2.bvs.set i x) (Sim.Reaches.lift (by unfold vset; rw [if_pos hi]))
      (Sim.Reaches.bind hm (Sim.Reaches.bind (a := bvs) (Sim.Reaches.lift ?_) (Sim.Reaches.pure _)))))
  unfold vset
  rw [if_pos (by rw [List.length_set]; exact hi), List.set_set, e]

theorem makeOffsprings_lands {m : MutationLaw} {T : τ → Prop} {s : EaState K τ} {t : AlgState K (EaData K τ)} (hR : SameEa n mu lam m T s t)
    {o : Pop K} (h : Dist.forRange 0 s.offsprings.size (makeOffspring ((m.operator n).sampleBits n) s.parents) s.offsprings o ≠ 0) :
    ∃ b, Alg.Reaches makeOffsprings t () { t with data := { t.data with mutation := b, offsprings := o } } ∧ Nbh.Sized n b ∧ o.Valid lam n := by
  obtain ⟨⟨b, o'⟩, h1, h2, h3, h4⟩ := forRange_rel (makeOffspring_lands hR.parentsValid) (t := (t.data.mutation, s.offsprings))
    ⟨rfl, hR.mutation, hR.offspringsValid⟩ h
  dsimp only at h2 h3
  subst h2
  refine ⟨b, ?_, h3, h4⟩
  unfold makeOffsprings
  refine Alg.Reaches.get_bind (Alg.Reaches.sim_bind (a := (b, o')) ?_ (Alg.Reaches.modify _ _))
  rw [hR.offsprings, hR.parents, hR.params]
  exact h1

/-! ## Initialization -/

/-- What `init` does once the mutation operator is set up. -/
theorem parentsInit_lands (hc : c.Possible) {d : EaData K τ} {extra : τ} {s : EaState K τ} (h : parentsInit f c d extra s ≠ 0)
    (hd : d.parents.Valid mu n) {t : AlgState K (EaData K τ)} (ht : t.data.parents = d.parents) :
    ∃ calls, Alg.Reaches (do
      Hnco.popRandom (parentsLens K τ)
      Hnco.popEvaluate (freely f) (parentsLens K τ)
      Hnco.popSort (parentsLens K τ)
      Hnco.popSetSolution (parentsLens K τ)) t () { t with solution := s.solution, calls := calls, data := { t.data with parents := s.parents } } ∧
      s.parents.Valid mu n ∧ s.offsprings = d.offsprings ∧ s.extra = extra := by
  unfold parentsInit at h
  obtain ⟨p1, h1, h⟩ := bind_support h
  obtain ⟨p2, h2, h⟩ := bind_support h
  obtain ⟨p3, h3, h⟩ := bind_support h
  obtain ⟨x, h4, h⟩ := bind_support h
  rw [pure_support h]
  obtain ⟨e1, v1⟩ := popRandom_lands (L := parentsLens K τ) hd h1 ht
  have v2 := popEvaluate_keeps v1 (lift_support h2)
  obtain ⟨calls, e2⟩ := popEvaluate_lands (parentsLens K τ) (lift_support h2) (t := { t with data := { t.data with parents := p1 } }) rfl
  have hsort := hc.sort _ _ h3
  have e3 := popSort_lands (parentsLens K τ) ((popSort_prefix _).reaches hsort) (t := { t with calls := calls, data := { t.data with parents := p2 } }) rfl
  have e4 := popSetSolution_lands (L := parentsLens K τ) (lift_support h4) (t := { t with calls := calls, data := { t.data with parents := p3 } }) rfl
  obtain ⟨ds, rest, hsort⟩ := hsort
  exact ⟨calls, e1.bind (e2.bind (e3.bind e4)), ((Pop.sort_valid v2).elim hsort).1, rfl, rfl⟩

/-! ## (mu + lambda) -/

theorem muPlusInit_lands (hc : c.Possible) {m : MutationLaw} {d : EaData K (Pop K)} (hd : d.Valid n mu lam)
    (hx : d.extra.Valid (mu + lam) n) (hp : d.params = ⟨false, false⟩) {s : EaState K (Pop K)} (h : parentsInit f c d d.extra s ≠ 0)
    {t : AlgState K (EaData K (Pop K))} (ht : t.data = d) :
    ∃ u, Alg.Reaches (muPlusInit (freely f) (m.params n)) t () u ∧ SameEa n mu lam m (Pop.Valid (mu + lam) n) s { u with lastIteration := false } := by
  subst ht
  have e1 := setMutation_lands m n hp
  obtain ⟨calls, e2, v, ho, he⟩ := parentsInit_lands hc h hd.parents (t := { t with data := { t.data with
    params := ⟨(m.operator n).rejectionSampling, (m.operator n).allowNoMutation⟩ } }) rfl
  refine ⟨_, e1.bind e2, rfl, rfl, rfl, ho.symm, he.symm, rfl, ⟨hd.bits, ?_, ?_⟩, v, ?_, ?_⟩
  · exact hd.mutation.origin.trans hd.bits
  · exact hd.mutation.candidate.trans hd.bits
  · rw [ho]; exact hd.offsprings
  · rw [he]; exact hx

theorem muPlusIterate_lands (hc : c.Possible) (hmu : 0 < mu) {m : MutationLaw} (s : EaState K (Pop K)) (t : AlgState K (EaData K (Pop K)))
    (s' : EaState K (Pop K)) (hR : SameEa n mu lam m (Pop.Valid (mu + lam) n) s t)
    (h : muPlusIterate f c ((m.operator n).sampleBits n) s s' ≠ 0) :
    ∃ t', Alg.Reaches (Hnco.muPlusIterate (freely f)) t () t' ∧ SameEa n mu lam m (Pop.Valid (mu + lam) n) s' t' := by
  unfold muPlusIterate at h
  obtain ⟨o, h1, h⟩ := bind_support h
  obtain ⟨o', h2, h⟩ := bind_support h
  obtain ⟨w, h3, h⟩ := bind_support h
  obtain ⟨x, h4, h⟩ := bind_support h
  rw [pure_support h]
  obtain ⟨b, e1, hb, vo⟩ := makeOffsprings_lands hR h1
  obtain ⟨calls, e2⟩ := popEvaluate_lands (offspringsLens K (Pop K)) (lift_support h2)
    (t := { t with data := { t.data with mutation := b, offsprings := o } }) rfl
  have vo' := popEvaluate_keeps vo (lift_support h2)
  have hsel := hc.plus _ _ _ _ h3
  have e3 : Alg.Reaches applyPlus { t with calls := calls, data := { t.data with mutation := b, offsprings := o' } } ()
      { t with calls := calls, data := { t.data with mutation := b, parents := w.1, offsprings := w.2.1, extra := w.2.2 } } := by
    refine Alg.Reaches.get_bind (Alg.Reaches.sim_bind (a := w) ?_ (Alg.Reaches.modify _ _))
    dsimp only
    rw [hR.parents, hR.extra]
    exact (plusSelect_prefix _ _ _).reaches hsel
  have e4 := popUpdateSolution_lands (parentsLens K (Pop K)) (p := w.1) (s := x)
    (t := { t with calls := calls, data := { t.data with mutation := b, parents := w.1, offsprings := w.2.1, extra := w.2.2 } }) rfl
    (by dsimp only; rw [hR.solution]; exact lift_support h4)
  obtain ⟨ds, rest, hsel⟩ := hsel
  obtain ⟨g1, g2, g3⟩ := (plus_select_spec hmu hR.parentsValid vo' hR.extraValid).elim hsel
  exact ⟨_, e1.bind (e2.bind (e3.bind e4)), hR.last, rfl, rfl, rfl, rfl, hR.params, hb, g1.valid, g2, g3⟩

/-- C115: the (mu + lambda) EA, whatever the function, the mutation rate and the sizes are. -/
theorem muPlusLambda_possible [Zero K] (hc : c.Possible) {m : MutationLaw} {mu lam T : ℤ} (h : muPlusLambdaEa f c m n mu lam T r ≠ 0) :
    ∃ d, muPlusNew n mu lam ⟨false, false⟩ = ok d ∧ CanReturn (fun env => muPlusMaximize env (m.params n) T) f n d r := by
  obtain ⟨d, hd, h⟩ := bind_support h
  have hd := lift_support hd
  obtain ⟨hv, hx⟩ := muPlusNew_valid hd
  rw [Int.toNat_natCast] at hv hx
  have hp : d.params = ⟨false, false⟩ := by
    unfold muPlusNew at hd
    obtain ⟨_, _, hd⟩ := bind_eq_ok.mp hd
    obtain ⟨_, _, hd⟩ := bind_eq_ok.mp hd
    obtain ⟨_, _, hd⟩ := bind_eq_ok.mp hd
    obtain ⟨_, _, hd⟩ := bind_eq_ok.mp hd
    cases hd
    rfl
  exact ⟨d, hd, canReturn_of (fun _ _ => run_reaches (R := SameEa n mu.toNat lam.toNat m (Pop.Valid (mu.toNat + lam.toNat) n))
    (fun _ _ h => h.last) (fun _ _ h => h.solution) (fun _ hs => muPlusInit_lands hc hv hx hp hs rfl)
    (muPlusIterate_lands hc hv.mu_pos) h)⟩

/-! ## (mu, lambda) -/

/-- Replacement by the best offsprings. -/
theorem comma_lands (hc : c.Possible) (hmu : 0 < mu) (hle : mu ≤ lam) {m : MutationLaw} {T : τ → Prop} {s : EaState K τ}
    {t : AlgState K (EaData K τ)} (hR : SameEa n mu lam m T s t) {o o' : Pop K} {w : Pop K × Pop K} {x : BV × K} {b : Nbh} {e : τ}
    (vo : o.Valid lam n) (hb : Nbh.Sized n b) (he : T e) (h2 : popEvaluate f o = ok o') (h3 : c.comma s.parents o' w ≠ 0)
    (h4 : popUpdateSolution s.solution w.1 = ok x) :
    ∃ t', Alg.Reaches (do
      Hnco.popEvaluate (freely f) (offspringsLens K τ)
      applyComma
      Hnco.popUpdateSolution (parentsLens K τ)) { t with data := { t.data with mutation := b, offsprings := o, extra := e } } () t' ∧
      SameEa n mu lam m T ⟨x, w.1, w.2, e⟩ t' := by
  obtain ⟨calls, e2⟩ := popEvaluate_lands (offspringsLens K τ) h2
    (t := { t with data := { t.data with mutation := b, offsprings := o, extra := e } }) rfl
  have vo' := popEvaluate_keeps vo h2
  have hsel := hc.comma _ _ _ h3
  have e3 : Alg.Reaches applyComma { t with calls := calls, data := { t.data with mutation := b, offsprings := o', extra := e } } ()
      { t with calls := calls, data := { t.data with mutation := b, parents := w.1, offsprings := w.2, extra := e } } := by
    refine Alg.Reaches.get_bind (Alg.Reaches.sim_bind (a := w) ?_ (Alg.Reaches.modify _ _))
    dsimp only
    rw [hR.parents]
    exact (commaSelect_prefix _ _).reaches hsel
  have e4 := popUpdateSolution_lands (parentsLens K τ) (p := w.1) (s := x)
    (t := { t with calls := calls, data := { t.data with mutation := b, parents := w.1, offsprings := w.2, extra := e } }) rfl
    (by dsimp only; rw [hR.solution]; exact h4)
  obtain ⟨ds, rest, hsel⟩ := hsel
  obtain ⟨g1, g2⟩ := (comma_select_spec hmu hR.parentsValid vo' (by
    unfold commaNew Pop.size
    rw [hR.parentsValid.bvs, vo'.bvs, if_pos hle])).elim hsel
  exact ⟨_, e2.bind (e3.bind e4), hR.last, rfl, rfl, rfl, rfl, hR.params, hb, g1.valid, g2, he⟩

theorem muCommaInit_lands {m : MutationLaw} {d : EaData K Unit} (hd : d.Valid n mu lam) (hp : d.params = ⟨false, false⟩) {s : EaState K Unit}
    (h : muCommaInit f n d s ≠ 0) {t : AlgState K (EaData K Unit)} (ht : t.data = d) (hn : t.solution.1.length = n) :
    ∃ u, Alg.Reaches (Hnco.muCommaInit (freely f) (m.params n)) t () u ∧ SameEa n mu lam m (fun _ => True) s { u with lastIteration := false } := by
  subst ht
  unfold muCommaInit at h
  obtain ⟨p, h1, h⟩ := bind_support h
  obtain ⟨x, h2, h⟩ := bind_support h
  rw [pure_support h]
  have e1 := setMutation_lands m n hp
  obtain ⟨e2, v⟩ := popRandom_lands (L := parentsLens K Unit) hd.parents h1 (t := { t with data := { t.data with
    params := ⟨(m.operator n).rejectionSampling, (m.operator n).allowNoMutation⟩ } }) rfl
  have e3 := randomSolution_reaches h2 (t := { t with data := { t.data with
    params := ⟨(m.operator n).rejectionSampling, (m.operator n).allowNoMutation⟩, parents := p } }) hn
  refine ⟨_, e1.bind (e2.bind e3), rfl, rfl, rfl, rfl, rfl, rfl, ⟨hd.bits, ?_, ?_⟩, v, hd.offsprings, trivial⟩
  · exact hd.mutation.origin.trans hd.bits
  · exact hd.mutation.candidate.trans hd.bits

theorem muCommaIterate_lands (hc : c.Possible) (hmu : 0 < mu) (hle : mu ≤ lam) {m : MutationLaw} (s : EaState K Unit)
    (t : AlgState K (EaData K Unit)) (s' : EaState K Unit) (hR : SameEa n mu lam m (fun _ => True) s t)
    (h : muCommaIterate f c ((m.operator n).sampleBits n) s s' ≠ 0) :
    ∃ t', Alg.Reaches (Hnco.muCommaIterate (freely f)) t () t' ∧ SameEa n mu lam m (fun _ => True) s' t' := by
  unfold muCommaIterate at h
  obtain ⟨o, h1, h⟩ := bind_support h
  obtain ⟨o', h2, h⟩ := bind_support h
  obtain ⟨w, h3, h⟩ := bind_support h
  obtain ⟨x, h4, h⟩ := bind_support h
  rw [pure_support h]
  obtain ⟨b, e1, hb, vo⟩ := makeOffsprings_lands hR h1
  obtain ⟨t', e2, g⟩ := comma_lands hc hmu hle hR vo hb (e := ()) trivial (lift_support h2) h3 (lift_support h4)
  exact ⟨t', e1.bind e2, g⟩

/-- C115: the (mu, lambda) EA. -/
theorem muCommaLambda_possible [Zero K] (hc : c.Possible) {m : MutationLaw} {mu lam T : ℤ} (h : muCommaLambdaEa f c m n mu lam T r ≠ 0) :
    ∃ d, muCommaNew n mu lam ⟨false, false⟩ = ok d ∧ CanReturn (fun env => muCommaMaximize env (m.params n) T) f n d r := by
  obtain ⟨d, hd, h⟩ := bind_support h
  have hd := lift_support hd
  obtain ⟨hv, hle⟩ := muCommaNew_valid hd
  rw [Int.toNat_natCast] at hv
  have hp : d.params = ⟨false, false⟩ := by
    unfold muCommaNew at hd
    obtain ⟨_, _, hd⟩ := bind_eq_ok.mp hd
    obtain ⟨_, _, hd⟩ := bind_eq_ok.mp hd
    obtain ⟨_, _, hd⟩ := bind_eq_ok.mp hd
    obtain ⟨_, _, hd⟩ := bind_eq_ok.mp hd
    cases hd
    rfl
  exact ⟨d, hd, canReturn_of (fun _ _ => run_reaches (R := SameEa n mu.toNat lam.toNat m (fun _ => True))
    (fun _ _ h => h.last) (fun _ _ h => h.solution) (fun _ hs => muCommaInit_lands hv hp hs rfl (by simp))
    (muCommaIterate_lands hc hv.mu_pos (by omega)) h)⟩

/-! ## Genetic algorithm -/

theorem reproduce_lands (hc : c.Possible) {parents : Pop K} (hp : parents.Valid mu n) {p : ℝ≥0∞} {t : Tournament} (ht : t.Valid mu) {old : BV}
    (hold : old.length = n) {w : Tournament × BV} (h : gaReproduce c p parents t old w ≠ 0) :
    Sim.Reaches (reproduce parents t old) w ∧ w.1.Valid mu ∧ w.2.length = n := by
  have hsel : ∀ (t : Tournament) (u : ℕ × BV × Tournament), t.Valid mu → c.select parents t u ≠ 0 →
      Sim.Reaches (t.select (fun a b => decide (b < a)) parents.bvs parents.values) u ∧ u.2.2.Valid mu ∧ u.2.1.length = n := by
    intro t u ht hu
    have hu := hc.select _ _ _ hu
    have hr := (tournamentSelect_prefix _ _ _ _).reaches hu
    obtain ⟨ds, rest, hu⟩ := hu
    obtain ⟨g1, g2, _⟩ := (tournament_select_partial strictWeak_greater ht hp.bvs hp.values).elim hu
    exact ⟨hr, g2, hp.bits _ (List.mem_of_getElem? g1)⟩
  unfold gaReproduce at h
  unfold reproduce
  obtain ⟨b, hb, h⟩ := bind_support h
  cases b with
  | true =>
    simp only [if_true] at h
    obtain ⟨u, hu, h⟩ := bind_support h
    obtain ⟨v, hv, h⟩ := bind_support h
    obtain ⟨x, hx, h⟩ := bind_support h
    rw [pure_support h]
    obtain ⟨u1, u2, _⟩ := hsel _ _ ht hu
    obtain ⟨v1, v2, _⟩ := hsel _ _ u2 hv
    refine ⟨Sim.Reaches.bind (Sim.Reaches.bernoulli true) ?_, v2, by rw [uniformCrossover_length hx, hold]⟩
    simp only [if_true]
    exact Sim.Reaches.bind u1 (Sim.Reaches.bind v1 (Sim.Reaches.bind (uniformCrossover_given _ _ _ x hx) (Sim.Reaches.pure _)))
  | false =>
    simp only [Bool.false_eq_true, if_false] at h
    obtain ⟨u, hu, h⟩ := bind_support h
    rw [pure_support h]
    obtain ⟨u1, u2, u3⟩ := hsel _ _ ht hu
    refine ⟨Sim.Reaches.bind (Sim.Reaches.bernoulli false) ?_, u2, u3⟩
    simp only [Bool.false_eq_true, if_false]
    exact Sim.Reaches.bind u1 (Sim.Reaches.pure _)

theorem gaOffspring_lands (hc : c.Possible) {q : GaLaw} {parents : Pop K} (hp : parents.Valid mu n) (i : ℕ) (s : Tournament × Pop K)
    (t : Tournament × Nbh × Pop K) (s' : Tournament × Pop K)
    (hR : t.1 = s.1 ∧ t.2.2 = s.2 ∧ Nbh.Sized n t.2.1 ∧ s.1.Valid mu ∧ s.2.Valid lam n) (h : gaOffspring c q n parents i s s' ≠ 0) :
    ∃ t', Sim.Reaches (Hnco.gaOffspring ⟨(q.operator n).rejectionSampling, (q.operator n).allowNoMutation⟩ parents i t) t' ∧
      (t'.1 = s'.1 ∧ t'.2.2 = s'.2 ∧ Nbh.Sized n t'.2.1 ∧ s'.1.Valid mu ∧ s'.2.Valid lam n) := by
  obtain ⟨e1, e2, hb, ht, ho⟩ := hR
  unfold gaOffspring at h
  obtain ⟨old, h1, h⟩ := bind_support h
  obtain ⟨w, h2, h⟩ := bind_support h
  obtain ⟨y, h3, h⟩ := bind_support h
  obtain ⟨bvs, h4, h⟩ := bind_support h
  rw [pure_support h]
  have h1 := lift_support h1
  have h4 := lift_support h4
  obtain ⟨r1, r2, r3⟩ := reproduce_lands hc hp ht (vget_bits ho h1) h2
  obtain ⟨b, m1, m2, m3⟩ := mutate_lands h3 r3 hb
  refine ⟨(w.1, b, { s.2 with bvs := bvs }), ?_, rfl, rfl, m2, r2, setBv_keeps ho h4 m3⟩
  unfold Hnco.gaOffspring
  rw [e1, e2]
  exact Sim.Reaches.bind (Sim.Reaches.lift h1) (Sim.Reaches.bind r1 (Sim.Reaches.bind m1 (Sim.Reaches.bind (Sim.Reaches.lift h4) (Sim.Reaches.pure _))))

theorem gaInit_lands (hc : c.Possible) {q : GaLaw} {d : EaData K Tournament} (hd : d.Valid n mu mu) (hx : d.extra.perm.Perm (List.range mu))
    (hp : d.params = ⟨false, false⟩) {s : EaState K Tournament} (h : gaInit f c q d s ≠ 0) {t : AlgState K (EaData K Tournament)} (ht : t.data = d) :
    ∃ u, Alg.Reaches (Hnco.gaInit (freely f) (q.params n)) t () u ∧
      SameEa n mu mu q.toMutationLaw (Tournament.Valid mu) s { u with lastIteration := false } := by
  subst ht
  unfold gaInit at h
  obtain ⟨t1, h1, h⟩ := bind_support h
  obtain ⟨t2, h2, h⟩ := bind_support h
  have h1 := lift_support h1
  have h2 := hc.start _ _ h2
  have e0 : Alg.Reaches (initTournament (q.params n).tournamentSize) t () { t with data := { t.data with extra := t2 } } :=
    Alg.Reaches.get_bind (Alg.Reaches.lift_bind h1 (Alg.Reaches.sim_bind ((tournamentInit_prefix _).reaches h2) (Alg.Reaches.modify _ _)))
  have e1 := setMutation_lands q.toMutationLaw n (t := { t with data := { t.data with extra := t2 } }) hp
  obtain ⟨calls, e2, v, ho, he⟩ := parentsInit_lands hc h hd.parents (t := { t with data := { t.data with
    params := ⟨(q.operator n).rejectionSampling, (q.operator n).allowNoMutation⟩, extra := t2 } }) rfl
  have vt : t2.Valid mu := by
    obtain ⟨ds, rest, h2⟩ := h2
    unfold Tournament.setSize at h1
    split at h1
    · next hs =>
      cases h1
      rw [show t.data.parents.size = mu from hd.parents.bvs] at hs
      exact ((Tournament.init_valid (N := mu) (t := { t.data.extra with size := q.tournamentSize.toNat }) hx (by dsimp only; omega)
        (by dsimp only; omega)).elim h2).1
    · cases h1
  refine ⟨_, e0.bind (e1.bind e2), rfl, rfl, rfl, ho.symm, he.symm, rfl, ⟨hd.bits, ?_, ?_⟩, v, ?_, ?_⟩
  · exact hd.mutation.origin.trans hd.bits
  · exact hd.mutation.candidate.trans hd.bits
  · rw [ho]; exact hd.offsprings
  · rw [he]; exact vt

theorem gaIterate_lands (hc : c.Possible) (hmu : 0 < mu) {q : GaLaw} (s : EaState K Tournament) (t : AlgState K (EaData K Tournament))
    (s' : EaState K Tournament) (hR : SameEa n mu mu q.toMutationLaw (Tournament.Valid mu) s t) (h : gaIterate f c q n s s' ≠ 0) :
    ∃ t', Alg.Reaches (Hnco.gaIterate (freely f)) t () t' ∧ SameEa n mu mu q.toMutationLaw (Tournament.Valid mu) s' t' := by
  unfold gaIterate at h
  obtain ⟨o, h1, h⟩ := bind_support h
  obtain ⟨o', h2, h⟩ := bind_support h
  obtain ⟨w, h3, h⟩ := bind_support h
  obtain ⟨x, h4, h⟩ := bind_support h
  rw [pure_support h]
  obtain ⟨u, e1, g1, g2, g3, g4, g5⟩ := forRange_rel (gaOffspring_lands hc hR.parentsValid) (t := (s.extra, t.data.mutation, s.offsprings))
    ⟨rfl, rfl, hR.mutation, hR.extraValid, hR.offspringsValid⟩ h1
  obtain ⟨t', e2, g⟩ := comma_lands hc hmu (le_refl mu) hR g5 g3 g4 (lift_support h2) h3 (lift_support h4)
  refine ⟨t', Alg.Reaches.bind (a := ()) ?_ e2, g⟩
  unfold gaOffsprings
  rw [← g1, ← g2]
  refine Alg.Reaches.get_bind (Alg.Reaches.sim_bind (a := u) ?_ (Alg.Reaches.modify _ _))
  rw [hR.offsprings, hR.parents, hR.params, hR.extra]
  exact e1

/-- C115: the genetic algorithm. -/
theorem geneticAlgorithm_possible [Zero K] (hc : c.Possible) {q : GaLaw} {mu T : ℤ} (h : geneticAlgorithm f c q n mu T r ≠ 0) :
    ∃ d, gaNew n mu ⟨false, false⟩ = ok d ∧ CanReturn (fun env => gaMaximize env (q.params n) T) f n d r := by
  obtain ⟨d, hd, h⟩ := bind_support h
  have hd := lift_support hd
  obtain ⟨hv, hx⟩ := gaNew_valid hd
  rw [Int.toNat_natCast] at hv
  have hp : d.params = ⟨false, false⟩ := by
    unfold gaNew at hd
    obtain ⟨_, _, hd⟩ := bind_eq_ok.mp hd
    obtain ⟨_, _, hd⟩ := bind_eq_ok.mp hd
    obtain ⟨_, _, hd⟩ := bind_eq_ok.mp hd
    obtain ⟨_, _, hd⟩ := bind_eq_ok.mp hd
    cases hd
    rfl
  exact ⟨d, hd, canReturn_of (fun _ _ => run_reaches (R := SameEa n mu.toNat mu.toNat q.toMutationLaw (Tournament.Valid mu.toNat))
    (fun _ _ h => h.last) (fun _ _ h => h.solution) (fun _ hs => gaInit_lands hc hv hx hp hs rfl)
    (gaIterate_lands hc hv.mu_pos) h)⟩

/-! ## Examples -/

theorem someResult_possible {α : Type} {m : Sim α} {a : α} (h : someResult m a ≠ 0) : ∃ draws rest, m draws = .ok a rest := by
  unfold someResult at h
  split at h
  · next e => rw [pure_support h]; exact e.choose_spec
  · exact absurd rfl h

theorem someChoices_possible (K : Type) [LinearOrder K] : (someChoices K).Possible :=
  ⟨fun _ _ => someResult_possible, fun _ _ _ => someResult_possible, fun _ _ _ _ => someResult_possible, fun _ _ => someResult_possible,
    fun _ _ _ => someResult_possible⟩

omit [LinearOrder K] in
theorem found_positive {d : Dist (BV × K)} {P : BV → Prop} (h : missProb d P < 1) : ∃ r, P r.1 ∧ d r ≠ 0 := by
  classical
  by_contra hno
  push Not at hno
  refine absurd h (not_lt.mpr ?_)
  unfold missProb Dist.prob
  rw [ENNReal.tsum_eq_zero.mpr, tsub_zero]
  intro r
  split
  · next hr => exact hno r hr
  · rfl

/-- The (3+4) evolutionary algorithm can find the maximum of one max on ten bits in one iteration. -/
example : ∃ r : BV × ℤ, IsMax 10 (fun x => (ones x : ℤ)) r.1 ∧ ∃ d, muPlusNew 10 3 4 ⟨false, false⟩ = ok d ∧
    CanReturn (fun env => muPlusMaximize env (MutationLaw.params ⟨2⁻¹, false⟩ 10) 1) (oneMax 10) 10 d r := by
  have h := muPlusLambda_converges (oneMax_evaluates 10) (someChoices_valid ℤ) (by norm_num) (mu := 3) (lam := 4) (by norm_num) (by norm_num)
    (m := ⟨2⁻¹, false⟩) (by simp) (by simp) (Nat.one_pos)
  obtain ⟨r, h1, h2⟩ := found_positive (lt_of_le_of_lt h (pow_lt_one' (one_sub_lt (pos_iff_ne_zero.mpr (pow_ne_zero _ (by simp)))) (by norm_num)))
  exact ⟨r, h1, muPlusLambda_possible (someChoices_possible ℤ) h2⟩

/-- The genetic algorithm with three parents and tournaments of two. -/
example : ∃ r : BV × ℤ, IsMax 10 (fun x => (ones x : ℤ)) r.1 ∧ ∃ d, gaNew 10 3 ⟨false, false⟩ = ok d ∧
    CanReturn (fun env => gaMaximize env (GaLaw.params ⟨⟨2⁻¹, false⟩, 2⁻¹, 2⟩ 10) 1) (oneMax 10) 10 d r := by
  have h := geneticAlgorithm_converges (oneMax_evaluates 10) (someChoices_valid ℤ) (by norm_num) (mu := 3)
    (q := ⟨⟨2⁻¹, false⟩, 2⁻¹, 2⟩) (by simp) (by simp) (by simp) (by simp) (Nat.one_pos)
  obtain ⟨r, h1, h2⟩ := found_positive (lt_of_le_of_lt h (pow_lt_one' (one_sub_lt (pos_iff_ne_zero.mpr (by simp))) (by norm_num)))
  exact ⟨r, h1, geneticAlgorithm_possible (someChoices_possible ℤ) h2⟩

/-- Population-based incremental learning with ten vectors, of which the best two are learnt. -/
example : ∃ r : BV × ℤ, IsMax 10 (fun x => (ones x : ℤ)) r.1 ∧ ∃ d, pbilNew 10 10 = ok d ∧
    CanReturn (fun env => pbilMaximize env ⟨2, 1 / 2⟩ 1) (oneMax 10) 10 d r := by
  have h := pbil_converges (oneMax_evaluates 10) (someChoices_valid ℤ) (by norm_num) (size := 10) (sel := 2) (by norm_num) (by norm_num)
    (1 / 2) (Nat.one_pos)
  obtain ⟨r, h1, h2⟩ := found_positive (lt_of_le_of_lt h (pow_lt_one' (one_sub_lt (margin_pos 10)) (by norm_num)))
  exact ⟨r, h1, pbil_possible (someChoices_possible ℤ) h2⟩

/-- The compact genetic algorithm on two bits. -/
example (q : CompactParams) : ∃ r : BV × ℤ, IsMax 2 (fun x => (ones x : ℤ)) r.1 ∧
    CanReturn (fun env => compactMaximize env q 3) (oneMax 2) 2 (pvNew 2 (List.replicate 2 false, List.replicate 2 false)) r := by
  have h := compactGa_converges (oneMax_evaluates 2) (le_refl _) q (t := 3) (by norm_num)
  obtain ⟨r, h1, h2⟩ := found_positive (lt_of_le_of_lt h (pow_lt_one' (one_sub_lt (margin_pos 2)) (by norm_num)))
  exact ⟨r, h1, compactGa_possible h2⟩

end Hnco.Prob
