import Verif.Prob.RefineLemmas
import Verif.Prob.RefineSpec

/-! # What happens with positive probability can happen: algorithms with a probability vector -/

namespace Hnco.Prob

open Outcome
open scoped ENNReal

variable {K σ ρ : Type} [LinearOrder K] {f : Fn K} {n : ℕ} {c : Choices K} {r : BV × K}

omit [LinearOrder K] in
theorem canReturn_of {maximize : Env K → ℕ → Alg (AlgState K σ) Unit} {d : σ}
    (h : ∀ (v : K) (last : Bool), ∃ fuel t, Alg.Reaches (maximize (freely f) fuel) ⟨(List.replicate n false, v), last, [], d⟩ () t ∧ t.solution = r) :
    CanReturn maximize f n d r := by
  intro v last
  obtain ⟨fuel, t, ⟨ds, h1⟩, h2⟩ := h v last
  exact ⟨fuel, ds ++ [], [], t, h1 [], h2⟩

/-- The states of both models have the same solution and the same data. -/
def SameVector (s : PvState K ρ) (t : AlgState K (PvData ρ)) : Prop :=
  t.lastIteration = false ∧ t.solution = s.solution ∧ t.data = s.data

omit [LinearOrder K] in
theorem pvStart_lands {d : PvData ρ} {s : PvState K ρ} (h : pvStart f n d s ≠ 0) {t : AlgState K (PvData ρ)} (ht : t.solution.1.length = n)
    (hd : t.data = d) : ∃ u, Alg.Reaches (Hnco.pvStart (freely f)) t () u ∧ SameVector s { u with lastIteration := false } := by
  unfold pvStart at h
  obtain ⟨x, hx, h⟩ := bind_support h
  rw [pure_support h]
  subst hd
  exact ⟨_, (randomSolution_reaches hx ht).bind (Alg.Reaches.modify _ _), rfl, rfl, rfl⟩

/-! ## Compact genetic algorithm -/

theorem compactLearn_lands {q : CompactParams} {best worst : BV} {d e : PvData ρ} (h : compactLearn f q best worst d = ok e)
    {t : AlgState K (PvData ρ)} (ht : t.data = d) :
    ∃ calls, Alg.Reaches (Hnco.compactLearn (freely f) q best worst) t () { t with calls := calls, data := e } := by
  subst ht
  unfold compactLearn at h
  have hcheck : ∃ calls, Alg.Reaches (compactCheck (freely f) q.debug best worst) t () { t with calls := calls } ∧
      (do let pv ← compactMove q.rate best worst t.data.pv
          let pv ← pvBound pv t.data.lower t.data.upper
          ok { t.data with pv := pv } : Outcome (PvData ρ)) = ok e := by
    unfold compactCheck
    cases hq : q.debug with
    | true =>
      rw [if_pos rfl]
      rw [hq, if_pos rfl] at h
      obtain ⟨a, ha, h⟩ := bind_eq_ok.mp h
      obtain ⟨b, hb, h⟩ := bind_eq_ok.mp h
      obtain ⟨_, hab, h⟩ := bind_eq_ok.mp h
      exact ⟨_, evaluate_bind_reaches ha (evaluate_bind_reaches hb (Alg.Reaches.lift hab _)), h⟩
    | false =>
      rw [if_neg (by decide)]
      rw [hq, if_neg (by decide)] at h
      obtain ⟨_, _, h⟩ := bind_eq_ok.mp h
      exact ⟨t.calls, Alg.Reaches.pure _ _, h⟩
  obtain ⟨calls, h1, h⟩ := hcheck
  obtain ⟨pv, h2, h⟩ := bind_eq_ok.mp h
  obtain ⟨pv', h3, h⟩ := bind_eq_ok.mp h
  cases h
  exact ⟨calls, h1.bind (Alg.Reaches.get_bind (Alg.Reaches.lift_bind h2 (Alg.Reaches.lift_bind h3 (Alg.Reaches.modify _ _))))⟩

theorem compactIterate_lands {q : CompactParams} (s : PvState K (BV × BV)) (t : AlgState K (PvData (BV × BV))) (s' : PvState K (BV × BV))
    (hR : SameVector s t) (h : compactIterate f q s s' ≠ 0) :
    ∃ t', Alg.Reaches (Hnco.compactIterate (freely f) q) t () t' ∧ SameVector s' t' := by
  obtain ⟨hl, hs, hd⟩ := hR
  unfold compactIterate at h
  obtain ⟨x, hx, h⟩ := bind_support h
  obtain ⟨y, hy, h⟩ := bind_support h
  obtain ⟨v, hv, h⟩ := bind_support h
  obtain ⟨w, hw, h⟩ := bind_support h
  have hx := sampleVector_given _ _ _ hx
  have hy := sampleVector_given _ _ _ hy
  rw [← hd] at hx hy h
  unfold Hnco.compactIterate
  split at h
  · next hvw =>
    obtain ⟨d, hlearn, h⟩ := bind_support h
    rw [pure_support h, ← hs]
    obtain ⟨calls, h1⟩ := compactLearn_lands (lift_support hlearn)
      (t := { t with calls := t.calls ++ [(x, v)] ++ [(y, w)], solution := updateSolution t.solution y w, data := { t.data with rest := (x, y) } }) rfl
    refine ⟨{ t with calls := calls, solution := updateSolution t.solution y w, data := d }, Alg.Reaches.get_bind (Alg.Reaches.sim_bind hx (Alg.Reaches.sim_bind hy (Alg.Reaches.modify_bind
      (evaluate_bind_reaches (lift_support hv) (evaluate_bind_reaches (lift_support hw) ?_))))), hl, rfl, rfl⟩
    rw [if_pos hvw]
    exact (updateSolution_reaches y w _).bind h1
  · next hvw =>
    obtain ⟨d, hlearn, h⟩ := bind_support h
    rw [pure_support h, ← hs]
    obtain ⟨calls, h1⟩ := compactLearn_lands (lift_support hlearn)
      (t := { t with calls := t.calls ++ [(x, v)] ++ [(y, w)], solution := updateSolution t.solution x v, data := { t.data with rest := (x, y) } }) rfl
    refine ⟨{ t with calls := calls, solution := updateSolution t.solution x v, data := d }, Alg.Reaches.get_bind (Alg.Reaches.sim_bind hx (Alg.Reaches.sim_bind hy (Alg.Reaches.modify_bind
      (evaluate_bind_reaches (lift_support hv) (evaluate_bind_reaches (lift_support hw) ?_))))), hl, rfl, rfl⟩
    rw [if_neg hvw]
    exact (updateSolution_reaches x v _).bind h1

/-- C115: the compact genetic algorithm, whatever the function, the learning rate, the size and the number of iterations are: a solution
which it returns with positive probability is one which the first model can return. -/
theorem compactGa_possible {q : CompactParams} {T : ℤ} (h : compactGa f q n T r ≠ 0) :
    CanReturn (fun env => compactMaximize env q T) f n (pvNew n (List.replicate n false, List.replicate n false)) r :=
  canReturn_of (fun _ _ => run_reaches (R := SameVector) (fun _ _ h => h.1) (fun _ _ h => h.2.1)
    (fun _ hs => pvStart_lands hs (by simp) rfl) compactIterate_lands h)

/-! ## Max-min ant system -/

omit [LinearOrder K] in
theorem mmasLearn_lands {rate : ℚ} {d e : PvData BV} {t : AlgState K (PvData BV)} (h : mmasLearn rate t.solution.1 d = ok e)
    (ht : t.data = d) : Alg.Reaches (Hnco.mmasLearn rate) t () { t with data := e } := by
  subst ht
  unfold mmasLearn at h
  obtain ⟨pv, h2, h⟩ := bind_eq_ok.mp h
  obtain ⟨pv', h3, h⟩ := bind_eq_ok.mp h
  cases h
  exact Alg.Reaches.get_bind (Alg.Reaches.lift_bind h2 (Alg.Reaches.lift_bind h3 (Alg.Reaches.modify _ _)))

omit [LinearOrder K] in
theorem mmasInit_lands {q : MmasParams K} {s : PvState K BV} (h : mmasInit f q n s ≠ 0) {t : AlgState K (PvData BV)}
    (ht : t.solution.1.length = n) (hd : t.data = pvNew n (List.replicate n false)) :
    ∃ u, Alg.Reaches (Hnco.mmasInit (freely f) q) t () u ∧ SameVector s { u with lastIteration := false } := by
  unfold mmasInit at h
  obtain ⟨x, hx, h⟩ := bind_support h
  obtain ⟨d, h1, h⟩ := bind_support h
  rw [pure_support h]
  obtain ⟨u, hu, _, hs, hd⟩ := pvStart_lands hx ht hd
  dsimp only at hs hd
  refine ⟨_, hu.bind (mmasLearn_lands (d := x.data) (e := d) ?_ hd), rfl, hs, rfl⟩
  rw [hs]
  exact lift_support h1

omit [LinearOrder K] in
theorem mmasIterate_lands {q : MmasParams K} (s : PvState K BV) (t : AlgState K (PvData BV)) (s' : PvState K BV)
    (hR : SameVector s t) (h : mmasIterate f q s s' ≠ 0) :
    ∃ t', Alg.Reaches (Hnco.mmasIterate (freely f) q) t () t' ∧ SameVector s' t' := by
  obtain ⟨hl, hs, hd⟩ := hR
  unfold mmasIterate at h
  obtain ⟨x, hx, h⟩ := bind_support h
  obtain ⟨v, hv, h⟩ := bind_support h
  obtain ⟨d, hlearn, h⟩ := bind_support h
  rw [pure_support h]
  have hx := sampleVector_given _ _ _ hx
  rw [← hd] at hx hlearn
  rw [← hs] at hlearn ⊢
  have hm : Alg.Reaches (Alg.modify (fun s : AlgState K (PvData BV) => if q.compare v s.solution.2 then { s with solution := (x, v) } else s))
      { t with calls := t.calls ++ [(x, v)], data := { t.data with rest := x } } ()
      { t with calls := t.calls ++ [(x, v)], data := { t.data with rest := x }, solution := if q.compare v t.solution.2 then (x, v) else t.solution } := by
    have := Alg.Reaches.modify (fun s : AlgState K (PvData BV) => if q.compare v s.solution.2 then { s with solution := (x, v) } else s)
      { t with calls := t.calls ++ [(x, v)], data := { t.data with rest := x } }
    dsimp only at this
    split at this
    · next e => simpa only [if_pos e] using this
    · next e => simpa only [if_neg e] using this
  unfold Hnco.mmasIterate
  exact ⟨_, Alg.Reaches.get_bind (Alg.Reaches.sim_bind hx (Alg.Reaches.modify_bind (evaluate_bind_reaches (lift_support hv)
    (hm.bind (mmasLearn_lands (lift_support hlearn) rfl))))), hl, rfl, rfl⟩

omit [LinearOrder K] in
/-- C115: the max-min ant system. -/
theorem mmas_possible {q : MmasParams K} {T : ℤ} (h : mmas f q n T r ≠ 0) :
    CanReturn (fun env => mmasMaximize env q T) f n (pvNew n (List.replicate n false)) r :=
  canReturn_of (fun _ _ => run_reaches (R := SameVector) (fun _ _ h => h.1) (fun _ _ h => h.2.1)
    (fun _ hs => mmasInit_lands hs (by simp) rfl) mmasIterate_lands h)

/-! ## Algorithms with a population -/

/-- A generation in the first model: the four first statements of `iterate`. -/
theorem pvGeneration_lands (hc : c.Possible) (L : PopLens (PvData ρ) K) {g : (BV × K) × Pop K} {t : AlgState K (PvData ρ)}
    (h : pvGeneration f c t.data.pv t.solution (L.get t.data) g ≠ 0) {rest : Alg (AlgState K (PvData ρ)) Unit} {u : AlgState K (PvData ρ)}
    (hrest : ∀ calls, ∃ calls', Alg.Reaches rest { t with solution := g.1, calls := calls, data := L.put g.2 t.data } () { u with calls := calls' }) :
    ∃ calls', Alg.Reaches (do
      pvSamplePop L
      Hnco.popEvaluate (freely f) L
      popSort L
      Hnco.popUpdateSolution L
      rest) t () { u with calls := calls' } := by
  unfold pvGeneration at h
  obtain ⟨p1, h1, h⟩ := bind_support h
  obtain ⟨p2, h2, h⟩ := bind_support h
  obtain ⟨p3, h3, h⟩ := bind_support h
  obtain ⟨s, h4, h⟩ := bind_support h
  cases pure_support h
  have e1 : Alg.Reaches (pvSamplePop L) t () { t with data := L.put p1 t.data } :=
    Alg.Reaches.get_bind (Alg.Reaches.sim_bind (popSample_given (sampleVector_given _) _ _ h1) (Alg.Reaches.modify _ _))
  obtain ⟨calls, e2⟩ := popEvaluate_lands L (lift_support h2) (t := { t with data := L.put p1 t.data }) (L.get_put _ _)
  have e3 := popSort_lands L ((popSort_prefix _).reaches (hc.sort _ _ h3)) (t := { t with calls := calls, data := L.put p2 (L.put p1 t.data) })
    (L.get_put _ _)
  have e4 := popUpdateSolution_lands L (p := p3) (s := s) (t := { t with calls := calls, data := L.put p3 (L.put p2 (L.put p1 t.data)) })
    (L.get_put _ _) (lift_support h4)
  obtain ⟨calls', e5⟩ := hrest calls
  dsimp only at e2 e3 e4 e5
  rw [L.put_put] at e2 e3 e4
  rw [L.put_put] at e3 e4
  exact ⟨calls', e1.bind (e2.bind (e3.bind (e4.bind e5)))⟩

theorem pbilIterate_lands (hc : c.Possible) {q : PbilParams} (s : PvState K (PbilRest K)) (t : AlgState K (PvData (PbilRest K)))
    (s' : PvState K (PbilRest K)) (hR : SameVector s t) (h : pbilIterate f c q s s' ≠ 0) :
    ∃ t', Alg.Reaches (Hnco.pbilIterate (freely f) q) t () t' ∧ SameVector s' t' := by
  obtain ⟨hl, hs, hd⟩ := hR
  unfold pbilIterate at h
  obtain ⟨g, hg, h⟩ := bind_support h
  obtain ⟨d, hlearn, h⟩ := bind_support h
  rw [pure_support h]
  rw [← hd, ← hs] at hg
  rw [← hd] at hlearn
  have hlearn := lift_support hlearn
  unfold pbilLearn at hlearn
  obtain ⟨mean, h1, hlearn⟩ := bind_eq_ok.mp hlearn
  obtain ⟨pv, h2, hlearn⟩ := bind_eq_ok.mp hlearn
  obtain ⟨pv', h3, hlearn⟩ := bind_eq_ok.mp hlearn
  cases hlearn
  obtain ⟨calls, h⟩ := pvGeneration_lands hc (pbilLens K) hg (rest := Hnco.pbilLearn q)
    (u := { t with solution := g.1, data := { t.data with pv := pv', rest := ⟨g.2, mean⟩ } })
    (fun calls => ⟨calls, Alg.Reaches.get_bind (Alg.Reaches.lift_bind h1 (Alg.Reaches.lift_bind h2 (Alg.Reaches.lift_bind h3
      (Alg.Reaches.modify _ _))))⟩)
  exact ⟨_, h, hl, rfl, rfl⟩

/-- C115: population-based incremental learning. -/
theorem pbil_possible [Zero K] (hc : c.Possible) {q : PbilParams} {size T : ℤ} (h : pbil f c q n size T r ≠ 0) :
    ∃ d, pbilNew n size = ok d ∧ CanReturn (fun env => pbilMaximize env q T) f n d r := by
  obtain ⟨d, hd, h⟩ := bind_support h
  exact ⟨d, lift_support hd, canReturn_of (fun _ _ => run_reaches (R := SameVector) (fun _ _ h => h.1) (fun _ _ h => h.2.1)
    (fun _ hs => pvStart_lands hs (by simp) rfl) (pbilIterate_lands hc) h)⟩

theorem npsIterate_lands (hc : c.Possible) {q : PbilParams} (s : PvState K (NpsRest K)) (t : AlgState K (PvData (NpsRest K)))
    (s' : PvState K (NpsRest K)) (hR : SameVector s t) (h : npsIterate f c q s s' ≠ 0) :
    ∃ t', Alg.Reaches (Hnco.npsIterate (freely f) q) t () t' ∧ SameVector s' t' := by
  obtain ⟨hl, hs, hd⟩ := hR
  unfold npsIterate at h
  obtain ⟨g, hg, h⟩ := bind_support h
  obtain ⟨d, hlearn, h⟩ := bind_support h
  rw [pure_support h]
  rw [← hd, ← hs] at hg
  rw [← hd] at hlearn
  have hlearn := lift_support hlearn
  unfold npsLearn at hlearn
  obtain ⟨best, h1, hlearn⟩ := bind_eq_ok.mp hlearn
  obtain ⟨worst, h2, hlearn⟩ := bind_eq_ok.mp hlearn
  obtain ⟨pv, h3, hlearn⟩ := bind_eq_ok.mp hlearn
  obtain ⟨pv', h4, hlearn⟩ := bind_eq_ok.mp hlearn
  cases hlearn
  obtain ⟨calls, h⟩ := pvGeneration_lands hc (npsLens K) hg (rest := Hnco.npsLearn q)
    (u := { t with solution := g.1, data := { t.data with pv := pv', rest := ⟨g.2, best, worst⟩ } })
    (fun calls => ⟨calls, Alg.Reaches.get_bind (Alg.Reaches.lift_bind h1 (Alg.Reaches.lift_bind h2 (Alg.Reaches.lift_bind h3
      (Alg.Reaches.lift_bind h4 (Alg.Reaches.modify _ _)))))⟩)
  exact ⟨_, h, hl, rfl, rfl⟩

/-- C115: population-based incremental learning with negative and positive selection. -/
theorem npsPbil_possible [Zero K] (hc : c.Possible) {q : PbilParams} {size T : ℤ} (h : npsPbil f c q n size T r ≠ 0) :
    ∃ d, npsNew n size = ok d ∧ CanReturn (fun env => npsMaximize env q T) f n d r := by
  obtain ⟨d, hd, h⟩ := bind_support h
  exact ⟨d, lift_support hd, canReturn_of (fun _ _ => run_reaches (R := SameVector) (fun _ _ h => h.1) (fun _ _ h => h.2.1)
    (fun _ hs => pvStart_lands hs (by simp) rfl) (npsIterate_lands hc) h)⟩

theorem umdaIterate_lands (hc : c.Possible) {sel : ℤ} (s : PvState K (Pop K)) (t : AlgState K (PvData (Pop K)))
    (s' : PvState K (Pop K)) (hR : SameVector s t) (h : umdaIterate f c sel s s' ≠ 0) :
    ∃ t', Alg.Reaches (Hnco.umdaIterate (freely f) sel) t () t' ∧ SameVector s' t' := by
  obtain ⟨hl, hs, hd⟩ := hR
  unfold umdaIterate at h
  obtain ⟨g, hg, h⟩ := bind_support h
  obtain ⟨d, hlearn, h⟩ := bind_support h
  rw [pure_support h]
  rw [← hd, ← hs] at hg
  rw [← hd] at hlearn
  have hlearn := lift_support hlearn
  unfold umdaLearn at hlearn
  obtain ⟨pv, h1, hlearn⟩ := bind_eq_ok.mp hlearn
  obtain ⟨pv', h2, hlearn⟩ := bind_eq_ok.mp hlearn
  cases hlearn
  obtain ⟨calls, h⟩ := pvGeneration_lands hc (umdaLens K) hg (rest := Hnco.umdaLearn sel)
    (u := { t with solution := g.1, data := { t.data with pv := pv', rest := g.2 } })
    (fun calls => ⟨calls, Alg.Reaches.get_bind (Alg.Reaches.lift_bind h1 (Alg.Reaches.lift_bind h2 (Alg.Reaches.modify _ _)))⟩)
  exact ⟨_, h, hl, rfl, rfl⟩

/-- C115: the univariate marginal distribution algorithm. -/
theorem umda_possible [Zero K] (hc : c.Possible) {sel size T : ℤ} (h : umda f c sel n size T r ≠ 0) :
    ∃ d, umdaNew n size = ok d ∧ CanReturn (fun env => umdaMaximize env sel T) f n d r := by
  obtain ⟨d, hd, h⟩ := bind_support h
  exact ⟨d, lift_support hd, canReturn_of (fun _ _ => run_reaches (R := SameVector) (fun _ _ h => h.1) (fun _ _ h => h.2.1)
    (fun _ hs => pvStart_lands hs (by simp) rfl) (umdaIterate_lands hc) h)⟩

end Hnco.Prob
