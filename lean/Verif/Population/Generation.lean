import Verif.Population.AlgLemmas

/-! # Generations: a population is evaluated and sorted, then its best individual is offered to the solution -/

namespace Hnco

open Outcome

variable {K σ : Type}

theorem StrictStep.trans [LinearOrder K] {s t u : AlgState K σ} {gen gen' : List (BV × K)} (h : StrictStep s t gen)
    (h' : StrictStep t u gen') : StrictStep s u (gen ++ gen') := by
  obtain ⟨hc, h⟩ := h
  obtain ⟨hc', h'⟩ := h'
  refine ⟨by rw [hc', hc, List.append_assoc], ?_⟩
  rcases h with ⟨h1, h2⟩ | ⟨h1, h2, h3⟩ <;> rcases h' with ⟨g1, g2⟩ | ⟨g1, g2, g3⟩
  · refine Or.inl ⟨g1.trans h1, fun c hcc => ?_⟩
    rcases List.mem_append.mp hcc with hcc | hcc
    · exact h2 c hcc
    · rw [← h1]; exact g2 c hcc
  · rw [h1] at g2
    refine Or.inr ⟨List.mem_append_right _ g1, g2, fun c hcc => ?_⟩
    rcases List.mem_append.mp hcc with hcc | hcc
    · exact le_trans (h2 c hcc) (le_of_lt g2)
    · exact g3 c hcc
  · rw [← g1] at h1 h2 h3
    refine Or.inr ⟨List.mem_append_left _ h1, h2, fun c hcc => ?_⟩
    rcases List.mem_append.mp hcc with hcc | hcc
    · exact h3 c hcc
    · rw [g1]; exact g2 c hcc
  · refine Or.inr ⟨List.mem_append_right _ g1, lt_trans h2 g2, fun c hcc => ?_⟩
    rcases List.mem_append.mp hcc with hcc | hcc
    · exact le_trans (h3 c hcc) (le_of_lt g2)
    · exact g3 c hcc

/-- The solution does not get worse. -/
theorem StrictStep.le [LinearOrder K] {s t : AlgState K σ} {gen : List (BV × K)} (h : StrictStep s t gen) :
    s.solution.2 ≤ t.solution.2 := by
  rcases h.2 with ⟨h1, _⟩ | ⟨_, h2, _⟩
  · rw [h1]
  · exact le_of_lt h2

/-- The solution is at least as good as the vectors of the generation. -/
theorem StrictStep.gen_le [LinearOrder K] {s t : AlgState K σ} {gen : List (BV × K)} (h : StrictStep s t gen) :
    ∀ c ∈ gen, c.2 ≤ t.solution.2 := by
  rcases h.2 with ⟨h1, h2⟩ | ⟨_, _, h2⟩
  · rw [h1]; exact h2
  · exact h2

/-- A change of the data members. -/
theorem StrictStep.data [LinearOrder K] {s t : AlgState K σ} {gen : List (BV × K)} (h : StrictStep s t gen) (d : σ) :
    StrictStep s { t with data := d } gen := h

theorem generation_bind [LinearOrder K] {β : Type} {env : Env K} {n lam : Nat} {val : BV → K}
    (henv : env.Computes n val) {L : PopLens σ K} {s : AlgState K σ} {p : Pop K} (hg : L.get s.data = p)
    (hp : p.Valid lam n) (hlam : 0 < lam) {f : Unit → Alg (AlgState K σ) β}
    {Q : β → AlgState K σ → Prop} {E : AlgState K σ → Prop}
    (hE : ∀ k values, k < lam → values.length = lam → E { s with
      calls := s.calls ++ evaluated val (p.bvs.take k), data := L.put { p with values := values } s.data })
    (hQ : ∀ (w : Pop K) (u : AlgState K σ), w.Valid lam n → w.bvs = p.bvs → w.individuals = evaluated val p.bvs →
      w.Sorted → u.data = L.put w s.data → StrictStep s u (evaluated val p.bvs) → Alg.Holds (f ()) u Q E) :
    Alg.Holds (popEvaluate env L >>= fun _ => popSort L >>= fun _ => popUpdateSolution L >>= f) s Q E := by
  refine Alg.Holds.bind (P := fun _ u => u = { s with
      calls := s.calls ++ evaluated val p.bvs, data := L.put { p with values := p.bvs.map val } s.data })
    (popEvaluate_holds henv hg hp rfl hE) ?_
  rintro _ _ rfl
  have hp' := hp.withValues (values := p.bvs.map val) (by simp [hp.bvs])
  refine Alg.Holds.bind (P := fun _ u => ∃ w : Pop K, w.Valid lam n ∧ w.bvs = p.bvs ∧
      w.individuals = evaluated val p.bvs ∧ w.Sorted ∧
      u = { s with calls := s.calls ++ evaluated val p.bvs, data := L.put w s.data })
    (popSort_holds (p := { p with values := p.bvs.map val }) (by exact L.get_put _ _) hp'
      (fun w h1 h2 h3 h4 => ⟨w, h1, h2, by rw [h3, evaluated_individuals], h4, by rw [L.put_put]⟩)) ?_
  rintro _ _ ⟨w, h1, h2, h3, h4, rfl⟩
  obtain ⟨x, v, e1, e2, e3, e4⟩ := Pop.Sorted.first h1 h4 hlam
  rw [h3] at e3 e4
  refine popUpdateSolution_bind (x := x) (v := v) (by rw [L.get_put]; exact e1) (by rw [L.get_put]; exact e2) ?_
  refine hQ w _ h1 h2 h3 h4 ?_ (strictStep_update (s := s)
    (t := { s with calls := s.calls ++ evaluated val p.bvs, data := L.put w s.data }) (x := x) (v := v) rfl rfl
    (fun _ => e3) (fun c hc => le_trans (e4 c hc) (le_max_left _ _)))
  split <;> rfl

/-- The evaluation of a vector which is then offered to the solution. -/
theorem updateSolution_step [LinearOrder K] {s : AlgState K σ} {x : BV} {v : K} {t : AlgState K σ}
    (hc : t.calls = s.calls ++ [(x, v)]) (hsol : t.solution = s.solution) :
    StrictStep s (if t.solution.2 < v then { t with solution := (x, v) } else t) [(x, v)] :=
  strictStep_update hc hsol (fun _ => List.mem_singleton.mpr rfl)
    (fun c hcc => by rw [List.mem_singleton.mp hcc]; exact le_max_left _ _)

end Hnco
