import Verif.Algorithm.Evolutionary
import Verif.Algorithm.LocalSearchProps
import Verif.Population.AlgLemmas
import Verif.Population.TournamentProps

/-! # C50: the best evaluated vector, for evolutionary algorithms with populations -/

namespace Hnco

open Outcome

variable {K : Type}

/-! ## Specification -/

/-- The data of an algorithm with `mu` parents and `lam` offsprings of `n` bits. -/
structure EaData.Valid {τ : Type} (n mu lam : Nat) (d : EaData K τ) : Prop where
  mu_pos : 0 < mu
  lam_pos : 0 < lam
  parents : d.parents.Valid mu n
  offsprings : d.offsprings.Valid lam n
  mutation : d.mutation.Valid (.standardBitMutation d.params)
  bits : d.mutation.n = n

/-! ## Lemmas -/

theorem standard_valid {p q : StandardParams} {b : Nbh} (h : b.Valid (.standardBitMutation p)) :
    b.Valid (.standardBitMutation q) :=
  ⟨h.fits, h.origin, h.candidate, by intro h; cases h⟩

theorem popNew_valid [Zero K] {size n : Int} {p : Pop K} (h : Pop.new size n = ok p) :
    0 < size ∧ 0 < n ∧ p.Valid size.toNat n.toNat := by
  unfold Pop.new at h
  split at h
  · cases h
  · split at h
    · cases h
    · cases h
      refine ⟨by omega, by omega, List.length_replicate, List.length_replicate, List.Perm.refl _, ?_⟩
      intro x hx
      rw [List.eq_of_mem_replicate hx, List.length_replicate]

theorem nbhNew_valid {n : Nat} {b : Nbh} {p : StandardParams} (h : Nbh.new n = ok b) :
    b.Valid (.standardBitMutation p) ∧ b.n = n := by
  unfold Nbh.new at h
  obtain ⟨u, h1, h2⟩ := bind_eq_ok.mp h
  by_cases hn : n > 0
  · cases h2
    exact ⟨⟨hn, List.length_replicate, List.length_replicate, by intro h; cases h⟩, rfl⟩
  · rw [assert_neg (by simp [hn])] at h1; cases h1

theorem setMutation_holds {τ : Type} {q : MutationParams} {s : AlgState K (EaData K τ)} {n mu lam : Nat}
    (hv : s.data.Valid n mu lam) {β : Type} {f : Unit → Alg (AlgState K (EaData K τ)) β}
    {Q : β → AlgState K (EaData K τ) → Prop} {E : AlgState K (EaData K τ) → Prop}
    (hQ : ∀ p, EaData.Valid n mu lam { s.data with params := p } →
      Alg.Holds (f ()) { s with data := { s.data with params := p } } Q E) :
    Alg.Holds (setMutation q >>= f) s Q E := by
  unfold setMutation
  exact Alg.Holds.modify_bind (hQ _
    ⟨hv.mu_pos, hv.lam_pos, hv.parents, hv.offsprings, standard_valid hv.mutation, hv.bits⟩)

theorem Pop.Valid.setBv {size n : Nat} {p : Pop K} (h : p.Valid size n) (i : Nat) {x : BV} (hx : x.length = n) :
    Pop.Valid size n { p with bvs := p.bvs.set i x } := by
  refine ⟨by simp [h.bvs], h.values, h.perm, ?_⟩
  intro y hy
  rcases List.mem_or_eq_of_mem_set hy with hy | rfl
  · exact h.bits y hy
  · exact hx

theorem makeOffspring_post {params : StandardParams} {parents : Pop K} {mu lam n : Nat} (hmu : 0 < mu)
    (hp : parents.Valid mu n) {i : Nat} (hi : i < lam) {s : Nbh × Pop K}
    (hs : s.1.Valid (.standardBitMutation params) ∧ s.1.n = n ∧ s.2.Valid lam n) :
    Sim.Post (makeOffspring params parents i s)
      (fun r => r.1.Valid (.standardBitMutation params) ∧ r.1.n = n ∧ r.2.Valid lam n) := by
  obtain ⟨h1, h2, h3⟩ := hs
  unfold makeOffspring Pop.size
  rw [hp.bvs]
  refine (Sim.Post.uniformInt (Nat.zero_le _)).bind ?_
  rintro k ⟨_, hk⟩
  have hkl : k < parents.bvs.length := by rw [hp.bvs]; omega
  have hx : parents.bvs[k].length = n := hp.bits _ (List.getElem_mem hkl)
  have hil : i < s.2.bvs.length := by rw [h3.bvs]; exact hi
  refine Sim.Post.lift_bind (vget_eq hkl) (Sim.Post.lift_bind (vset_eq hil) ?_)
  refine (mutate_spec h1 (by rw [hx, h2])).bind ?_
  rintro ⟨b, y⟩ ⟨g1, g2, g3, g4⟩
  dsimp only at g1 g2 g3 g4 ⊢
  refine Sim.Post.lift_bind (vset_eq (by simp [hil])) (Sim.Post.pure ⟨g2, by rw [g1]; exact h2, ?_⟩)
  rw [List.set_set]
  exact h3.setBv i (by rw [g4.1, hx])

theorem makeOffsprings_bind {τ : Type} {s : AlgState K (EaData K τ)} {n mu lam : Nat} (hv : s.data.Valid n mu lam)
    {β : Type} {f : Unit → Alg (AlgState K (EaData K τ)) β}
    {Q : β → AlgState K (EaData K τ) → Prop} {E : AlgState K (EaData K τ) → Prop}
    (hQ : ∀ m p, EaData.Valid n mu lam { s.data with mutation := m, offsprings := p } →
      Alg.Holds (f ()) { s with data := { s.data with mutation := m, offsprings := p } } Q E) :
    Alg.Holds (makeOffsprings >>= f) s Q E := by
  refine Alg.Holds.bind (P := fun _ t => ∃ m p, EaData.Valid n mu lam { s.data with mutation := m, offsprings := p } ∧
    t = { s with data := { s.data with mutation := m, offsprings := p } }) ?_ ?_
  · unfold makeOffsprings Pop.size
    refine Alg.Holds.get_bind (Alg.Holds.sim_bind (Sim.Post.forRange (I := fun _ (r : Nbh × Pop K) =>
      r.1.Valid (.standardBitMutation s.data.params) ∧ r.1.n = n ∧ r.2.Valid lam n) (Nat.zero_le _)
      ⟨hv.mutation, hv.bits, hv.offsprings⟩ ?_) ?_)
    · intro i r _ hi hr
      exact makeOffspring_post hv.mu_pos hv.parents (by rw [← hv.offsprings.bvs]; exact hi) hr
    · rintro r ⟨h1, h2, h3⟩
      exact Alg.Holds.modify ⟨r.1, r.2, ⟨hv.mu_pos, hv.lam_pos, hv.parents, h3, h1, h2⟩, rfl⟩
  · rintro _ _ ⟨m, p, h, rfl⟩
    exact hQ m p h

/-- A generation of offsprings, then comma selection, then update of the solution. -/
theorem commaGeneration_holds [LinearOrder K] {τ : Type} {env : Env K} {n mu lam : Nat} {val : BV → K}
    (henv : env.Computes n val) (hle : mu ≤ lam) {s t : AlgState K (EaData K τ)} (hv : t.data.Valid n mu lam)
    (hcalls : t.calls = s.calls) (hsol : t.solution = s.solution) (htrue : TrueCalls n val s.calls)
    (hbest : BestOf s.calls s.solution) {J : AlgState K (EaData K τ) → Prop}
    (hJ : ∀ p o c x, EaData.Valid n mu lam { t.data with parents := p, offsprings := o } →
      J { t with solution := x, calls := c, data := { t.data with parents := p, offsprings := o } }) :
    Alg.Holds (do
        popEvaluate env (offspringsLens K τ)
        applyComma
        popUpdateSolution (parentsLens K τ)) t
      (fun _ u => J u ∧ ∃ gen, TrueCalls n val gen ∧ StrictStep s u gen)
      (fun u => TrueCalls n val u.calls ∧ BestExceptLast lam u) := by
  refine Alg.Holds.bind (P := fun _ u => u = { t with
      calls := t.calls ++ evaluated val t.data.offsprings.bvs
      data := { t.data with
        offsprings := { t.data.offsprings with values := t.data.offsprings.bvs.map val } } })
    (popEvaluate_holds (L := offspringsLens K τ) (p := t.data.offsprings) henv rfl hv.offsprings rfl ?_) ?_
  · intro k values hk _
    refine ⟨?_, BestExceptLast.of_best hbest (by rw [hcalls]) hsol ?_⟩
    · rw [hcalls]
      exact htrue.append (evaluated_true (fun x hx => hv.offsprings.bits x (List.mem_of_mem_take hx)))
    · simp [evaluated]
      omega
  · rintro _ _ rfl
    have ho := hv.offsprings.withValues (values := t.data.offsprings.bvs.map val) (by simp [hv.offsprings.bvs])
    unfold applyComma
    refine Alg.Holds.bind (P := fun _ u => ∃ p o, SelectsBest mu n (evaluated val t.data.offsprings.bvs) p ∧
      o.Valid lam n ∧ u = { t with
        calls := t.calls ++ evaluated val t.data.offsprings.bvs
        data := { t.data with parents := p, offsprings := o } }) ?_ ?_
    · refine Alg.Holds.get_bind (Alg.Holds.sim_bind (comma_select_spec hv.mu_pos hv.parents ho ?_) ?_)
      · unfold commaNew Pop.size
        dsimp only
        rw [hv.parents.bvs, hv.offsprings.bvs, if_pos hle]
      · rintro ⟨p, o⟩ ⟨h1, h2⟩
        rw [evaluated_individuals] at h1
        exact Alg.Holds.modify ⟨p, o, h1, h2, rfl⟩
    · rintro _ _ ⟨p, o, h1, h2, rfl⟩
      obtain ⟨x, v, e1, e2, e3, e4⟩ := selectsBest_first h1 hv.mu_pos
      have hd : EaData.Valid n mu lam { t.data with parents := p, offsprings := o } :=
        ⟨hv.mu_pos, hv.lam_pos, h1.valid, h2, hv.mutation, hv.bits⟩
      refine popUpdateSolution_holds (L := parentsLens K τ) (x := x) (v := v) (by exact e1) (by exact e2) ⟨?_, evaluated val t.data.offsprings.bvs,
        evaluated_true hv.offsprings.bits, strictStep_update (by rw [hcalls]) hsol (fun _ => e3)
          (fun c hc => le_trans (e4 c hc) (le_max_left _ _))⟩
      split
      · exact hJ p o _ _ hd
      · exact hJ p o _ t.solution hd

/-- The start of the algorithms which evaluate their first parents. -/
theorem firstParents_holds [LinearOrder K] {τ : Type} {env : Env K} {n mu lam : Nat} {val : BV → K}
    (henv : env.Computes n val) {s : AlgState K (EaData K τ)} (hv : s.data.Valid n mu lam) (hcalls : s.calls = [])
    {m : Nat} (hm : mu ≤ m) {J : AlgState K (EaData K τ) → Prop}
    (hJ : ∀ (p : Pop K) x, EaData.Valid n mu lam { s.data with parents := p } → ∀ calls,
      (∀ c ∈ p.individuals, c ∈ calls) →
      J { s with solution := x, calls := calls, data := { s.data with parents := p } }) :
    Alg.Holds (do
        popRandom (parentsLens K τ)
        popEvaluate env (parentsLens K τ)
        popSort (parentsLens K τ)
        popSetSolution (parentsLens K τ)) s
      (fun _ t => J t ∧ TrueCalls n val t.calls ∧ BestOf t.calls t.solution)
      (fun t => TrueCalls n val t.calls ∧ BestExceptLast m t) := by
  refine Alg.Holds.bind (P := fun _ t => ∃ q : Pop K, q.Valid mu n ∧
    t = { s with data := { s.data with parents := q } }) (popRandom_holds (L := parentsLens K τ) hv.parents
      (fun q hq => ⟨q, hq, rfl⟩)) ?_
  rintro _ _ ⟨q, hq, rfl⟩
  refine Alg.Holds.bind (P := fun _ u => u = { s with
      calls := evaluated val q.bvs
      data := { s.data with parents := { q with values := q.bvs.map val } } })
    (popEvaluate_holds (L := parentsLens K τ) (p := q) henv rfl hq (by rw [hcalls, List.nil_append]; rfl) ?_) ?_
  · intro k values hk _
    refine ⟨?_, [], evaluated val (q.bvs.take k), by simp [hcalls], ?_, Or.inl rfl⟩
    · rw [hcalls, List.nil_append]
      exact evaluated_true (fun x hx => hq.bits x (List.mem_of_mem_take hx))
    · simp [evaluated]
      omega
  · rintro _ _ rfl
    have hq' := hq.withValues (values := q.bvs.map val) (by simp [hq.bvs])
    refine Alg.Holds.bind (P := fun _ u => ∃ r : Pop K, r.Valid mu n ∧ r.individuals = evaluated val q.bvs ∧ r.Sorted ∧
      u = { s with calls := evaluated val q.bvs, data := { s.data with parents := r } })
      (popSort_holds (L := parentsLens K τ) (p := { q with values := q.bvs.map val }) rfl hq'
        (fun r h1 h2 h3 h4 => ⟨r, h1, by rw [h3, evaluated_individuals], h4, rfl⟩)) ?_
    rintro _ _ ⟨r, h1, h2, h3, rfl⟩
    obtain ⟨x, v, e1, e2, e3, e4⟩ := Pop.Sorted.first h1 h3 hv.mu_pos
    unfold popSetSolution
    refine Alg.Holds.get_bind (Alg.Holds.lift_bind e1 (Alg.Holds.lift_bind e2 (Alg.Holds.modify ⟨?_, ?_, ?_⟩)))
    · exact hJ r (x, v) ⟨hv.mu_pos, hv.lam_pos, h1, hv.offsprings, hv.mutation, hv.bits⟩ _ (by rw [h2]; exact fun _ h => h)
    · exact evaluated_true hq.bits
    · rw [← h2]
      exact ⟨e3, e4⟩

/-! ## (mu, lambda) EA -/

/-- The constructor makes valid data. -/
theorem muCommaNew_valid [Zero K] {n mu lam : Int} {params : StandardParams} {d : EaData K Unit}
    (h : muCommaNew n mu lam params = ok d) : d.Valid n.toNat mu.toNat lam.toNat ∧ mu ≤ lam := by
  unfold muCommaNew at h
  obtain ⟨p, h1, h⟩ := bind_eq_ok.mp h
  obtain ⟨o, h2, h⟩ := bind_eq_ok.mp h
  obtain ⟨_, h3, h⟩ := bind_eq_ok.mp h
  obtain ⟨b, h4, h⟩ := bind_eq_ok.mp h
  cases h
  obtain ⟨g1, g2, g3⟩ := popNew_valid h1
  obtain ⟨g4, g5, g6⟩ := popNew_valid h2
  obtain ⟨g7, g8⟩ := nbhNew_valid (p := params) h4
  refine ⟨⟨by omega, by omega, g3, g6, g7, g8⟩, ?_⟩
  unfold commaNew Pop.size at h3
  rw [g3.bvs, g6.bvs] at h3
  split at h3
  · omega
  · cases h3

/-- C50: the (mu, lambda) evolutionary algorithm reports a best one of all evaluated vectors with its value, after any
number of iterations.  If it is interrupted, then only vectors of the generation under evaluation (fewer than
`lambda`) can be better than the solution. -/
theorem muCommaLambda_best [LinearOrder K] {env : Env K} {n mu lam : Nat} {val : BV → K} (henv : env.Computes n val)
    (q : MutationParams) {s : AlgState K (EaData K Unit)} (hs : s.solution.1.length = n)
    (hv : s.data.Valid n mu lam) (hle : mu ≤ lam) (hcalls : s.calls = []) (numIterations : Int) (fuel : Nat) :
    Alg.Holds (muCommaMaximize env q numIterations fuel) s
      (fun _ t => TrueCalls n val t.calls ∧ BestOf t.calls t.solution)
      (fun t => TrueCalls n val t.calls ∧ BestExceptLast lam t) := by
  refine (algLoop_best (fun t => t.data.Valid n mu lam) (fun _ _ h => h) ?_ ?_ numIterations fuel).mono
    (fun _ _ h => h.2) (fun _ h => h)
  · intro t ht htrue hbest
    unfold muCommaIterate
    exact makeOffsprings_bind ht (fun m p hmp =>
      commaGeneration_holds (s := t) henv hle (by exact hmp) (by exact rfl) (by exact rfl) htrue hbest (J := fun t => t.data.Valid n mu lam)
        (by intro _ _ _ _ h; exact h))
  · unfold muCommaInit
    refine setMutation_holds hv (fun p hp => ?_)
    refine Alg.Holds.bind (P := fun _ t => ∃ r : Pop K, r.Valid mu n ∧
      t = { s with data := { s.data with params := p, parents := r } }) (popRandom_holds (L := parentsLens K Unit)
        (size := mu) (n := n) (by exact hp.parents) (by intro r hr; exact ⟨r, hr, rfl⟩)) ?_
    rintro _ _ ⟨r, hr, rfl⟩
    refine randomSolution_holds henv (by exact hs) ?_ ?_
    · intro x hx
      refine ⟨⟨hp.mu_pos, hp.lam_pos, hr, hp.offsprings, hp.mutation, hp.bits⟩, ?_, ?_⟩
      · simp only [hcalls]; exact TrueCalls.nil.snoc hx
      · simp only [hcalls]; exact BestOf.single _
    · intro x hx
      refine ⟨by simp only [hcalls]; exact TrueCalls.nil, [], [], by simp [hcalls], hp.lam_pos, Or.inl rfl⟩

/-! ## (mu + lambda) EA -/

/-- The constructor makes valid data. -/
theorem muPlusNew_valid [Zero K] {n mu lam : Int} {params : StandardParams} {d : EaData K (Pop K)}
    (h : muPlusNew n mu lam params = ok d) :
    d.Valid n.toNat mu.toNat lam.toNat ∧ d.extra.Valid (mu.toNat + lam.toNat) n.toNat := by
  unfold muPlusNew at h
  obtain ⟨p, h1, h⟩ := bind_eq_ok.mp h
  obtain ⟨o, h2, h⟩ := bind_eq_ok.mp h
  obtain ⟨pool, h3, h⟩ := bind_eq_ok.mp h
  obtain ⟨b, h4, h⟩ := bind_eq_ok.mp h
  cases h
  obtain ⟨g1, g2, g3⟩ := popNew_valid h1
  obtain ⟨g4, g5, g6⟩ := popNew_valid h2
  obtain ⟨g7, g8⟩ := nbhNew_valid (p := params) h4
  refine ⟨⟨by omega, by omega, g3, g6, g7, g8⟩, ?_⟩
  obtain ⟨pool', e1, e2⟩ := plusNew_valid (mu := mu.toNat) (lam := lam.toNat) (n := n.toNat) (by omega) (by omega)
    (by omega) g3 g6
  rw [h3] at e1
  cases e1
  exact e2

/-- The values in the parent population are values of evaluated vectors. -/
def ParentsEvaluated (n mu lam : Nat) (s : AlgState K (EaData K (Pop K))) : Prop :=
  s.data.Valid n mu lam ∧ s.data.extra.Valid (mu + lam) n ∧ ∀ c ∈ s.data.parents.individuals, c ∈ s.calls

/-- C50: the (mu + lambda) evolutionary algorithm reports a best one of all evaluated vectors with its value, after any
number of iterations.  If it is interrupted, then only vectors of the generation under evaluation can be better than
the solution. -/
theorem muPlusLambda_best [LinearOrder K] {env : Env K} {n mu lam : Nat} {val : BV → K} (henv : env.Computes n val)
    (q : MutationParams) {s : AlgState K (EaData K (Pop K))} (hv : s.data.Valid n mu lam)
    (hpool : s.data.extra.Valid (mu + lam) n) (hcalls : s.calls = []) (numIterations : Int) (fuel : Nat) :
    Alg.Holds (muPlusMaximize env q numIterations fuel) s
      (fun _ t => TrueCalls n val t.calls ∧ BestOf t.calls t.solution ∧ ∀ c ∈ t.data.parents.individuals, c ∈ t.calls)
      (fun t => TrueCalls n val t.calls ∧ BestExceptLast (max mu lam) t) := by
  refine (algLoop_best (ParentsEvaluated n mu lam) (fun _ _ h => h) ?_ ?_ numIterations fuel).mono
    (fun _ _ h => ⟨h.2.1, h.2.2, h.1.2.2⟩) (fun _ h => h)
  · rintro t ⟨ht, hpool, hpar⟩ htrue hbest
    unfold muPlusIterate
    refine makeOffsprings_bind ht (fun m o hmo => ?_)
    refine Alg.Holds.bind (P := fun _ u => u = { t with
        calls := t.calls ++ evaluated val o.bvs
        data := { t.data with mutation := m, offsprings := { o with values := o.bvs.map val } } })
      (popEvaluate_holds (L := offspringsLens K (Pop K)) (p := o) henv rfl hmo.offsprings rfl ?_) ?_
    · intro k values hk _
      refine ⟨htrue.append (evaluated_true (fun x hx => hmo.offsprings.bits x (List.mem_of_mem_take hx))),
        BestExceptLast.of_best hbest rfl rfl ?_⟩
      simp [evaluated]
      omega
    · rintro _ _ rfl
      have ho := hmo.offsprings.withValues (values := o.bvs.map val) (by
        rw [List.length_map]; exact hmo.offsprings.bvs)
      refine Alg.Holds.bind (P := fun _ u => ∃ p o' pool,
        SelectsBest mu n (t.data.parents.individuals ++ evaluated val o.bvs) p ∧ o'.Valid lam n ∧
        pool.Valid (mu + lam) n ∧ u = { t with
          calls := t.calls ++ evaluated val o.bvs
          data := { t.data with mutation := m, parents := p, offsprings := o', extra := pool } }) ?_ ?_
      · unfold applyPlus
        refine Alg.Holds.get_bind (Alg.Holds.sim_bind (plus_select_spec hmo.mu_pos hmo.parents ho hpool) ?_)
        rintro ⟨p, o', pool⟩ ⟨h1, h2, h3⟩
        rw [evaluated_individuals] at h1
        exact Alg.Holds.modify ⟨p, o', pool, h1, h2, h3, rfl⟩
      · rintro _ _ ⟨p, o', pool, h1, h2, h3, rfl⟩
        obtain ⟨x, v, e1, e2, e3, e4⟩ := selectsBest_first h1 hmo.mu_pos
        obtain ⟨discarded, hperm, _⟩ := h1.best
        have hmem : ∀ c ∈ p.individuals, c ∈ t.calls ++ evaluated val o.bvs := by
          intro c hc
          have := hperm.mem_iff.mp (List.mem_append_left discarded hc)
          rcases List.mem_append.mp this with h | h
          · exact List.mem_append_left _ (hpar c h)
          · exact List.mem_append_right _ h
        have hJ : ParentsEvaluated n mu lam { t with
          calls := t.calls ++ evaluated val o.bvs
          data := { t.data with mutation := m, parents := p, offsprings := o', extra := pool } } :=
          ⟨⟨hmo.mu_pos, hmo.lam_pos, h1.valid, h2, hmo.mutation, hmo.bits⟩, h3, hmem⟩
        refine popUpdateSolution_holds (L := parentsLens K (Pop K)) (x := x) (v := v) (by exact e1) (by exact e2) ⟨?_, evaluated val o.bvs,
          evaluated_true hmo.offsprings.bits, strictStep_update rfl rfl ?_ ?_⟩
        · split
          · exact hJ
          · exact hJ
        · intro hlt
          rcases List.mem_append.mp e3 with h | h
          · exact absurd (hbest.2 _ (hpar _ h)) (not_le.mpr hlt)
          · exact h
        · intro c hc
          exact le_trans (e4 c (List.mem_append_right _ hc)) (le_max_left _ _)
  · unfold muPlusInit
    refine setMutation_holds hv (fun p hp => ?_)
    exact firstParents_holds (lam := lam) henv (by exact hp) (by exact hcalls) (le_max_left _ _)
      (by intro r x hr calls hc; exact ⟨hr, hpool, hc⟩)

/-! ## Genetic algorithm -/

/-- The constructor makes valid data. -/
theorem gaNew_valid [Zero K] {n mu : Int} {params : StandardParams} {d : EaData K Tournament}
    (h : gaNew n mu params = ok d) :
    d.Valid n.toNat mu.toNat mu.toNat ∧ d.extra.perm.Perm (List.range mu.toNat) := by
  unfold gaNew at h
  obtain ⟨p, h1, h⟩ := bind_eq_ok.mp h
  obtain ⟨o, h2, h⟩ := bind_eq_ok.mp h
  obtain ⟨_, h3, h⟩ := bind_eq_ok.mp h
  obtain ⟨b, h4, h⟩ := bind_eq_ok.mp h
  cases h
  obtain ⟨g1, g2, g3⟩ := popNew_valid h1
  obtain ⟨g4, g5, g6⟩ := popNew_valid h2
  obtain ⟨g7, g8⟩ := nbhNew_valid (p := params) h4
  refine ⟨⟨by omega, by omega, g3, g6, g7, g8⟩, ?_⟩
  simp only [permIdentity, Pop.size, g3.bvs]
  exact List.Perm.refl _

theorem select_length [LinearOrder K] {mu n : Nat} {parents : Pop K} (hp : parents.Valid mu n) {t : Tournament}
    (ht : t.Valid mu) : Sim.Post (t.select (fun a b => decide (b < a)) parents.bvs parents.values)
      (fun r => r.2.1.length = n ∧ r.2.2.Valid mu) := by
  refine (tournament_select_partial strictWeak_greater ht hp.bvs hp.values).mono ?_
  rintro ⟨k, x, u⟩ ⟨h1, h2, _⟩
  exact ⟨hp.bits x (List.mem_of_getElem? h1), h2⟩

theorem reproduce_post [LinearOrder K] {mu n : Nat} {parents : Pop K} (hp : parents.Valid mu n) {t : Tournament}
    (ht : t.Valid mu) {old : BV} (hold : old.length = n) :
    Sim.Post (reproduce parents t old) (fun r => r.1.Valid mu ∧ r.2.length = n) := by
  unfold reproduce
  refine Sim.Post.bernoulli.bind (fun c _ => ?_)
  split
  · refine (select_length hp ht).bind ?_
    rintro a ⟨ha1, ha2⟩
    refine (select_length hp ha2).bind ?_
    rintro b ⟨hb1, hb2⟩
    refine (uniformRecombine_mixes (by rw [hold, ha1]) (by rw [hold, hb1])).bind ?_
    intro x hx
    exact Sim.Post.pure ⟨hb2, by rw [hx.1, ha1]⟩
  · refine (select_length hp ht).bind ?_
    rintro a ⟨ha1, ha2⟩
    exact Sim.Post.pure ⟨ha2, ha1⟩

theorem gaOffspring_post [LinearOrder K] {params : StandardParams} {parents : Pop K} {mu lam n : Nat}
    (hp : parents.Valid mu n) {i : Nat} (hi : i < lam) {s : Tournament × Nbh × Pop K}
    (hs : s.1.Valid mu ∧ s.2.1.Valid (.standardBitMutation params) ∧ s.2.1.n = n ∧ s.2.2.Valid lam n) :
    Sim.Post (gaOffspring params parents i s)
      (fun r => r.1.Valid mu ∧ r.2.1.Valid (.standardBitMutation params) ∧ r.2.1.n = n ∧ r.2.2.Valid lam n) := by
  obtain ⟨h0, h1, h2, h3⟩ := hs
  unfold gaOffspring
  have hil : i < s.2.2.bvs.length := by rw [h3.bvs]; exact hi
  refine Sim.Post.lift_bind (vget_eq hil) ?_
  refine (reproduce_post hp h0 (h3.bits _ (List.getElem_mem hil))).bind ?_
  rintro x ⟨hx1, hx2⟩
  refine (mutate_spec h1 (by rw [hx2, h2])).bind ?_
  rintro ⟨b, y⟩ ⟨g1, g2, g3, g4⟩
  dsimp only at g1 g2 g3 g4 ⊢
  exact Sim.Post.lift_bind (vset_eq hil) (Sim.Post.pure ⟨hx1, g2, by rw [g1]; exact h2,
    h3.setBv i (by rw [g4.1, hx2])⟩)

/-- The invariant of the genetic algorithm. -/
def GaInv (n mu : Nat) (s : AlgState K (EaData K Tournament)) : Prop :=
  s.data.Valid n mu mu ∧ s.data.extra.Valid mu

theorem gaOffsprings_bind [LinearOrder K] {s : AlgState K (EaData K Tournament)} {n mu lam : Nat}
    (hv : s.data.Valid n mu lam) (ht : s.data.extra.Valid mu)
    {β : Type} {f : Unit → Alg (AlgState K (EaData K Tournament)) β}
    {Q : β → AlgState K (EaData K Tournament) → Prop} {E : AlgState K (EaData K Tournament) → Prop}
    (hQ : ∀ (e : Tournament) m p, e.Valid mu →
      EaData.Valid n mu lam { s.data with extra := e, mutation := m, offsprings := p } →
      Alg.Holds (f ()) { s with data := { s.data with extra := e, mutation := m, offsprings := p } } Q E) :
    Alg.Holds (gaOffsprings >>= f) s Q E := by
  refine Alg.Holds.bind (P := fun _ t => ∃ (e : Tournament) (m : Nbh) (p : Pop K), e.Valid mu ∧
    EaData.Valid n mu lam { s.data with extra := e, mutation := m, offsprings := p } ∧
    t = { s with data := { s.data with extra := e, mutation := m, offsprings := p } }) ?_ ?_
  · unfold gaOffsprings Pop.size
    refine Alg.Holds.get_bind (Alg.Holds.sim_bind (Sim.Post.forRange (I := fun _ (r : Tournament × Nbh × Pop K) =>
      r.1.Valid mu ∧ r.2.1.Valid (.standardBitMutation s.data.params) ∧ r.2.1.n = n ∧ r.2.2.Valid lam n)
      (Nat.zero_le _) ⟨ht, hv.mutation, hv.bits, hv.offsprings⟩ ?_) ?_)
    · intro i r _ hi hr
      exact gaOffspring_post hv.parents (by rw [← hv.offsprings.bvs]; exact hi) hr
    · rintro r ⟨h0, h1, h2, h3⟩
      exact Alg.Holds.modify ⟨r.1, r.2.1, r.2.2, h0, ⟨hv.mu_pos, hv.lam_pos, hv.parents, h3, h1, h2⟩, rfl⟩
  · rintro _ _ ⟨e, m, p, h0, h, rfl⟩
    exact hQ e m p h0 h

/-- C50: the genetic algorithm reports a best one of all evaluated vectors with its value, after any number of
iterations.  If it is interrupted, then only vectors of the generation under evaluation can be better than the
solution.  The tournament size is supposed to be at least 2 and less than the population size; otherwise an exception
is thrown before any evaluation. -/
theorem geneticAlgorithm_best [LinearOrder K] {env : Env K} {n mu : Nat} {val : BV → K} (henv : env.Computes n val)
    (q : GaParams) {s : AlgState K (EaData K Tournament)} (hv : s.data.Valid n mu mu)
    (hperm : s.data.extra.perm.Perm (List.range mu)) (hcalls : s.calls = [])
    (numIterations : Int) (fuel : Nat) :
    Alg.Holds (gaMaximize env q numIterations fuel) s
      (fun _ t => TrueCalls n val t.calls ∧ BestOf t.calls t.solution)
      (fun t => TrueCalls n val t.calls ∧ BestExceptLast mu t) := by
  refine (algLoop_best (GaInv n mu) (fun _ _ h => h) ?_ ?_ numIterations fuel).mono
    (fun _ _ h => h.2) (fun _ h => h)
  · rintro t ⟨ht, hte⟩ htrue hbest
    unfold gaIterate
    exact gaOffsprings_bind ht hte (fun e m p he hmp =>
      commaGeneration_holds (s := t) henv (le_refl mu) (by exact hmp) (by exact rfl) (by exact rfl) htrue hbest (J := GaInv n mu)
        (by intro _ _ _ _ h; exact ⟨h, he⟩))
  · unfold gaInit
    refine Alg.Holds.bind (P := fun _ t => ∃ e : Tournament, e.Valid mu ∧
      t = { s with data := { s.data with extra := e } }) ?_ ?_
    · unfold initTournament
      refine Alg.Holds.get_bind ?_
      unfold Tournament.setSize Pop.size
      rw [hv.parents.bvs]
      split
      · rename_i hq
        refine Alg.Holds.lift_bind rfl ?_
        unfold Tournament.init
        refine Alg.Holds.sim_bind (P := fun e => e.Valid mu) ?_ (fun e he => Alg.Holds.modify ⟨e, he, rfl⟩)
        refine (Sim.Post.shuffle _).bind (fun perm hp => Sim.Post.pure ?_)
        refine ⟨hp.trans hperm, ?_, by simp, ?_⟩ <;> dsimp only <;> omega
      · refine Alg.Holds.bind (P := fun _ _ => False) ?_ (fun _ _ h => h.elim)
        change Alg.Holds (fun s => pure (.error Exn.runtimeError, s)) s _ _
        refine Sim.Post.pure ?_
        exact ⟨by rw [hcalls]; exact TrueCalls.nil, [], [], by simp [hcalls], hv.mu_pos, Or.inl rfl⟩
    · rintro _ _ ⟨e, he, rfl⟩
      have hv' : EaData.Valid n mu mu { s.data with extra := e } :=
        ⟨hv.mu_pos, hv.lam_pos, hv.parents, hv.offsprings, hv.mutation, hv.bits⟩
      refine setMutation_holds hv' (fun p hp => ?_)
      exact firstParents_holds (lam := mu) henv (by exact hp) (by exact hcalls) (le_refl _)
        (by intro r x hr calls _; exact ⟨hr, he⟩)

/-! ## Examples -/

/-- Before the first iteration on three bits. -/
def exampleStart {σ : Type} (d : σ) : AlgState Int σ := ⟨([false, false, false], 0), false, [], d⟩

/-- The theorems apply to what the constructors make (they accept these sizes, see the runs below), with OneMax and a budget of five
evaluations. -/
example : ∀ d : EaData Int Unit, muCommaNew 3 1 2 ⟨false, false⟩ = ok d →
    Alg.Holds (muCommaMaximize exampleEnv ⟨false, false⟩ 7 10) (exampleStart d)
      (fun _ t => TrueCalls 3 (fun x => Int.ofNat (x.count true)) t.calls ∧ BestOf t.calls t.solution)
      (fun t => TrueCalls 3 (fun x => Int.ofNat (x.count true)) t.calls ∧ BestExceptLast 2 t) :=
  fun d h => muCommaLambda_best (mu := 1) (lam := 2) (s := exampleStart d) exampleEnv_computes _ rfl
    (by exact (muCommaNew_valid h).1) (by decide) rfl 7 10

example : ∀ d : EaData Int (Pop Int), muPlusNew 3 2 2 ⟨false, false⟩ = ok d →
    Alg.Holds (muPlusMaximize exampleEnv ⟨false, false⟩ 7 10) (exampleStart d)
      (fun _ t => TrueCalls 3 (fun x => Int.ofNat (x.count true)) t.calls ∧ BestOf t.calls t.solution ∧
        ∀ c ∈ t.data.parents.individuals, c ∈ t.calls)
      (fun t => TrueCalls 3 (fun x => Int.ofNat (x.count true)) t.calls ∧ BestExceptLast 2 t) :=
  fun d h => muPlusLambda_best (mu := 2) (lam := 2) (s := exampleStart d) exampleEnv_computes _
    (by exact (muPlusNew_valid h).1) (by exact (muPlusNew_valid h).2) rfl 7 10

example : ∀ d : EaData Int Tournament, gaNew 3 3 ⟨false, false⟩ = ok d →
    Alg.Holds (gaMaximize exampleEnv ⟨⟨false, false⟩, 2⟩ 7 10) (exampleStart d)
      (fun _ t => TrueCalls 3 (fun x => Int.ofNat (x.count true)) t.calls ∧ BestOf t.calls t.solution)
      (fun t => TrueCalls 3 (fun x => Int.ofNat (x.count true)) t.calls ∧ BestExceptLast 3 t) :=
  fun d h => geneticAlgorithm_best (mu := 3) (s := exampleStart d) exampleEnv_computes _
    (by exact (gaNew_valid h).1) (by exact (gaNew_valid h).2) rfl 7 10

/-- One generation of the (1, 2) EA, from `[false, false, true]`. -/
example : (match (muCommaNew 3 1 2 ⟨false, false⟩ : Outcome (EaData Int Unit)) with
    | .ok d =>
      match muCommaMaximize exampleEnv ⟨false, false⟩ 1 10 (exampleStart d)
        [0, 1, 0, 0, 0, 1, 0, 1, 0, 1, 0, 0, 0, 1, 0, 0, 0, 0] with
      | .ok r _ => some (r.2.solution, r.2.calls)
      | _ => none
    | _ => none) = some (([true, true, true], 3), [([false, false, true], 1), ([true, true, true], 3),
      ([false, true, true], 2)]) := by decide +kernel

/-- One generation of the (2 + 2) EA. -/
example : (match (muPlusNew 3 2 2 ⟨false, false⟩ : Outcome (EaData Int (Pop Int))) with
    | .ok d =>
      match muPlusMaximize exampleEnv ⟨false, false⟩ 1 10 (exampleStart d)
        [0, 1, 0, 0, 0, 1, 0, 0, 0, 1, 0, 1, 0, 0, 0, 1, 0, 0, 0, 0] with
      | .ok r _ => some (r.2.solution, r.2.calls)
      | _ => none
    | _ => none) = some (([true, true, true], 3), [([false, true, false], 1), ([false, false, true], 1),
      ([true, true, true], 3), ([false, true, true], 2)]) := by decide +kernel

/-- A generation of the genetic algorithm, interrupted by the exhaustion of the budget after two of three offsprings:
the first of them is better than the solution. -/
example : (match (gaNew 3 3 ⟨false, false⟩ : Outcome (EaData Int Tournament)) with
    | .ok d =>
      match gaMaximize exampleEnv ⟨⟨false, false⟩, 2⟩ 1 10 (exampleStart d)
        [0, 0, 1, 0, 0, 0, 1, 0, 0, 0, 0, 0, 0, 1, 1, 0, 0, 0, 0, 0, 0, 1, 0, 1, 0, 0, 0, 1, 0, 0, 1, 0, 1, 0, 0, 0] with
      | .ok (.error .lastEvaluation, t) _ => some (t.solution, t.calls.length)
      | _ => none
    | _ => none) = some (([false, true, false], 1), 5) := by decide +kernel

end Hnco
