import Verif.Population.Props
import Verif.Algorithm.AlgLemmas

/-! # Populations in algorithms -/

namespace Hnco

open Outcome

variable {K σ : Type}

/-! ## Specification -/

/-- The vectors of a population with the values of the function. -/
def evaluated (val : BV → K) (bvs : List BV) : List (BV × K) := bvs.map (fun x => (x, val x))

/-- During the evaluation of the vectors `gen`, the solution only changes if it is replaced by a best one of them which
is strictly better; otherwise none of them is strictly better. -/
def StrictStep [LinearOrder K] (s t : AlgState K σ) (gen : List (BV × K)) : Prop :=
  t.calls = s.calls ++ gen ∧
    ((t.solution = s.solution ∧ ∀ c ∈ gen, c.2 ≤ s.solution.2) ∨
      (t.solution ∈ gen ∧ s.solution.2 < t.solution.2 ∧ ∀ c ∈ gen, c.2 ≤ t.solution.2))

/-- The solution is a best evaluated vector, except for fewer than `m` evaluations at the end. -/
def BestExceptLast [LinearOrder K] (m : Nat) (s : AlgState K σ) : Prop :=
  ∃ done last, s.calls = done ++ last ∧ last.length < m ∧ (done = [] ∨ BestOf done s.solution)

/-! ## Lemmas -/

theorem StrictStep.best [LinearOrder K] {s t : AlgState K σ} {gen : List (BV × K)} (h : StrictStep s t gen)
    (hs : BestOf s.calls s.solution) : BestOf t.calls t.solution := by
  obtain ⟨hc, h⟩ := h
  rw [hc]
  rcases h with ⟨h1, h2⟩ | ⟨h1, h2, h3⟩
  · rw [h1]
    refine ⟨List.mem_append_left _ hs.1, ?_⟩
    intro c hcc
    rcases List.mem_append.mp hcc with hcc | hcc
    · exact hs.2 c hcc
    · exact h2 c hcc
  · refine ⟨List.mem_append_right _ h1, ?_⟩
    intro c hcc
    rcases List.mem_append.mp hcc with hcc | hcc
    · exact le_of_lt (lt_of_le_of_lt (hs.2 c hcc) h2)
    · exact h3 c hcc

theorem evaluated_true {n : Nat} {val : BV → K} {bvs : List BV} (h : ∀ x ∈ bvs, x.length = n) :
    TrueCalls n val (evaluated val bvs) := by
  intro c hc
  obtain ⟨x, hx, rfl⟩ := List.mem_map.mp hc
  exact ⟨h x hx, rfl⟩

theorem TrueCalls.append {n : Nat} {val : BV → K} {a b : List (BV × K)} (ha : TrueCalls n val a)
    (hb : TrueCalls n val b) : TrueCalls n val (a ++ b) := by
  intro c hc
  rcases List.mem_append.mp hc with hc | hc
  · exact ha c hc
  · exact hb c hc

theorem TrueCalls.of_append {n : Nat} {val : BV → K} {a b : List (BV × K)} (h : TrueCalls n val (a ++ b)) :
    TrueCalls n val a ∧ TrueCalls n val b :=
  ⟨fun c hc => h c (List.mem_append_left _ hc), fun c hc => h c (List.mem_append_right _ hc)⟩

theorem popEvaluate_holds {env : Env K} {n : Nat} {val : BV → K} (henv : env.Computes n val) {L : PopLens σ K}
    {s : AlgState K σ} {size : Nat} {p : Pop K} (hp : L.get s.data = p) (hv : p.Valid size n)
    {Q : Unit → AlgState K σ → Prop} {E : AlgState K σ → Prop}
    (hQ : Q () { s with calls := s.calls ++ evaluated val p.bvs, data := L.put { p with values := p.bvs.map val } s.data })
    (hE : ∀ k values, k < size → values.length = size →
      E { s with calls := s.calls ++ evaluated val (p.bvs.take k), data := L.put { p with values := values } s.data }) :
    Alg.Holds (popEvaluate env L) s Q E := by
  subst hp
  unfold popEvaluate
  refine Alg.Holds.get_bind (Alg.Holds.assert_bind (by rw [hv.bvs, hv.values]; simp) ?_)
  have hpv := hv.values
  have hpb := hv.bvs
  refine (Alg.Holds.forRange (fun i (t : AlgState K σ) =>
      t = { s with calls := s.calls ++ evaluated val ((L.get s.data).bvs.take i), data := L.put { L.get s.data with values := ((L.get s.data).bvs.map val).take i ++ (L.get s.data).values.drop i } s.data })
    (Nat.zero_le _) ?_ ?_).mono ?_ (fun _ h => h)
  · simp only [List.take_zero, evaluated, List.map_nil, List.append_nil, List.nil_append, List.drop_zero]
    rw [show ({ L.get s.data with values := (L.get s.data).values } : Pop K) = L.get s.data from rfl, L.put_get]
  · rintro i t _ hi rfl
    unfold popEvaluateOne
    refine Alg.Holds.get_bind ?_
    dsimp only
    rw [L.get_put]
    dsimp only
    refine Alg.Holds.lift_bind (vget_eq hi) ?_
    refine evaluate_bind henv (hv.bits _ (List.getElem_mem hi)) ?_ ?_
    · have hlen : i < (((L.get s.data).bvs.map val).take i ++ (L.get s.data).values.drop i).length := by
        rw [List.length_append, List.length_take, List.length_drop, List.length_map]
        omega
      refine Alg.Holds.lift_bind (vset_eq hlen) (Alg.Holds.modify ?_)
      dsimp only
      rw [L.get_put, L.put_put]
      dsimp only
      have hset : ((((L.get s.data).bvs.map val).take i ++ (L.get s.data).values.drop i).set i
          (val (L.get s.data).bvs[i])) =
          ((L.get s.data).bvs.map val).take (i + 1) ++ (L.get s.data).values.drop (i + 1) := by
        apply List.ext_getElem?
        intro j
        rcases Nat.lt_trichotomy j i with h | rfl | h
        · rw [List.getElem?_set_ne (by omega), List.getElem?_append_left (by simp; omega),
            List.getElem?_append_left (by simp; omega), List.getElem?_take, List.getElem?_take, if_pos h,
            if_pos (by omega)]
        · rw [List.getElem?_set_self hlen, List.getElem?_append_left (by simp; omega), List.getElem?_take,
            if_pos (by omega)]
          simp [hi]
        · rw [List.getElem?_set_ne (by omega), List.getElem?_append_right (by simp; omega),
            List.getElem?_append_right (by simp; omega), List.getElem?_drop, List.getElem?_drop, List.length_take,
            List.length_take, List.length_map]
          congr 1
          omega
      rw [hset]
      have hcalls : evaluated val ((L.get s.data).bvs.take i) ++ [((L.get s.data).bvs[i], val (L.get s.data).bvs[i])] =
          evaluated val ((L.get s.data).bvs.take (i + 1)) := by
        unfold evaluated
        rw [List.take_add_one, List.map_append, List.getElem?_eq_getElem hi]
        simp
      rw [List.append_assoc, hcalls]
    · exact hE i _ (by omega) (by
        rw [List.length_append, List.length_take, List.length_drop, List.length_map]
        omega)
  · rintro _ t rfl
    rw [show (L.get s.data).bvs.take (L.get s.data).bvs.length = (L.get s.data).bvs from List.take_length,
      show ((L.get s.data).bvs.map val).take (L.get s.data).bvs.length = (L.get s.data).bvs.map val by
        rw [List.take_of_length_le (by simp)],
      show (L.get s.data).values.drop (L.get s.data).bvs.length = [] by
        rw [List.drop_of_length_le (by omega)], List.append_nil]
    exact hQ

/-- The individuals after evaluation. -/
theorem evaluated_individuals (val : BV → K) (p : Pop K) :
    Pop.individuals { p with values := p.bvs.map val } = evaluated val p.bvs := by
  unfold Pop.individuals evaluated
  rw [show p.bvs.zip (p.bvs.map val) = (p.bvs.map id).zip (p.bvs.map val) by rw [List.map_id], List.zip_map']
  rfl

theorem Pop.Valid.withValues {size n : Nat} {p : Pop K} (h : p.Valid size n) {values : List K}
    (hv : values.length = size) : Pop.Valid size n { p with values := values } :=
  ⟨h.bvs, hv, h.perm, h.bits⟩

theorem randomBvs_post {n : Nat} : ∀ bvs : List BV, (∀ x ∈ bvs, x.length = n) →
    Sim.Post (randomBvs bvs) (fun l => l.length = bvs.length ∧ ∀ x ∈ l, x.length = n)
  | [], _ => Sim.Post.pure ⟨rfl, (by intro x hx; cases hx)⟩
  | bv :: bvs, h => by
    unfold randomBvs
    refine (bvRandomBits_post _).bind (fun x hx => ?_)
    refine (randomBvs_post bvs (fun y hy => h y (List.mem_cons_of_mem _ hy))).bind ?_
    rintro xs ⟨h1, h2⟩
    refine Sim.Post.pure ⟨by simp [h1], ?_⟩
    intro y hy
    rcases List.mem_cons.mp hy with rfl | hy
    · rw [hx]; exact h bv List.mem_cons_self
    · exact h2 y hy

theorem Pop.random_valid {size n : Nat} {p : Pop K} (hp : p.Valid size n) :
    Sim.Post p.random (fun q => q.Valid size n) := by
  unfold Pop.random
  refine (randomBvs_post p.bvs hp.bits).bind ?_
  rintro bvs ⟨h1, h2⟩
  exact Sim.Post.pure ⟨h1.trans hp.bvs, hp.values, hp.perm, h2⟩

theorem popRandom_holds {L : PopLens σ K} {s : AlgState K σ} {size n : Nat} (hp : (L.get s.data).Valid size n)
    {Q : Unit → AlgState K σ → Prop} {E : AlgState K σ → Prop}
    (hQ : ∀ q : Pop K, q.Valid size n → Q () { s with data := L.put q s.data }) :
    Alg.Holds (popRandom L) s Q E := by
  unfold popRandom
  exact Alg.Holds.get_bind (Alg.Holds.sim_bind (Pop.random_valid hp) (fun q hq => Alg.Holds.modify (hQ q hq)))

theorem Pop.sort_valid [LinearOrder K] {size n : Nat} {p : Pop K} (hp : p.Valid size n) :
    Sim.Post p.sort (fun q => q.Valid size n ∧ q.bvs = p.bvs ∧ q.individuals = p.individuals ∧ q.Sorted) := by
  refine (pop_sort_spec hp).mono ?_
  rintro q ⟨h1, h2, h3, h4⟩
  exact ⟨⟨by rw [h1, hp.bvs], by rw [h2, hp.values], h3, by rw [h1]; exact hp.bits⟩, h1,
    by simp only [Pop.individuals, h1, h2], h4⟩

theorem popSort_holds [LinearOrder K] {L : PopLens σ K} {s : AlgState K σ} {size n : Nat} {p : Pop K}
    (hg : L.get s.data = p) (hp : p.Valid size n)
    {Q : Unit → AlgState K σ → Prop} {E : AlgState K σ → Prop}
    (hQ : ∀ q : Pop K, q.Valid size n → q.bvs = p.bvs → q.individuals = p.individuals → q.Sorted →
      Q () { s with data := L.put q s.data }) : Alg.Holds (popSort L) s Q E := by
  subst hg
  unfold popSort
  exact Alg.Holds.get_bind (Alg.Holds.sim_bind (Pop.sort_valid hp) (fun q hq =>
    Alg.Holds.modify (hQ q hq.1 hq.2.1 hq.2.2.1 hq.2.2.2)))

/-- The best individual of a sorted population. -/
theorem Pop.Sorted.first [LinearOrder K] {size n : Nat} {p : Pop K} (hp : p.Valid size n) (hs : p.Sorted)
    (h0 : 0 < size) : ∃ x v, p.bestBv 0 = ok x ∧ p.bestValue 0 = ok v ∧ (x, v) ∈ p.individuals ∧
      ∀ c ∈ p.individuals, c.2 ≤ v := by
  obtain ⟨k, x, v, hk, e1, e2, e3, e4, e5, e6⟩ := hp.ranked_read h0
  refine ⟨x, v, e5, e6, individuals_getElem? |>.mpr ⟨e2, e3⟩ |> List.mem_of_getElem?, ?_⟩
  intro c hc
  obtain ⟨i, hi⟩ := List.mem_iff_getElem?.mp (hp.ranked_perm.mem_iff.mpr hc)
  exact hs 0 i v c.2 (Nat.zero_le _) (hp.rankValue.mpr ⟨x, e4⟩) (hp.rankValue.mpr ⟨c.1, hi⟩)

/-- Offering the best of a generation to the solution. -/
theorem strictStep_update [LinearOrder K] {s t : AlgState K σ} {gen : List (BV × K)} {x : BV} {v : K}
    (hc : t.calls = s.calls ++ gen) (hsol : t.solution = s.solution) (hmem : s.solution.2 < v → (x, v) ∈ gen)
    (hle : ∀ c ∈ gen, c.2 ≤ max v s.solution.2) :
    StrictStep s (if t.solution.2 < v then { t with solution := (x, v) } else t) gen := by
  by_cases h : t.solution.2 < v
  · rw [if_pos h]
    rw [hsol] at h
    refine ⟨hc, Or.inr ⟨hmem h, h, ?_⟩⟩
    intro c hcc
    have := hle c hcc
    rwa [max_eq_left (le_of_lt h)] at this
  · rw [if_neg h]
    rw [hsol] at h
    refine ⟨hc, Or.inl ⟨hsol, ?_⟩⟩
    intro c hcc
    have := hle c hcc
    rwa [max_eq_right (not_lt.mp h)] at this

theorem popUpdateSolution_holds [LinearOrder K] {L : PopLens σ K} {t : AlgState K σ} {x : BV} {v : K}
    (h1 : (L.get t.data).bestBv 0 = ok x) (h2 : (L.get t.data).bestValue 0 = ok v)
    {Q : Unit → AlgState K σ → Prop} {E : AlgState K σ → Prop}
    (hQ : Q () (if t.solution.2 < v then { t with solution := (x, v) } else t)) :
    Alg.Holds (popUpdateSolution L) t Q E := by
  unfold popUpdateSolution
  exact Alg.Holds.get_bind (Alg.Holds.lift_bind h1 (Alg.Holds.lift_bind h2 (Alg.Holds.modify hQ)))

theorem popUpdateSolution_bind [LinearOrder K] {β : Type} {L : PopLens σ K} {t : AlgState K σ} {x : BV} {v : K}
    (h1 : (L.get t.data).bestBv 0 = ok x) (h2 : (L.get t.data).bestValue 0 = ok v)
    {f : Unit → Alg (AlgState K σ) β} {Q : β → AlgState K σ → Prop} {E : AlgState K σ → Prop}
    (hQ : Alg.Holds (f ()) (if t.solution.2 < v then { t with solution := (x, v) } else t) Q E) :
    Alg.Holds (popUpdateSolution L >>= f) t Q E :=
  Alg.Holds.bind (P := fun _ u => u = if t.solution.2 < v then { t with solution := (x, v) } else t)
    (popUpdateSolution_holds h1 h2 rfl) (by rintro _ _ rfl; exact hQ)

/-- An interruption before the end of a generation. -/
theorem BestExceptLast.of_best [LinearOrder K] {s t : AlgState K σ} {m : Nat} {last : List (BV × K)}
    (hs : BestOf s.calls s.solution) (hc : t.calls = s.calls ++ last) (hsol : t.solution = s.solution)
    (hm : last.length < m) : BestExceptLast m t :=
  ⟨s.calls, last, hc, hm, Or.inr (by rw [hsol]; exact hs)⟩

/-- The invariant rule for algorithms made of strict steps. -/
theorem algLoop_best [LinearOrder K] {init iterate : Alg (AlgState K σ) Unit} {n m : Nat} {val : BV → K}
    (J : AlgState K σ → Prop) (hJ : ∀ s b, J s → J { s with lastIteration := b })
    (hstep : ∀ s, J s → TrueCalls n val s.calls → BestOf s.calls s.solution →
      Alg.Holds iterate s (fun _ t => J t ∧ ∃ gen, TrueCalls n val gen ∧ StrictStep s t gen)
        (fun t => TrueCalls n val t.calls ∧ BestExceptLast m t))
    {s : AlgState K σ}
    (hinit : Alg.Holds init s (fun _ t => J t ∧ TrueCalls n val t.calls ∧ BestOf t.calls t.solution)
      (fun t => TrueCalls n val t.calls ∧ BestExceptLast m t)) (numIterations : Int) (fuel : Nat) :
    Alg.Holds (algLoop init iterate numIterations fuel) s
      (fun _ t => J t ∧ TrueCalls n val t.calls ∧ BestOf t.calls t.solution)
      (fun t => TrueCalls n val t.calls ∧ BestExceptLast m t) := by
  refine algLoop_holds (fun t => J t ∧ TrueCalls n val t.calls ∧ BestOf t.calls t.solution) _ ?_ ?_ _ _
  · rintro t ⟨h1, h2, h3⟩ _
    refine (hstep t h1 h2 h3).mono ?_ (fun _ h => h)
    rintro _ u ⟨hu, gen, hg, hst⟩
    exact ⟨hu, by rw [hst.1]; exact h2.append hg, hst.best h3⟩
  · exact hinit.mono (fun _ t h => ⟨hJ t false h.1, h.2⟩) (fun _ h => h)

end Hnco
