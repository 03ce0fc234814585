import Verif.Prob.VectorProps
import Verif.Prob.EvolutionProps
import Verif.Algorithm.GenerationReach

/-! # Lemmas which compare the two models of random computations -/

namespace Hnco.Prob

open Outcome
open scoped ENNReal

/-! ## Computations without state -/

/-- Every result of positive probability is given by some draws. -/
def Given {α : Type} (d : Dist α) (m : Sim α) : Prop := ∀ a, d a ≠ 0 → Sim.Reaches m a

namespace Given

variable {α β σ : Type}

theorem pure (a : α) : Given (Pure.pure a) (Pure.pure a) := by
  intro b hb
  rw [pure_support hb]
  exact Sim.Reaches.pure a

theorem bind {d : Dist α} {m : Sim α} {f : α → Dist β} {g : α → Sim β} (h : Given d m) (hf : ∀ a, d a ≠ 0 → Given (f a) (g a)) :
    Given (d >>= f) (m >>= g) := by
  intro b hb
  obtain ⟨a, ha, hb⟩ := bind_support hb
  exact Sim.Reaches.bind (h a ha) (hf a ha b hb)

theorem lift (o : Outcome α) : Given (Dist.lift o) (Sim.lift o) := fun _ ha => Sim.Reaches.lift (lift_support ha)

theorem forLoop {body : ℕ → σ → Dist σ} {body' : ℕ → σ → Sim σ} (h : ∀ i s, Given (body i s) (body' i s)) :
    ∀ (k i : ℕ) (s : σ), Given (Dist.forLoop k i body s) (Sim.forLoop k i body' s)
  | 0, _, s => Given.pure s
  | k + 1, i, s => (h i s).bind (fun t _ => forLoop h k (i + 1) t)

theorem forRange {body : ℕ → σ → Dist σ} {body' : ℕ → σ → Sim σ} (h : ∀ i s, Given (body i s) (body' i s)) (a b : ℕ) (s : σ) :
    Given (Dist.forRange a b body s) (Sim.forRange a b body' s) := forLoop h _ _ _

theorem bernoulli : Given Dist.bernoulli Sim.bernoulli := fun b _ => Sim.Reaches.bernoulli b

theorem coin (p : ℝ≥0∞) : Given (Dist.coin p) Sim.bernoulli := fun b _ => Sim.Reaches.bernoulli b

theorem uniformInt (lo hi : ℕ) : Given (Dist.uniformInt lo hi) (Sim.uniformInt lo hi) := by
  intro k hk
  have : lo ≤ k ∧ k ≤ hi := by
    by_contra h
    exact hk (if_neg h)
  exact Sim.Reaches.uniformInt this.1 this.2

end Given

/-- A number below `p` is given by some draws if the coin falls on the right side with positive probability. -/
theorem coin_given {p : ℚ} {b : Bool} (h : Dist.coin (ENNReal.ofReal (p : ℝ)) b ≠ 0) :
    ∃ u : ℚ, Sim.Reaches Sim.uniform u ∧ decide (u < p) = b := by
  have h0 : Sim.Reaches Sim.uniform (0 : ℚ) := by
    have := Sim.Reaches.uniform (a := 0) (b := 1) (by decide)
    simpa using this
  cases b with
  | true =>
    refine ⟨0, h0, decide_eq_true ?_⟩
    have h' : min (ENNReal.ofReal (p : ℝ)) 1 ≠ 0 := h
    have : ENNReal.ofReal (p : ℝ) ≠ 0 := fun e => h' (by rw [e]; simp)
    have := ENNReal.ofReal_pos.mp (pos_iff_ne_zero.mpr this)
    exact_mod_cast this
  | false =>
    have h' : (1 : ℝ≥0∞) - ENNReal.ofReal (p : ℝ) ≠ 0 := h
    have hlt : p < 1 := by
      have : ENNReal.ofReal (p : ℝ) < 1 := tsub_pos_iff_lt.mp (pos_iff_ne_zero.mpr h')
      have := ENNReal.ofReal_lt_one.mp this
      exact_mod_cast this
    rcases le_or_gt p 0 with hp | hp
    · exact ⟨0, h0, decide_eq_false (not_lt.mpr hp)⟩
    · refine ⟨p, ?_, by simp⟩
      have hnum : 0 ≤ p.num := Rat.num_nonneg.mpr hp.le
      have hden : p.num.toNat < p.den := by
        have := Rat.num_lt_denom_iff.mpr hlt
        omega
      have := Sim.Reaches.uniform hden
      rwa [show ((p.num.toNat : Nat) : Rat) = ((p.num : Int) : Rat) by
        exact_mod_cast Int.toNat_of_nonneg hnum, Rat.num_div_den] at this

theorem vget_map {α β : Type} {f : α → β} {l : List α} {i : ℕ} {b : β} (h : vget (l.map f) i = ok b) : ∃ a, vget l i = ok a ∧ f a = b := by
  unfold vget at *
  rw [List.getElem?_map] at h
  cases e : l[i]? with
  | none => rw [e] at h; cases h
  | some a =>
    rw [e] at h
    cases h
    exact ⟨a, rfl, rfl⟩

theorem sampleVector_given (pv : List ℚ) (x : BV) : Given (sampleVector pv x) (Hnco.pvSample pv x) := by
  unfold sampleVector pvSample Hnco.pvSample
  rw [List.length_map]
  refine (Given.lift _).bind (fun _ _ => Given.forRange (fun i y => ?_) _ _ _)
  intro z hz
  obtain ⟨q, hq, hz⟩ := bind_support hz
  obtain ⟨p, hp, rfl⟩ := vget_map (lift_support hq)
  obtain ⟨b, hb, hz⟩ := bind_support hz
  obtain ⟨u, hu, e⟩ := coin_given hb
  refine Sim.Reaches.bind hu (Sim.Reaches.bind (Sim.Reaches.lift hp) (Sim.Reaches.lift ?_))
  rw [e]
  cases b
  · exact lift_support hz
  · exact lift_support hz

theorem randomBits_given (x : BV) : Given (bvRandomBits x) (Hnco.bvRandomBits x.length) := by
  intro y hy
  rw [bvRandomBits_law] at hy
  have : y.length = x.length := by
    by_contra h
    exact hy (if_neg h)
  rw [← this]
  exact bvRandomBits_any y

variable {K : Type}

theorem popSample_given {sampler : BV → Dist BV} {sampler' : BV → Sim BV} (h : ∀ x, Given (sampler x) (sampler' x)) (p : Pop K) :
    Given (popSample sampler p) (p.sample sampler') :=
  Given.forRange (fun _ _ => (Given.lift _).bind (fun _ _ => (h _).bind (fun _ _ => (Given.lift _).bind (fun _ _ => Given.pure _)))) _ _ _

/-! ## Draws which are used -/

/-- A computation which only looks at the draws which it uses. -/
def UsesPrefix {α : Type} (m : Sim α) : Prop :=
  ∀ ds a rest, m ds = .ok a rest → ∃ used, ds = used ++ rest ∧ ∀ r, m (used ++ r) = .ok a r

namespace UsesPrefix

variable {α β σ : Type}

theorem reaches {m : Sim α} (h : UsesPrefix m) {a : α} (ha : ∃ draws rest, m draws = .ok a rest) : Sim.Reaches m a := by
  obtain ⟨ds, rest, ha⟩ := ha
  obtain ⟨used, _, h⟩ := h ds a rest ha
  exact ⟨used, h⟩

theorem pure (a : α) : UsesPrefix (Pure.pure a : Sim α) := by
  intro ds b rest h
  cases h
  exact ⟨[], rfl, fun _ => rfl⟩

theorem lift (o : Outcome α) : UsesPrefix (Sim.lift o) := by
  intro ds b rest h
  cases o with
  | ok a => cases h; exact ⟨[], rfl, fun _ => rfl⟩
  | throw e => cases h
  | ub => cases h

theorem bind {m : Sim α} {f : α → Sim β} (h : UsesPrefix m) (hf : ∀ a, UsesPrefix (f a)) : UsesPrefix (m >>= f) := by
  intro ds b rest hb
  change Sim.bind m f ds = _ at hb
  unfold Sim.bind at hb
  cases e : m ds with
  | ok a mid =>
    rw [e] at hb
    obtain ⟨u1, rfl, g1⟩ := h ds a mid e
    obtain ⟨u2, rfl, g2⟩ := hf a mid b rest hb
    refine ⟨u1 ++ u2, (List.append_assoc _ _ _).symm, fun r => ?_⟩
    change Sim.bind m f _ = _
    unfold Sim.bind
    rw [List.append_assoc, g1]
    exact g2 r
  | throw e' => rw [e] at hb; cases hb
  | ub => rw [e] at hb; cases hb
  | out => rw [e] at hb; cases hb

theorem shuffle (l : List α) : UsesPrefix (Sim.shuffle l) := by
  intro ds b rest h
  cases ds with
  | nil => cases h
  | cons d ds => cases h; exact ⟨[d], rfl, fun _ => rfl⟩

theorem sort (lt : α → α → Bool) (l : List α) : UsesPrefix (Sim.sort lt l) := by
  intro ds b rest h
  unfold Sim.sort at h ⊢
  cases ds with
  | nil => cases h
  | cons d ds =>
    refine ⟨[d], ?_, fun r => ?_⟩
    · dsimp only at h
      split at h
      · cases h; rfl
      · cases h
    · dsimp only [List.cons_append, List.nil_append] at h ⊢
      split at h
      · next e => cases h; rfl
      · cases h

theorem partialSort (lt : α → α → Bool) (k : ℕ) (l : List α) : UsesPrefix (Sim.partialSort lt k l) := by
  intro ds b rest h
  unfold Sim.partialSort at h ⊢
  split at h
  · cases h
  · next hk =>
    cases ds with
    | nil => cases h
    | cons d ds =>
      refine ⟨[d], ?_, fun r => ?_⟩
      · dsimp only at h
        split at h
        · cases h; rfl
        · cases h
      · rw [if_neg hk]
        dsimp only [List.cons_append, List.nil_append] at h ⊢
        split at h
        · next e => cases h; rfl
        · cases h

end UsesPrefix

section
variable [LinearOrder K]

theorem popSort_prefix (p : Pop K) : UsesPrefix p.sort :=
  (UsesPrefix.shuffle _).bind (fun _ => (UsesPrefix.lift _).bind (fun _ => (UsesPrefix.sort _ _).bind (fun _ => UsesPrefix.pure _)))

theorem popPartialSort_prefix (k : ℕ) (p : Pop K) : UsesPrefix (p.partialSort k) :=
  (UsesPrefix.lift _).bind (fun _ => (UsesPrefix.shuffle _).bind (fun _ => (UsesPrefix.lift _).bind (fun _ =>
    (UsesPrefix.partialSort _ _ _).bind (fun _ => UsesPrefix.pure _))))

theorem commaSelect_prefix (p o : Pop K) : UsesPrefix (commaSelect p o) :=
  (popPartialSort_prefix _ _).bind (fun _ => (UsesPrefix.lift _).bind (fun _ => UsesPrefix.pure _))

theorem plusSelect_prefix (p o pool : Pop K) : UsesPrefix (plusSelect p o pool) :=
  (UsesPrefix.lift _).bind (fun _ => (UsesPrefix.lift _).bind (fun _ => (popPartialSort_prefix _ _).bind (fun _ =>
    (UsesPrefix.lift _).bind (fun _ => UsesPrefix.pure _))))

theorem tournamentInit_prefix (t : Tournament) : UsesPrefix t.init := (UsesPrefix.shuffle _).bind (fun _ => UsesPrefix.pure _)

omit [LinearOrder K] in
theorem tournamentSelect_prefix (compare : K → K → Bool) (bvs : List BV) (values : List K) (t : Tournament) :
    UsesPrefix (t.select compare bvs values) := by
  refine (UsesPrefix.lift _).bind (fun _ => (UsesPrefix.lift _).bind (fun _ => UsesPrefix.bind ?_ (fun _ => (UsesPrefix.lift _).bind (fun _ =>
    (UsesPrefix.lift _).bind (fun _ => UsesPrefix.pure _)))))
  unfold Tournament.next
  split
  · exact tournamentInit_prefix _
  · exact UsesPrefix.pure _

end

/-! ## Algorithms -/

/-- The environment in which evaluations are not interrupted. -/
def freely (f : Fn K) : Env K := ⟨f, fun _ _ => none⟩

variable {σ S : Type}

theorem evaluate_reaches {f : Fn K} {x : BV} {v : K} (h : f.eval x = ok v) (t : AlgState K σ) :
    Alg.Reaches (Hnco.evaluate (freely f) x) t v { t with calls := t.calls ++ [(x, v)] } := by
  unfold Alg.Reaches Hnco.evaluate freely
  dsimp only
  rw [h]
  exact Sim.Reaches.pure _

theorem evaluate_bind_reaches {α : Type} {f : Fn K} {x : BV} {v : K} (h : f.eval x = ok v) {t u : AlgState K σ} {a : α}
    {g : K → Alg (AlgState K σ) α} (hg : Alg.Reaches (g v) { t with calls := t.calls ++ [(x, v)] } a u) :
    Alg.Reaches (Hnco.evaluate (freely f) x >>= g) t a u := (evaluate_reaches h t).bind hg

theorem randomSolution_reaches {f : Fn K} {n : ℕ} {s : BV × K} (h : randomSolution f (List.replicate n false) s ≠ 0) {t : AlgState K σ}
    (ht : t.solution.1.length = n) :
    Alg.Reaches (Hnco.randomSolution (freely f)) t () { t with solution := s, calls := t.calls ++ [s] } := by
  unfold randomSolution at h
  obtain ⟨x, hx, h⟩ := bind_support h
  obtain ⟨v, hv, h⟩ := bind_support h
  rw [pure_support h]
  have hg := randomBits_given _ x hx
  rw [List.length_replicate, ← ht] at hg
  unfold Hnco.randomSolution
  refine Alg.Reaches.get_bind (Alg.Reaches.sim_bind hg (Alg.Reaches.modify_bind (evaluate_bind_reaches (lift_support hv) ?_)))
  exact Alg.Reaches.modify _ _

theorem boundedLoop_reaches {last : S → Bool} {iterate : S → Dist S} {iterate' : Alg (AlgState K σ) Unit} {R : S → AlgState K σ → Prop}
    (hl : ∀ s t, R s t → t.lastIteration = last s)
    (hi : ∀ s t s', R s t → iterate s s' ≠ 0 → ∃ t', Alg.Reaches iterate' t () t' ∧ R s' t') :
    ∀ (k : ℕ) (s : S) (t : AlgState K σ) (s' : S), R s t → boundedLoop last iterate k s s' ≠ 0 →
      ∃ t', Alg.Reaches (Hnco.boundedLoop iterate' k) t () t' ∧ R s' t' := by
  intro k
  induction k with
  | zero =>
    intro s t s' hR h
    rw [pure_support h]
    exact ⟨t, Alg.Reaches.pure _ _, hR⟩
  | succ k ih =>
    intro s t s' hR h
    unfold boundedLoop at h
    unfold Hnco.boundedLoop
    split at h
    · next e =>
      rw [pure_support h]
      refine ⟨t, Alg.Reaches.get_bind ?_, hR⟩
      rw [if_pos (by rw [hl s t hR]; exact e)]
      exact Alg.Reaches.pure _ _
    · next e =>
      obtain ⟨u, hu, h⟩ := bind_support h
      obtain ⟨v, hv, hR'⟩ := hi s t u hR hu
      obtain ⟨w, hw, hR''⟩ := ih u v s' hR' h
      refine ⟨w, Alg.Reaches.get_bind ?_, hR''⟩
      rw [if_neg (by rw [hl s t hR]; exact e)]
      exact hv.bind hw

theorem indefiniteGo_reaches {last : S → Bool} {iterate : S → Dist S} {iterate' : Alg (AlgState K σ) Unit} {R : S → AlgState K σ → Prop}
    (hl : ∀ s t, R s t → t.lastIteration = last s)
    (hi : ∀ s t s', R s t → iterate s s' ≠ 0 → ∃ t', Alg.Reaches iterate' t () t' ∧ R s' t') :
    ∀ (k : ℕ) (s : S) (t : AlgState K σ) (s' : S), R s t → indefiniteGo last iterate k s s' ≠ 0 →
      ∃ t', Alg.Reaches (Hnco.unboundedLoop iterate' k) t () t' ∧ R s' t' := by
  intro k
  induction k with
  | zero => intro s t s' _ h; exact absurd rfl h
  | succ k ih =>
    intro s t s' hR h
    unfold indefiniteGo at h
    unfold Hnco.unboundedLoop
    split at h
    · next e =>
      rw [pure_support h]
      refine ⟨t, Alg.Reaches.get_bind ?_, hR⟩
      rw [if_pos (by rw [hl s t hR]; exact e)]
      exact Alg.Reaches.pure _ _
    · next e =>
      obtain ⟨u, hu, h⟩ := bind_support h
      obtain ⟨v, hv, hR'⟩ := hi s t u hR hu
      obtain ⟨w, hw, hR''⟩ := ih u v s' hR' h
      refine ⟨w, Alg.Reaches.get_bind ?_, hR''⟩
      rw [if_neg (by rw [hl s t hR]; exact e)]
      exact hv.bind hw

/-- The loops of the two models, for states which are related by `R`. -/
theorem loop_reaches {init : Dist S} {last : S → Bool} {iterate : S → Dist S} {init' iterate' : Alg (AlgState K σ) Unit}
    {R : S → AlgState K σ → Prop} {t₀ : AlgState K σ} (hl : ∀ s t, R s t → t.lastIteration = last s)
    (h0 : ∀ s, init s ≠ 0 → ∃ t, Alg.Reaches init' t₀ () t ∧ R s { t with lastIteration := false })
    (hi : ∀ s t s', R s t → iterate s s' ≠ 0 → ∃ t', Alg.Reaches iterate' t () t' ∧ R s' t') {numIterations : ℤ} {s : S}
    (h : loop init last iterate numIterations s ≠ 0) :
    ∃ fuel t, Alg.Reaches (algLoop init' iterate' numIterations fuel) t₀ () t ∧ R s t := by
  unfold loop at h
  obtain ⟨u, hu, h⟩ := bind_support h
  obtain ⟨v, hv, hR⟩ := h0 u hu
  unfold algLoop
  split at h
  · next hT =>
    obtain ⟨w, hw, hR⟩ := boundedLoop_reaches hl hi _ _ _ _ hR h
    refine ⟨0, w, hv.bind (Alg.Reaches.modify_bind ?_), hR⟩
    rw [if_pos hT]
    exact hw
  · next hT =>
    have : ∃ k, indefiniteGo last iterate k u s ≠ 0 := by
      by_contra hno
      push Not at hno
      exact h (by change (⨆ k, indefiniteGo last iterate k u s) = 0; simp [hno])
    obtain ⟨k, hk⟩ := this
    obtain ⟨w, hw, hR⟩ := indefiniteGo_reaches hl hi _ _ _ _ hR hk
    refine ⟨k, w, hv.bind (Alg.Reaches.modify_bind ?_), hR⟩
    rw [if_neg hT]
    exact hw

theorem run_reaches {solution : S → BV × K} {init : Dist S} {iterate : S → Dist S} {init' iterate' : Alg (AlgState K σ) Unit}
    {R : S → AlgState K σ → Prop} {t₀ : AlgState K σ} (hl : ∀ s t, R s t → t.lastIteration = false)
    (hs : ∀ s t, R s t → t.solution = solution s)
    (h0 : ∀ s, init s ≠ 0 → ∃ t, Alg.Reaches init' t₀ () t ∧ R s { t with lastIteration := false })
    (hi : ∀ s t s', R s t → iterate s s' ≠ 0 → ∃ t', Alg.Reaches iterate' t () t' ∧ R s' t') {numIterations : ℤ} {r : BV × K}
    (h : run solution init iterate numIterations r ≠ 0) :
    ∃ fuel t, Alg.Reaches (algLoop init' iterate' numIterations fuel) t₀ () t ∧ t.solution = r := by
  unfold run at h
  obtain ⟨s, h1, h2⟩ := bind_support h
  obtain ⟨fuel, t, h3, h4⟩ := loop_reaches (last := fun _ => false) hl h0 hi h1
  exact ⟨fuel, t, h3, by rw [hs s t h4, pure_support h2]⟩

/-! ## Populations -/

theorem forLoop_popEvaluate {f : Fn K} (L : PopLens σ K) : ∀ (k i : ℕ) (p q : Pop K),
    Hnco.forLoop k i (fun i (p : Pop K) => (do
      let x ← vget p.bvs i
      let v ← f.eval x
      let values ← vset p.values i v
      ok { p with values := values } : Outcome (Pop K))) p = ok q →
    ∀ t : AlgState K σ, L.get t.data = p →
      ∃ calls, Alg.Reaches (Alg.forLoop k i (popEvaluateOne (freely f) L)) t () { t with calls := calls, data := L.put q t.data } := by
  intro k
  induction k with
  | zero =>
    intro i p q h t ht
    cases h
    refine ⟨t.calls, ?_⟩
    rw [← ht, L.put_get]
    exact Alg.Reaches.pure _ _
  | succ k ih =>
    intro i p q h t ht
    obtain ⟨p', h1, h2⟩ := bind_eq_ok.mp h
    obtain ⟨x, hx, h1⟩ := bind_eq_ok.mp h1
    obtain ⟨v, hv, h1⟩ := bind_eq_ok.mp h1
    obtain ⟨values, hvals, h1⟩ := bind_eq_ok.mp h1
    cases h1
    obtain ⟨calls, hc⟩ := ih (i + 1) _ q h2 { t with calls := t.calls ++ [(x, v)], data := L.put { p with values := values } t.data }
      (L.get_put _ _)
    dsimp only at hc
    rw [L.put_put] at hc
    refine ⟨calls, Alg.Reaches.bind (a := ()) ?_ hc⟩
    unfold popEvaluateOne
    subst ht
    refine Alg.Reaches.get_bind (Alg.Reaches.lift_bind hx (evaluate_bind_reaches hv (Alg.Reaches.lift_bind hvals ?_)))
    exact Alg.Reaches.modify _ _

theorem popEvaluate_lands {f : Fn K} (L : PopLens σ K) {p q : Pop K} (h : popEvaluate f p = ok q) {t : AlgState K σ} (ht : L.get t.data = p) :
    ∃ calls, Alg.Reaches (Hnco.popEvaluate (freely f) L) t () { t with calls := calls, data := L.put q t.data } := by
  subst ht
  unfold popEvaluate at h
  obtain ⟨_, h1, h2⟩ := bind_eq_ok.mp h
  obtain ⟨calls, hc⟩ := forLoop_popEvaluate L _ _ _ _ h2 t rfl
  refine ⟨calls, ?_⟩
  unfold Hnco.popEvaluate
  exact Alg.Reaches.get_bind (Alg.Reaches.lift_bind h1 hc)

theorem popSort_lands [LinearOrder K] (L : PopLens σ K) {p q : Pop K} (h : Sim.Reaches p.sort q) {t : AlgState K σ} (ht : L.get t.data = p) :
    Alg.Reaches (Hnco.popSort L) t () { t with data := L.put q t.data } := by
  subst ht
  exact Alg.Reaches.get_bind (Alg.Reaches.sim_bind h (Alg.Reaches.modify _ _))

theorem updateSolution_reaches [LinearOrder K] (x : BV) (v : K) (t : AlgState K σ) :
    Alg.Reaches (Hnco.updateSolution x v) t () { t with solution := updateSolution t.solution x v } := by
  have := Alg.Reaches.modify (fun s : AlgState K σ => if s.solution.2 < v then { s with solution := (x, v) } else s) t
  unfold Hnco.updateSolution updateSolution
  split
  · next h =>
    rwa [if_pos h] at this
  · next h =>
    rwa [if_neg h] at this

theorem popUpdateSolution_lands [LinearOrder K] (L : PopLens σ K) {p : Pop K} {s : BV × K} {t : AlgState K σ} (ht : L.get t.data = p)
    (h : popUpdateSolution t.solution p = ok s) : Alg.Reaches (Hnco.popUpdateSolution L) t () { t with solution := s } := by
  subst ht
  unfold popUpdateSolution at h
  obtain ⟨x, hx, h⟩ := bind_eq_ok.mp h
  obtain ⟨v, hv, h⟩ := bind_eq_ok.mp h
  cases h
  exact Alg.Reaches.get_bind (Alg.Reaches.lift_bind hx (Alg.Reaches.lift_bind hv (updateSolution_reaches x v t)))

end Hnco.Prob
