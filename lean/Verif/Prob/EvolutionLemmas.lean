import Verif.Prob.PopulationLoops
import Verif.Prob.GibbsLemmas

/-!
# Lemmas about evolutionary algorithms with populations, with probabilities
-/

namespace Hnco.Prob

open Outcome
open scoped ENNReal
open Classical

variable {K τ : Type} {n mu lam : ℕ}

/-! ## Mutation -/

theorem operator_rate (m : MutationLaw) (n : ℕ) : (m.operator n).rate = m.rate := by
  unfold MutationLaw.operator StandardBitMutation.setAllowNoMutation StandardBitMutation.setMutationRate
  split <;> rfl

/-- What is needed of the mutation: it keeps the size, and gives every other vector with probability at least `c`. -/
structure Mutates (d : Dist (List ℕ)) (n : ℕ) (c : ℝ≥0∞) : Prop where
  sure : ∀ x : BV, x.length = n → Sure (mutate d x) (fun y => y.length = n)
  ge : ∀ x y : BV, x.length = n → y.length = n → y ≠ x → c ≤ mutate d x y

theorem operator_mutates {m : MutationLaw} (hn : 0 < n) (h0 : 0 < m.rate) (h1 : m.rate ≤ 1) :
    Mutates ((m.operator n).sampleBits n) n (min m.rate (1 - m.rate) ^ n) := by
  have hr := operator_rate m n
  obtain ⟨s1, s2⟩ := standard_samples (m := m.operator n) hn (by rw [hr]; exact h1) (by rw [hr]; exact h0.ne')
  refine ⟨fun x hx => ?_, fun x y hx hy hne => ?_⟩
  · subst hx
    refine ⟨by rw [mutate_total s1, s2], fun y hy => ?_⟩
    rw [mutate_apply s1] at hy
    by_contra h
    exact hy (if_neg h)
  · subst hx
    have := standard_ge hn (m := m.operator x.length) (by rw [hr]; exact h1) hy hne
    rw [hr] at this
    exact (pow_min_le (distance_le x y)).trans this

theorem min_pow_le {p : ℝ≥0∞} (n : ℕ) : min p (1 - p) ^ n ≤ ((2 : ℝ≥0∞) ^ n)⁻¹ := by
  rw [ENNReal.inv_pow]
  refine pow_le_pow_left' ?_ n
  by_cases h : p ≤ 2⁻¹
  · exact (min_le_left _ _).trans h
  · refine (min_le_right _ _).trans ?_
    calc 1 - p ≤ 1 - 2⁻¹ := tsub_le_tsub_left (not_le.mp h).le 1
      _ = 2⁻¹ := ENNReal.one_sub_inv_two

/-! ## States -/

/-- The state after the initialization of comma selection: the parents have not been evaluated. -/
structure EaStart (n mu lam : ℕ) (val : BV → K) (T : τ → Prop) (s : EaState K τ) : Prop where
  solution : Good n val s.solution
  parents : s.parents.Valid mu n
  offsprings : s.offsprings.Valid lam n
  extra : T s.extra

/-- The state between two iterations: the parents have their values, and none of them is better than the solution. -/
structure EaGood [LE K] (n mu lam : ℕ) (val : BV → K) (T : τ → Prop) (s : EaState K τ) : Prop extends EaStart n mu lam val T s where
  known : ∀ c ∈ s.parents.individuals, Good n val c
  best : (∃ y ∈ s.parents.bvs, IsMax n val y) → IsMax n val s.solution.1

theorem individuals_found {size : ℕ} {p : Pop K} (hp : p.Valid size n) {found : BV → Prop} :
    (∃ c ∈ p.individuals, found c.1) ↔ ∃ y ∈ p.bvs, found y := by
  rw [← individuals_fst hp]
  simp

/-! ## Making offsprings -/

section
variable {parents o : Pop K} {d : Dist (List ℕ)} {c : ℝ≥0∞}

/-- A parent chosen uniformly and its mutant. -/
noncomputable def mutant (d : Dist (List ℕ)) (parents : Pop K) : Dist BV := do
  let k ← Dist.uniformInt 0 (parents.size - 1)
  let x ← Dist.lift (vget parents.bvs k)
  mutate d x

theorem uniformInt_sure (hmu : 0 < mu) : Sure (Dist.uniformInt 0 (mu - 1)) (fun k => k < mu) := by
  refine ⟨Dist.uniformInt_total (Nat.zero_le _), fun k hk => ?_⟩
  rw [uniformBelow hmu] at hk
  by_contra h
  exact hk (if_neg h)

theorem mutant_sure (hd : Mutates d n c) (hmu : 0 < mu) (hp : parents.Valid mu n) : Sure (mutant d parents) (fun y => y.length = n) := by
  unfold mutant Pop.size
  rw [hp.bvs]
  refine (uniformInt_sure hmu).bind (fun k hk => ?_)
  have hk' : k < parents.bvs.length := by rw [hp.bvs]; exact hk
  rw [vget_eq hk', Dist.lift_ok, Dist.pure_bind']
  exact hd.sure _ (hp.bits _ (List.getElem_mem hk'))

theorem mutant_le [LinearOrder K] {val : BV → K} (hd : Mutates d n c) (hmu : 0 < mu) (hp : parents.Valid mu n)
    (hno : ¬ ∃ y ∈ parents.bvs, IsMax n val y) : (mutant d parents).expect (missing (IsMax n val)) ≤ 1 - c := by
  obtain ⟨y, hy⟩ := max_exists n val
  unfold mutant Pop.size
  rw [hp.bvs, Dist.expect_bind]
  calc (Dist.uniformInt 0 (mu - 1)).expect _ ≤ (Dist.uniformInt 0 (mu - 1)).expect (fun _ => 1 - c) := by
        refine Dist.expect_mono (fun k hk => ?_)
        have hk' : k < parents.bvs.length := by rw [hp.bvs]; exact (uniformInt_sure hmu).holds k hk
        rw [vget_eq hk', Dist.lift_ok, Dist.pure_bind']
        have hx := hp.bits _ (List.getElem_mem hk')
        exact one_sub_mass (hd.sure _ hx).total hy (hd.ge _ _ hx hy.1 (fun e => hno ⟨_, List.getElem_mem hk', e ▸ hy⟩))
    _ = 1 - c := by rw [Dist.expect_const, (uniformInt_sure hmu).total, one_mul]

theorem makeOffspring_eq {i : ℕ} (hi : i < o.bvs.length) :
    makeOffspring d parents i o = (mutant d parents >>= fun y => pure { o with bvs := o.bvs.set i y }) := by
  unfold makeOffspring mutant
  rw [Dist.bind_assoc']
  congr 1
  funext k
  rw [Dist.bind_assoc']
  congr 1
  funext x
  congr 1
  funext y
  rw [vset_eq hi, Dist.lift_ok, Dist.pure_bind']

theorem makeOffspring_sure (hd : Mutates d n c) (hmu : 0 < mu) (hp : parents.Valid mu n) {j : ℕ} (hj : j < lam) (ho : o.Valid lam n) :
    Sure (makeOffspring d parents j o) (fun q => q.Valid lam n ∧ ∀ i < j, q.bvs[i]? = o.bvs[i]?) := by
  rw [makeOffspring_eq (by rw [ho.bvs]; exact hj)]
  refine (mutant_sure hd hmu hp).bind (fun y hy => Sure.pure ⟨ho.setBv j hy, fun i hi => ?_⟩)
  dsimp only
  rw [List.getElem?_set_ne (by omega)]

theorem offsprings_sure (hd : Mutates d n c) (hmu : 0 < mu) (hp : parents.Valid mu n) (ho : o.Valid lam n) :
    Sure (Dist.forRange 0 o.size (makeOffspring d parents) o) (fun q => q.Valid lam n) := by
  unfold Pop.size
  rw [ho.bvs]
  exact breed_sure (get := Pop.bvs) ho (fun j o hj ho => makeOffspring_sure hd hmu hp hj ho)

theorem offsprings_le [LinearOrder K] {val : BV → K} (hd : Mutates d n c) (hmu : 0 < mu) (hp : parents.Valid mu n) (ho : o.Valid lam n)
    (hno : ¬ ∃ y ∈ parents.bvs, IsMax n val y) :
    (Dist.forRange 0 o.size (makeOffspring d parents) o).expect (missing (fun q => ∃ y ∈ q.bvs, IsMax n val y)) ≤ (1 - c) ^ lam := by
  unfold Pop.size
  rw [ho.bvs]
  refine breed_le (get := Pop.bvs) (I := Pop.Valid lam n) ho (fun p hp => hp.bvs)
    (fun j o hj ho => makeOffspring_sure hd hmu hp hj ho) (fun j o hj ho => ?_)
  have hj' : j < o.bvs.length := by rw [ho.bvs]; exact hj
  rw [makeOffspring_eq hj', Dist.expect_bind]
  refine le_trans (le_of_eq (Dist.expect_congr (fun y _ => ?_))) (mutant_le hd hmu hp hno)
  rw [Dist.expect_pure]
  unfold missing
  refine if_congr ?_ rfl rfl
  dsimp only
  rw [List.getElem?_set_self hj']
  simp

end

/-! ## Selection -/

section
variable [LinearOrder K] {f : Fn K} {val : BV → K} {c : Choices K}

/-- What follows the making of offsprings in plus selection. -/
noncomputable def plusRest (f : Fn K) (c : Choices K) (s : EaState K (Pop K)) (o : Pop K) : Dist (EaState K (Pop K)) := do
  let o ← Dist.lift (popEvaluate f o)
  let r ← c.plus s.parents o s.extra
  let solution ← Dist.lift (popUpdateSolution s.solution r.1)
  pure ⟨solution, r.1, r.2.1, r.2.2⟩

theorem selected_good {pool : List (BV × K)} {q : Pop K} (h : SelectsBest mu n pool q) (hpool : ∀ c ∈ pool, Good n val c) :
    (∀ c ∈ q.individuals, Good n val c) ∧ ((∃ y ∈ q.bvs, IsMax n val y) → ∃ c ∈ pool, IsMax n val c.1) := by
  obtain ⟨discarded, h1, _⟩ := h.best
  have hsub : ∀ c ∈ q.individuals, c ∈ pool := fun c hc => h1.mem_iff.mp (List.mem_append_left _ hc)
  refine ⟨fun c hc => hpool c (hsub c hc), fun hf => ?_⟩
  obtain ⟨c, hc, hm⟩ := (individuals_found h.valid).mpr hf
  exact ⟨c, hsub c hc, hm⟩

theorem plusRest_sure (hf : Evaluates f n val) (hc : c.Valid) (hmu : 0 < mu) {s : EaState K (Pop K)}
    (hs : EaGood n mu lam val (Pop.Valid (mu + lam) n) s) {o : Pop K} (ho : o.Valid lam n) :
    Sure (plusRest f c s o) (fun t => EaGood n mu lam val (Pop.Valid (mu + lam) n) t ∧
      (IsMax n val t.solution.1 ↔ IsMax n val s.solution.1 ∨ ∃ y ∈ o.bvs, IsMax n val y)) := by
  unfold plusRest
  refine (Sure.lift (popEvaluate_returns hf ho)).bind (fun q hq => ?_)
  obtain ⟨h1, h2, h3⟩ := hq
  refine (Sure.of_follows (hc.plus _ q _ mu lam n hmu hs.parents h1 hs.extra) (plus_select_spec hmu hs.parents h1 hs.extra)).bind (fun r hr => ?_)
  obtain ⟨g1, g2, g3⟩ := hr
  rw [h3] at g1
  obtain ⟨x, v, e1, e2, e3, e4⟩ := selectsBest_first g1 hmu
  have hpool : ∀ c ∈ s.parents.individuals ++ evaluated val o.bvs, Good n val c := by
    intro c hc
    rcases List.mem_append.mp hc with h | h
    · exact hs.known c h
    · exact evaluated_good ho.bits c h
  have hfound : IsMax n val s.solution.1 ∨ (∃ c ∈ s.parents.individuals ++ evaluated val o.bvs, IsMax n val c.1) ↔
      IsMax n val s.solution.1 ∨ ∃ y ∈ o.bvs, IsMax n val y := by
    constructor
    · rintro (h | ⟨c, hc, hm⟩)
      · exact .inl h
      · rcases List.mem_append.mp hc with h | h
        · exact .inl (hs.best ((individuals_found hs.parents).mp ⟨c, h, hm⟩))
        · exact .inr (evaluated_found.mp ⟨c, h, hm⟩)
    · rintro (h | h)
      · exact .inl h
      · obtain ⟨c, hc, hm⟩ := (evaluated_found (val := val)).mpr h
        exact .inr ⟨c, List.mem_append_right _ hc, hm⟩
  have hu := update_found hpool e3 e4 hs.solution
  obtain ⟨k1, k2⟩ := selected_good g1 hpool
  unfold popUpdateSolution
  rw [e1, ok_bind, e2, ok_bind, Dist.lift_ok, Dist.pure_bind']
  exact Sure.pure ⟨⟨⟨hu.1, g1.valid, g2, g3⟩, k1, fun h => hu.2.mpr (.inr (k2 h))⟩, hu.2.trans hfound⟩

/-- What follows the making of offsprings in comma selection. -/
noncomputable def commaRest (f : Fn K) (c : Choices K) (extra : τ) (s : EaState K τ) (o : Pop K) : Dist (EaState K τ) := do
  let o ← Dist.lift (popEvaluate f o)
  let r ← c.comma s.parents o
  let solution ← Dist.lift (popUpdateSolution s.solution r.1)
  pure ⟨solution, r.1, r.2, extra⟩

theorem commaRest_sure (hf : Evaluates f n val) (hc : c.Valid) (hmu : 0 < mu) (hle : mu ≤ lam) {T : τ → Prop} {s : EaState K τ}
    (hs : EaStart n mu lam val T s) {extra : τ} (hT : T extra) {o : Pop K} (ho : o.Valid lam n) :
    Sure (commaRest f c extra s o) (fun t => EaGood n mu lam val T t ∧
      (IsMax n val t.solution.1 ↔ IsMax n val s.solution.1 ∨ ∃ y ∈ o.bvs, IsMax n val y)) := by
  unfold commaRest
  refine (Sure.lift (popEvaluate_returns hf ho)).bind (fun q hq => ?_)
  obtain ⟨h1, h2, h3⟩ := hq
  have hnew : commaNew s.parents q = ok () := by
    unfold commaNew Pop.size
    rw [hs.parents.bvs, h1.bvs, if_pos hle]
  refine (Sure.of_follows (hc.comma _ q mu lam n hmu hle hs.parents h1) (comma_select_spec hmu hs.parents h1 hnew)).bind (fun r hr => ?_)
  obtain ⟨g1, g2⟩ := hr
  rw [h3] at g1
  obtain ⟨x, v, e1, e2, e3, e4⟩ := selectsBest_first g1 hmu
  have hpool := evaluated_good (val := val) ho.bits
  have hu := update_found hpool e3 e4 hs.solution
  obtain ⟨k1, k2⟩ := selected_good g1 hpool
  unfold popUpdateSolution
  rw [e1, ok_bind, e2, ok_bind, Dist.lift_ok, Dist.pure_bind']
  exact Sure.pure ⟨⟨⟨hu.1, g1.valid, g2, hT⟩, k1, fun h => hu.2.mpr (.inr (k2 h))⟩, hu.2.trans (or_congr Iff.rfl evaluated_found)⟩

/-! ## The beginning -/

theorem parentsInit_rest (hf : Evaluates f n val) (hc : c.Valid) (hmu : 0 < mu) {T : τ → Prop} {o : Pop K} (ho : o.Valid lam n) {extra : τ}
    (hT : T extra) {p : Pop K} (hp : p.Valid mu n) :
    Sure (do
      let p ← Dist.lift (popEvaluate f p)
      let p ← c.sort p
      let s ← Dist.lift (popSetSolution p)
      pure (⟨s, p, o, extra⟩ : EaState K τ)) (fun s => EaGood n mu lam val T s ∧ (IsMax n val s.solution.1 ↔ ∃ y ∈ p.bvs, IsMax n val y)) := by
  refine (Sure.lift (popEvaluate_returns hf hp)).bind (fun q hq => ?_)
  obtain ⟨h1, h2, h3⟩ := hq
  refine (Sure.of_follows (hc.sort q mu n h1) (Pop.sort_valid h1)).bind (fun r hr => ?_)
  obtain ⟨g1, g2, g3, g4⟩ := hr
  obtain ⟨x, v, e1, e2, e3, e4⟩ := g4.first g1 hmu
  rw [g3, h3] at e3 e4
  have hpool := evaluated_good (val := val) hp.bits
  have ht := (top_found hpool e3 e4).trans evaluated_found
  unfold popSetSolution
  rw [e1, ok_bind, e2, ok_bind, Dist.lift_ok, Dist.pure_bind']
  exact Sure.pure ⟨⟨⟨hpool _ e3, g1, ho, hT⟩, by dsimp only; rw [g3, h3]; exact hpool, by dsimp only; rw [g2, h2]; exact ht.mpr⟩, ht⟩

theorem parentsInit_sure (hf : Evaluates f n val) (hc : c.Valid) (hmu : 0 < mu) {T : τ → Prop} {d : EaData K τ} (hd : d.parents.Valid mu n)
    (ho : d.offsprings.Valid lam n) {extra : τ} (hT : T extra) : Sure (parentsInit f c d extra) (EaGood n mu lam val T) := by
  unfold parentsInit
  rw [popRandom_sample]
  exact (popSample_sure hd (randomBits_sure n)).bind (fun p hp => (parentsInit_rest hf hc hmu ho hT hp).mono (fun _ h => h.1))

theorem parentsInit_le (hf : Evaluates f n val) (hc : c.Valid) (hmu : 0 < mu) {T : τ → Prop} {d : EaData K τ} (hd : d.parents.Valid mu n)
    (ho : d.offsprings.Valid lam n) {extra : τ} (hT : T extra) {r : ℝ≥0∞} (hr : 1 - ((2 : ℝ≥0∞) ^ n)⁻¹ ≤ r) :
    (parentsInit f c d extra).expect (missing (fun s => IsMax n val s.solution.1)) ≤ r ^ mu := by
  have hsum : (parentsInit f c d extra).expect (missing (fun s => IsMax n val s.solution.1))
      = (popSample bvRandomBits d.parents).expect (missing (fun q => ∃ y ∈ q.bvs, IsMax n val y)) := by
    unfold parentsInit
    rw [popRandom_sample, Dist.expect_bind]
    refine Dist.expect_congr (fun p hp => ?_)
    have h := parentsInit_rest (val := val) hf hc hmu ho hT ((popSample_sure hd (randomBits_sure n)).holds p hp)
    refine (Dist.expect_congr (W := fun _ => missing (fun q : Pop K => ∃ y ∈ q.bvs, IsMax n val y) p) (fun s hs => ?_)).trans ?_
    · exact if_congr (h.holds s hs).2 rfl rfl
    · rw [Dist.expect_const, h.total, one_mul]
  rw [hsum]
  exact popSample_le hd (randomBits_sure n) (fun x hx => (randomBits_le x hx).trans hr)

end

/-! ## Crossover -/

theorem prod_le_one : ∀ (l : List ℝ≥0∞), (∀ z ∈ l, z ≤ 1) → l.prod ≤ 1 := by
  intro l
  induction l with
  | nil => intro _; exact le_refl _
  | cons a l ih =>
    intro h
    rw [List.prod_cons]
    exact mul_le_one' (h a List.mem_cons_self) (ih (fun y hy => h y (List.mem_cons_of_mem _ hy)))

theorem prod_le_mem : ∀ (l : List ℝ≥0∞), (∀ z ∈ l, z ≤ 1) → ∀ z ∈ l, l.prod ≤ z := by
  intro l
  induction l with
  | nil => intro _ z hz; cases hz
  | cons a l ih =>
    intro h z hz
    rw [List.prod_cons]
    rcases List.mem_cons.mp hz with rfl | hz
    · calc z * l.prod ≤ z * 1 := mul_le_mul_right (prod_le_one l (fun y hy => h y (List.mem_cons_of_mem _ hy))) _
        _ = z := mul_one z
    · calc a * l.prod ≤ 1 * z := mul_le_mul' (h a List.mem_cons_self) (ih (fun y hy => h y (List.mem_cons_of_mem _ hy)) z hz)
        _ = z := one_mul z

theorem crossover_sure {p1 p2 o : BV} (h1 : p1.length = n) (h2 : p2.length = n) (ho : o.length = n) :
    Sure (uniformCrossover p1 p2 o) (fun y => y.length = n) := by
  unfold uniformCrossover
  rw [Dist.assert_bind (by simp [h1, ho]), Dist.assert_bind (by simp [h2, ho]), ho]
  refine Sure.forRange (fun _ (y : BV) => y.length = n) ho (fun j y hj hy => ?_)
  refine Sure.bind (P := fun _ => True) ⟨coin_total _, fun _ _ => trivial⟩ (fun b _ => ?_)
  have hj1 : j < p1.length := by omega
  have hj2 : j < p2.length := by omega
  have hjy : j < y.length := by omega
  cases b
  · rw [if_neg (by decide), vget_eq hj2, Dist.lift_ok, Dist.pure_bind', vset_eq hjy, Dist.lift_ok]
    exact Sure.pure (by rw [List.length_set, hy])
  · rw [if_pos rfl, vget_eq hj1, Dist.lift_ok, Dist.pure_bind', vset_eq hjy, Dist.lift_ok]
    exact Sure.pure (by rw [List.length_set, hy])

theorem crossover_le {p1 p2 o y : BV} (h1 : p1.length = n) (h2 : p2.length = n) (ho : o.length = n) (hy : y.length = n) (hne : p1 ≠ y) :
    uniformCrossover p1 p2 o y ≤ 2⁻¹ := by
  rw [(uniformCrossover_law (by rw [ho, h1]) (by rw [ho, h2]) y).1, biasedCrossover_law (ENNReal.inv_le_one.mpr (by norm_num))
    (by rw [ho, h1]) (by rw [ho, h2]), if_pos (by rw [hy, h1])]
  obtain ⟨i, hi, hd⟩ : ∃ i, ∃ hi : i < n, p1[i]'(by omega) ≠ y[i]'(by omega) := by
    by_contra h
    push Not at h
    exact hne (List.ext_getElem (by omega) (fun i hi _ => h i (by omega)))
  have hhalf : (1 : ℝ≥0∞) - 2⁻¹ = 2⁻¹ := ENNReal.one_sub_inv_two
  have hlen : i < (List.zipWith (fun (ab : Bool × Bool) c => (if c = ab.2 then (2⁻¹ : ℝ≥0∞) else 0) + (if c = ab.1 then 1 - 2⁻¹ else 0))
      (p1.zip p2) y).length := by simp; omega
  refine (prod_le_mem _ ?_ _ (List.getElem_mem hlen)).trans ?_
  · intro z hz
    obtain ⟨j, hj, rfl⟩ := List.mem_iff_getElem.mp hz
    rw [List.getElem_zipWith]
    calc _ ≤ (2⁻¹ : ℝ≥0∞) + 2⁻¹ := add_le_add (by split <;> simp) (by
        split
        · exact hhalf.le
        · exact zero_le)
      _ = 1 := ENNReal.inv_two_add_inv_two
  · rw [List.getElem_zipWith, List.getElem_zip, if_neg (c := _ = (_, _).1) (fun e => hd e.symm), add_zero]
    split <;> simp

/-! ## Genetic algorithm -/

section
variable [LinearOrder K] {val : BV → K} {c : Choices K} {q : ℝ≥0∞} {parents : Pop K}

theorem select_sure (hc : c.Valid) (hp : parents.Valid mu n) {t : Tournament} (ht : t.Valid mu) :
    Sure (c.select parents t) (fun r => r.2.1 ∈ parents.bvs ∧ r.2.2.Valid mu) :=
  (Sure.of_follows (hc.select parents t mu n hp ht) (tournament_select_partial strictWeak_greater ht hp.bvs hp.values)).mono
    (fun _ h => ⟨List.mem_of_getElem? h.1, h.2.1⟩)

theorem reproduce_sure (hc : c.Valid) (hp : parents.Valid mu n) {t : Tournament} (ht : t.Valid mu) {o : BV} (ho : o.length = n) :
    Sure (gaReproduce c q parents t o) (fun r => r.1.Valid mu ∧ r.2.length = n) := by
  unfold gaReproduce
  refine Sure.bind (P := fun _ => True) ⟨coin_total _, fun _ _ => trivial⟩ (fun b _ => ?_)
  cases b
  · rw [if_neg (by decide)]
    exact (select_sure hc hp ht).bind (fun r hr => Sure.pure ⟨hr.2, hp.bits _ hr.1⟩)
  · rw [if_pos rfl]
    exact (select_sure hc hp ht).bind (fun r hr => (select_sure hc hp hr.2).bind (fun u hu =>
      (crossover_sure (hp.bits _ hr.1) (hp.bits _ hu.1) ho).bind (fun x hx => Sure.pure ⟨hu.2, hx⟩)))

/-- An expectation is at least what it is at least in every case. -/
theorem Sure.le_expect {α : Type} {d : Dist α} {P : α → Prop} (h : Sure d P) {W : α → ℝ≥0∞} {z : ℝ≥0∞} (hW : ∀ a, P a → z ≤ W a) :
    z ≤ d.expect W := by
  calc z = d.expect (fun _ => z) := by rw [Dist.expect_const, h.total, one_mul]
    _ ≤ d.expect W := Dist.expect_mono (fun a ha => hW a (h.holds a ha))

/-- The vector before mutation is not the searched one with probability at least one half. -/
theorem reproduce_ge (hc : c.Valid) (hp : parents.Valid mu n) {t : Tournament} (ht : t.Valid mu) {o : BV} (ho : o.length = n)
    {y : BV} (hy : y.length = n) (hno : y ∉ parents.bvs) :
    2⁻¹ ≤ (gaReproduce c q parents t o).expect (missing (fun r => r.2 = y)) := by
  have hhalf : (2⁻¹ : ℝ≥0∞) ≤ 1 := ENNReal.inv_le_one.mpr (by norm_num)
  unfold gaReproduce
  rw [Dist.expect_bind]
  refine Sure.le_expect (P := fun _ => True) ⟨coin_total _, fun _ _ => trivial⟩ (fun b _ => ?_)
  cases b
  · rw [if_neg (by decide), Dist.expect_bind]
    refine (select_sure hc hp ht).le_expect (fun r hr => ?_)
    rw [Dist.expect_pure]
    unfold missing
    rw [if_neg (fun e : r.2.1 = y => hno (e ▸ hr.1))]
    exact hhalf
  · rw [if_pos rfl, Dist.expect_bind]
    refine (select_sure hc hp ht).le_expect (fun r hr => ?_)
    rw [Dist.expect_bind]
    refine (select_sure hc hp hr.2).le_expect (fun u hu => ?_)
    have hs := crossover_sure (hp.bits _ hr.1) (hp.bits _ hu.1) ho
    have hle := crossover_le (hp.bits _ hr.1) (hp.bits _ hu.1) ho hy (fun e => hno (e ▸ hr.1))
    rw [Dist.expect_bind]
    have e : (uniformCrossover r.2.1 u.2.1 o).expect (fun x => (pure (u.2.2, x) : Dist (Tournament × BV)).expect (missing (fun r => r.2 = y)))
        = 1 - uniformCrossover r.2.1 u.2.1 o y := by
      have hm : uniformCrossover r.2.1 u.2.1 o y = (uniformCrossover r.2.1 u.2.1 o).prob (fun x => x = y) := by
        unfold Dist.prob
        rw [tsum_eq_single y (fun x hx => if_neg hx), if_pos rfl]
      rw [hm, Dist.one_sub_prob hs.total]
      refine Dist.expect_congr (fun x _ => ?_)
      rw [Dist.expect_pure]
      rfl
    rw [e, ← ENNReal.one_sub_inv_two]
    exact tsub_le_tsub_left hle 1

/-- The vector made for an offspring, with the state of the tournament. -/
noncomputable def child (c : Choices K) (q : ℝ≥0∞) (d : Dist (List ℕ)) (parents : Pop K) (t : Tournament) (old : BV) :
    Dist (Tournament × BV) := do
  let r ← gaReproduce c q parents t old
  let y ← mutate d r.2
  pure (r.1, y)

theorem child_sure (hc : c.Valid) {d : Dist (List ℕ)} {z : ℝ≥0∞} (hd : Mutates d n z) (hp : parents.Valid mu n) {t : Tournament}
    (ht : t.Valid mu) {o : BV} (ho : o.length = n) : Sure (child c q d parents t o) (fun r => r.1.Valid mu ∧ r.2.length = n) :=
  (reproduce_sure hc hp ht ho).bind (fun r hr => (hd.sure _ hr.2).bind (fun _ hy => Sure.pure ⟨hr.1, hy⟩))

theorem child_le (hc : c.Valid) {d : Dist (List ℕ)} {z : ℝ≥0∞} (hd : Mutates d n z) (hp : parents.Valid mu n) {t : Tournament}
    (ht : t.Valid mu) {o : BV} (ho : o.length = n) (hno : ¬ ∃ y ∈ parents.bvs, IsMax n val y) :
    (child c q d parents t o).expect (missing (fun r => IsMax n val r.2)) ≤ 1 - z / 2 := by
  obtain ⟨y, hy⟩ := max_exists n val
  have hnot : y ∉ parents.bvs := fun h => hno ⟨y, h, hy⟩
  rw [expect_missing_prob (child_sure hc hd hp ht ho).total]
  refine tsub_le_tsub_left ?_ 1
  rw [Dist.prob_expect]
  unfold child
  rw [Dist.expect_bind]
  calc z / 2 = z * 2⁻¹ := rfl
    _ ≤ z * (gaReproduce c q parents t o).expect (missing (fun r => r.2 = y)) := mul_le_mul_right (reproduce_ge hc hp ht ho hy.1 hnot) _
    _ = (gaReproduce c q parents t o).expect (fun r => z * missing (fun r : Tournament × BV => r.2 = y) r) := by
        rw [← Dist.expect_mul_left]
    _ ≤ _ := by
        refine Dist.expect_mono (fun r hr => ?_)
        have hl := ((reproduce_sure (q := q) hc hp ht ho).holds r hr).2
        by_cases h : r.2 = y
        · unfold missing
          rw [if_pos h, mul_zero]
          exact zero_le
        · unfold missing
          rw [if_neg h, mul_one, Dist.expect_bind]
          refine (hd.ge _ _ hl hy.1 (Ne.symm h)).trans ?_
          unfold Dist.expect
          refine le_trans (le_of_eq ?_) (ENNReal.le_tsum y)
          change _ = _ * (pure (r.1, y) : Dist (Tournament × BV)).expect _
          rw [Dist.expect_pure, if_pos hy, mul_one]

end

section
variable [LinearOrder K] {f : Fn K} {val : BV → K} {c : Choices K} {q : GaLaw} {parents : Pop K}

theorem gaOffspring_eq {s : Tournament × Pop K} {i : ℕ} (hi : i < s.2.bvs.length) :
    gaOffspring c q n parents i s = (child c q.crossover ((q.operator n).sampleBits n) parents s.1 s.2.bvs[i] >>= fun r =>
      pure (r.1, { s.2 with bvs := s.2.bvs.set i r.2 })) := by
  unfold gaOffspring child
  rw [vget_eq hi, Dist.lift_ok, Dist.pure_bind', Dist.bind_assoc']
  congr 1
  funext r
  rw [Dist.bind_assoc']
  congr 1
  funext y
  rw [vset_eq hi, Dist.lift_ok, Dist.pure_bind', Dist.pure_bind']

theorem gaOffspring_sure (hc : c.Valid) {z : ℝ≥0∞} (hd : Mutates ((q.operator n).sampleBits n) n z) (hp : parents.Valid mu n) {j : ℕ}
    (hj : j < lam) {s : Tournament × Pop K} (hs : s.1.Valid mu ∧ s.2.Valid lam n) :
    Sure (gaOffspring c q n parents j s) (fun t => (t.1.Valid mu ∧ t.2.Valid lam n) ∧ ∀ i < j, t.2.bvs[i]? = s.2.bvs[i]?) := by
  have hj' : j < s.2.bvs.length := by rw [hs.2.bvs]; exact hj
  rw [gaOffspring_eq hj']
  refine (child_sure hc hd hp hs.1 (hs.2.bits _ (List.getElem_mem hj'))).bind (fun r hr =>
    Sure.pure ⟨⟨hr.1, hs.2.setBv j hr.2⟩, fun i hi => ?_⟩)
  dsimp only
  rw [List.getElem?_set_ne (by omega)]

theorem gaLoop_sure (hc : c.Valid) {z : ℝ≥0∞} (hd : Mutates ((q.operator n).sampleBits n) n z) (hp : parents.Valid mu n)
    {s : Tournament × Pop K} (hs : s.1.Valid mu ∧ s.2.Valid lam n) :
    Sure (Dist.forRange 0 lam (gaOffspring c q n parents) s) (fun t => t.1.Valid mu ∧ t.2.Valid lam n) :=
  breed_sure (get := fun s : Tournament × Pop K => s.2.bvs) (I := fun s => s.1.Valid mu ∧ s.2.Valid lam n) hs
    (fun _ _ hj hs => gaOffspring_sure hc hd hp hj hs)

theorem gaLoop_le (hc : c.Valid) {z : ℝ≥0∞} (hd : Mutates ((q.operator n).sampleBits n) n z) (hp : parents.Valid mu n)
    {s : Tournament × Pop K} (hs : s.1.Valid mu ∧ s.2.Valid lam n) (hno : ¬ ∃ y ∈ parents.bvs, IsMax n val y) :
    (Dist.forRange 0 lam (gaOffspring c q n parents) s).expect (missing (fun t => ∃ y ∈ t.2.bvs, IsMax n val y)) ≤ (1 - z / 2) ^ lam := by
  refine breed_le (get := fun s : Tournament × Pop K => s.2.bvs) (I := fun s => s.1.Valid mu ∧ s.2.Valid lam n) hs (fun p hp => hp.2.bvs)
    (fun _ _ hj hs => gaOffspring_sure hc hd hp hj hs) (fun j s hj hs => ?_)
  have hj' : j < s.2.bvs.length := by rw [hs.2.bvs]; exact hj
  rw [gaOffspring_eq hj', Dist.expect_bind]
  refine le_trans (le_of_eq (Dist.expect_congr (fun r _ => ?_))) (child_le hc hd hp hs.1 (hs.2.bits _ (List.getElem_mem hj')) hno)
  rw [Dist.expect_pure]
  unfold missing
  refine if_congr ?_ rfl rfl
  dsimp only
  rw [List.getElem?_set_self hj']
  simp

end

/-! ## Constructors -/

theorem muPlusNew_ok [Zero K] (hn : 0 < n) (hmu : 0 < mu) (hlam : 0 < lam) (p : StandardParams) :
    ∃ d : EaData K (Pop K), muPlusNew n mu lam p = ok d ∧ d.Valid n mu lam ∧ d.extra.Valid (mu + lam) n := by
  have h1 : ∀ k : ℕ, 0 < k → ∃ q : Pop K, Pop.new k n = ok q := by
    intro k hk
    unfold Pop.new
    rw [if_neg (by omega), if_neg (by omega)]
    exact ⟨_, rfl⟩
  obtain ⟨a, ha⟩ := h1 mu hmu
  obtain ⟨b, hb⟩ := h1 lam hlam
  have va := (popNew_valid ha).2.2
  have vb := (popNew_valid hb).2.2
  simp only [Int.toNat_natCast] at va vb
  obtain ⟨pool, hpool, _⟩ := plusNew_valid hmu hlam hn va vb
  have e : muPlusNew (n : ℤ) mu lam p = ok (⟨a, b, ⟨n, List.replicate n false, List.replicate n false, []⟩, p, pool⟩ : EaData K (Pop K)) := by
    unfold muPlusNew Nbh.new
    rw [ha, ok_bind, hb, ok_bind, hpool, ok_bind, Int.toNat_natCast, assert_pos (decide_eq_true hn)]
    rfl
  have := muPlusNew_valid e
  simp only [Int.toNat_natCast] at this
  exact ⟨_, e, this⟩

theorem commaData_ok [Zero K] (hn : 0 < n) (hmu : 0 < mu) (hle : mu ≤ lam) :
    ∃ a b : Pop K, ∃ m, Pop.new mu n = ok a ∧ Pop.new lam n = ok b ∧ commaNew a b = ok () ∧ Nbh.new n = ok m := by
  have h1 : ∀ k : ℕ, 0 < k → ∃ q : Pop K, Pop.new k n = ok q := by
    intro k hk
    unfold Pop.new
    rw [if_neg (by omega), if_neg (by omega)]
    exact ⟨_, rfl⟩
  obtain ⟨a, ha⟩ := h1 mu hmu
  obtain ⟨b, hb⟩ := h1 lam (by omega)
  have va := (popNew_valid ha).2.2
  have vb := (popNew_valid hb).2.2
  simp only [Int.toNat_natCast] at va vb
  refine ⟨a, b, ⟨n, List.replicate n false, List.replicate n false, []⟩, ha, hb, ?_, ?_⟩
  · unfold commaNew Pop.size
    rw [va.bvs, vb.bvs, if_pos hle]
  · unfold Nbh.new
    rw [assert_pos (decide_eq_true hn)]
    rfl

theorem muCommaNew_ok [Zero K] (hn : 0 < n) (hmu : 0 < mu) (hle : mu ≤ lam) (p : StandardParams) :
    ∃ d : EaData K Unit, muCommaNew n mu lam p = ok d ∧ d.Valid n mu lam := by
  obtain ⟨a, b, m, h1, h2, h3, h4⟩ := commaData_ok (K := K) hn hmu hle
  have e : muCommaNew (n : ℤ) mu lam p = ok (⟨a, b, m, p, ()⟩ : EaData K Unit) := by
    unfold muCommaNew
    rw [h1, ok_bind, h2, ok_bind, h3, ok_bind, Int.toNat_natCast, h4, ok_bind]
  have := (muCommaNew_valid e).1
  simp only [Int.toNat_natCast] at this
  exact ⟨_, e, this⟩

theorem gaNew_ok [Zero K] (hn : 0 < n) (hmu : 0 < mu) (p : StandardParams) :
    ∃ d : EaData K Tournament, gaNew n mu p = ok d ∧ d.Valid n mu mu ∧ d.extra.perm.Perm (List.range mu) := by
  obtain ⟨a, b, m, h1, h2, h3, h4⟩ := commaData_ok (K := K) hn hmu (le_refl mu)
  have hab : a = b := by rw [h1] at h2; exact ok.inj h2
  subst hab
  have e : gaNew (n : ℤ) mu p = ok (⟨a, a, m, p, ⟨permIdentity a.size, 0, 0, 2⟩⟩ : EaData K Tournament) := by
    unfold gaNew
    rw [h1, ok_bind, ok_bind, h3, ok_bind, Int.toNat_natCast, h4, ok_bind]
  have := gaNew_valid e
  simp only [Int.toNat_natCast] at this
  exact ⟨_, e, this⟩

end Hnco.Prob
