import Verif.Algorithm.EvolutionaryProps
import Mathlib.Tactic.Linarith

/-! # C50 and C65: evolutionary algorithms with self-adjusted mutation rates -/

namespace Hnco

open Outcome

variable {K : Type}

/-! ## Specification -/

/-- The data of the two-rate algorithm, with `lam` vectors of `n` bits. -/
structure TwoRateData.Valid (n lam : Nat) (d : TwoRateData K) : Prop where
  lam_pos : 0 < lam
  population : d.population.Valid lam n
  mutation : d.mutation.Valid (.standardBitMutation d.params)
  bits : d.mutation.n = n

/-- The bounds on the mutation rate are usable, and the initial rate is between them. -/
structure TwoRateParams.Sound (q : TwoRateParams) : Prop where
  min_nonneg : 0 ≤ q.rateMin
  min_init : q.rateMin ≤ q.rateInit
  init_max : q.rateInit ≤ q.rateMax

/-! ## Two-rate (1 + lambda) EA -/

theorem mapOffspring_post {params : StandardParams} {x : BV} {lam n : Nat} (hx : x.length = n) {i : Nat}
    (hi : i < lam) {s : Nbh × Pop K}
    (hs : s.1.Valid (.standardBitMutation params) ∧ s.1.n = n ∧ s.2.Valid lam n) :
    Sim.Post (mapOffspring params x i s)
      (fun r => r.1.Valid (.standardBitMutation params) ∧ r.1.n = n ∧ r.2.Valid lam n) := by
  obtain ⟨h1, h2, h3⟩ := hs
  have hil : i < s.2.bvs.length := by rw [h3.bvs]; exact hi
  unfold mapOffspring
  refine Sim.Post.lift_bind (vget_eq hil) ?_
  refine (map_spec h1 (by rw [hx, h2]) (by rw [h3.bits _ (List.getElem_mem hil), h2])).bind ?_
  rintro ⟨b, y⟩ ⟨g1, g2, g3, g4⟩
  dsimp only at g1 g2 g3 g4 ⊢
  exact Sim.Post.lift_bind (vset_eq hil) (Sim.Post.pure ⟨g2, by rw [g1]; exact h2, h3.setBv i (by rw [g4.1, hx])⟩)

theorem twoRateOffsprings_bind {q : TwoRateParams} {s : AlgState K (TwoRateData K)} {n lam : Nat}
    (hv : s.data.Valid n lam) (hs : s.solution.1.length = n)
    {β : Type} {f : Unit → Alg (AlgState K (TwoRateData K)) β}
    {Q : β → AlgState K (TwoRateData K) → Prop} {E : AlgState K (TwoRateData K) → Prop}
    (hQ : ∀ m p r, TwoRateData.Valid n lam ⟨p, m, r, s.data.rate⟩ →
      Alg.Holds (f ()) { s with data := ⟨p, m, r, s.data.rate⟩ } Q E) :
    Alg.Holds (twoRateOffsprings q >>= f) s Q E := by
  refine Alg.Holds.bind (P := fun _ t => ∃ m p r, TwoRateData.Valid n lam ⟨p, m, r, s.data.rate⟩ ∧
    t = { s with data := ⟨p, m, r, s.data.rate⟩ }) ?_ ?_
  · unfold twoRateOffsprings Pop.size
    refine Alg.Holds.get_bind ?_
    dsimp only
    have hlen := hv.population.bvs
    refine Alg.Holds.sim_bind (Sim.Post.forRange (I := fun _ (r : Nbh × Pop K) =>
      r.1.Valid (.standardBitMutation (s.data.params.setMutationRate (q.belowSqrt (s.data.rate / 2)))) ∧ r.1.n = n ∧
        r.2.Valid lam n) (Nat.zero_le _) ⟨standard_valid hv.mutation, hv.bits, hv.population⟩ ?_) ?_
    · intro i r _ hi hr
      exact mapOffspring_post hs (by omega) hr
    · rintro r ⟨h1, h2, h3⟩
      refine Alg.Holds.sim_bind (Sim.Post.forRange (I := fun _ (r : Nbh × Pop K) =>
        r.1.Valid (.standardBitMutation ((s.data.params.setMutationRate (q.belowSqrt (s.data.rate / 2))).setMutationRate
          (q.belowSqrt (s.data.rate * 2)))) ∧ r.1.n = n ∧ r.2.Valid lam n) (Nat.div_le_self _ _)
          ⟨standard_valid h1, h2, h3⟩ ?_) ?_
      · intro i r _ hi hr
        exact mapOffspring_post hs (by omega) hr
      · rintro r ⟨h1, h2, h3⟩
        exact Alg.Holds.modify ⟨r.1, r.2, _, ⟨hv.lam_pos, h3, h1, h2⟩, rfl⟩
  · rintro _ _ ⟨m, p, r, h, rfl⟩
    exact hQ m p r h

theorem stdClamp_eq {x lo hi : Rat} (h : lo ≤ hi) : stdClamp x lo hi = ok (if x < lo then lo else if hi < x then hi else x) := by
  unfold stdClamp
  rw [assert_pos (by rw [decide_eq_true_eq]; exact not_lt.mpr h), ok_bind]

theorem clamp_bounds {x lo hi : Rat} (h : lo ≤ hi) :
    lo ≤ (if x < lo then lo else if hi < x then hi else x) ∧ (if x < lo then lo else if hi < x then hi else x) ≤ hi := by
  split
  · exact ⟨le_refl _, h⟩
  · rename_i h1
    split
    · exact ⟨h, le_refl _⟩
    · rename_i h2
      exact ⟨not_lt.mp h1, not_lt.mp h2⟩

/-- C65: the new mutation rate of the two-rate algorithm is between the bounds, if the old one is. -/
theorem twoRate_update_bounds {q : TwoRateParams} (h0 : 0 ≤ q.rateMin) {rate : Rat} (h1 : q.rateMin ≤ rate)
    (h2 : rate ≤ q.rateMax) (number : Rat) (best mid : Nat) :
    (twoRateUpdate q number rate best mid).Returns (fun r => q.rateMin ≤ r ∧ r ≤ q.rateMax) := by
  unfold twoRateUpdate
  have h3 : q.rateMin ≤ q.rateMax := le_trans h1 h2
  split
  · exact returns_ok.mpr ⟨le_max_right _ _, max_le (by linarith) h3⟩
  · split
    · exact returns_ok.mpr ⟨le_min (by linarith) h3, min_le_right _ _⟩
    · rw [stdClamp_eq h3]
      exact returns_ok.mpr (clamp_bounds h3)

/-- The invariant of the two-rate algorithm. -/
def TwoRateInv (n lam : Nat) (q : TwoRateParams) (s : AlgState K (TwoRateData K)) : Prop :=
  s.data.Valid n lam ∧ q.rateMin ≤ s.data.rate ∧ s.data.rate ≤ q.rateMax

theorem twoRate_holds [LinearOrder K] {env : Env K} {n lam : Nat} {val : BV → K} (henv : env.Computes n val)
    {q : TwoRateParams} (hq : q.Sound) {s : AlgState K (TwoRateData K)} (hs : s.solution.1.length = n)
    (hv : s.data.Valid n lam) (hcalls : s.calls = []) (numIterations : Int) (fuel : Nat) :
    Alg.Holds (twoRateMaximize env q numIterations fuel) s
      (fun _ t => TwoRateInv n lam q t ∧ TrueCalls n val t.calls ∧ BestOf t.calls t.solution)
      (fun t => TrueCalls n val t.calls ∧ BestExceptLast lam t) := by
  refine algLoop_best (TwoRateInv n lam q) (fun _ _ h => h) ?_ ?_ numIterations fuel
  · rintro t ⟨ht, hr1, hr2⟩ htrue hbest
    unfold twoRateIterate
    refine twoRateOffsprings_bind ht ((htrue _ hbest.1).1) (fun m p r hmp => ?_)
    have hpv : p.Valid lam n := hmp.population
    refine Alg.Holds.bind (P := fun _ u => u = { t with
        calls := t.calls ++ evaluated val p.bvs
        data := ⟨{ p with values := p.bvs.map val }, m, r, t.data.rate⟩ })
      (popEvaluate_holds (L := twoRateLens K) (p := p) henv rfl hpv rfl ?_) ?_
    · intro k values hk _
      refine ⟨htrue.append (evaluated_true (fun x hx => hpv.bits x (List.mem_of_mem_take hx))),
        BestExceptLast.of_best hbest rfl rfl ?_⟩
      simp [evaluated]
      omega
    · rintro _ _ rfl
      have hp' := hpv.withValues (values := p.bvs.map val) (by simp [hpv.bvs])
      refine Alg.Holds.bind (P := fun _ u => ∃ w : Pop K, w.Valid lam n ∧ w.individuals = evaluated val p.bvs ∧
          w.Sorted ∧ u = { t with calls := t.calls ++ evaluated val p.bvs, data := ⟨w, m, r, t.data.rate⟩ })
        (popSort_holds (L := twoRateLens K) (p := { p with values := p.bvs.map val }) rfl hp'
          (fun w h1 h2 h3 h4 => ⟨w, h1, by rw [h3, evaluated_individuals], h4, rfl⟩)) ?_
      rintro _ _ ⟨w, h1, h2, h3, rfl⟩
      obtain ⟨x, v, e1, e2, e3, e4⟩ := Pop.Sorted.first h1 h3 ht.lam_pos
      rw [h2] at e3 e4
      refine popUpdateSolution_bind (L := twoRateLens K) (x := x) (v := v) (by exact e1) (by exact e2) ?_
      have hst := strictStep_update (s := t)
        (t := { t with calls := t.calls ++ evaluated val p.bvs, data := (⟨w, m, r, t.data.rate⟩ : TwoRateData K) })
        (x := x) (v := v) rfl rfl (fun _ => e3) (fun c hc => le_trans (e4 c hc) (le_max_left _ _))
      have hd : (if t.solution.2 < v
        then { t with calls := t.calls ++ evaluated val p.bvs, data := (⟨w, m, r, t.data.rate⟩ : TwoRateData K), solution := (x, v) }
        else { t with calls := t.calls ++ evaluated val p.bvs, data := (⟨w, m, r, t.data.rate⟩ : TwoRateData K) }).data
          = ⟨w, m, r, t.data.rate⟩ := by split <;> rfl
      dsimp only at hst hd ⊢
      generalize (if t.solution.2 < v
        then { t with calls := t.calls ++ evaluated val p.bvs, data := (⟨w, m, r, t.data.rate⟩ : TwoRateData K), solution := (x, v) }
        else { t with calls := t.calls ++ evaluated val p.bvs, data := (⟨w, m, r, t.data.rate⟩ : TwoRateData K) }) = u
        at hst hd
      unfold twoRateSetRate
      refine Alg.Holds.get_bind (Alg.Holds.sim_bind Sim.Post.uniform (fun number _ => ?_))
      rw [hd]
      obtain ⟨k, x', v', hk, g1, g2, g3, g4, g5, g6⟩ := h1.ranked_read ht.lam_pos
      have hbi : w.bestIndex 0 = ok k := by
        unfold Pop.bestIndex
        have : 0 < w.perm.length := by rw [h1.perm_length]; exact ht.lam_pos
        rw [assert_pos (decide_eq_true this), ok_bind, vget_eq this]
        rw [List.getElem?_eq_getElem this] at g1
        exact congrArg ok (Option.some.inj g1)
      refine Alg.Holds.lift_bind hbi ?_
      refine Alg.Holds.returns_bind (twoRate_update_bounds hq.min_nonneg hr1 hr2 _ _ _) ?_
      rintro rate ⟨hb1, hb2⟩
      refine Alg.Holds.modify ⟨⟨?_, hb1, hb2⟩, evaluated val p.bvs, evaluated_true hpv.bits, hst⟩
      rw [hd]
      exact ⟨ht.lam_pos, h1, hmp.mutation, hmp.bits⟩
  · unfold twoRateInit
    refine Alg.Holds.bind (P := fun _ t => ∃ x : BV, x.length = n ∧
      t = { s with solution := (x, val x), calls := s.calls ++ [(x, val x)] })
      (randomSolution_holds henv hs (fun x hx => ⟨x, hx, rfl⟩) (fun x hx => ⟨?_, ?_⟩)) ?_
    · simp only [hcalls]; exact TrueCalls.nil
    · exact ⟨[], [], by simp [hcalls], hv.lam_pos, Or.inl rfl⟩
    · rintro _ _ ⟨x, hx, rfl⟩
      refine Alg.Holds.modify ⟨⟨⟨hv.lam_pos, hv.population, standard_valid hv.mutation, hv.bits⟩, hq.min_init,
        hq.init_max⟩, ?_, ?_⟩
      · simp only [hcalls]; exact TrueCalls.nil.snoc hx
      · simp only [hcalls]; exact BestOf.single _

/-- C50: the two-rate (1 + lambda) evolutionary algorithm reports a best one of all evaluated vectors with its value,
after any number of iterations.  If it is interrupted, then only vectors of the generation under evaluation can be
better than the solution. -/
theorem twoRate_best [LinearOrder K] {env : Env K} {n lam : Nat} {val : BV → K} (henv : env.Computes n val)
    {q : TwoRateParams} (hq : q.Sound) {s : AlgState K (TwoRateData K)} (hs : s.solution.1.length = n)
    (hv : s.data.Valid n lam) (hcalls : s.calls = []) (numIterations : Int) (fuel : Nat) :
    Alg.Holds (twoRateMaximize env q numIterations fuel) s
      (fun _ t => TrueCalls n val t.calls ∧ BestOf t.calls t.solution)
      (fun t => TrueCalls n val t.calls ∧ BestExceptLast lam t) :=
  (twoRate_holds henv hq hs hv hcalls numIterations fuel).mono (fun _ _ h => h.2) (fun _ h => h)

/-- C65: the mutation rate of the two-rate algorithm stays between its bounds, if they are in order and the initial rate
is between them. -/
theorem twoRate_rate_bounds [LinearOrder K] {env : Env K} {n lam : Nat} {val : BV → K} (henv : env.Computes n val)
    {q : TwoRateParams} (hq : q.Sound) {s : AlgState K (TwoRateData K)} (hs : s.solution.1.length = n)
    (hv : s.data.Valid n lam) (hcalls : s.calls = []) (numIterations : Int) (fuel : Nat) :
    Alg.Holds (twoRateMaximize env q numIterations fuel) s
      (fun _ t => q.rateMin ≤ t.data.rate ∧ t.data.rate ≤ q.rateMax) (fun _ => True) :=
  (twoRate_holds henv hq hs hv hcalls numIterations fuel).mono (fun _ _ h => h.1.2) (fun _ _ => trivial)

/-- The default parameters (`two-rate-one-plus-lambda-ea.hh:46-52`, `89-91`) for vectors of `n` bits. -/
def twoRateDefault (n : Nat) (belowSqrt : Rat → Bool) : TwoRateParams :=
  { rateInit := 2 / n, rateMin := 2 / n, rateMax := 1 / 4, allowNoMutation := false, belowSqrt := belowSqrt }

/-- The default parameters are sound for 8 bits or more. -/
theorem twoRateDefault_sound {n : Nat} (hn : 8 ≤ n) (belowSqrt : Rat → Bool) : (twoRateDefault n belowSqrt).Sound := by
  have h : (8 : Rat) ≤ n := by exact_mod_cast hn
  refine ⟨?_, le_refl _, ?_⟩
  · show (0 : Rat) ≤ 2 / n
    positivity
  · show (2 : Rat) / n ≤ 1 / 4
    rw [div_le_div_iff₀ (by linarith) (by norm_num)]
    linarith

/-- C65 (negative part): with the default parameters and fewer than 8 bits, the bounds given to `std::clamp` are in the
wrong order, so that every update with `number` not less than 1/2 has undefined behaviour. -/
theorem twoRate_clamp_undefined {n : Nat} (h0 : 0 < n) (hn : n < 8) (belowSqrt : Rat → Bool) {number : Rat}
    (hnum : 1 / 2 ≤ number) (rate : Rat) (best mid : Nat) :
    twoRateUpdate (twoRateDefault n belowSqrt) number rate best mid = ub := by
  have hp : (0 : Rat) < n := by exact_mod_cast h0
  have h8 : (n : Rat) < 8 := by exact_mod_cast hn
  have hlt : (1 : Rat) / 4 < 2 / n := by
    rw [div_lt_div_iff₀ (by norm_num) hp]
    linarith
  unfold twoRateUpdate
  rw [if_neg (by linarith), if_neg (by linarith)]
  unfold stdClamp
  rw [assert_neg (by simp only [decide_eq_false_iff_not, not_not]; exact hlt)]
  rfl

/-! ## Self-adjusting (1 + 1) EA -/

/-- The parameters are usable. -/
structure SelfAdjustingParams.Sound (q : SelfAdjustingParams) : Prop where
  min_nonneg : 0 ≤ q.rateMin
  min_init : q.rateMin ≤ q.rateInit
  init_max : q.rateInit ≤ q.rateMax
  strength : 1 ≤ q.strength
  coefficient : 1 ≤ q.coefficient

/-- Between two iterations of the self-adjusting algorithm. -/
structure SelfAdjustingInv [LinearOrder K] (n : Nat) (val : BV → K) (q : SelfAdjustingParams)
    (s : AlgState K SelfAdjustingData) : Prop where
  ready : s.data.mutation.Ready (.standardBitMutation s.data.params)
  size : s.data.mutation.n = n
  true_calls : TrueCalls n val s.calls
  best : BestOf s.calls (s.data.mutation.origin, s.solution.2)
  value : s.solution.2 = val s.data.mutation.origin
  rate : q.Sound → q.rateMin ≤ s.data.rate ∧ s.data.rate ≤ q.rateMax

/-- When an evaluation is interrupted. -/
structure SelfAdjustingStop [LinearOrder K] (n : Nat) (val : BV → K) (s : AlgState K SelfAdjustingData) : Prop where
  true_calls : TrueCalls n val s.calls
  best : s.calls = [] ∨ BestOf s.calls (s.data.mutation.origin, s.solution.2)

theorem standard_ready {p q : StandardParams} {b : Nbh} (h : b.Ready (.standardBitMutation p)) :
    b.Ready (.standardBitMutation q) := ⟨standard_valid h.toValid, h.same⟩

theorem selfAdjustingInit_holds [LinearOrder K] {env : Env K} {n : Nat} {val : BV → K} (henv : env.Computes n val)
    {q : SelfAdjustingParams} {s : AlgState K SelfAdjustingData} (hs : s.solution.1.length = n)
    (hnbh : s.data.mutation.Valid (.standardBitMutation s.data.params)) (hn : s.data.mutation.n = n)
    (hcalls : s.calls = []) :
    Alg.Holds (selfAdjustingInit env q) s
      (fun _ t => SelfAdjustingInv n val q { t with lastIteration := false }) (SelfAdjustingStop n val) := by
  unfold selfAdjustingInit
  refine Alg.Holds.modify_bind ?_
  generalize hpar : (s.data.params.setMutationRate (q.belowSqrt q.rateInit)).setAllowNoMutation q.allowNoMutation = par
  refine Alg.Holds.bind (P := fun _ t => ∃ x : BV, x.length = n ∧
    t = { s with solution := (x, val x), calls := s.calls ++ [(x, val x)], data := ⟨s.data.mutation, par, q.rateInit⟩ })
    (randomSolution_holds henv (by exact hs) (fun x hx => ⟨x, hx, rfl⟩) (fun x hx => ⟨?_, Or.inl hcalls⟩)) ?_
  · simp only [hcalls]; exact TrueCalls.nil
  · rintro _ _ ⟨x, hx, rfl⟩
    refine Alg.Holds.modify ⟨?_, hn, ?_, ?_, rfl, fun hq => ⟨hq.min_init, hq.init_max⟩⟩
    · exact setOrigin_ready (standard_valid hnbh) (by rw [hn]; exact hx)
    · simp only [hcalls]; exact TrueCalls.nil.snoc hx
    · simp only [hcalls]; exact BestOf.single _

theorem selfAdjustingDecide_holds [LinearOrder K] {n : Nat} {val : BV → K} {q : SelfAdjustingParams}
    {s : AlgState K SelfAdjustingData} (hs : SelfAdjustingInv n val q s) {t : Nbh}
    (ht : s.data.mutation.Proposed (.standardBitMutation s.data.params) t) {E : AlgState K SelfAdjustingData → Prop} :
    Alg.Holds (selfAdjustingDecide q (val t.candidate))
      { s with
        data := { s.data with mutation := t }
        calls := s.calls ++ [(t.candidate, val t.candidate)] }
      (fun _ => SelfAdjustingInv n val q) E := by
  have hlen : t.candidate.length = n := by rw [ht.candidate.1, hs.ready.origin, hs.size]
  unfold selfAdjustingDecide
  refine Alg.Holds.get_bind ?_
  split
  · rename_i hc
    refine Alg.Holds.returns_bind (keep_spec hs.ready ht) ?_
    rintro b ⟨hb1, hb2, hb3, _⟩
    refine Alg.Holds.modify ⟨standard_ready hb1, hb2.trans hs.size, hs.true_calls.snoc hlen, ?_, ?_, ?_⟩
    · simp only [hb3]; exact hs.best.snoc_right hc
    · simp only [hb3]
    · intro hq
      obtain ⟨h1, h2⟩ := hs.rate hq
      have h0 : 0 ≤ s.data.rate := le_trans hq.min_nonneg h1
      refine ⟨le_min ?_ (le_trans h1 h2), min_le_right _ _⟩
      have := mul_le_mul_of_nonneg_left hq.coefficient h0
      dsimp only
      linarith
  · rename_i hc
    refine Alg.Holds.returns_bind (forget_spec hs.ready ht) ?_
    rintro b ⟨hb1, hb2, hb3, _⟩
    refine Alg.Holds.modify ⟨standard_ready hb1, hb2.trans hs.size, hs.true_calls.snoc hlen, ?_, ?_, ?_⟩
    · simp only [hb3]; exact hs.best.snoc_left (le_of_lt (not_le.mp hc))
    · simp only [hb3]; exact hs.value
    · intro hq
      obtain ⟨h1, h2⟩ := hs.rate hq
      have h0 : 0 ≤ s.data.rate := le_trans hq.min_nonneg h1
      refine ⟨le_max_right _ _, max_le ?_ (le_trans h1 h2)⟩
      dsimp only
      rw [div_le_iff₀ (by linarith [hq.strength])]
      have := mul_le_mul_of_nonneg_left hq.strength h0
      have h3 := mul_le_mul_of_nonneg_right h2 (le_trans zero_le_one hq.strength)
      linarith

theorem selfAdjustingIterate_holds [LinearOrder K] {env : Env K} {n : Nat} {val : BV → K} (henv : env.Computes n val)
    {q : SelfAdjustingParams}
    (hinc : q.incremental = true → env.fn.hasInc = true → env.fn.size = n ∧ IncrementalExact env.fn)
    (s : AlgState K SelfAdjustingData) (hs : SelfAdjustingInv n val q s) :
    Alg.Holds (selfAdjustingIterate env q) s (fun _ => SelfAdjustingInv n val q) (SelfAdjustingStop n val) := by
  have hE : ∀ t : Nbh, s.data.mutation.Proposed (.standardBitMutation s.data.params) t →
      SelfAdjustingStop n val { s with data := { s.data with mutation := t } } := by
    intro t ht
    refine ⟨hs.true_calls, Or.inr ?_⟩
    simp only [ht.origin]
    exact hs.best
  have hlen : ∀ t : Nbh, s.data.mutation.Proposed (.standardBitMutation s.data.params) t → t.candidate.length = n := by
    intro t ht
    rw [ht.candidate.1, hs.ready.origin, hs.size]
  have hprop : Alg.Holds selfAdjustingPropose s (fun _ u => ∃ t, s.data.mutation.Proposed (.standardBitMutation s.data.params) t ∧
      u = { s with data := { s.data with mutation := t } }) (SelfAdjustingStop n val) := by
    unfold selfAdjustingPropose
    exact Alg.Holds.get_bind (Alg.Holds.sim_bind (propose_spec hs.ready) (fun t ht => Alg.Holds.modify ⟨t, ht, rfl⟩))
  unfold selfAdjustingIterate
  split
  · rename_i h
    simp only [Bool.and_eq_true] at h
    obtain ⟨hsz, hex⟩ := hinc h.1 h.2
    unfold selfAdjustingIterateIncremental
    refine hprop.bind ?_
    rintro _ _ ⟨t, ht, rfl⟩
    refine Alg.Holds.get_bind ?_
    dsimp only
    rw [hs.value, evaluateIncrementally_proposed henv hsz hex hs.ready hs.size ht]
    exact evaluate_bind henv (hlen t ht) (selfAdjustingDecide_holds hs ht) (hE t ht)
  · unfold selfAdjustingIterateFull
    refine hprop.bind ?_
    rintro _ _ ⟨t, ht, rfl⟩
    exact Alg.Holds.get_bind (evaluate_bind henv (hlen t ht) (selfAdjustingDecide_holds hs ht) (hE t ht))

theorem selfAdjusting_holds [LinearOrder K] {env : Env K} {n : Nat} {val : BV → K} (henv : env.Computes n val)
    {q : SelfAdjustingParams}
    (hinc : q.incremental = true → env.fn.hasInc = true → env.fn.size = n ∧ IncrementalExact env.fn)
    {s : AlgState K SelfAdjustingData} (hs : s.solution.1.length = n)
    (hnbh : s.data.mutation.Valid (.standardBitMutation s.data.params)) (hn : s.data.mutation.n = n)
    (hcalls : s.calls = []) (numIterations : Int) (fuel : Nat) :
    Alg.Holds (selfAdjustingMaximize env q numIterations fuel) s (fun _ => SelfAdjustingInv n val q)
      (SelfAdjustingStop n val) :=
  algLoop_holds _ _ (fun s hs _ => selfAdjustingIterate_holds henv hinc s hs)
    (selfAdjustingInit_holds henv hs hnbh hn hcalls) _ _

/-- C50: the self-adjusting (1 + 1) evolutionary algorithm, run to its end or interrupted by the exhaustion of the
budget, then finalized, reports a vector it has evaluated with its value, and no vector it has evaluated is better. -/
theorem selfAdjusting_best [LinearOrder K] {env : Env K} {n : Nat} {val : BV → K} (henv : env.Computes n val)
    {q : SelfAdjustingParams}
    (hinc : q.incremental = true → env.fn.hasInc = true → env.fn.size = n ∧ IncrementalExact env.fn)
    {s : AlgState K SelfAdjustingData} (hs : s.solution.1.length = n)
    (hnbh : s.data.mutation.Valid (.standardBitMutation s.data.params)) (hn : s.data.mutation.n = n)
    (hcalls : s.calls = []) (numIterations : Int) (fuel : Nat) :
    Alg.Holds (maximizeAndFinalize (selfAdjustingMaximize env q numIterations fuel) selfAdjustingFinalize) s
      (fun _ t => TrueCalls n val t.calls ∧ (t.calls = [] ∨ BestOf t.calls t.solution))
      (fun t => TrueCalls n val t.calls) := by
  refine (maximizeAndFinalize_holds (Q := SelfAdjustingInv n val q) (E := SelfAdjustingStop n val)
    (F := fun t => TrueCalls n val t.calls ∧ (t.calls = [] ∨ BestOf t.calls t.solution))
    (selfAdjusting_holds henv hinc hs hnbh hn hcalls numIterations fuel) ?_ ?_).mono
      (fun _ _ h => h) (fun _ h => h.true_calls)
  · intro t ht
    exact Alg.Holds.modify ⟨ht.true_calls, Or.inr ht.best⟩
  · intro t ht
    exact Alg.Holds.modify ⟨ht.true_calls, ht.best⟩

/-- C65: the mutation rate of the self-adjusting algorithm stays between its bounds, if they are in order, the initial
rate is between them, and update strength and coefficient are at least 1. -/
theorem selfAdjusting_rate_bounds [LinearOrder K] {env : Env K} {n : Nat} {val : BV → K} (henv : env.Computes n val)
    {q : SelfAdjustingParams} (hq : q.Sound)
    (hinc : q.incremental = true → env.fn.hasInc = true → env.fn.size = n ∧ IncrementalExact env.fn)
    {s : AlgState K SelfAdjustingData} (hs : s.solution.1.length = n)
    (hnbh : s.data.mutation.Valid (.standardBitMutation s.data.params)) (hn : s.data.mutation.n = n)
    (hcalls : s.calls = []) (numIterations : Int) (fuel : Nat) :
    Alg.Holds (selfAdjustingMaximize env q numIterations fuel) s
      (fun _ t => q.rateMin ≤ t.data.rate ∧ t.data.rate ≤ q.rateMax) (fun _ => True) :=
  (selfAdjusting_holds henv hinc hs hnbh hn hcalls numIterations fuel).mono (fun _ _ h => h.rate hq) (fun _ _ => trivial)

/-! ## Examples -/

/-- Two individuals of eight bits. -/
def exampleTwoRate : AlgState Int (TwoRateData Int) :=
  ⟨(List.replicate 8 false, 0), false, [], ⟨⟨[List.replicate 8 false, List.replicate 8 false], [0, 0], [0, 1]⟩,
    ⟨8, List.replicate 8 false, List.replicate 8 false, []⟩, ⟨false, false⟩, 0⟩⟩

/-- OneMax on eight bits. -/
def exampleRateEnv : Env Int where
  fn := Fn.ofEval 8 (fun x => ok (Int.ofNat (x.count true)))
  stop := fun _ _ => none

example : Alg.Holds (twoRateMaximize exampleRateEnv (twoRateDefault 8 (fun _ => false)) 5 10) exampleTwoRate
    (fun _ t => (2 : Rat) / (8 : Nat) ≤ t.data.rate ∧ t.data.rate ≤ 1 / 4) (fun _ => True) :=
  twoRate_rate_bounds (n := 8) (lam := 2) (val := fun x => Int.ofNat (x.count true)) (fun _ _ => rfl)
    (twoRateDefault_sound (by decide) _) rfl
    ⟨by decide, ⟨rfl, rfl, by decide, by decide⟩, ⟨by exact Nat.succ_pos 7, rfl, rfl, by intro h; cases h⟩, rfl⟩ rfl 5 10

/-- An update with bounds which are not equal: the rate is doubled, and cut off. -/
example : twoRateUpdate ⟨1 / 8, 1 / 8, 1 / 4, false, fun _ => false⟩ (3 / 4) (3 / 16) 1 1 = ok (1 / 4) := by
  decide +kernel

example : Alg.Holds (selfAdjustingMaximize exampleEnv ⟨1 / 3, 1 / 9, 1, 2, 3 / 2, false, true, fun _ => false⟩ 5 10)
    (exampleStart ⟨⟨3, [false, false, false], [false, false, false], []⟩, ⟨false, false⟩, 0⟩)
    (fun _ t => (1 : Rat) / 9 ≤ t.data.rate ∧ t.data.rate ≤ 1) (fun _ => True) :=
  selfAdjusting_rate_bounds (n := 3) exampleEnv_computes
    (q := ⟨1 / 3, 1 / 9, 1, 2, 3 / 2, false, true, fun _ => false⟩)
    (by constructor <;> norm_num) (fun _ _ => ⟨rfl, exampleEnv_exact⟩) rfl
    ⟨by exact Nat.succ_pos 2, rfl, rfl, by intro h; cases h⟩ rfl rfl 5 10

/-- Two iterations: a success, then a failure. -/
example : (match maximizeAndFinalize (selfAdjustingMaximize exampleEnv
      ⟨1 / 3, 1 / 9, 1, 2, 3 / 2, false, true, fun _ => false⟩ 2 10) selfAdjustingFinalize
    (exampleStart ⟨⟨3, [false, false, false], [false, false, false], []⟩, ⟨false, false⟩, 0⟩)
    [0, 1, 0, 1, 0, 0, 1, 1, 0] with
  | .ok r _ => some (r.2.solution, r.2.calls.map Prod.snd, r.2.data.rate)
  | _ => none) = some (([true, true, false], 2), [1, 2, 0], 1 / 4) := by decide +kernel

end Hnco
