import Verif.Algorithm.ProbabilityVectorLemmas
import Verif.Algorithm.LocalSearchProps

/-! # C50, C51 and C52: algorithms with a probability vector -/

namespace Hnco

open Outcome

variable {K ρ : Type}

/-! ## Specification -/

/-- A probability vector of size `n` with all components between `1 / n` and `1 - 1 / n`. -/
def PvBounded (n : Nat) (pv : List Rat) : Prop :=
  pv.length = n ∧ ∀ p ∈ pv, 1 / (n : Rat) ≤ p ∧ p ≤ 1 - 1 / (n : Rat)

/-- All components are between 0 and 1. -/
def PvUnit (pv : List Rat) : Prop := ∀ p ∈ pv, 0 ≤ p ∧ p ≤ 1

/-- The bounds chosen by the constructor. -/
def PvData.Margins (n : Nat) (d : PvData ρ) : Prop := d.lower = 1 / (n : Rat) ∧ d.upper = 1 - 1 / (n : Rat)

/-- The outcome of a run which is interrupted: only the vectors of the generation under evaluation can be better than
the solution, and the probability vector has been bounded if anything has been evaluated. -/
def PvStop [LinearOrder K] (n m : Nat) (val : BV → K) (t : AlgState K (PvData ρ)) : Prop :=
  (TrueCalls n val t.calls ∧ BestExceptLast m t) ∧ (t.calls = [] ∨ PvBounded n t.data.pv)

/-! ## Probability vectors -/

theorem pv_margins {n : Nat} (hn : 2 ≤ n) : 0 < 1 / (n : Rat) ∧ 1 / (n : Rat) ≤ 1 / 2 := by
  have h : (2 : Rat) ≤ n := by exact_mod_cast hn
  constructor
  · positivity
  · rw [div_le_div_iff₀ (by linarith) (by norm_num)]
    linarith

/-- C51: whatever the vector, after `pv_bound` all components are between the bounds. -/
theorem pvBound_bounded {n : Nat} (hn : 2 ≤ n) {pv : List Rat} (hpv : pv.length = n) :
    (pvBound pv (1 / (n : Rat)) (1 - 1 / (n : Rat))).Returns (PvBounded n) := by
  rw [pvBound_eq]
  refine returns_ok.mpr ⟨by simpa using hpv, ?_⟩
  intro p hp
  obtain ⟨a, _, rfl⟩ := List.mem_map.mp hp
  obtain ⟨_, h2⟩ := pv_margins hn
  exact ⟨le_max_left _ _, max_le (by linarith) (min_le_left _ _)⟩

/-- C51 (negative part): for a single bit the bounds are in the wrong order, and bounding makes the component 1, so that
0 is never sampled. -/
theorem pvBound_single (p : Rat) :
    pvBound [p] (pvNew 1 ()).lower (pvNew 1 ()).upper = ok [1] ∧ Sim.Post (pvSample [1] [false]) (fun y => y = [true]) := by
  constructor
  · rw [pvBound_eq]
    simp only [List.map_cons, List.map_nil, pvNew]
    congr 2
    rw [max_eq_left]
    · norm_num
    · exact le_trans (min_le_left _ _) (by norm_num)
  · refine (pvSample_support (pv := [1]) (x := [false]) (n := 1) rfl rfl).mono ?_
    rintro y ⟨hy, hs⟩
    obtain ⟨b, rfl⟩ := List.length_eq_one_iff.mp hy
    have := hs 0 b 1 rfl rfl
    cases b
    · exact absurd (this.2 rfl) (by norm_num)
    · rfl

/-- C51: a bounded probability vector can give any bit vector. -/
theorem pvSample_any {pv : List Rat} {n : Nat} (hn : 2 ≤ n) (hpv : PvBounded n pv) {x y : BV} (hx : x.length = n)
    (hy : y.length = n) : Sim.Reaches (pvSample pv x) y := by
  obtain ⟨hl, hb⟩ := hpv
  obtain ⟨hm, _⟩ := pv_margins hn
  unfold pvSample
  refine Sim.Reaches.bind (a := ()) (Sim.Reaches.lift (assert_pos (by simp [hl, hx]))) ?_
  have key := Sim.Reaches.forRange (body := fun i (bv : BV) => do
    let u ← Sim.uniform
    let p ← Sim.lift (vget pv i)
    Sim.lift (vset bv i (decide (u < p)))) (fun j => y.take j ++ x.drop j) (a := 0) (b := x.length) (Nat.zero_le _)
    (s := x) (by simp) ?_
  · rwa [hx, ← hy, List.take_length, show x.drop y.length = [] by rw [hy, ← hx, List.drop_length], List.append_nil, hy,
      ← hx] at key
  intro j _ hj
  have hjy : j < y.length := by omega
  have hjp : j < pv.length := by omega
  have hset : (y.take j ++ x.drop j).set j y[j] = y.take (j + 1) ++ x.drop (j + 1) := by
    rw [List.set_append_right _ _ (by simp), List.length_take, Nat.min_eq_left (by omega), Nat.sub_self,
      List.drop_eq_getElem_cons hj, List.set_cons_zero, List.take_succ_eq_append_getElem hjy, List.append_assoc]
    rfl
  have hbj := hb _ (List.getElem_mem hjp)
  have hu : ∃ u : Rat, Sim.Reaches Sim.uniform u ∧ decide (u < pv[j]) = y[j] := by
    cases hyj : y[j]
    · refine ⟨pv[j], ?_, by simp⟩
      have h0 : 0 ≤ pv[j] := le_trans (le_of_lt hm) hbj.1
      have h1 : pv[j] < 1 := by linarith [hbj.2]
      have hnum : 0 ≤ pv[j].num := Rat.num_nonneg.mpr h0
      have hlt : pv[j].num.toNat < pv[j].den := by
        have := Rat.num_lt_denom_iff.mpr h1
        omega
      have := Sim.Reaches.uniform hlt
      rwa [show ((pv[j].num.toNat : Nat) : Rat) = ((pv[j].num : Int) : Rat) by
        exact_mod_cast Int.toNat_of_nonneg hnum, Rat.num_div_den] at this
    · refine ⟨0, ?_, decide_eq_true (lt_of_lt_of_le hm hbj.1)⟩
      have := Sim.Reaches.uniform (a := 0) (b := 1) (by decide)
      simpa using this
  obtain ⟨u, h1, h2⟩ := hu
  refine Sim.Reaches.bind h1 (Sim.Reaches.bind (Sim.Reaches.lift (vget_eq hjp)) (Sim.Reaches.lift ?_))
  rw [h2, vset_eq (by simp; omega), hset]

/-- C51: a convex update keeps the components between 0 and 1. -/
theorem pvUpdate_unit {pv x : List Rat} (h : x.length = pv.length) (hpv : PvUnit pv) (hx : PvUnit x) {rate : Rat}
    (h0 : 0 ≤ rate) (h1 : rate ≤ 1) : (pvUpdate pv x rate).Returns PvUnit := by
  rw [pvUpdate_eq h]
  refine returns_ok.mpr ?_
  intro p hp
  obtain ⟨i, hi, rfl⟩ := List.getElem_of_mem hp
  rw [List.getElem_zipWith]
  have hip : i < pv.length := by simp [h] at hi; omega
  have hix : i < x.length := by omega
  obtain ⟨a1, a2⟩ := hpv _ (List.getElem_mem hip)
  obtain ⟨b1, b2⟩ := hx _ (List.getElem_mem hix)
  constructor <;> nlinarith

theorem pvUpdateBits_unit {pv : List Rat} {x : BV} (h : x.length = pv.length) (hpv : PvUnit pv) {rate : Rat}
    (h0 : 0 ≤ rate) (h1 : rate ≤ 1) : (pvUpdateBits pv x rate).Returns PvUnit := by
  rw [pvUpdateBits_eq h]
  refine returns_ok.mpr ?_
  intro p hp
  obtain ⟨i, hi, rfl⟩ := List.getElem_of_mem hp
  rw [List.getElem_zipWith]
  have hip : i < pv.length := by simp [h] at hi; omega
  have hix : i < x.length := by omega
  obtain ⟨a1, a2⟩ := hpv _ (List.getElem_mem hip)
  cases x[i] <;> simp only [bitRat] <;> constructor <;> simp <;> nlinarith

/-- The mean of the selected individuals. -/
theorem selectionMean_spec [LinearOrder K] {p : Pop K} {size n sel : Nat} (hp : p.Valid size n) (h1 : 1 ≤ sel)
    (h2 : sel ≤ size) {x : Nat → BV} (hx : ∀ k, k < size → p.bestBv k = ok (x k)) {mean : List Rat}
    (hm : mean.length = n) :
    (selectionMean (sel : Int) p mean).Returns (fun r => r.length = n ∧ ∀ i, i < n →
      r[i]? = some ((∑ k ∈ Finset.range sel, bitValue (x k) i) / (sel : Rat))) := by
  unfold selectionMean
  refine Returns.bind (P := fun (r : List Rat) => r.length = n ∧ ∀ i, i < n →
    r[i]? = some (∑ k ∈ Finset.range sel, bitValue (x k) i)) ?_ ?_
  · rw [Int.toNat_natCast]
    refine forRange_returns (fun j (r : List Rat) => r.length = n ∧ ∀ i, i < n →
      r[i]? = some (∑ k ∈ Finset.range j, bitValue (x k) i)) (Nat.zero_le _) ⟨by simp [pvInit, hm], ?_⟩ ?_
    · intro i hi
      rw [pvInit, List.getElem?_replicate, if_pos (by omega)]
      simp
    · rintro j r _ hj ⟨g1, g2⟩
      have hxl := bestBv_length hp (Nat.lt_of_lt_of_le hj h2) (hx j (by omega))
      rw [hx j (by omega), ok_bind, pvAdd_eq (by omega)]
      refine returns_ok.mpr ⟨by simp [g1, hxl], ?_⟩
      intro i hi
      have hxi : i < (x j).length := by omega
      rw [List.getElem?_zipWith, g2 i hi, List.getElem?_eq_getElem hxi, Finset.sum_range_succ]
      unfold bitValue
      rw [List.getElem?_eq_getElem hxi]
      rfl
  · rintro r ⟨g1, g2⟩
    rw [pvAverage_eq (by omega)]
    refine returns_ok.mpr ⟨by simpa using g1, ?_⟩
    intro i hi
    rw [List.getElem?_map, g2 i hi]
    simp

theorem bitValue_unit (x : BV) (i : Nat) : 0 ≤ bitValue x i ∧ bitValue x i ≤ 1 := by
  unfold bitValue
  cases x[i]?.getD false <;> simp [bitRat]

/-- Ranks of a valid population can be read. -/
theorem Pop.Valid.reads [LinearOrder K] {p : Pop K} {size n : Nat} (hp : p.Valid size n) :
    ∃ x : Nat → BV, ∀ k, k < size → p.bestBv k = ok (x k) := by
  have : ∀ k, ∃ x : BV, k < size → p.bestBv k = ok x := by
    intro k
    by_cases hk : k < size
    · obtain ⟨_, y, _, _, _, _, _, _, e, _⟩ := hp.ranked_read hk
      exact ⟨y, fun _ => e⟩
    · exact ⟨[], fun h => absurd h hk⟩
  exact ⟨fun k => (this k).choose, fun k hk => (this k).choose_spec hk⟩

/-- C51: the mean of the selected individuals has components between 0 and 1. -/
theorem selectionMean_unit [LinearOrder K] {p : Pop K} {size n sel : Nat} (hp : p.Valid size n) (h1 : 1 ≤ sel)
    (h2 : sel ≤ size) {mean : List Rat} (hm : mean.length = n) :
    (selectionMean (sel : Int) p mean).Returns (fun r => r.length = n ∧ PvUnit r) := by
  obtain ⟨x, hx⟩ := hp.reads
  refine (selectionMean_spec hp h1 h2 hx hm).mono ?_
  rintro r ⟨g1, g2⟩
  refine ⟨g1, ?_⟩
  intro p hp
  obtain ⟨i, hi, rfl⟩ := List.getElem_of_mem hp
  have := g2 i (by omega)
  rw [List.getElem?_eq_getElem hi] at this
  rw [Option.some.inj this]
  have hs : (0 : Rat) < sel := by exact_mod_cast h1
  constructor
  · exact div_nonneg (Finset.sum_nonneg (fun k _ => (bitValue_unit (x k) i).1)) (le_of_lt hs)
  · rw [div_le_one hs]
    have := Finset.sum_le_sum (s := Finset.range sel) (fun k _ => (bitValue_unit (x k) i).2)
    simpa using this

/-! ## Lemmas -/

theorem algLoop_best_and {σ : Type} [LinearOrder K] {init iterate : Alg (AlgState K σ) Unit} {n m : Nat} {val : BV → K}
    (J F : AlgState K σ → Prop) (hJ : ∀ s b, J s → J { s with lastIteration := b })
    (hstep : ∀ s, J s → TrueCalls n val s.calls → BestOf s.calls s.solution →
      Alg.Holds iterate s (fun _ t => J t ∧ ∃ gen, TrueCalls n val gen ∧ StrictStep s t gen)
        (fun t => (TrueCalls n val t.calls ∧ BestExceptLast m t) ∧ F t))
    {s : AlgState K σ}
    (hinit : Alg.Holds init s (fun _ t => J t ∧ TrueCalls n val t.calls ∧ BestOf t.calls t.solution)
      (fun t => (TrueCalls n val t.calls ∧ BestExceptLast m t) ∧ F t)) (numIterations : Int) (fuel : Nat) :
    Alg.Holds (algLoop init iterate numIterations fuel) s
      (fun _ t => J t ∧ TrueCalls n val t.calls ∧ BestOf t.calls t.solution)
      (fun t => (TrueCalls n val t.calls ∧ BestExceptLast m t) ∧ F t) := by
  refine algLoop_holds (fun t => J t ∧ TrueCalls n val t.calls ∧ BestOf t.calls t.solution) _ ?_ ?_ _ _
  · rintro t ⟨h1, h2, h3⟩ _
    refine (hstep t h1 h2 h3).mono ?_ (fun _ h => h)
    rintro _ u ⟨hu, gen, hg, hst⟩
    exact ⟨hu, by rw [hst.1]; exact h2.append hg, hst.best h3⟩
  · exact hinit.mono (fun _ t h => ⟨hJ t false h.1, h.2⟩) (fun _ h => h)

/-- The state after `random_solution(); pv_uniform(_pv);`. -/
theorem pvStart_holds [LinearOrder K] {env : Env K} {n m : Nat} {val : BV → K} (henv : env.Computes n val)
    (hn : 2 ≤ n) (hm : 0 < m) {s : AlgState K (PvData ρ)} (hs : s.solution.1.length = n) (hpv : s.data.pv.length = n)
    (hcalls : s.calls = []) {Q : Unit → AlgState K (PvData ρ) → Prop}
    (hQ : ∀ x : BV, x.length = n → PvBounded n (pvUniform s.data.pv) → Q () { s with
      solution := (x, val x), calls := [(x, val x)], data := { s.data with pv := pvUniform s.data.pv } }) :
    Alg.Holds (pvStart env) s Q (PvStop n m val) := by
  unfold pvStart
  refine Alg.Holds.bind (P := fun _ t => ∃ x : BV, x.length = n ∧
    t = { s with solution := (x, val x), calls := s.calls ++ [(x, val x)] })
    (randomSolution_holds henv hs (fun x hx => ⟨x, hx, rfl⟩) (fun x hx => ⟨⟨?_, ?_⟩, Or.inl ?_⟩)) ?_
  · simp only [hcalls]; exact TrueCalls.nil
  · exact ⟨[], [], by simp [hcalls], hm, Or.inl rfl⟩
  · exact hcalls
  · rintro _ _ ⟨x, hx, rfl⟩
    simp only [hcalls, List.nil_append]
    refine Alg.Holds.modify (hQ x hx ⟨by rw [pvUniform_length, hpv], ?_⟩)
    intro p hp
    rw [List.eq_of_mem_replicate hp]
    obtain ⟨_, h2⟩ := pv_margins hn
    constructor <;> linarith

/-- Sampling of a population, which is then evaluated and sorted and offered to the solution. -/
theorem pvGeneration_bind [LinearOrder K] {β : Type} {env : Env K} {n lam : Nat} {val : BV → K}
    (henv : env.Computes n val) {L : PopLens (PvData ρ) K} (hL : ∀ p d, (L.put p d).pv = d.pv)
    {s : AlgState K (PvData ρ)} (hp : (L.get s.data).Valid lam n) (hlam : 0 < lam)
    (hpv : PvBounded n s.data.pv) (hs : TrueCalls n val s.calls) (hbest : BestOf s.calls s.solution)
    {f : Unit → Alg (AlgState K (PvData ρ)) β} {Q : β → AlgState K (PvData ρ) → Prop}
    (hQ : ∀ (w : Pop K) (u : AlgState K (PvData ρ)) (gen : List (BV × K)), w.Valid lam n → w.Sorted →
      u.data = L.put w s.data → TrueCalls n val gen → StrictStep s u gen → Alg.Holds (f ()) u Q (PvStop n lam val)) :
    Alg.Holds (pvSamplePop L >>= fun _ => popEvaluate env L >>= fun _ => popSort L >>= fun _ =>
      popUpdateSolution L >>= f) s Q (PvStop n lam val) := by
  refine Alg.Holds.bind (P := fun _ t => ∃ p : Pop K, p.Valid lam n ∧ t = { s with data := L.put p s.data }) ?_ ?_
  · unfold pvSamplePop
    refine Alg.Holds.get_bind (Alg.Holds.sim_bind (Pop.sample_valid hp (fun x hx => pvSample_post hpv.1 hx)) ?_)
    intro p hp'
    exact Alg.Holds.modify ⟨p, hp', rfl⟩
  · rintro _ _ ⟨p, hp', rfl⟩
    refine generation_bind (p := p) henv (L.get_put _ _) hp' hlam ?_ ?_
    · intro k values hk _
      refine ⟨⟨hs.append (evaluated_true (fun x hx => hp'.bits x (List.mem_of_mem_take hx))),
        BestExceptLast.of_best hbest rfl rfl ?_⟩, Or.inr ?_⟩
      · simp [evaluated]
        omega
      · dsimp only
        rw [L.put_put, hL]
        exact hpv
    · intro w u h1 _ _ h4 hud hst
      exact hQ w u _ h1 h4 (by rw [hud]; exact L.put_put _ _ _) (evaluated_true hp'.bits) hst

/-! ## Compact GA -/

/-- C51: one step of the compact GA moves the components where the candidates differ by the learning rate, towards the
better candidate. -/
theorem compactMove_spec {pv : List Rat} {best worst : BV} {n : Nat} (hpv : pv.length = n) (hb : best.length = n)
    (hw : worst.length = n) (rate : Rat) :
    (compactMove rate best worst pv).Returns (fun r => r.length = n ∧ ∀ (i : Nat) p a b, pv[i]? = some p →
      best[i]? = some a → worst[i]? = some b → r[i]? = some (p + rate * (bitRat a - bitRat b))) := by
  unfold compactMove
  rw [forRange_mapIdx (fun i p => p + rate * (bitRat (best[i]?.getD false) - bitRat (worst[i]?.getD false)))]
  · refine returns_ok.mpr ⟨by simpa using hpv, ?_⟩
    intro i p a b h1 h2 h3
    rw [List.getElem?_mapIdx, h1, h2, h3]
    rfl
  · intro i r hi hr
    have hib : i < best.length := by omega
    have hiw : i < worst.length := by omega
    rw [vget_eq hib, ok_bind, vget_eq hiw, ok_bind, vget_eq hi, ok_bind, List.getElem?_eq_getElem hib,
      List.getElem?_eq_getElem hiw]
    cases best[i] <;> cases worst[i] <;> simp [bitRat, vset_eq hi, sub_eq_add_neg]

/-- The invariant of the compact GA. -/
structure CompactInv (n : Nat) (s : AlgState K (PvData (BV × BV))) : Prop where
  bounded : PvBounded n s.data.pv
  margins : s.data.Margins n
  first : s.data.rest.1.length = n
  second : s.data.rest.2.length = n

theorem compactLearn_holds [LinearOrder K] {env : Env K} {n : Nat} {val : BV → K} (henv : env.Computes n val)
    (hn : 2 ≤ n) (q : CompactParams) {best worst : BV} (hb : best.length = n) (hw : worst.length = n)
    (hle : val worst ≤ val best) {s t : AlgState K (PvData (BV × BV))} (hs : TrueCalls n val s.calls)
    (hbest : BestOf s.calls s.solution) (ht : CompactInv n t)
    {gen : List (BV × K)} (hgen : TrueCalls n val gen) (hst : StrictStep s t gen) (hmem : (best, val best) ∈ gen) :
    Alg.Holds (compactLearn env q best worst) t
      (fun _ u => CompactInv n u ∧ ∃ gen, TrueCalls n val gen ∧ StrictStep s u gen) (PvStop n 2 val) := by
  have hbv : val best ≤ t.solution.2 := hst.gen_le _ hmem
  unfold compactLearn
  refine Alg.Holds.bind (P := fun _ u => u.data = t.data ∧ ∃ gen, TrueCalls n val gen ∧ StrictStep s u gen) ?_ ?_
  · unfold compactCheck
    split
    · have hnone : PvStop n 2 val t := ⟨⟨by rw [hst.1]; exact hs.append hgen, t.calls, [], (List.append_nil _).symm,
        Nat.zero_lt_two, Or.inr (hst.best hbest)⟩, Or.inr ht.bounded⟩
      have h1 : StrictStep t { t with calls := t.calls ++ [(best, val best)] } [(best, val best)] :=
        ⟨rfl, Or.inl ⟨rfl, fun c hc => by rw [List.mem_singleton.mp hc]; exact hbv⟩⟩
      have h1' := hst.trans h1
      have g1 : TrueCalls n val (gen ++ [(best, val best)]) := hgen.snoc hb
      refine evaluate_bind henv hb (evaluate_bind henv hw ?_ ?_) hnone
      · have h2 : StrictStep { t with calls := t.calls ++ [(best, val best)] }
            { t with calls := t.calls ++ [(best, val best)] ++ [(worst, val worst)] } [(worst, val worst)] :=
          ⟨rfl, Or.inl ⟨rfl, fun c hc => by rw [List.mem_singleton.mp hc]; exact le_trans hle hbv⟩⟩
        have h2' := h1'.trans h2
        have g2 : TrueCalls n val (gen ++ [(best, val best)] ++ [(worst, val worst)]) := g1.snoc hw
        exact Alg.Holds.assert (decide_eq_true hle) ⟨rfl, _, g2, h2'⟩
      · exact ⟨⟨by rw [h1'.1]; exact hs.append g1, _, [], (List.append_nil _).symm, Nat.zero_lt_two, Or.inr (h1'.best hbest)⟩,
          Or.inr ht.bounded⟩
    · exact Alg.Holds.pure ⟨rfl, gen, hgen, hst⟩
  · rintro _ u ⟨hd, gen', hg', hst'⟩
    refine Alg.Holds.get_bind ?_
    rw [hd]
    refine Alg.Holds.returns_bind (compactMove_spec ht.bounded.1 hb hw q.rate) ?_
    rintro pv ⟨hpv, _⟩
    rw [ht.margins.1, ht.margins.2]
    refine Alg.Holds.returns_bind (pvBound_bounded hn hpv) (fun pv' hpv' => ?_)
    refine Alg.Holds.modify ⟨?_, gen', hg', hst'⟩
    rw [hd]
    exact ⟨hpv', ht.margins, ht.first, ht.second⟩

theorem compactIterate_holds [LinearOrder K] {env : Env K} {n : Nat} {val : BV → K} (henv : env.Computes n val)
    (hn : 2 ≤ n) (q : CompactParams) (s : AlgState K (PvData (BV × BV))) (hinv : CompactInv n s)
    (hs : TrueCalls n val s.calls) (hbest : BestOf s.calls s.solution) :
    Alg.Holds (compactIterate env q) s
      (fun _ t => CompactInv n t ∧ ∃ gen, TrueCalls n val gen ∧ StrictStep s t gen) (PvStop n 2 val) := by
  unfold compactIterate
  refine Alg.Holds.get_bind (Alg.Holds.sim_bind (pvSample_post hinv.bounded.1 hinv.first) (fun x hx => ?_))
  refine Alg.Holds.sim_bind (pvSample_post hinv.bounded.1 hinv.second) (fun y hy => Alg.Holds.modify_bind ?_)
  refine evaluate_bind henv hx (evaluate_bind henv hy ?_ ?_) ?_
  · have hgen : TrueCalls n val [(x, val x), (y, val y)] := (TrueCalls.nil.snoc hx).snoc hy
    have hcalls : s.calls ++ [(x, val x)] ++ [(y, val y)] = s.calls ++ [(x, val x), (y, val y)] := by
      rw [List.append_assoc]; rfl
    have keep : ∀ (z : BV) (v : K), CompactInv n (if s.solution.2 < v then
        ⟨(z, v), s.lastIteration, s.calls ++ [(x, val x)] ++ [(y, val y)], { s.data with rest := (x, y) }⟩
        else ⟨s.solution, s.lastIteration, s.calls ++ [(x, val x)] ++ [(y, val y)], { s.data with rest := (x, y) }⟩) := by
      intro z v
      split <;> exact ⟨hinv.bounded, hinv.margins, hx, hy⟩
    split
    · rename_i hlt
      refine Alg.Holds.modify_bind ?_
      refine compactLearn_holds henv hn q hy hx (le_of_lt hlt) hs hbest (keep y (val y)) hgen
        (strictStep_update (s := s) (t := ⟨s.solution, s.lastIteration,
          s.calls ++ [(x, val x)] ++ [(y, val y)], { s.data with rest := (x, y) }⟩) hcalls rfl ?_ ?_) (by simp)
      · intro _; simp
      · intro c hc
        rcases List.mem_cons.mp hc with rfl | hc
        · exact le_trans (le_of_lt hlt) (le_max_left _ _)
        · rw [List.mem_singleton.mp hc]; exact le_max_left _ _
    · rename_i hlt
      refine Alg.Holds.modify_bind ?_
      refine compactLearn_holds henv hn q hx hy (not_lt.mp hlt) hs hbest (keep x (val x)) hgen
        (strictStep_update (s := s) (t := ⟨s.solution, s.lastIteration,
          s.calls ++ [(x, val x)] ++ [(y, val y)], { s.data with rest := (x, y) }⟩) hcalls rfl ?_ ?_) (by simp)
      · intro _; simp
      · intro c hc
        rcases List.mem_cons.mp hc with rfl | hc
        · exact le_max_left _ _
        · rw [List.mem_singleton.mp hc]; exact le_trans (not_lt.mp hlt) (le_max_left _ _)
  · exact ⟨⟨hs.snoc hx, BestExceptLast.of_best hbest rfl rfl (by simp)⟩, Or.inr hinv.bounded⟩
  · exact ⟨⟨hs, s.calls, [], (List.append_nil _).symm, Nat.zero_lt_two, Or.inr hbest⟩, Or.inr hinv.bounded⟩

/-- C51, C50: after any number of iterations of the compact GA, with or without assertions, all components of the
probability vector are between the bounds and the solution is a best evaluated vector; when it is interrupted, only one
evaluated vector can be better than the solution. -/
theorem compactGa_bounded [LinearOrder K] {env : Env K} {n : Nat} {val : BV → K} (henv : env.Computes n val)
    (hn : 2 ≤ n) (q : CompactParams) {s : AlgState K (PvData (BV × BV))} (hs : s.solution.1.length = n)
    (hcalls : s.calls = []) {x y : BV} (hx : x.length = n) (hy : y.length = n) (hd : s.data = pvNew n (x, y))
    (numIterations : Int) (fuel : Nat) :
    Alg.Holds (compactMaximize env q numIterations fuel) s
      (fun _ t => PvBounded n t.data.pv ∧ TrueCalls n val t.calls ∧ BestOf t.calls t.solution) (PvStop n 2 val) := by
  refine (algLoop_best_and (CompactInv n) _ (fun _ _ h => ⟨h.bounded, h.margins, h.first, h.second⟩)
    (compactIterate_holds henv hn q) (pvStart_holds henv hn (by omega) hs (by rw [hd]; simp [pvNew]) hcalls ?_)
    numIterations fuel).mono (fun _ t h => ⟨h.1.bounded, h.2⟩) (fun _ h => h)
  intro z hz hb
  exact ⟨⟨hb, by rw [hd]; exact ⟨rfl, rfl⟩, by rw [hd]; exact hx, by rw [hd]; exact hy⟩, TrueCalls.nil.snoc hz,
    BestOf.single _⟩

/-! ## Max-min ant system -/

/-- The invariant of the max-min ant system. -/
structure MmasInv [LinearOrder K] (n : Nat) (val : BV → K) (s : AlgState K (PvData BV)) : Prop where
  bounded : PvBounded n s.data.pv
  margins : s.data.Margins n
  candidate : s.data.rest.length = n
  calls : TrueCalls n val s.calls
  best : BestOf s.calls s.solution

/-- C51: the max-min ant system moves the probability vector towards the solution. -/
theorem mmasLearn_spec {n : Nat} (hn : 2 ≤ n) (rate : Rat) {s : AlgState K (PvData BV)}
    (hpv : s.data.pv.length = n) (hm : s.data.Margins n) (hx : s.solution.1.length = n)
    {E : AlgState K (PvData BV) → Prop} :
    Alg.Holds (mmasLearn rate) s (fun _ t => PvBounded n t.data.pv ∧ (∃ pv, t = { s with data := { s.data with pv := pv } }) ∧
      ∀ (i : Nat) p b, s.data.pv[i]? = some p → s.solution.1[i]? = some b →
        t.data.pv[i]? = some (max (1 / (n : Rat)) (min (1 - 1 / (n : Rat)) (p + rate * (bitRat b - p))))) E := by
  unfold mmasLearn
  refine Alg.Holds.get_bind (Alg.Holds.lift_bind (pvUpdateBits_eq (by omega)) ?_)
  rw [hm.1, hm.2]
  obtain ⟨r, e, hr⟩ := pvBound_bounded hn (pv := List.zipWith (fun p b => p + rate * (bitRat b - p)) s.data.pv s.solution.1)
    (by simp [hpv, hx])
  refine Alg.Holds.lift_bind e (Alg.Holds.modify ⟨hr, ⟨r, rfl⟩, ?_⟩)
  intro i p b hp hb
  rw [pvBound_eq] at e
  cases e
  dsimp only
  rw [List.getElem?_map, List.getElem?_zipWith, hp, hb]
  rfl

/-- C51, C50: after any number of iterations of the max-min ant system, all components of the probability vector are
between the bounds and the solution is a best evaluated vector, also when it is interrupted after its first
evaluation. -/
theorem mmas_bounded [LinearOrder K] {env : Env K} {n : Nat} {val : BV → K} (henv : env.Computes n val)
    (hn : 2 ≤ n) {q : MmasParams K} (hcomp1 : ∀ a b, q.compare a b = true → b ≤ a)
    (hcomp2 : ∀ a b, q.compare a b = false → a ≤ b) {s : AlgState K (PvData BV)} (hs : s.solution.1.length = n)
    (hcalls : s.calls = []) {x : BV} (hx : x.length = n) (hd : s.data = pvNew n x) (numIterations : Int) (fuel : Nat) :
    Alg.Holds (mmasMaximize env q numIterations fuel) s
      (fun _ t => PvBounded n t.data.pv ∧ TrueCalls n val t.calls ∧ BestOf t.calls t.solution) (PvStop n 1 val) := by
  refine (algLoop_holds (MmasInv n val) _ ?_ ?_ numIterations fuel).mono
    (fun _ t h => ⟨h.bounded, h.calls, h.best⟩) (fun _ h => h)
  · intro t ht _
    have hsol : t.solution.1.length = n := (ht.calls _ ht.best.1).1
    unfold mmasIterate
    refine Alg.Holds.get_bind (Alg.Holds.sim_bind (pvSample_post ht.bounded.1 ht.candidate) (fun y hy => ?_))
    refine Alg.Holds.modify_bind (evaluate_bind henv hy (Alg.Holds.modify_bind ?_) ?_)
    · dsimp only
      by_cases hc : q.compare (val y) t.solution.2 = true
      · rw [if_pos hc]
        refine (mmasLearn_spec hn q.rate (by exact ht.bounded.1) (by exact ht.margins) (by exact hy)).mono ?_ (fun _ h => h)
        rintro _ u ⟨hb, ⟨pv, rfl⟩, _⟩
        exact ⟨hb, ht.margins, hy, ht.calls.snoc hy, ht.best.snoc_right (hcomp1 _ _ hc)⟩
      · rw [if_neg hc]
        refine (mmasLearn_spec hn q.rate (by exact ht.bounded.1) (by exact ht.margins) (by exact hsol)).mono ?_ (fun _ h => h)
        rintro _ u ⟨hb, ⟨pv, rfl⟩, _⟩
        exact ⟨hb, ht.margins, hy, ht.calls.snoc hy, ht.best.snoc_left (hcomp2 _ _ (Bool.eq_false_iff.mpr hc))⟩
    · exact ⟨⟨ht.calls, t.calls, [], (List.append_nil _).symm, Nat.zero_lt_one, Or.inr ht.best⟩, Or.inr ht.bounded⟩
  · unfold mmasInit
    refine Alg.Holds.bind (pvStart_holds (Q := fun _ t => ∃ z : BV, z.length = n ∧ PvBounded n (pvUniform s.data.pv) ∧
      t = { s with solution := (z, val z), calls := [(z, val z)], data := { s.data with pv := pvUniform s.data.pv } })
      henv hn (by omega) hs (by rw [hd]; simp [pvNew]) hcalls (fun z hz hb => ⟨z, hz, hb, rfl⟩)) ?_
    rintro _ _ ⟨z, hz, hb, rfl⟩
    refine (mmasLearn_spec hn q.rate (by exact hb.1) (by rw [hd]; exact ⟨rfl, rfl⟩) (by exact hz)).mono ?_ (fun _ h => h)
    rintro _ u ⟨hb, ⟨pv, rfl⟩, _⟩
    exact ⟨hb, by rw [hd]; exact ⟨rfl, rfl⟩, by rw [hd]; exact hx, TrueCalls.nil.snoc hz, BestOf.single _⟩

/-! ## PBIL -/

/-- C51: PBIL moves the probability vector towards the mean of the `sel` best individuals. -/
theorem pbilLearn_spec [LinearOrder K] {n size sel : Nat} (hn : 2 ≤ n) (h1 : 1 ≤ sel) (h2 : sel ≤ size) (rate : Rat)
    {s : AlgState K (PvData (PbilRest K))} (hpv : s.data.pv.length = n) (hm : s.data.Margins n)
    (hmean : s.data.rest.mean.length = n) (hp : s.data.rest.population.Valid size n) {x : Nat → BV}
    (hx : ∀ k, k < size → s.data.rest.population.bestBv k = ok (x k)) {E : AlgState K (PvData (PbilRest K)) → Prop} :
    Alg.Holds (pbilLearn ⟨sel, rate⟩) s (fun _ t => PvBounded n t.data.pv ∧
      (∃ pv mean, mean.length = n ∧ t = { s with data := { s.data with pv := pv, rest := { s.data.rest with mean := mean } } }) ∧
      ∀ (i : Nat) p, s.data.pv[i]? = some p → t.data.pv[i]? = some (max (1 / (n : Rat)) (min (1 - 1 / (n : Rat))
        (p + rate * ((∑ k ∈ Finset.range sel, bitValue (x k) i) / (sel : Rat) - p))))) E := by
  unfold pbilLearn
  refine Alg.Holds.get_bind (Alg.Holds.returns_bind (selectionMean_spec hp h1 h2 hx hmean) ?_)
  rintro mean ⟨g1, g2⟩
  refine Alg.Holds.lift_bind (pvUpdate_eq (by omega)) ?_
  rw [hm.1, hm.2]
  obtain ⟨r, e, hr⟩ := pvBound_bounded hn (pv := List.zipWith (fun p a => p + rate * (a - p)) s.data.pv mean)
    (by simp [hpv, g1])
  refine Alg.Holds.lift_bind e (Alg.Holds.modify ⟨hr, ⟨r, mean, g1, rfl⟩, ?_⟩)
  intro i p hpi
  have hi : i < n := by rw [← hpv]; exact (List.getElem?_eq_some_iff.mp hpi).1
  rw [pvBound_eq] at e
  cases e
  dsimp only
  rw [List.getElem?_map, List.getElem?_zipWith, hpi, g2 i hi]
  rfl

/-- The invariant of PBIL. -/
structure PbilInv (n size : Nat) (s : AlgState K (PvData (PbilRest K))) : Prop where
  bounded : PvBounded n s.data.pv
  margins : s.data.Margins n
  population : s.data.rest.population.Valid size n
  mean : s.data.rest.mean.length = n

/-- C51, C50: after any number of iterations of PBIL, all components of the probability vector are between the bounds
and the solution is a best evaluated vector; when it is interrupted, only vectors of the generation under evaluation can
be better than the solution. -/
theorem pbil_bounded [LinearOrder K] {env : Env K} {n size sel : Nat} {val : BV → K} (henv : env.Computes n val)
    (hn : 2 ≤ n) (h1 : 1 ≤ sel) (h2 : sel ≤ size) (rate : Rat) {s : AlgState K (PvData (PbilRest K))}
    (hs : s.solution.1.length = n) (hcalls : s.calls = []) [Zero K] (hd : pbilNew n size = ok s.data)
    (numIterations : Int) (fuel : Nat) :
    Alg.Holds (pbilMaximize env ⟨sel, rate⟩ numIterations fuel) s
      (fun _ t => PvBounded n t.data.pv ∧ TrueCalls n val t.calls ∧ BestOf t.calls t.solution) (PvStop n size val) := by
  unfold pbilNew at hd
  obtain ⟨p, hp, hd⟩ := bind_eq_ok.mp hd
  have hp' := (popNew_valid hp).2.2
  rw [Int.toNat_natCast, Int.toNat_natCast] at hp'
  have hd' := Outcome.ok.inj hd
  refine (algLoop_best_and (PbilInv n size) _ (fun _ _ h => ⟨h.bounded, h.margins, h.population, h.mean⟩) ?_
    (pvStart_holds henv hn (by omega) hs (by rw [← hd']; simp [pvNew]) hcalls ?_)
    numIterations fuel).mono (fun _ t h => ⟨h.1.bounded, h.2⟩) (fun _ h => h)
  · intro t ht htc htb
    unfold pbilIterate
    refine pvGeneration_bind henv (fun _ _ => rfl) (by exact ht.population) (by omega) ht.bounded htc htb ?_
    intro w u gen hw _ hud hgen hst
    have hud' : u.data = { t.data with rest := { t.data.rest with population := w } } := hud
    obtain ⟨x, hx⟩ := hw.reads
    refine (pbilLearn_spec hn h1 h2 rate (x := x) (by rw [hud']; exact ht.bounded.1) (by rw [hud']; exact ht.margins)
      (by rw [hud']; exact ht.mean) (by rw [hud']; exact hw) (by rw [hud']; exact hx)).mono ?_ (fun _ h => h)
    rintro _ v ⟨hb, ⟨pv, mean, hmean, rfl⟩, _⟩
    refine ⟨⟨hb, ?_, ?_, hmean⟩, gen, hgen, hst⟩
    · rw [hud']; exact ht.margins
    · rw [hud']; exact hw
  · intro z hz hb
    refine ⟨⟨hb, ?_, ?_, ?_⟩, TrueCalls.nil.snoc hz, BestOf.single _⟩ <;> rw [← hd']
    · exact ⟨rfl, rfl⟩
    · exact hp'
    · exact List.length_replicate

/-! ## PBIL with negative and positive selection -/

/-- What PBIL with negative and positive selection should do: move the probability vector by the learning rate times the
difference between the mean of the `sel` best and the mean of the `sel` worst individuals, and bound it. -/
def NpsSpec (n sel : Nat) (rate : Rat) (best worst : Nat → BV) (pv pv' : List Rat) : Prop :=
  ∀ (i : Nat) p, pv[i]? = some p → pv'[i]? = some (max (1 / (n : Rat)) (min (1 - 1 / (n : Rat))
    (p + rate * ((∑ k ∈ Finset.range sel, bitValue (best k) i) / (sel : Rat) -
      (∑ k ∈ Finset.range sel, bitValue (worst k) i) / (sel : Rat)))))

/-- C52 (negative part): a step leaves a bounded probability vector as it is, whatever the population. -/
theorem npsLearn_constant [LinearOrder K] {n size sel : Nat} (h1 : 1 ≤ sel) (h2 : sel ≤ size) (rate : Rat)
    {s : AlgState K (PvData (NpsRest K))} (hpv : PvBounded n s.data.pv) (hm : s.data.Margins n)
    (hbest : s.data.rest.meanBest.length = n) (hworst : s.data.rest.meanWorst.length = n)
    (hp : s.data.rest.population.Valid size n) {E : AlgState K (PvData (NpsRest K)) → Prop} :
    Alg.Holds (npsLearn ⟨sel, rate⟩) s (fun _ t => ∃ mean, mean.length = n ∧
      t = { s with data := { s.data with rest := { s.data.rest with meanBest := mean, meanWorst := mean } } }) E := by
  obtain ⟨x, hx⟩ := hp.reads
  obtain ⟨m1, e1, g1, k1⟩ := selectionMean_spec hp h1 h2 hx hbest
  obtain ⟨m2, e2, g2, k2⟩ := selectionMean_spec hp h1 h2 hx hworst
  have hmm : m1 = m2 := by
    refine List.ext_getElem? (fun i => ?_)
    by_cases hi : i < n
    · rw [k1 i hi, k2 i hi]
    · rw [List.getElem?_eq_none (by omega), List.getElem?_eq_none (by omega)]
  subst hmm
  unfold npsLearn
  refine Alg.Holds.get_bind (Alg.Holds.lift_bind e1 (Alg.Holds.lift_bind e2 ?_))
  have hpv1 : pvUpdateBetween s.data.pv m1 m1 rate = ok s.data.pv := by
    rw [pvUpdateBetween_eq (by rw [g1, hpv.1]) (by rw [g1, hpv.1])]
    congr 1
    refine List.ext_getElem (by simp [g1, hpv.1]) (fun i hi hi' => ?_)
    simp
  refine Alg.Holds.lift_bind hpv1 ?_
  have hpv2 : pvBound s.data.pv s.data.lower s.data.upper = ok s.data.pv := by
    rw [pvBound_eq, hm.1, hm.2]
    congr 1
    rw [List.map_congr_left (g := id), List.map_id]
    intro p hp
    obtain ⟨a, b⟩ := hpv.2 p hp
    rw [min_eq_right b, max_eq_right a]
    rfl
  refine Alg.Holds.lift_bind hpv2 (Alg.Holds.modify ⟨m1, g1, rfl⟩)

/-- C52 (negative part): if the learning rate is not zero and the mean of the best individuals differs from the mean of
the worst ones where the probability is strictly between the bounds, then a step is not what it should be. -/
theorem npsLearn_wrong [LinearOrder K] {n size sel : Nat} (h1 : 1 ≤ sel) (h2 : sel ≤ size) {rate : Rat} (hr : rate ≠ 0)
    {s : AlgState K (PvData (NpsRest K))} (hpv : PvBounded n s.data.pv) (hm : s.data.Margins n)
    (hbest : s.data.rest.meanBest.length = n) (hworst : s.data.rest.meanWorst.length = n)
    (hp : s.data.rest.population.Valid size n) {best worst : Nat → BV} {i : Nat} {p : Rat} (hi : s.data.pv[i]? = some p)
    (hlo : 1 / (n : Rat) < p) (hup : p < 1 - 1 / (n : Rat))
    (hdiff : ∑ k ∈ Finset.range sel, bitValue (best k) i ≠ ∑ k ∈ Finset.range sel, bitValue (worst k) i)
    {E : AlgState K (PvData (NpsRest K)) → Prop} :
    Alg.Holds (npsLearn ⟨sel, rate⟩) s (fun _ t => ¬ NpsSpec n sel rate best worst s.data.pv t.data.pv) E := by
  refine (npsLearn_constant h1 h2 rate hpv hm hbest hworst hp).mono ?_ (fun _ h => h)
  rintro _ t ⟨mean, _, rfl⟩ hspec
  have h := hspec i p hi
  dsimp only at h
  rw [hi] at h
  have hs : (0 : Rat) < sel := by exact_mod_cast h1
  have hne : rate * ((∑ k ∈ Finset.range sel, bitValue (best k) i) / (sel : Rat) -
      (∑ k ∈ Finset.range sel, bitValue (worst k) i) / (sel : Rat)) ≠ 0 := by
    refine mul_ne_zero hr ?_
    rw [← sub_div]
    exact div_ne_zero (sub_ne_zero.mpr hdiff) (ne_of_gt hs)
  generalize rate * ((∑ k ∈ Finset.range sel, bitValue (best k) i) / (sel : Rat) -
      (∑ k ∈ Finset.range sel, bitValue (worst k) i) / (sel : Rat)) = d at h hne
  have h := Option.some.inj h
  rcases lt_or_gt_of_ne hne with hd | hd
  · have : max (1 / (n : Rat)) (min (1 - 1 / (n : Rat)) (p + d)) < p :=
      max_lt hlo (lt_of_le_of_lt (min_le_right _ _) (by linarith))
    linarith
  · have : p < max (1 / (n : Rat)) (min (1 - 1 / (n : Rat)) (p + d)) :=
      lt_of_lt_of_le (lt_min hup (by linarith)) (le_max_right _ _)
    linarith

/-- The invariant of PBIL with negative and positive selection: the probability vector is uniform. -/
structure NpsInv (n size : Nat) (s : AlgState K (PvData (NpsRest K))) : Prop where
  uniform : s.data.pv = List.replicate n (1 / 2)
  margins : s.data.Margins n
  population : s.data.rest.population.Valid size n
  best : s.data.rest.meanBest.length = n
  worst : s.data.rest.meanWorst.length = n

theorem uniform_bounded {n : Nat} (hn : 2 ≤ n) : PvBounded n (List.replicate n (1 / 2)) := by
  refine ⟨List.length_replicate, ?_⟩
  intro p hp
  rw [List.eq_of_mem_replicate hp]
  obtain ⟨_, h2⟩ := pv_margins hn
  constructor <;> linarith

/-- C52, C50 (negative part of C52): after any number of iterations of PBIL with negative and positive selection, with any
learning rate and any function, all components of the probability vector are 1/2: nothing has been learned.  The
solution is a best evaluated vector. -/
theorem npsPbil_constant [LinearOrder K] {env : Env K} {n size sel : Nat} {val : BV → K} (henv : env.Computes n val)
    (hn : 2 ≤ n) (h1 : 1 ≤ sel) (h2 : sel ≤ size) (rate : Rat) {s : AlgState K (PvData (NpsRest K))}
    (hs : s.solution.1.length = n) (hcalls : s.calls = []) [Zero K] (hd : npsNew n size = ok s.data)
    (numIterations : Int) (fuel : Nat) :
    Alg.Holds (npsMaximize env ⟨sel, rate⟩ numIterations fuel) s
      (fun _ t => t.data.pv = List.replicate n (1 / 2) ∧ TrueCalls n val t.calls ∧ BestOf t.calls t.solution)
      (PvStop n size val) := by
  unfold npsNew at hd
  obtain ⟨p, hp, hd⟩ := bind_eq_ok.mp hd
  have hp' := (popNew_valid hp).2.2
  rw [Int.toNat_natCast, Int.toNat_natCast] at hp'
  have hd' := Outcome.ok.inj hd
  refine (algLoop_best_and (NpsInv n size) _ (fun _ _ h => ⟨h.uniform, h.margins, h.population, h.best, h.worst⟩) ?_
    (pvStart_holds henv hn (by omega) hs (by rw [← hd']; simp [pvNew]) hcalls ?_)
    numIterations fuel).mono (fun _ t h => ⟨h.1.uniform, h.2⟩) (fun _ h => h)
  · intro t ht htc htb
    have hb : PvBounded n t.data.pv := by rw [ht.uniform]; exact uniform_bounded hn
    unfold npsIterate
    refine pvGeneration_bind henv (fun _ _ => rfl) (by exact ht.population) (by omega) hb htc htb ?_
    intro w u gen hw _ hud hgen hst
    have hud' : u.data = { t.data with rest := { t.data.rest with population := w } } := hud
    refine (npsLearn_constant h1 h2 rate (by rw [hud']; exact hb) (by rw [hud']; exact ht.margins)
      (by rw [hud']; exact ht.best) (by rw [hud']; exact ht.worst) (by rw [hud']; exact hw)).mono ?_ (fun _ h => h)
    rintro _ v ⟨mean, hmean, rfl⟩
    refine ⟨⟨?_, ?_, ?_, hmean, hmean⟩, gen, hgen, hst⟩ <;> rw [hud']
    · exact ht.uniform
    · exact ht.margins
    · exact hw
  · intro z hz hb
    refine ⟨⟨?_, ?_, ?_, ?_, ?_⟩, TrueCalls.nil.snoc hz, BestOf.single _⟩ <;> rw [← hd']
    · simp [pvUniform, pvNew]
    · exact ⟨rfl, rfl⟩
    · exact hp'
    · exact List.length_replicate
    · exact List.length_replicate

/-! ## UMDA -/

/-- C51: UMDA sets the probability vector to the mean of the `sel` best individuals, and bounds it. -/
theorem umdaLearn_spec [LinearOrder K] {n size sel : Nat} (hn : 2 ≤ n) (h1 : 1 ≤ sel) (h2 : sel ≤ size)
    {s : AlgState K (PvData (Pop K))} (hpv : s.data.pv.length = n) (hm : s.data.Margins n)
    (hp : s.data.rest.Valid size n) {x : Nat → BV}
    (hx : ∀ k, k < size → s.data.rest.bestBv k = ok (x k)) {E : AlgState K (PvData (Pop K)) → Prop} :
    Alg.Holds (umdaLearn sel) s (fun _ t => PvBounded n t.data.pv ∧
      (∃ pv, t = { s with data := { s.data with pv := pv } }) ∧
      ∀ i, i < n → t.data.pv[i]? = some (max (1 / (n : Rat)) (min (1 - 1 / (n : Rat))
        ((∑ k ∈ Finset.range sel, bitValue (x k) i) / (sel : Rat))))) E := by
  unfold umdaLearn
  refine Alg.Holds.get_bind (Alg.Holds.returns_bind (selectionMean_spec hp h1 h2 hx hpv) ?_)
  rintro mean ⟨g1, g2⟩
  rw [hm.1, hm.2]
  obtain ⟨r, e, hr⟩ := pvBound_bounded hn g1
  refine Alg.Holds.lift_bind e (Alg.Holds.modify ⟨hr, ⟨r, rfl⟩, ?_⟩)
  intro i hi
  rw [pvBound_eq] at e
  cases e
  dsimp only
  rw [List.getElem?_map, g2 i hi]
  rfl

/-- The invariant of UMDA. -/
structure UmdaInv (n size : Nat) (s : AlgState K (PvData (Pop K))) : Prop where
  bounded : PvBounded n s.data.pv
  margins : s.data.Margins n
  population : s.data.rest.Valid size n

/-- C51, C50: after any number of iterations of UMDA, all components of the probability vector are between the bounds
and the solution is a best evaluated vector; when it is interrupted, only vectors of the generation under evaluation can
be better than the solution. -/
theorem umda_bounded [LinearOrder K] {env : Env K} {n size sel : Nat} {val : BV → K} (henv : env.Computes n val)
    (hn : 2 ≤ n) (h1 : 1 ≤ sel) (h2 : sel ≤ size) {s : AlgState K (PvData (Pop K))}
    (hs : s.solution.1.length = n) (hcalls : s.calls = []) [Zero K] (hd : umdaNew n size = ok s.data)
    (numIterations : Int) (fuel : Nat) :
    Alg.Holds (umdaMaximize env sel numIterations fuel) s
      (fun _ t => PvBounded n t.data.pv ∧ TrueCalls n val t.calls ∧ BestOf t.calls t.solution) (PvStop n size val) := by
  unfold umdaNew at hd
  obtain ⟨p, hp, hd⟩ := bind_eq_ok.mp hd
  have hp' := (popNew_valid hp).2.2
  rw [Int.toNat_natCast, Int.toNat_natCast] at hp'
  have hd' := Outcome.ok.inj hd
  refine (algLoop_best_and (UmdaInv n size) _ (fun _ _ h => ⟨h.bounded, h.margins, h.population⟩) ?_
    (pvStart_holds henv hn (by omega) hs (by rw [← hd']; simp [pvNew]) hcalls ?_)
    numIterations fuel).mono (fun _ t h => ⟨h.1.bounded, h.2⟩) (fun _ h => h)
  · intro t ht htc htb
    unfold umdaIterate
    refine pvGeneration_bind henv (fun _ _ => rfl) (by exact ht.population) (by omega) ht.bounded htc htb ?_
    intro w u gen hw _ hud hgen hst
    have hud' : u.data = { t.data with rest := w } := hud
    obtain ⟨x, hx⟩ := hw.reads
    refine (umdaLearn_spec hn h1 h2 (x := x) (by rw [hud']; exact ht.bounded.1) (by rw [hud']; exact ht.margins)
      (by rw [hud']; exact hw) (by rw [hud']; exact hx)).mono ?_ (fun _ h => h)
    rintro _ v ⟨hb, ⟨pv, rfl⟩, _⟩
    refine ⟨⟨hb, ?_, ?_⟩, gen, hgen, hst⟩
    · rw [hud']; exact ht.margins
    · rw [hud']; exact hw
  · intro z hz hb
    refine ⟨⟨hb, ?_, ?_⟩, TrueCalls.nil.snoc hz, BestOf.single _⟩ <;> rw [← hd']
    · exact ⟨rfl, rfl⟩
    · exact hp'

/-! ## Examples -/

/-- One iteration of the compact GA. -/
example : (match compactMaximize exampleEnv ⟨1 / 10, false⟩ 1 10
      (exampleStart (pvNew 3 ([false, false, false], [false, false, false])))
      [0, 1, 0, 0, 1, 0, 1, 1, 1, 0, 1, 1, 1, 0, 1] with
    | .ok r _ => some (r.2.solution, r.2.calls, r.2.data.pv)
    | _ => none) = some (([true, true, false], 2), [([false, true, false], 1), ([true, true, false], 2),
      ([true, false, true], 2)], [1 / 2, 3 / 5, 2 / 5]) := by decide +kernel

/-- One iteration of the max-min ant system. -/
example : (match mmasMaximize exampleEnv ⟨fun a b => decide (b ≤ a), 1 / 10⟩ 1 10
      (exampleStart (pvNew 3 [false, false, false])) [0, 1, 0, 0, 1, 0, 1, 1, 1] with
    | .ok r _ => some (r.2.solution, r.2.calls, r.2.data.pv)
    | _ => none) = some (([true, true, false], 2), [([false, true, false], 1), ([true, true, false], 2)],
      [101 / 200, 119 / 200, 81 / 200]) := by decide +kernel

/-- One iteration of PBIL. -/
example : (match (pbilNew 3 2 : Outcome (PvData (PbilRest Int))) with
    | .ok d =>
      match pbilMaximize exampleEnv ⟨1, 1 / 10⟩ 1 10 (exampleStart d)
        [0, 1, 0, 0, 1, 0, 1, 1, 1, 0, 1, 0, 1, 0, 1, 5, 1, 0, 0, 0] with
      | .ok r _ => some (r.2.solution, r.2.calls, r.2.data.pv)
      | _ => none
    | _ => none) = some (([true, true, true], 3), [([false, true, false], 1), ([true, true, false], 2),
      ([true, true, true], 3)], [11 / 20, 11 / 20, 11 / 20]) := by decide +kernel

/-- One iteration of UMDA. -/
example : (match (umdaNew 3 2 : Outcome (PvData (Pop Int))) with
    | .ok d =>
      match umdaMaximize exampleEnv 1 1 10 (exampleStart d)
        [0, 1, 0, 0, 1, 0, 1, 1, 1, 0, 1, 0, 1, 0, 1, 5, 1, 0, 0, 0] with
      | .ok r _ => some (r.2.solution, r.2.calls, r.2.data.pv)
      | _ => none
    | _ => none) = some (([true, true, true], 3), [([false, true, false], 1), ([true, true, false], 2),
      ([true, true, true], 3)], [2 / 3, 2 / 3, 2 / 3]) := by decide +kernel

/-- One iteration of PBIL with negative and positive selection: the probability vector does not move. -/
example : (match (npsNew 3 2 : Outcome (PvData (NpsRest Int))) with
    | .ok d =>
      match npsMaximize exampleEnv ⟨1, 1 / 10⟩ 1 10 (exampleStart d)
        [0, 1, 0, 0, 1, 0, 1, 1, 1, 0, 1, 0, 1, 0, 1, 5, 1, 0, 0, 0] with
      | .ok r _ => some (r.2.solution, r.2.calls, r.2.data.pv)
      | _ => none
    | _ => none) = some (([true, true, true], 3), [([false, true, false], 1), ([true, true, false], 2),
      ([true, true, true], 3)], [1 / 2, 1 / 2, 1 / 2]) := by decide +kernel

/-- The hypotheses are met. -/
example : Alg.Holds (compactMaximize exampleEnv ⟨1 / 10, true⟩ 7 10)
    (exampleStart (pvNew 3 ([false, false, false], [false, false, false])))
    (fun _ t => PvBounded 3 t.data.pv ∧ TrueCalls 3 (fun x => Int.ofNat (x.count true)) t.calls ∧
      BestOf t.calls t.solution) (PvStop 3 2 (fun x => Int.ofNat (x.count true))) :=
  compactGa_bounded exampleEnv_computes (by decide) _ rfl rfl rfl rfl rfl 7 10

example : Alg.Holds (mmasMaximize exampleEnv ⟨fun a b => decide (b ≤ a), 1 / 10⟩ 7 10)
    (exampleStart (pvNew 3 [false, false, false]))
    (fun _ t => PvBounded 3 t.data.pv ∧ TrueCalls 3 (fun x => Int.ofNat (x.count true)) t.calls ∧
      BestOf t.calls t.solution) (PvStop 3 1 (fun x => Int.ofNat (x.count true))) :=
  mmas_bounded exampleEnv_computes (by decide) (fun _ _ h => of_decide_eq_true h)
    (fun _ _ h => le_of_lt (not_le.mp (of_decide_eq_false h))) rfl rfl rfl rfl 7 10

example : ∀ d : PvData (PbilRest Int), pbilNew 3 (2 : Nat) = ok d →
    Alg.Holds (pbilMaximize exampleEnv ⟨(1 : Nat), 1 / 10⟩ 7 10) (exampleStart d)
      (fun _ t => PvBounded 3 t.data.pv ∧ TrueCalls 3 (fun x => Int.ofNat (x.count true)) t.calls ∧
        BestOf t.calls t.solution) (PvStop 3 2 (fun x => Int.ofNat (x.count true))) :=
  fun d h => pbil_bounded (s := exampleStart d) exampleEnv_computes (by decide) (by decide) (by decide) _ rfl rfl h 7 10

/-- A population in which the best individual differs from the worst one. -/
example : Alg.Holds (npsLearn ⟨(1 : Nat), 1 / 10⟩)
    (⟨([true, true, true], 3), false, [], ⟨[1 / 2, 1 / 2, 1 / 2], 1 / 3, 1 - 1 / 3,
      ⟨⟨[[true, true, true], [false, false, true]], [3, 1], [0, 1]⟩, [0, 0, 0], [0, 0, 0]⟩⟩⟩ : AlgState Int (PvData (NpsRest Int)))
    (fun _ t => ¬ NpsSpec 3 1 (1 / 10) (fun _ => [true, true, true]) (fun _ => [false, false, true])
      [1 / 2, 1 / 2, 1 / 2] t.data.pv) (fun _ => False) :=
  npsLearn_wrong (n := 3) (size := 2) (sel := 1) (i := 0) (p := 1 / 2) (by decide) (by decide) (by norm_num)
    ⟨rfl, by intro p hp; simp at hp; subst hp; norm_num⟩ ⟨by norm_num, by norm_num⟩ rfl rfl
    ⟨rfl, rfl, by decide, by decide⟩ rfl (by norm_num) (by norm_num) (by decide +kernel)

end Hnco
