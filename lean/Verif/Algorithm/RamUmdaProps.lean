import Verif.Algorithm.RamUmda
import Verif.Algorithm.ProbabilityVectorProps
import Verif.Map.Sampling
import Verif.Population.TournamentProps

/-! # C50, C51, C68: UMDA with random affine maps -/

namespace Hnco

open Outcome

variable {K : Type}

/-! ## Specification -/

/-- `y` is a sample of the probability vector: each bit is determined by a number in `[0, 1)`. -/
def IsPvSample (pv : List Rat) (y : BV) : Prop :=
  y.length = pv.length ∧ ∃ us : Nat → Rat, (∀ i, 0 ≤ us i ∧ us i < 1) ∧
    ∀ (i : Nat) p, pv[i]? = some p → y[i]? = some (decide (us i < p))

/-- `pv` is the mean of the bit vectors `z 0`, ..., `z (sel - 1)`, clamped by the margins. -/
def IsClampedMean (n sel : Nat) (z : Nat → BV) (pv : List Rat) : Prop :=
  PvBounded n pv ∧ ∀ i, i < n → pv[i]? = some (max (1 / (n : Rat)) (min (1 - 1 / (n : Rat))
    ((∑ k ∈ Finset.range sel, bitValue (z k) i) / (sel : Rat))))

/-- Parameters with which the algorithm is defined. -/
structure RamParams.Sound (q : RamParams) (size : Nat) : Prop where
  sel : 1 ≤ q.selectionSize ∧ q.selectionSize ≤ size
  known : q.mode ≠ .unknown
  bounds : 0 ≤ q.lower ∧ q.lower ≤ q.upper
  period : q.period ≠ 0
  parameter : 0 < q.parameter ∧ q.parameter < 1

/-- The invariant. -/
structure RamInv (n size : Nat) (s : AlgState K (PvData (RamRest K))) : Prop where
  x : s.data.rest.x.Valid size n
  y : s.data.rest.y.Valid size n
  a : s.data.rest.a.length = n
  pv : s.data.pv.length = n
  pvY : s.data.rest.pvY.length = n
  length : 0 ≤ s.data.rest.length
  margins : s.data.Margins n
  solution : s.solution.1.length = n
  learned : s.data.rest.iteration = 0 ∨ PvBounded n s.data.pv
  iteration : 0 ≤ s.data.rest.iteration

/-! ## Probability vectors -/

/-- C51: the result of sampling. -/
theorem pvSample_exact {pv : List Rat} {n : Nat} (hpv : pv.length = n) {x : BV} (hx : x.length = n) :
    Sim.Post (pvSample pv x) (IsPvSample pv) := by
  unfold pvSample
  refine (Sim.Post.assert (by simp [hpv, hx])).bind (fun _ _ => ?_)
  refine (Sim.Post.forRange (I := fun j (y : BV) => y.length = n ∧ ∃ us : Nat → Rat, (∀ i, 0 ≤ us i ∧ us i < 1) ∧
    ∀ (i : Nat) p, i < j → pv[i]? = some p → y[i]? = some (decide (us i < p))) (Nat.zero_le _)
    ⟨hx, fun _ => 0, fun _ => by norm_num, fun i p h => by omega⟩ ?_).mono ?_
  · rintro j y _ hj ⟨hy, us, hus, h⟩
    refine Sim.Post.uniform.bind (fun u hu => ?_)
    refine Sim.Post.lift_bind (vget_eq (by omega)) ?_
    refine Sim.Post.lift ⟨_, vset_eq (by omega), by simpa using hy, fun k => if k = j then u else us k, ?_, ?_⟩
    · intro k
      dsimp only
      split
      · exact hu
      · exact hus k
    · intro i p hi hp
      by_cases hij : i = j
      · subst hij
        rw [List.getElem?_set_self (by omega)]
        rw [List.getElem?_eq_getElem (by omega)] at hp
        simp [Option.some.inj hp]
      · rw [List.getElem?_set_ne (Ne.symm hij)]
        simp only [if_neg hij]
        exact h i p (by omega) hp
  · rintro y ⟨hy, us, hus, h⟩
    exact ⟨by omega, us, hus, fun i p hp => h i p (by have := (List.getElem?_eq_some_iff.mp hp).1; omega) hp⟩

theorem ramMean_spec {n sel : Nat} (hn : 2 ≤ n) (h1 : 1 ≤ sel) {bvs : List BV} {z : Nat → BV}
    (hz : ∀ k, k < sel → bvs[k]? = some (z k) ∧ (z k).length = n) {pv : List Rat} (hpv : pv.length = n)
    {lower upper : Rat} (hlo : lower = 1 / (n : Rat)) (hup : upper = 1 - 1 / (n : Rat)) :
    (ramMean (sel : Int) bvs lower upper pv).Returns (IsClampedMean n sel z) := by
  unfold ramMean
  refine Returns.bind (P := fun (r : List Rat) => r.length = n ∧ ∀ i, i < n →
    r[i]? = some (∑ k ∈ Finset.range sel, bitValue (z k) i)) ?_ ?_
  · rw [Int.toNat_natCast]
    refine forRange_returns (fun j (r : List Rat) => r.length = n ∧ ∀ i, i < n →
      r[i]? = some (∑ k ∈ Finset.range j, bitValue (z k) i)) (Nat.zero_le _) ⟨by simp [pvInit, hpv], ?_⟩ ?_
    · intro i hi
      rw [pvInit, List.getElem?_replicate, if_pos (by omega)]
      simp
    · rintro j r _ hj ⟨g1, g2⟩
      obtain ⟨z1, z2⟩ := hz j hj
      rw [show vget bvs j = ok (z j) by unfold vget; rw [z1], ok_bind, pvAdd_eq (by omega)]
      refine returns_ok.mpr ⟨by simp [g1, z2], ?_⟩
      intro i hi
      have hxi : i < (z j).length := by omega
      rw [List.getElem?_zipWith, g2 i hi, List.getElem?_eq_getElem hxi, Finset.sum_range_succ]
      unfold bitValue
      rw [List.getElem?_eq_getElem hxi]
      rfl
  · rintro r ⟨g1, g2⟩
    rw [pvAverage_eq (by omega), ok_bind, hlo, hup]
    obtain ⟨w, e, hw⟩ := pvBound_bounded hn (pv := r.map (fun p => p / ((sel : Int) : Rat))) (by simpa using g1)
    refine ⟨w, e, hw, ?_⟩
    intro i hi
    rw [pvBound_eq] at e
    cases e
    rw [List.getElem?_map, List.getElem?_map, g2 i hi]
    simp

/-! ## Maps -/

/-- C68: the length of the transvection sequence. -/
theorem ramLength_spec {q : RamParams} {size : Nat} (hq : q.Sound size) {iteration length : Int} (hl : 0 ≤ length) :
    Sim.Post (ramLength q iteration length) (fun r => 0 ≤ r ∧
      (q.mode = .constant → r = length) ∧
      (q.mode = .increasing → r ≤ q.upper ∧ r ≤ length + 1) ∧
      (q.mode = .decreasing → q.lower ≤ r ∧ length - 1 ≤ r) ∧
      (q.mode = .uniform → q.lower ≤ r ∧ r ≤ q.upper) ∧
      (q.mode = .geometric → r ≤ q.upper) ∧
      (q.mode = .reverseGeometric → q.lower ≤ r ∧ r ≤ q.upper)) := by
  obtain ⟨b1, b2⟩ := hq.bounds
  unfold ramLength
  cases hm : q.mode with
  | constant => exact Sim.Post.pure ⟨hl, by simp⟩
  | increasing =>
    refine (Sim.Post.assert (by simpa using hq.period)).bind (fun _ _ => Sim.Post.pure ⟨?_, ?_⟩)
    · refine le_min ?_ (by omega)
      split <;> omega
    · simp only [reduceCtorEq, false_imp_iff, true_imp_iff, true_and, and_true]
      refine ⟨min_le_right _ _, le_trans (min_le_left _ _) ?_⟩
      split <;> omega
  | decreasing =>
    refine (Sim.Post.assert (by simpa using hq.period)).bind (fun _ _ => Sim.Post.pure ⟨?_, ?_⟩)
    · exact le_trans b1 (le_max_right _ _)
    · simp only [reduceCtorEq, false_imp_iff, true_imp_iff, true_and, and_true]
      refine ⟨le_max_right _ _, le_trans ?_ (le_max_left _ _)⟩
      split <;> omega
  | uniform =>
    refine (Sim.Post.assert (by simpa using b2)).bind (fun _ _ => Sim.Post.draw.bind (fun d _ => Sim.Post.pure ?_))
    have h1 := Int.emod_nonneg (d : Int) (show q.upper - q.lower + 1 ≠ 0 by omega)
    have h2 := Int.emod_lt_of_pos (d : Int) (show 0 < q.upper - q.lower + 1 by omega)
    refine ⟨by omega, ?_⟩
    simp only [reduceCtorEq, false_imp_iff, true_imp_iff, true_and, and_true]
    omega
  | geometric =>
    refine (Sim.Post.assert (by simpa using hq.parameter)).bind (fun _ _ => Sim.Post.draw.bind (fun d _ => Sim.Post.pure ?_))
    refine ⟨by omega, ?_⟩
    simp only [reduceCtorEq, false_imp_iff, true_imp_iff, true_and, and_true]
    omega
  | reverseGeometric =>
    refine (Sim.Post.assert (by simpa using hq.parameter)).bind (fun _ _ => Sim.Post.draw.bind (fun d _ => Sim.Post.pure ?_))
    refine ⟨by omega, ?_⟩
    simp only [reduceCtorEq, false_imp_iff, true_imp_iff, true_and, and_true]
    omega
  | unknown => exact absurd hm hq.known

theorem tsAffineRandom_unconstrained (f : TsAffine) {n : Nat} (t : Nat) (hn : 1 < n) :
    Sim.Post (tsAffineRandom f n t .unconstrained) (fun f => f.bv.length = n ∧ tsIsValidN f.ts n = true) := by
  refine (Sim.Post.assert (decide_eq_true (by omega))).bind fun _ _ => ?_
  refine (Sim.Post.forRange (fun j (r : List Bool) => r.length = j) (Nat.zero_le _) rfl ?_).bind ?_
  · intro j r _ _ hj
    exact Sim.Post.bernoulli.bind fun b _ => Sim.Post.pure (by simp [hj])
  · intro v hv
    have key : Sim.Post (tsSample f.ts n t .unconstrained) (AllValid n) := (tsRandom_correct f.ts n t hn).mono fun r h => h.2
    exact key.bind fun ts hts => Sim.Post.pure ⟨hv, (tsIsValidN_iff n ts).mpr hts⟩

theorem ramMaps_spec {q : RamParams} {size n : Nat} (hq : q.Sound size) (hn : 2 ≤ n) {r : RamRest K} (hl : 0 ≤ r.length) :
    Sim.Post (ramMaps q n r) (fun t => (∃ u v, MapSpec.Computes (tsAffineMap t.map) n n u ∧
      MapSpec.Computes (tsAffineMap t.inverse) n n v ∧ MapSpec.Undoes n v u ∧ MapSpec.Undoes n u v) ∧
      ∃ length map inverse, 0 ≤ length ∧ t = { r with length := length, map := map, inverse := inverse }) := by
  unfold ramMaps
  refine (ramLength_spec hq hl).bind ?_
  rintro len ⟨h0, _⟩
  refine (Sim.Post.assert (decide_eq_true h0)).bind (fun _ _ => ?_)
  refine (tsAffineRandom_unconstrained r.map len.toNat (by omega)).bind ?_
  rintro f ⟨f1, f2⟩
  obtain ⟨g, u, v, e, _, _, c1, c2, u1, u2, _⟩ := tsAffineInvert_correct f n f1 f2
  exact Sim.Post.lift_bind e (Sim.Post.pure ⟨⟨u, v, c1, c2, u1, u2⟩, len, f, g, h0, rfl⟩)

theorem ramImages_spec [LinearOrder K] {n size sel : Nat} {r : RamRest K} (hx : r.x.Valid size n) (hy : r.y.Valid size n)
    (h2 : sel ≤ size) {x : Nat → BV} (hbest : ∀ k, k < size → r.x.bestBv k = ok (x k)) {u : BV → BV}
    (hu : MapSpec.Computes (tsAffineMap r.map) n n u) :
    (ramImages (sel : Int) r).Returns (fun y => y.Valid size n ∧
      ∀ k, k < sel → y.bvs[k]? = some (u (x k)) ∧ (u (x k)).length = n) := by
  unfold ramImages
  rw [Int.toNat_natCast]
  refine forRange_returns (fun j (y : Pop K) => y.Valid size n ∧
      ∀ k, k < j → y.bvs[k]? = some (u (x k)) ∧ (u (x k)).length = n) (Nat.zero_le _) ⟨hy, fun k h => by omega⟩ ?_
  rintro j y _ hj ⟨g1, g2⟩
  have hjb : j < y.bvs.length := by rw [g1.bvs]; omega
  obtain ⟨e, hl⟩ := hu (x j) y.bvs[j] (bestBv_length hx (by omega) (hbest j (by omega))) (g1.bits _ (List.getElem_mem hjb))
  rw [hbest j (by omega), ok_bind, vget_eq hjb, ok_bind, e, ok_bind, vset_eq hjb, ok_bind]
  refine returns_ok.mpr ⟨g1.setBv j hl, ?_⟩
  intro k hk
  by_cases hkj : k = j
  · subst hkj
    exact ⟨List.getElem?_set_self hjb, hl⟩
  · simp only
    rw [List.getElem?_set_ne (Ne.symm hkj)]
    exact g2 k (by omega)

theorem ramPopulation_spec [LinearOrder K] {n size : Nat} {sampler : BV → BV → Sim (BV × BV)} {R : BV → Prop}
    (hs : ∀ a o : BV, a.length = n → o.length = n → Sim.Post (sampler a o) (fun r => r.1.length = n ∧ r.2.length = n ∧ R r.2))
    {a : BV} (ha : a.length = n) {p : Pop K} (hp : p.Valid size n) :
    Sim.Post (ramPopulation sampler a p) (fun r => r.1.length = n ∧ r.2.Valid size n ∧ ∀ x ∈ r.2.bvs, R x) := by
  unfold ramPopulation
  refine (Sim.Post.forRange (I := fun j (r : BV × Pop K) => r.1.length = n ∧ r.2.Valid size n ∧
    ∀ (k : Nat) x, k < j → r.2.bvs[k]? = some x → R x) (Nat.zero_le _) ⟨ha, hp, fun k x h => by omega⟩ ?_).mono ?_
  · rintro i ⟨a, w⟩ _ hi ⟨h1, h2, h3⟩
    have hiw : i < w.bvs.length := by rw [h2.bvs, ← hp.bvs]; exact hi
    refine Sim.Post.lift_bind (vget_eq hiw) ?_
    refine (hs a w.bvs[i] h1 (h2.bits _ (List.getElem_mem hiw))).bind ?_
    rintro ⟨a', o⟩ ⟨k1, k2, k3⟩
    refine Sim.Post.lift_bind (vset_eq hiw) (Sim.Post.pure ⟨k1, h2.setBv i k2, ?_⟩)
    intro k x hk hx
    by_cases hki : k = i
    · subst hki
      simp only at hx
      rw [List.getElem?_set_self hiw] at hx
      cases hx
      exact k3
    · simp only at hx
      rw [List.getElem?_set_ne (Ne.symm hki)] at hx
      exact h3 k x (by omega) hx
  · rintro ⟨a, w⟩ ⟨h1, h2, h3⟩
    refine ⟨h1, h2, ?_⟩
    intro x hx
    obtain ⟨k, hk, rfl⟩ := List.getElem_of_mem hx
    refine h3 k _ ?_ (List.getElem?_eq_getElem hk)
    rw [h2.bvs] at hk
    show k < p.bvs.length
    rw [hp.bvs]
    exact hk

/-! ## Learning -/

/-- C68: the probability vector is the clamped mean of the images of the best individuals under a bijection `u`, and the new
individuals are the inverse images of samples of this vector. -/
theorem ramLearn_spec [LinearOrder K] {q : RamParams} {n size sel : Nat} (hq : q.Sound size) (hsel : q.selectionSize = sel)
    (hn : 2 ≤ n) {s : AlgState K (PvData (RamRest K))} (hs : RamInv n size s) {x : Nat → BV}
    (hx : ∀ k, k < size → s.data.rest.x.bestBv k = ok (x k)) {E : AlgState K (PvData (RamRest K)) → Prop} :
    Alg.Holds (ramLearn q) s (fun _ t => RamInv n size t ∧ (∃ u v, MapSpec.Undoes n v u ∧ MapSpec.Undoes n u v ∧
      IsClampedMean n sel (fun k => u (x k)) t.data.pv ∧
      ∀ z ∈ t.data.rest.x.bvs, ∃ a, IsPvSample t.data.pv a ∧ z = v a) ∧ ∃ data, t = { s with data := data }) E := by
  obtain ⟨s1, s2⟩ := hq.sel
  unfold ramLearn
  refine Alg.Holds.get_bind ?_
  rw [hs.solution, hsel]
  refine Alg.Holds.sim_bind (ramMaps_spec hq hn hs.length) ?_
  rintro r ⟨⟨u, v, c1, c2, u1, u2⟩, length, map, inverse, hlen, rfl⟩
  refine Alg.Holds.returns_bind (ramImages_spec (sel := sel)
    (r := { s.data.rest with length := length, map := map, inverse := inverse }) hs.x hs.y (by omega) hx c1) ?_
  rintro y ⟨y1, y2⟩
  refine Alg.Holds.returns_bind (ramMean_spec hn (by omega) y2 hs.pv hs.margins.1 hs.margins.2) ?_
  intro pv hpv
  refine Alg.Holds.sim_bind (ramPopulation_spec (n := n) (R := fun z => ∃ a, IsPvSample pv a ∧ z = v a) ?_ hs.a hs.x) ?_
  · intro a o ha ho
    unfold ramSampleOne
    refine (pvSample_exact hpv.1.1 ha).bind (fun b hb => ?_)
    have hbl : b.length = n := by rw [hb.1, hpv.1.1]
    obtain ⟨e, hl⟩ := c2 b o hbl ho
    exact Sim.Post.lift_bind e (Sim.Post.pure ⟨hbl, hl, b, hb, rfl⟩)
  · rintro ⟨a, w⟩ ⟨h1, h2, h3⟩
    refine Alg.Holds.modify ⟨⟨h2, y1, h1, hpv.1.1, hs.pvY, hlen, hs.margins, hs.solution, Or.inr hpv.1, ?_⟩,
      ⟨u, v, u1, u2, hpv, h3⟩, _, rfl⟩
    have := hs.iteration
    show 0 ≤ s.data.rest.iteration + 1
    omega

/-- C68: in the second version, the new individuals are samples of the vector of the solution space, inverse images of
samples of the vector of the latent space, or crossovers of such vectors; the vector of the latent space is the clamped
mean of the images of the best individuals; (negative part) the vector of the solution space is the clamped mean of the
first individuals in memory, whatever their ranks. -/
theorem ram2Learn_spec [LinearOrder K] {q : RamParams} {n size sel : Nat} (hq : q.Sound size) (hsel : q.selectionSize = sel)
    (hn : 2 ≤ n) {s : AlgState K (PvData (RamRest K))} (hs : RamInv n size s) {x z : Nat → BV}
    (hx : ∀ k, k < size → s.data.rest.x.bestBv k = ok (x k)) (hz : ∀ k, k < size → s.data.rest.x.bvs[k]? = some (z k))
    {E : AlgState K (PvData (RamRest K)) → Prop} :
    Alg.Holds (ram2Learn q) s (fun _ t => RamInv n size t ∧ (IsClampedMean n sel z t.data.pv ∧
      ∃ u v, MapSpec.Undoes n v u ∧ MapSpec.Undoes n u v ∧
      IsClampedMean n sel (fun k => u (x k)) t.data.rest.pvY ∧
      ∀ y ∈ t.data.rest.x.bvs, IsPvSample t.data.pv y ∨ (∃ a, IsPvSample t.data.rest.pvY a ∧ y = v a) ∨
        ∃ a c, IsPvSample t.data.rest.pvY a ∧ IsPvSample t.data.pv c ∧ Mixes (v a) c y) ∧
      ∃ data, t = { s with data := data }) E := by
  obtain ⟨s1, s2⟩ := hq.sel
  unfold ram2Learn
  refine Alg.Holds.get_bind ?_
  rw [hs.solution, hsel]
  refine Alg.Holds.returns_bind (ramMean_spec hn (by omega) (z := z) (fun k hk => ⟨hz k (by omega),
    hs.x.bits _ (List.mem_of_getElem? (hz k (by omega)))⟩) hs.pv hs.margins.1 hs.margins.2) (fun pv hpv => ?_)
  refine Alg.Holds.sim_bind (ramMaps_spec hq hn hs.length) ?_
  rintro r ⟨⟨u, v, c1, c2, u1, u2⟩, length, map, inverse, hlen, rfl⟩
  refine Alg.Holds.returns_bind (ramImages_spec (sel := sel)
    (r := { s.data.rest with length := length, map := map, inverse := inverse }) hs.x hs.y (by omega) hx c1) ?_
  rintro y ⟨y1, y2⟩
  refine Alg.Holds.returns_bind (ramMean_spec hn (by omega) y2 hs.pvY hs.margins.1 hs.margins.2) ?_
  intro pvY hpvY
  refine Alg.Holds.sim_bind (ramPopulation_spec (n := n) (R := fun y => IsPvSample pv y ∨
    (∃ a, IsPvSample pvY a ∧ y = v a) ∨ ∃ a c, IsPvSample pvY a ∧ IsPvSample pv c ∧ Mixes (v a) c y) ?_ hs.a hs.x) ?_
  · intro a o ha ho
    unfold ram2SampleOne
    refine Sim.Post.uniform.bind (fun w _ => ?_)
    split
    · refine (pvSample_exact hpvY.1.1 ha).bind (fun b hb => ?_)
      have hbl : b.length = n := by rw [hb.1, hpvY.1.1]
      obtain ⟨e, hl⟩ := c2 b o hbl ho
      refine Sim.Post.lift_bind e ?_
      refine (pvSample_exact hpv.1.1 ho).bind (fun c hc => ?_)
      have hcl : c.length = n := by rw [hc.1, hpv.1.1]
      refine (uniform_crossover_mixes (by omega) (by omega)).1.bind (fun y hy => Sim.Post.pure ⟨hbl, ?_, ?_⟩)
      · have := hy.1
        show y.length = n
        omega
      · exact Or.inr (Or.inr ⟨b, c, hb, hc, hy⟩)
    · refine Sim.Post.uniform.bind (fun w' _ => ?_)
      split
      · refine (pvSample_exact hpvY.1.1 ha).bind (fun b hb => ?_)
        have hbl : b.length = n := by rw [hb.1, hpvY.1.1]
        obtain ⟨e, hl⟩ := c2 b o hbl ho
        exact Sim.Post.lift_bind e (Sim.Post.pure ⟨hbl, hl, Or.inr (Or.inl ⟨b, hb, rfl⟩)⟩)
      · exact (pvSample_exact hpv.1.1 ho).bind (fun y hy => Sim.Post.pure ⟨ha, by rw [hy.1, hpv.1.1], Or.inl hy⟩)
  · rintro ⟨a, w⟩ ⟨h1, h2, h3⟩
    refine Alg.Holds.modify ⟨⟨h2, y1, h1, hpv.1.1, hpvY.1.1, hlen, hs.margins, hs.solution, Or.inr hpv.1, ?_⟩,
      ⟨hpv, u, v, u1, u2, hpvY, h3⟩, _, rfl⟩
    have := hs.iteration
    show 0 ≤ s.data.rest.iteration + 1
    omega

/-! ## The algorithms -/

/-- The outcome of a run which is interrupted. -/
def RamStop [LinearOrder K] (n size : Nat) (val : BV → K) (t : AlgState K (PvData (RamRest K))) : Prop :=
  (TrueCalls n val t.calls ∧ BestExceptLast size t) ∧ (t.data.rest.iteration = 0 ∨ PvBounded n t.data.pv)

theorem ram_best_of [LinearOrder K] {env : Env K} {n size : Nat} {val : BV → K} (henv : env.Computes n val)
    {learn : Alg (AlgState K (PvData (RamRest K))) Unit}
    (hlearn : ∀ s, RamInv n size s → Alg.Holds learn s
      (fun _ t => RamInv n size t ∧ ∃ data, t = { s with data := data }) (RamStop n size val))
    {s : AlgState K (PvData (RamRest K))} (hs : s.solution.1.length = n) (hcalls : s.calls = []) [Zero K]
    {d : PvData (RamRest K)} (hd : ramNew n size = ok d) {length : Int} (hlen : 0 ≤ length)
    (hdata : s.data = ramSetLength length d) (numIterations : Int) (fuel : Nat) :
    Alg.Holds (algLoop (ramInit env) (popEvaluate env (ramLens K) >>= fun _ => popSort (ramLens K) >>= fun _ =>
      popUpdateSolution (ramLens K) >>= fun _ => learn) numIterations fuel) s
      (fun _ t => (t.data.rest.iteration = 0 ∨ PvBounded n t.data.pv) ∧ TrueCalls n val t.calls ∧
        BestOf t.calls t.solution) (RamStop n size val) := by
  unfold ramNew at hd
  obtain ⟨p, hp, hd⟩ := bind_eq_ok.mp hd
  rw [hp, ok_bind] at hd
  obtain ⟨hsize, _, hp'⟩ := popNew_valid hp
  rw [Int.toNat_natCast, Int.toNat_natCast] at hp'
  have hsize : 0 < size := by omega
  have hd' := Outcome.ok.inj hd
  refine (algLoop_best_and (RamInv n size) (fun t => t.data.rest.iteration = 0 ∨ PvBounded n t.data.pv)
    (fun _ _ h => ⟨h.x, h.y, h.a, h.pv, h.pvY, h.length, h.margins, h.solution, h.learned, h.iteration⟩) ?_ ?_
    numIterations fuel).mono (fun _ t h => ⟨h.1.learned, h.2⟩) (fun _ h => h)
  · intro t ht htc htb
    refine generation_bind (p := t.data.rest.x) henv rfl ht.x hsize ?_ ?_
    · intro k values hk _
      refine ⟨⟨htc.append (evaluated_true (fun x hx => ht.x.bits x (List.mem_of_mem_take hx))),
        BestExceptLast.of_best htb rfl rfl ?_⟩, ht.learned⟩
      simp [evaluated]
      omega
    · intro w' u hw' _ _ _ hud hst
      have hud' : u.data = { t.data with rest := { t.data.rest with x := w' } } := hud
      have hbest := hst.best htb
      have hcalls : TrueCalls n val u.calls := by rw [hst.1]; exact htc.append (evaluated_true ht.x.bits)
      have hinv : RamInv n size u := by
        refine ⟨?_, ?_, ?_, ?_, ?_, ?_, ?_, (hcalls _ hbest.1).1, ?_, ?_⟩ <;> rw [hud']
        · exact hw'
        · exact ht.y
        · exact ht.a
        · exact ht.pv
        · exact ht.pvY
        · exact ht.length
        · exact ht.margins
        · exact ht.learned
        · exact ht.iteration
      refine (hlearn u hinv).mono ?_ (fun _ h => h)
      rintro _ _ ⟨v1, data, rfl⟩
      exact ⟨v1, _, evaluated_true ht.x.bits, hst⟩
  · unfold ramInit
    have hit : s.data.rest.iteration = 0 := by rw [hdata, ← hd']; rfl
    refine Alg.Holds.bind (P := fun _ t => ∃ x : BV, x.length = n ∧
      t = { s with solution := (x, val x), calls := s.calls ++ [(x, val x)] })
      (randomSolution_holds henv hs (fun x hx => ⟨x, hx, rfl⟩) (fun x hx => ⟨⟨?_, ?_⟩, Or.inl hit⟩)) ?_
    · simp only [hcalls]; exact TrueCalls.nil
    · exact ⟨[], [], by simp [hcalls], hsize, Or.inl rfl⟩
    · rintro _ _ ⟨x, hx, rfl⟩
      simp only [hcalls, List.nil_append]
      refine Alg.Holds.bind (P := fun _ t => ∃ w : Pop K, w.Valid size n ∧ t = { s with
        solution := (x, val x), calls := [(x, val x)], data := (ramLens K).put w s.data })
        (popRandom_holds (size := size) (n := n) (by
          show s.data.rest.x.Valid size n
          rw [hdata, ← hd']
          exact hp') (fun w hw => ⟨w, hw, rfl⟩)) ?_
      rintro _ _ ⟨w, hw, rfl⟩
      refine Alg.Holds.modify ⟨⟨hw, ?_, ?_, ?_, ?_, ?_, ?_, hx, Or.inl rfl, le_refl _⟩, TrueCalls.nil.snoc hx, BestOf.single _⟩
      · show s.data.rest.y.Valid size n
        rw [hdata, ← hd']; exact hp'
      · show s.data.rest.a.length = n
        rw [hdata, ← hd']; simp [pvNew, ramSetLength]
      · show s.data.pv.length = n
        rw [hdata, ← hd']; simp [pvNew, ramSetLength]
      · show s.data.rest.pvY.length = n
        rw [hdata, ← hd']; simp [pvNew, ramSetLength]
      · show 0 ≤ s.data.rest.length
        rw [hdata]; exact hlen
      · show s.data.lower = _ ∧ s.data.upper = _
        rw [hdata, ← hd']; exact ⟨rfl, rfl⟩

/-- C50, C51: after any number of iterations of UMDA with random affine maps, the solution is a best evaluated vector and the
probability vector is within the margins (unless there was no iteration); when it is interrupted, only vectors of the
generation under evaluation can be better than the solution. -/
theorem ramUmda_best [LinearOrder K] {env : Env K} {n size : Nat} {val : BV → K} (henv : env.Computes n val)
    (hn : 2 ≤ n) {q : RamParams} (hq : q.Sound size) {s : AlgState K (PvData (RamRest K))} (hs : s.solution.1.length = n)
    (hcalls : s.calls = []) [Zero K] {d : PvData (RamRest K)} (hd : ramNew n size = ok d) {length : Int}
    (hlen : 0 ≤ length) (hdata : s.data = ramSetLength length d) (numIterations : Int) (fuel : Nat) :
    Alg.Holds (ramMaximize env q numIterations fuel) s
      (fun _ t => (t.data.rest.iteration = 0 ∨ PvBounded n t.data.pv) ∧ TrueCalls n val t.calls ∧
        BestOf t.calls t.solution) (RamStop n size val) := by
  refine ram_best_of henv (fun u hu => ?_) hs hcalls hd hlen hdata numIterations fuel
  obtain ⟨x, hx⟩ := hu.x.reads
  have hsel : q.selectionSize = (q.selectionSize.toNat : Int) := by
    have := hq.sel.1
    omega
  exact (ramLearn_spec hq hsel hn hu hx).mono (fun _ t h => ⟨h.1, h.2.2⟩) (fun _ h => h)

/-- C50, C51: the same for the second version. -/
theorem ramUmda2_best [LinearOrder K] {env : Env K} {n size : Nat} {val : BV → K} (henv : env.Computes n val)
    (hn : 2 ≤ n) {q : RamParams} (hq : q.Sound size) {s : AlgState K (PvData (RamRest K))} (hs : s.solution.1.length = n)
    (hcalls : s.calls = []) [Zero K] {d : PvData (RamRest K)} (hd : ramNew n size = ok d) {length : Int}
    (hlen : 0 ≤ length) (hdata : s.data = ramSetLength length d) (numIterations : Int) (fuel : Nat) :
    Alg.Holds (ram2Maximize env q numIterations fuel) s
      (fun _ t => (t.data.rest.iteration = 0 ∨ PvBounded n t.data.pv) ∧ TrueCalls n val t.calls ∧
        BestOf t.calls t.solution) (RamStop n size val) := by
  refine ram_best_of henv (fun u hu => ?_) hs hcalls hd hlen hdata numIterations fuel
  obtain ⟨x, hx⟩ := hu.x.reads
  have hsel : q.selectionSize = (q.selectionSize.toNat : Int) := by
    have := hq.sel.1
    omega
  refine (ram2Learn_spec hq hsel hn hu (z := fun k => u.data.rest.x.bvs[k]?.getD []) hx (fun k hk => ?_)).mono
    (fun _ t h => ⟨h.1, h.2.2⟩) (fun _ h => h)
  rw [List.getElem?_eq_getElem (by rw [hu.x.bvs]; exact hk)]
  rfl

/-! ## Examples -/

/-- The length after construction is 10, which can be set again. -/
example : ∃ d : PvData (RamRest Int), ramNew 3 4 = ok d ∧ d = ramSetLength 10 d := ⟨_, rfl, rfl⟩

example : ramDefault.Sound 100 := by
  refine ⟨by decide, by decide, by decide, by decide, ?_⟩
  unfold ramDefault
  norm_num

/-- Default parameters except for the selection size and the lengths, which are 1 or 2. -/
def ramExample (sel : Int) : RamParams := ⟨sel, .uniform, 1, 2, 10000, 1 / 10, 1 / 10, 1 / 2⟩

/-- Draws for the second example. -/
def ramDraws : List Nat :=
  [0, 0, 0, 0, 0, 0, 1, 1, 1, 0, 1, 0, 1, 1, 0, 1, 1, 1, 0, 1, 0, 0, 1, 0, 1, 0, 9, 0, 9, 2, 3, 0, 0, 0,
    0, 1, 2, 3, 4, 1, 2, 3, 1, 2, 1, 4, 1, 2, 4, 1, 3, 1, 4, 1, 5, 1, 2, 6, 1, 3]

/-- Draws for the first example. -/
def ramDraws' : List Nat :=
  [0, 1, 0, 0, 0, 0, 1, 1, 1, 0, 1, 1, 1, 0, 1, 0, 1, 1, 0, 1, 1, 2, 0, 1, 0, 1, 0, 1, 1, 2, 3, 0, 0, 0,
    0, 1, 2, 3, 4, 1, 2, 3, 1, 2, 1, 4, 1, 2, 4, 1, 3, 1, 4, 1, 5, 1, 2, 6, 1, 3]

/-- One iteration with four individuals, two of which are selected, and transvection sequences of length 1 or 2. -/
example : (match (ramNew 3 4 : Outcome (PvData (RamRest Int))) with
    | .ok d =>
      match ramMaximize exampleEnv (ramExample 2) 1 10 (exampleStart d) ramDraws' with
      | .ok r _ => some (r.2.solution, r.2.data.pv, r.2.data.rest.x.bvs)
      | _ => none
    | _ => none) = some (([true, true, true], 3), [2 / 3, 1 / 2, 2 / 3],
      [[true, false, true], [true, true, true], [true, true, true], [true, true, true]]) := by
  decide +kernel

/-- C68 (negative part): in the second version, with two individuals 000 and 111, one of which is selected, the best
individual is 111, the vector of the latent space comes from its image, and the vector of the solution space comes from
000. -/
theorem ram2_learns_from_worst : (match (ramNew 3 2 : Outcome (PvData (RamRest Int))) with
    | .ok d =>
      match ram2Maximize exampleEnv (ramExample 1) 1 10 (exampleStart d) ramDraws with
      | .ok r _ => some (r.2.solution, r.2.calls, r.2.data.pv, r.2.data.rest.pvY)
      | _ => none
    | _ => none) = some (([true, true, true], 3),
      [([false, false, false], 0), ([false, false, false], 0), ([true, true, true], 3)],
      [1 / 3, 1 / 3, 1 / 3], [1 / 3, 2 / 3, 2 / 3]) := by
  decide +kernel

end Hnco
