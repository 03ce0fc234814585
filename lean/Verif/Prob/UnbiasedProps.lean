import Verif.Prob.UnbiasedLemmas
import Verif.Prob.PopulationSymmetryProps

/-!
# What unbiased algorithms cannot distinguish (C122)
-/

namespace Hnco.Prob

open Outcome
open scoped ENNReal

variable {K : Type} [LinearOrder K] {n size : ℕ} {σ : Symmetry n} {f g : Fn K} {val val' : BV → K} {alg : Fn K → Dist (BV × K)} {c : Choices K}

/-! ## Consequences -/

/-- C122: the image of a vector has the probability of the vector. -/
theorem Unbiased.image (h : Unbiased n alg) (hr : Relabeled σ f g val val') {x : BV} (hx : x.length = n) (v : K) :
    alg g (σ.act x, v) = alg f (x, v) := by
  rw [h σ f g val val' hr]
  exact relabeled_apply (fun r h' => h.length hr.left h') hx v

/-- C122: if a function does not change when the bits are relabelled then a vector and its image have the same probability. -/
theorem Unbiased.invariant (h : Unbiased n alg) (hf : Evaluates f n val) (hs : ∀ x : BV, x.length = n → val (σ.act x) = val x) {x : BV}
    (hx : x.length = n) (v : K) : alg f (σ.act x, v) = alg f (x, v) := h.image ⟨hf, hf, hs⟩ hx v

/-- C122: if the value only depends on the number of ones, vectors with the same number of ones have the same probability. -/
theorem Unbiased.unitation (h : Unbiased n alg) (hf : Evaluates f n val)
    (hu : ∀ x y : BV, x.length = n → y.length = n → ones x = ones y → val x = val y) {x y : BV} (hx : x.length = n) (hy : y.length = n)
    (hxy : ones x = ones y) (v : K) : alg f (x, v) = alg f (y, v) := by
  obtain ⟨e, rfl⟩ := permuting_exists hx hy hxy
  refine (h.invariant hf (fun z hz => ?_) hx v).symm
  refine hu _ _ (Symmetry.act_length _ _) hz ?_
  unfold ones
  rw [← ones_card hz, ← ones_card (Symmetry.act_length (permuting e) z)]
  refine Fintype.card_congr (e.subtypeEquiv (fun i => ?_))
  rw [Symmetry.act_get _ _ i.2]
  simp [permuting]

/-- C122: on a constant function all vectors have the same probability. -/
theorem Unbiased.constant (h : Unbiased n alg) (hf : Evaluates f n val) {k : K} (hk : ∀ x : BV, x.length = n → val x = k) {x y : BV}
    (hx : x.length = n) (hy : y.length = n) (v : K) : alg f (x, v) = alg f (y, v) := by
  rw [← exchanging_act hx hy]
  exact (h.invariant hf (fun z hz => by rw [hk z hz, hk _ (Symmetry.act_length _ _)]) hx v).symm

/-- C122: an unbiased algorithm which returns on a constant function returns a uniformly distributed vector. -/
theorem Unbiased.uniform (h : Unbiased n alg) (hf : Evaluates f n val) {k : K} (hk : ∀ x : BV, x.length = n → val x = k) {x : BV} (hx : x.length = n) :
    (alg f).prob (fun r => r.1 = x) = (alg f).total * (2 ^ n)⁻¹ := by
  classical
  have hmass : ∀ y : BV, (alg f).prob (fun r => r.1 = y) = ∑' v, alg f (y, v) := by
    intro y
    unfold Dist.prob
    rw [ENNReal.tsum_prod', tsum_eq_single y]
    · simp
    · intro z hz
      simp [hz]
  have htotal : (alg f).total = ∑' y : BV, ∑' v, alg f (y, v) := by
    unfold Dist.total
    rw [ENNReal.tsum_prod']
  have hinj : Function.Injective (List.ofFn : (Fin n → Bool) → BV) := List.ofFn_injective
  have hsum : ∑' a : Fin n → Bool, ∑' v, alg f (List.ofFn a, v) = ∑' y : BV, ∑' v, alg f (y, v) := by
    refine hinj.tsum_eq (f := fun y : BV => ∑' v, alg f (y, v)) (fun y hy => ?_)
    have hy' : ∑' v, alg f (y, v) ≠ 0 := hy
    rw [Ne, ENNReal.tsum_eq_zero, not_forall] at hy'
    obtain ⟨v, hv⟩ := hy'
    have hl := h.length hf hv
    simp only at hl
    subst hl
    exact ⟨fun i => y[i], List.ofFn_getElem⟩
  have hall : ∀ a : Fin n → Bool, ∑' v, alg f (List.ofFn a, v) = (alg f).prob (fun r => r.1 = x) := by
    intro a
    rw [hmass]
    exact tsum_congr (fun v => h.constant hf hk (by simp) hx v)
  rw [htotal, ← hsum, tsum_congr hall, tsum_fintype, Finset.sum_const, Finset.card_univ, Fintype.card_fun, Fintype.card_bool, Fintype.card_fin,
    nsmul_eq_mul, mul_right_comm]
  push_cast
  rw [ENNReal.mul_inv_cancel (by simp) (by simp), one_mul]

theorem isMax_act (h : Relabeled σ f g val val') {x : BV} (hx : x.length = n) : IsMax n val' (σ.act x) ↔ IsMax n val x := by
  constructor
  · intro hm
    refine ⟨hx, fun y hy => ?_⟩
    rw [← h.same y hy, ← h.same x hx]
    exact hm.2 _ (σ.act_length y)
  · intro hm
    refine ⟨σ.act_length x, fun y hy => ?_⟩
    rw [← σ.act_unact hy, h.same _ (σ.unact_length y), h.same x hx]
    exact hm.2 _ (σ.unact_length y)

/-- C122: an unbiased algorithm misses the maximum of a function and that of the function relabelled with the same probability. -/
theorem Unbiased.misses (h : Unbiased n alg) (hr : Relabeled σ f g val val') : missProb (alg g) (IsMax n val') = missProb (alg f) (IsMax n val) := by
  classical
  unfold missProb
  congr 1
  rw [h σ f g val val' hr, relabeled_prob]
  unfold Dist.prob
  refine tsum_congr (fun r => ?_)
  by_cases h0 : alg f r = 0
  · simp [h0]
  · have hl := h.length hr.left h0
    simp only [isMax_act hr hl]

/-- C122: it takes the same expected time to find them. -/
theorem Unbiased.time {after : ℕ → Fn K → Dist (BV × K)} (h : ∀ t, Unbiased n (after t)) (hr : Relabeled σ f g val val') :
    expectedTime (fun t => after t g) (IsMax n val') = expectedTime (fun t => after t f) (IsMax n val) :=
  tsum_congr (fun t => (h t).misses hr)

/-! ## Unbiased algorithms -/

/-- C122: random search is unbiased. -/
theorem unbiased_randomSearch (num : ℤ) : Unbiased (K := K) n (fun f => randomSearch f n num) := fun _ _ _ _ _ h => randomSearch_unbiased h num

theorem randomStart {p : RlsParams K} (hp : p.randomInitialization = true) (f : Fn K) : rlsInit (p.moved σ) f n = rlsInit p f n := by
  unfold rlsInit
  have h1 : (p.moved σ).randomInitialization = true := hp
  rw [h1, hp]
  simp only [if_true]

/-- C122: random local search from a random vector is unbiased. -/
theorem unbiased_randomLocalSearch {p : RlsParams K} (hp : p.randomInitialization = true) (hd : Fair p.sampleBits n) (num : ℤ) :
    Unbiased n (fun f => randomLocalSearch p f n num) := by
  intro σ f g val val' h
  have := randomLocalSearch_unbiased h (p := p) (fun h => by rw [hp] at h; cases h) hd num
  simp only [← this]
  unfold randomLocalSearch
  rw [randomStart hp]
  rfl

theorem rlsAfter_unbiased (h : Relabeled σ f g val val') {p : RlsParams K} (hs : Starts p n) (hd : Fair p.sampleBits n) (t : ℕ) :
    rlsAfter (p.moved σ) g n t = relabeled σ (rlsAfter p f n t) := by
  apply relabeled_of
  refine (rlsInit_paired h hs).bind (fun s s' hs => ?_)
  refine (Paired.boundedLoop (R := RlsR n σ val) (fun s s' hs => hs.last.symm) (fun s s' hs _ => rlsIterate_paired h hd hs) t s s' hs).bind (fun s s' hs => ?_)
  refine Paired.pure ⟨hs.length, ?_⟩
  rw [hs.origin, hs.value']

theorem unbiased_rlsAfter {p : RlsParams K} (hp : p.randomInitialization = true) (hd : Fair p.sampleBits n) (t : ℕ) :
    Unbiased n (fun f => rlsAfter p f n t) := by
  intro σ f g val val' h
  have := rlsAfter_unbiased h (p := p) (fun h => by rw [hp] at h; cases h) hd t
  simp only [← this]
  unfold rlsAfter
  rw [randomStart hp]
  rfl

/-- C122: the (1+1) evolutionary algorithm is unbiased. -/
theorem unbiased_onePlusOneEa (hn : 0 < n) {q : EaParams} (hq : q.mutationRate ≤ 1) : Unbiased (K := K) n (fun f => onePlusOneEa q f n) :=
  fun _ _ _ _ _ h => onePlusOneEa_unbiased h hn hq

/-- C122: the compact genetic algorithm is unbiased. -/
theorem unbiased_compactGa (hn : 2 ≤ n) (q : CompactParams) (num : ℤ) : Unbiased (K := K) n (fun f => compactGa f q n num) :=
  fun _ _ _ _ _ h => compactGa_unbiased h hn q num

/-- C122: the max-min ant system is unbiased. -/
theorem unbiased_mmas (hn : 2 ≤ n) (q : MmasParams K) (num : ℤ) : Unbiased n (fun f => mmas f q n num) :=
  fun _ _ _ _ _ h => mmas_unbiased h hn q num

/-- C122: population-based incremental learning is unbiased. -/
theorem unbiased_pbil [Zero K] (hc : Blind c) (hn : 2 ≤ n) {sel : ℕ} (h1 : 1 ≤ sel) (h2 : sel ≤ size) (rate : ℚ) (num : ℤ) :
    Unbiased n (fun f => pbil f c ⟨sel, rate⟩ n size num) := fun _ _ _ _ _ h => pbil_unbiased h hc hn h1 h2 rate num

/-- C122: so is population-based incremental learning with negative and positive selection. -/
theorem unbiased_npsPbil [Zero K] (hc : Blind c) (hn : 2 ≤ n) {sel : ℕ} (h1 : 1 ≤ sel) (h2 : sel ≤ size) (rate : ℚ) (num : ℤ) :
    Unbiased n (fun f => npsPbil f c ⟨sel, rate⟩ n size num) := fun _ _ _ _ _ h => npsPbil_unbiased h hc hn h1 h2 rate num

/-- C122: the univariate marginal distribution algorithm is unbiased. -/
theorem unbiased_umda [Zero K] (hc : Blind c) (hn : 2 ≤ n) {sel : ℕ} (h1 : 1 ≤ sel) (h2 : sel ≤ size) (num : ℤ) :
    Unbiased n (fun f => umda f c sel n size num) := fun _ _ _ _ _ h => umda_unbiased h hc hn h1 h2 num

/-- C122: the (mu+lambda) evolutionary algorithm is unbiased. -/
theorem unbiased_muPlusLambdaEa [Zero K] (hc : Blind c) {m : MutationLaw} (hm : m.rate ≤ 1) (mu lam : ℕ) (num : ℤ) :
    Unbiased n (fun f => muPlusLambdaEa f c m n mu lam num) := fun _ _ _ _ _ h => muPlusLambdaEa_unbiased h hc hm mu lam num

/-- C122: the (mu,lambda) evolutionary algorithm is unbiased. -/
theorem unbiased_muCommaLambdaEa [Zero K] (hc : Blind c) {m : MutationLaw} (hm : m.rate ≤ 1) (mu lam : ℕ) (num : ℤ) :
    Unbiased n (fun f => muCommaLambdaEa f c m n mu lam num) := fun _ _ _ _ _ h => muCommaLambdaEa_unbiased h hc hm mu lam num

/-- C122: the genetic algorithm is unbiased. -/
theorem unbiased_geneticAlgorithm [Zero K] (hc : Blind c) {q : GaLaw} (hq : q.rate ≤ 1) (mu : ℕ) (num : ℤ) :
    Unbiased n (fun f => geneticAlgorithm f c q n mu num) := fun _ _ _ _ _ h => geneticAlgorithm_unbiased h hc hq mu num

/-! ## Functions with a target -/

theorem ones_range {x : BV} (hx : x.length = n) : ones x = (List.range n).countP (fun i => x.getD i false) := by
  have : x = (List.range n).map (fun i => x.getD i false) := by
    refine bv_ext hx (by simp) (fun i hi => ?_)
    rw [List.getD_eq_getElem (l := List.map _ _) _ (by simpa using hi)]
    simp
  unfold ones
  conv_lhs => rw [this]
  rw [List.count_eq_countP, List.countP_map]
  congr 1
  funext i
  simp

/-- The symmetry which makes the target of the vector of ones. -/
def toward (n : ℕ) (z : BV) : Symmetry n := exchanging n (fun i => !z.getD i false)

theorem toward_agreements {x z : BV} (hx : x.length = n) : agreements n z ((toward n z).act x) = ones x := by
  rw [ones_range hx]
  unfold agreements
  refine List.countP_congr (fun i hi => ?_)
  rw [Symmetry.act_get _ _ (List.mem_range.mp hi)]
  simp only [toward, exchanging, id]
  cases z.getD i false <;> simp

theorem toward_unact {x z : BV} (hx : x.length = n) : ones ((toward n z).unact x) = agreements n z x := by
  rw [← toward_agreements ((toward n z).unact_length x), Symmetry.act_unact _ hx]

theorem toward_ones {z : BV} (hz : z.length = n) : (toward n z).act (List.replicate n true) = z := by
  refine bv_ext (Symmetry.act_length _ _) hz (fun i hi => ?_)
  rw [Symmetry.act_get _ _ hi]
  simp [toward, exchanging, List.getD_eq_getElem?_getD, hi]

theorem toward_relabeled {z : BV} {g : Fn ℤ} (hg : Evaluates g n (fun x => (agreements n z x : ℤ))) :
    Relabeled (toward n z) (oneMax n) g (fun x => (ones x : ℤ)) (fun x => (agreements n z x : ℤ)) :=
  ⟨oneMax_evaluates n, hg, fun x hx => by rw [toward_agreements hx]⟩

theorem target_isMax {z : BV} (hz : z.length = n) {g : Fn ℤ} (hg : Evaluates g n (fun x => (agreements n z x : ℤ))) (x : BV) :
    IsMax n (fun x => (agreements n z x : ℤ)) x ↔ x = z := by
  constructor
  · intro h
    have h1 : x = (toward n z).act ((toward n z).unact x) := (Symmetry.act_unact _ h.1).symm
    rw [h1] at h
    have h2 := (oneMax_found n _).mp ((isMax_act (toward_relabeled hg) ((toward n z).unact_length x)).mp h)
    rw [h1, h2, toward_ones hz]
  · rintro rfl
    have h2 := (isMax_act (toward_relabeled hg) (by simp : (List.replicate n true).length = n)).mpr ((oneMax_found n _).mpr rfl)
    rwa [toward_ones hz] at h2

/-- C122: the function which counts the bits equal to those of a target is as hard as one max, whatever the target. -/
theorem Unbiased.target {alg : Fn ℤ → Dist (BV × ℤ)} (h : Unbiased n alg) {z : BV} (hz : z.length = n) {g : Fn ℤ}
    (hg : Evaluates g n (fun x => (agreements n z x : ℤ))) :
    missProb (alg g) (fun x => x = z) = missProb (alg (oneMax n)) (fun x => x = List.replicate n true) := by
  have := h.misses (toward_relabeled hg)
  rwa [show IsMax n (fun x => (agreements n z x : ℤ)) = (fun x => x = z) from funext (fun x => propext (target_isMax hz hg x)),
    show IsMax n (fun x => (ones x : ℤ)) = (fun x => x = List.replicate n true) from funext (fun x => propext (oneMax_found n x))] at this

/-- C122: to find a target, random local search with single bit flips takes exactly `n (1 + 1/2 + ... + 1/d)` expected iterations, where `d` is
the number of bits of the starting point which are not those of the target. -/
theorem rls_target {z : BV} (hz : z.length = n) {g : Fn ℤ} (hg : Evaluates g n (fun x => (agreements n z x : ℤ))) {p : RlsParams ℤ} (hn : 0 < n)
    (hp : Elitist p) (hb : p.sampleBits = singleBitFlip n) (hr : p.randomInitialization = false) (hl : p.startingPoint.length = n) :
    expectedTime (rlsAfter p g n) (fun x => x = z) = n * harmonicNumber (n - agreements n z p.startingPoint) := by
  classical
  let q : RlsParams ℤ := { p with startingPoint := (toward n z).unact p.startingPoint }
  have hq : q.moved (toward n z) = p := by
    unfold RlsParams.moved
    simp only [q, Symmetry.act_unact _ hl]
  have hql : q.startingPoint.length = n := Symmetry.unact_length _ _
  have h1 := rls_oneMax (p := q) hn ⟨hp.1, hp.2⟩ hb hr hql
  have hcount : q.startingPoint.count false = n - agreements n z p.startingPoint := by
    have h2 : ones q.startingPoint = agreements n z p.startingPoint := toward_unact hl
    have h3 : ∀ x : BV, x.count false + x.count true = x.length := by
      intro x
      induction x with
      | nil => rfl
      | cons b x ih => cases b <;> simp <;> omega
    have h4 := h3 q.startingPoint
    unfold ones at h2
    omega
  rw [hcount] at h1
  rw [← h1]
  unfold expectedTime missProb
  refine tsum_congr (fun t => ?_)
  congr 1
  rw [← hq, rlsAfter_unbiased (toward_relabeled hg) (fun _ => hql) (by rw [show q.sampleBits = singleBitFlip n from hb]; exact singleBitFlip_fair hn),
    relabeled_prob]
  unfold Dist.prob
  refine tsum_congr (fun r => ?_)
  by_cases h0 : rlsAfter q (oneMax n) n t r = 0
  · simp [h0]
  · have hlen : r.1.length = n := by
      have := rlsAfter_unbiased (σ := exchanging n (fun _ => false)) (f := oneMax n) (g := oneMax n) (val := fun x => (ones x : ℤ))
        (val' := fun x => (ones x : ℤ)) ⟨oneMax_evaluates n, oneMax_evaluates n, fun x hx => by rw [exchanging_false hx]⟩ (p := q) (fun _ => hql)
        (by rw [show q.sampleBits = singleBitFlip n from hb]; exact singleBitFlip_fair hn) t
      have hm : q.moved (exchanging n (fun _ => false)) = q := by
        unfold RlsParams.moved
        rw [exchanging_false hql]
      rw [hm] at this
      rw [this] at h0
      exact relabeled_support h0
    have : (toward n z).act r.1 = z ↔ r.1 = List.replicate n true := by
      constructor
      · intro e
        have e' := congrArg (toward n z).unact (e.trans (toward_ones hz).symm)
        rwa [(toward n z).unact_act hlen, (toward n z).unact_act (by simp)] at e'
      · intro e
        rw [e, toward_ones hz]
    simp only [this]
    congr!

/-- C122: the (1+1) evolutionary algorithm with mutation rate `1 / n` finds any target in at most `e n (1 + 1/2 + ... + 1/n)` expected iterations. -/
theorem ea_target {z : BV} (hz : z.length = n) {g : Fn ℤ} (hg : Evaluates g n (fun x => (agreements n z x : ℤ))) (hn : 0 < n) {q : EaParams}
    (hq : q.mutationRate = (n : ℝ≥0∞)⁻¹) :
    expectedTime (rlsAfter (eaSearch q n) g n) (fun x => x = z) ≤ ENNReal.ofReal (Real.exp 1) * n * harmonicNumber n := by
  refine le_of_eq_of_le (tsum_congr (fun t => ?_)) (ea_oneMax hn hq)
  refine (unbiased_rlsAfter (n := n) (p := eaSearch q n) rfl ?_ t).target hz hg
  have h1 : q.mutationRate ≤ 1 := by rw [hq]; exact ENNReal.inv_le_one.mpr (by exact_mod_cast hn)
  refine standardBitMutation_fair hn ?_
  unfold eaNeighborhood StandardBitMutation.setMutationRate StandardBitMutation.setAllowNoMutation
  split <;> exact h1

/-! ## Examples -/

/-- The genetic algorithm on one max over three bits: vectors with two ones have the same probability. -/
example (v : ℤ) : geneticAlgorithm (oneMax 3) (blindChoices ℤ) ⟨⟨2⁻¹, false⟩, 2⁻¹, 2⟩ 3 (4 : ℕ) 20 ([true, true, false], v) =
    geneticAlgorithm (oneMax 3) (blindChoices ℤ) ⟨⟨2⁻¹, false⟩, 2⁻¹, 2⟩ 3 (4 : ℕ) 20 ([false, true, true], v) :=
  (unbiased_geneticAlgorithm (n := 3) (q := ⟨⟨2⁻¹, false⟩, 2⁻¹, 2⟩) (blindChoices_blind ℤ) (by simp) 4 20).unitation (oneMax_evaluates 3)
    (fun x y _ _ h => by simp only [h]) (x := [true, true, false]) (y := [false, true, true]) rfl rfl rfl v

/-- A constant function, on which the max-min ant system returns all vectors with the same probability. -/
example (q : MmasParams ℤ) (x : BV) (hx : x.length = 3) :
    (mmas (valuesFn 3 (fun _ => (7 : ℤ))) q 3 20).prob (fun r => r.1 = x) = (mmas (valuesFn 3 (fun _ => (7 : ℤ))) q 3 20).total * (2 ^ 3)⁻¹ :=
  (unbiased_mmas (by decide) q 20).uniform (valuesFn_evaluates 3 _) (fun _ _ => rfl) hx

/-- A relabelled one max. -/
example : missProb (umda turned (blindChoices ℤ) (2 : ℕ) 3 (10 : ℕ) 20) (IsMax 3 (fun y => (ones (rotation.unact y) : ℤ))) =
    missProb (umda (oneMax 3) (blindChoices ℤ) (2 : ℕ) 3 (10 : ℕ) 20) (IsMax 3 (fun x => (ones x : ℤ))) :=
  (unbiased_umda (n := 3) (size := 10) (blindChoices_blind ℤ) (by decide) (by decide) (by decide) 20).misses rotation_oneMax

/-- A target which differs from the starting point at two positions. -/
example : expectedTime (rlsAfter (exampleSearch [false, true, false]) (valuesFn 3 (fun x => (agreements 3 [true, true, true] x : ℤ))) 3)
    (fun x => x = [true, true, true]) = (3 : ℕ) * harmonicNumber (3 - agreements 3 [true, true, true] [false, true, false]) :=
  rls_target (n := 3) (z := [true, true, true]) rfl (valuesFn_evaluates 3 _) (by decide) (exampleSearch_elitist _) rfl rfl rfl

example : 3 - agreements 3 [true, true, true] [false, true, false] = 2 := by decide

end Hnco.Prob
