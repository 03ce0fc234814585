import Verif.Prob.PopulationSymmetryLemmas
import Verif.Prob.BlindLemmas

/-!
# Algorithms with populations are invariant under the symmetries of the hypercube (C121)
-/

namespace Hnco.Prob

open Outcome
open scoped ENNReal

variable {K ρ τ : Type} [LinearOrder K] {n size mu lam : ℕ} {σ : Symmetry n} {f g : Fn K} {val val' : BV → K} {c : Choices K}

omit [LinearOrder K] in
theorem RoughR.refl {p : Pop K} (h : p.Valid size n) : RoughR n σ size 0 p p := ⟨h, h, fun i hi => absurd hi (Nat.not_lt_zero i), rfl, rfl⟩

theorem bitValue_act {x : BV} {i : ℕ} (hi : i < n) :
    bitValue (σ.act x) i = if σ.exchange i then 1 - bitValue x (σ.source i) else bitValue x (σ.source i) := by
  unfold bitValue
  rw [← List.getD_eq_getElem?_getD, ← List.getD_eq_getElem?_getD, σ.act_get _ hi]
  split
  · next h => rw [h, Bool.xor_true, bitRat_not]
  · next h => rw [Bool.eq_false_iff.mpr h, Bool.xor_false]

theorem selectionMean_related {p p' : Pop K} (hp : PopR n σ size p p') {sel : ℕ} (h1 : 1 ≤ sel) (h2 : sel ≤ size) {mean mean' : List ℚ}
    (hm : mean.length = n) (hm' : mean'.length = n) :
    ∃ r, selectionMean (sel : ℤ) p mean = ok r ∧ r.length = n ∧ selectionMean (sel : ℤ) p' mean' = ok (σ.turn r) := by
  obtain ⟨x, hx⟩ := hp.valid.reads
  have hx' : ∀ k, k < size → p'.bestBv k = ok (σ.act (x k)) := by
    intro k hk
    obtain ⟨y, v, _, e1, _, e2, _⟩ := hp.read hk
    rw [hx k hk] at e1
    cases e1
    exact e2
  obtain ⟨r, e, e1, e2⟩ := selectionMean_spec hp.valid h1 h2 hx hm
  obtain ⟨r', e', e1', e2'⟩ := selectionMean_spec hp.valid' h1 h2 hx' hm'
  refine ⟨r, e, e1, ?_⟩
  rw [e']
  congr 1
  refine pv_ext e1' (σ.turn_length _) (fun i hi => ?_)
  have h0 : (sel : ℚ) ≠ 0 := by exact_mod_cast (by omega : sel ≠ 0)
  rw [σ.turn_get _ hi, List.getD_eq_getElem?_getD, e2' i hi, List.getD_eq_getElem?_getD, e2 _ (σ.source_lt i hi)]
  simp only [Option.getD_some, bitValue_act hi]
  split
  · rw [Finset.sum_sub_distrib, Finset.sum_const, Finset.card_range, sub_div, nsmul_eq_mul, mul_one, div_self h0]
  · rfl

/-! ## Algorithms with a probability vector -/

theorem pvGeneration_paired (h : Relabeled σ f g val val') (hc : Blind c) (h0 : 0 < size) {pv : List ℚ} (hpv : pv.length = n) {s s' : BV × K}
    (hs : SolR n σ s s') {p p' : Pop K} (hp : RoughR n σ size 0 p p') :
    Paired (fun r r' : (BV × K) × Pop K => SolR n σ r.1 r'.1 ∧ PopR n σ size r.2 r'.2) (pvGeneration f c pv s p) (pvGeneration g c (σ.turn pv) s' p') := by
  unfold pvGeneration
  refine (popSample_paired (fun x x' hx hx' => σ.sample_paired hpv hx hx') hp).bind (fun q q' hq => ?_)
  refine (Paired.lift (popEvaluate_related h hq)).bind (fun q q' hq => ?_)
  refine (sort_paired hc hq).bind (fun q q' hq => ?_)
  exact (Paired.lift (popUpdateSolution_related hq h0 hs)).bind (fun t t' ht => Paired.pure ⟨ht, hq⟩)

/-- Related states: also the populations have the same values and permutations. -/
def PbilR (n : ℕ) (σ : Symmetry n) (size : ℕ) (s s' : PvState K (PbilRest K)) : Prop :=
  PvR n σ (fun r => r.mean.length = n) s s' ∧ RoughR n σ size 0 s.data.rest.population s'.data.rest.population

theorem pbilIterate_paired (h : Relabeled σ f g val val') (hc : Blind c) (hn : 2 ≤ n) {sel : ℕ} (h1 : 1 ≤ sel) (h2 : sel ≤ size) (rate : ℚ)
    {s s' : PvState K (PbilRest K)} (hs : PbilR n σ size s s') :
    Paired (PbilR n σ size) (pbilIterate f c ⟨sel, rate⟩ s) (pbilIterate g c ⟨sel, rate⟩ s') := by
  obtain ⟨hs, hpop⟩ := hs
  unfold pbilIterate
  rw [hs.turn]
  refine (pvGeneration_paired h hc (by omega) hs.length hs.solution hpop).bind (fun r r' hr => ?_)
  obtain ⟨m, e1, e2, e3⟩ := selectionMean_related hr.2 h1 h2 hs.rest hs.rest'
  have hF : ∀ p a : ℚ, (1 - p) + rate * ((1 - a) - (1 - p)) = 1 - (p + rate * (a - p)) := fun p a => by ring
  have e4 := pvUpdate_eq (pv := s.data.pv) (x := m) (rate := rate) (by rw [e2, hs.length])
  have e5 := pvUpdate_eq (pv := σ.turn s.data.pv) (x := σ.turn m) (rate := rate) (by rw [σ.turn_length, σ.turn_length])
  rw [σ.turn_pair hF hs.length e2] at e5
  obtain ⟨w, e6, e7, e8⟩ := bound_step (σ := σ) hn (pv := List.zipWith (fun p a => p + rate * (a - p)) s.data.pv m) (by simp [hs.length, e2])
  have a1 : pbilLearn ⟨sel, rate⟩ r.2 s.data = ok { s.data with pv := w, rest := ⟨r.2, m⟩ } := by
    unfold pbilLearn
    simp only [e1, ok_bind, e4, hs.lower, hs.upper, e6]
  have a2 : pbilLearn ⟨sel, rate⟩ r'.2 s'.data = ok { s'.data with pv := σ.turn w, rest := ⟨r'.2, σ.turn m⟩ } := by
    unfold pbilLearn
    simp only [e3, ok_bind, hs.turn, e5, hs.lower', hs.upper', e8]
  rw [a1, a2, Dist.lift_ok, Dist.lift_ok, Dist.pure_bind', Dist.pure_bind']
  exact Paired.pure ⟨⟨hr.1, e7, rfl, hs.lower, hs.upper, hs.lower', hs.upper', e2, σ.turn_length m⟩, hr.2.rough⟩

/-- C121: population-based incremental learning treats all positions, zeros and ones alike. -/
theorem pbil_unbiased [Zero K] (h : Relabeled σ f g val val') (hc : Blind c) (hn : 2 ≤ n) {sel : ℕ} (h1 : 1 ≤ sel) (h2 : sel ≤ size) (rate : ℚ) (num : ℤ) :
    pbil g c ⟨sel, rate⟩ n size num = relabeled σ (pbil f c ⟨sel, rate⟩ n size num) := by
  apply relabeled_of
  unfold pbil
  refine Paired.bind (R := fun d d' : PvData (PbilRest K) => d = d' ∧ pbilNew n (size : ℤ) = ok d) ?_ (fun d d' hd => ?_)
  · refine Paired.same (fun a ha => ⟨rfl, ?_⟩)
    exact lift_support ha
  · obtain ⟨rfl, hd⟩ := hd
    unfold pbilNew at hd
    obtain ⟨p, e1, e2⟩ := bind_eq_ok.mp hd
    cases e2
    have hp := (popNew_valid e1).2.2
    rw [Int.toNat_natCast, Int.toNat_natCast] at hp
    refine (Paired.loop (R := PbilR n σ size) ?_ (fun _ _ _ => rfl) (fun s s' hs _ => pbilIterate_paired h hc hn h1 h2 rate hs) num).bind
      (fun s s' hs => Paired.pure hs.1.solution)
    refine (randomSolution_paired h (by simp) (by simp)).bind (fun r r' hr => Paired.pure ⟨⟨hr.1, ?_, ?_, rfl, rfl, rfl, rfl, ?_, ?_⟩, RoughR.refl hp⟩)
    · simp [pvUniform, pvNew]
    · simp only [pvUniform, pvNew, List.length_replicate]
      exact σ.turn_half.symm
    · simp [pvNew]
    · simp [pvNew]

/-- Related states: also the populations have the same values and permutations. -/
def NpsR (n : ℕ) (σ : Symmetry n) (size : ℕ) (s s' : PvState K (NpsRest K)) : Prop :=
  PvR n σ (fun r => r.meanBest.length = n ∧ r.meanWorst.length = n) s s' ∧ RoughR n σ size 0 s.data.rest.population s'.data.rest.population

theorem turn_between (rate : ℚ) {pv x y : List ℚ} (hpv : pv.length = n) (hx : x.length = n) (hy : y.length = n) :
    List.zipWith (fun p d => p + rate * d) (σ.turn pv) (List.zipWith (fun a b => a - b) (σ.turn x) (σ.turn y)) =
      σ.turn (List.zipWith (fun p d => p + rate * d) pv (List.zipWith (fun a b => a - b) x y)) := by
  refine pv_ext (by simp [σ.turn_length]) (σ.turn_length _) (fun i hi => ?_)
  have hs := σ.source_lt i hi
  have e : ∀ (u v w : List ℚ) (j : ℕ), u.length = n → v.length = n → w.length = n → j < n →
      (List.zipWith (fun p d => p + rate * d) u (List.zipWith (fun a b => a - b) v w)).getD j 0 = u.getD j 0 + rate * (v.getD j 0 - w.getD j 0) := by
    intro u v w j hu hv hw hj
    rw [List.getD_eq_getElem _ _ (by simp [hu, hv, hw, hj]), List.getElem_zipWith, List.getElem_zipWith, List.getD_eq_getElem _ _ (by omega),
      List.getD_eq_getElem _ _ (by omega), List.getD_eq_getElem _ _ (by omega)]
  rw [σ.turn_get _ hi, e _ _ _ i (σ.turn_length _) (σ.turn_length _) (σ.turn_length _) hi, e _ _ _ _ hpv hx hy hs, σ.turn_get _ hi, σ.turn_get _ hi,
    σ.turn_get _ hi]
  split
  · ring
  · rfl

theorem npsIterate_paired (h : Relabeled σ f g val val') (hc : Blind c) (hn : 2 ≤ n) {sel : ℕ} (h1 : 1 ≤ sel) (h2 : sel ≤ size) (rate : ℚ)
    {s s' : PvState K (NpsRest K)} (hs : NpsR n σ size s s') :
    Paired (NpsR n σ size) (npsIterate f c ⟨sel, rate⟩ s) (npsIterate g c ⟨sel, rate⟩ s') := by
  obtain ⟨hs, hpop⟩ := hs
  unfold npsIterate
  rw [hs.turn]
  refine (pvGeneration_paired h hc (by omega) hs.length hs.solution hpop).bind (fun r r' hr => ?_)
  obtain ⟨m, e1, e2, e3⟩ := selectionMean_related hr.2 h1 h2 hs.rest.1 hs.rest'.1
  obtain ⟨l, b1, b2, b3⟩ := selectionMean_related hr.2 h1 h2 hs.rest.2 hs.rest'.2
  have e4 := pvUpdateBetween_eq (pv := s.data.pv) (x := m) (y := l) (rate := rate) (by rw [e2, hs.length]) (by rw [b2, hs.length])
  have e5 := pvUpdateBetween_eq (pv := σ.turn s.data.pv) (x := σ.turn m) (y := σ.turn l) (rate := rate) (by rw [σ.turn_length, σ.turn_length])
    (by rw [σ.turn_length, σ.turn_length])
  rw [turn_between rate hs.length e2 b2] at e5
  obtain ⟨w, e6, e7, e8⟩ := bound_step (σ := σ) hn
    (pv := List.zipWith (fun p d => p + rate * d) s.data.pv (List.zipWith (fun a b => a - b) m l)) (by simp [hs.length, e2, b2])
  have a1 : npsLearn ⟨sel, rate⟩ r.2 s.data = ok { s.data with pv := w, rest := ⟨r.2, m, l⟩ } := by
    unfold npsLearn
    simp only [e1, b1, ok_bind, e4, hs.lower, hs.upper, e6]
  have a2 : npsLearn ⟨sel, rate⟩ r'.2 s'.data = ok { s'.data with pv := σ.turn w, rest := ⟨r'.2, σ.turn m, σ.turn l⟩ } := by
    unfold npsLearn
    simp only [e3, b3, ok_bind, hs.turn, e5, hs.lower', hs.upper', e8]
  rw [a1, a2, Dist.lift_ok, Dist.lift_ok, Dist.pure_bind', Dist.pure_bind']
  exact Paired.pure ⟨⟨hr.1, e7, rfl, hs.lower, hs.upper, hs.lower', hs.upper', ⟨e2, b2⟩, ⟨σ.turn_length m, σ.turn_length l⟩⟩, hr.2.rough⟩

/-- C121: population-based incremental learning with negative and positive selection treats all positions, zeros and ones alike. -/
theorem npsPbil_unbiased [Zero K] (h : Relabeled σ f g val val') (hc : Blind c) (hn : 2 ≤ n) {sel : ℕ} (h1 : 1 ≤ sel) (h2 : sel ≤ size) (rate : ℚ)
    (num : ℤ) : npsPbil g c ⟨sel, rate⟩ n size num = relabeled σ (npsPbil f c ⟨sel, rate⟩ n size num) := by
  apply relabeled_of
  unfold npsPbil
  refine (Paired.same (R := fun d d' : PvData (NpsRest K) => d = d' ∧ npsNew n (size : ℤ) = ok d) (fun a ha => ⟨rfl, lift_support ha⟩)).bind
    (fun d d' hd => ?_)
  obtain ⟨rfl, hd⟩ := hd
  unfold npsNew at hd
  obtain ⟨p, e1, e2⟩ := bind_eq_ok.mp hd
  cases e2
  have hp := (popNew_valid e1).2.2
  rw [Int.toNat_natCast, Int.toNat_natCast] at hp
  refine (Paired.loop (R := NpsR n σ size) ?_ (fun _ _ _ => rfl) (fun s s' hs _ => npsIterate_paired h hc hn h1 h2 rate hs) num).bind
    (fun s s' hs => Paired.pure hs.1.solution)
  refine (randomSolution_paired h (by simp) (by simp)).bind (fun r r' hr => Paired.pure ⟨⟨hr.1, ?_, ?_, rfl, rfl, rfl, rfl, ?_, ?_⟩, RoughR.refl hp⟩)
  · simp [pvUniform, pvNew]
  · simp only [pvUniform, pvNew, List.length_replicate]
    exact σ.turn_half.symm
  · simp [pvNew]
  · simp [pvNew]

/-- Related states: also the populations have the same values and permutations. -/
def UmdaR (n : ℕ) (σ : Symmetry n) (size : ℕ) (s s' : PvState K (Pop K)) : Prop :=
  PvR n σ (fun _ => True) s s' ∧ RoughR n σ size 0 s.data.rest s'.data.rest

theorem umdaIterate_paired (h : Relabeled σ f g val val') (hc : Blind c) (hn : 2 ≤ n) {sel : ℕ} (h1 : 1 ≤ sel) (h2 : sel ≤ size)
    {s s' : PvState K (Pop K)} (hs : UmdaR n σ size s s') : Paired (UmdaR n σ size) (umdaIterate f c sel s) (umdaIterate g c sel s') := by
  obtain ⟨hs, hpop⟩ := hs
  unfold umdaIterate
  rw [hs.turn]
  refine (pvGeneration_paired h hc (by omega) hs.length hs.solution hpop).bind (fun r r' hr => ?_)
  obtain ⟨m, e1, e2, e3⟩ := selectionMean_related hr.2 h1 h2 hs.length (σ.turn_length s.data.pv)
  obtain ⟨w, e6, e7, e8⟩ := bound_step (σ := σ) hn e2
  have a1 : umdaLearn sel r.2 s.data = ok { s.data with pv := w, rest := r.2 } := by
    unfold umdaLearn
    simp only [e1, ok_bind, hs.lower, hs.upper, e6]
  have a2 : umdaLearn sel r'.2 s'.data = ok { s'.data with pv := σ.turn w, rest := r'.2 } := by
    unfold umdaLearn
    simp only [hs.turn, e3, ok_bind, hs.lower', hs.upper', e8]
  rw [a1, a2, Dist.lift_ok, Dist.lift_ok, Dist.pure_bind', Dist.pure_bind']
  exact Paired.pure ⟨⟨hr.1, e7, rfl, hs.lower, hs.upper, hs.lower', hs.upper', trivial, trivial⟩, hr.2.rough⟩

/-- C121: the univariate marginal distribution algorithm treats all positions, zeros and ones alike. -/
theorem umda_unbiased [Zero K] (h : Relabeled σ f g val val') (hc : Blind c) (hn : 2 ≤ n) {sel : ℕ} (h1 : 1 ≤ sel) (h2 : sel ≤ size) (num : ℤ) :
    umda g c sel n size num = relabeled σ (umda f c sel n size num) := by
  apply relabeled_of
  unfold umda
  refine (Paired.same (R := fun d d' : PvData (Pop K) => d = d' ∧ umdaNew n (size : ℤ) = ok d) (fun a ha => ⟨rfl, lift_support ha⟩)).bind
    (fun d d' hd => ?_)
  obtain ⟨rfl, hd⟩ := hd
  unfold umdaNew at hd
  obtain ⟨p, e1, e2⟩ := bind_eq_ok.mp hd
  cases e2
  have hp := (popNew_valid e1).2.2
  rw [Int.toNat_natCast, Int.toNat_natCast] at hp
  refine (Paired.loop (R := UmdaR n σ size) ?_ (fun _ _ _ => rfl) (fun s s' hs _ => umdaIterate_paired h hc hn h1 h2 hs) num).bind
    (fun s s' hs => Paired.pure hs.1.solution)
  refine (randomSolution_paired h (by simp) (by simp)).bind
    (fun r r' hr => Paired.pure ⟨⟨hr.1, ?_, ?_, rfl, rfl, rfl, rfl, trivial, trivial⟩, RoughR.refl hp⟩)
  · simp [pvUniform, pvNew]
  · simp only [pvUniform, pvNew, List.length_replicate]
    exact σ.turn_half.symm

/-! ## Evolutionary algorithms -/

/-- Related states: the solutions and the parents correspond to each other. -/
structure EaR (n : ℕ) (σ : Symmetry n) (mu lam : ℕ) (T : τ → τ → Prop) (s s' : EaState K τ) : Prop where
  solution : SolR n σ s.solution s'.solution
  parents : PopR n σ mu s.parents s'.parents
  offsprings : RoughR n σ lam 0 s.offsprings s'.offsprings
  extra : T s.extra s'.extra

theorem operator_fair (hn : 0 < n) {m : MutationLaw} (hm : m.rate ≤ 1) : Fair ((m.operator n).sampleBits n) n :=
  standardBitMutation_fair hn (by rw [operator_rate]; exact hm)

theorem popRandom_paired {p : Pop K} (hp : p.Valid size n) : Paired (PopR n σ size) (popRandom p) (popRandom p) := by
  rw [popRandom_sample]
  exact popSample_paired (fun x x' hx hx' => randomBits_paired σ hx hx') (RoughR.refl hp)

theorem makeOffspring_paired {d : Dist (List ℕ)} (hd : Fair d n) {p p' : Pop K} (hp : PopR n σ mu p p') {o o' : Pop K} {j : ℕ} (hj : j < lam)
    (ho : RoughR n σ lam j o o') : Paired (RoughR n σ lam (j + 1)) (makeOffspring d p j o) (makeOffspring d p' j o') := by
  unfold makeOffspring
  rw [show p.size = mu from hp.valid.bvs, show p'.size = mu from hp.valid'.bvs]
  refine (Paired.same (R := fun a b => a = b) (fun a _ => rfl)).bind (fun k k' hk => ?_)
  subst hk
  by_cases hk : k < mu
  · have hk1 : k < p.bvs.length := by rw [hp.valid.bvs]; exact hk
    have hk2 : k < p'.bvs.length := by rw [hp.valid'.bvs]; exact hk
    rw [vget_eq hk1, vget_eq hk2, Dist.lift_ok, Dist.lift_ok, Dist.pure_bind', Dist.pure_bind',
      show p'.bvs[k] = σ.act p.bvs[k] by simp [hp.bvs]]
    refine (mutate_paired hd (hp.valid.bits _ (List.getElem_mem hk1))).bind (fun y y' hy => ?_)
    obtain ⟨hy, rfl⟩ := hy
    rw [vset_eq (by rw [ho.valid.bvs]; exact hj), vset_eq (by rw [ho.valid'.bvs]; exact hj), Dist.lift_ok, Dist.lift_ok, Dist.pure_bind', Dist.pure_bind']
    exact Paired.pure (ho.step hj hy)
  · have e1 : vget p.bvs k = ub := by
      unfold vget
      rw [List.getElem?_eq_none (by rw [hp.valid.bvs]; omega)]
    have e2 : vget p'.bvs k = ub := by
      unfold vget
      rw [List.getElem?_eq_none (by rw [hp.valid'.bvs]; omega)]
    rw [e1, e2]
    change Paired _ (Dist.never >>= _) (Dist.never >>= _)
    rw [never_bind, never_bind]
    exact Paired.never

theorem offsprings_paired {d : Dist (List ℕ)} (hd : Fair d n) {p p' : Pop K} (hp : PopR n σ mu p p') {o o' : Pop K} (ho : RoughR n σ lam 0 o o') :
    Paired (PopR n σ lam) (Dist.forRange 0 o.size (makeOffspring d p) o) (Dist.forRange 0 o'.size (makeOffspring d p') o') := by
  rw [show o.size = lam from ho.valid.bvs, show o'.size = lam from ho.valid'.bvs]
  exact (Paired.forRange (fun j o o' => RoughR n σ lam j o o') ho (fun j o o' hj h => makeOffspring_paired hd hp hj h)).mono (fun _ _ h => h.done)

theorem parentsInit_paired (h : Relabeled σ f g val val') (hc : Blind c) (hmu : 0 < mu) {d : EaData K τ} (hp : d.parents.Valid mu n)
    (ho : d.offsprings.Valid lam n) {T : τ → τ → Prop} {t t' : τ} (ht : T t t') :
    Paired (EaR n σ mu lam T) (parentsInit f c d t) (parentsInit g c d t') := by
  unfold parentsInit
  refine (popRandom_paired (σ := σ) hp).bind (fun q q' hq => ?_)
  refine (Paired.lift (popEvaluate_related h hq)).bind (fun q q' hq => ?_)
  refine (sort_paired hc hq).bind (fun q q' hq => ?_)
  exact (Paired.lift (popSetSolution_related hq hmu)).bind (fun s s' hs => Paired.pure ⟨hs, hq, RoughR.refl ho, ht⟩)

theorem muPlusIterate_paired (h : Relabeled σ f g val val') (hc : Blind c) (hmu : 0 < mu) {d : Dist (List ℕ)} (hd : Fair d n) {s s' : EaState K (Pop K)}
    (hs : EaR n σ mu lam (RoughR n σ (mu + lam) 0) s s') :
    Paired (EaR n σ mu lam (RoughR n σ (mu + lam) 0)) (muPlusIterate f c d s) (muPlusIterate g c d s') := by
  unfold muPlusIterate
  refine (offsprings_paired hd hs.parents hs.offsprings).bind (fun o o' ho => ?_)
  refine (Paired.lift (popEvaluate_related h ho)).bind (fun o o' ho => ?_)
  refine (plus_paired hc hs.parents ho hs.extra).bind (fun r r' hr => ?_)
  exact (Paired.lift (popUpdateSolution_related hr.1 hmu hs.solution)).bind (fun t t' ht => Paired.pure ⟨ht, hr.1, hr.2.1, hr.2.2⟩)

/-- C121: the (mu+lambda) evolutionary algorithm treats all positions, zeros and ones alike. -/
theorem muPlusLambdaEa_unbiased [Zero K] (h : Relabeled σ f g val val') (hc : Blind c) {m : MutationLaw} (hm : m.rate ≤ 1) (mu lam : ℕ) (num : ℤ) :
    muPlusLambdaEa g c m n mu lam num = relabeled σ (muPlusLambdaEa f c m n mu lam num) := by
  apply relabeled_of
  unfold muPlusLambdaEa
  refine (Paired.same (R := fun d d' : EaData K (Pop K) => d = d' ∧ muPlusNew n (mu : ℤ) lam ⟨false, false⟩ = ok d)
    (fun a ha => ⟨rfl, lift_support ha⟩)).bind (fun d d' hd => ?_)
  obtain ⟨rfl, hd⟩ := hd
  obtain ⟨hv, hx⟩ := muPlusNew_valid hd
  simp only [Int.toNat_natCast] at hv hx
  have hn : 0 < n := by rw [← hv.bits]; exact hv.mutation.1
  exact (Paired.loop (parentsInit_paired h hc hv.mu_pos hv.parents hv.offsprings (RoughR.refl hx)) (fun _ _ _ => rfl)
    (fun s s' hs _ => muPlusIterate_paired h hc hv.mu_pos (operator_fair hn hm) hs) num).bind (fun s s' hs => Paired.pure hs.solution)

theorem muCommaIterate_paired (h : Relabeled σ f g val val') (hc : Blind c) (hmu : 0 < mu) (hle : mu ≤ lam) {d : Dist (List ℕ)} (hd : Fair d n)
    {s s' : EaState K Unit} (hs : EaR n σ mu lam (fun _ _ => True) s s') :
    Paired (EaR n σ mu lam (fun _ _ => True)) (muCommaIterate f c d s) (muCommaIterate g c d s') := by
  unfold muCommaIterate
  refine (offsprings_paired hd hs.parents hs.offsprings).bind (fun o o' ho => ?_)
  refine (Paired.lift (popEvaluate_related h ho)).bind (fun o o' ho => ?_)
  refine (comma_paired hc hle hs.parents.rough ho).bind (fun r r' hr => ?_)
  exact (Paired.lift (popUpdateSolution_related hr.1 hmu hs.solution)).bind (fun t t' ht => Paired.pure ⟨ht, hr.1, hr.2, trivial⟩)

/-- C121: the (mu,lambda) evolutionary algorithm treats all positions, zeros and ones alike. -/
theorem muCommaLambdaEa_unbiased [Zero K] (h : Relabeled σ f g val val') (hc : Blind c) {m : MutationLaw} (hm : m.rate ≤ 1) (mu lam : ℕ) (num : ℤ) :
    muCommaLambdaEa g c m n mu lam num = relabeled σ (muCommaLambdaEa f c m n mu lam num) := by
  apply relabeled_of
  unfold muCommaLambdaEa
  refine (Paired.same (R := fun d d' : EaData K Unit => d = d' ∧ muCommaNew n (mu : ℤ) lam ⟨false, false⟩ = ok d)
    (fun a ha => ⟨rfl, lift_support ha⟩)).bind (fun d d' hd => ?_)
  obtain ⟨rfl, hd⟩ := hd
  obtain ⟨hv, hle⟩ := muCommaNew_valid hd
  simp only [Int.toNat_natCast] at hv
  have hn : 0 < n := by rw [← hv.bits]; exact hv.mutation.1
  refine (Paired.loop (R := EaR n σ mu lam (fun _ _ => True)) ?_ (fun _ _ _ => rfl)
    (fun s s' hs _ => muCommaIterate_paired h hc hv.mu_pos (by omega) (operator_fair hn hm) hs) num).bind (fun s s' hs => Paired.pure hs.solution)
  refine (popRandom_paired (σ := σ) hv.parents).bind (fun q q' hq => ?_)
  exact (randomSolution_paired h (by simp) (by simp)).bind (fun r r' hr => Paired.pure ⟨hr.1, hq, RoughR.refl hv.offsprings, trivial⟩)

theorem gaReproduce_paired (hc : Blind c) (x : ℝ≥0∞) {p p' : Pop K} (hp : PopR n σ mu p p') (t : Tournament) {y y' : BV} (hy : y.length = n)
    (hy' : y'.length = n) :
    Paired (fun r r' : Tournament × BV => r'.1 = r.1 ∧ r.2.length = n ∧ r'.2 = σ.act r.2) (gaReproduce c x p t y) (gaReproduce c x p' t y') := by
  unfold gaReproduce
  refine (Paired.same (R := fun a b => a = b) (fun a _ => rfl)).bind (fun b b' hb => ?_)
  subst hb
  refine Paired.ite Iff.rfl (fun _ => ?_) (fun _ => ?_)
  · refine (select_paired hc hp t).bind (fun r r' hr => ?_)
    obtain ⟨h1, h2, h3⟩ := hr
    rw [h3]
    refine (select_paired hc hp r.2.2).bind (fun u u' hu => ?_)
    obtain ⟨h4, h5, h6⟩ := hu
    rw [h2, h5, h6]
    exact (uniformCrossover_paired h1 h4 hy hy').bind (fun z z' hz => Paired.pure ⟨rfl, hz⟩)
  · refine (select_paired hc hp t).bind (fun r r' hr => ?_)
    obtain ⟨h1, h2, h3⟩ := hr
    exact Paired.pure ⟨h3, h1, h2⟩

theorem gaOffspring_paired (hc : Blind c) {q : GaLaw} (hd : Fair ((q.operator n).sampleBits n) n) {p p' : Pop K} (hp : PopR n σ mu p p')
    {s s' : Tournament × Pop K} {j : ℕ} (hj : j < lam) (hs : s'.1 = s.1 ∧ RoughR n σ lam j s.2 s'.2) :
    Paired (fun s s' : Tournament × Pop K => s'.1 = s.1 ∧ RoughR n σ lam (j + 1) s.2 s'.2) (gaOffspring c q n p j s) (gaOffspring c q n p' j s') := by
  obtain ⟨h1, h2⟩ := hs
  unfold gaOffspring
  have hj1 : j < s.2.bvs.length := by rw [h2.valid.bvs]; exact hj
  have hj2 : j < s'.2.bvs.length := by rw [h2.valid'.bvs]; exact hj
  rw [vget_eq hj1, vget_eq hj2, Dist.lift_ok, Dist.lift_ok, Dist.pure_bind', Dist.pure_bind', h1]
  refine (gaReproduce_paired hc _ hp _ (h2.valid.bits _ (List.getElem_mem hj1)) (h2.valid'.bits _ (List.getElem_mem hj2))).bind (fun r r' hr => ?_)
  obtain ⟨r1, r2, r3⟩ := hr
  rw [r1, r3]
  refine (mutate_paired hd r2).bind (fun y y' hy => ?_)
  obtain ⟨hy, rfl⟩ := hy
  rw [vset_eq hj1, vset_eq hj2, Dist.lift_ok, Dist.lift_ok, Dist.pure_bind', Dist.pure_bind']
  exact Paired.pure ⟨rfl, h2.step hj hy⟩

theorem gaIterate_paired (h : Relabeled σ f g val val') (hc : Blind c) (hmu : 0 < mu) {q : GaLaw} (hd : Fair ((q.operator n).sampleBits n) n)
    {s s' : EaState K Tournament} (hs : EaR n σ mu mu (fun t t' => t' = t) s s') :
    Paired (EaR n σ mu mu (fun t t' => t' = t)) (gaIterate f c q n s) (gaIterate g c q n s') := by
  unfold gaIterate
  rw [show s.offsprings.size = mu from hs.offsprings.valid.bvs, show s'.offsprings.size = mu from hs.offsprings.valid'.bvs]
  refine (Paired.forRange (fun j (s s' : Tournament × Pop K) => s'.1 = s.1 ∧ RoughR n σ mu j s.2 s'.2) ⟨hs.extra, hs.offsprings⟩
    (fun j s s' hj h => gaOffspring_paired hc hd hs.parents hj h)).bind (fun o o' ho => ?_)
  refine (Paired.lift (popEvaluate_related h ho.2.done)).bind (fun p p' hp => ?_)
  refine (comma_paired hc (le_refl mu) hs.parents.rough hp).bind (fun r r' hr => ?_)
  exact (Paired.lift (popUpdateSolution_related hr.1 hmu hs.solution)).bind (fun t t' ht => Paired.pure ⟨ht, hr.1, hr.2, ho.1⟩)

/-- C121: the genetic algorithm, with uniform crossover and tournaments, treats all positions, zeros and ones alike. -/
theorem geneticAlgorithm_unbiased [Zero K] (h : Relabeled σ f g val val') (hc : Blind c) {q : GaLaw} (hq : q.rate ≤ 1) (mu : ℕ) (num : ℤ) :
    geneticAlgorithm g c q n mu num = relabeled σ (geneticAlgorithm f c q n mu num) := by
  apply relabeled_of
  unfold geneticAlgorithm
  refine (Paired.same (R := fun d d' : EaData K Tournament => d = d' ∧ gaNew n (mu : ℤ) ⟨false, false⟩ = ok d)
    (fun a ha => ⟨rfl, lift_support ha⟩)).bind (fun d d' hd => ?_)
  obtain ⟨rfl, hd⟩ := hd
  obtain ⟨hv, _⟩ := gaNew_valid hd
  simp only [Int.toNat_natCast] at hv
  have hn : 0 < n := by rw [← hv.bits]; exact hv.mutation.1
  refine (Paired.loop (R := EaR n σ mu mu (fun t t' => t' = t)) ?_ (fun _ _ _ => rfl)
    (fun s s' hs _ => gaIterate_paired h hc hv.mu_pos (operator_fair hn hq) hs) num).bind (fun s s' hs => Paired.pure hs.solution)
  unfold gaInit
  refine (Paired.same (R := fun a b => a = b) (fun a _ => rfl)).bind (fun t t' ht => ?_)
  subst ht
  refine (Paired.same (R := fun a b => a = b) (fun a _ => rfl)).bind (fun t t' ht => ?_)
  exact parentsInit_paired h hc hv.mu_pos hv.parents hv.offsprings ht.symm

/-! ## Examples -/

/-- The number of bits equal to those of the vector 011. -/
def turned : Fn ℤ := valuesFn 3 (fun y => (ones (rotation.unact y) : ℤ))

/-- Possible laws of sorting and of tournaments which only look at values. -/
example : Blind (blindChoices ℤ) ∧ (blindChoices ℤ).Valid := ⟨blindChoices_blind ℤ, blindChoices_valid ℤ⟩

example : pbil turned (blindChoices ℤ) ⟨(2 : ℕ), 1 / 2⟩ 3 (10 : ℕ) 20 = relabeled rotation (pbil (oneMax 3) (blindChoices ℤ) ⟨(2 : ℕ), 1 / 2⟩ 3 (10 : ℕ) 20) :=
  pbil_unbiased rotation_oneMax (blindChoices_blind ℤ) (by decide) (by decide) (by decide) _ 20

example : npsPbil turned (blindChoices ℤ) ⟨(2 : ℕ), 1 / 2⟩ 3 (10 : ℕ) 20 =
    relabeled rotation (npsPbil (oneMax 3) (blindChoices ℤ) ⟨(2 : ℕ), 1 / 2⟩ 3 (10 : ℕ) 20) :=
  npsPbil_unbiased rotation_oneMax (blindChoices_blind ℤ) (by decide) (by decide) (by decide) _ 20

example : umda turned (blindChoices ℤ) (2 : ℕ) 3 (10 : ℕ) 20 = relabeled rotation (umda (oneMax 3) (blindChoices ℤ) (2 : ℕ) 3 (10 : ℕ) 20) :=
  umda_unbiased rotation_oneMax (blindChoices_blind ℤ) (by decide) (by decide) (by decide) 20

example : muPlusLambdaEa turned (blindChoices ℤ) ⟨2⁻¹, false⟩ 3 (3 : ℕ) (4 : ℕ) 20 =
    relabeled rotation (muPlusLambdaEa (oneMax 3) (blindChoices ℤ) ⟨2⁻¹, false⟩ 3 (3 : ℕ) (4 : ℕ) 20) :=
  muPlusLambdaEa_unbiased rotation_oneMax (blindChoices_blind ℤ) (by simp) 3 4 20

example : muCommaLambdaEa turned (blindChoices ℤ) ⟨2⁻¹, false⟩ 3 (3 : ℕ) (4 : ℕ) 20 =
    relabeled rotation (muCommaLambdaEa (oneMax 3) (blindChoices ℤ) ⟨2⁻¹, false⟩ 3 (3 : ℕ) (4 : ℕ) 20) :=
  muCommaLambdaEa_unbiased rotation_oneMax (blindChoices_blind ℤ) (by simp) 3 4 20

example : geneticAlgorithm turned (blindChoices ℤ) ⟨⟨2⁻¹, false⟩, 2⁻¹, 2⟩ 3 (4 : ℕ) 20 =
    relabeled rotation (geneticAlgorithm (oneMax 3) (blindChoices ℤ) ⟨⟨2⁻¹, false⟩, 2⁻¹, 2⟩ 3 (4 : ℕ) 20) :=
  geneticAlgorithm_unbiased rotation_oneMax (blindChoices_blind ℤ) (by simp) 4 20

end Hnco.Prob
