import Verif.Prob.OrderLemmas

/-!
# Lemmas about populations of which only the values differ
-/

namespace Hnco.Prob

open Outcome
open scoped ENNReal

variable {K L : Type}

theorem lift_then {α β : Type} (o : Outcome α) (k : α → Outcome β) : Dist.lift (o >>= k) = (Dist.lift o >>= fun a => Dist.lift (k a)) := by
  cases o with
  | ok a =>
    rw [Dist.lift_ok, Dist.pure_bind']
    rfl
  | _ => exact (never_bind _).symm

/-- Populations with the same vectors. -/
structure SameVectors (p : Pop K) (p' : Pop L) : Prop where
  bvs : p'.bvs = p.bvs
  perm : p'.perm = p.perm
  values : p'.values.length = p.values.length

theorem sameVectors_by (g : K → L) (p : Pop K) : SameVectors p (popBy g p) := ⟨rfl, rfl, List.length_map _⟩

/-- Populations the first `i` values of which are related. -/
structure EvaluatedTo (g : K → L) (i : ℕ) (p : Pop K) (p' : Pop L) : Prop extends SameVectors p p' where
  done : ∀ j, j < i → p'.values[j]? = p.values[j]?.map g

theorem EvaluatedTo.eq {g : K → L} {p : Pop K} {p' : Pop L} {i : ℕ} (h : EvaluatedTo g i p p') (hi : p.values.length ≤ i) : p' = popBy g p := by
  have hv : p'.values = p.values.map g := by
    refine List.ext_getElem? (fun j => ?_)
    rw [List.getElem?_map]
    by_cases hj : j < i
    · exact h.done j hj
    · rw [List.getElem?_eq_none (by rw [h.values]; omega), List.getElem?_eq_none (by omega)]
      rfl
  cases p'
  cases p
  simp only [popBy, Pop.mk.injEq]
  exact ⟨h.bvs, hv, h.perm⟩

set_option linter.unusedSectionVars false

variable [LinearOrder K] [LinearOrder L] {g : K → L} {f : Fn K} {f' : Fn L}

theorem evaluateLoop_order (h : Transformed g f f') : ∀ (m i : ℕ) (p : Pop K) (p' : Pop L), EvaluatedTo g i p p' → p.values.length ≤ i + m →
    forLoop m i (fun i (p : Pop L) => do
      let x ← vget p.bvs i
      let v ← f'.eval x
      let values ← vset p.values i v
      ok { p with values := values }) p' =
    (forLoop m i (fun i (p : Pop K) => do
      let x ← vget p.bvs i
      let v ← f.eval x
      let values ← vset p.values i v
      ok { p with values := values }) p >>= fun q => ok (popBy g q))
  | 0, i, p, p', hp, hl => by
    change ok p' = ok (popBy g p)
    rw [hp.eq (by omega)]
  | m + 1, i, p, p', hp, hl => by
    unfold forLoop
    dsimp only
    rw [hp.bvs]
    cases hx : vget p.bvs i with
    | ok x =>
      change ((f'.eval x >>= _) >>= _) = (((f.eval x >>= _) >>= _) >>= _)
      rw [h.eval]
      cases f.eval x with
      | ok v =>
        change ((vset p'.values i (g v) >>= _) >>= _) = (((vset p.values i v >>= _) >>= _) >>= _)
        unfold vset
        rw [hp.values]
        by_cases hi : i < p.values.length
        · rw [if_pos hi, if_pos hi]
          refine evaluateLoop_order h m (i + 1) _ _ ⟨⟨rfl, hp.perm, by simpa using hp.values⟩, fun j hj => ?_⟩ (by simp only [List.length_set]; omega)
          dsimp only
          rw [List.getElem?_set, List.getElem?_set, hp.values]
          by_cases hj' : i = j
          · subst hj'
            simp [hi]
          · rw [if_neg hj', if_neg hj']
            exact hp.done j (by omega)
        · rw [if_neg hi, if_neg hi]
          rfl
      | _ => rfl
    | _ => rfl

theorem popEvaluate_order (h : Transformed g f f') {p : Pop K} {p' : Pop L} (hp : SameVectors p p') :
    Paired (fun q q' => q' = popBy g q) (Dist.lift (popEvaluate f p)) (Dist.lift (popEvaluate f' p')) := by
  have he : popEvaluate f' p' = (popEvaluate f p >>= fun q => ok (popBy g q)) := by
    unfold popEvaluate
    rw [hp.bvs, hp.values]
    by_cases hl : p.bvs.length = p.values.length
    · have ha : (p.bvs.length == p.values.length) = true := by simpa using hl
      rw [ha]
      exact evaluateLoop_order h _ 0 p p' ⟨hp, fun j hj => absurd hj (Nat.not_lt_zero j)⟩ (by omega)
    · have ha : (p.bvs.length == p.values.length) = false := by simpa using hl
      rw [ha]
      rfl
  rw [he]
  exact Paired.lift_map _ _

theorem popSample_order (sampler : BV → Dist BV) {p : Pop K} {p' : Pop L} (hp : SameVectors p p') :
    Paired SameVectors (popSample sampler p) (popSample sampler p') := by
  unfold popSample
  rw [show p'.size = p.size from congrArg List.length hp.bvs]
  refine Paired.forRange (fun _ => SameVectors) hp (fun j q q' _ hq => ?_)
  rw [hq.bvs]
  refine (Paired.refl _).bind (fun x x' hx => ?_)
  subst hx
  refine (Paired.refl _).bind (fun y y' hy => ?_)
  subst hy
  refine (Paired.refl _).bind (fun b b' hb => ?_)
  subst hb
  exact Paired.pure ⟨rfl, hq.perm, hq.values⟩

omit [LinearOrder K] [LinearOrder L] in
theorem bestBv_by (p : Pop K) (i : ℕ) : (popBy g p).bestBv i = p.bestBv i := rfl

omit [LinearOrder K] [LinearOrder L] in
theorem vget_transformed {α β : Type} (l : List α) (φ : α → β) (i : ℕ) : vget (l.map φ) i = (vget l i >>= fun a => ok (φ a)) := by
  unfold vget
  rw [List.getElem?_map]
  cases l[i]? <;> rfl

omit [LinearOrder K] [LinearOrder L] in
theorem bestValue_by (p : Pop K) (i : ℕ) : (popBy g p).bestValue i = (p.bestValue i >>= fun v => ok (g v)) := by
  unfold Pop.bestValue
  change (assert (decide (i < p.perm.length)) >>= fun _ => vget p.perm i >>= fun j => vget (p.values.map g) j) =
    ((assert (decide (i < p.perm.length)) >>= fun _ => vget p.perm i >>= fun j => vget p.values j) >>= _)
  cases assert (decide (i < p.perm.length)) with
  | ok _ =>
    cases hk : vget p.perm i with
    | ok j =>
      change vget (p.values.map g) j = (vget p.values j >>= _)
      exact vget_transformed _ _ _
    | _ => rfl
  | _ => rfl

theorem popUpdate_order (h : Transformed g f f') (s : BV × K) (p : Pop K) :
    Paired (fun r r' => r' = Sol g r) (Dist.lift (popUpdateSolution s p)) (Dist.lift (popUpdateSolution (Sol g s) (popBy g p))) := by
  have he : popUpdateSolution (Sol g s) (popBy g p) = (popUpdateSolution s p >>= fun r => ok (Sol g r)) := by
    unfold popUpdateSolution
    rw [bestBv_by, bestValue_by]
    cases p.bestBv 0 with
    | ok x =>
      cases p.bestValue 0 with
      | ok v => exact congrArg ok (update_order h s x v)
      | _ => rfl
    | _ => rfl
  rw [he]
  exact Paired.lift_map _ _

theorem sort_order {c : Choices K} {c' : Choices L} (hc : SortsAlike g c c') (p : Pop K) :
    Paired (fun q q' => q' = popBy g q) (c.sort p) (c'.sort (popBy g p)) := by
  rw [hc]
  exact Paired.of_image (fun _ _ => rfl)

theorem pvGeneration_order (h : Transformed g f f') {c : Choices K} {c' : Choices L} (hc : SortsAlike g c c') (pv : List ℚ) (s : BV × K)
    {p : Pop K} {p' : Pop L} (hp : SameVectors p p') :
    Paired (fun r r' => r' = (Sol g r.1, popBy g r.2)) (pvGeneration f c pv s p) (pvGeneration f' c' pv (Sol g s) p') := by
  unfold pvGeneration
  refine (popSample_order _ hp).bind (fun p p' hp => ?_)
  refine (popEvaluate_order h hp).bind (fun p p' hp => ?_)
  subst hp
  refine (sort_order hc p).bind (fun p p' hp => ?_)
  subst hp
  refine (popUpdate_order h s p).bind (fun s s' hs => ?_)
  subst hs
  exact Paired.pure rfl

theorem selectionMean_by (sel : ℤ) (p : Pop K) (mean : List ℚ) : selectionMean sel (popBy g p) mean = selectionMean sel p mean := rfl

theorem popNew_same [Zero K] [Zero L] (size n : ℤ) : Paired SameVectors (Dist.lift (Pop.new (K := K) size n)) (Dist.lift (Pop.new (K := L) size n)) := by
  unfold Pop.new
  split
  · exact Paired.never
  · split
    · exact Paired.never
    · rw [Dist.lift_ok, Dist.lift_ok]
      exact Paired.pure ⟨rfl, rfl, by simp⟩

/-- Related states of the algorithms with a probability vector and a population. -/
structure PvSame {ρ ρ' : Type} (R : ρ → ρ' → Prop) (g : K → L) (s : PvState K ρ) (s' : PvState L ρ') : Prop where
  solution : s'.solution = Sol g s.solution
  pv : s'.data.pv = s.data.pv
  lower : s'.data.lower = s.data.lower
  upper : s'.data.upper = s.data.upper
  rest : R s.data.rest s'.data.rest

theorem pvStart_same {ρ ρ' : Type} {R : ρ → ρ' → Prop} (h : Transformed g f f') (n : ℕ) {a : ρ} {b : ρ'} (hab : R a b) :
    Paired (PvSame R g) (pvStart f n (pvNew n a)) (pvStart f' n (pvNew n b)) := by
  unfold pvStart
  refine (randomSolution_order h _).bind (fun r r' hr => ?_)
  subst hr
  exact Paired.pure ⟨rfl, rfl, rfl, rfl, hab⟩

/-- Related data of `Pbil`. -/
def PbilSame (r : PbilRest K) (r' : PbilRest L) : Prop := SameVectors r.population r'.population ∧ r'.mean = r.mean

/-- Related data of `NpsPbil`. -/
def NpsSame (r : NpsRest K) (r' : NpsRest L) : Prop :=
  SameVectors r.population r'.population ∧ r'.meanBest = r.meanBest ∧ r'.meanWorst = r.meanWorst

theorem pbilIterate_order (h : Transformed g f f') {c : Choices K} {c' : Choices L} (hc : SortsAlike g c c') (q : PbilParams)
    {s : PvState K (PbilRest K)} {s' : PvState L (PbilRest L)} (hs : PvSame PbilSame g s s') :
    Paired (PvSame PbilSame g) (pbilIterate f c q s) (pbilIterate f' c' q s') := by
  unfold pbilIterate
  rw [hs.solution, hs.pv]
  refine (pvGeneration_order h hc _ _ hs.rest.1).bind (fun r r' hr => ?_)
  subst hr
  have he : pbilLearn q (popBy g r.2) s'.data = (pbilLearn q r.2 s.data >>= fun e =>
      ok ⟨e.pv, e.lower, e.upper, ⟨popBy g e.rest.population, e.rest.mean⟩⟩) := by
    unfold pbilLearn
    rw [selectionMean_by, hs.rest.2, hs.pv, hs.lower, hs.upper]
    cases selectionMean q.selectionSize r.2 s.data.rest.mean with
    | ok mean =>
      change (pvUpdate s.data.pv mean q.rate >>= _) = ((pvUpdate s.data.pv mean q.rate >>= _) >>= _)
      cases pvUpdate s.data.pv mean q.rate with
      | ok pv =>
        change (pvBound pv s.data.lower s.data.upper >>= _) = ((pvBound pv s.data.lower s.data.upper >>= _) >>= _)
        cases pvBound pv s.data.lower s.data.upper <;> rfl
      | _ => rfl
    | _ => rfl
  dsimp only
  rw [he]
  refine (Paired.lift_map _ _).bind (fun e e' he => ?_)
  subst he
  exact Paired.pure ⟨rfl, rfl, rfl, rfl, sameVectors_by g _, rfl⟩

theorem npsIterate_order (h : Transformed g f f') {c : Choices K} {c' : Choices L} (hc : SortsAlike g c c') (q : PbilParams)
    {s : PvState K (NpsRest K)} {s' : PvState L (NpsRest L)} (hs : PvSame NpsSame g s s') :
    Paired (PvSame NpsSame g) (npsIterate f c q s) (npsIterate f' c' q s') := by
  unfold npsIterate
  rw [hs.solution, hs.pv]
  refine (pvGeneration_order h hc _ _ hs.rest.1).bind (fun r r' hr => ?_)
  subst hr
  have he : npsLearn q (popBy g r.2) s'.data = (npsLearn q r.2 s.data >>= fun e =>
      ok ⟨e.pv, e.lower, e.upper, ⟨popBy g e.rest.population, e.rest.meanBest, e.rest.meanWorst⟩⟩) := by
    unfold npsLearn
    rw [selectionMean_by, selectionMean_by, hs.rest.2.1, hs.rest.2.2, hs.pv, hs.lower, hs.upper]
    cases selectionMean q.selectionSize r.2 s.data.rest.meanBest with
    | ok best =>
      change (selectionMean q.selectionSize r.2 s.data.rest.meanWorst >>= _) = ((selectionMean q.selectionSize r.2 s.data.rest.meanWorst >>= _) >>= _)
      cases selectionMean q.selectionSize r.2 s.data.rest.meanWorst with
      | ok worst =>
        change (pvUpdateBetween s.data.pv best worst q.rate >>= _) = ((pvUpdateBetween s.data.pv best worst q.rate >>= _) >>= _)
        cases pvUpdateBetween s.data.pv best worst q.rate with
        | ok pv =>
          change (pvBound pv s.data.lower s.data.upper >>= _) = ((pvBound pv s.data.lower s.data.upper >>= _) >>= _)
          cases pvBound pv s.data.lower s.data.upper <;> rfl
        | _ => rfl
      | _ => rfl
    | _ => rfl
  dsimp only
  rw [he]
  refine (Paired.lift_map _ _).bind (fun e e' he => ?_)
  subst he
  exact Paired.pure ⟨rfl, rfl, rfl, rfl, sameVectors_by g _, rfl, rfl⟩

theorem umdaIterate_order (h : Transformed g f f') {c : Choices K} {c' : Choices L} (hc : SortsAlike g c c') (sel : ℤ)
    {s : PvState K (Pop K)} {s' : PvState L (Pop L)} (hs : PvSame SameVectors g s s') :
    Paired (PvSame SameVectors g) (umdaIterate f c sel s) (umdaIterate f' c' sel s') := by
  unfold umdaIterate
  rw [hs.solution, hs.pv]
  refine (pvGeneration_order h hc _ _ hs.rest).bind (fun r r' hr => ?_)
  subst hr
  have he : umdaLearn sel (popBy g r.2) s'.data = (umdaLearn sel r.2 s.data >>= fun e =>
      ok ⟨e.pv, e.lower, e.upper, popBy g e.rest⟩) := by
    unfold umdaLearn
    rw [selectionMean_by, hs.pv, hs.lower, hs.upper]
    cases selectionMean sel r.2 s.data.pv with
    | ok pv =>
      change (pvBound pv s.data.lower s.data.upper >>= _) = ((pvBound pv s.data.lower s.data.upper >>= _) >>= _)
      cases pvBound pv s.data.lower s.data.upper <;> rfl
    | _ => rfl
  dsimp only
  rw [he]
  refine (Paired.lift_map _ _).bind (fun e e' he => ?_)
  subst he
  exact Paired.pure ⟨rfl, rfl, rfl, rfl, sameVectors_by g _⟩

theorem run_order {S S' : Type} {R : S → S' → Prop} {sol : S → BV × K} {sol' : S' → BV × L} (hsol : ∀ s s', R s s' → sol' s' = Sol g (sol s))
    {init : Dist S} {init' : Dist S'} (hi : Paired R init init') {it : S → Dist S} {it' : S' → Dist S'}
    (ht : ∀ s s', R s s' → Paired R (it s) (it' s')) (num : ℤ) :
    Paired (fun r r' => r' = Sol g r) (run sol init it num) (run sol' init' it' num) := by
  refine Paired.bind (Paired.loop hi (fun _ _ _ => rfl) (fun s s' hs _ => ht s s' hs) num) (fun s s' hs => ?_)
  exact Paired.pure (hsol s s' hs)

/-! ## Two-rate (1+lambda) evolutionary algorithm -/

/-- Related states. -/
structure TwoRateSame (g : K → L) (s : TwoRateLawState K) (s' : TwoRateLawState L) : Prop where
  solution : s'.solution = Sol g s.solution
  population : SameVectors s.population s'.population
  operator : s'.operator = s.operator
  rate : s'.rate = s.rate

theorem mapOffspring_order (d : Dist (List ℕ)) (x : BV) (i : ℕ) {p : Pop K} {p' : Pop L} (hp : SameVectors p p') :
    Paired SameVectors (mapOffspring d x i p) (mapOffspring d x i p') := by
  unfold mapOffspring
  rw [hp.bvs]
  refine (Paired.refl _).bind (fun y y' hy => ?_)
  subst hy
  refine (Paired.refl _).bind (fun b b' hb => ?_)
  subst hb
  exact Paired.pure ⟨rfl, hp.perm, hp.values⟩

theorem mapOffsprings_order (d : Dist (List ℕ)) (x : BV) (a b : ℕ) {p : Pop K} {p' : Pop L} (hp : SameVectors p p') :
    Paired SameVectors (Dist.forRange a b (mapOffspring d x) p) (Dist.forRange a b (mapOffspring d x) p') :=
  Paired.forLoop (R := fun _ => SameVectors) (b - a) a p p' hp (fun j _ _ _ _ hq => mapOffspring_order d x j hq)

theorem twoRateIterate_order (h : Transformed g f f') {c : Choices K} {c' : Choices L} (hc : SortsAlike g c c') (n : ℕ)
    {s : TwoRateLawState K} {s' : TwoRateLawState L} (hs : TwoRateSame g s s') :
    Paired (TwoRateSame g) (twoRateIterate f c n s) (twoRateIterate f' c' n s') := by
  have hz : s'.population.size = s.population.size := congrArg List.length hs.population.bvs
  unfold twoRateIterate
  dsimp only
  rw [hs.solution, hs.operator, hs.rate, hz]
  refine (mapOffsprings_order _ _ _ _ hs.population).bind (fun p p' hp => ?_)
  refine (mapOffsprings_order _ _ _ _ hp).bind (fun p p' hp => ?_)
  unfold twoRateRest
  rw [hs.solution, hs.rate, hz]
  refine (popEvaluate_order h hp).bind (fun p p' hp => ?_)
  subst hp
  refine (sort_order hc p).bind (fun p p' hp => ?_)
  subst hp
  refine (popUpdate_order h _ p).bind (fun r r' hr => ?_)
  subst hr
  have hu : twoRateUpdate n (s.population.size / 2) (s.rate / 2) (s.rate * 2) (popBy g p)
      = twoRateUpdate n (s.population.size / 2) (s.rate / 2) (s.rate * 2) p := rfl
  rw [hu]
  refine (Paired.refl _).bind (fun r r' hr => ?_)
  subst hr
  exact Paired.pure ⟨rfl, sameVectors_by g p, rfl, rfl⟩

end Hnco.Prob
