import Verif.Prob.OrderPopLemmas
import Verif.Prob.SymmetryProps

/-!
# Algorithms which only compare values
-/

namespace Hnco.Prob

open Outcome
open scoped ENNReal

variable {K L : Type} [LinearOrder K] [LinearOrder L] {g : K → L} {f : Fn K} {f' : Fn L}

/-- C127: random search only compares values: on a function whose values are transformed by a strictly increasing function, the law
of the result is the same, its value being transformed. -/
theorem randomSearch_order (h : Transformed g f f') (n : ℕ) (num : ℤ) : randomSearch f' n num = transformed g (randomSearch f n num) := by
  refine Paired.eq_image (φ := Sol g) ?_
  refine Paired.bind (R := fun s s' => s' = SearchState.by g s) (Paired.loop ?_ (fun _ _ _ => rfl) ?_ num) (fun s s' hs => ?_)
  · refine (randomSolution_order h _).bind (fun r r' hr => ?_)
    subst hr
    exact Paired.pure rfl
  · intro s s' hs _
    subst hs
    exact searchIterate_order h s
  · subst hs
    exact Paired.pure rfl

/-- C127: random local search only compares values, for any neighbourhood, any starting point, with or without patience and with or
without incremental evaluation. -/
theorem randomLocalSearch_order (h : Transformed g f f') {p : RlsParams K} {p' : RlsParams L} (hp : SameSearch g p p') (n : ℕ) (num : ℤ) :
    randomLocalSearch p' f' n num = transformed g (randomLocalSearch p f n num) := by
  refine Paired.eq_image (φ := Sol g) ?_
  refine Paired.bind (R := fun s s' => s' = RlsState.by g s) (Paired.loop (rlsInit_order h hp n) ?_ ?_ num) (fun s s' hs => ?_)
  · intro s s' hs
    subst hs
    rfl
  · intro s s' hs _
    subst hs
    exact rlsIterate_order h hp s
  · subst hs
    exact Paired.pure rfl

/-- C127: the (1+1) evolutionary algorithm only compares values. -/
theorem onePlusOneEa_order (h : Transformed g f f') (q : EaParams) (n : ℕ) : onePlusOneEa q f' n = transformed g (onePlusOneEa q f n) :=
  randomLocalSearch_order h ⟨rfl, rfl, fun _ _ => decide_eq_decide.mpr h.increasing.le_iff_le, rfl, rfl⟩ n q.numIterations

/-- C127: random walks only compare values: the law of the vectors visited does not depend on them, and that of the solution is the
same, its value being transformed. -/
theorem randomWalk_order (h : Transformed g f f') (p : StartParams) (d : Dist (List ℕ)) (n t : ℕ) :
    randomWalk p d f' n t = (randomWalk p d f n t >>= fun s => pure ⟨s.nbh, (s.solution.1, g s.solution.2)⟩) := by
  refine Paired.eq_image (φ := WalkState.by g) ?_
  refine Paired.bind (R := fun s s' => s' = WalkState.by g s) ?_ (fun s s' hs => Paired.boundedLoop (fun _ _ _ => rfl) ?_ t s s' hs)
  · refine (start_order h).bind (fun r r' hr => ?_)
    subst hr
    exact Paired.pure rfl
  · intro s s' hs _
    subst hs
    exact walkIterate_order h d s

/-- C127: the self-adjusting (1+1) evolutionary algorithm only compares values: so do the mutation rates. -/
theorem adjustEa_order (h : Transformed g f f') (q : AdjustLaw) (n : ℕ) (num : ℤ) :
    adjustEa f' q n num = transformed g (adjustEa f q n num) := by
  refine Paired.eq_image (φ := Sol g) ?_
  refine Paired.bind (R := fun s s' => s' = AdjustLawState.by g s) (Paired.loop ?_ (fun _ _ _ => rfl) ?_ num) (fun s s' hs => ?_)
  · refine (randomSolution_order h _).bind (fun r r' hr => ?_)
    subst hr
    exact Paired.pure rfl
  · intro s s' hs _
    subst hs
    exact adjustIterate_order h q n s
  · subst hs
    exact Paired.pure rfl

/-- C127: the compact genetic algorithm only compares values. -/
theorem compactGa_order (h : Transformed g f f') (q : CompactParams) (n : ℕ) (num : ℤ) :
    compactGa f' q n num = transformed g (compactGa f q n num) := by
  refine Paired.eq_image (φ := Sol g) ?_
  refine Paired.bind (R := fun s s' => s' = PvState.by g s) (Paired.loop (pvStart_order h n _) (fun _ _ _ => rfl) ?_ num) (fun s s' hs => ?_)
  · intro s s' hs _
    subst hs
    exact compactIterate_order h q s
  · subst hs
    exact Paired.pure rfl

/-- C127: the max-min ant system only compares values. -/
theorem mmas_order (h : Transformed g f f') {q : MmasParams K} {q' : MmasParams L} (hr : q'.rate = q.rate)
    (hc : ∀ a b, q'.compare (g a) (g b) = q.compare a b) (n : ℕ) (num : ℤ) :
    mmas f' q' n num = transformed g (mmas f q n num) := by
  refine Paired.eq_image (φ := Sol g) ?_
  refine Paired.bind (R := fun s s' => s' = PvState.by g s) (Paired.loop ?_ (fun _ _ _ => rfl) ?_ num) (fun s s' hs => ?_)
  · refine (pvStart_order h n _).bind (fun s s' hs => ?_)
    subst hs
    rw [hr]
    refine (Paired.refl _).bind (fun d d' hd => ?_)
    subst hd
    exact Paired.pure rfl
  · intro s s' hs _
    subst hs
    exact mmasIterate_order h hr hc s
  · subst hs
    exact Paired.pure rfl

/-- C127: population-based incremental learning only compares values, provided that populations are sorted alike. -/
theorem pbil_order [Zero K] [Zero L] (h : Transformed g f f') {c : Choices K} {c' : Choices L} (hc : SortsAlike g c c') (q : PbilParams)
    (n : ℕ) (size num : ℤ) : pbil f' c' q n size num = transformed g (pbil f c q n size num) := by
  refine Paired.eq_image (φ := Sol g) ?_
  unfold pbil pbilNew
  simp only [lift_then, Dist.bind_assoc']
  refine (popNew_same size n).bind (fun p p' hp => ?_)
  rw [Dist.lift_ok, Dist.lift_ok, Dist.pure_bind', Dist.pure_bind']
  exact run_order (fun _ _ hs => hs.solution) (pvStart_same (R := @PbilSame K L) h n ⟨hp, rfl⟩) (fun _ _ hs => pbilIterate_order h hc q hs) num

/-- C127: population-based incremental learning with negative and positive selection only compares values, provided that populations
are sorted alike. -/
theorem npsPbil_order [Zero K] [Zero L] (h : Transformed g f f') {c : Choices K} {c' : Choices L} (hc : SortsAlike g c c') (q : PbilParams)
    (n : ℕ) (size num : ℤ) : npsPbil f' c' q n size num = transformed g (npsPbil f c q n size num) := by
  refine Paired.eq_image (φ := Sol g) ?_
  unfold npsPbil npsNew
  simp only [lift_then, Dist.bind_assoc']
  refine (popNew_same size n).bind (fun p p' hp => ?_)
  rw [Dist.lift_ok, Dist.lift_ok, Dist.pure_bind', Dist.pure_bind']
  exact run_order (fun _ _ hs => hs.solution) (pvStart_same (R := @NpsSame K L) h n ⟨hp, rfl, rfl⟩) (fun _ _ hs => npsIterate_order h hc q hs) num

/-- C127: the univariate marginal distribution algorithm only compares values, provided that populations are sorted alike. -/
theorem umda_order [Zero K] [Zero L] (h : Transformed g f f') {c : Choices K} {c' : Choices L} (hc : SortsAlike g c c') (sel : ℤ)
    (n : ℕ) (size num : ℤ) : umda f' c' sel n size num = transformed g (umda f c sel n size num) := by
  refine Paired.eq_image (φ := Sol g) ?_
  unfold umda umdaNew
  simp only [lift_then, Dist.bind_assoc']
  refine (popNew_same size n).bind (fun p p' hp => ?_)
  rw [Dist.lift_ok, Dist.lift_ok, Dist.pure_bind', Dist.pure_bind']
  exact run_order (fun _ _ hs => hs.solution) (pvStart_same (R := @SameVectors K L) h n hp) (fun _ _ hs => umdaIterate_order h hc sel hs) num

/-- C127: the two-rate (1+lambda) evolutionary algorithm only compares values, provided that populations are sorted alike: so do the
mutation rates. -/
theorem twoRateEa_order [Zero K] [Zero L] (h : Transformed g f f') {c : Choices K} {c' : Choices L} (hc : SortsAlike g c c') (q : TwoRateLaw)
    (n : ℕ) (size num : ℤ) : twoRateEa f' c' q n size num = transformed g (twoRateEa f c q n size num) := by
  refine Paired.eq_image (φ := Sol g) ?_
  unfold twoRateEa
  refine (popNew_same size n).bind (fun p p' hp => ?_)
  refine run_order (R := TwoRateSame g) (fun _ _ hs => hs.solution) ?_ (fun _ _ hs => twoRateIterate_order h hc n hs) num
  unfold twoRateInit
  refine (randomSolution_order h _).bind (fun r r' hr => ?_)
  subst hr
  exact Paired.pure ⟨rfl, hp, rfl, rfl⟩

/-! ## Examples -/

/-- Comparison of the members of a population. -/
def noWorse (p : Pop K) (i j : ℕ) : Bool :=
  match p.values[i]?, p.values[j]? with
  | some a, some b => decide (b ≤ a)
  | _, _ => true

/-- Populations are sorted by decreasing values. -/
noncomputable def sortChoices : Choices K where
  sort p := pure { p with perm := p.perm.mergeSort (noWorse p) }
  comma p o := pure (p, o)
  plus p o e := pure (p, o, e)
  start t := pure t
  select _ t := pure (0, [], t)

theorem noWorse_by (hg : StrictMono g) (p : Pop K) : noWorse (popBy g p) = noWorse p := by
  funext i j
  unfold noWorse popBy
  dsimp only
  rw [List.getElem?_map, List.getElem?_map]
  cases p.values[i]? with
  | none => rfl
  | some a =>
    cases p.values[j]? with
    | none => rfl
    | some b => exact decide_eq_decide.mpr hg.le_iff_le

theorem sortChoices_alike (hg : StrictMono g) : SortsAlike g (sortChoices (K := K)) (sortChoices (K := L)) := by
  intro p
  change (pure { popBy g p with perm := p.perm.mergeSort (noWorse (popBy g p)) } : Dist (Pop L)) = (pure _ >>= _)
  rw [noWorse_by hg, Dist.pure_bind']
  rfl


/-- The cube of the number of ones orders vectors as their number does. -/
theorem cube_transformed (n : ℕ) : Transformed (fun v : ℤ => v ^ 3) (valuesFn n (fun x => (ones x : ℤ))) ⟨n, false, ub, fun x => ok ((ones x : ℤ) ^ 3), false, fun _ v _ => ok v⟩ :=
  ⟨(Odd.strictMono_pow (by decide)), fun _ => rfl, rfl, fun _ _ _ => rfl⟩

example : onePlusOneEa (EaParams.new 5) ⟨5, false, ub, fun x => ok ((ones x : ℤ) ^ 3), false, fun _ v _ => ok v⟩ 5
    = transformed (fun v : ℤ => v ^ 3) (onePlusOneEa (EaParams.new 5) (valuesFn 5 (fun x => (ones x : ℤ))) 5) :=
  onePlusOneEa_order (cube_transformed 5) _ 5

example : mmas ⟨5, false, ub, fun x => ok ((ones x : ℤ) ^ 3), false, fun _ v _ => ok v⟩ ⟨fun a b => decide (b < a), 1 / 10⟩ 5 100
    = transformed (fun v : ℤ => v ^ 3) (mmas (valuesFn 5 (fun x => (ones x : ℤ))) ⟨fun a b => decide (b < a), 1 / 10⟩ 5 100) :=
  mmas_order (cube_transformed 5) rfl (fun _ _ => decide_eq_decide.mpr (cube_transformed 5).increasing.lt_iff_lt) 5 100

example : umda ⟨5, false, ub, fun x => ok ((ones x : ℤ) ^ 3), false, fun _ v _ => ok v⟩ sortChoices 3 5 10 100
    = transformed (fun v : ℤ => v ^ 3) (umda (valuesFn 5 (fun x => (ones x : ℤ))) sortChoices 3 5 10 100) :=
  umda_order (cube_transformed 5) (sortChoices_alike (cube_transformed 5).increasing) 3 5 10 100

end Hnco.Prob
