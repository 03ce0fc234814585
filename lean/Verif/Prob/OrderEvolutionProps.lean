import Verif.Prob.OrderSelectionLemmas
import Verif.Prob.OrderProps
import Verif.Prob.BlindLemmas

/-!
# Evolutionary algorithms with populations only compare values
-/

namespace Hnco.Prob

open Outcome
open scoped ENNReal

variable {K L : Type} [LinearOrder K] [LinearOrder L] {g : K → L} {f : Fn K} {f' : Fn L}

/-- C127: the (mu+lambda) evolutionary algorithm only compares values, provided that populations are sorted and selected alike. -/
theorem muPlusLambdaEa_order [Zero K] [Zero L] (h : Transformed g f f') {c : Choices K} {c' : Choices L} (hc : ChoosesAlike g c c') (m : MutationLaw)
    (n : ℕ) (mu lam num : ℤ) : muPlusLambdaEa f' c' m n mu lam num = transformed g (muPlusLambdaEa f c m n mu lam num) := by
  refine Paired.eq_image (φ := Sol g) ?_
  unfold muPlusLambdaEa
  refine (muPlusNew_order _ _ _ _).bind (fun d d' hd => ?_)
  exact run_order (fun _ _ hs => hs.solution) (parentsInit_order h hc hd hd.extra) (fun _ _ hs => muPlusIterate_order h hc _ hs) num

/-- C127: the (mu,lambda) evolutionary algorithm only compares values, provided that populations are sorted and selected alike: its first
parents, which are not evaluated, do not matter. -/
theorem muCommaLambdaEa_order [Zero K] [Zero L] (h : Transformed g f f') {c : Choices K} {c' : Choices L} (hc : ChoosesAlike g c c')
    (m : MutationLaw) (n : ℕ) (mu lam num : ℤ) : muCommaLambdaEa f' c' m n mu lam num = transformed g (muCommaLambdaEa f c m n mu lam num) := by
  refine Paired.eq_image (φ := Sol g) ?_
  unfold muCommaLambdaEa
  refine (muCommaNew_order _ _ _ _).bind (fun d d' hd => ?_)
  refine run_order (R := EaSame (Rough mu.toNat) Eq g lam.toNat) (fun _ _ hs => hs.solution) ?_ (fun _ _ hs => muCommaIterate_order h hc _ hs) num
  unfold muCommaInit
  refine (popRandom_order hd.parents).bind (fun p p' hp => ?_)
  refine (randomSolution_order h _).bind (fun r r' hr => ?_)
  exact Paired.pure ⟨hr, hp, hd.offsprings, rfl⟩

/-- C127: the genetic algorithm only compares values, provided that populations are sorted and selected alike. -/
theorem geneticAlgorithm_order [Zero K] [Zero L] (h : Transformed g f f') {c : Choices K} {c' : Choices L} (hc : ChoosesAlike g c c') (q : GaLaw)
    (n : ℕ) (mu num : ℤ) : geneticAlgorithm f' c' q n mu num = transformed g (geneticAlgorithm f c q n mu num) := by
  refine Paired.eq_image (φ := Sol g) ?_
  unfold geneticAlgorithm
  refine (gaNew_order _ _ _).bind (fun d d' hd => ?_)
  refine run_order (R := EaSame (Strong g mu.toNat) Eq g mu.toNat) (fun _ _ hs => hs.solution) ?_ (fun _ _ hs => gaIterate_order h hc q n hs) num
  unfold gaInit
  rw [hd.parents.size.1, hd.parents.size.2, ← hd.extra]
  refine (Paired.refl _).bind (fun t t' ht => ?_)
  subst ht
  rw [hc.start]
  refine (Paired.refl _).bind (fun t t' ht => ?_)
  subst ht
  exact parentsInit_order h hc hd rfl

/-! ## Choices alike exist -/

theorem rankValue_transformed {values : List K} {q : List ℕ} {i : ℕ} {w : L} :
    Pop.RankValue (⟨[], values.map g, q⟩ : Pop L) i w ↔ ∃ v, w = g v ∧ Pop.RankValue (⟨[], values, q⟩ : Pop K) i v := by
  unfold Pop.RankValue
  constructor
  · rintro ⟨k, hk, hw⟩
    dsimp only at hw
    rw [List.getElem?_map, Option.map_eq_some_iff] at hw
    obtain ⟨v, hv, rfl⟩ := hw
    exact ⟨v, rfl, k, hk, hv⟩
  · rintro ⟨v, rfl, k, hk, hv⟩
    refine ⟨k, hk, ?_⟩
    dsimp only at hv ⊢
    rw [List.getElem?_map, hv]
    rfl

theorem sorted_transformed (hg : StrictMono g) (values : List K) (q : List ℕ) :
    Pop.Sorted (⟨[], values.map g, q⟩ : Pop L) ↔ Pop.Sorted (⟨[], values, q⟩ : Pop K) := by
  constructor
  · intro h i j v w hij hv hw
    exact hg.le_iff_le.mp (h i j (g v) (g w) hij (rankValue_transformed.mpr ⟨v, rfl, hv⟩) (rankValue_transformed.mpr ⟨w, rfl, hw⟩))
  · intro h i j v' w' hij hv hw
    obtain ⟨v, rfl, hv'⟩ := rankValue_transformed.mp hv
    obtain ⟨w, rfl, hw'⟩ := rankValue_transformed.mp hw
    exact hg.le_iff_le.mpr (h i j v w hij hv' hw')

open Classical in
/-- Some list with a property, always the same. -/
noncomputable def someList (P : List ℕ → Prop) : Dist (List ℕ) := if h : ∃ q, P q then pure h.choose else Dist.never

theorem sortLaw_transformed (hg : StrictMono g) (values : List K) (perm : List ℕ) : sortLaw (values.map g) perm = sortLaw values perm := by
  change someList (fun q => q.Perm perm ∧ Pop.Sorted (⟨[], values.map g, q⟩ : Pop L)) = someList (fun q => q.Perm perm ∧ Pop.Sorted (⟨[], values, q⟩ : Pop K))
  congr 1
  funext q
  rw [sorted_transformed hg]

theorem roundLoop_transformed (hg : StrictMono g) (values : List K) (perm : List ℕ) : ∀ (m i : ℕ) (s : ℕ × K),
    forLoop m i (fun challenger (s : ℕ × L) => do
      let k ← vget perm challenger
      let value ← vget (values.map g) k
      if decide (s.2 < value) then ok (challenger, value) else ok s) (s.1, g s.2) =
    (forLoop m i (fun challenger (s : ℕ × K) => do
      let k ← vget perm challenger
      let value ← vget values k
      if decide (s.2 < value) then ok (challenger, value) else ok s) s >>= fun r => ok (r.1, g r.2))
  | 0, _, _ => rfl
  | m + 1, i, s => by
    unfold forLoop
    dsimp only
    cases hk : vget perm i with
    | ok k =>
      simp only [ok_bind]
      rw [vget_transformed]
      cases hv : vget values k with
      | ok v =>
        simp only [ok_bind, hg.lt_iff_lt]
        split
        · exact roundLoop_transformed hg values perm m (i + 1) (i, v)
        · exact roundLoop_transformed hg values perm m (i + 1) s
      | _ => rfl
    | _ => rfl

theorem round_transformed (hg : StrictMono g) (values : List K) (t : Tournament) :
    t.round (fun a b => decide (b < a)) (values.map g) = (t.round (fun a b => decide (b < a)) values >>= fun r => ok (r.1, g r.2)) := by
  unfold Tournament.round
  cases hk : vget t.perm t.start with
  | ok k =>
    simp only [ok_bind]
    rw [vget_transformed]
    cases hv : vget values k with
    | ok v => exact roundLoop_transformed hg values t.perm _ _ (t.start, v)
    | _ => rfl
  | _ => rfl

/-- Valid choices, which sort and select alike. -/
theorem blindChoices_alike (hg : StrictMono g) : ChoosesAlike g (blindChoices K) (blindChoices L) := by
  refine ⟨⟨sortLaw, sortLaw, sortLaw_transformed hg, fun _ => rfl, fun _ => rfl⟩,
    ⟨fun _ => sortLaw, fun _ => sortLaw, fun _ => sortLaw_transformed hg, fun _ _ => rfl, fun _ _ => rfl⟩,
    ⟨fun _ => sortLaw, fun _ => sortLaw, fun _ => sortLaw_transformed hg, fun _ _ _ => rfl, fun _ _ _ => rfl⟩, rfl, fun p t => ?_⟩
  change tournamentSelect _ p.bvs (p.values.map g) t = tournamentSelect _ p.bvs p.values t
  unfold tournamentSelect
  rw [round_transformed hg]
  simp only [lift_then, Dist.bind_assoc', Dist.lift_ok, Dist.pure_bind']

example : geneticAlgorithm ⟨5, false, ub, fun x => ok ((ones x : ℤ) ^ 3), false, fun _ v _ => ok v⟩ (blindChoices ℤ) ⟨⟨5⁻¹, false⟩, 2⁻¹, 3⟩ 5 10 100
    = transformed (fun v : ℤ => v ^ 3) (geneticAlgorithm (valuesFn 5 (fun x => (ones x : ℤ))) (blindChoices ℤ) ⟨⟨5⁻¹, false⟩, 2⁻¹, 3⟩ 5 10 100) :=
  geneticAlgorithm_order (cube_transformed 5) (blindChoices_alike (cube_transformed 5).increasing) _ 5 10 100

example : (blindChoices ℤ).Valid := blindChoices_valid ℤ

example : muPlusLambdaEa ⟨5, false, ub, fun x => ok ((ones x : ℤ) ^ 3), false, fun _ v _ => ok v⟩ (blindChoices ℤ) ⟨5⁻¹, false⟩ 5 10 20 100
    = transformed (fun v : ℤ => v ^ 3) (muPlusLambdaEa (valuesFn 5 (fun x => (ones x : ℤ))) (blindChoices ℤ) ⟨5⁻¹, false⟩ 5 10 20 100) :=
  muPlusLambdaEa_order (cube_transformed 5) (blindChoices_alike (cube_transformed 5).increasing) _ 5 10 20 100

end Hnco.Prob
