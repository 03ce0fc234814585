import Verif.Prob.OrderSpec
import Verif.Prob.Pairing

/-!
# Lemmas about functions which order vectors alike
-/

namespace Hnco.Prob

open Outcome
open scoped ENNReal

variable {K L : Type}

theorem Paired.lift_map {α β : Type} (o : Outcome α) (g : α → β) :
    Paired (fun a b => b = g a) (Dist.lift o) (Dist.lift (o >>= fun a => ok (g a))) := by
  cases o with
  | ok a =>
    change Paired _ (Dist.lift (ok a)) (Dist.lift (ok (g a)))
    rw [Dist.lift_ok, Dist.lift_ok]
    exact Paired.pure rfl
  | _ => exact Paired.never

theorem Paired.refl {α : Type} (d : Dist α) : Paired (fun a b => b = a) d d := Paired.same (fun _ _ => rfl)

/-- A solution with its value transformed. -/
def Sol (g : K → L) (r : BV × K) : BV × L := (r.1, g r.2)

set_option linter.unusedSectionVars false

variable [LinearOrder K] [LinearOrder L] {g : K → L} {f : Fn K} {f' : Fn L}

theorem Transformed.value (h : Transformed g f f') (x : BV) : Paired (fun a b => b = g a) (Dist.lift (f.eval x)) (Dist.lift (f'.eval x)) := by
  rw [h.eval]
  exact Paired.lift_map _ _

theorem randomSolution_order (h : Transformed g f f') (x : BV) : Paired (fun r r' => r' = Sol g r) (randomSolution f x) (randomSolution f' x) := by
  refine (Paired.refl _).bind (fun y y' hy => ?_)
  subst hy
  refine (h.value _).bind (fun a b hab => ?_)
  subst hab
  exact Paired.pure rfl

theorem update_order (h : Transformed g f f') (s : BV × K) (x : BV) (v : K) :
    (if (Sol g s).2 < g v then (x, g v) else Sol g s) = Sol g (if s.2 < v then (x, v) else s) := by
  have e : (Sol g s).2 < g v ↔ s.2 < v := h.increasing.lt_iff_lt
  by_cases hv : s.2 < v
  · rw [if_pos hv, if_pos (e.mpr hv)]
    rfl
  · rw [if_neg hv, if_neg (fun h' => hv (e.mp h'))]

/-! ## Random search -/

/-- Related states. -/
def SearchState.by (g : K → L) (s : SearchState K) : SearchState L := ⟨s.candidate, Sol g s.solution⟩

theorem searchIterate_order (h : Transformed g f f') (s : SearchState K) :
    Paired (fun s s' => s' = SearchState.by g s) (searchIterate f s) (searchIterate f' (s.by g)) := by
  unfold searchIterate
  refine (Paired.refl _).bind (fun x x' hx => ?_)
  subst hx
  refine (h.value _).bind (fun a b hab => ?_)
  subst hab
  refine Paired.pure ?_
  unfold SearchState.by
  dsimp only
  rw [update_order h]

/-! ## Random local search -/

/-- Related states. -/
def RlsState.by (g : K → L) (s : RlsState K) : RlsState L := ⟨Sol g s.solution, s.origin, s.candidate, s.flipped, s.numFailures, s.last⟩

variable {p : RlsParams K} {p' : RlsParams L}

theorem start_order (h : Transformed g f f') {q : StartParams} {n : ℕ} :
    Paired (fun r r' => r' = Sol g r)
      (if q.randomInitialization then randomSolution f (List.replicate n false) else do
        let v ← Dist.lift (f.eval q.startingPoint)
        pure (q.startingPoint, v))
      (if q.randomInitialization then randomSolution f' (List.replicate n false) else do
        let v ← Dist.lift (f'.eval q.startingPoint)
        pure (q.startingPoint, v)) := by
  refine Paired.ite Iff.rfl (fun _ => randomSolution_order h _) (fun _ => ?_)
  refine (h.value _).bind (fun a b hab => ?_)
  subst hab
  exact Paired.pure rfl

theorem rlsInit_order (h : Transformed g f f') (hp : SameSearch g p p') (n : ℕ) :
    Paired (fun s s' => s' = RlsState.by g s) (rlsInit p f n) (rlsInit p' f' n) := by
  unfold rlsInit
  rw [hp.start]
  refine (start_order h).bind (fun r r' hr => ?_)
  subst hr
  exact Paired.pure rfl

theorem rlsPropose_order (hp : SameSearch g p p') (s : RlsState K) :
    Paired (fun s s' => s' = RlsState.by g s) (propose p s) (propose p' (s.by g)) := by
  unfold propose
  rw [hp.sampleBits]
  refine (Paired.refl _).bind (fun _ _ _ => (Paired.refl _).bind (fun l l' hl => ?_))
  subst hl
  refine (Paired.refl _).bind (fun y y' hy => ?_)
  subst hy
  exact Paired.pure rfl

theorem rlsKeep_order (s : RlsState K) : Paired (fun s s' => s' = RlsState.by g s) (keep s) (keep (s.by g)) := by
  unfold keep
  refine (Paired.refl _).bind (fun l l' hl => ?_)
  subst hl
  exact (Paired.refl _).bind (fun _ _ _ => Paired.pure rfl)

theorem rlsForget_order (s : RlsState K) : Paired (fun s s' => s' = RlsState.by g s) (forget s) (forget (s.by g)) := by
  unfold forget
  refine (Paired.refl _).bind (fun l l' hl => ?_)
  subst hl
  exact (Paired.refl _).bind (fun _ _ _ => Paired.pure rfl)

theorem decideMove_order (hp : SameSearch g p p') (v : K) (s : RlsState K) :
    Paired (fun s s' => s' = RlsState.by g s) (decideMove p v s) (decideMove p' (g v) (s.by g)) := by
  unfold decideMove
  rw [hp.patience]
  refine Paired.bind (R := fun s s' => s' = RlsState.by g s) ?_ (fun s s' hs => ?_)
  · refine Paired.ite (by rw [show (s.by g).solution.2 = g s.solution.2 from rfl, hp.compare]) (fun _ => ?_) (fun _ => ?_)
    · refine (rlsKeep_order s).bind (fun s s' hs => ?_)
      subst hs
      exact Paired.pure rfl
    · refine (rlsForget_order s).bind (fun s s' hs => ?_)
      subst hs
      exact Paired.pure rfl
  · subst hs
    exact Paired.ite Iff.rfl (fun _ => Paired.pure rfl) (fun _ => Paired.pure rfl)

theorem rlsIterate_order (h : Transformed g f f') (hp : SameSearch g p p') (s : RlsState K) :
    Paired (fun s s' => s' = RlsState.by g s) (rlsIterate p f s) (rlsIterate p' f' (s.by g)) := by
  unfold rlsIterate
  refine (rlsPropose_order hp s).bind (fun s s' hs => ?_)
  subst hs
  refine Paired.bind (R := fun a b => b = g a) ?_ (fun a b hab => ?_)
  · refine Paired.ite (by rw [hp.incremental, h.hasInc]) (fun _ => ?_) (fun _ => h.value _)
    rw [show (RlsState.by g s).solution.2 = g s.solution.2 from rfl, h.evalInc]
    exact Paired.lift_map _ _
  · subst hab
    exact decideMove_order hp a s

/-! ## Random walk -/

/-- Related states. -/
def WalkState.by (g : K → L) (s : WalkState K) : WalkState L := ⟨s.nbh, Sol g s.solution⟩

theorem walkIterate_order (h : Transformed g f f') (d : Dist (List ℕ)) (s : WalkState K) :
    Paired (fun s s' => s' = WalkState.by g s) (walkIterate d f s) (walkIterate d f' (s.by g)) := by
  unfold walkIterate
  refine (Paired.refl _).bind (fun nbh nbh' hn => ?_)
  subst hn
  refine (h.value _).bind (fun a b hab => ?_)
  subst hab
  refine (Paired.refl _).bind (fun nbh nbh' hn => ?_)
  subst hn
  refine Paired.pure ?_
  unfold WalkState.by
  rw [update_order h]

/-! ## Self-adjusting (1+1) evolutionary algorithm -/

/-- Related states. -/
def AdjustLawState.by (g : K → L) (s : AdjustLawState K) : AdjustLawState L := ⟨Sol g s.solution, s.nbh, s.operator, s.rate⟩

theorem adjustIterate_order (h : Transformed g f f') (q : AdjustLaw) (n : ℕ) (s : AdjustLawState K) :
    Paired (fun s s' => s' = AdjustLawState.by g s) (adjustIterate f q n s) (adjustIterate f' q n (s.by g)) := by
  unfold adjustIterate
  refine (Paired.refl _).bind (fun nbh nbh' hn => ?_)
  subst hn
  refine Paired.bind (R := fun a b => b = g a) ?_ (fun a b hab => ?_)
  · refine Paired.ite (by rw [h.hasInc]) (fun _ => ?_) (fun _ => h.value _)
    rw [show (AdjustLawState.by g s).solution.2 = g s.solution.2 from rfl, h.evalInc]
    exact Paired.lift_map _ _
  · subst hab
    unfold adjustRest
    refine Paired.ite (h.increasing.le_iff_le).symm (fun _ => ?_) (fun _ => ?_)
    · refine (Paired.refl _).bind (fun nbh nbh' hn => ?_)
      subst hn
      exact Paired.pure rfl
    · refine (Paired.refl _).bind (fun nbh nbh' hn => ?_)
      subst hn
      exact Paired.pure rfl

/-! ## Algorithms with a probability vector, without populations -/

/-- Related states. -/
def PvState.by {ρ : Type} (g : K → L) (s : PvState K ρ) : PvState L ρ := ⟨Sol g s.solution, s.data⟩

theorem pvStart_order {ρ : Type} (h : Transformed g f f') (n : ℕ) (d : PvData ρ) :
    Paired (fun s s' => s' = PvState.by g s) (pvStart f n d) (pvStart f' n d) := by
  unfold pvStart
  refine (randomSolution_order h _).bind (fun r r' hr => ?_)
  subst hr
  exact Paired.pure rfl

theorem compactLearn_order {ρ : Type} (h : Transformed g f f') (q : CompactParams) (best worst : BV) (d : PvData ρ) :
    compactLearn f' q best worst d = compactLearn f q best worst d := by
  unfold compactLearn
  congr 1
  split
  · rw [h.eval, h.eval]
    cases f.eval best with
    | ok a =>
      cases f.eval worst with
      | ok b =>
        have e : decide (g b ≤ g a) = decide (b ≤ a) := by simp only [h.increasing.le_iff_le]
        change (assert (decide (g b ≤ g a)) >>= _) = (assert (decide (b ≤ a)) >>= _)
        rw [e]
      | _ => rfl
    | _ => rfl
  · rfl

theorem compactIterate_order (h : Transformed g f f') (q : CompactParams) (s : PvState K (BV × BV)) :
    Paired (fun s s' => s' = PvState.by g s) (compactIterate f q s) (compactIterate f' q (s.by g)) := by
  unfold compactIterate
  refine (Paired.refl _).bind (fun x x' hx => ?_)
  subst hx
  refine (Paired.refl _).bind (fun y y' hy => ?_)
  subst hy
  refine (h.value _).bind (fun v v' hv => ?_)
  subst hv
  refine (h.value _).bind (fun w w' hw => ?_)
  subst hw
  refine Paired.ite (h.increasing.lt_iff_lt).symm (fun _ => ?_) (fun _ => ?_)
  · rw [compactLearn_order h]
    refine (Paired.refl _).bind (fun d d' hd => ?_)
    subst hd
    refine Paired.pure ?_
    unfold PvState.by updateSolution
    dsimp only
    rw [update_order h]
  · rw [compactLearn_order h]
    refine (Paired.refl _).bind (fun d d' hd => ?_)
    subst hd
    refine Paired.pure ?_
    unfold PvState.by updateSolution
    dsimp only
    rw [update_order h]

theorem mmasIterate_order (h : Transformed g f f') {q : MmasParams K} {q' : MmasParams L} (hr : q'.rate = q.rate)
    (hc : ∀ a b, q'.compare (g a) (g b) = q.compare a b) (s : PvState K BV) :
    Paired (fun s s' => s' = PvState.by g s) (mmasIterate f q s) (mmasIterate f' q' (s.by g)) := by
  unfold mmasIterate
  refine (Paired.refl _).bind (fun x x' hx => ?_)
  subst hx
  refine (h.value _).bind (fun v v' hv => ?_)
  subst hv
  have hs : (if q'.compare (g v) (PvState.by g s).solution.2 then (x', g v) else (PvState.by g s).solution)
      = Sol g (if q.compare v s.solution.2 then (x', v) else s.solution) := by
    rw [show (PvState.by g s).solution.2 = g s.solution.2 from rfl, hc]
    split <;> rfl
  dsimp only
  rw [hs, hr]
  refine (Paired.refl _).bind (fun d d' hd => ?_)
  subst hd
  exact Paired.pure rfl

end Hnco.Prob
