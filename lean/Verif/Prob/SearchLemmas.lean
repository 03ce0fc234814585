import Verif.Prob.SearchSpec
import Verif.Prob.Props

/-!
# Random local search is a chain on bit vectors
-/

namespace Hnco.Prob

open Outcome
open scoped ENNReal

variable {K : Type} [LinearOrder K]

/-- The state between two iterations. -/
structure GoodState (n : ℕ) (val : BV → K) (s : RlsState K) : Prop where
  candidate : s.candidate = s.origin
  length : s.origin.length = n
  value : s.solution.2 = val s.origin
  last : s.last = false

/-- One iteration, on the vector. -/
noncomputable def move (d : Dist (List ℕ)) (val : BV → K) (x : BV) : Dist BV := do
  let y ← mutate d x
  pure (if val x ≤ val y then y else x)

/-- The state after an iteration which has flipped the bits `l`. -/
def nextState (val : BV → K) (s : RlsState K) (l : List ℕ) (y : BV) : RlsState K :=
  if val s.origin ≤ val y then
    { s with solution := (s.solution.1, val y), origin := y, candidate := y, flipped := l, numFailures := 0 }
  else { s with flipped := l, numFailures := s.numFailures + 1 }

variable {f : Fn K} {n : ℕ} {val : BV → K} {p : RlsParams K}

theorem flip_back {x y : BV} {l : List ℕ} (hl : Ascending 0 x.length l) (h : bvFlipSparse x l = ok y) :
    bvFlipSparse y l = ok x := by
  have hv : sbvIsValid l x.length = true :=
    (sbvIsValid_iff _ _).mpr ⟨hl.1.imp (fun h => Nat.le_of_lt h), fun i hi => by have := hl.2 i hi; omega⟩
  have := bvFlipSparse_twice x l hv
  rw [h, ok_bind] at this
  exact this

theorem rlsIterate_eq (hf : Evaluates f n val) (hp : Elitist p) (hd : ∀ l, p.sampleBits l ≠ 0 → Ascending 0 n l)
    {s : RlsState K} (hs : GoodState n val s) :
    rlsIterate p f s = (p.sampleBits >>= fun l => Dist.lift (bvFlipSparse s.origin l) >>= fun y =>
      pure (nextState val s l y)) := by
  unfold rlsIterate propose
  rw [Dist.assert_bind (by rw [hs.candidate]; exact beq_self_eq_true _), Dist.bind_assoc']
  refine Dist.bind_congr_support (fun l hl => ?_)
  have ha : Ascending 0 s.origin.length l := by rw [hs.length]; exact hd l hl
  obtain ⟨y, hy, hlen, hget⟩ := bvFlipSparse_exact s.origin l ha.1 (fun i hi => by have := ha.2 i hi; omega)
  have hyn : y.length = n := hlen.trans hs.length
  rw [hs.candidate, hy]
  simp only [Dist.lift_ok, Dist.pure_bind']
  have hv : (if p.incremental && f.hasInc then Dist.lift (f.evalInc s.origin s.solution.2 l)
      else Dist.lift (f.eval y)) = (pure (val y) : Dist K) := by
    split
    · next h =>
      rw [Bool.and_eq_true] at h
      obtain ⟨w, hw, hw2⟩ := (hf.inc h.2).2 s.origin y (val s.origin) l (by rw [hf.size, hs.length])
        (by rw [hf.size, hyn]) ha.1 (fun i hi => by have := ha.2 i hi; rw [hf.size, ← hs.length]; omega) hget (hf.eval _ hs.length)
      rw [hf.eval y hyn] at hw2
      rw [hs.value, hw, Outcome.ok.inj hw2, Dist.lift_ok]
    · rw [hf.eval y hyn, Dist.lift_ok]
  rw [hv, Dist.pure_bind']
  unfold decideMove
  rw [hp.compare, hs.value]
  unfold nextState
  by_cases h : val s.origin ≤ val y
  · rw [if_pos (by simpa using h), if_pos h]
    unfold keep
    simp only [hy, Dist.lift_ok, Dist.pure_bind']
    rw [Dist.assert_bind (beq_self_eq_true _)]
    simp only [Dist.pure_bind']
    rw [if_neg (fun e => by have := hp.patience; omega)]
  · rw [if_neg (by simpa using h), if_neg h]
    unfold forget
    simp only [flip_back ha hy, Dist.lift_ok, Dist.pure_bind']
    rw [Dist.assert_bind (beq_self_eq_true _)]
    simp only [Dist.pure_bind']
    rw [if_neg (fun e => by have := hp.patience; omega)]
    congr 1
    cases s
    simp only [RlsState.mk.injEq, true_and, and_true]
    exact hs.candidate.symm

theorem nextState_origin (s : RlsState K) (l : List ℕ) (y : BV) :
    (nextState val s l y).origin = if val s.origin ≤ val y then y else s.origin := by
  unfold nextState
  split <;> rfl

theorem rlsIterate_move (hf : Evaluates f n val) (hp : Elitist p) (hd : ∀ l, p.sampleBits l ≠ 0 → Ascending 0 n l)
    {s : RlsState K} (hs : GoodState n val s) :
    (rlsIterate p f s >>= fun s => pure s.origin) = move p.sampleBits val s.origin := by
  rw [rlsIterate_eq hf hp hd hs, Dist.bind_assoc']
  unfold move mutate
  rw [Dist.bind_assoc']
  congr 1
  funext l
  rw [Dist.bind_assoc']
  congr 1
  funext y
  rw [Dist.pure_bind', nextState_origin]

theorem bind_support {α β : Type} {d : Dist α} {g : α → Dist β} {b : β} (h : (d >>= g) b ≠ 0) :
    ∃ a, d a ≠ 0 ∧ g a b ≠ 0 := by
  rw [Dist.bind_apply] at h
  obtain ⟨a, ha⟩ := not_forall.mp (ENNReal.tsum_eq_zero.not.mp h)
  exact ⟨a, mul_ne_zero_iff.mp ha⟩

theorem pure_support {α : Type} {a b : α} (h : (pure a : Dist α) b ≠ 0) : b = a := by
  classical
  rw [Dist.pure_apply] at h
  by_contra h'
  exact h (if_neg h')

theorem lift_support {α : Type} {o : Outcome α} {a : α} (h : (Dist.lift o) a ≠ 0) : o = ok a := by
  classical
  rw [lift_apply] at h
  by_contra h'
  exact h (if_neg h')

theorem rlsIterate_good (hf : Evaluates f n val) (hp : Elitist p) (hd : ∀ l, p.sampleBits l ≠ 0 → Ascending 0 n l)
    {s t : RlsState K} (hs : GoodState n val s) (ht : rlsIterate p f s t ≠ 0) : GoodState n val t := by
  rw [rlsIterate_eq hf hp hd hs] at ht
  obtain ⟨l, hl, ht⟩ := bind_support ht
  obtain ⟨y, hy, ht⟩ := bind_support ht
  rw [pure_support ht]
  have hlen := ((flip_iff (by rw [hs.length]; exact hd l hl)).mp (lift_support hy)).1.trans hs.length
  unfold nextState
  split
  · exact ⟨rfl, hlen, rfl, hs.last⟩
  · exact ⟨hs.candidate, hs.length, hs.value, hs.last⟩

/-- The search from a given state. -/
theorem boundedLoop_steps (hf : Evaluates f n val) (hp : Elitist p) (hd : ∀ l, p.sampleBits l ≠ 0 → Ascending 0 n l) (t : ℕ) :
    ∀ {s : RlsState K}, GoodState n val s →
      (boundedLoop (fun s => s.last) (rlsIterate p f) t s >>= fun s => pure (s.origin, s.solution.2))
        = (Dist.steps (move p.sampleBits val) t s.origin >>= fun x => pure (x, val x)) := by
  induction t with
  | zero =>
    intro s hs
    change ((pure s : Dist _) >>= _) = ((pure s.origin : Dist _) >>= _)
    rw [Dist.pure_bind', Dist.pure_bind', hs.value]
  | succ t ih =>
    intro s hs
    change ((if s.last = true then pure s else rlsIterate p f s >>= boundedLoop (fun s => s.last) (rlsIterate p f) t) >>= _)
      = ((move p.sampleBits val s.origin >>= Dist.steps (move p.sampleBits val) t) >>= _)
    rw [if_neg (by rw [hs.last]; decide), Dist.bind_assoc', Dist.bind_assoc', ← rlsIterate_move hf hp hd hs, Dist.bind_assoc']
    refine Dist.bind_congr_support (fun u hu => ?_)
    rw [Dist.pure_bind']
    exact ih (rlsIterate_good hf hp hd hs hu)

/-- The law of the starting point. -/
noncomputable def startLaw (p : RlsParams K) (n : ℕ) : Dist BV :=
  if p.randomInitialization then bvRandomBits (List.replicate n false) else pure p.startingPoint

theorem startLaw_support (hs : Starts p n) {x : BV} (h : startLaw p n x ≠ 0) : x.length = n := by
  unfold startLaw at h
  split at h
  · rw [bvRandomBits_law] at h
    by_contra h'
    exact h (if_neg (by simpa using h'))
  · next h0 =>
    rw [pure_support h]
    exact hs (by simpa using h0)

theorem rlsInit_eq (hf : Evaluates f n val) (hs : Starts p n) :
    rlsInit p f n = (startLaw p n >>= fun x => pure ⟨(x, val x), x, x, [], 0, false⟩) := by
  unfold rlsInit
  have h1 : (if p.randomInitialization then randomSolution f (List.replicate n false) else
      (Dist.lift (f.eval p.startingPoint) >>= fun v => pure (p.startingPoint, v)))
      = (startLaw p n >>= fun x => pure (x, val x)) := by
    have hsup := fun x => startLaw_support (p := p) (n := n) hs (x := x)
    unfold startLaw at hsup ⊢
    split
    · next h =>
      simp only [h, if_true] at hsup
      unfold randomSolution
      refine Dist.bind_congr_support (fun x hx => ?_)
      rw [hf.eval x (hsup x hx), Dist.lift_ok, Dist.pure_bind']
    · next h =>
      rw [hf.eval _ (hs (by simpa using h)), Dist.lift_ok, Dist.pure_bind', Dist.pure_bind']
  rw [h1, Dist.bind_assoc']
  simp only [Dist.pure_bind']

/-- The search is a chain on bit vectors. -/
theorem rlsAfter_steps (hf : Evaluates f n val) (hp : Elitist p) (hd : ∀ l, p.sampleBits l ≠ 0 → Ascending 0 n l)
    (hs : Starts p n) (t : ℕ) :
    rlsAfter p f n t = (startLaw p n >>= fun x => Dist.steps (move p.sampleBits val) t x >>= fun x => pure (x, val x)) := by
  unfold rlsAfter
  rw [rlsInit_eq hf hs, Dist.bind_assoc']
  refine Dist.bind_congr_support (fun x hx => ?_)
  rw [Dist.pure_bind']
  exact boundedLoop_steps hf hp hd t (s := ⟨(x, val x), x, x, [], 0, false⟩) ⟨rfl, startLaw_support hs hx, rfl, rfl⟩

theorem move_support (hd : ∀ l, p.sampleBits l ≠ 0 → Ascending 0 n l) {x y : BV} (hx : x.length = n)
    (h : move p.sampleBits val x y ≠ 0) : y.length = n ∧ val x ≤ val y := by
  unfold move at h
  obtain ⟨z, hz, h⟩ := bind_support h
  rw [pure_support h]
  rw [mutate_apply (fun l hl => by rw [hx]; exact hd l hl)] at hz
  have hlen : z.length = x.length := by
    by_contra h'
    exact hz (if_neg h')
  split
  · next h => exact ⟨hlen.trans hx, h⟩
  · exact ⟨hx, le_refl _⟩

theorem move_total (hd : ∀ l, p.sampleBits l ≠ 0 → Ascending 0 n l) (h1 : p.sampleBits.total = 1) {x : BV} (hx : x.length = n) :
    (move p.sampleBits val x).total = 1 := by
  unfold move
  rw [Dist.total_bind]
  simp only [Dist.total_pure, mul_one]
  exact (mutate_total (fun l hl => by rw [hx]; exact hd l hl)).trans h1

theorem move_expect (d : Dist (List ℕ)) (x : BV) (W : BV → ℝ≥0∞) :
    (move d val x).expect W = (mutate d x).expect (fun y => W (if val x ≤ val y then y else x)) := by
  unfold move
  rw [Dist.expect_bind]
  simp only [Dist.expect_pure]

end Hnco.Prob
