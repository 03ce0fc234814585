import Verif.Algorithm.AlgLemmas
import Verif.Population.Model

/-! # Lemmas on the number of evaluations -/

namespace Hnco

open Outcome

variable {K σ : Type}

/-! ## Results of the runs which return -/

/-- Every run which returns gives a result satisfying `P`. -/
def Sim.Yields {α : Type} (m : Sim α) (P : α → Prop) : Prop := ∀ ds a rest, m ds = .ok a rest → P a

namespace Sim.Yields

variable {α β : Type}

theorem trivial {m : Sim α} : Sim.Yields m (fun _ => True) := fun _ _ _ _ => True.intro

theorem pure {a : α} {P : α → Prop} (h : P a) : Sim.Yields (Pure.pure a : Sim α) P := by
  intro ds b rest e
  have e : Res.ok a ds = Res.ok b rest := e
  cases e
  exact h

theorem mono {m : Sim α} {P Q : α → Prop} (h : Sim.Yields m P) (hq : ∀ a, P a → Q a) : Sim.Yields m Q :=
  fun ds a rest e => hq a (h ds a rest e)

theorem bind {m : Sim α} {f : α → Sim β} {P : α → Prop} {Q : β → Prop} (h : Sim.Yields m P)
    (hf : ∀ a, P a → Sim.Yields (f a) Q) : Sim.Yields (m >>= f) Q := by
  intro ds b rest e
  change Sim.bind m f ds = _ at e
  unfold Sim.bind at e
  cases hm : m ds with
  | ok a rest' => rw [hm] at e; exact hf a (h ds a rest' hm) rest' b rest e
  | throw _ => rw [hm] at e; cases e
  | ub => rw [hm] at e; cases e
  | out => rw [hm] at e; cases e

theorem skip {m : Sim α} {f : α → Sim β} {Q : β → Prop} (hf : ∀ a, Sim.Yields (f a) Q) : Sim.Yields (m >>= f) Q :=
  bind trivial (fun a _ => hf a)

theorem lift {o : Outcome α} {P : α → Prop} (h : ∀ a, o = .ok a → P a) : Sim.Yields (Sim.lift o) P := by
  intro ds b rest e
  cases o with
  | ok a => have e : Res.ok a ds = Res.ok b rest := e; cases e; exact h _ rfl
  | throw _ => cases e
  | ub => cases e

theorem lift_bind {o : Outcome α} {f : α → Sim β} {Q : β → Prop} (h : ∀ a, o = .ok a → Sim.Yields (f a) Q) :
    Sim.Yields (Sim.lift o >>= f) Q := bind (P := fun a => o = .ok a) (lift (fun _ e => e)) h

theorem ite {c : Prop} [Decidable c] {m k : Sim α} {P : α → Prop} (h1 : Sim.Yields m P) (h2 : Sim.Yields k P) :
    Sim.Yields (if c then m else k) P := by
  split
  · exact h1
  · exact h2

theorem forLoop {body : Nat → α → Sim α} {I : α → Prop} (hb : ∀ i s, I s → Sim.Yields (body i s) I) :
    ∀ n i s, I s → Sim.Yields (Sim.forLoop n i body s) I
  | 0, _, _, h => pure h
  | n + 1, i, s, h => bind (hb i s h) (fun t ht => forLoop hb n (i + 1) t ht)

theorem forRange {body : Nat → α → Sim α} (I : α → Prop) {a b : Nat} {s : α} (h : I s)
    (hb : ∀ i s, I s → Sim.Yields (body i s) I) : Sim.Yields (Sim.forRange a b body s) I :=
  forLoop hb _ _ _ h

end Sim.Yields

theorem forLoop_ok {α : Type} {body : Nat → α → Outcome α} (I : α → Prop)
    (hb : ∀ i s t, I s → body i s = ok t → I t) :
    ∀ n i s t, I s → Hnco.forLoop n i body s = ok t → I t
  | 0, _, s, t, h, e => by
    have e : ok s = ok t := e
    cases e
    exact h
  | n + 1, i, s, t, h, e => by
    obtain ⟨u, hu, e⟩ := bind_eq_ok.mp e
    exact forLoop_ok I hb n (i + 1) u t (hb i s u h hu) e

/-- An invariant of a loop which returns. -/
theorem forRange_ok {α : Type} {body : Nat → α → Outcome α} (I : α → Prop) {a b : Nat} {s t : α} (h : I s)
    (e : Hnco.forRange a b body s = ok t) (hb : ∀ i s t, I s → body i s = ok t → I t) : I t :=
  forLoop_ok I hb _ _ _ _ h e

theorem vset_ok_length {α : Type} {l m : List α} {i : Nat} {a : α} (h : vset l i a = ok m) : m.length = l.length := by
  by_cases hi : i < l.length
  · rw [vset_eq hi] at h; cases h; simp
  · rw [vset_ub (Nat.le_of_not_lt hi)] at h; cases h

/-! ## Counting -/

/-- From a state whose data satisfies `φ`, every run makes at most `hi` evaluations; if it is not interrupted, it makes at
least `lo` evaluations, its data satisfies `φ` again and, if `keep`, the flag `lastIteration` has not changed. -/
def Alg.Counts {α : Type} (keep : Prop) (φ : σ → Prop) (lo hi : Nat) (m : Alg (AlgState K σ) α) : Prop :=
  ∀ s ds r rest, φ s.data → m s ds = .ok r rest →
    r.2.calls.length ≤ s.calls.length + hi ∧
    ∀ a, r.1 = .ok a → φ r.2.data ∧ s.calls.length + lo ≤ r.2.calls.length ∧
      (keep → r.2.lastIteration = s.lastIteration)

namespace Alg.Counts

variable {α β : Type} {keep : Prop} {φ : σ → Prop} {lo hi lo' hi' : Nat}

theorem pure {a : α} : Counts keep φ 0 0 (Pure.pure a : Alg (AlgState K σ) α) := by
  intro s ds r rest hs e
  have e : Res.ok (Except.ok a, s) ds = .ok r rest := e
  cases e
  exact ⟨by simp, fun a _ => ⟨hs, by simp, fun _ => rfl⟩⟩

theorem mono {m : Alg (AlgState K σ) α} (h : Counts keep φ lo hi m) (h1 : lo' ≤ lo) (h2 : hi ≤ hi') :
    Counts keep φ lo' hi' m := by
  intro s ds r rest hs e
  obtain ⟨ha, hb⟩ := h s ds r rest hs e
  exact ⟨by omega, fun a ea => ⟨(hb a ea).1, by have := (hb a ea).2.1; omega, (hb a ea).2.2⟩⟩

theorem bind {m : Alg (AlgState K σ) α} {f : α → Alg (AlgState K σ) β} (h : Counts keep φ lo hi m)
    (hf : ∀ a, Counts keep φ lo' hi' (f a)) : Counts keep φ (lo + lo') (hi + hi') (m >>= f) := by
  intro s ds r rest hs e
  rw [Alg.bind_apply] at e
  cases hm : m s ds with
  | ok q rest' =>
    obtain ⟨q, t⟩ := q
    obtain ⟨ha, hb⟩ := h s ds (q, t) rest' hs hm
    simp only at ha hb
    rw [hm] at e
    cases q with
    | ok a =>
      obtain ⟨h1, h2, h3⟩ := hb a rfl
      obtain ⟨h4, h5⟩ := hf a t rest' r rest h1 e
      refine ⟨by omega, fun b eb => ?_⟩
      obtain ⟨h6, h7, h8⟩ := h5 b eb
      exact ⟨h6, by omega, fun hk => (h8 hk).trans (h3 hk)⟩
    | error x =>
      cases e
      exact ⟨Nat.le_trans ha (by omega), fun b eb => (by cases eb)⟩
  | throw _ => rw [hm] at e; cases e
  | ub => rw [hm] at e; cases e
  | out => rw [hm] at e; cases e

/-- A first step without evaluations. -/
theorem step {m : Alg (AlgState K σ) α} {f : α → Alg (AlgState K σ) β} (h : Counts keep φ 0 0 m)
    (hf : ∀ a, Counts keep φ lo hi (f a)) : Counts keep φ lo hi (m >>= f) :=
  (h.bind hf).mono (by omega) (by omega)

/-- All evaluations are made in the first step. -/
theorem last {m : Alg (AlgState K σ) α} {f : α → Alg (AlgState K σ) β} (h : Counts keep φ lo hi m)
    (hf : ∀ a, Counts keep φ 0 0 (f a)) : Counts keep φ lo hi (m >>= f) := h.bind hf

theorem get_bind {f : AlgState K σ → Alg (AlgState K σ) β} (h : ∀ s, φ s.data → Counts keep φ lo hi (f s)) :
    Counts keep φ lo hi (Alg.get >>= f) := by
  intro s ds r rest hs e
  exact h s hs s ds r rest hs e

theorem modify {g : AlgState K σ → AlgState K σ} (h1 : ∀ s, φ s.data → φ (g s).data)
    (h2 : ∀ s, (g s).calls = s.calls) (h3 : keep → ∀ s, (g s).lastIteration = s.lastIteration) :
    Counts keep φ 0 0 (Alg.modify g) := by
  intro s ds r rest hs e
  have e : Res.ok (Except.ok (), g s) ds = .ok r rest := e
  cases e
  exact ⟨by simp [h2], fun a _ => ⟨h1 s hs, by simp [h2], fun hk => h3 hk s⟩⟩

theorem modify_bind {g : AlgState K σ → AlgState K σ} {f : Unit → Alg (AlgState K σ) β}
    (h1 : ∀ s, φ s.data → φ (g s).data) (h2 : ∀ s, (g s).calls = s.calls)
    (h3 : keep → ∀ s, (g s).lastIteration = s.lastIteration) (hf : Counts keep φ lo hi (f ())) :
    Counts keep φ lo hi (Alg.modify g >>= f) := (modify h1 h2 h3).step (fun _ => hf)

theorem lift_bind {o : Outcome α} {f : α → Alg (AlgState K σ) β} (h : ∀ a, o = .ok a → Counts keep φ lo hi (f a)) :
    Counts keep φ lo hi (Alg.lift o >>= f) := by
  intro s ds r rest hs e
  cases o with
  | ok a => exact h a rfl s ds r rest hs e
  | throw x =>
    have e : Res.ok (Except.error x, s) ds = .ok r rest := e
    cases e
    exact ⟨by simp, fun b eb => (by cases eb)⟩
  | ub => have e : Res.ub = .ok r rest := e; cases e

theorem lift {o : Outcome α} : Counts keep φ 0 0 (Alg.lift o : Alg (AlgState K σ) α) := by
  intro s ds r rest hs e
  cases o with
  | ok a => exact pure (a := a) s ds r rest hs e
  | throw x =>
    have e : Res.ok (Except.error x, s) ds = .ok r rest := e
    cases e
    exact ⟨by simp, fun b eb => (by cases eb)⟩
  | ub => have e : Res.ub = .ok r rest := e; cases e

theorem sim_bind {m : Sim α} {P : α → Prop} {f : α → Alg (AlgState K σ) β} (hm : Sim.Yields m P)
    (h : ∀ a, P a → Counts keep φ lo hi (f a)) : Counts keep φ lo hi (Alg.sim m >>= f) := by
  intro s ds r rest hs e
  rw [Alg.bind_apply] at e
  simp only [Alg.sim] at e
  cases hr : m ds with
  | ok a rest' => rw [hr] at e; exact h a (hm ds a rest' hr) s rest' r rest hs e
  | throw x =>
    rw [hr] at e
    have e : Res.ok (Except.error x, s) [] = .ok r rest := e
    cases e
    exact ⟨by simp, fun b eb => (by cases eb)⟩
  | ub => rw [hr] at e; cases e
  | out => rw [hr] at e; cases e

theorem ite {c : Prop} [Decidable c] {m k : Alg (AlgState K σ) α} (h1 : c → Counts keep φ lo hi m)
    (h2 : ¬ c → Counts keep φ lo hi k) : Counts keep φ lo hi (if c then m else k) := by
  split
  · exact h1 (by assumption)
  · exact h2 (by assumption)

theorem forLoop {body : Nat → Alg (AlgState K σ) Unit} (h : ∀ i, Counts keep φ lo hi (body i)) :
    ∀ n i, Counts keep φ (n * lo) (n * hi) (Alg.forLoop n i body)
  | 0, _ => pure.mono (by omega) (by omega)
  | n + 1, i => ((h i).bind (fun _ => forLoop h n (i + 1))).mono (by rw [Nat.succ_mul]; omega)
    (by rw [Nat.succ_mul]; omega)

theorem forRange {body : Nat → Alg (AlgState K σ) Unit} (h : ∀ i, Counts keep φ lo hi (body i)) (n : Nat) :
    Counts keep φ (n * lo) (n * hi) (Alg.forRange 0 n body) := by
  have := forLoop h (n - 0) 0
  rwa [Nat.sub_zero] at this

theorem evaluate {env : Env K} {x : BV} : Counts keep φ 1 1 (Hnco.evaluate env x : Alg (AlgState K σ) K) := by
  intro s ds r rest hs e
  unfold Hnco.evaluate at e
  cases h : env.stop s.calls x with
  | some x =>
    rw [h] at e
    have e : Res.ok (Except.error x, s) ds = .ok r rest := e
    cases e
    exact ⟨by simp, fun b eb => (by cases eb)⟩
  | none =>
    rw [h] at e
    simp only at e
    cases hv : env.fn.eval x with
    | ok v =>
      rw [hv] at e
      have e : Res.ok (Except.ok v, { s with calls := s.calls ++ [(x, v)] }) ds = .ok r rest := e
      cases e
      exact ⟨by simp, fun b _ => ⟨hs, by simp, fun _ => rfl⟩⟩
    | throw x =>
      rw [hv] at e
      have e : Res.ok (Except.error x, s) ds = .ok r rest := e
      cases e
      exact ⟨by simp, fun b eb => (by cases eb)⟩
    | ub => rw [hv] at e; cases e

theorem evaluate_bind {env : Env K} {x : BV} {f : K → Alg (AlgState K σ) α} (h : ∀ v, Counts keep φ lo hi (f v)) :
    Counts keep φ (lo + 1) (hi + 1) (Hnco.evaluate env x >>= f) :=
  (evaluate.bind h).mono (by omega) (by omega)

theorem evaluateIncrementally {env : Env K} {x : BV} {v : K} {flipped : List Nat} :
    Counts keep φ 1 1 (Hnco.evaluateIncrementally env x v flipped : Alg (AlgState K σ) K) := by
  unfold Hnco.evaluateIncrementally
  refine lift_bind (fun y _ => ?_)
  intro s ds r rest hs e
  change (match env.stop s.calls y with
    | some e => Alg.lift (.throw e)
    | none => do
      let v ← Alg.lift (env.fn.evalInc x v flipped)
      Alg.modify (fun s => { s with calls := s.calls ++ [(y, v)] })
      Pure.pure v : Alg (AlgState K σ) K) s ds = _ at e
  cases h : env.stop s.calls y with
  | some x =>
    rw [h] at e
    have e : Res.ok (Except.error x, s) ds = .ok r rest := e
    cases e
    exact ⟨by simp, fun b eb => (by cases eb)⟩
  | none =>
    rw [h] at e
    simp only at e
    cases hv : env.fn.evalInc x v flipped with
    | ok w =>
      rw [hv] at e
      have e : Res.ok (Except.ok w, { s with calls := s.calls ++ [(y, w)] }) ds = .ok r rest := e
      cases e
      exact ⟨by simp, fun b _ => ⟨hs, by simp, fun _ => rfl⟩⟩
    | throw x =>
      rw [hv] at e
      have e : Res.ok (Except.error x, s) ds = .ok r rest := e
      cases e
      exact ⟨by simp, fun b eb => (by cases eb)⟩
    | ub => rw [hv] at e; cases e

theorem setSolution {bv : BV} {v : K} : Counts keep φ 0 0 (Hnco.setSolution bv v : Alg (AlgState K σ) Unit) :=
  modify (fun _ h => h) (fun _ => rfl) (fun _ _ => rfl)

theorem updateSolution [LT K] [DecidableLT K] {bv : BV} {v : K} :
    Counts keep φ 0 0 (Hnco.updateSolution bv v : Alg (AlgState K σ) Unit) :=
  modify (fun s h => by split <;> exact h) (fun s => by split <;> rfl)
    (fun _ s => by split <;> rfl)

theorem randomSolution {env : Env K} : Counts keep φ 1 1 (Hnco.randomSolution env : Alg (AlgState K σ) Unit) := by
  unfold Hnco.randomSolution
  exact get_bind (fun s _ => sim_bind Sim.Yields.trivial (fun x _ => modify_bind (fun _ h => h) (fun _ => rfl)
    (fun _ _ => rfl) (evaluate_bind (fun v => modify (fun _ h => h) (fun _ => rfl) (fun _ _ => rfl)))))

theorem setSolutionEval {env : Env K} {bv : BV} :
    Counts keep φ 1 1 (Hnco.setSolutionEval env bv : Alg (AlgState K σ) Unit) := by
  unfold Hnco.setSolutionEval
  exact evaluate_bind (fun v => setSolution)

theorem updateSolutionEval [LT K] [DecidableLT K] {env : Env K} {bv : BV} :
    Counts keep φ 1 1 (Hnco.updateSolutionEval env bv : Alg (AlgState K σ) Unit) := by
  unfold Hnco.updateSolutionEval
  exact evaluate_bind (fun v => updateSolution)

end Alg.Counts

/-! ## Populations -/

/-- `φ` does not depend on the population, but on its size. -/
def PopLens.Keeps (L : PopLens σ K) (φ : σ → Prop) : Prop :=
  ∀ d p, φ d → p.bvs.length = (L.get d).bvs.length → φ (L.put p d)

section
variable {keep : Prop} {φ : σ → Prop}

theorem popEvaluate_counts {env : Env K} {L : PopLens σ K} {m : Nat} (hL : L.Keeps φ)
    (hm : ∀ d, φ d → (L.get d).bvs.length = m) : Alg.Counts keep φ m m (popEvaluate env L) := by
  unfold popEvaluate
  refine Alg.Counts.get_bind (fun s hs => Alg.Counts.lift_bind (fun _ _ => ?_))
  rw [hm _ hs]
  refine (Alg.Counts.forRange (lo := 1) (hi := 1) (fun i => ?_) m).mono (by omega) (by omega)
  unfold popEvaluateOne
  exact Alg.Counts.get_bind (fun s _ => Alg.Counts.lift_bind (fun x _ => Alg.Counts.evaluate_bind (fun v =>
    Alg.Counts.lift_bind (fun values _ => Alg.Counts.modify (fun s hs => hL _ _ hs rfl) (fun _ => rfl)
      (fun _ _ => rfl)))))

theorem randomBvs_yields : ∀ l : List BV, Sim.Yields (randomBvs l) (fun r => r.length = l.length)
  | [] => Sim.Yields.pure rfl
  | bv :: l => by
    unfold randomBvs
    exact Sim.Yields.skip (fun x => (randomBvs_yields l).bind (fun xs h => Sim.Yields.pure (by simp [h])))

theorem popPut_counts {L : PopLens σ K} (hL : L.Keeps φ) {m : Pop K → Sim (Pop K)}
    (hm : ∀ p, Sim.Yields (m p) (fun q => q.bvs.length = p.bvs.length)) {k : Nat}
    (hk : ∀ d, φ d → (L.get d).bvs.length = k) :
    Alg.Counts keep φ 0 0 (do
      let s ← Alg.get
      let p ← Alg.sim (m (L.get s.data))
      Alg.modify (fun s => { s with data := L.put p s.data }) : Alg (AlgState K σ) Unit) :=
  Alg.Counts.get_bind (fun s hs => Alg.Counts.sim_bind (hm _) (fun p hp => Alg.Counts.modify
    (fun t ht => hL _ _ ht (by rw [hp, hk _ hs, hk _ ht])) (fun _ => rfl) (fun _ _ => rfl)))

theorem popRandom_counts {L : PopLens σ K} (hL : L.Keeps φ) {k : Nat} (hk : ∀ d, φ d → (L.get d).bvs.length = k) :
    Alg.Counts keep φ 0 0 (popRandom L) :=
  popPut_counts hL (m := Pop.random) (fun p => (randomBvs_yields p.bvs).bind (fun _ h => Sim.Yields.pure h)) hk

theorem popSort_counts [LT K] [DecidableLT K] {L : PopLens σ K} (hL : L.Keeps φ) {k : Nat}
    (hk : ∀ d, φ d → (L.get d).bvs.length = k) : Alg.Counts keep φ 0 0 (popSort L) :=
  popPut_counts hL (m := Pop.sort) (fun p => Sim.Yields.skip (fun _ => Sim.Yields.skip (fun _ =>
    Sim.Yields.skip (fun _ => Sim.Yields.pure rfl)))) hk

theorem popSetSolution_counts {L : PopLens σ K} : Alg.Counts keep φ 0 0 (popSetSolution L) :=
  Alg.Counts.get_bind (fun s _ => Alg.Counts.lift_bind (fun x _ => Alg.Counts.lift_bind (fun v _ =>
    Alg.Counts.setSolution)))

theorem popUpdateSolution_counts [LT K] [DecidableLT K] {L : PopLens σ K} :
    Alg.Counts keep φ 0 0 (popUpdateSolution L) :=
  Alg.Counts.get_bind (fun s _ => Alg.Counts.lift_bind (fun x _ => Alg.Counts.lift_bind (fun v _ =>
    Alg.Counts.updateSolution)))

/-- Evaluation, sorting and update of the solution (shared by most algorithms). -/
theorem popGeneration_counts {α : Type} [LT K] [DecidableLT K] {env : Env K} {L : PopLens σ K} {m : Nat}
    (hL : L.Keeps φ) (hm : ∀ d, φ d → (L.get d).bvs.length = m) {f : Unit → Alg (AlgState K σ) α}
    (hf : Alg.Counts keep φ 0 0 (f ())) :
    Alg.Counts keep φ m m (popEvaluate env L >>= fun _ => popSort L >>= fun _ => popUpdateSolution L >>= f) :=
  (popEvaluate_counts hL hm).last (fun _ => (popSort_counts hL hm).step (fun _ =>
    popUpdateSolution_counts.step (fun _ => hf)))

/-! ## The loop -/

variable {lo hi lo' hi' : Nat}

theorem boundedLoop_counts {iterate : Alg (AlgState K σ) Unit} (h : Alg.Counts keep φ lo hi iterate) :
    ∀ k s ds r rest, φ s.data → boundedLoop iterate k s ds = .ok r rest →
      r.2.calls.length ≤ s.calls.length + k * hi ∧ s.calls.length ≤ s.calls.length + k * hi ∧
      ∀ a, r.1 = .ok a → s.calls.length ≤ r.2.calls.length ∧
        (keep → s.lastIteration = false → s.calls.length + k * lo ≤ r.2.calls.length)
  | 0, s, ds, r, rest, hs, e => by
    have e : Res.ok (Except.ok (), s) ds = .ok r rest := e
    cases e
    exact ⟨by simp, by simp, fun _ _ => ⟨le_refl _, fun _ _ => by simp⟩⟩
  | k + 1, s, ds, r, rest, hs, e => by
    change (if s.lastIteration = true then (pure () : Alg (AlgState K σ) Unit) else
      (iterate >>= fun _ => boundedLoop iterate k)) s ds = _ at e
    by_cases hl : s.lastIteration = true
    · rw [if_pos hl] at e
      have e : Res.ok (Except.ok (), s) ds = .ok r rest := e
      cases e
      exact ⟨by simp, by simp, fun _ _ => ⟨le_refl _, fun _ hf => (by rw [hl] at hf; cases hf)⟩⟩
    · rw [if_neg hl, Alg.bind_apply] at e
      cases hm : iterate s ds with
      | ok q rest' =>
        obtain ⟨q, t⟩ := q
        obtain ⟨h1, h2⟩ := h s ds (q, t) rest' hs hm
        simp only at h1 h2
        rw [hm] at e
        cases q with
        | ok a =>
          obtain ⟨h3, h4, h5⟩ := h2 a rfl
          obtain ⟨h6, _, h7⟩ := boundedLoop_counts h k t rest' r rest h3 e
          refine ⟨by rw [Nat.succ_mul]; omega, by omega, fun b eb => ?_⟩
          obtain ⟨h8, h9⟩ := h7 b eb
          refine ⟨by omega, fun hk hf => ?_⟩
          have := h9 hk ((h5 hk).trans hf)
          rw [Nat.succ_mul]
          omega
        | error x =>
          cases e
          exact ⟨by rw [Nat.succ_mul]; simp only; omega, by omega, fun b eb => (by cases eb)⟩
      | throw _ => rw [hm] at e; cases e
      | ub => rw [hm] at e; cases e
      | out => rw [hm] at e; cases e

theorem unboundedLoop_counts {iterate : Alg (AlgState K σ) Unit} (h : Alg.Counts keep φ lo hi iterate) :
    ∀ k s ds r rest, φ s.data → unboundedLoop iterate k s ds = .ok r rest →
      keep → s.lastIteration = false → ∀ a, r.1 ≠ .ok a
  | 0, s, ds, r, rest, hs, e => by cases e
  | k + 1, s, ds, r, rest, hs, e => by
    change (if s.lastIteration = true then (pure () : Alg (AlgState K σ) Unit) else
      (iterate >>= fun _ => unboundedLoop iterate k)) s ds = _ at e
    intro hk hl a ea
    rw [if_neg (by rw [hl]; simp), Alg.bind_apply] at e
    cases hm : iterate s ds with
    | ok q rest' =>
      obtain ⟨q, t⟩ := q
      obtain ⟨h1, h2⟩ := h s ds (q, t) rest' hs hm
      simp only at h1 h2
      rw [hm] at e
      cases q with
      | ok b =>
        obtain ⟨h3, _, h5⟩ := h2 b rfl
        exact unboundedLoop_counts h k t rest' r rest h3 e hk ((h5 hk).trans hl) a ea
      | error x => cases e; cases ea
    | throw _ => rw [hm] at e; cases e
    | ub => rw [hm] at e; cases e
    | out => rw [hm] at e; cases e

/-- With `k` iterations. -/
theorem algLoop_counts {init iterate : Alg (AlgState K σ) Unit} (h0 : Alg.Counts keep φ lo' hi' init)
    (h : Alg.Counts keep φ lo hi iterate) {k fuel : Nat} (hk : 0 < k) {s : AlgState K σ} (hs : φ s.data)
    {ds rest : List Nat} {r : Except Exn Unit × AlgState K σ}
    (e : algLoop init iterate (k : Int) fuel s ds = .ok r rest) :
    r.2.calls.length ≤ s.calls.length + (hi' + k * hi) ∧
    ∀ a, r.1 = .ok a → keep → s.calls.length + (lo' + k * lo) ≤ r.2.calls.length := by
  unfold algLoop at e
  rw [if_pos (by exact_mod_cast hk : (k : Int) > 0), Alg.bind_apply] at e
  cases hm : init s ds with
  | ok q rest' =>
    obtain ⟨q, t⟩ := q
    obtain ⟨h1, h2⟩ := h0 s ds (q, t) rest' hs hm
    simp only at h1 h2
    rw [hm] at e
    cases q with
    | ok a =>
      obtain ⟨h3, h4, _⟩ := h2 a rfl
      obtain ⟨h6, _, h7⟩ := boundedLoop_counts h k { t with lastIteration := false } rest' r rest h3 e
      simp only at h6 h7
      exact ⟨by omega, fun b eb hkeep => by have := (h7 b eb).2 hkeep trivial; omega⟩
    | error x =>
      cases e
      exact ⟨by simp only; omega, fun b eb => (by cases eb)⟩
  | throw _ => rw [hm] at e; cases e
  | ub => rw [hm] at e; cases e
  | out => rw [hm] at e; cases e

/-- Without a number of iterations. -/
theorem algLoop_endless {init iterate : Alg (AlgState K σ) Unit} (h0 : Alg.Counts keep φ lo' hi' init)
    (h : Alg.Counts keep φ lo hi iterate) {k : Int} {fuel : Nat} (hk : k ≤ 0) {s : AlgState K σ} (hs : φ s.data)
    {ds rest : List Nat} {r : Except Exn Unit × AlgState K σ}
    (e : algLoop init iterate k fuel s ds = .ok r rest) (hkeep : keep) : ∀ a, r.1 ≠ .ok a := by
  unfold algLoop at e
  rw [if_neg (by omega : ¬ k > 0), Alg.bind_apply] at e
  cases hm : init s ds with
  | ok q rest' =>
    obtain ⟨q, t⟩ := q
    obtain ⟨h1, h2⟩ := h0 s ds (q, t) rest' hs hm
    simp only at h1 h2
    rw [hm] at e
    cases q with
    | ok a => exact unboundedLoop_counts h fuel { t with lastIteration := false } rest' r rest (h2 a rfl).1 e hkeep rfl
    | error x => cases e; intro a ea; cases ea
  | throw _ => rw [hm] at e; cases e
  | ub => rw [hm] at e; cases e
  | out => rw [hm] at e; cases e

end

end Hnco
