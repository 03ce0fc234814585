import Verif.Algorithm.Counts

/-!
# Computations which raise no exception by themselves

`Outcome.Calm`, `Sim.Calm`: the computation throws no exception.  `Alg.Calm env m`: every exception which interrupts `m` has been
raised by the function.  These are classes, so that the cases of the definitions of the model are found by instance search.
-/

namespace Hnco

open Outcome

variable {K σ : Type} {α β : Type}

/-- The computation throws no exception. -/
class Outcome.Calm {α : Type} (o : Outcome α) : Prop where
  out : ∀ e, o ≠ .throw e

/-- The computation throws no exception, whatever the draws. -/
class Sim.Calm {α : Type} (m : Sim α) : Prop where
  out : ∀ ds e, m ds ≠ .throw e

/-- After the given calls, the function raises the exception. -/
def Env.Raises (env : Env K) (calls : List (BV × K)) (e : Exn) : Prop :=
  (∃ x, env.stop calls x = some e) ∨ (∃ x, env.fn.eval x = .throw e) ∨ ∃ x v l, env.fn.evalInc x v l = .throw e

/-- From the given state, only the function interrupts the computation. -/
def Alg.CalmAt {α : Type} (env : Env K) (m : Alg (AlgState K σ) α) (s : AlgState K σ) : Prop :=
  ∀ ds e t rest, m s ds = .ok (.error e, t) rest → env.Raises t.calls e

/-- Only the function interrupts the computation. -/
class Alg.Calm {α : Type} (env : Env K) (m : Alg (AlgState K σ) α) : Prop where
  out : ∀ s, Alg.CalmAt env m s

/-! ## Outcomes -/

instance (a : α) : Outcome.Calm (.ok a) := ⟨by intro e h; cases h⟩
instance (a : α) : Outcome.Calm (pure a) := ⟨by intro e h; cases h⟩
instance : Outcome.Calm (.ub : Outcome α) := ⟨by intro e h; cases h⟩

instance outcomeCalm_bind (o : Outcome α) (f : α → Outcome β) [h : o.Calm] [hf : ∀ a, (f a).Calm] : (o >>= f).Calm := by
  refine ⟨fun e he => ?_⟩
  cases o with
  | ok a => exact (hf a).out e he
  | throw x => exact h.out x rfl
  | ub => cases he

instance (c : Prop) [Decidable c] (a b : Outcome α) [ha : a.Calm] [hb : b.Calm] : (if c then a else b).Calm := by
  split
  · exact ha
  · exact hb

instance (b : Bool) : (Outcome.assert b).Calm := ⟨by intro e h; cases b <;> cases h⟩

instance (l : List α) (i : Nat) : (vget l i).Calm := by
  refine ⟨fun e h => ?_⟩
  unfold vget at h
  cases hi : l[i]? <;> rw [hi] at h <;> cases h

instance (l : List α) (i : Nat) (a : α) : (vset l i a).Calm := by
  refine ⟨fun e h => ?_⟩
  by_cases hi : i < l.length
  · rw [vset_eq hi] at h; cases h
  · rw [vset_ub (Nat.le_of_not_lt hi)] at h; cases h

theorem forLoop_calm {body : Nat → α → Outcome α} [h : ∀ i s, (body i s).Calm] : ∀ n i s, (Hnco.forLoop n i body s).Calm
  | 0, _, s => inferInstanceAs (Outcome.Calm (.ok s))
  | n + 1, i, s => by
    have := fun t => forLoop_calm (h := h) n (i + 1) t
    exact inferInstanceAs (Outcome.Calm (body i s >>= fun t => Hnco.forLoop n (i + 1) body t))

instance (a b : Nat) (body : Nat → α → Outcome α) (s : α) [∀ i s, (body i s).Calm] : (Hnco.forRange a b body s).Calm :=
  forLoop_calm _ _ _

/-! ## Draws -/

instance (a : α) : Sim.Calm (pure a) := ⟨by intro ds e h; cases h⟩

instance simCalm_bind (m : Sim α) (f : α → Sim β) [h : m.Calm] [hf : ∀ a, (f a).Calm] : (m >>= f).Calm := by
  refine ⟨fun ds e he => ?_⟩
  change Sim.bind m f ds = _ at he
  unfold Sim.bind at he
  cases hm : m ds with
  | ok a rest => rw [hm] at he; exact (hf a).out rest e he
  | throw x => exact h.out ds x hm
  | ub => rw [hm] at he; cases he
  | out => rw [hm] at he; cases he

instance (c : Prop) [Decidable c] (a b : Sim α) [ha : a.Calm] [hb : b.Calm] : (if c then a else b).Calm := by
  split
  · exact ha
  · exact hb

instance (o : Outcome α) [h : o.Calm] : (Sim.lift o).Calm := by
  refine ⟨fun ds e he => ?_⟩
  cases o with
  | ok a => cases he
  | throw x => exact h.out x rfl
  | ub => cases he

instance (o : Outcome α) [h : o.Calm] : Sim.Calm (liftM o : Sim α) := inferInstanceAs (Sim.lift o).Calm

instance : Sim.Calm (fun _ => .out : Sim α) := ⟨by intro ds e h; cases h⟩
instance : Sim.Calm (fun _ => .ub : Sim α) := ⟨by intro ds e h; cases h⟩
instance : Sim.Calm Sim.draw := ⟨by intro ds e h; cases ds <;> cases h⟩
instance (lo hi : Nat) : (Sim.uniformInt lo hi).Calm := by unfold Sim.uniformInt; infer_instance
instance : Sim.bernoulli.Calm := by unfold Sim.bernoulli; infer_instance
instance (l : List α) : (Sim.shuffle l).Calm := ⟨by intro ds e h; cases ds <;> cases h⟩

theorem repeatGo_calm {body : Sim α} [body.Calm] {stop : α → Bool} : ∀ k, (Sim.repeatGo body stop k).Calm
  | 0 => by unfold Sim.repeatGo; infer_instance
  | k + 1 => by
    have := repeatGo_calm (body := body) (stop := stop) k
    unfold Sim.repeatGo
    infer_instance

instance (body : Sim α) [body.Calm] (stop : α → Bool) : (Sim.repeatUntil body stop).Calm :=
  ⟨fun ds e h => (repeatGo_calm (body := body) (stop := stop) (ds.length + 1)).out ds e h⟩

theorem simForLoop_calm {body : Nat → α → Sim α} [h : ∀ i s, (body i s).Calm] : ∀ n i s, (Sim.forLoop n i body s).Calm
  | 0, _, s => inferInstanceAs (Sim.Calm (pure s))
  | n + 1, i, s => by
    have := fun t => simForLoop_calm (h := h) n (i + 1) t
    exact inferInstanceAs (Sim.Calm (body i s >>= fun t => Sim.forLoop n (i + 1) body t))

instance (a b : Nat) (body : Nat → α → Sim α) (s : α) [∀ i s, (body i s).Calm] : (Sim.forRange a b body s).Calm :=
  simForLoop_calm _ _ _

/-! ## Algorithms -/

variable {env : Env K}

instance (a : α) : Alg.Calm env (pure a : Alg (AlgState K σ) α) := ⟨by intro s ds e t rest h; cases h⟩
instance : Alg.Calm env (Alg.get : Alg (AlgState K σ) _) := ⟨by intro s ds e t rest h; cases h⟩
instance (g : AlgState K σ → AlgState K σ) : Alg.Calm env (Alg.modify g) := ⟨by intro s ds e t rest h; cases h⟩
instance : Alg.Calm env (fun _ _ => .out : Alg (AlgState K σ) α) := ⟨by intro s ds e t rest h; cases h⟩

theorem Alg.CalmAt.bind {m : Alg (AlgState K σ) α} {f : α → Alg (AlgState K σ) β} {s : AlgState K σ} (h : CalmAt env m s)
    (hf : ∀ a t ds rest, m s ds = .ok (.ok a, t) rest → CalmAt env (f a) t) : CalmAt env (m >>= f) s := by
  intro ds e t rest he
  rw [Alg.bind_apply] at he
  cases hm : m s ds with
  | ok r rest' =>
    obtain ⟨r, u⟩ := r
    rw [hm] at he
    cases r with
    | ok a => exact hf a u ds rest' hm rest' e t rest he
    | error x => cases he; exact h _ _ _ _ hm
  | throw x => rw [hm] at he; cases he
  | ub => rw [hm] at he; cases he
  | out => rw [hm] at he; cases he

instance algCalm_bind (m : Alg (AlgState K σ) α) (f : α → Alg (AlgState K σ) β) [h : Alg.Calm env m]
    [hf : ∀ a, Alg.Calm env (f a)] : Alg.Calm env (m >>= f) :=
  ⟨fun s => Alg.CalmAt.bind (h.out s) (fun a t _ _ _ => (hf a).out t)⟩

instance (c : Prop) [Decidable c] (a b : Alg (AlgState K σ) α) [ha : Alg.Calm env a] [hb : Alg.Calm env b] :
    Alg.Calm env (if c then a else b) := by
  split
  · exact ha
  · exact hb

instance (o : Outcome α) [h : o.Calm] : Alg.Calm env (Alg.lift o : Alg (AlgState K σ) α) := by
  refine ⟨fun s ds e t rest he => ?_⟩
  cases o with
  | ok a => cases he
  | throw x => exact (h.out x rfl).elim
  | ub => cases he

instance (m : Sim α) [h : m.Calm] : Alg.Calm env (Alg.sim m : Alg (AlgState K σ) α) := by
  refine ⟨fun s ds e t rest he => ?_⟩
  unfold Alg.sim at he
  cases hm : m ds with
  | ok a rest => rw [hm] at he; cases he
  | throw x => exact (h.out ds x hm).elim
  | ub => rw [hm] at he; cases he
  | out => rw [hm] at he; cases he

theorem algForLoop_calm {body : Nat → Alg (AlgState K σ) Unit} [h : ∀ i, Alg.Calm env (body i)] :
    ∀ n i, Alg.Calm env (Alg.forLoop n i body)
  | 0, _ => inferInstanceAs (Alg.Calm env (pure ()))
  | n + 1, i => by
    have := algForLoop_calm (h := h) n (i + 1)
    exact inferInstanceAs (Alg.Calm env (body i >>= fun _ => Alg.forLoop n (i + 1) body))

instance algCalm_forRange (a b : Nat) (body : Nat → Alg (AlgState K σ) Unit) [∀ i, Alg.Calm env (body i)] :
    Alg.Calm env (Alg.forRange a b body) := algForLoop_calm _ _

instance (x : BV) : Alg.Calm env (evaluate env x : Alg (AlgState K σ) K) := by
  refine ⟨fun s ds e t rest he => ?_⟩
  unfold evaluate at he
  cases h : env.stop s.calls x with
  | some y => rw [h] at he; cases he; exact Or.inl ⟨x, h⟩
  | none =>
    rw [h] at he
    simp only at he
    cases hv : env.fn.eval x with
    | ok v => rw [hv] at he; cases he
    | throw y => rw [hv] at he; cases he; exact Or.inr (Or.inl ⟨x, hv⟩)
    | ub => rw [hv] at he; cases he

theorem boundedLoop_calm {iterate : Alg (AlgState K σ) Unit} [Alg.Calm env iterate] :
    ∀ k, Alg.Calm env (boundedLoop iterate k)
  | 0 => by unfold boundedLoop; infer_instance
  | k + 1 => by
    have := boundedLoop_calm (iterate := iterate) k
    unfold boundedLoop
    infer_instance

theorem unboundedLoop_calm {iterate : Alg (AlgState K σ) Unit} [Alg.Calm env iterate] :
    ∀ k, Alg.Calm env (unboundedLoop iterate k)
  | 0 => by unfold unboundedLoop; infer_instance
  | k + 1 => by
    have := unboundedLoop_calm (iterate := iterate) k
    unfold unboundedLoop
    infer_instance

theorem Alg.CalmAt.loop {init iterate : Alg (AlgState K σ) Unit} {s : AlgState K σ} (h : CalmAt env init s)
    [Alg.Calm env iterate] (k : Int) (fuel : Nat) : CalmAt env (algLoop init iterate k fuel) s := by
  have := boundedLoop_calm (env := env) (iterate := iterate)
  have := unboundedLoop_calm (env := env) (iterate := iterate)
  unfold algLoop
  exact h.bind (fun _ t _ _ _ => Alg.Calm.out t)

instance (init iterate : Alg (AlgState K σ) Unit) [h : Alg.Calm env init] [Alg.Calm env iterate] (k : Int) (fuel : Nat) :
    Alg.Calm env (algLoop init iterate k fuel) := ⟨fun s => (h.out s).loop k fuel⟩

/-- Case analysis, then instance search. -/
macro "calm" : tactic => `(tactic| repeat' (first
  | infer_instance
  | refine @outcomeCalm_bind _ _ _ _ ?_ ?_
  | refine @simCalm_bind _ _ _ _ ?_ ?_
  | refine @algCalm_bind _ _ _ _ _ _ _ ?_ ?_
  | refine @algCalm_forRange _ _ _ _ _ _ ?_
  | intro _
  | split
  | dsimp only))

end Hnco
