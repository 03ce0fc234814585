import Verif.Algorithm.Counts

/-!
# Computations which go on only with evaluations which are not interrupted

`Alg.Steady env m`: every evaluation which `m` has recorded was one that `env` does not stop.  This is a class, so that the cases
of the definitions of the model are found by instance search.
-/

namespace Hnco

open Outcome

variable {K σ : Type} {α β : Type}

/-- A value which the function has computed. -/
def Env.Gives (env : Env K) (x : BV) (v : K) : Prop := env.fn.eval x = ok v ∨ ∃ y w l, env.fn.evalInc y w l = ok v

/-- From the calls `l` to the calls `l'` through evaluations which are not stopped. -/
inductive Env.Extends (env : Env K) (l : List (BV × K)) : List (BV × K) → Prop where
  | refl : env.Extends l l
  | snoc {l' : List (BV × K)} {x : BV} {v : K} : env.Extends l l' → env.stop l' x = none → env.Gives x v →
      env.Extends l (l' ++ [(x, v)])

theorem Env.Extends.trans {env : Env K} {a b c : List (BV × K)} (h : env.Extends a b) (h' : env.Extends b c) : env.Extends a c := by
  induction h' with
  | refl => exact h
  | snoc _ hx hv ih => exact ih.snoc hx hv

/-- The computation adds only evaluations which are not stopped. -/
class Alg.Steady {α : Type} (env : Env K) (m : Alg (AlgState K σ) α) : Prop where
  out : ∀ s ds a t rest, m s ds = .ok (a, t) rest → env.Extends s.calls t.calls

variable {env : Env K}

instance (a : α) : Alg.Steady env (pure a : Alg (AlgState K σ) α) := ⟨by intro s ds a t rest h; cases h; exact .refl⟩
instance : Alg.Steady env (Alg.get : Alg (AlgState K σ) _) := ⟨by intro s ds a t rest h; cases h; exact .refl⟩
instance : Alg.Steady env (fun _ _ => .out : Alg (AlgState K σ) α) := ⟨by intro s ds a t rest h; cases h⟩
instance : Alg.Steady env (fun _ _ => .ub : Alg (AlgState K σ) α) := ⟨by intro s ds a t rest h; cases h⟩

theorem steady_modify {g : AlgState K σ → AlgState K σ} (hg : ∀ s, (g s).calls = s.calls) : Alg.Steady env (Alg.modify g) := by
  refine ⟨?_⟩
  intro s ds a t rest h
  cases h
  rw [hg]
  exact .refl

instance algSteady_bind (m : Alg (AlgState K σ) α) (f : α → Alg (AlgState K σ) β) [h : Alg.Steady env m]
    [hf : ∀ a, Alg.Steady env (f a)] : Alg.Steady env (m >>= f) := by
  refine ⟨fun s ds b t rest he => ?_⟩
  rw [Alg.bind_apply] at he
  cases hm : m s ds with
  | ok r rest' =>
    obtain ⟨r, u⟩ := r
    rw [hm] at he
    have h1 := h.out _ _ _ _ _ hm
    cases r with
    | ok a => exact h1.trans ((hf a).out _ _ _ _ _ he)
    | error x => cases he; exact h1
  | throw x => rw [hm] at he; cases he
  | ub => rw [hm] at he; cases he
  | out => rw [hm] at he; cases he

instance (c : Prop) [Decidable c] (a b : Alg (AlgState K σ) α) [ha : Alg.Steady env a] [hb : Alg.Steady env b] :
    Alg.Steady env (if c then a else b) := by
  split
  · exact ha
  · exact hb

instance (o : Outcome α) : Alg.Steady env (Alg.lift o : Alg (AlgState K σ) α) := by
  refine ⟨fun s ds b t rest he => ?_⟩
  cases o with
  | ok a => cases he; exact .refl
  | throw x => cases he; exact .refl
  | ub => cases he

instance (m : Sim α) : Alg.Steady env (Alg.sim m : Alg (AlgState K σ) α) := by
  refine ⟨fun s ds b t rest he => ?_⟩
  unfold Alg.sim at he
  cases hm : m ds with
  | ok a rest => rw [hm] at he; cases he; exact .refl
  | throw x => rw [hm] at he; cases he; exact .refl
  | ub => rw [hm] at he; cases he
  | out => rw [hm] at he; cases he

theorem algForLoop_steady {body : Nat → Alg (AlgState K σ) Unit} [h : ∀ i, Alg.Steady env (body i)] :
    ∀ n i, Alg.Steady env (Alg.forLoop n i body)
  | 0, _ => inferInstanceAs (Alg.Steady env (pure ()))
  | n + 1, i => by
    have := algForLoop_steady (h := h) n (i + 1)
    exact inferInstanceAs (Alg.Steady env (body i >>= fun _ => Alg.forLoop n (i + 1) body))

instance algSteady_forRange (a b : Nat) (body : Nat → Alg (AlgState K σ) Unit) [∀ i, Alg.Steady env (body i)] :
    Alg.Steady env (Alg.forRange a b body) := algForLoop_steady _ _

instance (x : BV) : Alg.Steady env (evaluate env x : Alg (AlgState K σ) K) := by
  refine ⟨fun s ds b t rest he => ?_⟩
  unfold evaluate at he
  cases h : env.stop s.calls x with
  | some y => rw [h] at he; cases he; exact .refl
  | none =>
    rw [h] at he
    simp only at he
    cases hv : env.fn.eval x with
    | ok v => rw [hv] at he; cases he; exact .snoc .refl h (.inl hv)
    | throw y => rw [hv] at he; cases he; exact .refl
    | ub => rw [hv] at he; cases he

instance (x : BV) (v : K) (flipped : List Nat) :
    Alg.Steady env (evaluateIncrementally env x v flipped : Alg (AlgState K σ) K) := by
  unfold evaluateIncrementally
  refine @algSteady_bind _ _ _ _ _ _ _ inferInstance (fun y => ⟨fun s ds b t rest he => ?_⟩)
  change (match env.stop s.calls y with
    | some e => Alg.lift (.throw e)
    | none => do
      let v ← Alg.lift (env.fn.evalInc x v flipped)
      Alg.modify (fun s => { s with calls := s.calls ++ [(y, v)] })
      Pure.pure v : Alg (AlgState K σ) K) s ds = _ at he
  cases h : env.stop s.calls y with
  | some z => rw [h] at he; cases he; exact .refl
  | none =>
    rw [h] at he
    simp only at he
    cases hv : env.fn.evalInc x v flipped with
    | ok w => rw [hv] at he; cases he; exact .snoc .refl h (.inr ⟨_, _, _, hv⟩)
    | throw z => rw [hv] at he; cases he; exact .refl
    | ub => rw [hv] at he; cases he

theorem boundedLoop_steady {iterate : Alg (AlgState K σ) Unit} [Alg.Steady env iterate] :
    ∀ k, Alg.Steady env (boundedLoop iterate k)
  | 0 => by unfold boundedLoop; infer_instance
  | k + 1 => by
    have := boundedLoop_steady (iterate := iterate) k
    unfold boundedLoop
    infer_instance

theorem unboundedLoop_steady {iterate : Alg (AlgState K σ) Unit} [Alg.Steady env iterate] :
    ∀ k, Alg.Steady env (unboundedLoop iterate k)
  | 0 => by unfold unboundedLoop; infer_instance
  | k + 1 => by
    have := unboundedLoop_steady (iterate := iterate) k
    unfold unboundedLoop
    infer_instance

instance (init iterate : Alg (AlgState K σ) Unit) [Alg.Steady env init] [Alg.Steady env iterate] (k : Int) (fuel : Nat) :
    Alg.Steady env (algLoop init iterate k fuel) := by
  have := boundedLoop_steady (env := env) (iterate := iterate)
  have := unboundedLoop_steady (env := env) (iterate := iterate)
  have : Alg.Steady env (Alg.modify (fun s : AlgState K σ => { s with lastIteration := false })) := steady_modify (fun _ => rfl)
  unfold algLoop
  infer_instance

/-- Case analysis, then instance search. -/
macro "steady" : tactic => `(tactic| repeat' (first
  | infer_instance
  | exact steady_modify (fun _ => rfl)
  | exact steady_modify (fun _ => by (try dsimp only); split <;> rfl)
  | refine @algSteady_bind _ _ _ _ _ _ _ ?_ ?_
  | refine @algSteady_forRange _ _ _ _ _ _ ?_
  | intro _
  | split
  | dsimp only))

end Hnco
