import Verif.Function.Base
import Verif.BitVector.Model
import Verif.Random

/-!
# Search algorithms

Models `lib/hnco/algorithms/algorithm.hh`, `algorithm.cc`, `iterative-algorithm.cc`.

An algorithm draws random numbers, changes its state, and calls a function.  A call can be interrupted by an
exception (`LastEvaluation`, ...); the state at this point matters, since the solution is read afterwards.  Hence
computations return their final state also when an exception is thrown.
-/

namespace Hnco

open Outcome

/-- A computation with state `S` that draws random numbers and can throw. -/
def Alg (S α : Type) := S → Sim (Except Exn α × S)

namespace Alg

variable {S α β : Type}

/-- Sequencing: an exception skips the rest, and keeps the state. -/
protected def bind (m : Alg S α) (f : α → Alg S β) : Alg S β := fun s => do
  let r ← m s
  match r.1 with
  | .ok a => f a r.2
  | .error e => pure (.error e, r.2)

instance : Monad (Alg S) where
  pure a := fun s => pure (.ok a, s)
  bind := Alg.bind

theorem bind_apply (m : Alg S α) (f : α → Alg S β) (s : S) (ds : List Nat) : (m >>= f) s ds =
    match m s ds with
    | .ok r rest => (match r.1 with
      | .ok a => f a r.2 rest
      | .error e => .ok (.error e, r.2) rest)
    | .throw e => .throw e
    | .ub => .ub
    | .out => .out := by
  change Sim.bind (m s) _ ds = _
  unfold Sim.bind
  cases m s ds with
  | ok r rest => obtain ⟨r, t⟩ := r; cases r <;> rfl
  | throw e => rfl
  | ub => rfl
  | out => rfl

/-- The current state. -/
def get : Alg S S := fun s => pure (.ok s, s)

/-- Changes the state. -/
def modify (f : S → S) : Alg S Unit := fun s => pure (.ok (), f s)

/-- A computation without draws and state. -/
def lift (o : Outcome α) : Alg S α := fun s =>
  match o with
  | .ok a => pure (.ok a, s)
  | .throw e => pure (.error e, s)
  | .ub => fun _ => .ub

/-- A computation with draws, without state. -/
def sim (m : Sim α) : Alg S α := fun s ds =>
  match m ds with
  | .ok a rest => .ok (.ok a, s) rest
  | .throw e => .ok (.error e, s) []
  | .ub => .ub
  | .out => .out

/-- `n` iterations of a loop body, the counter starting at `i`. -/
def forLoop : Nat → Nat → (Nat → Alg S Unit) → Alg S Unit
  | 0, _, _ => pure ()
  | n + 1, i, body => do
    body i
    forLoop n (i + 1) body

/-- `for (i = a; i < b; i++) body`. -/
def forRange (a b : Nat) (body : Nat → Alg S Unit) : Alg S Unit := forLoop (b - a) a body

/-- Whatever the draws, a run that ends has no undefined behaviour; its result and state satisfy `Q` if it returns
normally, and its state satisfies `E` if it throws. -/
def Holds (m : Alg S α) (s : S) (Q : α → S → Prop) (E : S → Prop) : Prop :=
  Sim.Post (m s) (fun r => match r.1 with
    | .ok a => Q a r.2
    | .error _ => E r.2)

theorem Holds.pure {a : α} {s : S} {Q : α → S → Prop} {E : S → Prop} (h : Q a s) :
    Holds (pure a : Alg S α) s Q E := Sim.Post.pure h

theorem Holds.bind {m : Alg S α} {f : α → Alg S β} {s : S} {P : α → S → Prop} {Q : β → S → Prop} {E : S → Prop}
    (h : Holds m s P E) (hf : ∀ a t, P a t → Holds (f a) t Q E) : Holds (m >>= f) s Q E := by
  refine Sim.Post.bind h ?_
  rintro ⟨r, t⟩ hr
  cases r with
  | ok a => exact hf a t hr
  | error e => exact Sim.Post.pure hr

theorem Holds.mono {m : Alg S α} {s : S} {P Q : α → S → Prop} {E F : S → Prop} (h : Holds m s P E)
    (h1 : ∀ a t, P a t → Q a t) (h2 : ∀ t, E t → F t) : Holds m s Q F := by
  refine Sim.Post.mono h ?_
  rintro ⟨r, t⟩ hr
  cases r with
  | ok a => exact h1 a t hr
  | error e => exact h2 t hr

theorem Holds.get {s : S} {Q : S → S → Prop} {E : S → Prop} (h : Q s s) : Holds (get : Alg S S) s Q E :=
  Sim.Post.pure h

theorem Holds.modify {f : S → S} {s : S} {Q : Unit → S → Prop} {E : S → Prop} (h : Q () (f s)) :
    Holds (modify f) s Q E := Sim.Post.pure h

theorem Holds.get_bind {f : S → Alg S β} {s : S} {Q : β → S → Prop} {E : S → Prop} (h : Holds (f s) s Q E) :
    Holds (Alg.get >>= f) s Q E :=
  Holds.bind (P := fun a t => a = s ∧ t = s) (Holds.get ⟨rfl, rfl⟩) (by rintro _ _ ⟨rfl, rfl⟩; exact h)

theorem Holds.modify_bind {g : S → S} {f : Unit → Alg S β} {s : S} {Q : β → S → Prop} {E : S → Prop}
    (h : Holds (f ()) (g s) Q E) : Holds (Alg.modify g >>= f) s Q E :=
  Holds.bind (P := fun _ t => t = g s) (Holds.modify rfl) (by rintro _ _ rfl; exact h)

theorem Holds.lift {o : Outcome α} {s : S} {Q : α → S → Prop} {E : S → Prop} (h : o.Returns (fun a => Q a s)) :
    Holds (lift o) s Q E := by
  obtain ⟨a, rfl, ha⟩ := h
  exact Sim.Post.pure ha

theorem Holds.sim {m : Sim α} {s : S} {Q : α → S → Prop} {E : S → Prop} (h : Sim.Post m (fun a => Q a s)) :
    Holds (sim m) s Q E := by
  intro ds
  have := h ds
  simp only [Alg.sim]
  cases e : m ds with
  | ok a rest => rw [e] at this; exact this
  | throw e' => rw [e] at this; exact this.elim
  | ub => rw [e] at this; exact this
  | out => trivial

theorem Holds.lift_bind {o : Outcome α} {a : α} {f : α → Alg S β} {s : S} {Q : β → S → Prop} {E : S → Prop}
    (ho : o = .ok a) (h : Holds (f a) s Q E) : Holds (Alg.lift o >>= f) s Q E :=
  Holds.bind (P := fun b t => b = a ∧ t = s) (Holds.lift ⟨a, ho, rfl, rfl⟩) (by rintro _ _ ⟨rfl, rfl⟩; exact h)

theorem Holds.returns_bind {o : Outcome α} {P : α → Prop} {f : α → Alg S β} {s : S} {Q : β → S → Prop}
    {E : S → Prop} (ho : o.Returns P) (h : ∀ a, P a → Holds (f a) s Q E) : Holds (Alg.lift o >>= f) s Q E := by
  obtain ⟨a, ho, ha⟩ := ho
  exact Holds.lift_bind ho (h a ha)

theorem Holds.sim_bind {m : Sim α} {P : α → Prop} {f : α → Alg S β} {s : S} {Q : β → S → Prop} {E : S → Prop}
    (hm : Sim.Post m P) (h : ∀ a, P a → Holds (f a) s Q E) : Holds (Alg.sim m >>= f) s Q E :=
  Holds.bind (P := fun a t => P a ∧ t = s) (Holds.sim (hm.mono (fun _ ha => ⟨ha, rfl⟩)))
    (by rintro a _ ⟨ha, rfl⟩; exact h a ha)

theorem Holds.assert_bind {b : Bool} {f : Unit → Alg S β} {s : S} {Q : β → S → Prop} {E : S → Prop} (hb : b = true)
    (h : Holds (f ()) s Q E) : Holds (Alg.lift (Outcome.assert b) >>= f) s Q E :=
  Holds.lift_bind (Outcome.assert_pos hb) h

theorem Holds.assert {b : Bool} {s : S} {Q : Unit → S → Prop} {E : S → Prop} (hb : b = true) (h : Q () s) :
    Holds (Alg.lift (Outcome.assert b)) s Q E := Holds.lift ⟨(), Outcome.assert_pos hb, h⟩

theorem Holds.forLoop {body : Nat → Alg S Unit} (I : Nat → S → Prop) {E : S → Prop} :
    ∀ (n i : Nat) (s : S), I i s →
      (∀ j t, i ≤ j → j < i + n → I j t → Holds (body j) t (fun _ => I (j + 1)) E) →
      Holds (Alg.forLoop n i body) s (fun _ => I (i + n)) E := by
  intro n
  induction n with
  | zero => intro i s h0 _; exact Holds.pure h0
  | succ n ih =>
    intro i s h0 hs
    refine (hs i s (Nat.le_refl _) (by omega) h0).bind ?_
    intro _ t ht
    have := ih (i + 1) t ht (fun j u h1 h2 hj => hs j u (by omega) (by omega) hj)
    rwa [show i + 1 + n = i + (n + 1) by omega] at this

theorem Holds.forRange {body : Nat → Alg S Unit} (I : Nat → S → Prop) {E : S → Prop} {a b : Nat} {s : S}
    (hab : a ≤ b) (h0 : I a s)
    (hs : ∀ j t, a ≤ j → j < b → I j t → Holds (body j) t (fun _ => I (j + 1)) E) :
    Holds (Alg.forRange a b body) s (fun _ => I b) E := by
  have := Holds.forLoop I (b - a) a s h0 (fun j t h1 h2 hj => hs j t h1 (by omega) hj)
  rwa [show a + (b - a) = b by omega] at this

end Alg

/-! ## Calls of the function -/

/-- The function (`_function`), and when its calls are interrupted: `stop calls x` says whether a call at `x` throws,
given the calls made before. -/
structure Env (K : Type) where
  fn : Fn K
  stop : List (BV × K) → BV → Option Exn

/-- State of an algorithm: members of `Algorithm` (`algorithm.hh:57-60`) and `IterativeAlgorithm`
(`iterative-algorithm.hh:40`), own data, and (ghost) the list of evaluated vectors with the values obtained. -/
structure AlgState (K σ : Type) where
  solution : BV × K
  lastIteration : Bool
  calls : List (BV × K)
  data : σ

section
variable {K σ : Type}

/-- `_function->evaluate(x)`. -/
def evaluate (env : Env K) (x : BV) : Alg (AlgState K σ) K := fun s =>
  match env.stop s.calls x with
  | some e => pure (.error e, s)
  | none =>
    match env.fn.eval x with
    | .ok v => pure (.ok v, { s with calls := s.calls ++ [(x, v)] })
    | .throw e => pure (.error e, s)
    | .ub => fun _ => .ub

/-- `_function->evaluate_incrementally(x, value, flipped)`; the vector recorded in the ghost list is `x` with the bits
flipped. -/
def evaluateIncrementally (env : Env K) (x : BV) (value : K) (flipped : List Nat) : Alg (AlgState K σ) K := do
  let y ← Alg.lift (bvFlipSparse x flipped)
  let s ← Alg.get
  match env.stop s.calls y with
  | some e => Alg.lift (.throw e)
  | none => do
    let v ← Alg.lift (env.fn.evalInc x value flipped)
    Alg.modify (fun s => { s with calls := s.calls ++ [(y, v)] })
    pure v

/-- `bv_random(x)` (`lib/hnco/bit-vector.hh:160`) for a vector of size `n`. -/
def bvRandomBits (n : Nat) : Sim BV :=
  Sim.forRange 0 n (fun _ x => do
    let b ← Sim.bernoulli
    pure (x ++ [b])) ([] : BV)

/-- `set_solution(bv, value)` (`algorithm.cc:37-42`). -/
def setSolution (bv : BV) (value : K) : Alg (AlgState K σ) Unit :=
  Alg.modify (fun s => { s with solution := (bv, value) })

/-- `random_solution()` (`algorithm.cc:28-35`). -/
def randomSolution (env : Env K) : Alg (AlgState K σ) Unit := do
  let s ← Alg.get
  let x ← Alg.sim (bvRandomBits s.solution.1.length)
  Alg.modify (fun s => { s with solution := (x, s.solution.2) })
  let v ← evaluate env x
  Alg.modify (fun s => { s with solution := (s.solution.1, v) })

/-- `set_solution(bv)` (`algorithm.cc:44-50`). -/
def setSolutionEval (env : Env K) (bv : BV) : Alg (AlgState K σ) Unit := do
  let v ← evaluate env bv
  setSolution bv v

/-- `update_solution(bv, value)` and `update_solution(s)` (`algorithm.cc:52-66`). -/
def updateSolution [LT K] [DecidableLT K] (bv : BV) (value : K) : Alg (AlgState K σ) Unit :=
  Alg.modify (fun s => if s.solution.2 < value then { s with solution := (bv, value) } else s)

/-- `update_solution(bv)` (`algorithm.cc:68-74`). -/
def updateSolutionEval [LT K] [DecidableLT K] (env : Env K) (bv : BV) : Alg (AlgState K σ) Unit := do
  let v ← evaluate env bv
  updateSolution bv v

/-- The loop of `IterativeAlgorithm::loop` with a number of iterations (`iterative-algorithm.cc:33-39`): at most `k`
more iterations.  Not modelled: `_iteration`, `log()`. -/
def boundedLoop (iterate : Alg (AlgState K σ) Unit) : Nat → Alg (AlgState K σ) Unit
  | 0 => pure ()
  | k + 1 => do
    let s ← Alg.get
    if s.lastIteration then pure () else do
      iterate
      boundedLoop iterate k

/-- The loop of `IterativeAlgorithm::loop` without a number of iterations (`iterative-algorithm.cc:41-47`); a run
which is not over after `fuel` iterations gives no result. -/
def unboundedLoop (iterate : Alg (AlgState K σ) Unit) : Nat → Alg (AlgState K σ) Unit
  | 0 => fun _ _ => .out
  | fuel + 1 => do
    let s ← Alg.get
    if s.lastIteration then pure () else do
      iterate
      unboundedLoop iterate fuel

/-- `IterativeAlgorithm::loop` (`iterative-algorithm.cc:27-49`). -/
def algLoop (init iterate : Alg (AlgState K σ) Unit) (numIterations : Int) (fuel : Nat) :
    Alg (AlgState K σ) Unit := do
  init
  Alg.modify (fun s => { s with lastIteration := false })
  if numIterations > 0 then boundedLoop iterate numIterations.toNat else unboundedLoop iterate fuel

/-- The part of `CommandLineApplication::maximize` that calls the algorithm (`lib/hnco/app/application.cc:282-297`):
`finalize()` is called also after `LastEvaluation`. -/
def maximizeAndFinalize {S : Type} (maximize finalize : Alg S Unit) : Alg S Unit := fun s => do
  let r ← maximize s
  match r.1 with
  | .ok _ => finalize r.2
  | .error .lastEvaluation => finalize r.2
  | .error e => pure (.error e, r.2)

end

end Hnco
