import Verif.BitVector.Model
import Verif.Function.Base
import Mathlib.Order.Basic

/-!
# Model of function controllers

Models `lib/hnco/functions/controllers/controller.{hh,cc}`, the evaluation interface of
`lib/hnco/functions/function.hh` for functions with a state, and
`DecoratedFunctionFactory::make_function_controller` (`lib/hnco/app/decorated-function-factory.cc:256-311`).

Simplification: the counters, which are `int`, do not overflow.
-/

namespace Hnco

open Outcome

/-- A call on an object with state `σ`.  The state reached is also given when the call throws, since the
caller may catch the exception and use the object again. -/
def Act (σ α : Type) : Type := σ → Outcome α × σ

namespace Act

variable {σ τ α β : Type}

/-- Sequencing: the continuation is not run after an exception. -/
protected def bind (m : Act σ α) (f : α → Act σ β) : Act σ β := fun s =>
  match m s with
  | (ok a, s) => f a s
  | (.throw e, s) => (.throw e, s)
  | (ub, s) => (ub, s)

instance : Monad (Act σ) where
  pure a := fun s => (ok a, s)
  bind := Act.bind

/-- Throw an exception. -/
def raise (e : Exn) : Act σ α := fun s => (.throw e, s)

/-- Read the state. -/
def get : Act σ σ := fun s => (ok s, s)

/-- Change the state. -/
def modify (f : σ → σ) : Act σ Unit := fun s => (ok (), f s)

/-- A computation without effect on the state. -/
def lift (m : Outcome α) : Act σ α := fun s => (m, s)

/-- A call on the decorated object, the state of which is the first component. -/
def inner (m : Act σ α) : Act (σ × τ) α := fun s => ((m s.1).1, ((m s.1).2, s.2))

@[simp] theorem bind_ok {m : Act σ α} {f : α → Act σ β} {s t : σ} {a : α} (h : m s = (ok a, t)) :
    (m >>= f) s = f a t := by
  show Act.bind m f s = _
  simp [Act.bind, h]

theorem bind_throw {m : Act σ α} {f : α → Act σ β} {s t : σ} {e : Exn} (h : m s = (.throw e, t)) :
    (m >>= f) s = (.throw e, t) := by
  show Act.bind m f s = _
  simp [Act.bind, h]

theorem bind_ub {m : Act σ α} {f : α → Act σ β} {s t : σ} (h : m s = (ub, t)) :
    (m >>= f) s = (ub, t) := by
  show Act.bind m f s = _
  simp [Act.bind, h]

theorem bind_def (m : Act σ α) (f : α → Act σ β) (s : σ) :
    (m >>= f) s = match m s with
      | (ok a, s) => f a s
      | (.throw e, s) => (.throw e, s)
      | (ub, s) => (ub, s) := rfl

@[simp] theorem pure_def (a : α) (s : σ) : (pure a : Act σ α) s = (ok a, s) := rfl
@[simp] theorem raise_def (e : Exn) (s : σ) : (raise e : Act σ α) s = (.throw e, s) := rfl
@[simp] theorem get_def (s : σ) : (get : Act σ σ) s = (ok s, s) := rfl
@[simp] theorem modify_def (f : σ → σ) (s : σ) : (modify f : Act σ Unit) s = (ok (), f s) := rfl
@[simp] theorem lift_def (m : Outcome α) (s : σ) : (lift m : Act σ α) s = (m, s) := rfl
@[simp] theorem inner_def (m : Act σ α) (s : σ × τ) :
    (inner m : Act (σ × τ) α) s = ((m s.1).1, ((m s.1).2, s.2)) := rfl

end Act

/-- The evaluation interface of `Function` (`function.hh:78-111`), for an object with state `σ`. -/
structure FnObj (σ K : Type) where
  /-- `evaluate(x)` -/
  evaluate : BV → Act σ K
  /-- `evaluate_incrementally(x, value, flipped_bits)` -/
  evaluateInc : BV → K → List Nat → Act σ K
  /-- `evaluate_safely(x)` -/
  evaluateSafely : BV → Act σ K
  /-- `update(x, value)` -/
  update : BV → K → Act σ Unit

/-- The calls by which an algorithm obtains or registers a value. -/
inductive Call (K : Type) where
  /-- `evaluate(x)` -/
  | full (x : BV)
  /-- `evaluate_incrementally(x, value, flipped_bits)` -/
  | inc (x : BV) (value : K) (flips : List Nat)
  /-- `update(x, value)` -/
  | upd (x : BV) (value : K)
  deriving DecidableEq, Repr

/-- The bit vector passed to the call. -/
def Call.arg {K : Type} : Call K → BV
  | .full x => x
  | .inc x _ _ => x
  | .upd x _ => x

variable {σ K : Type}

/-- Perform a call.  The value of an update is the one it registers. -/
def FnObj.call (f : FnObj σ K) : Call K → Act σ K
  | .full x => f.evaluate x
  | .inc x value flips => f.evaluateInc x value flips
  | .upd x value => do
    f.update x value
    return value

/-- A function without state, with the default `evaluate_safely` and `update`
(`function.hh:104,110`).  The state is ghost: the list of calls that reached the function. -/
def FnObj.base (f : Fn K) : FnObj (List (Call K)) K where
  evaluate x := do
    Act.modify (· ++ [.full x])
    Act.lift (f.eval x)
  evaluateInc x value flips := do
    Act.modify (· ++ [.inc x value flips])
    Act.lift (f.evalInc x value flips)
  evaluateSafely x := do
    Act.modify (· ++ [.full x])
    Act.lift (f.eval x)
  update _ _ := pure ()

/-- Ghost: an object that records the calls made to it. -/
def FnObj.logged (f : FnObj σ K) : FnObj (σ × List (Call K)) K where
  evaluate x := do
    Act.modify (fun s => (s.1, s.2 ++ [.full x]))
    Act.inner (f.evaluate x)
  evaluateInc x value flips := do
    Act.modify (fun s => (s.1, s.2 ++ [.inc x value flips]))
    Act.inner (f.evaluateInc x value flips)
  evaluateSafely x := Act.inner (f.evaluateSafely x)
  update x value := do
    Act.modify (fun s => (s.1, s.2 ++ [.upd x value]))
    Act.inner (f.update x value)

/-! ### Stop on target -/

/-- The test at the end of the members of `StopOnTarget` (`controller.cc:34-39`, `46-51`, `57-62`): the
second component of the state is the trigger. -/
def targetCheck [LE K] [DecidableLE K] (target : K) (bv : BV) (value : K) :
    Act (σ × Option (BV × K)) Unit :=
  if target ≤ value then do
    Act.modify (fun s => (s.1, some (bv, value)))
    Act.raise .targetReached
  else pure ()

/-- `StopOnTarget` (`controller.hh:92-140`, `controller.cc:30-63`). -/
def stopOnTarget [LE K] [DecidableLE K] (target : K) (f : FnObj σ K) :
    FnObj (σ × Option (BV × K)) K where
  evaluate bv := do
    let value ← Act.inner (f.evaluate bv)
    targetCheck target bv value
    return value
  evaluateInc bv value flips := do
    let result ← Act.inner (f.evaluateInc bv value flips)
    targetCheck target bv result
    return result
  evaluateSafely bv := Act.inner (f.evaluateSafely bv)
  update bv value := do
    Act.inner (f.update bv value)
    targetCheck target bv value

/-! ### Call counter and budget -/

/-- `_num_calls++`. -/
def countCall : Act (σ × Nat) Unit := Act.modify (fun s => (s.1, s.2 + 1))

/-- `CallCounter` (`controller.hh:159-195`, `controller.cc:65-86`); the second component of the state is
`_num_calls`. -/
def callCounter (f : FnObj σ K) : FnObj (σ × Nat) K where
  evaluate bv := do
    let value ← Act.inner (f.evaluate bv)
    countCall
    return value
  evaluateInc bv value flips := do
    let result ← Act.inner (f.evaluateInc bv value flips)
    countCall
    return result
  evaluateSafely bv := Act.inner (f.evaluateSafely bv)
  update bv value := do
    Act.inner (f.update bv value)
    countCall

/-- The test `if (_num_calls == _budget) throw LastEvaluation();` (`controller.cc:91-92`). -/
def budgetCheck (budget : Int) : Act (σ × Nat) Unit := do
  let s ← Act.get
  if (s.2 : Int) = budget then Act.raise .lastEvaluation else pure ()

/-- `OnBudgetFunction` (`controller.hh:200-241`, `controller.cc:88-110`). -/
def onBudget (budget : Int) (f : FnObj σ K) : FnObj (σ × Nat) K where
  evaluate bv := do
    budgetCheck budget
    (callCounter f).evaluate bv
  evaluateInc bv value flips := do
    budgetCheck budget
    (callCounter f).evaluateInc bv value flips
  evaluateSafely bv := Act.inner (f.evaluateSafely bv)
  update bv value := do
    budgetCheck budget
    (callCounter f).update bv value

/-! ### Progress tracker -/

/-- `ProgressTracker::Event` (`controller.hh:245-254`). -/
structure Event (K : Type) where
  /-- `num_evaluations` -/
  numEvaluations : Nat
  /-- `solution.first` -/
  bv : BV
  /-- `solution.second` -/
  value : K
  deriving DecidableEq, Repr

/-- `ProgressTracker::update_last_improvement_details` (`controller.cc:153-163`).  Simplification:
logging is omitted. -/
def improvementDetails (record : Bool) (bv : BV) (value : K) : Act ((σ × Nat) × Event K) Unit :=
  Act.modify (fun s => (s.1,
    { numEvaluations := s.1.2, bv := if record then bv else s.2.bv, value := value }))

/-- `ProgressTracker::update_last_improvement` (`controller.cc:142-151`). -/
def updateImprovement [LT K] [DecidableLT K] (record : Bool) (bv : BV) (value : K) :
    Act ((σ × Nat) × Event K) Unit := do
  let s ← Act.get
  if s.1.2 = 1 then improvementDetails record bv value
  else if s.2.value < value then do
    Act.lift (assert (decide (1 < s.1.2)))
    improvementDetails record bv value
  else pure ()

/-- `ProgressTracker` (`controller.hh:241-354`, `controller.cc:112-163`); `record` is
`_record_bit_vector`.  Simplification: the stop watch is omitted. -/
def progressTracker [LT K] [DecidableLT K] (record : Bool) (f : FnObj σ K) :
    FnObj ((σ × Nat) × Event K) K where
  evaluate bv := do
    let value ← Act.inner ((callCounter f).evaluate bv)
    updateImprovement record bv value
    return value
  evaluateInc bv value flips := do
    let result ← Act.inner ((callCounter f).evaluateInc bv value flips)
    updateImprovement record bv result
    return result
  evaluateSafely bv := Act.inner ((callCounter f).evaluateSafely bv)
  update bv value := do
    Act.inner ((callCounter f).update bv value)
    updateImprovement record bv value

/-- State of a new `ProgressTracker` (`controller.hh:312-320`): the value is that of a default
constructed pair, left arbitrary here. -/
def trackerNew (s : σ) (size : Nat) (value : K) : (σ × Nat) × Event K :=
  ((s, 0), { numEvaluations := 0, bv := List.replicate size false, value := value })

/-! ### Cache -/

/-- Data members of `Cache` (`controller.hh:371-383`); the hash table is the list of its entries. -/
structure CacheState (K : Type) where
  /-- `_cache` -/
  cache : List (List Bool × K)
  /-- `_key` -/
  key : List Bool
  /-- `_num_evaluations` -/
  numEvaluations : Nat
  /-- `_num_lookups` -/
  numLookups : Nat
  deriving DecidableEq, Repr

/-- A new `Cache` (`controller.hh:391-395`). -/
def cacheNew (size : Nat) : CacheState K :=
  { cache := [], key := List.replicate size false, numEvaluations := 0, numLookups := 0 }

/-- `_cache.find(_key)`. -/
def cacheFind (cache : List (List Bool × K)) (key : List Bool) : Option (List Bool × K) :=
  cache.find? (fun e => e.1 == key)

/-- `Cache::evaluate` (`controller.cc:171-191`). -/
def cacheEvaluate (f : FnObj σ K) (bv : BV) : Act (σ × CacheState K) K := do
  let s ← Act.get
  Act.lift (assert (bv.length == s.2.key.length))
  Act.modify (fun s => (s.1, { s.2 with numEvaluations := s.2.numEvaluations + 1 }))
  let key ← Act.lift (bvToVectorBool s.2.key bv)
  Act.modify (fun s => (s.1, { s.2 with key := key }))
  match cacheFind s.2.cache key with
  | none => do
    let v ← Act.inner (f.evaluate bv)
    Act.modify (fun s => (s.1, { s.2 with cache := (key, v) :: s.2.cache }))
    return v
  | some e => do
    Act.modify (fun s => (s.1, { s.2 with numLookups := s.2.numLookups + 1 }))
    Act.lift (assert (e.1 == key))
    return e.2

/-- `Cache` (`controller.hh:369-414`): incremental evaluation and `update` are the defaults of
`Function` (`function.hh:89-93`, `110`), `evaluate_safely` is that of `Controller`
(`controller.hh:78`). -/
def cached (f : FnObj σ K) : FnObj (σ × CacheState K) K where
  evaluate := cacheEvaluate f
  evaluateInc _ _ _ := Act.raise .runtimeError
  evaluateSafely bv := Act.inner (f.evaluateSafely bv)
  update _ _ := pure ()

/-! ### Histories of calls -/

/-- Perform calls one after the other, catching exceptions: the replies and the state reached. -/
def FnObj.runAll (f : FnObj σ K) : List (Call K) → σ → List (Outcome K) × σ
  | [], s => ([], s)
  | c :: cs, s =>
    let (r, s) := f.call c s
    let (rs, s) := f.runAll cs s
    (r :: rs, s)

/-- Perform calls one after the other until one of them does not return: the values returned so far,
the exception if any, and the state reached. -/
def FnObj.runUntil (f : FnObj σ K) : List (Call K) → σ → List K × Outcome Unit × σ
  | [], s => ([], ok (), s)
  | c :: cs, s =>
    match f.call c s with
    | (ok v, s) =>
      let (vs, r, s) := f.runUntil cs s
      (v :: vs, r, s)
    | (.throw e, s) => ([], .throw e, s)
    | (ub, s) => ([], ub, s)

end Hnco
