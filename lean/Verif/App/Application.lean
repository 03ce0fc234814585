import Verif.Function.Controller
import Mathlib.Order.Defs.LinearOrder

/-!
# Model of the command line application

Models `DecoratedFunctionFactory::make_function_controller` (`lib/hnco/app/decorated-function-factory.cc:256-311`) and
parts of `lib/hnco/app/application.cc`.
-/

namespace Hnco

open Outcome

variable {K : Type}

/-- The options (`lib/hnco/app/hnco-options.hh`) which are read by the parts of the application modelled here.  `target` is
`none` without the option `--target`. -/
structure AppOptions (K : Type) where
  budget : Int
  cache : Bool
  cacheBudget : Bool
  stopOnMaximum : Bool
  target : Option K
  concreteSolution : Bool
  printDescription : Bool

/-- A function with its controllers: the object, its state after construction, and what the application reads in it, that is
the state of the tracker (`get_tracker()`) and the trigger of the last controller (`get_stop_on_target()`). -/
structure FnStack (K : Type) where
  σ : Type
  obj : FnObj σ K
  init : σ
  tracker : σ → (List (Call K) × Nat) × Event K
  trigger : Option (σ → Option (BV × K))

/-- `new ProgressTracker(function)`; the bit vectors are not recorded (`controller.hh:289`). `v` is the value of the default
constructed event. -/
def FnStack.tracked [LT K] [DecidableLT K] (fn : Fn K) (v : K) : FnStack K :=
  ⟨(List (Call K) × Nat) × Event K, progressTracker false (FnObj.base fn), trackerNew [] fn.size v, id, none⟩

/-- `new OnBudgetFunction(function, budget)`. -/
def FnStack.budgeted (st : FnStack K) (budget : Int) : FnStack K :=
  ⟨st.σ × Nat, onBudget budget st.obj, (st.init, 0), fun s => st.tracker s.1, none⟩

/-- `new Cache(function)`. -/
def FnStack.withCache (st : FnStack K) (size : Nat) : FnStack K :=
  ⟨st.σ × CacheState K, cached st.obj, (st.init, cacheNew size), fun s => st.tracker s.1, none⟩

/-- `new StopOnTarget(function, target)`. -/
def FnStack.stopping [LE K] [DecidableLE K] (st : FnStack K) (target : K) : FnStack K :=
  ⟨st.σ × Option (BV × K), stopOnTarget target st.obj, (st.init, none), fun s => st.tracker s.1, some (fun s => s.2)⟩

/-- The budget and the cache in `make_function_controller` (`decorated-function-factory.cc:267-289`). -/
def FnStack.limited (o : AppOptions K) (size : Nat) (st : FnStack K) : FnStack K :=
  let st1 := if o.budget > 0 ∧ o.cache = false then st.budgeted o.budget else st
  let st2 := if o.budget ≤ 0 ∧ o.cache = true then st1.withCache size else st1
  if o.budget > 0 ∧ o.cache = true then
    if o.cacheBudget then (st2.withCache size).budgeted o.budget
    else (st2.budgeted o.budget).withCache size
  else st2

/-- `make_function_controller` (`decorated-function-factory.cc:256-311`).  All controllers forward `has_known_maximum` and
`get_maximum` (`controller.hh:57-60`). -/
def makeController [LinearOrder K] (o : AppOptions K) (fn : Fn K) (v : K) : Outcome (FnStack K) :=
  let st := (FnStack.tracked fn v).limited o fn.size
  if o.stopOnMaximum then
    if fn.hasMax then
      match fn.maximum with
      | .ok m => ok (st.stopping m)
      | .throw e => .throw e
      | .ub => ub
    else .throw .runtimeError
  else
    match o.target with
    | some t => ok (st.stopping t)
    | none => ok st

/-- An algorithm, for given random numbers: the vector which is evaluated next, as a function of the evaluations so far (or
none when `maximize` returns), and `get_solution()` after `finalize()`, as a function of the same.  Simplification: full
evaluations in a single thread.  `finalize` makes no evaluation in any algorithm of the library. -/
structure Searcher (K : Type) where
  next : List (BV × K) → Option BV
  solution : List (BV × K) → BV × K

/-- `_algorithm->maximize(_fns)` (`application.cc:283`): how it ends, the evaluations which have returned, and the final state
of the function.  No result if it is not over after `fuel` evaluations. -/
def FnStack.search (st : FnStack K) (a : Searcher K) : Nat → List (BV × K) → st.σ →
    Option (Outcome Unit × List (BV × K) × st.σ)
  | 0, _, _ => none
  | fuel + 1, h, s =>
    match a.next h with
    | none => some (ok (), h, s)
    | some x =>
      match st.obj.evaluate x s with
      | (.ok v, s) => st.search a fuel (h ++ [(x, v)]) s
      | (.throw e, s) => some (.throw e, h, s)
      | (.ub, s) => some (ub, h, s)

/-- Results (`application.cc:209-225`) and solution of a run, with its exit status.  Not modelled: times, lookup ratio.
`log` (ghost): the calls which have reached the function. -/
structure AppResult (K : Type) where
  value : K
  numEvaluations : Nat
  total : Nat
  success : Option Bool
  solution : BV
  exit : Nat
  log : List (Call K)

/-- The end of `maximize` (`application.cc:301-315`). -/
def appFinish (o : AppOptions K) (tracker : (List (Call K) × Nat) × Event K) (solution : BV) (reached : Bool) : AppResult K where
  value := tracker.2.value
  numEvaluations := tracker.2.numEvaluations
  total := tracker.1.2
  success := if o.stopOnMaximum || o.target.isSome then some reached else none
  solution := solution
  exit := if o.stopOnMaximum && !reached then 2 else if o.target.isSome && !reached then 3 else 0
  log := tracker.1.1

/-- `CommandLineApplication::maximize` (`application.cc:269-317`). -/
def appMaximize (o : AppOptions K) (st : FnStack K) (a : Searcher K) (fuel : Nat) : Option (Outcome (AppResult K)) :=
  match st.search a fuel [] st.init with
  | none => none
  | some (.ok _, h, s) => some (ok (appFinish o (st.tracker s) (a.solution h).1 false))
  | some (.throw .targetReached, _, s) =>
    match st.trigger with
    | none => some ub
    | some trigger =>
      match trigger s with
      | none => some ub
      | some p => some (ok (appFinish o (st.tracker s) p.1 true))
  | some (.throw .lastEvaluation, h, s) => some (ok (appFinish o (st.tracker s) (a.solution h).1 false))
  | some (.throw e, _, _) => some (.throw e)
  | some (.ub, _, _) => some ub

/-- The vector which is printed or saved by `manage_solution` (`application.cc:236-255`): `concrete_solution`. -/
def appConcrete (o : AppOptions K) (map : Option MapObj) (x : BV) : Outcome BV :=
  if o.concreteSolution then
    match map with
    | none => ok x
    | some m => m.map x (List.replicate m.outputSize false)
  else ok x

/-- The vector which is described by the function itself when `_fn->describe(x)` is called: the controllers and the modifiers
forward the call (`decorator.hh:57`), and `FunctionMapComposition` maps the vector first (`modifier.cc:49-55`). -/
def fnDescribed (map : Option MapObj) (output x : BV) : Outcome BV :=
  match map with
  | none => ok x
  | some m => do
    assert (x.length == m.inputSize)
    m.map x output

/-- The vector which is described by the function at the end of a run (`application.cc:258-266`). -/
def appDescribed (o : AppOptions K) (map : Option MapObj) (output x : BV) : Outcome BV := do
  let y ← appConcrete o map x
  fnDescribed map output y

/-- `load_solution` (`application.cc:83-100`), given the contents of the file: the value which is printed. -/
def appLoad (st : FnStack K) (size : Nat) (stream : List Char) : Outcome K := do
  let r ← bvFromStream stream
  if r.1.length ≠ size then Outcome.throw .runtimeError
  else (st.obj.evaluate r.1 st.init).1

end Hnco
