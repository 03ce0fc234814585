import Verif.App.Application
import Verif.Function.Walsh
import Verif.Sort
import Mathlib.Algebra.Order.Field.Basic

/-!
# Model of the information printed by the application

Models `CommandLineApplication::print_information` (`lib/hnco/app/application.cc:102-175`).  The warning about large sizes is not
modelled.
-/

namespace Hnco

open Outcome

variable {K : Type}

/-- The flags which are read by `print_information` (`application.cc:105-167`). -/
structure InfoOptions where
  hasKnownMaximum : Bool
  getMaximum : Bool
  getBvSize : Bool
  providesIncremental : Bool
  walshTransform : Bool
  display : Bool
  mapDisplay : Bool

/-- What is printed before `exit(0)`.  Simplification: what functions and maps display is not modelled, only whether there is a
map to be displayed. -/
inductive Info (K : Type) where
  | answer (b : Bool)
  | value (v : K)
  | size (n : Nat)
  | amplitudes (l : List (Nat × K))
  | function
  | map (present : Bool)
  deriving DecidableEq

/-- `_fn->provides_incremental_evaluation()`: the controllers forward the call (`controller.hh:67`), except `Cache`
(`controller.hh:399`), which is in the stack under the conditions of `make_function_controller`
(`decorated-function-factory.cc:271-289`). -/
def appProvidesIncremental (o : AppOptions K) (fn : Fn K) : Bool :=
  if (o.budget ≤ 0 ∧ o.cache = true) ∨ (o.budget > 0 ∧ o.cache = true) then false else fn.hasInc

/-- The vectors which are evaluated by `compute_fast_walsh_transform`, in order (`lib/hnco/functions/function.cc:84-113`): only the
first iteration of the outermost loop evaluates the function. -/
def appWalshVectors (n : Nat) : Outcome (List BV) :=
  if n = 0 then ok []
  else do
    let r ← iterLoop HypercubeIterator.extHasNext HypercubeIterator.extNext (fun v acc => do
        let x ← copyBack v (List.replicate n false)
        let x0 ← vset x 0 false
        let x1 ← vset x 0 true
        ok (acc ++ [x0, x1]))
      (2 ^ (n - 1) + 1) (HypercubeIterator.new (n - 1)) []
    ok r.2

/-- Full evaluations of vectors, in order, with the values obtained. -/
def FnStack.evaluateAll (st : FnStack K) : List BV → st.σ → Outcome (List (BV × K))
  | [], _ => ok []
  | x :: xs, s =>
    match st.obj.evaluate x s with
    | (.ok v, s) => do
      let l ← st.evaluateAll xs s
      ok ((x, v) :: l)
    | (.throw e, _) => .throw e
    | (.ub, _) => ub

/-- The function given by a table of values. -/
def tableFn (n : Nat) (values : List (BV × K)) : Fn K := Fn.ofEval n (fun x =>
  match values.lookup x with
  | some v => ok v
  | none => ub)

/-- `compute_fast_walsh_transform(_fn, terms)` (`application.cc:139`).  Simplification: the evaluations are made first, and the
transform uses their values. -/
def appWalshTerms [CommRing K] [DecidableEq K] (st : FnStack K) (n : Nat) : Outcome (List (WalshTerm K)) := do
  let xs ← appWalshVectors n
  let values ← st.evaluateAll xs st.init
  computeFastWalshTransform (tableFn n values)

/-- The lines printed for sorted terms (`application.cc:146-157`). -/
def appAmplitudes [Field K] [LinearOrder K] (terms : List (WalshTerm K)) : Outcome (List (Nat × K)) := do
  assert (decide (terms.length > 0))
  let t ← vget terms 0
  let norm ← (if vbHammingWeight t.feature = 0 then do
      let u ← vget terms 1
      ok u.coefficient
    else ok t.coefficient)
  ok (terms.filterMap (fun t =>
    let weight := vbHammingWeight t.feature
    let amplitude := t.coefficient / norm
    if amplitude > 1 / 10 ^ 10 ∧ weight > 0 then some (weight, amplitude) else none))

/-- The Walsh transform in `print_information` (`application.cc:135-159`). -/
def appWalsh [Field K] [LinearOrder K] (st : FnStack K) (n : Nat) : Sim (List (Nat × K)) := do
  let terms ← Sim.lift (appWalshTerms st n)
  let terms ← Sim.sort (fun a b => decide (a.coefficient > b.coefficient))
    (terms.map (fun t => { t with coefficient := |t.coefficient| }))
  Sim.lift (appAmplitudes terms)

/-- `print_information` (`application.cc:102-175`): what is printed before `exit(0)`, or none if it returns. -/
def printInformation [Field K] [LinearOrder K] (i : InfoOptions) (o : AppOptions K) (fn : Fn K) (st : FnStack K)
    (map : Option MapObj) : Sim (Option (Info K)) :=
  if i.hasKnownMaximum then pure (some (.answer fn.hasMax))
  else if i.getMaximum then
    if fn.hasMax then do
      let v ← Sim.lift fn.maximum
      pure (some (.value v))
    else Sim.lift (Outcome.throw .runtimeError)
  else if i.getBvSize then pure (some (.size fn.size))
  else if i.providesIncremental then pure (some (.answer (appProvidesIncremental o fn)))
  else if i.walshTransform then do
    let l ← appWalsh st fn.size
    pure (some (.amplitudes l))
  else if i.display then pure (some .function)
  else if i.mapDisplay then pure (some (.map map.isSome))
  else pure none

end Hnco
