import Verif.App.Model
import Verif.Representation.Adapter
import Verif.Sort
import Mathlib.Data.Char
import Mathlib.Data.List.Lex
import Mathlib.Data.List.Dedup

/-!
# Model of multiobjective parsed functions and of their adapters

Models `lib/hnco/multiobjective/functions/collection/parsed-multivariate-function.hh` and
`lib/hnco/multiobjective/functions/multivariate-function-adapter.hh`.  The parser of expressions is an external library: it is
a parameter of the model.
-/

namespace Hnco

open Outcome

/-- A parser after `ParseAndDeduceVariables` (`parsed-multivariate-function.hh:143`): the names of its variables, and its
function, which `Eval` computes from the values of the variables in this order. -/
structure ParsedExpr (K : Type) where
  names : List (List Char)
  eval : List K → K

/-- `ParsedMultivariateFunction` after `parse` (`parsed-multivariate-function.hh:66-102`). -/
structure MoParsed (K : Type) where
  parsers : List (ParsedExpr K)
  store : List (List K)
  indices : List (List Nat)
  orderedNames : List (List Char)

/-- Constructor (`parsed-multivariate-function.hh:114-124`): the sub expressions.  The code is that of `split_string`. -/
def moExpressions (expression : List Char) : Option (List (List Char)) :=
  splitString (expression.length + 1) expression "::".toList

/-- The first loop of `parse` (`parsed-multivariate-function.hh:142-154`): an error of the parser is an exception. -/
def moParsers {K : Type} (parser : List Char → Option (ParsedExpr K)) : List (List Char) → Outcome (List (ParsedExpr K))
  | [] => ok []
  | e :: es =>
    match parser e with
    | none => .throw .runtimeError
    | some p => do
      let ps ← moParsers parser es
      ok (p :: ps)

/-- The loop which fills `index_of` (`parsed-multivariate-function.hh:169-171`), from position `i`. -/
def moIndexOf : List (List Char) → Nat → (List Char → Option Nat) → List Char → Option Nat
  | [], _, map => map
  | name :: names, i, map => moIndexOf names (i + 1) (fun x => if x = name then some i else map x)

/-- The indices of the variables of a parser (`parsed-multivariate-function.hh:176-180`). -/
def moLookup (map : List Char → Option Nat) : List (List Char) → Outcome (List Nat)
  | [] => ok []
  | name :: names =>
    match map name with
    | none => .ub
    | some i => do
      let is ← moLookup map names
      ok (i :: is)

/-- The loop which computes `_indices` (`parsed-multivariate-function.hh:173-181`). -/
def moIndices {K : Type} (map : List Char → Option Nat) : List (ParsedExpr K) → Outcome (List (List Nat))
  | [] => ok []
  | p :: ps => do
    let is ← moLookup map p.names
    let rest ← moIndices map ps
    ok (is :: rest)

/-- `parse` (`parsed-multivariate-function.hh:140-182`), called once.  The order in which the hash set is traversed is
unspecified: its elements are shuffled.  New variables have the value `zero`. -/
def moParse {K : Type} (zero : K) (parser : List Char → Option (ParsedExpr K)) (expressions : List (List Char)) :
    Sim (MoParsed K) := do
  let parsers ← Sim.lift (moParsers parser expressions)
  let traversal ← Sim.shuffle (parsers.flatMap ParsedExpr.names).dedup
  let ordered ← Sim.sort (fun a b => decide (a < b)) traversal
  let indices ← Sim.lift (moIndices (moIndexOf ordered 0 (fun _ => none)) parsers)
  pure ⟨parsers, parsers.map (fun p => List.replicate p.names.length zero), indices, ordered⟩

/-- The inner loop of `evaluate` (`parsed-multivariate-function.hh:198-201`). -/
def moFill {K : Type} (lut : List Nat) (xs vars : List K) : Outcome (List K) :=
  forRange 0 vars.length (fun j (vars : List K) => do
    let k ← vget lut j
    assert (decide (k < xs.length))
    let x ← vget xs k
    vset vars j x) vars

/-- Body of the loop of `evaluate` (`parsed-multivariate-function.hh:195-203`): the variables of the parsers and the values. -/
def moEvaluateOne {K : Type} (f : MoParsed K) (xs : List K) (i : Nat) (st : List (List K) × List K) :
    Outcome (List (List K) × List K) := do
  let vars ← vget st.1 i
  let lut ← vget f.indices i
  let vars ← moFill lut xs vars
  let store ← vset st.1 i vars
  let parser ← vget f.parsers i
  let values ← vset st.2 i (parser.eval vars)
  ok (store, values)

/-- `evaluate` (`parsed-multivariate-function.hh:191-204`): the function, whose variables have changed, and the values. -/
def moParsedEvaluate {K : Type} (f : MoParsed K) (xs values : List K) : Outcome (MoParsed K × List K) := do
  assert (decide (xs.length = f.orderedNames.length))
  assert (decide (values.length = f.parsers.length))
  let st ← forRange 0 values.length (moEvaluateOne f xs) (f.store, values)
  ok ({ f with store := st.1 }, st.2)

/-- State of an adapter (`multivariate-function-adapter.hh:59-68`). -/
structure MoAdapter (D : Type) where
  function : MoParsed D
  reps : List (Rep D)
  store : List D
  codomain : List D

/-- Constructor (`multivariate-function-adapter.hh:92-100`).  New variables and values are equal to `zero`. -/
def moAdapterNew {D : Type} (zero : D) (f : MoParsed D) (reps : List (Rep D)) : Outcome (MoAdapter D) := do
  assert (decide (f.orderedNames.length = reps.length))
  ok ⟨f, reps, List.replicate reps.length zero, List.replicate f.parsers.length zero⟩

/-- `evaluate` (`multivariate-function-adapter.hh:124-132`): the adapter and the value, which is an output parameter. -/
def moAdapterEvaluate {D K : Type} (converter : D → K) (a : MoAdapter D) (bv : BV) (value : List K) :
    Outcome (MoAdapter D × List K) := do
  let size ← multivariateSize a.reps
  assert (decide (size = bv.length))
  assert (decide (a.function.parsers.length = value.length))
  let store ← multivariateUnpack a.reps a.store bv
  let r ← moParsedEvaluate a.function store a.codomain
  let value ← forRange 0 a.function.parsers.length (fun i (value : List K) => do
    let y ← vget r.2 i
    vset value i (converter y)) value
  ok (⟨r.1, a.reps, store, r.2⟩, value)

/-- `evaluate` of the adapter with mixed representations (`multivariate-function-adapter.hh:235-242`): the value itself receives
the values of the function, then is converted in place. -/
def moMixedEvaluate {D : Type} (converter : D → D) (a : MoAdapter D) (bv : BV) (value : List D) :
    Outcome (MoAdapter D × List D) := do
  let size ← multivariateSize a.reps
  assert (decide (size = bv.length))
  assert (decide (a.function.parsers.length = value.length))
  let store ← multivariateUnpack a.reps a.store bv
  let r ← moParsedEvaluate a.function store value
  let value ← forRange 0 r.2.length (fun i (value : List D) => do
    let y ← vget value i
    vset value i (converter y)) r.2
  ok (⟨r.1, a.reps, store, a.codomain⟩, value)

end Hnco
