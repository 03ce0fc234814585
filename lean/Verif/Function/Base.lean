import Verif.Base
import Mathlib.Algebra.Group.Defs

/-!
# Function objects

Models the interface `lib/hnco/functions/function.hh:40-137` of functions on bit vectors.  Values, which
are `double` in the library, are taken in an arbitrary type `K`, with exact arithmetic.
-/

namespace Hnco

open Outcome

/-- The interface of `Function` (`function.hh:40-129`), for functions whose evaluation depends on
their argument only. -/
structure Fn (K : Type) where
  /-- `get_bv_size()` -/
  size : Nat
  /-- `has_known_maximum()` -/
  hasMax : Bool
  /-- `get_maximum()` -/
  maximum : Outcome K
  /-- `evaluate(x)` -/
  eval : BV → Outcome K
  /-- `provides_incremental_evaluation()` -/
  hasInc : Bool
  /-- `evaluate_incrementally(x, value, flipped_bits)` -/
  evalInc : BV → K → List Nat → Outcome K

/-- The defaults of `Function` (`function.hh:56-97`): no known maximum, no incremental evaluation. -/
def Fn.ofEval {K : Type} (size : Nat) (eval : BV → Outcome K) : Fn K where
  size := size
  hasMax := false
  maximum := .throw .runtimeError
  eval := eval
  hasInc := false
  evalInc := fun _ _ _ => .throw .runtimeError

/-- `OppositeFunction` (`modifiers/modifier.hh:51-82`, `modifier.cc:30-40`). -/
def opposite {K : Type} [Neg K] (f : Fn K) : Fn K where
  size := f.size
  hasMax := false
  maximum := .throw .runtimeError
  eval := fun x => do
    let v ← f.eval x
    return -v
  hasInc := true
  evalInc := fun x value flips => do
    let v ← f.evalInc x (-value) flips
    return -v

/-- The interface of `Map` (`lib/hnco/maps/map.hh:45-70`); `map input output` gives the new contents of
the output vector. -/
structure MapObj where
  /-- `get_input_size()` -/
  inputSize : Nat
  /-- `get_output_size()` -/
  outputSize : Nat
  /-- `map(input, output)` -/
  map : BV → BV → Outcome BV
  /-- `is_surjective()` -/
  isSurjective : Outcome Bool

/-- Constructor of `FunctionMapComposition` (`modifiers/modifier.hh:95-103`); the result is the member
`_output`, resized to the size of the function and hence filled with zeros. -/
def functionMapNew {K : Type} (f : Fn K) (m : MapObj) : Outcome BV :=
  if m.outputSize != f.size then .throw .runtimeError
  else return List.replicate f.size false

/-- `FunctionMapComposition::has_known_maximum` (`modifiers/modifier.hh:125-129`). -/
def functionMapHasMax {K : Type} (f : Fn K) (m : MapObj) : Outcome Bool :=
  if f.hasMax then m.isSurjective else return false

/-- `FunctionMapComposition::get_maximum` (`modifiers/modifier.hh:115-120`). -/
def functionMapMaximum {K : Type} (f : Fn K) (m : MapObj) : Outcome K := do
  let b ← functionMapHasMax f m
  if b then f.maximum else .throw .runtimeError

/-- `FunctionMapComposition::evaluate` (`modifiers/modifier.cc:42-47`): value and new contents of
`_output`. -/
def functionMapEvaluate {K : Type} (f : Fn K) (m : MapObj) (output x : BV) : Outcome (K × BV) := do
  let output ← m.map x output
  let v ← f.eval output
  return (v, output)

/-- `MapComposition` (`lib/hnco/maps/map.hh:423-473`).  Simplification: the buffer `_bv` is passed in
with arbitrary contents `buffer` instead of being kept from one call to the next. -/
def mapComposition (outer inner : MapObj) (buffer : BV) : MapObj where
  inputSize := inner.inputSize
  outputSize := outer.outputSize
  map := fun input output => do
    let b ← inner.map input buffer
    outer.map b output
  isSurjective := do
    let o ← outer.isSurjective
    if o then inner.isSurjective else return false

end Hnco
