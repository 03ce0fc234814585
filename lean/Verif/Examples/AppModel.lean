import Verif.Examples.Model
import Verif.App.Main
import Verif.Representation.Adapter

/-!
# Model of the examples with a command line

Models `examples/cli-my-function.cc`, `examples/cli-my-algorithm.cc` and the function of `examples/cli-universal-function.cc`.  Their
function `main` is the one of the program `hnco`, with other factories.  Simplifications: those of `App/Main.lean`; the warning about
the size of the function is left out.
-/

namespace Hnco.Examples

open Outcome

/-- `MyFunction` (`examples/cli-my-function.cc:33-44`), the result of which is a `double`. -/
def eightOnes : Fn Rat := Fn.ofEval 8 (fun x => do
  let c ← countOnes 8 x
  ok (c : Rat))

/-- The factories of `examples/cli-my-function.cc:46-50`; `make_function` first looks at `--bv-size`
(`decorated-function-factory.cc:194-197`). -/
def myFunctionFactories (w : HncoWorld) : AppFactories where
  makeFunction := fun s => do
    let n ← s.int "bv_size"
    if n ≤ 0 then throw .runtimeError else ok (.plain eightOnes)
  makeAlgorithm := hncoMakeAlgorithm w

/-- The factories of `examples/cli-my-algorithm.cc:50-54`; the number of iterations is never set (`iterative-algorithm.hh:50`). -/
def myAlgorithmFactories (w : HncoWorld) : AppFactories where
  makeFunction := hncoFunction w
  makeAlgorithm := fun _ n => do
    let m ← myAlgorithm 0 n
    ok (some m)

/-! ## A function with variables of all types -/

/-- The representations made in `examples/cli-universal-function.cc:66-100`. -/
def universalReps (ceilLog2 : Nat → Nat) : Outcome (UniversalReps Rat) := do
  let int1 ← dyadicExact 32 ceilLog2 0 255
  let int2 ← dyadicExact 32 ceilLog2 0 255
  let float ← floatWithSize (-2 : Rat) 2 8
  let cat1 ← linearCategoricalNew 4
  let cat2 ← linearCategoricalNew 3
  let perm1 ← permutationRepNew ceilLog2 3 2
  let perm2 ← permutationRepNew ceilLog2 5 2
  ok { numBooleans := 2
       integers := [int1, int2]
       floats := [float, float]
       complexes := [(float, float), (float, float)]
       categoricals := [cat1, cat2]
       permutations := [perm1, perm2] }

/-- The variables after the constructor of the adapter (`universal-function-adapter.hh:148-157`), which are zero. -/
def universalStart : UniversalVars Rat where
  booleans := [false, false]
  integers := [0, 0]
  floats := [0, 0]
  complexes := [(0, 0), (0, 0)]
  categoricals := [0, 0]
  permutations := [[0, 0, 0], [0, 0, 0, 0, 0]]

/-- One if the condition is true, otherwise zero. -/
def oneIf (p : Prop) [Decidable p] : Rat := if p then 1 else 0

/-- `MyFonction::evaluate` (`examples/cli-universal-function.cc:38-60`), where `cabs` is `std::abs` for complex numbers.  Products and
sums of `int` are checked. -/
def universalFunction (cabs : Rat × Rat → Rat) (v : UniversalVars Rat) : Outcome Rat := do
  let i0 ← vget v.integers 0
  let i1 ← vget v.integers 1
  let s0 ← checked 32 (i0 * i0)
  let s1 ← checked 32 (i1 * i1)
  let sum ← checked 32 (s0 + s1)
  let diff ← checked 32 (sum - 2500)
  let f0 ← vget v.floats 0
  let f1 ← vget v.floats 1
  let z0 ← vget v.complexes 0
  let z1 ← vget v.complexes 1
  let c0 ← vget v.categoricals 0
  let c1 ← vget v.categoricals 1
  let p ← vget v.permutations 0
  let p0 ← vget p 0
  let p1 ← vget p 1
  let p2 ← vget p 2
  let q ← vget v.permutations 1
  let q0 ← vget q 0
  let q1 ← vget q 1
  let q2 ← vget q 2
  let q3 ← vget q 3
  let q4 ← vget q 4
  ok (bvHammingWeight v.booleans - |(diff : Rat)| - ((f0 - 1 / 2) ^ 2 + (f1 - 1 / 2) ^ 2)
    - cabs (z0.1 * z0.1 - z0.2 * z0.2 + z0.1 + 1, z0.1 * z0.2 + z0.2 * z0.1 + z0.2)
    - cabs (z1.1 * z1.1 - z1.2 * z1.2 + 1, z1.1 * z1.2 + z1.2 * z1.1)
    + oneIf (c0 = 3) + oneIf (c1 = 2) + oneIf (p0 > p1) + oneIf (p1 > p2)
    + oneIf (q0 < q1) + oneIf (q1 < q2) + oneIf (q2 < q3) + oneIf (q3 < q4))

/-- `UniversalFunctionAdapter::evaluate` (`universal-function-adapter.hh:177-180`) for this function. -/
def universalEvaluate (cabs : Rat × Rat → Rat) (r : UniversalReps Rat) (vars : UniversalVars Rat) (bv : BV) : Sim Rat := do
  let v ← universalUnpack r vars bv
  Sim.lift (universalFunction cabs v)

end Hnco.Examples
