import Verif.App.Ffgen
import Verif.Function.Theory
import Verif.Function.Base
import Verif.Tests.Model

/-!
# The project's test programs on incremental evaluation

As in `Verif.Tests.Model`, the numbers of runs and iterations and the bounds on sizes and coefficients, which are literals in the
programs, are parameters.  The coefficients are integers, and so are all values: the doubles of the programs represent them
exactly.
-/

namespace Hnco.Tests

open Outcome

/-- The lambdas which draw an integer coefficient (`test-incremental-linear-function.cc:41-44`,
`test-incremental-walsh-expansion-1.cc:41-44`, `test-incremental-nn-ising-1.cc:41-46`, `test-incremental-nn-ising-2.cc:42-47`). -/
def signedInt (bound : Nat) : Sim Int := do
  let d ← Sim.uniformInt 0 (2 * bound)
  pure ((d : Int) - bound)

section
variable {K σ : Type} [DecidableEq K]

/-- The inner loop (`test-incremental-one-max.cc:50-59` and the same lines of the others).  `buffer` is what the function keeps
between two evaluations. -/
def incrementalLoop (eval : BV → Outcome K) (inc : σ → BV → K → List Nat → Outcome (K × σ)) (k : Sampler) :
    Nat → Nbh → σ → Sim Bool
  | 0, _, _ => pure true
  | iterations + 1, s, buffer => do
    let value ← Sim.lift (eval s.origin)
    let s ← s.propose k
    let full ← Sim.lift (eval s.candidate)
    let r ← Sim.lift (inc buffer s.origin value s.flipped)
    if full ≠ r.1 then pure false
    else do
      let s ← Sim.lift s.keep
      incrementalLoop eval inc k iterations s r.2

/-- A run: construction of the neighbourhood, random origin and inner loop (`test-incremental-one-max.cc:45-59`). -/
def incrementalRun (eval : BV → Outcome K) (inc : σ → BV → K → List Nat → Outcome (K × σ)) (buffer : σ) (k : Sampler) (n : Nat)
    (iterations : Nat) : Sim Bool := do
  let s ← Sim.lift (k.construct n)
  let bv ← bvRandomBits n
  incrementalLoop eval inc k iterations (s.setOrigin bv) buffer

/-- A run with a function which keeps nothing. -/
def incrementalFn (f : Fn K) (k : Sampler) (n iterations : Nat) : Sim Bool :=
  incrementalRun f.eval (fun u x v flips => do
    let w ← f.evalInc x v flips
    return (w, u)) () k n iterations

end

/-- `StandardBitMutation neighborhood(bv_size)` (`neighborhood.hh:231-260`): neither rejection sampling nor empty mutations. -/
def defaultMutation : Sampler := .standardBitMutation ⟨false, false⟩

/-- `test-incremental-one-max.cc:33-63`. -/
def incrementalOneMaxTest (runs size iterations : Nat) : Sim Bool :=
  every runs (do
    let n ← Sim.uniformInt 1 size
    incrementalFn (oneMax n) defaultMutation n iterations)

/-- `test-incremental-one-max-single-bit-flip.cc:33-63`. -/
def incrementalSingleBitFlipTest (runs size iterations : Nat) : Sim Bool :=
  every runs (do
    let n ← Sim.uniformInt 1 size
    incrementalFn (oneMax n) .singleBitFlip n iterations)

/-- `test-incremental-one-max-hamming-ball.cc:33-66`. -/
def incrementalHammingBallTest (runs size iterations : Nat) : Sim Bool :=
  every runs (do
    let n ← Sim.uniformInt 1 size
    let radius ← Sim.uniformInt 1 n
    incrementalFn (oneMax n) (.hammingBall radius) n iterations)

/-- `test-incremental-one-max-hamming-sphere.cc:33-66`. -/
def incrementalHammingSphereTest (runs size iterations : Nat) : Sim Bool :=
  every runs (do
    let n ← Sim.uniformInt 1 size
    let radius ← Sim.uniformInt 1 n
    incrementalFn (oneMax n) (.hammingSphere radius) n iterations)

/-- `test-incremental-opposite-function.cc:35-67`. -/
def incrementalOppositeTest (runs size iterations : Nat) : Sim Bool :=
  every runs (do
    let n ← Sim.uniformInt 1 size
    incrementalFn (opposite (oneMax n)) defaultMutation n iterations)

/-- `test-incremental-linear-function.cc:33-67`.  `LinearFunction::generate` calls a copy of the lambda, whose distribution
object has no state. -/
def incrementalLinearTest (runs size bound iterations : Nat) : Sim Bool :=
  every runs (do
    let n ← Sim.uniformInt 1 size
    let w ← linearGenerate (fun (u : Unit) => do
      let v ← signedInt bound
      pure (v, u)) () n
    incrementalFn (linearFunction w) defaultMutation n iterations)

/-- `test-incremental-walsh-expansion-1.cc:33-69`. -/
def incrementalWalsh1Test (runs size bound iterations : Nat) : Sim Bool :=
  every runs (do
    let n ← Sim.uniformInt 1 size
    let w ← vectorGenerate (signedInt bound) n
    incrementalFn (walshExpansion1 w) defaultMutation n iterations)

/-- `test-incremental-nn-ising-1.cc:33-73`; the buffer is `_flipped_bits` (`nearest-neighbor-ising-model-1.cc:41`). -/
def incrementalIsing1Test (runs size bound iterations : Nat) : Sim Bool :=
  every runs (do
    let n ← Sim.uniformInt 1 size
    let m ← ising1Generate (signedInt bound) (signedInt bound) n
    let periodic ← Sim.bernoulli
    let m := if periodic then { m with periodic := true } else m
    incrementalRun (ising1Eval m) (ising1Inc m) (List.replicate n false) defaultMutation n iterations)

/-- `test-incremental-nn-ising-2.cc:33-76`; the buffer is `_flipped_bits` (`nearest-neighbor-ising-model-2.cc:44`). -/
def incrementalIsing2Test (runs rows columns bound iterations : Nat) : Sim Bool :=
  every runs (do
    let r ← Sim.uniformInt 1 rows
    let c ← Sim.uniformInt 1 columns
    let m ← ising2Generate (signedInt bound) (signedInt bound) r c
    let periodic ← Sim.bernoulli
    let m := if periodic then { m with periodic := true } else m
    incrementalRun (ising2Eval m) (ising2Inc m) (List.replicate (r * c) false) defaultMutation (r * c) iterations)

end Hnco.Tests
