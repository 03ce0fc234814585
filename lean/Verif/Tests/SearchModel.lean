import Verif.Tests.Model
import Verif.App.AlgorithmFactory
import Verif.App.Ffgen
import Verif.Function.Collection
import Verif.Function.MaxSat
import Verif.Function.Peaks
import Verif.Function.Theory

/-!
# The project's test programs on complete search

Each of the programs `test-complete-search-*.cc` makes a function, moves its optimum by a random translation, explores the
whole hypercube, and compares the value of the solution with the maximum which the function declares.
-/

namespace Hnco.Tests

open Outcome

variable {K : Type}

/-- A `FunctionMapComposition` as the function given to an algorithm (`modifiers/modifier.hh:83-133`, `modifier.cc:42-47`).
Simplification: the buffer `_output` has the contents `output` before each evaluation, instead of those left by the previous
one; the maximum, which the algorithm does not use, is left out. -/
def mappedFn (f : Fn K) (m : MapObj) (output : BV) : Fn K :=
  Fn.ofEval m.inputSize (fun x => do
    let r ← functionMapEvaluate f m output x
    return r.1)

/-- Construction and run of the algorithm, and the comparison of the value of its solution
(`test-complete-search-one-max.cc:50-58`).  The number `2 ^ n` bounds the iterations of the loop over the hypercube. -/
def searchFinds [LinearOrder K] [Zero K] (n : Nat) (f : Fn K) (expected : Outcome K) : Sim Bool := do
  Sim.lift (algorithmNew n)
  let r ← completeMaximize ⟨f, fun _ _ => none⟩ (2 ^ n) (newState n ())
  match r.1 with
  | .error _ => pure false
  | .ok _ => do
    let m ← Sim.lift expected
    pure (r.2.solution.2 == m)

/-- The body of the loop over the runs (`test-complete-search-one-max.cc:45-58`) once the function has been made. -/
def translatedSearch [LinearOrder K] [Zero K] (n : Nat) (f : Fn K)
    (expected : MapObj → Outcome K) : Sim Bool := do
  let bv ← translationRandom n
  let output ← Sim.lift (functionMapNew f (translationObj bv))
  searchFinds n (mappedFn f (translationObj bv) output) (expected (translationObj bv))

/-- `test-complete-search-one-max.cc:37-62`. -/
def searchOneMax (runs n : Nat) : Sim Bool := every runs (translatedSearch n (oneMax n) (functionMapMaximum (oneMax n)))

/-- `test-complete-search-leading-ones.cc:37-62`. -/
def searchLeadingOnes (runs n : Nat) : Sim Bool :=
  every runs (translatedSearch n (leadingOnes n) (functionMapMaximum (leadingOnes n)))

/-- `test-complete-search-needle.cc:37-62`. -/
def searchNeedle (runs n : Nat) : Sim Bool := every runs (translatedSearch n (needle n) (functionMapMaximum (needle n)))

/-- `test-complete-search-ridge.cc:37-62`. -/
def searchRidge (runs n : Nat) : Sim Bool := every runs (translatedSearch n (ridge n) (functionMapMaximum (ridge n)))

/-- `test-complete-search-plateau.cc:37-62`. -/
def searchPlateau (runs n : Nat) : Sim Bool := every runs (translatedSearch n (plateau n) (functionMapMaximum (plateau n)))

/-- `test-complete-search-hiff.cc:37-62`.  The map is made first there; making the function draws no number. -/
def searchHiff (runs n : Nat) : Sim Bool :=
  every runs (do
    let depth ← Sim.lift (hiffNew n)
    translatedSearch n (hiff n depth) (functionMapMaximum (hiff n depth)))

/-- `test-complete-search-jump.cc:37-63`.  The map is made first there; making the function draws no number. -/
def searchJump (runs n : Nat) (gap : Int) : Sim Bool :=
  every runs (do
    Sim.lift (jumpNew n gap)
    translatedSearch n (jump n gap) (functionMapMaximum (jump n gap)))

/-- `test-complete-search-deceptive-jump.cc:37-63`.  The map is made first there; making the function draws no number. -/
def searchDeceptiveJump (runs n : Nat) (gap : Int) : Sim Bool :=
  every runs (do
    Sim.lift (jumpNew n gap)
    translatedSearch n (deceptiveJump n gap) (functionMapMaximum (deceptiveJump n gap)))

/-- `test-complete-search-trap.cc:37-63`. -/
def searchTrap (runs n numTraps : Nat) : Sim Bool :=
  every runs (do
    let size ← Sim.lift (trapNew n numTraps)
    translatedSearch n (trap n numTraps size) (functionMapMaximum (trap n numTraps size)))

/-- `test-complete-search-four-peaks.cc:39-65`. -/
def searchFourPeaks (runs n : Nat) (gap : Int) : Sim Bool :=
  every runs (do
    let maximum ← Sim.lift (peaksNew n gap)
    translatedSearch n (fourPeaks n gap maximum) (functionMapMaximum (fourPeaks n gap maximum)))

/-- `test-complete-search-six-peaks.cc:37-63`. -/
def searchSixPeaks (runs n : Nat) (gap : Int) : Sim Bool :=
  every runs (do
    let maximum ← Sim.lift (peaksNew n gap)
    translatedSearch n (sixPeaks n gap maximum) (functionMapMaximum (sixPeaks n gap maximum)))

/-- `test-complete-search-long-path.cc:37-66`. -/
def searchLongPath (runs prefixBound divisorBound : Nat) : Sim Bool :=
  every runs (do
    let k ← Sim.uniformInt 2 prefixBound
    let d ← Sim.uniformInt 2 divisorBound
    Sim.lift (longPathNew (d * k) k)
    translatedSearch (d * k) (longPath (d * k) k) (functionMapMaximum (longPath (d * k) k)))

/-- The generator of coefficients (`test-complete-search-linear-function.cc:42-45`). -/
def drawCoefficient (bound : Nat) : Sim Int := do
  let d ← Sim.uniformInt 0 (2 * bound)
  pure ((d : Int) - bound)

/-- `test-complete-search-linear-function.cc:37-69`. -/
def searchLinear (runs size bound : Nat) : Sim Bool :=
  every runs (do
    let n ← Sim.uniformInt 1 size
    let w ← linearGenerate (fun (u : Unit) => do
      let c ← drawCoefficient bound
      pure (c, u)) () n
    translatedSearch n (linearFunction w) (functionMapMaximum (linearFunction w)))

/-- `test-complete-search-walsh-expansion-1.cc:37-69`. -/
def searchWalsh1 (runs size bound : Nat) : Sim Bool :=
  every runs (do
    let n ← Sim.uniformInt 1 size
    let w ← vectorGenerate (drawCoefficient bound) n
    translatedSearch n (walshExpansion1 w) (functionMapMaximum (walshExpansion1 w)))

/-- `test-complete-search-factorization.cc:37-70`.  Writing the product in decimal and reading it back in the constructor
(`factorization.cc:57-79`) is left out.  Simplification: the members `_first_factor` and `_second_factor` have the values
`first` and `second` before each evaluation, instead of those left by the previous one. -/
def searchFactorization (first second runs aBound bBound : Nat) : Sim Bool :=
  every runs (do
    let a ← Sim.uniformInt 2 aBound
    let b ← Sim.uniformInt 2 bBound
    let n := firstFactorSize (a * b) + secondFactorSize (a * b)
    translatedSearch n (Fn.ofEval n (factorizationEval (a * b) first second)) (fun _ => ok 0))

/-- `test-complete-search-max-sat.cc:35-73`. -/
def searchMaxSat {D : Type} [LT D] [DecidableLT D] (ratio : Nat → Nat → D) (uniform : Nat → Nat → D) (runs size clauses : Nat) :
    Sim Bool :=
  every runs (do
    let n ← Sim.uniformInt 1 size
    let k ← Sim.uniformInt 1 n
    let c ← Sim.uniformInt 1 clauses
    let solution ← bvRandomBits n
    let expression ← maxSatRandomPlanted ratio uniform solution k c
    searchFinds n (Fn.ofEval n (fun x => do
      let v ← maxSatEval expression x
      return (v : Int))) (ok (c : Int)))

end Hnco.Tests
