import Verif.Multiobjective.Nsga2
import Verif.Multiobjective.Parsed

/-!
# Model of the multiobjective application and of scalarization

Models `lib/hnco/multiobjective/app/application.cc`, `lib/hnco/multiobjective/app/algorithm-factory.cc` and
`lib/hnco/functions/converter.hh`; the adapter which adds the objectives is in `Verif/Representation/Adapter.lean`.
-/

namespace Hnco

open Outcome

/-! ## Converters -/

/-- `ScalarToDouble` (`converter.hh:31-37`). -/
def scalarToDouble (x : Rat) : Rat := x

/-- `AbsoluteValue` (`converter.hh:40-46`). -/
def absoluteValue (x : Rat) : Rat := |x|

/-- `OppositeAbsoluteValue` (`converter.hh:49-55`). -/
def oppositeAbsoluteValue (x : Rat) : Rat := -|x|

/-- `SquaredMagnitude` (`converter.hh:58-64`); `std::norm` is the sum of the squares of the real and imaginary parts. -/
def squaredMagnitude (z : Rat × Rat) : Rat := z.1 * z.1 + z.2 * z.2

/-- `OppositeSquaredMagnitude` (`converter.hh:67-73`). -/
def oppositeSquaredMagnitude (z : Rat × Rat) : Rat := -(z.1 * z.1 + z.2 * z.2)

/-- The vector function with values `expressions x`, each one being converted: what the adapters of
`multiobjective/functions/multivariate-function-adapter.hh` compute (see `moAdapter_objectives`). -/
def converted {D : Type} (converter : D → Rat) (expressions : BV → Outcome (List D)) (x : BV) : Outcome MoValue := do
  let ys ← expressions x
  ok (ys.map converter)

/-- `MultiobjectiveFunctionAdapter` (`multiobjective-function-adapter.hh:42-85`) as a function: a size and an evaluation. -/
def sumFunction (n : Nat) (f : BV → Outcome MoValue) : Fn Rat := Fn.ofEval n (multiobjectiveAdapterEvaluate f)

/-! ## Application -/

/-- The options read by the algorithm factory (`algorithm-factory.cc:37-50`).  `belowSqrt` stands for the test on the mutation
rate, and the crossover probability has no effect: see `Nsga2Params`. -/
structure MoOptions where
  algorithm : Int
  eaMu : Int
  tournamentSize : Int
  numIterations : Int
  belowSqrt : Bool
  allowNoMutation : Bool

/-- `CommandLineAlgorithmFactory::make` (`algorithm-factory.cc:31-57`). -/
def moMakeAlgorithm (o : MoOptions) (n m : Int) : Outcome (Nsga2 × Nsga2Params) :=
  if o.algorithm = 100 then do
    let s ← nsga2New n m o.eaMu ⟨false, false⟩
    ok (s, ⟨o.tournamentSize, o.belowSqrt, o.allowNoMutation⟩)
  else .throw .runtimeError

/-- Body of the loops of `manage_solutions` (`application.cc:138-146`, `151-157`): the individual is printed, or not. -/
def moPrint (fronts : List Nat) (solutions : MoPop) (i : Nat) (out : List (BV × MoValue)) : Outcome (List (BV × MoValue)) := do
  let front ← vget fronts i
  if front = 0 then do
    let v ← vget solutions.values i
    let x ← vget solutions.bvs i
    ok (out ++ [(x, v)])
  else ok out

/-- `manage_solutions` (`application.cc:128-160`), with both the description and the Pareto front printed: the individuals in the
order in which they are printed. -/
def moManageSolutions (fuel : Nat) (solutions : MoPop) : Sim (List (BV × MoValue)) := do
  let fronts ← computeFronts solutions.values fuel (List.replicate solutions.bvs.length 0)
  Sim.lift (forRange 0 solutions.bvs.length (moPrint fronts solutions) [])

/-- `run` (`application.cc:162-172`), for a function with `n` bits and `m` objectives: `make_algorithm`, `minimize` and
`manage_solutions`.  The result is what is printed, and the final state of the algorithm. -/
def moRun (o : MoOptions) (f : BV → Outcome MoValue) (n m fuel : Nat) : Sim (List (BV × MoValue) × Nsga2) := do
  let a ← Sim.lift (moMakeAlgorithm o n m)
  let t ← nsga2Minimize f m a.2 o.numIterations fuel a.1
  let out ← moManageSolutions fuel t.solutions
  pure (out, t)

end Hnco
