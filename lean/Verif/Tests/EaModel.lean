import Verif.Algorithm.LocalSearch
import Verif.App.AlgorithmFactory
import Verif.Function.Controller
import Verif.Tests.Model
import Verif.Tests.SearchModel

/-!
# The test program on the (1+1) evolutionary algorithm

Models `tests/test-one-plus-one-ea-one-max.cc`.
-/

namespace Hnco.Tests

open Outcome

/-- The function passed to the algorithm, a `StopOnMaximum` (`test-one-plus-one-ea-one-max.cc:51`): it interrupts the evaluations
which reach the maximum (`controller.hh:144-153`).  Simplification: incremental evaluation, which the algorithm does not use, is
undefined. -/
def stoppingEnv (f : Fn Int) (maximum : Int) : Env Int where
  fn := { f with hasInc := false, evalInc := fun _ _ _ => ub }
  stop := fun _ x =>
    match ((stopOnTarget maximum (FnObj.base f)).evaluate x ([], none)).1 with
    | .throw e => some e
    | _ => none

/-- `OnePlusOneEa algorithm(bv_size)` and `algorithm.maximize({&f2})` (`test-one-plus-one-ea-one-max.cc:53-56`), with the default
parameters (`one-plus-one-ea.hh:58-68`, `80-84`). -/
def runEa (env : Env Int) (n fuel : Nat) : Sim (Except Exn Unit × AlgState Int RlsData) := do
  let nbh ← Sim.lift (do
    algorithmNew n
    (Sampler.standardBitMutation newStandard).construct n)
  onePlusOneMaximize env ⟨0, belowInvSqrt n (1 / (n : Rat)), false, false⟩ newStandard (newStart n) fuel (newState n ⟨nbh, 0⟩)

/-- `main` (`test-one-plus-one-ea-one-max.cc:37-69`).  The model of algorithms does not record the vector whose evaluation has been
interrupted: it is given by `last`, a function of the evaluations which have been made before.  A run of the algorithm which is not
over after `fuel` iterations gives no result. -/
def onePlusOneEaTest (last : Env Int → List (BV × Int) → BV) (runs dim fuel : Nat) : Sim Bool :=
  every runs (do
    let n ← Sim.uniformInt 1 dim
    let bv ← translationRandom n
    let output ← Sim.lift (functionMapNew (oneMax n) (translationObj bv))
    let f1 := mappedFn (oneMax n) (translationObj bv) output
    let maximum ← Sim.lift (functionMapMaximum (oneMax n) (translationObj bv))
    let env := stoppingEnv f1 maximum
    let r ← runEa env n fuel
    match r.1 with
    | .ok _ => pure false
    | .error .targetReached =>
      match ((stopOnTarget maximum (FnObj.base f1)).evaluate (last env r.2.calls) ([], none)).2.2 with
      | none => Sim.lift ub
      | some solution => do
        let value ← Sim.lift (f1.eval solution.1)
        let maximum ← Sim.lift (functionMapMaximum (oneMax n) (translationObj bv))
        pure (!decide (value ≠ maximum))
    | .error e => Sim.lift (.throw e))

end Hnco.Tests
