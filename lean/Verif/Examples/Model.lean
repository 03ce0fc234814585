import Verif.Algorithm.LocalSearch
import Verif.App.AlgorithmFactory
import Verif.Function.Controller
import Verif.Function.Theory

/-!
# The example programs

Models `examples/basic.cc`, `examples/custom.cc`, `examples/on-budget-function.cc` and `examples/stop-on-maximum.cc`.  The sizes and
the other numbers of the programs are parameters.
-/

namespace Hnco.Examples

open Outcome

variable {K : Type}

/-- The solution which is printed; `calls` (ghost) are the evaluations which have been made. -/
structure Shown (K : Type) where
  solution : BV × K
  calls : List (BV × K)

/-- A function without controllers, as seen by an algorithm: no evaluation is interrupted.  Simplification: incremental evaluation,
which is not used in the programs, is undefined. -/
def directEnv (f : Fn K) : Env K := ⟨{ f with hasInc := false, evalInc := fun _ _ _ => ub }, fun _ _ => none⟩

/-- A function with a controller, as seen by an algorithm: the evaluations which are interrupted are those which the controller
interrupts in the state in which it is after the evaluations which have been made.  Simplification: as above. -/
def controlledEnv {σ : Type} (f : Fn K) (obj : FnObj σ K) (init : σ) : Env K where
  fn := { f with hasInc := false, evalInc := fun _ _ _ => ub }
  stop := fun calls x =>
    match (obj.evaluate x ((calls.map Prod.fst).foldl (fun s x => (obj.evaluate x s).2) init)).1 with
    | .throw e => some e
    | _ => none

/-- The end of a program after `maximize` has returned or has been interrupted, where only the exceptions in `caught` are caught: the
solution (`algorithm.hh:143`). -/
def showSolution {σ : Type} (caught : List Exn) (r : Except Exn Unit × AlgState K σ) : Sim (Shown K) :=
  match r.1 with
  | .ok _ => pure ⟨r.2.solution, r.2.calls⟩
  | .error e => if e ∈ caught then pure ⟨r.2.solution, r.2.calls⟩ else Sim.lift (.throw e)

/-- The parameters of an `OnePlusOneEa` (`one-plus-one-ea.hh:58-68`, `80-84`) when only the number of iterations is set. -/
def eaOptions (k : Int) : AlgOptions where
  algorithm := 300
  numIterations := k
  eaMutationRate := none
  eaAllowNoMutation := false
  incrementalEvaluation := false

/-- The parameters of a `MuPlusLambdaEa` (`mu-plus-lambda-ea.hh:66-70`, `94-101`, `iterative-algorithm.hh:50`). -/
def plusOptions (mu lam : Int) : AlgOptions where
  algorithm := 310
  numIterations := 0
  eaMu := mu
  eaLambda := lam
  eaMutationRate := none
  eaAllowNoMutation := false

/-- `main` of `examples/basic.cc:31-50`, with `bv_size` equal to `n` and `k` iterations. -/
def basic (n : Nat) (k : Int) (fuel : Nat) : Sim (Shown Int) :=
  Sim.bind (Sim.lift (makeOnePlusOneEa (K := Int) (eaOptions k) n)) fun ea =>
  Sim.bind (ea.maximize (directEnv (oneMax n)) fuel ea.start) fun r =>
  match r.1 with
  | .ok _ => Sim.bind (ea.finalize r.2) (showSolution [])
  | .error e => Sim.lift (.throw e)

/-- The loop of `MyFunction::evaluate` (`examples/custom.cc:46-52`, `examples/cli-my-function.cc:37-43`). -/
def countOnes (n : Nat) (x : BV) : Outcome Int :=
  forRange 0 n (fun i (result : Int) => do
    let b ← vget x i
    ok (if b then result + 1 else result)) 0

/-- `MyFunction` (`examples/custom.cc:34-54`, `examples/cli-my-function.cc:33-44`). -/
def myFunction (n : Nat) : Fn Int := Fn.ofEval n (countOnes n)

/-- `MyAlgorithm::init` (`examples/custom.cc:65`, `examples/cli-my-algorithm.cc:39`). -/
def myInit (env : Env K) : Alg (AlgState K BV) Unit := randomSolution env

/-- `MyAlgorithm::iterate` (`examples/custom.cc:67-70`, `examples/cli-my-algorithm.cc:40-43`); the data is the member `_candidate`. -/
def myIterate [LT K] [DecidableLT K] (env : Env K) : Alg (AlgState K BV) Unit := do
  let s ← Alg.get
  let x ← Alg.sim (bvRandomBits s.data.length)
  Alg.modify (fun s => { s with data := x })
  updateSolutionEval env x

/-- `MyAlgorithm` after construction (`examples/custom.cc:58-78`, `examples/cli-my-algorithm.cc:35-48`), with `k` iterations, or
without end if `k` is not positive (`iterative-algorithm.cc:52-57`). -/
def myAlgorithm [LinearOrder K] [Zero K] (k : Int) (n : Nat) : Outcome (MadeAlgorithm K) :=
  (algorithmNew n).made (fun _ =>
    ⟨BV, newState n (List.replicate n false), fun env fuel => algLoop (myInit env) (myIterate env) k fuel, noFinalize⟩)

/-- `main` of `examples/custom.cc:81-100`, with `bv_size` equal to `n` and `k` iterations. -/
def custom (n : Nat) (k : Int) (fuel : Nat) : Sim (Shown Int) :=
  Sim.bind (Sim.lift (myAlgorithm (K := Int) k n)) fun algo =>
  Sim.bind (algo.maximize (directEnv (myFunction n)) fuel algo.start) (showSolution [])

/-- `main` of `examples/on-budget-function.cc:36-58`, with `bv_size` equal to `n`. -/
def onBudgetFunction (n : Nat) (budget mu lam : Int) (fuel : Nat) : Sim (Shown Int) :=
  Sim.bind (Sim.lift (makeMuPlusLambda (K := Int) (plusOptions mu lam) n)) fun ea =>
  Sim.bind (ea.maximize (controlledEnv (oneMax n) (onBudget budget (FnObj.base (oneMax n))) ([], 0)) fuel ea.start)
    (showSolution [.lastEvaluation])

/-- The function of `examples/stop-on-maximum.cc:41-42`, where `maximum` is `get_maximum()` (`controller.hh:151-152`). -/
def stoppingFunction (n : Nat) (maximum : Int) : Env Int :=
  controlledEnv (oneMax n) (stopOnTarget maximum (FnObj.base (oneMax n))) ([], none)

/-- `main` of `examples/stop-on-maximum.cc:36-56`, with `bv_size` equal to `n`: the vector which is printed, if there is one.  The
model of algorithms does not record the vector whose evaluation has been interrupted: it is given by `last`, a function of the
evaluations which have been made before. -/
def stopOnMaximum (last : List (BV × Int) → BV) (n fuel : Nat) : Sim (Option BV) :=
  Sim.bind (Sim.lift (oneMax n).maximum) fun maximum =>
  Sim.bind (Sim.lift (makeOnePlusOneEa (K := Int) (eaOptions 0) n)) fun ea =>
  Sim.bind (ea.maximize (stoppingFunction n maximum) fuel ea.start) fun r =>
  match r.1 with
  | .ok _ => pure none
  | .error .targetReached =>
    match ((stopOnTarget maximum (FnObj.base (oneMax n))).evaluate (last r.2.calls)
      ((r.2.calls.map Prod.fst).foldl (fun s x => ((stopOnTarget maximum (FnObj.base (oneMax n))).evaluate x s).2) ([], none))).2.2 with
    | none => Sim.lift ub
    | some solution => pure (some solution.1)
  | .error e => Sim.lift (.throw e)

end Hnco.Examples
