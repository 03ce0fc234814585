import Verif.App.Application
import Verif.App.AlgorithmFactory

/-!
# Model of a run of the application with an algorithm made by the factory

Puts together the function with its controllers (`Application.lean`), the algorithm (`AlgorithmFactory.lean`), and the end of
`CommandLineApplication::maximize` (`lib/hnco/app/application.cc:269-315`).
-/

namespace Hnco

open Outcome

variable {K : Type}

/-- The state of the function and of its controllers after full evaluations of the given vectors, in a single thread. -/
def FnStack.after (st : FnStack K) (xs : List BV) : st.σ := xs.foldl (fun s x => (st.obj.evaluate x s).2) st.init

/-- The function as seen by an algorithm (`_fns` in `application.cc:283`): it interrupts the evaluations which are interrupted
by its controllers, after the evaluations which have been made.  Simplifications: no incremental evaluation; the evaluation of a
vector of another size is undefined. -/
def FnStack.env (st : FnStack K) (fn : Fn K) : Env K where
  fn :=
    { size := fn.size
      hasMax := fn.hasMax
      maximum := fn.maximum
      eval := fun x => if x.length = fn.size then fn.eval x else ub
      hasInc := false
      evalInc := fun _ _ _ => ub }
  stop := fun calls x =>
    if x.length = fn.size then
      match (st.obj.evaluate x (st.after (calls.map Prod.fst))).1 with
      | .throw e => some e
      | _ => none
    else none

/-- The end of `CommandLineApplication::maximize` (`application.cc:282-315`), after a run of the algorithm; `last` is the vector
whose evaluation has been interrupted, if any. -/
def appConclude (o : AppOptions K) (st : FnStack K) (r : RunResult K) (last : BV) : Outcome (AppResult K) :=
  let s := st.after (r.calls.map Prod.fst)
  match r.ending with
  | .ok _ => ok (appFinish o (st.tracker s) r.solution.1 false)
  | .error .targetReached =>
    let s := (st.obj.evaluate last s).2
    match st.trigger with
    | none => ub
    | some trigger =>
      match trigger s with
      | none => ub
      | some p => ok (appFinish o (st.tracker s) p.1 true)
  | .error .lastEvaluation => ok (appFinish o (st.tracker (st.obj.evaluate last s).2) r.solution.1 false)
  | .error .runtimeError => Outcome.throw .runtimeError

/-- `_algorithm->maximize`, `_algorithm->finalize` and `_algorithm->get_solution` in `Restart::iterate`
(`decorators/restart.cc:31-36`). -/
def MadeAlgorithm.once (m : MadeAlgorithm K) (env : Env K) (fuel : Nat) : Alg (AlgState K m.σ) (BV × K) := do
  m.maximize env fuel
  m.finalize
  let s ← Alg.get
  pure s.solution

/-- `new Restart(_algorithm)` (`application.cc:187-189`, `decorators/decorator.hh:49-52`, `decorators/restart.hh:40-56`): the number of
iterations is not set, and `finalize` is not overridden.  The evaluations (ghost) are those of the wrapped algorithm. -/
def MadeAlgorithm.restart [LT K] [DecidableLT K] [Zero K] (m : MadeAlgorithm K) : MadeAlgorithm K where
  σ := RestartData K (AlgState K m.σ)
  start := newState m.start.solution.1.length ⟨m.start, []⟩
  maximize := fun env fuel s => do
    let r ← restartMaximize (m.once env fuel) 0 fuel s
    pure (r.1, { r.2 with calls := r.2.data.inner.calls })
  finalize := noFinalize

end Hnco
