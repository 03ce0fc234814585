import Verif.Prob.Populations

/-!
# Restart, with probabilities

Second model of `lib/hnco/algorithms/decorators/restart.cc`, in which runs have probabilities.  Evaluations are not interrupted.
-/

namespace Hnco.Prob

open Outcome
open scoped ENNReal

variable {K τ : Type}

/-- `Restart::iterate` (`lib/hnco/algorithms/decorators/restart.cc:28-37`), with `update_solution`
(`lib/hnco/algorithms/algorithm.cc:61-66`): the solution and the state of the algorithm.  `run` stands for `maximize`, `finalize`
and `get_solution` of the algorithm. -/
noncomputable def restartIterate [LT K] [DecidableLT K] (run : τ → Dist ((BV × K) × τ)) (first : Bool) (s : (BV × K) × τ) :
    Dist ((BV × K) × τ) := do
  let r ← run s.2
  if first then pure (r.1, r.2) else pure (updateSolution s.1 r.1.1 r.1.2, r.2)

/-- `Restart::maximize` (`lib/hnco/algorithms/decorators/restart.cc:39-52`) and the solution; without a number of iterations, the
loop never ends. -/
noncomputable def restart [LT K] [DecidableLT K] (run : τ → Dist ((BV × K) × τ)) (s : (BV × K) × τ) (numIterations : ℤ) : Dist (BV × K) :=
  if numIterations > 0 then do
    let s ← Dist.forRange 0 numIterations.toNat (fun i => restartIterate run (i == 0)) s
    pure s.1
  else Dist.never

/-- `RandomLocalSearch::init` (`lib/hnco/algorithms/local-search/random-local-search.cc:33-38`,
`lib/hnco/algorithms/local-search/local-search-algorithm.hh:57-67`, `lib/hnco/neighborhoods/neighborhood.hh:98-101`) in a state left
by a previous run, and `_last_iteration = false` (`lib/hnco/algorithms/iterative-algorithm.cc:31`). -/
noncomputable def rlsAgain (p : RlsParams K) (f : Fn K) (t : RlsState K) : Dist (RlsState K) := do
  let s ← (if p.randomInitialization then randomSolution f t.solution.1 else do
    let v ← Dist.lift (f.eval p.startingPoint)
    pure (p.startingPoint, v))
  pure ⟨s, s.1, s.1, t.flipped, 0, false⟩

/-- `RandomLocalSearch::maximize` (`lib/hnco/algorithms/iterative-algorithm.cc:52-57`) and `finalize`
(`lib/hnco/algorithms/local-search/random-local-search.cc:117-124`) in a state left by a previous run: the solution and the new
state. -/
noncomputable def rlsRun (p : RlsParams K) (f : Fn K) (numIterations : ℤ) (t : RlsState K) : Dist ((BV × K) × RlsState K) := do
  let s ← loop (rlsAgain p f t) (fun s => s.last) (rlsIterate p f) numIterations
  pure ((s.origin, s.solution.2), { s with solution := (s.origin, s.solution.2) })

end Hnco.Prob
