import Verif.Algorithm.Population
import Verif.Multiobjective.Nsga2
import Verif.Function.NkLandscape
import Verif.Tests.MomentModel
import Verif.Tests.SearchModel

/-!
# The project's test programs on populations

As in `Verif.Tests.Model`, the literals of the programs are parameters.
-/

namespace Hnco.Tests

open Outcome

/-! ## Pareto fronts -/

/-- The loop which looks for an individual of the front `p` which dominates `b` (`test-pareto-front-computation.hh:91-96`,
`102-107`), over `count` individuals from `i` on. -/
def findDominating (values : List MoValue) (fronts : List Nat) (p b : Nat) : Nat → Nat → Outcome Bool
  | 0, _ => ok false
  | count + 1, i => do
    let q ← vget fronts i
    if q = p then do
      let d ← dominatesAt values i b
      if d then ok true else findDominating values fronts p b count (i + 1)
    else findDominating values fronts p b count (i + 1)

/-- The checks on two individuals (`test-pareto-front-computation.hh:79-110`). -/
def comparePair (values : List MoValue) (fronts : List Nat) (a b : Nat) : Outcome Bool :=
  if a = b then ok true
  else do
    let pa ← vget fronts a
    let pb ← vget fronts b
    if pa = pb then do
      let d ← dominatesAt values a b
      if d then ok false
      else do
        let d ← dominatesAt values b a
        if d then ok false else ok true
    else if pa < pb then findDominating values fronts pa b values.length 0
    else do
      assert (decide (pb < pa))
      findDominating values fronts pb a values.length 0

/-- Filling the values (`test-pareto-front-computation.hh:64-68`); they are between `-bound` and `bound`. -/
def drawValues (bound : Nat) (values : List MoValue) : Sim (List MoValue) :=
  Sim.forRange 0 values.length (fun i values => do
    let v ← Sim.lift (vget values i)
    let v ← nkFill (do
      let d ← Sim.uniformInt 0 (2 * bound)
      pure ((d : Rat) - bound)) v
    Sim.lift (vset values i v)) values

/-- `check<Nsga2ParetoFrontComputation>` (`test-pareto-front-computation.hh:50-116`,
`test-nsga2-pareto-front-computation.cc:36`).  The number of individuals bounds the rounds of the computation of the fronts. -/
def paretoTest (runs inner pop dim objectives bound : Nat) : Sim Bool :=
  every runs (do
    let size ← Sim.uniformInt 1 pop
    let n ← Sim.uniformInt 1 dim
    let m ← Sim.uniformInt 2 objectives
    let population ← Sim.lift (MoPop.new size n m)
    let values ← drawValues bound population.values
    let fronts ← computeFronts values size (List.replicate size 0)
    every inner (do
      let a ← Sim.uniformInt 0 (size - 1)
      let b ← Sim.uniformInt 0 (size - 1)
      Sim.lift (comparePair values fronts a b)))

/-! ## Parallel evaluation -/

/-- `Generator::reset` (`lib/hnco/random.cc:45-48`): the stream of numbers starts again; `start` is the stream at the time of
`set_seed`. -/
def resetGenerator (start : List Nat) : Sim Unit := fun _ => .ok () start

/-- The functions, one for each thread (`test-population-evaluate-in-parallel.cc:62-69`). -/
def makeFunctions (start : List Nat) (n : Nat) : Nat → Sim (List (Fn Int))
  | 0 => pure []
  | k + 1 => do
    resetGenerator start
    let bv ← translationRandom n
    let output ← Sim.lift (functionMapNew (oneMax n) (translationObj bv))
    let fns ← makeFunctions start n k
    pure (mappedFn (oneMax n) (translationObj bv) output :: fns)

/-- The body of the loop (`test-population-evaluate-in-parallel.cc:51-93`) once the sizes have been drawn.  `schedule` says which
thread evaluates which individual, and in which order.  Of the assertions, the one on the size of the population is kept. -/
def parallelRun (start : List Nat) (size n threads : Nat) (schedule : List (Nat × Nat)) : Sim Bool := do
  let fns ← makeFunctions start n threads
  let population ← Sim.lift (Pop.new size n)
  Sim.lift (assert (population.bvs.length == size))
  let population ← population.random
  let first ← Sim.lift (vget fns 0)
  let sequential := populationEvaluate (FnObj.base first) population.bvs ([], population.values)
  Sim.lift sequential.1
  let parallel := populationEvaluateParallel (fns.map FnObj.base) population.bvs schedule (fns.map (fun _ => []), population.values)
  Sim.lift parallel.1
  Sim.lift (allFrom (fun j => do
    let a ← vget sequential.2.2 j
    let b ← vget parallel.2.2 j
    ok (!decide (a ≠ b))) size 0)

/-- `check` (`test-population-evaluate-in-parallel.cc:43-98`); `schedule` gives the schedule of each run, for the number of threads
and the size of the population which have been drawn. -/
def parallelTest (start : List Nat) (schedule : Nat → Nat → Nat → List (Nat × Nat)) (runs pop dim threads : Nat) : Sim Bool :=
  everyAt (fun i => do
    let size ← Sim.uniformInt 1 pop
    let n ← Sim.uniformInt 1 dim
    let k ← Sim.uniformInt 1 threads
    parallelRun start size n k (schedule i k size)) runs 0

end Hnco.Tests
