import Verif.Algorithm.Evolutionary

/-!
# Model of the (1+(lambda, lambda)) genetic algorithm

Models `lib/hnco/algorithms/evolutionary-algorithms/one-plus-lambda-comma-lambda-ga.cc`.
-/

namespace Hnco

open Outcome

variable {K : Type}

/-- Data members of `OnePlusLambdaCommaLambdaGa` (`one-plus-lambda-comma-lambda-ga.hh:53-66`).  The distributions are
not modelled: the radius is any number from 0 to `n`, a trial of the biased crossover gives any bit. -/
structure LambdaData (K : Type) where
  offsprings : Pop K
  mutation : Nbh
  parent : BV

/-- The member `_offsprings`. -/
def lambdaLens (K : Type) : PopLens (LambdaData K) K where
  get d := d.offsprings
  put p d := { d with offsprings := p }
  get_put _ _ := rfl
  put_put _ _ _ := rfl
  put_get _ := rfl

/-- Constructor (`one-plus-lambda-comma-lambda-ga.hh:102-114`), without the parameters. -/
def lambdaNew [Zero K] (n lam : Int) : Outcome (LambdaData K) := do
  let offsprings ← Pop.new lam n
  let mutation ← (Sampler.hammingSphere 1).construct n.toNat
  assert (decide (0 < n))
  assert (decide (0 < lam))
  assert (decide (lam ≤ n))
  ok ⟨offsprings, mutation, List.replicate n.toNat false⟩

/-- `BiasedCrossover::set_bias` (`crossover.hh:99-104`): its assertions. -/
def setBias (b : Rat) : Outcome Unit := do
  assert (decide (0 < b))
  assert (decide (b < 1))

/-- `OnePlusLambdaCommaLambdaGa::init` (`one-plus-lambda-comma-lambda-ga.cc:30-37`). -/
def lambdaInit (env : Env K) (bias : Rat) : Alg (AlgState K (LambdaData K)) Unit := do
  Alg.lift (setBias bias)
  randomSolution env

/-- `while (_offsprings.get_best_value(n) == value && n < _offsprings.get_size()) n++`
(`one-plus-lambda-comma-lambda-ga.cc:54-55`, `71-72`).  The value is read before the index is tested.  The first argument
bounds the number of turns; `countTies` gives it the number of turns after which the index test fails. -/
def tieLoop [DecidableEq K] (p : Pop K) (value : K) : Nat → Nat → Outcome Nat
  | turns, n =>
    match p.bestValue n with
    | .ok v =>
      if v = value ∧ n < p.size then
        match turns with
        | 0 => ok n
        | turns + 1 => tieLoop p value turns (n + 1)
      else ok n
    | .throw e => .throw e
    | .ub => .ub

/-- The loop from index `n` (`one-plus-lambda-comma-lambda-ga.cc:53-55`, `70-72`). -/
def countTies [DecidableEq K] (p : Pop K) (value : K) (n : Nat) : Outcome Nat := tieLoop p value (p.size - n) n

/-- The choice of one of the best offsprings (`one-plus-lambda-comma-lambda-ga.cc:53-58`, `70-76`). -/
def chooseBest [DecidableEq K] (p : Pop K) (value : K) : Sim BV := do
  let n ← Sim.lift (countTies p value 0)
  Sim.lift (assert (decide (n > 0)))
  let i ← Sim.uniformInt 0 (n - 1)
  Sim.lift (p.bestBv i)

/-- Body of the mutation loop (`one-plus-lambda-comma-lambda-ga.cc:44-48`). -/
def sphereOffspring (radius : Nat) (x : BV) (i : Nat) (s : Nbh × Pop K) : Sim (Nbh × Pop K) := do
  let y ← Sim.lift (vget s.2.bvs i)
  let r ← s.1.map (.hammingSphere radius) x y
  let bvs ← Sim.lift (vset s.2.bvs i r.2)
  pure (r.1, { s.2 with bvs := bvs })

/-- Mutation (`one-plus-lambda-comma-lambda-ga.cc:43-48`). -/
def lambdaMutate : Alg (AlgState K (LambdaData K)) Unit := do
  let s ← Alg.get
  let radius ← Alg.sim (Sim.uniformInt 0 s.data.parent.length)
  let r ← Alg.sim (Sim.forRange 0 s.data.offsprings.size (sphereOffspring radius s.solution.1)
    (s.data.mutation, s.data.offsprings))
  Alg.modify (fun s => { s with data := { s.data with mutation := r.1, offsprings := r.2 } })

/-- The choice of the second parent (`one-plus-lambda-comma-lambda-ga.cc:52-58`). -/
def lambdaParent [DecidableEq K] : Alg (AlgState K (LambdaData K)) Unit := do
  let s ← Alg.get
  let value ← Alg.lift (s.data.offsprings.bestValue 0)
  let x ← Alg.sim (chooseBest s.data.offsprings value)
  Alg.modify (fun s => { s with data := { s.data with parent := x } })

/-- Body of the crossover loop (`one-plus-lambda-comma-lambda-ga.cc:61-62`). -/
def biasedOffspring (x y : BV) (i : Nat) (p : Pop K) : Sim (Pop K) := do
  let z ← Sim.lift (vget p.bvs i)
  let w ← biasedRecombine x y z
  let bvs ← Sim.lift (vset p.bvs i w)
  pure { p with bvs := bvs }

/-- Crossover (`one-plus-lambda-comma-lambda-ga.cc:61-62`). -/
def lambdaRecombine : Alg (AlgState K (LambdaData K)) Unit := do
  let s ← Alg.get
  let p ← Alg.sim (Sim.forRange 0 s.data.offsprings.size (biasedOffspring s.solution.1 s.data.parent) s.data.offsprings)
  Alg.modify (fun s => { s with data := { s.data with offsprings := p } })

/-- Selection (`one-plus-lambda-comma-lambda-ga.cc:67-77`). -/
def lambdaSelect [DecidableEq K] [LE K] [DecidableLE K] : Alg (AlgState K (LambdaData K)) Unit := do
  let s ← Alg.get
  let value ← Alg.lift (s.data.offsprings.bestValue 0)
  if s.solution.2 ≤ value then do
    let x ← Alg.sim (chooseBest s.data.offsprings value)
    Alg.modify (fun s => { s with solution := (x, value) })
  else pure ()

/-- `OnePlusLambdaCommaLambdaGa::iterate` (`one-plus-lambda-comma-lambda-ga.cc:40-79`). -/
def lambdaIterate [DecidableEq K] [LT K] [DecidableLT K] [LE K] [DecidableLE K] (env : Env K) :
    Alg (AlgState K (LambdaData K)) Unit := do
  lambdaMutate
  popEvaluate env (lambdaLens K)
  popSort (lambdaLens K)
  lambdaParent
  lambdaRecombine
  popEvaluate env (lambdaLens K)
  popSort (lambdaLens K)
  lambdaSelect

/-- `OnePlusLambdaCommaLambdaGa` as an iterative algorithm. -/
def lambdaMaximize [DecidableEq K] [LT K] [DecidableLT K] [LE K] [DecidableLE K] (env : Env K) (bias : Rat)
    (numIterations : Int) (fuel : Nat) : Alg (AlgState K (LambdaData K)) Unit :=
  algLoop (lambdaInit env bias) (lambdaIterate env) numIterations fuel

end Hnco
