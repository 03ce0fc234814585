import Verif.Neighborhood.Model
import Verif.Population.Model

/-!
# Model of evolutionary algorithms with populations

Models `lib/hnco/algorithms/evolutionary-algorithms`: `mu-comma-lambda-ea.cc`, `mu-plus-lambda-ea.cc`,
`genetic-algorithm.cc`, `two-rate-one-plus-lambda-ea.cc` and `self-adjusting-one-plus-one-ea.cc`.

The populations are evaluated one vector after the other; the evaluation in parallel is the subject of
`Algorithm/Population.lean`.
-/

namespace Hnco

open Outcome

variable {K : Type}

/-- Data members of the algorithms with parents and offsprings (`mu-comma-lambda-ea.hh:47-60`,
`mu-plus-lambda-ea.hh:47-60`, `genetic-algorithm.hh:57-76`): `extra` is the pool of plus selection or the tournament
selection. -/
structure EaData (K τ : Type) where
  parents : Pop K
  offsprings : Pop K
  mutation : Nbh
  params : StandardParams
  extra : τ

/-- The member `_parents`. -/
def parentsLens (K τ : Type) : PopLens (EaData K τ) K where
  get d := d.parents
  put p d := { d with parents := p }
  get_put _ _ := rfl
  put_put _ _ _ := rfl
  put_get _ := rfl

/-- The member `_offsprings`. -/
def offspringsLens (K τ : Type) : PopLens (EaData K τ) K where
  get d := d.offsprings
  put p d := { d with offsprings := p }
  get_put _ _ := rfl
  put_put _ _ _ := rfl
  put_get _ := rfl

/-- Parameters: the result of `rate < 1 / std::sqrt(n)` in `set_mutation_rate` (`neighborhood.hh:282-287`) and
`_allow_no_mutation`. -/
structure MutationParams where
  belowSqrt : Bool
  allowNoMutation : Bool

/-- The setters called on the mutation operator by `init` (`mu-comma-lambda-ea.cc:34-35`, `mu-plus-lambda-ea.cc:34-35`,
`genetic-algorithm.cc:38-39`). -/
def setMutation {τ : Type} (q : MutationParams) : Alg (AlgState K (EaData K τ)) Unit :=
  Alg.modify (fun s => { s with data := { s.data with
    params := (s.data.params.setMutationRate q.belowSqrt).setAllowNoMutation q.allowNoMutation } })

/-! ## (mu, lambda) and (mu + lambda) EA -/

/-- Body of the loop which makes offsprings (`mu-comma-lambda-ea.cc:49-53`, `mu-plus-lambda-ea.cc:49-53`). -/
def makeOffspring (params : StandardParams) (parents : Pop K) (i : Nat) (s : Nbh × Pop K) : Sim (Nbh × Pop K) := do
  let k ← Sim.uniformInt 0 (parents.size - 1)
  let x ← Sim.lift (vget parents.bvs k)
  let bvs ← Sim.lift (vset s.2.bvs i x)
  let r ← s.1.mutate (.standardBitMutation params) x
  let bvs ← Sim.lift (vset bvs i r.2)
  pure (r.1, { s.2 with bvs := bvs })

/-- The loop over the offsprings. -/
def makeOffsprings {τ : Type} : Alg (AlgState K (EaData K τ)) Unit := do
  let s ← Alg.get
  let r ← Alg.sim (Sim.forRange 0 s.data.offsprings.size (makeOffspring s.data.params s.data.parents)
    (s.data.mutation, s.data.offsprings))
  Alg.modify (fun s => { s with data := { s.data with mutation := r.1, offsprings := r.2 } })

/-- Constructor of `MuCommaLambdaEa` (`mu-comma-lambda-ea.hh:94-101`); `params` are the parameters of a new mutation
operator. -/
def muCommaNew [Zero K] (n mu lam : Int) (params : StandardParams) : Outcome (EaData K Unit) := do
  let parents ← Pop.new mu n
  let offsprings ← Pop.new lam n
  commaNew parents offsprings
  let mutation ← Nbh.new n.toNat
  ok ⟨parents, offsprings, mutation, params, ()⟩

/-- `MuCommaLambdaEa::init` (`mu-comma-lambda-ea.cc:31-43`). -/
def muCommaInit (env : Env K) (q : MutationParams) : Alg (AlgState K (EaData K Unit)) Unit := do
  setMutation q
  popRandom (parentsLens K Unit)
  randomSolution env

/-- `_comma_selection.select()`. -/
def applyComma {τ : Type} [LT K] [DecidableLT K] : Alg (AlgState K (EaData K τ)) Unit := do
  let s ← Alg.get
  let r ← Alg.sim (commaSelect s.data.parents s.data.offsprings)
  Alg.modify (fun s => { s with data := { s.data with parents := r.1, offsprings := r.2 } })

/-- `MuCommaLambdaEa::iterate` (`mu-comma-lambda-ea.cc:46-64`). -/
def muCommaIterate [LT K] [DecidableLT K] (env : Env K) : Alg (AlgState K (EaData K Unit)) Unit := do
  makeOffsprings
  popEvaluate env (offspringsLens K Unit)
  applyComma
  popUpdateSolution (parentsLens K Unit)

/-- `MuCommaLambdaEa` as an iterative algorithm. -/
def muCommaMaximize [LT K] [DecidableLT K] (env : Env K) (q : MutationParams) (numIterations : Int) (fuel : Nat) :
    Alg (AlgState K (EaData K Unit)) Unit :=
  algLoop (muCommaInit env q) (muCommaIterate env) numIterations fuel

/-- Constructor of `MuPlusLambdaEa` (`mu-plus-lambda-ea.hh:94-101`). -/
def muPlusNew [Zero K] (n mu lam : Int) (params : StandardParams) : Outcome (EaData K (Pop K)) := do
  let parents ← Pop.new mu n
  let offsprings ← Pop.new lam n
  let pool ← plusNew parents offsprings
  let mutation ← Nbh.new n.toNat
  ok ⟨parents, offsprings, mutation, params, pool⟩

/-- `MuPlusLambdaEa::init` (`mu-plus-lambda-ea.cc:31-43`). -/
def muPlusInit [LT K] [DecidableLT K] (env : Env K) (q : MutationParams) : Alg (AlgState K (EaData K (Pop K))) Unit := do
  setMutation q
  popRandom (parentsLens K (Pop K))
  popEvaluate env (parentsLens K (Pop K))
  popSort (parentsLens K (Pop K))
  popSetSolution (parentsLens K (Pop K))

/-- `_plus_selection.select()`. -/
def applyPlus [LT K] [DecidableLT K] : Alg (AlgState K (EaData K (Pop K))) Unit := do
  let s ← Alg.get
  let r ← Alg.sim (plusSelect s.data.parents s.data.offsprings s.data.extra)
  Alg.modify (fun s => { s with data := { s.data with parents := r.1, offsprings := r.2.1, extra := r.2.2 } })

/-- `MuPlusLambdaEa::iterate` (`mu-plus-lambda-ea.cc:46-64`). -/
def muPlusIterate [LT K] [DecidableLT K] (env : Env K) : Alg (AlgState K (EaData K (Pop K))) Unit := do
  makeOffsprings
  popEvaluate env (offspringsLens K (Pop K))
  applyPlus
  popUpdateSolution (parentsLens K (Pop K))

/-- `MuPlusLambdaEa` as an iterative algorithm. -/
def muPlusMaximize [LT K] [DecidableLT K] (env : Env K) (q : MutationParams) (numIterations : Int) (fuel : Nat) :
    Alg (AlgState K (EaData K (Pop K))) Unit :=
  algLoop (muPlusInit env q) (muPlusIterate env) numIterations fuel

/-! ## Genetic algorithm -/

/-- Parameters of `GeneticAlgorithm` (`genetic-algorithm.hh:82-92`); the crossover probability is not modelled, a
trial gives any bit. -/
structure GaParams extends MutationParams where
  tournamentSize : Int

/-- Constructor of `GeneticAlgorithm` (`genetic-algorithm.hh:115-122`) and of its tournament selection
(`random-selection.hh:77-85`). -/
def gaNew [Zero K] (n mu : Int) (params : StandardParams) : Outcome (EaData K Tournament) := do
  let parents ← Pop.new mu n
  let offsprings ← Pop.new mu n
  commaNew parents offsprings
  let mutation ← Nbh.new n.toNat
  ok ⟨parents, offsprings, mutation, params, ⟨permIdentity parents.size, 0, 0, 2⟩⟩

/-- The first two statements of `GeneticAlgorithm::init` (`genetic-algorithm.cc:33-34`). -/
def initTournament (tournamentSize : Int) : Alg (AlgState K (EaData K Tournament)) Unit := do
  let s ← Alg.get
  let t ← Alg.lift (s.data.extra.setSize s.data.parents.size tournamentSize)
  let t ← Alg.sim t.init
  Alg.modify (fun s => { s with data := { s.data with extra := t } })

/-- `GeneticAlgorithm::init` (`genetic-algorithm.cc:30-47`). -/
def gaInit [LT K] [DecidableLT K] (env : Env K) (q : GaParams) : Alg (AlgState K (EaData K Tournament)) Unit := do
  initTournament q.tournamentSize
  setMutation q.toMutationParams
  popRandom (parentsLens K Tournament)
  popEvaluate env (parentsLens K Tournament)
  popSort (parentsLens K Tournament)
  popSetSolution (parentsLens K Tournament)

/-- Crossover or selection (`genetic-algorithm.cc:57-60`): the tournament and the offspring.  The order in which the
two selections are made is not specified by the language; the first argument is taken first. -/
def reproduce [LT K] [DecidableLT K] (parents : Pop K) (t : Tournament) (offspring : BV) : Sim (Tournament × BV) := do
  let c ← Sim.bernoulli
  if c then do
    let a ← t.select (fun a b => decide (b < a)) parents.bvs parents.values
    let b ← a.2.2.select (fun a b => decide (b < a)) parents.bvs parents.values
    let x ← uniformRecombine a.2.1 b.2.1 offspring
    pure (b.2.2, x)
  else do
    let a ← t.select (fun a b => decide (b < a)) parents.bvs parents.values
    pure (a.2.2, a.2.1)

/-- Body of the loop of `GeneticAlgorithm::iterate` (`genetic-algorithm.cc:53-64`). -/
def gaOffspring [LT K] [DecidableLT K] (params : StandardParams) (parents : Pop K) (i : Nat)
    (s : Tournament × Nbh × Pop K) : Sim (Tournament × Nbh × Pop K) := do
  let old ← Sim.lift (vget s.2.2.bvs i)
  let x ← reproduce parents s.1 old
  let r ← s.2.1.mutate (.standardBitMutation params) x.2
  let bvs ← Sim.lift (vset s.2.2.bvs i r.2)
  pure (x.1, r.1, { s.2.2 with bvs := bvs })

/-- The loop over the offsprings. -/
def gaOffsprings [LT K] [DecidableLT K] : Alg (AlgState K (EaData K Tournament)) Unit := do
  let s ← Alg.get
  let r ← Alg.sim (Sim.forRange 0 s.data.offsprings.size (gaOffspring s.data.params s.data.parents)
    (s.data.extra, s.data.mutation, s.data.offsprings))
  Alg.modify (fun s => { s with data := { s.data with extra := r.1, mutation := r.2.1, offsprings := r.2.2 } })

/-- `GeneticAlgorithm::iterate` (`genetic-algorithm.cc:50-75`). -/
def gaIterate [LT K] [DecidableLT K] (env : Env K) : Alg (AlgState K (EaData K Tournament)) Unit := do
  gaOffsprings
  popEvaluate env (offspringsLens K Tournament)
  applyComma
  popUpdateSolution (parentsLens K Tournament)

/-- `GeneticAlgorithm` as an iterative algorithm. -/
def gaMaximize [LT K] [DecidableLT K] (env : Env K) (q : GaParams) (numIterations : Int) (fuel : Nat) :
    Alg (AlgState K (EaData K Tournament)) Unit :=
  algLoop (gaInit env q) (gaIterate env) numIterations fuel

/-! ## Two-rate (1 + lambda) EA -/

/-- Data members of `TwoRateOnePlusLambdaEa` (`two-rate-one-plus-lambda-ea.hh:73-78`). -/
structure TwoRateData (K : Type) where
  population : Pop K
  mutation : Nbh
  params : StandardParams
  rate : Rat

/-- The member `_population`. -/
def twoRateLens (K : Type) : PopLens (TwoRateData K) K where
  get d := d.population
  put p d := { d with population := p }
  get_put _ _ := rfl
  put_put _ _ _ := rfl
  put_get _ := rfl

/-- Parameters of `TwoRateOnePlusLambdaEa` (`two-rate-one-plus-lambda-ea.hh:84-91`); `belowSqrt` stands for the test
in `set_mutation_rate`. -/
structure TwoRateParams where
  rateInit : Rat
  rateMin : Rat
  rateMax : Rat
  allowNoMutation : Bool
  belowSqrt : Rat → Bool

/-- `std::clamp`: undefined if `hi < lo`. -/
def stdClamp {F : Type} [LT F] [DecidableLT F] (x lo hi : F) : Outcome F := do
  assert (decide (¬ hi < lo))
  ok (if x < lo then lo else if hi < x then hi else x)

/-- `TwoRateOnePlusLambdaEa::init` (`two-rate-one-plus-lambda-ea.cc:30-37`). -/
def twoRateInit (env : Env K) (q : TwoRateParams) : Alg (AlgState K (TwoRateData K)) Unit := do
  randomSolution env
  Alg.modify (fun s => { s with data := { s.data with
    rate := q.rateInit, params := s.data.params.setAllowNoMutation q.allowNoMutation } })

/-- Body of the loops which make the population (`two-rate-one-plus-lambda-ea.cc:49-54`; `it-ea.cc:192-196`). -/
def mapOffspring (params : StandardParams) (x : BV) (i : Nat) (s : Nbh × Pop K) : Sim (Nbh × Pop K) := do
  let y ← Sim.lift (vget s.2.bvs i)
  let r ← s.1.map (.standardBitMutation params) x y
  let bvs ← Sim.lift (vset s.2.bvs i r.2)
  pure (r.1, { s.2 with bvs := bvs })

/-- Generation of the population (`two-rate-one-plus-lambda-ea.cc:47-54`). -/
def twoRateOffsprings (q : TwoRateParams) : Alg (AlgState K (TwoRateData K)) Unit := do
  let s ← Alg.get
  let lam := s.data.population.size
  let low := s.data.params.setMutationRate (q.belowSqrt (s.data.rate / 2))
  let high := low.setMutationRate (q.belowSqrt (s.data.rate * 2))
  let r ← Alg.sim (Sim.forRange 0 (lam / 2) (mapOffspring low s.solution.1) (s.data.mutation, s.data.population))
  let r ← Alg.sim (Sim.forRange (lam / 2) lam (mapOffspring high s.solution.1) r)
  Alg.modify (fun s => { s with data := { s.data with mutation := r.1, population := r.2, params := high } })

/-- The new mutation rate (`two-rate-one-plus-lambda-ea.cc:65-76`); `best` is the index of the best individual. -/
def twoRateUpdate (q : TwoRateParams) (number rate : Rat) (best mid : Nat) : Outcome Rat :=
  if number < 1 / 4 then ok (max (rate / 2) q.rateMin)
  else if number < 1 / 2 then ok (min (rate * 2) q.rateMax)
  else stdClamp (if best < mid then rate / 2 else rate * 2) q.rateMin q.rateMax

/-- Update of the mutation rate (`two-rate-one-plus-lambda-ea.cc:64-76`). -/
def twoRateSetRate (q : TwoRateParams) : Alg (AlgState K (TwoRateData K)) Unit := do
  let s ← Alg.get
  let number ← Alg.sim Sim.uniform
  let best ← Alg.lift (s.data.population.bestIndex 0)
  let rate ← Alg.lift (twoRateUpdate q number s.data.rate best (s.data.population.size / 2))
  Alg.modify (fun s => { s with data := { s.data with rate := rate } })

/-- `TwoRateOnePlusLambdaEa::iterate` (`two-rate-one-plus-lambda-ea.cc:39-78`). -/
def twoRateIterate [LT K] [DecidableLT K] (env : Env K) (q : TwoRateParams) : Alg (AlgState K (TwoRateData K)) Unit := do
  twoRateOffsprings q
  popEvaluate env (twoRateLens K)
  popSort (twoRateLens K)
  popUpdateSolution (twoRateLens K)
  twoRateSetRate q

/-- `TwoRateOnePlusLambdaEa` as an iterative algorithm. -/
def twoRateMaximize [LT K] [DecidableLT K] (env : Env K) (q : TwoRateParams) (numIterations : Int) (fuel : Nat) :
    Alg (AlgState K (TwoRateData K)) Unit :=
  algLoop (twoRateInit env q) (twoRateIterate env q) numIterations fuel

/-! ## Self-adjusting (1 + 1) EA -/

/-- Data members of `SelfAdjustingOnePlusOneEa` (`self-adjusting-one-plus-one-ea.hh:43-50`). -/
structure SelfAdjustingData where
  mutation : Nbh
  params : StandardParams
  rate : Rat

/-- Parameters (`self-adjusting-one-plus-one-ea.hh:57-76`); `coefficient` stands for
`std::pow(_update_strength, _success_ratio)` and `belowSqrt` for the test in `set_mutation_rate`. -/
structure SelfAdjustingParams where
  rateInit : Rat
  rateMin : Rat
  rateMax : Rat
  strength : Rat
  coefficient : Rat
  allowNoMutation : Bool
  incremental : Bool
  belowSqrt : Rat → Bool

/-- `SelfAdjustingOnePlusOneEa::init` (`self-adjusting-one-plus-one-ea.cc:33-43`). -/
def selfAdjustingInit (env : Env K) (q : SelfAdjustingParams) : Alg (AlgState K SelfAdjustingData) Unit := do
  Alg.modify (fun s => { s with data := { s.data with
    rate := q.rateInit,
    params := (s.data.params.setMutationRate (q.belowSqrt q.rateInit)).setAllowNoMutation q.allowNoMutation } })
  randomSolution env
  Alg.modify (fun s => { s with data := { s.data with mutation := s.data.mutation.setOrigin s.solution.1 } })

/-- Success or failure (`self-adjusting-one-plus-one-ea.cc:65-75` and `90-100`). -/
def selfAdjustingDecide [LE K] [DecidableLE K] (q : SelfAdjustingParams) (value : K) :
    Alg (AlgState K SelfAdjustingData) Unit := do
  let s ← Alg.get
  if s.solution.2 ≤ value then do
    let m ← Alg.lift s.data.mutation.keep
    let rate := min (s.data.rate * q.coefficient) q.rateMax
    Alg.modify (fun s => { s with
      solution := (s.solution.1, value)
      data := ⟨m, s.data.params.setMutationRate (q.belowSqrt rate), rate⟩ })
  else do
    let m ← Alg.lift s.data.mutation.forget
    let rate := max (s.data.rate / q.strength) q.rateMin
    Alg.modify (fun s => { s with data := ⟨m, s.data.params.setMutationRate (q.belowSqrt rate), rate⟩ })

/-- `_mutation.propose()`. -/
def selfAdjustingPropose : Alg (AlgState K SelfAdjustingData) Unit := do
  let s ← Alg.get
  let m ← Alg.sim (s.data.mutation.propose (.standardBitMutation s.data.params))
  Alg.modify (fun s => { s with data := { s.data with mutation := m } })

/-- `SelfAdjustingOnePlusOneEa::iterate_full` (`self-adjusting-one-plus-one-ea.cc:58-77`). -/
def selfAdjustingIterateFull [LE K] [DecidableLE K] (env : Env K) (q : SelfAdjustingParams) :
    Alg (AlgState K SelfAdjustingData) Unit := do
  selfAdjustingPropose
  let s ← Alg.get
  let value ← evaluate env s.data.mutation.candidate
  selfAdjustingDecide q value

/-- `SelfAdjustingOnePlusOneEa::iterate_incremental` (`self-adjusting-one-plus-one-ea.cc:80-102`). -/
def selfAdjustingIterateIncremental [LE K] [DecidableLE K] (env : Env K) (q : SelfAdjustingParams) :
    Alg (AlgState K SelfAdjustingData) Unit := do
  selfAdjustingPropose
  let s ← Alg.get
  let value ← evaluateIncrementally env s.data.mutation.origin s.solution.2 s.data.mutation.flipped
  selfAdjustingDecide q value

/-- `SelfAdjustingOnePlusOneEa::iterate` (`self-adjusting-one-plus-one-ea.cc:46-55`). -/
def selfAdjustingIterate [LE K] [DecidableLE K] (env : Env K) (q : SelfAdjustingParams) :
    Alg (AlgState K SelfAdjustingData) Unit :=
  if q.incremental && env.fn.hasInc then selfAdjustingIterateIncremental env q else selfAdjustingIterateFull env q

/-- `SelfAdjustingOnePlusOneEa` as an iterative algorithm. -/
def selfAdjustingMaximize [LE K] [DecidableLE K] (env : Env K) (q : SelfAdjustingParams) (numIterations : Int)
    (fuel : Nat) : Alg (AlgState K SelfAdjustingData) Unit :=
  algLoop (selfAdjustingInit env q) (selfAdjustingIterate env q) numIterations fuel

/-- `SelfAdjustingOnePlusOneEa::finalize` (`self-adjusting-one-plus-one-ea.cc:105-109`). -/
def selfAdjustingFinalize : Alg (AlgState K SelfAdjustingData) Unit :=
  Alg.modify (fun s => { s with solution := (s.data.mutation.origin, s.solution.2) })

end Hnco
