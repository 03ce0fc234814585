import Verif.Algorithm.Alg
import Verif.Neighborhood.Model
import Verif.Iterator.Model

/-!
# Model of random search and local search

Models `lib/hnco/algorithms/random-search.cc` and `lib/hnco/algorithms/local-search/`.
-/

namespace Hnco

open Outcome

variable {K σ : Type}

/-! ## Random search -/

/-- `RandomSearch::init` (`random-search.cc:27-33`). -/
def randomSearchInit (env : Env K) : Alg (AlgState K σ) Unit := randomSolution env

/-- `RandomSearch::iterate` (`random-search.cc:36-41`); the data is the member `_candidate`. -/
def randomSearchIterate [LT K] [DecidableLT K] (env : Env K) : Alg (AlgState K BV) Unit := do
  let s ← Alg.get
  let x ← Alg.sim (bvRandomBits s.data.length)
  Alg.modify (fun s => { s with data := x })
  updateSolutionEval env x

/-- `RandomSearch::maximize` (`iterative-algorithm.cc:52-57`). -/
def randomSearchMaximize [LT K] [DecidableLT K] (env : Env K) (numIterations : Int) (fuel : Nat) :
    Alg (AlgState K BV) Unit :=
  algLoop (randomSearchInit env) (randomSearchIterate env) numIterations fuel

/-! ## Initialization of local search -/

/-- Parameters of `LocalSearchAlgorithm` (`local-search-algorithm.hh:38`, `48`). -/
structure StartParams where
  randomInitialization : Bool
  startingPoint : BV

/-- The first part of `LocalSearchAlgorithm::init` (`local-search-algorithm.hh:62-65`). -/
def initSolution (env : Env K) (p : StartParams) : Alg (AlgState K σ) Unit :=
  if p.randomInitialization then randomSolution env else setSolutionEval env p.startingPoint

/-! ## Random local search -/

/-- Data of `RandomLocalSearch` (`random-local-search.hh`): the neighbourhood and `_num_failures`. -/
structure RlsData where
  nbh : Nbh
  numFailures : Nat

/-- Parameters of `RandomLocalSearch` (`random-local-search.hh`). -/
structure RlsParams (K : Type) extends StartParams where
  sampler : Sampler
  compare : K → K → Bool
  patience : Int
  incremental : Bool

/-- `RandomLocalSearch::init` (`random-local-search.cc:33-38`, `local-search-algorithm.hh:57-67`). -/
def rlsInit (env : Env K) (p : RlsParams K) : Alg (AlgState K RlsData) Unit := do
  initSolution env p.toStartParams
  Alg.modify (fun s => { s with data := ⟨s.data.nbh.setOrigin s.solution.1, 0⟩ })

/-- Both kinds of iterations, after the evaluation of the candidate (`random-local-search.cc:63-72`, `96-105`). -/
def rlsAccept (p : RlsParams K) (value : K) : Alg (AlgState K RlsData) Unit := do
  let s ← Alg.get
  if p.compare value s.solution.2 then do
    let nbh ← Alg.lift s.data.nbh.keep
    Alg.modify (fun s => { s with solution := (s.solution.1, value), data := ⟨nbh, 0⟩ })
  else do
    let nbh ← Alg.lift s.data.nbh.forget
    Alg.modify (fun s => { s with data := ⟨nbh, s.data.numFailures + 1⟩ })

/-- The end of both kinds of iterations (`random-local-search.cc:63-79`, `96-112`). -/
def rlsDecide (p : RlsParams K) (value : K) : Alg (AlgState K RlsData) Unit := do
  rlsAccept p value
  Alg.modify (fun s =>
    if 0 < p.patience ∧ (s.data.numFailures : Int) = p.patience then
      { s with solution := (s.data.nbh.origin, s.solution.2), lastIteration := true }
    else s)

/-- `RandomLocalSearch::iterate_full` (`random-local-search.cc:54-81`). -/
def rlsIterateFull (env : Env K) (p : RlsParams K) : Alg (AlgState K RlsData) Unit := do
  let s ← Alg.get
  let nbh ← Alg.sim (s.data.nbh.propose p.sampler)
  Alg.modify (fun s => { s with data := ⟨nbh, s.data.numFailures⟩ })
  let value ← evaluate env nbh.candidate
  rlsDecide p value

/-- `RandomLocalSearch::iterate_incremental` (`random-local-search.cc:84-114`). -/
def rlsIterateIncremental (env : Env K) (p : RlsParams K) : Alg (AlgState K RlsData) Unit := do
  let s ← Alg.get
  let nbh ← Alg.sim (s.data.nbh.propose p.sampler)
  Alg.modify (fun s => { s with data := ⟨nbh, s.data.numFailures⟩ })
  let value ← evaluateIncrementally env nbh.origin s.solution.2 nbh.flipped
  rlsDecide p value

/-- `RandomLocalSearch::iterate` (`random-local-search.cc:41-51`). -/
def rlsIterate (env : Env K) (p : RlsParams K) : Alg (AlgState K RlsData) Unit :=
  if p.incremental && env.fn.hasInc then rlsIterateIncremental env p else rlsIterateFull env p

/-- `RandomLocalSearch::maximize` (`iterative-algorithm.cc:52-57`). -/
def rlsMaximize (env : Env K) (p : RlsParams K) (numIterations : Int) (fuel : Nat) : Alg (AlgState K RlsData) Unit :=
  algLoop (rlsInit env p) (rlsIterate env p) numIterations fuel

/-- `RandomLocalSearch::finalize` (`random-local-search.cc:117-124`). -/
def rlsFinalize : Alg (AlgState K RlsData) Unit :=
  Alg.modify (fun s => { s with solution := (s.data.nbh.origin, s.solution.2) })

/-! ## (1+1) evolutionary algorithm -/

/-- Parameters of `OnePlusOneEa` (`evolutionary-algorithms/one-plus-one-ea.hh:58-68`); `lowRate` stands for the result
of the test of the mutation rate in `set_mutation_rate` (`neighborhood.hh:285`). -/
structure OnePlusOneParams where
  numIterations : Int
  lowRate : Bool
  allowNoMutation : Bool
  incremental : Bool

/-- `_rls` and its neighbourhood as set up by `OnePlusOneEa::maximize` (`one-plus-one-ea.hh:88-92`); `old` holds the
parameters of the neighbourhood before the call.  The comparison is the default (`random-local-search.hh`). -/
def onePlusOneParams [LE K] [DecidableLE K] (q : OnePlusOneParams) (old : StandardParams) (start : StartParams) :
    RlsParams K :=
  { toStartParams := start
    sampler := .standardBitMutation ((old.setMutationRate q.lowRate).setAllowNoMutation q.allowNoMutation)
    compare := fun a b => decide (b ≤ a)
    patience := 0
    incremental := q.incremental }

/-- `OnePlusOneEa::maximize` (`one-plus-one-ea.hh:87-94`), on the state of `_rls`. -/
def onePlusOneMaximize [LE K] [DecidableLE K] (env : Env K) (q : OnePlusOneParams) (old : StandardParams)
    (start : StartParams) (fuel : Nat) : Alg (AlgState K RlsData) Unit :=
  rlsMaximize env (onePlusOneParams q old start) q.numIterations fuel

/-! ## Random walk -/

/-- Data of `RandomWalk` (`random-walk.hh:47`): the neighbourhood and `_value`, which has no initial value. -/
structure WalkData (K : Type) where
  nbh : Nbh
  value : Option K

/-- `RandomWalk::init` (`local-search-algorithm.hh:57-67`). -/
def walkInit (env : Env K) (p : StartParams) : Alg (AlgState K (WalkData K)) Unit := do
  initSolution env p
  Alg.modify (fun s => { s with data := ⟨s.data.nbh.setOrigin s.solution.1, s.data.value⟩ })

/-- `RandomWalk::iterate_full` (`random-walk.cc:45-55`). -/
def walkIterateFull [LT K] [DecidableLT K] (env : Env K) (k : Sampler) : Alg (AlgState K (WalkData K)) Unit := do
  let s ← Alg.get
  let nbh ← Alg.sim (s.data.nbh.propose k)
  Alg.modify (fun s => { s with data := ⟨nbh, s.data.value⟩ })
  let value ← evaluate env nbh.candidate
  Alg.modify (fun s => { s with data := ⟨nbh, some value⟩ })
  let nbh ← Alg.lift nbh.keep
  Alg.modify (fun s => { s with data := ⟨nbh, s.data.value⟩ })
  updateSolution nbh.candidate value

/-- Reading a member which may not have been written. -/
def readInitialized (v : Option K) : Outcome K :=
  match v with
  | some v => ok v
  | none => ub

/-- `RandomWalk::iterate_incremental` (`random-walk.cc:58-70`). -/
def walkIterateIncremental [LT K] [DecidableLT K] (env : Env K) (k : Sampler) :
    Alg (AlgState K (WalkData K)) Unit := do
  let s ← Alg.get
  let nbh ← Alg.sim (s.data.nbh.propose k)
  Alg.modify (fun s => { s with data := ⟨nbh, s.data.value⟩ })
  let old ← Alg.lift (readInitialized s.data.value)
  let value ← evaluateIncrementally env nbh.origin old nbh.flipped
  Alg.modify (fun s => { s with data := ⟨nbh, some value⟩ })
  let nbh ← Alg.lift nbh.keep
  Alg.modify (fun s => { s with data := ⟨nbh, s.data.value⟩ })
  updateSolution nbh.candidate value

/-- `RandomWalk::iterate` (`random-walk.cc:32-42`). -/
def walkIterate [LT K] [DecidableLT K] (env : Env K) (k : Sampler) (incremental : Bool) :
    Alg (AlgState K (WalkData K)) Unit :=
  if incremental && env.fn.hasInc then walkIterateIncremental env k else walkIterateFull env k

/-- `RandomWalk::maximize` (`iterative-algorithm.cc:52-57`). -/
def walkMaximize [LT K] [DecidableLT K] (env : Env K) (p : StartParams) (k : Sampler) (incremental : Bool)
    (numIterations : Int) (fuel : Nat) : Alg (AlgState K (WalkData K)) Unit :=
  algLoop (walkInit env p) (walkIterate env k incremental) numIterations fuel

/-! ## Simulated annealing -/

/-- Data of `SimulatedAnnealing` (`simulated-annealing.hh:51-54`).  Simplification: `_beta` is not modelled; hence the
acceptance of a worse candidate is arbitrary. -/
structure AnnealingData (K : Type) where
  nbh : Nbh
  currentValue : K
  transitions : Nat

/-- `SimulatedAnnealing::init_beta` (`simulated-annealing.cc:33-61`), except for the computation of `_beta`. -/
def annealingInitBeta [LT K] [DecidableLT K] (env : Env K) (k : Sampler) (numTrials : Nat) :
    Alg (AlgState K (AnnealingData K)) Unit := do
  let s ← Alg.get
  let n := s.solution.1.length
  Alg.forRange 0 numTrials (fun _ => do
    let bv ← Alg.sim (bvRandomBits n)
    let a ← evaluate env bv
    updateSolution bv a
    Alg.modify (fun s => { s with data := { s.data with nbh := s.data.nbh.setOrigin bv } })
    let s ← Alg.get
    let nbh ← Alg.sim (s.data.nbh.propose k)
    Alg.modify (fun s => { s with data := { s.data with nbh := nbh } })
    let b ← evaluate env nbh.candidate
    updateSolution nbh.candidate b
    let nbh ← Alg.lift nbh.forget
    Alg.modify (fun s => { s with data := { s.data with nbh := nbh } }))

/-- `SimulatedAnnealing::init` (`simulated-annealing.cc:64-75`). -/
def annealingInit [LT K] [DecidableLT K] (env : Env K) (p : StartParams) (k : Sampler) (numTrials : Nat) :
    Alg (AlgState K (AnnealingData K)) Unit := do
  initSolution env p
  annealingInitBeta env k numTrials
  Alg.modify (fun s => { s with data := ⟨s.data.nbh.setOrigin s.solution.1, s.solution.2, 0⟩ })

/-- The acceptance of a candidate (`simulated-annealing.cc:87-104`).  Simplification: the result of the comparison of
`Generator::uniform()` with the exponential is arbitrary. -/
def annealingAccept [LT K] [DecidableLT K] [LE K] [DecidableLE K] (nbh : Nbh) (value : K) :
    Alg (AlgState K (AnnealingData K)) Unit := do
  let s ← Alg.get
  if s.data.currentValue ≤ value then do
    let nbh ← Alg.lift nbh.keep
    Alg.modify (fun s => { s with data := { s.data with nbh := nbh, currentValue := value } })
    updateSolution nbh.origin value
  else do
    let accept ← Alg.sim Sim.bernoulli
    if accept then do
      let nbh ← Alg.lift nbh.keep
      Alg.modify (fun s => { s with data := ⟨nbh, value, s.data.transitions + 1⟩ })
    else do
      let nbh ← Alg.lift nbh.forget
      Alg.modify (fun s => { s with data := { s.data with nbh := nbh } })

/-- `SimulatedAnnealing::iterate` (`simulated-annealing.cc:78-112`). -/
def annealingIterate [LT K] [DecidableLT K] [LE K] [DecidableLE K] (env : Env K) (k : Sampler)
    (numTransitions : Nat) : Alg (AlgState K (AnnealingData K)) Unit := do
  let s ← Alg.get
  let nbh ← Alg.sim (s.data.nbh.propose k)
  Alg.modify (fun s => { s with data := { s.data with nbh := nbh } })
  let value ← evaluate env nbh.candidate
  annealingAccept nbh value
  Alg.modify (fun s =>
    if s.data.transitions = numTransitions then { s with data := { s.data with transitions := 0 } } else s)

/-- `SimulatedAnnealing::maximize` (`iterative-algorithm.cc:52-57`). -/
def annealingMaximize [LT K] [DecidableLT K] [LE K] [DecidableLE K] (env : Env K) (p : StartParams) (k : Sampler)
    (numTrials numTransitions : Nat) (numIterations : Int) (fuel : Nat) : Alg (AlgState K (AnnealingData K)) Unit :=
  algLoop (annealingInit env p k numTrials) (annealingIterate env k numTransitions) numIterations fuel

/-! ## Hill climbing -/

/-- The interface of `NeighborhoodIterator` (`lib/hnco/neighborhoods/neighborhood-iterator.hh`,
`lib/hnco/iterator.hh`). -/
structure NbhIter (ι : Type) where
  setOrigin : ι → BV → Outcome ι
  init : ι → ι
  hasNext : ι → Outcome Bool
  next : ι → Outcome (BV × ι)

/-- `SingleBitFlipIterator` (`neighborhood-iterator.hh:55-77`). -/
def singleBitFlipIter : NbhIter SingleBitFlipIterator :=
  ⟨SingleBitFlipIterator.setOrigin, SingleBitFlipIterator.init, SingleBitFlipIterator.hasNext,
    SingleBitFlipIterator.next⟩

/-- `HammingSphereIterator` (`neighborhood-iterator.hh:96-120`). -/
def hammingSphereIter : NbhIter HammingSphereIterator :=
  ⟨HammingSphereIterator.setOrigin, HammingSphereIterator.init, HammingSphereIterator.hasNext,
    HammingSphereIterator.next⟩

variable {ι : Type}

/-- Data of hill climbing: the iterator, and the member `_candidates` of `SteepestAscentHillClimbing`
(`steepest-ascent-hill-climbing.hh:40`). -/
structure ClimbData (ι : Type) where
  it : ι
  candidates : List BV

/-- `init` of both kinds of hill climbing (`local-search-algorithm.hh:57-67`). -/
def climbInit (env : Env K) (N : NbhIter ι) (p : StartParams) : Alg (AlgState K (ClimbData ι)) Unit := do
  initSolution env p
  let s ← Alg.get
  let it ← Alg.lift (N.setOrigin s.data.it s.solution.1)
  Alg.modify (fun s => { s with data := { s.data with it := it } })

/-- The loop of `FirstAscentHillClimbing::iterate` (`first-ascent-hill-climbing.cc:40-50`); no result if it is not
over after `fuel` steps. -/
def firstAscentScan [LT K] [DecidableLT K] (env : Env K) (N : NbhIter ι) : Nat → Alg (AlgState K (ClimbData ι)) Unit
  | 0 => fun _ _ => .out
  | fuel + 1 => do
    let s ← Alg.get
    let b ← Alg.lift (N.hasNext s.data.it)
    if b then do
      let r ← Alg.lift (N.next s.data.it)
      Alg.modify (fun s => { s with data := { s.data with it := r.2 } })
      let value ← evaluate env r.1
      let s ← Alg.get
      if s.solution.2 < value then setSolution r.1 value else firstAscentScan env N fuel
    else Alg.modify (fun s => { s with lastIteration := true })

/-- `FirstAscentHillClimbing::iterate` (`first-ascent-hill-climbing.cc:33-51`). -/
def firstAscentIterate [LT K] [DecidableLT K] (env : Env K) (N : NbhIter ι) (fuel : Nat) :
    Alg (AlgState K (ClimbData ι)) Unit := do
  Alg.modify (fun s => { s with data := { s.data with it := N.init s.data.it } })
  firstAscentScan env N fuel

/-- The loop of `SteepestAscentHillClimbing::iterate` (`steepest-ascent-hill-climbing.cc:52-63`), with the current
values of `best_value` and `index`; no result if it is not over after `fuel` steps. -/
def steepestScan [LT K] [DecidableLT K] [DecidableEq K] (env : Env K) (N : NbhIter ι) : Nat → K → Nat →
    Alg (AlgState K (ClimbData ι)) (K × Nat)
  | 0, _, _ => fun _ _ => .out
  | fuel + 1, best, index => do
    let s ← Alg.get
    let b ← Alg.lift (N.hasNext s.data.it)
    if b then do
      let r ← Alg.lift (N.next s.data.it)
      Alg.modify (fun s => { s with data := { s.data with it := r.2 } })
      let value ← evaluate env r.1
      let s ← Alg.get
      if best < value then do
        let candidates ← Alg.lift (vset s.data.candidates 0 r.1)
        Alg.modify (fun s => { s with data := { s.data with candidates := candidates } })
        steepestScan env N fuel value 1
      else if value = best ∧ index < s.data.candidates.length then do
        let candidates ← Alg.lift (vset s.data.candidates index r.1)
        Alg.modify (fun s => { s with data := { s.data with candidates := candidates } })
        steepestScan env N fuel best (index + 1)
      else steepestScan env N fuel best index
    else pure (best, index)

/-- `SteepestAscentHillClimbing::iterate` (`steepest-ascent-hill-climbing.cc:36-76`). -/
def steepestIterate [LT K] [DecidableLT K] [DecidableEq K] (env : Env K) (N : NbhIter ι) (fuel : Nat) :
    Alg (AlgState K (ClimbData ι)) Unit := do
  Alg.modify (fun s => { s with data := { s.data with it := N.init s.data.it } })
  let s ← Alg.get
  let b ← Alg.lift (N.hasNext s.data.it)
  Alg.lift (assert b)
  let r ← Alg.lift (N.next s.data.it)
  Alg.modify (fun s => { s with data := { s.data with it := r.2 } })
  let value ← evaluate env r.1
  let s ← Alg.get
  let candidates ← Alg.lift (vset s.data.candidates 0 r.1)
  Alg.modify (fun s => { s with data := { s.data with candidates := candidates } })
  let st ← steepestScan env N fuel value 1
  let s ← Alg.get
  Alg.lift (assert (decide (st.2 ≥ 1)))
  Alg.lift (assert (decide (st.2 ≤ s.data.candidates.length)))
  if s.solution.2 < st.1 then do
    let i ← Alg.sim (Sim.uniformInt 0 (st.2 - 1))
    let bv ← Alg.lift (vget s.data.candidates i)
    setSolution bv st.1
    let it ← Alg.lift (N.setOrigin s.data.it bv)
    Alg.modify (fun s => { s with data := { s.data with it := it } })
  else Alg.modify (fun s => { s with lastIteration := true })

/-- `FirstAscentHillClimbing::maximize` (`iterative-algorithm.cc:52-57`). -/
def firstAscentMaximize [LT K] [DecidableLT K] (env : Env K) (N : NbhIter ι) (p : StartParams) (scanFuel : Nat)
    (numIterations : Int) (fuel : Nat) : Alg (AlgState K (ClimbData ι)) Unit :=
  algLoop (climbInit env N p) (firstAscentIterate env N scanFuel) numIterations fuel

/-- `SteepestAscentHillClimbing::maximize` (`iterative-algorithm.cc:52-57`). -/
def steepestMaximize [LT K] [DecidableLT K] [DecidableEq K] (env : Env K) (N : NbhIter ι) (p : StartParams)
    (scanFuel : Nat) (numIterations : Int) (fuel : Nat) : Alg (AlgState K (ClimbData ι)) Unit :=
  algLoop (climbInit env N p) (steepestIterate env N scanFuel) numIterations fuel

/-! ## Restart -/

/-- Data of `Restart` (`decorators/restart.hh`): the state of the wrapped algorithm, and (ghost) the solutions of the
runs that returned. -/
structure RestartData (K τ : Type) where
  inner : τ
  results : List (BV × K)

/-- `Restart::iterate` (`decorators/restart.cc:28-37`); `run` stands for `maximize`, `finalize` and `get_solution` of
the wrapped algorithm. -/
def restartIterate {τ : Type} [LT K] [DecidableLT K] (run : Alg τ (BV × K)) (first : Bool) :
    Alg (AlgState K (RestartData K τ)) Unit := fun s => do
  let r ← run s.data.inner
  match r.1 with
  | .error e => pure (.error e, { s with data := { s.data with inner := r.2 } })
  | .ok result => do
    let t := { s with data := ⟨r.2, s.data.results ++ [result]⟩ }
    if first then setSolution result.1 result.2 t else updateSolution result.1 result.2 t

/-- `Restart::maximize` (`decorators/restart.cc:39-52`), from iteration `i` on; without a number of iterations, no
result after `fuel` runs. -/
def restartMaximize {τ : Type} [LT K] [DecidableLT K] (run : Alg τ (BV × K)) (numIterations : Int) (fuel : Nat) :
    Alg (AlgState K (RestartData K τ)) Unit := do
  if numIterations > 0 then Alg.forRange 0 numIterations.toNat (fun i => restartIterate run (i == 0))
  else do
    Alg.forRange 0 fuel (fun i => restartIterate run (i == 0))
    fun _ _ => .out

end Hnco
