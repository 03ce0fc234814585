import Verif.Algorithm.LocalSearch
import Verif.Algorithm.Evolutionary
import Verif.Algorithm.ItEa
import Verif.Algorithm.LambdaLambda
import Verif.Algorithm.Human
import Verif.Algorithm.Mimic
import Verif.Algorithm.RamUmda
import Verif.Walsh.Model
import Verif.Iterator.Model

/-!
# Model of the factory of algorithms

Models `lib/hnco/app/algorithm-factory.cc`, with the constructors of the algorithms, and the part of
`lib/hnco/app/application.cc` which runs an algorithm.  Sizes of bit vectors are natural numbers.  Not modelled: options about
logging; distributions (`sa_beta_ratio`, `sa_initial_acceptance_probability`, `ea_crossover_probability` and the mutation rates
have no effect except for those stated); the wrappers around external programs.
-/

namespace Hnco

open Outcome

/-! ## Options -/

/-- The options which the factory reads, with their default values (`lib/hnco/app/hnco-options.hh:161-584`).  An optional rate
is `none` if the option is not given. -/
structure AlgOptions where
  algorithm : Int := 100
  numIterations : Int := 0
  neighborhood : Int := 0
  neighborhoodIterator : Int := 0
  radius : Int := 2
  incrementalEvaluation : Bool := false
  rlsPatience : Int := 50
  rlsStrict : Bool := false
  saNumTransitions : Int := 50
  saNumTrials : Int := 100
  eaAllowNoMutation : Bool := false
  eaMutationRate : Option Rat := none
  eaMutationRateMin : Option Rat := none
  eaMutationRateMax : Rat := 1 / 2
  eaSuccessRatio : Rat := 4
  eaUpdateStrength : Rat := 101 / 100
  eaMu : Int := 10
  eaLambda : Int := 100
  eaTournamentSize : Int := 2
  eaCrossoverBias : Rat := 1 / 2
  eaItInitialHammingWeight : Int := 0
  eaItReplacement : Int := 0
  populationSize : Int := 10
  selectionSize : Int := 1
  learningRate : Rat := 1 / 1000
  ramTsLength : Int := 10
  ramTsLengthDistributionParameter : Rat := 1 / 10
  ramTsLengthIncrementPeriod : Int := 10000
  ramTsLengthLowerBound : Int := 0
  ramTsLengthMode : Int := 0
  ramTsLengthUpperBound : Int := 20
  ramCrossoverProbability : Rat := 1 / 10
  ramLatentSpaceProbability : Rat := 1 / 2
  mmasStrict : Bool := false
  heaBoundMoment : Bool := true
  heaRandomizeBitOrder : Bool := true
  heaResetPeriod : Int := 0
  bmNumGsCycles : Int := 1
  bmNumGsSteps : Int := 100
  bmResetMode : Int := 1
  bmSamplingMode : Int := 1
  bmNegativePositiveSelection : Bool := false

/-- What the algorithms take from outside: functions of the C++ library, numbers drawn by `bv_random` of the IT-EA, whether
assertions are compiled, and the words of the standard input. -/
structure AlgLib where
  log : Rat → Rat
  logistic : Rat → Rat
  pow : Rat → Rat → Rat
  uniform : Nat → Nat → Rat
  debug : Bool
  input : List (List Char)

/-! ## Algorithms -/

/-- An algorithm after construction: its state, `maximize` and `finalize`.  A loop without a number of iterations which is not
over after `fuel` iterations gives no result. -/
structure MadeAlgorithm (K : Type) where
  σ : Type
  start : AlgState K σ
  maximize : Env K → Nat → Alg (AlgState K σ) Unit
  finalize : Alg (AlgState K σ) Unit

/-- How a run ended, and what is known then; `calls` (ghost) are the evaluations. -/
structure RunResult (K : Type) where
  ending : Except Exn Unit
  solution : BV × K
  calls : List (BV × K)

variable {K : Type}

/-- The calls of the algorithm in `CommandLineApplication::maximize` (`application.cc:282-297`): `finalize` also after
`LastEvaluation`. -/
def MadeAlgorithm.run (m : MadeAlgorithm K) (env : Env K) (fuel : Nat) : Sim (RunResult K) := do
  let r ← m.maximize env fuel m.start
  match r.1 with
  | .ok _ => do
    let f ← m.finalize r.2
    pure ⟨f.1, f.2.solution, f.2.calls⟩
  | .error .lastEvaluation => do
    let f ← m.finalize r.2
    pure ⟨f.1.bind (fun _ => .error .lastEvaluation), f.2.solution, f.2.calls⟩
  | .error e => pure ⟨.error e, r.2.solution, r.2.calls⟩

/-- `Algorithm::finalize` (`algorithm.hh:140`). -/
def noFinalize {σ : Type} : Alg (AlgState K σ) Unit := pure ()

/-- Constructor of `Algorithm` (`algorithm.hh:113-118`): its exception. -/
def algorithmNew (n : Nat) : Outcome Unit := if n = 0 then throw .runtimeError else ok ()

/-- The state after construction (`algorithm.hh:114`). -/
def newState {σ : Type} [Zero K] (n : Nat) (data : σ) : AlgState K σ := ⟨(List.replicate n false, 0), false, [], data⟩

/-- Construction of an algorithm from its data. -/
def Outcome.made {α : Type} (o : Outcome α) (f : α → MadeAlgorithm K) : Outcome (MadeAlgorithm K) :=
  match o with
  | .ok a => ok (f a)
  | .throw e => .throw e
  | .ub => ub

/-- Parameters of `LocalSearchAlgorithm` after construction (`local-search-algorithm.hh:48`, `76`). -/
def newStart (n : Nat) : StartParams := ⟨true, List.replicate n false⟩

/-- Parameters of `StandardBitMutation` after construction (`neighborhood.hh:231-239`). -/
def newStandard : StandardParams := ⟨false, false⟩

/-- `p < 1 / std::sqrt(n)` (`neighborhood.hh:285`), for `n > 0`, computed exactly. -/
def belowInvSqrt (n : Nat) (p : Rat) : Bool := decide (p < 0 ∨ p * p * (n : Rat) < 1)

/-! ## Neighbourhoods -/

/-- An `int` which must not be negative: the constructors have an assertion (`neighborhood.hh:322`, `354`,
`neighborhood-iterator.cc:78`). -/
def radiusOf (r : Int) : Outcome Nat := do
  assert (decide (0 ≤ r))
  ok r.toNat

/-- `make_neighborhood` (`algorithm-factory.cc:40-68`). -/
def makeNeighborhood (o : AlgOptions) (n : Nat) : Outcome (Sampler × Nbh) :=
  if o.neighborhood = 0 then do
    let s ← Sampler.singleBitFlip.construct n
    ok (.singleBitFlip, s)
  else if o.neighborhood = 1 then do
    let s ← (Sampler.standardBitMutation newStandard).construct n
    let p := newStandard.setAllowNoMutation o.eaAllowNoMutation
    ok (.standardBitMutation (match o.eaMutationRate with
      | some r => p.setMutationRate (belowInvSqrt n r)
      | none => p), s)
  else if o.neighborhood = 2 then do
    let r ← radiusOf o.radius
    let s ← (Sampler.hammingBall r).construct n
    ok (.hammingBall r, s)
  else if o.neighborhood = 3 then do
    let r ← radiusOf o.radius
    let s ← (Sampler.hammingSphere r).construct n
    ok (.hammingSphere r, s)
  else throw .runtimeError

/-- Constructor of `SingleBitFlipIterator` (`neighborhood-iterator.hh:68-69`); `_index` has no initial value. -/
def SingleBitFlipIterator.new (n : Nat) : SingleBitFlipIterator := ⟨List.replicate n false, 0, true⟩

/-- The iterators. -/
inductive MadeIterator where
  | singleBitFlip (it : SingleBitFlipIterator)
  | hammingSphere (it : HammingSphereIterator)

/-- `make_neighborhood_iterator` (`algorithm-factory.cc:77-91`). -/
def makeIterator (o : AlgOptions) (n : Nat) : Outcome MadeIterator :=
  if o.neighborhoodIterator = 0 then ok (.singleBitFlip (.new n))
  else if o.neighborhoodIterator = 1 then do
    let r ← radiusOf o.radius
    let it ← HammingSphereIterator.new n r
    ok (.hammingSphere it)
  else throw .runtimeError

/-! ## The algorithms one by one -/

section
variable [LinearOrder K] [Zero K]

/-- The loop of `CompleteSearch::maximize` (`complete-search.cc:42-43`). -/
def completeLoop (env : Env K) : Nat → HypercubeIterator → Alg (AlgState K Unit) Unit
  | 0, _ => fun _ _ => .out
  | fuel + 1, it => do
    let b ← Alg.lift it.hasNext
    if b then do
      let r ← Alg.lift it.next
      updateSolutionEval env r.1
      completeLoop env fuel r.2
    else pure ()

/-- `CompleteSearch::maximize` (`complete-search.cc:30-44`). -/
def completeMaximize (env : Env K) (fuel : Nat) : Alg (AlgState K Unit) Unit := do
  let s ← Alg.get
  let it := HypercubeIterator.new s.solution.1.length
  let b ← Alg.lift it.hasNext
  if b then do
    let r ← Alg.lift it.next
    setSolutionEval env r.1
    completeLoop env fuel r.2
  else Alg.lift (throw .runtimeError)

/-- Case 0 (`algorithm-factory.cc:99-100`, `complete-search.hh:40-41`). -/
def makeCompleteSearch (n : Nat) : Outcome (MadeAlgorithm K) :=
  (algorithmNew n).made (fun _ => ⟨Unit, newState n (), completeMaximize, noFinalize⟩)

/-- Case 10 (`algorithm-factory.cc:102-108`, `random-search.hh:54-56`). -/
def makeRandomSearch (o : AlgOptions) (n : Nat) : Outcome (MadeAlgorithm K) :=
  (algorithmNew n).made (fun _ =>
    ⟨BV, newState n (List.replicate n false), fun env => randomSearchMaximize env o.numIterations, noFinalize⟩)

/-- Case 20 (`algorithm-factory.cc:110-118`, `random-walk.hh:79-80`). -/
def makeRandomWalk (o : AlgOptions) (n : Nat) : Outcome (MadeAlgorithm K) :=
  Outcome.made (do
    let p ← makeNeighborhood o n
    algorithmNew n
    ok p) (fun p =>
      ⟨WalkData K, newState n ⟨p.2, none⟩,
        fun env => walkMaximize env (newStart n) p.1 o.incrementalEvaluation o.numIterations, noFinalize⟩)

/-- Case 30 (`algorithm-factory.cc:120-126`, `human.hh:57-60`). -/
def makeHuman (lib : AlgLib) (o : AlgOptions) (n : Nat) : Outcome (MadeAlgorithm K) :=
  (algorithmNew n).made (fun _ =>
    ⟨HumanData, newState n ⟨List.replicate n false, lib.input⟩, fun env => humanMaximize env n o.numIterations, noFinalize⟩)

/-- Parameters of the random local search of case 100 (`algorithm-factory.cc:136-141`, `random-local-search.hh:49`). -/
def madeRlsParams (o : AlgOptions) (n : Nat) (k : Sampler) : RlsParams K where
  toStartParams := newStart n
  sampler := k
  compare := if o.rlsStrict then fun a b => decide (b < a) else fun a b => decide (b ≤ a)
  patience := o.rlsPatience
  incremental := o.incrementalEvaluation

/-- Case 100 (`algorithm-factory.cc:128-144`, `random-local-search.hh:83-84`). -/
def makeRandomLocalSearch (o : AlgOptions) (n : Nat) : Outcome (MadeAlgorithm K) :=
  Outcome.made (do
    let p ← makeNeighborhood o n
    algorithmNew n
    ok p) (fun p =>
      ⟨RlsData, newState n ⟨p.2, 0⟩, fun env => rlsMaximize env (madeRlsParams o n p.1) o.numIterations, rlsFinalize⟩)

/-- Case 150 (`algorithm-factory.cc:146-157`, `steepest-ascent-hill-climbing.hh:48-50`). -/
def makeSteepestAscent (o : AlgOptions) (n : Nat) : Outcome (MadeAlgorithm K) :=
  Outcome.made (do
    let p ← makeIterator o n
    algorithmNew n
    ok p) (fun p =>
      match p with
      | .singleBitFlip it => ⟨ClimbData SingleBitFlipIterator, newState n ⟨it, List.replicate n (List.replicate n false)⟩,
          fun env fuel => steepestMaximize env singleBitFlipIter (newStart n) fuel o.numIterations fuel, noFinalize⟩
      | .hammingSphere it => ⟨ClimbData HammingSphereIterator, newState n ⟨it, List.replicate n (List.replicate n false)⟩,
          fun env fuel => steepestMaximize env hammingSphereIter (newStart n) fuel o.numIterations fuel, noFinalize⟩)

/-- Case 160 (`algorithm-factory.cc:159-170`, `first-ascent-hill-climbing.hh:45-46`). -/
def makeFirstAscent (o : AlgOptions) (n : Nat) : Outcome (MadeAlgorithm K) :=
  Outcome.made (do
    let p ← makeIterator o n
    algorithmNew n
    ok p) (fun p =>
      match p with
      | .singleBitFlip it => ⟨ClimbData SingleBitFlipIterator, newState n ⟨it, []⟩,
          fun env fuel => firstAscentMaximize env singleBitFlipIter (newStart n) fuel o.numIterations fuel, noFinalize⟩
      | .hammingSphere it => ⟨ClimbData HammingSphereIterator, newState n ⟨it, []⟩,
          fun env fuel => firstAscentMaximize env hammingSphereIter (newStart n) fuel o.numIterations fuel, noFinalize⟩)

/-- Case 200 (`algorithm-factory.cc:172-185`, `simulated-annealing.hh:97-98`).  `_current_value` and `_transitions` have no
initial value; `init` sets them.  Simplification: negative numbers of trials and of transitions are taken as 0.  There are no
trials then; the number of transitions has an effect on `_beta` only, which is not modelled. -/
def makeSimulatedAnnealing (o : AlgOptions) (n : Nat) : Outcome (MadeAlgorithm K) :=
  Outcome.made (do
    let p ← makeNeighborhood o n
    algorithmNew n
    ok p) (fun p =>
      ⟨AnnealingData K, newState n ⟨p.2, 0, 0⟩,
        fun env => annealingMaximize env (newStart n) p.1 o.saNumTrials.toNat o.saNumTransitions.toNat o.numIterations,
        noFinalize⟩)

/-- `_mutation_rate` of the algorithms with a constant mutation rate: `1 / n` after construction, or the option
(`algorithm-factory.cc:195-196`, `232-233`, `248-249`, `304-305`). -/
def madeRate (o : AlgOptions) (n : Nat) : Rat :=
  match o.eaMutationRate with
  | some r => r
  | none => 1 / (n : Rat)

/-- Case 300 (`algorithm-factory.cc:187-199`, `one-plus-one-ea.hh:80-84`). -/
def makeOnePlusOneEa (o : AlgOptions) (n : Nat) : Outcome (MadeAlgorithm K) :=
  Outcome.made (do
    algorithmNew n
    (Sampler.standardBitMutation newStandard).construct n) (fun s =>
      ⟨RlsData, newState n ⟨s, 0⟩,
        fun env => onePlusOneMaximize env ⟨o.numIterations, belowInvSqrt n (madeRate o n), o.eaAllowNoMutation,
          o.incrementalEvaluation⟩ newStandard (newStart n), rlsFinalize⟩)

/-- Parameters in case 301 (`algorithm-factory.cc:204-217`, `self-adjusting-one-plus-one-ea.hh:121-122`). -/
def madeSelfAdjustingParams (lib : AlgLib) (o : AlgOptions) (n : Nat) : SelfAdjustingParams where
  rateInit := match o.eaMutationRate with
    | some r => r
    | none => 1 / (n : Rat)
  rateMin := match o.eaMutationRateMin with
    | some r => r
    | none => 1 / ((n : Rat) * n)
  rateMax := o.eaMutationRateMax
  strength := o.eaUpdateStrength
  coefficient := lib.pow o.eaUpdateStrength o.eaSuccessRatio
  allowNoMutation := o.eaAllowNoMutation
  incremental := o.incrementalEvaluation
  belowSqrt := belowInvSqrt n

/-- Case 301 (`algorithm-factory.cc:201-220`, `self-adjusting-one-plus-one-ea.hh:118-124`). -/
def makeSelfAdjusting (lib : AlgLib) (o : AlgOptions) (n : Nat) : Outcome (MadeAlgorithm K) :=
  Outcome.made (do
    algorithmNew n
    Nbh.new n) (fun s =>
      ⟨SelfAdjustingData, newState n ⟨s, newStandard, 0⟩,
        fun env => selfAdjustingMaximize env (madeSelfAdjustingParams lib o n) o.numIterations, selfAdjustingFinalize⟩)

/-- The parameters of the mutation operator (`algorithm-factory.cc:230-233`, `246-249`, `302-305`). -/
def madeMutation (o : AlgOptions) (n : Nat) : MutationParams := ⟨belowInvSqrt n (madeRate o n), o.eaAllowNoMutation⟩

/-- Case 310 (`algorithm-factory.cc:222-236`). -/
def makeMuPlusLambda (o : AlgOptions) (n : Nat) : Outcome (MadeAlgorithm K) :=
  Outcome.made (do
    algorithmNew n
    muPlusNew n o.eaMu o.eaLambda newStandard) (fun d =>
      ⟨EaData K (Pop K), newState n d, fun env => muPlusMaximize env (madeMutation o n) o.numIterations, noFinalize⟩)

/-- Case 320 (`algorithm-factory.cc:238-252`). -/
def makeMuCommaLambda (o : AlgOptions) (n : Nat) : Outcome (MadeAlgorithm K) :=
  Outcome.made (do
    algorithmNew n
    muCommaNew n o.eaMu o.eaLambda newStandard) (fun d =>
      ⟨EaData K Unit, newState n d, fun env => muCommaMaximize env (madeMutation o n) o.numIterations, noFinalize⟩)

/-- Constructor of `TwoRateOnePlusLambdaEa` (`two-rate-one-plus-lambda-ea.hh:46-52`), without the parameters. -/
def twoRateNew (n size : Int) (params : StandardParams) : Outcome (TwoRateData K) := do
  let population ← Pop.new size n
  let mutation ← Nbh.new n.toNat
  ok ⟨population, mutation, params, 0⟩

/-- Parameters in case 330 (`algorithm-factory.cc:261-265`, `two-rate-one-plus-lambda-ea.hh:50-51`, `89`). -/
def madeTwoRateParams (o : AlgOptions) (n : Nat) : TwoRateParams where
  rateInit := match o.eaMutationRate with
    | some r => r
    | none => 2 / (n : Rat)
  rateMin := 2 / (n : Rat)
  rateMax := 1 / 4
  allowNoMutation := o.eaAllowNoMutation
  belowSqrt := belowInvSqrt n

/-- Case 330 (`algorithm-factory.cc:254-268`). -/
def makeTwoRate (o : AlgOptions) (n : Nat) : Outcome (MadeAlgorithm K) :=
  Outcome.made (do
    algorithmNew n
    twoRateNew n o.eaLambda newStandard) (fun d =>
      ⟨TwoRateData K, newState n d, fun env => twoRateMaximize env (madeTwoRateParams o n) o.numIterations, noFinalize⟩)

/-- Parameters in case 340 (`algorithm-factory.cc:273-288`, `it-ea.hh:42-43`).  In the model the replacement and the weight
are natural numbers.  A negative replacement is unknown as 5 is; with a negative weight an assertion of `bv_random` fails
(`bit-vector.cc:104-105`), as it does with `n + 1`. -/
def madeItParams (lib : AlgLib) (o : AlgOptions) (n sel : Nat) : ItParams where
  selectionSize := sel
  learningRate := o.learningRate
  rateInit := match o.eaMutationRate with
    | some r => r
    | none => 1 / (n : Rat)
  rateMin := match o.eaMutationRateMin with
    | some r => r
    | none => 1 / (n : Rat)
  rateMax := o.eaMutationRateMax
  initialWeight := if o.eaItInitialHammingWeight < 0 then n + 1 else o.eaItInitialHammingWeight.toNat
  replacement := if o.eaItReplacement < 0 then 5 else o.eaItReplacement.toNat
  allowNoMutation := o.eaAllowNoMutation
  belowSqrt := belowInvSqrt n
  uniform := lib.uniform

/-- Case 340 (`algorithm-factory.cc:270-291`). -/
def makeItEa (lib : AlgLib) (o : AlgOptions) (n : Nat) : Outcome (MadeAlgorithm K) :=
  Outcome.made (do
    algorithmNew n
    let d ← itNew n o.populationSize newStandard
    let sel ← setSelectionSize o.populationSize o.selectionSize
    ok (d, sel)) (fun p =>
      ⟨ItData K, newState n p.1, fun env => itMaximize env (madeItParams lib o n p.2) o.numIterations, noFinalize⟩)

/-- Case 400 (`algorithm-factory.cc:293-308`). -/
def makeGeneticAlgorithm (o : AlgOptions) (n : Nat) : Outcome (MadeAlgorithm K) :=
  Outcome.made (do
    algorithmNew n
    gaNew n o.eaMu newStandard) (fun d =>
      ⟨EaData K Tournament, newState n d, fun env => gaMaximize env ⟨madeMutation o n, o.eaTournamentSize⟩ o.numIterations,
        noFinalize⟩)

/-- Case 450 (`algorithm-factory.cc:310-322`): the population size is `ea_mu`. -/
def makeLambdaGa (o : AlgOptions) (n : Nat) : Outcome (MadeAlgorithm K) :=
  Outcome.made (do
    algorithmNew n
    lambdaNew n o.eaMu) (fun d =>
      ⟨LambdaData K, newState n d, fun env => lambdaMaximize env o.eaCrossoverBias o.numIterations, noFinalize⟩)

/-- Case 500 (`algorithm-factory.cc:324-338`). -/
def makePbil (o : AlgOptions) (n : Nat) : Outcome (MadeAlgorithm K) :=
  Outcome.made (do
    algorithmNew n
    pbilNew n o.populationSize) (fun d =>
      ⟨PvData (PbilRest K), newState n d, fun env => pbilMaximize env ⟨o.selectionSize, o.learningRate⟩ o.numIterations,
        noFinalize⟩)

/-- Case 501 (`algorithm-factory.cc:340-354`). -/
def makeNpsPbil (o : AlgOptions) (n : Nat) : Outcome (MadeAlgorithm K) :=
  Outcome.made (do
    algorithmNew n
    npsNew n o.populationSize) (fun d =>
      ⟨PvData (NpsRest K), newState n d, fun env => npsMaximize env ⟨o.selectionSize, o.learningRate⟩ o.numIterations,
        noFinalize⟩)

/-- Case 600 (`algorithm-factory.cc:356-369`). -/
def makeUmda (o : AlgOptions) (n : Nat) : Outcome (MadeAlgorithm K) :=
  Outcome.made (do
    algorithmNew n
    umdaNew n o.populationSize) (fun d =>
      ⟨PvData (Pop K), newState n d, fun env => umdaMaximize env o.selectionSize o.numIterations, noFinalize⟩)

/-- `TsLengthMode` (`ram-umda.hh:38-53`) of an `int`. -/
def ramModeOf (m : Int) : RamLength :=
  if m = 0 then .constant
  else if m = 1 then .increasing
  else if m = 2 then .decreasing
  else if m = 3 then .uniform
  else if m = 4 then .geometric
  else if m = 5 then .reverseGeometric
  else .unknown

/-- Parameters in cases 610 and 612 (`algorithm-factory.cc:375-382`, `395-404`). -/
def madeRamParams (o : AlgOptions) : RamParams :=
  ⟨o.selectionSize, ramModeOf o.ramTsLengthMode, o.ramTsLengthLowerBound, o.ramTsLengthUpperBound,
    o.ramTsLengthIncrementPeriod, o.ramTsLengthDistributionParameter, o.ramCrossoverProbability, o.ramLatentSpaceProbability⟩

/-- Case 610 (`algorithm-factory.cc:371-389`). -/
def makeRamUmda (o : AlgOptions) (n : Nat) : Outcome (MadeAlgorithm K) :=
  Outcome.made (do
    algorithmNew n
    ramNew n o.populationSize) (fun d =>
      ⟨PvData (RamRest K), newState n (ramSetLength o.ramTsLength d),
        fun env => ramMaximize env (madeRamParams o) o.numIterations, noFinalize⟩)

/-- Case 612 (`algorithm-factory.cc:391-411`). -/
def makeRamUmda2 (o : AlgOptions) (n : Nat) : Outcome (MadeAlgorithm K) :=
  Outcome.made (do
    algorithmNew n
    ramNew n o.populationSize) (fun d =>
      ⟨PvData (RamRest K), newState n (ramSetLength o.ramTsLength d),
        fun env => ram2Maximize env (madeRamParams o) o.numIterations, noFinalize⟩)

/-- Case 700 (`algorithm-factory.cc:413-424`, `compact-ga.hh:71-73`). -/
def makeCompactGa (lib : AlgLib) (o : AlgOptions) (n : Nat) : Outcome (MadeAlgorithm K) :=
  (algorithmNew n).made (fun _ =>
    ⟨PvData (BV × BV), newState n (pvNew n (List.replicate n false, List.replicate n false)),
      fun env => compactMaximize env ⟨o.learningRate, lib.debug⟩ o.numIterations, noFinalize⟩)

/-- Parameters in case 800 (`algorithm-factory.cc:429`, `436-437`, `mmas.hh:55`). -/
def madeMmasParams (o : AlgOptions) : MmasParams K where
  compare := if o.mmasStrict then fun a b => decide (b < a) else fun a b => decide (b ≤ a)
  rate := o.learningRate

/-- Case 800 (`algorithm-factory.cc:426-440`, `mmas.hh:77-79`). -/
def makeMmas (o : AlgOptions) (n : Nat) : Outcome (MadeAlgorithm K) :=
  (algorithmNew n).made (fun _ =>
    ⟨PvData BV, newState n (pvNew n (List.replicate n false)), fun env => mmasMaximize env (madeMmasParams o) o.numIterations,
      noFinalize⟩)

/-- Parameters in cases 900 and 901 (`algorithm-factory.cc:448-453`, `469-474`, `hea.hh:175`). -/
def madeHeaParams (full : Bool) (o : AlgOptions) (n : Nat) : HeaParams :=
  ⟨full, 1 / (n : Rat), o.selectionSize, o.heaResetPeriod, o.learningRate, o.heaBoundMoment, o.heaRandomizeBitOrder⟩

/-- Cases 900 and 901 (`algorithm-factory.cc:442-482`). -/
def makeHea (full : Bool) (o : AlgOptions) (n : Nat) : Outcome (MadeAlgorithm K) :=
  Outcome.made (do
    algorithmNew n
    heaNew full n o.populationSize) (fun d =>
      ⟨HeaData K, newState n d, fun env => heaMaximize env (madeHeaParams full o n) o.numIterations, noFinalize⟩)

/-- `SamplingMode` (`bm-pbil.hh:50-74`) of an `int`. -/
def bmSamplingOf (m : Int) : BmSampling :=
  if m = 0 then .asynchronous
  else if m = 1 then .asynchronousFullScan
  else if m = 2 then .synchronous
  else .unknown

/-- `ResetMode` (`bm-pbil.hh:76-85`) of an `int`; other values are compared with those and have no effect
(`bm-pbil.hh:151`, `156`). -/
def bmResetOf (m : Int) : ResetMode :=
  if m = 1 then .iteration
  else if m = 2 then .bitVector
  else .noReset

/-- Parameters in cases 1000 and 1001 (`algorithm-factory.cc:491-497`, `501`, `513-519`, `523`). -/
def madeBmParams (full : Bool) (o : AlgOptions) : BmParams :=
  ⟨full, o.selectionSize, o.learningRate, o.bmNumGsSteps, o.bmNumGsCycles, o.bmNegativePositiveSelection,
    bmSamplingOf o.bmSamplingMode, bmResetOf o.bmResetMode⟩

/-- Cases 1000 and 1001 (`algorithm-factory.cc:484-526`). -/
def makeBmPbil (lib : AlgLib) (full : Bool) (o : AlgOptions) (n : Nat) : Outcome (MadeAlgorithm K) :=
  Outcome.made (do
    algorithmNew n
    bmNew full n o.populationSize) (fun d =>
      ⟨BmData K, newState n d, fun env => bmMaximize env lib.logistic (madeBmParams full o) o.numIterations, noFinalize⟩)

/-- Case 1100 (`algorithm-factory.cc:528-535`). -/
def makeMimic (lib : AlgLib) (o : AlgOptions) (n : Nat) : Outcome (MadeAlgorithm K) :=
  Outcome.made (do
    algorithmNew n
    mimicNew n o.populationSize) (fun d =>
      ⟨MimicData K, newState n d, fun env => mimicMaximize env lib.log o.selectionSize o.numIterations, noFinalize⟩)

/-! ## The factory -/

/-- What the factory makes: an algorithm of the library, or a wrapper around an external program, which is not modelled. -/
inductive FactoryResult (K : Type) where
  | own (m : Outcome (MadeAlgorithm K))
  | wrapper

/-- `CommandLineAlgorithmFactory::make` (`algorithm-factory.cc:94-560`). -/
def makeAlgorithm (lib : AlgLib) (o : AlgOptions) (n : Nat) : FactoryResult K :=
  if o.algorithm = 0 then .own (makeCompleteSearch n)
  else if o.algorithm = 10 then .own (makeRandomSearch o n)
  else if o.algorithm = 20 then .own (makeRandomWalk o n)
  else if o.algorithm = 30 then .own (makeHuman lib o n)
  else if o.algorithm = 100 then .own (makeRandomLocalSearch o n)
  else if o.algorithm = 150 then .own (makeSteepestAscent o n)
  else if o.algorithm = 160 then .own (makeFirstAscent o n)
  else if o.algorithm = 200 then .own (makeSimulatedAnnealing o n)
  else if o.algorithm = 300 then .own (makeOnePlusOneEa o n)
  else if o.algorithm = 301 then .own (makeSelfAdjusting lib o n)
  else if o.algorithm = 310 then .own (makeMuPlusLambda o n)
  else if o.algorithm = 320 then .own (makeMuCommaLambda o n)
  else if o.algorithm = 330 then .own (makeTwoRate o n)
  else if o.algorithm = 340 then .own (makeItEa lib o n)
  else if o.algorithm = 400 then .own (makeGeneticAlgorithm o n)
  else if o.algorithm = 450 then .own (makeLambdaGa o n)
  else if o.algorithm = 500 then .own (makePbil o n)
  else if o.algorithm = 501 then .own (makeNpsPbil o n)
  else if o.algorithm = 600 then .own (makeUmda o n)
  else if o.algorithm = 610 then .own (makeRamUmda o n)
  else if o.algorithm = 612 then .own (makeRamUmda2 o n)
  else if o.algorithm = 700 then .own (makeCompactGa lib o n)
  else if o.algorithm = 800 then .own (makeMmas o n)
  else if o.algorithm = 900 then .own (makeHea true o n)
  else if o.algorithm = 901 then .own (makeHea false o n)
  else if o.algorithm = 1000 then .own (makeBmPbil lib true o n)
  else if o.algorithm = 1001 then .own (makeBmPbil lib false o n)
  else if o.algorithm = 1100 then .own (makeMimic lib o n)
  else if o.algorithm = 1110 ∨ o.algorithm = 1200 ∨ o.algorithm = 1250 ∨ o.algorithm = 1300 then .wrapper
  else .own (throw .runtimeError)

end

end Hnco
