import Verif.App.Main
import Verif.App.OptionsSpec

/-!
# Specification of the program `hnco`

What the options of a command line mean for the parts of the program, in terms of the names in the help pages.
-/

namespace Hnco

/-- The parameter `--name` has the value `x`: what its last occurrence means, or the default value of the help page. -/
def Param (lib : OptLib) (items : List (OptDoc × Option (List Char))) (name : String) (x : OptValue) : Prop :=
  ∃ d ∈ hncoClass.help, d.name = name.toList ∧ ∃ k default, d.kind = .value k default ∧
    ((∃ v, LastArgument items d v ∧ Means lib k v x) ∨ (¬ Mentioned items d ∧ default = some x))

/-- The option `--name` is in the command line. -/
def Present (items : List (OptDoc × Option (List Char))) (name : String) : Prop := ∃ i ∈ items, i.1.name = name.toList

/-- A parameter without default value. -/
def OptionalParam (lib : OptLib) (items : List (OptDoc × Option (List Char))) (name : String) (x : Option Rat) : Prop :=
  (¬ Present items name ∧ x = none) ∨ ∃ r, x = some r ∧ Param lib items name (.double r)

/-- The options of the controllers and of the end of the program. -/
structure AppSettings (lib : OptLib) (items : List (OptDoc × Option (List Char))) (o : AppOptions Rat) : Prop where
  budget : Param lib items "budget" (.int o.budget)
  cache : o.cache = true ↔ Present items "cache"
  cacheBudget : o.cacheBudget = true ↔ Present items "cache-budget"
  stopOnMaximum : o.stopOnMaximum = true ↔ Present items "stop-on-maximum"
  target : OptionalParam lib items "target" o.target
  concreteSolution : o.concreteSolution = true ↔ Present items "concrete-solution"
  printDescription : o.printDescription = true ↔ Present items "print-description"

/-- The options of the function. -/
structure FunctionSettings (lib : OptLib) (items : List (OptDoc × Option (List Char))) (o : FactoryOptions) : Prop where
  function : ∃ k, Param lib items "function" (.int k) ∧ (k < 0 → o.function = 2) ∧ (0 ≤ k → (o.function : Int) = k)
  bvSize : Param lib items "bv-size" (.int o.bvSize)
  threshold : Param lib items "fn-threshold" (.int o.threshold)
  numTraps : ∃ k, Param lib items "fn-num-traps" (.int k) ∧ (o.numTraps : Int) = max k 0
  prefixLength : ∃ k, Param lib items "fn-prefix-length" (.int k) ∧ (o.prefixLength : Int) = max k 0
  categorical : ∃ k, Param lib items "rep-categorical-representation" (.int k) ∧ (k < 0 → o.categorical = 2) ∧
    (0 ≤ k → (o.categorical : Int) = k)

/-- The options of the algorithm. -/
structure AlgorithmSettings (lib : OptLib) (items : List (OptDoc × Option (List Char))) (o : AlgOptions) : Prop where
  algorithm : Param lib items "algorithm" (.int o.algorithm)
  numIterations : Param lib items "num-iterations" (.int o.numIterations)
  neighborhood : Param lib items "neighborhood" (.int o.neighborhood)
  neighborhoodIterator : Param lib items "neighborhood-iterator" (.int o.neighborhoodIterator)
  radius : Param lib items "radius" (.int o.radius)
  incrementalEvaluation : o.incrementalEvaluation = true ↔ Present items "incremental-evaluation"
  rlsPatience : Param lib items "rls-patience" (.int o.rlsPatience)
  rlsStrict : o.rlsStrict = true ↔ Present items "rls-strict"
  saNumTransitions : Param lib items "sa-num-transitions" (.int o.saNumTransitions)
  saNumTrials : Param lib items "sa-num-trials" (.int o.saNumTrials)
  eaAllowNoMutation : o.eaAllowNoMutation = true ↔ Present items "ea-allow-no-mutation"
  eaMutationRate : OptionalParam lib items "ea-mutation-rate" o.eaMutationRate
  eaMutationRateMin : OptionalParam lib items "ea-mutation-rate-min" o.eaMutationRateMin
  eaMutationRateMax : Param lib items "ea-mutation-rate-max" (.double o.eaMutationRateMax)
  eaSuccessRatio : Param lib items "ea-success-ratio" (.double o.eaSuccessRatio)
  eaUpdateStrength : Param lib items "ea-update-strength" (.double o.eaUpdateStrength)
  eaMu : Param lib items "ea-mu" (.int o.eaMu)
  eaLambda : Param lib items "ea-lambda" (.int o.eaLambda)
  eaTournamentSize : Param lib items "ea-tournament-size" (.int o.eaTournamentSize)
  eaCrossoverBias : Param lib items "ea-crossover-bias" (.double o.eaCrossoverBias)
  eaItInitialHammingWeight : Param lib items "ea-it-initial-hamming-weight" (.int o.eaItInitialHammingWeight)
  eaItReplacement : Param lib items "ea-it-replacement" (.int o.eaItReplacement)
  populationSize : Param lib items "population-size" (.int o.populationSize)
  selectionSize : Param lib items "selection-size" (.int o.selectionSize)
  learningRate : Param lib items "learning-rate" (.double o.learningRate)
  ramTsLength : Param lib items "ram-ts-length" (.int o.ramTsLength)
  ramTsLengthDistributionParameter :
    Param lib items "ram-ts-length-distribution-parameter" (.double o.ramTsLengthDistributionParameter)
  ramTsLengthIncrementPeriod : Param lib items "ram-ts-length-increment-period" (.int o.ramTsLengthIncrementPeriod)
  ramTsLengthLowerBound : Param lib items "ram-ts-length-lower-bound" (.int o.ramTsLengthLowerBound)
  ramTsLengthMode : Param lib items "ram-ts-length-mode" (.int o.ramTsLengthMode)
  ramTsLengthUpperBound : Param lib items "ram-ts-length-upper-bound" (.int o.ramTsLengthUpperBound)
  ramCrossoverProbability : Param lib items "ram-crossover-probability" (.double o.ramCrossoverProbability)
  ramLatentSpaceProbability : Param lib items "ram-latent-space-probability" (.double o.ramLatentSpaceProbability)
  mmasStrict : o.mmasStrict = true ↔ Present items "mmas-strict"
  heaBoundMoment : Param lib items "hea-bound-moment" (.bool o.heaBoundMoment)
  heaRandomizeBitOrder : Param lib items "hea-randomize-bit-order" (.bool o.heaRandomizeBitOrder)
  heaResetPeriod : Param lib items "hea-reset-period" (.int o.heaResetPeriod)
  bmNumGsCycles : Param lib items "bm-num-gs-cycles" (.int o.bmNumGsCycles)
  bmNumGsSteps : Param lib items "bm-num-gs-steps" (.int o.bmNumGsSteps)
  bmResetMode : Param lib items "bm-reset-mode" (.int o.bmResetMode)
  bmSamplingMode : Param lib items "bm-sampling-mode" (.int o.bmSamplingMode)
  bmNegativePositiveSelection : o.bmNegativePositiveSelection = true ↔ Present items "bm-negative-positive-selection"

/-- The options which make the program print information about a function and end. -/
def showingOptions : List String := ["fn-has-known-maximum", "fn-get-maximum", "fn-get-bv-size",
  "fn-provides-incremental-evaluation", "fn-walsh-transform", "fn-display", "map-display"]

/-- A command line with a plain function: one thread, no map, no noise and no expression; and the default parameters are not asked
for. -/
structure PlainFunction (lib : OptLib) (items : List (OptDoc × Option (List Char))) : Prop where
  defaults : ¬ Present items "print-default-parameters"
  threads : Param lib items "num-threads" (.int 1)
  map : ∃ k ≤ 0, Param lib items "map" (.int k)
  modifiers : ∀ name ∈ ["prior-noise", "parsed-modifier", "additive-gaussian-noise"], ¬ Present items name

/-- A command line for a plain run: no solution is loaded and no information is asked for; no incremental evaluation and no
restart. -/
structure PlainRun (lib : OptLib) (items : List (OptDoc × Option (List Char))) : Prop extends PlainFunction lib items where
  runs : ∀ name ∈ "load-solution" :: showingOptions, ¬ Present items name
  incremental : ¬ Present items "incremental-evaluation"
  restart : ¬ Present items "restart"

/-- The command line asks for the function `f`, which is made with the options, and read at `--path` if it is read. -/
def AsksFor (w : HncoWorld) (items : List (OptDoc × Option (List Char))) (f : Fn Rat) : Prop :=
  ∃ fo file, FunctionSettings w.opt items fo ∧ makeFunction w.fn fo file = .ok (.plain f) ∧
    (fo.function ∈ [1, 50, 60, 70, 71, 90, 91, 160, 161, 162, 171, 172, 190] →
      ∃ path, Param w.opt items "path" (.str path) ∧ w.file path = some file)

end Hnco
