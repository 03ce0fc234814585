import Verif.App.AlgorithmFactory
import Verif.Algorithm.AlgLemmas

/-!
# Specification of the algorithms made by the factory

Options which are in order for an algorithm, and what is expected of a run of the algorithm made with them.
-/

namespace Hnco

variable {K : Type}

/-- What is announced of an algorithm: the evaluations of the last generation, which may be lost when a run is interrupted, are
fewer than `batch`; there are `first` evaluations before the iterations and between `lo` and `hi` evaluations per iteration;
`stops` tells whether the algorithm may end before its last iteration. -/
structure Plan where
  batch : Nat
  first : Nat
  lo : Nat
  hi : Nat
  stops : Bool

/-- The plan of an algorithm which makes one evaluation per iteration and never stops by itself. -/
def Plan.sequential (first : Nat) : Plan := ⟨1, first, 1, 1, false⟩

/-- The plan of an algorithm which makes `each` evaluations per iteration and never stops by itself. -/
def Plan.generations (batch first each : Nat) : Plan := ⟨batch, first, each, each, false⟩

/-- A run is as expected, where `val` is the function and `k` the number of iterations asked for. -/
structure RunOk [LinearOrder K] (n : Nat) (val : BV → K) (k : Int) (plan : Plan) (r : RunResult K) : Prop where
  /-- Every evaluation is an evaluation of the function at a vector of the right size. -/
  values : ∀ c ∈ r.calls, c.1.length = n ∧ c.2 = val c.1
  /-- After a normal end, the solution is a best evaluation. -/
  finished : r.ending = .ok () → r.solution ∈ r.calls ∧ ∀ c ∈ r.calls, c.2 ≤ r.solution.2
  /-- After the last evaluation allowed, it is a best evaluation except that the last ones may not have been considered. -/
  stopped : r.ending = .error .lastEvaluation → ∃ done last, r.calls = done ++ last ∧ last.length < plan.batch ∧
    (done = [] ∨ (r.solution ∈ done ∧ ∀ c ∈ done, c.2 ≤ r.solution.2))
  /-- The number of evaluations if a number of iterations is asked for. -/
  cost : 0 < k → r.calls.length ≤ plan.first + k.toNat * plan.hi ∧
    (r.ending = .ok () → plan.stops = false → plan.first + k.toNat * plan.lo ≤ r.calls.length)
  /-- Otherwise only an exception ends the run. -/
  endless : k ≤ 0 → plan.stops = false → r.ending ≠ .ok ()

/-- The neighbourhood which is asked for exists. -/
def NeighborhoodOk (o : AlgOptions) (n : Nat) : Prop :=
  ((o.neighborhood = 0 ∨ o.neighborhood = 1) ∧ 0 < n) ∨
  ((o.neighborhood = 2 ∨ o.neighborhood = 3) ∧ 1 ≤ o.radius ∧ o.radius ≤ n)

/-- The number of selected individuals is in order. -/
def SelectionOk (o : AlgOptions) : Prop := 1 ≤ o.selectionSize ∧ o.selectionSize ≤ o.populationSize

/-- Options in order for UMDA with random affine maps. -/
structure RamOk (o : AlgOptions) : Prop where
  selection : SelectionOk o
  mode : 0 ≤ o.ramTsLengthMode ∧ o.ramTsLengthMode ≤ 5
  length : 0 ≤ o.ramTsLength
  bounds : 0 ≤ o.ramTsLengthLowerBound ∧ o.ramTsLengthLowerBound ≤ o.ramTsLengthUpperBound
  period : o.ramTsLengthIncrementPeriod ≠ 0
  parameter : 0 < o.ramTsLengthDistributionParameter ∧ o.ramTsLengthDistributionParameter < 1

/-- Options in order for the IT-EA. -/
structure ItOk (lib : AlgLib) (o : AlgOptions) (n : Nat) : Prop where
  selection : 1 ≤ o.selectionSize ∧ o.selectionSize < o.populationSize
  rates : o.eaMutationRateMin.getD (1 / (n : Rat)) ≤ o.eaMutationRate.getD (1 / (n : Rat)) ∧
    o.eaMutationRate.getD (1 / (n : Rat)) ≤ o.eaMutationRateMax
  replacement : 0 ≤ o.eaItReplacement ∧ o.eaItReplacement ≤ 4
  weight : o.eaItReplacement = 4 → 0 ≤ o.eaItInitialHammingWeight ∧ o.eaItInitialHammingWeight ≤ n
  uniform : ∀ d j, lib.uniform d j < 1

/-- Options in order for the herding EA. -/
structure HeaOk (o : AlgOptions) (n : Nat) : Prop where
  selection : SelectionOk o
  rate : 0 ≤ o.learningRate ∧ o.learningRate ≤ 1
  size : 0 < n ∧ (o.heaBoundMoment = true → 2 ≤ n)

/-- The options are in order for the algorithm which is asked for, on vectors of `n` bits, and announce the given plan. -/
inductive Accepted (lib : AlgLib) (o : AlgOptions) (n : Nat) : Plan → Prop where
  | randomSearch (h : o.algorithm = 10) (hn : 0 < n) : Accepted lib o n (.sequential 1)
  | randomWalk (h : o.algorithm = 20) (hnbh : NeighborhoodOk o n) (hinc : o.incrementalEvaluation = false) :
    Accepted lib o n (.sequential 1)
  | human (h : o.algorithm = 30) (hn : 0 < n) : Accepted lib o n (.sequential 1)
  | randomLocalSearch (h : o.algorithm = 100) (hnbh : NeighborhoodOk o n) :
    Accepted lib o n ⟨1, 1, 1, 1, decide (0 < o.rlsPatience)⟩
  | simulatedAnnealing (h : o.algorithm = 200) (hnbh : NeighborhoodOk o n) :
    Accepted lib o n (.sequential (1 + 2 * o.saNumTrials.toNat))
  | onePlusOneEa (h : o.algorithm = 300) (hn : 0 < n) : Accepted lib o n (.sequential 1)
  | selfAdjusting (h : o.algorithm = 301) (hn : 0 < n) : Accepted lib o n (.sequential 1)
  | muPlusLambda (h : o.algorithm = 310) (hn : 0 < n) (hmu : 1 ≤ o.eaMu) (hlam : 1 ≤ o.eaLambda) :
    Accepted lib o n (.generations (max o.eaMu.toNat o.eaLambda.toNat) o.eaMu.toNat o.eaLambda.toNat)
  | muCommaLambda (h : o.algorithm = 320) (hn : 0 < n) (hmu : 1 ≤ o.eaMu) (hle : o.eaMu ≤ o.eaLambda) :
    Accepted lib o n (.generations o.eaLambda.toNat 1 o.eaLambda.toNat)
  | twoRate (h : o.algorithm = 330) (hn : 8 ≤ n) (hlam : 1 ≤ o.eaLambda)
    (hrate : 2 / (n : Rat) ≤ o.eaMutationRate.getD (2 / (n : Rat)) ∧ o.eaMutationRate.getD (2 / (n : Rat)) ≤ 1 / 4) :
    Accepted lib o n (.generations o.eaLambda.toNat 1 o.eaLambda.toNat)
  | itEa (h : o.algorithm = 340) (hn : 0 < n) (hit : ItOk lib o n) :
    Accepted lib o n ⟨o.populationSize.toNat, 1, o.populationSize.toNat + (if o.eaItReplacement = 2 then 1 else 0),
      o.populationSize.toNat + (if o.eaItReplacement = 2 ∨ o.eaItReplacement = 3 then 1 else 0), false⟩
  | geneticAlgorithm (h : o.algorithm = 400) (hn : 0 < n) (hsize : 2 ≤ o.eaTournamentSize ∧ o.eaTournamentSize < o.eaMu) :
    Accepted lib o n (.generations o.eaMu.toNat o.eaMu.toNat o.eaMu.toNat)
  | pbil (h : o.algorithm = 500) (hn : 2 ≤ n) (hsel : SelectionOk o) :
    Accepted lib o n (.generations o.populationSize.toNat 1 o.populationSize.toNat)
  | npsPbil (h : o.algorithm = 501) (hn : 2 ≤ n) (hsel : SelectionOk o) :
    Accepted lib o n (.generations o.populationSize.toNat 1 o.populationSize.toNat)
  | umda (h : o.algorithm = 600) (hn : 2 ≤ n) (hsel : SelectionOk o) :
    Accepted lib o n (.generations o.populationSize.toNat 1 o.populationSize.toNat)
  | ramUmda (h : o.algorithm = 610 ∨ o.algorithm = 612) (hn : 2 ≤ n) (hram : RamOk o) :
    Accepted lib o n (.generations o.populationSize.toNat 1 o.populationSize.toNat)
  | compactGa (h : o.algorithm = 700) (hn : 2 ≤ n) :
    Accepted lib o n (.generations 2 1 (if lib.debug then 4 else 2))
  | mmas (h : o.algorithm = 800) (hn : 2 ≤ n) : Accepted lib o n (.sequential 1)
  | hea (h : o.algorithm = 900 ∨ o.algorithm = 901) (hhea : HeaOk o n) :
    Accepted lib o n (.generations o.populationSize.toNat 1 o.populationSize.toNat)
  | bmPbil (h : o.algorithm = 1000 ∨ o.algorithm = 1001) (hn : 0 < n) (hsel : SelectionOk o)
    (hmode : o.bmSamplingMode = 0 ∨ o.bmSamplingMode = 1 ∨ (o.bmSamplingMode = 2 ∧ o.algorithm = 1000)) :
    Accepted lib o n (.generations o.populationSize.toNat 1 o.populationSize.toNat)
  | mimic (h : o.algorithm = 1100) (hn : 2 ≤ n) (hsel : 1 ≤ o.selectionSize ∧ o.selectionSize < o.populationSize)
    (hlog : ∀ x, 1 ≤ x → 0 ≤ lib.log x) :
    Accepted lib o n (.generations o.populationSize.toNat 1 o.populationSize.toNat)

/-- No option is refused in the course of a run; these options are checked only when they are used. -/
structure NoRefusal (o : AlgOptions) : Prop where
  replacement : o.algorithm = 340 → 0 ≤ o.eaItReplacement ∧ o.eaItReplacement ≤ 4
  tournament : o.algorithm = 400 → 2 ≤ o.eaTournamentSize ∧ o.eaTournamentSize < o.eaMu
  lengthMode : o.algorithm = 610 ∨ o.algorithm = 612 → 0 ≤ o.ramTsLengthMode ∧ o.ramTsLengthMode ≤ 5
  samplingMode : o.algorithm = 1000 ∨ o.algorithm = 1001 → 0 ≤ o.bmSamplingMode ∧ o.bmSamplingMode ≤ 2

/-- The iterator over neighbourhoods which is asked for exists, and visits the vectors at distance `r`. -/
def IteratorOk (o : AlgOptions) (n r : Nat) : Prop :=
  (o.neighborhoodIterator = 0 ∧ 0 < n ∧ r = 1) ∨ (o.neighborhoodIterator = 1 ∧ o.radius = r ∧ 1 ≤ r ∧ r ≤ n)

/-- The numbers of the algorithms (`algorithm-factory.cc:94-560`). -/
def algorithmNumbers : List Int := [0, 10, 20, 30, 100, 150, 160, 200, 300, 301, 310, 320, 330, 340, 400, 450, 500, 501, 600, 610,
  612, 700, 800, 900, 901, 1000, 1001, 1100, 1110, 1200, 1250, 1300]

/-- Options which are not in order, for vectors of `n` bits. -/
inductive Refused (o : AlgOptions) (n : Nat) : Prop where
  | number (h : o.algorithm ∉ algorithmNumbers)
  | neighborhood (h : o.algorithm = 20 ∨ o.algorithm = 100 ∨ o.algorithm = 200) (hnbh : o.neighborhood < 0 ∨ 3 < o.neighborhood)
  | iterator (h : o.algorithm = 150 ∨ o.algorithm = 160) (hit : o.neighborhoodIterator < 0 ∨ 1 < o.neighborhoodIterator)
  | population (h : o.algorithm ∈ ([340, 500, 501, 600, 610, 612, 900, 901, 1000, 1001, 1100] : List Int)) (hn : 0 < n)
    (hsize : o.populationSize ≤ 0)
  | mimic (h : o.algorithm = 1100) (hn : 0 < n) (hsize : o.populationSize ≤ 1)
  | parents (h : o.algorithm ∈ ([310, 320, 400, 450] : List Int)) (hn : 0 < n) (hmu : o.eaMu ≤ 0)
  | offsprings (h : o.algorithm ∈ ([310, 320, 330] : List Int)) (hn : 0 < n) (hlam : o.eaLambda ≤ 0)
  | selection (h : o.algorithm = 320) (hn : 0 < n) (hlt : o.eaLambda < o.eaMu)

end Hnco
