import Verif.Prob.Populations
import Verif.Prob.Walks
import Mathlib.Analysis.SpecialFunctions.Pow.NNReal

/-!
# Evolutionary algorithms which adjust their mutation rate, with probabilities

Second model of `lib/hnco/algorithms/evolutionary-algorithms/two-rate-one-plus-lambda-ea.cc` and
`lib/hnco/algorithms/evolutionary-algorithms/self-adjusting-one-plus-one-ea.cc`, in which runs have probabilities.  Evaluations
are not interrupted, populations are evaluated one vector after the other, rates are real numbers, and how populations are sorted
is left open as in `Verif/Prob/Populations.lean`.
-/

namespace Hnco.Prob

open Outcome
open scoped ENNReal

variable {K : Type}

/-! ## Two-rate (1+lambda) evolutionary algorithm -/

/-- Parameters of `TwoRateOnePlusLambdaEa`
(`lib/hnco/algorithms/evolutionary-algorithms/two-rate-one-plus-lambda-ea.hh:85`, `91`). -/
structure TwoRateLaw where
  rateInit : ℝ≥0∞
  allowNoMutation : Bool

/-- `_mutation_rate_min` (`lib/hnco/algorithms/evolutionary-algorithms/two-rate-one-plus-lambda-ea.hh:51`). -/
noncomputable def twoRateMin (n : ℕ) : ℝ≥0∞ := 2 / (n : ℝ≥0∞)

/-- `_mutation_rate_max` (`lib/hnco/algorithms/evolutionary-algorithms/two-rate-one-plus-lambda-ea.hh:89`). -/
noncomputable def twoRateMax : ℝ≥0∞ := 1 / 4

/-- The solution and the data members (`lib/hnco/algorithms/evolutionary-algorithms/two-rate-one-plus-lambda-ea.hh:74-78`). -/
structure TwoRateLawState (K : Type) where
  solution : BV × K
  population : Pop K
  operator : StandardBitMutation
  rate : ℝ≥0∞

/-- `TwoRateOnePlusLambdaEa::init`
(`lib/hnco/algorithms/evolutionary-algorithms/two-rate-one-plus-lambda-ea.cc:30-37`), after the constructor of the operator
(`lib/hnco/algorithms/evolutionary-algorithms/two-rate-one-plus-lambda-ea.hh:49`). -/
noncomputable def twoRateInit (f : Fn K) (q : TwoRateLaw) (n : ℕ) (p : Pop K) : Dist (TwoRateLawState K) := do
  let s ← randomSolution f (List.replicate n false)
  pure ⟨s, p, (StandardBitMutation.new (n : ℝ≥0∞)⁻¹).setAllowNoMutation q.allowNoMutation, q.rateInit⟩

/-- Body of the loops which make the population
(`lib/hnco/algorithms/evolutionary-algorithms/two-rate-one-plus-lambda-ea.cc:49-50`, `53-54`); `map` as `mutate`. -/
noncomputable def mapOffspring (sampleBits : Dist (List ℕ)) (x : BV) (i : ℕ) (p : Pop K) : Dist (Pop K) := do
  let y ← mutate sampleBits x
  let bvs ← Dist.lift (vset p.bvs i y)
  pure { p with bvs := bvs }

open Classical in
/-- `std::clamp(v, lo, hi)`, which is undefined if `hi < lo`. -/
noncomputable def clampRate (v lo hi : ℝ≥0∞) : Outcome ℝ≥0∞ :=
  if hi < lo then .ub else ok (if v < lo then lo else if hi < v then hi else v)

/-- Update of the mutation rate (`lib/hnco/algorithms/evolutionary-algorithms/two-rate-one-plus-lambda-ea.cc:65-76`).  The number
is uniform in `[0, 1)`: it is less than `1/4` with probability `1/4` and, if not, less than `1/2` with probability `1/3`. -/
noncomputable def twoRateUpdate (n mid : ℕ) (low high : ℝ≥0∞) (p : Pop K) : Dist ℝ≥0∞ := do
  let b ← Dist.coin 4⁻¹
  if b then pure (max low (twoRateMin n)) else do
    let b ← Dist.coin 3⁻¹
    if b then pure (min high twoRateMax) else do
      let k ← Dist.lift (p.bestIndex 0)
      Dist.lift (clampRate (if k < mid then low else high) (twoRateMin n) twoRateMax)

/-- The end of `TwoRateOnePlusLambdaEa::iterate`
(`lib/hnco/algorithms/evolutionary-algorithms/two-rate-one-plus-lambda-ea.cc:56-76`). -/
noncomputable def twoRateRest [LT K] [DecidableLT K] (f : Fn K) (c : Choices K) (n : ℕ) (s : TwoRateLawState K)
    (operator : StandardBitMutation) (p : Pop K) : Dist (TwoRateLawState K) := do
  let p ← Dist.lift (popEvaluate f p)
  let p ← c.sort p
  let solution ← Dist.lift (popUpdateSolution s.solution p)
  let rate ← twoRateUpdate n (s.population.size / 2) (s.rate / 2) (s.rate * 2) p
  pure ⟨solution, p, operator, rate⟩

/-- `TwoRateOnePlusLambdaEa::iterate`
(`lib/hnco/algorithms/evolutionary-algorithms/two-rate-one-plus-lambda-ea.cc:39-78`). -/
noncomputable def twoRateIterate [LT K] [DecidableLT K] (f : Fn K) (c : Choices K) (n : ℕ) (s : TwoRateLawState K) :
    Dist (TwoRateLawState K) := do
  let lambda := s.population.size
  let mid := lambda / 2
  let slow := s.operator.setMutationRate n (s.rate / 2)
  let p ← Dist.forRange 0 mid (mapOffspring (slow.sampleBits n) s.solution.1) s.population
  let fast := slow.setMutationRate n (s.rate * 2)
  let p ← Dist.forRange mid lambda (mapOffspring (fast.sampleBits n) s.solution.1) p
  twoRateRest f c n s fast p

/-- `TwoRateOnePlusLambdaEa`, with the constructor of its population
(`lib/hnco/algorithms/evolutionary-algorithms/two-rate-one-plus-lambda-ea.hh:48`). -/
noncomputable def twoRateEa [Zero K] [LT K] [DecidableLT K] (f : Fn K) (c : Choices K) (q : TwoRateLaw) (n : ℕ) (size : ℤ)
    (numIterations : ℤ) : Dist (BV × K) := do
  let p ← Dist.lift (Pop.new size n)
  run TwoRateLawState.solution (twoRateInit f q n p) (twoRateIterate f c n) numIterations

/-! ## Self-adjusting (1+1) evolutionary algorithm -/

/-- Parameters of `SelfAdjustingOnePlusOneEa`
(`lib/hnco/algorithms/evolutionary-algorithms/self-adjusting-one-plus-one-ea.hh:57-76`). -/
structure AdjustLaw where
  rateInit : ℝ≥0∞
  rateMin : ℝ≥0∞
  rateMax : ℝ≥0∞
  successRatio : ℝ
  strength : ℝ≥0∞
  allowNoMutation : Bool
  incremental : Bool

/-- The parameters set by the constructor
(`lib/hnco/algorithms/evolutionary-algorithms/self-adjusting-one-plus-one-ea.hh:64`, `67`, `73`, `76`, `121-123`). -/
noncomputable def AdjustLaw.default (n : ℕ) : AdjustLaw :=
  ⟨1 / n, 1 / ((n : ℝ≥0∞) * n), 1 / 2, 4, 1 + 1 / n, false, false⟩

/-- `_coefficient` (`lib/hnco/algorithms/evolutionary-algorithms/self-adjusting-one-plus-one-ea.cc:38`). -/
noncomputable def AdjustLaw.coefficient (q : AdjustLaw) : ℝ≥0∞ := q.strength ^ q.successRatio

/-- `_solution` and the data members: `_mutation`, which is a neighbourhood with the parameters of standard bit mutation, and
`_mutation_rate` (`lib/hnco/algorithms/evolutionary-algorithms/self-adjusting-one-plus-one-ea.hh:43-50`). -/
structure AdjustLawState (K : Type) where
  solution : BV × K
  nbh : NbhState
  operator : StandardBitMutation
  rate : ℝ≥0∞

/-- `SelfAdjustingOnePlusOneEa::init`
(`lib/hnco/algorithms/evolutionary-algorithms/self-adjusting-one-plus-one-ea.cc:32-43`). -/
noncomputable def adjustInit (f : Fn K) (q : AdjustLaw) (n : ℕ) : Dist (AdjustLawState K) := do
  let operator := ((StandardBitMutation.new (n : ℝ≥0∞)⁻¹).setMutationRate n q.rateInit).setAllowNoMutation q.allowNoMutation
  let s ← randomSolution f (List.replicate n false)
  pure ⟨s, NbhState.setOrigin ⟨List.replicate n false, List.replicate n false, []⟩ s.1, operator, q.rateInit⟩

/-- The end of both kinds of iterations
(`lib/hnco/algorithms/evolutionary-algorithms/self-adjusting-one-plus-one-ea.cc:65-75`, `90-100`). -/
noncomputable def adjustRest [LE K] [DecidableLE K] (q : AdjustLaw) (n : ℕ) (value : K) (s : AdjustLawState K) :
    Dist (AdjustLawState K) :=
  if s.solution.2 ≤ value then do
    let nbh ← s.nbh.keep
    let rate := min (s.rate * q.coefficient) q.rateMax
    pure ⟨(s.solution.1, value), nbh, s.operator.setMutationRate n rate, rate⟩
  else do
    let nbh ← s.nbh.forget
    let rate := max (s.rate / q.strength) q.rateMin
    pure ⟨s.solution, nbh, s.operator.setMutationRate n rate, rate⟩

/-- `SelfAdjustingOnePlusOneEa::iterate`, `iterate_full` and `iterate_incremental`
(`lib/hnco/algorithms/evolutionary-algorithms/self-adjusting-one-plus-one-ea.cc:45-55`, `57-77`, `79-102`). -/
noncomputable def adjustIterate [LE K] [DecidableLE K] (f : Fn K) (q : AdjustLaw) (n : ℕ) (s : AdjustLawState K) :
    Dist (AdjustLawState K) := do
  let nbh ← s.nbh.propose (s.operator.sampleBits n)
  let value ← (if q.incremental && f.hasInc then Dist.lift (f.evalInc nbh.origin s.solution.2 nbh.flipped)
    else Dist.lift (f.eval nbh.candidate))
  adjustRest q n value { s with nbh := nbh }

/-- `SelfAdjustingOnePlusOneEa`, with `finalize`
(`lib/hnco/algorithms/evolutionary-algorithms/self-adjusting-one-plus-one-ea.cc:104-109`). -/
noncomputable def adjustEa [LE K] [DecidableLE K] (f : Fn K) (q : AdjustLaw) (n : ℕ) (numIterations : ℤ) : Dist (BV × K) :=
  run (fun s : AdjustLawState K => (s.nbh.origin, s.solution.2)) (adjustInit f q n) (adjustIterate f q n) numIterations

end Hnco.Prob
