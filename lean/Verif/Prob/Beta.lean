import Verif.Prob.Walks
import Mathlib.Analysis.SpecialFunctions.Log.Basic

/-!
# The initial temperature of simulated annealing

Model of the whole of `lib/hnco/algorithms/local-search/simulated-annealing.cc`, with `init_beta`, which `Verif/Prob/Walks.lean`
leaves out.  The member `_beta` may be NaN, since `init_beta` divides by a counter which may be zero; other numbers are real.
-/

namespace Hnco.Prob

open Outcome
open scoped ENNReal

/-- Parameters of `SimulatedAnnealing` used by `init` (`lib/hnco/algorithms/local-search/simulated-annealing.hh:63-67`). -/
structure BetaParams where
  numTrials : ℤ
  initialAcceptance : ℝ

/-- The variables of the loop of `init_beta` (`lib/hnco/algorithms/local-search/simulated-annealing.cc:39-42`), and the members
it changes. -/
structure BetaState where
  bv : BV
  nbh : NbhState
  solution : BV × ℝ
  delta : ℝ
  count : ℕ

open Classical in
/-- `update_solution(bv, value)` (`lib/hnco/algorithms/algorithm.cc:52-59`). -/
noncomputable def keepBest (bv : BV) (value : ℝ) (solution : BV × ℝ) : BV × ℝ :=
  if solution.2 < value then (bv, value) else solution

open Classical in
/-- A trial of `init_beta` (`lib/hnco/algorithms/local-search/simulated-annealing.cc:44-55`). -/
noncomputable def betaTrial (sampleBits : Dist (List ℕ)) (f : Fn ℝ) (s : BetaState) : Dist BetaState := do
  let bv ← bvRandomBits s.bv
  let a ← Dist.lift (f.eval bv)
  let nbh ← (s.nbh.setOrigin bv).propose sampleBits
  let b ← Dist.lift (f.eval nbh.candidate)
  let back ← nbh.forget
  pure ⟨bv, back, keepBest nbh.candidate b (keepBest bv a s.solution), if b < a then s.delta + (b - a) else s.delta,
    if b < a then s.count + 1 else s.count⟩

/-- `delta /= count` and the computation of `_beta` (`lib/hnco/algorithms/local-search/simulated-annealing.cc:57-60`).  When the
counter is zero so is the sum: the quotient of zeros is NaN, here `none`, and so is what is computed from it. -/
noncomputable def betaOf (acceptance delta : ℝ) (count : ℕ) : Option ℝ :=
  if count = 0 then none else some (Real.log acceptance / (delta / count))

/-- `SimulatedAnnealing::init_beta` (`lib/hnco/algorithms/local-search/simulated-annealing.cc:33-61`). -/
noncomputable def initBeta (q : BetaParams) (sampleBits : Dist (List ℕ)) (f : Fn ℝ) (nbh : NbhState) (solution : BV × ℝ) :
    Dist (BetaState × Option ℝ) := do
  let s ← Dist.forRange 0 q.numTrials.toNat (fun _ => betaTrial sampleBits f) ⟨solution.1, nbh, solution, 0, 0⟩
  Dist.lift (assert (decide (0 < q.initialAcceptance)))
  pure (s, betaOf q.initialAcceptance s.delta s.count)

/-- The state of `SimulatedAnnealing` (`lib/hnco/algorithms/local-search/simulated-annealing.hh:47-54`); `_beta` is `none` if it
is NaN. -/
structure FullSa where
  nbh : NbhState
  solution : BV × ℝ
  value : ℝ
  beta : Option ℝ
  transitions : ℤ

/-- `SimulatedAnnealing::init` (`lib/hnco/algorithms/local-search/simulated-annealing.cc:64-75`). -/
noncomputable def fullSaInit (p : StartParams) (q : BetaParams) (sampleBits : Dist (List ℕ)) (f : Fn ℝ) (n : ℕ) : Dist FullSa := do
  let solution ← (if p.randomInitialization then randomSolution f (List.replicate n false) else do
    let v ← Dist.lift (f.eval p.startingPoint)
    pure (p.startingPoint, v))
  let s ← initBeta q sampleBits f ⟨List.replicate n false, List.replicate n false, []⟩ solution
  pure ⟨s.1.nbh.setOrigin s.1.solution.1, s.1.solution, s.1.solution.2, s.2, 0⟩

/-- The test `Generator::uniform() < exp(loss * _beta)` (`lib/hnco/algorithms/local-search/simulated-annealing.cc:97`): the
exponential of NaN is NaN, and no number is below NaN. -/
noncomputable def fullSaTest (loss : ℝ) : Option ℝ → Dist Bool
  | some beta => Dist.coin (ENNReal.ofReal (Real.exp (loss * beta)))
  | none => pure false

open Classical in
/-- The acceptance of the candidate (`lib/hnco/algorithms/local-search/simulated-annealing.cc:87-104`). -/
noncomputable def fullSaAccept (value : ℝ) (s : FullSa) : Dist FullSa :=
  if s.value ≤ value then do
    let nbh ← s.nbh.keep
    pure { s with nbh := nbh, value := value, solution := keepBest nbh.origin value s.solution }
  else do
    let b ← fullSaTest (value - s.value) s.beta
    if b then do
      let nbh ← s.nbh.keep
      pure { s with nbh := nbh, value := value, transitions := s.transitions + 1 }
    else do
      let nbh ← s.nbh.forget
      pure { s with nbh := nbh }

/-- The cooling schedule (`lib/hnco/algorithms/local-search/simulated-annealing.cc:107-110`); the product of NaN is NaN. -/
noncomputable def fullSaCool (p : SaParams) (s : FullSa) : FullSa :=
  if s.transitions = p.numTransitions then { s with transitions := 0, beta := s.beta.map (· * p.betaRatio) } else s

/-- `SimulatedAnnealing::iterate` (`lib/hnco/algorithms/local-search/simulated-annealing.cc:78-112`). -/
noncomputable def fullSaIterate (p : SaParams) (f : Fn ℝ) (s : FullSa) : Dist FullSa := do
  let nbh ← s.nbh.propose p.sampleBits
  let value ← Dist.lift (f.eval nbh.candidate)
  let s ← fullSaAccept value { s with nbh := nbh }
  pure (fullSaCool p s)

/-- The state after `init` and `t` iterations (`lib/hnco/algorithms/iterative-algorithm.cc:33-39`). -/
noncomputable def fullSa (start : StartParams) (q : BetaParams) (p : SaParams) (f : Fn ℝ) (n t : ℕ) : Dist FullSa := do
  let s ← fullSaInit start q p.sampleBits f n
  boundedLoop (fun _ => false) (fullSaIterate p f) t s

end Hnco.Prob
