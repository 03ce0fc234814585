import Verif.Prob.Search
import Verif.Walsh.GibbsProps

/-!
# Random walk, simulated annealing and Gibbs sampler, with probabilities

Second model of `lib/hnco/algorithms/local-search/random-walk.cc`, `lib/hnco/algorithms/local-search/simulated-annealing.cc`,
`lib/hnco/algorithms/walsh-moment/gibbs-sampler.cc` and of the sampling functions of
`lib/hnco/algorithms/walsh-moment/bm-pbil.hh`, in which runs have probabilities.  Evaluations are not interrupted.
-/

namespace Hnco.Prob

open Outcome
open scoped ENNReal

variable {K : Type}

/-! ## Neighbourhoods -/

/-- Data members of `Neighborhood` (`lib/hnco/neighborhoods/neighborhood.hh:65-75`). -/
structure NbhState where
  origin : BV
  candidate : BV
  flipped : List ℕ

/-- `Neighborhood::set_origin` (`lib/hnco/neighborhoods/neighborhood.hh:98-101`). -/
def NbhState.setOrigin (s : NbhState) (x : BV) : NbhState := { s with origin := x, candidate := x }

/-- `Neighborhood::propose` (`lib/hnco/neighborhoods/neighborhood.hh:113-117`). -/
noncomputable def NbhState.propose (sampleBits : Dist (List ℕ)) (s : NbhState) : Dist NbhState := do
  Dist.lift (assert (s.candidate == s.origin))
  let flipped ← sampleBits
  let candidate ← Dist.lift (bvFlipSparse s.candidate flipped)
  pure { s with flipped := flipped, candidate := candidate }

/-- `Neighborhood::keep` (`lib/hnco/neighborhoods/neighborhood.hh:120-123`). -/
noncomputable def NbhState.keep (s : NbhState) : Dist NbhState := do
  let origin ← Dist.lift (bvFlipSparse s.origin s.flipped)
  Dist.lift (assert (s.candidate == origin))
  pure { s with origin := origin }

/-- `Neighborhood::forget` (`lib/hnco/neighborhoods/neighborhood.hh:126-129`). -/
noncomputable def NbhState.forget (s : NbhState) : Dist NbhState := do
  let candidate ← Dist.lift (bvFlipSparse s.candidate s.flipped)
  Dist.lift (assert (candidate == s.origin))
  pure { s with candidate := candidate }

/-! ## Random walk -/

/-- The state of `RandomWalk`: its neighbourhood and `_solution`.  The member `_value` only is for the log. -/
structure WalkState (K : Type) where
  nbh : NbhState
  solution : BV × K

/-- `LocalSearchAlgorithm::init` (`lib/hnco/algorithms/local-search/local-search-algorithm.hh:57-67`). -/
noncomputable def walkInit (p : StartParams) (f : Fn K) (n : ℕ) : Dist (WalkState K) := do
  let s ← (if p.randomInitialization then randomSolution f (List.replicate n false) else do
    let v ← Dist.lift (f.eval p.startingPoint)
    pure (p.startingPoint, v))
  pure ⟨NbhState.setOrigin ⟨List.replicate n false, List.replicate n false, []⟩ s.1, s⟩

/-- `RandomWalk::iterate_full` (`lib/hnco/algorithms/local-search/random-walk.cc:45-55`) and `update_solution`
(`lib/hnco/algorithms/algorithm.cc:52-59`).  Incremental evaluation is not modelled. -/
noncomputable def walkIterate [LT K] [DecidableLT K] (sampleBits : Dist (List ℕ)) (f : Fn K) (s : WalkState K) :
    Dist (WalkState K) := do
  let nbh ← s.nbh.propose sampleBits
  let value ← Dist.lift (f.eval nbh.candidate)
  let nbh ← nbh.keep
  pure ⟨nbh, if s.solution.2 < value then (nbh.candidate, value) else s.solution⟩

/-- The state after `init` and `t` iterations (`lib/hnco/algorithms/iterative-algorithm.cc:33-39`). -/
noncomputable def randomWalk [LT K] [DecidableLT K] (p : StartParams) (sampleBits : Dist (List ℕ)) (f : Fn K) (n t : ℕ) :
    Dist (WalkState K) := do
  let s ← walkInit p f n
  boundedLoop (fun _ => false) (walkIterate sampleBits f) t s

/-! ## Simulated annealing -/

/-- Parameters of `SimulatedAnnealing` used by `iterate` (`lib/hnco/algorithms/local-search/simulated-annealing.hh:60-61`,
`69-70`), and `sample_bits` of its neighbourhood. -/
structure SaParams where
  sampleBits : Dist (List ℕ)
  numTransitions : ℤ
  betaRatio : ℝ

/-- The state of `SimulatedAnnealing` (`lib/hnco/algorithms/local-search/simulated-annealing.hh:47-54`): its neighbourhood,
`_solution`, `_current_value`, `_beta` and `_transitions`. -/
structure SaState where
  nbh : NbhState
  solution : BV × ℝ
  value : ℝ
  beta : ℝ
  transitions : ℤ

open Classical in
/-- The acceptance of the candidate (`lib/hnco/algorithms/local-search/simulated-annealing.cc:87-104`), with `update_solution`
(`lib/hnco/algorithms/algorithm.cc:52-59`). -/
noncomputable def saAccept (value : ℝ) (s : SaState) : Dist SaState :=
  if s.value ≤ value then do
    let nbh ← s.nbh.keep
    pure { s with nbh := nbh, value := value, solution := if s.solution.2 < value then (nbh.origin, value) else s.solution }
  else do
    let b ← Dist.coin (ENNReal.ofReal (Real.exp ((value - s.value) * s.beta)))
    if b then do
      let nbh ← s.nbh.keep
      pure { s with nbh := nbh, value := value, transitions := s.transitions + 1 }
    else do
      let nbh ← s.nbh.forget
      pure { s with nbh := nbh }

/-- The cooling schedule (`lib/hnco/algorithms/local-search/simulated-annealing.cc:107-110`). -/
noncomputable def saCool (p : SaParams) (s : SaState) : SaState :=
  if s.transitions = p.numTransitions then { s with transitions := 0, beta := s.beta * p.betaRatio } else s

/-- `SimulatedAnnealing::iterate` (`lib/hnco/algorithms/local-search/simulated-annealing.cc:78-112`). -/
noncomputable def saIterate (p : SaParams) (f : Fn ℝ) (s : SaState) : Dist SaState := do
  let nbh ← s.nbh.propose p.sampleBits
  let value ← Dist.lift (f.eval nbh.candidate)
  let s ← saAccept value { s with nbh := nbh }
  pure (saCool p s)

/-! ## Gibbs sampler -/

/-- `update(i)` of both Gibbs samplers (`lib/hnco/algorithms/walsh-moment/gibbs-sampler.cc:39-65`, `94-120`), with the logistic
function of the code (`lib/hnco/util.hh:97-105`). -/
noncomputable def gibbsUpdate (m : Moment) (state : BV) (i : ℕ) : Dist BV := do
  Dist.lift (assert (decide (i < state.length)))
  let delta ← Dist.lift (gibbsDelta m state i)
  let b ← Dist.coin (ENNReal.ofReal (logisticReal delta))
  if b then Dist.lift (vset state i true) else Dist.lift (vset state i false)

/-- `sample_asynchronous` (`lib/hnco/algorithms/walsh-moment/bm-pbil.hh:229-232`); `_choose_bit` is uniform on `0 .. n - 1`
(`lib/hnco/algorithms/walsh-moment/bm-pbil.hh:259`). -/
noncomputable def bmAsynchronous (numSteps : ℤ) (m : Moment) (state : BV) : Dist BV :=
  Dist.forRange 0 numSteps.toNat (fun _ x => do
    let i ← Dist.uniformInt 0 (state.length - 1)
    gibbsUpdate m x i) state

/-- `perm_random` (`lib/hnco/permutation.hh:60-64`) on a vector of size `n`: after `std::shuffle`
(`lib/hnco/permutation.hh:54`) all permutations are equally likely. -/
noncomputable def permRandom (n : ℕ) : Dist (List ℕ) := ⟨fun s =>
  if s.Perm (List.range n) then ((n.factorial : ℕ) : ℝ≥0∞)⁻¹ else 0⟩

/-- One cycle of `sample_asynchronous_full_scan` (`lib/hnco/algorithms/walsh-moment/bm-pbil.hh:237-239`). -/
noncomputable def bmCycle (m : Moment) (state : BV) : Dist BV := do
  let permutation ← permRandom state.length
  Dist.forRange 0 permutation.length (fun k x => do
    let i ← Dist.lift (vget permutation k)
    gibbsUpdate m x i) state

/-- `sample_asynchronous_full_scan` (`lib/hnco/algorithms/walsh-moment/bm-pbil.hh:235-241`). -/
noncomputable def bmFullScan (numCycles : ℤ) (m : Moment) (state : BV) : Dist BV :=
  Dist.forRange 0 numCycles.toNat (fun _ x => bmCycle m x) state

/-- `update_sync` (`lib/hnco/algorithms/walsh-moment/gibbs-sampler.cc:67-86`, `122-141`) from a vector `_pv` of the size of the
state, all components of which are assigned. -/
noncomputable def gibbsSync (m : Moment) (state : BV) : Dist BV := do
  let pv ← Dist.forRange 0 state.length (fun i pv => do
    let delta ← Dist.lift (gibbsSyncDelta m state i)
    Dist.lift (vset pv i (ENNReal.ofReal (logisticReal delta)))) (List.replicate state.length 0)
  pvSample pv state

/-- `sample_synchronous` (`lib/hnco/algorithms/walsh-moment/bm-pbil.hh:244-247`). -/
noncomputable def bmSynchronous (numCycles : ℤ) (m : Moment) (state : BV) : Dist BV :=
  Dist.forRange 0 numCycles.toNat (fun _ x => gibbsSync m x) state

end Hnco.Prob
