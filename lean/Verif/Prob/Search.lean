import Verif.Prob.Samplers
import Verif.Algorithm.LocalSearch
import Verif.Function.Base

/-!
# Random search and random local search, with probabilities

Second model of `lib/hnco/algorithms/random-search.cc`, `lib/hnco/algorithms/local-search/random-local-search.cc` and
`lib/hnco/algorithms/evolutionary-algorithms/one-plus-one-ea.hh`, in which runs have probabilities.  Evaluations are not
interrupted.
-/

namespace Hnco.Prob

open Outcome
open scoped ENNReal

variable {K S : Type}

/-! ## The loop of iterative algorithms -/

/-- `for (_iteration = 0; _iteration < _num_iterations; _iteration++)` with the break on `_last_iteration`
(`lib/hnco/algorithms/iterative-algorithm.cc:33-39`). -/
noncomputable def boundedLoop (last : S → Bool) (iterate : S → Dist S) : ℕ → S → Dist S
  | 0, s => pure s
  | k + 1, s => if last s then pure s else do
    let s ← iterate s
    boundedLoop last iterate k s

/-- At most `k` iterations of the indefinite loop. -/
noncomputable def indefiniteGo (last : S → Bool) (iterate : S → Dist S) : ℕ → S → Dist S
  | 0, _ => Dist.never
  | k + 1, s => if last s then pure s else do
    let s ← iterate s
    indefiniteGo last iterate k s

/-- `for (_iteration = 0;; _iteration++)` with the break on `_last_iteration`
(`lib/hnco/algorithms/iterative-algorithm.cc:41-47`). -/
noncomputable def indefiniteLoop (last : S → Bool) (iterate : S → Dist S) (s : S) : Dist S := ⟨fun t =>
  ⨆ k, indefiniteGo last iterate k s t⟩

/-- `IterativeAlgorithm::loop` (`lib/hnco/algorithms/iterative-algorithm.cc:27-49`), without the log. -/
noncomputable def loop (init : Dist S) (last : S → Bool) (iterate : S → Dist S) (numIterations : ℤ) : Dist S := do
  let s ← init
  if numIterations > 0 then boundedLoop last iterate numIterations.toNat s else indefiniteLoop last iterate s

/-! ## Random search -/

/-- `Algorithm::random_solution` (`lib/hnco/algorithms/algorithm.cc:28-35`), from a solution `x` of the right size. -/
noncomputable def randomSolution (f : Fn K) (x : BV) : Dist (BV × K) := do
  let x ← bvRandomBits x
  let v ← Dist.lift (f.eval x)
  pure (x, v)

/-- The state of `RandomSearch`: `_candidate` and `_solution` (`lib/hnco/algorithms/random-search.hh:37`,
`lib/hnco/algorithms/algorithm.hh:60`). -/
structure SearchState (K : Type) where
  candidate : BV
  solution : BV × K

/-- `RandomSearch::init` (`lib/hnco/algorithms/random-search.cc:27-33`).  The candidate and the solution have size `n`. -/
noncomputable def searchInit (f : Fn K) (n : ℕ) : Dist (SearchState K) := do
  let s ← randomSolution f (List.replicate n false)
  pure ⟨List.replicate n false, s⟩

/-- `RandomSearch::iterate` (`lib/hnco/algorithms/random-search.cc:36-41`), with `update_solution`
(`lib/hnco/algorithms/algorithm.cc:52-59`, `68-74`). -/
noncomputable def searchIterate [LT K] [DecidableLT K] (f : Fn K) (s : SearchState K) : Dist (SearchState K) := do
  let x ← bvRandomBits s.candidate
  let v ← Dist.lift (f.eval x)
  pure ⟨x, if s.solution.2 < v then (x, v) else s.solution⟩

/-- `RandomSearch::maximize` (`lib/hnco/algorithms/iterative-algorithm.cc:52-57`) and the solution. -/
noncomputable def randomSearch [LT K] [DecidableLT K] (f : Fn K) (n : ℕ) (numIterations : ℤ) : Dist (BV × K) := do
  let s ← loop (searchInit f n) (fun _ => false) (searchIterate f) numIterations
  pure s.solution

/-! ## Random local search -/

/-- The state of `RandomLocalSearch`: `_solution`, the vectors and the flipped bits of its neighbourhood
(`lib/hnco/neighborhoods/neighborhood.hh:65-75`), `_num_failures` and `_last_iteration`. -/
structure RlsState (K : Type) where
  solution : BV × K
  origin : BV
  candidate : BV
  flipped : List ℕ
  numFailures : ℕ
  last : Bool

/-- Parameters of `RandomLocalSearch` (`lib/hnco/algorithms/local-search/random-local-search.hh:48-58`); `sampleBits` is the
one of its neighbourhood. -/
structure RlsParams (K : Type) extends StartParams where
  sampleBits : Dist (List ℕ)
  compare : K → K → Bool
  patience : ℤ
  incremental : Bool

/-- `RandomLocalSearch::init` (`lib/hnco/algorithms/local-search/random-local-search.cc:33-38`,
`lib/hnco/algorithms/local-search/local-search-algorithm.hh:57-67`, `lib/hnco/neighborhoods/neighborhood.hh:98-101`). -/
noncomputable def rlsInit (p : RlsParams K) (f : Fn K) (n : ℕ) : Dist (RlsState K) := do
  let s ← (if p.randomInitialization then randomSolution f (List.replicate n false) else do
    let v ← Dist.lift (f.eval p.startingPoint)
    pure (p.startingPoint, v))
  pure ⟨s, s.1, s.1, [], 0, false⟩

/-- `Neighborhood::propose` (`lib/hnco/neighborhoods/neighborhood.hh:113-117`). -/
noncomputable def propose (p : RlsParams K) (s : RlsState K) : Dist (RlsState K) := do
  Dist.lift (assert (s.candidate == s.origin))
  let flipped ← p.sampleBits
  let candidate ← Dist.lift (bvFlipSparse s.candidate flipped)
  pure { s with flipped := flipped, candidate := candidate }

/-- `Neighborhood::keep` (`lib/hnco/neighborhoods/neighborhood.hh:120-123`). -/
noncomputable def keep (s : RlsState K) : Dist (RlsState K) := do
  let origin ← Dist.lift (bvFlipSparse s.origin s.flipped)
  Dist.lift (assert (s.candidate == origin))
  pure { s with origin := origin }

/-- `Neighborhood::forget` (`lib/hnco/neighborhoods/neighborhood.hh:126-129`). -/
noncomputable def forget (s : RlsState K) : Dist (RlsState K) := do
  let candidate ← Dist.lift (bvFlipSparse s.candidate s.flipped)
  Dist.lift (assert (candidate == s.origin))
  pure { s with candidate := candidate }

/-- The end of both kinds of iterations (`lib/hnco/algorithms/local-search/random-local-search.cc:63-79`, `96-112`). -/
noncomputable def decideMove (p : RlsParams K) (value : K) (s : RlsState K) : Dist (RlsState K) := do
  let s ← (if p.compare value s.solution.2 then do
      let s ← keep s
      pure { s with solution := (s.solution.1, value), numFailures := 0 }
    else do
      let s ← forget s
      pure { s with numFailures := s.numFailures + 1 } : Dist (RlsState K))
  if p.patience > 0 ∧ (s.numFailures : ℤ) = p.patience then
    pure { s with solution := (s.origin, s.solution.2), last := true }
  else pure s

/-- `RandomLocalSearch::iterate`, `iterate_full` and `iterate_incremental`
(`lib/hnco/algorithms/local-search/random-local-search.cc:41-51`, `54-81`, `84-114`). -/
noncomputable def rlsIterate (p : RlsParams K) (f : Fn K) (s : RlsState K) : Dist (RlsState K) := do
  let s ← propose p s
  let value ← (if p.incremental && f.hasInc then Dist.lift (f.evalInc s.origin s.solution.2 s.flipped)
    else Dist.lift (f.eval s.candidate))
  decideMove p value s

/-- `RandomLocalSearch::maximize` (`lib/hnco/algorithms/iterative-algorithm.cc:52-57`), `finalize`
(`lib/hnco/algorithms/local-search/random-local-search.cc:117-124`) and the solution. -/
noncomputable def randomLocalSearch (p : RlsParams K) (f : Fn K) (n : ℕ) (numIterations : ℤ) : Dist (BV × K) := do
  let s ← loop (rlsInit p f n) (fun s => s.last) (rlsIterate p f) numIterations
  pure (s.origin, s.solution.2)

/-- The solution after the initialization and `t` iterations: what is returned when the number of iterations is set to `t`, except
that zero means an indefinite number of iterations (`lib/hnco/algorithms/iterative-algorithm.cc:32`, and `rls_after`). -/
noncomputable def rlsAfter (p : RlsParams K) (f : Fn K) (n t : ℕ) : Dist (BV × K) := do
  let s ← rlsInit p f n
  let s ← boundedLoop (fun s => s.last) (rlsIterate p f) t s
  pure (s.origin, s.solution.2)

/-! ## (1+1) evolutionary algorithm -/

/-- Parameters of `OnePlusOneEa` (`lib/hnco/algorithms/evolutionary-algorithms/one-plus-one-ea.hh:58-68`). -/
structure EaParams where
  numIterations : ℤ
  mutationRate : ℝ≥0∞
  allowNoMutation : Bool
  incremental : Bool

/-- `OnePlusOneEa::OnePlusOneEa` (`lib/hnco/algorithms/evolutionary-algorithms/one-plus-one-ea.hh:58-68`, `80-84`). -/
noncomputable def EaParams.new (n : ℕ) : EaParams where
  numIterations := 0
  mutationRate := (n : ℝ≥0∞)⁻¹
  allowNoMutation := false
  incremental := false

/-- The neighbourhood as it is set up by `OnePlusOneEa::maximize`
(`lib/hnco/algorithms/evolutionary-algorithms/one-plus-one-ea.hh:82`, `88-89`). -/
noncomputable def eaNeighborhood (q : EaParams) (n : ℕ) : StandardBitMutation :=
  ((StandardBitMutation.new (n : ℝ≥0∞)⁻¹).setMutationRate n q.mutationRate).setAllowNoMutation q.allowNoMutation

/-- The random local search as it is set up by `OnePlusOneEa::maximize`
(`lib/hnco/algorithms/evolutionary-algorithms/one-plus-one-ea.hh:83`, `90-92`); the default comparison
(`lib/hnco/algorithms/local-search/random-local-search.hh:49`) and initialization
(`lib/hnco/algorithms/local-search/local-search-algorithm.hh:48`, `76`) have not been changed. -/
noncomputable def eaSearch [LE K] [DecidableLE K] (q : EaParams) (n : ℕ) : RlsParams K where
  randomInitialization := true
  startingPoint := List.replicate n false
  sampleBits := (eaNeighborhood q n).sampleBits n
  compare := fun a b => decide (b ≤ a)
  patience := 0
  incremental := q.incremental

/-- `OnePlusOneEa::maximize` and `finalize` (`lib/hnco/algorithms/evolutionary-algorithms/one-plus-one-ea.hh:87-100`), and the
solution. -/
noncomputable def onePlusOneEa [LE K] [DecidableLE K] (q : EaParams) (f : Fn K) (n : ℕ) : Dist (BV × K) :=
  randomLocalSearch (eaSearch q n) f n q.numIterations

end Hnco.Prob
