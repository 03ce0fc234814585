import Verif.Prob.Search
import Verif.Algorithm.ProbabilityVector
import Verif.Algorithm.Evolutionary

/-!
# Algorithms with a probability vector or with populations, with probabilities

Second model of `lib/hnco/algorithms/probability-vector` (`compact-ga.cc`, `mmas.cc`, `pbil.cc`, `nps-pbil.cc`, `umda.cc`) and
of `lib/hnco/algorithms/evolutionary-algorithms` (`mu-comma-lambda-ea.cc`, `mu-plus-lambda-ea.cc`, `genetic-algorithm.cc`), in
which runs have probabilities.  What draws nothing is taken from the first model.  Probability vectors are sampled, and
vectors are mutated and recombined, with the laws of `Verif/Prob/Samplers.lean`.  How populations are sorted and how
tournaments are drawn is left open: the law is any one which only gives what the first model may give (`Choices`,
`Choices.Valid`).  Evaluations are not interrupted, and populations are evaluated one vector after the other.
-/

namespace Hnco.Prob

open Outcome
open scoped ENNReal

variable {K ρ τ : Type}

/-! ## What is left open -/

/-- A law for a computation of the first model: it always returns, and only what some draws give. -/
structure Follows {α : Type} (d : Dist α) (m : Sim α) : Prop where
  total : d.total = 1
  given : ∀ a, d a ≠ 0 → ∃ draws rest, m draws = .ok a rest

/-- Laws for what depends on `perm_shuffle`, `std::sort` and `std::partial_sort`: `Population::sort`
(`lib/hnco/algorithms/population.hh:89-93`), `CommaSelection::select` and `PlusSelection::select`
(`lib/hnco/algorithms/evolutionary-algorithms/selection.hh:62-69`, `106-122`), `TournamentSelection::init` and `select`
(`lib/hnco/multiobjective/algorithms/random-selection.hh:88-92`, `95-114`). -/
structure Choices (K : Type) where
  sort : Pop K → Dist (Pop K)
  comma : Pop K → Pop K → Dist (Pop K × Pop K)
  plus : Pop K → Pop K → Pop K → Dist (Pop K × Pop K × Pop K)
  start : Tournament → Dist Tournament
  select : Pop K → Tournament → Dist (ℕ × BV × Tournament)

/-! ## Populations -/

/-- `Population::random` (`lib/hnco/algorithms/population.cc:35-40`). -/
noncomputable def popRandom (p : Pop K) : Dist (Pop K) :=
  Dist.forRange 0 p.size (fun i (p : Pop K) => do
    let x ← Dist.lift (vget p.bvs i)
    let y ← bvRandomBits x
    let bvs ← Dist.lift (vset p.bvs i y)
    pure { p with bvs := bvs }) p

/-- `Population::evaluate` (`lib/hnco/algorithms/population.cc:42-50`). -/
def popEvaluate (f : Fn K) (p : Pop K) : Outcome (Pop K) := do
  assert (p.bvs.length == p.values.length)
  forRange 0 p.bvs.length (fun i (p : Pop K) => do
    let x ← vget p.bvs i
    let v ← f.eval x
    let values ← vset p.values i v
    ok { p with values := values }) p

/-- `update_solution(bv, value)` (`lib/hnco/algorithms/algorithm.cc:52-59`, `68-74`). -/
def updateSolution [LT K] [DecidableLT K] (s : BV × K) (x : BV) (v : K) : BV × K := if s.2 < v then (x, v) else s

/-- `update_solution(population.get_best_bv(), population.get_best_value())`, as in
`lib/hnco/algorithms/probability-vector/pbil.cc:52-53`. -/
def popUpdateSolution [LT K] [DecidableLT K] (s : BV × K) (p : Pop K) : Outcome (BV × K) := do
  let x ← p.bestBv 0
  let v ← p.bestValue 0
  ok (updateSolution s x v)

/-- `set_solution(population.get_best_bv(), population.get_best_value())`, as in
`lib/hnco/algorithms/evolutionary-algorithms/mu-plus-lambda-ea.cc:41-42`. -/
def popSetSolution (p : Pop K) : Outcome (BV × K) := do
  let x ← p.bestBv 0
  let v ← p.bestValue 0
  ok (x, v)

/-- What is common to all runs: the loop and the solution (`lib/hnco/algorithms/iterative-algorithm.cc:27-57`).
`_last_iteration` is never set by these algorithms. -/
noncomputable def run {S : Type} (solution : S → BV × K) (init : Dist S) (iterate : S → Dist S) (numIterations : ℤ) :
    Dist (BV × K) := do
  let s ← loop init (fun _ => false) iterate numIterations
  pure (solution s)

/-! ## Algorithms with a probability vector -/

/-- The solution, the probability vector and the other data members. -/
structure PvState (K ρ : Type) where
  solution : BV × K
  data : PvData ρ

/-- `pv_sample` (`lib/hnco/algorithms/probability-vector/probability-vector.cc:45-56`). -/
noncomputable def sampleVector (pv : List ℚ) (x : BV) : Dist BV := pvSample (pv.map (fun p : ℚ => ENNReal.ofReal (p : ℝ))) x

/-- `random_solution(); pv_uniform(_pv);` (`lib/hnco/algorithms/probability-vector/compact-ga.cc:36-37`,
`lib/hnco/algorithms/probability-vector/pbil.cc:34-35`, `lib/hnco/algorithms/probability-vector/nps-pbil.cc:33-34`,
`lib/hnco/algorithms/probability-vector/umda.cc:34-35`). -/
noncomputable def pvStart (f : Fn K) (n : ℕ) (d : PvData ρ) : Dist (PvState K ρ) := do
  let s ← randomSolution f (List.replicate n false)
  pure ⟨s, { d with pv := pvUniform d.pv }⟩

/-- The end of `CompactGa::iterate` (`lib/hnco/algorithms/probability-vector/compact-ga.cc:58-69`). -/
def compactLearn [LE K] [DecidableLE K] (f : Fn K) (q : CompactParams) (best worst : BV) (d : PvData ρ) :
    Outcome (PvData ρ) := do
  if q.debug then do
    let a ← f.eval best
    let b ← f.eval worst
    assert (decide (b ≤ a))
  else ok ()
  let pv ← compactMove q.rate best worst d.pv
  let pv ← pvBound pv d.lower d.upper
  ok { d with pv := pv }

/-- `CompactGa::iterate` (`lib/hnco/algorithms/probability-vector/compact-ga.cc:40-70`). -/
noncomputable def compactIterate [LT K] [DecidableLT K] [LE K] [DecidableLE K] (f : Fn K) (q : CompactParams)
    (s : PvState K (BV × BV)) : Dist (PvState K (BV × BV)) := do
  let x ← sampleVector s.data.pv s.data.rest.1
  let y ← sampleVector s.data.pv s.data.rest.2
  let v ← Dist.lift (f.eval x)
  let w ← Dist.lift (f.eval y)
  if v < w then do
    let d ← Dist.lift (compactLearn f q y x { s.data with rest := (x, y) })
    pure ⟨updateSolution s.solution y w, d⟩
  else do
    let d ← Dist.lift (compactLearn f q x y { s.data with rest := (x, y) })
    pure ⟨updateSolution s.solution x v, d⟩

/-- `CompactGa`, from its constructor (`lib/hnco/algorithms/probability-vector/compact-ga.hh:71-73`). -/
noncomputable def compactGa [LT K] [DecidableLT K] [LE K] [DecidableLE K] (f : Fn K) (q : CompactParams) (n : ℕ)
    (numIterations : ℤ) : Dist (BV × K) :=
  run PvState.solution (pvStart f n (pvNew n (List.replicate n false, List.replicate n false))) (compactIterate f q) numIterations

/-- Update of the probability vector (`lib/hnco/algorithms/probability-vector/mmas.cc:37-38`, `52-53`). -/
def mmasLearn (rate : ℚ) (x : BV) (d : PvData ρ) : Outcome (PvData ρ) := do
  let pv ← pvUpdateBits d.pv x rate
  let pv ← pvBound pv d.lower d.upper
  ok { d with pv := pv }

/-- `Mmas::init` (`lib/hnco/algorithms/probability-vector/mmas.cc:28-39`). -/
noncomputable def mmasInit (f : Fn K) (q : MmasParams K) (n : ℕ) : Dist (PvState K BV) := do
  let s ← pvStart f n (pvNew n (List.replicate n false))
  let d ← Dist.lift (mmasLearn q.rate s.solution.1 s.data)
  pure { s with data := d }

/-- `Mmas::iterate` (`lib/hnco/algorithms/probability-vector/mmas.cc:41-54`). -/
noncomputable def mmasIterate (f : Fn K) (q : MmasParams K) (s : PvState K BV) : Dist (PvState K BV) := do
  let x ← sampleVector s.data.pv s.data.rest
  let v ← Dist.lift (f.eval x)
  let solution := if q.compare v s.solution.2 then (x, v) else s.solution
  let d ← Dist.lift (mmasLearn q.rate solution.1 { s.data with rest := x })
  pure ⟨solution, d⟩

/-- `Mmas`. -/
noncomputable def mmas (f : Fn K) (q : MmasParams K) (n : ℕ) (numIterations : ℤ) : Dist (BV × K) :=
  run PvState.solution (mmasInit f q n) (mmasIterate f q) numIterations

/-- Sampling of a population (`lib/hnco/algorithms/probability-vector/pbil.cc:42-43`,
`lib/hnco/algorithms/probability-vector/nps-pbil.cc:41-42`, `lib/hnco/algorithms/probability-vector/umda.cc:42-43`). -/
noncomputable def popSample (sampler : BV → Dist BV) (p : Pop K) : Dist (Pop K) :=
  Dist.forRange 0 p.size (fun i (p : Pop K) => do
    let x ← Dist.lift (vget p.bvs i)
    let y ← sampler x
    let bvs ← Dist.lift (vset p.bvs i y)
    pure { p with bvs := bvs }) p

/-- A generation: sampling, evaluation, sorting and update of the solution
(`lib/hnco/algorithms/probability-vector/pbil.cc:42-53`, `lib/hnco/algorithms/probability-vector/nps-pbil.cc:41-52`,
`lib/hnco/algorithms/probability-vector/umda.cc:42-53`). -/
noncomputable def pvGeneration [LT K] [DecidableLT K] (f : Fn K) (c : Choices K) (pv : List ℚ) (s : BV × K) (p : Pop K) :
    Dist ((BV × K) × Pop K) := do
  let p ← popSample (sampleVector pv) p
  let p ← Dist.lift (popEvaluate f p)
  let p ← c.sort p
  let s ← Dist.lift (popUpdateSolution s p)
  pure (s, p)

/-- The end of `Pbil::iterate` (`lib/hnco/algorithms/probability-vector/pbil.cc:55-61`). -/
def pbilLearn (q : PbilParams) (p : Pop K) (d : PvData (PbilRest K)) : Outcome (PvData (PbilRest K)) := do
  let mean ← selectionMean q.selectionSize p d.rest.mean
  let pv ← pvUpdate d.pv mean q.rate
  let pv ← pvBound pv d.lower d.upper
  ok { d with pv := pv, rest := ⟨p, mean⟩ }

/-- `Pbil::iterate` (`lib/hnco/algorithms/probability-vector/pbil.cc:39-63`). -/
noncomputable def pbilIterate [LT K] [DecidableLT K] (f : Fn K) (c : Choices K) (q : PbilParams) (s : PvState K (PbilRest K)) :
    Dist (PvState K (PbilRest K)) := do
  let r ← pvGeneration f c s.data.pv s.solution s.data.rest.population
  let d ← Dist.lift (pbilLearn q r.2 s.data)
  pure ⟨r.1, d⟩

/-- `Pbil`, with its constructor (`lib/hnco/algorithms/probability-vector/pbil.hh:79-82`). -/
noncomputable def pbil [Zero K] [LT K] [DecidableLT K] (f : Fn K) (c : Choices K) (q : PbilParams) (n : ℕ) (size : ℤ)
    (numIterations : ℤ) : Dist (BV × K) := do
  let d ← Dist.lift (pbilNew n size)
  run PvState.solution (pvStart f n d) (pbilIterate f c q) numIterations

/-- The end of `NpsPbil::iterate` (`lib/hnco/algorithms/probability-vector/nps-pbil.cc:54-65`). -/
def npsLearn (q : PbilParams) (p : Pop K) (d : PvData (NpsRest K)) : Outcome (PvData (NpsRest K)) := do
  let best ← selectionMean q.selectionSize p d.rest.meanBest
  let worst ← selectionMean q.selectionSize p d.rest.meanWorst
  let pv ← pvUpdateBetween d.pv best worst q.rate
  let pv ← pvBound pv d.lower d.upper
  ok { d with pv := pv, rest := ⟨p, best, worst⟩ }

/-- `NpsPbil::iterate` (`lib/hnco/algorithms/probability-vector/nps-pbil.cc:38-67`). -/
noncomputable def npsIterate [LT K] [DecidableLT K] (f : Fn K) (c : Choices K) (q : PbilParams) (s : PvState K (NpsRest K)) :
    Dist (PvState K (NpsRest K)) := do
  let r ← pvGeneration f c s.data.pv s.solution s.data.rest.population
  let d ← Dist.lift (npsLearn q r.2 s.data)
  pure ⟨r.1, d⟩

/-- `NpsPbil`, with its constructor (`lib/hnco/algorithms/probability-vector/nps-pbil.hh:83-87`). -/
noncomputable def npsPbil [Zero K] [LT K] [DecidableLT K] (f : Fn K) (c : Choices K) (q : PbilParams) (n : ℕ) (size : ℤ)
    (numIterations : ℤ) : Dist (BV × K) := do
  let d ← Dist.lift (npsNew n size)
  run PvState.solution (pvStart f n d) (npsIterate f c q) numIterations

/-- The end of `Umda::iterate` (`lib/hnco/algorithms/probability-vector/umda.cc:55-59`). -/
def umdaLearn (sel : ℤ) (p : Pop K) (d : PvData (Pop K)) : Outcome (PvData (Pop K)) := do
  let pv ← selectionMean sel p d.pv
  let pv ← pvBound pv d.lower d.upper
  ok { d with pv := pv, rest := p }

/-- `Umda::iterate` (`lib/hnco/algorithms/probability-vector/umda.cc:39-61`). -/
noncomputable def umdaIterate [LT K] [DecidableLT K] (f : Fn K) (c : Choices K) (sel : ℤ) (s : PvState K (Pop K)) :
    Dist (PvState K (Pop K)) := do
  let r ← pvGeneration f c s.data.pv s.solution s.data.rest
  let d ← Dist.lift (umdaLearn sel r.2 s.data)
  pure ⟨r.1, d⟩

/-- `Umda`, with its constructor (`lib/hnco/algorithms/probability-vector/umda.hh:73-75`). -/
noncomputable def umda [Zero K] [LT K] [DecidableLT K] (f : Fn K) (c : Choices K) (sel : ℤ) (n : ℕ) (size : ℤ)
    (numIterations : ℤ) : Dist (BV × K) := do
  let d ← Dist.lift (umdaNew n size)
  run PvState.solution (pvStart f n d) (umdaIterate f c sel) numIterations

/-! ## Evolutionary algorithms -/

/-- The solution, the parents, the offsprings and the pool of plus selection or the tournament. -/
structure EaState (K τ : Type) where
  solution : BV × K
  parents : Pop K
  offsprings : Pop K
  extra : τ

/-- Parameters of the mutation (`lib/hnco/algorithms/evolutionary-algorithms/mu-plus-lambda-ea.hh:66-70`). -/
structure MutationLaw where
  rate : ℝ≥0∞
  allowNoMutation : Bool

/-- The mutation operator, as it is constructed and set up by `init`
(`lib/hnco/algorithms/evolutionary-algorithms/mu-comma-lambda-ea.cc:34-35`,
`lib/hnco/algorithms/evolutionary-algorithms/mu-plus-lambda-ea.cc:34-35`,
`lib/hnco/algorithms/evolutionary-algorithms/genetic-algorithm.cc:38-39`). -/
noncomputable def MutationLaw.operator (m : MutationLaw) (n : ℕ) : StandardBitMutation :=
  ((StandardBitMutation.new (n : ℝ≥0∞)⁻¹).setMutationRate n m.rate).setAllowNoMutation m.allowNoMutation

/-- Body of the loop which makes offsprings (`lib/hnco/algorithms/evolutionary-algorithms/mu-comma-lambda-ea.cc:49-53`,
`lib/hnco/algorithms/evolutionary-algorithms/mu-plus-lambda-ea.cc:49-53`). -/
noncomputable def makeOffspring (sampleBits : Dist (List ℕ)) (parents : Pop K) (i : ℕ) (offsprings : Pop K) : Dist (Pop K) := do
  let k ← Dist.uniformInt 0 (parents.size - 1)
  let x ← Dist.lift (vget parents.bvs k)
  let y ← mutate sampleBits x
  let bvs ← Dist.lift (vset offsprings.bvs i y)
  pure { offsprings with bvs := bvs }

/-- `MuPlusLambdaEa::init` (`lib/hnco/algorithms/evolutionary-algorithms/mu-plus-lambda-ea.cc:31-43`); also the end of
`GeneticAlgorithm::init` (`lib/hnco/algorithms/evolutionary-algorithms/genetic-algorithm.cc:41-46`). -/
noncomputable def parentsInit (f : Fn K) (c : Choices K) (d : EaData K τ) (extra : τ) : Dist (EaState K τ) := do
  let p ← popRandom d.parents
  let p ← Dist.lift (popEvaluate f p)
  let p ← c.sort p
  let s ← Dist.lift (popSetSolution p)
  pure ⟨s, p, d.offsprings, extra⟩

/-- `MuPlusLambdaEa::iterate` (`lib/hnco/algorithms/evolutionary-algorithms/mu-plus-lambda-ea.cc:46-64`). -/
noncomputable def muPlusIterate [LT K] [DecidableLT K] (f : Fn K) (c : Choices K) (sampleBits : Dist (List ℕ))
    (s : EaState K (Pop K)) : Dist (EaState K (Pop K)) := do
  let o ← Dist.forRange 0 s.offsprings.size (makeOffspring sampleBits s.parents) s.offsprings
  let o ← Dist.lift (popEvaluate f o)
  let r ← c.plus s.parents o s.extra
  let solution ← Dist.lift (popUpdateSolution s.solution r.1)
  pure ⟨solution, r.1, r.2.1, r.2.2⟩

/-- `MuPlusLambdaEa`, with its constructor (`lib/hnco/algorithms/evolutionary-algorithms/mu-plus-lambda-ea.hh:94-101`). -/
noncomputable def muPlusLambdaEa [Zero K] [LT K] [DecidableLT K] (f : Fn K) (c : Choices K) (m : MutationLaw) (n : ℕ)
    (mu lam : ℤ) (numIterations : ℤ) : Dist (BV × K) := do
  let d ← Dist.lift (muPlusNew n mu lam ⟨false, false⟩)
  run EaState.solution (parentsInit f c d d.extra) (muPlusIterate f c ((m.operator n).sampleBits n)) numIterations

/-- `MuCommaLambdaEa::init` (`lib/hnco/algorithms/evolutionary-algorithms/mu-comma-lambda-ea.cc:31-43`). -/
noncomputable def muCommaInit (f : Fn K) (n : ℕ) (d : EaData K Unit) : Dist (EaState K Unit) := do
  let p ← popRandom d.parents
  let s ← randomSolution f (List.replicate n false)
  pure ⟨s, p, d.offsprings, ()⟩

/-- `MuCommaLambdaEa::iterate` (`lib/hnco/algorithms/evolutionary-algorithms/mu-comma-lambda-ea.cc:46-64`). -/
noncomputable def muCommaIterate [LT K] [DecidableLT K] (f : Fn K) (c : Choices K) (sampleBits : Dist (List ℕ))
    (s : EaState K Unit) : Dist (EaState K Unit) := do
  let o ← Dist.forRange 0 s.offsprings.size (makeOffspring sampleBits s.parents) s.offsprings
  let o ← Dist.lift (popEvaluate f o)
  let r ← c.comma s.parents o
  let solution ← Dist.lift (popUpdateSolution s.solution r.1)
  pure ⟨solution, r.1, r.2, ()⟩

/-- `MuCommaLambdaEa`, with its constructor (`lib/hnco/algorithms/evolutionary-algorithms/mu-comma-lambda-ea.hh:94-101`). -/
noncomputable def muCommaLambdaEa [Zero K] [LT K] [DecidableLT K] (f : Fn K) (c : Choices K) (m : MutationLaw) (n : ℕ)
    (mu lam : ℤ) (numIterations : ℤ) : Dist (BV × K) := do
  let d ← Dist.lift (muCommaNew n mu lam ⟨false, false⟩)
  run EaState.solution (muCommaInit f n d) (muCommaIterate f c ((m.operator n).sampleBits n)) numIterations

/-- Parameters of `GeneticAlgorithm` (`lib/hnco/algorithms/evolutionary-algorithms/genetic-algorithm.hh:82-92`). -/
structure GaLaw extends MutationLaw where
  crossover : ℝ≥0∞
  tournamentSize : ℤ

/-- Crossover or selection (`lib/hnco/algorithms/evolutionary-algorithms/genetic-algorithm.cc:56-60`); the first argument
of `recombine` is selected first, which the language does not specify. -/
noncomputable def gaReproduce (c : Choices K) (crossover : ℝ≥0∞) (parents : Pop K) (t : Tournament) (offspring : BV) :
    Dist (Tournament × BV) := do
  let b ← Dist.coin crossover
  if b then do
    let r ← c.select parents t
    let u ← c.select parents r.2.2
    let x ← uniformCrossover r.2.1 u.2.1 offspring
    pure (u.2.2, x)
  else do
    let r ← c.select parents t
    pure (r.2.2, r.2.1)

/-- Body of the loop of `GeneticAlgorithm::iterate` (`lib/hnco/algorithms/evolutionary-algorithms/genetic-algorithm.cc:53-64`). -/
noncomputable def gaOffspring (c : Choices K) (q : GaLaw) (n : ℕ) (parents : Pop K) (i : ℕ) (s : Tournament × Pop K) :
    Dist (Tournament × Pop K) := do
  let old ← Dist.lift (vget s.2.bvs i)
  let r ← gaReproduce c q.crossover parents s.1 old
  let y ← mutate ((q.operator n).sampleBits n) r.2
  let bvs ← Dist.lift (vset s.2.bvs i y)
  pure (r.1, { s.2 with bvs := bvs })

/-- `GeneticAlgorithm::init` (`lib/hnco/algorithms/evolutionary-algorithms/genetic-algorithm.cc:30-47`). -/
noncomputable def gaInit (f : Fn K) (c : Choices K) (q : GaLaw) (d : EaData K Tournament) : Dist (EaState K Tournament) := do
  let t ← Dist.lift (d.extra.setSize d.parents.size q.tournamentSize)
  let t ← c.start t
  parentsInit f c d t

/-- `GeneticAlgorithm::iterate` (`lib/hnco/algorithms/evolutionary-algorithms/genetic-algorithm.cc:50-75`). -/
noncomputable def gaIterate [LT K] [DecidableLT K] (f : Fn K) (c : Choices K) (q : GaLaw) (n : ℕ) (s : EaState K Tournament) :
    Dist (EaState K Tournament) := do
  let o ← Dist.forRange 0 s.offsprings.size (gaOffspring c q n s.parents) (s.extra, s.offsprings)
  let p ← Dist.lift (popEvaluate f o.2)
  let r ← c.comma s.parents p
  let solution ← Dist.lift (popUpdateSolution s.solution r.1)
  pure ⟨solution, r.1, r.2, o.1⟩

/-- `GeneticAlgorithm`, with its constructor (`lib/hnco/algorithms/evolutionary-algorithms/genetic-algorithm.hh:115-122`). -/
noncomputable def geneticAlgorithm [Zero K] [LT K] [DecidableLT K] (f : Fn K) (c : Choices K) (q : GaLaw) (n : ℕ) (mu : ℤ)
    (numIterations : ℤ) : Dist (BV × K) := do
  let d ← Dist.lift (gaNew n mu ⟨false, false⟩)
  run EaState.solution (gaInit f c q d) (gaIterate f c q n) numIterations

end Hnco.Prob
