import Verif.Population.Model
import Verif.Neighborhood.Model
import Verif.Algorithm.Alg

/-!
# Model of probability vectors and of the algorithms which use them

Models `lib/hnco/algorithms/probability-vector`: `probability-vector.cc`, `probability-vector.hh`, `compact-ga.cc`,
`mmas.cc`, `pbil.cc`, `nps-pbil.cc` and `umda.cc`.  Simplification: `double` is `Rat`.  Not modelled: `pv_entropy`,
logging.
-/

namespace Hnco

open Outcome

variable {K ρ : Type}

/-! ## Probability vectors -/

/-- `pv_sample` (`probability-vector.cc:45-56`). -/
def pvSample (pv : List Rat) (bv : BV) : Sim BV := do
  Sim.lift (assert (bv.length == pv.length))
  Sim.forRange 0 bv.length (fun i bv => do
    let u ← Sim.uniform
    let p ← Sim.lift (vget pv i)
    Sim.lift (vset bv i (decide (u < p)))) bv

/-- `pv_uniform` (`probability-vector.hh:55`). -/
def pvUniform (pv : List Rat) : List Rat := List.replicate pv.length (1 / 2)

/-- `pv_init` (`probability-vector.hh:62`). -/
def pvInit (pv : List Rat) : List Rat := List.replicate pv.length 0

/-- `pv_add` (`probability-vector.cc:58-66`). -/
def pvAdd (pv : List Rat) (bv : BV) : Outcome (List Rat) := do
  assert (bv.length == pv.length)
  forRange 0 pv.length (fun i pv => do
    let b ← vget bv i
    let p ← vget pv i
    if b then vset pv i (p + 1) else ok pv) pv

/-- `pv_add` with a weight (`probability-vector.cc:68-74`); the bit is converted to 0 or 1. -/
def pvAddWeighted (pv : List Rat) (bv : BV) (weight : Rat) : Outcome (List Rat) := do
  assert (bv.length == pv.length)
  forRange 0 pv.length (fun i pv => do
    let b ← vget bv i
    let p ← vget pv i
    vset pv i (p + weight * (if b then 1 else 0))) pv

/-- `pv_average` (`probability-vector.cc:76-81`).  A division by zero, which gives NaN, is outside of the model and is
treated like undefined behaviour. -/
def pvAverage (pv : List Rat) (count : Int) : Outcome (List Rat) :=
  forRange 0 pv.length (fun i pv => do
    let p ← vget pv i
    assert (count != 0)
    vset pv i (p / count)) pv

/-- `pv_update(pv, x, rate)` for a probability vector `x` (`probability-vector.hh:96-103`). -/
def pvUpdate (pv x : List Rat) (rate : Rat) : Outcome (List Rat) := do
  assert (x.length == pv.length)
  forRange 0 pv.length (fun i pv => do
    let a ← vget x i
    let p ← vget pv i
    vset pv i (p + rate * (a - p))) pv

/-- `pv_update(pv, x, rate)` for a bit vector `x` (`probability-vector.hh:96-103`); bits are converted to 0 or 1. -/
def pvUpdateBits (pv : List Rat) (x : BV) (rate : Rat) : Outcome (List Rat) := do
  assert (x.length == pv.length)
  forRange 0 pv.length (fun i pv => do
    let a ← vget x i
    let p ← vget pv i
    vset pv i (p + rate * ((if a then 1 else 0) - p))) pv

/-- `pv_update(pv, x, y, rate)` (`probability-vector.cc:83-91`). -/
def pvUpdateBetween (pv x y : List Rat) (rate : Rat) : Outcome (List Rat) := do
  assert (x.length == pv.length)
  assert (y.length == pv.length)
  forRange 0 pv.length (fun i pv => do
    let a ← vget x i
    let b ← vget y i
    let p ← vget pv i
    vset pv i (p + rate * (a - b))) pv

/-- `pv_bound` (`probability-vector.cc:93-100`). -/
def pvBound (pv : List Rat) (lower upper : Rat) : Outcome (List Rat) :=
  forRange 0 pv.length (fun i pv => do
    let p ← vget pv i
    let pv ← vset pv i (min upper p)
    let p ← vget pv i
    vset pv i (max lower p)) pv

/-! ## Algorithms -/

/-- Data members of `PvAlgorithm` (`pv-algorithm.hh:38-44`) and those of the derived class, `rest`. -/
structure PvData (ρ : Type) where
  pv : List Rat
  lower : Rat
  upper : Rat
  rest : ρ

/-- Constructor of `PvAlgorithm` (`pv-algorithm.hh:76-80`); `n = 0` gives infinite bounds and is outside of the model. -/
def pvNew (n : Nat) (rest : ρ) : PvData ρ := ⟨List.replicate n 0, 1 / (n : Rat), 1 - 1 / (n : Rat), rest⟩

/-- `random_solution(); pv_uniform(_pv);` (`compact-ga.cc:36-37`, `pbil.cc:34-35`, `nps-pbil.cc:33-34`,
`umda.cc:34-35`). -/
def pvStart (env : Env K) : Alg (AlgState K (PvData ρ)) Unit := do
  randomSolution env
  Alg.modify (fun s => { s with data := { s.data with pv := pvUniform s.data.pv } })

/-! ### Compact GA -/

/-- Parameters: `_learning_rate` (`compact-ga.hh:53`) and whether assertions are compiled. -/
structure CompactParams where
  rate : Rat
  debug : Bool

/-- The assertion of `iterate` (`compact-ga.cc:58`), which evaluates both candidates again. -/
def compactCheck [LE K] [DecidableLE K] (env : Env K) (debug : Bool) (best worst : BV) :
    Alg (AlgState K (PvData ρ)) Unit :=
  if debug then do
    let a ← evaluate env best
    let b ← evaluate env worst
    Alg.lift (assert (decide (b ≤ a)))
  else pure ()

/-- The loop of `iterate` (`compact-ga.cc:61-67`). -/
def compactMove (rate : Rat) (best worst : BV) (pv : List Rat) : Outcome (List Rat) :=
  forRange 0 pv.length (fun i pv => do
    let a ← vget best i
    let b ← vget worst i
    let p ← vget pv i
    if a != b then vset pv i (if a then p + rate else p - rate) else ok pv) pv

/-- The end of `iterate` (`compact-ga.cc:60-69`). -/
def compactLearn [LE K] [DecidableLE K] (env : Env K) (q : CompactParams) (best worst : BV) :
    Alg (AlgState K (PvData ρ)) Unit := do
  compactCheck env q.debug best worst
  let s ← Alg.get
  let pv ← Alg.lift (compactMove q.rate best worst s.data.pv)
  let pv ← Alg.lift (pvBound pv s.data.lower s.data.upper)
  Alg.modify (fun s => { s with data := { s.data with pv := pv } })

/-- `CompactGa::iterate` (`compact-ga.cc:40-70`). -/
def compactIterate [LT K] [DecidableLT K] [LE K] [DecidableLE K] (env : Env K) (q : CompactParams) :
    Alg (AlgState K (PvData (BV × BV))) Unit := do
  let s ← Alg.get
  let x ← Alg.sim (pvSample s.data.pv s.data.rest.1)
  let y ← Alg.sim (pvSample s.data.pv s.data.rest.2)
  Alg.modify (fun s => { s with data := { s.data with rest := (x, y) } })
  let v ← evaluate env x
  let w ← evaluate env y
  if v < w then do
    updateSolution y w
    compactLearn env q y x
  else do
    updateSolution x v
    compactLearn env q x y

/-- `CompactGa` as an iterative algorithm; constructor: `pvNew n (x, y)` with two vectors of size `n`
(`compact-ga.hh:71-73`). -/
def compactMaximize [LT K] [DecidableLT K] [LE K] [DecidableLE K] (env : Env K) (q : CompactParams) (numIterations : Int)
    (fuel : Nat) : Alg (AlgState K (PvData (BV × BV))) Unit :=
  algLoop (pvStart env) (compactIterate env q) numIterations fuel

/-! ### Max-min ant system -/

/-- Parameters (`mmas.hh:54-58`). -/
structure MmasParams (K : Type) where
  compare : K → K → Bool
  rate : Rat

/-- Update of the probability vector (`mmas.cc:37-38`, `52-53`). -/
def mmasLearn (rate : Rat) : Alg (AlgState K (PvData BV)) Unit := do
  let s ← Alg.get
  let pv ← Alg.lift (pvUpdateBits s.data.pv s.solution.1 rate)
  let pv ← Alg.lift (pvBound pv s.data.lower s.data.upper)
  Alg.modify (fun s => { s with data := { s.data with pv := pv } })

/-- `Mmas::init` (`mmas.cc:28-39`). -/
def mmasInit (env : Env K) (q : MmasParams K) : Alg (AlgState K (PvData BV)) Unit := do
  pvStart env
  mmasLearn q.rate

/-- `Mmas::iterate` (`mmas.cc:41-54`). -/
def mmasIterate (env : Env K) (q : MmasParams K) : Alg (AlgState K (PvData BV)) Unit := do
  let s ← Alg.get
  let x ← Alg.sim (pvSample s.data.pv s.data.rest)
  Alg.modify (fun s => { s with data := { s.data with rest := x } })
  let v ← evaluate env x
  Alg.modify (fun s => if q.compare v s.solution.2 then { s with solution := (x, v) } else s)
  mmasLearn q.rate

/-- `Mmas` as an iterative algorithm. -/
def mmasMaximize (env : Env K) (q : MmasParams K) (numIterations : Int) (fuel : Nat) :
    Alg (AlgState K (PvData BV)) Unit :=
  algLoop (mmasInit env q) (mmasIterate env q) numIterations fuel

/-! ### Sampling of a population and mean of the selected individuals -/

/-- The loop which samples a population (`pbil.cc:42-43`, `nps-pbil.cc:41-42`, `umda.cc:42-43`). -/
def Pop.sample (sampler : BV → Sim BV) (p : Pop K) : Sim (Pop K) :=
  Sim.forRange 0 p.size (fun i (p : Pop K) => do
    let x ← Sim.lift (vget p.bvs i)
    let y ← sampler x
    let bvs ← Sim.lift (vset p.bvs i y)
    pure { p with bvs := bvs }) p

/-- `pv_init(mean); for (...) pv_add(mean, _population.get_best_bv(i)); pv_average(mean, _selection_size);`
(`pbil.cc:55-58`, `nps-pbil.cc:54-57`, `59-62`, `umda.cc:55-58`). -/
def selectionMean (sel : Int) (p : Pop K) (mean : List Rat) : Outcome (List Rat) := do
  let mean ← forRange 0 sel.toNat (fun i mean => do
    let x ← p.bestBv i
    pvAdd mean x) (pvInit mean)
  pvAverage mean sel

/-- Sampling of a population which is a member of the algorithm. -/
def pvSamplePop (L : PopLens (PvData ρ) K) : Alg (AlgState K (PvData ρ)) Unit := do
  let s ← Alg.get
  let p ← Alg.sim ((L.get s.data).sample (pvSample s.data.pv))
  Alg.modify (fun s => { s with data := L.put p s.data })

/-! ### PBIL -/

/-- Data members of `Pbil` (`pbil.hh:46-50`). -/
structure PbilRest (K : Type) where
  population : Pop K
  mean : List Rat

/-- The member `_population` of `Pbil`. -/
def pbilLens (K : Type) : PopLens (PvData (PbilRest K)) K where
  get d := d.rest.population
  put p d := { d with rest := { d.rest with population := p } }
  get_put _ _ := rfl
  put_put _ _ _ := rfl
  put_get _ := rfl

/-- Parameters (`pbil.hh:56-60`, `nps-pbil.hh:60-64`). -/
structure PbilParams where
  selectionSize : Int
  rate : Rat

/-- Constructor (`pbil.hh:79-82`). -/
def pbilNew [Zero K] (n : Nat) (size : Int) : Outcome (PvData (PbilRest K)) := do
  let population ← Pop.new size n
  ok (pvNew n ⟨population, List.replicate n 0⟩)

/-- The end of `Pbil::iterate` (`pbil.cc:55-61`). -/
def pbilLearn (q : PbilParams) : Alg (AlgState K (PvData (PbilRest K))) Unit := do
  let s ← Alg.get
  let mean ← Alg.lift (selectionMean q.selectionSize s.data.rest.population s.data.rest.mean)
  let pv ← Alg.lift (pvUpdate s.data.pv mean q.rate)
  let pv ← Alg.lift (pvBound pv s.data.lower s.data.upper)
  Alg.modify (fun s => { s with data := { s.data with pv := pv, rest := { s.data.rest with mean := mean } } })

/-- `Pbil::iterate` (`pbil.cc:39-63`). -/
def pbilIterate [LT K] [DecidableLT K] (env : Env K) (q : PbilParams) : Alg (AlgState K (PvData (PbilRest K))) Unit := do
  pvSamplePop (pbilLens K)
  popEvaluate env (pbilLens K)
  popSort (pbilLens K)
  popUpdateSolution (pbilLens K)
  pbilLearn q

/-- `Pbil` as an iterative algorithm. -/
def pbilMaximize [LT K] [DecidableLT K] (env : Env K) (q : PbilParams) (numIterations : Int) (fuel : Nat) :
    Alg (AlgState K (PvData (PbilRest K))) Unit :=
  algLoop (pvStart env) (pbilIterate env q) numIterations fuel

/-! ### PBIL with negative and positive selection -/

/-- Data members of `NpsPbil` (`nps-pbil.hh:47-54`). -/
structure NpsRest (K : Type) where
  population : Pop K
  meanBest : List Rat
  meanWorst : List Rat

/-- The member `_population` of `NpsPbil`. -/
def npsLens (K : Type) : PopLens (PvData (NpsRest K)) K where
  get d := d.rest.population
  put p d := { d with rest := { d.rest with population := p } }
  get_put _ _ := rfl
  put_put _ _ _ := rfl
  put_get _ := rfl

/-- Constructor (`nps-pbil.hh:83-87`). -/
def npsNew [Zero K] (n : Nat) (size : Int) : Outcome (PvData (NpsRest K)) := do
  let population ← Pop.new size n
  ok (pvNew n ⟨population, List.replicate n 0, List.replicate n 0⟩)

/-- The end of `NpsPbil::iterate` (`nps-pbil.cc:54-65`): the second mean is also computed with `get_best_bv`. -/
def npsLearn (q : PbilParams) : Alg (AlgState K (PvData (NpsRest K))) Unit := do
  let s ← Alg.get
  let best ← Alg.lift (selectionMean q.selectionSize s.data.rest.population s.data.rest.meanBest)
  let worst ← Alg.lift (selectionMean q.selectionSize s.data.rest.population s.data.rest.meanWorst)
  let pv ← Alg.lift (pvUpdateBetween s.data.pv best worst q.rate)
  let pv ← Alg.lift (pvBound pv s.data.lower s.data.upper)
  Alg.modify (fun s => { s with
    data := { s.data with pv := pv, rest := { s.data.rest with meanBest := best, meanWorst := worst } } })

/-- `NpsPbil::iterate` (`nps-pbil.cc:38-67`). -/
def npsIterate [LT K] [DecidableLT K] (env : Env K) (q : PbilParams) : Alg (AlgState K (PvData (NpsRest K))) Unit := do
  pvSamplePop (npsLens K)
  popEvaluate env (npsLens K)
  popSort (npsLens K)
  popUpdateSolution (npsLens K)
  npsLearn q

/-- `NpsPbil` as an iterative algorithm. -/
def npsMaximize [LT K] [DecidableLT K] (env : Env K) (q : PbilParams) (numIterations : Int) (fuel : Nat) :
    Alg (AlgState K (PvData (NpsRest K))) Unit :=
  algLoop (pvStart env) (npsIterate env q) numIterations fuel

/-! ### UMDA -/

/-- The member `_population` of `Umda` (`umda.hh:47`). -/
def umdaLens (K : Type) : PopLens (PvData (Pop K)) K where
  get d := d.rest
  put p d := { d with rest := p }
  get_put _ _ := rfl
  put_put _ _ _ := rfl
  put_get _ := rfl

/-- Constructor (`umda.hh:73-75`). -/
def umdaNew [Zero K] (n : Nat) (size : Int) : Outcome (PvData (Pop K)) := do
  let population ← Pop.new size n
  ok (pvNew n population)

/-- The end of `Umda::iterate` (`umda.cc:55-59`). -/
def umdaLearn (sel : Int) : Alg (AlgState K (PvData (Pop K))) Unit := do
  let s ← Alg.get
  let pv ← Alg.lift (selectionMean sel s.data.rest s.data.pv)
  let pv ← Alg.lift (pvBound pv s.data.lower s.data.upper)
  Alg.modify (fun s => { s with data := { s.data with pv := pv } })

/-- `Umda::iterate` (`umda.cc:39-61`). -/
def umdaIterate [LT K] [DecidableLT K] (env : Env K) (sel : Int) : Alg (AlgState K (PvData (Pop K))) Unit := do
  pvSamplePop (umdaLens K)
  popEvaluate env (umdaLens K)
  popSort (umdaLens K)
  popUpdateSolution (umdaLens K)
  umdaLearn sel

/-- `Umda` as an iterative algorithm. -/
def umdaMaximize [LT K] [DecidableLT K] (env : Env K) (sel : Int) (numIterations : Int) (fuel : Nat) :
    Alg (AlgState K (PvData (Pop K))) Unit :=
  algLoop (pvStart env) (umdaIterate env sel) numIterations fuel

end Hnco
