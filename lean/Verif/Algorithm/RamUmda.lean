import Verif.Algorithm.ProbabilityVector
import Verif.Map.Model

/-! # Model of UMDA with random affine maps

`lib/hnco/algorithms/probability-vector/ram-umda.{hh,cc}`. -/

namespace Hnco

open Outcome

variable {K : Type}

/-- `TsLengthMode` (`ram-umda.hh:38-53`), and the other values of an `int`. -/
inductive RamLength where
  | constant
  | increasing
  | decreasing
  | uniform
  | geometric
  | reverseGeometric
  | unknown
  deriving DecidableEq

/-- Parameters of `RamUmda` and `RamUmda2` (`ram-umda.hh:103-116`, `160-163`), except `_ts_length`, which changes. -/
structure RamParams where
  selectionSize : Int
  mode : RamLength
  lower : Int
  upper : Int
  period : Int
  parameter : Rat
  crossover : Rat
  latent : Rat

/-- Parameters after construction. -/
def ramDefault : RamParams := ⟨10, .constant, 0, 20, 10000, 1 / 10, 1 / 10, 1 / 2⟩

/-- Members of `RamUmda` and `RamUmda2` (`ram-umda.hh:85-116`, `155`) and the counter `_iteration` of the loop
(`iterative-algorithm.cc:33`).  `_b` and `_c`, which are overwritten before they are read, are local in the model. -/
structure RamRest (K : Type) where
  x : Pop K
  y : Pop K
  map : TsAffine
  inverse : TsAffine
  a : BV
  pvY : List Rat
  length : Int
  iteration : Int

/-- The member `_population_x`. -/
def ramLens (K : Type) : PopLens (PvData (RamRest K)) K where
  get d := d.rest.x
  put p d := { d with rest := { d.rest with x := p } }
  get_put _ _ := rfl
  put_put _ _ _ := rfl
  put_get _ := rfl

/-- Constructors (`ram-umda.hh:57-64`, `153-155`). -/
def ramNew [Zero K] (n : Nat) (size : Int) : Outcome (PvData (RamRest K)) := do
  let x ← Pop.new size n
  let y ← Pop.new size n
  ok (pvNew n ⟨x, y, ⟨[], []⟩, ⟨[], []⟩, List.replicate n false, List.replicate n 0, 10, 0⟩)

/-- `set_ts_length` (`ram-umda.hh:73`). -/
def ramSetLength (length : Int) (d : PvData (RamRest K)) : PvData (RamRest K) :=
  { d with rest := { d.rest with length := length } }

/-- `RamUmda::init` and `RamUmda2::init` (`ram-umda.cc:34-40`, `125-131`). -/
def ramInit (env : Env K) : Alg (AlgState K (PvData (RamRest K))) Unit := do
  randomSolution env
  popRandom (ramLens K)
  Alg.modify (fun s => { s with data := { s.data with rest := { s.data.rest with iteration := 0 } } })

/-- `RamUmda::compute_ts_length` (`ram-umda.cc:77-123`); a geometric variable is any natural number. -/
def ramLength (q : RamParams) (iteration length : Int) : Sim Int :=
  match q.mode with
  | .constant => pure length
  | .increasing => do
    Sim.lift (assert (decide (q.period ≠ 0)))
    pure (min (if (iteration + 1) % q.period = 0 then length + 1 else length) q.upper)
  | .decreasing => do
    Sim.lift (assert (decide (q.period ≠ 0)))
    pure (max (if (iteration + 1) % q.period = 0 then length - 1 else length) q.lower)
  | .uniform => do
    Sim.lift (assert (decide (q.lower ≤ q.upper)))
    let d ← Sim.draw
    pure (q.lower + (d : Int) % (q.upper - q.lower + 1))
  | .geometric => do
    Sim.lift (assert (decide (0 < q.parameter ∧ q.parameter < 1)))
    let d ← Sim.draw
    pure (min (d : Int) q.upper)
  | .reverseGeometric => do
    Sim.lift (assert (decide (0 < q.parameter ∧ q.parameter < 1)))
    let d ← Sim.draw
    pure (max (q.upper - (d : Int)) q.lower)
  | .unknown => Sim.lift (throw .runtimeError)

/-- `compute_ts_length();` and the random maps (`ram-umda.cc:53-56`, `151-154`, `transvection.cc:175`). -/
def ramMaps (q : RamParams) (n : Nat) (r : RamRest K) : Sim (RamRest K) := do
  let length ← ramLength q r.iteration r.length
  Sim.lift (assert (decide (0 ≤ length)))
  let map ← tsAffineRandom r.map n length.toNat .unconstrained
  let inverse ← Sim.lift (tsAffineInvert map)
  pure { r with length := length, map := map, inverse := inverse }

/-- Images of the selected individuals (`ram-umda.cc:59-60`, `157-158`). -/
def ramImages (sel : Int) (r : RamRest K) : Outcome (Pop K) :=
  forRange 0 sel.toNat (fun i y => do
    let x ← r.x.bestBv i
    let output ← vget y.bvs i
    let output ← tsAffineMap r.map x output
    let bvs ← vset y.bvs i output
    ok { y with bvs := bvs }) r.y

/-- `pv_init(pv); for (...) pv_add(pv, bvs[i]); pv_average(pv, _selection_size); pv_bound(pv, _lower_bound, _upper_bound);`
(`ram-umda.cc:63-67`, `144-148`, `161-165`). -/
def ramMean (sel : Int) (bvs : List BV) (lower upper : Rat) (pv : List Rat) : Outcome (List Rat) := do
  let pv ← forRange 0 sel.toNat (fun i pv => do
    let x ← vget bvs i
    pvAdd pv x) (pvInit pv)
  let pv ← pvAverage pv sel
  pvBound pv lower upper

/-- A new individual of `RamUmda` (`ram-umda.cc:72-73`): also the new value of `_a`. -/
def ramSampleOne (pv : List Rat) (inverse : TsAffine) (a output : BV) : Sim (BV × BV) := do
  let a ← pvSample pv a
  let output ← Sim.lift (tsAffineMap inverse a output)
  pure (a, output)

/-- The new population (`ram-umda.cc:70-74`, `168-184`). -/
def ramPopulation (sampler : BV → BV → Sim (BV × BV)) (a : BV) (p : Pop K) : Sim (BV × Pop K) :=
  Sim.forRange 0 p.size (fun i (s : BV × Pop K) => do
    let output ← Sim.lift (vget s.2.bvs i)
    let r ← sampler s.1 output
    let bvs ← Sim.lift (vset s.2.bvs i r.2)
    pure (r.1, { s.2 with bvs := bvs })) (a, p)

/-- The end of `RamUmda::iterate` (`ram-umda.cc:53-74`). -/
def ramLearn (q : RamParams) : Alg (AlgState K (PvData (RamRest K))) Unit := do
  let s ← Alg.get
  let r ← Alg.sim (ramMaps q s.solution.1.length s.data.rest)
  let y ← Alg.lift (ramImages q.selectionSize r)
  let pv ← Alg.lift (ramMean q.selectionSize y.bvs s.data.lower s.data.upper s.data.pv)
  let t ← Alg.sim (ramPopulation (ramSampleOne pv r.inverse) r.a r.x)
  Alg.modify (fun s => { s with data := { s.data with pv := pv, rest := { r with y := y, a := t.1, x := t.2, iteration := r.iteration + 1 } } })

/-- `RamUmda::iterate` (`ram-umda.cc:42-75`). -/
def ramIterate [LT K] [DecidableLT K] (env : Env K) (q : RamParams) : Alg (AlgState K (PvData (RamRest K))) Unit := do
  popEvaluate env (ramLens K)
  popSort (ramLens K)
  popUpdateSolution (ramLens K)
  ramLearn q

/-- `RamUmda` as an iterative algorithm. -/
def ramMaximize [LT K] [DecidableLT K] (env : Env K) (q : RamParams) (numIterations : Int) (fuel : Nat) :
    Alg (AlgState K (PvData (RamRest K))) Unit :=
  algLoop (ramInit env) (ramIterate env q) numIterations fuel

/-- A new individual of `RamUmda2` (`ram-umda.cc:170-183`). -/
def ram2SampleOne (q : RamParams) (pv pvY : List Rat) (inverse : TsAffine) (a output : BV) : Sim (BV × BV) := do
  let u ← Sim.uniform
  if u < q.crossover then do
    let a ← pvSample pvY a
    let b ← Sim.lift (tsAffineMap inverse a output)
    let c ← pvSample pv output
    let output ← uniformRecombine b c output
    pure (a, output)
  else do
    let v ← Sim.uniform
    if v < q.latent then do
      let a ← pvSample pvY a
      let output ← Sim.lift (tsAffineMap inverse a output)
      pure (a, output)
    else do
      let output ← pvSample pv output
      pure (a, output)

/-- The end of `RamUmda2::iterate` (`ram-umda.cc:144-184`): the probability vector in the solution space is computed with
`_population_x.bvs[i]`. -/
def ram2Learn (q : RamParams) : Alg (AlgState K (PvData (RamRest K))) Unit := do
  let s ← Alg.get
  let pv ← Alg.lift (ramMean q.selectionSize s.data.rest.x.bvs s.data.lower s.data.upper s.data.pv)
  let r ← Alg.sim (ramMaps q s.solution.1.length s.data.rest)
  let y ← Alg.lift (ramImages q.selectionSize r)
  let pvY ← Alg.lift (ramMean q.selectionSize y.bvs s.data.lower s.data.upper r.pvY)
  let t ← Alg.sim (ramPopulation (ram2SampleOne q pv pvY r.inverse) r.a r.x)
  Alg.modify (fun s => { s with data := { s.data with pv := pv, rest := { r with y := y, a := t.1, x := t.2, pvY := pvY, iteration := r.iteration + 1 } } })

/-- `RamUmda2::iterate` (`ram-umda.cc:133-185`). -/
def ram2Iterate [LT K] [DecidableLT K] (env : Env K) (q : RamParams) : Alg (AlgState K (PvData (RamRest K))) Unit := do
  popEvaluate env (ramLens K)
  popSort (ramLens K)
  popUpdateSolution (ramLens K)
  ram2Learn q

/-- `RamUmda2` as an iterative algorithm. -/
def ram2Maximize [LT K] [DecidableLT K] (env : Env K) (q : RamParams) (numIterations : Int) (fuel : Nat) :
    Alg (AlgState K (PvData (RamRest K))) Unit :=
  algLoop (ramInit env) (ram2Iterate env q) numIterations fuel

end Hnco
