import Verif.Algorithm.Evolutionary
import Verif.Function.MaxSat

/-!
# Model of the information theoretic evolutionary algorithm

Models `lib/hnco/algorithms/evolutionary-algorithms/it-ea.cc`.  Simplification: `double` is `Rat`.
-/

namespace Hnco

open Outcome

variable {K : Type}

/-- Data members of `InformationTheoreticEa` (`it-ea.hh:96-107`). -/
structure ItData (K : Type) where
  population : Pop K
  masks : List BV
  likelihoods : List Rat
  mutation : Nbh
  params : StandardParams
  center : BV × K
  rate : Rat

/-- The member `_population`. -/
def itLens (K : Type) : PopLens (ItData K) K where
  get d := d.population
  put p d := { d with population := p }
  get_put _ _ := rfl
  put_put _ _ _ := rfl
  put_get _ := rfl

/-- Parameters (`it-ea.hh:109-131`); `belowSqrt` stands for the test in `set_mutation_rate`, `uniform` for the numbers
drawn by `bv_random`. -/
structure ItParams where
  selectionSize : Nat
  learningRate : Rat
  rateInit : Rat
  rateMin : Rat
  rateMax : Rat
  initialWeight : Nat
  replacement : Nat
  allowNoMutation : Bool
  belowSqrt : Rat → Bool
  uniform : Nat → Nat → Rat

/-- `set_selection_size` (`it-ea.hh:51-55`): its assertions. -/
def setSelectionSize (size n : Int) : Outcome Nat := do
  assert (decide (n ≥ 1))
  assert (decide (n < size))
  ok n.toNat

/-- Constructor (`it-ea.hh:35-44`), without the parameters; `params` are the parameters of a new mutation operator. -/
def itNew [Zero K] (n size : Int) (params : StandardParams) : Outcome (ItData K) := do
  let population ← Pop.new size n
  let mutation ← Nbh.new n.toNat
  ok ⟨population, List.replicate size.toNat (List.replicate n.toNat false), List.replicate n.toNat 0, mutation, params,
    (List.replicate n.toNat false, 0), 0⟩

/-- The first statement of `init` (`it-ea.cc:36-41`). -/
def itFirst (env : Env K) (q : ItParams) : Alg (AlgState K (ItData K)) Unit :=
  if q.replacement = 4 then do
    let s ← Alg.get
    let x ← Alg.sim (bvRandomSim (fun (k n : Nat) => (k : Rat) / (n : Rat)) q.uniform s.solution.1 q.initialWeight)
    Alg.modify (fun s => { s with solution := (x, s.solution.2) })
    let v ← evaluate env x
    Alg.modify (fun s => { s with solution := (s.solution.1, v) })
  else randomSolution env

/-- `InformationTheoreticEa::init` (`it-ea.cc:33-46`). -/
def itInit (env : Env K) (q : ItParams) : Alg (AlgState K (ItData K)) Unit := do
  itFirst env q
  Alg.modify (fun s => { s with data := { s.data with
    center := s.solution, rate := q.rateInit, params := s.data.params.setAllowNoMutation q.allowNoMutation } })

/-! ## Ties -/

/-- The variables `equivalent_individuals`, `range` and `c` of `iterate` (`it-ea.cc:207-210`). -/
structure Ties where
  equivalent : Bool
  first : Nat
  second : Nat
  c : Rat
  deriving DecidableEq

/-- The equivalence class of the last selected individual (`it-ea.cc:206-215`). -/
def itTies [DecidableEq K] [LT K] [DecidableLT K] (p : Pop K) (selectionSize : Nat) : Outcome Ties := do
  let index := selectionSize - 1
  let v ← p.bestValue index
  let w ← p.bestValue (index + 1)
  if v = w then do
    let range ← p.getEquivalentBvs index
    let c : Rat := ((index : Rat) - (range.1 : Rat) + 1) / ((range.2 : Rat) - (range.1 : Rat))
    assert (decide (0 ≤ c ∧ c ≤ 1))
    ok ⟨true, range.1, range.2, c⟩
  else ok ⟨false, 0, 0, 0⟩

/-- The loops over the selected individuals, with their weights (`it-ea.cc:66-83`, `117-128`, `168-176`). -/
def weightedLoop {σ : Type} (t : Ties) (selectionSize : Nat) (body : Rat → Nat → σ → Outcome σ) (s : σ) : Outcome σ :=
  if t.equivalent then do
    let s ← forRange 0 t.first (body 1) s
    forRange t.first t.second (body t.c) s
  else forRange 0 selectionSize (body 1) s

/-- Body of the loops of `compute_masks` (`it-ea.cc:52-53`, `55-56`). -/
def computeMask (center : BV) (p : Pop K) (k : Nat) (masks : List BV) : Outcome (List BV) := do
  let mask ← vget masks k
  let x ← p.bestBv k
  let mask ← bvAdd3 mask center x
  vset masks k mask

/-- `compute_masks` (`it-ea.cc:48-58`). -/
def computeMasks (t : Ties) (selectionSize : Nat) (center : BV) (p : Pop K) (masks : List BV) : Outcome (List BV) :=
  if t.equivalent then forRange 0 t.second (computeMask center p) masks
  else forRange 0 selectionSize (computeMask center p) masks

/-- A bit as a number. -/
def bitRat (b : Bool) : Rat := if b then 1 else 0

/-- `for (int i = 0; i < n; i++) _likelihoods[i] += w * bv[i]` (`it-ea.cc:69-70`, `74-75`, `80-81`, `119-120`,
`122-123`, `126-127`). -/
def addWeighted (w : Rat) (bv : BV) (l : List Rat) (n : Nat) : Outcome (List Rat) :=
  forRange 0 n (fun i (l : List Rat) => do
    let a ← vget l i
    let b ← vget bv i
    vset l i (a + w * bitRat b)) l

/-- The likelihoods of `ml_update` (`it-ea.cc:65-83`). -/
def mlLikelihoods (t : Ties) (selectionSize n : Nat) (p : Pop K) (likelihoods : List Rat) : Outcome (List Rat) :=
  weightedLoop t selectionSize (fun w k l => do
    let bv ← p.bestBv k
    addWeighted w bv l n) (List.replicate likelihoods.length 0)

/-- The likelihoods of `incremental_ml_update` (`it-ea.cc:116-128`). -/
def maskLikelihoods (t : Ties) (selectionSize n : Nat) (masks : List BV) (likelihoods : List Rat) : Outcome (List Rat) :=
  weightedLoop t selectionSize (fun w k l => do
    let mask ← vget masks k
    addWeighted w mask l n) (List.replicate likelihoods.length 0)

/-- `target` in `igo_update` (`it-ea.cc:166-178`). -/
def igoTarget (t : Ties) (selectionSize n : Nat) (masks : List BV) : Outcome Rat := do
  let target ← weightedLoop t selectionSize (fun w k (target : Rat) => do
    let mask ← vget masks k
    ok (target + w * (bvHammingWeight mask : Rat))) 0
  ok (target / ((selectionSize : Rat) * (n : Rat)))

/-! ## Replacement -/

/-- `_center.second = _function->evaluate(_center.first); update_solution(_center)` (`it-ea.cc:107-108`, `135-136`,
`140-141`, `150-151`, `155-156`). -/
def evaluateCenter [LT K] [DecidableLT K] (env : Env K) : Alg (AlgState K (ItData K)) Unit := do
  let s ← Alg.get
  let v ← evaluate env s.data.center.1
  Alg.modify (fun s => { s with data := { s.data with center := (s.data.center.1, v) } })
  updateSolution s.data.center.1 v

/-- Bodies of the loops over the bits in `ml_update` (`it-ea.cc:86-94`, `96-104`). -/
def mlBit (rate : Rat) (selectionSize : Nat) (likelihoods : List Rat) (i : Nat) (x : BV) : Sim BV := do
  let a ← Sim.lift (vget likelihoods i)
  if (selectionSize : Rat) < 2 * a then Sim.lift (vset x i (decide (rate < 1 / 2)))
  else if 2 * a < (selectionSize : Rat) then Sim.lift (vset x i (!decide (rate < 1 / 2)))
  else do
    let b ← Sim.bernoulli
    Sim.lift (vset x i b)

/-- `ml_update` (`it-ea.cc:60-109`). -/
def mlUpdate [LT K] [DecidableLT K] (env : Env K) (q : ItParams) (t : Ties) : Alg (AlgState K (ItData K)) Unit := do
  let s ← Alg.get
  let n := s.solution.1.length
  let likelihoods ← Alg.lift (mlLikelihoods t q.selectionSize n s.data.population s.data.likelihoods)
  let x ← Alg.sim (Sim.forRange 0 n (mlBit s.data.rate q.selectionSize likelihoods) s.data.center.1)
  Alg.modify (fun s => { s with data := { s.data with likelihoods := likelihoods, center := (x, s.data.center.2) } })
  evaluateCenter env

/-- `std::max_element` (with `lt a b` meaning `a < b`) and `std::min_element` (with `lt a b` meaning `b < a`): the
position of the first one; 0 if there is none. -/
def firstBest (lt : Rat → Rat → Bool) (l : List Rat) : Outcome Nat :=
  forRange 1 l.length (fun i best => do
    let a ← vget l best
    let b ← vget l i
    if lt a b then ok i else ok best) 0

/-- `sample_from_arg` (`it-ea.cc:12-31`). -/
def sampleFromArg (lt : Rat → Rat → Bool) (values : List Rat) : Sim Nat := do
  let index ← Sim.lift (firstBest lt values)
  Sim.lift (assert (decide (index < values.length)))
  let value ← Sim.lift (vget values index)
  let candidates ← Sim.lift (forRange 0 values.length (fun i (candidates : List Nat) => do
    let a ← vget values i
    if a = value then ok (candidates ++ [i]) else ok candidates) [])
  Sim.lift (assert (decide (candidates.length ≥ 1)))
  if candidates.length > 1 then do
    let index ← Sim.uniformInt 0 (candidates.length - 1)
    Sim.lift (assert (decide (index < candidates.length)))
    Sim.lift (vget candidates index)
  else pure index

/-- `bv_flip(_center.first, i)` and the evaluation of the center (`it-ea.cc:135-136` and similar lines). -/
def flipCenter [LT K] [DecidableLT K] (env : Env K) (i : Nat) : Alg (AlgState K (ItData K)) Unit := do
  let s ← Alg.get
  let x ← Alg.lift (bvFlip s.data.center.1 i)
  Alg.modify (fun s => { s with data := { s.data with center := (x, s.data.center.2) } })
  evaluateCenter env

/-- `incremental_ml_update` (`it-ea.cc:111-161`).  The test on the mutation rate decides the direction of both
comparisons. -/
def incrementalMlUpdate [LT K] [DecidableLT K] (env : Env K) (q : ItParams) (t : Ties) :
    Alg (AlgState K (ItData K)) Unit := do
  let s ← Alg.get
  let n := s.solution.1.length
  let likelihoods ← Alg.lift (maskLikelihoods t q.selectionSize n s.data.masks s.data.likelihoods)
  Alg.modify (fun s => { s with data := { s.data with likelihoods := likelihoods } })
  let lt : Rat → Rat → Bool := if s.data.rate < 1 / 2 then fun a b => decide (a < b) else fun a b => decide (b < a)
  let i ← Alg.sim (sampleFromArg lt likelihoods)
  let a ← Alg.lift (vget likelihoods i)
  if lt (q.selectionSize : Rat) (2 * a) then flipCenter env i
  else if 2 * a = (q.selectionSize : Rat) then do
    let b ← Alg.sim Sim.bernoulli
    if b then flipCenter env i else pure ()
  else pure ()

/-- The best individual as center (`it-ea.cc:223-224`, `229-230`). -/
def bestCenter : Alg (AlgState K (ItData K)) Unit := do
  let s ← Alg.get
  let x ← Alg.lift (s.data.population.bestBv 0)
  let v ← Alg.lift (s.data.population.bestValue 0)
  Alg.modify (fun s => { s with data := { s.data with center := (x, v) } })

/-- The switch of `iterate` (`it-ea.cc:219-246`). -/
def itReplace [LT K] [DecidableLT K] [LE K] [DecidableLE K] (env : Env K) (q : ItParams) (t : Ties) :
    Alg (AlgState K (ItData K)) Unit :=
  match q.replacement with
  | 0 => do
    let s ← Alg.get
    let v ← Alg.lift (s.data.population.bestValue 0)
    if s.data.center.2 ≤ v then bestCenter else pure ()
  | 1 => bestCenter
  | 2 => mlUpdate env q t
  | 3 => incrementalMlUpdate env q t
  | 4 => pure ()
  | _ => Alg.lift (throw .runtimeError)

/-- `igo_update` (`it-ea.cc:163-183`). -/
def igoUpdate (q : ItParams) (t : Ties) : Alg (AlgState K (ItData K)) Unit := do
  let s ← Alg.get
  let target ← Alg.lift (igoTarget t q.selectionSize s.solution.1.length s.data.masks)
  let rate ← Alg.lift (stdClamp (s.data.rate + q.learningRate * (target - s.data.rate)) q.rateMin q.rateMax)
  Alg.modify (fun s => { s with data := { s.data with rate := rate } })

/-- Generation of the population (`it-ea.cc:191-196`). -/
def itGenerate (q : ItParams) : Alg (AlgState K (ItData K)) Unit := do
  let s ← Alg.get
  let params := s.data.params.setMutationRate (q.belowSqrt s.data.rate)
  let r ← Alg.sim (Sim.forRange 0 s.data.population.size (mapOffspring params s.data.center.1)
    (s.data.mutation, s.data.population))
  Alg.modify (fun s => { s with data := { s.data with mutation := r.1, population := r.2, params := params } })

/-- The part of `iterate` after the evaluation (`it-ea.cc:206-248`). -/
def itUpdate [DecidableEq K] [LT K] [DecidableLT K] [LE K] [DecidableLE K] (env : Env K) (q : ItParams) :
    Alg (AlgState K (ItData K)) Unit := do
  let s ← Alg.get
  let t ← Alg.lift (itTies s.data.population q.selectionSize)
  let masks ← Alg.lift (computeMasks t q.selectionSize s.data.center.1 s.data.population s.data.masks)
  Alg.modify (fun s => { s with data := { s.data with masks := masks } })
  itReplace env q t
  igoUpdate q t

/-- `InformationTheoreticEa::iterate` (`it-ea.cc:185-249`). -/
def itIterate [DecidableEq K] [LT K] [DecidableLT K] [LE K] [DecidableLE K] (env : Env K) (q : ItParams) :
    Alg (AlgState K (ItData K)) Unit := do
  let s ← Alg.get
  Alg.lift (assert (decide (s.data.center.2 ≤ s.solution.2)))
  itGenerate q
  popEvaluate env (itLens K)
  popSort (itLens K)
  popUpdateSolution (itLens K)
  itUpdate env q

/-- `InformationTheoreticEa` as an iterative algorithm. -/
def itMaximize [DecidableEq K] [LT K] [DecidableLT K] [LE K] [DecidableLE K] (env : Env K) (q : ItParams)
    (numIterations : Int) (fuel : Nat) : Alg (AlgState K (ItData K)) Unit :=
  algLoop (itInit env q) (itIterate env q) numIterations fuel

end Hnco
