import Verif.Algorithm.ProbabilityVector
import Verif.Algorithm.Evolutionary

/-!
# Model of Walsh moments, Gibbs samplers and herding

Models `lib/hnco/algorithms/walsh-moment`: `walsh-moment.cc`, `matrix.hh`, `gibbs-sampler.cc`, `herding.cc`, `hea.hh` and
`bm-pbil.hh`.  The classes `TriangularMoment` and `FullMoment` have the same members; their functions differ by the size of
the rows and by the writes above the diagonal, so that one model with a flag `full` covers both.  Simplifications:
`double` is `Rat`; the logistic function (`util.hh:97-105`) is a parameter.  Not modelled: square roots (`norm_2` and
`distance` are modelled up to the final `sqrt`), `display`, logging.
-/

namespace Hnco

open Outcome

variable {K : Type}

/-! ## Moments -/

/-- Members of `TriangularMoment` and `FullMoment` (`walsh-moment.hh:36-39`, `129-132`). -/
structure Moment where
  first : List Rat
  second : List (List Rat)
  deriving DecidableEq

/-- `second_moment[i][j]`, reading. -/
def Moment.read (m : Moment) (i j : Nat) : Outcome Rat := do
  let row ← vget m.second i
  vget row j

/-- `second_moment[i][j] = x`. -/
def Moment.write (m : Moment) (i j : Nat) (x : Rat) : Outcome Moment := do
  let row ← vget m.second i
  let row ← vset row j x
  let second ← vset m.second i row
  ok { m with second := second }

/-- Constructors (`walsh-moment.cc:35-43` triangular, `235-243` full). -/
def Moment.new (full : Bool) (n : Int) : Outcome Moment := do
  assert (decide (n > 0))
  ok ⟨List.replicate n.toNat 0,
    (List.range n.toNat).map (fun i => List.replicate (if full then n.toNat else i) 0)⟩

/-- `init` (`walsh-moment.cc:58-64`, `261-267`). -/
def Moment.init (m : Moment) : Moment :=
  ⟨List.replicate m.first.length 0, m.second.map (fun row => List.replicate row.length 0)⟩

/-- The double loop shared by the functions below: `first_moment[i]` becomes `f i first_moment[i]` and, for `j < i`,
`second_moment[i][j]` becomes `g i j second_moment[i][j]`; with `mirror` the new value is also written to
`second_moment[j][i]`. -/
def Moment.sweep (mirror : Bool) (f : Nat → Rat → Outcome Rat) (g : Nat → Nat → Rat → Outcome Rat) (m : Moment) :
    Outcome Moment :=
  forRange 0 m.first.length (fun i m => do
    let a ← vget m.first i
    let a ← f i a
    let first ← vset m.first i a
    forRange 0 i (fun j m => do
      let v ← m.read i j
      let v ← g i j v
      let m ← m.write i j v
      if mirror then m.write j i v else ok m) { m with first := first }) m

/-- `add` (`walsh-moment.cc:66-89`, `269-292`): the same code for both classes, without mirror. -/
def Moment.add (m : Moment) (bv : BV) : Outcome Moment := do
  assert (bv.length == m.first.length)
  m.sweep false
    (fun i a => do
      let b ← vget bv i
      ok (if b then a - 1 else a + 1))
    (fun i j v => do
      let b ← vget bv i
      let c ← vget bv j
      ok (if b then (if c then v + 1 else v - 1) else (if c then v - 1 else v + 1)))

/-- `x` with `assert(is_in_interval(x, -1, 1))`. -/
def checkUnit (x : Rat) : Outcome Rat := do
  assert (decide (-1 ≤ x ∧ x ≤ 1))
  ok x

/-- `matrix_is_symmetric` (`matrix.hh:33-42`). -/
def matrixIsSymmetric (m : Moment) : Outcome Bool :=
  forRange 0 m.second.length (fun i (r : Bool) =>
    forRange 0 i (fun j (r : Bool) => do
      let a ← m.read i j
      let b ← m.read j i
      ok (r && decide (a = b))) r) true

/-- `assert(matrix_is_symmetric(second_moment))` for a full moment. -/
def checkSymmetric (full : Bool) (m : Moment) : Outcome Moment :=
  if full then do
    let b ← matrixIsSymmetric m
    assert b
    ok m
  else ok m

/-- `x /= count`; a division by zero gives NaN or an infinity, for which the assertion that follows fails. -/
def divideBy (count : Int) (x : Rat) : Outcome Rat := do
  assert (decide (count ≠ 0))
  checkUnit (x / count)

/-- `average` (`walsh-moment.cc:91-104`, `294-310`). -/
def Moment.average (full : Bool) (m : Moment) (count : Int) : Outcome Moment := do
  let m ← m.sweep full (fun _ a => divideBy count a) (fun _ _ v => divideBy count v)
  checkSymmetric full m

/-- `update(m2, rate)` (`walsh-moment.cc:106-122`, `312-331`). -/
def Moment.update (full : Bool) (m m2 : Moment) (rate : Rat) : Outcome Moment := do
  assert (m2.first.length == m.first.length)
  let m ← m.sweep full
    (fun i a => do
      let b ← vget m2.first i
      checkUnit (a + rate * (b - a)))
    (fun i j v => do
      let w ← m2.read i j
      checkUnit (v + rate * (w - v)))
  checkSymmetric full m

/-- `update(m1, m2, rate)` (`walsh-moment.cc:124-140`, `333-351`). -/
def Moment.updateBetween (full : Bool) (m m1 m2 : Moment) (rate : Rat) : Outcome Moment := do
  assert (m1.first.length == m.first.length)
  assert (m2.first.length == m.first.length)
  m.sweep full
    (fun i a => do
      let b ← vget m1.first i
      let c ← vget m2.first i
      ok (a + rate * (b - c)))
    (fun i j v => do
      let w ← m1.read i j
      let z ← m2.read i j
      ok (v + rate * (w - z)))

/-- `scaled_difference(lambda, m1, m2)` (`walsh-moment.cc:142-157`, `353-371`). -/
def Moment.scaledDifference (full : Bool) (m : Moment) (lambda : Rat) (m1 m2 : Moment) : Outcome Moment := do
  assert (m1.first.length == m.first.length)
  assert (m2.first.length == m.first.length)
  m.sweep full
    (fun i _ => do
      let b ← vget m1.first i
      let c ← vget m2.first i
      ok (lambda * b - c))
    (fun i j _ => do
      let w ← m1.read i j
      let z ← m2.read i j
      ok (lambda * w - z))

/-- One bounded entry (`walsh-moment.cc:169-170` and similar lines). -/
def boundEntry (margin x : Rat) : Outcome Rat := do
  let y ← stdClamp x (margin - 1) (1 - margin)
  checkUnit y

/-- `bound(margin)` (`walsh-moment.cc:159-178`, `373-394`). -/
def Moment.bound (full : Bool) (m : Moment) (margin : Rat) : Outcome Moment := do
  assert (decide (0 ≤ margin ∧ margin ≤ 1))
  assert (decide (margin - 1 < 1 - margin))
  m.sweep full (fun _ a => boundEntry margin a) (fun _ _ v => boundEntry margin v)

/-- The double loop shared by the norms. -/
def Moment.fold (h : Rat → Rat → Rat) (m : Moment) : Outcome Rat :=
  forRange 0 m.first.length (fun i r => do
    let a ← vget m.first i
    forRange 0 i (fun j r => do
      let v ← m.read i j
      ok (h r v)) (h r a)) 0

/-- `norm_1` (`walsh-moment.cc:180-191`, `396-407`). -/
def Moment.norm1 (m : Moment) : Outcome Rat := m.fold (fun r x => r + |x|)

/-- `norm_2` without the square root (`walsh-moment.cc:193-204`, `409-420`). -/
def Moment.norm2Squared (m : Moment) : Outcome Rat := m.fold (fun r x => r + x * x)

/-- `norm_infinite` (`walsh-moment.cc:206-217`, `422-433`). -/
def Moment.normInfinite (m : Moment) : Outcome Rat := m.fold (fun r x => max r x)

/-- `distance` without the square root (`walsh-moment.cc:219-233`, `435-449`). -/
def Moment.distanceSquared (m m2 : Moment) : Outcome Rat := do
  assert (m2.first.length == m.first.length)
  forRange 0 m.first.length (fun i r => do
    let a ← vget m.first i
    let b ← vget m2.first i
    forRange 0 i (fun j r => do
      let v ← m.read i j
      let w ← m2.read i j
      ok (r + (v - w) * (v - w))) (r + (a - b) * (a - b))) 0

/-! ## Gibbs samplers -/

/-- The loops of `update` which compute `delta` (`gibbs-sampler.cc:44-58`, `99-113`): the code is the same for both
classes. -/
def gibbsDelta (m : Moment) (state : BV) (i : Nat) : Outcome Rat := do
  let delta ← vget m.first i
  let delta ← forRange 0 i (fun j delta => do
    let b ← vget state j
    let v ← m.read i j
    ok (if b then delta - v else delta + v)) delta
  let delta ← forRange (i + 1) state.length (fun j delta => do
    let b ← vget state j
    let v ← m.read j i
    ok (if b then delta - v else delta + v)) delta
  ok (delta * -2)

/-- `update(i)` (`gibbs-sampler.cc:39-65`, `94-120`). -/
def gibbsUpdate (logistic : Rat → Rat) (m : Moment) (state : BV) (i : Nat) : Sim BV := do
  Sim.lift (assert (decide (i < state.length)))
  let delta ← Sim.lift (gibbsDelta m state i)
  let u ← Sim.uniform
  Sim.lift (vset state i (decide (u < logistic delta)))

/-- The inner loop of `update_sync` (`gibbs-sampler.cc:71-81`, `126-136`): the code is the same for both classes. -/
def gibbsSyncDelta (m : Moment) (state : BV) (i : Nat) : Outcome Rat := do
  let delta ← vget m.first i
  let delta ← forRange 0 state.length (fun j delta =>
    if j = i then ok delta else do
      let b ← vget state j
      let v ← m.read i j
      ok (if b then delta - v else delta + v)) delta
  ok (delta * -2)

/-- `update_sync` (`gibbs-sampler.cc:67-86`, `122-141`); the result consists of `_state` and `_pv`. -/
def gibbsUpdateSync (logistic : Rat → Rat) (m : Moment) (state : BV) (pv : List Rat) : Sim (BV × List Rat) := do
  let pv ← Sim.lift (forRange 0 pv.length (fun i pv => do
    let delta ← gibbsSyncDelta m state i
    vset pv i (logistic delta)) pv)
  let state ← pvSample pv state
  pure (state, pv)

/-! ## Herding -/

/-- Members of `TriangularMomentHerding` and `FullMomentHerding` (`herding.hh:44-60`, `100-116`). -/
structure Herding where
  delta : Moment
  count : Moment
  permutation : List Nat
  time : Nat

/-- Constructor (`herding.hh:69-73`).  `_time` is uninitialised before `init`; the model starts with 0. -/
def Herding.new (full : Bool) (n : Int) : Outcome Herding := do
  let delta ← Moment.new full n
  let count ← Moment.new full n
  ok ⟨delta, count, List.replicate n.toNat 0, 0⟩

/-- `init` (`herding.cc:29-35`, `83-89`). -/
def Herding.init (h : Herding) : Herding :=
  { h with time := 0, count := h.count.init, permutation := permIdentity h.permutation.length }

/-- `_randomize_bit_order ? _permutation[k] : k` (`herding.cc:58`, `61`, `112`, `116`). -/
def herdingIndex (randomize : Bool) (permutation : List Nat) (k : Nat) : Outcome Nat :=
  if randomize then vget permutation k else ok k

/-- The entry of the second moment which is read for bits `i` and `j` (`herding.cc:63-66`, `68-71` triangular, `118`,
`120` full). -/
def herdingRead (full : Bool) (delta : Moment) (i j : Nat) : Outcome Rat :=
  if full then delta.read i j else if j < i then delta.read i j else delta.read j i

/-- The loop of `sample` (`herding.cc:57-78`, `111-126`). -/
def herdingBits (full randomize : Bool) (delta : Moment) (permutation : List Nat) (bv : BV) : Outcome BV :=
  forRange 0 permutation.length (fun k bv => do
    let i ← herdingIndex randomize permutation k
    let acc ← forRange 0 k (fun l acc => do
      let j ← herdingIndex randomize permutation l
      let b ← vget bv j
      let v ← herdingRead full delta i j
      ok (if b then acc - v else acc + v)) 0
    let a ← vget delta.first i
    vset bv i (!decide (a + acc > 0))) bv

/-- The part of `sample` after the choice of the permutation (`herding.cc:54-80`, `108-128`). -/
def Herding.sampleWith (full randomize : Bool) (target : Moment) (permutation : List Nat) (h : Herding) (bv : BV) :
    Outcome (Herding × BV) := do
  let delta ← h.delta.scaledDifference full ((h.time + 1 : Nat) : Rat) target h.count
  let bv ← herdingBits full randomize delta permutation bv
  let count ← h.count.add bv
  ok (⟨delta, count, permutation, h.time + 1⟩, bv)

/-- `sample` (`herding.cc:44-81`, `98-129`). -/
def Herding.sample (full randomize : Bool) (target : Moment) (h : Herding) (bv : BV) : Sim (Herding × BV) := do
  Sim.lift (assert (bv.length == h.permutation.length))
  if randomize then do
    let permutation ← Sim.shuffle (permIdentity h.permutation.length)
    Sim.lift (h.sampleWith full randomize target permutation bv)
  else Sim.lift (h.sampleWith full randomize target h.permutation bv)

/-! ## Herding evolutionary algorithm -/

/-- Parameters of `Hea` (`hea.hh:63-71`, `herding.hh:55-60`); `full` says which moments are used. -/
structure HeaParams where
  full : Bool
  margin : Rat
  selectionSize : Int
  resetPeriod : Int
  rate : Rat
  boundMoment : Bool
  randomize : Bool

/-- Parameters after construction (`hea.hh:63-71`, `174`, `herding.hh:57`). -/
def heaDefault (full : Bool) (n : Nat) : HeaParams := ⟨full, 1 / (n : Rat), 1, 0, 1 / 10000, true, true⟩

/-- Members of `Hea` (`hea.hh:47-53`); `iteration` is `_iteration` (`iterative-algorithm.hh`), which
`IterativeAlgorithm::loop` sets to 0 after `init` and increments after each iteration. -/
structure HeaData (K : Type) where
  target : Moment
  selection : Moment
  population : Pop K
  herding : Herding
  iteration : Nat

/-- Constructor (`hea.hh:168-175`). -/
def heaNew [Zero K] (full : Bool) (n size : Int) : Outcome (HeaData K) := do
  let target ← Moment.new full n
  let selection ← Moment.new full n
  let population ← Pop.new size n
  let herding ← Herding.new full n
  ok ⟨target, selection, population, herding, 0⟩

/-- The member `_population` of `Hea`. -/
def heaLens (K : Type) : PopLens (HeaData K) K where
  get d := d.population
  put p d := { d with population := p }
  get_put _ _ := rfl
  put_put _ _ _ := rfl
  put_get _ := rfl

/-- `Hea::init` (`hea.hh:93-98`), and the start of the loop. -/
def heaInit (env : Env K) : Alg (AlgState K (HeaData K)) Unit := do
  randomSolution env
  Alg.modify (fun s => { s with
    data := { s.data with target := s.data.target.init, herding := s.data.herding.init, iteration := 0 } })

/-- The reset of the herding (`hea.hh:102-105`). -/
def heaReset (q : HeaParams) (d : HeaData K) : HeaData K :=
  if q.resetPeriod > 0 ∧ (d.iteration : Int) % q.resetPeriod = 0 then { d with herding := d.herding.init } else d

/-- The loop which samples the population (`hea.hh:107-108`). -/
def heaSample (q : HeaParams) (target : Moment) (s : Herding × Pop K) : Sim (Herding × Pop K) :=
  Sim.forRange 0 s.2.size (fun i (s : Herding × Pop K) => do
    let x ← Sim.lift (vget s.2.bvs i)
    let r ← s.1.sample q.full q.randomize target x
    let bvs ← Sim.lift (vset s.2.bvs i r.2)
    pure (r.1, { s.2 with bvs := bvs })) s

/-- `m.init(); for (i < sel) m.add(_population.get_best_bv(i))` (`hea.hh:125-127`, `bm-pbil.hh:172-174`). -/
def addBest (sel : Int) (p : Pop K) (m : Moment) : Outcome Moment :=
  forRange 0 sel.toNat (fun i m => do
    let x ← p.bestBv i
    m.add x) m.init

/-- `if (_selection_size > 1) _selection.average(_selection_size)` (`hea.hh:128-129`). -/
def heaAverage (q : HeaParams) (m : Moment) : Outcome Moment :=
  if q.selectionSize > 1 then m.average q.full q.selectionSize else ok m

/-- `if (_bound_moment) _target.bound(_margin)` (`hea.hh:132-133`). -/
def heaBound (q : HeaParams) (m : Moment) : Outcome Moment :=
  if q.boundMoment then m.bound q.full q.margin else ok m

/-- The end of `Hea::iterate` (`hea.hh:125-133`), and the end of the iteration. -/
def heaLearn (q : HeaParams) : Alg (AlgState K (HeaData K)) Unit := do
  let s ← Alg.get
  let selection ← Alg.lift (addBest q.selectionSize s.data.population s.data.selection)
  let selection ← Alg.lift (heaAverage q selection)
  let target ← Alg.lift (s.data.target.update q.full selection q.rate)
  let target ← Alg.lift (heaBound q target)
  Alg.modify (fun s => { s with
    data := { s.data with target := target, selection := selection, iteration := s.data.iteration + 1 } })

/-- `Hea::iterate` (`hea.hh:101-134`). -/
def heaIterate [LT K] [DecidableLT K] (env : Env K) (q : HeaParams) : Alg (AlgState K (HeaData K)) Unit := do
  Alg.modify (fun s => { s with data := heaReset q s.data })
  let s ← Alg.get
  let r ← Alg.sim (heaSample q s.data.target (s.data.herding, s.data.population))
  Alg.modify (fun s => { s with data := { s.data with herding := r.1, population := r.2 } })
  popEvaluate env (heaLens K)
  popSort (heaLens K)
  popUpdateSolution (heaLens K)
  heaLearn q

/-- `Hea` as an iterative algorithm. -/
def heaMaximize [LT K] [DecidableLT K] (env : Env K) (q : HeaParams) (numIterations : Int) (fuel : Nat) :
    Alg (AlgState K (HeaData K)) Unit :=
  algLoop (heaInit env) (heaIterate env q) numIterations fuel

/-! ## Boltzmann machine PBIL -/

/-- `SamplingMode` (`bm-pbil.hh:50-75`), and the other values of an `int`. -/
inductive BmSampling where
  | asynchronous
  | asynchronousFullScan
  | synchronous
  | unknown
  deriving DecidableEq

/-- `ResetMode` (`bm-pbil.hh:76-85`). -/
inductive ResetMode where
  | noReset
  | iteration
  | bitVector
  deriving DecidableEq

/-- Parameters of `BmPbil` (`bm-pbil.hh:109-122`); `full` says which moments are used. -/
structure BmParams where
  full : Bool
  selectionSize : Int
  rate : Rat
  numSteps : Int
  numCycles : Int
  negativePositive : Bool
  sampling : BmSampling
  reset : ResetMode

/-- Parameters after construction (`bm-pbil.hh:109-122`). -/
def bmDefault (full : Bool) : BmParams := ⟨full, 1, 1 / 1000, 100, 1, false, .asynchronous, .noReset⟩

/-- Members of `BmPbil` (`bm-pbil.hh:88-103`); `state` and `pv` are the members of the sampler
(`gibbs-sampler.hh:41-45`). -/
structure BmData (K : Type) where
  population : Pop K
  parameters : Moment
  state : BV
  pv : List Rat
  all : Moment
  best : Moment
  worst : Moment

/-- Constructor (`bm-pbil.hh:251-260`). -/
def bmNew [Zero K] (full : Bool) (n size : Int) : Outcome (BmData K) := do
  let population ← Pop.new size n
  let parameters ← Moment.new full n
  let all ← Moment.new full n
  let best ← Moment.new full n
  let worst ← Moment.new full n
  ok ⟨population, parameters, List.replicate n.toNat false, List.replicate n.toNat 0, all, best, worst⟩

/-- The member `_population` of `BmPbil`. -/
def bmLens (K : Type) : PopLens (BmData K) K where
  get d := d.population
  put p d := { d with population := p }
  get_put _ _ := rfl
  put_put _ _ _ := rfl
  put_get _ := rfl

/-- State of the Gibbs sampler: `_state` and `_pv`. -/
abbrev GibbsState := BV × List Rat

/-- `init` of the Gibbs samplers (`gibbs-sampler.cc:33-37`, `88-92`). -/
def gibbsInit (g : GibbsState) : Sim GibbsState := do
  let x ← bvRandomBits g.1.length
  pure (x, g.2)

/-- `sample_asynchronous` (`bm-pbil.hh:229-232`); `_choose_bit` is uniform on `0 .. n - 1` (`bm-pbil.hh:259`). -/
def bmAsynchronous (logistic : Rat → Rat) (numSteps : Int) (m : Moment) (g : GibbsState) : Sim GibbsState :=
  Sim.forRange 0 numSteps.toNat (fun _ (g : GibbsState) => do
    let i ← Sim.uniformInt 0 (g.1.length - 1)
    let x ← gibbsUpdate logistic m g.1 i
    pure (x, g.2)) g

/-- `sample_asynchronous_full_scan` (`bm-pbil.hh:235-241`). -/
def bmFullScan (logistic : Rat → Rat) (numCycles : Int) (m : Moment) (g : GibbsState) : Sim GibbsState :=
  Sim.forRange 0 numCycles.toNat (fun _ (g : GibbsState) => do
    let permutation ← Sim.shuffle (permIdentity g.1.length)
    Sim.forRange 0 permutation.length (fun k (g : GibbsState) => do
      let i ← Sim.lift (vget permutation k)
      let x ← gibbsUpdate logistic m g.1 i
      pure (x, g.2)) g) g

/-- `sample_synchronous` (`bm-pbil.hh:244-247`). -/
def bmSynchronous (logistic : Rat → Rat) (numCycles : Int) (m : Moment) (g : GibbsState) : Sim GibbsState :=
  Sim.forRange 0 numCycles.toNat (fun _ (g : GibbsState) => gibbsUpdateSync logistic m g.1 g.2) g

/-- `sample` up to the copy of the state (`bm-pbil.hh:211-225`). -/
def bmChain (logistic : Rat → Rat) (q : BmParams) (m : Moment) (g : GibbsState) : Sim GibbsState :=
  match q.sampling with
  | .asynchronous => bmAsynchronous logistic q.numSteps m g
  | .asynchronousFullScan => bmFullScan logistic q.numCycles m g
  | .synchronous => bmSynchronous logistic q.numCycles m g
  | .unknown => Sim.lift (throw .runtimeError)

/-- Reset of the chain (`bm-pbil.hh:151-152`, `156-157`). -/
def bmReset (b : Bool) (g : GibbsState) : Sim GibbsState := if b then gibbsInit g else pure g

/-- The loop which samples the population (`bm-pbil.hh:155-159`). -/
def bmSample (logistic : Rat → Rat) (q : BmParams) (m : Moment) (s : GibbsState × Pop K) : Sim (GibbsState × Pop K) :=
  Sim.forRange 0 s.2.size (fun i (s : GibbsState × Pop K) => do
    let g ← bmReset (q.reset == .bitVector) s.1
    let g ← bmChain logistic q m g
    let bvs ← Sim.lift (vset s.2.bvs i g.1)
    pure (g, { s.2 with bvs := bvs })) s

/-- `BmPbil::init` (`bm-pbil.hh:141-147`). -/
def bmInit (env : Env K) : Alg (AlgState K (BmData K)) Unit := do
  randomSolution env
  Alg.modify (fun s => { s with data := { s.data with parameters := s.data.parameters.init } })
  let s ← Alg.get
  let g ← Alg.sim (gibbsInit (s.data.state, s.data.pv))
  Alg.modify (fun s => { s with data := { s.data with state := g.1, pv := g.2 } })

/-- Average over the best individuals (`bm-pbil.hh:172-175`). -/
def bestMoment (full : Bool) (sel : Int) (p : Pop K) (m : Moment) : Outcome Moment := do
  let m ← addBest sel p m
  m.average full sel

/-- Average over the worst individuals (`bm-pbil.hh:179-183`). -/
def worstMoment (full : Bool) (sel : Int) (p : Pop K) (m : Moment) : Outcome Moment := do
  let m ← forRange 0 sel.toNat (fun i m => do
    let x ← p.worstBv i
    m.add x) m.init
  m.average full sel

/-- Average over all individuals (`bm-pbil.hh:185-189`). -/
def allMoment (full : Bool) (p : Pop K) (m : Moment) : Outcome Moment := do
  let m ← forRange 0 p.size (fun i m => do
    let x ← vget p.bvs i
    m.add x) m.init
  m.average full p.size

/-- The end of `BmPbil::iterate` (`bm-pbil.hh:172-192`). -/
def bmLearn (q : BmParams) : Alg (AlgState K (BmData K)) Unit := do
  let s ← Alg.get
  let best ← Alg.lift (bestMoment q.full q.selectionSize s.data.population s.data.best)
  if q.negativePositive then do
    let worst ← Alg.lift (worstMoment q.full q.selectionSize s.data.population s.data.worst)
    let parameters ← Alg.lift (s.data.parameters.updateBetween q.full best worst q.rate)
    Alg.modify (fun s => { s with data := { s.data with best := best, worst := worst, parameters := parameters } })
  else do
    let all ← Alg.lift (allMoment q.full s.data.population s.data.all)
    let parameters ← Alg.lift (s.data.parameters.updateBetween q.full best all q.rate)
    Alg.modify (fun s => { s with data := { s.data with best := best, all := all, parameters := parameters } })

/-- `BmPbil::iterate` (`bm-pbil.hh:150-194`). -/
def bmIterate [LT K] [DecidableLT K] (env : Env K) (logistic : Rat → Rat) (q : BmParams) :
    Alg (AlgState K (BmData K)) Unit := do
  let s ← Alg.get
  let g ← Alg.sim (bmReset (q.reset == .iteration) (s.data.state, s.data.pv))
  let r ← Alg.sim (bmSample logistic q s.data.parameters (g, s.data.population))
  Alg.modify (fun s => { s with data := { s.data with state := r.1.1, pv := r.1.2, population := r.2 } })
  popEvaluate env (bmLens K)
  popSort (bmLens K)
  popUpdateSolution (bmLens K)
  bmLearn q

/-- `BmPbil` as an iterative algorithm. -/
def bmMaximize [LT K] [DecidableLT K] (env : Env K) (logistic : Rat → Rat) (q : BmParams) (numIterations : Int)
    (fuel : Nat) : Alg (AlgState K (BmData K)) Unit :=
  algLoop (bmInit env) (bmIterate env logistic q) numIterations fuel

end Hnco
