import Verif.Multiobjective.Model

/-! # Model of NSGA-II

`lib/hnco/multiobjective/algorithms/{population,random-selection}.hh`, `nsga2.{hh,cc}`, `iterative-algorithm.{hh,cc}`.

A function is a map from bit vectors to outcomes; when it throws, the run ends and its state is lost.  The evaluation in parallel
is not modelled (NSGA-II does not use it). -/

namespace Hnco

open Outcome

/-- `Population` (`population.hh:36-51`). -/
structure MoPop where
  bvs : List BV
  values : List MoValue
  deriving DecidableEq

/-- Constructor (`population.hh:61-71`). -/
def MoPop.new (size n m : Int) : Outcome MoPop :=
  if 0 < size ∧ 0 < n ∧ 0 < m then
    ok ⟨List.replicate size.toNat (List.replicate n.toNat false), List.replicate size.toNat (List.replicate m.toNat 0)⟩
  else throw .runtimeError

/-- `shrink` (`population.hh:100-109`). -/
def MoPop.shrink (size : Nat) (p : MoPop) : Outcome MoPop := do
  assert (decide (0 < size))
  if p.bvs.length < size then ok p else ok ⟨p.bvs.take size, p.values.take size⟩

/-- `random` (`population.cc:31-35`). -/
def MoPop.random (p : MoPop) : Sim MoPop :=
  Sim.forRange 0 p.bvs.length (fun i (p : MoPop) => do
    let x ← Sim.lift (vget p.bvs i)
    let y ← bvRandomBits x.length
    let bvs ← Sim.lift (vset p.bvs i y)
    pure { p with bvs := bvs }) p

/-- `evaluate` (`population.cc:37-44`).  The function returns the value which the code writes into `values[i]`. -/
def MoPop.evaluate (f : BV → Outcome MoValue) (p : MoPop) : Outcome MoPop := do
  assert (p.bvs.length == p.values.length)
  forRange 0 p.bvs.length (fun i (p : MoPop) => do
    let x ← vget p.bvs i
    let v ← f x
    let values ← vset p.values i v
    ok { p with values := values }) p

/-- Swapping individual `i` of `p` and individual `j` of `q` (`nsga2.cc:75-76`, `127-128`). -/
def moSwap (p q : MoPop) (i j : Nat) : Outcome (MoPop × MoPop) := do
  let x ← vget p.bvs i
  let y ← vget q.bvs j
  let pb ← vset p.bvs i y
  let qb ← vset q.bvs j x
  let v ← vget p.values i
  let w ← vget q.values j
  let pv ← vset p.values i w
  let qv ← vset q.values j v
  ok (⟨pb, pv⟩, ⟨qb, qv⟩)

/-- `FrontDistancePair` (`nsga2.hh:43-48`). -/
abbrev FrontDistance := Nat × WithTop Rat

/-- `operator<` on pairs (`nsga2.hh:56-63`). -/
def pairLess (a b : FrontDistance) : Bool :=
  if a.1 < b.1 then true
  else if a.1 = b.1 ∧ b.2 < a.2 then true
  else false

/-- Parameters (`nsga2.hh:108-120`); `belowSqrt` stands for the test in `StandardBitMutation::set_mutation_rate`.  The crossover
probability is never read by the code: `_do_crossover` keeps the probability of its default constructor, 1/2. -/
structure Nsga2Params where
  tournamentSize : Int
  belowSqrt : Bool
  allowNoMutation : Bool

/-- Data members of `Nsga2` (`nsga2.hh:81-106`); `_pareto_front_computation` is a function in the model. -/
structure Nsga2 where
  parents : MoPop
  offsprings : MoPop
  full : MoPop
  solutions : MoPop
  mutation : Nbh
  params : StandardParams
  fronts : List Nat
  crowding : List (WithTop Rat)
  permutation : List Nat
  pairs : List FrontDistance
  tournament : Tournament

/-- Constructor (`nsga2.hh:143-157`). -/
def nsga2New (n m size : Int) (params : StandardParams) : Outcome Nsga2 := do
  let parents ← MoPop.new size n m
  let offsprings ← MoPop.new size n m
  let full ← MoPop.new (2 * size) n m
  let solutions ← MoPop.new size n m
  let mutation ← Nbh.new n.toNat
  ok ⟨parents, offsprings, full, solutions, mutation, params, List.replicate (2 * size).toNat 0,
    List.replicate (2 * size).toNat 0, List.replicate (2 * size).toNat 0, List.replicate size.toNat (0, 0),
    ⟨permIdentity size.toNat, 0, 0, 2⟩⟩

/-! ## Reproduction -/

/-- Crossover or selection (`nsga2.cc:56-59`, `137-140`): the tournament and the offspring.  The order in which the two selections
are made is not specified by the language; the first argument is taken first. -/
def moReproduce {T : Type} (compare : T → T → Bool) (bvs : List BV) (values : List T) (t : Tournament) (offspring : BV) :
    Sim (Tournament × BV) := do
  let c ← Sim.bernoulli
  if c then do
    let a ← t.select compare bvs values
    let b ← a.2.2.select compare bvs values
    let x ← uniformRecombine a.2.1 b.2.1 offspring
    pure (b.2.2, x)
  else do
    let a ← t.select compare bvs values
    pure (a.2.2, a.2.1)

/-- Body of the loops which make the offsprings (`nsga2.cc:54-61`, `135-142`). -/
def moOffspring {T : Type} (compare : T → T → Bool) (bvs : List BV) (values : List T) (params : StandardParams) (i : Nat)
    (s : Tournament × Nbh × MoPop) : Sim (Tournament × Nbh × MoPop) := do
  let old ← Sim.lift (vget s.2.2.bvs i)
  let x ← moReproduce compare bvs values s.1 old
  let r ← s.2.1.mutate (.standardBitMutation params) x.2
  let bvs ← Sim.lift (vset s.2.2.bvs i r.2)
  pure (x.1, r.1, { s.2.2 with bvs := bvs })

/-- The loops which make the offsprings. -/
def moOffsprings {T : Type} (compare : T → T → Bool) (bvs : List BV) (values : List T) (params : StandardParams)
    (s : Tournament × Nbh × MoPop) : Sim (Tournament × Nbh × MoPop) :=
  Sim.forRange 0 s.2.2.bvs.length (moOffspring compare bvs values params) s

/-- `Nsga2::init` (`nsga2.cc:33-63`).  `fuel` bounds the number of fronts. -/
def nsga2Init (f : BV → Outcome MoValue) (q : Nsga2Params) (fuel : Nat) (s : Nsga2) : Sim Nsga2 := do
  let tournament ← Sim.lift (s.tournament.setSize s.parents.bvs.length q.tournamentSize)
  let params := (s.params.setMutationRate q.belowSqrt).setAllowNoMutation q.allowNoMutation
  let parents ← s.parents.random
  let parents ← Sim.lift (parents.evaluate f)
  let fronts ← computeFronts parents.values fuel (List.replicate parents.bvs.length 0)
  let selection : Tournament := ⟨permIdentity parents.bvs.length, 0, 0, 2⟩
  let selection ← Sim.lift (selection.setSize parents.bvs.length q.tournamentSize)
  let selection ← selection.init
  let r ← moOffsprings (fun a b : Nat => decide (a < b)) parents.bvs fronts params (selection, s.mutation, s.offsprings)
  pure { s with permutation := permIdentity s.permutation.length, tournament := tournament, params := params, parents := parents, mutation := r.2.1, offsprings := r.2.2 }

/-! ## Survivors -/

/-- Construction of the full population (`nsga2.cc:74-79`). -/
def nsga2Union (s : Nsga2) : Outcome Nsga2 := do
  let size := s.parents.bvs.length
  forRange 0 size (fun i (s : Nsga2) => do
    let r ← moSwap s.parents s.full i i
    let t ← moSwap s.offsprings r.2 i (size + i)
    ok { s with parents := r.1, offsprings := t.1, full := t.2 }) s

/-- Comparison of fronts (`nsga2.cc:85`). -/
def frontLess (fronts : List Nat) (i j : Nat) : Bool :=
  match fronts[i]?, fronts[j]? with
  | some a, some b => decide (a < b)
  | _, _ => false

/-- `values[i][k]`. -/
def objective (values : List MoValue) (i k : Nat) : Option Rat := values[i]?.bind (fun v => v[k]?)

/-- Comparison of the values of an objective (`nsga2.cc:100`). -/
def objectiveLess (values : List MoValue) (k i j : Nat) : Bool :=
  match objective values i k, objective values j k with
  | some a, some b => decide (a < b)
  | _, _ => false

/-- Comparison of crowding distances, the greatest first (`nsga2.cc:120`). -/
def distanceGreater (crowding : List (WithTop Rat)) (i j : Nat) : Bool :=
  match crowding[i]?, crowding[j]? with
  | some a, some b => decide (b < a)
  | _, _ => false

/-- `std::sort` on the positions from `start` to `stop`; `valid` says that an index can be read by the comparison, otherwise the
behaviour is undefined. -/
def sortSlice (valid : Nat → Bool) (lt : Nat → Nat → Bool) (start stop : Nat) (perm : List Nat) : Sim (List Nat) := do
  Sim.lift (assert (((perm.drop start).take (stop - start)).all valid))
  let r ← Sim.sort lt ((perm.drop start).take (stop - start))
  pure (perm.take start ++ r ++ perm.drop stop)

/-- `std::find_if_not(start + 1, end, predicate)`, the predicate being that the front is `front` (`nsga2.cc:98`, `119`). -/
def findStop (fronts : List Nat) (front start : Nat) (perm : List Nat) : Nat :=
  start + 1 + ((perm.drop (start + 1)).takeWhile (fun i => fronts[i]? == some front)).length

/-- `std::find_if(begin, end, predicate)` with the same predicate (`nsga2.cc:118`). -/
def findStart (fronts : List Nat) (front : Nat) (perm : List Nat) : Nat :=
  (perm.takeWhile (fun i => !(fronts[i]? == some front))).length

/-- `values[i][k]`, undefined out of range. -/
def readObjective (values : List MoValue) (i k : Nat) : Outcome Rat := do
  let v ← vget values i
  vget v k

/-- Body of the loop over the interior of a front (`nsga2.cc:107-108`). -/
def crowdInterior (values : List MoValue) (perm : List Nat) (k iter : Nat) (crowding : List (WithTop Rat)) :
    Outcome (List (WithTop Rat)) := do
  let next ← vget perm (iter + 1)
  let prev ← vget perm (iter - 1)
  let b ← readObjective values next k
  let a ← readObjective values prev k
  assert (decide (b - a ≥ 0))
  let i ← vget perm iter
  let d ← vget crowding i
  vset crowding i (d + ((b - a : Rat) : WithTop Rat))

/-- Distances of a sorted front along an objective (`nsga2.cc:103-110`). -/
def crowdSorted (values : List MoValue) (k start stop : Nat) (perm : List Nat) (crowding : List (WithTop Rat)) :
    Outcome (List (WithTop Rat)) := do
  let first ← vget perm start
  let crowding ← vset crowding first ⊤
  let last ← vget perm (stop - 1)
  let crowding ← vset crowding last ⊤
  if stop - start ≥ 3 then forRange (start + 1) (stop - 1) (crowdInterior values perm k) crowding
  else ok crowding

/-- Body of the loop over the objectives (`nsga2.cc:99-111`). -/
def crowdObjective (values : List MoValue) (start stop k : Nat) (s : List Nat × List (WithTop Rat)) :
    Sim (List Nat × List (WithTop Rat)) := do
  let perm ← sortSlice (fun i => (objective values i k).isSome) (objectiveLess values k) start stop s.1
  let crowding ← Sim.lift (crowdSorted values k start stop perm s.2)
  pure (perm, crowding)

/-- Body of the loop over the fronts (`nsga2.cc:95-113`): permutation, distances and `start`. -/
def crowdFront (values : List MoValue) (fronts : List Nat) (m front : Nat) (s : List Nat × List (WithTop Rat) × Nat) :
    Sim (List Nat × List (WithTop Rat) × Nat) := do
  let i ← Sim.lift (vget s.1 s.2.2)
  let fi ← Sim.lift (vget fronts i)
  Sim.lift (assert (fi == front))
  let stop := findStop fronts front s.2.2 s.1
  let r ← Sim.forRange 0 m (crowdObjective values s.2.2 stop) (s.1, s.2.1)
  pure (r.1, r.2, stop)

/-- Sort by front, crowding distances, sort of the last front (`nsga2.cc:83-122`), for `m` objectives and `size` survivors:
permutation and distances. -/
def nsga2Rank (values : List MoValue) (fronts : List Nat) (m size : Nat) (perm : List Nat) (crowding : List (WithTop Rat)) :
    Sim (List Nat × List (WithTop Rat)) := do
  let perm ← Sim.shuffle (permIdentity perm.length)
  let perm ← sortSlice (fun i => fronts[i]?.isSome) (frontLess fronts) 0 perm.length perm
  let last ← Sim.lift (vget perm (size - 1))
  let lastFront ← Sim.lift (vget fronts last)
  let r ← Sim.forRange 0 (lastFront + 1) (crowdFront values fronts m) (perm, List.replicate crowding.length 0, 0)
  let start := findStart fronts lastFront r.1
  let stop := findStop fronts lastFront start r.1
  let perm ← sortSlice (fun i => r.2.1[i]?.isSome) (distanceGreater r.2.1) start stop r.1
  pure (perm, r.2.1)

/-- Construction of the parents (`nsga2.cc:125-131`). -/
def nsga2Parents (s : Nsga2) : Outcome Nsga2 :=
  forRange 0 s.parents.bvs.length (fun i (s : Nsga2) => do
    let index ← vget s.permutation i
    let r ← moSwap s.parents s.full i index
    let front ← vget s.fronts index
    let distance ← vget s.crowding index
    let pairs ← vset s.pairs i (front, distance)
    ok { s with parents := r.1, full := r.2, pairs := pairs }) s

/-- Selection of the survivors (`nsga2.cc:73-131`). -/
def nsga2Survive (m fuel : Nat) (s : Nsga2) : Sim Nsga2 := do
  let s ← Sim.lift (nsga2Union s)
  let fronts ← computeFronts s.full.values fuel s.fronts
  let r ← nsga2Rank s.full.values fronts m s.parents.bvs.length s.permutation s.crowding
  Sim.lift (nsga2Parents { s with fronts := fronts, permutation := r.1, crowding := r.2 })

/-- `Nsga2::iterate` (`nsga2.cc:65-144`); `m` is the number of objectives of the function. -/
def nsga2Iterate (f : BV → Outcome MoValue) (m fuel : Nat) (s : Nsga2) : Sim Nsga2 := do
  let offsprings ← Sim.lift (s.offsprings.evaluate f)
  let s ← nsga2Survive m fuel { s with offsprings := offsprings }
  let tournament ← s.tournament.init
  let r ← moOffsprings pairLess s.parents.bvs s.pairs s.params (tournament, s.mutation, s.offsprings)
  pure { s with tournament := r.1, mutation := r.2.1, offsprings := r.2.2 }

/-- Body of the loop of `finalize` (`nsga2.cc:153-160`): `_solutions` and `index`. -/
def nsga2Keep (parents : MoPop) (fronts : List Nat) (i : Nat) (s : MoPop × Nat) : Outcome (MoPop × Nat) := do
  let front ← vget fronts i
  if front = 0 then do
    let x ← vget parents.bvs i
    let bvs ← vset s.1.bvs s.2 x
    let v ← vget parents.values i
    let values ← vset s.1.values s.2 v
    ok (⟨bvs, values⟩, s.2 + 1)
  else ok s

/-- `Nsga2::finalize` (`nsga2.cc:146-163`). -/
def nsga2Finalize (fuel : Nat) (s : Nsga2) : Sim Nsga2 := do
  let fronts ← computeFronts s.parents.values fuel (List.replicate s.parents.bvs.length 0)
  let r ← Sim.lift (forRange 0 s.parents.bvs.length (nsga2Keep s.parents fronts) (s.solutions, 0))
  let solutions ← Sim.lift (r.1.shrink r.2)
  pure { s with solutions := solutions }

/-- `IterativeAlgorithm::minimize` (`iterative-algorithm.cc:27-47`): contrary to the warning in the documentation of
`set_num_iterations` (`iterative-algorithm.hh:111-115`), there are no iterations if the number is not positive.  `_last_iteration`,
which NSGA-II does not set, is not modelled. -/
def nsga2Minimize (f : BV → Outcome MoValue) (m : Nat) (q : Nsga2Params) (numIterations : Int) (fuel : Nat) (s : Nsga2) :
    Sim Nsga2 := do
  let s ← nsga2Init f q fuel s
  let s ← Sim.forRange 0 numIterations.toNat (fun _ => nsga2Iterate f m fuel) s
  nsga2Finalize fuel s

end Hnco
