import Verif.Sort
import Verif.Algorithm.Alg
import Mathlib.Order.Defs.LinearOrder

/-!
# Model of populations and selection

Models `lib/hnco/algorithms/population.hh`, `population.cc`, `evolutionary-algorithms/selection.hh`,
`evolutionary-algorithms/crossover.cc` and `lib/hnco/multiobjective/algorithms/random-selection.hh`.
-/

namespace Hnco

open Outcome

variable {K σ : Type}

/-- Data members of `Population` (`population.hh:42-46`). -/
structure Pop (K : Type) where
  bvs : List BV
  values : List K
  perm : List Nat
  deriving DecidableEq

/-- `perm_identity` on a permutation of size `size` (`lib/hnco/permutation.hh:47-51`). -/
def permIdentity (size : Nat) : List Nat := List.range size

/-- Constructor of `Population` (`population.hh:53-61`). -/
def Pop.new [Zero K] (size n : Int) : Outcome (Pop K) :=
  if size ≤ 0 then throw .runtimeError
  else if n ≤ 0 then throw .runtimeError
  else ok ⟨List.replicate size.toNat (List.replicate n.toNat false), List.replicate size.toNat 0,
    permIdentity size.toNat⟩

/-- `get_size` (`population.hh:68`). -/
def Pop.size (p : Pop K) : Nat := p.bvs.length

/-- `random` (`population.cc:35-40`): the loop over the bit vectors. -/
def randomBvs : List BV → Sim (List BV)
  | [] => pure []
  | bv :: bvs => do
    let x ← bvRandomBits bv.length
    let xs ← randomBvs bvs
    pure (x :: xs)

/-- `random` (`population.cc:35-40`). -/
def Pop.random (p : Pop K) : Sim (Pop K) := do
  let bvs ← randomBvs p.bvs
  pure { p with bvs := bvs }

/-- The indices of a permutation together with the values that the comparisons read
(`population.hh:91`, `103`, `population.cc:76`). -/
def readValues (values : List K) : List Nat → Outcome (List (Nat × K))
  | [] => ok []
  | i :: is => do
    let v ← vget values i
    let l ← readValues values is
    ok ((i, v) :: l)

/-- The comparison of indices, with the values read (`population.hh:91`, `103`, `population.cc:76`). -/
def better [LT K] [DecidableLT K] (a b : Nat × K) : Bool := decide (b.2 < a.2)

/-- `sort` (`population.hh:89-93`). -/
def Pop.sort [LT K] [DecidableLT K] (p : Pop K) : Sim (Pop K) := do
  let perm ← Sim.shuffle p.perm
  let l ← Sim.lift (readValues p.values perm)
  let r ← Sim.sort better l
  pure { p with perm := r.map Prod.fst }

/-- `partial_sort` (`population.hh:100-105`). -/
def Pop.partialSort [LT K] [DecidableLT K] (selectionSize : Nat) (p : Pop K) : Sim (Pop K) := do
  Sim.lift (assert (decide (0 < selectionSize)))
  let perm ← Sim.shuffle p.perm
  let l ← Sim.lift (readValues p.values perm)
  let r ← Sim.partialSort better selectionSize l
  pure { p with perm := r.map Prod.fst }

/-- `std::equal_range(l.begin(), l.end(), v, lt)`, as positions; the behaviour is undefined if the range is not
partitioned. -/
def equalRange {α : Type} (lt : α → α → Bool) (l : List α) (v : α) : Outcome (Nat × Nat) := do
  let a := (l.takeWhile (fun e => lt e v)).length
  let b := (l.takeWhile (fun e => !lt v e)).length
  assert ((l.drop a).all (fun e => !lt e v))
  assert ((l.drop b).all (fun e => lt v e))
  ok (a, b)

/-- `get_equivalent_bvs` (`population.cc:71-81`). -/
def Pop.getEquivalentBvs [LT K] [DecidableLT K] (index : Nat) (p : Pop K) : Outcome (Nat × Nat) := do
  assert (decide (index < p.perm.length))
  let l ← readValues p.values p.perm
  let v ← vget l index
  equalRange better l v

/-- `get_best_index(i)` (`population.hh:182-185`); also `get_best_index()` with `i = 0` (`population.hh:176`). -/
def Pop.bestIndex (i : Nat) (p : Pop K) : Outcome Nat := do
  assert (decide (i < p.perm.length))
  vget p.perm i

/-- `get_best_bv(i)` (`population.hh:136-139`); also `get_best_bv()` with `i = 0` (`population.hh:130`). -/
def Pop.bestBv (i : Nat) (p : Pop K) : Outcome BV := do
  assert (decide (i < p.perm.length))
  let k ← vget p.perm i
  vget p.bvs k

/-- `get_worst_bv(i)` (`population.hh:145`). -/
def Pop.worstBv (i : Nat) (p : Pop K) : Outcome BV := do
  assert (decide (i + 1 ≤ p.bvs.length))
  p.bestBv (p.bvs.length - 1 - i)

/-- `get_best_value(i)` (`population.hh:162-165`); also `get_best_value()` with `i = 0` (`population.hh:156`). -/
def Pop.bestValue (i : Nat) (p : Pop K) : Outcome K := do
  assert (decide (i < p.perm.length))
  let k ← vget p.perm i
  vget p.values k

/-! ## Selection for replacement -/

/-- Writing through the reference given by `get_best_bv(i)`. -/
def Pop.setBestBv (i : Nat) (bv : BV) (p : Pop K) : Outcome (Pop K) := do
  assert (decide (i < p.perm.length))
  let k ← vget p.perm i
  let bvs ← vset p.bvs k bv
  ok { p with bvs := bvs }

/-- Body of the loop of `CommaSelection::select` (`selection.hh:64-67`) and of the last loop of
`PlusSelection::select` (`selection.hh:117-120`): the parents and the population from which they are taken. -/
def takeBest (i : Nat) (s : Pop K × Pop K) : Outcome (Pop K × Pop K) := do
  let v ← s.2.bestValue i
  let values ← vset s.1.values i v
  let x ← vget s.1.bvs i
  let y ← s.2.bestBv i
  let bvs ← vset s.1.bvs i y
  let pool ← s.2.setBestBv i x
  ok ({ s.1 with bvs := bvs, values := values }, pool)

/-- Constructor of `CommaSelection` (`selection.hh:53-59`). -/
def commaNew (parents offsprings : Pop K) : Outcome Unit :=
  if parents.size ≤ offsprings.size then ok () else throw .runtimeError

/-- `CommaSelection::select` (`selection.hh:62-69`). -/
def commaSelect [LT K] [DecidableLT K] (parents offsprings : Pop K) : Sim (Pop K × Pop K) := do
  let offsprings ← offsprings.partialSort parents.size
  let s ← Sim.lift (forRange 0 parents.size takeBest (parents, offsprings))
  pure ({ s.1 with perm := permIdentity s.1.perm.length }, s.2)

/-- Body of the first two loops of `PlusSelection::select` (`selection.hh:107-115`): the pool, from position `offset`
on, exchanges bit vectors with the population and copies its values. -/
def fillPool (offset : Nat) (i : Nat) (s : Pop K × Pop K) : Outcome (Pop K × Pop K) := do
  let v ← vget s.1.values i
  let values ← vset s.2.values (offset + i) v
  let x ← vget s.2.bvs (offset + i)
  let y ← vget s.1.bvs i
  let bvs ← vset s.2.bvs (offset + i) y
  let bvs' ← vset s.1.bvs i x
  ok ({ s.1 with bvs := bvs' }, { s.2 with bvs := bvs, values := values })

/-- `get_bv_size` (`population.hh:70`). -/
def Pop.bvSize (p : Pop K) : Outcome Nat := do
  let x ← vget p.bvs 0
  ok x.length

/-- Constructor of `PlusSelection` (`selection.hh:96-103`): the pool. -/
def plusNew [Zero K] (parents offsprings : Pop K) : Outcome (Pop K) := do
  let n ← parents.bvSize
  let pool ← Pop.new (parents.size + offsprings.size : Nat) (n : Nat)
  let m ← offsprings.bvSize
  if m = n then ok pool else throw .runtimeError

/-- `PlusSelection::select` (`selection.hh:106-122`): parents, offsprings and pool. -/
def plusSelect [LT K] [DecidableLT K] (parents offsprings pool : Pop K) : Sim (Pop K × Pop K × Pop K) := do
  let s ← Sim.lift (forRange 0 parents.size (fillPool 0) (parents, pool))
  let t ← Sim.lift (forRange 0 offsprings.size (fillPool s.1.size) (offsprings, s.2))
  let pool ← t.2.partialSort s.1.size
  let u ← Sim.lift (forRange 0 s.1.size takeBest (s.1, pool))
  pure ({ u.1 with perm := permIdentity u.1.perm.length }, t.1, u.2)

/-! ## Selection for reproduction -/

/-- Data members of `multiobjective::algorithm::TournamentSelection` (`random-selection.hh:53-70`).  Simplification:
`_start` and `_stop` have no value before the first call of `init`, which all clients make. -/
structure Tournament where
  perm : List Nat
  start : Nat
  stop : Nat
  size : Nat
  deriving DecidableEq

/-- `set_tournament_size` (`random-selection.hh:121-125`), for a population of size `popSize`. -/
def Tournament.setSize (popSize : Nat) (n : Int) (t : Tournament) : Outcome Tournament :=
  if 2 ≤ n ∧ n < popSize then ok { t with size := n.toNat } else throw .runtimeError

/-- `init` (`random-selection.hh:88-92`). -/
def Tournament.init (t : Tournament) : Sim Tournament := do
  let perm ← Sim.shuffle t.perm
  pure { t with perm := perm, start := 0, stop := t.size }

/-- The loop of `select` over the challengers (`random-selection.hh:98-106`): winner and best value. -/
def Tournament.round (compare : K → K → Bool) (values : List K) (t : Tournament) : Outcome (Nat × K) := do
  let k ← vget t.perm t.start
  let v ← vget values k
  forRange (t.start + 1) t.stop (fun challenger (s : Nat × K) => do
    let k ← vget t.perm challenger
    let value ← vget values k
    if compare value s.2 then ok (challenger, value) else ok s) (t.start, v)

/-- The move to the next round (`random-selection.hh:108-111`), for a population of size `popSize`. -/
def Tournament.next (popSize : Nat) (t : Tournament) : Sim Tournament :=
  if popSize < t.stop + t.size then Tournament.init { t with start := t.stop, stop := t.stop + t.size }
  else pure { t with start := t.stop, stop := t.stop + t.size }

/-- `select` (`random-selection.hh:95-114`): the index in the population of the selected individual, whose bit vector
the code returns, and the new state. -/
def Tournament.select (compare : K → K → Bool) (bvs : List BV) (values : List K) (t : Tournament) :
    Sim (Nat × BV × Tournament) := do
  Sim.lift (assert (decide (2 ≤ t.stop) && decide (t.stop < bvs.length + 1)))
  let w ← Sim.lift (t.round compare values)
  let t ← t.next bvs.length
  let k ← Sim.lift (vget t.perm w.1)
  let x ← Sim.lift (vget bvs k)
  pure (k, x, t)

/-- `UniformSelection::select` (`evolutionary-algorithms/random-selection.cc:32-36`). -/
def uniformSelect (p : Pop K) : Sim BV := do
  let i ← Sim.uniformInt 0 (p.size - 1)
  Sim.lift (vget p.bvs i)

/-! ## Crossover -/

/-- Body of the loops of `recombine`: a bit is copied from one of the parents. -/
def recombineBit (first : Bool) (parent1 parent2 : BV) (i : Nat) (offspring : BV) : Outcome BV := do
  let b ← vget (if first then parent1 else parent2) i
  vset offspring i b

/-- `UniformCrossover::recombine` (`crossover.cc:29-41`). -/
def uniformRecombine (parent1 parent2 offspring : BV) : Sim BV := do
  Sim.lift (assert (offspring.length == parent1.length))
  Sim.lift (assert (offspring.length == parent2.length))
  Sim.forRange 0 offspring.length (fun i (offspring : BV) => do
    let b ← Sim.bernoulli
    Sim.lift (recombineBit b parent1 parent2 i offspring)) offspring

/-- `BiasedCrossover::recombine` (`crossover.cc:44-56`); the bias is not modelled. -/
def biasedRecombine (parent1 parent2 offspring : BV) : Sim BV := do
  Sim.lift (assert (offspring.length == parent1.length))
  Sim.lift (assert (offspring.length == parent2.length))
  Sim.forRange 0 offspring.length (fun i (offspring : BV) => do
    let b ← Sim.bernoulli
    Sim.lift (recombineBit (!b) parent1 parent2 i offspring)) offspring

/-! ## Evaluation -/

/-- A population which is a data member of an algorithm. -/
structure PopLens (σ K : Type) where
  get : σ → Pop K
  put : Pop K → σ → σ
  get_put : ∀ p d, get (put p d) = p
  put_put : ∀ p q d, put p (put q d) = put p d
  put_get : ∀ d, put (get d) d = d

/-- Body of the loop of `Population::evaluate` (`population.cc:49`). -/
def popEvaluateOne (env : Env K) (L : PopLens σ K) (i : Nat) : Alg (AlgState K σ) Unit := do
  let s ← Alg.get
  let x ← Alg.lift (vget (L.get s.data).bvs i)
  let v ← evaluate env x
  let values ← Alg.lift (vset (L.get s.data).values i v)
  Alg.modify (fun s => { s with data := L.put { L.get s.data with values := values } s.data })

/-- `Population::evaluate` (`population.cc:42-50`), on a member of the algorithm. -/
def popEvaluate (env : Env K) (L : PopLens σ K) : Alg (AlgState K σ) Unit := do
  let s ← Alg.get
  Alg.lift (assert ((L.get s.data).bvs.length == (L.get s.data).values.length))
  Alg.forRange 0 (L.get s.data).bvs.length (popEvaluateOne env L)

/-- `population.random()` on a member of the algorithm. -/
def popRandom (L : PopLens σ K) : Alg (AlgState K σ) Unit := do
  let s ← Alg.get
  let p ← Alg.sim (L.get s.data).random
  Alg.modify (fun s => { s with data := L.put p s.data })

/-- `population.sort()` on a member of the algorithm. -/
def popSort [LT K] [DecidableLT K] (L : PopLens σ K) : Alg (AlgState K σ) Unit := do
  let s ← Alg.get
  let p ← Alg.sim (L.get s.data).sort
  Alg.modify (fun s => { s with data := L.put p s.data })

/-- `set_solution(population.get_best_bv(), population.get_best_value())`. -/
def popSetSolution (L : PopLens σ K) : Alg (AlgState K σ) Unit := do
  let s ← Alg.get
  let x ← Alg.lift ((L.get s.data).bestBv 0)
  let v ← Alg.lift ((L.get s.data).bestValue 0)
  setSolution x v

/-- `update_solution(population.get_best_bv(), population.get_best_value())`. -/
def popUpdateSolution [LT K] [DecidableLT K] (L : PopLens σ K) : Alg (AlgState K σ) Unit := do
  let s ← Alg.get
  let x ← Alg.lift ((L.get s.data).bestBv 0)
  let v ← Alg.lift ((L.get s.data).bestValue 0)
  updateSolution x v

end Hnco
