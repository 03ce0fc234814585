import Verif.BitVector.Model

/-!
# Model of iterators and of complete search

Models `lib/hnco/iterator.hh`, `lib/hnco/iterator.cc`,
`lib/hnco/neighborhoods/neighborhood-iterator.hh`,
`lib/hnco/neighborhoods/neighborhood-iterator.cc`, `lib/hnco/algorithms/complete-search.cc` and
part of `lib/hnco/algorithms/algorithm.cc`.
-/

namespace Hnco

open Outcome

/-! ### Hypercube iterators -/

/-- State of a `HypercubeIterator` or `ExtendedHypercubeIterator` (`iterator.hh:33-62`). -/
structure HypercubeIterator where
  current : BV
  initialState : Bool
  deriving DecidableEq, Repr

namespace HypercubeIterator

/-- Constructor (`iterator.hh:46-48`): a zero vector of size `n` in the initial state. -/
def new (n : Nat) : HypercubeIterator := { current := List.replicate n false, initialState := true }

/-- `Iterator::init` (`iterator.hh:54`). -/
def init (it : HypercubeIterator) : HypercubeIterator := { it with initialState := true }

/-- `HypercubeIterator::has_next` (`iterator.cc:29-36`). -/
def hasNext (it : HypercubeIterator) : Outcome Bool :=
  if it.initialState then ok (decide (0 < it.current.length))
  else ok (it.current.any (fun b => b == false))

/-- `ExtendedHypercubeIterator::has_next` (`iterator.cc:62-69`). -/
def extHasNext (it : HypercubeIterator) : Outcome Bool :=
  if it.initialState then ok true
  else ok (it.current.any (fun b => b == false))

/-- The binary adder loop (`iterator.cc:48-55` and `82-89`): clear bits up to the first zero, which
is set.  The loop index runs over the whole vector, so that accesses are in range by construction. -/
def increment : BV → BV
  | [] => []
  | b :: t => if b then false :: increment t else true :: t

/-- `HypercubeIterator::next` (`iterator.cc:39-59`). -/
def next (it : HypercubeIterator) : Outcome (BV × HypercubeIterator) := do
  let b ← it.hasNext
  assert b
  if it.initialState then
    let c := bvClear it.current
    return (c, { current := c, initialState := false })
  else
    let c := increment it.current
    return (c, { current := c, initialState := false })

/-- `ExtendedHypercubeIterator::next` (`iterator.cc:72-93`). -/
def extNext (it : HypercubeIterator) : Outcome (BV × HypercubeIterator) := do
  let b ← it.extHasNext
  assert b
  if it.initialState then
    let c := if 0 < it.current.length then bvClear it.current else it.current
    return (c, { current := c, initialState := false })
  else
    let c := increment it.current
    return (c, { current := c, initialState := false })

end HypercubeIterator

/-! ### Complete search -/

/-- State of the part of `Algorithm` used by complete search (`algorithm.hh:57-60`), its local
iterator, and (ghost) the list of evaluated vectors in order. -/
structure SearchState (V : Type) where
  solution : BV × V
  it : HypercubeIterator
  evaluated : List BV

/-- `CompleteSearch::maximize` up to and including `set_solution(iterator.next())`
(`complete-search.cc:32-40`, `algorithm.cc:37-50`), preceded by the constructor check of `Algorithm`
(`algorithm.hh:107-112`).  The function is any total function of the bit vector. -/
def completeSearchStart {V : Type} (f : BV → V) (n : Nat) : Outcome (SearchState V) :=
  if ¬ 0 < n then Outcome.throw .runtimeError
  else do
    let it := HypercubeIterator.new n
    let b ← it.hasNext
    if !b then Outcome.throw .runtimeError
    else do
      let (x, it) ← it.next
      return { solution := (x, f x), it := it, evaluated := [x] }

/-- Body of the loop of `CompleteSearch::maximize`: `update_solution(iterator.next())`
(`complete-search.cc:43`, `algorithm.cc:52-59,68-74`). -/
def completeSearchBody {V : Type} [LT V] [DecidableLT V] (f : BV → V) (s : SearchState V) :
    Outcome (SearchState V) := do
  let (x, it) ← s.it.next
  let value := f x
  let solution := if s.solution.2 < value then (x, value) else s.solution
  return { solution := solution, it := it, evaluated := s.evaluated ++ [x] }

/-- `CompleteSearch::maximize` (`complete-search.cc:30-44`), as a relation with its outcome. -/
def CompleteSearchRuns {V : Type} [LT V] [DecidableLT V] (f : BV → V) (n : Nat)
    (r : Outcome (SearchState V)) : Prop :=
  match completeSearchStart f n with
  | ok s => WhileTo (fun s => s.it.hasNext) (completeSearchBody f) s r
  | .throw e => r = Outcome.throw e
  | ub => r = ub

/-! ### Single bit flip iterator -/

/-- State of a `SingleBitFlipIterator` (`neighborhood-iterator.hh:60-64`).  The member `_index` has
no initial value: it is left arbitrary. -/
structure SingleBitFlipIterator where
  current : BV
  index : Nat
  initialState : Bool
  deriving DecidableEq, Repr

namespace SingleBitFlipIterator

/-- `NeighborhoodIterator::set_origin` (`neighborhood-iterator.cc:32-38`). -/
def setOrigin (it : SingleBitFlipIterator) (x : BV) : Outcome SingleBitFlipIterator := do
  assert (x.length == it.current.length)
  return { it with current := x }

/-- `Iterator::init` (`iterator.hh:54`). -/
def init (it : SingleBitFlipIterator) : SingleBitFlipIterator := { it with initialState := true }

/-- `SingleBitFlipIterator::has_next` (`neighborhood-iterator.cc:40-47`). -/
def hasNext (it : SingleBitFlipIterator) : Outcome Bool :=
  if it.initialState then ok (decide (0 < it.current.length))
  else ok (decide (it.index + 1 < it.current.length))

/-- `SingleBitFlipIterator::next` (`neighborhood-iterator.cc:50-70`). -/
def next (it : SingleBitFlipIterator) : Outcome (BV × SingleBitFlipIterator) := do
  let b ← it.hasNext
  assert b
  if it.initialState then
    let c ← bvFlip it.current 0
    return (c, { current := c, index := 0, initialState := false })
  else
    assert (decide (it.index < it.current.length))
    let c ← bvFlip it.current it.index
    let index := it.index + 1
    assert (decide (index < c.length))
    let c ← bvFlip c index
    return (c, { current := c, index := index, initialState := false })

end SingleBitFlipIterator

/-! ### Hamming sphere iterator -/

/-- State of a `HammingSphereIterator` (`neighborhood-iterator.hh:99-105`). -/
structure HammingSphereIterator where
  current : BV
  radius : Nat
  bitIndexes : List Nat
  initialState : Bool
  deriving DecidableEq, Repr

namespace HammingSphereIterator

/-- Constructor (`neighborhood-iterator.cc:72-80`).  Simplification: `n` and `r` are natural
numbers. -/
def new (n r : Nat) : Outcome HammingSphereIterator := do
  assert (decide (r ≤ n))
  return { current := List.replicate n false, radius := r, bitIndexes := List.replicate r 0,
           initialState := true }

/-- `NeighborhoodIterator::set_origin` (`neighborhood-iterator.cc:32-38`). -/
def setOrigin (it : HammingSphereIterator) (x : BV) : Outcome HammingSphereIterator := do
  assert (x.length == it.current.length)
  return { it with current := x }

/-- `Iterator::init` (`iterator.hh:54`). -/
def init (it : HammingSphereIterator) : HammingSphereIterator := { it with initialState := true }

/-- The loop `for (i--; i >= 0; i--) if (_bit_indexes[i] < _bit_indexes[i + 1] - 1) ...`
(`neighborhood-iterator.cc:97-99` and `122-127`), where the argument is the value of `i` before the
first decrement: the first index, from the right, that can be incremented. -/
def findIndex (b : List Nat) : Nat → Outcome (Option Nat)
  | 0 => ok none
  | i + 1 => do
    let u ← vget b i
    let v ← vget b (i + 1)
    if (u : Int) < (v : Int) - 1 then return some i
    else findIndex b i

/-- `HammingSphereIterator::has_next` (`neighborhood-iterator.cc:82-102`). -/
def hasNext (it : HammingSphereIterator) : Outcome Bool :=
  if it.initialState then ok (decide (0 < it.current.length) && decide (0 < it.radius))
  else if it.radius ≤ 0 then ok false
  else do
    let i := it.radius - 1
    let u ← vget it.bitIndexes i
    if (u : Int) < (it.current.length : Int) - 1 then return true
    else do
      let j ← findIndex it.bitIndexes i
      return j.isSome

/-- `std::iota` from position `i` to the end, starting with value `v`. -/
def iotaFrom (b : List Nat) (i v : Nat) : List Nat :=
  b.take i ++ List.range' v (b.length - i)

/-- The update of the indexes in `HammingSphereIterator::next`
(`neighborhood-iterator.cc:116-128`). -/
def nextIndexes (n : Nat) (radius : Nat) (b : List Nat) : Outcome (List Nat) := do
  let i := radius - 1
  let u ← vget b i
  if (u : Int) < (n : Int) - 1 then vset b i (u + 1)
  else do
    match ← findIndex b i with
    | none => return b
    | some j => do
      let v ← vget b j
      let b ← vset b j (v + 1)
      return iotaFrom b (j + 1) (v + 1 + 1)

/-- `HammingSphereIterator::next` (`neighborhood-iterator.cc:104-135`). -/
def next (it : HammingSphereIterator) : Outcome (BV × HammingSphereIterator) := do
  let h ← it.hasNext
  assert h
  if it.initialState then
    let b := List.range' 0 it.bitIndexes.length
    let c ← bvFlipSparse it.current b
    return (c, { it with current := c, bitIndexes := b, initialState := false })
  else
    let c ← bvFlipSparse it.current it.bitIndexes
    let b ← nextIndexes c.length it.radius it.bitIndexes
    let c ← bvFlipSparse c b
    return (c, { it with current := c, bitIndexes := b, initialState := false })

end HammingSphereIterator

end Hnco
