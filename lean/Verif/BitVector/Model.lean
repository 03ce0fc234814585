import Verif.Base

/-!
# Model of bit vectors

Models `lib/hnco/bit-vector.hh`, `lib/hnco/bit-vector.cc`, `lib/hnco/sparse-bit-vector.hh` and
`lib/hnco/sparse-bit-vector.cc`.
-/

namespace Hnco

open Outcome

/-- `bv_is_zero` (`bit-vector.hh:106`). -/
def bvIsZero (x : BV) : Bool := x.all (fun b => b == false)

/-- `bv_hamming_weight` (`bit-vector.hh:109`): `std::accumulate` of the components. -/
def bvHammingWeight (x : BV) : Nat := x.foldl (fun acc b => acc + b.toNat) 0

/-- `bv_hamming_weight` on `std::vector<bool>` (`bit-vector.cc:46-54`). -/
def vbHammingWeight (x : List Bool) : Nat := x.foldl (fun acc b => if b then acc + 1 else acc) 0

/-- `bv_clear` (`bit-vector.hh:124`). -/
def bvClear (x : BV) : BV := List.replicate x.length false

/-- `bv_hamming_distance` (`bit-vector.cc:56-66`). -/
def bvHammingDistance (x y : BV) : Outcome Nat := do
  assert (x.length == y.length)
  forRange 0 x.length (fun i d => do
    let a ← vget x i
    let b ← vget y i
    return if a != b then d + 1 else d) 0

/-- `bv_dot_product` (`bit-vector.cc:68-90`, both overloads).  Simplification: the `size_t` counter
does not wrap around. -/
def bvDotProduct (x y : BV) : Outcome Bool := do
  assert (x.length == y.length)
  let r ← forRange 0 x.length (fun i d => do
    let a ← vget x i
    let b ← vget y i
    return if a && b then d + 1 else d) 0
  return r % 2 == 1

/-- `bv_flip` of a single bit (`bit-vector.hh:150`, `bit-vector.hh:63,69`).  Simplification:
negative indices are not representable. -/
def bvFlip (x : BV) (i : Nat) : Outcome BV := do
  let b ← vget x i
  vset x i (b ^^ true)

/-- `std::is_sorted` (used in `sparse-bit-vector.cc:32`). -/
def isSorted : List Nat → Bool
  | [] => true
  | [_] => true
  | a :: b :: t => decide (a ≤ b) && isSorted (b :: t)

/-- `sbv_is_valid(sbv, n)` (`sparse-bit-vector.cc:29-49`).  Simplification: indices are natural
numbers, so that the test `index < 0` disappears. -/
def sbvIsValid (sbv : List Nat) (n : Nat) : Bool :=
  isSorted sbv && sbv.all (fun i => decide (i < n))

/-- The loop of `bv_flip(x, sbv)` (`bit-vector.cc:97-98`). -/
def flipLoop : BV → List Nat → Outcome BV
  | x, [] => ok x
  | x, i :: sbv => do
    let y ← bvFlip x i
    flipLoop y sbv

/-- `bv_flip(x, sbv)` (`bit-vector.cc:92-99`). -/
def bvFlipSparse (x : BV) (sbv : List Nat) : Outcome BV := do
  assert (sbvIsValid sbv x.length)
  flipLoop x sbv

/-- State of the loop of `bv_random(x, k)`: the vector, `k`, `n`, and the index of the next draw. -/
structure RandomState where
  x : BV
  k : Nat
  n : Nat
  draw : Nat

/-- Body of the loop of `bv_random(x, k)` (`bit-vector.cc:108-120`).  `ratio k n` stands for the
floating point quotient `double(k) / double(n)` and `uniform j` for the j-th result of
`Generator::uniform()`: their type and values are arbitrary. -/
def bvRandomBody {K : Type} [LT K] [DecidableLT K] (ratio : Nat → Nat → K) (uniform : Nat → K)
    (i : Nat) (s : RandomState) : Outcome RandomState :=
  if 0 < s.k then do
    assert (decide (0 < s.n))
    if uniform s.draw < ratio s.k s.n then do
      let x ← vset s.x i true
      return { x := x, k := s.k - 1, n := s.n - 1, draw := s.draw + 1 }
    else do
      let x ← vset s.x i false
      return { x := x, k := s.k, n := s.n - 1, draw := s.draw + 1 }
  else do
    let x ← vset s.x i false
    return { s with x := x }

/-- `bv_random(x, k)` (`bit-vector.cc:101-121`). -/
def bvRandom {K : Type} [LT K] [DecidableLT K] (ratio : Nat → Nat → K) (uniform : Nat → K)
    (x : BV) (k : Nat) : Outcome BV := do
  assert (decide (k ≤ x.length))
  let s ← forRange 0 x.length (bvRandomBody ratio uniform)
    { x := x, k := k, n := x.length, draw := 0 }
  return s.x

/-- `bv_add(dest, src)` (`bit-vector.cc:123-131`). -/
def bvAdd (dest src : BV) : Outcome BV := do
  assert (dest.length == src.length)
  forRange 0 dest.length (fun i d => do
    let a ← vget d i
    let b ← vget src i
    vset d i (a ^^ b)) dest

/-- `bv_add(dest, x, y)` (`bit-vector.cc:133-142`). -/
def bvAdd3 (dest x y : BV) : Outcome BV := do
  assert (dest.length == x.length)
  assert (dest.length == y.length)
  forRange 0 dest.length (fun i d => do
    let a ← vget x i
    let b ← vget y i
    vset d i (a ^^ b)) dest

/-- `bv_to_vector_bool(y, x)` (`bit-vector.cc:144-155`). -/
def bvToVectorBool (y : List Bool) (x : BV) : Outcome (List Bool) := do
  assert (y.length == x.length)
  forRange 0 x.length (fun i d => do
    let a ← vget x i
    if a then vset d i true else vset d i false) y

/-- `bv_from_vector_bool(x, y)` (`bit-vector.cc:157-168`). -/
def bvFromVectorBool (x : BV) (y : List Bool) : Outcome BV := do
  assert (y.length == x.length)
  forRange 0 x.length (fun i d => do
    let a ← vget y i
    if a then vset d i true else vset d i false) x

/-- A machine word, `std::size_t` on the 64-bit platforms. -/
abbrev Word := BitVec 64

/-- Body of the loop of `bv_to_size_type` (`bit-vector.cc:177-181`); the state is
`(result, mask)`. -/
def toWordBody (x : BV) (i : Nat) (s : Word × Word) : Outcome (Word × Word) := do
  let b ← vget x i
  return (if b then s.1 ||| s.2 else s.1, s.2 <<< 1)

/-- `bv_to_size_type(x)` (`bit-vector.cc:170-183`). -/
def bvToWord (x : BV) : Outcome Word := do
  assert (decide (x.length ≤ 8 * 8))
  let s ← forRange 0 x.length (toWordBody x) (0, 1)
  return s.1

/-- `bv_to_size_type(x, start, stop)` (`bit-vector.cc:185-200`). -/
def bvToWordSlice (x : BV) (start stop : Nat) : Outcome Word := do
  assert (decide (start < x.length))
  assert (decide (start + 1 ≤ stop ∧ stop < x.length + 1))
  assert (decide (stop - start ≤ 8 * 8))
  let s ← forRange start stop (toWordBody x) (0, 1)
  return s.1

/-- `bv_from_size_type(x, u)` (`bit-vector.cc:202-215`). -/
def bvFromWord (x : BV) (u : Word) : Outcome BV := do
  assert (decide (x.length ≤ 8 * 8))
  let s ← forRange 0 x.length (fun i (s : BV × Word) => do
    let y ← (if u &&& s.2 != 0 then vset s.1 i true else vset s.1 i false)
    return (y, s.2 <<< 1)) (x, 1)
  return s.1

/-- `bv_display` (`bit-vector.cc:36-44`): the characters written to the stream. -/
def bvDisplay (x : BV) : List Char := x.flatMap (fun b => if b == false then ['0'] else ['1'])

/-- `bv_from_string` (`bit-vector.cc:217-231`). -/
def bvFromString (str : List Char) : Outcome BV := do
  let result := str.foldl (fun acc c => if c == '0' then acc ++ [false] else acc ++ [true]) []
  assert (result.length == str.length)
  return result

/-- `bv_from_stream` (`bit-vector.cc:233-242`): the stream is the list of remaining characters;
`std::getline` fails exactly on an exhausted stream, otherwise reads up to the first newline, which
it consumes.  Also returns the remaining characters.  Simplification: stream error states are not
modelled. -/
def bvFromStream (stream : List Char) : Outcome (BV × List Char) :=
  if stream = [] then ok ([], [])
  else do
    let x ← bvFromString (stream.takeWhile (fun c => c != '\n'))
    return (x, (stream.dropWhile (fun c => c != '\n')).drop 1)

end Hnco
