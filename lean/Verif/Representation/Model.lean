import Verif.BitVector.Model
import Verif.Matrix.Model
import Verif.Iterator.Model
import Verif.Function.Walsh
import Verif.Sort
import Verif.Map.Model
import Mathlib.Algebra.Order.Field.Basic

/-!
# Representations

Model of `lib/hnco/representations/`.

The sizes of the representations are computed in floating point, as `std::ceil(std::log(m) / std::log(2))`.
The rounding of these operations is not modelled; instead the result of the computation is a parameter of
the constructors, `ceilLog2 m`.  It is not always the exact value: with IEEE 754 double precision, it is 30
instead of 29 for `m = 2^29`, and 49 instead of 50 for `m = 2^49 + 1`.
-/

namespace Hnco

open Outcome

/-! ## Integers -/

/-- A value of a signed integer type of `w` bits; overflow is undefined behaviour. -/
def checked (w : Nat) (z : Int) : Outcome Int := if -2 ^ (w - 1) ≤ z ∧ z < 2 ^ (w - 1) then ok z else ub

/-- `difference_is_safe` (`integer.hh:51-68`) for a signed integer type of `w` bits. -/
def differenceIsSafe (w : Nat) (a b : Int) : Outcome Bool := do
  assert (decide (a < b))
  if a < 0 ∧ b < 0 then ok true
  else if 0 ≤ a ∧ 0 ≤ b then ok true
  else do
    assert (decide (a < 0))
    assert (decide (0 ≤ b))
    let opposite ← checked w (-a)
    let room ← checked w (2 ^ (w - 1) - 1 - b)
    if opposite ≤ room then ok true else ok false

/-- The members of `DyadicIntegerRepresentation<T>` (`integer.hh:75-85`); `width` is the number of bits of
`T`. -/
structure DyadicInteger where
  width : Nat
  size : Nat
  exactSize : Nat
  lower : Int
  upper : Int
  deriving DecidableEq

/-- `set_exact_size` (`integer.hh:88-95`).  The argument of the logarithm is computed in the type `T`. -/
def dyadicExactSize (w : Nat) (ceilLog2 : Nat → Nat) (lower upper : Int) : Outcome Nat := do
  assert (decide (lower < upper))
  let safe ← differenceIsSafe w lower upper
  assert safe
  let difference ← checked w (upper - lower)
  let count ← checked w (difference + 1)
  let exactSize := ceilLog2 count.toNat
  assert (decide (0 < exactSize))
  assert (decide (exactSize < w))
  ok exactSize

/-- Constructor with given size (`integer.hh:121-132`). -/
def dyadicWithSize (w : Nat) (ceilLog2 : Nat → Nat) (lower upper : Int) (size : Nat) : Outcome DyadicInteger := do
  assert (decide (0 < size))
  assert (decide (size < w))
  let exactSize ← dyadicExactSize w ceilLog2 lower upper
  ok { width := w, size := if exactSize < size then exactSize else size, exactSize := exactSize
       lower := lower, upper := upper }

/-- Constructor with the exact size (`integer.hh:142-148`). -/
def dyadicExact (w : Nat) (ceilLog2 : Nat → Nat) (lower upper : Int) : Outcome DyadicInteger := do
  let exactSize ← dyadicExactSize w ceilLog2 lower upper
  ok { width := w, size := exactSize, exactSize := exactSize, lower := lower, upper := upper }

/-- Constructor with given precision (`integer.hh:159-170`).  The result of the floating point computation
`std::ceil(_exact_size - std::log(precision) / std::log(2))` is the parameter `precisionSize`. -/
def dyadicWithPrecision (w : Nat) (ceilLog2 : Nat → Nat) (precisionSize : Nat → Int → Int) (lower upper : Int)
    (precision : Int) : Outcome DyadicInteger :=
  if precision < 1 then .throw .runtimeError
  else do
    let exactSize ← dyadicExactSize w ceilLog2 lower upper
    let size := precisionSize exactSize precision
    -- `std::clamp`
    let size := if size < 1 then 1 else if (exactSize : Int) < size then (exactSize : Int) else size
    ok { width := w, size := size.toNat, exactSize := exactSize, lower := lower, upper := upper }

/-- Constructor for the interval `[0..n-1]` (`integer.hh:177-184`). -/
def dyadicCount (w : Nat) (ceilLog2 : Nat → Nat) (n : Int) : Outcome DyadicInteger := do
  let upper ← checked w (n - 1)
  assert (decide (0 < n))
  let exactSize ← dyadicExactSize w ceilLog2 0 upper
  ok { width := w, size := exactSize, exactSize := exactSize, lower := 0, upper := upper }

/-- `DyadicIntegerRepresentation::unpack` (`integer.hh:190-201`).  The conversion `T(u)` keeps the low bits. -/
def dyadicUnpack (r : DyadicInteger) (bv : BV) (start : Nat) : Outcome Int := do
  let u ← bvToWordSlice bv start (start + r.size)
  let u := if r.size < r.exactSize then u <<< (r.exactSize - r.size) else u
  let difference ← checked r.width (r.upper - r.lower)
  let u := if BitVec.ofInt 64 difference < u then BitVec.ofInt 64 difference else u
  let result ← checked r.width (r.lower + (u.setWidth r.width).toInt)
  assert (decide (r.lower ≤ result))
  if r.upper < result then ok r.upper else ok result

/-! ## Value sets -/

/-- The members of `ValueSetRepresentation<T>` (`value-set.hh:41-44`). -/
structure ValueSet (α : Type) where
  values : List α
  index : DyadicInteger

/-- Constructor (`value-set.hh:53-57`).  The elements are ordered, so that the sorted vector is unique.
Simplification: the conversion of the number of values to `int` is exact, since the number of values is less
than `2^31`. -/
def valueSetNew {α : Type} [LinearOrder α] (ceilLog2 : Nat → Nat) (values : List α) : Outcome (ValueSet α) := do
  let index ← dyadicCount 32 ceilLog2 values.length
  ok { values := values.mergeSort (fun a b => decide (a ≤ b)), index := index }

/-- `ValueSetRepresentation::unpack` (`value-set.hh:61-66`). -/
def valueSetUnpack {α : Type} (r : ValueSet α) (bv : BV) (start : Nat) : Outcome α := do
  assert (decide (start < bv.length))
  let index ← dyadicUnpack r.index bv start
  assert (decide (0 ≤ index ∧ index < r.values.length))
  vget r.values index.toNat

/-! ## Floats -/

section
variable {K : Type} [Field K] [LinearOrder K]

/-- The members of `DyadicFloatRepresentation<T>` (`float.hh:46-53`). -/
structure DyadicFloat (K : Type) where
  lengths : List K
  lower : K
  length : K
  deriving DecidableEq

/-- `compute_lengths` (`float.hh:63-73`). -/
def floatLengths (size : Int) : Outcome (List K) := do
  assert (decide (0 < size))
  let r ← forRange 0 size.toNat (fun i (st : List K × K) => do
    let lengths ← vset st.1 i st.2
    ok (lengths, st.2 / 2)) (List.replicate size.toNat 0, 1 / 2)
  ok r.1

/-- Constructor with given size (`float.hh:89-97`). -/
def floatWithSize (lower upper : K) (size : Int) : Outcome (DyadicFloat K) := do
  assert (decide (lower < upper))
  assert (decide (0 < size))
  let lengths ← floatLengths size
  ok { lengths := lengths, lower := lower, length := upper - lower }

/-- Constructor with given precision (`float.hh:108-117`); `ceilLog2 t` is the result of the floating point
computation `std::ceil(std::log(t) / std::log(2))`. -/
def floatWithPrecision (ceilLog2 : K → Int) (lower upper precision : K) : Outcome (DyadicFloat K) := do
  assert (decide (lower < upper))
  assert (decide (0 < precision))
  let size := ceilLog2 ((upper - lower) / precision)
  let lengths ← floatLengths size
  ok { lengths := lengths, lower := lower, length := upper - lower }

/-- `DyadicFloatRepresentation::unpack` (`float.hh:123-137`). -/
def floatUnpack (r : DyadicFloat K) (bv : BV) (start : Nat) : Outcome K := do
  assert (decide (start < bv.length))
  let stop := start + r.lengths.length
  assert (decide (start + 1 ≤ stop ∧ stop < bv.length + 1))
  let result ← forRange start stop (fun i (result : K) => do
    let b ← vget bv i
    let l ← vget r.lengths (i - start)
    ok (if b then result + l else result)) 0
  ok (r.lower + r.length * result)

/-- `ComplexRepresentation::unpack` (`complex.hh:86-92`) for dyadic floats; the members are the
representations of the real and imaginary parts. -/
def complexUnpack (re im : DyadicFloat K) (bv : BV) (start : Nat) : Outcome (K × K) := do
  assert (decide (start < bv.length))
  let x ← floatUnpack re bv start
  let y ← floatUnpack im bv (start + re.lengths.length)
  ok (x, y)

end

/-! ## Categories -/

/-- The search for the most significant bit (`categorical.hh:78-84`, `165-171`), from index `index`. -/
def msbIndex (n : Nat) : Nat → Nat
  | 0 => 0
  | index + 1 => if n.testBit index then index else msbIndex n index

/-- `b.count()` for a `std::bitset` of `width` bits. -/
def bitCount (width n : Nat) : Nat := (List.range width).countP (fun i => n.testBit i)

/-- The members of `LinearCategoricalRepresentation` (`categorical.hh:44-57`); `_x` and `_y` are work
spaces. -/
structure LinearCategorical where
  count : Nat
  nrows : Nat
  ncols : Nat
  matrix : BM
  deriving DecidableEq

/-- Constructor (`categorical.hh:72-116`), where `unsigned` has 32 bits.  The conversion of the value of the
bit set to `int` is undefined for `2^31`. -/
def linearCategoricalNew (count : Nat) : Outcome LinearCategorical := do
  assert (decide (0 < count))
  let index := msbIndex count 32
  assert (decide (index < 32))
  let index := if bitCount 32 count ≠ 1 then index + 1 else index
  assert (decide (index < 32))
  let value ← checked 32 (2 ^ index)
  let ncols := (value - 1).toNat
  assert (decide (0 < ncols))
  let A ← bmRectangular index ncols
  let it := HypercubeIterator.new index
  let b ← it.hasNext
  assert b
  let p ← it.next
  assert (!p.1.any (fun b => b))
  let r ← iterLoop HypercubeIterator.hasNext HypercubeIterator.next (fun y (st : BM × Nat) => do
    assert (decide (st.2 < ncols))
    let A ← bmSetColumn st.1 st.2 y
    ok (A, st.2 + 1)) (2 ^ index) p.2 (A, 0)
  ok { count := count, nrows := index, ncols := ncols, matrix := r.2.1 }

/-- `LinearCategoricalRepresentation::unpack` (`categorical.hh:122-131`). -/
def linearCategoricalUnpack (r : LinearCategorical) (bv : BV) (start : Nat) : Outcome Nat := do
  assert (decide (start < bv.length))
  let stop := start + r.ncols
  assert (decide (start + 1 ≤ stop ∧ stop < bv.length + 1))
  let x ← forRange start stop (fun src (x : BV) => do
    let b ← vget bv src
    vset x (src - start) b) (List.replicate r.ncols false)
  let y ← bmMultiply (List.replicate r.nrows false) r.matrix x
  assert (decide (0 < r.count))
  let u ← bvToWord y
  ok (u.toNat % r.count)

/-- The members of `IntegerCategoricalRepresentation` (`categorical.hh:145-148`). -/
structure IntegerCategorical where
  count : Nat
  size : Nat
  deriving DecidableEq

/-- Constructor (`categorical.hh:160-177`). -/
def integerCategoricalNew (count : Nat) : Outcome IntegerCategorical := do
  assert (decide (0 < count))
  let index := msbIndex count 64
  assert (decide (index < 64))
  ok { count := count, size := if bitCount 64 count ≠ 1 then index + 1 else index }

/-- `IntegerCategoricalRepresentation::unpack` (`categorical.hh:183-189`). -/
def integerCategoricalUnpack (r : IntegerCategorical) (bv : BV) (start : Nat) : Outcome Nat := do
  let stop := start + r.size
  assert (decide (start < bv.length))
  assert (decide (start + 1 ≤ stop ∧ stop < bv.length + 1))
  assert (decide (0 < r.count))
  let u ← bvToWordSlice bv start stop
  ok (u.toNat % r.count)

/-! ## Permutations -/

/-- The members of `PermutationRepresentation` (`representations/permutation.hh:41-47`), except the work space
`_values`. -/
structure PermutationRep where
  count : Nat
  elementSize : Nat
  deriving DecidableEq

/-- The size in bits (`representations/permutation.hh:70`). -/
def PermutationRep.size (r : PermutationRep) : Nat := r.count * r.elementSize

/-- Constructor (`representations/permutation.hh:62-71`). -/
def permutationRepNew (ceilLog2 : Nat → Nat) (count additional : Nat) : Outcome PermutationRep := do
  assert (decide (0 < count))
  assert (decide (0 < additional))
  ok { count := count, elementSize := ceilLog2 count + additional }

/-- The keys (`representations/permutation.hh:84-88`): conversion from `std::size_t` to `int`, of 32 bits,
keeps the low bits. -/
def permutationKeys (r : PermutationRep) (bv : BV) (start : Nat) : Outcome (List Int) := do
  let st ← forRange 0 r.count (fun i (st : List Int × Nat) => do
    let u ← bvToWordSlice bv st.2 (st.2 + r.elementSize)
    let values ← vset st.1 i (u.setWidth 32).toInt
    ok (values, st.2 + r.elementSize)) (List.replicate r.count 0, start)
  ok st.1

/-- `PermutationRepresentation::unpack` (`representations/permutation.hh:80-94`).  The comparison reads
`_values` at elements of the permutation, which are indices of it. -/
def permutationUnpack (r : PermutationRep) (bv : BV) (start : Nat) : Sim (List Nat) := do
  let values ← Sim.lift (permutationKeys r bv start)
  let shuffled ← Sim.shuffle (List.range r.count)
  let permutation ← Sim.sort (fun i j => decide (values[i]?.getD 0 < values[j]?.getD 0)) shuffled
  let valid ← Sim.lift (permIsValid (permutation.map Int.ofNat))
  Sim.lift (assert valid)
  pure permutation

end Hnco
