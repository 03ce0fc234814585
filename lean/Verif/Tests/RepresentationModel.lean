import Verif.Representation.Model
import Verif.Tests.Model
import Verif.Tests.SerializeModel

/-!
# Test programs on representations

Models `tests/test-dyadic-integer-representation.cc` and `tests/test-dyadic-float-representation.cc`.
-/

namespace Hnco.Tests

open Outcome

/-! ## Dyadic integers -/

/-- The loop which draws the bounds (`test-dyadic-integer-representation.cc:48-53`), for a type of `w` bits; they are between `lo`
and `hi`. -/
def drawBounds (w : Nat) (lo hi : Int) : Sim ((Int × Int) × Bool) :=
  Sim.repeatUntil (do
    let i ← Sim.uniformInt 0 (hi - lo).toNat
    let j ← Sim.uniformInt 0 (hi - lo).toNat
    let a := lo + i
    let b := lo + j
    let safe ← (if a < b then Sim.lift (differenceIsSafe w a b) else pure false)
    pure ((a, b), safe)) (fun r => r.2)

/-- The loop over the variables (`test-dyadic-integer-representation.cc:65-73`); all the representations are equal
(`test-dyadic-integer-representation.cc:57`).  The comparisons are made on numbers rather than on their conversions to `double`. -/
def integersInside (r : DyadicInteger) (bv : BV) (a b : Int) : Nat → Nat → Outcome Bool
  | 0, _ => ok true
  | count + 1, start => do
    let x ← dyadicUnpack r bv start
    if a ≤ x ∧ x ≤ b then integersInside r bv a b count (start + r.size) else ok false

/-- `check_representation` (`test-dyadic-integer-representation.cc:40-74`); `ceilLog2` as in `Verif.Representation.Model`. -/
def dyadicIntegerRun (w : Nat) (ceilLog2 : Nat → Nat) (vars : Nat) (lo hi : Int) : Sim Bool := do
  let count ← Sim.uniformInt 1 vars
  let bounds ← drawBounds w lo hi
  let r ← Sim.lift (dyadicExact w ceilLog2 bounds.1.1 bounds.1.2)
  let bv ← bvRandomBits (count * r.size)
  Sim.lift (integersInside r bv bounds.1.1 bounds.1.2 count 0)

/-- `check` (`test-dyadic-integer-representation.cc:77-83`).  In the program the type is `long`, `lo` is the smallest number of the
type and `hi` the greatest. -/
def dyadicIntegerTest (w : Nat) (ceilLog2 : Nat → Nat) (runs vars : Nat) (lo hi : Int) : Sim Bool :=
  every runs (dyadicIntegerRun w ceilLog2 vars lo hi)

/-! ## Dyadic floats -/

/-- The loop over the variables (`test-dyadic-float-representation.cc:57-65`); all the representations are equal
(`test-dyadic-float-representation.cc:51`). -/
def floatsInside {K : Type} [Field K] [LinearOrder K] (r : DyadicFloat K) (bv : BV) (a b : K) : Nat → Nat → Outcome Bool
  | 0, _ => ok true
  | count + 1, start => do
    let x ← floatUnpack r bv start
    if a ≤ x ∧ x < b then floatsInside r bv a b count (start + r.lengths.length) else ok false

/-- `check` (`test-dyadic-float-representation.cc:36-75`); `normal` and `uniform` make numbers of draws, and the numbers are
computed exactly. -/
def dyadicFloatTest {K : Type} [Field K] [LinearOrder K] (normal uniform : Nat → K) (runs vars bits : Nat) : Sim Bool :=
  every runs (do
    let count ← Sim.uniformInt 1 vars
    let size ← Sim.uniformInt 1 bits
    let x ← number normal
    let scale := 1 + 10 * |x|
    let y ← number normal
    let lower := scale * y
    let u ← number uniform
    let upper := lower + scale * (1 + u)
    let r ← Sim.lift (floatWithSize lower upper size)
    let bv ← bvRandomBits (count * size)
    Sim.lift (floatsInside r bv lower upper count 0))

end Hnco.Tests
