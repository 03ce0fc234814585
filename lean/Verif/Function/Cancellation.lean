import Verif.Function.Base
import Mathlib.Algebra.Order.Field.Basic

/-!
# Model of summation cancellation

Models `lib/hnco/functions/collection/cancellation.{hh,cc}`.  Real numbers are in an arbitrary ordered
field; `sin` is an arbitrary function.
-/

namespace Hnco

open Outcome

variable {K : Type} [Field K] [LinearOrder K]

/-- Constructor of `SummationCancellation` (`cancellation.hh:68-74`): the size of `_buffer`. -/
def cancellationNew (n : Nat) : Outcome Nat :=
  if n % 9 != 0 then .throw .runtimeError else return n / 9

/-- The loops that read eight bits (`cancellation.cc:42-48`, `54-60`): adds `2^j` for each bit equal to
`bit`; the state is `(r, base)`. -/
def readByte (x : BV) (offset : Nat) (bit : Bool) : Outcome (Int × Int) :=
  forRange (offset + 1) (offset + 9) (fun j s => do
    let b ← vget x j
    return (if b == bit then s.1 + s.2 else s.1, s.2 * 2)) (0, 1)

/-- Body of the loop of `SummationCancellation::convert` (`cancellation.cc:38-67`): the number encoded from
position `9 * i` on. -/
def convertOne (x : BV) (i : Nat) : Outcome K := do
  let offset := 9 * i
  let sign ← vget x offset
  if sign == false then do
    let s ← readByte x offset true
    assert (0 ≤ s.1)
    assert (s.1 ≤ 255)
    return (s.1 : K) / 100
  else do
    let s ← readByte x offset false
    let r := s.1 + 1
    assert (1 ≤ r)
    assert (r ≤ 256)
    return -(r : K) / 100

/-- `SummationCancellation::convert` (`cancellation.cc:33-68`): the new contents of `_buffer`; it is built here
from left to right instead of being overwritten. -/
def cancellationConvert (size : Nat) (x : BV) : Outcome (List K) := do
  assert (x.length ≥ 9 * size)
  forRange 0 size (fun i buffer => do
    let t ← convertOne x i
    return buffer ++ [t]) []

/-- `std::partial_sum` in place (`cancellation.cc:75`), with the sum so far. -/
def partialSum (acc : K) : List K → List K
  | [] => []
  | a :: l => (acc + a) :: partialSum (acc + a) l

/-- `std::transform` with `fabs` and `std::accumulate` (`cancellation.cc:76-78`, `88-90`). -/
def sumAbs (l : List K) : K := (l.map (fun a => |a|)).foldl (fun r a => r + a) 0

/-- `SummationCancellation::evaluate` (`cancellation.cc:71-79`). -/
def cancellationEval (size : Nat) (x : BV) : Outcome K := do
  let buffer ← cancellationConvert size x
  return -(sumAbs (partialSum 0 buffer))

/-- The loop of `SinusSummationCancellation::evaluate` (`cancellation.cc:86-87`): each element but the first
gets the sine of the previous (already modified) one added; `prev` is the previous element. -/
def sinusSum (sin : K → K) (prev : K) : List K → List K
  | [] => []
  | a :: l => (a + sin prev) :: sinusSum sin (a + sin prev) l

/-- The same loop started at the first element (`cancellation.cc:86-87`). -/
def sinusSumFrom (sin : K → K) : List K → List K
  | [] => []
  | a :: l => a :: sinusSum sin a l

/-- `SinusSummationCancellation::evaluate` (`cancellation.cc:82-91`). -/
def sinusCancellationEval (sin : K → K) (size : Nat) (x : BV) : Outcome K := do
  let buffer ← cancellationConvert size x
  return -(sumAbs (sinusSumFrom sin buffer))

/-- `SummationCancellation` (`cancellation.hh:46-89`). -/
def summationCancellation (n size : Nat) : Fn K where
  size := n
  hasMax := true
  maximum := ok 0
  eval := cancellationEval size
  hasInc := false
  evalInc := fun _ _ _ => .throw .runtimeError

/-- `SinusSummationCancellation` (`cancellation.hh:101-112`). -/
def sinusSummationCancellation (sin : K → K) (n size : Nat) : Fn K where
  size := n
  hasMax := true
  maximum := ok 0
  eval := sinusCancellationEval sin size
  hasInc := false
  evalInc := fun _ _ _ => .throw .runtimeError

end Hnco
