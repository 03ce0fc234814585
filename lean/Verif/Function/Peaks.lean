import Verif.BitVector.Model
import Verif.Function.Base
import Mathlib.Algebra.Order.Group.Int

/-!
# Model of Jump, DeceptiveJump, Trap, FourPeaks, SixPeaks and LongPath

Models `lib/hnco/functions/collection/{jump,trap,four-peaks,long-path}.{hh,cc}`.  Values are integers
stored in `double`: they are in `Int`, without rounding.  Sizes are natural numbers.
-/

namespace Hnco

open Outcome

/-- Constructor of `Jump` (`jump.cc:32-40`). -/
def jumpNew (bvSize : Nat) (gap : Int) : Outcome Unit := do
  assert (0 < bvSize)
  if gap < 1 then .throw .runtimeError else return ()

/-- `Jump::evaluate` (`jump.cc:43-59`). -/
def jumpEval (bvSize : Nat) (gap : Int) (x : BV) : Outcome Int := do
  assert (x.length == bvSize)
  let weight := bvHammingWeight x
  if weight = x.length then return weight
  else do
    assert (weight < x.length)
    if (weight : Int) > x.length - gap then return 0 else return weight

/-- `Jump` (`jump.hh:41-69`). -/
def jump (bvSize : Nat) (gap : Int) : Fn Int where
  size := bvSize
  hasMax := true
  maximum := ok bvSize
  eval := jumpEval bvSize gap
  hasInc := false
  evalInc := fun _ _ _ => .throw .runtimeError

/-- `DeceptiveJump::evaluate` (`jump.cc:73-85`); its constructor (`jump.cc:62-70`) is that of `Jump`. -/
def deceptiveJumpEval (bvSize : Nat) (gap : Int) (x : BV) : Outcome Int := do
  assert (x.length == bvSize)
  let weight := bvHammingWeight x
  if weight < x.length && (weight : Int) > x.length - gap then return x.length - weight
  else return gap + weight

/-- `DeceptiveJump` (`jump.hh:85-113`). -/
def deceptiveJump (bvSize : Nat) (gap : Int) : Fn Int where
  size := bvSize
  hasMax := true
  maximum := ok (bvSize + gap)
  eval := deceptiveJumpEval bvSize gap
  hasInc := false
  evalInc := fun _ _ _ => .throw .runtimeError

/-- Constructor of `Trap` (`trap.hh:64-72`): the member `_trap_size`. -/
def trapNew (bvSize numTraps : Nat) : Outcome Nat := do
  assert (0 < numTraps)
  if bvSize % numTraps != 0 then .throw .runtimeError else return bvSize / numTraps

/-- Body of the outer loop of `Trap::evaluate` (`trap.cc:35-46`); the state is `(result, first)`, and
`last = first + _trap_size`. -/
def trapBody (trapSize : Nat) (x : BV) (s : Int × Nat) : Outcome (Int × Nat) := do
  let last := s.2 + trapSize
  let weight ← forRange s.2 last (fun j weight => do
    let b ← vget x j
    return weight + b.toNat) 0
  if weight = trapSize then return (s.1 + trapSize, last)
  else do
    assert (weight < trapSize)
    return (s.1 + (trapSize - weight - 1), last)

/-- `Trap::evaluate` (`trap.cc:29-48`). -/
def trapEval (numTraps trapSize : Nat) (x : BV) : Outcome Int := do
  let s ← forRange 0 numTraps (fun _ s => trapBody trapSize x s) (0, 0)
  return s.1

/-- `Trap` (`trap.hh:43-90`). -/
def trap (bvSize numTraps trapSize : Nat) : Fn Int where
  size := bvSize
  hasMax := true
  maximum := ok bvSize
  eval := trapEval numTraps trapSize
  hasInc := false
  evalInc := fun _ _ _ => .throw .runtimeError

/-- `head(x, b)` (`four-peaks.cc:34-43`). -/
def headRun (b : Bool) : BV → Nat
  | [] => 0
  | a :: x => if a == b then headRun b x + 1 else 0

/-- `tail(x, b)` (`four-peaks.cc:45-54`). -/
def tailRun (b : Bool) (x : BV) : Nat := headRun b x.reverse

/-- Constructors of `FourPeaks` and `SixPeaks` (`four-peaks.cc:57-67`, `81-91`): the member
`_maximum`. -/
def peaksNew (bvSize : Nat) (threshold : Int) : Outcome Int :=
  if threshold > (bvSize / 2 : Nat) - 1 then .throw .runtimeError
  else return 2 * bvSize - threshold - 1

/-- `FourPeaks::evaluate` (`four-peaks.cc:69-78`). -/
def fourPeaksEval (threshold : Int) (x : BV) : Outcome Int :=
  let h1 := headRun true x
  let t0 := tailRun false x
  let result := max h1 t0
  if h1 > threshold ∧ t0 > threshold then return result + x.length else return result

/-- `FourPeaks` (`four-peaks.hh:60-93`). -/
def fourPeaks (bvSize : Nat) (threshold maximum : Int) : Fn Int where
  size := bvSize
  hasMax := true
  maximum := ok maximum
  eval := fourPeaksEval threshold
  hasInc := false
  evalInc := fun _ _ _ => .throw .runtimeError

/-- `SixPeaks::evaluate` (`four-peaks.cc:93-105`). -/
def sixPeaksEval (threshold : Int) (x : BV) : Outcome Int :=
  let h0 := headRun false x
  let h1 := headRun true x
  let t0 := tailRun false x
  let t1 := tailRun true x
  let result := max (max h0 h1) (max t0 t1)
  if (h0 > threshold ∧ t1 > threshold) ∨ (h1 > threshold ∧ t0 > threshold) then
    return result + x.length
  else return result

/-- `SixPeaks` (`four-peaks.hh:128-161`). -/
def sixPeaks (bvSize : Nat) (threshold maximum : Int) : Fn Int where
  size := bvSize
  hasMax := true
  maximum := ok maximum
  eval := sixPeaksEval threshold
  hasInc := false
  evalInc := fun _ _ _ => .throw .runtimeError

/-- Constructor of `LongPath` (`long-path.cc:36-48`). -/
def longPathNew (bvSize prefixLength : Nat) : Outcome Unit := do
  assert (0 < bvSize)
  assert (0 < prefixLength)
  if bvSize % prefixLength != 0 then .throw .runtimeError
  else if prefixLength < 2 then .throw .runtimeError
  else return ()

/-- `is_bridge` (`long-path.cc:72-83`) on the bits of the range; dereferencing `first` is undefined if
the range is empty. -/
def isBridge : BV → Outcome Bool
  | [] => ub
  | b :: l =>
    if b != false then return false
    else
      let iter := (b :: l).dropWhile (fun b => b != true)
      if iter.isEmpty then return false else return iter.all (fun b => b == true)

/-- `compute_index` (`long-path.cc:86-123`) on the bits from `first` to `last`.  The first argument
bounds the depth of the recursion; running out of it is `ub`. -/
def computeIndex (k : Nat) : Nat → BV → Outcome Int
  | 0, _ => ub
  | fuel + 1, l =>
    if l = [] then return 0
    else if l.length < k then ub
    else
      let pre := l.take k
      let rest := l.drop k
      let pathLength : Int := k * 2 ^ (rest.length / k) - (k - 1)
      if pre.all (fun b => b == false) then computeIndex k fuel rest
      else do
        let bridge ← isBridge pre
        if bridge then do
          let index ← computeIndex k fuel rest
          if index = pathLength - 1 then
            return pathLength + (k - pre.findIdx (fun b => b == true)) - 1
          else return -1
        else if pre.all (fun b => b == true) then do
          let index ← computeIndex k fuel rest
          if index < 0 then return -1
          else return pathLength + (k - 1) + (pathLength - 1) - index
        else return -1

/-- `LongPath::evaluate` (`long-path.cc:126-139`). -/
def longPathEval (bvSize k : Nat) (x : BV) : Outcome Int := do
  assert (x.length == bvSize)
  let index ← computeIndex k (x.length + 1) x
  if index < 0 then
    if x.length < k then ub
    else return -(bvSize * bvHammingWeight (x.take k) + bvHammingWeight (x.drop k))
  else return index + 1

/-- `LongPath` (`long-path.hh:62-113`, `has_known_maximum` and `get_maximum` at `long-path.cc:51-68`).
The test `log(k) / log(2) + n / k <= 53` on floating point logarithms is taken without rounding, i.e.
`k 2^(n/k) <= 2^53`. -/
def longPath (bvSize k : Nat) : Fn Int where
  size := bvSize
  hasMax := decide (k * 2 ^ (bvSize / k) ≤ 2 ^ 53)
  maximum := if k * 2 ^ (bvSize / k) ≤ 2 ^ 53 then ok (k * 2 ^ (bvSize / k) - k + 1)
    else .throw .runtimeError
  eval := longPathEval bvSize k
  hasInc := false
  evalInc := fun _ _ _ => .throw .runtimeError

end Hnco
