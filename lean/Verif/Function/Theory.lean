import Verif.BitVector.Model
import Verif.Function.Base
import Mathlib.Algebra.Order.Ring.Defs

/-!
# Model of theory functions, linear functions and Walsh expansions of degree 1

Models `lib/hnco/functions/collection/theory.{hh,cc}`, `linear-function.{hh,cc}` and
`walsh/walsh-expansion-1.{hh,cc}`.  Values of theory functions, which are small integers stored in
`double`, are in `Int`; other values are in an arbitrary ordered ring.
-/

namespace Hnco

open Outcome

/-- `OneMax::evaluate_incrementally` (`theory.cc:40-50`). -/
def oneMaxInc (x : BV) (v : Int) (flips : List Nat) : Outcome Int := do
  let delta ← forEach flips (fun i (delta : Int) => do
    let b ← vget x i
    return if b then delta - 1 else delta + 1) 0
  return v + delta

/-- `OneMax` (`theory.hh:37-72`, `theory.cc:34-50`). -/
def oneMax (n : Nat) : Fn Int where
  size := n
  hasMax := true
  maximum := ok n
  eval := fun x => ok (bvHammingWeight x)
  hasInc := true
  evalInc := oneMaxInc

/-- The loop of `LeadingOnes::evaluate` (`theory.cc:55-59`): index of the first zero. -/
def leadingOnesLoop : BV → Nat
  | [] => 0
  | b :: x => if b == false then 0 else leadingOnesLoop x + 1

/-- `LeadingOnes` (`theory.hh:76-103`, `theory.cc:52-60`). -/
def leadingOnes (n : Nat) : Fn Int where
  size := n
  hasMax := true
  maximum := ok n
  eval := fun x => ok (leadingOnesLoop x)
  hasInc := false
  evalInc := fun _ _ _ => .throw .runtimeError

/-- The loop of `Needle::evaluate` (`theory.cc:65-68`). -/
def needleLoop : BV → Int
  | [] => 1
  | b :: x => if b == false then 0 else needleLoop x

/-- `Needle` (`theory.hh:107-133`, `theory.cc:62-69`). -/
def needle (n : Nat) : Fn Int where
  size := n
  hasMax := true
  maximum := ok 1
  eval := fun x => ok (needleLoop x)
  hasInc := false
  evalInc := fun _ _ _ => .throw .runtimeError

/-- `find(x.begin(), x.end(), 0) - x.begin()` (`theory.cc:109`, `124`). -/
def findZero (x : BV) : Nat := (x.takeWhile (fun b => b != false)).length

/-- `Ridge::evaluate` (`theory.cc:106-118`). -/
def ridgeEval (n : Nat) (x : BV) : Outcome Int :=
  if (x.drop (findZero x)).all (fun b => b == false) then do
    assert (bvHammingWeight x == findZero x)
    return (n : Int) + findZero x
  else return (n : Int) - bvHammingWeight x

/-- `Ridge` (`theory.hh:175-201`). -/
def ridge (n : Nat) : Fn Int where
  size := n
  hasMax := true
  maximum := ok (2 * n)
  eval := ridgeEval n
  hasInc := false
  evalInc := fun _ _ _ => .throw .runtimeError

/-- `Plateau::evaluate` (`theory.cc:121-135`). -/
def plateauEval (n : Nat) (x : BV) : Outcome Int :=
  if findZero x = x.length then do
    assert (bvHammingWeight x == n)
    return (n : Int) + 2
  else if (x.drop (findZero x)).all (fun b => b == false) then return (n : Int) + 1
  else return (n : Int) - bvHammingWeight x

/-- `Plateau` (`theory.hh:207-229`). -/
def plateau (n : Nat) : Fn Int where
  size := n
  hasMax := true
  maximum := ok (n + 2)
  eval := plateauEval n
  hasInc := false
  evalInc := fun _ _ _ => .throw .runtimeError

/-- `std::all_of(x.begin() + a, x.begin() + b, p)`; forming the iterators is undefined if the range is
not within the vector. -/
def allOf (x : BV) (a b : Nat) (p : Bool → Bool) : Outcome Bool :=
  if a ≤ b ∧ b ≤ x.length then ok (((x.drop a).take (b - a)).all p) else ub

/-- Number of bits of `int` (`8 * sizeof(int)`, `theory.cc:76`). -/
def intBits : Nat := 32

/-- `Hiff::Hiff` (`theory.cc:71-84`): the member `_depth`.  The parameter is meant to be a value of type
`int`, i.e. less than `2 ^ 31`. -/
def hiffNew (bvSize : Nat) : Outcome Nat := do
  assert (0 < bvSize)
  let bs := (List.range intBits).map (fun i => bvSize.testBit i)
  if bs.count true != 1 then .throw .runtimeError
  else return bs.findIdx (fun b => b)

/-- The inner loop of `Hiff::evaluate` (`theory.cc:91-98`): `result` and `last`. -/
def hiffLevel (x : BV) (numBlocks blockSize : Nat) (result : Int) : Outcome (Int × Bool × Nat) :=
  forRange 0 numBlocks (fun _ (s : Int × Bool × Nat) => do
    let b0 ← vget x s.2.2
    let u ← allOf x s.2.2 (s.2.2 + blockSize) (fun b => b == b0)
    return if u then (s.1 + blockSize, false, s.2.2 + blockSize)
      else (s.1, s.2.1, s.2.2 + blockSize)) (result, true, 0)

/-- The outer loop of `Hiff::evaluate` (`theory.cc:90-101`), with the number of remaining levels. -/
def hiffLoop (x : BV) : Nat → Nat → Nat → Int → Outcome Int
  | 0, _, _, result => ok result
  | levels + 1, numBlocks, blockSize, result => do
    let r ← hiffLevel x numBlocks blockSize result
    if r.2.1 then return r.1 else hiffLoop x levels (numBlocks / 2) (blockSize * 2) r.1

/-- Product of non negative values of type `int`: undefined on overflow. -/
def intMul (a b : Nat) : Outcome Int := if a * b < 2 ^ 31 then ok (a * b) else ub

/-- `Hiff` (`theory.hh:143-168`, `theory.cc:71-103`) with members `_bv_size` and `_depth`. -/
def hiff (bvSize depth : Nat) : Fn Int where
  size := bvSize
  hasMax := true
  maximum := intMul (depth + 1) bvSize
  eval := fun x => hiffLoop x (depth + 1) bvSize 1 0
  hasInc := false
  evalInc := fun _ _ _ => .throw .runtimeError

section Linear

variable {K : Type} [Ring K] [LinearOrder K]

/-- `LinearFunction::get_maximum` (`linear-function.cc:34-42`). -/
def linearMaximum (w : List K) : Outcome K :=
  forRange 0 w.length (fun i r => do
    let a ← vget w i
    return if 0 < a then r + a else r) 0

/-- `LinearFunction::evaluate` (`linear-function.cc:45-55`). -/
def linearEval (w : List K) (x : BV) : Outcome K := do
  assert (x.length == w.length)
  forRange 0 x.length (fun i r => do
    let b ← vget x i
    if b then do
      let a ← vget w i
      return r + a
    else return r) 0

/-- `LinearFunction::evaluate_incrementally` (`linear-function.cc:58-69`). -/
def linearInc (w : List K) (x : BV) (v : K) (flips : List Nat) : Outcome K :=
  forEach flips (fun i v => do
    let b ← vget x i
    let a ← vget w i
    return if b then v - a else v + a) v

/-- `LinearFunction` (`linear-function.hh:39-157`). -/
def linearFunction (w : List K) : Fn K where
  size := w.length
  hasMax := true
  maximum := linearMaximum w
  eval := linearEval w
  hasInc := true
  evalInc := linearInc w

/-- `WalshExpansion1::get_maximum` (`walsh-expansion-1.cc:34-44`). -/
def walsh1Maximum (w : List K) : Outcome K :=
  forEach w (fun a r => return if 0 < a then r + a else r - a) 0

/-- `WalshExpansion1::evaluate` (`walsh-expansion-1.cc:47-62`). -/
def walsh1Eval (w : List K) (s : BV) : Outcome K := do
  assert (s.length == w.length)
  forRange 0 w.length (fun i r => do
    let b ← vget s i
    let a ← vget w i
    return if b then r - a else r + a) 0

/-- `WalshExpansion1::evaluate_incrementally` (`walsh-expansion-1.cc:65-78`). -/
def walsh1Inc (w : List K) (x : BV) (v : K) (flips : List Nat) : Outcome K := do
  assert (x.length == w.length)
  forEach flips (fun i v => do
    let b ← vget x i
    let a ← vget w i
    return if b then v + 2 * a else v - 2 * a) v

/-- `WalshExpansion1` (`walsh-expansion-1.hh:49-158`). -/
def walshExpansion1 (w : List K) : Fn K where
  size := w.length
  hasMax := true
  maximum := walsh1Maximum w
  eval := walsh1Eval w
  hasInc := true
  evalInc := walsh1Inc w

end Linear

end Hnco
