import Verif.Iterator.Model
import Verif.Function.Base
import Mathlib.Algebra.Ring.Defs

/-!
# Model of Walsh transforms and Walsh expansions

Models `compute_walsh_transform` and `compute_fast_walsh_transform` of
`lib/hnco/functions/function.cc`, `lib/hnco/functions/collection/walsh/walsh-expansion.cc` and
`walsh-expansion-2.cc`.
-/

namespace Hnco

open Outcome

variable {K : Type} [Ring K]

/-- `while (it.has_next()) { const auto& x = it.next(); body; }`.  The first argument is a bound on the
number of tests of the condition.  A loop that exceeds the bound gives `ub`, so that a normal outcome also
shows that the loop terminates. -/
def iterLoop {I α σ : Type} (hasNext : I → Outcome Bool) (next : I → Outcome (α × I))
    (body : α → σ → Outcome σ) : Nat → I → σ → Outcome (I × σ)
  | 0, _, _ => ub
  | fuel + 1, it, s => do
    let b ← hasNext it
    if b then do
      let p ← next it
      let s ← body p.1 s
      iterLoop hasNext next body fuel p.2 s
    else ok (it, s)

/-- `1 << n` (of type `int`).  Simplification: 31 bits or more, where the result is not representable, is
`ub`. -/
def shiftOne (n : Nat) : Outcome Nat := if n < 31 then ok (2 ^ n) else ub

/-- A `WalshTerm` (`lib/hnco/functions/walsh-term.hh:33-53`). -/
structure WalshTerm (K : Type) where
  /-- `feature` -/
  feature : List Bool
  /-- `coefficient` -/
  coefficient : K
  deriving DecidableEq

/-- Body of the inner loop of `compute_walsh_transform` (`function.cc:49-55`). -/
def walshBody (x : BV) (value : K) (u : BV) (coefficients : List K) : Outcome (List K) := do
  let index ← bvToWord u
  assert (index.toNat < coefficients.length)
  let b ← bvDotProduct x u
  let c ← vget coefficients index.toNat
  vset coefficients index.toNat (if b then c - value else c + value)

/-- Coefficients computed by `compute_walsh_transform` (`function.cc:35-57`). -/
def walshCoefficients (fn : Fn K) : Outcome (List K) := do
  let n := fn.size
  let size ← shiftOne n
  let r ← iterLoop HypercubeIterator.hasNext HypercubeIterator.next
    (fun x (st : HypercubeIterator × List K) => do
      let value ← fn.eval x
      iterLoop HypercubeIterator.hasNext HypercubeIterator.next (walshBody x value) (2 ^ n + 1)
        st.1.init st.2)
    (2 ^ n + 1) (HypercubeIterator.new n).init (HypercubeIterator.new n, List.replicate size 0)
  return r.2.2

/-- The non zero terms (`function.cc:59-72`, and the identical lines `115-128`). -/
def walshTerms [DecidableEq K] (n : Nat) (coefficients : List K) : Outcome (List (WalshTerm K)) := do
  let r ← forRange 0 coefficients.length (fun i (st : List (WalshTerm K) × List Bool × BV) => do
    let c ← vget coefficients i
    if c ≠ 0 then do
      let bv ← bvFromWord st.2.2 (BitVec.ofNat 64 i)
      let feature ← bvToVectorBool st.2.1 bv
      ok (st.1 ++ [{ feature := feature, coefficient := c }], feature, bv)
    else ok st) ([], List.replicate n false, List.replicate n false)
  return r.1

/-- `compute_walsh_transform` (`function.cc:32-74`). -/
def computeWalshTransform [DecidableEq K] (fn : Fn K) : Outcome (List (WalshTerm K)) := do
  let coefficients ← walshCoefficients fn
  walshTerms fn.size coefficients

/-- `std::copy(u.begin(), u.end(), x.begin())`. -/
def copyFront (u x : BV) : Outcome BV :=
  if u.length ≤ x.length then ok (u ++ x.drop u.length) else ub

/-- `std::copy_backward(v.begin(), v.end(), x.end())`. -/
def copyBack (v x : BV) : Outcome BV :=
  if v.length ≤ x.length then ok (x.take (x.length - v.length) ++ v) else ub

/-- The two values combined at a step of the fast transform, and the contents of `x`
(`function.cc:99-108`). -/
def fastWalshRead (fn : Fn K) (k index0 index1 : Nat) (x : BV) (coefficients : List K) :
    Outcome (K × K × BV) :=
  if k = 0 then do
    let x ← vset x k false
    let f0 ← fn.eval x
    let x ← vset x k true
    let f1 ← fn.eval x
    ok (f0, f1, x)
  else do
    let f0 ← vget coefficients index0
    let f1 ← vget coefficients index1
    ok (f0, f1, x)

/-- Body of the innermost loop of `compute_fast_walsh_transform` (`function.cc:91-110`); the state is made
of `x` and of the coefficients. -/
def fastWalshBody (fn : Fn K) (k : Nat) (v : BV) (st : BV × List K) : Outcome (BV × List K) := do
  let x ← copyBack v st.1
  let x ← vset x k false
  let index0 ← bvToWord x
  assert (index0.toNat < st.2.length)
  let x ← vset x k true
  let index1 ← bvToWord x
  assert (index1.toNat < st.2.length)
  let p ← fastWalshRead fn k index0.toNat index1.toNat x st.2
  let coefficients ← vset st.2 index0.toNat (p.1 + p.2.1)
  let coefficients ← vset coefficients index1.toNat (p.1 - p.2.1)
  ok (p.2.2, coefficients)

/-- Body of the loop on prefixes of `compute_fast_walsh_transform` (`function.cc:87-111`). -/
def fastWalshPrefix (fn : Fn K) (n k : Nat) (u : BV) (st : BV × List K) : Outcome (BV × List K) := do
  let x ← copyFront u st.1
  let r ← iterLoop HypercubeIterator.extHasNext HypercubeIterator.extNext (fastWalshBody fn k)
    (2 ^ (n - k - 1) + 1) (HypercubeIterator.new (n - k - 1)) (x, st.2)
  ok r.2

/-- Coefficients computed by `compute_fast_walsh_transform` (`function.cc:79-113`). -/
def fastWalshCoefficients (fn : Fn K) : Outcome (List K) := do
  let n := fn.size
  let size ← shiftOne n
  let r ← forRange 0 n (fun k (st : BV × List K) => do
    let r ← iterLoop HypercubeIterator.extHasNext HypercubeIterator.extNext (fastWalshPrefix fn n k)
      (2 ^ k + 1) (HypercubeIterator.new k) st
    ok r.2) (List.replicate n false, List.replicate size 0)
  return r.2

/-- `compute_fast_walsh_transform` (`function.cc:76-130`). -/
def computeFastWalshTransform [DecidableEq K] (fn : Fn K) : Outcome (List (WalshTerm K)) := do
  let coefficients ← fastWalshCoefficients fn
  walshTerms fn.size coefficients

/-- `WalshExpansion::evaluate` (`walsh-expansion.cc:33-44`). -/
def walshExpansionEval (terms : List (WalshTerm K)) (x : BV) : Outcome K :=
  forEach terms (fun t result => do
    let b ← bvDotProduct x t.feature
    return if b then result - t.coefficient else result + t.coefficient) 0

/-- `WalshExpansion2::evaluate` (`walsh-expansion-2.cc:52-79`); `linear` and `quadratic` are the members
`_linear` and `_quadratic`. -/
def walshExpansion2Eval (linear : List K) (quadratic : List (List K)) (s : BV) : Outcome K := do
  assert (s.length == linear.length)
  assert (s.length == quadratic.length)
  let result ← forRange 0 linear.length (fun i result => do
    let b ← vget s i
    let c ← vget linear i
    return if b then result - c else result + c) 0
  forRange 0 quadratic.length (fun i result => do
    let line ← vget quadratic i
    let b ← vget s i
    forRange 0 i (fun j result => do
      let b' ← vget s j
      let c ← vget line j
      return if b' == b then result + c else result - c) result) result

end Hnco
