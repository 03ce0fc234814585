import Verif.Function.Base
import Verif.Algorithm.LocalSearch

/-!
# Model of the tests of maximality

Models `bv_is_locally_maximal` and `bv_is_globally_maximal` (`lib/hnco/functions/function.cc:132-150`).
-/

namespace Hnco

open Outcome

variable {K ι : Type} [LT K] [DecidableLT K]

/-- The condition of the loop of `bv_is_locally_maximal` (`function.cc:138`); the flag of the state is raised by `return false`. -/
def localTestCond (N : NbhIter ι) (s : ι × Bool) : Outcome Bool := if s.2 then ok false else N.hasNext s.1

/-- The body of the loop (`function.cc:139-140`). -/
def localTestBody (N : NbhIter ι) (f : Fn K) (value : K) (s : ι × Bool) : Outcome (ι × Bool) := do
  let (x, it) ← N.next s.1
  let v ← f.eval x
  ok (it, decide (value < v))

/-- `bv_is_locally_maximal` (`function.cc:132-143`), as a relation between the arguments and the outcome. -/
def LocalTest (N : NbhIter ι) (f : Fn K) (bv : BV) (it : ι) (r : Outcome Bool) : Prop :=
  ∃ value, f.eval bv = ok value ∧ ∃ it', N.setOrigin it bv = ok it' ∧
    ∃ s, WhileTo (localTestCond N) (localTestBody N f value) (N.init it', false) (ok s) ∧ r = ok (!s.2)

/-- `bv_is_globally_maximal` (`function.cc:145-150`). -/
def globalTest [DecidableEq K] (f : Fn K) (bv : BV) : Outcome Bool := do
  assert f.hasMax
  let v ← f.eval bv
  let m ← f.maximum
  ok (decide (v = m))

end Hnco
