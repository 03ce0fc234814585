import Verif.Text
import Verif.Function.Ising

/-!
# Model of quadratic unconstrained binary optimization

Models `lib/hnco/functions/collection/qubo.cc`.
-/

namespace Hnco

open Outcome

variable {K : Type} [Ring K]

/-- Local variables of `Qubo::load` (`qubo.cc:40-45`) and the member `_q`.  Simplification: the counters are
unbounded. -/
structure QuboState (K : Type) where
  /-- `spec` -/
  spec : Bool
  /-- `dimension` -/
  dimension : Int
  /-- `num_diagonal_elements` -/
  numDiagonal : Int
  /-- `num_other_elements` -/
  numOther : Int
  /-- `count_diagonal_elements` -/
  countDiagonal : Int
  /-- `count_other_elements` -/
  countOther : Int
  /-- `_q` -/
  q : List (List K)

/-- Reading of a `p` line (`qubo.cc:64-90`): dimension, number of diagonal elements, number of other
elements. -/
def quboSpecLine (line : List Char) : Outcome (Int × Int × Int) := do
  let t ← orThrow (extractToken line)
  if t.1 ≠ ['p'] then Outcome.throw .runtimeError
  else do
  let t ← orThrow (extractToken t.2)
  if t.1 ≠ ['q', 'u', 'b', 'o'] then Outcome.throw .runtimeError
  else do
  let n ← orThrow (extractInt t.2)
  if n.1 ≠ 0 then Outcome.throw .runtimeError
  else do
  let dimension ← orThrow (extractInt n.2)
  if dimension.1 ≤ 0 then Outcome.throw .runtimeError
  else do
  let numDiagonal ← orThrow (extractInt dimension.2)
  if numDiagonal.1 < 0 then Outcome.throw .runtimeError
  else do
  let numOther ← orThrow (extractInt numDiagonal.2)
  if numOther.1 < 0 then Outcome.throw .runtimeError
  else ok (dimension.1, numDiagonal.1, numOther.1)

/-- Reading of an element line (`qubo.cc:104-121`): line, column, value.  Reading of a `float` is the
parameter `extractFloat`. -/
def quboElementLine [DecidableEq K] (extractFloat : List Char → Option (K × List Char)) (dimension : Int)
    (line : List Char) : Outcome (Nat × Nat × K) := do
  let i ← orThrow (extractInt line)
  if i.1 < 0 ∨ ¬ i.1 < dimension then Outcome.throw .runtimeError
  else do
  let j ← orThrow (extractInt i.2)
  if j.1 < 0 ∨ ¬ j.1 < dimension then Outcome.throw .runtimeError
  else do
  if i.1 > j.1 then Outcome.throw .runtimeError
  else do
  let value ← orThrow (extractFloat j.2)
  if value.1 = 0 then Outcome.throw .runtimeError
  else ok (i.1.toNat, j.1.toNat, value.1)

/-- `m[i][j] = a` on a vector of vectors. -/
def gridSet {α : Type} (m : List (List α)) (i j : Nat) (a : α) : Outcome (List (List α)) := do
  let row ← vget m i
  let row ← vset row j a
  vset m i row

/-- Body of the loop of `Qubo::load` (`qubo.cc:51-129`). -/
def quboLine [DecidableEq K] (extractFloat : List Char → Option (K × List Char)) (line : List Char)
    (st : QuboState K) : Outcome (QuboState K) :=
  match line with
  | [] => ok st
  | c :: _ =>
    if c = 'c' then ok st
    else if c = 'p' then
      if st.spec then Outcome.throw .runtimeError
      else do
        let h ← quboSpecLine line
        ok { spec := true, dimension := h.1, numDiagonal := h.2.1, numOther := h.2.2,
             countDiagonal := st.countDiagonal, countOther := st.countOther,
             q := List.replicate h.1.toNat (List.replicate h.1.toNat 0) }
    else
      if ¬ st.spec then Outcome.throw .runtimeError
      else do
        assert (decide (0 < st.dimension))
        let e ← quboElementLine extractFloat st.dimension line
        let q ← gridSet st.q e.1 e.2.1 (-e.2.2)
        if e.1 = e.2.1 then ok { st with q := q, countDiagonal := st.countDiagonal + 1 }
        else ok { st with q := q, countOther := st.countOther + 1 }

/-- `Qubo::load` (`qubo.cc:37-137`), for an object whose matrix is `q` and a stream with contents `text`:
the new matrix. -/
def quboLoad [DecidableEq K] (extractFloat : List Char → Option (K × List Char)) (q : List (List K))
    (text : List Char) : Outcome (List (List K)) := do
  let st ← forEach (splitLines text) (quboLine extractFloat)
    { spec := false, dimension := 0, numDiagonal := 0, numOther := 0, countDiagonal := 0, countOther := 0,
      q := q }
  if st.countOther ≠ st.numOther then Outcome.throw .runtimeError
  else if st.countDiagonal ≠ st.numDiagonal then Outcome.throw .runtimeError
  else ok st.q

/-- Body of the outer loop of `Qubo::evaluate` (`qubo.cc:150-156`). -/
def quboRow (q : List (List K)) (x : BV) (i : Nat) (result : K) : Outcome K := do
  let b ← vget x i
  if !b then ok result
  else do
    let line ← vget q i
    let a ← vget line i
    forRange (i + 1) q.length (fun j result => do
      let b ← vget x j
      if b then do
        let a ← vget line j
        ok (result + a)
      else ok result) (result + a)

/-- `Qubo::evaluate` (`qubo.cc:140-160`). -/
def quboEval (q : List (List K)) (x : BV) : Outcome K := do
  assert (x.length == q.length)
  forRange 0 q.length (quboRow q x) 0

end Hnco
