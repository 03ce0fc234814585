import Verif.Algorithm.AlgLemmas

/-!
# Specification of search paths

A search which is at a vector of known value looks at a vector at an allowed distance, evaluates it, and moves there or stays.
-/

namespace Hnco

variable {K : Type}

/-- The number of bits at which two vectors of the same size differ. -/
def differingBits (x y : BV) : Nat := ((List.range x.length).filter (fun i => x[i]? != y[i]?)).length

/-- From `start`, the vectors of the list can be evaluated in this order, and the search is at the last argument then: each vector
has as many differing bits from the position as `step` allows, and the search may move to it or stay as `accept` says, given the
value of the vector and that of the position. -/
inductive SearchPath (step : Nat → Prop) (accept : K → K → Bool → Prop) (start : BV × K) :
    List (BV × K) → BV × K → Prop where
  | start : SearchPath step accept start [] start
  | move {later : List (BV × K)} {pos c : BV × K} (h : SearchPath step accept start later pos)
    (hd : step (differingBits pos.1 c.1)) (ha : accept c.2 pos.2 true) : SearchPath step accept start (later ++ [c]) c
  | stay {later : List (BV × K)} {pos c : BV × K} (h : SearchPath step accept start later pos)
    (hd : step (differingBits pos.1 c.1)) (ha : accept c.2 pos.2 false) : SearchPath step accept start (later ++ [c]) pos

/-- The search moves to each vector. -/
def acceptAll (_new _old : K) (moves : Bool) : Prop := moves = true

/-- The position after the vectors of a list and the number of those rejected since the last move, if the search moves as
`accepts` says. -/
def replay (accepts : K → K → Bool) (start : BV × K) (later : List (BV × K)) : (BV × K) × Nat :=
  later.foldl (fun at' c => if accepts c.2 at'.1.2 then (c, 0) else (at'.1, at'.2 + 1)) (start, 0)

/-- The number of vectors rejected since the last move. -/
def rejectedInARow (accepts : K → K → Bool) (start : BV × K) (later : List (BV × K)) : Nat := (replay accepts start later).2

section
variable [LinearOrder K]

/-- The search moves to vectors which are at least as good. -/
def acceptNotWorse (new old : K) (moves : Bool) : Prop := moves = true ↔ old ≤ new

/-- The search moves to vectors which are better. -/
def acceptBetter (new old : K) (moves : Bool) : Prop := moves = true ↔ old < new

/-- The search moves to vectors which are at least as good, and possibly to others. -/
def acceptPossibly (new old : K) (moves : Bool) : Prop := old ≤ new → moves = true

/-- The evaluations begin with `first` ones, and those after them are a search path from the first best of them to `pos`. -/
def HasPath (step : Nat → Prop) (accept : K → K → Bool → Prop) (first : Nat) (calls : List (BV × K)) (pos : BV × K) : Prop :=
  ∃ trials later start, calls = trials ++ later ∧ trials.length = first ∧ FirstBestOf trials start ∧
    SearchPath step accept start later pos

end

end Hnco
