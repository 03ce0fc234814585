import Verif.Population.Model
import Verif.Neighborhood.Model
import Verif.Algorithm.Alg
import Mathlib.Algebra.Order.Monoid.Unbundled.WithTop
import Mathlib.Algebra.Order.Ring.Rat

/-! # Model of multiobjective optimization

`lib/hnco/multiobjective`: dominance, Pareto fronts, NSGA-II.  Objectives are minimized; numbers are rational (`double`). -/

namespace Hnco

open Outcome

/-- `value_t` (`functions/value.hh:42`). -/
abbrev MoValue := List Rat

/-- The loop of `dominates` (`functions/value.hh:53-61`) over the pairs of components; `result` is the local variable. -/
def dominatesLoop : List (Rat × Rat) → Bool → Bool
  | [], result => result
  | (a, b) :: l, result =>
    if a - b > 0 then false
    else if a - b < 0 then dominatesLoop l true
    else dominatesLoop l result

/-- `dominates` (`functions/value.hh:51-62`). -/
def dominates (a b : MoValue) : Outcome Bool := do
  assert (a.length == b.length)
  ok (dominatesLoop (a.zip b) false)

/-! ## Pareto fronts -/

/-- Dominance between individuals: `dominates(_population.values[i], _population.values[j])`. -/
def dominatesAt (values : List MoValue) (i j : Nat) : Outcome Bool := do
  let a ← vget values i
  let b ← vget values j
  dominates a b

/-- The loop of `is_non_dominated` (`pareto-front-computation.hh:68-72`) over the elements of the set in some order. -/
def isNonDominated (values : List MoValue) (i : Nat) : List Nat → Outcome Bool
  | [] => ok true
  | j :: l => do
    let d ← dominatesAt values j i
    if d then ok false else isNonDominated values i l

/-- The loop which fills `_dominated` (`pareto-front-computation.hh:101-104`). -/
def collectDominated (values : List MoValue) (i : Nat) : List Nat → Outcome (List Nat)
  | [] => ok []
  | j :: l => do
    let d ← dominatesAt values i j
    let r ← collectDominated values i l
    if d then ok (j :: r) else ok r

/-- `_non_dominated` and `_next_pool`.  The set is a list without repetitions; since the order in which a hash set is traversed
is unspecified, its elements are shuffled before each traversal. -/
structure FrontState where
  nonDominated : List Nat
  nextPool : List Nat

/-- The loop over `_dominated` (`pareto-front-computation.hh:105-109`). -/
def removeDominated : List Nat → FrontState → Outcome FrontState
  | [], s => ok s
  | j :: l, s => do
    assert (s.nonDominated.count j == 1)
    removeDominated l ⟨s.nonDominated.erase j, s.nextPool ++ [j]⟩

/-- Body of the loop over the pool (`pareto-front-computation.hh:99-114`). -/
def frontStep (values : List MoValue) (i : Nat) (s : FrontState) : Sim FrontState := do
  let order ← Sim.shuffle s.nonDominated
  let b ← Sim.lift (isNonDominated values i order)
  if b then do
    let order ← Sim.shuffle s.nonDominated
    let dominated ← Sim.lift (collectDominated values i order)
    let s ← Sim.lift (removeDominated dominated s)
    Sim.lift (assert (s.nonDominated.count i == 0))
    pure ⟨s.nonDominated ++ [i], s.nextPool⟩
  else pure ⟨s.nonDominated, s.nextPool ++ [i]⟩

/-- The loop over the pool (`pareto-front-computation.hh:98-115`). -/
def frontPass (values : List MoValue) : List Nat → FrontState → Sim FrontState
  | [], s => pure s
  | i :: l, s => do
    let s ← frontStep values i s
    frontPass values l s

/-- `for (auto i : _non_dominated) pareto_fronts[i] = front;` (`pareto-front-computation.hh:116-117`), in some order. -/
def assignFront (front : Nat) : List Nat → List Nat → Outcome (List Nat)
  | [], fronts => ok fronts
  | i :: l, fronts => do
    let fronts ← vset fronts i front
    assignFront front l fronts

/-- The main loop (`pareto-front-computation.hh:95-120`).  A run which is not over after `fuel` iterations counts as undefined: if
the outcome is defined then the loop terminates. -/
def frontLoop (values : List MoValue) : Nat → List Nat → Nat → List Nat → Sim (List Nat)
  | 0, pool, _, fronts => if pool.isEmpty then pure fronts else Sim.lift .ub
  | fuel + 1, pool, front, fronts =>
    if pool.isEmpty then pure fronts
    else do
      let s ← frontPass values pool ⟨[], []⟩
      let order ← Sim.shuffle s.nonDominated
      let fronts ← Sim.lift (assignFront front order fronts)
      frontLoop values fuel s.nextPool (front + 1) fronts

/-- `Nsga2ParetoFrontComputation::compute` (`pareto-front-computation.hh:89-121`). -/
def computeFronts (values : List MoValue) (fuel : Nat) (fronts : List Nat) : Sim (List Nat) := do
  Sim.lift (assert (fronts.length == values.length))
  frontLoop values fuel (List.range values.length) 0 fronts

end Hnco
