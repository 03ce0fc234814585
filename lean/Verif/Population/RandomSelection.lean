import Verif.Base
import Mathlib.Algebra.Order.Field.Basic

/-!
# Model of fitness proportionate and Boltzmann selections

Models `lib/hnco/algorithms/evolutionary-algorithms/random-selection.hh` and `.cc`.  Values are taken in an ordered field `K`
with exact arithmetic; the variate of the generator is an argument `u` with `0 <= u < 1`, and the exponential is a parameter.
-/

namespace Hnco

open Outcome

variable {K : Type} [Field K] [LinearOrder K]

/-- `std::discrete_distribution<>::param_type params(first, last)`: the weights.  Negative weights and a null sum break the
precondition of the constructor. -/
def discreteParams (weights : List K) : Outcome (List K) := do
  assert (decide (weights = []) || (weights.all (fun w => decide (0 ≤ w)) && decide (0 < weights.sum)))
  ok weights

/-- The search of the index in `std::discrete_distribution::operator()`: the first index `i` such that the sum of the weights
up to `i` exceeds `u` times the sum of all weights. -/
def discreteSearch (t : K) : List K → K → Nat → Outcome Nat
  | [], _, _ => ub
  | w :: ws, acc, i => if t < acc + w then ok i else discreteSearch t ws (acc + w) (i + 1)

/-- `std::discrete_distribution::operator()`; without weights (in particular before `init`), the value is always 0. -/
def discreteSample (weights : List K) (u : K) : Outcome Nat :=
  match weights with
  | [] => ok 0
  | _ :: _ => discreteSearch (u * weights.sum) weights 0 0

/-- `FitnessProportionateSelection::init` (`random-selection.cc:51-56`): the new weights. -/
def proportionateInit (values : List K) : Outcome (List K) := discreteParams values

/-- `FitnessProportionateSelection::select` (`random-selection.cc:58-64`). -/
def proportionateSelect (weights : List K) (bvs : List BV) (u : K) : Outcome BV := do
  let index ← discreteSample weights u
  assert (decide (index < bvs.length))
  vget bvs index

/-- `*std::max_element(ys.begin(), ys.end())`. -/
def maxElement : List K → Outcome K
  | [] => ub
  | y :: ys => ok (ys.foldl max y)

/-- Body of the loop of `BoltzmannSelection::init` (`random-selection.cc:76-79`). -/
def boltzmannStep (exp : K → K) (beta fmax : K) (ys : List K) (i : Nat) (zs : List K) : Outcome (List K) := do
  let y ← vget ys i
  let z := exp (beta * (y - fmax))
  let zs ← vset zs i z
  assert (decide (z ≤ 1))
  ok zs

/-- `BoltzmannSelection::init` (`random-selection.cc:66-83`): the new weights; `zs` is `_exponentiated_fitnesses`. -/
def boltzmannInit (exp : K → K) (beta : K) (bvs : List BV) (ys zs : List K) : Outcome (List K) := do
  let fmax ← maxElement ys
  let zs ← forRange 0 bvs.length (boltzmannStep exp beta fmax ys) zs
  discreteParams zs

end Hnco
