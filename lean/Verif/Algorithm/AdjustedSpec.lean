import Verif.Algorithm.PathSpec

/-!
# Specification of searches with an adjusted mutation rate

The rate is multiplied after a success and divided after a failure, within its bounds.
-/

namespace Hnco

variable {K : Type}

/-- How the mutation rate is adjusted: the initial rate and its bounds, the factor after a success, the divisor after a failure. -/
structure RateRule where
  initial : Rat
  minimum : Rat
  maximum : Rat
  factor : Rat
  divisor : Rat

/-- From `start`, the vectors of the list can be evaluated in this order; then the search is at the second last argument, and the
last one is the list of all mutation rates until then, the last of which comes first.  Each vector differs from the position, or
is equal to it if that is allowed and one of the rates until then is low.  A vector which is at least as good is a success: the
search moves to it. -/
inductive AdjustedPath [LinearOrder K] (low : Rat → Prop) (allowed : Bool) (rule : RateRule) (start : BV × K) :
    List (BV × K) → BV × K → List Rat → Prop where
  | start : AdjustedPath low allowed rule start [] start [rule.initial]
  | success {later : List (BV × K)} {pos c : BV × K} {rate : Rat} {rates : List Rat}
    (h : AdjustedPath low allowed rule start later pos (rate :: rates))
    (hd : 1 ≤ differingBits pos.1 c.1 ∨ (allowed = true ∧ ∃ r ∈ rate :: rates, low r)) (hv : pos.2 ≤ c.2) :
    AdjustedPath low allowed rule start (later ++ [c]) c (min (rate * rule.factor) rule.maximum :: rate :: rates)
  | failure {later : List (BV × K)} {pos c : BV × K} {rate : Rat} {rates : List Rat}
    (h : AdjustedPath low allowed rule start later pos (rate :: rates))
    (hd : 1 ≤ differingBits pos.1 c.1 ∨ (allowed = true ∧ ∃ r ∈ rate :: rates, low r)) (hv : c.2 < pos.2) :
    AdjustedPath low allowed rule start (later ++ [c]) pos (max (rate / rule.divisor) rule.minimum :: rate :: rates)

/-- The evaluations of a run which has taken such a path, at the end of which it is at `pos`. -/
def AdjustedRun [LinearOrder K] (low : Rat → Prop) (allowed : Bool) (rule : RateRule) (calls : List (BV × K)) (pos : BV × K) : Prop :=
  ∃ start later rates, calls = start :: later ∧ AdjustedPath low allowed rule start later pos rates

end Hnco
