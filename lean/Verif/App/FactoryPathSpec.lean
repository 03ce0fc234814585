import Verif.App.AlgorithmFactorySpec
import Verif.Algorithm.PathSpec

/-!
# Specification of the searches made by the factory

How the options of the command line determine the vectors a search may look at and those it moves to.
-/

namespace Hnco

variable {K : Type}

/-- A mutation rate is below the inverse of the square root of the number of bits: mutations are sampled one bit after the other
then, and a mutation without any flipped bit is possible if it is allowed. -/
def LowRate (n : Nat) (rate : Rat) : Prop := rate < 0 ∨ rate ^ 2 * n < 1

/-- The number of bits which the neighbourhood given by the options may flip. -/
inductive NeighborhoodStep (o : AlgOptions) (n : Nat) : Nat → Prop where
  | singleBitFlip (h : o.neighborhood = 0) : NeighborhoodStep o n 1
  | mutation {d : Nat} (h : o.neighborhood = 1) (hd : 1 ≤ d) : NeighborhoodStep o n d
  | noMutation {rate : Rat} (h : o.neighborhood = 1) (hrate : o.eaMutationRate = some rate) (hlow : LowRate n rate)
    (hallow : o.eaAllowNoMutation = true) : NeighborhoodStep o n 0
  | ball {d : Nat} (h : o.neighborhood = 2) (h1 : 1 ≤ d) (h2 : (d : Int) ≤ o.radius) : NeighborhoodStep o n d
  | sphere {d : Nat} (h : o.neighborhood = 3) (hd : (d : Int) = o.radius) : NeighborhoodStep o n d

/-- The number of bits which the (1+1) EA may flip; the mutation rate is `1 / n` unless it is given. -/
inductive MutationStep (o : AlgOptions) (n : Nat) : Nat → Prop where
  | mutation {d : Nat} (hd : 1 ≤ d) : MutationStep o n d
  | noMutation (hlow : LowRate n (o.eaMutationRate.getD (1 / (n : Rat)))) (hallow : o.eaAllowNoMutation = true) :
    MutationStep o n 0

/-- The comparison of random local search. -/
def rlsAccepts [LinearOrder K] (o : AlgOptions) (new old : K) : Bool :=
  if o.rlsStrict then decide (old < new) else decide (old ≤ new)

/-- What is expected of a run with a search path: the solution which is reported is the position, and a run is not over before
the first evaluation. -/
def PathOk [LinearOrder K] (step : Nat → Prop) (accept : K → K → Bool → Prop) (r : RunResult K) : Prop :=
  (r.ending ≠ .ok () ∧ r.calls = []) ∨
  ∃ pos, HasPath step accept 1 r.calls pos ∧ (r.ending = .ok () ∨ r.ending = .error .lastEvaluation → r.solution = pos)

/-- What is expected of a run which does not report the position but the first best evaluation. -/
def WanderOk [LinearOrder K] (step : Nat → Prop) (accept : K → K → Bool → Prop) (first : Nat) (r : RunResult K) : Prop :=
  (r.ending ≠ .ok () ∧ r.calls.length < first) ∨
  (FirstBestOf r.calls r.solution ∧ ∃ pos, HasPath step accept first r.calls pos)

/-- What is expected of the patience of random local search: it is not reached before the last evaluation, and only if it is
reached may a run end without an exception before the number of iterations asked for. -/
def PatienceOk (accepts : K → K → Bool) (patience k : Int) (r : RunResult K) : Prop :=
  (r.ending ≠ .ok () ∧ r.calls = []) ∨
  ∃ start later, r.calls = start :: later ∧
    (0 < patience → ∀ j < later.length, (rejectedInARow accepts start (later.take j) : Int) < patience) ∧
    (r.ending = .ok () → k ≤ 0 ∨ (later.length : Int) < k → 0 < patience ∧ (rejectedInARow accepts start later : Int) = patience)

end Hnco
