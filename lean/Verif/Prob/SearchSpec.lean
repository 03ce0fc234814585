import Verif.Prob.Search
import Verif.Prob.Chain
import Verif.Prob.Spec
import Verif.Function.Spec

/-!
# Specification of the time to find a maximum
-/

namespace Hnco.Prob

open Outcome
open scoped ENNReal

/-! ## Hypotheses -/

variable {K : Type} [LinearOrder K]

/-- `f` computes `val` on vectors of size `n`; its incremental evaluation, if any, is right. -/
structure Evaluates (f : Fn K) (n : ℕ) (val : BV → K) : Prop where
  size : f.size = n
  eval : ∀ x : BV, x.length = n → f.eval x = ok (val x)
  inc : f.hasInc = true → IncrementalExact f

/-- A search which accepts vectors which are not worse, and never gives up. -/
structure Elitist (p : RlsParams K) : Prop where
  compare : ∀ a b, p.compare a b = decide (b ≤ a)
  patience : p.patience ≤ 0

/-- The starting point has the size of the vectors. -/
def Starts (p : RlsParams K) (n : ℕ) : Prop := p.randomInitialization = false → p.startingPoint.length = n

/-- What is needed from the sampler: ascending positions, and it returns. -/
structure Samples (p : RlsParams K) (n : ℕ) : Prop where
  sorted : ∀ l, p.sampleBits l ≠ 0 → l.Pairwise (· < ·) ∧ ∀ i ∈ l, i < n
  total : p.sampleBits.total = 1

/-! ## Conclusions -/

/-- `x` is a maximum of `val` among the vectors of size `n`. -/
def IsMax {K : Type} [LE K] (n : ℕ) (val : List Bool → K) (x : List Bool) : Prop :=
  x.length = n ∧ ∀ y : List Bool, y.length = n → val y ≤ val x

open Classical in
/-- The probability that a search does not return a vector with property `found`: it returns another one or does not
return. -/
noncomputable def missProb {K : Type} (search : Dist (List Bool × K)) (found : List Bool → Prop) : ℝ≥0∞ :=
  1 - search.prob (fun s => found s.1)

/-- The expected number of iterations to find a vector with property `found`, where `after t` is the solution after `t`
iterations: the sum over `t` of the probability that it has not been found after `t` iterations. -/
noncomputable def expectedTime {K : Type} (after : ℕ → Dist (List Bool × K)) (found : List Bool → Prop) : ℝ≥0∞ :=
  ∑' t, missProb (after t) found

/-- The harmonic numbers `1 + 1/2 + ... + 1/d`. -/
noncomputable def harmonicNumber (d : ℕ) : ℝ≥0∞ := ∑ i ∈ Finset.range d, ((i + 1 : ℕ) : ℝ≥0∞)⁻¹

end Hnco.Prob
