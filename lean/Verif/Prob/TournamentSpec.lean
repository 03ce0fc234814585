import Verif.Prob.Tournaments

/-!
# Specification of tournament selection, with probabilities
-/

namespace Hnco.Prob

open Outcome
open scoped ENNReal

variable {K : Type}

/-- The index selected at the selection number `m`, counted from zero, after the initialization. -/
noncomputable def selected (compare : K → K → Bool) (bvs : List BV) (values : List K) (t : Tournament) (m : ℕ) : Dist ℕ := do
  let t ← tournamentInit t
  let t ← Dist.forLoop m 0 (fun _ t => do
    let r ← tournamentSelect compare bvs values t
    pure r.2.2) t
  let r ← tournamentSelect compare bvs values t
  pure r.1

/-- The probability that an individual of value `v` wins a tournament between `k` individuals of a population, all sets of `k`
individuals being equally likely, and all winners of equal values being equally likely. -/
noncomputable def winProb [LinearOrder K] (values : List K) (k : ℕ) (v : K) : ℝ≥0∞ :=
  (((values.countP (fun u => decide (u ≤ v))).choose k - (values.countP (fun u => decide (u < v))).choose k : ℕ) : ℝ≥0∞) /
    ((values.count v * values.length.choose k : ℕ) : ℝ≥0∞)

end Hnco.Prob
