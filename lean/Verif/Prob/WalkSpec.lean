import Verif.Prob.Walks
import Verif.Prob.SearchSpec

/-!
# Specification of stationary laws
-/

namespace Hnco.Prob

open scoped ENNReal

/-- The bits to be flipped are sorted and in range, and they are sampled with probability one. -/
structure BitSampler (d : Dist (List ℕ)) (n : ℕ) : Prop where
  sorted : ∀ l, d l ≠ 0 → l.Pairwise (· < ·) ∧ ∀ i ∈ l, i < n
  total : d.total = 1

/-- The uniform law on the bit vectors of size `n`. -/
noncomputable def uniformLaw (n : ℕ) : Dist (List Bool) := ⟨fun x => if x.length = n then ((2 : ℝ≥0∞) ^ n)⁻¹ else 0⟩

/-- The Boltzmann law on the bit vectors of size `n`: the probability of `x` is proportional to `exp (g x)`. -/
noncomputable def boltzmannLaw (n : ℕ) (g : List Bool → ℝ) : Dist (List Bool) := ⟨fun x =>
  if x.length = n then ENNReal.ofReal (Real.exp (g x)) / ∑' y : List Bool, (if y.length = n then ENNReal.ofReal (Real.exp (g y)) else 0)
  else 0⟩

/-- A law is stationary for a chain if it is the law of the next state when it is the law of the current one. -/
def Stationary {α : Type} (law : Dist α) (step : α → Dist α) : Prop := (law >>= step) = law

open Classical in
/-- The laws `d` and `e` give to every event probabilities which differ by at most `eps`. -/
def Within {α : Type} (eps : ℝ≥0∞) (d e : Dist α) : Prop :=
  ∀ P : α → Prop, d.prob P ≤ e.prob P + eps ∧ e.prob P ≤ d.prob P + eps

/-- The vector after an iteration of the random walk. -/
noncomputable def walkVector {K : Type} (d : Dist (WalkState K)) : Dist (List Bool) := do
  let s ← d
  pure s.nbh.origin

/-- The current vector of simulated annealing. -/
noncomputable def saVector (d : Dist SaState) : Dist (List Bool) := do
  let s ← d
  pure s.nbh.origin

/-- Simulated annealing is between two iterations: its neighbourhood has no pending candidate, and the current value is the
one of the current vector. -/
structure Annealing (n : ℕ) (val : List Bool → ℝ) (s : SaState) : Prop where
  candidate : s.nbh.candidate = s.nbh.origin
  length : s.nbh.origin.length = n
  value : s.value = val s.nbh.origin

/-- Iterations of simulated annealing (`lib/hnco/algorithms/iterative-algorithm.cc:33-39`). -/
noncomputable def annealing (p : SaParams) (f : Fn ℝ) (t : ℕ) (s : SaState) : Dist SaState :=
  boundedLoop (fun _ => false) (saIterate p f) t s

end Hnco.Prob
