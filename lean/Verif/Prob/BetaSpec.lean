import Verif.Prob.Beta
import Verif.Prob.WalkSpec

/-!
# Specification of the initial temperature of simulated annealing
-/

namespace Hnco.Prob

open scoped ENNReal

/-- A trial: a uniform vector, and the result of flipping in it the bits which are sampled. -/
noncomputable def trialLaw (n : ℕ) (sampleBits : Dist (List ℕ)) : Dist (List Bool × List Bool) := do
  let x ← uniformLaw n
  let y ← mutate sampleBits x
  pure (x, y)

/-- Independent trials. -/
noncomputable def trialsLaw (n : ℕ) (sampleBits : Dist (List ℕ)) : ℕ → Dist (List (List Bool × List Bool))
  | 0 => pure []
  | t + 1 => do
    let r ← trialLaw n sampleBits
    let rest ← trialsLaw n sampleBits t
    pure (r :: rest)

open Classical in
/-- The differences of values in the trials which lead to a worse vector. -/
noncomputable def losses (val : List Bool → ℝ) (l : List (List Bool × List Bool)) : List ℝ :=
  (l.map (fun r => val r.2 - val r.1)).filter (fun d => decide (d < 0))

/-- The mean of a list of numbers which is not empty. -/
noncomputable def listMean (l : List ℝ) : ℝ := l.sum / l.length

/-- The inverse temperature `beta` fits the trials if a loss equal to their mean loss is accepted with probability `q`. -/
def FitsTrials (val : List Bool → ℝ) (q : ℝ) (l : List (List Bool × List Bool)) (beta : ℝ) : Prop :=
  Real.exp (listMean (losses val l) * beta) = q

/-- The inverse temperature of a state computed by `init_beta`. -/
noncomputable def betaLaw (d : Dist (BetaState × Option ℝ)) : Dist (Option ℝ) := do
  let s ← d
  pure s.2

/-- Simulated annealing whose inverse temperature is a number. -/
def SaState.full (s : SaState) : FullSa := ⟨s.nbh, s.solution, s.value, some s.beta, s.transitions⟩

/-- Simulated annealing is at the best vector it has seen, whose value is known, and has not made any transition. -/
structure Starting (n : ℕ) (val : List Bool → ℝ) (s : FullSa) : Prop where
  length : s.solution.1.length = n
  best : s.solution.2 = val s.solution.1
  origin : s.nbh.origin = s.solution.1
  candidate : s.nbh.candidate = s.solution.1
  value : s.value = s.solution.2
  transitions : s.transitions = 0

/-- The state of simulated annealing when all values are multiplied by `c` and increased by `e`: the same vectors, the values
changed accordingly, and the temperature multiplied by `c`. -/
noncomputable def FullSa.rescale (c e : ℝ) (s : FullSa) : FullSa :=
  { s with solution := (s.solution.1, c * s.solution.2 + e), value := c * s.value + e, beta := s.beta.map (· / c) }

end Hnco.Prob
