import Verif.Prob.Walks
import Verif.Population.Model

/-!
# Tournament selection, with probabilities

Second model of `lib/hnco/multiobjective/algorithms/random-selection.hh`, in which selections have probabilities.  What draws
nothing is taken from the first model (`Verif/Population/Model.lean`).
-/

namespace Hnco.Prob

open Outcome
open scoped ENNReal

variable {K : Type}

/-- `perm_shuffle` (`lib/hnco/permutation.hh:53-54`) of a vector whose elements differ: all orders are equally likely after
`std::shuffle`. -/
noncomputable def permShuffle (l : List ℕ) : Dist (List ℕ) := ⟨fun s =>
  if s.Perm l then ((l.length.factorial : ℕ) : ℝ≥0∞)⁻¹ else 0⟩

/-- `init` (`lib/hnco/multiobjective/algorithms/random-selection.hh:88-92`). -/
noncomputable def tournamentInit (t : Tournament) : Dist Tournament := do
  let perm ← permShuffle t.perm
  pure { t with perm := perm, start := 0, stop := t.size }

/-- The move to the next round (`lib/hnco/multiobjective/algorithms/random-selection.hh:108-111`), for a population of size
`popSize`. -/
noncomputable def tournamentNext (popSize : ℕ) (t : Tournament) : Dist Tournament :=
  if popSize < t.stop + t.size then tournamentInit { t with start := t.stop, stop := t.stop + t.size }
  else pure { t with start := t.stop, stop := t.stop + t.size }

/-- `select` (`lib/hnco/multiobjective/algorithms/random-selection.hh:95-114`): the index in the population of the selected
individual, its bit vector and the new state. -/
noncomputable def tournamentSelect (compare : K → K → Bool) (bvs : List BV) (values : List K) (t : Tournament) :
    Dist (ℕ × BV × Tournament) := do
  Dist.lift (assert (decide (2 ≤ t.stop) && decide (t.stop < bvs.length + 1)))
  let w ← Dist.lift (t.round compare values)
  let t ← tournamentNext bvs.length t
  let k ← Dist.lift (vget t.perm w.1)
  let x ← Dist.lift (vget bvs k)
  pure (k, x, t)

end Hnco.Prob
