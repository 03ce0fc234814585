import Verif.Prob.Dist
import Mathlib.Analysis.Real.Sqrt

/-!
# Specification of noise: mean values
-/

namespace Hnco.Prob

/-- The mean of a quantity which depends on a random value. -/
noncomputable def mean {α : Type} (d : Dist α) (quantity : α → ℝ) : ℝ := ∑' v, (d v).toReal * quantity v

end Hnco.Prob
