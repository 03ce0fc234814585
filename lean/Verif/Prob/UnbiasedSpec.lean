import Verif.Prob.SymmetrySpec

/-!
# Specification of unbiased algorithms (C122)
-/

namespace Hnco.Prob

open scoped ENNReal

/-- An algorithm is unbiased if relabelling the bits of the function relabels its solutions in the same way. -/
def Unbiased {K : Type} [LinearOrder K] (n : ℕ) (alg : Fn K → Dist (List Bool × K)) : Prop :=
  ∀ (σ : Symmetry n) (f g : Fn K) (val val' : BV → K), Relabeled σ f g val val' → alg g = relabeled σ (alg f)

/-- The number of positions below `n` at which two vectors are equal. -/
def agreements (n : ℕ) (x y : List Bool) : ℕ := (List.range n).countP (fun i => x.getD i false == y.getD i false)

end Hnco.Prob
