import Mathlib.Order.Basic

/-!
# Specification of functions which order vectors alike (C127)
-/

namespace Hnco.Prob

/-- The vectors of size `n` are ordered alike by both functions. -/
def SameOrder {K L : Type} [LE K] [LE L] (n : ℕ) (val : List Bool → K) (val' : List Bool → L) : Prop :=
  ∀ x y : List Bool, x.length = n → y.length = n → (val' x ≤ val' y ↔ val x ≤ val y)

end Hnco.Prob
