import Verif.BitVector.Model

/-!
# Specification of the laws: comparing bit vectors
-/

namespace Hnco.Prob

/-- The positions where two bit vectors differ, in increasing order. -/
def differences (x y : BV) : List Nat := (List.range x.length).filter (fun i => decide (x[i]? ≠ y[i]?))

/-- The number of positions where two bit vectors differ. -/
def distance (x y : BV) : Nat := (differences x y).length

/-- The number of ones of a bit vector. -/
def ones (x : BV) : Nat := x.count true

end Hnco.Prob
