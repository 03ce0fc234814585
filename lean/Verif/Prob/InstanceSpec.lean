import Verif.Prob.Spec
import Verif.Function.MaxSatProps

/-!
# Specification of the laws of random instances
-/

namespace Hnco.Prob

/-- A clause of `k` literals over different variables among `n`, in the order of the variables. -/
def IsClause (n k : ℕ) (clause : List ℤ) : Prop :=
  clause.length = k ∧ (∀ lit ∈ clause, IsLiteral n lit) ∧ (clause.map Int.natAbs).Pairwise (· < ·)

/-- The number of literals which the assignment makes true. -/
def trueLiterals (x : BV) (clause : List ℤ) : ℕ := clause.countP (fun lit => decide (LitTrue x lit))

/-- The neighbours of site `i` among `n` sites: `k` other sites in decreasing order, then the site itself. -/
def IsRow (n k i : ℕ) (row : List ℕ) : Prop :=
  ∃ others, row = others ++ [i] ∧ others.length = k ∧ others.Pairwise (· > ·) ∧ ∀ j ∈ others, j < n ∧ j ≠ i

end Hnco.Prob
