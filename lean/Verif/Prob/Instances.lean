import Verif.Prob.Samplers
import Verif.Function.MaxSat
import Verif.Function.NkLandscape

/-!
# The generators of random instances, with probabilities

A second model of `MaxSat::random` (`lib/hnco/functions/collection/max-sat.cc:189-258`), of
`NkLandscape::random_structure` (`lib/hnco/functions/collection/nk-landscape.cc:33-67`), of `Partition::random`
(`lib/hnco/functions/collection/partition.hh:100-106`) and of the features drawn by `WalshExpansion::generate`
(`lib/hnco/functions/collection/walsh/walsh-expansion.hh:85-102`).  The first model (`Verif/Function/MaxSat.lean`,
`Verif/Function/NkLandscape.lean`, `Verif/App/Ffgen.lean`) tells which instances may be generated, this one how likely they are.
-/

namespace Hnco.Prob

open Outcome
open scoped ENNReal

/-! ## MAX-SAT -/

/-- Body of the loop which writes the literals of a clause (`lib/hnco/functions/collection/max-sat.cc:205-210`, `232-237`). -/
noncomputable def writeLiteral (x : BV) (j : ℕ) (st : List ℤ × ℕ) : Dist (List ℤ × ℕ) := do
  let b ← Dist.lift (vget x j)
  if b then do
    let positive ← Dist.bernoulli
    let clause ← Dist.lift (vset st.1 st.2 (if positive then (j : ℤ) + 1 else -((j : ℤ) + 1)))
    pure (clause, st.2 + 1)
  else pure st

/-- The clause number `i` with random literals (`lib/hnco/functions/collection/max-sat.cc:202-212`, `229-239`): the clause, and
the bit vector which has been drawn. -/
noncomputable def randomClause (k i : ℕ) (expression : List (List ℤ)) (x : BV) : Dist (List ℤ × BV) := do
  let x ← bvRandom x k
  let clause ← Dist.lift (vget expression i)
  let r ← Dist.forRange 0 x.length (writeLiteral x) (clause, 0)
  Dist.lift (assert (r.2 == bvHammingWeight x))
  pure (r.1, x)

/-- `MaxSat::random(n, k, c)` (`lib/hnco/functions/collection/max-sat.cc:189-214`). -/
noncomputable def maxSatRandom (n k c : ℕ) : Dist (List (List ℤ)) := do
  Dist.lift (assert (decide (0 < n)))
  Dist.lift (assert (decide (0 < k)))
  Dist.lift (assert (decide (0 < c)))
  Dist.lift (assert (decide (k ≤ n)))
  let st ← Dist.forRange 0 c (fun i (st : List (List ℤ) × BV) => do
    let r ← randomClause k i st.1 st.2
    let expression ← Dist.lift (vset st.1 i r.1)
    pure (expression, r.2)) (List.replicate c (List.replicate k 0), List.replicate n false)
  pure st.1

/-- A clause which is not satisfied gets a random literal negated
(`lib/hnco/functions/collection/max-sat.cc:241-254`). -/
noncomputable def repairClause (solution : BV) (clause : List ℤ) : Dist (List ℤ) := do
  let satisfied ← Dist.lift (clauseTest solution clause)
  if satisfied then pure clause
  else do
    let index ← Dist.uniformInt 0 (clause.length - 1)
    let lit ← Dist.lift (vget clause index)
    Dist.lift (vset clause index (-lit))

/-- `MaxSat::random(solution, k, c)` (`lib/hnco/functions/collection/max-sat.cc:217-258`). -/
noncomputable def maxSatPlanted (solution : BV) (k c : ℕ) : Dist (List (List ℤ)) := do
  Dist.lift (assert (decide (0 < k)))
  Dist.lift (assert (decide (0 < c)))
  Dist.lift (assert (decide (k ≤ solution.length)))
  let st ← Dist.forRange 0 c (fun i (st : List (List ℤ) × BV) => do
    let r ← randomClause k i st.1 st.2
    let clause ← repairClause solution r.1
    let expression ← Dist.lift (vset st.1 i clause)
    pure (expression, r.2)) (List.replicate c (List.replicate k 0), List.replicate solution.length false)
  let value ← Dist.lift (maxSatEval st.1 solution)
  Dist.lift (assert (value == st.1.length))
  pure st.1

/-! ## NK landscapes -/

/-- Body of the inner loop (`lib/hnco/functions/collection/nk-landscape.cc:51-63`); after `break` the remaining iterations do
nothing. -/
noncomputable def nkNeighbor (i j : ℕ) (s : NkPick) : Dist NkPick :=
  if s.a = 0 then pure s
  else if j = i then pure s
  else do
    Dist.lift (assert (decide (s.a ≤ s.b)))
    let b ← Dist.coin ((s.a : ℝ≥0∞) / (s.b : ℝ≥0∞))
    if b then do
      let row ← Dist.lift (vset s.row (s.a - 1) j)
      pure ⟨s.a - 1, s.b - 1, row⟩
    else pure ⟨s.a, s.b - 1, s.row⟩

/-- Body of the outer loop (`lib/hnco/functions/collection/nk-landscape.cc:46-65`). -/
noncomputable def nkSite (length i : ℕ) (neighbors : List (List ℕ)) : Dist (List (List ℕ)) := do
  let row ← Dist.lift (vget neighbors i)
  Dist.lift (assert (decide (row.length > 0)))
  let row ← Dist.lift (vset row (row.length - 1) i)
  let s ← Dist.forRange 0 length (nkNeighbor i) ⟨row.length - 1, length - 1, row⟩
  Dist.lift (assert (decide (s.a = 0)))
  Dist.lift (vset neighbors i s.row)

/-- The neighbours drawn by `random_structure` (`lib/hnco/functions/collection/nk-landscape.cc:33-67`) on a new object.  The
size of the tables of partial functions (line 40) is that of the first model. -/
noncomputable def nkStructure (n k : ℕ) : Dist (List (List ℕ)) := do
  Dist.lift (assert (decide (n > 0)))
  Dist.lift (assert (decide (k > 0)))
  Dist.forRange 0 n (nkSite n) (List.replicate n (List.replicate (k + 1) 0))

/-! ## Numbers and features -/

/-- `Partition::random` (`lib/hnco/functions/collection/partition.hh:100-106`), with `generate` (lines 84-90), on a new object. -/
noncomputable def partitionRandom (n upperBound : ℕ) : Dist (List ℕ) := do
  Dist.lift (assert (decide (n > 0)))
  Dist.lift (assert (decide (upperBound > 0)))
  Dist.forRange 0 n (fun i numbers => do
    let number ← Dist.uniformInt 1 upperBound
    Dist.lift (vset numbers i number)) (List.replicate n 0)

/-- The features of the terms drawn by `WalshExpansion::generate`
(`lib/hnco/functions/collection/walsh/walsh-expansion.hh:85-102`); the coefficients are left out.  The vector of bits is used
again for each feature. -/
noncomputable def walshFeatures (n numFeatures : ℕ) : Dist (List BV) := do
  Dist.lift (assert (decide (n > 0)))
  Dist.lift (assert (decide (numFeatures > 0)))
  let st ← Dist.forRange 0 numFeatures (fun i (st : List BV × BV) => do
    let bv ← bvRandomBits st.2
    let features ← Dist.lift (vset st.1 i bv)
    pure (features, bv)) (List.replicate numFeatures [], List.replicate n false)
  pure st.1

end Hnco.Prob
