import Verif.Prob.SearchSpec
import Verif.Prob.WalkSpec

/-!
# Specification of invariance under the symmetries of the hypercube (C120)
-/

namespace Hnco.Prob

open scoped ENNReal

/-- A symmetry of the vectors of `n` bits: bit `source i` is moved to position `i`, so that bit `j` goes to position `dest j`, and then
zeros and ones are exchanged at the positions given by `exchange`. -/
structure Symmetry (n : ℕ) where
  source : ℕ → ℕ
  dest : ℕ → ℕ
  exchange : ℕ → Bool
  source_lt : ∀ i < n, source i < n
  dest_lt : ∀ j < n, dest j < n
  source_dest : ∀ j < n, source (dest j) = j
  dest_source : ∀ i < n, dest (source i) = i

/-- The vector made of a vector `x` of size `n`. -/
def Symmetry.act {n : ℕ} (σ : Symmetry n) (x : List Bool) : List Bool :=
  (List.range n).map (fun i => xor (x.getD (σ.source i) false) (σ.exchange i))

/-- `g` is the function `f` with the bits relabelled by `σ`. -/
structure Relabeled {K : Type} [LinearOrder K] {n : ℕ} (σ : Symmetry n) (f g : Fn K) (val val' : BV → K) : Prop where
  left : Evaluates f n val
  right : Evaluates g n val'
  same : ∀ x : BV, x.length = n → val' (σ.act x) = val x

/-- All sets of positions of the same size are flipped with the same probability. -/
structure Fair (d : Dist (List ℕ)) (n : ℕ) : Prop where
  sorted : ∀ l, d l ≠ 0 → l.Pairwise (· < ·) ∧ ∀ i ∈ l, i < n
  even : ∀ l l' : List ℕ, l.Pairwise (· < ·) → (∀ i ∈ l, i < n) → l'.Pairwise (· < ·) → (∀ i ∈ l', i < n) → l.length = l'.length → d l = d l'

/-- A law of solutions, with the bits relabelled by `σ`. -/
noncomputable def relabeled {K : Type} {n : ℕ} (σ : Symmetry n) (d : Dist (List Bool × K)) : Dist (List Bool × K) := do
  let r ← d
  pure (σ.act r.1, r.2)

/-- The current vector of a random walk, and its solution. -/
noncomputable def walkResult {K : Type} (d : Dist (WalkState K)) : Dist (List Bool × (List Bool × K)) := do
  let s ← d
  pure (s.nbh.origin, s.solution)

/-- The current vector of simulated annealing, its solution, its inverse temperature and its number of transitions. -/
noncomputable def saResult (d : Dist SaState) : Dist (List Bool × (List Bool × ℝ) × ℝ × ℤ) := do
  let s ← d
  pure (s.nbh.origin, s.solution, s.beta, s.transitions)

end Hnco.Prob
