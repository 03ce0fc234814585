import Verif.Neighborhood.Model
import Mathlib.Algebra.Field.Defs

/-!
# Model of NK landscapes

Models `lib/hnco/functions/collection/nk-landscape.hh` and `nk-landscape.cc`.
-/

namespace Hnco

open Outcome

variable {K : Type}

/-- Data members of `NkLandscape` (`nk-landscape.hh:60-63`). -/
structure Nk (K : Type) where
  neighbors : List (List Nat)
  partials : List (List K)
  deriving DecidableEq

/-- Default constructor (`nk-landscape.hh:75`). -/
def nkNew : Nk K := ⟨[], []⟩

/-- `std::vector::resize(n, x)`: elements which are already there are kept. -/
def vresize {α : Type} (l : List α) (n : Nat) (x : α) : List α := l.take n ++ List.replicate (n - l.length) x

/-- Local variables `a` and `b` of `random_structure` and the row `_neighbors[i]`. -/
structure NkPick where
  a : Nat
  b : Nat
  row : List Nat

/-- Body of the inner loop (`nk-landscape.cc:51-63`); after `break` the remaining iterations do nothing.  Since
`0 < a ≤ b`, the two assertions on the probability hold.  Simplification: the quotient is exact. -/
def nkNeighbor (i j : Nat) (s : NkPick) : Sim NkPick :=
  if s.a = 0 then pure s
  else if j = i then pure s
  else do
    Sim.lift (assert (decide (s.a ≤ s.b)))
    let u ← Sim.uniform
    if u < (s.a : Rat) / (s.b : Rat) then do
      let row ← Sim.lift (vset s.row (s.a - 1) j)
      pure ⟨s.a - 1, s.b - 1, row⟩
    else pure ⟨s.a, s.b - 1, s.row⟩

/-- Body of the outer loop (`nk-landscape.cc:46-65`). -/
def nkSite (length i : Nat) (neighbors : List (List Nat)) : Sim (List (List Nat)) := do
  let row ← Sim.lift (vget neighbors i)
  Sim.lift (assert (decide (row.length > 0)))
  let row ← Sim.lift (vset row (row.length - 1) i)
  let s ← Sim.forRange 0 length (nkNeighbor i) ⟨row.length - 1, length - 1, row⟩
  Sim.lift (assert (decide (s.a = 0)))
  Sim.lift (vset neighbors i s.row)

/-- `random_structure` (`nk-landscape.cc:33-67`).  `1 << (k + 1)` is an `int`: a shift by more than 30 is undefined. -/
def nkStructure [Zero K] (n k : Int) (f : Nk K) : Sim (Nk K) := do
  Sim.lift (assert (decide (n > 0)))
  Sim.lift (assert (decide (k > 0)))
  Sim.lift (assert (decide (k + 1 ≤ 30)))
  let neighbors := vresize f.neighbors n.toNat (List.replicate (k + 1).toNat 0)
  let partials := vresize f.partials n.toNat (List.replicate (2 ^ (k + 1).toNat) 0)
  let neighbors ← Sim.forRange 0 partials.length (nkSite partials.length) neighbors
  pure ⟨neighbors, partials⟩

/-- Filling of a row of partial functions (`nk-landscape.hh:95-96`). -/
def nkFill (generator : Sim K) (row : List K) : Sim (List K) :=
  Sim.forRange 0 row.length (fun j row => do
    let v ← generator
    Sim.lift (vset row j v)) row

/-- `generate` (`nk-landscape.hh:89-97`) and `random` (`nk-landscape.hh:107-112`), which calls it with normal
deviates. -/
def nkGenerate [Zero K] (generator : Sim K) (n k : Int) (f : Nk K) : Sim (Nk K) := do
  Sim.lift (assert (decide (n > 0)))
  Sim.lift (assert (decide (k > 0)))
  let f ← nkStructure n k f
  let partials ← Sim.forRange 0 f.partials.length (fun i partials => do
    let row ← Sim.lift (vget partials i)
    let row ← nkFill generator row
    Sim.lift (vset partials i row)) f.partials
  pure ⟨f.neighbors, partials⟩

/-- The loop which computes `index` (`nk-landscape.cc:76-83`): `index` and `base`.  `size_t` does not overflow as there
are at most 31 neighbours. -/
def nkIndex (row : List Nat) (x : BV) : Outcome (Nat × Nat) :=
  forRange 0 row.length (fun j (s : Nat × Nat) => do
    let i ← vget row j
    let b ← vget x i
    ok (if b then s.1 + s.2 else s.1, s.2 * 2)) (0, 1)

/-- `evaluate` (`nk-landscape.cc:70-89`).  With no site the quotient is not a number, which is outside of the model. -/
def nkEval [Field K] (f : Nk K) (x : BV) : Outcome K := do
  let result ← forRange 0 f.partials.length (fun i (result : K) => do
    let row ← vget f.neighbors i
    let s ← nkIndex row x
    let partials ← vget f.partials i
    assert (decide (s.1 < partials.length))
    let v ← vget partials s.1
    ok (result + v)) 0
  assert (decide (f.partials.length ≠ 0))
  ok (result / (f.partials.length : K))

end Hnco
