import Verif.BitVector.Model
import Verif.Function.Base
import Mathlib.Algebra.Ring.Defs

/-!
# Model of nearest neighbour Ising models

Models `lib/hnco/functions/collection/ising/nearest-neighbor-ising-model-{1,2}.{hh,cc}`.  Couplings and
fields are in an arbitrary ring.
-/

namespace Hnco

open Outcome

variable {K : Type} [Ring K]

/-- `(x[i] + x[j]) % 2 == 0`. -/
def equalBits (x : BV) (i j : Nat) : Outcome Bool := do
  let a ← vget x i
  let b ← vget x j
  return (a.toNat + b.toNat) % 2 == 0

/-- `m[i][j]` on a vector of vectors. -/
def gridGet {α : Type} (m : List (List α)) (i j : Nat) : Outcome α := do
  let row ← vget m i
  vget row j

/-! ## One dimension -/

/-- The members of `NearestNeighborIsingModel1` (`nearest-neighbor-ising-model-1.hh:92-102`), except the
buffer `_flipped_bits`. -/
structure Ising1 (K : Type) where
  /-- `_coupling` -/
  coupling : List K
  /-- `_field` -/
  field : List K
  /-- `_periodic_boundary_conditions` -/
  periodic : Bool

/-- The interaction between the last and the first site (`nearest-neighbor-ising-model-1.cc:62-67`). -/
def ising1Periodic (m : Ising1 K) (last : Nat) (s : BV) (result : K) : Outcome K :=
  if m.periodic then do
    let e ← equalBits s last 0
    let c ← vget m.coupling last
    return if e then result + c else result - c
  else ok result

/-- `NearestNeighborIsingModel1::evaluate` (`nearest-neighbor-ising-model-1.cc:45-77`). -/
def ising1Eval (m : Ising1 K) (s : BV) : Outcome K := do
  assert (0 < m.coupling.length)
  assert (s.length == m.coupling.length)
  let n := m.coupling.length
  let last := n - 1
  -- Interactions
  let result ← forRange 0 last (fun i result => do
    let e ← equalBits s i (i + 1)
    let c ← vget m.coupling i
    return if e then result + c else result - c) 0
  let result ← ising1Periodic m last s result
  -- External field
  forRange 0 n (fun i result => do
    let b ← vget s i
    let h ← vget m.field i
    return if b then result - h else result + h) result

/-- Contribution of an interaction between a flipped bit and a neighbour
(`nearest-neighbor-ising-model-1.cc:106-111`, `127-132`; also in the model in two dimensions): nothing if
the neighbour is flipped too.  The two bits are added in either order in the code. -/
def flipInteraction (flipped x : BV) (index neighbor : Nat) (coupling : Outcome K) (value : K) :
    Outcome K := do
  let f ← vget flipped neighbor
  if f then return value
  else do
    let e ← equalBits x index neighbor
    let c ← coupling
    return if e then value - 2 * c else value + 2 * c

/-- Body of the loop on the interactions with sites on the right
(`nearest-neighbor-ising-model-1.cc:95-112`). -/
def ising1Right (m : Ising1 K) (flipped x : BV) (index : Nat) (value : K) : Outcome K :=
  let n := m.coupling.length
  let last := n - 1
  if index = last ∧ ¬ m.periodic then return value
  else do
    let neighbor := if index = last then 0 else index + 1
    assert (neighbor < n)
    flipInteraction flipped x index neighbor (vget m.coupling index) value

/-- Body of the loop on the interactions with sites on the left
(`nearest-neighbor-ising-model-1.cc:115-135`). -/
def ising1Left (m : Ising1 K) (flipped x : BV) (index : Nat) (value : K) : Outcome K :=
  let n := m.coupling.length
  let last := n - 1
  if index = 0 ∧ ¬ m.periodic then return value
  else do
    let neighbor := if index = 0 then last else index - 1
    assert (neighbor < n)
    flipInteraction flipped x index neighbor (vget m.coupling neighbor) value

/-- `NearestNeighborIsingModel1::evaluate_incrementally`
(`nearest-neighbor-ising-model-1.cc:80-147`): the value and the new contents of the buffer
`_flipped_bits`. -/
def ising1Inc (m : Ising1 K) (buffer x : BV) (value : K) (flips : List Nat) : Outcome (K × BV) := do
  assert (0 < m.coupling.length)
  assert (x.length == m.coupling.length)
  assert (bvIsZero buffer)
  let flipped ← bvFlipSparse buffer flips
  let value ← forEach flips (ising1Right m flipped x) value
  let value ← forEach flips (ising1Left m flipped x) value
  let buffer ← bvFlipSparse flipped flips
  assert (bvIsZero buffer)
  let value ← forEach flips (fun index value => do
    let b ← vget x index
    let h ← vget m.field index
    return if b then value + 2 * h else value - 2 * h) value
  return (value, buffer)

/-! ## Two dimensions -/

/-- The members of `NearestNeighborIsingModel2` (`nearest-neighbor-ising-model-2.hh:96-109`), except the
buffer `_flipped_bits`. -/
structure Ising2 (K : Type) where
  /-- `_coupling_right` -/
  right : List (List K)
  /-- `_coupling_below` -/
  below : List (List K)
  /-- `_field` -/
  field : List (List K)
  /-- `_periodic_boundary_conditions` -/
  periodic : Bool

/-- `_field[0].size()`. -/
def ising2Columns (m : Ising2 K) : Outcome Nat := do
  let row ← vget m.field 0
  return row.length

/-- `NearestNeighborIsingModel2::get_bv_size` (`nearest-neighbor-ising-model-2.hh:207-211`). -/
def ising2Size (m : Ising2 K) : Outcome Nat := do
  assert (0 < m.field.length)
  let c ← ising2Columns m
  return m.field.length * c

/-- Adds or subtracts a coupling according to two bits. -/
def addInteraction (s : BV) (site neighbor : Nat) (coupling : Outcome K) (result : K) : Outcome K := do
  let e ← equalBits s site neighbor
  let c ← coupling
  return if e then result + c else result - c

/-- A pair of nested loops over rows and columns (`nearest-neighbor-ising-model-2.cc:66-76`, `79-89`,
`119-127`); `start` is the index of the first site of the row. -/
def gridLoop (rows columns numColumns : Nat) (body : Nat → Nat → Nat → K → Outcome K) (result : K) :
    Outcome K := do
  let r ← forRange 0 rows (fun i (st : K × Nat) => do
    let result ← forRange 0 columns (fun j result => body i j (st.2 + j) result) st.1
    return (result, st.2 + numColumns)) (result, 0)
  return r.1

/-- The part of `NearestNeighborIsingModel2::evaluate` that depends on periodic boundary conditions
(`nearest-neighbor-ising-model-2.cc:91-115`). -/
def ising2Periodic (m : Ising2 K) (numRows numColumns : Nat) (s : BV) (result : K) : Outcome K :=
  if m.periodic then do
    let lastRow := numRows - 1
    let lastColumn := numColumns - 1
    let r ← forRange 0 numRows (fun i (st : K × Nat) => do
      let result ← addInteraction s (st.2 + lastColumn) st.2 (gridGet m.right i lastColumn) st.1
      return (result, st.2 + numColumns)) (result, 0)
    let start := lastRow * numColumns
    forRange 0 numColumns (fun j result =>
      addInteraction s (start + j) j (gridGet m.below lastRow j) result) r.1
  else ok result

/-- `NearestNeighborIsingModel2::evaluate` (`nearest-neighbor-ising-model-2.cc:48-130`). -/
def ising2Eval (m : Ising2 K) (s : BV) : Outcome K := do
  assert (0 < m.field.length)
  let numColumns ← ising2Columns m
  assert (0 < numColumns)
  let size ← ising2Size m
  assert (s.length == size)
  let numRows := m.field.length
  let lastRow := numRows - 1
  let lastColumn := numColumns - 1
  -- Right
  let result ← gridLoop numRows lastColumn numColumns (fun i j site result => do
    assert (site + 1 < s.length)
    addInteraction s site (site + 1) (gridGet m.right i j) result) 0
  -- Below
  let result ← gridLoop lastRow numColumns numColumns (fun i j site result => do
    assert (site + numColumns < s.length)
    addInteraction s site (site + numColumns) (gridGet m.below i j) result) result
  let result ← ising2Periodic m numRows numColumns s result
  -- External field
  gridLoop numRows numColumns numColumns (fun i j site result => do
    let b ← vget s site
    let h ← gridGet m.field i j
    return if b then result - h else result + h) result

/-- Body of the loop on the interactions with sites on the right
(`nearest-neighbor-ising-model-2.cc:154-174`). -/
def ising2Right (m : Ising2 K) (n numColumns : Nat) (flipped x : BV) (index : Nat) (value : K) :
    Outcome K :=
  let lastColumn := numColumns - 1
  let i := index / numColumns
  let j := index % numColumns
  if j = lastColumn ∧ ¬ m.periodic then return value
  else do
    assert (j ≠ lastColumn ∨ lastColumn ≤ index)
    let neighbor := if j = lastColumn then index - lastColumn else index + 1
    assert (index < n)
    assert (neighbor < n)
    flipInteraction flipped x index neighbor (gridGet m.right i j) value

/-- Body of the loop on the interactions with sites on the left
(`nearest-neighbor-ising-model-2.cc:177-201`). -/
def ising2Left (m : Ising2 K) (n numColumns : Nat) (flipped x : BV) (index : Nat) (value : K) :
    Outcome K :=
  let lastColumn := numColumns - 1
  let i := index / numColumns
  let j := index % numColumns
  if j = 0 ∧ ¬ m.periodic then return value
  else do
    assert (j = 0 ∨ 0 < index)
    let neighbor := if j = 0 then index + lastColumn else index - 1
    let j := if j = 0 then lastColumn else j - 1
    assert (index < n)
    assert (neighbor < n)
    assert (j < numColumns)
    flipInteraction flipped x index neighbor (gridGet m.right i j) value

/-- Body of the loop on the interactions with sites below
(`nearest-neighbor-ising-model-2.cc:204-223`). -/
def ising2Below (m : Ising2 K) (n numRows numColumns : Nat) (flipped x : BV) (index : Nat) (value : K) :
    Outcome K :=
  let lastRow := numRows - 1
  let i := index / numColumns
  let j := index % numColumns
  if i = lastRow ∧ ¬ m.periodic then return value
  else do
    let neighbor := if i = lastRow then j else index + numColumns
    assert (index < n)
    assert (neighbor < n)
    flipInteraction flipped x index neighbor (gridGet m.below i j) value

/-- Body of the loop on the interactions with sites above
(`nearest-neighbor-ising-model-2.cc:226-251`). -/
def ising2Above (m : Ising2 K) (n numRows numColumns : Nat) (flipped x : BV) (index : Nat) (value : K) :
    Outcome K :=
  let lastRow := numRows - 1
  let i := index / numColumns
  let j := index % numColumns
  if i = 0 ∧ ¬ m.periodic then return value
  else do
    assert (i = 0 ∨ numColumns ≤ index)
    let neighbor := if i = 0 then (n + j) - numColumns else index - numColumns
    let i := if i = 0 then lastRow else i - 1
    assert (index < n)
    assert (neighbor < n)
    assert (i < numRows)
    flipInteraction flipped x index neighbor (gridGet m.below i j) value

/-- `NearestNeighborIsingModel2::evaluate_incrementally`
(`nearest-neighbor-ising-model-2.cc:133-267`): the value and the new contents of the buffer
`_flipped_bits`. -/
def ising2Inc (m : Ising2 K) (buffer x : BV) (value : K) (flips : List Nat) : Outcome (K × BV) := do
  assert (0 < m.field.length)
  let numColumns ← ising2Columns m
  assert (0 < numColumns)
  let n ← ising2Size m
  assert (x.length == n)
  let numRows := m.field.length
  assert (bvIsZero buffer)
  let flipped ← bvFlipSparse buffer flips
  let value ← forEach flips (ising2Right m n numColumns flipped x) value
  let value ← forEach flips (ising2Left m n numColumns flipped x) value
  let value ← forEach flips (ising2Below m n numRows numColumns flipped x) value
  let value ← forEach flips (ising2Above m n numRows numColumns flipped x) value
  let buffer ← bvFlipSparse flipped flips
  assert (bvIsZero buffer)
  let value ← forEach flips (fun index value => do
    let b ← vget x index
    let h ← gridGet m.field (index / numColumns) (index % numColumns)
    return if b then value + 2 * h else value - 2 * h) value
  return (value, buffer)

end Hnco
