import Verif.BitVector.Model

/-!
# Model of bit matrices

Models `lib/hnco/bit-matrix.hh` and `lib/hnco/bit-matrix.cc`.  A bit matrix is a vector of rows
(`bit-matrix.hh:46`).  Indices are natural numbers (simplification: negative `int` indices are not
representable; `is_in_range` is therefore the upper bound test only).
-/

namespace Hnco

open Outcome

/-- A bit matrix (`bit-matrix.hh:46`: `std::vector<bit_vector_t>`). -/
abbrev BM := List BV

/-- `M[i][j]`, reading. -/
def mget (M : BM) (i j : Nat) : Outcome Bool := do
  let row ← vget M i
  vget row j

/-- `M[i][j] = b`. -/
def mset (M : BM) (i j : Nat) (b : Bool) : Outcome BM := do
  let row ← vget M i
  let row ← vset row j b
  vset M i row

/-- `bm_num_columns` (`bit-matrix.hh:93`): undefined without row. -/
def bmNumColumns (M : BM) : Outcome Nat := do
  let row ← vget M 0
  return row.length

/-- `bm_is_square` (`bit-matrix.hh:96`). -/
def bmIsSquare (M : BM) : Outcome Bool := do
  let c ← bmNumColumns M
  return M.length == c

/-- `bm_rectangular` (`bit-matrix.cc:31-37`). -/
def bmRectangular (nrows ncols : Nat) : Outcome BM := do
  assert (decide (nrows > 0))
  assert (decide (ncols > 0))
  return List.replicate nrows (List.replicate ncols false)

/-- `bm_clear` (`bit-matrix.hh:112`). -/
def bmClear (M : BM) : BM := M.map bvClear

/-- `bm_is_valid` (`bit-matrix.cc:93-110`).  Simplification: components are always bits. -/
def bmIsValid (M : BM) : Outcome Bool :=
  if M.length = 0 then return false
  else do
    let ncols ← bmNumColumns M
    if ncols = 0 then return false
    else if !(M.all (fun row => row.length == ncols)) then return false
    else return true

/-- `bm_identity(M)` (`bit-matrix.cc:39-48`). -/
def bmIdentity (M : BM) : Outcome BM := do
  let v ← bmIsValid M
  assert v
  let s ← bmIsSquare M
  assert s
  let M := bmClear M
  forRange 0 M.length (fun i M => mset M i i true) M

/-- `bm_identity(n)` (`bit-matrix.cc:50-57`, with `bm_square`, `bit-matrix.hh:53`). -/
def bmIdentityN (n : Nat) : Outcome BM := do
  assert (decide (n > 0))
  let M ← bmRectangular n n
  bmIdentity M

/-- `bm_transpose(N, M)` (`bit-matrix.cc:59-71`). -/
def bmTransposeInto (N M : BM) : Outcome BM := do
  let v ← bmIsValid M
  assert v
  let nc ← bmNumColumns N
  assert (nc == M.length)
  let ncols ← bmNumColumns M
  assert (N.length == ncols)
  let nrows := M.length
  forRange 0 ncols (fun i N =>
    forRange 0 nrows (fun j N => do
      let b ← mget M j i
      mset N i j b) N) N

/-- `bm_transpose(M)` (`bit-matrix.cc:73-83`). -/
def bmTranspose (M : BM) : Outcome BM := do
  let v ← bmIsValid M
  assert v
  let ncols ← bmNumColumns M
  let N ← bmRectangular ncols M.length
  bmTransposeInto N M

/-- The row scan of `bm_is_identity` (`bit-matrix.cc:124-132`): entries `j, j+1, ...` of row `i`. -/
def identityRow (row : BV) (i : Nat) : Nat → Nat → Outcome Bool
  | 0, _ => return true
  | k + 1, j => do
    let b ← vget row j
    if i = j then
      if b != true then return false else identityRow row i k (j + 1)
    else
      if b != false then return false else identityRow row i k (j + 1)

/-- The outer loop of `bm_is_identity` (`bit-matrix.cc:122-133`), from row `i` on. -/
def identityRows (M : BM) : Nat → Nat → Outcome Bool
  | 0, _ => return true
  | k + 1, i => do
    let row ← vget M i
    let b ← identityRow row i M.length 0
    if b then identityRows M k (i + 1) else return false

/-- `bm_is_identity` (`bit-matrix.cc:112-136`). -/
def bmIsIdentity (M : BM) : Outcome Bool := do
  let v ← bmIsValid M
  if !v then return false
  else do
    let s ← bmIsSquare M
    if !s then return false
    else identityRows M M.length 0

/-- The inner loop of `bm_is_upper_triangular` (`bit-matrix.cc:144-147`). -/
def zeroPrefix (M : BM) (i : Nat) : Nat → Nat → Outcome Bool
  | 0, _ => return true
  | k + 1, j => do
    let b ← mget M i j
    if b != false then return false else zeroPrefix M i k (j + 1)

/-- The outer loop of `bm_is_upper_triangular` (`bit-matrix.cc:143-147`), from row `i` on. -/
def upperRows (M : BM) (ncols : Nat) : Nat → Nat → Outcome Bool
  | 0, _ => return true
  | k + 1, i => do
    let b ← zeroPrefix M i (min i ncols) 0
    if b then upperRows M ncols k (i + 1) else return false

/-- `bm_is_upper_triangular` (`bit-matrix.cc:138-149`). -/
def bmIsUpperTriangular (M : BM) : Outcome Bool := do
  let ncols ← bmNumColumns M
  upperRows M ncols M.length 0

/-- `bm_swap_rows` (`bit-matrix.cc:167-176`). -/
def bmSwapRows (M : BM) (i j : Nat) : Outcome BM := do
  assert (decide (i < M.length))
  assert (decide (j < M.length))
  let ncols ← bmNumColumns M
  forRange 0 ncols (fun k M => do
    let a ← mget M i k
    let b ← mget M j k
    let M ← mset M i k b
    mset M j k a) M

/-- `bm_add_rows` (`bit-matrix.cc:178-185`). -/
def bmAddRows (M : BM) (dest src : Nat) : Outcome BM := do
  assert (decide (src < M.length))
  assert (decide (dest < M.length))
  assert (decide (src ≠ dest))
  let d ← vget M dest
  let s ← vget M src
  let d ← bvAdd d s
  vset M dest d

/-- `bm_add_columns` (`bit-matrix.cc:187-200`). -/
def bmAddColumns (M : BM) (dest src : Nat) : Outcome BM := do
  let ncols ← bmNumColumns M
  assert (decide (dest < ncols))
  assert (decide (src < ncols))
  assert (decide (src ≠ dest))
  forRange 0 M.length (fun i M => do
    let b ← mget M i src
    if b then do
      let row ← vget M i
      let row ← bvFlip row dest
      vset M i row
    else return M) M

/-- `bm_set_column` (`bit-matrix.cc:202-211`). -/
def bmSetColumn (M : BM) (j : Nat) (bv : BV) : Outcome BM := do
  let ncols ← bmNumColumns M
  assert (decide (j < ncols))
  assert (bv.length == M.length)
  forRange 0 M.length (fun i M => do
    let b ← vget bv i
    mset M i j b) M

/-- The pivot search loops (`bit-matrix.cc:221-228`, `270-277`, `326-333`): the first row at or after
`i`, among `k` rows, having a one in column `col`. -/
def findPivot (A : BM) (col : Nat) : Nat → Nat → Outcome (Option Nat)
  | 0, _ => return none
  | k + 1, i => do
    let b ← mget A i col
    if b then return some i else findPivot A col k (i + 1)

/-- The elimination loop of `bm_row_echelon_form` (`bit-matrix.cc:233-236`): add row `r` to the rows
below having a one in column `j`. -/
def clearBelow (A : BM) (nrows r j : Nat) : Outcome BM :=
  forRange (r + 1) nrows (fun i A => do
    let b ← mget A i j
    if b then bmAddRows A i r else return A) A

/-- The conditional swap of `bm_row_echelon_form` (`bit-matrix.cc:230-232`). -/
def echelonPivot (A : BM) (pivot r : Nat) : Outcome BM :=
  if pivot ≠ r then bmSwapRows A pivot r else return A

/-- The loop over columns of `bm_row_echelon_form` (`bit-matrix.cc:220-241`), with `k` columns left,
the next one being `j`. -/
def echelonLoop (nrows : Nat) : Nat → Nat → BM → Nat → Outcome BM
  | 0, _, A, _ => return A
  | k + 1, j, A, r => do
    match ← findPivot A j (nrows - r) r with
    | some pivot => do
      let A ← echelonPivot A pivot r
      let A ← clearBelow A nrows r j
      if r + 1 = nrows then return A
      else echelonLoop nrows k (j + 1) A (r + 1)
    | none => echelonLoop nrows k (j + 1) A r

/-- `bm_row_echelon_form` (`bit-matrix.cc:213-242`). -/
def bmRowEchelonForm (A : BM) : Outcome BM := do
  let ncols ← bmNumColumns A
  echelonLoop A.length ncols 0 A 0

/-- The loop of `bm_rank` (`bit-matrix.cc:250-254`), with `k` rows left, the next one being `i`. -/
def rankLoop (A : BM) : Nat → Nat → Nat → Outcome Nat
  | 0, _, rank => return rank
  | k + 1, i, rank => do
    let row ← vget A i
    if bvIsZero row then return rank
    else rankLoop A k (i + 1) (rank + 1)

/-- `bm_rank` (`bit-matrix.cc:244-260`). -/
def bmRank (A : BM) : Outcome Nat := do
  let rank ← rankLoop A A.length 0 0
  assert (decide (rank ≤ A.length))
  let ncols ← bmNumColumns A
  assert (decide (rank ≤ ncols))
  return rank

/-- `std::swap(b[i], b[j])` (`bit-matrix.cc:282`). -/
def bvSwap (b : BV) (i j : Nat) : Outcome BV := do
  let u ← vget b i
  let v ← vget b j
  let b ← vset b i v
  vset b j u

/-- The statement pair `bm_add_rows(A, j, i); b[j] = (b[i] + b[j]) % 2;` (`bit-matrix.cc:286-287`,
`307-308`). -/
def addRowsAndRhs (s : BM × BV) (j i : Nat) : Outcome (BM × BV) := do
  let A ← bmAddRows s.1 j i
  let bi ← vget s.2 i
  let bj ← vget s.2 j
  let b ← vset s.2 j (bi ^^ bj)
  return (A, b)

/-- The back substitution loop of `bm_solve_upper_triangular` (`bit-matrix.cc:303-310`). -/
def solveBackward (nrows : Nat) (s : BM × BV) : Outcome (BM × BV) :=
  forRange 0 nrows (fun k s =>
    forRange 0 (nrows - 1 - k) (fun j s => do
      let b ← mget s.1 j (nrows - 1 - k)
      if b then addRowsAndRhs s j (nrows - 1 - k) else return s) s) s

/-- `bm_solve_upper_triangular` (`bit-matrix.cc:295-314`): the returned flag, and the new values of
both arguments. -/
def bmSolveUpperTriangular (A : BM) (b : BV) : Outcome (Bool × BM × BV) := do
  let sq ← bmIsSquare A
  assert sq
  assert (A.length == b.length)
  let up ← bmIsUpperTriangular A
  assert up
  let s ← solveBackward A.length (A, b)
  let id ← bmIsIdentity s.1
  assert id
  return (true, s)

/-- The conditional swap of `bm_solve` (`bit-matrix.cc:280-283`). -/
def solvePivot (s : BM × BV) (i pivot : Nat) : Outcome (BM × BV) :=
  if pivot ≠ i then do
    let A ← bmSwapRows s.1 i pivot
    let b ← bvSwap s.2 i pivot
    return (A, b)
  else return s

/-- The forward elimination of `bm_solve` (`bit-matrix.cc:269-289`), with `k` rows left, the next one
being `i`; the flag is false when the function returns false. -/
def solveForward (nrows : Nat) : Nat → Nat → BM × BV → Outcome (Bool × BM × BV)
  | 0, _, s => return (true, s)
  | k + 1, i, s => do
    match ← findPivot s.1 i (nrows - i) i with
    | none => return (false, s)
    | some pivot => do
      let s ← solvePivot s i pivot
      let s ← forRange (i + 1) nrows (fun j s => do
        let b ← mget s.1 j i
        if b then addRowsAndRhs s j i else return s) s
      solveForward nrows k (i + 1) s

/-- `bm_solve` (`bit-matrix.cc:262-293`). -/
def bmSolve (A : BM) (b : BV) : Outcome (Bool × BM × BV) := do
  let sq ← bmIsSquare A
  assert sq
  assert (A.length == b.length)
  let (found, s) ← solveForward A.length A.length 0 (A, b)
  if !found then return (false, s)
  else do
    let up ← bmIsUpperTriangular s.1
    assert up
    bmSolveUpperTriangular s.1 s.2

/-- The statement pair `bm_add_rows(M, j, i); bm_add_rows(N, j, i);` (`bit-matrix.cc:342-343`,
`352-353`). -/
def addRowsBoth (s : BM × BM) (j i : Nat) : Outcome (BM × BM) := do
  let M ← bmAddRows s.1 j i
  let N ← bmAddRows s.2 j i
  return (M, N)

/-- The conditional swap of `bm_invert` (`bit-matrix.cc:336-339`). -/
def invertPivot (s : BM × BM) (i pivot : Nat) : Outcome (BM × BM) :=
  if pivot ≠ i then do
    let M ← bmSwapRows s.1 i pivot
    let N ← bmSwapRows s.2 i pivot
    return (M, N)
  else return s

/-- The forward elimination of `bm_invert` (`bit-matrix.cc:325-345`). -/
def invertForward (nrows : Nat) : Nat → Nat → BM × BM → Outcome (Bool × BM × BM)
  | 0, _, s => return (true, s)
  | k + 1, i, s => do
    match ← findPivot s.1 i (nrows - i) i with
    | none => return (false, s)
    | some pivot => do
      let s ← invertPivot s i pivot
      let s ← forRange (i + 1) nrows (fun j s => do
        let b ← mget s.1 j i
        if b then addRowsBoth s j i else return s) s
      invertForward nrows k (i + 1) s

/-- The backward elimination of `bm_invert` (`bit-matrix.cc:348-355`). -/
def invertBackward (nrows : Nat) (s : BM × BM) : Outcome (BM × BM) :=
  forRange 0 nrows (fun k s =>
    forRange 0 (nrows - 1 - k) (fun j s => do
      let b ← mget s.1 j (nrows - 1 - k)
      if b then addRowsBoth s j (nrows - 1 - k) else return s) s) s

/-- `bm_invert` (`bit-matrix.cc:316-358`): the returned flag, and the new values of `M` and `N`. -/
def bmInvert (M N : BM) : Outcome (Bool × BM × BM) := do
  let sq ← bmIsSquare M
  assert sq
  let sq ← bmIsSquare N
  assert sq
  assert (M.length == N.length)
  let N ← bmIdentity N
  let (found, s) ← invertForward M.length M.length 0 (M, N)
  if !found then return (false, s)
  else do
    let up ← bmIsUpperTriangular s.1
    assert up
    let s ← invertBackward M.length s
    let id ← bmIsIdentity s.1
    assert id
    return (true, s)

/-- `bm_multiply(y, M, x)` (`bit-matrix.cc:360-368`). -/
def bmMultiply (y : BV) (M : BM) (x : BV) : Outcome BV := do
  let v ← bmIsValid M
  assert v
  let ncols ← bmNumColumns M
  assert (x.length == ncols)
  assert (y.length == M.length)
  forRange 0 y.length (fun i y => do
    let row ← vget M i
    let b ← bvDotProduct row x
    vset y i b) y

end Hnco
