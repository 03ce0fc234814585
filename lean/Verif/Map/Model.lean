import Verif.Matrix.Model
import Verif.Random

/-!
# Model of transvections and maps

Models `lib/hnco/maps/transvection.{hh,cc}`, `lib/hnco/maps/map.{hh,cc}` and
`lib/hnco/permutation.{hh,cc}`.
-/

namespace Hnco

open Outcome

/-! ## Transvections -/

/-- `struct Transvection` (`transvection.hh:61-125`).  Simplification: indices are natural numbers
(`is_valid()` rejects negative ones). -/
structure Transvection where
  /-- `row_index` (destination) -/
  row : Nat
  /-- `column_index` (source) -/
  col : Nat
  deriving DecidableEq, Repr

/-- `Transvection::is_valid()` (`transvection.cc:34-44`). -/
def tvIsValid (t : Transvection) : Bool := t.row != t.col

/-- `Transvection::is_valid(int n)` (`transvection.cc:47-57`). -/
def tvIsValidN (t : Transvection) (n : Nat) : Bool :=
  if !tvIsValid t then false
  else if t.row ≥ n then false
  else if t.col ≥ n then false
  else true

/-- `Transvection::multiply(bit_vector_t&)` (`transvection.cc:104-113`). -/
def tvMultiply (t : Transvection) (bv : BV) : Outcome BV := do
  assert (tvIsValid t)
  assert (tvIsValidN t bv.length)
  let b ← vget bv t.col
  if b then bvFlip bv t.row else return bv

/-- `Transvection::multiply(bit_matrix_t&)` (`transvection.cc:116-123`). -/
def tvMultiplyMatrix (t : Transvection) (bm : BM) : Outcome BM := do
  assert (tvIsValid t)
  assert (tvIsValidN t bm.length)
  bmAddRows bm t.row t.col

/-- `transvections_commute` (`transvection.cc:126-133`). -/
def tvCommute (a b : Transvection) : Bool :=
  if a.row == b.col then false
  else if b.row == a.col then false
  else true

/-- `transvections_are_disjoint` (`transvection.cc:136-147`). -/
def tvDisjoint (a b : Transvection) : Bool :=
  if a.row == b.row then false
  else if a.row == b.col then false
  else if a.col == b.row then false
  else if a.col == b.col then false
  else true

/-- `ts_is_valid(ts)` (`transvection.cc:150-153`). -/
def tsIsValid (ts : List Transvection) : Bool := ts.all tvIsValid

/-- `ts_is_valid(ts, n)` (`transvection.cc:156-159`). -/
def tsIsValidN (ts : List Transvection) (n : Nat) : Bool := ts.all (fun t => tvIsValidN t n)

/-- The loop of `ts_multiply` (`transvection.cc:361-362`). -/
def tsMultiplyLoop : List Transvection → BV → Outcome BV
  | [], bv => return bv
  | t :: ts, bv => do
    let bv ← tvMultiply t bv
    tsMultiplyLoop ts bv

/-- `ts_multiply(bv, ts)` (`transvection.cc:356-363`). -/
def tsMultiply (bv : BV) (ts : List Transvection) : Outcome BV := do
  assert (tsIsValid ts)
  assert (tsIsValidN ts bv.length)
  tsMultiplyLoop ts bv

/-- The loop of `ts_multiply` on matrices (`transvection.cc:371-372`). -/
def tsMultiplyMatrixLoop : List Transvection → BM → Outcome BM
  | [], bm => return bm
  | t :: ts, bm => do
    let bm ← tvMultiplyMatrix t bm
    tsMultiplyMatrixLoop ts bm

/-- `ts_multiply(bm, ts)` (`transvection.cc:366-373`). -/
def tsMultiplyMatrix (bm : BM) (ts : List Transvection) : Outcome BM := do
  assert (tsIsValid ts)
  assert (tsIsValidN ts bm.length)
  tsMultiplyMatrixLoop ts bm

/-- `ts_invert` (`transvection.cc:375-380`). -/
def tsInvert (ts : List Transvection) : Outcome (List Transvection) := do
  assert (tsIsValid ts)
  return ts.reverse

/-! ## Random transvection sequences -/

/-- `Transvection::random(n)` (`transvection.cc:60-73`). -/
def tvRandom (n : Nat) : Sim Transvection := do
  Sim.lift (assert (decide (n > 1)))
  Sim.repeatUntil (do
    let i ← Sim.uniformInt 0 (n - 1)
    let j ← Sim.uniformInt 0 (n - 1)
    return ⟨i, j⟩) (fun t => !(t.row == t.col))

/-- `Transvection::random_non_commuting(n, a)` (`transvection.cc:76-101`). -/
def tvRandomNonCommuting (n : Nat) (a : Transvection) : Sim Transvection := do
  Sim.lift (assert (decide (n > 1)))
  let b ← Sim.bernoulli
  let t ← (if b then do
      let i ← Sim.repeatUntil (Sim.uniformInt 0 (n - 1)) (fun i => !(i == a.col))
      pure ⟨a.col, i⟩
    else do
      let i ← Sim.repeatUntil (Sim.uniformInt 0 (n - 1)) (fun i => !(i == a.row))
      pure ⟨i, a.row⟩ : Sim Transvection)
  Sim.lift (assert (tvIsValidN t n))
  Sim.lift (assert (!tvCommute t a))
  return t

/-- Sample `k` transvections one after the other (the loop of `ts_random`,
`transvection.cc:178-179`). -/
def tsRandomLoop (n : Nat) : Nat → Sim (List Transvection)
  | 0 => pure []
  | k + 1 => do
    let t ← tvRandom n
    let ts ← tsRandomLoop n k
    return t :: ts

/-- `ts_random` (`transvection.cc:172-180`).  The previous contents of the sequence are overwritten. -/
def tsRandom (_ts : List Transvection) (n t : Nat) : Sim (List Transvection) := do
  Sim.lift (assert (decide (n > 1)))
  tsRandomLoop n t

/-- `std::iota`-like initialisation followed by `std::shuffle` (`transvection.cc:203-206`, `259-262`,
`292-295`, `318-321`). -/
def shuffledVariables (n : Nat) : Sim (List Nat) := Sim.shuffle (List.range n)

/-- The largest number of pairwise commuting transvections considered (`transvection.cc:190-196`). -/
def commutingLengthMax (n : Nat) : Nat :=
  if n % 2 == 0 then (n / 2) * (n / 2) else (n / 2) * (n / 2 + 1)

/-- `min(k - 1, int(M))` and `min(k, int(M + 0.5))` with `M = sqrt(n * n / 4 - t)`
(`transvection.cc:208`, `212`, `220`).  Simplification: real arithmetic instead of floating point, so
that `int(sqrt(n * n / 4 - t))` is the integer square root of `n * n / 4 - t` for even `n`, and
`int(sqrt(n * n / 4 - t) + 0.5)` is `(isqrt(n * n - 4 * t) + 1) / 2`. -/
def commutingBound (n t : Nat) : Nat :=
  if n % 2 == 0 then min (n / 2 - 1) (Nat.sqrt (n * n / 4 - t))
  else min (n / 2) ((Nat.sqrt (n * n - 4 * t) + 1) / 2)

/-- The choice of the split point (`transvection.cc:210-227`). -/
def commutingSplit (n t : Nat) : Sim Nat := do
  if n % 2 == 0 then do
    let r ← Sim.uniformInt 0 (commutingBound n t)
    let b ← Sim.bernoulli
    return if b then n / 2 + r else n / 2 - r
  else do
    let r ← Sim.uniformInt 1 (commutingBound n t)
    let b ← Sim.bernoulli
    return if b then n / 2 + r else n / 2 + 1 - r

/-- The double loop of `ts_random_commuting` (`transvection.cc:229-236`). -/
def commutingPairs (vars : List Nat) (n split : Nat) (ts : List Transvection) :
    Outcome (List Transvection) :=
  forRange 0 split (fun i ts =>
    forRange split n (fun j ts => do
      let r ← vget vars i
      let c ← vget vars j
      return ts ++ [⟨r, c⟩]) ts) ts

/-- `ts_random_commuting` (`transvection.cc:183-242`). -/
def tsRandomCommuting (ts : List Transvection) (n t : Nat) : Sim (List Transvection) := do
  Sim.lift (assert (decide (n > 1)))
  if t ≤ 0 then return ts
  else do
    let t := if t > commutingLengthMax n then commutingLengthMax n else t
    let vars ← shuffledVariables n
    let split ← commutingSplit n t
    let ts ← Sim.lift (commutingPairs vars n split ts)
    let ts ← Sim.shuffle ts
    if t < ts.length then return ts.take t else return ts

/-- `ts_random_unique_source` (`transvection.cc:245-275`). -/
def tsRandomUniqueSource (ts : List Transvection) (n t : Nat) : Sim (List Transvection) := do
  Sim.lift (assert (decide (n > 1)))
  if t ≤ 0 then return ts
  else do
    let t := if t > n - 1 then n - 1 else t
    let vars ← shuffledVariables n
    let ts ← Sim.forRange 0 t (fun i ts => do
      let r ← Sim.lift (vget vars i)
      let k ← Sim.uniformInt t (n - 1)
      let c ← Sim.lift (vget vars k)
      return ts ++ [⟨r, c⟩]) ts
    Sim.lift (assert (t == ts.length))
    Sim.shuffle ts

/-- `ts_random_unique_destination` (`transvection.cc:278-308`). -/
def tsRandomUniqueDestination (ts : List Transvection) (n t : Nat) : Sim (List Transvection) := do
  Sim.lift (assert (decide (n > 1)))
  if t ≤ 0 then return ts
  else do
    let t := if t > n - 1 then n - 1 else t
    let vars ← shuffledVariables n
    let ts ← Sim.forRange 0 t (fun j ts => do
      let k ← Sim.uniformInt t (n - 1)
      let r ← Sim.lift (vget vars k)
      let c ← Sim.lift (vget vars j)
      return ts ++ [⟨r, c⟩]) ts
    Sim.lift (assert (t == ts.length))
    Sim.shuffle ts

/-- The loop of `ts_random_disjoint` (`transvection.cc:330-337`). -/
def disjointPairs (vars : List Nat) (n t : Nat) : Outcome (List Transvection) :=
  forRange 0 t (fun i ts => do
    let r ← vget vars (2 * i)
    let c ← vget vars (2 * i + 1)
    assert (tvIsValidN ⟨r, c⟩ n)
    return ts ++ [⟨r, c⟩]) []

/-- `ts_random_disjoint` (`transvection.cc:311-338`). -/
def tsRandomDisjoint (ts : List Transvection) (n t : Nat) : Sim (List Transvection) := do
  Sim.lift (assert (decide (n > 1)))
  if t ≤ 0 then return ts
  else do
    let vars ← shuffledVariables n
    let t := if 2 * t > n then n / 2 else t
    Sim.lift (assert (decide (2 * t ≤ n)))
    Sim.lift (disjointPairs vars n t)

/-- The loop of `ts_random_non_commuting` (`transvection.cc:350-352`), after a first transvection. -/
def nonCommutingLoop (n : Nat) : Nat → Transvection → Sim (List Transvection)
  | 0, _ => pure []
  | k + 1, a => do
    let t ← tvRandomNonCommuting n a
    let ts ← nonCommutingLoop n k t
    return t :: ts

/-- `ts_random_non_commuting` (`transvection.cc:341-353`). -/
def tsRandomNonCommuting (ts : List Transvection) (n t : Nat) : Sim (List Transvection) := do
  Sim.lift (assert (decide (n > 1)))
  if t ≤ 0 then return ts
  else do
    let a ← tvRandom n
    let ts ← nonCommutingLoop n (t - 1) a
    return a :: ts

/-! ## Permutations -/

/-- The loop of `perm_is_valid` (`permutation.cc:30-39`), on the remaining entries. -/
def permIsValidLoop (n : Nat) : List Int → List Bool → Outcome Bool
  | [], _ => return true
  | p :: ps, checked =>
    if p < 0 then return false
    else if p ≥ (n : Int) then return false
    else do
      let c ← vget checked p.toNat
      if c then return false
      else do
        let checked ← vset checked p.toNat true
        permIsValidLoop n ps checked

/-- `perm_is_valid` (`permutation.cc:27-41`). -/
def permIsValid (p : List Int) : Outcome Bool :=
  permIsValidLoop p.length p (List.replicate p.length false)

/-! ## Maps -/

/-- `Translation::map` (`map.cc:33-40`). -/
def translationMap (bv input output : BV) : Outcome BV := do
  assert (input.length == bv.length)
  assert (output.length == bv.length)
  bvAdd3 output input bv

/-- `Permutation::map` (`map.cc:58-68`). -/
def permutationMap (permutation : List Int) (input output : BV) : Outcome BV := do
  assert (permutation.length == input.length)
  assert (permutation.length == output.length)
  let v ← permIsValid permutation
  assert v
  forRange 0 output.length (fun i output => do
    let p ← vget permutation i
    assert (decide (0 ≤ p))
    let b ← vget input p.toNat
    vset output i b) output

/-- `LinearMap::map` (`map.cc:89-95`). -/
def linearMap (bm : BM) (input output : BV) : Outcome BV := do
  assert (output.length == bm.length)
  bmMultiply output bm input

/-- `LinearMap::is_surjective` and `AffineMap::is_surjective` (`map.cc:97-103`, `138-144`). -/
def linearIsSurjective (bm : BM) : Outcome Bool := do
  let M ← bmRowEchelonForm bm
  let r ← bmRank M
  return r == bm.length

/-- `AffineMap::map` (`map.cc:129-136`). -/
def affineMap (bm : BM) (bv : BV) (input output : BV) : Outcome BV := do
  assert (output.length == bm.length)
  let output ← bmMultiply output bm input
  bvAdd output bv

/-- `bm_resize` followed by `bm_random` (`bit-matrix.cc:151-165`): every entry is redrawn, so that the
previous contents do not matter. -/
def bmRandom (nrows ncols : Nat) : Sim BM := do
  Sim.lift (assert (decide (nrows > 0)))
  Sim.lift (assert (decide (ncols > 0)))
  Sim.forRange 0 nrows (fun _ M => do
    let row ← Sim.forRange 0 ncols (fun _ r => do
      let b ← Sim.bernoulli
      return r ++ [b]) []
    return M ++ [row]) []

/-- `LinearMap::random` (`map.cc:70-87`); also the matrix part of `AffineMap::random`
(`map.cc:105-121`). -/
def linearRandom (rows cols : Nat) (surjective : Bool) : Sim BM := do
  Sim.lift (assert (decide (rows > 0)))
  Sim.lift (assert (decide (cols > 0)))
  if surjective then
    if rows > cols then Sim.lift (Outcome.throw .runtimeError)
    else do
      let r ← Sim.repeatUntil (do
        let M ← bmRandom rows cols
        let s ← Sim.lift (linearIsSurjective M)
        return (M, s)) (fun r => r.2)
      return r.1
  else bmRandom rows cols


/-- `Injection::Injection` (`map.cc:157-163`). -/
def injectionNew (positions : List Nat) (outputSize : Nat) : Outcome Unit :=
  if outputSize < positions.length then .throw .runtimeError else return ()

/-- `Injection::map` (`map.cc:165-173`). -/
def injectionMap (positions : List Nat) (outputSize : Nat) (input output : BV) : Outcome BV := do
  assert (input.length == positions.length)
  assert (output.length == outputSize)
  forRange 0 positions.length (fun i output => do
    let p ← vget positions i
    let b ← vget input i
    vset output p b) output

/-- `Injection::is_surjective` (`map.hh:527`). -/
def injectionIsSurjective (positions : List Nat) (outputSize : Nat) : Bool :=
  outputSize == positions.length

/-- `Projection::Projection` (`map.cc:175-181`). -/
def projectionNew (positions : List Nat) (inputSize : Nat) : Outcome Unit :=
  if inputSize < positions.length then .throw .runtimeError else return ()

/-- `Projection::map` (`map.cc:183-191`). -/
def projectionMap (positions : List Nat) (inputSize : Nat) (input output : BV) : Outcome BV := do
  assert (input.length == inputSize)
  assert (output.length == positions.length)
  forRange 0 positions.length (fun i output => do
    let p ← vget positions i
    let b ← vget input p
    vset output i b) output

/-- `Projection::is_surjective` (`map.hh:586`). -/
def projectionIsSurjective : Bool := true

/-- `TsAffineMap` (`map.hh:601-684`): transvection sequence and translation vector. -/
structure TsAffine where
  /-- `_ts` -/
  ts : List Transvection
  /-- `_bv` -/
  bv : BV
  deriving DecidableEq, Repr

/-- `TsAffineMap::map` (`map.cc:233-242`). -/
def tsAffineMap (f : TsAffine) (input output : BV) : Outcome BV := do
  assert (input.length == f.bv.length)
  assert (output.length == f.bv.length)
  let output := input
  let output ← tsMultiply output f.ts
  bvAdd output f.bv

/-- `TsAffineMap::invert` (`map.cc:250-255`). -/
def tsAffineInvert (f : TsAffine) : Outcome TsAffine := do
  let ts := f.ts.reverse
  let bv ← tsMultiply f.bv ts
  return ⟨ts, bv⟩

/-- `TsAffineMap::SamplingMode` (`map.hh:627-643`). -/
inductive SamplingMode where
  | unconstrained | commuting | uniqueSource | uniqueDestination | disjoint | nonCommuting
  deriving DecidableEq, Repr

/-- The switch of `TsAffineMap::random` (`map.cc:202-230`).  Simplification: the mode is one of the six
values of the enumeration. -/
def tsSample (ts : List Transvection) (n t : Nat) : SamplingMode → Sim (List Transvection)
  | .unconstrained => tsRandom ts n t
  | .commuting => tsRandomCommuting ts n t
  | .uniqueSource => tsRandomUniqueSource ts n t
  | .uniqueDestination => tsRandomUniqueDestination ts n t
  | .disjoint => tsRandomDisjoint ts n t
  | .nonCommuting => tsRandomNonCommuting ts n t

/-- `TsAffineMap::random` (`map.cc:193-231`). -/
def tsAffineRandom (f : TsAffine) (n t : Nat) (mode : SamplingMode) : Sim TsAffine := do
  Sim.lift (assert (decide (n > 0)))
  let bv ← Sim.forRange 0 n (fun _ r => do
    let b ← Sim.bernoulli
    return r ++ [b]) []
  let ts ← tsSample f.ts n t mode
  return ⟨ts, bv⟩

end Hnco
