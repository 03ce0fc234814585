import Verif.App.Modifier
import Verif.Map.Model
import Verif.Neighborhood.Model

/-!
# The project's own test programs on bit vectors, bit matrices and maps

Each program in `/repo/tests` draws random objects a fixed number of times, compares two ways of computing the same thing, and
ends with the exit status 1 at the first difference.  The numbers of runs and the largest sizes, which are literals in the
programs, are parameters here.  Seeding the generator (`Generator::set_seed`) is not modelled: a run is made for any list of
draws.
-/

namespace Hnco.Tests

open Outcome

/-- A loop over `runs` which is left by `return false` (or `return 1`) as soon as its body fails, followed by `return true`
(or `return 0`), as in `test-bm-multiply.cc:34-53`. -/
def every : Nat → Sim Bool → Sim Bool
  | 0, _ => pure true
  | runs + 1, body => do
    let b ← body
    if b then every runs body else pure false

/-- Same with the run number, as in `test-bv-random.cc:36-46`. -/
def everyAt (body : Nat → Sim Bool) : Nat → Nat → Sim Bool
  | 0, _ => pure true
  | runs + 1, i => do
    let b ← body i
    if b then everyAt body runs (i + 1) else pure false

/-- `main` (`test-bm-multiply.cc:56-65`, `test-bm-add-rows.cc:63-71`, `test-bm-solve.cc:69-74`): the exit status. -/
def exitStatus (check : Sim Bool) : Sim Nat := do
  let b ← check
  if b then pure 0 else pure 1

/-- The loop which draws an invertible matrix and computes its inverse (`test-bm-multiply.cc:36-43`, `test-bm-invert.cc:36-43`,
`test-bm-solve.cc:37-44`); the state is `(M, P, N)`, or `(A, C, B)` in the last of them, and the last component of the state
says whether the inversion succeeded. -/
def drawInvertible (n : Nat) : Sim (BM × BM × BM × Bool) :=
  let zero : BM := List.replicate n (List.replicate n false)
  Sim.doWhile (fun s => do
    let M ← bmRandom n n
    let r ← Sim.lift (bmInvert M s.2.2.1)
    pure (M, r.2.1, r.2.2, r.1)) (fun s => !s.2.2.2) (zero, [], zero, false)

/-- Two different indices (`test-bm-add-rows.cc:44-51`, `test-bm-add-columns.cc:44-51`). -/
def drawDistinct (n : Nat) : Sim (Nat × Nat) := do
  let p ← Sim.repeatUntil (do
    let i ← Sim.uniformInt 0 (n - 1)
    let j ← Sim.uniformInt 0 (n - 1)
    pure (i, j)) (fun p => !(p.1 == p.2))
  Sim.lift (assert (p.1 != p.2))
  pure p

/-- `check_bm_multiply` (`test-bm-multiply.cc:31-54`). -/
def bmMultiplyTest (runs dim : Nat) : Sim Bool :=
  every runs (do
    let n ← Sim.uniformInt 1 dim
    let s ← drawInvertible n
    let x ← bvRandomBits n
    let y ← Sim.lift (bmMultiply (List.replicate n false) s.1 x)
    let z ← Sim.lift (bmMultiply (List.replicate n false) s.2.2.1 y)
    pure (x == z))

/-- `check_bm_add_rows` (`test-bm-add-rows.cc:30-61`). -/
def bmAddRowsTest (runs dim : Nat) : Sim Bool :=
  every runs (do
    let n ← Sim.uniformInt 2 dim
    let M ← bmRandom n n
    let p ← drawDistinct n
    let M1 ← Sim.lift (bmAddRows M p.1 p.2)
    let M2 ← Sim.lift (bmAddRows M1 p.1 p.2)
    pure (M2 == M))

/-- `check_bm_add_rows` of the test of columns (`test-bm-add-columns.cc:30-61`). -/
def bmAddColumnsTest (runs dim : Nat) : Sim Bool :=
  every runs (do
    let n ← Sim.uniformInt 2 dim
    let M ← bmRandom n n
    let p ← drawDistinct n
    let M1 ← Sim.lift (bmAddColumns M p.1 p.2)
    let M2 ← Sim.lift (bmAddColumns M1 p.1 p.2)
    pure (M2 == M))

/-- `check_bm_swap_rows` (`test-bm-swap-rows.cc:31-49`). -/
def bmSwapRowsTest (runs dim : Nat) : Sim Bool :=
  every runs (do
    let n ← Sim.uniformInt 1 dim
    let M ← bmRandom n n
    let i ← Sim.uniformInt 0 (n - 1)
    let j ← Sim.uniformInt 0 (n - 1)
    let M1 ← Sim.lift (bmSwapRows M i j)
    let M2 ← Sim.lift (bmSwapRows M1 i j)
    pure (M2 == M))

/-- `check_bm_solve` (`test-bm-solve.cc:31-67`). -/
def bmSolveTest (runs dim : Nat) : Sim Bool :=
  every runs (do
    let n ← Sim.uniformInt 1 dim
    let s ← drawInvertible n
    let isId ← Sim.lift (bmIsIdentity s.2.1)
    if isId then do
      let b ← bvRandomBits n
      let r ← Sim.lift (bmSolve s.1 b)
      let d ← Sim.lift (bmMultiply (List.replicate n false) s.2.2.1 b)
      pure (r.2.2 == d)
    else pure false)

/-- `check_bm_rank` (`test-bm-rank.cc:31-49`). -/
def bmRankTest (runs dim : Nat) : Sim Bool :=
  every runs (do
    let n ← Sim.uniformInt 1 dim
    let M ← bmRandom n n
    let N ← Sim.lift (bmRowEchelonForm M)
    let rank ← Sim.lift (bmRank N)
    let r ← Sim.lift (bmInvert M N)
    pure (r.1 == (rank == n)))

/-- `check_bm_invert` (`test-bm-invert.cc:31-49`). -/
def bmInvertTest (runs dim : Nat) : Sim Bool :=
  every runs (do
    let n ← Sim.uniformInt 1 dim
    let s ← drawInvertible n
    let r ← Sim.lift (bmInvert s.2.2.1 s.2.1)
    pure (s.1 == r.2.2))

/-- `check_bm_identity` (`test-bm-identity.cc:31-42`). -/
def bmIdentityTest (runs dim : Nat) : Sim Bool :=
  every runs (do
    let n ← Sim.uniformInt 1 dim
    let M ← Sim.lift (bmIdentity (List.replicate n (List.replicate n false)))
    Sim.lift (bmIsIdentity M))

/-- `check_bm_row_column_rank` (`test-bm-row-column-rank.cc:28-53`). -/
def bmRowColumnRankTest (runs dim : Nat) : Sim Bool :=
  every runs (do
    let n ← Sim.uniformInt 1 dim
    let M ← bmRandom n n
    let N ← Sim.lift (bmRowEchelonForm M)
    let rowRank ← Sim.lift (bmRank N)
    let T ← Sim.lift (bmTranspose M)
    let N ← Sim.lift (bmRowEchelonForm T)
    let columnRank ← Sim.lift (bmRank N)
    pure (columnRank == rowRank))

/-- `main` (`test-bv-to-size-type.cc:28-50`). -/
def bvToSizeTypeTest (runs size : Nat) : Sim Bool :=
  every runs (do
    let n ← Sim.uniformInt 0 size
    let src ← bvRandomBits n
    let index ← Sim.lift (bvToWord src)
    let dest ← Sim.lift (bvFromWord (List.replicate n false) index)
    pure (dest == src))

/-- `check` (`test-bv-from-stream.cc:39-66`).  Simplification: the file is the text which has been written to it. -/
def bvFromStreamTest (runs size : Nat) : Sim Bool :=
  every runs (do
    let n ← Sim.uniformInt 0 size
    let x ← bvRandomBits n
    let y ← Sim.lift (bvFromStream (bvDisplay x))
    pure (y.1 == x))

/-- `main` (`test-bv-random.cc:30-47`); `uniform i j` is the `j`-th number drawn by `bv_random` in run `i`, and `ratio` is the
quotient it is compared with. -/
def bvRandomTest {K : Type} [LT K] [DecidableLT K] (ratio : Nat → Nat → K) (uniform : Nat → Nat → K) (runs size : Nat) :
    Sim Bool :=
  everyAt (fun i => do
    let n ← Sim.uniformInt 1 size
    let k ← Sim.uniformInt 1 n
    let bv ← Sim.lift (bvRandom ratio (uniform i) (List.replicate n false) k)
    pure (bvHammingWeight bv == k)) runs 0

/-- `main` (`test-translation.cc:31-59`). -/
def translationTest (runs size : Nat) : Sim Bool :=
  every runs (do
    let n ← Sim.uniformInt 1 size
    let v ← translationRandom n
    let a ← bvRandomBits n
    let b ← Sim.lift (translationMap v a (List.replicate n false))
    let c ← Sim.lift (translationMap v b (List.replicate n false))
    pure (c == a))

/-- The bit positions of the test of injections (`test-injection-projection.cc:46-50`): the first elements of a random
permutation. -/
def drawPositions (inputSize outputSize : Nat) : Sim (List Nat) := do
  let p ← permutationRandom outputSize
  Sim.forRange 0 inputSize (fun i ps => do
    let q ← Sim.lift (vget p i)
    pure (ps ++ [q.toNat])) []

/-- `main` (`test-injection-projection.cc:33-70`). -/
def injectionProjectionTest (runs size delta : Nat) : Sim Bool :=
  every runs (do
    let inputSize ← Sim.uniformInt 1 size
    let deltaSize ← Sim.uniformInt 0 delta
    let outputSize := inputSize + deltaSize
    let ps ← drawPositions inputSize outputSize
    Sim.lift (injectionNew ps outputSize)
    Sim.lift (projectionNew ps outputSize)
    let a ← bvRandomBits inputSize
    let b ← bvRandomBits outputSize
    let b ← Sim.lift (injectionMap ps outputSize a b)
    let c ← Sim.lift (projectionMap ps outputSize b (List.replicate inputSize false))
    pure (c == a))

/-- `check_involution` (`test-transvection-is-involution.cc:40-69`). -/
def transvectionTest (runs inner dim : Nat) : Sim Bool :=
  every runs (do
    let n ← Sim.uniformInt 2 dim
    let t ← tvRandom n
    if tvIsValidN t n then
      every inner (do
        let x ← bvRandomBits n
        let y ← Sim.lift (tvMultiply t x)
        let y ← Sim.lift (tvMultiply t y)
        pure (y == x))
    else pure false)

/-- `check_ts_multiply` (`test-ts-multiply.cc:29-63`). -/
def tsMultiplyTest (runs inner dim len : Nat) : Sim Bool :=
  every runs (do
    let n ← Sim.uniformInt 2 dim
    let t ← Sim.uniformInt 0 len
    let ts ← tsRandom [] n t
    let I ← Sim.lift (bmIdentityN n)
    let M ← Sim.lift (tsMultiplyMatrix I ts)
    every inner (do
      let x ← bvRandomBits n
      let y ← Sim.lift (bmMultiply (List.replicate n false) M x)
      let z ← Sim.lift (tsMultiply x ts)
      pure (z == y)))

/-- The inner loop of `check_involution` (`test-ts-random-commuting-is-involution.cc:52-63`,
`test-ts-random-disjoint-is-involution.cc:50-61`, `test-ts-random-unique-source-is-involution.cc:50-61`,
`test-ts-random-unique-destination-is-involution.cc:50-61`). -/
def involutionLoop (inner n : Nat) (ts : List Transvection) : Sim Bool :=
  every inner (do
    let x ← bvRandomBits n
    let y ← Sim.lift (tsMultiply x ts)
    let y ← Sim.lift (tsMultiply y ts)
    pure (y == x))

/-- `check_ts` on all pairs (`test-ts-random-commuting.cc:40-47`, `test-ts-random-disjoint.cc:40-47`), with the relation between
transvections which is checked.  Simplification: the loops go on after the first failure, which changes nothing but the time. -/
def checkPairs (rel : Transvection → Transvection → Bool) (ts : List Transvection) : Outcome Bool :=
  forRange 0 ts.length (fun i ok1 =>
    forRange (i + 1) ts.length (fun j ok2 => do
      let a ← vget ts i
      let b ← vget ts j
      pure (ok2 && rel a b)) ok1) true

/-- The number of transvections asked for (`test-ts-random-commuting.cc:55-56`,
`test-ts-random-commuting-is-involution.cc:46-47`). -/
def commutingLength (n : Nat) : Nat := if n % 2 == 0 then n / 2 * (n / 2) else n / 2 * (n / 2 + 1)

/-- `check` (`test-ts-random-commuting.cc:49-65`). -/
def tsCommutingTest (runs dim : Nat) : Sim Bool :=
  every runs (do
    let n ← Sim.uniformInt 2 dim
    let ts ← tsRandomCommuting [] n (commutingLength n)
    Sim.lift (checkPairs tvCommute ts))

/-- `check_involution` (`test-ts-random-commuting-is-involution.cc:40-68`). -/
def tsCommutingInvolutionTest (runs inner dim : Nat) : Sim Bool :=
  every runs (do
    let n ← Sim.uniformInt 2 dim
    let ts ← tsRandomCommuting [] n (commutingLength n)
    involutionLoop inner n ts)

/-- `check` (`test-ts-random-disjoint.cc:49-63`). -/
def tsDisjointTest (runs dim : Nat) : Sim Bool :=
  every runs (do
    let n ← Sim.uniformInt 2 dim
    let ts ← tsRandomDisjoint [] n (n / 2)
    Sim.lift (checkPairs tvDisjoint ts))

/-- `check_involution` (`test-ts-random-disjoint-is-involution.cc:40-66`). -/
def tsDisjointInvolutionTest (runs inner dim : Nat) : Sim Bool :=
  every runs (do
    let n ← Sim.uniformInt 2 dim
    let ts ← tsRandomDisjoint [] n (n / 2)
    involutionLoop inner n ts)

/-- `check_involution` (`test-ts-random-unique-source-is-involution.cc:40-66`). -/
def tsUniqueSourceTest (runs inner dim : Nat) : Sim Bool :=
  every runs (do
    let n ← Sim.uniformInt 2 dim
    let ts ← tsRandomUniqueSource [] n (n - 1)
    involutionLoop inner n ts)

/-- `check_involution` (`test-ts-random-unique-destination-is-involution.cc:40-66`). -/
def tsUniqueDestinationTest (runs inner dim : Nat) : Sim Bool :=
  every runs (do
    let n ← Sim.uniformInt 2 dim
    let ts ← tsRandomUniqueDestination [] n (n - 1)
    involutionLoop inner n ts)

/-- `check_ts` (`test-ts-random-non-commuting.cc:40-46`).  Simplification: the loop goes on after the first failure. -/
def checkNeighbours (ts : List Transvection) : Outcome Bool :=
  forRange 1 ts.length (fun i acc => do
    let a ← vget ts i
    let b ← vget ts (i - 1)
    pure (acc && !tvCommute a b)) true

/-- `check` (`test-ts-random-non-commuting.cc:48-65`). -/
def tsNonCommutingTest (runs dim : Nat) : Sim Bool :=
  every runs (do
    let n ← Sim.uniformInt 2 dim
    let ts ← tsRandomNonCommuting [] n (2 * n)
    Sim.lift (checkNeighbours ts))

/-- `check_identity` (`test-tsaffinemap-invert.cc:35-61`). -/
def tsAffineInvertTest (runs inner dim len : Nat) : Sim Bool :=
  every runs (do
    let n ← Sim.uniformInt 2 dim
    let t ← Sim.uniformInt 0 len
    let f ← tsAffineRandom ⟨[], []⟩ n t .unconstrained
    let g ← Sim.lift (tsAffineInvert f)
    every inner (do
      let x ← bvRandomBits n
      let y ← Sim.lift (tsAffineMap f x (List.replicate n false))
      let z ← Sim.lift (tsAffineMap g y (List.replicate n false))
      pure (z == x)))

end Hnco.Tests
