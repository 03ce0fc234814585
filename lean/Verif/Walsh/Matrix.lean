import Verif.Base
import Mathlib.Order.Defs.LinearOrder

/-!
# Predicates on matrices

Model of `lib/hnco/algorithms/walsh-moment/matrix.hh`.  Matrices are lists of rows; the type of the elements is a linear order, so
that there is no NaN.
-/

namespace Hnco

open Outcome

variable {T : Type} [LinearOrder T]

/-- A loop whose body returns false from the function as soon as a test fails
(`lib/hnco/algorithms/walsh-moment/matrix.hh:35-41`); the function returns true after the loop.  After a failure the other tests are not made. -/
def forAll (a b : Nat) (test : Nat → Outcome Bool) : Outcome Bool :=
  forRange a b (fun i (r : Bool) => if r then test i else ok false) true

/-- `A[i][j]`. -/
def matrixRead (A : List (List T)) (i j : Nat) : Outcome T := do
  let row ← vget A i
  vget row j

/-- `matrix_is_symmetric` (`lib/hnco/algorithms/walsh-moment/matrix.hh:33-42`). -/
def matrixSymmetric (A : List (List T)) : Outcome Bool :=
  forAll 0 A.length (fun i => forAll 0 i (fun j => do
    let x ← matrixRead A i j
    let y ← matrixRead A j i
    ok (decide (x = y))))

/-- `matrix_is_strictly_lower_triangular` (`lib/hnco/algorithms/walsh-moment/matrix.hh:46-55`). -/
def matrixStrictlyLower [Zero T] (A : List (List T)) : Outcome Bool :=
  forAll 0 A.length (fun i => forAll i A.length (fun j => do
    let x ← matrixRead A i j
    ok (decide (x = 0))))

/-- `matrix_has_diagonal` (`lib/hnco/algorithms/walsh-moment/matrix.hh:59-66`). -/
def matrixDiagonal (A : List (List T)) (d : T) : Outcome Bool :=
  forAll 0 A.length (fun i => do
    let x ← matrixRead A i i
    ok (decide (x = d)))

/-- `matrix_has_range` (`lib/hnco/algorithms/walsh-moment/matrix.hh:70-81`). -/
def matrixRange (A : List (List T)) (inf sup : T) : Outcome Bool :=
  forAll 0 A.length (fun i => forAll 0 i (fun j => do
    let x ← matrixRead A i j
    ok (!decide (x < inf) && !decide (sup < x))))

/-- `matrix_has_dominant_diagonal` (`lib/hnco/algorithms/walsh-moment/matrix.hh:85-94`). -/
def matrixDominant (A : List (List T)) : Outcome Bool :=
  forAll 0 A.length (fun i => forAll 0 i (fun j => do
    let x ← matrixRead A i j
    let y ← matrixRead A i j
    ok (!decide (y < x))))

end Hnco
