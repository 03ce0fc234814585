import Verif.Random
import Verif.Function.Qubo
import Mathlib.Algebra.Order.Floor.Ring
import Mathlib.Algebra.Order.Field.Basic

/-!
# Model of partition, equal products, LABS, travelling salesman and factorization functions

Models `lib/hnco/functions/collection/partition.cc`, `equal-products.cc`, `labs.cc`, `tsp.cc`, `tsp.hh` and
`factorization.cc`.
-/

namespace Hnco

open Outcome

/-! ## Partition -/

/-- `Partition::evaluate` (`partition.cc:31-44`).  The state of the loop is `(sum0, sum1)`.  Simplification:
sums are unbounded integers. -/
def partitionEval (numbers : List Int) (s : BV) : Outcome Int := do
  assert (s.length == numbers.length)
  let r ← forRange 0 s.length (fun i (r : Int × Int) => do
    let b ← vget s i
    let a ← vget numbers i
    ok (if b then (r.1, r.2 + a) else (r.1 + a, r.2))) (0, 0)
  ok (-|r.2 - r.1|)

/-! ## Equal products -/

/-- `EqualProducts::evaluate` (`equal-products.cc:33-44`).  The state of the loop is `(p0, p1)`.
Simplification: doubles are elements of an ordered field. -/
def equalProductsEval {K : Type} [Field K] [LinearOrder K] (numbers : List K) (s : BV) : Outcome K := do
  let r ← forRange 0 numbers.length (fun i (r : K × K) => do
    let b ← vget s i
    let a ← vget numbers i
    ok (if b then (r.1, r.2 * a) else (r.1 * a, r.2))) (1, 1)
  ok (-|r.2 - r.1|)

/-! ## LABS -/

/-- The first loop of `Labs::compute_autocorrelation` (`labs.cc:36-40`), writing the member `_sequence`. -/
def labsSequence (sequence : List Int) (x : BV) : Outcome (List Int) :=
  forRange 0 x.length (fun i sequence => do
    let b ← vget x i
    vset sequence i (if b then 1 else -1)) sequence

/-- `Labs::compute_autocorrelation` (`labs.cc:31-51`).  Simplification: the doubles `E` and `C` are integers,
which is exact below `2^53`. -/
def labsAutocorrelation (sequence : List Int) (x : BV) : Outcome Int := do
  assert (x.length == sequence.length)
  let sequence ← labsSequence sequence x
  forRange 1 x.length (fun k (e : Int) => do
    let c ← forRange 0 (x.length - k) (fun i (c : Int) => do
      let a ← vget sequence i
      let b ← vget sequence (i + k)
      ok (c + a * b)) (0 : Int)
    ok (e + c ^ 2)) 0

/-- `Labs::evaluate` (`labs.cc:54-63`).  The conversion of integers to doubles and the division are those of
the field `K`.  A division by zero, infinite in floating point arithmetic, is `ub`. -/
def labsEval {K : Type} [Field K] (meritFactor : Bool) (sequence : List Int) (x : BV) : Outcome K := do
  assert (x.length == sequence.length)
  let e ← labsAutocorrelation sequence x
  if meritFactor then
    if e = 0 then ub else ok ((x.length : K) ^ 2 / (2 * (e : K)))
  else ok (-(e : K))

/-! ## Travelling salesman -/

section
variable {K : Type}

/-- `v.resize(n)` on a vector of vectors followed by `v[i].resize(n)` (`tsp.hh:100-102`,
`tsp.cc:106-108`). -/
def resizeGrid [Zero K] (g : List (List K)) (n : Nat) : List (List K) :=
  (g.take n ++ List.replicate (n - g.length) []).map (fun (row : List K) =>
    row.take n ++ List.replicate (n - row.length) 0)

/-- `_distances[i][j] = d; _distances[j][i] = d` (`tsp.hh:106-107`, `tsp.cc:142-143`, `158-159`). -/
def setBoth (g : List (List K)) (i j : Nat) (d : K) : Outcome (List (List K)) := do
  let g ← gridSet g i j d
  gridSet g j i d

/-- `Tsp::generate` (`tsp.hh:97-109`).  The state is `_distances` and the number of draws; `generator k` is
the result of the `k`-th call to the generator. -/
def tspGenerate [Zero K] (generator : Nat → K) (distances : List (List K)) (n : Nat) :
    Outcome (List (List K)) := do
  assert (decide (0 < n))
  let r ← forRange 0 n (fun i r => forRange 0 i (fun j (r : List (List K) × Nat) => do
    let g ← setBoth r.1 i j (generator r.2)
    ok (g, r.2 + 1)) r) (resizeGrid distances n, 0)
  ok r.1

/-- `Tsp::compute_distances` after resizing of the coordinates (`tsp.cc:100-161`).  `weight dx dy` is the
distance as a function of the differences of coordinates. -/
def tspDistances [Ring K] (weight : K → K → K) (xs ys : List K) (distances : List (List K)) (n : Nat) :
    Outcome (List (List K)) := do
  assert (decide (0 < n))
  let g ← forRange 0 n (fun i g => gridSet g i i 0) (resizeGrid distances n)
  forRange 1 n (fun i g => forRange 0 i (fun j g => do
    let xi ← vget xs i
    let xj ← vget xs j
    let yi ← vget ys i
    let yj ← vget ys j
    setBoth g i j (weight (xi - xj) (yi - yj))) g) g

/-- The conversion `(int)z`: truncation toward zero. -/
def truncInt [Field K] [LinearOrder K] [FloorRing K] (z : K) : Int := if 0 ≤ z then ⌊z⌋ else ⌈z⌉

/-- Distance of type ATT (`tsp.cc:133-141`).  Simplification: floats are elements of an ordered field; the
square root is a parameter. -/
def tspAtt [Field K] [LinearOrder K] [FloorRing K] (sqrt : K → K) (dx dy : K) : K :=
  let rij := sqrt ((dx * dx + dy * dy) / 10)
  let tij : K := (truncInt (rij + 1 / 2) : K)
  if tij < rij then tij + 1 else tij

/-- Distance of type EUC_2D (`tsp.cc:155-157`). -/
def tspEuc [Field K] [LinearOrder K] [FloorRing K] (sqrt : K → K) (dx dy : K) : K :=
  (truncInt (sqrt (dx * dx + dy * dy) + 1 / 2) : K)

/-- `Tsp::evaluate` (`tsp.cc:192-202`). -/
def tspEval [Ring K] (distances : List (List K)) (permutation : List Nat) : Outcome K := do
  assert (decide (0 < distances.length))
  let last := distances.length - 1
  let step := fun (i j : Nat) (result : K) => do
    let a ← vget permutation i
    let b ← vget permutation j
    let row ← vget distances a
    let d ← vget row b
    ok (result + d)
  let result ← forRange 0 last (fun i result => step i (i + 1) result) 0
  let result ← step last 0 result
  ok (-result)

end

/-! ## Factorization -/

/-- `mpz_sizeinbase(n, 2)`: number of binary digits, 1 for 0. -/
def sizeInBase2 (n : Nat) : Nat := Nat.log2 n + 1

/-- `_first_factor_size` (`factorization.cc:68-71`). -/
def firstFactorSize (number : Nat) : Nat :=
  let s := sizeInBase2 number
  if s % 2 = 0 then s / 2 else s / 2 + 1

/-- `_second_factor_size` (`factorization.cc:73`). -/
def secondFactorSize (number : Nat) : Nat := sizeInBase2 number - 1

/-- The strings of binary digits and their conversion (`factorization.cc:88-100`): `size` bits of `x` from
`start` on, most significant first.  `mpz_set_str` fails on the empty string and leaves the number
unchanged; `previous` is its previous value. -/
def convertFactor (x : BV) (start size previous : Nat) : Outcome Nat :=
  if size = 0 then ok previous
  else forRange 0 size (fun i (v : Nat) => do
    let b ← vget x (start + i)
    ok (2 * v + b.toNat)) 0

/-- `Factorization::evaluate` (`factorization.cc:105-134`) for a natural number.  `first` and `second` are the
previous values of the members `_first_factor` and `_second_factor`.  Simplification: the value is an integer,
exact below `2^53`. -/
def factorizationEval (number first second : Nat) (x : BV) : Outcome Int := do
  let f := firstFactorSize number
  let s := secondFactorSize number
  assert (x.length == f + s)
  let a ← convertFactor x 0 f first
  let b ← convertFactor x f s second
  let product := a * b
  let numberSize := sizeInBase2 number
  let productSize := sizeInBase2 product
  let lo := min numberSize productSize
  let hi := max numberSize productSize
  let result ← forRange 0 lo (fun i (r : Nat) =>
    ok (if product.testBit i ≠ number.testBit i then r + (i + 1) else r)) 0
  let result ← if hi = productSize then
      forRange lo hi (fun i (r : Nat) => ok (if product.testBit i then r + (i + 1) else r)) result
    else
      forRange lo hi (fun i (r : Nat) => ok (if number.testBit i then r + (i + 1) else r)) result
  ok (-(result : Int))

end Hnco
