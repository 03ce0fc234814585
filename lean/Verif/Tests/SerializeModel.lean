import Verif.App.Ffgen
import Verif.Function.Collection
import Verif.Function.Ising
import Verif.Function.MaxSat
import Verif.Function.Theory
import Verif.Function.Walsh
import Verif.Map.CompositionProps
import Verif.Serialization.Model
import Verif.Tests.Model

/-!
# The project's test programs on serialization

As in `Verif.Tests.Model`, the literals of the programs are parameters.  A file is the sequence of items which have been written to
it (see `Verif.Serialization.Model`), or its text.  Opening it never fails.
-/

namespace Hnco.Tests

open Outcome

/-- `Generator::normal` and `Generator::uniform` (`lib/hnco/random.hh`): `g` is any way to make a number of a draw. -/
def number {K : Type} (g : Nat → K) : Sim K := do
  let d ← Sim.draw
  pure (g d)

/-- The inner loop of the tests of functions (`test-serialize-linear-function.cc:59-65` and the same lines of the others). -/
def compareValues {V : Type} [DecidableEq V] (inner n : Nat) (src dest : BV → Outcome V) : Sim Bool :=
  every inner (do
    let bv ← bvRandomBits n
    let a ← Sim.lift (src bv)
    let b ← Sim.lift (dest bv)
    if a ≠ b then pure false else pure true)

/-- The inner loop of the tests of maps (`test-serialize-translation.cc:63-69` and the same lines of the others); the output
vectors are kept from one iteration to the next. -/
def compareMaps (n : Nat) (src dest : BV → BV → Outcome BV) : Nat → BV → BV → Sim Bool
  | 0, _, _ => pure true
  | inner + 1, y1, y2 => do
    let x ← bvRandomBits n
    let y1 ← Sim.lift (src x y1)
    let y2 ← Sim.lift (dest x y2)
    if y1 ≠ y2 then pure false else compareMaps n src dest inner y1 y2

section
variable {K : Type} [Field K] [LinearOrder K]

/-- `test-serialize-linear-function.cc:31-70`, and `test-save-load-linear-function.cc:29-58`, where the archive is written and
read by `save` and `load` (`linear-function.hh:100-107`). -/
def serializeLinearTest (g : Nat → K) (runs inner size : Nat) : Sim Bool :=
  every runs (do
    let n ← Sim.uniformInt 2 size
    let src ← linearGenerate (fun (u : Unit) => do
      let v ← number g
      pure (v, u)) () n
    let dest ← Sim.lift (loadReals (saveReals src))
    compareValues inner n (linearFunction src).eval (linearFunction dest.1).eval)

/-- `test-serialize-equal-products.cc:31-70`. -/
def serializeEqualProductsTest (g : Nat → K) (runs inner size : Nat) : Sim Bool :=
  every runs (do
    let n ← Sim.uniformInt 2 size
    let src ← vectorGenerate (number g) n
    let dest ← Sim.lift (loadReals (saveReals src))
    compareValues inner n (equalProductsEval src) (equalProductsEval dest.1))

/-- `test-serialize-partition.cc:31-71`. -/
def serializePartitionTest (K : Type) (runs inner size : Nat) : Sim Bool :=
  every runs (do
    let n ← Sim.uniformInt 1 size
    let upperBound ← Sim.uniformInt 1 size
    let src ← partitionRandom n upperBound
    let dest ← Sim.lift (loadInts (K := K) (saveInts src))
    compareValues inner n (partitionEval src) (partitionEval dest.1))

/-- `test-serialize-nk-landscape.cc:31-73`. -/
def serializeNkTest (g : Nat → K) (runs inner size order : Nat) : Sim Bool :=
  every runs (do
    let n ← Sim.uniformInt 2 size
    let k ← Sim.uniformInt 1 (min (n - 1) order)
    let src ← nkGenerate (number g) n k nkNew
    let dest ← Sim.lift (loadNk (saveNk src))
    compareValues inner n (nkEval src) (nkEval dest.1))

/-- `test-serialize-nn-ising-1.cc:31-70`. -/
def serializeIsing1Test (g : Nat → K) (runs inner size : Nat) : Sim Bool :=
  every runs (do
    let n ← Sim.uniformInt 1 size
    let src ← ising1Generate (number g) (number g) n
    let dest ← Sim.lift (loadIsing1 (saveIsing1 src))
    compareValues inner n (ising1Eval src) (ising1Eval dest.1))

/-- `test-serialize-nn-ising-2.cc:31-73`. -/
def serializeIsing2Test (g : Nat → K) (runs inner rows columns : Nat) : Sim Bool :=
  every runs (do
    let r ← Sim.uniformInt 1 rows
    let c ← Sim.uniformInt 1 columns
    let src ← ising2Generate (number g) (number g) r c
    let dest ← Sim.lift (loadIsing2 (saveIsing2 src))
    compareValues inner (r * c) (ising2Eval src) (ising2Eval dest.1))

/-- `test-serialize-walsh-expansion.cc:31-71`. -/
def serializeWalshTest (g : Nat → K) (runs inner size : Nat) : Sim Bool :=
  every runs (do
    let n ← Sim.uniformInt 1 size
    let numFeatures ← Sim.uniformInt 1 size
    let src ← walshGenerate (number g) n numFeatures
    let dest ← Sim.lift (loadWalsh (saveWalsh src))
    compareValues inner n (walshExpansionEval src) (walshExpansionEval dest.1))

/-- `test-serialize-walsh-expansion-1.cc:31-70`. -/
def serializeWalsh1Test (g : Nat → K) (runs inner size : Nat) : Sim Bool :=
  every runs (do
    let n ← Sim.uniformInt 2 size
    let src ← vectorGenerate (number g) n
    let dest ← Sim.lift (loadReals (saveReals src))
    compareValues inner n (walshExpansion1 src).eval (walshExpansion1 dest.1).eval)

/-- `test-serialize-walsh-expansion-2.cc:31-70`. -/
def serializeWalsh2Test (g : Nat → K) (runs inner size : Nat) : Sim Bool :=
  every runs (do
    let n ← Sim.uniformInt 2 size
    let src ← walsh2Generate (number g) (number g) n
    let dest ← Sim.lift (loadWalsh2 (saveWalsh2 src))
    compareValues inner n (walshExpansion2Eval src.1 src.2) (walshExpansion2Eval dest.1.1 dest.1.2))

end

/-- `test-serialize-max-sat.cc:33-71`: the instances have `c` clauses of `k` literals, and `k` is also the smallest number of
variables.  `dest.load(path)` is in a block which catches `std::runtime_error` and exits with the status 1. -/
def serializeMaxSatTest {D : Type} [LT D] [DecidableLT D] (ratio uniform : Nat → Nat → D) (runs inner size k c : Nat) : Sim Bool :=
  every runs (do
    let n ← Sim.uniformInt k size
    let src ← maxSatRandom ratio uniform n k c
    match cnfLoad (cnfSave n src) with
    | .throw .runtimeError => pure false
    | o => do
      let dest ← Sim.lift o
      compareValues inner n (maxSatEval src) (maxSatEval dest.2))

/-- `test-serialize-translation.cc:31-74`. -/
def serializeTranslationTest (K : Type) (runs inner size : Nat) : Sim Bool :=
  every runs (do
    let n ← Sim.uniformInt 2 size
    let src ← translationRandom n
    let dest ← Sim.lift (loadTranslation (K := K) (saveTranslation src))
    compareMaps n (translationMap src) (translationMap dest.1) inner (List.replicate n false) (List.replicate n false))

/-- `test-serialize-permutation.cc:31-74`. -/
def serializePermutationTest (K : Type) (runs inner size : Nat) : Sim Bool :=
  every runs (do
    let n ← Sim.uniformInt 2 size
    let src ← permutationRandom n
    let dest ← Sim.lift (loadPermutation (K := K) (savePermutation src))
    compareMaps n (permutationMap src) (permutationMap dest.1) inner (List.replicate n false) (List.replicate n false))

/-- `test-serialize-linear-map.cc:31-75`. -/
def serializeLinearMapTest (K : Type) (runs inner size : Nat) : Sim Bool :=
  every runs (do
    let n ← Sim.uniformInt 2 size
    let m ← Sim.uniformInt 2 size
    let src ← linearRandom n m false
    let dest ← Sim.lift (loadLinear (K := K) (saveLinear src))
    compareMaps m (linearMap src) (linearMap dest.1) inner (List.replicate n false) (List.replicate n false))

/-- `test-serialize-affine-map.cc:31-75`. -/
def serializeAffineMapTest (K : Type) (runs inner size : Nat) : Sim Bool :=
  every runs (do
    let n ← Sim.uniformInt 2 size
    let m ← Sim.uniformInt 2 size
    let src ← affineRandom n m false
    let dest ← Sim.lift (loadAffine (K := K) (saveAffine src))
    compareMaps m (affineMap src.1 src.2) (affineMap dest.1.1 dest.1.2) inner (List.replicate n false) (List.replicate n false))

/-- `test-serialize-ts-affine-map.cc:31-76`. -/
def serializeTsAffineMapTest (K : Type) (runs inner size len : Nat) : Sim Bool :=
  every runs (do
    let n ← Sim.uniformInt 2 size
    let t ← Sim.uniformInt 1 len
    let src ← tsAffineRandom ⟨[], []⟩ n t .unconstrained
    let dest ← Sim.lift (loadTsAffine (K := K) (saveTsAffine src))
    compareMaps n (tsAffineMap src) (tsAffineMap dest.1) inner (List.replicate n false) (List.replicate n false))

/-- The constructor of `MapComposition` (`map.hh:447-453`). -/
def compositionNew (outer inner : MapObj) : Outcome MapObj := do
  assert (outer.inputSize == inner.outputSize)
  ok (mapComposition outer inner (List.replicate inner.outputSize false))

/-- `test-serialize-map-composition.cc:31-81`. -/
def serializeMapCompositionTest (K : Type) (runs inner size : Nat) : Sim Bool :=
  every runs (do
    let n ← Sim.uniformInt 2 size
    let m ← Sim.uniformInt 2 size
    let v ← translationRandom n
    let M ← linearRandom n m false
    let v' ← Sim.lift (loadTranslation (K := K) (saveTranslation v ++ saveLinear M))
    let M' ← Sim.lift (loadLinear v'.2)
    let src ← Sim.lift (compositionNew (translationObj v) (linearObj M M.length m))
    let dest ← Sim.lift (compositionNew (translationObj v'.1) (linearObj M'.1 M'.1.length m))
    compareMaps m src.map dest.map inner (List.replicate n false) (List.replicate n false))

end Hnco.Tests
