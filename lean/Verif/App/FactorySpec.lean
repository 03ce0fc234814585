import Verif.App.Factory
import Verif.Function.Spec

/-! # Vocabulary for statements about the function factory -/

namespace Hnco

open Outcome

variable {K : Type}

/-- Every vector of the size of the function gets a value. -/
def Fn.Total (f : Fn K) : Prop := ∀ x : BV, x.length = f.size → ∃ v, f.eval x = ok v

/-- The function is total; if it says that its maximum is known, the maximum is right; if it says that it provides incremental
evaluation, incremental evaluation is exact. -/
structure Fn.Sound [LE K] (f : Fn K) : Prop where
  total : f.Total
  maximum : f.hasMax = true → DeclaresMaximum f
  incremental : f.hasInc = true → IncrementalExact f

/-- The functions which are made from options alone. -/
def constructedIds : List Nat := [0, 5, 10, 11, 20, 30, 31, 40, 41, 80, 81, 100, 101, 110, 120, 130, 140]

/-- The functions which are read from a file. -/
def loadedIds : List Nat := [1, 50, 60, 70, 71, 90, 91, 160, 161, 162, 171, 172, 190]

/-- The other known functions. -/
def otherIds : List Nat := [150, 200, 500, 501, 502, 503, 504, 510, 511, 512, 513, 514, 520, 521, 522, 523, 524, 530, 531, 532,
  533, 534, 1000, 1100]

/-- The sizes and parameters which are accepted. -/
structure FactoryOptions.Accepted (o : FactoryOptions) : Prop where
  doubling : o.function = 5 → o.bvSize ≤ 30
  jump : o.function = 30 ∨ o.function = 31 → 1 ≤ o.threshold
  peaks : o.function = 40 ∨ o.function = 41 → o.threshold ≤ o.bvSize / 2 - 1
  cancellation : o.function = 100 ∨ o.function = 101 → 9 ∣ o.bvSize
  trap : o.function = 110 → (o.numTraps : Int) ∣ o.bvSize
  hiff : o.function = 120 → ∃ d : Nat, o.bvSize = 2 ^ d
  longPath : o.function = 140 → 2 ≤ o.prefixLength ∧ (o.prefixLength : Int) ∣ o.bvSize

/-- What else is needed for the function to be sound. -/
structure FactoryOptions.Safe [Zero K] (o : FactoryOptions) (lib : FactoryLib K) : Prop where
  peaks : o.function = 40 ∨ o.function = 41 → -1 ≤ o.threshold
  merit : o.function = 81 → 2 ≤ o.bvSize
  sinus : o.function = 101 → lib.sin 0 = 0
  hiff : o.function = 120 → o.bvSize ≤ 2 ^ 26

/-- The factory makes a function which gives a value to every vector of the size given in the options, and this value is related
to the vector as stated. -/
def MakesWith [Field K] [LinearOrder K] (lib : FactoryLib K) (o : FactoryOptions) (file : InstanceFile K)
    (value : BV → K → Prop) : Prop :=
  ∃ f, makeFunction lib o file = ok (.plain f) ∧ (f.size : Int) = o.bvSize ∧
    ∀ x : BV, x.length = f.size → ∃ v, f.eval x = ok v ∧ value x v

/-- The file seen by the factory is the file written by `ffgen`. -/
def InstanceFile.Holds (file : InstanceFile K) : FfgenFile K → Prop
  | .archive tokens => file.archive = some tokens
  | .text chars => file.text = chars

end Hnco
