import Verif.Base

/-!
# Specification vocabulary for maps

A map of the library writes its result into an output vector given by the caller.
-/

namespace Hnco.MapSpec

/-- Whatever the previous contents of the output vector, the map returns normally and the output
vector then holds `f input`. -/
def Computes (map : BV → BV → Outcome BV) (inputSize outputSize : Nat) (f : BV → BV) : Prop :=
  ∀ input output : BV, input.length = inputSize → output.length = outputSize →
    map input output = .ok (f input) ∧ (f input).length = outputSize

/-- Every output vector has an input vector. -/
def Surjective (inputSize outputSize : Nat) (f : BV → BV) : Prop :=
  ∀ y : BV, y.length = outputSize → ∃ x : BV, x.length = inputSize ∧ f x = y

/-- Different input vectors have different output vectors. -/
def Injective (inputSize : Nat) (f : BV → BV) : Prop :=
  ∀ x x' : BV, x.length = inputSize → x'.length = inputSize → f x = f x' → x = x'

/-- `g` undoes `f` on vectors of size `n`. -/
def Undoes (n : Nat) (g f : BV → BV) : Prop := ∀ x : BV, x.length = n → g (f x) = x

end Hnco.MapSpec
