import Verif.BitVector.Model
import Verif.Function.Base

/-! # Vocabulary for statements about functions -/

namespace Hnco

open Outcome

/-- The value `m` is the maximum of a function on the vectors of size `size`: every vector of this size
gets a value, no value exceeds `m`, and some vector gets the value `m`. -/
def IsMaximum {K : Type} [LE K] (size : Nat) (eval : BV → Outcome K) (m : K) : Prop :=
  (∀ x : BV, x.length = size → ∃ v, eval x = ok v ∧ v ≤ m) ∧
    ∃ x : BV, x.length = size ∧ eval x = ok m

/-- The function declares a maximum, and the declared value is its maximum. -/
def DeclaresMaximum {K : Type} [LE K] (f : Fn K) : Prop :=
  f.hasMax = true ∧ ∃ m, f.maximum = ok m ∧ IsMaximum f.size f.eval m

/-- Incremental evaluation is exact: given a vector `x` with its value, and distinct in-range positions
in increasing order, it gives the value of the vector `y` obtained from `x` by flipping the bits at these
positions. -/
def IncrementalExact {K : Type} (f : Fn K) : Prop :=
  f.hasInc = true ∧
  ∀ (x y : BV) (v : K) (flips : List Nat), x.length = f.size → y.length = f.size →
    flips.Pairwise (· < ·) → (∀ i ∈ flips, i < f.size) →
    (∀ (i : Nat) (b : Bool), x[i]? = some b → y[i]? = some (if i ∈ flips then !b else b)) →
    f.eval x = ok v → ∃ w, f.evalInc x v flips = ok w ∧ f.eval y = ok w

end Hnco
