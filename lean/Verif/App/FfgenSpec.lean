import Verif.App.Ffgen
import Verif.Function.IsingProps
import Verif.Sort

/-!
# Specification of the instances written by `ffgen`
-/

namespace Hnco

open Outcome

variable {K : Type} {α : Type}

/-- The results of a program are exactly the values which satisfy `P`: whatever the draws, it does not fail and its result
satisfies `P`, and each value which satisfies `P` is the result for some draws. -/
def Sim.Exactly (m : Sim α) (P : α → Prop) : Prop := Sim.Post m P ∧ ∀ a, P a → Sim.Reaches m a

/-- `v` is a multiple by `s` of a number which satisfies `N`. -/
def ScaledBy [Mul K] (N : K → Prop) (s v : K) : Prop := ∃ x, N x ∧ v = s * x

/-- What the couplings are for the generators 0 to 3 of the Ising models: multiples of normal deviates for 0 and 1, constant
for 2 and 3. -/
def CouplingLaw [Mul K] (N : K → Prop) (o : FfgenOptions K) (generator : Nat) (v : K) : Prop :=
  if generator = 0 ∨ generator = 1 then ScaledBy N o.stddev v else v = o.couplingConstant

/-- What the fields are for the generators 0 to 3 of the Ising models: multiples of normal deviates for 0 and 2, constant for 1
and 3. -/
def FieldLaw [Mul K] (N : K → Prop) (o : FfgenOptions K) (generator : Nat) (v : K) : Prop :=
  if generator = 0 ∨ generator = 2 then ScaledBy N o.stddev v else v = o.fieldConstant

/-- The one-dimensional Ising models of size `n` whose couplings satisfy `C` and whose fields satisfy `F`. -/
structure IsIsing1 (n : Nat) (C F : K → Prop) (periodic : Bool) (m : Ising1 K) : Prop where
  couplings : m.coupling.length = n
  fields : m.field.length = n
  coupling : ∀ v ∈ m.coupling, C v
  field : ∀ v ∈ m.field, F v
  boundary : m.periodic = periodic

/-- The two-dimensional Ising models with the given numbers of rows and columns whose couplings satisfy `C` and whose fields
satisfy `F`. -/
structure IsIsing2 (rows columns : Nat) (C F : K → Prop) (periodic : Bool) (m : Ising2 K) : Prop where
  rights : GridShape m.right rows columns
  belows : GridShape m.below rows columns
  fields : GridShape m.field rows columns
  right : ∀ row ∈ m.right, ∀ v ∈ row, C v
  below : ∀ row ∈ m.below, ∀ v ∈ row, C v
  field : ∀ row ∈ m.field, ∀ v ∈ row, F v
  boundary : m.periodic = periodic

end Hnco
