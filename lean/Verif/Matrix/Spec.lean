import Verif.Base

/-!
# Specification vocabulary for bit matrices

Independent of the code: what the product of a bit matrix and a bit vector over the field with two
elements is, and what it means for a matrix to be invertible.
-/

namespace Hnco.F2

/-- Inner product over F2: the parity of the number of common ones. -/
def dot (r x : BV) : Bool := decide ((List.zipWith and r x).count true % 2 = 1)

/-- Matrix times column vector over F2. -/
def mulVec (M : List BV) (x : BV) : BV := M.map (fun row => dot row x)

/-- Sum of vectors over F2. -/
def add (x y : BV) : BV := List.zipWith xor x y

/-- `M` has `n` rows, each of `m` bits. -/
def HasShape (n m : Nat) (M : List BV) : Prop := M.length = n ∧ ∀ row ∈ M, row.length = m

/-- The square matrix `M` of size `n` is invertible: every equation `M x = y` has one solution. -/
def Invertible (n : Nat) (M : List BV) : Prop :=
  ∀ y : BV, y.length = n → ∃ x : BV, x.length = n ∧ mulVec M x = y ∧
    ∀ x' : BV, x'.length = n → mulVec M x' = y → x' = x

/-- Every vector of size `n` is the image of a vector of size `m`. -/
def Onto (n m : Nat) (M : List BV) : Prop :=
  ∀ y : BV, y.length = n → ∃ x : BV, x.length = m ∧ mulVec M x = y

/-- `I` is the identity matrix of size `n`. -/
def IsIdentity (n : Nat) (I : List BV) : Prop :=
  HasShape n n I ∧ ∀ (i j : Nat), i < n → j < n →
    (I[i]?.bind (fun row => row[j]?)) = some (decide (i = j))

end Hnco.F2
