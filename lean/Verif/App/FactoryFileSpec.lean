import Verif.App.FactorySpec
import Verif.Function.SudokuProps

/-! # Vocabulary for statements about functions which are read from a file -/

namespace Hnco

open Outcome

variable {K : Type}

/-- With the options, whatever the size in them if it is positive, and with the file, the factory makes a sound function of size
`n` which has the given values. -/
def LoadsWith [Field K] [LinearOrder K] (lib : FactoryLib K) (o : FactoryOptions) (file : InstanceFile K) (n : Nat)
    (value : BV → K) : Prop :=
  ∃ f, (∀ size : Int, 0 < size → makeFunction lib { o with bvSize := size } file = ok (.plain f)) ∧ f.size = n ∧ f.Sound ∧
    ∀ x : BV, x.length = n → f.eval x = ok (value x)

/-- The Sudoku can be evaluated through the representations: there is a representation for each empty cell; on every bit vector
of the right size the value is at most zero, it is zero if and only if the candidate is a valid grid, and the Sudoku is ready for
the next evaluation; every way of filling the empty cells is the decoding of some bit vector. -/
structure SudokuPlayable (K : Type) [Field K] [LinearOrder K] (s : Sudoku) (reps : List (Rep Nat)) : Prop where
  ready : SudokuReady s
  cells : reps.length = (emptyCells s.problem).length
  value : ∀ (vars : List Nat) (bv : BV), vars.length = reps.length → bv.length = (reps.map Rep.size).sum →
    ∃ (v : Int) (s' : Sudoku), sudokuFnEval s reps vars bv = ok ((v : K), s') ∧ v ≤ 0 ∧
      (v = 0 ↔ ValidSudoku s'.candidate) ∧ SudokuReady s' ∧ s'.problem = s.problem
  onto : ∀ digits : List Nat, digits.length = reps.length → (∀ d ∈ digits, d < 9) →
    ∃ bv : BV, bv.length = (reps.map Rep.size).sum ∧ ∀ vars : List Nat, vars.length = reps.length →
      ∃ (v : Int) (s' : Sudoku), sudokuEval s digits = ok (v, s') ∧ sudokuFnEval s reps vars bv = ok ((v : K), s')

end Hnco
