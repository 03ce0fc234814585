import Verif.Function.Qubo
import Verif.Function.MaxSat

/-!
# Sudoku

Model of `lib/hnco/functions/collection/sudoku.{hh,cc}`.  Characters are Unicode characters instead of bytes
(`isdigit` is applied to ASCII characters only).  Vectors of vectors are lists of lists.
-/

namespace Hnco

open Outcome

/-- The members of `Sudoku` (`sudoku.hh:47-56`).  The number of variables is not initialised by the constructor:
`none` stands for an indeterminate value.  The member `_counts` is a work space, reset before each use. -/
structure Sudoku where
  problem : List (List Char)
  candidate : List (List Nat)
  numVariables : Option Nat
  deriving DecidableEq

/-- The constructor (`sudoku.hh:82-85`). -/
def Sudoku.new : Sudoku :=
  { problem := List.replicate 9 (List.replicate 9 '\x00')
    candidate := List.replicate 9 (List.replicate 9 0)
    numVariables := none }

/-- Reading one character (`sudoku.cc:70-79`). -/
def sudokuReadCell (i j : Nat) (c : Char) (s : List (List Char) × List (List Nat) × Nat) :
    Outcome (List (List Char) × List (List Nat) × Nat) :=
  if !(c == '.' || (c.isDigit && c != '0')) then .throw .runtimeError
  else do
    let problem ← gridSet s.1 i j c
    if c = '.' then ok (problem, s.2.1, s.2.2 + 1)
    else do
      assert (decide (48 < c.toNat))
      let candidate ← gridSet s.2.1 i j (c.toNat - 48)
      ok (problem, candidate, s.2.2)

/-- Reading one line (`sudoku.cc:62-80`). -/
def sudokuReadLine (i : Nat) (line : List Char) (s : List (List Char) × List (List Nat) × Nat) :
    Outcome (List (List Char) × List (List Nat) × Nat) :=
  if line.length < 9 then .throw .runtimeError
  else forRange 0 9 (fun j s => do
    let c ← vget line j
    sudokuReadCell i j c s) s

/-- The loop over lines (`sudoku.cc:60-84`), which also returns the number of lines read.  The list contains
the lines which remain to be read: the stream is at its end when it is empty. -/
def sudokuReadLines : List (List Char) → Nat → List (List Char) × List (List Nat) × Nat →
    Outcome (Nat × List (List Char) × List (List Nat) × Nat)
  | [], i, s => ok (i, s)
  | line :: rest, i, s => do
    let s ← sudokuReadLine i line s
    if i + 1 = 9 then ok (9, s) else sudokuReadLines rest (i + 1) s

/-- `Sudoku::load_` (`sudoku.cc:56-87`). -/
def sudokuLoad (s : Sudoku) (text : List Char) : Outcome Sudoku := do
  let r ← sudokuReadLines (splitLines text) 0 (s.problem, s.candidate, 0)
  if r.1 < 9 then .throw .runtimeError
  else ok { problem := r.2.1, candidate := r.2.2.1, numVariables := some r.2.2.2 }

/-- `Sudoku::save_` (`sudoku.cc:89-93`) and `print_board` (`sudoku.cc:37-54`) without pretty printing. -/
def sudokuSave (s : Sudoku) : Outcome (List Char) :=
  forRange 0 9 (fun i out => do
    let out ← forRange 0 9 (fun j out => do
      let c ← gridGet s.problem i j
      ok (out ++ [c])) out
    ok (out ++ ['\n'])) []

/-- First row of a random instance (`sudoku.cc:103-104`). -/
def sudokuFirstRow (digit : Nat → Outcome Char) (board : List (List Char)) : Outcome (List (List Char)) :=
  forRange 0 9 (fun j board => do
    let c ← digit j
    gridSet board 0 j c) board

/-- The other rows of a random instance (`sudoku.cc:105-114`). -/
def sudokuOtherRows {α : Type} (board : List (List α)) : Outcome (List (List α)) := do
  let board ← forRange 1 3 (fun i board =>
    forRange 0 9 (fun j board => do
      let c ← gridGet board (i - 1) ((j + 3) % 9)
      gridSet board i j c) board) board
  forRange 1 3 (fun bi board =>
    forRange 0 3 (fun bj board =>
      forRange 0 3 (fun i board =>
        forRange 0 3 (fun j board => do
          let c ← gridGet board (3 * (bi - 1) + i) (3 * bj + (j + 1) % 3)
          gridSet board (3 * bi + i) (3 * bj + j) c) board) board) board) board

/-- Erasing cells (`sudoku.cc:118-123`). -/
def sudokuErase (erase : BV) (board : List (List Char)) : Outcome (List (List Char)) :=
  forRange 0 9 (fun i board =>
    forRange 0 9 (fun j board => do
      let b ← vget erase (i + 9 * j)
      if b then gridSet board i j '.' else ok board) board) board

/-- `Sudoku::random` (`sudoku.cc:95-124`) for a natural number `c`.  The members `_candidate` and
`_num_variables` are not written. -/
def sudokuRandom {K : Type} [LT K] [DecidableLT K] (ratio : Nat → Nat → K) (uniform : Nat → Nat → K) (s : Sudoku)
    (c : Nat) : Sim Sudoku := do
  Sim.lift (assert (decide (0 < c)))
  let permutation ← Sim.shuffle (List.range 9)
  let board ← Sim.lift (sudokuFirstRow (fun j => do
    let d ← vget permutation j
    ok (Char.ofNat (49 + d))) s.problem)
  let board ← Sim.lift (sudokuOtherRows board)
  let erase ← bvRandomSim ratio uniform (List.replicate 81 false) c
  let board ← Sim.lift (sudokuErase erase board)
  pure { s with problem := board }

/-- `Sudoku::write_variables` (`sudoku.cc:132-141`). -/
def sudokuWrite (problem : List (List Char)) (candidate : List (List Nat)) (x : List Nat) :
    Outcome (List (List Nat)) := do
  let r ← forRange 0 9 (fun i r => forRange 0 9 (fun j (r : List (List Nat) × Nat) => do
    let c ← gridGet problem i j
    if c = '.' then do
      let v ← vget x r.2
      let candidate ← gridSet r.1 i j (v + 1)
      ok (candidate, r.2 + 1)
    else ok r) r) (candidate, 0)
  assert (r.2 == x.length)
  ok r.1

/-- Counting one digit (`sudoku.cc:156-159`, repeated at lines 170-173 and 187-190). -/
def sudokuCount (candidate : List (List Nat)) (i j : Nat) (counts : List Int) : Outcome (List Int) := do
  let d ← gridGet candidate i j
  assert (decide (0 < d))
  assert (decide (d < 10))
  let c ← vget counts d
  vset counts d (c + 1)

/-- Penalty of a row, a column or a block (`sudoku.cc:161-163`, `175-178`, `192-195`).  The test
`_counts[k] != 1` at lines 178 and 195, absent from line 164, makes no difference: the penalty is 0 otherwise. -/
def sudokuPenalty (counts : List Int) (result : Int) : Outcome Int := do
  let c ← vget counts 0
  assert (c == 0)
  forRange 1 10 (fun k result => do
    let c ← vget counts k
    ok (result + ((c - 1).natAbs : Int))) result

/-- `Sudoku::evaluate` (`sudoku.cc:143-199`): the value and the new state.  The loops `a += 3` run over the
index of the block. -/
def sudokuEval (s : Sudoku) (x : List Nat) : Outcome (Int × Sudoku) := do
  let n ← match s.numVariables with
    | some n => ok n
    | none => ub
  assert (x.length == n)
  let candidate ← sudokuWrite s.problem s.candidate x
  let result ← forRange 0 9 (fun i result => do
    let counts ← forRange 0 9 (fun j counts => sudokuCount candidate i j counts) (List.replicate 10 0)
    sudokuPenalty counts result) 0
  let result ← forRange 0 9 (fun j result => do
    let counts ← forRange 0 9 (fun i counts => sudokuCount candidate i j counts) (List.replicate 10 0)
    sudokuPenalty counts result) result
  let result ← forRange 0 3 (fun a result => forRange 0 3 (fun b result => do
    let counts ← forRange 0 3 (fun i counts => forRange 0 3 (fun j counts =>
      sudokuCount candidate (3 * a + i) (3 * b + j) counts) counts) (List.replicate 10 0)
    sudokuPenalty counts result) result) result
  ok (-result, { s with candidate := candidate })

end Hnco
