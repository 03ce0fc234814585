import Verif.Text
import Verif.Random
import Verif.BitVector.Model

/-!
# Model of MAX-SAT functions

Models `lib/hnco/functions/collection/max-sat.cc` and `max-sat.hh`.

An expression is a list of clauses, a clause is a list of literals (`max-sat.hh:48`).  Literals are unbounded
integers, except that the negation of the smallest `int` is undefined.
-/

namespace Hnco

open Outcome

/-- The condition of `if` in the evaluation functions (`max-sat.cc:269-270`, `290-291`, and `244-245` in the
generator): `(lit > 0 && (x[lit - 1] == 1)) || (lit < 0 && (x[-lit - 1] == 0))`. -/
def literalTest (x : BV) (lit : Int) : Outcome Bool :=
  if 0 < lit then vget x (lit - 1).toNat
  else if lit < 0 then do
    let b ← vget x (-lit - 1).toNat
    ok !b
  else ok false

/-- The inner loop of `MaxSat::evaluate`, up to `break` (`max-sat.cc:267-274`), also lines 240-248 of the
generator: whether the loop is left by `break`. -/
def clauseTest (x : BV) : List Int → Outcome Bool
  | [] => ok false
  | lit :: clause => do
    let t ← literalTest x lit
    if t then ok true else clauseTest x clause

/-- `MaxSat::evaluate` (`max-sat.cc:261-278`).  Simplification: `result` is a natural number, which is exact
below `2^53`. -/
def maxSatEval (expression : List (List Int)) (x : BV) : Outcome Nat :=
  forEach expression (fun clause result => do
    let t ← clauseTest x clause
    if t then ok (result + 1) else ok result) 0

/-- `MaxNae3Sat::evaluate` (`max-sat.cc:281-300`). -/
def maxNae3SatEval (expression : List (List Int)) (x : BV) : Outcome Nat :=
  forEach expression (fun clause result => do
    let numTrue ← forEach clause (fun literal (n : Nat) => do
      let t ← literalTest x literal
      if t then ok (n + 1) else ok n) 0
    if numTrue ≠ 0 ∧ numTrue ≠ 3 then ok (result + 1) else ok result) 0

/-! ## Random instances -/

/-- `bv_random(x, k)` (`bit-vector.cc:101-121`) drawing from the generator.  One raw draw stands for the whole
sequence of numbers drawn by the loop, since `uniform` is arbitrary. -/
def bvRandomSim {K : Type} [LT K] [DecidableLT K] (ratio : Nat → Nat → K) (uniform : Nat → Nat → K)
    (x : BV) (k : Nat) : Sim BV := do
  let d ← Sim.draw
  Sim.lift (bvRandom ratio (uniform d) x k)

/-- The loop writing the literals of a clause (`max-sat.cc:204-211`, `230-238`); the state is the clause and
`count`.  The unsigned negation at line 209 is followed by a conversion to `int`, which gives the same value
as the signed negation at line 235. -/
def randomLiterals (x : BV) (clause : List Int) : Sim (List Int × Nat) :=
  Sim.forRange 0 x.length (fun j st => do
    let b ← Sim.lift (vget x j)
    if b then do
      let positive ← Sim.bernoulli
      let lit : Int := if positive then (j : Int) + 1 else -((j : Int) + 1)
      let clause ← Sim.lift (vset st.1 st.2 lit)
      pure (clause, st.2 + 1)
    else pure st) (clause, 0)

/-- `MaxSat::random(n, k, c)` (`max-sat.cc:189-214`), as the resulting `_expression` (`_num_variables` is
`n`).  The `int` arguments are natural numbers. -/
def maxSatRandom {K : Type} [LT K] [DecidableLT K] (ratio : Nat → Nat → K) (uniform : Nat → Nat → K)
    (n k c : Nat) : Sim (List (List Int)) := do
  Sim.lift (assert (decide (0 < n)))
  Sim.lift (assert (decide (0 < k)))
  Sim.lift (assert (decide (0 < c)))
  Sim.lift (assert (decide (k ≤ n)))
  let st ← Sim.forRange 0 c (fun i (st : List (List Int) × BV) => do
    let x ← bvRandomSim ratio uniform st.2 k
    let clause ← Sim.lift (vget st.1 i)
    let r ← randomLiterals x clause
    Sim.lift (assert (r.2 == bvHammingWeight x))
    let expression ← Sim.lift (vset st.1 i r.1)
    pure (expression, x)) (List.replicate c (List.replicate k 0), List.replicate n false)
  pure st.1

/-- Lines 249-253 of `max-sat.cc`: if the clause is not satisfied then a random literal is negated. -/
def repairClause (satisfied : Bool) (clause : List Int) : Sim (List Int) :=
  if satisfied then pure clause
  else do
    let index ← Sim.uniformInt 0 (clause.length - 1)
    let lit ← Sim.lift (vget clause index)
    Sim.lift (vset clause index (-lit))

/-- `MaxSat::random(solution, k, c)` (`max-sat.cc:217-258`), as the resulting `_expression`
(`_num_variables` is the size of the solution). -/
def maxSatRandomPlanted {K : Type} [LT K] [DecidableLT K] (ratio : Nat → Nat → K) (uniform : Nat → Nat → K)
    (solution : BV) (k c : Nat) : Sim (List (List Int)) := do
  Sim.lift (assert (decide (0 < k)))
  Sim.lift (assert (decide (0 < c)))
  Sim.lift (assert (decide (k ≤ solution.length)))
  let st ← Sim.forRange 0 c (fun i (st : List (List Int) × BV) => do
    let x ← bvRandomSim ratio uniform st.2 k
    let clause ← Sim.lift (vget st.1 i)
    let r ← randomLiterals x clause
    Sim.lift (assert (r.2 == bvHammingWeight x))
    let satisfied ← Sim.lift (clauseTest solution r.1)
    let clause ← repairClause satisfied r.1
    let expression ← Sim.lift (vset st.1 i clause)
    pure (expression, x)) (List.replicate c (List.replicate k 0), List.replicate solution.length false)
  let value ← Sim.lift (maxSatEval st.1 solution)
  Sim.lift (assert (value == st.1.length))
  pure st.1

/-! ## Files -/

/-- The characters skipped by `eat_white` (`max-sat.cc:46`). -/
def isBlankChar (c : Char) : Bool := c == ' ' || c == '\t'

/-- The loop reading the literals of a clause (`max-sat.cc:121-135`).  `n` is `none` as long as the variable
`n` is not initialised.  `has_next_variable` (lines 52-57) answers whether there is a character left after
spaces and tabs.  The fuel bounds the number of iterations; running out of fuel is `ub` and never happens
since each iteration consumes at least one character. -/
def cnfLiterals (numVariables : Int) : Nat → List Char → Option Int → List Int → Outcome (Option Int × List Int)
  | 0, _, _, _ => ub
  | fuel + 1, s, n, clause =>
    let s := s.dropWhile isBlankChar
    if s = [] then ok (n, clause)
    else do
      let t ← orThrow (extractInt s)
      if t.1 = 0 then ok (some 0, clause)
      else if t.1 = -2147483648 then ub
      else if (if t.1 > 0 then t.1 else -t.1) > numVariables then Outcome.throw .runtimeError
      else cnfLiterals numVariables fuel t.2 (some t.1) (clause ++ [t.1])

/-- Reading of a clause line (`max-sat.cc:117-141`).  Reading the variable `n` when it is not initialised is
undefined. -/
def cnfClauseLine (numVariables : Int) (line : List Char) : Outcome (List Int) := do
  let r ← cnfLiterals numVariables (line.length + 1) line none []
  match r.1 with
  | none => ub
  | some n => if n ≠ 0 then Outcome.throw .runtimeError else ok r.2

/-- Reading of a `p` line (`max-sat.cc:86-109`): numbers of variables and clauses. -/
def cnfSpecLine (line : List Char) : Outcome (Int × Int) := do
  let t ← orThrow (extractToken line)
  if t.1 ≠ ['p'] then Outcome.throw .runtimeError
  else do
  let t ← orThrow (extractToken t.2)
  if t.1 ≠ ['c', 'n', 'f'] then Outcome.throw .runtimeError
  else do
  let numVariables ← orThrow (extractInt t.2)
  if numVariables.1 ≤ 0 then Outcome.throw .runtimeError
  else do
  let numClauses ← orThrow (extractInt numVariables.2)
  if numClauses.1 ≤ 0 then Outcome.throw .runtimeError
  else ok (numVariables.1, numClauses.1)

/-- Local variables of `AbstractMaxSat::load_` and members. -/
structure CnfState where
  /-- `spec` -/
  spec : Bool
  /-- `num_clauses` -/
  numClauses : Int
  /-- `_num_variables` -/
  numVariables : Int
  /-- `_expression` -/
  expression : List (List Int)

/-- Body of the loop over lines (`max-sat.cc:69-143`). -/
def cnfLine (line : List Char) (st : CnfState) : Outcome CnfState :=
  match line with
  | [] => ok st
  | c :: _ =>
    if c = 'c' then ok st
    else if c = 'p' then
      if st.spec then Outcome.throw .runtimeError
      else do
        let h ← cnfSpecLine line
        ok { st with spec := true, numVariables := h.1, numClauses := h.2 }
    else if ¬ st.spec then Outcome.throw .runtimeError
    else do
      let clause ← cnfClauseLine st.numVariables line
      ok { st with expression := st.expression ++ [clause] }

/-- `AbstractMaxSat::load_` (`max-sat.cc:60-149`): number of variables and expression. -/
def cnfLoad (text : List Char) : Outcome (Int × List (List Int)) := do
  let st ← forEach (splitLines text) cnfLine
    { spec := false, numClauses := 0, numVariables := 0, expression := [] }
  if (st.expression.length : Int) ≠ st.numClauses then Outcome.throw .runtimeError
  else ok (st.numVariables, st.expression)

/-- `MaxNae3Sat::load` (`max-sat.hh:178-183`). -/
def nae3Load (text : List Char) : Outcome (Int × List (List Int)) := do
  let r ← cnfLoad text
  let _ ← forEach r.2 (fun clause u => if clause.length ≠ 3 then Outcome.throw .runtimeError else ok u) ()
  ok r

/-- `AbstractMaxSat::save_` (`max-sat.cc:152-164`). -/
def cnfSave (numVariables : Int) (expression : List (List Int)) : List Char :=
  "c HNCO AbstractMaxSat::save\n".toList ++
    ("p cnf ".toList ++ (showInt numVariables ++ ' ' :: (showInt expression.length ++ '\n' ::
      (expression.map (fun clause =>
        (clause.map (fun lit => showInt lit ++ [' '])).flatten ++ ['0', '\n'])).flatten)))

end Hnco
