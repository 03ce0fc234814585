import Verif.FParser.Code
import Verif.Base
import Verif.Multiobjective.Parsed
import Mathlib.Data.Char
import Mathlib.Data.List.Lex

/-!
# Model of the parser of expressions: names of variables and constants

Models the part of `lib/fparser/fparser.cc` which reads the names of the variables of an expression, or deduces them from its
text, and the uses of the parser in HNCO: `lib/hnco/functions/collection/parsed-multivariate-function.hh`,
`lib/hnco/functions/modifiers/parsed-modifier.cc` and
`lib/hnco/multiobjective/functions/collection/parsed-multivariate-function.hh`.  Texts are those of
`Verif/FParser/Syntax.lean`.
-/

namespace Hnco.FParser

open Outcome

/-! ## Names -/

/-- The part of the state of a parser (`fptypes.hh:216-229`) which remains from one text to the next: `mVariablesString`, and
the content of `mNamePtrs`: the variables, in the order of their numbers, and the constants with their values. -/
structure PData (K : Type) where
  varString : List Char
  vars : List (List Char)
  consts : List (List Char × K)

/-- The names known to the parser. -/
def PData.names {K : Type} (d : PData K) : Names := ⟨d.vars, d.consts.map Prod.fst⟩

/-- A new parser (`fparser.cc:713-723`). -/
def PData.new (K : Type) : PData K := ⟨[], [], []⟩

/-- `containsOnlyValidIdentifierChars` (`fparser.cc:441-447`). -/
def validName (name : List Char) : Bool := decide (name ≠ [] ∧ readIdentifier name = name ∧ builtin name = none)

/-- `AddConstant` (`fparser.cc:935-947`, `672-706`): what it returns, and the new state. -/
def addConstant {K : Type} (d : PData K) (name : List Char) (value : K) : Bool × PData K :=
  if validName name then
    if name ∈ d.consts.map Prod.fst then
      (true, { d with consts := d.consts.map (fun c => if c.1 = name then (name, value) else c) })
    else if name ∈ d.vars then (false, d)
    else (true, { d with consts := d.consts ++ [(name, value)] })
  else (false, d)

/-- The loop of `ParseVariables` (`fparser.cc:1310-1329`): whether it succeeds, and the variables added to `vs`.  The first
parameter is a bound on the number of iterations. -/
def varLoop (consts : List (List Char)) : Nat → List (List Char) → List Char → Bool × List (List Char)
  | 0, vs, _ => (false, vs)
  | n + 1, vs, s =>
    if s = [] then (true, vs)
    else
      let b := skipSp s
      let x := readIdentifier b
      if x = [] ∨ builtin x ≠ none then (false, vs)
      else
        match skipSp (afterIdentifier b) with
        | [] => if x ∈ consts ∨ x ∈ vs then (false, vs) else (true, vs ++ [x])
        | ',' :: r => if x ∈ consts ∨ x ∈ vs then (false, vs) else varLoop consts n (vs ++ [x]) r
        | _ => (false, vs)

/-- `ParseVariables` (`fparser.cc:1282-1333`): whether it succeeds, and the new state. -/
def parseVariables {K : Type} (d : PData K) (s : List Char) : Bool × PData K :=
  if d.varString = s then (true, d)
  else
    let r := varLoop (d.consts.map Prod.fst) (s.length + 1) [] s
    (r.1, ⟨s, r.2, d.consts⟩)

/-- `Parse` (`fparser.cc:1338-1368`): an error and its position or the program, and the new state. -/
def parse {K : Type} (d : PData K) (s vars : List Char) : Except (ParseErr × Nat) Program × PData K :=
  match parseVariables d vars with
  | (false, d') => (.error (.invalidVars, s.length), d')
  | (true, d') => (parseFunction d'.names s, d')

/-! ## Deduction -/

/-- `std::set::insert` (`fparser.cc:3024`), where the set is the list of its elements in their order. -/
def insertName (x : List Char) : List (List Char) → List (List Char)
  | [] => [x]
  | y :: ys => if x < y then x :: y :: ys else if x = y then y :: ys else y :: insertName x ys

/-- The text of the names (`fparser.cc:3006-3013`). -/
def joinNames : List (List Char) → List Char
  | [] => []
  | [x] => x
  | x :: xs => x ++ ',' :: joinNames xs

/-- The loop of `deduceVariables` (`fparser.cc:3004-3026`): an error and its position, or the names of the variables and the
program; and the new state.  The first parameter is a bound on the number of iterations. -/
def deduceLoop {K : Type} (s : List Char) : Nat → PData K → List (List Char) → Option Nat →
    Except (ParseErr × Nat) (List (List Char) × Program) × PData K
  | 0, d, _, _ => (.error (.stuck, 0), d)
  | n + 1, d, names, old =>
    match parse d s (joinNames names) with
    | (.ok p, d') => (.ok (names, p), d')
    | (.error (t, i), d') =>
      if old = some i then (.error (t, i), d')
      else if readIdentifier (s.drop i) = [] ∨ builtin (readIdentifier (s.drop i)) ≠ none then (.error (t, i), d')
      else deduceLoop s n d' (insertName (readIdentifier (s.drop i)) names) (some i)

/-- `deduceVariables` (`fparser.cc:2991-3035`) and `ParseAndDeduceVariables` (`fparser.cc:3064-3077`). -/
def deduceVariables {K : Type} (d : PData K) (s : List Char) :
    Except (ParseErr × Nat) (List (List Char) × Program) × PData K :=
  deduceLoop s (s.length + 2) d [] none

/-! ## Uses in HNCO -/

noncomputable section

/-- The local and the global optimizations of the code: `AddFunctionOpcode` (`fparser.cc:1640-1648`) and `Optimize`
(`fpoptimizer.cc`). -/
structure Optimizer where
  addOp : List Instr → Op → List Instr
  optimize : List Instr → List Instr

/-- The constants added to the parser of real numbers (`make-multivariate-function-adapter.hh:67-70`). -/
def hncoParser : PData ℝ := (addConstant (addConstant (PData.new ℝ) "pi".toList Real.pi).2 "e".toList (Real.exp 1)).2

/-- A parsed function: the names of its variables and its code. -/
structure ParsedFunction where
  names : List (List Char)
  code : List Instr

/-- `ParsedMultivariateFunction::parse` (`parsed-multivariate-function.hh:82-93`). -/
def parsedParse (O : Optimizer) (d : PData ℝ) (expression : List Char) : Outcome ParsedFunction :=
  match deduceVariables d expression with
  | (.error _, _) => .throw .runtimeError
  | (.ok (names, p), d') => ok ⟨names, O.optimize (programCode ⟨O.addOp, d'.vars, d'.consts⟩ p)⟩

/-- `ParsedMultivariateFunction::evaluate` (`parsed-multivariate-function.hh:108`). -/
def ParsedFunction.evaluate (ε : ℝ) (f : ParsedFunction) (x : List ℝ) : ℝ := evalResult ε x f.code

/-- `ParsedModifier` (`parsed-modifier.cc:31-51`): the function applied to the values, or an exception. -/
def parsedModifier (ε : ℝ) (addOp : List Instr → Op → List Instr) (expression : List Char) : Outcome (ℝ → ℝ) :=
  match parse (PData.new ℝ) expression ['x'] with
  | (.error _, _) => .throw .runtimeError
  | (.ok p, d) => ok (fun y => evalResult ε [y] (programCode ⟨addOp, d.vars, d.consts⟩ p))

/-- The parser of an expression of a multiobjective function (`parsed-multivariate-function.hh:143-153`). -/
def moParser (ε : ℝ) (O : Optimizer) (d : PData ℝ) (expression : List Char) : Option (ParsedExpr ℝ) :=
  match parsedParse O d expression with
  | .ok f => some ⟨f.names, f.evaluate ε⟩
  | _ => none

end

end Hnco.FParser
