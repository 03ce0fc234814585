import Verif.Text
import Mathlib.Data.Rat.Defs
import Mathlib.Algebra.Field.Rat

/-!
# Model of the parser of expressions: the syntax

Models the part of `lib/fparser/fparser.cc` which recognizes an expression, for the parser of real numbers (`FunctionParser`).
The functions `Compile...` of the code recognize a piece of text and emit code in a single pass; what they recognize does not
depend on the code emitted so far, so that the model has two passes: the functions of this file build a tree, those of
`Verif/FParser/Code.lean` emit the code of a tree.  A pointer into the text is the list of the characters from there to the end.

Simplifications: the characters of a text are those of ASCII without the null character (the code also accepts some multibyte
spaces, and identifiers with multibyte characters); the delimiter is the null character (`fparser.cc:716`); there are no units
and no user functions, as HNCO defines none; the value of a literal is the exact rational number it denotes.
-/

namespace Hnco.FParser

/-! ## Characters -/

/-- The characters skipped by `SkipSpace` (`fparser.cc:1147-1156`). -/
def isSp (c : Char) : Bool := c == '\r' || c == '\n' || c == '\x0b' || c == '\t' || c == ' '

/-- `SkipSpace` (`fparser.cc:1169-1253`). -/
def skipSp (s : List Char) : List Char := s.dropWhile isSp

/-- The characters of the beginning of an identifier (`fp_identifier_parser.inc:27-50`). -/
def isHead (c : Char) : Bool := c.isAlpha || c == '_'

/-- The other characters of an identifier (`fp_identifier_parser.inc:27-50`, `116-133`). -/
def isWord (c : Char) : Bool := c.isAlpha || c == '_' || c.isDigit

/-- The name read by `readIdentifier`, which is empty if there is none (`fparser.cc:400-439`,
`fp_identifier_parser.inc:11-135`). -/
def readIdentifier (s : List Char) : List Char :=
  match s with
  | [] => []
  | c :: r => if isHead c then c :: r.takeWhile isWord else []

/-- The text after the identifier. -/
def afterIdentifier (s : List Char) : List Char := s.drop (readIdentifier s).length

/-! ## Literals -/

/-- The value of a digit, for all bases up to 16 (`fparser.cc:524-529`). -/
def xdigit (c : Char) : Nat :=
  if c.isDigit then c.toNat - 48 else if 'a' ≤ c ∧ c ≤ 'f' then c.toNat - 87 else c.toNat - 55

/-- The hexadecimal digits (`fparser.cc:524-529`). -/
def isXdigit (c : Char) : Bool := c.isDigit || ('a' ≤ c && c ≤ 'f') || ('A' ≤ c && c ≤ 'F')

/-- The number denoted by a sequence of digits. -/
def numeral (base : Nat) (ds : List Char) : Nat := ds.foldl (fun a c => base * a + xdigit c) 0

/-- The digits read by `std::strtod`, with a point: the value of the number, and the remaining text. -/
def readMantissa (isDig : Char → Bool) (base : Nat) (s : List Char) : Option (ℚ × List Char) :=
  let a := s.takeWhile isDig
  match s.dropWhile isDig with
  | '.' :: r =>
    let b := r.takeWhile isDig
    if a = [] ∧ b = [] then none
    else some ((numeral base (a ++ b) : ℚ) / (base : ℚ) ^ b.length, r.dropWhile isDig)
  | r => if a = [] then none else some ((numeral base a : ℚ), r)

/-- An optional sign and digits, as read by `std::strtod` and `std::strtol` in base ten. -/
def readSigned (s : List Char) : Option (Int × List Char) :=
  let p := extractSign s
  let ds := p.2.takeWhile Char.isDigit
  if ds = [] then none else some ((if p.1 then -(numeral 10 ds : Int) else (numeral 10 ds : Int)), p.2.dropWhile Char.isDigit)

/-- The exponent read by `std::strtod`: a mark, an optional sign, and digits.  Without digits, nothing is read. -/
def readExponent (mark : Char → Bool) (s : List Char) : Int × List Char :=
  match s with
  | [] => (0, [])
  | c :: r =>
    if mark c then
      match readSigned r with
      | some p => p
      | none => (0, c :: r)
    else (0, c :: r)

/-- `std::strtod` on a text which begins with a digit or a point, in the "C" locale, decimal notation. -/
def strtodDecimal (s : List Char) : Option (ℚ × List Char) :=
  match readMantissa Char.isDigit 10 s with
  | none => none
  | some (m, r) =>
    let x := readExponent (fun c => c == 'e' || c == 'E') r
    some (m * (10 : ℚ) ^ x.1, x.2)

/-- `std::strtod` on a text which begins with a digit or a point, in the "C" locale, hexadecimal notation, after `0x`. -/
def strtodHexadecimal (s : List Char) : Option (ℚ × List Char) :=
  match readMantissa isXdigit 16 s with
  | none => none
  | some (m, r) =>
    let x := readExponent (fun c => c == 'p' || c == 'P') r
    some (m * (2 : ℚ) ^ x.1, x.2)

/-- The exponent read by `parseHexLiteral` (`fparser.cc:605-614`) with `std::strtol`, which skips spaces: the remaining text.
The exponent must be an `int`. -/
def readHexTail (s : List Char) : List Char :=
  match s with
  | [] => []
  | c :: r =>
    if c = 'p' ∨ c = 'P' then
      match readSigned (skipSpace r) with
      | some (k, r') => if -2147483648 ≤ k ∧ k ≤ 2147483647 then r' else c :: r
      | none => c :: r
    else c :: r

/-- `parseHexLiteral` (`fparser.cc:542-625`) on a text which does not begin with hexadecimal digits, even after a point: the
remaining text.  The value is zero. -/
def parseNoHex (s : List Char) : List Char :=
  match s with
  | '.' :: r => readHexTail r
  | _ => readHexTail s

/-- `ParseLiteral` (`fparser.cc:1722-1750`): the value and the remaining text. -/
def parseLiteral (s : List Char) : Option (ℚ × List Char) :=
  match s with
  | '0' :: 'x' :: r =>
    match strtodHexadecimal r with
    | some p => some p
    | none => if parseNoHex r = r then none else some (0, parseNoHex r)
  | '0' :: 'X' :: r =>
    match strtodHexadecimal r with
    | some p => some p
    | none => some (0, 'X' :: r)
  | _ => strtodDecimal s

/-- `BeginsLiteral` (`fparser.cc:1127-1133`, `1158-1167`). -/
def beginsLiteral (s : List Char) : Bool :=
  match s with
  | [] => false
  | c :: _ => c == '.' || c.isDigit

/-! ## Names -/

/-- The functions of the parser of real numbers (`fptypes.hh:28-48`, `120-160`), without those of complex numbers and without
`if`. -/
inductive Fn where
  | abs | acos | acosh | asin | asinh | atan | atan2 | atanh | cbrt | ceil | cos | cosh | cot | csc | exp | exp2 | floor
  | hypot | int | log | log10 | log2 | max | min | pow | sec | sin | sinh | sqrt | tan | tanh | trunc
  deriving DecidableEq, Repr

/-- What a name known to the library means. -/
inductive Builtin where
  | cond
  | fn (f : Fn)
  deriving DecidableEq, Repr

/-- The names of the functions (`fp_identifier_parser.inc:137-379`).  The functions of complex numbers are ordinary identifiers
(`fparser.cc:431-436`). -/
def builtins : List (List Char × Builtin) :=
  [("if".toList, .cond), ("abs".toList, .fn .abs), ("cos".toList, .fn .cos), ("cot".toList, .fn .cot),
   ("csc".toList, .fn .csc), ("exp".toList, .fn .exp), ("int".toList, .fn .int), ("log".toList, .fn .log),
   ("max".toList, .fn .max), ("min".toList, .fn .min), ("pow".toList, .fn .pow), ("sec".toList, .fn .sec),
   ("sin".toList, .fn .sin), ("tan".toList, .fn .tan), ("acos".toList, .fn .acos), ("asin".toList, .fn .asin),
   ("atan".toList, .fn .atan), ("cbrt".toList, .fn .cbrt), ("ceil".toList, .fn .ceil), ("cosh".toList, .fn .cosh),
   ("exp2".toList, .fn .exp2), ("log2".toList, .fn .log2), ("sinh".toList, .fn .sinh), ("sqrt".toList, .fn .sqrt),
   ("tanh".toList, .fn .tanh), ("acosh".toList, .fn .acosh), ("asinh".toList, .fn .asinh), ("atan2".toList, .fn .atan2),
   ("atanh".toList, .fn .atanh), ("floor".toList, .fn .floor), ("hypot".toList, .fn .hypot), ("log10".toList, .fn .log10),
   ("trunc".toList, .fn .trunc)]

/-- The result of the search of a name among those of the functions (`fp_identifier_parser.inc:137-379`). -/
def builtin (x : List Char) : Option Builtin := builtins.lookup x

/-- Number of parameters of a function (`fptypes.hh:120-160`). -/
def Fn.params : Fn → Nat
  | .atan2 => 2
  | .hypot => 2
  | .max => 2
  | .min => 2
  | .pow => 2
  | _ => 1

/-- The names known to a parser: `mNamePtrs` (`fptypes.hh:229`), whose keys are distinct. -/
structure Names where
  vars : List (List Char)
  consts : List (List Char)

/-! ## Trees -/

/-- The binary operators, without the power. -/
inductive BinOp where
  | mul | div | mod | add | sub | eq | ne | lt | le | gt | ge | and | or
  deriving DecidableEq, Repr

/-- Expressions. -/
inductive Expr where
  | lit (q : ℚ)
  | var (x : List Char)
  | const (x : List Char)
  | inl (x : List Char)
  | paren (e : Expr)
  | call1 (f : Fn) (a : Expr)
  | call2 (f : Fn) (a b : Expr)
  | cond (c a b : Expr)
  | pow (a b : Expr)
  | neg (e : Expr)
  | not (e : Expr)
  | bin (op : BinOp) (a b : Expr)
  deriving DecidableEq, Repr

/-- What is parsed: definitions of inline variables, and an expression. -/
structure Program where
  defs : List (List Char × Expr)
  body : Expr
  deriving DecidableEq, Repr

/-! ## Errors -/

/-- The errors of the parser (`fparser.hh`, type `ParseErrorType`) which can occur.  `stuck` is not an error of the code: it
means that the bound on the number of recursive calls of the model is too small, which never happens. -/
inductive ParseErr where
  | syntaxError | mismParenth | missingParenth | emptyParenth | expectOperator | invalidVars | illParamsAmount
  | expectParenthFunc | unknownIdentifier | stuck
  deriving DecidableEq, Repr

/-- The result of a function `Compile...`: an error and its place (`fparser.cc:1419-1426`), or what has been recognized and the
remaining text. -/
abbrev PRes (α : Type) := Except (ParseErr × List Char) (α × List Char)

/-- The sequence of two such functions: `if(!function) return 0;` between them. -/
def PRes.next {α β : Type} (m : PRes α) (f : α → List Char → PRes β) : PRes β :=
  match m with
  | .error x => .error x
  | .ok (a, r) => f a r

/-- `noCommaError` (`fparser.cc:1097-1104`). -/
def noCommaError (s : List Char) : ParseErr :=
  match s with
  | ')' :: _ => .illParamsAmount
  | _ => .syntaxError

/-- `noParenthError` (`fparser.cc:1106-1113`). -/
def noParenthError (s : List Char) : ParseErr :=
  match s with
  | ',' :: _ => .illParamsAmount
  | _ => .missingParenth

/-! ## Elements -/

/-- `CompileLiteral` (`fparser.cc:1779-1792`). -/
def compileLiteral (s : List Char) : PRes Expr :=
  match parseLiteral s with
  | none => .error (.syntaxError, s)
  | some (q, r) => .ok (.lit q, skipSp r)

/-- A comma and an expression (`fparser.cc:1801-1802`, `1823`, `1825-1826`, `1836`, `1879-1883`). -/
def compileComma (expr : List Char → PRes Expr) (s : List Char) : PRes Expr :=
  match s with
  | ',' :: r => expr r
  | _ => .error (noCommaError s, s)

/-- The closing parenthesis of a call (`fparser.cc:1838-1839`, `1851-1853`, `1895-1899`). -/
def compileClose {α : Type} (a : α) (s : List Char) : PRes α :=
  match s with
  | ')' :: r => .ok (a, skipSp r)
  | _ => .error (noParenthError s, s)

/-- `CompileIf` (`fparser.cc:1794-1854`). -/
def compileIf (expr : List Char → PRes Expr) (s : List Char) : PRes Expr :=
  match s with
  | '(' :: r =>
    PRes.next (expr r) fun c r1 =>
    PRes.next (compileComma expr r1) fun a r2 =>
    PRes.next (compileComma expr r2) fun b r3 =>
    compileClose (.cond c a b) r3
  | _ => .error (.expectParenthFunc, s)

/-- The first parameter of a function (`fparser.cc:1864-1875`). -/
def compileFirstParam (expr : List Char → PRes Expr) (s : List Char) : PRes Expr :=
  match expr s with
  | .ok p => .ok p
  | .error x =>
    match skipSp s with
    | ')' :: r => .error (.illParamsAmount, ')' :: r)
    | _ => .error x

/-- `CompileFunction` and `CompileFunctionParams` (`fparser.cc:1856-1900`, `1998-2028`): all the functions have one or two
parameters. -/
def compileFunction (expr : List Char → PRes Expr) (f : Fn) (s : List Char) : PRes Expr :=
  match s with
  | '(' :: r =>
    PRes.next (compileFirstParam expr r) fun a r1 =>
    if f.params = 2 then PRes.next (compileComma expr r1) fun b r2 => compileClose (.call2 f a b) r2
    else compileClose (.call1 f a) r1
  | _ => .error (.expectParenthFunc, s)

/-- `CompileParenthesis` (`fparser.cc:2030-2046`), after the opening parenthesis. -/
def compileParenthesis (expr : List Char → PRes Expr) (s : List Char) : PRes Expr :=
  match skipSp s with
  | ')' :: r => .error (.emptyParenth, ')' :: r)
  | s' =>
    PRes.next (expr s') fun e r =>
    match r with
    | ')' :: r' => .ok (.paren e, skipSp r')
    | _ => .error (.missingParenth, r)

/-- The identifier which is not a function (`fparser.cc:1924-1972`). -/
def compileName (N : Names) (I : List (List Char)) (s : List Char) : PRes Expr :=
  let x := readIdentifier s
  let r := skipSp (afterIdentifier s)
  if x ∈ N.vars then .ok (.var x, r)
  else if x ∈ N.consts then .ok (.const x, r)
  else if x ∈ I then .ok (.inl x, r)
  else .error (.unknownIdentifier, s)

/-- `CompileElement` (`fparser.cc:1902-1996`).  `I` are the names of the inline variables. -/
def compileElement (N : Names) (I : List (List Char)) (expr : List Char → PRes Expr) (s : List Char) : PRes Expr :=
  if beginsLiteral s then compileLiteral s
  else if readIdentifier s = [] then
    match s with
    | '(' :: r => compileParenthesis expr r
    | ')' :: _ => .error (.mismParenth, s)
    | _ => .error (.syntaxError, s)
  else match builtin (readIdentifier s) with
    | some .cond => compileIf expr (skipSp (afterIdentifier s))
    | some (.fn f) => compileFunction expr f (skipSp (afterIdentifier s))
    | none => compileName N I s

/-! ## Operators -/

/-- `CompilePow` (`fparser.cc:2080-2113`), where `unary` is `CompileUnaryMinus`. -/
def compilePow (element unary : List Char → PRes Expr) (s : List Char) : PRes Expr :=
  PRes.next (element s) fun a r =>
  match r with
  | '^' :: r' => PRes.next (unary (skipSp r')) fun b r'' => .ok (.pow a b, r'')
  | _ => .ok (a, r)

/-- The operators of `CompileMult` (`fparser.cc:2195-2207`). -/
def mulOp (s : List Char) : Option (BinOp × List Char) :=
  match s with
  | '%' :: r => some (.mod, r)
  | '*' :: r => some (.mul, r)
  | '/' :: r => some (.div, r)
  | _ => none

/-- The operators of `CompileAddition` (`fparser.cc:2340-2342`). -/
def addOp (s : List Char) : Option (BinOp × List Char) :=
  match s with
  | '+' :: r => some (.add, r)
  | '-' :: r => some (.sub, r)
  | _ => none

/-- The operators of `CompileComparison` (`fparser.cc:2449-2468`). -/
def cmpOp (s : List Char) : Option (BinOp × List Char) :=
  match s with
  | '=' :: r => some (.eq, r)
  | '!' :: '=' :: r => some (.ne, r)
  | '<' :: '=' :: r => some (.le, r)
  | '<' :: r => some (.lt, r)
  | '>' :: '=' :: r => some (.ge, r)
  | '>' :: r => some (.gt, r)
  | _ => none

/-- The operator of `CompileAnd` (`fparser.cc:2490-2491`). -/
def andOp (s : List Char) : Option (BinOp × List Char) :=
  match s with
  | '&' :: r => some (.and, r)
  | _ => none

/-- The operator of `CompileExpression` (`fparser.cc:2515-2516`). -/
def orOp (s : List Char) : Option (BinOp × List Char) :=
  match s with
  | '|' :: r => some (.or, r)
  | _ => none

/-- The loop of `CompileMult`, `CompileAddition`, `CompileComparison`, `CompileAnd` and `CompileExpression`
(`fparser.cc:2193-2307`, `2338-2428`, `2439-2470`, `2478-2494`, `2502-2518`) after its first operand `e`, where `sub` recognizes
an operand.  The first parameter is a bound on the number of iterations. -/
def chainLoop (sub : List Char → PRes Expr) (op : List Char → Option (BinOp × List Char)) : Nat → Expr → List Char → PRes Expr
  | 0, _, s => .error (.stuck, s)
  | n + 1, e, s =>
    match op s with
    | none => .ok (e, s)
    | some (o, r) =>
      match sub (skipSp r) with
      | .error x => .error x
      | .ok (e', r') => chainLoop sub op n (.bin o e e') r'

/-- A first operand, and the loop. -/
def chain (sub : List Char → PRes Expr) (op : List Char → Option (BinOp × List Char)) (s : List Char) : PRes Expr :=
  PRes.next (sub s) fun e r => chainLoop sub op (r.length + 1) e r

/-- `CompileMult` (`fparser.cc:2168-2311`). -/
def compileMult (unary : List Char → PRes Expr) (s : List Char) : PRes Expr := chain unary mulOp s

/-- `CompileAddition` (`fparser.cc:2313-2432`). -/
def compileAddition (unary : List Char → PRes Expr) (s : List Char) : PRes Expr := chain (compileMult unary) addOp s

/-- `CompileComparison` (`fparser.cc:2434-2472`). -/
def compileComparison (unary : List Char → PRes Expr) (s : List Char) : PRes Expr := chain (compileAddition unary) cmpOp s

/-- `CompileAnd` (`fparser.cc:2474-2496`). -/
def compileAnd (unary : List Char → PRes Expr) (s : List Char) : PRes Expr := chain (compileComparison unary) andOp s

mutual

/-- `CompileUnaryMinus` (`fparser.cc:2145-2166`).  The first parameter is a bound on the number of nested calls. -/
def compileUnary (N : Names) (I : List (List Char)) : Nat → List Char → PRes Expr
  | 0, s => .error (.stuck, s)
  | n + 1, s =>
    match s with
    | '-' :: r => PRes.next (compileUnary N I n (skipSp r)) fun e r' => .ok (.neg e, r')
    | '!' :: r => PRes.next (compileUnary N I n (skipSp r)) fun e r' => .ok (.not e, r')
    | s => compilePow (compileElement N I (compileExpression N I n)) (compileUnary N I n) s

/-- `CompileExpression` (`fparser.cc:2498-2520`). -/
def compileExpression (N : Names) (I : List (List Char)) : Nat → List Char → PRes Expr
  | 0, s => .error (.stuck, s)
  | n + 1, s => chain (compileAnd (compileUnary N I n)) orOp (skipSp s)

end

/-! ## Programs -/

/-- `CompileExpression` with a sufficient bound. -/
def compileExpr (N : Names) (I : List (List Char)) (s : List Char) : PRes Expr :=
  compileExpression N I (2 * s.length + 2) s

/-- The test which decides whether an inline variable is defined (`fparser.cc:2527-2544`): its name, and the text of its
definition. -/
def inlineDef (N : Names) (s : List Char) : Option (List Char × List Char) :=
  let x := readIdentifier s
  if x ≠ [] ∧ builtin x = none ∧ x ∉ N.vars ∧ x ∉ N.consts then
    match skipSp (afterIdentifier s) with
    | ':' :: '=' :: r => some (x, r)
    | _ => none
  else none

/-- `Compile` (`fparser.cc:2522-2565`).  The first parameter is a bound on the number of definitions.  When the definition is
not followed by a semicolon, it is the end of the program. -/
def compile (N : Names) : Nat → List (List Char) → List Char → PRes Program
  | 0, _, s => .error (.stuck, s)
  | n + 1, I, s =>
    match inlineDef N (skipSp s) with
    | none => PRes.next (compileExpr N I (skipSp s)) fun e r => .ok (⟨[], e⟩, r)
    | some (x, r) =>
      PRes.next (compileExpr N I r) fun e r' =>
      match r' with
      | ';' :: r'' =>
        PRes.next (compile N n (I ++ [x]) r'') fun p r3 => .ok (⟨(x, e) :: p.defs, p.body⟩, r3)
      | _ => .ok (⟨[], e⟩, r')

/-- `ParseFunction` (`fparser.cc:1374-1413`): an error and its position, or the program. -/
def parseFunction (N : Names) (s : List Char) : Except (ParseErr × Nat) Program :=
  match compile N (s.length + 1) [] s with
  | .error (t, r) => .error (t, s.length - r.length)
  | .ok (p, []) => .ok p
  | .ok (_, r) => .error (.expectOperator, s.length - r.length)

end Hnco.FParser
