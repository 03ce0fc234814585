import Verif.FParser.Syntax

/-!
# The grammar of expressions

An independent definition of the texts which are expressions, and of what they mean: which operators bind tighter, and how
operators of the same level are grouped.  It knows nothing of the parser.
-/

namespace Hnco.FParser

/-- A sequence of spaces. -/
def Spaces (w : List Char) : Prop := ∀ c ∈ w, c ∈ [' ', '\t', '\n', '\r', '\x0b']

/-- An identifier: a letter or an underscore, followed by letters, underscores and digits. -/
def Identifier (x : List Char) : Prop :=
  ∃ c r, x = c :: r ∧ (c.isAlpha ∨ c = '_') ∧ ∀ d ∈ r, d.isAlpha ∨ d = '_' ∨ d.isDigit

/-- The name of a function. -/
def Fn.name : Fn → String
  | .abs => "abs"
  | .acos => "acos"
  | .acosh => "acosh"
  | .asin => "asin"
  | .asinh => "asinh"
  | .atan => "atan"
  | .atan2 => "atan2"
  | .atanh => "atanh"
  | .cbrt => "cbrt"
  | .ceil => "ceil"
  | .cos => "cos"
  | .cosh => "cosh"
  | .cot => "cot"
  | .csc => "csc"
  | .exp => "exp"
  | .exp2 => "exp2"
  | .floor => "floor"
  | .hypot => "hypot"
  | .int => "int"
  | .log => "log"
  | .log10 => "log10"
  | .log2 => "log2"
  | .max => "max"
  | .min => "min"
  | .pow => "pow"
  | .sec => "sec"
  | .sin => "sin"
  | .sinh => "sinh"
  | .sqrt => "sqrt"
  | .tan => "tan"
  | .tanh => "tanh"
  | .trunc => "trunc"

/-- The functions with two parameters; the others have one. -/
def Fn.Binary (f : Fn) : Prop := f = .atan2 ∨ f = .hypot ∨ f = .max ∨ f = .min ∨ f = .pow

/-- The names which are not available for variables. -/
def Reserved (x : List Char) : Prop := x = "if".toList ∨ ∃ f : Fn, x = f.name.toList

/-- The value of a digit: its rank among the digits. -/
def digitValue (c : Char) : Nat := "0123456789abcdef".toList.idxOf c.toLower

/-- The value of a sequence of digits: each digit counts for a power of the base. -/
def placeValue (base : Nat) : List Char → Nat
  | [] => 0
  | c :: r => digitValue c * base ^ r.length + placeValue base r

/-- Decimal digits. -/
def Digits (ds : List Char) : Prop := ∀ c ∈ ds, c.isDigit

/-- Hexadecimal digits. -/
def XDigits (ds : List Char) : Prop := ∀ c ∈ ds, c.isDigit ∨ ('a' ≤ c ∧ c ≤ 'f') ∨ ('A' ≤ c ∧ c ≤ 'F')

/-- A mantissa: digits, possibly with a point.  At least one digit. -/
inductive Mantissa (P : List Char → Prop) (base : Nat) : List Char → ℚ → Prop
  | whole (a : List Char) (ha : P a) (hne : a ≠ []) : Mantissa P base a (placeValue base a)
  | point (a b : List Char) (ha : P a) (hb : P b) (hne : a ≠ [] ∨ b ≠ []) :
      Mantissa P base (a ++ '.' :: b) ((placeValue base (a ++ b) : ℚ) / (base : ℚ) ^ b.length)

/-- An exponent: nothing, or a mark, an optional sign and digits. -/
inductive Exponent (marks : List Char) : List Char → Int → Prop
  | none : Exponent marks [] 0
  | plain (c : Char) (ds : List Char) (hc : c ∈ marks) (hd : Digits ds) (hne : ds ≠ []) :
      Exponent marks (c :: ds) (placeValue 10 ds)
  | plus (c : Char) (ds : List Char) (hc : c ∈ marks) (hd : Digits ds) (hne : ds ≠ []) :
      Exponent marks (c :: '+' :: ds) (placeValue 10 ds)
  | minus (c : Char) (ds : List Char) (hc : c ∈ marks) (hd : Digits ds) (hne : ds ≠ []) :
      Exponent marks (c :: '-' :: ds) (-(placeValue 10 ds))

/-- Literals: decimal and hexadecimal numbers.  The texts of the last two constructors are oddities: a hexadecimal number
without digits is accepted, and means zero, if it has a point or an exponent. -/
inductive Literal : List Char → ℚ → Prop
  | decimal (t u : List Char) (m : ℚ) (k : Int) (hm : Mantissa Digits 10 t m) (hx : Exponent ['e', 'E'] u k) :
      Literal (t ++ u) (m * (10 : ℚ) ^ k)
  | hexadecimal (x : Char) (t u : List Char) (m : ℚ) (k : Int) (hx : x = 'x' ∨ x = 'X') (hm : Mantissa XDigits 16 t m)
      (hu : Exponent ['p', 'P'] u k) : Literal ('0' :: x :: (t ++ u)) (m * (2 : ℚ) ^ k)
  | noDigit : Literal ['0', 'x', '.'] 0
  | noDigitExponent (dot : List Char) (hdot : dot = [] ∨ dot = ['.']) (c : Char) (w u : List Char) (k : Int)
      (hw : ∀ d ∈ w, isSpace d = true) (hu : Exponent ['p', 'P'] (c :: u) k) (h1 : -2147483648 ≤ k) (h2 : k ≤ 2147483647) :
      Literal ('0' :: 'x' :: (dot ++ c :: (w ++ u))) 0

/-- The levels of the grammar, from the tightest. -/
inductive Level where
  | element | power | unary | product | sum | comparison | conjunction | expression

/-- The text of a binary operator, and its level. -/
inductive Operator : Level → List Char → BinOp → Prop
  | mul : Operator .product ['*'] .mul
  | div : Operator .product ['/'] .div
  | mod : Operator .product ['%'] .mod
  | add : Operator .sum ['+'] .add
  | sub : Operator .sum ['-'] .sub
  | eq : Operator .comparison ['='] .eq
  | ne : Operator .comparison ['!', '='] .ne
  | lt : Operator .comparison ['<'] .lt
  | le : Operator .comparison ['<', '='] .le
  | gt : Operator .comparison ['>'] .gt
  | ge : Operator .comparison ['>', '='] .ge
  | and : Operator .conjunction ['&'] .and
  | or : Operator .expression ['|'] .or

/-- The level of the operands on the right of the operators of a level. -/
def Level.tighter : Level → Level
  | .expression => .conjunction
  | .conjunction => .comparison
  | .comparison => .sum
  | .sum => .product
  | .product => .unary
  | .unary => .power
  | _ => .element

/-- `Derives N I l t e`: the text `t` is an expression of level `l`, and means the tree `e`.  The text includes the spaces which
follow, but not those which precede.  `N` are the names of the variables and of the constants, `I` those of the inline
variables. -/
inductive Derives (N : Names) (I : List (List Char)) : Level → List Char → Expr → Prop
  | literal {t w : List Char} {q : ℚ} (ht : Literal t q) (hw : Spaces w) : Derives N I .element (t ++ w) (.lit q)
  | var {x w : List Char} (hx : Identifier x) (hb : ¬ Reserved x) (hv : x ∈ N.vars) (hw : Spaces w) :
      Derives N I .element (x ++ w) (.var x)
  | const {x w : List Char} (hx : Identifier x) (hb : ¬ Reserved x) (hv : x ∉ N.vars) (hc : x ∈ N.consts) (hw : Spaces w) :
      Derives N I .element (x ++ w) (.const x)
  | inl {x w : List Char} (hx : Identifier x) (hb : ¬ Reserved x) (hv : x ∉ N.vars) (hc : x ∉ N.consts) (hi : x ∈ I)
      (hw : Spaces w) : Derives N I .element (x ++ w) (.inl x)
  | paren {w₁ t w₂ : List Char} {e : Expr} (h₁ : Spaces w₁) (he : Derives N I .expression t e) (h₂ : Spaces w₂) :
      Derives N I .element ('(' :: (w₁ ++ t ++ ')' :: w₂)) (.paren e)
  | call1 {x w₀ w₁ t w₂ : List Char} {f : Fn} {a : Expr} (hx : x = f.name.toList) (hp : ¬ f.Binary) (h₀ : Spaces w₀)
      (h₁ : Spaces w₁) (ha : Derives N I .expression t a) (h₂ : Spaces w₂) :
      Derives N I .element (x ++ w₀ ++ '(' :: (w₁ ++ t ++ ')' :: w₂)) (.call1 f a)
  | call2 {x w₀ w₁ t w₂ u w₃ : List Char} {f : Fn} {a b : Expr} (hx : x = f.name.toList) (hp : f.Binary)
      (h₀ : Spaces w₀) (h₁ : Spaces w₁) (ha : Derives N I .expression t a) (h₂ : Spaces w₂) (hb : Derives N I .expression u b)
      (h₃ : Spaces w₃) :
      Derives N I .element (x ++ w₀ ++ '(' :: (w₁ ++ t ++ ',' :: (w₂ ++ u ++ ')' :: w₃))) (.call2 f a b)
  | cond {w₀ w₁ t w₂ u w₃ v w₄ : List Char} {c a b : Expr} (h₀ : Spaces w₀) (h₁ : Spaces w₁)
      (hc : Derives N I .expression t c) (h₂ : Spaces w₂) (ha : Derives N I .expression u a) (h₃ : Spaces w₃)
      (hb : Derives N I .expression v b) (h₄ : Spaces w₄) :
      Derives N I .element
        ('i' :: 'f' :: (w₀ ++ '(' :: (w₁ ++ t ++ ',' :: (w₂ ++ u ++ ',' :: (w₃ ++ v ++ ')' :: w₄))))) (.cond c a b)
  | power {t w u : List Char} {a b : Expr} (ha : Derives N I .element t a) (hw : Spaces w) (hb : Derives N I .unary u b) :
      Derives N I .power (t ++ '^' :: (w ++ u)) (.pow a b)
  | neg {w t : List Char} {e : Expr} (hw : Spaces w) (he : Derives N I .unary t e) :
      Derives N I .unary ('-' :: (w ++ t)) (.neg e)
  | not {w t : List Char} {e : Expr} (hw : Spaces w) (he : Derives N I .unary t e) :
      Derives N I .unary ('!' :: (w ++ t)) (.not e)
  | binary {l : Level} {t o w u : List Char} {op : BinOp} {a b : Expr} (ho : Operator l o op) (ha : Derives N I l t a)
      (hw : Spaces w) (hb : Derives N I l.tighter u b) : Derives N I l (t ++ o ++ w ++ u) (.bin op a b)
  | tighter {l : Level} {t : List Char} {e : Expr} (hl : l ≠ .element) (h : Derives N I l.tighter t e) : Derives N I l t e

/-- `DerivesProgram N I t p`: the text `t` is a program, and means `p`.  A definition at the end of the text counts as the
expression of the program. -/
inductive DerivesProgram (N : Names) : List (List Char) → List Char → Program → Prop
  | body {I : List (List Char)} {w t : List Char} {e : Expr} (hw : Spaces w) (he : Derives N I .expression t e) :
      DerivesProgram N I (w ++ t) ⟨[], e⟩
  | last {I : List (List Char)} {w x w₁ w₂ t : List Char} {e : Expr} (hw : Spaces w) (hx : Identifier x) (hb : ¬ Reserved x)
      (hv : x ∉ N.vars) (hc : x ∉ N.consts) (h₁ : Spaces w₁) (h₂ : Spaces w₂) (he : Derives N I .expression t e) :
      DerivesProgram N I (w ++ x ++ w₁ ++ ':' :: '=' :: (w₂ ++ t)) ⟨[], e⟩
  | define {I : List (List Char)} {w x w₁ w₂ t u : List Char} {e : Expr} {p : Program} (hw : Spaces w) (hx : Identifier x)
      (hb : ¬ Reserved x) (hv : x ∉ N.vars) (hc : x ∉ N.consts) (h₁ : Spaces w₁) (h₂ : Spaces w₂)
      (he : Derives N I .expression t e) (hp : DerivesProgram N (I ++ [x]) u p) :
      DerivesProgram N I (w ++ x ++ w₁ ++ ':' :: '=' :: (w₂ ++ t ++ ';' :: u)) ⟨(x, e) :: p.defs, p.body⟩

end Hnco.FParser
