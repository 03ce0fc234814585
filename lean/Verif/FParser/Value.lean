import Verif.FParser.Code

/-!
# Specification of the values of expressions

The mathematical meaning of the expressions: partial functions on real numbers, where `none` means undefined.  Comparisons have
a tolerance, and a number is true if its absolute value is at least one half.  This file does not depend on the model of the code,
except for the trees.
-/

namespace Hnco.FParser

noncomputable section

open Classical in
/-- A value under a condition. -/
def when (p : Prop) (v : ℝ) : Option ℝ := if p then some v else none

open Classical in
/-- Powers: any exponent if the base is positive, nonnegative exponents if it is zero, integers if it is negative. -/
def power (x y : ℝ) : Option ℝ :=
  if 0 < x then some (x ^ y)
  else if x = 0 then (if y = 0 then some 1 else when (0 < y) 0)
  else if h : ∃ n : ℤ, y = n then some (x ^ h.choose)
  else none

/-- The functions of one parameter. -/
def Fn.apply1 (f : Fn) (x : ℝ) : Option ℝ :=
  match f with
  | .abs => some |x|
  | .acos => when (|x| ≤ 1) (Real.arccos x)
  | .acosh => when (1 ≤ x) (Real.arcosh x)
  | .asin => when (|x| ≤ 1) (Real.arcsin x)
  | .asinh => some (Real.arsinh x)
  | .atan => some (Real.arctan x)
  | .atanh => when (|x| < 1) (Real.artanh x)
  | .cbrt => some (SignType.sign x * |x| ^ (1 / 3 : ℝ))
  | .ceil => some ⌈x⌉
  | .cos => some (Real.cos x)
  | .cosh => some (Real.cosh x)
  | .cot => when (Real.sin x ≠ 0) (Real.cos x / Real.sin x)
  | .csc => when (Real.sin x ≠ 0) (Real.sin x)⁻¹
  | .exp => some (Real.exp x)
  | .exp2 => some (2 ^ x)
  | .floor => some ⌊x⌋
  | .int => some (SignType.sign x * ⌊|x| + 1 / 2⌋)
  | .log => when (0 < x) (Real.log x)
  | .log10 => when (0 < x) (Real.logb 10 x)
  | .log2 => when (0 < x) (Real.logb 2 x)
  | .sec => when (Real.cos x ≠ 0) (Real.cos x)⁻¹
  | .sin => some (Real.sin x)
  | .sinh => some (Real.sinh x)
  | .sqrt => when (0 ≤ x) (Real.sqrt x)
  | .tan => when (Real.cos x ≠ 0) (Real.tan x)
  | .tanh => some (Real.tanh x)
  | .trunc => some (SignType.sign x * ⌊|x|⌋)
  | .atan2 | .hypot | .max | .min | .pow => none

/-- The functions of two parameters. -/
def Fn.apply2 (f : Fn) (x y : ℝ) : Option ℝ :=
  match f with
  | .atan2 => some (Complex.arg (y + x * Complex.I))
  | .hypot => some (Real.sqrt (x ^ 2 + y ^ 2))
  | .max => some (x ⊔ y)
  | .min => some (x ⊓ y)
  | .pow => power x y
  | _ => none

/-- Truth of a number. -/
def isTrue (x : ℝ) : Prop := 1 / 2 ≤ |x|

open Classical in
/-- The number of a truth value. -/
def ofProp (p : Prop) : ℝ := if p then 1 else 0

/-- The binary operators, where `ε` is the tolerance of comparisons. -/
def BinOp.apply (ε : ℝ) (o : BinOp) (x y : ℝ) : Option ℝ :=
  match o with
  | .mul => some (x * y)
  | .div => when (y ≠ 0) (x / y)
  | .mod => when (y ≠ 0) (x - y * (SignType.sign (x / y) * ⌊|x / y|⌋))
  | .add => some (x + y)
  | .sub => some (x - y)
  | .eq => some (ofProp (|x - y| ≤ ε))
  | .ne => some (ofProp (¬ |x - y| ≤ ε))
  | .lt => some (ofProp (x < y - ε))
  | .le => some (ofProp (x ≤ y + ε))
  | .gt => some (ofProp (y < x - ε))
  | .ge => some (ofProp (y ≤ x + ε))
  | .and => some (ofProp (isTrue x ∧ isTrue y))
  | .or => some (ofProp (isTrue x ∨ isTrue y))

/-- The values of the names. -/
structure NameValues where
  var : List Char → Option ℝ
  const : List Char → Option ℝ
  inl : List Char → Option ℝ

open Classical in
/-- The value of an expression. -/
def Expr.value (ε : ℝ) (ρ : NameValues) : Expr → Option ℝ
  | .lit q => some q
  | .var x => ρ.var x
  | .const x => ρ.const x
  | .inl x => ρ.inl x
  | .paren e => e.value ε ρ
  | .call1 f a => (a.value ε ρ).bind f.apply1
  | .call2 f a b => (a.value ε ρ).bind fun x => (b.value ε ρ).bind fun y => f.apply2 x y
  | .cond c a b => (c.value ε ρ).bind fun x => if isTrue x then a.value ε ρ else b.value ε ρ
  | .pow a b => (a.value ε ρ).bind fun x => (b.value ε ρ).bind fun y => power x y
  | .neg e => (e.value ε ρ).map fun x => -x
  | .not e => (e.value ε ρ).map fun x => ofProp (¬ isTrue x)
  | .bin o a b => (a.value ε ρ).bind fun x => (b.value ε ρ).bind fun y => o.apply ε x y

/-- The value of an expression after definitions, each of which may use the previous ones. -/
def valueAfter (ε : ℝ) (ρ : NameValues) : List (List Char × Expr) → Expr → Option ℝ
  | [], e => e.value ε ρ
  | (x, d) :: ds, e =>
    (d.value ε ρ).bind fun v => valueAfter ε { ρ with inl := fun y => if y = x then some v else ρ.inl y } ds e

/-- The value of a program, given the values of its variables and of its constants. -/
def Program.value (ε : ℝ) (var const : List Char → Option ℝ) (p : Program) : Option ℝ :=
  valueAfter ε ⟨var, const, fun _ => none⟩ p.defs p.body

end

end Hnco.FParser
