import Verif.FParser.Syntax
import Mathlib.Analysis.SpecialFunctions.Arcosh
import Mathlib.Analysis.SpecialFunctions.Arsinh
import Mathlib.Analysis.SpecialFunctions.Artanh
import Mathlib.Analysis.SpecialFunctions.Complex.Arctan
import Mathlib.Analysis.SpecialFunctions.Pow.Real
import Mathlib.Analysis.SpecialFunctions.Log.Base

/-!
# Model of the parser of expressions: the code

Models the emission of code by the functions `Compile...` of `lib/fparser/fparser.cc`, and `Eval`, which executes it.

Simplifications: arithmetic is that of real numbers; an immediate operand is in the instruction (the code has a separate
array of immediate values, which is popped whenever the instruction is); a conditional is a single instruction with the code of
its two branches (the code has jumps; the flag of the parameters of opcodes and that of the last opcode of a conditional,
`fparser.cc:1818-1819`, `1831-1832` and `1841`, prevent the tests on the last opcodes from seeing the inside of a conditional or
what precedes a branch); a test on the last opcode fails if there is none.  `AddFunctionOpcode` (`fparser.cc:1640-1648`), which
includes a generated file of local optimizations, is a parameter.  `Optimize` (`parsed-multivariate-function.hh:92`), which is in
`fpoptimizer.cc` and replaces the code by another one, is not modelled.
-/

namespace Hnco.FParser

noncomputable section

/-- The opcodes without operand which HNCO can meet (`fptypes.hh:28-88`). -/
inductive Op where
  | fn (f : Fn)
  | neg | add | sub | mul | div | mod | equal | nequal | less | lessOrEq | greater | greaterOrEq | not | and | or
  | notNot | deg | rad | sinCos | sinhCosh | absNot | absNotNot | absAnd | absOr | inv | sqr | rdiv | rsub | rsqrt
  deriving DecidableEq, Repr

/-- Instructions. -/
inductive Instr where
  | imm (v : ℝ)
  | var (i : Nat)
  | dup
  | fetch (k : Nat)
  | op (o : Op)
  | cond (absolute : Bool) (c₁ c₂ : List Instr)

/-! ## Functions -/

/-- `fp_powi` (`fpaux.hh:1199-1209`).  The first parameter is a bound on the number of iterations. -/
def fpPowiLoop : Nat → ℝ → Nat → ℝ → ℝ
  | 0, _, _, result => result
  | fuel + 1, x, y, result =>
    if y = 0 then result
    else if y % 2 = 1 then fpPowiLoop fuel x (y - 1) (result * x)
    else fpPowiLoop fuel (x * x) (y / 2) result

/-- `fp_powi` (`fpaux.hh:1199-1209`). -/
def fpPowi (x : ℝ) (y : Nat) : ℝ := fpPowiLoop (2 * y) x y 1

/-- `fp_pow` (`fpaux.hh:1211-1239`).  Integers are not bounded.  The code returns `-(-x)^y` or what is not a number if `x` is
negative and `y` is not an integer: here, no value. -/
def fpPow (x y : ℝ) : Option ℝ :=
  if x = 1 then some 1
  else if y = ⌊y⌋ then
    if y ≥ 0 then some (fpPowi x ⌊y⌋.toNat) else some (1 / fpPowi x (-⌊y⌋).toNat)
  else if y ≥ 0 then
    if x > 0 then some (Real.exp (Real.log x * y)) else if x = 0 then some 0 else none
  else if x > 0 then some (Real.exp (Real.log (1 / x) * -y))
  else none

/-- `fp_cbrt` (`fpaux.hh:484-490`). -/
def fpCbrt (x : ℝ) : ℝ :=
  if x > 0 then Real.exp (Real.log x / 3) else if x < 0 then -Real.exp (Real.log (-x) / 3) else 0

/-- `fp_trunc` (`fpaux.hh:276-280`). -/
def fpTrunc (x : ℝ) : ℝ := if x < 0 then ⌈x⌉ else ⌊x⌋

/-- `fp_int` (`fpaux.hh:282-287`). -/
def fpInt (x : ℝ) : ℝ := if x < 0 then ⌈x - 1 / 2⌉ else ⌊x + 1 / 2⌋

/-- `fp_mod` (`fpaux.hh:187-189`): `std::fmod`. -/
def fpMod (x y : ℝ) : ℝ := x - y * fpTrunc (x / y)

/-- `fp_truth` (`fpaux.hh:976-982`). -/
def fpTruth (d : ℝ) : Bool := decide (|d| ≥ 1 / 2)

/-- `fp_absTruth` (`fpaux.hh:984-990`). -/
def fpAbsTruth (d : ℝ) : Bool := decide (d ≥ 1 / 2)

/-- The conversion of a truth value. -/
def ofBool (b : Bool) : ℝ := if b then 1 else 0

/-- The functions of one parameter in `Eval` (`fparser.cc:2627-2775`).  The tangent has no value where the cosine is zero; there,
`1 / tan(x)` is zero, so that `cot` is written as the cosine divided by the sine. -/
def evalFn1 (f : Fn) (x : ℝ) : Option ℝ :=
  match f with
  | .abs => some |x|
  | .acos => if x < -1 ∨ x > 1 then none else some (Real.arccos x)
  | .acosh => if x < 1 then none else some (Real.arcosh x)
  | .asin => if x < -1 ∨ x > 1 then none else some (Real.arcsin x)
  | .asinh => some (Real.arsinh x)
  | .atan => some (Real.arctan x)
  | .atanh => if x ≤ -1 ∨ x ≥ 1 then none else some (Real.artanh x)
  | .cbrt => some (fpCbrt x)
  | .ceil => some ⌈x⌉
  | .cos => some (Real.cos x)
  | .cosh => some (Real.cosh x)
  | .cot => if Real.sin x = 0 then none else some (Real.cos x / Real.sin x)
  | .csc => if Real.sin x = 0 then none else some (1 / Real.sin x)
  | .exp => some (Real.exp x)
  | .exp2 => fpPow 2 x
  | .floor => some ⌊x⌋
  | .int => some (fpInt x)
  | .log => if ¬ (x > 0) then none else some (Real.log x)
  | .log10 => if ¬ (x > 0) then none else some (Real.log x * (1 / Real.log 10))
  | .log2 => if ¬ (x > 0) then none else some (Real.log x * (1 / Real.log 2))
  | .sec => if Real.cos x = 0 then none else some (1 / Real.cos x)
  | .sin => some (Real.sin x)
  | .sinh => some (Real.sinh x)
  | .sqrt => if x < 0 then none else some (Real.sqrt x)
  | .tan => if Real.cos x = 0 then none else some (Real.tan x)
  | .tanh => some (Real.tanh x)
  | .trunc => some (fpTrunc x)
  | .atan2 | .hypot | .max | .min | .pow => none

/-- The functions of two parameters in `Eval` (`fparser.cc:2651-2652`, `2692-2694`, `2732-2751`). -/
def evalFn2 (f : Fn) (x y : ℝ) : Option ℝ :=
  match f with
  | .atan2 => some (Complex.arg ⟨y, x⟩)
  | .hypot => some (Real.sqrt (x * x + y * y))
  | .max => some (if x > y then x else y)
  | .min => some (if x < y then x else y)
  | .pow => if x = 0 ∧ y < 0 then none else fpPow x y
  | _ => none

/-! ## Execution -/

/-- An opcode in `Eval` (`fparser.cc:2622-2979`), where `ε` is the tolerance of comparisons.  The top of the stack is the first
element of the list.  `cRSqrt` has no value for negative numbers, which give what is not a number. -/
def evalOp (ε : ℝ) (o : Op) (st : List ℝ) : Option (List ℝ) :=
  match o, st with
  | .fn f, st =>
    if f.params = 2 then
      match st with
      | y :: x :: st => (evalFn2 f x y).map (· :: st)
      | _ => none
    else
      match st with
      | x :: st => (evalFn1 f x).map (· :: st)
      | _ => none
  | .neg, x :: st => some (-x :: st)
  | .add, y :: x :: st => some ((x + y) :: st)
  | .sub, y :: x :: st => some ((x - y) :: st)
  | .mul, y :: x :: st => some (x * y :: st)
  | .div, y :: x :: st => if y = 0 then none else some (x / y :: st)
  | .mod, y :: x :: st => if y = 0 then none else some (fpMod x y :: st)
  | .equal, y :: x :: st => some (ofBool (decide (|x - y| ≤ ε)) :: st)
  | .nequal, y :: x :: st => some (ofBool (decide (|x - y| > ε)) :: st)
  | .less, y :: x :: st => some (ofBool (decide (x < y - ε)) :: st)
  | .lessOrEq, y :: x :: st => some (ofBool (decide (x ≤ y + ε)) :: st)
  | .greater, y :: x :: st => some (ofBool (decide (y < x - ε)) :: st)
  | .greaterOrEq, y :: x :: st => some (ofBool (decide (y ≤ x + ε)) :: st)
  | .not, x :: st => some (ofBool (!fpTruth x) :: st)
  | .notNot, x :: st => some (ofBool (fpTruth x) :: st)
  | .and, y :: x :: st => some (ofBool (fpTruth x && fpTruth y) :: st)
  | .or, y :: x :: st => some (ofBool (fpTruth x || fpTruth y) :: st)
  | .deg, x :: st => some (x * (180 / Real.pi) :: st)
  | .rad, x :: st => some (x * (Real.pi / 180) :: st)
  | .sinCos, x :: st => some (Real.cos x :: Real.sin x :: st)
  | .sinhCosh, x :: st => some (Real.cosh x :: Real.sinh x :: st)
  | .absNot, x :: st => some (ofBool (!fpAbsTruth x) :: st)
  | .absNotNot, x :: st => some (ofBool (fpAbsTruth x) :: st)
  | .absAnd, y :: x :: st => some (ofBool (fpAbsTruth x && fpAbsTruth y) :: st)
  | .absOr, y :: x :: st => some (ofBool (fpAbsTruth x || fpAbsTruth y) :: st)
  | .inv, x :: st => if x = 0 then none else some (1 / x :: st)
  | .sqr, x :: st => some (x * x :: st)
  | .rdiv, y :: x :: st => if x = 0 then none else some (y / x :: st)
  | .rsub, y :: x :: st => some ((y - x) :: st)
  | .rsqrt, x :: st => if x ≤ 0 then none else some (1 / Real.sqrt x :: st)
  | _, _ => none

mutual

/-- An instruction in `Eval` (`fparser.cc:2622-2979`): the stack after it, or none if there is an error.  An element of the stack
is fetched by its rank from the bottom. -/
def runInstr (ε : ℝ) (vals : List ℝ) : Instr → List ℝ → Option (List ℝ)
  | .imm v, st => some (v :: st)
  | .var i, st => (vals[i]?).map (· :: st)
  | .dup, st =>
    match st with
    | x :: st => some (x :: x :: st)
    | [] => none
  | .fetch k, st => (st.reverse[k]?).map (· :: st)
  | .op o, st => evalOp ε o st
  | .cond absolute c₁ c₂, st =>
    match st with
    | [] => none
    | x :: st =>
      if absolute then (if fpAbsTruth x then runCode ε vals c₁ st else runCode ε vals c₂ st)
      else (if fpTruth x then runCode ε vals c₁ st else runCode ε vals c₂ st)

/-- The loop of `Eval` (`fparser.cc:2622-2979`). -/
def runCode (ε : ℝ) (vals : List ℝ) : List Instr → List ℝ → Option (List ℝ)
  | [], st => some st
  | i :: c, st => (runInstr ε vals i st).bind (runCode ε vals c)

end

/-- `Eval` (`fparser.cc:2586-2983`): the value at the top of the stack. -/
def evalCode (ε : ℝ) (vals : List ℝ) (c : List Instr) : Option ℝ := (runCode ε vals c []).bind List.head?

/-! ## Emission -/

/-- What the emission depends on: `AddFunctionOpcode` (`fparser.cc:1640-1648`), the names of the
variables and the values of the constants. -/
structure Emitter where
  addOp : List Instr → Op → List Instr
  vars : List (List Char)
  consts : List (List Char × ℝ)

/-- The code `mByteCode` and the number of values on the stack `mStackPtr`. -/
structure EState where
  code : List Instr
  sp : Nat

/-- `AddFunctionOpcode` followed by `mStackPtr -= pop`. -/
def EState.addOp (E : Emitter) (s : EState) (o : Op) (pop : Nat) : EState := ⟨E.addOp s.code o, s.sp - pop⟩

/-- `AddImmedOpcode` and `incStackPtr` (`fparser.cc:1527-1532`). -/
def EState.addImm (s : EState) (v : ℝ) : EState := ⟨s.code ++ [.imm v], s.sp + 1⟩

/-- The last instruction, if it is an immediate value: the state before it. -/
def EState.popImm (s : EState) : Option (ℝ × EState) :=
  match s.code.getLast? with
  | some (.imm v) => some (v, ⟨s.code.dropLast, s.sp - 1⟩)
  | _ => none

/-- The last instruction, if it is a given opcode with one parameter: the state before it. -/
def EState.popOp (s : EState) (o : Op) : Option (EState) :=
  match s.code.getLast? with
  | some (.op o') => if o' = o then some ⟨s.code.dropLast, s.sp⟩ else none
  | _ => none

/-- The last two instructions, if they are an immediate value and a given opcode with two parameters: the state before them. -/
def EState.popImmOp (s : EState) (o : Op) : Option (ℝ × EState) :=
  match s.popOp o with
  | none => none
  | some s' =>
    match s'.code.getLast? with
    | some (.imm v) => some (v, ⟨s'.code.dropLast, s'.sp⟩)
    | _ => none

/-- The last instruction without `cNotNot` (`fparser.cc:1805`, `2485`, `2510`). -/
def EState.dropNotNot (s : EState) : EState := (s.popOp .notNot).getD s

/-- `IsNeverNegativeValueOpcode` (`fparser.cc:88-107`). -/
def neverNegative : Op → Bool
  | .and | .absAnd | .or | .absOr | .not | .absNot | .notNot | .absNotNot | .equal | .nequal | .less | .lessOrEq | .greater
  | .greaterOrEq | .fn .sqrt | .rsqrt | .sqr | .fn .hypot | .fn .abs | .fn .acos | .fn .cosh => true
  | _ => false

/-- The choice between `cIf` and `cAbsIf` (`fparser.cc:1804-1814`). -/
def EState.absolute (s : EState) : Bool :=
  match s.code.getLast? with
  | some (.op o) => neverNegative o
  | _ => false

/-- The value not yet emitted: `pending_immed` of `CompileMult` and of `CompileAddition`. -/
inductive Pending where
  | none
  | mul (p : ℝ)
  | add (p : ℝ)

/-- `FP_FlushImmed` of `CompileMult` (`fparser.cc:2176-2192`). -/
def flushMul (E : Emitter) (s : EState) (p : ℝ) : EState :=
  if p ≠ 1 then
    match s.popOp .inv with
    | some s' => (s'.addImm p).addOp E .rdiv 1
    | none => (s.addImm p).addOp E .mul 1
  else s

/-- `FP_FlushImmed` of `CompileAddition` (`fparser.cc:2321-2337`). -/
def flushAdd (E : Emitter) (s : EState) (p : ℝ) : EState :=
  if p ≠ 0 then
    match s.popOp .neg with
    | some s' => (s'.addImm p).addOp E .rsub 1
    | none => (s.addImm p).addOp E .add 1
  else s

/-- The end of a loop: the pending value is emitted. -/
def finish (E : Emitter) : EState × Pending → EState
  | (s, .none) => s
  | (s, .mul p) => flushMul E s p
  | (s, .add p) => flushAdd E s p

/-- The loop of `CompileMult` after its first operands: if they are not products, the loop begins (`fparser.cc:2172-2175`). -/
def asMul (E : Emitter) (r : EState × Pending) : EState × ℝ :=
  match r with
  | (s, .mul p) => (s, p)
  | r => (finish E r, 1)

/-- The loop of `CompileAddition` after its first operands (`fparser.cc:2317-2320`). -/
def asAdd (E : Emitter) (r : EState × Pending) : EState × ℝ :=
  match r with
  | (s, .add p) => (s, p)
  | r => (finish E r, 0)

/-- The immediate value which ends the left operand (`fparser.cc:2234-2245` and `2359-2369`). -/
def takeLeft (o : Op) (acc : ℝ → ℝ → ℝ) (p : ℝ) (s : EState) : ℝ × EState :=
  match s.popImmOp o with
  | some (v, s') => (acc p v, s')
  | none => (p, s)

/-- The inverse or the opposite which ends the left operand (`fparser.cc:2248-2257` and `2372-2380`). -/
def takeUnary (o : Op) (s : EState) : Bool × EState :=
  match s.popOp o with
  | some s' => (true, s')
  | none => (false, s)

/-- The immediate value which ends the right operand (`fparser.cc:2260-2290` and `2383-2411`): the sign `same` may change. -/
def takeRight (o ro : Op) (acc disc : ℝ → ℝ → ℝ) (same : Bool) (p : ℝ) (s : EState) : Bool × ℝ × EState :=
  match s.popImmOp o with
  | some (v, s') => (same, if same then acc p v else disc p v, s')
  | none =>
    match s.popImmOp ro with
    | some (v, s') => (!same, if same then acc p v else disc p v, s')
    | none => (same, p, s)

/-- The operators `*` and `/` in `CompileMult` (`fparser.cc:2207-2306`), where `operand` is `CompileUnaryMinus`.  The parameter
`star` is `c == '*'`. -/
def stepMul (E : Emitter) (star : Bool) (s : EState) (p : ℝ) (operand : EState → EState) : EState × ℝ :=
  match s.popImm with
  | some (v, s') =>
    let s1 := operand s'
    (if star then s1 else s1.addOp E .inv 0, p * v)
  | none =>
    let l := takeLeft .mul (· * ·) p s
    let i := if star then takeUnary .inv l.2 else (false, l.2)
    let r := takeRight .mul .rdiv (· * ·) (· / ·) star l.1 (operand i.2)
    (if !i.1 then r.2.2.addOp E (if r.1 then .mul else .div) 1
     else if r.1 then r.2.2.addOp E .rdiv 1
     else (r.2.2.addOp E .mul 1).addOp E .inv 0, r.2.1)

/-- The operators `+` and `-` in `CompileAddition` (`fparser.cc:2340-2427`), where `operand` is `CompileMult`.  The parameter
`plus` is `c == '+'`. -/
def stepAdd (E : Emitter) (plus : Bool) (s : EState) (p : ℝ) (operand : EState → EState) : EState × ℝ :=
  match s.popImm with
  | some (v, s') =>
    let s1 := operand s'
    (if plus then s1 else s1.addOp E .neg 0, p + v)
  | none =>
    let l := takeLeft .add (· + ·) p s
    let i := takeUnary .neg l.2
    let r := takeRight .add .rsub (· + ·) (· - ·) plus l.1 (operand i.2)
    (if !i.1 then r.2.2.addOp E (if r.1 then .add else .sub) 1
     else if r.1 then r.2.2.addOp E .rsub 1
     else (r.2.2.addOp E .add 1).addOp E .neg 0, r.2.1)

/-- The opcode of a comparison (`fparser.cc:2449-2468`). -/
def comparisonOp : BinOp → Op
  | .eq => .equal
  | .ne => .nequal
  | .lt => .less
  | .le => .lessOrEq
  | .gt => .greater
  | _ => .greaterOrEq

/-- The emission of a variable (`fparser.cc:1960-1967`). -/
def emitVar (i : Nat) (s : EState) : EState :=
  match s.code.getLast? with
  | some (.var j) => if j = i then ⟨s.code ++ [.dup], s.sp + 1⟩ else ⟨s.code ++ [.var i], s.sp + 1⟩
  | _ => ⟨s.code ++ [.var i], s.sp + 1⟩

/-- The emission of an inline variable (`fparser.cc:1932-1952`). -/
def emitInline (k : Nat) (s : EState) : EState :=
  if k + 1 = s.sp then ⟨s.code ++ [.dup], s.sp + 1⟩ else ⟨s.code ++ [.fetch k], s.sp + 1⟩

/-- The beginning of a power, after its first operand (`fparser.cc:2093-2102`). -/
def powBegin (s : EState) : Op × EState :=
  match s.popImm with
  | some (v, s') => if v = Real.exp 1 then (.fn .exp, s') else if v = 2 then (.fn .exp2, s') else (.fn .pow, s)
  | none => (.fn .pow, s)

/-- The emission of the code of an expression: `CompileElement` (`fparser.cc:1902-1996`), `CompileIf` (`fparser.cc:1794-1854`),
`CompileFunction` (`fparser.cc:1998-2028`), `CompilePow` (`fparser.cc:2080-2113`), `CompileUnaryMinus` (`fparser.cc:2145-2166`),
`CompileMult` (`fparser.cc:2168-2311`), `CompileAddition` (`fparser.cc:2313-2432`), `CompileComparison`
(`fparser.cc:2434-2472`), `CompileAnd` (`fparser.cc:2474-2496`) and `CompileExpression` (`fparser.cc:2498-2520`), before the
pending value is emitted.  `I` are the names and the places of the inline variables, from the last one. -/
def emitRaw (E : Emitter) (I : List (List Char × Nat)) : Expr → EState → EState × Pending
  | .lit q, s => (s.addImm (q : ℝ), .none)
  | .var x, s => (emitVar (E.vars.idxOf x) s, .none)
  | .const x, s => (s.addImm ((E.consts.lookup x).getD 0), .none)
  | .inl x, s => (emitInline ((I.lookup x).getD 0) s, .none)
  | .paren e, s => (finish E (emitRaw E I e s), .none)
  | .call1 f a, s => ((finish E (emitRaw E I a s)).addOp E (.fn f) 0, .none)
  | .call2 f a b, s => ((finish E (emitRaw E I b (finish E (emitRaw E I a s)))).addOp E (.fn f) 1, .none)
  | .cond c a b, s =>
    let s := (finish E (emitRaw E I c s)).dropNotNot
    let sp := s.sp - 1
    let c₁ := (finish E (emitRaw E I a ⟨[], sp⟩)).code
    let c₂ := (finish E (emitRaw E I b ⟨[], sp⟩)).code
    (⟨s.code ++ [.cond s.absolute c₁ c₂], sp + 1⟩, .none)
  | .pow a b, s =>
    let (o, s) := powBegin (finish E (emitRaw E I a s))
    let s := finish E (emitRaw E I b s)
    (s.addOp E o (if o = .fn .pow then 1 else 0), .none)
  | .neg e, s => ((finish E (emitRaw E I e s)).addOp E .neg 0, .none)
  | .not e, s => ((finish E (emitRaw E I e s)).addOp E .not 0, .none)
  | .bin op a b, s =>
    match op with
    | .mul =>
      let (s, p) := asMul E (emitRaw E I a s)
      let (s, p) := stepMul E true s p (fun s => finish E (emitRaw E I b s))
      (s, .mul p)
    | .div =>
      let (s, p) := asMul E (emitRaw E I a s)
      let (s, p) := stepMul E false s p (fun s => finish E (emitRaw E I b s))
      (s, .mul p)
    | .mod =>
      let (s, p) := asMul E (emitRaw E I a s)
      ((finish E (emitRaw E I b (flushMul E s p))).addOp E .mod 1, .mul 1)
    | .add =>
      let (s, p) := asAdd E (emitRaw E I a s)
      let (s, p) := stepAdd E true s p (fun s => finish E (emitRaw E I b s))
      (s, .add p)
    | .sub =>
      let (s, p) := asAdd E (emitRaw E I a s)
      let (s, p) := stepAdd E false s p (fun s => finish E (emitRaw E I b s))
      (s, .add p)
    | .and => ((finish E (emitRaw E I b (finish E (emitRaw E I a s)))).dropNotNot.addOp E .and 1, .none)
    | .or => ((finish E (emitRaw E I b (finish E (emitRaw E I a s)))).dropNotNot.addOp E .or 1, .none)
    | op => ((finish E (emitRaw E I b (finish E (emitRaw E I a s)))).addOp E (comparisonOp op) 1, .none)

/-- The emission of the code of an expression. -/
def emit (E : Emitter) (I : List (List Char × Nat)) (e : Expr) (s : EState) : EState := finish E (emitRaw E I e s)

/-- The emission of the code of a program: `Compile` (`fparser.cc:2522-2565`). -/
def emitProgram (E : Emitter) : List (List Char × Expr) → List (List Char × Nat) → Expr → EState → EState
  | [], I, e, s => emit E I e s
  | (x, d) :: ds, I, e, s =>
    let s := emit E I d s
    emitProgram E ds ((x, s.sp - 1) :: I) e s

/-- The code of a program: `ParseFunction` (`fparser.cc:1374-1413`), which begins with no code. -/
def programCode (E : Emitter) (p : Program) : List Instr := (emitProgram E p.defs [] p.body ⟨[], 0⟩).code

/-- `Eval` (`fparser.cc:2586-2983`) as HNCO calls it (`parsed-multivariate-function.hh:108`), which does not look at the error:
the result is zero if there is one. -/
def evalResult (ε : ℝ) (vals : List ℝ) (c : List Instr) : ℝ := (evalCode ε vals c).getD 0

/-! ## Powers -/

/-- `powi_factor_table` (`fparser.cc:1436-1446`). -/
def powiFactorTable : List Nat :=
  [0,1,0,0,0,0,0,0, 0, 0,0,0,0,0,0,3,
   0,0,0,0,0,0,0,0, 0, 5,0,3,0,0,3,0,
   0,0,0,0,0,0,0,3, 0, 0,0,0,0,5,0,0,
   0,0,5,3,0,0,3,5, 0, 3,0,0,3,0,0,3,
   0,0,0,0,0,0,0,0, 0, 0,0,3,0,0,3,0,
   0,9,0,0,0,5,0,3, 0, 0,5,7,0,0,0,5,
   0,0,0,3,5,0,3,0, 0, 3,0,0,3,0,5,3,
   0,0,3,5,0,9,0,7, 3,11,0,3,0,5,3,0]

/-- `get_powi_factor` (`fparser.cc:1448-1452`). -/
def powiFactor (n : Nat) : Nat := powiFactorTable.getD n 0

/-- `CompilePowi` (`fparser.cc:1534-1567`): the code it appends.  The first parameter is a bound on the number of iterations and
of nested calls; `muls` is `num_muls`. -/
def compilePowi : Nat → Nat → Nat → List Instr
  | 0, _, muls => List.replicate muls (.op .mul)
  | fuel + 1, n, muls =>
    if n ≤ 1 then List.replicate muls (.op .mul)
    else if powiFactor n ≠ 0 then compilePowi fuel (powiFactor n) 0 ++ compilePowi fuel (n / powiFactor n) muls
    else if n % 2 = 0 then .op .sqr :: compilePowi fuel (n / 2) muls
    else .dup :: compilePowi fuel (n - 1) (muls + 1)

/-- `IsEligibleIntPowiExponent` (`fparser.cc:1482-1506`). -/
def eligiblePowi (k : Int) : Bool :=
  decide (k ≠ 0) && decide (1 ≤ k.natAbs) &&
    (decide (k.natAbs ≤ 46) || (decide (k.natAbs ≤ 1024) && decide (Nat.land k.natAbs (k.natAbs - 1) = 0)))

end

end Hnco.FParser
