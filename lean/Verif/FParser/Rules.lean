import Verif.FParser.EmitLemmas

/-!
# Model of the parser of expressions: the local optimizations

Models `AddFunctionOpcode` (`fparser.cc:1640-1648`), which includes the generated file `fp_opcode_add.inc`.  For real numbers
(`fp_opcode_add.inc:2647-5309`), this file has 276 rules, each of which replaces the last instructions of the code by others.
Each rule has a number, its pattern and its replacement are written in the file, as the arguments of a macro which traces the
optimizations, and the constructors of `Rule` are these texts, rule by rule.

The file chooses the rule to apply, and adds the opcodes of the replacement in turn, which triggers other rules.  The model is
more general: any rule may be applied any number of times, anywhere in the code.  Simplifications: arithmetic is that of real
numbers; the constraints on the size of the code are dropped; for two rules (46 and 330) the conditions under which other rules
are tried before are added.
-/

namespace Hnco.FParser

noncomputable section

/-! ## Classes of opcodes -/

/-- `IsLogicalOpcode` (`fparser.cc:46-61`). -/
def isLogical : Op → Bool
  | .and | .absAnd | .or | .absOr | .not | .absNot | .notNot | .absNotNot | .equal | .nequal | .less | .lessOrEq | .greater
  | .greaterOrEq => true
  | _ => false

/-- `IsComparisonOpcode` (`fparser.cc:63-74`). -/
def isComparison : Op → Bool
  | .equal | .nequal | .less | .lessOrEq | .greater | .greaterOrEq => true
  | _ => false

/-- `OppositeComparisonOpcode` (`fparser.cc:76-86`). -/
def oppositeComparison : Op → Op
  | .less => .greater
  | .greater => .less
  | .lessOrEq => .greaterOrEq
  | .greaterOrEq => .lessOrEq
  | o => o

/-- `IsAlwaysIntegerOpcode` (`fparser.cc:109-125`). -/
def isAlwaysInteger : Op → Bool
  | .and | .absAnd | .or | .absOr | .not | .absNot | .notNot | .absNotNot | .equal | .nequal | .less | .lessOrEq | .greater
  | .greaterOrEq | .fn .int | .fn .floor | .fn .ceil | .fn .trunc => true
  | _ => false

/-- `IsUnaryOpcode` (`fparser.cc:127-139`). -/
def isUnary : Op → Bool
  | .inv | .neg | .not | .absNot | .notNot | .absNotNot | .sqr | .rsqrt | .deg | .rad => true
  | .fn f => f.params == 1
  | _ => false

/-- `IsBinaryOpcode` (`fparser.cc:141-155`). -/
def isBinary : Op → Bool
  | .add | .sub | .rsub | .mul | .div | .rdiv | .mod | .equal | .nequal | .less | .lessOrEq | .greater | .greaterOrEq | .and
  | .absAnd | .or | .absOr => true
  | .fn f => f.params == 2
  | _ => false

/-- `IsCommutativeOrParamSwappableBinaryOpcode` (`fparser.cc:163-180`). -/
def isSwappable : Op → Bool
  | .add | .mul | .equal | .nequal | .and | .absAnd | .or | .absOr | .fn .min | .fn .max | .fn .hypot | .div | .sub | .rdiv
  | .rsub | .less | .greater | .lessOrEq | .greaterOrEq => true
  | _ => false

/-- `GetParamSwappedBinaryOpcode` (`fparser.cc:182-203`). -/
def paramSwapped : Op → Op
  | .div => .rdiv
  | .sub => .rsub
  | .rdiv => .div
  | .rsub => .sub
  | .less => .greater
  | .greater => .less
  | .lessOrEq => .greaterOrEq
  | .greaterOrEq => .lessOrEq
  | o => o

/-- `HasInvalidRangesOpcode` (`fparser.cc:205-268`), for real numbers. -/
def hasInvalidRanges : Op → Bool
  | .fn .acos | .fn .asin | .fn .acosh | .fn .atanh | .fn .log | .fn .log2 | .fn .log10 | .fn .sqrt | .rsqrt => true
  | _ => false

/-- `isInteger` (`fpaux.hh:1104-1108`), with the tolerance of comparisons. -/
def IsInt (ε x : ℝ) : Prop := |x - ⌊x⌋| ≤ ε

/-- `isEvenInteger` (`fpaux.hh:1097-1102`), with the tolerance of comparisons. -/
def IsEvenInt (ε x : ℝ) : Prop := |x * (1 / 2) - ⌊x * (1 / 2)⌋| ≤ ε

/-! ## Powers -/

open Classical in
/-- The loop of `TryCompilePowi` (`fparser.cc:1573-1614`): the number of square roots and the integer exponent.  The first
parameter is the number of remaining iterations. -/
def powiSearch : Nat → Nat → ℝ → Option (Nat × Int)
  | remaining, count, x =>
    if x = ⌊x⌋ ∧ eligiblePowi ⌊x⌋ = true then some (count, ⌊x⌋)
    else
      match remaining with
      | 0 => none
      | r + 1 => powiSearch r (count + 1) (x + x)

/-- The code which replaces a power with an immediate exponent (`fparser.cc:1583-1608`). -/
def powiCode (count : Nat) (k : Int) : List Instr :=
  (if count = 0 then [] else List.replicate (count - 1) (.op (.fn .sqrt)) ++ [.op (if k < 0 then .rsqrt else .fn .sqrt)]) ++
    ((if k.natAbs % 2 = 0 then .op .sqr :: compilePowi (k.natAbs / 2) (k.natAbs / 2) 0 else compilePowi k.natAbs k.natAbs 0) ++
      (if count = 0 ∧ k < 0 then [.op .inv] else []))

/-! ## Rules -/

/-- The rules (`fp_opcode_add.inc:2647-5309`).  The first three parameters are the number, the pattern and the replacement.  The
number 456, which is not used by the file, stands for the second part of rule 455 (`fparser.cc:1620-1633`). -/
inductive Rule (ε : ℝ) : Nat → List Instr → List Instr → Prop where
  | r21 {y x : ℝ} (h : IsEvenInt ε y ∧ ¬ IsEvenInt ε (x * y)) :
      Rule ε 21 [.imm y, .op (.fn .pow), .imm x, .op (.fn .pow)] [.op (.fn .abs), .imm (y * x), .op (.fn .pow)]
  | r22 {x : ℝ} (h : ¬ IsEvenInt ε (x + x)) :
      Rule ε 22 [.op .sqr, .imm x, .op (.fn .pow)] [.op (.fn .abs), .imm (x + x), .op (.fn .pow)]
  | r23 : Rule ε 23 [.op .sqr, .op (.fn .sqrt)] [.op (.fn .abs)]
  | r42 {y x : ℝ} (h : ¬ IsInt ε y) (h1 : IsInt ε x) :
      Rule ε 42 [.imm y, .op (.fn .pow), .imm x, .op (.fn .pow)] [.imm (y * x), .op (.fn .pow)]
  | r43 {x : ℝ} (h : IsInt ε x) : Rule ε 43 [.op (.fn .exp), .imm x, .op (.fn .pow)] [.imm x, .op .mul, .op (.fn .exp)]
  | r44 {x : ℝ} (h : IsInt ε x) : Rule ε 44 [.op (.fn .exp2), .imm x, .op (.fn .pow)] [.imm x, .op .mul, .op (.fn .exp2)]
  | r45 {x : ℝ} (h : IsInt ε x) : Rule ε 45 [.op (.fn .pow), .imm x, .op (.fn .pow)] [.imm x, .op .mul, .op (.fn .pow)]
  | r46 {x : ℝ} (h : IsEvenInt ε (x + x)) : Rule ε 46 [.op .sqr, .imm x, .op (.fn .pow)] [.imm (x + x), .op (.fn .pow)]
  | r51 {x : ℝ} : Rule ε 51 [.imm x, .op .sub] [.imm (-x), .op .add]
  | r55 {x : ℝ} (h : x = 1) : Rule ε 55 [.imm x, .op .mul] []
  | r56 {x : ℝ} (h : x = 1) : Rule ε 56 [.imm x, .op .div] []
  | r57 {x : ℝ} (h : x = 0) : Rule ε 57 [.imm x, .op .add] []
  | r58 {x : ℝ} (h : x = 0) : Rule ε 58 [.imm x, .op .sub] []
  | r59 : Rule ε 59 [.dup, .op (.fn .min)] []
  | r60 : Rule ε 60 [.dup, .op (.fn .max)] []
  | r61 : Rule ε 61 [.op .neg, .op .neg] []
  | r62 : Rule ε 62 [.op .inv, .op .inv] []
  | r65 {a : Nat} : Rule ε 65 [.var a, .dup, .var a, .op (.fn .min)] [.var a, .dup]
  | r66 {a : Nat} : Rule ε 66 [.var a, .dup, .var a, .op (.fn .max)] [.var a, .dup]
  | r67 {a : Nat} : Rule ε 67 [.var a, .op (.fn .min), .var a, .op (.fn .min)] [.var a, .op (.fn .min)]
  | r68 {a : Nat} : Rule ε 68 [.var a, .op (.fn .max), .var a, .op (.fn .max)] [.var a, .op (.fn .max)]
  | r70 {y x : ℝ} (h : y * x = 1) : Rule ε 70 [.imm y, .op .mul, .imm x, .op .mul] []
  | r76 : Rule ε 76 [.dup, .op .sub] [.imm 0, .op .mul]
  | r77 : Rule ε 77 [.dup, .op .rsub] [.imm 0, .op .mul]
  | r78 : Rule ε 78 [.dup, .op .div] [.imm 0, .op .mul, .imm 1, .op .add]
  | r83 {x : ℝ} (h : x = 0) : Rule ε 83 [.imm x, .op (.fn .pow)] [.imm 0, .op .mul, .imm 1, .op .add]
  | r84 : Rule ε 84 [.op .sinCos, .op (.fn .hypot)] [.imm 0, .op .mul, .imm 1, .op .add]
  | r88 {x : ℝ} {a : Nat} (h : x = 0) : Rule ε 88 [.var a, .imm x, .op .mul] [.imm x]
  | r89 {x : ℝ} {a : Op} (h : isUnary a = true) (h1 : hasInvalidRanges a = false) (h2 : x = 0) :
      Rule ε 89 [.op a, .imm x, .op .mul] [.imm x, .op .mul]
  | r90 {x : ℝ} {b : Nat} {a : Op} (h : isBinary a = true) (h1 : hasInvalidRanges a = false) (h2 : x = 0) :
      Rule ε 90 [.var b, .op a, .imm x, .op .mul] [.imm x, .op .mul]
  | r91 {x : ℝ} {a b : Op} (h : isUnary b = true) (h1 : hasInvalidRanges b = false) (h2 : isBinary a = true)
      (h3 : hasInvalidRanges a = false) (h4 : x = 0) :
      Rule ε 91 [.op b, .op a, .imm x, .op .mul] [.op a, .imm x, .op .mul]
  | r92 {y x : ℝ} {a : Op} (h : isBinary a = true) (h1 : hasInvalidRanges a = false) (h2 : x = 0) :
      Rule ε 92 [.imm y, .op a, .imm x, .op .mul] [.imm x, .op .mul]
  | r93 {x : ℝ} {a : Nat} (h : x = 0) : Rule ε 93 [.var a, .op .mul, .imm x, .op .mul] [.imm x, .op .mul]
  | r94 {x : ℝ} {c : Nat} {a b : Op} (h : isBinary b = true) (h1 : hasInvalidRanges b = false) (h2 : isBinary a = true)
      (h3 : hasInvalidRanges a = false) (h4 : x = 0) :
      Rule ε 94 [.var c, .op b, .op a, .imm x, .op .mul] [.op a, .imm x, .op .mul]
  | r95 {x : ℝ} {a b c : Op} (h : isUnary c = true) (h1 : hasInvalidRanges c = false) (h2 : isBinary b = true)
      (h3 : hasInvalidRanges b = false) (h4 : isBinary a = true) (h5 : hasInvalidRanges a = false) (h6 : x = 0) :
      Rule ε 95 [.op c, .op b, .op a, .imm x, .op .mul] [.op b, .op a, .imm x, .op .mul]
  | r96 {y x : ℝ} {a b : Op} (h : isBinary b = true) (h1 : hasInvalidRanges b = false) (h2 : isBinary a = true)
      (h3 : hasInvalidRanges a = false) (h4 : x = 0) :
      Rule ε 96 [.imm y, .op b, .op a, .imm x, .op .mul] [.op a, .imm x, .op .mul]
  | r100 {x : ℝ} : Rule ε 100 [.imm x, .op .neg] [.imm (-x)]
  | r101 {x : ℝ} (h : x ≠ 0) : Rule ε 101 [.imm x, .op .inv] [.imm (1 / x)]
  | r102 {y x : ℝ} : Rule ε 102 [.imm y, .imm x, .op .mul] [.imm (y * x)]
  | r103 {y x : ℝ} (h : x ≠ 0) : Rule ε 103 [.imm y, .imm x, .op .div] [.imm (y / x)]
  | r104 {y x : ℝ} (h : x ≠ 0) : Rule ε 104 [.imm y, .imm x, .op .mod] [.imm (fpMod y x)]
  | r105 {y x : ℝ} : Rule ε 105 [.imm y, .imm x, .op .add] [.imm (y + x)]
  | r106 {y x : ℝ} : Rule ε 106 [.imm y, .imm x, .op .sub] [.imm (y - x)]
  | r107 {x : ℝ} : Rule ε 107 [.imm x, .op .not] [.imm (ofBool (!fpTruth x))]
  | r111 {y x : ℝ} : Rule ε 111 [.imm y, .imm x, .op .less] [.imm (ofBool (decide (y < x - ε)))]
  | r112 {y x : ℝ} : Rule ε 112 [.imm y, .imm x, .op .lessOrEq] [.imm (ofBool (decide (y ≤ x + ε)))]
  | r113 {y x : ℝ} : Rule ε 113 [.imm y, .imm x, .op .greater] [.imm (ofBool (decide (x < y - ε)))]
  | r114 {y x : ℝ} : Rule ε 114 [.imm y, .imm x, .op .greaterOrEq] [.imm (ofBool (decide (x ≤ y + ε)))]
  | r115 {y x : ℝ} : Rule ε 115 [.imm y, .imm x, .op .equal] [.imm (ofBool (decide (|y - x| ≤ ε)))]
  | r116 {y x : ℝ} : Rule ε 116 [.imm y, .imm x, .op .nequal] [.imm (ofBool (decide (|y - x| > ε)))]
  | r117 {y x : ℝ} : Rule ε 117 [.imm y, .imm x, .op .and] [.imm (ofBool (fpTruth x && fpTruth y))]
  | r118 {y x : ℝ} : Rule ε 118 [.imm y, .imm x, .op .or] [.imm (ofBool (fpTruth x || fpTruth y))]
  | r122 {x : ℝ} : Rule ε 122 [.op .neg, .imm x, .op .mul] [.imm (-x), .op .mul]
  | r123 {x : ℝ} : Rule ε 123 [.imm x, .op .mul, .op .neg] [.imm (-x), .op .mul]
  | r124 {x : ℝ} (h : x = -1) : Rule ε 124 [.imm x, .op .mul] [.op .neg]
  | r125 {x : ℝ} (h : x ≠ 0) : Rule ε 125 [.op .neg, .imm x, .op .div] [.imm (-x), .op .div]
  | r127 {y x : ℝ} : Rule ε 127 [.imm y, .op .add, .imm x, .op .add] [.imm (y + x), .op .add]
  | r128 {y x : ℝ} : Rule ε 128 [.imm y, .op .mul, .imm x, .op .mul] [.imm (y * x), .op .mul]
  | r132 {x : ℝ} : Rule ε 132 [.imm x, .op (.fn .abs)] [.imm |x|]
  | r133 {x : ℝ} : Rule ε 133 [.imm x, .op .deg] [.imm (x * (180 / Real.pi))]
  | r134 {x : ℝ} : Rule ε 134 [.imm x, .op .rad] [.imm (x * (Real.pi / 180))]
  | r135 {x : ℝ} : Rule ε 135 [.imm x, .op (.fn .ceil)] [.imm ⌈x⌉]
  | r136 {x : ℝ} : Rule ε 136 [.imm x, .op (.fn .floor)] [.imm ⌊x⌋]
  | r137 {x : ℝ} : Rule ε 137 [.imm x, .op (.fn .int)] [.imm (fpInt x)]
  | r138 {x : ℝ} : Rule ε 138 [.imm x, .op (.fn .trunc)] [.imm (fpTrunc x)]
  | r139 {y x : ℝ} : Rule ε 139 [.imm y, .imm x, .op (.fn .atan2)] [.imm (Complex.arg ⟨x, y⟩)]
  | r140 {y x : ℝ} : Rule ε 140 [.imm y, .imm x, .op (.fn .min)] [.imm (if x < y then x else y)]
  | r141 {y x : ℝ} : Rule ε 141 [.imm y, .imm x, .op (.fn .max)] [.imm (if x > y then x else y)]
  | r145 {x : ℝ} (h : x ≥ 1) : Rule ε 145 [.imm x, .op (.fn .acosh)] [.imm (Real.arcosh x)]
  | r146 {x : ℝ} : Rule ε 146 [.imm x, .op (.fn .asinh)] [.imm (Real.arsinh x)]
  | r147 {x : ℝ} (h : |x| < 1) : Rule ε 147 [.imm x, .op (.fn .atanh)] [.imm (Real.artanh x)]
  | r148 {x : ℝ} (h : |x| ≤ 1) : Rule ε 148 [.imm x, .op (.fn .acos)] [.imm (Real.arccos x)]
  | r149 {x : ℝ} (h : |x| ≤ 1) : Rule ε 149 [.imm x, .op (.fn .asin)] [.imm (Real.arcsin x)]
  | r150 {x : ℝ} : Rule ε 150 [.imm x, .op (.fn .atan)] [.imm (Real.arctan x)]
  | r151 {x : ℝ} : Rule ε 151 [.imm x, .op (.fn .cbrt)] [.imm (fpCbrt x)]
  | r152 {x : ℝ} : Rule ε 152 [.imm x, .op (.fn .cos)] [.imm (Real.cos x)]
  | r153 {x : ℝ} : Rule ε 153 [.imm x, .op (.fn .cosh)] [.imm (Real.cosh x)]
  | r154 {x : ℝ} : Rule ε 154 [.imm x, .op (.fn .exp)] [.imm (Real.exp x)]
  | r155 {x : ℝ} : Rule ε 155 [.imm x, .op (.fn .exp2)] [.imm (2 ^ x)]
  | r156 {x : ℝ} (h : x > 0) : Rule ε 156 [.imm x, .op (.fn .log)] [.imm (Real.log x)]
  | r157 {x : ℝ} (h : x > 0) : Rule ε 157 [.imm x, .op (.fn .log10)] [.imm (Real.log x * (1 / Real.log 10))]
  | r158 {x : ℝ} (h : x > 0) : Rule ε 158 [.imm x, .op (.fn .log2)] [.imm (Real.log x * (1 / Real.log 2))]
  | r159 {x : ℝ} : Rule ε 159 [.imm x, .op (.fn .sin)] [.imm (Real.sin x)]
  | r160 {x : ℝ} : Rule ε 160 [.imm x, .op (.fn .sinh)] [.imm (Real.sinh x)]
  | r161 {x : ℝ} (h : x ≥ 0) : Rule ε 161 [.imm x, .op (.fn .sqrt)] [.imm (Real.sqrt x)]
  | r163 {x : ℝ} : Rule ε 163 [.imm x, .op (.fn .tan)] [.imm (Real.tan x)]
  | r164 {x : ℝ} : Rule ε 164 [.imm x, .op (.fn .tanh)] [.imm (Real.tanh x)]
  | r165 {y x v : ℝ} (h : y ≠ 0 ∨ x ≥ 0) (h1 : ∀ w, fpPow y x = some w → w = v) :
      Rule ε 165 [.imm y, .imm x, .op (.fn .pow)] [.imm v]
  | r198 {x : ℝ} (h : x = 2) : Rule ε 198 [.imm x, .op .mul] [.dup, .op .add]
  | r199 : Rule ε 199 [.op .neg, .op .add] [.op .sub]
  | r200 : Rule ε 200 [.op .neg, .op .sub] [.op .add]
  | r201 : Rule ε 201 [.op .neg, .op (.fn .abs)] [.op (.fn .abs)]
  | r202 : Rule ε 202 [.dup, .op .mul] [.op .sqr]
  | r203 : Rule ε 203 [.op .neg, .op .sqr] [.op .sqr]
  | r204 : Rule ε 204 [.op (.fn .abs), .op .sqr] [.op .sqr]
  | r206 : Rule ε 206 [.op (.fn .sqrt), .op .inv] [.op .rsqrt]
  | r207 {x : ℝ} (h : x = 180 / Real.pi) : Rule ε 207 [.imm x, .op .mul] [.op .deg]
  | r208 {x : ℝ} (h : x = Real.pi / 180) : Rule ε 208 [.imm x, .op .mul] [.op .rad]
  | r209 {x : ℝ} : Rule ε 209 [.op .deg, .imm x, .op .mul] [.imm (x * (180 / Real.pi)), .op .mul]
  | r210 {x : ℝ} : Rule ε 210 [.op .rad, .imm x, .op .mul] [.imm (x * (Real.pi / 180)), .op .mul]
  | r211 {x : ℝ} : Rule ε 211 [.imm x, .op .mul, .op .rad] [.imm (x * (Real.pi / 180)), .op .mul]
  | r213 : Rule ε 213 [.op .inv, .op .div] [.op .mul]
  | r214 : Rule ε 214 [.op .inv, .op .mul] [.op .div]
  | r216 : Rule ε 216 [.op .less, .op .not] [.op .greaterOrEq]
  | r217 : Rule ε 217 [.op .lessOrEq, .op .not] [.op .greater]
  | r218 : Rule ε 218 [.op .greater, .op .not] [.op .lessOrEq]
  | r219 : Rule ε 219 [.op .greaterOrEq, .op .not] [.op .less]
  | r220 : Rule ε 220 [.op .equal, .op .not] [.op .nequal]
  | r221 : Rule ε 221 [.op .nequal, .op .not] [.op .equal]
  | r223 : Rule ε 223 [.dup, .op .or] [.op .notNot]
  | r224 : Rule ε 224 [.dup, .op .and] [.op .notNot]
  | r226 : Rule ε 226 [.op .neg, .op .not] [.op .not]
  | r227 : Rule ε 227 [.op (.fn .abs), .op .not] [.op .not]
  | r229 : Rule ε 229 [.op .not, .op .not] [.op .notNot]
  | r230 : Rule ε 230 [.op .notNot, .op .not] [.op .not]
  | r231 : Rule ε 231 [.op .absNotNot, .op .not] [.op .absNot]
  | r232 : Rule ε 232 [.op .not, .op .notNot] [.op .not]
  | r235 : Rule ε 235 [.op (.fn .abs), .op (.fn .cos)] [.op (.fn .cos)]
  | r236 : Rule ε 236 [.op (.fn .abs), .op (.fn .cosh)] [.op (.fn .cosh)]
  | r238 : Rule ε 238 [.op .neg, .op (.fn .cos)] [.op (.fn .cos)]
  | r239 : Rule ε 239 [.op .neg, .op (.fn .cosh)] [.op (.fn .cosh)]
  | r240 : Rule ε 240 [.op .neg, .op (.fn .sin)] [.op (.fn .sin), .op .neg]
  | r241 : Rule ε 241 [.op .neg, .op (.fn .sinh)] [.op (.fn .sinh), .op .neg]
  | r242 : Rule ε 242 [.op .neg, .op (.fn .tan)] [.op (.fn .tan), .op .neg]
  | r243 : Rule ε 243 [.op .neg, .op (.fn .tanh)] [.op (.fn .tanh), .op .neg]
  | r244 {x : ℝ} : Rule ε 244 [.imm x, .op .mul, .op (.fn .sin), .op .neg] [.imm (-x), .op .mul, .op (.fn .sin)]
  | r245 {x : ℝ} : Rule ε 245 [.imm x, .op .mul, .op (.fn .sinh), .op .neg] [.imm (-x), .op .mul, .op (.fn .sinh)]
  | r246 {x : ℝ} : Rule ε 246 [.imm x, .op .mul, .op (.fn .tan), .op .neg] [.imm (-x), .op .mul, .op (.fn .tan)]
  | r247 {x : ℝ} : Rule ε 247 [.imm x, .op .mul, .op (.fn .tanh), .op .neg] [.imm (-x), .op .mul, .op (.fn .tanh)]
  | r249 : Rule ε 249 [.op (.fn .sin), .op .div] [.op (.fn .csc), .op .mul]
  | r250 : Rule ε 250 [.op (.fn .cos), .op .div] [.op (.fn .sec), .op .mul]
  | r251 : Rule ε 251 [.op (.fn .tan), .op .div] [.op (.fn .cot), .op .mul]
  | r252 : Rule ε 252 [.op (.fn .csc), .op .div] [.op (.fn .sin), .op .mul]
  | r253 : Rule ε 253 [.op (.fn .sec), .op .div] [.op (.fn .cos), .op .mul]
  | r254 : Rule ε 254 [.op (.fn .cot), .op .div] [.op (.fn .tan), .op .mul]
  | r255 : Rule ε 255 [.op (.fn .sin), .op .inv] [.op (.fn .csc)]
  | r256 : Rule ε 256 [.op (.fn .cos), .op .inv] [.op (.fn .sec)]
  | r257 : Rule ε 257 [.op (.fn .tan), .op .inv] [.op (.fn .cot)]
  | r258 : Rule ε 258 [.op (.fn .csc), .op .inv] [.op (.fn .sin)]
  | r259 : Rule ε 259 [.op (.fn .sec), .op .inv] [.op (.fn .cos)]
  | r260 : Rule ε 260 [.op (.fn .cot), .op .inv] [.op (.fn .tan)]
  | r265 {a b : Nat} : Rule ε 265 [.var b, .op .rdiv, .var a, .op .div] [.var a, .op .mul, .var b, .op .rdiv]
  | r266 {x : ℝ} {a : Nat} : Rule ε 266 [.imm x, .op .rdiv, .var a, .op .div] [.var a, .op .mul, .imm x, .op .rdiv]
  | r267 {x : ℝ} {a : Nat} : Rule ε 267 [.imm x, .op .rdiv, .var a, .op .mul] [.var a, .imm x, .op .mul, .op .rdiv]
  | r268 {x : ℝ} (h : x = 1) : Rule ε 268 [.imm x, .op .rdiv] [.op .inv]
  | r271 {a b : Nat} : Rule ε 271 [.var b, .op .div, .var a, .op .div] [.var b, .var a, .op .mul, .op .div]
  | r274 {a b : Nat} : Rule ε 274 [.var b, .op .div, .var a, .op .mul] [.var a, .op .mul, .var b, .op .div]
  | r277 {y x : ℝ} {b : Nat} : Rule ε 277 [.imm y, .var b, .op .div, .imm x, .op .mul] [.imm (y * x), .var b, .op .div]
  | r278 {y x : ℝ} {b : Nat} :
      Rule ε 278 [.imm y, .op .mul, .var b, .op .div, .imm x, .op .mul] [.imm (y * x), .op .mul, .var b, .op .div]
  | r279 {x : ℝ} {b : Nat} : Rule ε 279 [.op .neg, .var b, .op .div, .imm x, .op .mul] [.imm (-x), .op .mul, .var b, .op .div]
  | r281 {a : Nat} : Rule ε 281 [.op .rdiv, .var a, .op .mul] [.var a, .op .mul, .op .rdiv]
  | r284 {y x : ℝ} : Rule ε 284 [.imm y, .op .rdiv, .imm x, .op .mul] [.imm (y * x), .op .rdiv]
  | r285 {y x : ℝ} : Rule ε 285 [.imm y, .op .mul, .op .rdiv, .imm x, .op .mul] [.imm (y * x), .op .mul, .op .rdiv]
  | r286 {x : ℝ} : Rule ε 286 [.op .neg, .op .rdiv, .imm x, .op .mul] [.imm (-x), .op .mul, .op .rdiv]
  | r289 {x : ℝ} {a : Nat} : Rule ε 289 [.imm x, .op .rsub, .var a, .op .sub] [.var a, .op .add, .imm x, .op .rsub]
  | r290 {x : ℝ} {a : Nat} : Rule ε 290 [.imm x, .op .rsub, .var a, .op .add] [.var a, .imm x, .op .add, .op .rsub]
  | r291 {y x : ℝ} {b : Nat} : Rule ε 291 [.imm y, .var b, .op .sub, .imm x, .op .add] [.imm (y + x), .var b, .op .sub]
  | r292 {y x : ℝ} {b : Nat} :
      Rule ε 292 [.imm y, .op .add, .var b, .op .sub, .imm x, .op .add] [.imm (y + x), .op .add, .var b, .op .sub]
  | r293 {x : ℝ} {b : Nat} : Rule ε 293 [.op .neg, .var b, .op .sub, .imm x, .op .add] [.imm (-x), .op .add, .var b, .op .sub]
  | r295 {a : Nat} : Rule ε 295 [.op .rsub, .var a, .op .add] [.var a, .op .add, .op .rsub]
  | r296 {a : Nat} : Rule ε 296 [.op .rsub, .var a, .op .sub] [.var a, .op .sub, .op .rsub]
  | r297 {y x : ℝ} : Rule ε 297 [.imm y, .op .rsub, .imm x, .op .add] [.imm (y + x), .op .rsub]
  | r298 {y x : ℝ} : Rule ε 298 [.imm y, .op .add, .op .rsub, .imm x, .op .add] [.imm (y + x), .op .add, .op .rsub]
  | r299 {x : ℝ} : Rule ε 299 [.op .neg, .op .rsub, .imm x, .op .add] [.imm (-x), .op .add, .op .rsub]
  | r301 {x : ℝ} {a : Op} (h : neverNegative a = true) (h1 : x = 0) :
      Rule ε 301 [.op a, .imm x, .op .less] [.op a, .imm x, .op .mul]
  | r303 : Rule ε 303 [.op .sqr, .op (.fn .log)] [.op (.fn .abs), .op (.fn .log), .dup, .op .add]
  | r304 : Rule ε 304 [.op .sqr, .op (.fn .log2)] [.op (.fn .abs), .op (.fn .log2), .dup, .op .add]
  | r305 : Rule ε 305 [.op .sqr, .op (.fn .log10)] [.op (.fn .abs), .op (.fn .log10), .dup, .op .add]
  | r307 {y x : ℝ} (h : y * x = 180 / Real.pi) : Rule ε 307 [.imm y, .op .mul, .imm x, .op .mul] [.op .deg]
  | r308 {y x : ℝ} (h : y * x = Real.pi / 180) : Rule ε 308 [.imm y, .op .mul, .imm x, .op .mul] [.op .rad]
  | r310 : Rule ε 310 [.dup, .op .add, .dup, .op .add] [.imm 4, .op .mul]
  | r311 : Rule ε 311 [.dup, .op .add, .op .mul, .dup, .op .add] [.op .mul, .imm 4, .op .mul]
  | r313 {x : ℝ} : Rule ε 313 [.dup, .imm x, .op .mul, .op .add] [.imm (x + 1), .op .mul]
  | r314 {x : ℝ} : Rule ε 314 [.dup, .imm x, .op (.fn .pow), .op .mul] [.imm (x + 1), .op (.fn .pow)]
  | r316 {x : ℝ} (h : x + x = 1) : Rule ε 316 [.dup, .op .add, .imm x, .op .mul] []
  | r317 {x : ℝ} : Rule ε 317 [.dup, .op .add, .imm x, .op .mul] [.imm (x + x), .op .mul]
  | r318 {x : ℝ} (h : x + x = 1) : Rule ε 318 [.dup, .op .add, .op .mul, .imm x, .op .mul] [.op .mul]
  | r319 {x : ℝ} : Rule ε 319 [.dup, .op .add, .op .mul, .imm x, .op .mul] [.op .mul, .imm (x + x), .op .mul]
  | r321 {y x : ℝ} (h : y / x = 180 / Real.pi) (h1 : x ≠ 0) : Rule ε 321 [.imm y, .op .mul, .imm x, .op .div] [.op .deg]
  | r322 {y x : ℝ} (h : y / x = Real.pi / 180) (h1 : x ≠ 0) : Rule ε 322 [.imm y, .op .mul, .imm x, .op .div] [.op .rad]
  | r323 {y x : ℝ} (h : x ≠ 0) : Rule ε 323 [.imm y, .op .mul, .imm x, .op .div] [.imm (y / x), .op .mul]
  | r325 {x : ℝ} (h : x ≠ 0) : Rule ε 325 [.imm x, .op .div] [.imm (1 / x), .op .mul]
  | r330 {y x : ℝ} (h : ¬ (IsEvenInt ε y ∧ ¬ IsEvenInt ε (x * y))) (h1 : ¬ (IsInt ε x ∧ ¬ IsInt ε y)) :
      Rule ε 330 [.imm y, .op (.fn .pow), .imm x, .op (.fn .pow)] [.imm (y * x), .op (.fn .pow)]
  | r332 {x : ℝ} (h : x = 1 / 2) : Rule ε 332 [.imm x, .op (.fn .pow)] [.op (.fn .sqrt)]
  | r333 {x : ℝ} (h : x = 1 / 3) : Rule ε 333 [.imm x, .op (.fn .pow)] [.op (.fn .cbrt)]
  | r334 {x : ℝ} (h : x = 1 / (-3)) : Rule ε 334 [.imm x, .op (.fn .pow)] [.op (.fn .cbrt), .op .inv]
  | r335 {x : ℝ} (h : x = -1 / 2) : Rule ε 335 [.imm x, .op (.fn .pow)] [.op .rsqrt]
  | r336 {x : ℝ} (h : x = -1) : Rule ε 336 [.imm x, .op (.fn .pow)] [.op .inv]
  | r338 {a : Op} (h : neverNegative a = true) : Rule ε 338 [.op a, .op (.fn .sqrt), .op .sqr] [.op a]
  | r340 {a : Op} (h : neverNegative a = true) : Rule ε 340 [.op a, .op (.fn .log), .op (.fn .exp)] [.op a]
  | r341 {a : Op} (h : neverNegative a = true) : Rule ε 341 [.op a, .op (.fn .log2), .op (.fn .exp2)] [.op a]
  | r343 : Rule ε 343 [.op (.fn .exp), .op (.fn .log)] []
  | r344 : Rule ε 344 [.op (.fn .exp2), .op (.fn .log2)] []
  | r349 : Rule ε 349 [.op (.fn .asinh), .op (.fn .sinh)] []
  | r354 : Rule ε 354 [.op (.fn .atan2), .op (.fn .tan)] [.op .div]
  | r355 : Rule ε 355 [.op (.fn .pow), .op .inv] [.op .neg, .op (.fn .pow)]
  | r359 {x : ℝ} (h : x = 0) : Rule ε 359 [.op (.fn .abs), .imm x, .op .equal] [.imm x, .op .equal]
  | r360 {x : ℝ} (h : x = 0) : Rule ε 360 [.op (.fn .abs), .imm x, .op .nequal] [.imm x, .op .nequal]
  | r361 {x : ℝ} (h : x = 0) : Rule ε 361 [.op .sqr, .imm x, .op .equal] [.imm x, .op .equal]
  | r362 {x : ℝ} (h : x = 0) : Rule ε 362 [.op .sqr, .imm x, .op .nequal] [.imm x, .op .nequal]
  | r364 {y x : ℝ} {a : Op} (h : isComparison a = true) : Rule ε 364 [.imm y, .op .add, .imm x, .op a] [.imm (x - y), .op a]
  | r365 {x : ℝ} {a : Op} (h : isComparison a = true) :
      Rule ε 365 [.op .neg, .imm x, .op a] [.imm (-x), .op (oppositeComparison a)]
  | r366 {y x : ℝ} {a : Op} (h : y > 0) (h1 : isComparison a = true) :
      Rule ε 366 [.imm y, .op .mul, .imm x, .op a] [.imm (x / y), .op a]
  | r367 {y x : ℝ} {a : Op} (h : y < 0) (h1 : isComparison a = true) :
      Rule ε 367 [.imm y, .op .mul, .imm x, .op a] [.imm (x / y), .op (oppositeComparison a)]
  | r368 {y x : ℝ} {a : Op} (h : y > 0) (h1 : x > 0) (h2 : isComparison a = true) :
      Rule ε 368 [.imm y, .op (.fn .pow), .imm x, .op a] [.imm (x ^ (1 / y)), .op a]
  | r369 {x : ℝ} {a : Op} (h : x > 0) (h1 : isComparison a = true) :
      Rule ε 369 [.op .sqr, .imm x, .op a] [.op (.fn .abs), .imm (Real.sqrt x), .op a]
  | r370 {x : ℝ} {a : Op} (h : x > 0) (h1 : isComparison a = true) :
      Rule ε 370 [.op (.fn .exp), .imm x, .op a] [.imm (Real.log x), .op a]
  | r371 {x : ℝ} {a : Op} (h : x > 0) (h1 : isComparison a = true) :
      Rule ε 371 [.op (.fn .exp2), .imm x, .op a] [.imm (Real.log x * (1 / Real.log 2)), .op a]
  | r373 {x : ℝ} {a b : Op} (h : neverNegative b = true) (h1 : isComparison a = true) :
      Rule ε 373 [.op b, .op (.fn .log), .imm x, .op a] [.op b, .imm (Real.exp x), .op a]
  | r374 {x : ℝ} {a b : Op} (h : neverNegative b = true) (h1 : isComparison a = true) :
      Rule ε 374 [.op b, .op (.fn .log2), .imm x, .op a] [.op b, .imm (2 ^ x), .op a]
  | r375 {x : ℝ} {a b : Op} (h : neverNegative b = true) (h1 : isComparison a = true) :
      Rule ε 375 [.op b, .op (.fn .log10), .imm x, .op a] [.op b, .imm (10 ^ x), .op a]
  | r380 {x : ℝ} {a : Op} (h : |x| < Real.pi * (1 / 2)) (h1 : isComparison a = true) :
      Rule ε 380 [.op (.fn .atan), .imm x, .op a] [.imm (Real.tan x), .op a]
  | r381 {x : ℝ} {a : Op} (h : isComparison a = true) :
      Rule ε 381 [.op (.fn .sinh), .imm x, .op a] [.imm (Real.arsinh x), .op a]
  | r382 {x : ℝ} {a : Op} (h : |x| < 1) (h1 : isComparison a = true) :
      Rule ε 382 [.op (.fn .tanh), .imm x, .op a] [.imm (Real.artanh x), .op a]
  | r385 {y x : ℝ} : Rule ε 385 [.imm y, .op .add, .imm x, .op .mul] [.imm x, .op .mul, .imm (y * x), .op .add]
  | r386 {y x : ℝ} {a : Nat} :
      Rule ε 386 [.var a, .imm y, .op .mul, .op .add, .imm x, .op .mul]
        [.imm x, .op .mul, .var a, .imm (y * x), .op .mul, .op .add]
  | r387 {y x : ℝ} {a : Nat} :
      Rule ε 387 [.var a, .imm y, .op .mul, .op .sub, .imm x, .op .mul]
        [.imm x, .op .mul, .var a, .imm (y * x), .op .mul, .op .sub]
  | r389 {a : Op} (h : isLogical a = true) : Rule ε 389 [.op a, .op .absNot, .op .not] [.op a]
  | r390 {a : Instr} : Rule ε 390 [a, .op .absNot, .op .not] [a, .op .absNotNot]
  | r391 {a : Op} (h : neverNegative a = true) : Rule ε 391 [.op a, .op .not] [.op a, .op .absNot]
  | r393 {a : Op} (h : neverNegative a = true) : Rule ε 393 [.op a, .op (.fn .abs)] [.op a]
  | r394 {a : Op} (h : isAlwaysInteger a = true) : Rule ε 394 [.op a, .op (.fn .trunc)] [.op a]
  | r395 {a : Op} (h : isAlwaysInteger a = true) : Rule ε 395 [.op a, .op (.fn .floor)] [.op a]
  | r396 {a : Op} (h : isAlwaysInteger a = true) : Rule ε 396 [.op a, .op (.fn .ceil)] [.op a]
  | r397 {a : Op} (h : isAlwaysInteger a = true) : Rule ε 397 [.op a, .op (.fn .int)] [.op a]
  | r401 : Rule ε 401 [.op .neg, .op (.fn .floor)] [.op (.fn .ceil), .op .neg]
  | r402 : Rule ε 402 [.op .neg, .op (.fn .ceil)] [.op (.fn .floor), .op .neg]
  | r404 {x : ℝ} : Rule ε 404 [.imm x, .op .add, .op (.fn .exp)] [.op (.fn .exp), .imm (Real.exp x), .op .mul]
  | r405 {x : ℝ} : Rule ε 405 [.imm x, .op .add, .op (.fn .exp2)] [.op (.fn .exp2), .imm (2 ^ x), .op .mul]
  | r407 : Rule ε 407 [.op (.fn .pow), .op .div] [.op .neg, .op (.fn .pow), .op .mul]
  | r408 : Rule ε 408 [.op (.fn .exp), .op .div] [.op .neg, .op (.fn .exp), .op .mul]
  | r409 : Rule ε 409 [.op (.fn .exp2), .op .div] [.op .neg, .op (.fn .exp2), .op .mul]
  | r426 {x : ℝ} (h : x ≠ 0) : Rule ε 426 [.op (.fn .abs), .imm x, .op .less] [.imm ((1 / 2) / x), .op .mul, .op .not]
  | r427 {x : ℝ} (h : x ≠ 0) : Rule ε 427 [.op (.fn .abs), .imm x, .op .greaterOrEq] [.imm ((1 / 2) / x), .op .mul, .op .notNot]
  | r429 {x : ℝ} (h : x = 1 / 2) : Rule ε 429 [.imm x, .op .less] [.op .absNot]
  | r430 {x : ℝ} (h : x = 1 / 2) : Rule ε 430 [.imm x, .op .greaterOrEq] [.op .absNotNot]
  | r431 {x : ℝ} (h : x = -1 / 2) : Rule ε 431 [.imm x, .op .greater] [.op .neg, .op .absNot]
  | r432 {x : ℝ} (h : x = -1 / 2) : Rule ε 432 [.imm x, .op .lessOrEq] [.op .neg, .op .absNotNot]
  | r434 {x : ℝ} (h : IsEvenInt ε x) : Rule ε 434 [.op (.fn .abs), .imm x, .op (.fn .pow)] [.imm x, .op (.fn .pow)]
  | r435 {x : ℝ} (h : IsEvenInt ε x) :
      Rule ε 435 [.op (.fn .abs), .op .mul, .imm x, .op (.fn .pow)] [.op .mul, .imm x, .op (.fn .pow)]
  | r437 : Rule ε 437 [.op (.fn .acosh), .op (.fn .sinh)] [.op .sqr, .imm (-1), .op .add, .op (.fn .sqrt)]
  | r450 : Rule ε 450 [.op (.fn .asinh), .op (.fn .cosh)] [.op .sqr, .imm 1, .op .add, .op (.fn .sqrt)]
  | r455 {x : ℝ} {count : Nat} {k : Int} (h : powiSearch 4 0 x = some (count, k)) :
      Rule ε 455 [.imm x, .op (.fn .pow)] (powiCode count k)
  | r456 {x : ℝ} {a : Op} (h : neverNegative a = true) (h1 : powiSearch 4 0 x = none) :
      Rule ε 456 [.op a, .imm x, .op (.fn .pow)] [.op a, .op (.fn .log), .imm x, .op .mul, .op (.fn .exp)]
  | r458 {a : Nat} : Rule ε 458 [.var a, .var a, .op .mul] [.var a, .op .sqr]
  | r461 {a : Nat} : Rule ε 461 [.var a, .op .mul, .var a, .op .mul] [.var a, .op .sqr, .op .mul]
  | r464 {a : Nat} : Rule ε 464 [.var a, .op .neg, .var a, .op .mul] [.var a, .op .sqr, .op .neg]
  | r467 : Rule ε 467 [.dup, .op .neg, .op .mul] [.op .sqr, .op .neg]
  | r470 {a : Nat} : Rule ε 470 [.var a, .op .neg, .op .mul, .var a, .op .mul] [.var a, .op .sqr, .op .mul, .op .neg]
  | r473 {a : Nat} : Rule ε 473 [.var a, .op .mul, .var a, .op .neg, .op .mul] [.var a, .op .sqr, .op .mul, .op .neg]
  | r475 {a : Nat} : Rule ε 475 [.var a, .var a] [.var a, .dup]
  | r476 {b : Nat} {a : Op} (h : isUnary a = true) : Rule ε 476 [.var b, .op a, .var b, .op a] [.var b, .op a, .dup]
  | r477 {b : Nat} {a : Op} (h : isUnary a = true) :
      Rule ε 477 [.var b, .op a, .op .mul, .var b, .op a, .op .mul] [.var b, .op a, .op .sqr, .op .mul]
  | r479 : Rule ε 479 [.op (.fn .exp2)] [.imm (Real.log 2), .op .mul, .op (.fn .exp)]
  | r480 : Rule ε 480 [.op (.fn .exp), .op (.fn .log2)] [.imm (Real.log (Real.exp 1) * (1 / Real.log 2)), .op .mul]
  | r481 : Rule ε 481 [.op (.fn .exp), .op (.fn .log10)] [.imm (Real.log (Real.exp 1) * (1 / Real.log 10)), .op .mul]
  | r490 {x : ℝ} (h : x > 0) :
      Rule ε 490 [.imm x, .op .mul, .op (.fn .log2)] [.op (.fn .log2), .imm (Real.log x * (1 / Real.log 2)), .op .add]
  | r491 {x : ℝ} (h : x > 0) : Rule ε 491 [.imm x, .op .mul, .op (.fn .log)] [.op (.fn .log), .imm (Real.log x), .op .add]
  | r492 {x : ℝ} (h : x > 0) :
      Rule ε 492 [.imm x, .op .mul, .op (.fn .log10)] [.op (.fn .log10), .imm (Real.log x * (1 / Real.log 10)), .op .add]
  | r494 {a : Nat} : Rule ε 494 [.var a, .op (.fn .sin), .var a, .op (.fn .cos)] [.var a, .op .sinCos]
  | r495 {a : Nat} : Rule ε 495 [.var a, .op (.fn .sin), .var a, .op (.fn .sec)] [.var a, .op .sinCos, .op .inv]
  | r496 {a : Nat} : Rule ε 496 [.var a, .op (.fn .sin), .var a, .op (.fn .csc)] [.var a, .op (.fn .sin), .dup, .op .inv]
  | r497 {a : Nat} : Rule ε 497 [.var a, .op (.fn .cos), .var a, .op (.fn .sec)] [.var a, .op (.fn .cos), .dup, .op .inv]
  | r498 {a : Nat} : Rule ε 498 [.var a, .op (.fn .tan), .var a, .op (.fn .cot)] [.var a, .op (.fn .tan), .dup, .op .inv]
  | r499 {a : Nat} : Rule ε 499 [.var a, .op (.fn .csc), .var a, .op (.fn .sin)] [.var a, .op (.fn .csc), .dup, .op .inv]
  | r500 {a : Nat} : Rule ε 500 [.var a, .op (.fn .sec), .var a, .op (.fn .cos)] [.var a, .op (.fn .sec), .dup, .op .inv]
  | r501 {a : Nat} : Rule ε 501 [.var a, .op (.fn .cot), .var a, .op (.fn .tan)] [.var a, .op (.fn .cot), .dup, .op .inv]
  | r502 : Rule ε 502 [.op .sinCos, .op .div] [.op (.fn .tan)]
  | r503 : Rule ε 503 [.op .sinCos, .op .rdiv] [.op (.fn .cot)]
  | r505 {a : Nat} {c : Op} (h : isSwappable c = true) :
      Rule ε 505 [.var a, .op (.fn .cos), .var a, .op (.fn .sin), .op c] [.var a, .op .sinCos, .op (paramSwapped c)]
  | r506 {a : Nat} {c : Op} (h : isSwappable c = true) :
      Rule ε 506 [.var a, .op (.fn .cosh), .var a, .op (.fn .sinh), .op c] [.var a, .op .sinhCosh, .op (paramSwapped c)]
  | r507 {a : Nat} : Rule ε 507 [.var a, .op (.fn .sinh), .var a, .op (.fn .cosh)] [.var a, .op .sinhCosh]
  | r508 {a : Nat} : Rule ε 508 [.var a, .op (.fn .cos), .var a, .op (.fn .csc), .op .mul] [.var a, .op (.fn .cot)]
  | r509 : Rule ε 509 [.op .sinhCosh, .op .div] [.op (.fn .tanh)]
  | r510 : Rule ε 510 [.op .sinhCosh, .op .rdiv] [.op (.fn .tanh), .op .inv]
  | r512 {a : Nat} : Rule ε 512 [.op .sqr, .var a, .op .sqr, .op .add, .op (.fn .sqrt)] [.var a, .op (.fn .hypot)]
  | r513 {a : Nat} {b : Op} (h : isUnary b = true) :
      Rule ε 513 [.op .sqr, .var a, .op b, .op .sqr, .op .add, .op (.fn .sqrt)] [.var a, .op b, .op (.fn .hypot)]

/-- One application of a rule whose number satisfies a condition, anywhere in the code. -/
inductive Step (ε : ℝ) (P : Nat → Prop) : List Instr → List Instr → Prop where
  | step {n : Nat} {l r before after : List Instr} (hn : P n) (h : Rule ε n l r) :
      Step ε P (before ++ (l ++ after)) (before ++ (r ++ after))

/-- Any number of applications. -/
inductive Steps (ε : ℝ) (P : Nat → Prop) : List Instr → List Instr → Prop where
  | refl (c : List Instr) : Steps ε P c c
  | tail {c₁ c₂ c₃ : List Instr} (h : Steps ε P c₁ c₂) (h' : Step ε P c₂ c₃) : Steps ε P c₁ c₃

end

end Hnco.FParser
