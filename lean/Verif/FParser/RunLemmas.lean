import Verif.FParser.Rules
import Verif.FParser.EmitExpr
import Verif.FParser.CodeProps

/-!
# The code, opcode by opcode

How the execution of a code proceeds, according to its first instruction.
-/

namespace Hnco.FParser

noncomputable section

/-- Whatever the first code computes, the second computes. -/
def Refines (ε : ℝ) (l r : List Instr) : Prop :=
  ∀ vals st st', runCode ε vals l st = some st' → runCode ε vals r st = some st'

/-- Where a power has a value. -/
def PowDef (x y : ℝ) : Prop := 0 < x ∨ (x = 0 ∧ 0 ≤ y) ∨ (x < 0 ∧ ∃ n : ℤ, y = n)

open Classical in
theorem evalFn2_pow (x y : ℝ) : evalFn2 .pow x y = if PowDef x y then some (x ^ y) else none := by
  rw [evalPow, power]
  split
  · next h => rw [if_pos (show PowDef x y from Or.inl h)]
  split
  · next h h0 =>
    subst h0
    split
    · next hy => rw [if_pos (show PowDef 0 y from Or.inr (Or.inl ⟨rfl, hy.ge⟩)), hy, Real.rpow_zero]
    · next hy =>
      by_cases hp : 0 < y
      · rw [if_pos (show PowDef 0 y from Or.inr (Or.inl ⟨rfl, hp.le⟩)), Real.zero_rpow hy]; simp [when, hp]
      · rw [if_neg]
        · simp [when, hp]
        · rintro (h1 | h1 | h1)
          · exact absurd h1 (lt_irrefl 0)
          · exact hy (le_antisymm (not_lt.mp hp) h1.2)
          · exact absurd h1.1 (lt_irrefl 0)
  · next h h0 =>
    have hx : x < 0 := lt_of_le_of_ne (not_lt.mp h) h0
    split
    · next hn =>
      rw [if_pos (show PowDef x y from Or.inr (Or.inr ⟨hx, hn⟩))]
      conv_rhs => rw [hn.choose_spec, Real.rpow_intCast]
    · next hn =>
      rw [if_neg]
      rintro (h1 | h1 | h1)
      · exact h h1
      · exact h0 h1.1
      · exact hn h1.2

section

variable (ε : ℝ) (vals : List ℝ) (c : List Instr) (t u : ℝ) (st : List ℝ)

theorem run_nil : runCode ε vals [] st = some st := by simp [runCode]

theorem run_imm : runCode ε vals (.imm t :: c) st = runCode ε vals c (t :: st) := by simp [runCode, runInstr]

theorem run_var (a : Nat) :
    runCode ε vals (.var a :: c) st = (vals[a]?).bind fun v => runCode ε vals c (v :: st) := by
  simp only [runCode, runInstr]
  cases vals[a]? <;> rfl

theorem run_dup : runCode ε vals (.dup :: c) (t :: st) = runCode ε vals c (t :: t :: st) := by simp [runCode, runInstr]

theorem run_dup_nil : runCode ε vals (.dup :: c) [] = none := by simp [runCode, runInstr]

theorem run_op (o : Op) : runCode ε vals (.op o :: c) st = (evalOp ε o st).bind (runCode ε vals c) := by simp [runCode, runInstr]

theorem evalOp_nil (o : Op) : evalOp ε o [] = none := by
  cases o <;> try rfl
  next f => cases f <;> rfl

theorem run_op_nil (o : Op) : runCode ε vals (.op o :: c) [] = none := by rw [run_op, evalOp_nil]; rfl

theorem evalOp_fn1 {f : Fn} (hf : f.params = 1) : evalOp ε (.fn f) (t :: st) = (evalFn1 f t).map (· :: st) := by
  cases f <;> first | rfl | cases hf

theorem evalOp_fn2 {f : Fn} (hf : f.params = 2) : evalOp ε (.fn f) (u :: t :: st) = (evalFn2 f t u).map (· :: st) := by
  cases f <;> first | rfl | cases hf

theorem run_sinCos :
    runCode ε vals (.op .sinCos :: c) (t :: st) = runCode ε vals c (Real.cos t :: Real.sin t :: st) := by
  simp [run_op, evalOp]

theorem run_sinhCosh :
    runCode ε vals (.op .sinhCosh :: c) (t :: st) = runCode ε vals c (Real.cosh t :: Real.sinh t :: st) := by
  simp [run_op, evalOp]

theorem run_neg : runCode ε vals (.op .neg :: c) (t :: st) =
    runCode ε vals c ((-t) :: st) := by
  simp [run_op, evalOp]

theorem run_not : runCode ε vals (.op .not :: c) (t :: st) =
    runCode ε vals c (ofBool (!fpTruth t) :: st) := by
  simp [run_op, evalOp]

theorem run_notNot : runCode ε vals (.op .notNot :: c) (t :: st) =
    runCode ε vals c (ofBool (fpTruth t) :: st) := by
  simp [run_op, evalOp]

theorem run_deg : runCode ε vals (.op .deg :: c) (t :: st) =
    runCode ε vals c (t * (180 / Real.pi) :: st) := by
  simp [run_op, evalOp]

theorem run_rad : runCode ε vals (.op .rad :: c) (t :: st) =
    runCode ε vals c (t * (Real.pi / 180) :: st) := by
  simp [run_op, evalOp]

theorem run_absNot : runCode ε vals (.op .absNot :: c) (t :: st) =
    runCode ε vals c (ofBool (!fpAbsTruth t) :: st) := by
  simp [run_op, evalOp]

theorem run_absNotNot : runCode ε vals (.op .absNotNot :: c) (t :: st) =
    runCode ε vals c (ofBool (fpAbsTruth t) :: st) := by
  simp [run_op, evalOp]

open Classical in
theorem run_inv : runCode ε vals (.op .inv :: c) (t :: st) =
    if t ≠ 0 then runCode ε vals c (1 / t :: st) else none := by
  rw [run_op, evalOp]
  by_cases h : t ≠ 0
  · rw [if_neg h, if_pos h]; rfl
  · rw [if_pos (not_not.mp h), if_neg h]; rfl

theorem run_sqr : runCode ε vals (.op .sqr :: c) (t :: st) =
    runCode ε vals c (t * t :: st) := by
  simp [run_op, evalOp]

open Classical in
theorem run_rsqrt : runCode ε vals (.op .rsqrt :: c) (t :: st) =
    if 0 < t then runCode ε vals c (1 / Real.sqrt t :: st) else none := by
  rw [run_op, evalOp]
  by_cases h : 0 < t
  · rw [if_neg (not_le.mpr h), if_pos h]; rfl
  · rw [if_pos (not_lt.mp h), if_neg h]; rfl

theorem run_abs : runCode ε vals (.op (.fn .abs) :: c) (t :: st) =
    runCode ε vals c (|t| :: st) := by
  simp [run_op, evalOp_fn1 _ _ _ (show Fn.params .abs = 1 from rfl), evalFn1]

open Classical in
theorem run_acos : runCode ε vals (.op (.fn .acos) :: c) (t :: st) =
    if |t| ≤ 1 then runCode ε vals c (Real.arccos t :: st) else none := by
  rw [run_op, evalOp_fn1 _ _ _ rfl]
  by_cases h : |t| ≤ 1
  · simp only [evalFn1]; rw [if_neg (by rw [abs_le] at h; push Not; exact h), if_pos h]; rfl
  · simp only [evalFn1]; rw [if_pos (by rw [abs_le] at h; by_contra h1; push Not at h1; exact h h1), if_neg h]; rfl

open Classical in
theorem run_acosh : runCode ε vals (.op (.fn .acosh) :: c) (t :: st) =
    if 1 ≤ t then runCode ε vals c (Real.arcosh t :: st) else none := by
  rw [run_op, evalOp_fn1 _ _ _ rfl]
  by_cases h : 1 ≤ t
  · simp only [evalFn1]; rw [if_neg (not_lt.mpr h), if_pos h]; rfl
  · simp only [evalFn1]; rw [if_pos (not_le.mp h), if_neg h]; rfl

open Classical in
theorem run_asin : runCode ε vals (.op (.fn .asin) :: c) (t :: st) =
    if |t| ≤ 1 then runCode ε vals c (Real.arcsin t :: st) else none := by
  rw [run_op, evalOp_fn1 _ _ _ rfl]
  by_cases h : |t| ≤ 1
  · simp only [evalFn1]; rw [if_neg (by rw [abs_le] at h; push Not; exact h), if_pos h]; rfl
  · simp only [evalFn1]; rw [if_pos (by rw [abs_le] at h; by_contra h1; push Not at h1; exact h h1), if_neg h]; rfl

theorem run_asinh : runCode ε vals (.op (.fn .asinh) :: c) (t :: st) =
    runCode ε vals c (Real.arsinh t :: st) := by
  simp [run_op, evalOp_fn1 _ _ _ (show Fn.params .asinh = 1 from rfl), evalFn1]

theorem run_atan : runCode ε vals (.op (.fn .atan) :: c) (t :: st) =
    runCode ε vals c (Real.arctan t :: st) := by
  simp [run_op, evalOp_fn1 _ _ _ (show Fn.params .atan = 1 from rfl), evalFn1]

open Classical in
theorem run_atanh : runCode ε vals (.op (.fn .atanh) :: c) (t :: st) =
    if |t| < 1 then runCode ε vals c (Real.artanh t :: st) else none := by
  rw [run_op, evalOp_fn1 _ _ _ rfl]
  by_cases h : |t| < 1
  · simp only [evalFn1]; rw [if_neg (by rw [abs_lt] at h; push Not; exact h), if_pos h]; rfl
  · simp only [evalFn1]; rw [if_pos (by rw [abs_lt] at h; by_contra h1; push Not at h1; exact h h1), if_neg h]; rfl

theorem run_cbrt : runCode ε vals (.op (.fn .cbrt) :: c) (t :: st) =
    runCode ε vals c (fpCbrt t :: st) := by
  simp [run_op, evalOp_fn1 _ _ _ (show Fn.params .cbrt = 1 from rfl), evalFn1]

theorem run_ceil : runCode ε vals (.op (.fn .ceil) :: c) (t :: st) =
    runCode ε vals c ((⌈t⌉ : ℝ) :: st) := by
  simp [run_op, evalOp_fn1 _ _ _ (show Fn.params .ceil = 1 from rfl), evalFn1]

theorem run_cos : runCode ε vals (.op (.fn .cos) :: c) (t :: st) =
    runCode ε vals c (Real.cos t :: st) := by
  simp [run_op, evalOp_fn1 _ _ _ (show Fn.params .cos = 1 from rfl), evalFn1]

theorem run_cosh : runCode ε vals (.op (.fn .cosh) :: c) (t :: st) =
    runCode ε vals c (Real.cosh t :: st) := by
  simp [run_op, evalOp_fn1 _ _ _ (show Fn.params .cosh = 1 from rfl), evalFn1]

open Classical in
theorem run_cot : runCode ε vals (.op (.fn .cot) :: c) (t :: st) =
    if Real.sin t ≠ 0 then runCode ε vals c (Real.cos t / Real.sin t :: st) else none := by
  rw [run_op, evalOp_fn1 _ _ _ rfl]
  by_cases h : Real.sin t ≠ 0
  · simp only [evalFn1]; rw [if_neg h, if_pos h]; rfl
  · simp only [evalFn1]; rw [if_pos (not_not.mp h), if_neg h]; rfl

open Classical in
theorem run_csc : runCode ε vals (.op (.fn .csc) :: c) (t :: st) =
    if Real.sin t ≠ 0 then runCode ε vals c (1 / Real.sin t :: st) else none := by
  rw [run_op, evalOp_fn1 _ _ _ rfl]
  by_cases h : Real.sin t ≠ 0
  · simp only [evalFn1]; rw [if_neg h, if_pos h]; rfl
  · simp only [evalFn1]; rw [if_pos (not_not.mp h), if_neg h]; rfl

theorem run_exp : runCode ε vals (.op (.fn .exp) :: c) (t :: st) =
    runCode ε vals c (Real.exp t :: st) := by
  simp [run_op, evalOp_fn1 _ _ _ (show Fn.params .exp = 1 from rfl), evalFn1]

theorem run_exp2 : runCode ε vals (.op (.fn .exp2) :: c) (t :: st) =
    runCode ε vals c ((2 : ℝ) ^ t :: st) := by
  simp [run_op, evalOp_fn1 _ _ _ (show Fn.params .exp2 = 1 from rfl), evalFn1, fpExp2_eq]

theorem run_floor : runCode ε vals (.op (.fn .floor) :: c) (t :: st) =
    runCode ε vals c ((⌊t⌋ : ℝ) :: st) := by
  simp [run_op, evalOp_fn1 _ _ _ (show Fn.params .floor = 1 from rfl), evalFn1]

theorem run_int : runCode ε vals (.op (.fn .int) :: c) (t :: st) =
    runCode ε vals c (fpInt t :: st) := by
  simp [run_op, evalOp_fn1 _ _ _ (show Fn.params .int = 1 from rfl), evalFn1]

open Classical in
theorem run_log : runCode ε vals (.op (.fn .log) :: c) (t :: st) =
    if 0 < t then runCode ε vals c (Real.log t :: st) else none := by
  rw [run_op, evalOp_fn1 _ _ _ rfl]
  by_cases h : 0 < t
  · simp only [evalFn1]; rw [if_neg (not_not.mpr h), if_pos h]; rfl
  · simp only [evalFn1]; rw [if_pos h, if_neg h]; rfl

open Classical in
theorem run_log10 : runCode ε vals (.op (.fn .log10) :: c) (t :: st) =
    if 0 < t then runCode ε vals c (Real.log t * (1 / Real.log 10) :: st) else none := by
  rw [run_op, evalOp_fn1 _ _ _ rfl]
  by_cases h : 0 < t
  · simp only [evalFn1]; rw [if_neg (not_not.mpr h), if_pos h]; rfl
  · simp only [evalFn1]; rw [if_pos h, if_neg h]; rfl

open Classical in
theorem run_log2 : runCode ε vals (.op (.fn .log2) :: c) (t :: st) =
    if 0 < t then runCode ε vals c (Real.log t * (1 / Real.log 2) :: st) else none := by
  rw [run_op, evalOp_fn1 _ _ _ rfl]
  by_cases h : 0 < t
  · simp only [evalFn1]; rw [if_neg (not_not.mpr h), if_pos h]; rfl
  · simp only [evalFn1]; rw [if_pos h, if_neg h]; rfl

open Classical in
theorem run_sec : runCode ε vals (.op (.fn .sec) :: c) (t :: st) =
    if Real.cos t ≠ 0 then runCode ε vals c (1 / Real.cos t :: st) else none := by
  rw [run_op, evalOp_fn1 _ _ _ rfl]
  by_cases h : Real.cos t ≠ 0
  · simp only [evalFn1]; rw [if_neg h, if_pos h]; rfl
  · simp only [evalFn1]; rw [if_pos (not_not.mp h), if_neg h]; rfl

theorem run_sin : runCode ε vals (.op (.fn .sin) :: c) (t :: st) =
    runCode ε vals c (Real.sin t :: st) := by
  simp [run_op, evalOp_fn1 _ _ _ (show Fn.params .sin = 1 from rfl), evalFn1]

theorem run_sinh : runCode ε vals (.op (.fn .sinh) :: c) (t :: st) =
    runCode ε vals c (Real.sinh t :: st) := by
  simp [run_op, evalOp_fn1 _ _ _ (show Fn.params .sinh = 1 from rfl), evalFn1]

open Classical in
theorem run_sqrt : runCode ε vals (.op (.fn .sqrt) :: c) (t :: st) =
    if 0 ≤ t then runCode ε vals c (Real.sqrt t :: st) else none := by
  rw [run_op, evalOp_fn1 _ _ _ rfl]
  by_cases h : 0 ≤ t
  · simp only [evalFn1]; rw [if_neg (not_lt.mpr h), if_pos h]; rfl
  · simp only [evalFn1]; rw [if_pos (not_le.mp h), if_neg h]; rfl

open Classical in
theorem run_tan : runCode ε vals (.op (.fn .tan) :: c) (t :: st) =
    if Real.cos t ≠ 0 then runCode ε vals c (Real.tan t :: st) else none := by
  rw [run_op, evalOp_fn1 _ _ _ rfl]
  by_cases h : Real.cos t ≠ 0
  · simp only [evalFn1]; rw [if_neg h, if_pos h]; rfl
  · simp only [evalFn1]; rw [if_pos (not_not.mp h), if_neg h]; rfl

theorem run_tanh : runCode ε vals (.op (.fn .tanh) :: c) (t :: st) =
    runCode ε vals c (Real.tanh t :: st) := by
  simp [run_op, evalOp_fn1 _ _ _ (show Fn.params .tanh = 1 from rfl), evalFn1]

theorem run_trunc : runCode ε vals (.op (.fn .trunc) :: c) (t :: st) =
    runCode ε vals c (fpTrunc t :: st) := by
  simp [run_op, evalOp_fn1 _ _ _ (show Fn.params .trunc = 1 from rfl), evalFn1]

theorem run_add : runCode ε vals (.op .add :: c) (u :: t :: st) =
    runCode ε vals c ((t + u) :: st) := by
  simp [run_op, evalOp]

theorem run_add_one : runCode ε vals (.op .add :: c) [t] = none := by
  rw [run_op]; rfl

theorem run_sub : runCode ε vals (.op .sub :: c) (u :: t :: st) =
    runCode ε vals c ((t - u) :: st) := by
  simp [run_op, evalOp]

theorem run_sub_one : runCode ε vals (.op .sub :: c) [t] = none := by
  rw [run_op]; rfl

theorem run_mul : runCode ε vals (.op .mul :: c) (u :: t :: st) =
    runCode ε vals c ((t * u) :: st) := by
  simp [run_op, evalOp]

theorem run_mul_one : runCode ε vals (.op .mul :: c) [t] = none := by
  rw [run_op]; rfl

open Classical in
theorem run_div : runCode ε vals (.op .div :: c) (u :: t :: st) =
    if u ≠ 0 then runCode ε vals c ((t / u) :: st) else none := by
  rw [run_op, evalOp]
  by_cases h : u ≠ 0
  · rw [if_neg h, if_pos h]; rfl
  · rw [if_pos (not_not.mp h), if_neg h]; rfl

theorem run_div_one : runCode ε vals (.op .div :: c) [t] = none := by
  rw [run_op]; rfl

open Classical in
theorem run_mod : runCode ε vals (.op .mod :: c) (u :: t :: st) =
    if u ≠ 0 then runCode ε vals c ((fpMod t u) :: st) else none := by
  rw [run_op, evalOp]
  by_cases h : u ≠ 0
  · rw [if_neg h, if_pos h]; rfl
  · rw [if_pos (not_not.mp h), if_neg h]; rfl

theorem run_mod_one : runCode ε vals (.op .mod :: c) [t] = none := by
  rw [run_op]; rfl

theorem run_equal : runCode ε vals (.op .equal :: c) (u :: t :: st) =
    runCode ε vals c ((ofBool (decide (|t - u| ≤ ε))) :: st) := by
  simp [run_op, evalOp]

theorem run_equal_one : runCode ε vals (.op .equal :: c) [t] = none := by
  rw [run_op]; rfl

theorem run_nequal : runCode ε vals (.op .nequal :: c) (u :: t :: st) =
    runCode ε vals c ((ofBool (decide (|t - u| > ε))) :: st) := by
  simp [run_op, evalOp]

theorem run_nequal_one : runCode ε vals (.op .nequal :: c) [t] = none := by
  rw [run_op]; rfl

theorem run_less : runCode ε vals (.op .less :: c) (u :: t :: st) =
    runCode ε vals c ((ofBool (decide (t < u - ε))) :: st) := by
  simp [run_op, evalOp]

theorem run_less_one : runCode ε vals (.op .less :: c) [t] = none := by
  rw [run_op]; rfl

theorem run_lessOrEq : runCode ε vals (.op .lessOrEq :: c) (u :: t :: st) =
    runCode ε vals c ((ofBool (decide (t ≤ u + ε))) :: st) := by
  simp [run_op, evalOp]

theorem run_lessOrEq_one : runCode ε vals (.op .lessOrEq :: c) [t] = none := by
  rw [run_op]; rfl

theorem run_greater : runCode ε vals (.op .greater :: c) (u :: t :: st) =
    runCode ε vals c ((ofBool (decide (u < t - ε))) :: st) := by
  simp [run_op, evalOp]

theorem run_greater_one : runCode ε vals (.op .greater :: c) [t] = none := by
  rw [run_op]; rfl

theorem run_greaterOrEq : runCode ε vals (.op .greaterOrEq :: c) (u :: t :: st) =
    runCode ε vals c ((ofBool (decide (u ≤ t + ε))) :: st) := by
  simp [run_op, evalOp]

theorem run_greaterOrEq_one : runCode ε vals (.op .greaterOrEq :: c) [t] = none := by
  rw [run_op]; rfl

theorem run_and : runCode ε vals (.op .and :: c) (u :: t :: st) =
    runCode ε vals c ((ofBool (fpTruth t && fpTruth u)) :: st) := by
  simp [run_op, evalOp]

theorem run_and_one : runCode ε vals (.op .and :: c) [t] = none := by
  rw [run_op]; rfl

theorem run_or : runCode ε vals (.op .or :: c) (u :: t :: st) =
    runCode ε vals c ((ofBool (fpTruth t || fpTruth u)) :: st) := by
  simp [run_op, evalOp]

theorem run_or_one : runCode ε vals (.op .or :: c) [t] = none := by
  rw [run_op]; rfl

theorem run_absAnd : runCode ε vals (.op .absAnd :: c) (u :: t :: st) =
    runCode ε vals c ((ofBool (fpAbsTruth t && fpAbsTruth u)) :: st) := by
  simp [run_op, evalOp]

theorem run_absAnd_one : runCode ε vals (.op .absAnd :: c) [t] = none := by
  rw [run_op]; rfl

theorem run_absOr : runCode ε vals (.op .absOr :: c) (u :: t :: st) =
    runCode ε vals c ((ofBool (fpAbsTruth t || fpAbsTruth u)) :: st) := by
  simp [run_op, evalOp]

theorem run_absOr_one : runCode ε vals (.op .absOr :: c) [t] = none := by
  rw [run_op]; rfl

open Classical in
theorem run_rdiv : runCode ε vals (.op .rdiv :: c) (u :: t :: st) =
    if t ≠ 0 then runCode ε vals c ((u / t) :: st) else none := by
  rw [run_op, evalOp]
  by_cases h : t ≠ 0
  · rw [if_neg h, if_pos h]; rfl
  · rw [if_pos (not_not.mp h), if_neg h]; rfl

theorem run_rdiv_one : runCode ε vals (.op .rdiv :: c) [t] = none := by
  rw [run_op]; rfl

theorem run_rsub : runCode ε vals (.op .rsub :: c) (u :: t :: st) =
    runCode ε vals c ((u - t) :: st) := by
  simp [run_op, evalOp]

theorem run_rsub_one : runCode ε vals (.op .rsub :: c) [t] = none := by
  rw [run_op]; rfl

theorem run_atan2 : runCode ε vals (.op (.fn .atan2) :: c) (u :: t :: st) =
    runCode ε vals c ((Complex.arg ⟨u, t⟩) :: st) := by
  rw [run_op, evalOp_fn2 _ _ _ _ rfl]
  simp [evalFn2]

theorem run_atan2_one : runCode ε vals (.op (.fn .atan2) :: c) [t] = none := by
  rw [run_op]; rfl

theorem run_hypot : runCode ε vals (.op (.fn .hypot) :: c) (u :: t :: st) =
    runCode ε vals c ((Real.sqrt (t * t + u * u)) :: st) := by
  rw [run_op, evalOp_fn2 _ _ _ _ rfl]
  simp [evalFn2]

theorem run_hypot_one : runCode ε vals (.op (.fn .hypot) :: c) [t] = none := by
  rw [run_op]; rfl

theorem run_max : runCode ε vals (.op (.fn .max) :: c) (u :: t :: st) =
    runCode ε vals c ((if t > u then t else u) :: st) := by
  rw [run_op, evalOp_fn2 _ _ _ _ rfl]
  simp [evalFn2]

theorem run_max_one : runCode ε vals (.op (.fn .max) :: c) [t] = none := by
  rw [run_op]; rfl

theorem run_min : runCode ε vals (.op (.fn .min) :: c) (u :: t :: st) =
    runCode ε vals c ((if t < u then t else u) :: st) := by
  rw [run_op, evalOp_fn2 _ _ _ _ rfl]
  simp [evalFn2]

theorem run_min_one : runCode ε vals (.op (.fn .min) :: c) [t] = none := by
  rw [run_op]; rfl

open Classical in
theorem run_pow : runCode ε vals (.op (.fn .pow) :: c) (u :: t :: st) =
    if PowDef t u then runCode ε vals c ((t ^ u) :: st) else none := by
  rw [run_op, evalOp_fn2 _ _ _ _ rfl]
  simp only [evalFn2_pow]
  split <;> rfl

theorem run_pow_one : runCode ε vals (.op (.fn .pow) :: c) [t] = none := by
  rw [run_op]; rfl

end

end

end Hnco.FParser
