import Verif.FParser.RunLemmas

/-!
# The rules are right, one by one
-/

namespace Hnco.FParser

noncomputable section

theorem fpTruth_ofBool (b : Bool) : fpTruth (ofBool b) = b := by cases b <;> norm_num [fpTruth, ofBool]

theorem fpAbsTruth_ofBool (b : Bool) : fpAbsTruth (ofBool b) = b := by cases b <;> norm_num [fpAbsTruth, ofBool]

theorem half_not_int (n : ℤ) : (n : ℝ) ≠ 1 / 2 := by
  intro h
  have : (2 * n : ℝ) = 1 := by linarith
  have : 2 * n = 1 := by exact_mod_cast this
  omega

theorem third_not_int (n : ℤ) : (n : ℝ) ≠ 1 / 3 := by
  intro h
  have : (3 * n : ℝ) = 1 := by linarith
  have : 3 * n = 1 := by exact_mod_cast this
  omega

theorem powDef_nonneg {x y : ℝ} (h : PowDef x y) (hy : ¬ ∃ n : ℤ, (n : ℝ) = y) : 0 ≤ x := by
  rcases h with h | h | ⟨_, n, h⟩
  · exact h.le
  · exact h.1.ge
  · exact absurd ⟨n, h.symm⟩ hy

theorem powDef_neg {x y : ℝ} (h : PowDef x y) (h0 : x ^ y ≠ 0) : PowDef x (-y) := by
  rcases h with h | ⟨h, h1⟩ | ⟨h, n, h1⟩
  · exact Or.inl h
  · refine Or.inr (Or.inl ⟨h, ?_⟩)
    subst h
    have : y = 0 := by
      by_contra hy
      exact h0 (Real.zero_rpow hy)
    simp [this]
  · exact Or.inr (Or.inr ⟨h, -n, by rw [h1]; push_cast; ring⟩)

theorem rpow_neg_of_powDef {x y : ℝ} (h : PowDef x y) : x ^ (-y) = (x ^ y)⁻¹ := by
  rcases h with h | ⟨h, _⟩ | ⟨_, n, h1⟩
  · exact Real.rpow_neg h.le y
  · exact Real.rpow_neg h.ge y
  · rw [h1, show -(n : ℝ) = ((-n : ℤ) : ℝ) by push_cast; ring, Real.rpow_intCast, Real.rpow_intCast, zpow_neg]

theorem even_of_isEvenInt {x : ℝ} (h : IsEvenInt 0 x) : ∃ n : ℤ, x = ((2 * n : ℤ) : ℝ) := by
  unfold IsEvenInt at h
  have := abs_nonpos_iff.mp h
  exact ⟨⌊x * (1 / 2)⌋, by push_cast; linarith⟩

theorem isEvenInt_even (n : ℤ) : IsEvenInt 0 ((2 * n : ℤ) : ℝ) := by
  unfold IsEvenInt
  have : ((2 * n : ℤ) : ℝ) * (1 / 2) = n := by push_cast; ring
  rw [this]; simp

theorem int_of_isInt {x : ℝ} (h : IsInt 0 x) : ∃ n : ℤ, x = n := by
  unfold IsInt at h
  have := abs_nonpos_iff.mp h
  exact ⟨⌊x⌋, by linarith⟩

theorem isInt_int {ε : ℝ} (hε : 0 ≤ ε) (n : ℤ) : IsInt ε (n : ℝ) := by
  unfold IsInt; simpa using hε

theorem abs_rpow_even (x : ℝ) (n : ℤ) : |x| ^ ((2 * n : ℤ) : ℝ) = x ^ ((2 * n : ℤ) : ℝ) := by
  rw [Real.rpow_intCast, Real.rpow_intCast]
  exact Even.zpow_abs (even_two_mul n) x

theorem powDef_of_abs_even {x : ℝ} {n : ℤ} (h : PowDef |x| n) : PowDef x n := by
  rcases lt_trichotomy x 0 with h0 | h0 | h0
  · exact Or.inr (Or.inr ⟨h0, n, rfl⟩)
  · subst h0; simpa using h
  · exact Or.inl h0

/-- A power of a power. -/
theorem powpow {t y x : ℝ} (g1 : PowDef t y) (g2 : PowDef (t ^ y) x)
    (h : t < 0 → (∃ m : ℤ, x = m) ∨ ∃ k : ℤ, y * x = ((2 * k : ℤ) : ℝ)) :
    PowDef t (y * x) ∧ t ^ (y * x) = (t ^ y) ^ x := by
  rcases g1 with h0 | ⟨h0, h1⟩ | ⟨h0, n, h1⟩
  · exact ⟨Or.inl h0, Real.rpow_mul h0.le y x⟩
  · refine ⟨Or.inr (Or.inl ⟨h0, ?_⟩), Real.rpow_mul h0.ge y x⟩
    rcases h1.lt_or_eq with h2 | h2
    · rw [h0, Real.zero_rpow h2.ne'] at g2
      rcases g2 with h3 | ⟨_, h3⟩ | ⟨h3, _⟩
      · exact absurd h3 (lt_irrefl 0)
      · exact mul_nonneg h1 h3
      · exact absurd h3 (lt_irrefl 0)
    · rw [← h2, zero_mul]
  · have hint : (∃ m : ℤ, x = m) → PowDef t (y * x) ∧ t ^ (y * x) = (t ^ y) ^ x := by
      rintro ⟨m, rfl⟩
      subst h1
      refine ⟨Or.inr (Or.inr ⟨h0, n * m, by push_cast; ring⟩), ?_⟩
      rw [show (n : ℝ) * m = ((n * m : ℤ) : ℝ) by push_cast; ring, Real.rpow_intCast, Real.rpow_intCast, Real.rpow_intCast,
        zpow_mul]
    rcases h h0 with h2 | ⟨k, h2⟩
    · exact hint h2
    · rcases g2 with h3 | ⟨h3, _⟩ | ⟨_, h3⟩
      · refine ⟨Or.inr (Or.inr ⟨h0, 2 * k, h2⟩), ?_⟩
        have e : t ^ y = |t| ^ y := by
          rw [h1, Real.rpow_intCast] at h3 ⊢
          rw [Real.rpow_intCast, ← abs_zpow, abs_of_pos h3]
        rw [e, ← Real.rpow_mul (abs_nonneg t), h2, abs_rpow_even]
      · rw [h1, Real.rpow_intCast] at h3
        exact absurd h3 (zpow_ne_zero n h0.ne)
      · exact hint h3

theorem abs_mul_self_rpow (t x : ℝ) : (t * t) ^ x = |t| ^ (x + x) := by
  rw [← abs_mul_abs_self t, show |t| * |t| = |t| ^ (2 : ℝ) by rw [Real.rpow_two, pow_two], ← Real.rpow_mul (abs_nonneg t)]
  congr 1
  ring

/-! ## Classes of opcodes -/

theorem unary_run {ε : ℝ} {a : Op} (h : isUnary a = true) (t : ℝ) :
    (∀ st, evalOp ε a (t :: st) = none) ∨ ∃ v, ∀ st, evalOp ε a (t :: st) = some (v :: st) := by
  match a, h with
  | .fn f, h =>
    have hf : f.params = 1 := by simpa [isUnary] using h
    cases hv : evalFn1 f t with
    | none => exact Or.inl fun st => by rw [evalOp_fn1 _ _ _ hf, hv]; rfl
    | some v => exact Or.inr ⟨v, fun st => by rw [evalOp_fn1 _ _ _ hf, hv]; rfl⟩
  | .inv, _ =>
    by_cases h0 : t = 0
    · exact Or.inl fun st => by simp [evalOp, h0]
    · exact Or.inr ⟨_, fun st => by rw [evalOp, if_neg h0]⟩
  | .rsqrt, _ =>
    by_cases h0 : t ≤ 0
    · exact Or.inl fun st => by simp [evalOp, h0]
    · exact Or.inr ⟨_, fun st => by rw [evalOp, if_neg h0]⟩
  | .neg, _ | .not, _ | .absNot, _ | .notNot, _ | .absNotNot, _ | .sqr, _ | .deg, _ | .rad, _ => exact Or.inr ⟨_, fun _ => rfl⟩

theorem binary_run {ε : ℝ} {a : Op} (h : isBinary a = true) (t u : ℝ) :
    (∀ st, evalOp ε a (u :: t :: st) = none) ∨ ∃ v, ∀ st, evalOp ε a (u :: t :: st) = some (v :: st) := by
  match a, h with
  | .fn f, h =>
    have hf : f.params = 2 := by simpa [isBinary] using h
    cases hv : evalFn2 f t u with
    | none => exact Or.inl fun st => by rw [evalOp_fn2 _ _ _ _ hf, hv]; rfl
    | some v => exact Or.inr ⟨v, fun st => by rw [evalOp_fn2 _ _ _ _ hf, hv]; rfl⟩
  | .div, _ | .mod, _ =>
    by_cases h0 : u = 0
    · exact Or.inl fun st => by simp [evalOp, h0]
    · exact Or.inr ⟨_, fun st => by rw [evalOp, if_neg h0]⟩
  | .rdiv, _ =>
    by_cases h0 : t = 0
    · exact Or.inl fun st => by simp [evalOp, h0]
    · exact Or.inr ⟨_, fun st => by rw [evalOp, if_neg h0]⟩
  | .add, _ | .sub, _ | .rsub, _ | .mul, _ | .equal, _ | .nequal, _ | .less, _ | .lessOrEq, _ | .greater, _ | .greaterOrEq, _
  | .and, _ | .absAnd, _ | .or, _ | .absOr, _ => exact Or.inr ⟨_, fun _ => rfl⟩

theorem binary_one {ε : ℝ} {a : Op} (h : isBinary a = true) (t : ℝ) : evalOp ε a [t] = none := by
  match a, h with
  | .fn f, h => cases f <;> first | rfl | cases h
  | .div, _ | .mod, _ | .rdiv, _ | .add, _ | .sub, _ | .rsub, _ | .mul, _ | .equal, _ | .nequal, _ | .less, _ | .lessOrEq, _
  | .greater, _ | .greaterOrEq, _ | .and, _ | .absAnd, _ | .or, _ | .absOr, _ => rfl

/-- A value is left on the stack. -/
theorem evalOp_cons {ε : ℝ} {o : Op} {st st' : List ℝ} (h : evalOp ε o st = some st') : ∃ v s, st' = v :: s := by
  match st with
  | [] => rw [evalOp_nil] at h; cases h
  | [u] =>
    by_cases hb : isBinary o = true
    · rw [binary_one hb] at h; cases h
    by_cases hu : isUnary o = true
    · rcases unary_run (ε := ε) hu u with h1 | ⟨v, h1⟩
      · rw [h1] at h; cases h
      · rw [h1] at h; cases h; exact ⟨v, _, rfl⟩
    · cases o <;> first | exact absurd rfl hb | exact absurd rfl hu | skip
      · next f => cases f <;> first | exact absurd rfl hb | exact absurd rfl hu
      all_goals (cases h; exact ⟨_, _, rfl⟩)
  | u :: t :: s =>
    by_cases hb : isBinary o = true
    · rcases binary_run (ε := ε) hb t u with h1 | ⟨v, h1⟩
      · rw [h1] at h; cases h
      · rw [h1] at h; cases h; exact ⟨v, _, rfl⟩
    by_cases hu : isUnary o = true
    · rcases unary_run (ε := ε) hu u with h1 | ⟨v, h1⟩
      · rw [h1] at h; cases h
      · rw [h1] at h; cases h; exact ⟨v, _, rfl⟩
    · cases o <;> first | exact absurd rfl hb | exact absurd rfl hu | skip
      · next f => cases f <;> first | exact absurd rfl hb | exact absurd rfl hu
      all_goals (cases h; exact ⟨_, _, rfl⟩)

theorem logical_bool {ε : ℝ} {o : Op} (ho : isLogical o = true) {st st' : List ℝ} (h : evalOp ε o st = some st') :
    ∃ b s, st' = ofBool b :: s := by
  cases o <;> first | cases ho | skip
  all_goals (rcases st with _ | ⟨u, _ | ⟨t, st⟩⟩ <;> first | (cases h; done) | (cases h; exact ⟨_, _, rfl⟩))

theorem alwaysInteger_int {ε : ℝ} {o : Op} (ho : isAlwaysInteger o = true) {st st' : List ℝ} (h : evalOp ε o st = some st') :
    ∃ (n : ℤ) (s : List ℝ), st' = (n : ℝ) :: s := by
  by_cases hl : isLogical o = true
  · obtain ⟨b, s, rfl⟩ := logical_bool hl h
    refine ⟨if b then 1 else 0, s, ?_⟩
    cases b <;> simp [ofBool]
  · cases o <;> first | exact absurd rfl hl | (cases ho; done) | skip
    next f =>
    rcases st with _ | ⟨t, st⟩
    · rw [evalOp_nil] at h; cases h
    · cases f <;> first | cases ho | skip
      all_goals (rw [evalOp_fn1 _ _ _ rfl] at h; simp only [evalFn1, Option.map_some, Option.some.injEq] at h; subst h)
      · exact ⟨_, _, rfl⟩
      · exact ⟨_, _, rfl⟩
      · unfold fpInt; split
        · exact ⟨_, _, rfl⟩
        · exact ⟨_, _, rfl⟩
      · unfold fpTrunc; split
        · exact ⟨_, _, rfl⟩
        · exact ⟨_, _, rfl⟩

/-! ## Comparisons -/

/-- Without tolerance, an increasing function may be applied to both sides of a comparison. -/
theorem cmp_mono {a : Op} (h : isComparison a = true) {p q p' q' : ℝ} (hlt : p < q ↔ p' < q') (hgt : q < p ↔ q' < p')
    (st : List ℝ) : evalOp 0 a (q :: p :: st) = evalOp 0 a (q' :: p' :: st) := by
  have heq : p = q ↔ p' = q' := by
    rw [le_antisymm_iff, le_antisymm_iff, ← not_lt, ← not_lt, ← not_lt, ← not_lt, hlt, hgt]
  cases a <;> first | cases h | skip
  · simp only [evalOp, abs_nonpos_iff, sub_eq_zero, heq]
  · simp only [evalOp, gt_iff_lt, abs_pos, ne_eq, sub_eq_zero, heq]
  · simp only [evalOp, sub_zero, hlt]
  · simp only [evalOp, add_zero, ← not_lt, hgt]
  · simp only [evalOp, sub_zero, hgt]
  · simp only [evalOp, add_zero, ← not_lt, hlt]

/-- Without tolerance, so may a decreasing function, if the comparison is reversed. -/
theorem cmp_anti {a : Op} (h : isComparison a = true) {p q p' q' : ℝ} (hlt : p < q ↔ q' < p') (hgt : q < p ↔ p' < q')
    (st : List ℝ) : evalOp 0 a (q :: p :: st) = evalOp 0 (oppositeComparison a) (q' :: p' :: st) := by
  have heq : p = q ↔ p' = q' := by
    rw [le_antisymm_iff, le_antisymm_iff, ← not_lt, ← not_lt, ← not_lt, ← not_lt, hlt, hgt, and_comm]
  cases a <;> first | cases h | skip
  · simp only [oppositeComparison, evalOp, abs_nonpos_iff, sub_eq_zero, heq]
  · simp only [oppositeComparison, evalOp, gt_iff_lt, abs_pos, ne_eq, sub_eq_zero, heq]
  · simp only [oppositeComparison, evalOp, sub_zero, hlt]
  · simp only [oppositeComparison, evalOp, add_zero, ← not_lt, hgt]
  · simp only [oppositeComparison, evalOp, sub_zero, hgt]
  · simp only [oppositeComparison, evalOp, add_zero, ← not_lt, hlt]

theorem cmp_shift {ε : ℝ} {a : Op} (h : isComparison a = true) (t x y : ℝ) (st : List ℝ) :
    evalOp ε a (x :: (t + y) :: st) = evalOp ε a ((x - y) :: t :: st) := by
  have e : t + y - x = t - (x - y) := by ring
  cases a <;> first | cases h | skip
  · simp only [evalOp, e]
  · simp only [evalOp, e]
  · simp only [evalOp, show t + y < x - ε ↔ t < x - y - ε by constructor <;> intro <;> linarith]
  · simp only [evalOp, show t + y ≤ x + ε ↔ t ≤ x - y + ε by constructor <;> intro <;> linarith]
  · simp only [evalOp, show x < t + y - ε ↔ x - y < t - ε by constructor <;> intro <;> linarith]
  · simp only [evalOp, show x ≤ t + y + ε ↔ x - y ≤ t + ε by constructor <;> intro <;> linarith]

theorem cmp_neg {ε : ℝ} {a : Op} (h : isComparison a = true) (t x : ℝ) (st : List ℝ) :
    evalOp ε a (x :: -t :: st) = evalOp ε (oppositeComparison a) (-x :: t :: st) := by
  have e : |-t - x| = |t - -x| := by rw [← abs_neg]; congr 1; ring
  cases a <;> first | cases h | skip
  · simp only [oppositeComparison, evalOp, e]
  · simp only [oppositeComparison, evalOp, e]
  · simp only [oppositeComparison, evalOp, show -t < x - ε ↔ -x < t - ε by constructor <;> intro <;> linarith]
  · simp only [oppositeComparison, evalOp, show -t ≤ x + ε ↔ -x ≤ t + ε by constructor <;> intro <;> linarith]
  · simp only [oppositeComparison, evalOp, show x < -t - ε ↔ t < -x - ε by constructor <;> intro <;> linarith]
  · simp only [oppositeComparison, evalOp, show x ≤ -t + ε ↔ t ≤ -x + ε by constructor <;> intro <;> linarith]

/-- The parameters of an opcode may be swapped. -/
theorem swapped {ε : ℝ} {c : Op} (h : isSwappable c = true) (t u : ℝ) (st : List ℝ) :
    evalOp ε c (u :: t :: st) = evalOp ε (paramSwapped c) (t :: u :: st) := by
  cases c <;> first | cases h | skip
  · next f =>
    cases f <;> first | cases h | skip
    all_goals
      simp only [paramSwapped, evalOp_fn2 _ _ _ _ (show Fn.params .hypot = 2 from rfl),
        evalOp_fn2 _ _ _ _ (show Fn.params .max = 2 from rfl), evalOp_fn2 _ _ _ _ (show Fn.params .min = 2 from rfl), evalFn2,
        Option.map_some, Option.some.injEq, List.cons.injEq, and_true]
    · rw [add_comm]
    · split_ifs <;> linarith
    · split_ifs <;> linarith
  all_goals simp only [paramSwapped, evalOp]
  · rw [add_comm]
  · rw [mul_comm]
  · rw [abs_sub_comm]
  · rw [abs_sub_comm]
  · rw [Bool.and_comm]
  · rw [Bool.or_comm]
  · rw [Bool.and_comm]
  · rw [Bool.or_comm]

/-- An opcode, then a code: the opcode has a value, or there is nothing to prove. -/
theorem op_refines {ε : ℝ} {a : Op} {l r : List Instr}
    (h : ∀ vals st st' v s, evalOp ε a st = some (v :: s) → runCode ε vals l (v :: s) = some st' →
      runCode ε vals r (v :: s) = some st') :
    Refines ε (.op a :: l) (.op a :: r) := by
  intro vals st st' H
  rw [run_op] at H ⊢
  cases ha : evalOp ε a st with
  | none => rw [ha] at H; cases H
  | some s =>
    obtain ⟨v, s, rfl⟩ := evalOp_cons ha
    rw [ha] at H
    exact h vals st st' v s ha H

theorem fpTrunc_int (n : ℤ) : fpTrunc (n : ℝ) = n := by unfold fpTrunc; split <;> simp

theorem fpInt_int (n : ℤ) : fpInt (n : ℝ) = n := by
  unfold fpInt
  split
  · have : ⌈(n : ℝ) - 1 / 2⌉ = n := by rw [Int.ceil_eq_iff]; constructor <;> norm_num
    rw [this]
  · have : ⌊(n : ℝ) + 1 / 2⌋ = n := by rw [Int.floor_eq_iff]; constructor <;> norm_num
    rw [this]

theorem isEvenInt_odd {ε : ℝ} {n : ℤ} (hn : Odd n) (h : IsEvenInt ε (n : ℝ)) : 1 / 2 ≤ ε := by
  obtain ⟨k, rfl⟩ := hn
  unfold IsEvenInt at h
  have e : ⌊((2 * k + 1 : ℤ) : ℝ) * (1 / 2)⌋ = k := by
    rw [Int.floor_eq_iff]; push_cast; constructor <;> linarith
  rw [e] at h
  have : ((2 * k + 1 : ℤ) : ℝ) * (1 / 2) - k = 1 / 2 := by push_cast; ring
  rw [this, abs_of_pos (by norm_num)] at h
  exact h

theorem isEvenInt_of_half {ε : ℝ} (hε : 1 / 2 ≤ ε) (n : ℤ) : IsEvenInt ε (n : ℝ) := by
  unfold IsEvenInt
  rcases Int.even_or_odd n with ⟨k, rfl⟩ | ⟨k, rfl⟩
  · have e : ((k + k : ℤ) : ℝ) * (1 / 2) = k := by push_cast; ring
    rw [e, Int.floor_intCast, sub_self, abs_zero]
    linarith
  · have e : ⌊((2 * k + 1 : ℤ) : ℝ) * (1 / 2)⌋ = k := by
      rw [Int.floor_eq_iff]; push_cast; constructor <;> linarith
    have : ((2 * k + 1 : ℤ) : ℝ) * (1 / 2) - k = 1 / 2 := by push_cast; ring
    rw [e, this, abs_of_pos (by norm_num)]
    exact hε

/-- The execution of the code in the goal. -/
macro "run_code" : tactic => `(tactic| simp only [
    run_nil, run_imm, run_var, run_dup, run_dup_nil, run_op_nil, run_sinCos, run_sinhCosh, run_neg, run_not, 
    run_notNot, run_deg, run_rad, run_absNot, run_absNotNot, run_inv, run_sqr, run_rsqrt, run_abs, run_acos, 
    run_acosh, run_asin, run_asinh, run_atan, run_atanh, run_cbrt, run_ceil, run_cos, run_cosh, run_cot, run_csc, 
    run_exp, run_exp2, run_floor, run_int, run_log, run_log10, run_log2, run_sec, run_sin, run_sinh, run_sqrt, 
    run_tan, run_tanh, run_trunc, run_add, run_add_one, run_sub, run_sub_one, run_mul, run_mul_one, run_div, 
    run_div_one, run_mod, run_mod_one, run_equal, run_equal_one, run_nequal, run_nequal_one, run_less, 
    run_less_one, run_lessOrEq, run_lessOrEq_one, run_greater, run_greater_one, run_greaterOrEq, 
    run_greaterOrEq_one, run_and, run_and_one, run_or, run_or_one, run_absAnd, run_absAnd_one, run_absOr, 
    run_absOr_one, run_rdiv, run_rdiv_one, run_rsub, run_rsub_one, run_atan2, run_atan2_one, run_hypot, 
    run_hypot_one, run_max, run_max_one, run_min, run_min_one, run_pow, run_pow_one, Option.bind_some, 
    Option.bind_none, ite_self, Option.some.injEq, reduceCtorEq, false_and, and_false, 
    Option.ite_none_right_eq_some, Option.ite_none_right_eq_some])

/-- The conditions under which an opcode has a value. -/
macro "rule_guard" : tactic => `(tactic| first | assumption | (simp_all; done) | positivity | (field_simp; simp_all; done))

/-- The equality of two values. -/
macro "rule_value" : tactic => `(tactic|
  first | rfl | (congr 1; ring; done) | (congr 1; field_simp; done) | (congr 1; field_simp; ring; done) | (simp; done))

theorem sound_21 {y x : ℝ} (h : IsEvenInt ε y ∧ ¬ IsEvenInt ε (x * y)) :
    Refines ε [.imm y, .op (.fn .pow), .imm x, .op (.fn .pow)] [.op (.fn .abs), .imm (y * x), .op (.fn .pow)] := by
  intro vals st st'
  rcases st with _ | ⟨t, st⟩
  · run_code; simp
  run_code
  rintro ⟨g1, g2, rfl⟩
  have h0 : PowDef |t| (y * x) ∧ |t| ^ (y * x) = (t ^ y) ^ x := by
    rcases g1 with h2 | ⟨h2, h3⟩ | ⟨h2, n, h3⟩
    · rw [abs_of_pos h2]
      exact powpow (Or.inl h2) g2 (fun h => absurd h h2.not_gt)
    · subst h2
      rw [abs_zero]
      exact powpow (Or.inr (Or.inl ⟨rfl, h3⟩)) g2 (fun h => absurd h (lt_irrefl 0))
    · subst h3
      refine ⟨Or.inl (abs_pos.mpr h2.ne), ?_⟩
      rcases Int.even_or_odd n with he | ho
      · obtain ⟨k, rfl⟩ := he.two_dvd
        rw [Real.rpow_mul (abs_nonneg t), abs_rpow_even]
      · rw [Real.rpow_intCast] at g2
        rcases g2 with h4 | ⟨h4, _⟩ | ⟨_, m, rfl⟩
        · exact absurd h4 (ho.zpow_neg h2).not_gt
        · exact absurd h4 (zpow_ne_zero n h2.ne)
        · exact absurd (isEvenInt_of_half (isEvenInt_odd ho h.1) (m * n)) (by push_cast; exact h.2)
  exact ⟨h0.1, by rw [h0.2]⟩

theorem sound_22 {x : ℝ} (h : ¬ IsEvenInt ε (x + x)) :
    Refines ε [.op .sqr, .imm x, .op (.fn .pow)] [.op (.fn .abs), .imm (x + x), .op (.fn .pow)] := by
  intro vals st st'
  rcases st with _ | ⟨t, st⟩
  · run_code; simp
  run_code
  rintro ⟨g1, rfl⟩
  refine ⟨?_, by rw [abs_mul_self_rpow]⟩
  by_cases ht : t = 0
  · subst ht
    rcases g1 with h1 | ⟨_, h1⟩ | ⟨h1, _⟩
    · simp at h1
    · exact Or.inr (Or.inl ⟨abs_zero, by linarith⟩)
    · simp at h1
  · exact Or.inl (abs_pos.mpr ht)

theorem sound_23 : Refines ε [.op .sqr, .op (.fn .sqrt)] [.op (.fn .abs)] := by
  intro vals st st'
  rcases st with _ | ⟨t, st⟩
  · run_code; simp
  run_code
  rintro ⟨g1, rfl⟩
  rw [Real.sqrt_mul_self_eq_abs]

theorem sound_42 {y x : ℝ} (h : ¬ IsInt ε y) (h1 : IsInt ε x) :
    Refines ε [.imm y, .op (.fn .pow), .imm x, .op (.fn .pow)] [.imm (y * x), .op (.fn .pow)] := by
  intro vals st st'
  rcases st with _ | ⟨t, st⟩
  · run_code; simp
  run_code
  rintro ⟨g1, g2, rfl⟩
  obtain ⟨h2, h3⟩ := powpow g1 g2 (fun h0 => by
    rcases g1 with h3 | ⟨h3, _⟩ | ⟨_, n, h3⟩
    · exact absurd h3 h0.not_gt
    · exact absurd h3 h0.ne
    · exact absurd (h3 ▸ isInt_int (le_trans (abs_nonneg _) h1) n) h)
  exact ⟨h2, by rw [h3]⟩

theorem sound_43 {x : ℝ} (h : IsInt ε x) :
    Refines ε [.op (.fn .exp), .imm x, .op (.fn .pow)] [.imm x, .op .mul, .op (.fn .exp)] := by
  intro vals st st'
  rcases st with _ | ⟨t, st⟩
  · run_code; simp
  run_code
  rintro ⟨g1, rfl⟩
  rw [Real.exp_mul]

theorem sound_44 {x : ℝ} (h : IsInt ε x) :
    Refines ε [.op (.fn .exp2), .imm x, .op (.fn .pow)] [.imm x, .op .mul, .op (.fn .exp2)] := by
  intro vals st st'
  rcases st with _ | ⟨t, st⟩
  · run_code; simp
  run_code
  rintro ⟨g1, rfl⟩
  rw [Real.rpow_mul (by norm_num)]

theorem sound_45 {x : ℝ} (h : IsInt 0 x) :
    Refines 0 [.op (.fn .pow), .imm x, .op (.fn .pow)] [.imm x, .op .mul, .op (.fn .pow)] := by
  intro vals st st'
  rcases st with _ | ⟨u, _ | ⟨t, st⟩⟩
  · run_code; simp
  · run_code; simp
  run_code
  rintro ⟨g1, g2, rfl⟩
  obtain ⟨h2, h3⟩ := powpow g1 g2 (fun _ => Or.inl (int_of_isInt h))
  exact ⟨h2, by rw [h3]⟩

theorem sound_46 {x : ℝ} (h : IsEvenInt 0 (x + x)) :
    Refines 0 [.op .sqr, .imm x, .op (.fn .pow)] [.imm (x + x), .op (.fn .pow)] := by
  intro vals st st'
  rcases st with _ | ⟨t, st⟩
  · run_code; simp
  run_code
  rintro ⟨g1, rfl⟩
  obtain ⟨n, hn⟩ := even_of_isEvenInt h
  rw [hn, abs_mul_self_rpow, hn, abs_rpow_even]
  refine ⟨?_, rfl⟩
  rcases lt_trichotomy t 0 with h0 | h0 | h0
  · exact Or.inr (Or.inr ⟨h0, _, rfl⟩)
  · refine Or.inr (Or.inl ⟨h0, ?_⟩)
    subst h0
    rcases g1 with h1 | ⟨_, h1⟩ | ⟨h1, _⟩
    · simp at h1
    · rw [← hn]; linarith
    · simp at h1
  · exact Or.inl h0

theorem sound_51 {x : ℝ} : Refines ε [.imm x, .op .sub] [.imm (-x), .op .add] := by
  intro vals st st'
  rcases st with _ | ⟨t, st⟩
  · run_code; simp
  run_code
  rintro rfl
  rule_value

theorem sound_55 {x : ℝ} (h : x = 1) : Refines ε [.imm x, .op .mul] [] := by
  subst h
  intro vals st st'
  rcases st with _ | ⟨t, st⟩
  · run_code; simp
  run_code
  rintro rfl
  rule_value

theorem sound_56 {x : ℝ} (h : x = 1) : Refines ε [.imm x, .op .div] [] := by
  subst h
  intro vals st st'
  rcases st with _ | ⟨t, st⟩
  · run_code; simp
  run_code
  rintro ⟨g1, rfl⟩
  rule_value

theorem sound_57 {x : ℝ} (h : x = 0) : Refines ε [.imm x, .op .add] [] := by
  subst h
  intro vals st st'
  rcases st with _ | ⟨t, st⟩
  · run_code; simp
  run_code
  rintro rfl
  rule_value

theorem sound_58 {x : ℝ} (h : x = 0) : Refines ε [.imm x, .op .sub] [] := by
  subst h
  intro vals st st'
  rcases st with _ | ⟨t, st⟩
  · run_code; simp
  run_code
  rintro rfl
  rule_value

theorem sound_59 : Refines ε [.dup, .op (.fn .min)] [] := by
  intro vals st st'
  rcases st with _ | ⟨t, st⟩
  · run_code; simp
  run_code
  rintro rfl
  rule_value

theorem sound_60 : Refines ε [.dup, .op (.fn .max)] [] := by
  intro vals st st'
  rcases st with _ | ⟨t, st⟩
  · run_code; simp
  run_code
  rintro rfl
  rule_value

theorem sound_61 : Refines ε [.op .neg, .op .neg] [] := by
  intro vals st st'
  rcases st with _ | ⟨t, st⟩
  · run_code; simp
  run_code
  rintro rfl
  rule_value

theorem sound_62 : Refines ε [.op .inv, .op .inv] [] := by
  intro vals st st'
  rcases st with _ | ⟨t, st⟩
  · run_code; simp
  run_code
  rintro ⟨g1, g2, rfl⟩
  rule_value

theorem sound_65 {a : Nat} : Refines ε [.var a, .dup, .var a, .op (.fn .min)] [.var a, .dup] := by
  intro vals st st'
  run_code
  rcases vals[a]? with _ | a'
  · run_code; simp
  run_code
  rintro rfl
  rule_value

theorem sound_66 {a : Nat} : Refines ε [.var a, .dup, .var a, .op (.fn .max)] [.var a, .dup] := by
  intro vals st st'
  run_code
  rcases vals[a]? with _ | a'
  · run_code; simp
  run_code
  rintro rfl
  rule_value

theorem sound_67 {a : Nat} : Refines ε [.var a, .op (.fn .min), .var a, .op (.fn .min)] [.var a, .op (.fn .min)] := by
  intro vals st st'
  rcases st with _ | ⟨t, st⟩
  · run_code; simp
  run_code
  rcases vals[a]? with _ | a'
  · run_code; simp
  run_code
  rintro rfl
  congr 1
  split_ifs <;> linarith

theorem sound_68 {a : Nat} : Refines ε [.var a, .op (.fn .max), .var a, .op (.fn .max)] [.var a, .op (.fn .max)] := by
  intro vals st st'
  rcases st with _ | ⟨t, st⟩
  · run_code; simp
  run_code
  rcases vals[a]? with _ | a'
  · run_code; simp
  run_code
  rintro rfl
  congr 1
  split_ifs <;> linarith

theorem sound_70 {y x : ℝ} (h : y * x = 1) : Refines ε [.imm y, .op .mul, .imm x, .op .mul] [] := by
  intro vals st st'
  rcases st with _ | ⟨t, st⟩
  · run_code; simp
  run_code
  rintro rfl
  congr 1
  rw [mul_assoc, h, mul_one]

theorem sound_76 : Refines ε [.dup, .op .sub] [.imm 0, .op .mul] := by
  intro vals st st'
  rcases st with _ | ⟨t, st⟩
  · run_code; simp
  run_code
  rintro rfl
  rule_value

theorem sound_77 : Refines ε [.dup, .op .rsub] [.imm 0, .op .mul] := by
  intro vals st st'
  rcases st with _ | ⟨t, st⟩
  · run_code; simp
  run_code
  rintro rfl
  rule_value

theorem sound_78 : Refines ε [.dup, .op .div] [.imm 0, .op .mul, .imm 1, .op .add] := by
  intro vals st st'
  rcases st with _ | ⟨t, st⟩
  · run_code; simp
  run_code
  rintro ⟨g1, rfl⟩
  rule_value

theorem sound_83 {x : ℝ} (h : x = 0) : Refines ε [.imm x, .op (.fn .pow)] [.imm 0, .op .mul, .imm 1, .op .add] := by
  subst h
  intro vals st st'
  rcases st with _ | ⟨t, st⟩
  · run_code; simp
  run_code
  rintro ⟨g1, rfl⟩
  rule_value

theorem sound_84 : Refines ε [.op .sinCos, .op (.fn .hypot)] [.imm 0, .op .mul, .imm 1, .op .add] := by
  intro vals st st'
  rcases st with _ | ⟨t, st⟩
  · run_code; simp
  run_code
  rintro rfl
  congr 1
  have := Real.sin_sq_add_cos_sq t
  rw [show Real.sin t * Real.sin t + Real.cos t * Real.cos t = 1 by nlinarith]
  simp

theorem sound_88 {x : ℝ} {a : Nat} (h : x = 0) : Refines ε [.var a, .imm x, .op .mul] [.imm x] := by
  subst h
  intro vals st st'
  run_code
  rcases vals[a]? with _ | a'
  · run_code; simp
  run_code
  rintro rfl
  rule_value

theorem sound_89 {x : ℝ} {a : Op} (h : isUnary a = true) (h1 : hasInvalidRanges a = false) (h2 : x = 0) :
    Refines ε [.op a, .imm x, .op .mul] [.imm x, .op .mul] := by
  subst h2
  intro vals st st'
  rcases st with _ | ⟨t, st⟩
  · run_code; simp
  rw [run_op]
  rcases unary_run (ε := ε) h t with h3 | ⟨v, h3⟩
  · rw [h3]; rintro ⟨⟩
  · rw [h3, Option.bind_some]; run_code; simp

theorem sound_90 {x : ℝ} {b : Nat} {a : Op} (h : isBinary a = true) (h1 : hasInvalidRanges a = false) (h2 : x = 0) :
    Refines ε [.var b, .op a, .imm x, .op .mul] [.imm x, .op .mul] := by
  subst h2
  intro vals st st'
  rw [run_var]
  rcases vals[b]? with _ | v
  · rintro ⟨⟩
  rw [Option.bind_some, run_op]
  rcases st with _ | ⟨t, st⟩
  · rw [binary_one h]; rintro ⟨⟩
  rcases binary_run (ε := ε) h t v with h3 | ⟨w, h3⟩
  · rw [h3]; rintro ⟨⟩
  · rw [h3, Option.bind_some]; run_code; simp

theorem sound_92 {y x : ℝ} {a : Op} (h : isBinary a = true) (h1 : hasInvalidRanges a = false) (h2 : x = 0) :
    Refines ε [.imm y, .op a, .imm x, .op .mul] [.imm x, .op .mul] := by
  subst h2
  intro vals st st'
  rw [run_imm, run_op]
  rcases st with _ | ⟨t, st⟩
  · rw [binary_one h]; rintro ⟨⟩
  rcases binary_run (ε := ε) h t y with h3 | ⟨w, h3⟩
  · rw [h3]; rintro ⟨⟩
  · rw [h3, Option.bind_some]; run_code; simp

theorem sound_93 {x : ℝ} {a : Nat} (h : x = 0) : Refines ε [.var a, .op .mul, .imm x, .op .mul] [.imm x, .op .mul] := by
  subst h
  intro vals st st'
  rcases st with _ | ⟨t, st⟩
  · run_code; simp
  run_code
  rcases vals[a]? with _ | a'
  · run_code; simp
  run_code
  rintro rfl
  rule_value

theorem sound_100 {x : ℝ} : Refines ε [.imm x, .op .neg] [.imm (-x)] := by
  intro vals st st'
  run_code
  rintro rfl
  rule_value

theorem sound_101 {x : ℝ} (h : x ≠ 0) : Refines ε [.imm x, .op .inv] [.imm (1 / x)] := by
  intro vals st st'
  run_code
  rintro ⟨g1, rfl⟩
  rule_value

theorem sound_102 {y x : ℝ} : Refines ε [.imm y, .imm x, .op .mul] [.imm (y * x)] := by
  intro vals st st'
  run_code
  rintro rfl
  rule_value

theorem sound_103 {y x : ℝ} (h : x ≠ 0) : Refines ε [.imm y, .imm x, .op .div] [.imm (y / x)] := by
  intro vals st st'
  run_code
  rintro ⟨g1, rfl⟩
  rule_value

theorem sound_104 {y x : ℝ} (h : x ≠ 0) : Refines ε [.imm y, .imm x, .op .mod] [.imm (fpMod y x)] := by
  intro vals st st'
  run_code
  rintro ⟨g1, rfl⟩
  rule_value

theorem sound_105 {y x : ℝ} : Refines ε [.imm y, .imm x, .op .add] [.imm (y + x)] := by
  intro vals st st'
  run_code
  rintro rfl
  rule_value

theorem sound_106 {y x : ℝ} : Refines ε [.imm y, .imm x, .op .sub] [.imm (y - x)] := by
  intro vals st st'
  run_code
  rintro rfl
  rule_value

theorem sound_107 {x : ℝ} : Refines ε [.imm x, .op .not] [.imm (ofBool (!fpTruth x))] := by
  intro vals st st'
  run_code
  rintro rfl
  rule_value

theorem sound_111 {y x : ℝ} : Refines ε [.imm y, .imm x, .op .less] [.imm (ofBool (decide (y < x - ε)))] := by
  intro vals st st'
  run_code
  rintro rfl
  rule_value

theorem sound_112 {y x : ℝ} : Refines ε [.imm y, .imm x, .op .lessOrEq] [.imm (ofBool (decide (y ≤ x + ε)))] := by
  intro vals st st'
  run_code
  rintro rfl
  rule_value

theorem sound_113 {y x : ℝ} : Refines ε [.imm y, .imm x, .op .greater] [.imm (ofBool (decide (x < y - ε)))] := by
  intro vals st st'
  run_code
  rintro rfl
  rule_value

theorem sound_114 {y x : ℝ} : Refines ε [.imm y, .imm x, .op .greaterOrEq] [.imm (ofBool (decide (x ≤ y + ε)))] := by
  intro vals st st'
  run_code
  rintro rfl
  rule_value

theorem sound_115 {y x : ℝ} : Refines ε [.imm y, .imm x, .op .equal] [.imm (ofBool (decide (|y - x| ≤ ε)))] := by
  intro vals st st'
  run_code
  rintro rfl
  rule_value

theorem sound_116 {y x : ℝ} : Refines ε [.imm y, .imm x, .op .nequal] [.imm (ofBool (decide (|y - x| > ε)))] := by
  intro vals st st'
  run_code
  rintro rfl
  rule_value

theorem sound_117 {y x : ℝ} : Refines ε [.imm y, .imm x, .op .and] [.imm (ofBool (fpTruth x && fpTruth y))] := by
  intro vals st st'
  run_code
  rintro rfl
  congr 2
  first | exact Bool.and_comm _ _ | exact Bool.or_comm _ _

theorem sound_118 {y x : ℝ} : Refines ε [.imm y, .imm x, .op .or] [.imm (ofBool (fpTruth x || fpTruth y))] := by
  intro vals st st'
  run_code
  rintro rfl
  congr 2
  first | exact Bool.and_comm _ _ | exact Bool.or_comm _ _

theorem sound_122 {x : ℝ} : Refines ε [.op .neg, .imm x, .op .mul] [.imm (-x), .op .mul] := by
  intro vals st st'
  rcases st with _ | ⟨t, st⟩
  · run_code; simp
  run_code
  rintro rfl
  rule_value

theorem sound_123 {x : ℝ} : Refines ε [.imm x, .op .mul, .op .neg] [.imm (-x), .op .mul] := by
  intro vals st st'
  rcases st with _ | ⟨t, st⟩
  · run_code; simp
  run_code
  rintro rfl
  rule_value

theorem sound_124 {x : ℝ} (h : x = -1) : Refines ε [.imm x, .op .mul] [.op .neg] := by
  subst h
  intro vals st st'
  rcases st with _ | ⟨t, st⟩
  · run_code; simp
  run_code
  rintro rfl
  rule_value

theorem sound_125 {x : ℝ} (h : x ≠ 0) : Refines ε [.op .neg, .imm x, .op .div] [.imm (-x), .op .div] := by
  intro vals st st'
  rcases st with _ | ⟨t, st⟩
  · run_code; simp
  run_code
  rintro ⟨g1, rfl⟩
  refine ⟨?_, ?_⟩
  · rule_guard
  · rule_value

theorem sound_127 {y x : ℝ} : Refines ε [.imm y, .op .add, .imm x, .op .add] [.imm (y + x), .op .add] := by
  intro vals st st'
  rcases st with _ | ⟨t, st⟩
  · run_code; simp
  run_code
  rintro rfl
  rule_value

theorem sound_128 {y x : ℝ} : Refines ε [.imm y, .op .mul, .imm x, .op .mul] [.imm (y * x), .op .mul] := by
  intro vals st st'
  rcases st with _ | ⟨t, st⟩
  · run_code; simp
  run_code
  rintro rfl
  rule_value

theorem sound_132 {x : ℝ} : Refines ε [.imm x, .op (.fn .abs)] [.imm |x|] := by
  intro vals st st'
  run_code
  rintro rfl
  rule_value

theorem sound_133 {x : ℝ} : Refines ε [.imm x, .op .deg] [.imm (x * (180 / Real.pi))] := by
  intro vals st st'
  run_code
  rintro rfl
  rule_value

theorem sound_134 {x : ℝ} : Refines ε [.imm x, .op .rad] [.imm (x * (Real.pi / 180))] := by
  intro vals st st'
  run_code
  rintro rfl
  rule_value

theorem sound_135 {x : ℝ} : Refines ε [.imm x, .op (.fn .ceil)] [.imm ⌈x⌉] := by
  intro vals st st'
  run_code
  rintro rfl
  rule_value

theorem sound_136 {x : ℝ} : Refines ε [.imm x, .op (.fn .floor)] [.imm ⌊x⌋] := by
  intro vals st st'
  run_code
  rintro rfl
  rule_value

theorem sound_137 {x : ℝ} : Refines ε [.imm x, .op (.fn .int)] [.imm (fpInt x)] := by
  intro vals st st'
  run_code
  rintro rfl
  rule_value

theorem sound_138 {x : ℝ} : Refines ε [.imm x, .op (.fn .trunc)] [.imm (fpTrunc x)] := by
  intro vals st st'
  run_code
  rintro rfl
  rule_value

theorem sound_139 {y x : ℝ} : Refines ε [.imm y, .imm x, .op (.fn .atan2)] [.imm (Complex.arg ⟨x, y⟩)] := by
  intro vals st st'
  run_code
  rintro rfl
  rule_value

theorem sound_140 {y x : ℝ} : Refines ε [.imm y, .imm x, .op (.fn .min)] [.imm (if x < y then x else y)] := by
  intro vals st st'
  run_code
  rintro rfl
  congr 1
  split_ifs <;> linarith

theorem sound_141 {y x : ℝ} : Refines ε [.imm y, .imm x, .op (.fn .max)] [.imm (if x > y then x else y)] := by
  intro vals st st'
  run_code
  rintro rfl
  congr 1
  split_ifs <;> linarith

theorem sound_145 {x : ℝ} (h : x ≥ 1) : Refines ε [.imm x, .op (.fn .acosh)] [.imm (Real.arcosh x)] := by
  intro vals st st'
  run_code
  rintro ⟨g1, rfl⟩
  rule_value

theorem sound_146 {x : ℝ} : Refines ε [.imm x, .op (.fn .asinh)] [.imm (Real.arsinh x)] := by
  intro vals st st'
  run_code
  rintro rfl
  rule_value

theorem sound_147 {x : ℝ} (h : |x| < 1) : Refines ε [.imm x, .op (.fn .atanh)] [.imm (Real.artanh x)] := by
  intro vals st st'
  run_code
  rintro ⟨g1, rfl⟩
  rule_value

theorem sound_148 {x : ℝ} (h : |x| ≤ 1) : Refines ε [.imm x, .op (.fn .acos)] [.imm (Real.arccos x)] := by
  intro vals st st'
  run_code
  rintro ⟨g1, rfl⟩
  rule_value

theorem sound_149 {x : ℝ} (h : |x| ≤ 1) : Refines ε [.imm x, .op (.fn .asin)] [.imm (Real.arcsin x)] := by
  intro vals st st'
  run_code
  rintro ⟨g1, rfl⟩
  rule_value

theorem sound_150 {x : ℝ} : Refines ε [.imm x, .op (.fn .atan)] [.imm (Real.arctan x)] := by
  intro vals st st'
  run_code
  rintro rfl
  rule_value

theorem sound_151 {x : ℝ} : Refines ε [.imm x, .op (.fn .cbrt)] [.imm (fpCbrt x)] := by
  intro vals st st'
  run_code
  rintro rfl
  rule_value

theorem sound_152 {x : ℝ} : Refines ε [.imm x, .op (.fn .cos)] [.imm (Real.cos x)] := by
  intro vals st st'
  run_code
  rintro rfl
  rule_value

theorem sound_153 {x : ℝ} : Refines ε [.imm x, .op (.fn .cosh)] [.imm (Real.cosh x)] := by
  intro vals st st'
  run_code
  rintro rfl
  rule_value

theorem sound_154 {x : ℝ} : Refines ε [.imm x, .op (.fn .exp)] [.imm (Real.exp x)] := by
  intro vals st st'
  run_code
  rintro rfl
  rule_value

theorem sound_155 {x : ℝ} : Refines ε [.imm x, .op (.fn .exp2)] [.imm (2 ^ x)] := by
  intro vals st st'
  run_code
  rintro rfl
  rule_value

theorem sound_156 {x : ℝ} (h : x > 0) : Refines ε [.imm x, .op (.fn .log)] [.imm (Real.log x)] := by
  intro vals st st'
  run_code
  rintro ⟨g1, rfl⟩
  rule_value

theorem sound_157 {x : ℝ} (h : x > 0) : Refines ε [.imm x, .op (.fn .log10)] [.imm (Real.log x * (1 / Real.log 10))] := by
  intro vals st st'
  run_code
  rintro ⟨g1, rfl⟩
  rule_value

theorem sound_158 {x : ℝ} (h : x > 0) : Refines ε [.imm x, .op (.fn .log2)] [.imm (Real.log x * (1 / Real.log 2))] := by
  intro vals st st'
  run_code
  rintro ⟨g1, rfl⟩
  rule_value

theorem sound_159 {x : ℝ} : Refines ε [.imm x, .op (.fn .sin)] [.imm (Real.sin x)] := by
  intro vals st st'
  run_code
  rintro rfl
  rule_value

theorem sound_160 {x : ℝ} : Refines ε [.imm x, .op (.fn .sinh)] [.imm (Real.sinh x)] := by
  intro vals st st'
  run_code
  rintro rfl
  rule_value

theorem sound_161 {x : ℝ} (h : x ≥ 0) : Refines ε [.imm x, .op (.fn .sqrt)] [.imm (Real.sqrt x)] := by
  intro vals st st'
  run_code
  rintro ⟨g1, rfl⟩
  rule_value

theorem sound_163 {x : ℝ} : Refines ε [.imm x, .op (.fn .tan)] [.imm (Real.tan x)] := by
  intro vals st st'
  run_code
  rintro ⟨g1, rfl⟩
  rule_value

theorem sound_164 {x : ℝ} : Refines ε [.imm x, .op (.fn .tanh)] [.imm (Real.tanh x)] := by
  intro vals st st'
  run_code
  rintro rfl
  rule_value

theorem sound_165 {y x v : ℝ} (h : y ≠ 0 ∨ x ≥ 0) (h1 : ∀ w, fpPow y x = some w → w = v) :
    Refines ε [.imm y, .imm x, .op (.fn .pow)] [.imm v] := by
  intro vals st st'
  run_code
  rintro ⟨g1, rfl⟩
  congr 1
  refine (h1 _ ?_).symm
  have := evalFn2_pow y x
  rw [if_pos g1] at this
  rw [← this, evalFn2]
  rw [if_neg]
  rintro ⟨h2, h3⟩
  rcases h with h | h
  · exact h h2
  · linarith

theorem sound_198 {x : ℝ} (h : x = 2) : Refines ε [.imm x, .op .mul] [.dup, .op .add] := by
  subst h
  intro vals st st'
  rcases st with _ | ⟨t, st⟩
  · run_code; simp
  run_code
  rintro rfl
  rule_value

theorem sound_199 : Refines ε [.op .neg, .op .add] [.op .sub] := by
  intro vals st st'
  rcases st with _ | ⟨u, _ | ⟨t, st⟩⟩
  · run_code; simp
  · run_code; simp
  run_code
  rintro rfl
  rule_value

theorem sound_200 : Refines ε [.op .neg, .op .sub] [.op .add] := by
  intro vals st st'
  rcases st with _ | ⟨u, _ | ⟨t, st⟩⟩
  · run_code; simp
  · run_code; simp
  run_code
  rintro rfl
  rule_value

theorem sound_201 : Refines ε [.op .neg, .op (.fn .abs)] [.op (.fn .abs)] := by
  intro vals st st'
  rcases st with _ | ⟨t, st⟩
  · run_code; simp
  run_code
  rintro rfl
  rule_value

theorem sound_202 : Refines ε [.dup, .op .mul] [.op .sqr] := by
  intro vals st st'
  rcases st with _ | ⟨t, st⟩
  · run_code; simp
  run_code
  rintro rfl
  rule_value

theorem sound_203 : Refines ε [.op .neg, .op .sqr] [.op .sqr] := by
  intro vals st st'
  rcases st with _ | ⟨t, st⟩
  · run_code; simp
  run_code
  rintro rfl
  rule_value

theorem sound_204 : Refines ε [.op (.fn .abs), .op .sqr] [.op .sqr] := by
  intro vals st st'
  rcases st with _ | ⟨t, st⟩
  · run_code; simp
  run_code
  rintro rfl
  rule_value

theorem sound_206 : Refines ε [.op (.fn .sqrt), .op .inv] [.op .rsqrt] := by
  intro vals st st'
  rcases st with _ | ⟨t, st⟩
  · run_code; simp
  run_code
  rintro ⟨g1, g2, rfl⟩
  have ht : 0 < t := lt_of_le_of_ne g1 (fun e => g2 (by rw [← e, Real.sqrt_zero]))
  exact ⟨ht, rfl⟩

theorem sound_207 {x : ℝ} (h : x = 180 / Real.pi) : Refines ε [.imm x, .op .mul] [.op .deg] := by
  subst h
  intro vals st st'
  rcases st with _ | ⟨t, st⟩
  · run_code; simp
  run_code
  rintro rfl
  rule_value

theorem sound_208 {x : ℝ} (h : x = Real.pi / 180) : Refines ε [.imm x, .op .mul] [.op .rad] := by
  subst h
  intro vals st st'
  rcases st with _ | ⟨t, st⟩
  · run_code; simp
  run_code
  rintro rfl
  rule_value

theorem sound_209 {x : ℝ} : Refines ε [.op .deg, .imm x, .op .mul] [.imm (x * (180 / Real.pi)), .op .mul] := by
  intro vals st st'
  rcases st with _ | ⟨t, st⟩
  · run_code; simp
  run_code
  rintro rfl
  rule_value

theorem sound_210 {x : ℝ} : Refines ε [.op .rad, .imm x, .op .mul] [.imm (x * (Real.pi / 180)), .op .mul] := by
  intro vals st st'
  rcases st with _ | ⟨t, st⟩
  · run_code; simp
  run_code
  rintro rfl
  rule_value

theorem sound_211 {x : ℝ} : Refines ε [.imm x, .op .mul, .op .rad] [.imm (x * (Real.pi / 180)), .op .mul] := by
  intro vals st st'
  rcases st with _ | ⟨t, st⟩
  · run_code; simp
  run_code
  rintro rfl
  rule_value

theorem sound_213 : Refines ε [.op .inv, .op .div] [.op .mul] := by
  intro vals st st'
  rcases st with _ | ⟨u, _ | ⟨t, st⟩⟩
  · run_code; simp
  · run_code; simp
  run_code
  rintro ⟨g1, g2, rfl⟩
  rule_value

theorem sound_214 : Refines ε [.op .inv, .op .mul] [.op .div] := by
  intro vals st st'
  rcases st with _ | ⟨u, _ | ⟨t, st⟩⟩
  · run_code; simp
  · run_code; simp
  run_code
  rintro ⟨g1, rfl⟩
  refine ⟨?_, ?_⟩
  · rule_guard
  · rule_value

theorem sound_216 : Refines ε [.op .less, .op .not] [.op .greaterOrEq] := by
  intro vals st st'
  rcases st with _ | ⟨u, _ | ⟨t, st⟩⟩
  · run_code; simp
  · run_code; simp
  run_code
  rintro rfl
  congr 2
  rw [fpTruth_ofBool, ← decide_not, decide_eq_decide]
  constructor <;> intro <;> linarith

theorem sound_217 : Refines ε [.op .lessOrEq, .op .not] [.op .greater] := by
  intro vals st st'
  rcases st with _ | ⟨u, _ | ⟨t, st⟩⟩
  · run_code; simp
  · run_code; simp
  run_code
  rintro rfl
  congr 2
  rw [fpTruth_ofBool, ← decide_not, decide_eq_decide]
  constructor <;> intro <;> linarith

theorem sound_218 : Refines ε [.op .greater, .op .not] [.op .lessOrEq] := by
  intro vals st st'
  rcases st with _ | ⟨u, _ | ⟨t, st⟩⟩
  · run_code; simp
  · run_code; simp
  run_code
  rintro rfl
  congr 2
  rw [fpTruth_ofBool, ← decide_not, decide_eq_decide]
  constructor <;> intro <;> linarith

theorem sound_219 : Refines ε [.op .greaterOrEq, .op .not] [.op .less] := by
  intro vals st st'
  rcases st with _ | ⟨u, _ | ⟨t, st⟩⟩
  · run_code; simp
  · run_code; simp
  run_code
  rintro rfl
  congr 2
  rw [fpTruth_ofBool, ← decide_not, decide_eq_decide]
  constructor <;> intro <;> linarith

theorem sound_220 : Refines ε [.op .equal, .op .not] [.op .nequal] := by
  intro vals st st'
  rcases st with _ | ⟨u, _ | ⟨t, st⟩⟩
  · run_code; simp
  · run_code; simp
  run_code
  rintro rfl
  congr 2
  rw [fpTruth_ofBool, ← decide_not, decide_eq_decide]
  first | exact not_le.symm | exact not_lt.symm

theorem sound_221 : Refines ε [.op .nequal, .op .not] [.op .equal] := by
  intro vals st st'
  rcases st with _ | ⟨u, _ | ⟨t, st⟩⟩
  · run_code; simp
  · run_code; simp
  run_code
  rintro rfl
  congr 2
  rw [fpTruth_ofBool, ← decide_not, decide_eq_decide]
  first | exact not_le.symm | exact not_lt.symm

theorem sound_223 : Refines ε [.dup, .op .or] [.op .notNot] := by
  intro vals st st'
  rcases st with _ | ⟨t, st⟩
  · run_code; simp
  run_code
  rintro rfl
  rule_value

theorem sound_224 : Refines ε [.dup, .op .and] [.op .notNot] := by
  intro vals st st'
  rcases st with _ | ⟨t, st⟩
  · run_code; simp
  run_code
  rintro rfl
  rule_value

theorem sound_226 : Refines ε [.op .neg, .op .not] [.op .not] := by
  intro vals st st'
  rcases st with _ | ⟨t, st⟩
  · run_code; simp
  run_code
  rintro rfl
  congr 2
  simp [fpTruth]

theorem sound_227 : Refines ε [.op (.fn .abs), .op .not] [.op .not] := by
  intro vals st st'
  rcases st with _ | ⟨t, st⟩
  · run_code; simp
  run_code
  rintro rfl
  congr 2
  simp [fpTruth]

theorem sound_229 : Refines ε [.op .not, .op .not] [.op .notNot] := by
  intro vals st st'
  rcases st with _ | ⟨t, st⟩
  · run_code; simp
  run_code
  rintro rfl
  congr 1
  simp [fpTruth_ofBool]

theorem sound_230 : Refines ε [.op .notNot, .op .not] [.op .not] := by
  intro vals st st'
  rcases st with _ | ⟨t, st⟩
  · run_code; simp
  run_code
  rintro rfl
  congr 1
  simp [fpTruth_ofBool]

theorem sound_231 : Refines ε [.op .absNotNot, .op .not] [.op .absNot] := by
  intro vals st st'
  rcases st with _ | ⟨t, st⟩
  · run_code; simp
  run_code
  rintro rfl
  congr 1
  simp [fpTruth_ofBool]

theorem sound_232 : Refines ε [.op .not, .op .notNot] [.op .not] := by
  intro vals st st'
  rcases st with _ | ⟨t, st⟩
  · run_code; simp
  run_code
  rintro rfl
  congr 1
  simp [fpTruth_ofBool]

theorem sound_235 : Refines ε [.op (.fn .abs), .op (.fn .cos)] [.op (.fn .cos)] := by
  intro vals st st'
  rcases st with _ | ⟨t, st⟩
  · run_code; simp
  run_code
  rintro rfl
  rule_value

theorem sound_236 : Refines ε [.op (.fn .abs), .op (.fn .cosh)] [.op (.fn .cosh)] := by
  intro vals st st'
  rcases st with _ | ⟨t, st⟩
  · run_code; simp
  run_code
  rintro rfl
  rule_value

theorem sound_238 : Refines ε [.op .neg, .op (.fn .cos)] [.op (.fn .cos)] := by
  intro vals st st'
  rcases st with _ | ⟨t, st⟩
  · run_code; simp
  run_code
  rintro rfl
  rule_value

theorem sound_239 : Refines ε [.op .neg, .op (.fn .cosh)] [.op (.fn .cosh)] := by
  intro vals st st'
  rcases st with _ | ⟨t, st⟩
  · run_code; simp
  run_code
  rintro rfl
  rule_value

theorem sound_240 : Refines ε [.op .neg, .op (.fn .sin)] [.op (.fn .sin), .op .neg] := by
  intro vals st st'
  rcases st with _ | ⟨t, st⟩
  · run_code; simp
  run_code
  rintro rfl
  rule_value

theorem sound_241 : Refines ε [.op .neg, .op (.fn .sinh)] [.op (.fn .sinh), .op .neg] := by
  intro vals st st'
  rcases st with _ | ⟨t, st⟩
  · run_code; simp
  run_code
  rintro rfl
  rule_value

theorem sound_242 : Refines ε [.op .neg, .op (.fn .tan)] [.op (.fn .tan), .op .neg] := by
  intro vals st st'
  rcases st with _ | ⟨t, st⟩
  · run_code; simp
  run_code
  rintro ⟨g1, rfl⟩
  refine ⟨?_, ?_⟩
  · rule_guard
  · rule_value

theorem sound_243 : Refines ε [.op .neg, .op (.fn .tanh)] [.op (.fn .tanh), .op .neg] := by
  intro vals st st'
  rcases st with _ | ⟨t, st⟩
  · run_code; simp
  run_code
  rintro rfl
  rule_value

theorem sound_244 {x : ℝ} : Refines ε [.imm x, .op .mul, .op (.fn .sin), .op .neg] [.imm (-x), .op .mul, .op (.fn .sin)] := by
  intro vals st st'
  rcases st with _ | ⟨t, st⟩
  · run_code; simp
  run_code
  rintro rfl
  rule_value

theorem sound_245 {x : ℝ} :
    Refines ε [.imm x, .op .mul, .op (.fn .sinh), .op .neg] [.imm (-x), .op .mul, .op (.fn .sinh)] := by
  intro vals st st'
  rcases st with _ | ⟨t, st⟩
  · run_code; simp
  run_code
  rintro rfl
  rule_value

theorem sound_246 {x : ℝ} : Refines ε [.imm x, .op .mul, .op (.fn .tan), .op .neg] [.imm (-x), .op .mul, .op (.fn .tan)] := by
  intro vals st st'
  rcases st with _ | ⟨t, st⟩
  · run_code; simp
  run_code
  rintro ⟨g1, rfl⟩
  refine ⟨?_, ?_⟩
  · rule_guard
  · rule_value

theorem sound_247 {x : ℝ} :
    Refines ε [.imm x, .op .mul, .op (.fn .tanh), .op .neg] [.imm (-x), .op .mul, .op (.fn .tanh)] := by
  intro vals st st'
  rcases st with _ | ⟨t, st⟩
  · run_code; simp
  run_code
  rintro rfl
  rule_value

theorem sound_249 : Refines ε [.op (.fn .sin), .op .div] [.op (.fn .csc), .op .mul] := by
  intro vals st st'
  rcases st with _ | ⟨u, _ | ⟨t, st⟩⟩
  · run_code; simp
  · run_code; simp
  run_code
  rintro ⟨g1, rfl⟩
  refine ⟨?_, ?_⟩
  · rule_guard
  · rule_value

theorem sound_250 : Refines ε [.op (.fn .cos), .op .div] [.op (.fn .sec), .op .mul] := by
  intro vals st st'
  rcases st with _ | ⟨u, _ | ⟨t, st⟩⟩
  · run_code; simp
  · run_code; simp
  run_code
  rintro ⟨g1, rfl⟩
  refine ⟨?_, ?_⟩
  · rule_guard
  · rule_value

theorem sound_251 : Refines ε [.op (.fn .tan), .op .div] [.op (.fn .cot), .op .mul] := by
  intro vals st st'
  rcases st with _ | ⟨u, _ | ⟨t, st⟩⟩
  · run_code; simp
  · run_code; simp
  run_code
  rintro ⟨g1, g2, rfl⟩
  have hs : Real.sin u ≠ 0 := fun e => g2 (by rw [Real.tan_eq_sin_div_cos, e, zero_div])
  refine ⟨hs, ?_⟩
  congr 1
  rw [Real.tan_eq_sin_div_cos]
  field_simp

theorem sound_252 : Refines ε [.op (.fn .csc), .op .div] [.op (.fn .sin), .op .mul] := by
  intro vals st st'
  rcases st with _ | ⟨u, _ | ⟨t, st⟩⟩
  · run_code; simp
  · run_code; simp
  run_code
  rintro ⟨g1, g2, rfl⟩
  rule_value

theorem sound_253 : Refines ε [.op (.fn .sec), .op .div] [.op (.fn .cos), .op .mul] := by
  intro vals st st'
  rcases st with _ | ⟨u, _ | ⟨t, st⟩⟩
  · run_code; simp
  · run_code; simp
  run_code
  rintro ⟨g1, g2, rfl⟩
  rule_value

theorem sound_254 : Refines ε [.op (.fn .cot), .op .div] [.op (.fn .tan), .op .mul] := by
  intro vals st st'
  rcases st with _ | ⟨u, _ | ⟨t, st⟩⟩
  · run_code; simp
  · run_code; simp
  run_code
  rintro ⟨g1, g2, rfl⟩
  have hs : Real.cos u ≠ 0 := fun e => g2 (by rw [e, zero_div])
  refine ⟨hs, ?_⟩
  congr 1
  rw [Real.tan_eq_sin_div_cos]
  field_simp

theorem sound_255 : Refines ε [.op (.fn .sin), .op .inv] [.op (.fn .csc)] := by
  intro vals st st'
  rcases st with _ | ⟨t, st⟩
  · run_code; simp
  run_code
  rintro ⟨g1, rfl⟩
  refine ⟨?_, ?_⟩
  · rule_guard
  · rule_value

theorem sound_256 : Refines ε [.op (.fn .cos), .op .inv] [.op (.fn .sec)] := by
  intro vals st st'
  rcases st with _ | ⟨t, st⟩
  · run_code; simp
  run_code
  rintro ⟨g1, rfl⟩
  refine ⟨?_, ?_⟩
  · rule_guard
  · rule_value

theorem sound_257 : Refines ε [.op (.fn .tan), .op .inv] [.op (.fn .cot)] := by
  intro vals st st'
  rcases st with _ | ⟨t, st⟩
  · run_code; simp
  run_code
  rintro ⟨g1, g2, rfl⟩
  have hs : Real.sin t ≠ 0 := fun e => g2 (by rw [Real.tan_eq_sin_div_cos, e, zero_div])
  refine ⟨hs, ?_⟩
  congr 1
  rw [Real.tan_eq_sin_div_cos]
  field_simp

theorem sound_258 : Refines ε [.op (.fn .csc), .op .inv] [.op (.fn .sin)] := by
  intro vals st st'
  rcases st with _ | ⟨t, st⟩
  · run_code; simp
  run_code
  rintro ⟨g1, g2, rfl⟩
  rule_value

theorem sound_259 : Refines ε [.op (.fn .sec), .op .inv] [.op (.fn .cos)] := by
  intro vals st st'
  rcases st with _ | ⟨t, st⟩
  · run_code; simp
  run_code
  rintro ⟨g1, g2, rfl⟩
  rule_value

theorem sound_260 : Refines ε [.op (.fn .cot), .op .inv] [.op (.fn .tan)] := by
  intro vals st st'
  rcases st with _ | ⟨t, st⟩
  · run_code; simp
  run_code
  rintro ⟨g1, g2, rfl⟩
  have hs : Real.cos t ≠ 0 := fun e => g2 (by rw [e, zero_div])
  refine ⟨hs, ?_⟩
  congr 1
  rw [Real.tan_eq_sin_div_cos]
  field_simp

theorem sound_265 {a b : Nat} : Refines ε [.var b, .op .rdiv, .var a, .op .div] [.var a, .op .mul, .var b, .op .rdiv] := by
  intro vals st st'
  rcases st with _ | ⟨t, st⟩
  · run_code; simp
  run_code
  rcases vals[a]? with _ | a'
  · run_code; simp
  run_code
  rcases vals[b]? with _ | b'
  · run_code; simp
  run_code
  rintro ⟨g1, g2, rfl⟩
  refine ⟨?_, ?_⟩
  · rule_guard
  · rule_value

theorem sound_266 {x : ℝ} {a : Nat} :
    Refines ε [.imm x, .op .rdiv, .var a, .op .div] [.var a, .op .mul, .imm x, .op .rdiv] := by
  intro vals st st'
  rcases st with _ | ⟨t, st⟩
  · run_code; simp
  run_code
  rcases vals[a]? with _ | a'
  · run_code; simp
  run_code
  rintro ⟨g1, g2, rfl⟩
  refine ⟨?_, ?_⟩
  · rule_guard
  · rule_value

theorem sound_267 {x : ℝ} {a : Nat} :
    Refines ε [.imm x, .op .rdiv, .var a, .op .mul] [.var a, .imm x, .op .mul, .op .rdiv] := by
  intro vals st st'
  rcases st with _ | ⟨t, st⟩
  · run_code; simp
  run_code
  rcases vals[a]? with _ | a'
  · run_code; simp
  run_code
  rintro ⟨g1, rfl⟩
  refine ⟨?_, ?_⟩
  · rule_guard
  · rule_value

theorem sound_268 {x : ℝ} (h : x = 1) : Refines ε [.imm x, .op .rdiv] [.op .inv] := by
  subst h
  intro vals st st'
  rcases st with _ | ⟨t, st⟩
  · run_code; simp
  run_code
  rintro ⟨g1, rfl⟩
  refine ⟨?_, ?_⟩
  · rule_guard
  · rule_value

theorem sound_271 {a b : Nat} : Refines ε [.var b, .op .div, .var a, .op .div] [.var b, .var a, .op .mul, .op .div] := by
  intro vals st st'
  rcases st with _ | ⟨t, st⟩
  · run_code; simp
  run_code
  rcases vals[a]? with _ | a'
  · run_code; simp
  run_code
  rcases vals[b]? with _ | b'
  · run_code; simp
  run_code
  rintro ⟨g1, g2, rfl⟩
  refine ⟨?_, ?_⟩
  · rule_guard
  · rule_value

theorem sound_274 {a b : Nat} : Refines ε [.var b, .op .div, .var a, .op .mul] [.var a, .op .mul, .var b, .op .div] := by
  intro vals st st'
  rcases st with _ | ⟨t, st⟩
  · run_code; simp
  run_code
  rcases vals[a]? with _ | a'
  · run_code; simp
  run_code
  rcases vals[b]? with _ | b'
  · run_code; simp
  run_code
  rintro ⟨g1, rfl⟩
  refine ⟨?_, ?_⟩
  · rule_guard
  · rule_value

theorem sound_277 {y x : ℝ} {b : Nat} :
    Refines ε [.imm y, .var b, .op .div, .imm x, .op .mul] [.imm (y * x), .var b, .op .div] := by
  intro vals st st'
  run_code
  rcases vals[b]? with _ | b'
  · run_code; simp
  run_code
  rintro ⟨g1, rfl⟩
  refine ⟨?_, ?_⟩
  · rule_guard
  · rule_value

theorem sound_278 {y x : ℝ} {b : Nat} :
    Refines ε [.imm y, .op .mul, .var b, .op .div, .imm x, .op .mul] [.imm (y * x), .op .mul, .var b, .op .div] := by
  intro vals st st'
  rcases st with _ | ⟨t, st⟩
  · run_code; simp
  run_code
  rcases vals[b]? with _ | b'
  · run_code; simp
  run_code
  rintro ⟨g1, rfl⟩
  refine ⟨?_, ?_⟩
  · rule_guard
  · rule_value

theorem sound_279 {x : ℝ} {b : Nat} :
    Refines ε [.op .neg, .var b, .op .div, .imm x, .op .mul] [.imm (-x), .op .mul, .var b, .op .div] := by
  intro vals st st'
  rcases st with _ | ⟨t, st⟩
  · run_code; simp
  run_code
  rcases vals[b]? with _ | b'
  · run_code; simp
  run_code
  rintro ⟨g1, rfl⟩
  refine ⟨?_, ?_⟩
  · rule_guard
  · rule_value

theorem sound_281 {a : Nat} : Refines ε [.op .rdiv, .var a, .op .mul] [.var a, .op .mul, .op .rdiv] := by
  intro vals st st'
  rcases st with _ | ⟨u, _ | ⟨t, st⟩⟩
  · run_code; simp
  · run_code; simp
  run_code
  rcases vals[a]? with _ | a'
  · run_code; simp
  run_code
  rintro ⟨g1, rfl⟩
  refine ⟨?_, ?_⟩
  · rule_guard
  · rule_value

theorem sound_284 {y x : ℝ} : Refines ε [.imm y, .op .rdiv, .imm x, .op .mul] [.imm (y * x), .op .rdiv] := by
  intro vals st st'
  rcases st with _ | ⟨t, st⟩
  · run_code; simp
  run_code
  rintro ⟨g1, rfl⟩
  refine ⟨?_, ?_⟩
  · rule_guard
  · rule_value

theorem sound_285 {y x : ℝ} :
    Refines ε [.imm y, .op .mul, .op .rdiv, .imm x, .op .mul] [.imm (y * x), .op .mul, .op .rdiv] := by
  intro vals st st'
  rcases st with _ | ⟨u, _ | ⟨t, st⟩⟩
  · run_code; simp
  · run_code; simp
  run_code
  rintro ⟨g1, rfl⟩
  refine ⟨?_, ?_⟩
  · rule_guard
  · rule_value

theorem sound_286 {x : ℝ} : Refines ε [.op .neg, .op .rdiv, .imm x, .op .mul] [.imm (-x), .op .mul, .op .rdiv] := by
  intro vals st st'
  rcases st with _ | ⟨u, _ | ⟨t, st⟩⟩
  · run_code; simp
  · run_code; simp
  run_code
  rintro ⟨g1, rfl⟩
  refine ⟨?_, ?_⟩
  · rule_guard
  · rule_value

theorem sound_289 {x : ℝ} {a : Nat} :
    Refines ε [.imm x, .op .rsub, .var a, .op .sub] [.var a, .op .add, .imm x, .op .rsub] := by
  intro vals st st'
  rcases st with _ | ⟨t, st⟩
  · run_code; simp
  run_code
  rcases vals[a]? with _ | a'
  · run_code; simp
  run_code
  rintro rfl
  rule_value

theorem sound_290 {x : ℝ} {a : Nat} :
    Refines ε [.imm x, .op .rsub, .var a, .op .add] [.var a, .imm x, .op .add, .op .rsub] := by
  intro vals st st'
  rcases st with _ | ⟨t, st⟩
  · run_code; simp
  run_code
  rcases vals[a]? with _ | a'
  · run_code; simp
  run_code
  rintro rfl
  rule_value

theorem sound_291 {y x : ℝ} {b : Nat} :
    Refines ε [.imm y, .var b, .op .sub, .imm x, .op .add] [.imm (y + x), .var b, .op .sub] := by
  intro vals st st'
  run_code
  rcases vals[b]? with _ | b'
  · run_code; simp
  run_code
  rintro rfl
  rule_value

theorem sound_292 {y x : ℝ} {b : Nat} :
    Refines ε [.imm y, .op .add, .var b, .op .sub, .imm x, .op .add] [.imm (y + x), .op .add, .var b, .op .sub] := by
  intro vals st st'
  rcases st with _ | ⟨t, st⟩
  · run_code; simp
  run_code
  rcases vals[b]? with _ | b'
  · run_code; simp
  run_code
  rintro rfl
  rule_value

theorem sound_295 {a : Nat} : Refines ε [.op .rsub, .var a, .op .add] [.var a, .op .add, .op .rsub] := by
  intro vals st st'
  rcases st with _ | ⟨u, _ | ⟨t, st⟩⟩
  · run_code; simp
  · run_code; simp
  run_code
  rcases vals[a]? with _ | a'
  · run_code; simp
  run_code
  rintro rfl
  rule_value

theorem sound_296 {a : Nat} : Refines ε [.op .rsub, .var a, .op .sub] [.var a, .op .sub, .op .rsub] := by
  intro vals st st'
  rcases st with _ | ⟨u, _ | ⟨t, st⟩⟩
  · run_code; simp
  · run_code; simp
  run_code
  rcases vals[a]? with _ | a'
  · run_code; simp
  run_code
  rintro rfl
  rule_value

theorem sound_297 {y x : ℝ} : Refines ε [.imm y, .op .rsub, .imm x, .op .add] [.imm (y + x), .op .rsub] := by
  intro vals st st'
  rcases st with _ | ⟨t, st⟩
  · run_code; simp
  run_code
  rintro rfl
  rule_value

theorem sound_298 {y x : ℝ} :
    Refines ε [.imm y, .op .add, .op .rsub, .imm x, .op .add] [.imm (y + x), .op .add, .op .rsub] := by
  intro vals st st'
  rcases st with _ | ⟨u, _ | ⟨t, st⟩⟩
  · run_code; simp
  · run_code; simp
  run_code
  rintro rfl
  rule_value

theorem sound_301 (hε : 0 ≤ ε) {x : ℝ} {a : Op} (h : neverNegative a = true) (h1 : x = 0) :
    Refines ε [.op a, .imm x, .op .less] [.op a, .imm x, .op .mul] := by
  subst h1
  refine op_refines fun vals st st' v s ha => ?_
  have hv := neverNegative_nonneg h ha
  run_code
  rintro rfl
  congr 1
  rw [mul_zero, decide_eq_false (by linarith)]
  rfl

theorem sound_303 : Refines ε [.op .sqr, .op (.fn .log)] [.op (.fn .abs), .op (.fn .log), .dup, .op .add] := by
  intro vals st st'
  rcases st with _ | ⟨t, st⟩
  · run_code; simp
  run_code
  rintro ⟨g1, rfl⟩
  have ht : t ≠ 0 := fun e => by simp [e] at g1
  refine ⟨abs_pos.mpr ht, ?_⟩
  congr 1
  rw [Real.log_mul ht ht, Real.log_abs]

theorem sound_304 : Refines ε [.op .sqr, .op (.fn .log2)] [.op (.fn .abs), .op (.fn .log2), .dup, .op .add] := by
  intro vals st st'
  rcases st with _ | ⟨t, st⟩
  · run_code; simp
  run_code
  rintro ⟨g1, rfl⟩
  have ht : t ≠ 0 := fun e => by simp [e] at g1
  refine ⟨abs_pos.mpr ht, ?_⟩
  congr 1
  rw [Real.log_mul ht ht, Real.log_abs]
  ring

theorem sound_305 : Refines ε [.op .sqr, .op (.fn .log10)] [.op (.fn .abs), .op (.fn .log10), .dup, .op .add] := by
  intro vals st st'
  rcases st with _ | ⟨t, st⟩
  · run_code; simp
  run_code
  rintro ⟨g1, rfl⟩
  have ht : t ≠ 0 := fun e => by simp [e] at g1
  refine ⟨abs_pos.mpr ht, ?_⟩
  congr 1
  rw [Real.log_mul ht ht, Real.log_abs]
  ring

theorem sound_307 {y x : ℝ} (h : y * x = 180 / Real.pi) : Refines ε [.imm y, .op .mul, .imm x, .op .mul] [.op .deg] := by
  intro vals st st'
  rcases st with _ | ⟨t, st⟩
  · run_code; simp
  run_code
  rintro rfl
  congr 1
  rw [mul_assoc, h]

theorem sound_308 {y x : ℝ} (h : y * x = Real.pi / 180) : Refines ε [.imm y, .op .mul, .imm x, .op .mul] [.op .rad] := by
  intro vals st st'
  rcases st with _ | ⟨t, st⟩
  · run_code; simp
  run_code
  rintro rfl
  congr 1
  rw [mul_assoc, h]

theorem sound_310 : Refines ε [.dup, .op .add, .dup, .op .add] [.imm 4, .op .mul] := by
  intro vals st st'
  rcases st with _ | ⟨t, st⟩
  · run_code; simp
  run_code
  rintro rfl
  rule_value

theorem sound_311 : Refines ε [.dup, .op .add, .op .mul, .dup, .op .add] [.op .mul, .imm 4, .op .mul] := by
  intro vals st st'
  rcases st with _ | ⟨u, _ | ⟨t, st⟩⟩
  · run_code; simp
  · run_code; simp
  run_code
  rintro rfl
  rule_value

theorem sound_313 {x : ℝ} : Refines ε [.dup, .imm x, .op .mul, .op .add] [.imm (x + 1), .op .mul] := by
  intro vals st st'
  rcases st with _ | ⟨t, st⟩
  · run_code; simp
  run_code
  rintro rfl
  rule_value

theorem sound_314 {x : ℝ} : Refines ε [.dup, .imm x, .op (.fn .pow), .op .mul] [.imm (x + 1), .op (.fn .pow)] := by
  intro vals st st'
  rcases st with _ | ⟨t, st⟩
  · run_code; simp
  run_code
  rintro ⟨g1, rfl⟩
  refine ⟨?_, ?_⟩
  · rcases g1 with h | ⟨h, h1⟩ | ⟨h, n, h1⟩
    · exact Or.inl h
    · exact Or.inr (Or.inl ⟨h, by linarith⟩)
    · exact Or.inr (Or.inr ⟨h, n + 1, by rw [h1]; push_cast; ring⟩)
  · congr 1
    rcases g1 with h | ⟨h, h1⟩ | ⟨h, n, h1⟩
    · rw [Real.rpow_add h, Real.rpow_one, mul_comm]
    · subst h; rw [Real.zero_rpow (by linarith), zero_mul]
    · subst h1
      rw [Real.rpow_intCast, show (n : ℝ) + 1 = ((n + 1 : ℤ) : ℝ) by push_cast; ring, Real.rpow_intCast,
        zpow_add₀ h.ne, zpow_one, mul_comm]

theorem sound_316 {x : ℝ} (h : x + x = 1) : Refines ε [.dup, .op .add, .imm x, .op .mul] [] := by
  intro vals st st'
  rcases st with _ | ⟨t, st⟩
  · run_code; simp
  run_code
  rintro rfl
  congr 1
  linear_combination (-t) * h

theorem sound_317 {x : ℝ} : Refines ε [.dup, .op .add, .imm x, .op .mul] [.imm (x + x), .op .mul] := by
  intro vals st st'
  rcases st with _ | ⟨t, st⟩
  · run_code; simp
  run_code
  rintro rfl
  rule_value

theorem sound_318 {x : ℝ} (h : x + x = 1) : Refines ε [.dup, .op .add, .op .mul, .imm x, .op .mul] [.op .mul] := by
  intro vals st st'
  rcases st with _ | ⟨u, _ | ⟨t, st⟩⟩
  · run_code; simp
  · run_code; simp
  run_code
  rintro rfl
  congr 1
  linear_combination (-(t * u)) * h

theorem sound_319 {x : ℝ} : Refines ε [.dup, .op .add, .op .mul, .imm x, .op .mul] [.op .mul, .imm (x + x), .op .mul] := by
  intro vals st st'
  rcases st with _ | ⟨u, _ | ⟨t, st⟩⟩
  · run_code; simp
  · run_code; simp
  run_code
  rintro rfl
  rule_value

theorem sound_321 {y x : ℝ} (h : y / x = 180 / Real.pi) (h1 : x ≠ 0) :
    Refines ε [.imm y, .op .mul, .imm x, .op .div] [.op .deg] := by
  intro vals st st'
  rcases st with _ | ⟨t, st⟩
  · run_code; simp
  run_code
  rintro ⟨g1, rfl⟩
  congr 1
  rw [mul_div_assoc, h]

theorem sound_322 {y x : ℝ} (h : y / x = Real.pi / 180) (h1 : x ≠ 0) :
    Refines ε [.imm y, .op .mul, .imm x, .op .div] [.op .rad] := by
  intro vals st st'
  rcases st with _ | ⟨t, st⟩
  · run_code; simp
  run_code
  rintro ⟨g1, rfl⟩
  congr 1
  rw [mul_div_assoc, h]

theorem sound_323 {y x : ℝ} (h : x ≠ 0) : Refines ε [.imm y, .op .mul, .imm x, .op .div] [.imm (y / x), .op .mul] := by
  intro vals st st'
  rcases st with _ | ⟨t, st⟩
  · run_code; simp
  run_code
  rintro ⟨g1, rfl⟩
  rule_value

theorem sound_325 {x : ℝ} (h : x ≠ 0) : Refines ε [.imm x, .op .div] [.imm (1 / x), .op .mul] := by
  intro vals st st'
  rcases st with _ | ⟨t, st⟩
  · run_code; simp
  run_code
  rintro ⟨g1, rfl⟩
  rule_value

theorem sound_330 {y x : ℝ} (h : ¬ (IsEvenInt 0 y ∧ ¬ IsEvenInt 0 (x * y))) (h1 : ¬ (IsInt 0 x ∧ ¬ IsInt 0 y)) :
    Refines 0 [.imm y, .op (.fn .pow), .imm x, .op (.fn .pow)] [.imm (y * x), .op (.fn .pow)] := by
  intro vals st st'
  rcases st with _ | ⟨t, st⟩
  · run_code; simp
  run_code
  rintro ⟨g1, g2, rfl⟩
  obtain ⟨h2, h3⟩ := powpow g1 g2 (fun h0 => by
    by_cases hx : ∃ m : ℤ, x = m
    · exact Or.inl hx
    right
    rcases g1 with h3 | ⟨h3, _⟩ | ⟨_, n, rfl⟩
    · exact absurd h3 h0.not_gt
    · exact absurd h3 h0.ne
    rw [Real.rpow_intCast] at g2
    have hpos : 0 < t ^ n := by
      rcases g2 with h4 | ⟨h4, _⟩ | ⟨_, h4⟩
      · exact h4
      · exact absurd h4 (zpow_ne_zero n h0.ne)
      · exact absurd h4 hx
    rcases Int.even_or_odd n with he | ho
    · obtain ⟨k, rfl⟩ := he.two_dvd
      obtain ⟨m, hm⟩ := even_of_isEvenInt (not_not.mp fun hc => h ⟨isEvenInt_even k, hc⟩)
      exact ⟨m, by rw [mul_comm]; exact hm⟩
    · exact absurd hpos (ho.zpow_neg h0).not_gt)
  exact ⟨h2, by rw [h3]⟩

theorem sound_332 {x : ℝ} (h : x = 1 / 2) : Refines ε [.imm x, .op (.fn .pow)] [.op (.fn .sqrt)] := by
  subst h
  intro vals st st'
  rcases st with _ | ⟨t, st⟩
  · run_code; simp
  run_code
  rintro ⟨g1, rfl⟩
  rw [Real.sqrt_eq_rpow]
  exact ⟨powDef_nonneg g1 (by rintro ⟨n, hn⟩; exact half_not_int n (by linarith)), rfl⟩

theorem sound_333 {x : ℝ} (h : x = 1 / 3) : Refines ε [.imm x, .op (.fn .pow)] [.op (.fn .cbrt)] := by
  subst h
  intro vals st st'
  rcases st with _ | ⟨t, st⟩
  · run_code; simp
  run_code
  rintro ⟨g1, rfl⟩
  have ht : 0 ≤ t := powDef_nonneg g1 (by rintro ⟨n, hn⟩; exact third_not_int n (by linarith))
  congr 1
  rw [fpCbrt_eq]
  rcases ht.lt_or_eq with h | h
  · rw [sign_pos h, abs_of_pos h]; simp
  · subst h; simp

theorem sound_334 {x : ℝ} (h : x = 1 / (-3)) : Refines ε [.imm x, .op (.fn .pow)] [.op (.fn .cbrt), .op .inv] := by
  subst h
  intro vals st st'
  rcases st with _ | ⟨t, st⟩
  · run_code; simp
  run_code
  rintro ⟨g1, rfl⟩
  have ht : 0 < t := by
    rcases g1 with h | ⟨h, h1⟩ | ⟨h, n, h1⟩
    · exact h
    · norm_num at h1
    · exact absurd (show (n : ℝ) = -(1 / 3) by rw [← h1]; norm_num)
        (by intro e; exact third_not_int (-n) (by push_cast; linarith))
  have hc : fpCbrt t = t ^ (1 / 3 : ℝ) := by rw [fpCbrt_eq, sign_pos ht, abs_of_pos ht]; simp
  rw [hc]
  refine ⟨(Real.rpow_pos_of_pos ht _).ne', ?_⟩
  congr 1
  rw [one_div, ← Real.rpow_neg ht.le]
  norm_num

theorem sound_335 {x : ℝ} (h : x = -1 / 2) : Refines ε [.imm x, .op (.fn .pow)] [.op .rsqrt] := by
  subst h
  intro vals st st'
  rcases st with _ | ⟨t, st⟩
  · run_code; simp
  run_code
  rintro ⟨g1, rfl⟩
  have ht : 0 < t := by
    rcases g1 with h | ⟨h, h1⟩ | ⟨h, n, h1⟩
    · exact h
    · norm_num at h1
    · exact absurd (show (n : ℝ) = -1 / 2 by linarith) (by intro e; exact half_not_int (-n) (by push_cast; linarith))
  refine ⟨ht, ?_⟩
  congr 1
  rw [Real.sqrt_eq_rpow, one_div, ← Real.rpow_neg ht.le]
  norm_num

theorem sound_336 {x : ℝ} (h : x = -1) : Refines ε [.imm x, .op (.fn .pow)] [.op .inv] := by
  subst h
  intro vals st st'
  rcases st with _ | ⟨t, st⟩
  · run_code; simp
  run_code
  rintro ⟨g1, rfl⟩
  have ht : t ≠ 0 := by
    rcases g1 with h | ⟨h, h1⟩ | ⟨h, n, h1⟩
    · exact h.ne'
    · norm_num at h1
    · exact h.ne
  refine ⟨ht, ?_⟩
  congr 1
  rw [Real.rpow_neg_one, one_div]

theorem sound_338 {a : Op} (h : neverNegative a = true) : Refines ε [.op a, .op (.fn .sqrt), .op .sqr] [.op a] := by
  refine op_refines fun vals st st' v s ha => ?_
  run_code
  rintro ⟨g1, rfl⟩
  rw [Real.mul_self_sqrt g1]

theorem sound_340 {a : Op} (h : neverNegative a = true) : Refines ε [.op a, .op (.fn .log), .op (.fn .exp)] [.op a] := by
  refine op_refines fun vals st st' v s ha => ?_
  run_code
  rintro ⟨g1, rfl⟩
  rw [Real.exp_log g1]

theorem sound_341 {a : Op} (h : neverNegative a = true) : Refines ε [.op a, .op (.fn .log2), .op (.fn .exp2)] [.op a] := by
  refine op_refines fun vals st st' v s ha => ?_
  run_code
  rintro ⟨g1, rfl⟩
  have h2 : Real.log 2 ≠ 0 := (Real.log_pos (by norm_num)).ne'
  congr 1
  rw [Real.rpow_def_of_pos (by norm_num), show Real.log 2 * (Real.log v * (1 / Real.log 2)) = Real.log v by field_simp,
    Real.exp_log g1]

theorem sound_343 : Refines ε [.op (.fn .exp), .op (.fn .log)] [] := by
  intro vals st st'
  rcases st with _ | ⟨t, st⟩
  · run_code; simp
  run_code
  rintro ⟨g1, rfl⟩
  rule_value

theorem sound_344 : Refines ε [.op (.fn .exp2), .op (.fn .log2)] [] := by
  intro vals st st'
  rcases st with _ | ⟨t, st⟩
  · run_code; simp
  run_code
  rintro ⟨g1, rfl⟩
  congr 1
  rw [Real.log_rpow (by norm_num)]
  have : Real.log 2 ≠ 0 := (Real.log_pos (by norm_num)).ne'
  field_simp

theorem sound_349 : Refines ε [.op (.fn .asinh), .op (.fn .sinh)] [] := by
  intro vals st st'
  rcases st with _ | ⟨t, st⟩
  · run_code; simp
  run_code
  rintro rfl
  rule_value

theorem sound_355 : Refines ε [.op (.fn .pow), .op .inv] [.op .neg, .op (.fn .pow)] := by
  intro vals st st'
  rcases st with _ | ⟨u, _ | ⟨t, st⟩⟩
  · run_code; simp
  · run_code; simp
  run_code
  rintro ⟨g1, g2, rfl⟩
  refine ⟨powDef_neg g1 (fun e => g2 e), ?_⟩
  congr 1
  rw [rpow_neg_of_powDef g1, one_div]

theorem sound_359 {x : ℝ} (h : x = 0) : Refines ε [.op (.fn .abs), .imm x, .op .equal] [.imm x, .op .equal] := by
  subst h
  intro vals st st'
  rcases st with _ | ⟨t, st⟩
  · run_code; simp
  run_code
  rintro rfl
  rule_value

theorem sound_360 {x : ℝ} (h : x = 0) : Refines ε [.op (.fn .abs), .imm x, .op .nequal] [.imm x, .op .nequal] := by
  subst h
  intro vals st st'
  rcases st with _ | ⟨t, st⟩
  · run_code; simp
  run_code
  rintro rfl
  rule_value

theorem sound_361 {x : ℝ} (h : x = 0) : Refines 0 [.op .sqr, .imm x, .op .equal] [.imm x, .op .equal] := by
  subst h
  intro vals st st'
  rcases st with _ | ⟨t, st⟩
  · run_code; simp
  run_code
  rintro rfl
  simp only [sub_zero, abs_nonpos_iff, mul_self_eq_zero]

theorem sound_362 {x : ℝ} (h : x = 0) : Refines 0 [.op .sqr, .imm x, .op .nequal] [.imm x, .op .nequal] := by
  subst h
  intro vals st st'
  rcases st with _ | ⟨t, st⟩
  · run_code; simp
  run_code
  rintro rfl
  simp

theorem sound_364 {y x : ℝ} {a : Op} (h : isComparison a = true) :
    Refines ε [.imm y, .op .add, .imm x, .op a] [.imm (x - y), .op a] := by
  intro vals st st'
  rcases st with _ | ⟨t, st⟩
  · run_code; simp
  run_code
  rw [run_op, run_op, cmp_shift h]
  exact id

theorem sound_365 {x : ℝ} {a : Op} (h : isComparison a = true) :
    Refines ε [.op .neg, .imm x, .op a] [.imm (-x), .op (oppositeComparison a)] := by
  intro vals st st'
  rcases st with _ | ⟨t, st⟩
  · run_code; simp
  run_code
  rw [run_op, run_op, cmp_neg h]
  exact id

theorem sound_366 {y x : ℝ} {a : Op} (h : y > 0) (h1 : isComparison a = true) :
    Refines 0 [.imm y, .op .mul, .imm x, .op a] [.imm (x / y), .op a] := by
  intro vals st st'
  rcases st with _ | ⟨t, st⟩
  · run_code; simp
  run_code
  rw [run_op, run_op, cmp_mono h1
    ((lt_div_iff₀ h).symm)
    ((div_lt_iff₀ h).symm)]
  exact id

theorem sound_367 {y x : ℝ} {a : Op} (h : y < 0) (h1 : isComparison a = true) :
    Refines 0 [.imm y, .op .mul, .imm x, .op a] [.imm (x / y), .op (oppositeComparison a)] := by
  intro vals st st'
  rcases st with _ | ⟨t, st⟩
  · run_code; simp
  run_code
  rw [run_op, run_op, cmp_anti h1
    ((div_lt_iff_of_neg h).symm)
    ((lt_div_iff_of_neg h).symm)]
  exact id

theorem sound_369 {x : ℝ} {a : Op} (h : x > 0) (h1 : isComparison a = true) :
    Refines 0 [.op .sqr, .imm x, .op a] [.op (.fn .abs), .imm (Real.sqrt x), .op a] := by
  intro vals st st'
  rcases st with _ | ⟨t, st⟩
  · run_code; simp
  run_code
  have hlt : t * t < x ↔ |t| < Real.sqrt x := by
    rw [← Real.sqrt_mul_self_eq_abs, Real.sqrt_lt_sqrt_iff (mul_self_nonneg t)]
  have hgt : x < t * t ↔ Real.sqrt x < |t| := by
    rw [← Real.sqrt_mul_self_eq_abs, Real.sqrt_lt_sqrt_iff (le_of_lt h)]
  rw [run_op, run_op, cmp_mono h1 hlt hgt]
  exact id

theorem sound_370 {x : ℝ} {a : Op} (h : x > 0) (h1 : isComparison a = true) :
    Refines 0 [.op (.fn .exp), .imm x, .op a] [.imm (Real.log x), .op a] := by
  intro vals st st'
  rcases st with _ | ⟨t, st⟩
  · run_code; simp
  run_code
  rw [run_op, run_op, cmp_mono h1
    ((Real.lt_log_iff_exp_lt h).symm)
    ((Real.log_lt_iff_lt_exp h).symm)]
  exact id

theorem sound_371 {x : ℝ} {a : Op} (h : x > 0) (h1 : isComparison a = true) :
    Refines 0 [.op (.fn .exp2), .imm x, .op a] [.imm (Real.log x * (1 / Real.log 2)), .op a] := by
  intro vals st st'
  rcases st with _ | ⟨t, st⟩
  · run_code; simp
  run_code
  have h2 : 0 < Real.log 2 := Real.log_pos (by norm_num)
  have hlt : (2 : ℝ) ^ t < x ↔ t < Real.log x * (1 / Real.log 2) := by
    rw [mul_one_div, lt_div_iff₀ h2, Real.lt_log_iff_exp_lt h, Real.rpow_def_of_pos (by norm_num), mul_comm]
  have hgt : x < (2 : ℝ) ^ t ↔ Real.log x * (1 / Real.log 2) < t := by
    rw [mul_one_div, div_lt_iff₀ h2, Real.log_lt_iff_lt_exp h, Real.rpow_def_of_pos (by norm_num), mul_comm]
  rw [run_op, run_op, cmp_mono h1 hlt hgt]
  exact id

theorem sound_373 {x : ℝ} {a b : Op} (h : neverNegative b = true) (h1 : isComparison a = true) :
    Refines 0 [.op b, .op (.fn .log), .imm x, .op a] [.op b, .imm (Real.exp x), .op a] := by
  refine op_refines fun vals st st' v s ha => ?_
  run_code
  rintro ⟨g1, H⟩
  rw [run_op] at H ⊢
  rw [← cmp_mono h1
    (Real.log_lt_iff_lt_exp g1)
    (Real.lt_log_iff_exp_lt g1)]
  exact H

theorem sound_374 {x : ℝ} {a b : Op} (h : neverNegative b = true) (h1 : isComparison a = true) :
    Refines 0 [.op b, .op (.fn .log2), .imm x, .op a] [.op b, .imm (2 ^ x), .op a] := by
  refine op_refines fun vals st st' v s ha => ?_
  run_code
  rintro ⟨g1, H⟩
  have h2 : 0 < Real.log 2 := Real.log_pos (by norm_num)
  have hlt : Real.log v * (1 / Real.log 2) < x ↔ v < 2 ^ x := by
    rw [mul_one_div, div_lt_iff₀ h2, Real.log_lt_iff_lt_exp g1, Real.rpow_def_of_pos (by norm_num), mul_comm]
  have hgt : x < Real.log v * (1 / Real.log 2) ↔ 2 ^ x < v := by
    rw [mul_one_div, lt_div_iff₀ h2, Real.lt_log_iff_exp_lt g1, Real.rpow_def_of_pos (by norm_num), mul_comm]
  rw [run_op] at H ⊢
  rw [← cmp_mono h1 hlt hgt]
  exact H

theorem sound_375 {x : ℝ} {a b : Op} (h : neverNegative b = true) (h1 : isComparison a = true) :
    Refines 0 [.op b, .op (.fn .log10), .imm x, .op a] [.op b, .imm (10 ^ x), .op a] := by
  refine op_refines fun vals st st' v s ha => ?_
  run_code
  rintro ⟨g1, H⟩
  have h2 : 0 < Real.log 10 := Real.log_pos (by norm_num)
  have hlt : Real.log v * (1 / Real.log 10) < x ↔ v < 10 ^ x := by
    rw [mul_one_div, div_lt_iff₀ h2, Real.log_lt_iff_lt_exp g1, Real.rpow_def_of_pos (by norm_num), mul_comm]
  have hgt : x < Real.log v * (1 / Real.log 10) ↔ 10 ^ x < v := by
    rw [mul_one_div, lt_div_iff₀ h2, Real.lt_log_iff_exp_lt g1, Real.rpow_def_of_pos (by norm_num), mul_comm]
  rw [run_op] at H ⊢
  rw [← cmp_mono h1 hlt hgt]
  exact H

theorem sound_380 {x : ℝ} {a : Op} (h : |x| < Real.pi * (1 / 2)) (h1 : isComparison a = true) :
    Refines 0 [.op (.fn .atan), .imm x, .op a] [.imm (Real.tan x), .op a] := by
  intro vals st st'
  rcases st with _ | ⟨t, st⟩
  · run_code; simp
  run_code
  have hx : Real.arctan (Real.tan x) = x := by
    rw [abs_lt] at h
    exact Real.arctan_tan (by linarith) (by linarith)
  rw [run_op, run_op, cmp_mono h1
    (by conv_lhs => rw [← hx, Real.arctan_strictMono.lt_iff_lt])
    (by conv_lhs => rw [← hx, Real.arctan_strictMono.lt_iff_lt])]
  exact id

theorem sound_381 {x : ℝ} {a : Op} (h : isComparison a = true) :
    Refines 0 [.op (.fn .sinh), .imm x, .op a] [.imm (Real.arsinh x), .op a] := by
  intro vals st st'
  rcases st with _ | ⟨t, st⟩
  · run_code; simp
  run_code
  have hlt : Real.sinh t < x ↔ t < Real.arsinh x := by
    rw [← Real.sinh_lt_sinh (x := t), Real.sinh_arsinh]
  have hgt : x < Real.sinh t ↔ Real.arsinh x < t := by
    rw [← Real.sinh_lt_sinh (x := Real.arsinh x), Real.sinh_arsinh]
  rw [run_op, run_op, cmp_mono h hlt hgt]
  exact id

theorem sound_382 {x : ℝ} {a : Op} (h : |x| < 1) (h1 : isComparison a = true) :
    Refines 0 [.op (.fn .tanh), .imm x, .op a] [.imm (Real.artanh x), .op a] := by
  intro vals st st'
  rcases st with _ | ⟨t, st⟩
  · run_code; simp
  run_code
  have hx : x ∈ Set.Ioo (-1) 1 := abs_lt.mp h
  have ht : Real.tanh t ∈ Set.Ioo (-1) 1 := Real.tanh_bijOn.mapsTo trivial
  have hlt : Real.tanh t < x ↔ t < Real.artanh x := by
    rw [← Real.artanh_lt_artanh_iff ht hx, Real.artanh_tanh]
  have hgt : x < Real.tanh t ↔ Real.artanh x < t := by
    rw [← Real.artanh_lt_artanh_iff hx ht, Real.artanh_tanh]
  rw [run_op, run_op, cmp_mono h1 hlt hgt]
  exact id

theorem sound_385 {y x : ℝ} : Refines ε [.imm y, .op .add, .imm x, .op .mul] [.imm x, .op .mul, .imm (y * x), .op .add] := by
  intro vals st st'
  rcases st with _ | ⟨t, st⟩
  · run_code; simp
  run_code
  rintro rfl
  rule_value

theorem sound_386 {y x : ℝ} {a : Nat} :
    Refines ε [.var a, .imm y, .op .mul, .op .add, .imm x, .op .mul]
      [.imm x, .op .mul, .var a, .imm (y * x), .op .mul, .op .add] := by
  intro vals st st'
  rcases st with _ | ⟨t, st⟩
  · run_code; simp
  run_code
  rcases vals[a]? with _ | a'
  · run_code; simp
  run_code
  rintro rfl
  rule_value

theorem sound_387 {y x : ℝ} {a : Nat} :
    Refines ε [.var a, .imm y, .op .mul, .op .sub, .imm x, .op .mul]
      [.imm x, .op .mul, .var a, .imm (y * x), .op .mul, .op .sub] := by
  intro vals st st'
  rcases st with _ | ⟨t, st⟩
  · run_code; simp
  run_code
  rcases vals[a]? with _ | a'
  · run_code; simp
  run_code
  rintro rfl
  rule_value

theorem sound_389 {a : Op} (h : isLogical a = true) : Refines ε [.op a, .op .absNot, .op .not] [.op a] := by
  refine op_refines fun vals st st' v s ha => ?_
  obtain ⟨b, s', e⟩ := logical_bool h ha
  cases e
  run_code
  rintro rfl
  rw [fpTruth_ofBool, fpAbsTruth_ofBool, Bool.not_not]

theorem sound_390 {a : Instr} : Refines ε [a, .op .absNot, .op .not] [a, .op .absNotNot] := by
  intro vals st st' H
  rw [runCode] at H ⊢
  cases ha : runInstr ε vals a st with
  | none => rw [ha] at H; cases H
  | some s =>
    rw [ha] at H
    revert H
    rw [Option.bind_some, Option.bind_some]
    rcases s with _ | ⟨t, s⟩
    · run_code; simp
    · run_code
      rintro rfl
      rw [fpTruth_ofBool, Bool.not_not]

theorem sound_391 {a : Op} (h : neverNegative a = true) : Refines ε [.op a, .op .not] [.op a, .op .absNot] := by
  refine op_refines fun vals st st' v s ha => ?_
  have hv := neverNegative_nonneg h ha
  run_code
  rintro rfl
  simp [fpTruth, fpAbsTruth, abs_of_nonneg hv]

theorem sound_393 {a : Op} (h : neverNegative a = true) : Refines ε [.op a, .op (.fn .abs)] [.op a] := by
  refine op_refines fun vals st st' v s ha => ?_
  have hv := neverNegative_nonneg h ha
  run_code
  rintro rfl
  rw [abs_of_nonneg hv]

theorem sound_394 {a : Op} (h : isAlwaysInteger a = true) : Refines ε [.op a, .op (.fn .trunc)] [.op a] := by
  refine op_refines fun vals st st' v s ha => ?_
  obtain ⟨n, s', e⟩ := alwaysInteger_int h ha
  cases e
  run_code
  rintro rfl
  rw [fpTrunc_int]

theorem sound_395 {a : Op} (h : isAlwaysInteger a = true) : Refines ε [.op a, .op (.fn .floor)] [.op a] := by
  refine op_refines fun vals st st' v s ha => ?_
  obtain ⟨n, s', e⟩ := alwaysInteger_int h ha
  cases e
  run_code
  rintro rfl
  rw [Int.floor_intCast]

theorem sound_396 {a : Op} (h : isAlwaysInteger a = true) : Refines ε [.op a, .op (.fn .ceil)] [.op a] := by
  refine op_refines fun vals st st' v s ha => ?_
  obtain ⟨n, s', e⟩ := alwaysInteger_int h ha
  cases e
  run_code
  rintro rfl
  rw [Int.ceil_intCast]

theorem sound_397 {a : Op} (h : isAlwaysInteger a = true) : Refines ε [.op a, .op (.fn .int)] [.op a] := by
  refine op_refines fun vals st st' v s ha => ?_
  obtain ⟨n, s', e⟩ := alwaysInteger_int h ha
  cases e
  run_code
  rintro rfl
  rw [fpInt_int]

theorem sound_401 : Refines ε [.op .neg, .op (.fn .floor)] [.op (.fn .ceil), .op .neg] := by
  intro vals st st'
  rcases st with _ | ⟨t, st⟩
  · run_code; simp
  run_code
  rintro rfl
  congr 1
  simp [Int.floor_neg]

theorem sound_402 : Refines ε [.op .neg, .op (.fn .ceil)] [.op (.fn .floor), .op .neg] := by
  intro vals st st'
  rcases st with _ | ⟨t, st⟩
  · run_code; simp
  run_code
  rintro rfl
  congr 1
  simp [Int.ceil_neg]

theorem sound_404 {x : ℝ} : Refines ε [.imm x, .op .add, .op (.fn .exp)] [.op (.fn .exp), .imm (Real.exp x), .op .mul] := by
  intro vals st st'
  rcases st with _ | ⟨t, st⟩
  · run_code; simp
  run_code
  rintro rfl
  congr 1
  exact (Real.exp_add _ _).symm

theorem sound_405 {x : ℝ} : Refines ε [.imm x, .op .add, .op (.fn .exp2)] [.op (.fn .exp2), .imm (2 ^ x), .op .mul] := by
  intro vals st st'
  rcases st with _ | ⟨t, st⟩
  · run_code; simp
  run_code
  rintro rfl
  congr 1
  exact (Real.rpow_add (by norm_num) _ _).symm

theorem sound_407 : Refines ε [.op (.fn .pow), .op .div] [.op .neg, .op (.fn .pow), .op .mul] := by
  intro vals st st'
  rcases st with _ | ⟨w, _ | ⟨u, _ | ⟨t, st⟩⟩⟩
  · run_code; simp
  · run_code; simp
  · run_code; simp
  run_code
  rintro ⟨g1, g2, rfl⟩
  refine ⟨powDef_neg g1 (fun e => g2 e), ?_⟩
  congr 1
  rw [rpow_neg_of_powDef g1, div_eq_mul_inv]

theorem sound_408 : Refines ε [.op (.fn .exp), .op .div] [.op .neg, .op (.fn .exp), .op .mul] := by
  intro vals st st'
  rcases st with _ | ⟨u, _ | ⟨t, st⟩⟩
  · run_code; simp
  · run_code; simp
  run_code
  rintro ⟨g1, rfl⟩
  congr 1
  rw [Real.exp_neg]; rfl

theorem sound_409 : Refines ε [.op (.fn .exp2), .op .div] [.op .neg, .op (.fn .exp2), .op .mul] := by
  intro vals st st'
  rcases st with _ | ⟨u, _ | ⟨t, st⟩⟩
  · run_code; simp
  · run_code; simp
  run_code
  rintro ⟨g1, rfl⟩
  congr 1
  rw [Real.rpow_neg (by norm_num)]; rfl

theorem sound_429 {x : ℝ} (h : x = 1 / 2) : Refines 0 [.imm x, .op .less] [.op .absNot] := by
  subst h
  intro vals st st'
  rcases st with _ | ⟨t, st⟩
  · run_code; simp
  run_code
  rintro rfl
  congr 2
  simp only [fpAbsTruth, ge_iff_le, sub_zero, add_zero, ← decide_not, not_le]

theorem sound_430 {x : ℝ} (h : x = 1 / 2) : Refines 0 [.imm x, .op .greaterOrEq] [.op .absNotNot] := by
  subst h
  intro vals st st'
  rcases st with _ | ⟨t, st⟩
  · run_code; simp
  run_code
  rintro rfl
  congr 2
  simp only [fpAbsTruth, ge_iff_le, sub_zero, add_zero, ← decide_not, not_le]

theorem sound_431 {x : ℝ} (h : x = -1 / 2) : Refines 0 [.imm x, .op .greater] [.op .neg, .op .absNot] := by
  subst h
  intro vals st st'
  rcases st with _ | ⟨t, st⟩
  · run_code; simp
  run_code
  rintro rfl
  congr 2
  simp only [fpAbsTruth, ge_iff_le, sub_zero, add_zero, ← decide_not, not_le, decide_eq_decide]
  constructor <;> intro <;> linarith

theorem sound_432 {x : ℝ} (h : x = -1 / 2) : Refines 0 [.imm x, .op .lessOrEq] [.op .neg, .op .absNotNot] := by
  subst h
  intro vals st st'
  rcases st with _ | ⟨t, st⟩
  · run_code; simp
  run_code
  rintro rfl
  congr 2
  simp only [fpAbsTruth, ge_iff_le, sub_zero, add_zero, ← decide_not, not_le, decide_eq_decide]
  constructor <;> intro <;> linarith

theorem sound_434 {x : ℝ} (h : IsEvenInt 0 x) :
    Refines 0 [.op (.fn .abs), .imm x, .op (.fn .pow)] [.imm x, .op (.fn .pow)] := by
  intro vals st st'
  rcases st with _ | ⟨t, st⟩
  · run_code; simp
  run_code
  rintro ⟨g1, rfl⟩
  obtain ⟨n, rfl⟩ := even_of_isEvenInt h
  exact ⟨powDef_of_abs_even g1, by rw [abs_rpow_even]⟩

theorem sound_435 {x : ℝ} (h : IsEvenInt 0 x) :
    Refines 0 [.op (.fn .abs), .op .mul, .imm x, .op (.fn .pow)] [.op .mul, .imm x, .op (.fn .pow)] := by
  intro vals st st'
  rcases st with _ | ⟨u, _ | ⟨t, st⟩⟩
  · run_code; simp
  · run_code; simp
  run_code
  rintro ⟨g1, rfl⟩
  obtain ⟨n, rfl⟩ := even_of_isEvenInt h
  have e : (t * |u|) ^ ((2 * n : ℤ) : ℝ) = (t * u) ^ ((2 * n : ℤ) : ℝ) := by
    rw [← abs_rpow_even (t * _), ← abs_rpow_even (t * u), abs_mul, abs_abs, abs_mul]
  refine ⟨?_, by rw [e]⟩
  have h3 : PowDef |t * abs u| ((2 * n : ℤ) : ℝ) := by
    rcases g1 with h1 | ⟨h1, h2⟩ | ⟨h1, h2⟩
    · exact Or.inl (abs_pos.mpr h1.ne')
    · exact Or.inr (Or.inl ⟨by rw [h1, abs_zero], h2⟩)
    · exact Or.inl (abs_pos.mpr h1.ne)
  rw [abs_mul, abs_abs, ← abs_mul] at h3
  exact powDef_of_abs_even h3

theorem sound_437 : Refines ε [.op (.fn .acosh), .op (.fn .sinh)] [.op .sqr, .imm (-1), .op .add, .op (.fn .sqrt)] := by
  intro vals st st'
  rcases st with _ | ⟨t, st⟩
  · run_code; simp
  run_code
  rintro ⟨g1, rfl⟩
  have h0 : 0 ≤ t * t + -1 := by nlinarith
  refine ⟨h0, ?_⟩
  congr 1
  rw [Real.sinh_arcosh g1]
  congr 1
  ring

theorem sound_450 : Refines ε [.op (.fn .asinh), .op (.fn .cosh)] [.op .sqr, .imm 1, .op .add, .op (.fn .sqrt)] := by
  intro vals st st'
  rcases st with _ | ⟨t, st⟩
  · run_code; simp
  run_code
  rintro rfl
  refine ⟨by nlinarith [mul_self_nonneg t], ?_⟩
  congr 1
  rw [Real.cosh_arsinh]
  congr 1
  ring

theorem sound_458 {a : Nat} : Refines ε [.var a, .var a, .op .mul] [.var a, .op .sqr] := by
  intro vals st st'
  run_code
  rcases vals[a]? with _ | a'
  · run_code; simp
  run_code
  rintro rfl
  rule_value

theorem sound_461 {a : Nat} : Refines ε [.var a, .op .mul, .var a, .op .mul] [.var a, .op .sqr, .op .mul] := by
  intro vals st st'
  rcases st with _ | ⟨t, st⟩
  · run_code; simp
  run_code
  rcases vals[a]? with _ | a'
  · run_code; simp
  run_code
  rintro rfl
  rule_value

theorem sound_464 {a : Nat} : Refines ε [.var a, .op .neg, .var a, .op .mul] [.var a, .op .sqr, .op .neg] := by
  intro vals st st'
  run_code
  rcases vals[a]? with _ | a'
  · run_code; simp
  run_code
  rintro rfl
  rule_value

theorem sound_467 : Refines ε [.dup, .op .neg, .op .mul] [.op .sqr, .op .neg] := by
  intro vals st st'
  rcases st with _ | ⟨t, st⟩
  · run_code; simp
  run_code
  rintro rfl
  rule_value

theorem sound_470 {a : Nat} :
    Refines ε [.var a, .op .neg, .op .mul, .var a, .op .mul] [.var a, .op .sqr, .op .mul, .op .neg] := by
  intro vals st st'
  rcases st with _ | ⟨t, st⟩
  · run_code; simp
  run_code
  rcases vals[a]? with _ | a'
  · run_code; simp
  run_code
  rintro rfl
  rule_value

theorem sound_473 {a : Nat} :
    Refines ε [.var a, .op .mul, .var a, .op .neg, .op .mul] [.var a, .op .sqr, .op .mul, .op .neg] := by
  intro vals st st'
  rcases st with _ | ⟨t, st⟩
  · run_code; simp
  run_code
  rcases vals[a]? with _ | a'
  · run_code; simp
  run_code
  rintro rfl
  rule_value

theorem sound_475 {a : Nat} : Refines ε [.var a, .var a] [.var a, .dup] := by
  intro vals st st'
  run_code
  rcases vals[a]? with _ | a'
  · run_code; simp
  run_code
  rintro rfl
  rule_value

theorem sound_476 {b : Nat} {a : Op} (h : isUnary a = true) :
    Refines ε [.var b, .op a, .var b, .op a] [.var b, .op a, .dup] := by
  intro vals st st'
  rw [run_var, run_var]
  rcases hv : vals[b]? with _ | v
  · rintro ⟨⟩
  rw [Option.bind_some, Option.bind_some, run_op, run_op]
  rcases unary_run (ε := ε) h v with h3 | ⟨w, h3⟩
  · rw [h3]; rintro ⟨⟩
  · rw [h3, Option.bind_some, Option.bind_some, run_var, hv, Option.bind_some, run_op, h3, Option.bind_some, run_dup]
    exact id

theorem sound_477 {b : Nat} {a : Op} (h : isUnary a = true) :
    Refines ε [.var b, .op a, .op .mul, .var b, .op a, .op .mul] [.var b, .op a, .op .sqr, .op .mul] := by
  intro vals st st'
  rw [run_var, run_var]
  rcases hv : vals[b]? with _ | v
  · rintro ⟨⟩
  rw [Option.bind_some, Option.bind_some, run_op, run_op]
  rcases unary_run (ε := ε) h v with h3 | ⟨w, h3⟩
  · rw [h3]; rintro ⟨⟩
  · rw [h3, Option.bind_some, Option.bind_some]
    rcases st with _ | ⟨t, st⟩
    · run_code; simp
    rw [run_mul, run_var, hv, Option.bind_some, run_op, h3, Option.bind_some]
    run_code
    rintro rfl
    rw [mul_assoc]

theorem sound_479 : Refines ε [.op (.fn .exp2)] [.imm (Real.log 2), .op .mul, .op (.fn .exp)] := by
  intro vals st st'
  rcases st with _ | ⟨t, st⟩
  · run_code; simp
  run_code
  rintro rfl
  congr 1
  rw [Real.rpow_def_of_pos (by norm_num), mul_comm]

theorem sound_480 :
    Refines ε [.op (.fn .exp), .op (.fn .log2)] [.imm (Real.log (Real.exp 1) * (1 / Real.log 2)), .op .mul] := by
  intro vals st st'
  rcases st with _ | ⟨t, st⟩
  · run_code; simp
  run_code
  rintro ⟨g1, rfl⟩
  rule_value

theorem sound_481 :
    Refines ε [.op (.fn .exp), .op (.fn .log10)] [.imm (Real.log (Real.exp 1) * (1 / Real.log 10)), .op .mul] := by
  intro vals st st'
  rcases st with _ | ⟨t, st⟩
  · run_code; simp
  run_code
  rintro ⟨g1, rfl⟩
  rule_value

theorem sound_490 {x : ℝ} (h : x > 0) :
    Refines ε [.imm x, .op .mul, .op (.fn .log2)] [.op (.fn .log2), .imm (Real.log x * (1 / Real.log 2)), .op .add] := by
  intro vals st st'
  rcases st with _ | ⟨t, st⟩
  · run_code; simp
  run_code
  rintro ⟨g1, rfl⟩
  have ht : 0 < t := (mul_pos_iff_of_pos_right h).mp g1
  refine ⟨ht, ?_⟩
  congr 1
  rw [Real.log_mul ht.ne' h.ne']
  ring

theorem sound_491 {x : ℝ} (h : x > 0) :
    Refines ε [.imm x, .op .mul, .op (.fn .log)] [.op (.fn .log), .imm (Real.log x), .op .add] := by
  intro vals st st'
  rcases st with _ | ⟨t, st⟩
  · run_code; simp
  run_code
  rintro ⟨g1, rfl⟩
  have ht : 0 < t := (mul_pos_iff_of_pos_right h).mp g1
  refine ⟨ht, ?_⟩
  congr 1
  rw [Real.log_mul ht.ne' h.ne']

theorem sound_492 {x : ℝ} (h : x > 0) :
    Refines ε [.imm x, .op .mul, .op (.fn .log10)] [.op (.fn .log10), .imm (Real.log x * (1 / Real.log 10)), .op .add] := by
  intro vals st st'
  rcases st with _ | ⟨t, st⟩
  · run_code; simp
  run_code
  rintro ⟨g1, rfl⟩
  have ht : 0 < t := (mul_pos_iff_of_pos_right h).mp g1
  refine ⟨ht, ?_⟩
  congr 1
  rw [Real.log_mul ht.ne' h.ne']
  ring

theorem sound_494 {a : Nat} : Refines ε [.var a, .op (.fn .sin), .var a, .op (.fn .cos)] [.var a, .op .sinCos] := by
  intro vals st st'
  run_code
  rcases vals[a]? with _ | a'
  · run_code; simp
  run_code
  rintro rfl
  rule_value

theorem sound_495 {a : Nat} : Refines ε [.var a, .op (.fn .sin), .var a, .op (.fn .sec)] [.var a, .op .sinCos, .op .inv] := by
  intro vals st st'
  run_code
  rcases vals[a]? with _ | a'
  · run_code; simp
  run_code
  rintro ⟨g1, rfl⟩
  refine ⟨?_, ?_⟩
  · rule_guard
  · rule_value

theorem sound_496 {a : Nat} :
    Refines ε [.var a, .op (.fn .sin), .var a, .op (.fn .csc)] [.var a, .op (.fn .sin), .dup, .op .inv] := by
  intro vals st st'
  run_code
  rcases vals[a]? with _ | a'
  · run_code; simp
  run_code
  rintro ⟨g1, rfl⟩
  refine ⟨?_, ?_⟩
  · rule_guard
  · rule_value

theorem sound_497 {a : Nat} :
    Refines ε [.var a, .op (.fn .cos), .var a, .op (.fn .sec)] [.var a, .op (.fn .cos), .dup, .op .inv] := by
  intro vals st st'
  run_code
  rcases vals[a]? with _ | a'
  · run_code; simp
  run_code
  rintro ⟨g1, rfl⟩
  refine ⟨?_, ?_⟩
  · rule_guard
  · rule_value

theorem sound_498 {a : Nat} :
    Refines ε [.var a, .op (.fn .tan), .var a, .op (.fn .cot)] [.var a, .op (.fn .tan), .dup, .op .inv] := by
  intro vals st st'
  run_code
  rcases vals[a]? with _ | a'
  · run_code; simp
  run_code
  rintro ⟨g1, g2, rfl⟩
  have hs : Real.tan a' ≠ 0 := by rw [Real.tan_eq_sin_div_cos]; exact div_ne_zero g2 g1
  refine ⟨g1, hs, ?_⟩
  congr 1
  rw [Real.tan_eq_sin_div_cos]
  field_simp

theorem sound_499 {a : Nat} :
    Refines ε [.var a, .op (.fn .csc), .var a, .op (.fn .sin)] [.var a, .op (.fn .csc), .dup, .op .inv] := by
  intro vals st st'
  run_code
  rcases vals[a]? with _ | a'
  · run_code; simp
  run_code
  rintro ⟨g1, rfl⟩
  refine ⟨?_, ?_, ?_⟩
  · rule_guard
  · rule_guard
  · rule_value

theorem sound_500 {a : Nat} :
    Refines ε [.var a, .op (.fn .sec), .var a, .op (.fn .cos)] [.var a, .op (.fn .sec), .dup, .op .inv] := by
  intro vals st st'
  run_code
  rcases vals[a]? with _ | a'
  · run_code; simp
  run_code
  rintro ⟨g1, rfl⟩
  refine ⟨?_, ?_, ?_⟩
  · rule_guard
  · rule_guard
  · rule_value

theorem sound_501 {a : Nat} :
    Refines ε [.var a, .op (.fn .cot), .var a, .op (.fn .tan)] [.var a, .op (.fn .cot), .dup, .op .inv] := by
  intro vals st st'
  run_code
  rcases vals[a]? with _ | a'
  · run_code; simp
  run_code
  rintro ⟨g1, g2, rfl⟩
  have hs : Real.cos a' / Real.sin a' ≠ 0 := div_ne_zero g2 g1
  refine ⟨g1, hs, ?_⟩
  congr 1
  rw [Real.tan_eq_sin_div_cos]
  field_simp

theorem sound_502 : Refines ε [.op .sinCos, .op .div] [.op (.fn .tan)] := by
  intro vals st st'
  rcases st with _ | ⟨t, st⟩
  · run_code; simp
  run_code
  rintro ⟨g1, rfl⟩
  exact ⟨g1, by rw [Real.tan_eq_sin_div_cos]⟩

theorem sound_503 : Refines ε [.op .sinCos, .op .rdiv] [.op (.fn .cot)] := by
  intro vals st st'
  rcases st with _ | ⟨t, st⟩
  · run_code; simp
  run_code
  rintro ⟨g1, rfl⟩
  refine ⟨?_, ?_⟩
  · rule_guard
  · rule_value

theorem sound_505 {a : Nat} {c : Op} (h : isSwappable c = true) :
    Refines ε [.var a, .op (.fn .cos), .var a, .op (.fn .sin), .op c] [.var a, .op .sinCos, .op (paramSwapped c)] := by
  intro vals st st'
  run_code
  rcases vals[a]? with _ | v
  · rintro ⟨⟩
  rw [Option.bind_some, Option.bind_some, Option.bind_some, run_op, run_op, swapped h]
  exact id

theorem sound_506 {a : Nat} {c : Op} (h : isSwappable c = true) :
    Refines ε [.var a, .op (.fn .cosh), .var a, .op (.fn .sinh), .op c] [.var a, .op .sinhCosh, .op (paramSwapped c)] := by
  intro vals st st'
  run_code
  rcases vals[a]? with _ | v
  · rintro ⟨⟩
  rw [Option.bind_some, Option.bind_some, Option.bind_some, run_op, run_op, swapped h]
  exact id

theorem sound_507 {a : Nat} : Refines ε [.var a, .op (.fn .sinh), .var a, .op (.fn .cosh)] [.var a, .op .sinhCosh] := by
  intro vals st st'
  run_code
  rcases vals[a]? with _ | a'
  · run_code; simp
  run_code
  rintro rfl
  rule_value

theorem sound_508 {a : Nat} :
    Refines ε [.var a, .op (.fn .cos), .var a, .op (.fn .csc), .op .mul] [.var a, .op (.fn .cot)] := by
  intro vals st st'
  run_code
  rcases vals[a]? with _ | a'
  · run_code; simp
  run_code
  rintro ⟨g1, rfl⟩
  refine ⟨?_, ?_⟩
  · rule_guard
  · rule_value

theorem sound_509 : Refines ε [.op .sinhCosh, .op .div] [.op (.fn .tanh)] := by
  intro vals st st'
  rcases st with _ | ⟨t, st⟩
  · run_code; simp
  run_code
  rintro ⟨g1, rfl⟩
  rw [Real.tanh_eq_sinh_div_cosh]

theorem sound_510 : Refines ε [.op .sinhCosh, .op .rdiv] [.op (.fn .tanh), .op .inv] := by
  intro vals st st'
  rcases st with _ | ⟨t, st⟩
  · run_code; simp
  run_code
  rintro ⟨g1, rfl⟩
  refine ⟨by rw [Real.tanh_eq_sinh_div_cosh]; exact div_ne_zero g1 (Real.cosh_pos t).ne', ?_⟩
  congr 1
  rw [Real.tanh_eq_sinh_div_cosh, one_div_div]

theorem sound_512 {a : Nat} :
    Refines ε [.op .sqr, .var a, .op .sqr, .op .add, .op (.fn .sqrt)] [.var a, .op (.fn .hypot)] := by
  intro vals st st'
  rcases st with _ | ⟨t, st⟩
  · run_code; simp
  run_code
  rcases vals[a]? with _ | a'
  · run_code; simp
  run_code
  rintro ⟨g1, rfl⟩
  rule_value

theorem sound_513 {a : Nat} {b : Op} (h : isUnary b = true) :
    Refines ε [.op .sqr, .var a, .op b, .op .sqr, .op .add, .op (.fn .sqrt)] [.var a, .op b, .op (.fn .hypot)] := by
  intro vals st st'
  rcases st with _ | ⟨t, st⟩
  · run_code; simp
  rw [run_sqr, run_var, run_var]
  rcases hv : vals[a]? with _ | v
  · rintro ⟨⟩
  rw [Option.bind_some, Option.bind_some, run_op, run_op]
  rcases unary_run (ε := ε) h v with h3 | ⟨w, h3⟩
  · rw [h3]; rintro ⟨⟩
  · rw [h3, h3, Option.bind_some, Option.bind_some]
    run_code
    rintro ⟨_, rfl⟩
    rfl

end

end Hnco.FParser
