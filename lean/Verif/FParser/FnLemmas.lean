import Verif.FParser.Value

/-!
# The functions of the parser of expressions: lemmas
-/

namespace Hnco.FParser

open Real

theorem fpPowiLoop_eq (fuel : Nat) : ∀ (x : ℝ) (y : Nat) (r : ℝ), 2 * y ≤ fuel → fpPowiLoop fuel x y r = r * x ^ y := by
  induction fuel with
  | zero =>
    intro x y r h
    have : y = 0 := by omega
    subst this
    simp [fpPowiLoop]
  | succ k ih =>
    intro x y r h
    rw [fpPowiLoop]
    split
    · next hy => subst hy; simp
    split
    · next hy ho =>
      rw [ih x (y - 1) (r * x) (by omega)]
      obtain ⟨m, rfl⟩ : ∃ m, y = m + 1 := ⟨y - 1, by omega⟩
      simp [pow_succ]
      ring
    · next hy ho =>
      rw [ih (x * x) (y / 2) r (by omega)]
      obtain ⟨m, rfl⟩ : ∃ m, y = 2 * m := ⟨y / 2, by omega⟩
      rw [Nat.mul_div_cancel_left _ (by norm_num), pow_mul, pow_two]

theorem fpPowi_eq (x : ℝ) (n : Nat) : fpPowi x n = x ^ n := by
  rw [fpPowi, fpPowiLoop_eq _ _ _ _ le_rfl, one_mul]

theorem power_int (x : ℝ) (n : ℤ) (h : x ≠ 0 ∨ 0 ≤ n) : power x n = some (x ^ n) := by
  unfold power
  split
  · next h0 => rw [Real.rpow_intCast]
  split
  · next h0 h1 =>
    subst h1
    have hn : 0 ≤ n := h.resolve_left (by simp)
    split
    · next h2 =>
      have : n = 0 := by exact_mod_cast h2
      subst this; simp
    · next h2 =>
      have h3 : n ≠ 0 := by exact_mod_cast h2
      have : (0 : ℝ) < n := by exact_mod_cast lt_of_le_of_ne hn (Ne.symm h3)
      rw [when, if_pos this, zero_zpow _ h3]
  split
  · next h0 h1 h2 =>
    have := h2.choose_spec
    have e : h2.choose = n := by exact_mod_cast this.symm
    rw [e]
  · next h2 => exact absurd ⟨n, rfl⟩ h2

theorem fpPow_int (x : ℝ) (n : ℤ) : fpPow x n = some (x ^ n) := by
  unfold fpPow
  split
  · next h => subst h; simp
  rw [if_pos (by simp)]
  split
  · next h =>
    have hn : 0 ≤ n := by exact_mod_cast h
    obtain ⟨m, rfl⟩ := Int.eq_ofNat_of_zero_le hn
    simp [fpPowi_eq]
  · next h =>
    have hn : n < 0 := by
      by_contra hc
      exact h (by exact_mod_cast not_lt.mp hc)
    obtain ⟨m, rfl⟩ : ∃ m : ℕ, n = -(m : ℤ) := ⟨(-n).toNat, by omega⟩
    rw [Int.floor_intCast]
    simp [fpPowi_eq]

/-- The code of powers computes powers. -/
theorem evalPow (x y : ℝ) : evalFn2 .pow x y = power x y := by
  unfold evalFn2
  simp only
  split
  · next h =>
    obtain ⟨rfl, hy⟩ := h
    simp [power, hy.ne, when, hy.le]
  · next h =>
    by_cases hi : ∃ n : ℤ, y = n
    · obtain ⟨n, rfl⟩ := hi
      rw [fpPow_int, power_int]
      by_cases hx : x = 0
      · right
        by_contra hn
        exact h ⟨hx, by exact_mod_cast not_le.mp hn⟩
      · exact Or.inl hx
    · have hf : y ≠ ⌊y⌋ := fun e => hi ⟨_, e⟩
      have hy0 : y ≠ 0 := fun e => hi ⟨0, by simp [e]⟩
      unfold fpPow power
      by_cases hx1 : x = 1
      · subst hx1; simp
      rw [if_neg hx1, if_neg hf]
      rcases lt_trichotomy x 0 with hx | hx | hx
      · rw [if_neg hx.not_gt, if_neg hx.not_gt, if_neg hx.ne, if_neg hx.not_gt, if_neg hx.ne, dif_neg hi]
        simp
      · subst hx
        have hp : 0 < y := by
          rcases lt_or_gt_of_ne hy0 with h1 | h1
          · exact absurd ⟨rfl, h1⟩ h
          · exact h1
        simp [hp.le, hp, hy0, when]
      · rw [if_pos hx, if_pos hx, if_pos hx]
        split
        · rw [Real.rpow_def_of_pos hx]
        · rw [Real.rpow_def_of_pos hx, one_div, Real.log_inv]
          congr 2
          ring

theorem fpExp2_eq (x : ℝ) : fpPow 2 x = some (2 ^ x) := by
  have h : evalFn2 .pow 2 x = fpPow 2 x := by simp [evalFn2]
  rw [← h, evalPow, power, if_pos (by norm_num)]

theorem fpCbrt_eq (x : ℝ) : fpCbrt x = SignType.sign x * |x| ^ (1 / 3 : ℝ) := by
  unfold fpCbrt
  rcases lt_trichotomy x 0 with hx | hx | hx
  · rw [if_neg hx.not_gt, if_pos hx, sign_neg hx, abs_of_neg hx, Real.rpow_def_of_pos (by linarith)]
    simp
    ring_nf
  · subst hx; simp
  · rw [if_pos hx, sign_pos hx, abs_of_pos hx, Real.rpow_def_of_pos hx]
    simp
    ring_nf

theorem fpTrunc_eq (x : ℝ) : fpTrunc x = SignType.sign x * ⌊|x|⌋ := by
  unfold fpTrunc
  rcases lt_trichotomy x 0 with hx | hx | hx
  · rw [if_pos hx, sign_neg hx, abs_of_neg hx, Int.floor_neg]
    push_cast; simp
  · subst hx; simp
  · rw [if_neg hx.not_gt, sign_pos hx, abs_of_pos hx]; simp

theorem fpInt_eq (x : ℝ) : fpInt x = SignType.sign x * ⌊|x| + 1 / 2⌋ := by
  unfold fpInt
  rcases lt_trichotomy x 0 with hx | hx | hx
  · rw [if_pos hx, sign_neg hx, abs_of_neg hx, show -x + 1 / 2 = -(x - 1 / 2) by ring, Int.floor_neg]
    push_cast; simp
  · subst hx
    have : ⌊(0 : ℝ) + 1 / 2⌋ = 0 := by rw [Int.floor_eq_iff]; norm_num
    simp
    norm_num
  · rw [if_neg hx.not_gt, sign_pos hx, abs_of_pos hx]; simp

/-- The code of the functions of one parameter computes them. -/
theorem evalFn1_eq (f : Fn) (x : ℝ) : evalFn1 f x = f.apply1 x := by
  have habs : (x < -1 ∨ x > 1) ↔ ¬ |x| ≤ 1 := by
    rw [abs_le, not_and_or, not_le, not_le]
  have habs' : (x ≤ -1 ∨ x ≥ 1) ↔ ¬ |x| < 1 := by
    rw [abs_lt, not_and_or, not_lt, not_lt]
  cases f <;> simp only [evalFn1, Fn.apply1, when, fpExp2_eq, fpCbrt_eq, fpTrunc_eq, fpInt_eq, habs, habs', ite_not,
    Real.logb, div_eq_mul_inv, one_mul, ne_eq] <;>
    first
    | rfl
    | (split <;> split <;> first | rfl | (exfalso; linarith) | tauto)
    | (split <;> rfl)

/-- The code of the functions of two parameters computes them. -/
theorem evalFn2_eq (f : Fn) (x y : ℝ) : evalFn2 f x y = f.apply2 x y := by
  cases f <;> try rfl
  · simp only [evalFn2, Fn.apply2]
    congr 2
    apply Complex.ext <;> simp
  · simp only [evalFn2, Fn.apply2, pow_two]
  · simp only [evalFn2, Fn.apply2]
    congr 1
    split
    · next h => rw [max_eq_left h.le]
    · next h => rw [max_eq_right (not_lt.mp h)]
  · simp only [evalFn2, Fn.apply2]
    congr 1
    split
    · next h => rw [min_eq_left h.le]
    · next h => rw [min_eq_right (not_lt.mp h)]
  · exact evalPow x y

end Hnco.FParser
