import Verif.Prob.InstanceProps
import Verif.Prob.Chain

/-! # The mean value of a bit vector on random instances of MAX-SAT (C116) -/

namespace Hnco.Prob

open Outcome
open scoped ENNReal

theorem bernoulli_expect {β : Type} (g : Bool → Dist β) (W : β → ℝ≥0∞) :
    (Dist.bernoulli >>= g).expect W = 2⁻¹ * (g true).expect W + 2⁻¹ * (g false).expect W := by
  rw [Dist.expect_bind]
  unfold Dist.expect
  rw [tsum_fintype, Fintype.sum_bool, bernoulli_apply, bernoulli_apply]

theorem half_add (a : ℝ≥0∞) : 2⁻¹ * a + 2⁻¹ * a = a := by
  rw [← add_mul, ENNReal.inv_two_add_inv_two, one_mul]

theorem signs_total : ∀ ps, (signs ps).total = 1 := by
  intro ps
  have key : ∀ ps, (signs ps).expect (fun _ => 1) = 1 := by
    intro ps
    induction ps with
    | nil => rw [signs, Dist.expect_pure]
    | cons p ps ih =>
      rw [signs, bernoulli_expect]
      simp only [Dist.expect_bind, Dist.expect_pure, ih]
      rw [half_add]
  have := key ps
  rwa [Dist.expect_const, mul_one] at this

open Classical in
/-- A clause over given variables is not satisfied with probability `1 / 2^k`. -/
theorem signs_unsatisfied (x : BV) : ∀ (ps : List ℕ), (∀ p ∈ ps, p < x.length) →
    (signs ps).expect (fun l => if ∃ lit ∈ l, LitTrue x lit then 0 else 1) = ((2 : ℝ≥0∞) ^ ps.length)⁻¹ := by
  intro ps
  induction ps with
  | nil =>
    intro _
    rw [signs, Dist.expect_pure, if_neg (by simp)]
    simp
  | cons p ps ih =>
    intro hps
    have hp : p < x.length := hps p List.mem_cons_self
    have ih := ih (fun q hq => hps q (List.mem_cons_of_mem _ hq))
    have hlit : IsLiteral x.length ((p : ℤ) + 1) := ⟨by omega, by omega⟩
    have hneg := litTrue_neg x ((p : ℤ) + 1) hlit
    have hc : ∀ a : ℤ, (signs ps >>= fun l => (pure (a :: l) : Dist (List ℤ))).expect (fun l => if ∃ lit ∈ l, LitTrue x lit then 0 else 1)
        = if LitTrue x a then 0 else ((2 : ℝ≥0∞) ^ ps.length)⁻¹ := by
      intro a
      rw [Dist.expect_bind]
      simp only [Dist.expect_pure, List.mem_cons, exists_eq_or_imp]
      by_cases ha : LitTrue x a
      · simp only [ha, true_or, if_true, Dist.expect_const, mul_zero]
      · simp only [ha, false_or, if_false]
        exact ih
    rw [signs, bernoulli_expect]
    simp only [if_true, Bool.false_eq_true, if_false, hc, hneg, List.length_cons]
    rw [pow_succ, ENNReal.mul_inv (Or.inr (by norm_num)) (Or.inr (by norm_num)), mul_comm _ (2⁻¹ : ℝ≥0∞)]
    by_cases h : LitTrue x ((p : ℤ) + 1) <;> simp [h]

theorem clauseLaw_total {n k : ℕ} (hk : k ≤ n) : (clauseLaw n k).total = 1 := by
  unfold clauseLaw
  rw [Dist.total_bind]
  simp only [signs_total, mul_one]
  exact chooseLaw_total n 0 k hk

open Classical in
theorem clause_satisfied {x : BV} {k : ℕ} (hk : k ≤ x.length) :
    (clauseLaw x.length k).expect (fun l => if ∃ lit ∈ l, LitTrue x lit then 1 else 0) = 1 - ((2 : ℝ≥0∞) ^ k)⁻¹ := by
  have hun : (clauseLaw x.length k).expect (fun l => if ∃ lit ∈ l, LitTrue x lit then 0 else 1) = ((2 : ℝ≥0∞) ^ k)⁻¹ := by
    unfold clauseLaw
    rw [Dist.expect_bind, Dist.expect_congr (W := fun _ => ((2 : ℝ≥0∞) ^ k)⁻¹), Dist.expect_const, chooseLaw_total _ _ _ hk, one_mul]
    intro ps hps
    rw [chooseLaw_apply] at hps
    have h : Ascending 0 x.length ps ∧ ps.length = k := by
      by_contra h
      exact hps (if_neg h)
    rw [signs_unsatisfied x ps (fun p hp => by have := h.1.2 p hp; omega), h.2]
  have hsum : (clauseLaw x.length k).expect (fun l => if ∃ lit ∈ l, LitTrue x lit then 1 else 0)
      + (clauseLaw x.length k).expect (fun l => if ∃ lit ∈ l, LitTrue x lit then 0 else 1) = 1 := by
    rw [← Dist.expect_add, Dist.expect_congr (W := fun _ => 1), Dist.expect_const, clauseLaw_total hk, one_mul]
    intro l _
    split <;> simp
  rw [hun] at hsum
  exact ENNReal.eq_sub_of_add_eq (by simp) hsum

theorem famLaw_mean {α : Type} {d : Dist α} (h1 : d.total = 1) (V : α → ℝ≥0∞) : ∀ (m i : ℕ),
    (famLaw (fun _ => d) i m).total = 1 ∧ (famLaw (fun _ => d) i m).expect (fun l => (l.map V).sum) = m * d.expect V := by
  intro m
  induction m with
  | zero =>
    intro i
    rw [famLaw, Dist.total_pure, Dist.expect_pure]
    simp
  | succ m ih =>
    intro i
    obtain ⟨ih1, ih2⟩ := ih (i + 1)
    rw [famLaw]
    constructor
    · rw [Dist.total_bind]
      simp only [Dist.total_bind, Dist.total_pure, mul_one]
      change ∑' a, d a * (famLaw (fun _ => d) (i + 1) m).total = 1
      rw [ih1]
      simp only [mul_one]
      exact h1
    · rw [Dist.expect_bind]
      simp only [Dist.expect_bind, Dist.expect_pure, List.map_cons, List.sum_cons, Dist.expect_add, Dist.expect_const, ih1, ih2, h1, one_mul]
      push_cast
      ring

open Classical in
/-- C116: on a random instance the mean value of any bit vector is `c (1 - 1 / 2^k)`. -/
theorem maxSatRandom_mean {x : BV} {k c : ℕ} (hk : 0 < k) (hc : 0 < c) (hkn : k ≤ x.length) :
    (maxSatRandom x.length k c >>= fun E => Dist.lift (maxSatEval E x)).expect (fun v => (v : ℝ≥0∞)) = c * (1 - ((2 : ℝ≥0∞) ^ k)⁻¹) := by
  rw [Dist.expect_bind, Dist.expect_congr (W := fun E => (E.map (fun l => if ∃ lit ∈ l, LitTrue x lit then (1 : ℝ≥0∞) else 0)).sum)]
  · unfold maxSatRandom
    rw [Dist.assert_bind (by simp; omega), Dist.assert_bind (by simpa using hk), Dist.assert_bind (by simpa using hc),
      Dist.assert_bind (by simpa using hkn)]
    have h := clauses_loop hkn c pure
    simp only [Dist.pure_bind'] at h
    rw [h, Dist.bind_pure', (famLaw_mean (clauseLaw_total hkn) _ c 0).2, clause_satisfied hkn]
  · intro E hE
    rw [maxSatRandom_law hk hc hkn] at hE
    have hE' : E.length = c ∧ ∀ clause ∈ E, IsClause x.length k clause := by
      by_contra h
      exact hE (if_neg h)
    rw [maxSat_value E x (fun cl hcl => (hE'.2 cl hcl).2.1), Dist.lift_ok, Dist.expect_pure]
    clear hE hE'
    induction E with
    | nil => simp
    | cons l E ih =>
      rw [List.countP_cons, List.map_cons, List.sum_cons, ← ih, Nat.cast_add, add_comm]
      congr 1
      by_cases h : ∃ lit ∈ l, LitTrue x lit <;> simp [h]

/-- Ten clauses of three literals: seven eighths of them. -/
example : (maxSatRandom 4 3 10 >>= fun E => Dist.lift (maxSatEval E [true, false, false, true])).expect (fun v => (v : ℝ≥0∞))
    = (10 : ℕ) * (1 - ((2 : ℝ≥0∞) ^ 3)⁻¹) := maxSatRandom_mean (x := [true, false, false, true]) (by decide) (by decide) (by decide)

end Hnco.Prob
