import Verif.Prob.Dist
import Mathlib.Topology.Algebra.InfiniteSum.ENNReal
import Mathlib.Analysis.SpecificLimits.Basic

/-!
# Expectations, and the time to reach a set

A chain `step : α → Dist α` which stays in a set `done` once it has entered it.
-/

namespace Hnco.Prob

open scoped ENNReal

variable {α β : Type}

namespace Dist

/-- The expectation of a function of the result. -/
noncomputable def expect (d : Dist α) (W : α → ℝ≥0∞) : ℝ≥0∞ := ∑' a, d a * W a

theorem expect_pure (a : α) (W : α → ℝ≥0∞) : (pure a : Dist α).expect W = W a := by
  classical
  unfold expect
  rw [tsum_eq_single a]
  · rw [pure_apply, if_pos rfl, one_mul]
  · intro b hb
    rw [pure_apply, if_neg hb, zero_mul]

theorem expect_bind (d : Dist α) (f : α → Dist β) (W : β → ℝ≥0∞) :
    (d >>= f).expect W = d.expect (fun a => (f a).expect W) := by
  unfold expect
  simp only [bind_apply]
  simp_rw [← ENNReal.tsum_mul_right, ← ENNReal.tsum_mul_left, mul_assoc]
  exact ENNReal.tsum_comm

theorem expect_congr {d : Dist α} {V W : α → ℝ≥0∞} (h : ∀ a, d a ≠ 0 → V a = W a) : d.expect V = d.expect W := by
  refine tsum_congr (fun a => ?_)
  by_cases ha : d a = 0
  · rw [ha, zero_mul, zero_mul]
  · rw [h a ha]

theorem expect_mono {d : Dist α} {V W : α → ℝ≥0∞} (h : ∀ a, d a ≠ 0 → V a ≤ W a) : d.expect V ≤ d.expect W := by
  refine ENNReal.tsum_le_tsum (fun a => ?_)
  by_cases ha : d a = 0
  · rw [ha, zero_mul, zero_mul]
  · exact mul_le_mul_right (h a ha) _

theorem expect_add (d : Dist α) (V W : α → ℝ≥0∞) : d.expect (fun a => V a + W a) = d.expect V + d.expect W := by
  unfold expect
  simp_rw [mul_add]
  exact ENNReal.tsum_add

theorem expect_mul_left (d : Dist α) (c : ℝ≥0∞) (W : α → ℝ≥0∞) : d.expect (fun a => c * W a) = c * d.expect W := by
  unfold expect
  rw [← ENNReal.tsum_mul_left]
  exact tsum_congr (fun a => by ring)

theorem expect_const (d : Dist α) (c : ℝ≥0∞) : d.expect (fun _ => c) = d.total * c := by
  unfold expect total
  rw [ENNReal.tsum_mul_right]

theorem expect_sum (d : Dist α) {ι : Type} (s : Finset ι) (W : ι → α → ℝ≥0∞) :
    d.expect (fun a => ∑ i ∈ s, W i a) = ∑ i ∈ s, d.expect (W i) := by
  classical
  induction s using Finset.induction with
  | empty => simp [expect]
  | insert i s hi ih =>
    simp only [Finset.sum_insert hi]
    rw [expect_add, ih]

theorem expect_tsum (d : Dist α) (W : ℕ → α → ℝ≥0∞) :
    d.expect (fun a => ∑' t, W t a) = ∑' t, d.expect (W t) := by
  unfold expect
  simp_rw [← ENNReal.tsum_mul_left]
  exact ENNReal.tsum_comm

/-- The expectation of the indicator of the complement: what does not have property `P`. -/
theorem prob_add_not (d : Dist α) (P : α → Prop) [DecidablePred P] :
    d.prob P + d.expect (fun a => if P a then 0 else 1) = d.total := by
  unfold prob expect total
  rw [← ENNReal.tsum_add]
  refine tsum_congr (fun a => ?_)
  by_cases h : P a <;> simp [h]

theorem prob_expect (d : Dist α) (P : α → Prop) [DecidablePred P] :
    d.prob P = d.expect (fun a => if P a then 1 else 0) := by
  unfold prob expect
  refine tsum_congr (fun a => ?_)
  by_cases h : P a <;> simp [h]

theorem one_sub_prob {d : Dist α} (h : d.total = 1) (P : α → Prop) [DecidablePred P] :
    1 - d.prob P = d.expect (fun a => if P a then 0 else 1) := by
  have h1 := prob_add_not d P
  rw [h] at h1
  have h2 : d.prob P ≠ ∞ := fun e => by rw [e] at h1; simp at h1
  exact (ENNReal.eq_sub_of_add_eq' (by norm_num) (by rw [add_comm]; exact h1)).symm

/-- `t` steps of a chain. -/
noncomputable def steps (step : α → Dist α) : ℕ → α → Dist α
  | 0, a => pure a
  | t + 1, a => step a >>= steps step t

theorem steps_succ (step : α → Dist α) (t : ℕ) (a : α) : steps step (t + 1) a = (steps step t a >>= step) := by
  induction t generalizing a with
  | zero =>
    change (step a >>= fun b => pure b) = (pure a >>= step)
    rw [bind_pure', pure_bind']
  | succ t ih =>
    change (step a >>= steps step (t + 1)) = ((step a >>= steps step t) >>= step)
    rw [bind_assoc']
    congr 1
    funext b
    exact ih b

end Dist

open Hnco.Prob.Dist

section Chain

variable {step : α → Dist α} {inv : α → Prop} {done : α → Prop} [DecidablePred done]

/-- One if not done. -/
def missing (done : α → Prop) [DecidablePred done] (a : α) : ℝ≥0∞ := if done a then 0 else 1

theorem steps_inv (hinv : ∀ a, inv a → ∀ b, step a b ≠ 0 → inv b) (t : ℕ) :
    ∀ a, inv a → ∀ b, steps step t a b ≠ 0 → inv b := by
  classical
  induction t with
  | zero =>
    intro a ha b hb
    change (pure a : Dist α) b ≠ 0 at hb
    rw [pure_apply] at hb
    by_cases h : b = a
    · rw [h]; exact ha
    · exact absurd (if_neg h) hb
  | succ t ih =>
    intro a ha b hb
    change (step a >>= steps step t) b ≠ 0 at hb
    rw [bind_apply] at hb
    obtain ⟨c, hc⟩ := ENNReal.tsum_eq_zero.not.mp hb |> not_forall.mp
    have h1 := mul_ne_zero_iff.mp hc
    exact ih c (hinv a ha c h1.1) b h1.2

/-- Additive drift: a potential which decreases by at least one on average bounds the expected time. -/
theorem drift_le (hinv : ∀ a, inv a → ∀ b, step a b ≠ 0 → inv b) {V : α → ℝ≥0∞}
    (hV : ∀ a, inv a → missing done a + (step a).expect V ≤ V a) {a : α} (ha : inv a) :
    ∑' t, (steps step t a).expect (missing done) ≤ V a := by
  rw [ENNReal.tsum_eq_iSup_nat]
  refine iSup_le (fun T => ?_)
  induction T generalizing a with
  | zero => simp
  | succ T ih =>
    rw [Finset.sum_range_succ']
    have h0 : (steps step 0 a).expect (missing done) = missing done a := expect_pure _ _
    rw [h0, add_comm]
    refine le_trans (add_le_add (le_refl _) ?_) (hV a ha)
    have h1 : ∀ t, (steps step (t + 1) a).expect (missing done)
        = (step a).expect (fun b => (steps step t b).expect (missing done)) := fun t => expect_bind _ _ _
    simp only [h1]
    rw [← expect_sum]
    exact expect_mono (fun b hb => ih (hinv a ha b hb))

/-- If the potential decreases by exactly one on average, then it is the expected time. -/
theorem drift_eq (hinv : ∀ a, inv a → ∀ b, step a b ≠ 0 → inv b) {V : α → ℝ≥0∞}
    (hV : ∀ a, inv a → missing done a + (step a).expect V = V a) {C : ℝ≥0∞} (hC : C ≠ ∞) (hb : ∀ a, inv a → V a ≤ C * missing done a)
    {a : α} (ha : inv a) : ∑' t, (steps step t a).expect (missing done) = V a := by
  have hle := drift_le hinv (fun a ha => (hV a ha).le) ha
  refine le_antisymm hle ?_
  have hfin : V a ≠ ∞ := by
    refine ne_top_of_le_ne_top ?_ (hb a ha)
    refine ENNReal.mul_ne_top hC ?_
    unfold missing
    split <;> simp
  have hsum : ∀ T, ∀ a, inv a → V a = ∑ t ∈ Finset.range T, (steps step t a).expect (missing done) + (steps step T a).expect V := by
    intro T
    induction T with
    | zero => intro a _; rw [Finset.sum_range_zero, zero_add]; exact (expect_pure _ _).symm
    | succ T ih =>
      intro a ha
      rw [Finset.sum_range_succ']
      have h0 : (steps step 0 a).expect (missing done) = missing done a := expect_pure _ _
      have h1 : ∀ (t : ℕ) (W : α → ℝ≥0∞), (steps step (t + 1) a).expect W
          = (step a).expect (fun b => (steps step t b).expect W) := fun t W => expect_bind _ _ _
      simp only [h0, h1]
      rw [← expect_sum, add_right_comm, ← expect_add, ← expect_congr (V := V) (fun b hb => ih b (hinv a ha b hb)), add_comm, hV a ha]
  have hbound : ∀ T, V a ≤ ∑' t, (steps step t a).expect (missing done) + C * (steps step T a).expect (missing done) := by
    intro T
    rw [hsum T a ha]
    refine add_le_add (ENNReal.sum_le_tsum _) ?_
    rw [← expect_mul_left]
    exact expect_mono (fun b hb' => hb b (steps_inv hinv T a ha b hb'))
  have hne : ∑' t, (steps step t a).expect (missing done) ≠ ∞ := ne_top_of_le_ne_top hfin hle
  have hlim : Filter.Tendsto (fun T => ∑' t, (steps step t a).expect (missing done) + C * (steps step T a).expect (missing done))
      Filter.atTop (nhds (∑' t, (steps step t a).expect (missing done) + C * 0)) := by
    refine Filter.Tendsto.add tendsto_const_nhds ?_
    exact ENNReal.Tendsto.const_mul (ENNReal.tendsto_atTop_zero_of_tsum_ne_top hne) (Or.inr hC)
  rw [mul_zero, add_zero] at hlim
  exact ge_of_tendsto' hlim hbound

/-- If the set is reached in one step with probability at least `q` from everywhere, then the probability not to have
reached it decreases geometrically. -/
theorem steps_geometric (hinv : ∀ a, inv a → ∀ b, step a b ≠ 0 → inv b) (htot : ∀ a, inv a → (step a).total = 1)
    (hstay : ∀ a, inv a → done a → ∀ b, step a b ≠ 0 → done b) {q : ℝ≥0∞}
    (hq : ∀ a, inv a → ¬ done a → q ≤ (step a).prob done) (t : ℕ) :
    ∀ a, inv a → (steps step t a).expect (missing done) ≤ (1 - q) ^ t := by
  have hone : ∀ a, inv a → (step a).expect (missing done) ≤ (1 - q) * missing done a := by
    intro a ha
    unfold missing
    by_cases hd : done a
    · rw [if_pos hd, mul_zero, nonpos_iff_eq_zero, expect_congr (W := fun _ => 0)]
      · rw [expect_const, mul_zero]
      · intro b hb
        exact if_pos (hstay a ha hd b hb)
    · rw [if_neg hd, mul_one, ← one_sub_prob (htot a ha)]
      exact tsub_le_tsub_left (hq a ha hd) 1
  have hle1 : ∀ a : α, missing done a ≤ 1 := fun a => by
    unfold missing
    split <;> simp
  have hgen : ∀ a, inv a → (steps step t a).expect (missing done) ≤ (1 - q) ^ t * missing done a := by
    induction t with
    | zero => intro a _; rw [pow_zero, one_mul]; exact (expect_pure _ _).le
    | succ t ih =>
      intro a ha
      change (step a >>= steps step t).expect _ ≤ _
      rw [expect_bind]
      refine le_trans (expect_mono (fun b hb => ih b (hinv a ha b hb))) ?_
      rw [expect_mul_left, pow_succ, mul_assoc]
      exact mul_le_mul_right (hone a ha) _
  intro a ha
  refine (hgen a ha).trans ?_
  calc (1 - q) ^ t * missing done a ≤ (1 - q) ^ t * 1 := mul_le_mul_right (hle1 a) _
    _ = (1 - q) ^ t := mul_one _

end Chain

end Hnco.Prob
