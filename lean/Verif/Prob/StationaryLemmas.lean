import Verif.Prob.WalkSpec
import Verif.Prob.WalkLemmas
import Mathlib.Data.List.Permutation

/-!
# Lemmas about stationary laws
-/

namespace Hnco.Prob

open Outcome
open scoped ENNReal

variable {α : Type}

/-! ## Detailed balance -/

theorem stationary_of_balance {law : Dist α} {step : α → Dist α} (hb : ∀ x y, law x ≠ 0 → law y ≠ 0 → law x * step x y = law y * step y x)
    (hsup : ∀ x, law x ≠ 0 → ∀ y, step x y ≠ 0 → law y ≠ 0) (htot : ∀ x, law x ≠ 0 → (step x).total = 1) :
    Stationary law step := by
  refine Dist.ext (fun y => ?_)
  rw [Dist.bind_apply]
  by_cases hy : law y = 0
  · rw [hy, ENNReal.tsum_eq_zero]
    intro x
    by_cases hx : law x = 0
    · rw [hx, zero_mul]
    · by_cases hs : step x y = 0
      · rw [hs, mul_zero]
      · exact absurd hy (hsup x hx y hs)
  · have : ∀ x, law x * step x y = law y * step y x := by
      intro x
      by_cases hx : law x = 0
      · rw [hx, zero_mul]
        by_cases hs : step y x = 0
        · rw [hs, mul_zero]
        · exact absurd hx (hsup y hy x hs)
      · exact hb x y hx hy
    simp only [this]
    rw [ENNReal.tsum_mul_left]
    have ht := htot y hy
    unfold Dist.total at ht
    rw [ht, mul_one]

theorem stationary_bind_swap {β : Type} {law : Dist α} {choose : Dist β} {step : β → α → Dist α} (h1 : choose.total = 1)
    (h : ∀ b, choose b ≠ 0 → Stationary law (step b)) : Stationary law (fun x => choose >>= fun b => step b x) := by
  refine Dist.ext (fun y => ?_)
  rw [Dist.bind_apply]
  simp only [Dist.bind_apply]
  simp_rw [← ENNReal.tsum_mul_left]
  rw [ENNReal.tsum_comm]
  have hb : ∀ b, ∑' x, law x * (choose b * step b x y) = choose b * law y := by
    intro b
    by_cases hc : choose b = 0
    · simp [hc]
    · have := congrArg (fun d : Dist α => d y) (h b hc)
      rw [Dist.bind_apply] at this
      rw [← this, ← ENNReal.tsum_mul_left]
      exact tsum_congr (fun x => by ring)
  simp only [hb]
  rw [ENNReal.tsum_mul_right]
  unfold Dist.total at h1
  rw [h1, one_mul]

theorem stationary_steps {law : Dist α} {step : α → Dist α} (h : Stationary law step) (t : ℕ) : Stationary law (Dist.steps step t) := by
  induction t with
  | zero => exact Dist.bind_pure' law
  | succ t ih =>
    unfold Stationary at *
    change (law >>= fun x => step x >>= Dist.steps step t) = law
    rw [← Dist.bind_assoc', h, ih]

theorem stationary_congr {law : Dist α} {step step' : α → Dist α} (he : ∀ x, law x ≠ 0 → step x = step' x) (h : Stationary law step') :
    Stationary law step := by
  unfold Stationary at *
  rw [Dist.bind_congr_support he, h]

/-! ## Convergence -/

theorem steps_add {step : α → Dist α} (k t : ℕ) (a : α) : Dist.steps step (k + t) a = (Dist.steps step k a >>= Dist.steps step t) := by
  induction k generalizing a with
  | zero =>
    rw [Nat.zero_add]
    exact (Dist.pure_bind' a _).symm
  | succ k ih =>
    rw [Nat.succ_add]
    change (step a >>= Dist.steps step (k + t)) = ((step a >>= Dist.steps step k) >>= Dist.steps step t)
    rw [Dist.bind_assoc']
    congr 1
    funext b
    exact ih b

open Classical in
theorem minor_expect {d : Dist α} (h1 : d.total = 1) {z : α} {c : ℝ≥0∞} (hc : c ≤ d z) {V : α → ℝ≥0∞} {lo r : ℝ≥0∞}
    (hV : ∀ a, d a ≠ 0 → lo ≤ V a ∧ V a ≤ lo + r) :
    c * V z + (1 - c) * lo ≤ d.expect V ∧ d.expect V ≤ c * V z + (1 - c) * lo + (1 - c) * r := by
  let e : Dist α := ⟨fun a => d a - (if a = z then c else 0)⟩
  have hle : ∀ a, (if a = z then c else 0) ≤ d a := by
    intro a
    split
    · next h => rw [h]; exact hc
    · exact zero_le
  have hde : ∀ a, d a = (if a = z then c else 0) + e a := fun a => (add_tsub_cancel_of_le (hle a)).symm
  have hsum : ∀ W : α → ℝ≥0∞, d.expect W = c * W z + e.expect W := by
    intro W
    unfold Dist.expect
    have : ∀ a, d a * W a = (if a = z then c * W z else 0) + e a * W a := by
      intro a
      rw [hde a, add_mul]
      congr 1
      split
      · next h => rw [h]
      · exact zero_mul _
    simp only [this]
    rw [ENNReal.tsum_add, tsum_ite_eq]
  have hc1 : c ≤ 1 := hc.trans (by rw [← h1]; exact ENNReal.le_tsum z)
  have ht : e.total = 1 - c := by
    have := hsum (fun _ => 1)
    rw [Dist.expect_const, Dist.expect_const, h1, mul_one, mul_one, mul_one] at this
    rw [this, ENNReal.add_sub_cancel_left (ne_top_of_le_ne_top ENNReal.one_ne_top hc1)]
  have hsup : ∀ a, e a ≠ 0 → d a ≠ 0 := by
    intro a ha h0
    apply ha
    change d a - _ = 0
    rw [h0, zero_tsub]
  rw [hsum V]
  have hlo : (1 - c) * lo ≤ e.expect V := by
    rw [← ht, ← Dist.expect_const]
    exact Dist.expect_mono (fun a ha => (hV a (hsup a ha)).1)
  have hhi : e.expect V ≤ (1 - c) * (lo + r) := by
    rw [← ht, ← Dist.expect_const]
    exact Dist.expect_mono (fun a ha => (hV a (hsup a ha)).2)
  refine ⟨add_le_add (le_refl _) hlo, ?_⟩
  rw [add_assoc, ← mul_add]
  exact add_le_add (le_refl _) hhi

/-- Doeblin's argument: a chain which reaches a given state in `k` steps with probability at least `c`, wherever it starts, forgets
its starting point. -/
theorem doeblin {step : α → Dist α} {inv : α → Prop} (hinv : ∀ a, inv a → ∀ b, step a b ≠ 0 → inv b)
    (htot : ∀ a, inv a → (step a).total = 1) {z : α} {k : ℕ} {c : ℝ≥0∞} (hc : ∀ a, inv a → c ≤ Dist.steps step k a z)
    (hz : inv z) {W : α → ℝ≥0∞} (hW : ∀ a, W a ≤ 1) (s j : ℕ) :
    ∃ lo, ∀ a, inv a → lo ≤ (Dist.steps step (k * j + s) a).expect W ∧ (Dist.steps step (k * j + s) a).expect W ≤ lo + (1 - c) ^ j := by
  have htots : ∀ t a, inv a → (Dist.steps step t a).total = 1 := by
    intro t
    induction t with
    | zero => intro a _; exact Dist.total_pure _
    | succ t ih =>
      intro a ha
      change (step a >>= Dist.steps step t).total = 1
      rw [Dist.total_bind]
      have : ∀ b, step a b * (Dist.steps step t b).total = step a b := by
        intro b
        by_cases hb : step a b = 0
        · rw [hb, zero_mul]
        · rw [ih b (hinv a ha b hb), mul_one]
      simp only [this]
      exact htot a ha
  induction j with
  | zero =>
    refine ⟨0, fun a ha => ⟨zero_le, ?_⟩⟩
    rw [pow_zero, zero_add]
    calc (Dist.steps step (k * 0 + s) a).expect W ≤ (Dist.steps step (k * 0 + s) a).expect (fun _ => 1) :=
          Dist.expect_mono (fun b _ => hW b)
      _ = 1 := by rw [Dist.expect_const, htots _ a ha, one_mul]
  | succ j ih =>
    obtain ⟨lo, hlo⟩ := ih
    set V := fun a => (Dist.steps step (k * j + s) a).expect W with hVdef
    refine ⟨c * V z + (1 - c) * lo, fun a ha => ?_⟩
    rw [show k * (j + 1) + s = k + (k * j + s) by ring, steps_add, Dist.expect_bind, pow_succ, mul_comm ((1 - c) ^ j)]
    exact minor_expect (htots k a ha) (hc a ha) (V := V) (fun b hb => hlo b (steps_inv hinv k a ha b hb))

open Classical in
theorem doeblin_within {step : α → Dist α} {inv : α → Prop} (hinv : ∀ a, inv a → ∀ b, step a b ≠ 0 → inv b)
    (htot : ∀ a, inv a → (step a).total = 1) {z : α} {k : ℕ} {c : ℝ≥0∞} (hc : ∀ a, inv a → c ≤ Dist.steps step k a z)
    (hz : inv z) {law : Dist α} (hstat : Stationary law step) (h1 : law.total = 1) (hlaw : ∀ a, law a ≠ 0 → inv a) {a : α} (ha : inv a)
    (s j : ℕ) : Within ((1 - c) ^ j) (Dist.steps step (k * j + s) a) law := by
  intro P
  obtain ⟨lo, hlo⟩ := doeblin hinv htot hc hz (W := fun a => if P a then 1 else 0) (fun a => by split <;> simp) s j
  have e1 : ∀ d : Dist α, d.prob P = d.expect (fun a => if P a then 1 else 0) := fun d => by
    rw [← Dist.prob_expect]
  have e2 : law.expect (fun a => if P a then 1 else 0)
      = law.expect (fun b => (Dist.steps step (k * j + s) b).expect (fun a => if P a then 1 else 0)) := by
    rw [← Dist.expect_bind, stationary_steps hstat]
  have hl : lo ≤ law.expect (fun a => if P a then 1 else 0) := by
    rw [e2]
    calc lo = law.expect (fun _ => lo) := by rw [Dist.expect_const, h1, one_mul]
      _ ≤ _ := Dist.expect_mono (fun b hb => (hlo b (hlaw b hb)).1)
  have hu : law.expect (fun a => if P a then 1 else 0) ≤ lo + (1 - c) ^ j := by
    rw [e2]
    calc _ ≤ law.expect (fun _ => lo + (1 - c) ^ j) := Dist.expect_mono (fun b hb => (hlo b (hlaw b hb)).2)
      _ = lo + (1 - c) ^ j := by rw [Dist.expect_const, h1, one_mul]
  rw [e1, e1]
  exact ⟨(hlo a ha).2.trans (add_le_add hl (le_refl _)), hu.trans (add_le_add (hlo a ha).1 (le_refl _))⟩

/-! ## Boltzmann laws -/

/-- The weight of a vector. -/
noncomputable def weight (g : BV → ℝ) (x : BV) : ℝ≥0∞ := ENNReal.ofReal (Real.exp (g x))

theorem weight_ne_zero (g : BV → ℝ) (x : BV) : weight g x ≠ 0 := by
  unfold weight
  rw [Ne, ENNReal.ofReal_eq_zero, not_le]
  exact Real.exp_pos _

theorem weight_ne_top (g : BV → ℝ) (x : BV) : weight g x ≠ ∞ := ENNReal.ofReal_ne_top

/-- The normalization. -/
noncomputable def partition (n : ℕ) (g : BV → ℝ) : ℝ≥0∞ := ∑' y : BV, (if y.length = n then weight g y else 0)

theorem partition_ne_zero (n : ℕ) (g : BV → ℝ) : partition n g ≠ 0 := by
  intro h
  unfold partition at h
  rw [ENNReal.tsum_eq_zero] at h
  have := h (List.replicate n false)
  rw [if_pos (by simp)] at this
  exact weight_ne_zero g _ this

theorem partition_ne_top (n : ℕ) (g : BV → ℝ) : partition n g ≠ ∞ := by
  unfold partition
  rw [tsum_eq_sum (s := (List.finite_length_eq Bool n).toFinset) (fun y hy => if_neg (by simpa using hy))]
  exact ENNReal.sum_ne_top.mpr (fun y _ => by split <;> simp [weight])

theorem boltzmann_apply (n : ℕ) (g : BV → ℝ) (x : BV) :
    boltzmannLaw n g x = if x.length = n then weight g x / partition n g else 0 := rfl

theorem boltzmann_support {n : ℕ} {g : BV → ℝ} {x : BV} : boltzmannLaw n g x ≠ 0 ↔ x.length = n := by
  rw [boltzmann_apply]
  constructor
  · intro h
    by_contra h'
    exact h (if_neg h')
  · intro h
    rw [if_pos h]
    exact (ENNReal.div_pos (weight_ne_zero g x) (partition_ne_top n g)).ne'

theorem boltzmann_total (n : ℕ) (g : BV → ℝ) : (boltzmannLaw n g).total = 1 := by
  unfold Dist.total
  have : ∀ x, boltzmannLaw n g x = (if x.length = n then weight g x else 0) * (partition n g)⁻¹ := by
    intro x
    rw [boltzmann_apply]
    split
    · rw [div_eq_mul_inv]
    · rw [zero_mul]
  simp only [this]
  rw [ENNReal.tsum_mul_right]
  exact ENNReal.mul_inv_cancel (partition_ne_zero n g) (partition_ne_top n g)

/-- Balance with weights. -/
theorem boltzmann_stationary {n : ℕ} {g : BV → ℝ} {step : BV → Dist BV}
    (hb : ∀ x y : BV, x.length = n → y.length = n → weight g x * step x y = weight g y * step y x)
    (hsup : ∀ x : BV, x.length = n → ∀ y, step x y ≠ 0 → y.length = n) (htot : ∀ x : BV, x.length = n → (step x).total = 1) :
    Stationary (boltzmannLaw n g) step := by
  refine stationary_of_balance ?_ ?_ ?_
  · intro x y hx hy
    rw [boltzmann_support] at hx hy
    rw [boltzmann_apply, boltzmann_apply, if_pos hx, if_pos hy, div_eq_mul_inv, div_eq_mul_inv, mul_right_comm, hb x y hx hy,
      mul_right_comm]
  · intro x hx y hy
    rw [boltzmann_support] at hx ⊢
    exact hsup x hx y hy
  · exact fun x hx => htot x (boltzmann_support.mp hx)

theorem uniform_boltzmann (n : ℕ) : uniformLaw n = boltzmannLaw n (fun _ => 0) := by
  refine Dist.ext (fun x => ?_)
  rw [boltzmann_apply]
  change (if x.length = n then _ else 0) = _
  have hw : ∀ y, weight (fun _ => 0) y = 1 := fun y => by simp [weight]
  have hp : partition n (fun _ => 0) = 2 ^ n := by
    have h1 : partition n (fun _ => 0) = ∑' y : BV, (bvRandomBits (List.replicate n false) y) * 2 ^ n := by
      unfold partition
      refine tsum_congr (fun y => ?_)
      rw [bvRandomBits_law, hw, List.length_replicate]
      split
      · exact (ENNReal.inv_mul_cancel (by simp) (by simp)).symm
      · rw [zero_mul]
    rw [h1, ENNReal.tsum_mul_right]
    have := bvRandomBits_total (List.replicate n false)
    unfold Dist.total at this
    rw [this, one_mul]
  rw [hw, hp, one_div]

end Hnco.Prob
