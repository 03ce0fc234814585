import Verif.Prob.PopulationSpec
import Verif.Prob.WalkLemmas
import Verif.Prob.TimeProps
import Verif.Population.AlgLemmas
import Verif.Algorithm.ProbabilityVectorProps
import Verif.Algorithm.EvolutionaryProps
import Verif.Algorithm.GenerationLemmas

/-!
# Lemmas about algorithms with a probability vector or with populations, with probabilities
-/

namespace Hnco.Prob

open Outcome
open scoped ENNReal
open Classical

/-! ## Sure results -/

/-- The law always gives a result, which has property `P`. -/
structure Sure {α : Type} (d : Dist α) (P : α → Prop) : Prop where
  total : d.total = 1
  holds : ∀ a, d a ≠ 0 → P a

namespace Sure

variable {α β σ : Type}

theorem pure {a : α} {P : α → Prop} (h : P a) : Sure (Pure.pure a : Dist α) P :=
  ⟨Dist.total_pure _, fun b hb => by rw [pure_support hb]; exact h⟩

theorem mono {d : Dist α} {P Q : α → Prop} (h : Sure d P) (hPQ : ∀ a, P a → Q a) : Sure d Q :=
  ⟨h.total, fun a ha => hPQ a (h.holds a ha)⟩

theorem bind {d : Dist α} {f : α → Dist β} {P : α → Prop} {Q : β → Prop} (h : Sure d P) (hf : ∀ a, P a → Sure (f a) Q) :
    Sure (d >>= f) Q := by
  refine ⟨?_, ?_⟩
  · rw [Dist.total_bind]
    have : ∀ a, d a * (f a).total = d a := by
      intro a
      by_cases ha : d a = 0
      · rw [ha, zero_mul]
      · rw [(hf a (h.holds a ha)).total, mul_one]
    rw [tsum_congr this]
    exact h.total
  · intro b hb
    obtain ⟨a, h1, h2⟩ := bind_support hb
    exact (hf a (h.holds a h1)).holds b h2

theorem lift {o : Outcome α} {P : α → Prop} (h : o.Returns P) : Sure (Dist.lift o) P := by
  obtain ⟨a, rfl, ha⟩ := h
  rw [Dist.lift_ok]
  exact Sure.pure ha

theorem of_follows {d : Dist α} {m : Sim α} {P : α → Prop} (h : Follows d m) (hp : Sim.Post m P) : Sure d P :=
  ⟨h.total, fun a ha => by
    obtain ⟨draws, rest, e⟩ := h.given a ha
    exact hp.elim e⟩

theorem forLoop {body : ℕ → σ → Dist σ} (I : ℕ → σ → Prop) : ∀ (k i : ℕ) (s : σ), I i s →
    (∀ j s, i ≤ j → j < i + k → I j s → Sure (body j s) (I (j + 1))) → Sure (Dist.forLoop k i body s) (I (i + k)) := by
  intro k
  induction k with
  | zero => intro i s h _; exact Sure.pure h
  | succ k ih =>
    intro i s h hb
    change Sure (body i s >>= fun s => Dist.forLoop k (i + 1) body s) _
    refine (hb i s (le_refl _) (by omega) h).bind (fun s' hs' => ?_)
    have := ih (i + 1) s' hs' (fun j s h1 h2 h3 => hb j s (by omega) (by omega) h3)
    rwa [show i + 1 + k = i + (k + 1) by omega] at this

theorem forRange {body : ℕ → σ → Dist σ} (I : ℕ → σ → Prop) {m : ℕ} {s : σ} (h : I 0 s)
    (hb : ∀ j s, j < m → I j s → Sure (body j s) (I (j + 1))) : Sure (Dist.forRange 0 m body s) (I m) := by
  have := forLoop I m 0 s h (fun j s _ h2 h3 => hb j s (by omega) h3)
  rw [Nat.zero_add] at this
  exact this

/-- What is sure has not to be waited for. -/
theorem expect_missing {d : Dist α} {P : α → Prop} (h : Sure d P) : d.expect (missing P) = 0 := by
  unfold Dist.expect
  rw [ENNReal.tsum_eq_zero]
  intro a
  by_cases ha : d a = 0
  · rw [ha, zero_mul]
  · unfold missing
    rw [if_pos (h.holds a ha), mul_zero]

theorem expect_le_one {d : Dist α} {P : α → Prop} (h : Sure d P) (W : α → ℝ≥0∞) (hW : ∀ a, W a ≤ 1) : d.expect W ≤ 1 := by
  calc d.expect W ≤ d.expect (fun _ => 1) := Dist.expect_mono (fun a _ => hW a)
    _ = 1 := by rw [Dist.expect_const, h.total, mul_one]

end Sure

theorem missing_le_one {α : Type} (P : α → Prop) (a : α) : missing P a ≤ 1 := by
  unfold missing
  split
  · exact zero_le_one
  · exact le_refl _

/-! ## Loops -/

variable {σ : Type}

/-- The probability to have missed after a loop is the product of the probabilities to miss in each turn. -/
theorem forLoop_expect {body : ℕ → σ → Dist σ} (I : σ → Prop) (W : ℕ → σ → ℝ≥0∞) {r : ℝ≥0∞} (R : ℝ≥0∞ → ℝ≥0∞ → Prop)
    (hR : ∀ a b c d : ℝ≥0∞, R a b → R b (c * d) → R a (c * d)) (hrefl : ∀ a, R a a)
    (hmul : ∀ (d : Dist σ) (V U : σ → ℝ≥0∞), (∀ a, d a ≠ 0 → R (V a) (U a)) → R (d.expect V) (d.expect U))
    (hscale : ∀ a b c : ℝ≥0∞, R a b → R (c * a) (c * b)) :
    ∀ (k i : ℕ) (s : σ), I s →
    (∀ j s, i ≤ j → j < i + k → I s → Sure (body j s) I ∧ R ((body j s).expect (W (j + 1))) (r * W j s)) →
    R ((Dist.forLoop k i body s).expect (W (i + k))) (r ^ k * W i s) := by
  intro k
  induction k with
  | zero =>
    intro i s _ _
    change R ((pure s : Dist σ).expect _) _
    rw [Dist.expect_pure, pow_zero, one_mul]
    exact hrefl _
  | succ k ih =>
    intro i s h hb
    change R ((body i s >>= fun s => Dist.forLoop k (i + 1) body s).expect _) _
    obtain ⟨h1, h2⟩ := hb i s (le_refl _) (by omega) h
    rw [Dist.expect_bind, show i + (k + 1) = i + 1 + k by omega]
    have h3 := hmul (body i s) _ _ (fun s' hs' => ih (i + 1) s' (h1.holds s' hs') (fun j s g1 g2 g3 => hb j s (by omega) (by omega) g3))
    rw [Dist.expect_mul_left] at h3
    have h4 := hscale _ _ (r ^ k) h2
    rw [← mul_assoc, ← pow_succ] at h4
    exact hR _ _ _ _ h3 h4

theorem forRange_le {body : ℕ → σ → Dist σ} (I : σ → Prop) (W : ℕ → σ → ℝ≥0∞) {r : ℝ≥0∞} {m : ℕ} {s : σ} (h : I s)
    (hb : ∀ j s, j < m → I s → Sure (body j s) I ∧ (body j s).expect (W (j + 1)) ≤ r * W j s) :
    (Dist.forRange 0 m body s).expect (W m) ≤ r ^ m * W 0 s := by
  have := forLoop_expect (body := body) I W (r := r) (· ≤ ·) (fun _ _ _ _ => le_trans) le_refl (fun _ _ _ => Dist.expect_mono)
    (fun a b c h => mul_le_mul_right h _) m 0 s h (fun j s _ h2 h3 => hb j s (by omega) h3)
  rw [Nat.zero_add] at this
  exact this

theorem forRange_eq {body : ℕ → σ → Dist σ} (I : σ → Prop) (W : ℕ → σ → ℝ≥0∞) {r : ℝ≥0∞} {m : ℕ} {s : σ} (h : I s)
    (hb : ∀ j s, j < m → I s → Sure (body j s) I ∧ (body j s).expect (W (j + 1)) = r * W j s) :
    (Dist.forRange 0 m body s).expect (W m) = r ^ m * W 0 s := by
  have := forLoop_expect (body := body) I W (r := r) (· = ·) (fun _ _ _ _ => Eq.trans) (fun _ => rfl) (fun _ _ _ => Dist.expect_congr)
    (fun a b c h => by rw [h]) m 0 s h (fun j s _ h2 h3 => hb j s (by omega) h3)
  rw [Nat.zero_add] at this
  exact this

/-! ## Runs -/

theorem boundedLoop_chain (iterate : σ → Dist σ) : ∀ (t : ℕ) (s : σ), boundedLoop (fun _ => false) iterate t s = Dist.steps iterate t s := by
  intro t
  induction t with
  | zero => intro s; rfl
  | succ t ih =>
    intro s
    change (if false = true then _ else _) = _
    rw [if_neg (by simp)]
    change (iterate s >>= fun s => boundedLoop (fun _ => false) iterate t s) = (iterate s >>= fun s => Dist.steps iterate t s)
    simp only [ih]

variable {K : Type} {init : Dist σ} {iterate : σ → Dist σ} {solution : σ → BV × K} {I : σ → Prop} {found : BV → Prop}

theorem sure_steps (hit : ∀ s, I s → Sure (iterate s) I) : ∀ (t : ℕ) (s : σ), I s → Sure (Dist.steps iterate t s) I := by
  intro t
  induction t with
  | zero => intro s h; exact Sure.pure h
  | succ t ih => intro s h; exact (hit s h).bind (fun s' hs' => ih s' hs')

theorem run_eq {t : ℕ} (ht : 0 < t) : run solution init iterate (t : ℤ)
    = ((init >>= fun s => Dist.steps iterate t s) >>= fun s => pure (solution s)) := by
  unfold run loop
  have : ((t : ℤ) > 0) := by exact_mod_cast ht
  congr 2
  funext s
  rw [if_pos this, Int.toNat_natCast, boundedLoop_chain]

/-- The probability to have missed, in terms of the chain. -/
theorem missProb_run (hinit : Sure init I) (hit : ∀ s, I s → Sure (iterate s) I) {t : ℕ} (ht : 0 < t) :
    missProb (run solution init iterate (t : ℤ)) found
      = (init >>= fun s => Dist.steps iterate t s).expect (missing (fun s => found (solution s).1)) := by
  rw [run_eq ht]
  unfold missProb
  have hs : Sure (init >>= fun s => Dist.steps iterate t s) I := hinit.bind (fun s hs => sure_steps hit t s hs)
  have hs' : Sure ((init >>= fun s => Dist.steps iterate t s) >>= fun s => pure (solution s)) (fun _ => True) :=
    hs.bind (fun s _ => Sure.pure trivial)
  rw [Dist.one_sub_prob hs'.total, Dist.expect_bind]
  refine Dist.expect_congr (fun s _ => ?_)
  rw [Dist.expect_pure]
  rfl

theorem steps_le {W : σ → ℝ≥0∞} {r : ℝ≥0∞} (hit : ∀ s, I s → Sure (iterate s) I)
    (hmiss : ∀ s, I s → (iterate s).expect W ≤ r * W s) : ∀ (t : ℕ) (s : σ), I s → (Dist.steps iterate t s).expect W ≤ r ^ t * W s := by
  intro t
  induction t with
  | zero =>
    intro s _
    change (pure s : Dist σ).expect _ ≤ _
    rw [Dist.expect_pure, pow_zero, one_mul]
  | succ t ih =>
    intro s h
    change (iterate s >>= fun s => Dist.steps iterate t s).expect _ ≤ _
    rw [Dist.expect_bind]
    refine (Dist.expect_mono (fun s' hs' => ih s' ((hit s h).holds s' hs'))).trans ?_
    rw [Dist.expect_mul_left, pow_succ, mul_assoc]
    exact mul_le_mul_right (hmiss s h) _

theorem steps_eq {W : σ → ℝ≥0∞} {r : ℝ≥0∞} (hit : ∀ s, I s → Sure (iterate s) I)
    (hmiss : ∀ s, I s → (iterate s).expect W = r * W s) : ∀ (t : ℕ) (s : σ), I s → (Dist.steps iterate t s).expect W = r ^ t * W s := by
  intro t
  induction t with
  | zero =>
    intro s _
    change (pure s : Dist σ).expect _ = _
    rw [Dist.expect_pure, pow_zero, one_mul]
  | succ t ih =>
    intro s h
    change (iterate s >>= fun s => Dist.steps iterate t s).expect _ = _
    rw [Dist.expect_bind]
    refine (Dist.expect_congr (fun s' hs' => ih s' ((hit s h).holds s' hs'))).trans ?_
    rw [Dist.expect_mul_left, pow_succ, mul_assoc, hmiss s h]

theorem run_miss_le {a r : ℝ≥0∞} (hinit : Sure init I) (hit : ∀ s, I s → Sure (iterate s) I)
    (ha : init.expect (missing (fun s => found (solution s).1)) ≤ a)
    (hmiss : ∀ s, I s → (iterate s).expect (missing (fun s => found (solution s).1)) ≤ r * missing (fun s => found (solution s).1) s)
    {t : ℕ} (ht : 0 < t) : missProb (run solution init iterate (t : ℤ)) found ≤ r ^ t * a := by
  rw [missProb_run hinit hit ht, Dist.expect_bind]
  refine (Dist.expect_mono (fun s hs => steps_le hit hmiss t s (hinit.holds s hs))).trans ?_
  rw [Dist.expect_mul_left]
  exact mul_le_mul_right ha _

theorem run_miss_eq {a r : ℝ≥0∞} (hinit : Sure init I) (hit : ∀ s, I s → Sure (iterate s) I)
    (ha : init.expect (missing (fun s => found (solution s).1)) = a)
    (hmiss : ∀ s, I s → (iterate s).expect (missing (fun s => found (solution s).1)) = r * missing (fun s => found (solution s).1) s)
    {t : ℕ} (ht : 0 < t) : missProb (run solution init iterate (t : ℤ)) found = r ^ t * a := by
  rw [missProb_run hinit hit ht, Dist.expect_bind]
  refine (Dist.expect_congr (fun s hs => steps_eq hit hmiss t s (hinit.holds s hs))).trans ?_
  rw [Dist.expect_mul_left, ha]

end Hnco.Prob
