import Verif.Prob.UnbiasedSpec
import Verif.Prob.SymmetryProps

/-!
# Unbiased algorithms: lemmas
-/

namespace Hnco.Prob

open Outcome
open scoped ENNReal

variable {K : Type} [LinearOrder K] {n : ℕ}

/-- The symmetry which moves nothing and exchanges zeros and ones at some positions. -/
def exchanging (n : ℕ) (e : ℕ → Bool) : Symmetry n := ⟨id, id, e, fun _ h => h, fun _ h => h, fun _ _ => rfl, fun _ _ => rfl⟩

theorem exchanging_act {x : BV} (hx : x.length = n) {y : BV} (hy : y.length = n) :
    (exchanging n (fun i => xor (x.getD i false) (y.getD i false))).act x = y := by
  refine bv_ext (Symmetry.act_length _ _) hy (fun i hi => ?_)
  rw [Symmetry.act_get _ _ hi]
  simp only [exchanging, id]
  cases x.getD i false <;> simp

theorem exchanging_false {x : BV} (hx : x.length = n) : (exchanging n (fun _ => false)).act x = x := by
  refine bv_ext (Symmetry.act_length _ _) hx (fun i hi => ?_)
  rw [Symmetry.act_get _ _ hi]
  simp [exchanging]

/-- The symmetry made of a permutation. -/
def permuting (e : Fin n ≃ Fin n) : Symmetry n where
  source i := if h : i < n then (e ⟨i, h⟩ : ℕ) else i
  dest i := if h : i < n then (e.symm ⟨i, h⟩ : ℕ) else i
  exchange _ := false
  source_lt i h := by simp only [h, dif_pos]; exact (e _).2
  dest_lt i h := by simp only [h, dif_pos]; exact (e.symm _).2
  source_dest i h := by simp [h]
  dest_source i h := by simp [h]

theorem ones_card {x : BV} (hx : x.length = n) (b : Bool) : Fintype.card {i : Fin n // x.getD i false = b} = x.count b := by
  subst hx
  rw [Fintype.card_subtype]
  induction x with
  | nil => simp
  | cons a x ih =>
    rw [List.count_cons, ← ih]
    have : (Finset.univ.filter (fun i : Fin (a :: x).length => (a :: x).getD i false = b)).card =
        (Finset.univ.filter (fun i : Fin (x.length + 1) => (a :: x).getD i false = b)).card := rfl
    rw [this, Fin.card_filter_univ_succ]
    simp only [Fin.val_zero, List.getD_cons_zero, Fin.val_succ, List.getD_cons_succ, Function.comp_def]
    by_cases h : a = b <;> simp [h]

theorem permuting_exists {x y : BV} (hx : x.length = n) (hy : y.length = n) (h : ones x = ones y) : ∃ e : Fin n ≃ Fin n, (permuting e).act x = y := by
  have hc : ∀ b, Fintype.card {i : Fin n // y.getD i false = b} = Fintype.card {i : Fin n // x.getD i false = b} := by
    intro b
    rw [ones_card hx, ones_card hy]
    have h1 := List.length_eq_countP_add_countP (fun b => b == true) (l := x)
    have h2 := List.length_eq_countP_add_countP (fun b => b == true) (l := y)
    unfold ones at h
    cases b
    · have e1 : ∀ z : BV, z.count false = z.countP (fun b => decide (¬ (b == true) = true)) := by
        intro z
        rw [List.count_eq_countP]
        congr 1
        funext b
        cases b <;> rfl
      rw [e1, e1]
      simp only [List.count_eq_countP] at h
      omega
    · exact h.symm
  let e : Fin n ≃ Fin n := Equiv.ofFiberEquiv (f := fun i : Fin n => y.getD i false) (g := fun i : Fin n => x.getD i false)
    (fun b => Fintype.equivOfCardEq (hc b))
  refine ⟨e, bv_ext (Symmetry.act_length _ _) hy (fun i hi => ?_)⟩
  rw [Symmetry.act_get _ _ hi]
  simp only [permuting, hi, dif_pos, Bool.xor_false]
  exact Equiv.ofFiberEquiv_map (f := fun i : Fin n => y.getD i false) (g := fun i : Fin n => x.getD i false) _ ⟨i, hi⟩

omit [LinearOrder K] in
theorem relabeled_support {σ : Symmetry n} {d : Dist (BV × K)} {r : BV × K} (h : relabeled σ d r ≠ 0) : r.1.length = n := by
  unfold relabeled at h
  obtain ⟨s, _, hs⟩ := bind_support h
  rw [pure_support hs]
  exact σ.act_length _

omit [LinearOrder K] in
theorem relabeled_apply {σ : Symmetry n} {d : Dist (BV × K)} (hd : ∀ r, d r ≠ 0 → r.1.length = n) {x : BV} (hx : x.length = n) (v : K) :
    relabeled σ d (σ.act x, v) = d (x, v) := by
  classical
  unfold relabeled
  rw [Dist.bind_apply, tsum_eq_single (x, v)]
  · rw [Dist.pure_apply, if_pos rfl, mul_one]
  · intro r hr
    by_cases h0 : d r = 0
    · rw [h0, zero_mul]
    · rw [Dist.pure_apply, if_neg, mul_zero]
      intro e
      apply hr
      have e1 := congrArg Prod.fst e
      have e2 := congrArg Prod.snd e
      simp only at e1 e2
      have e3 := congrArg σ.unact e1
      rw [σ.unact_act hx, σ.unact_act (hd r h0)] at e3
      exact Prod.ext e3.symm e2.symm

omit [LinearOrder K] in
theorem relabeled_prob {σ : Symmetry n} {d : Dist (BV × K)} (P : BV × K → Prop) [DecidablePred P] [DecidablePred (fun r : BV × K => P (σ.act r.1, r.2))] :
    (relabeled σ d).prob P = d.prob (fun r => P (σ.act r.1, r.2)) := by
  unfold relabeled
  rw [Dist.prob_expect, Dist.prob_expect, Dist.expect_bind]
  simp only [Dist.expect_pure]
  congr!

theorem Unbiased.length {alg : Fn K → Dist (BV × K)} (h : Unbiased n alg) {f : Fn K} {val : BV → K} (hf : Evaluates f n val) {r : BV × K}
    (hr : alg f r ≠ 0) : r.1.length = n := by
  have := h (exchanging n (fun _ => false)) f f val val ⟨hf, hf, fun x hx => by rw [exchanging_false hx]⟩
  rw [this] at hr
  exact relabeled_support hr

end Hnco.Prob
