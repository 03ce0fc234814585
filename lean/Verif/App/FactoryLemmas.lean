import Verif.App.FactorySpec
import Verif.Function.TheoryProps
import Verif.Function.PeaksProps
import Verif.Function.LongPathProps
import Verif.Function.MaximumProps
import Verif.Function.ComplementProps
import Verif.Function.IncrementalProps
import Mathlib.Algebra.Order.Ring.Cast

/-! # Helper lemmas on the function factory -/

namespace Hnco

open Outcome

variable {K : Type} [Field K] [LinearOrder K]

theorem real_eval {f : Fn Int} {x : BV} {v : Int} (h : f.eval x = ok v) : (f.real : Fn K).eval x = ok (v : K) := by
  simp only [Fn.real]
  rw [h, ok_bind]

theorem real_total {f : Fn Int} (h : f.Total) : (f.real : Fn K).Total := by
  intro x hx
  obtain ⟨v, hv⟩ := h x hx
  exact ⟨_, real_eval hv⟩

section
variable [IsStrictOrderedRing K]

theorem real_maximum {f : Fn Int} (h : DeclaresMaximum f) : DeclaresMaximum (f.real : Fn K) := by
  obtain ⟨h1, m, h2, h3, x, h4, h5⟩ := h
  refine ⟨h1, (m : K), ?_, ?_, x, h4, real_eval h5⟩
  · simp only [Fn.real]
    rw [h2, ok_bind]
  · intro y hy
    obtain ⟨v, hv, hle⟩ := h3 y hy
    exact ⟨_, real_eval hv, by exact_mod_cast hle⟩

theorem declares_total {f : Fn K} (h : DeclaresMaximum f) : f.Total := by
  obtain ⟨_, m, _, h3, _⟩ := h
  intro x hx
  obtain ⟨v, hv, _⟩ := h3 x hx
  exact ⟨v, hv⟩

theorem real_sound {f : Fn Int} (h : DeclaresMaximum f) : (f.real : Fn K).Sound :=
  ⟨declares_total (real_maximum h), fun _ => real_maximum h, fun h => by cases h⟩

theorem ofEval_sound {n : Nat} {e : BV → Outcome K} (h : ∀ x : BV, x.length = n → ∃ v, e x = ok v) :
    (Fn.ofEval n e).Sound := ⟨h, fun h => (by cases h), fun h => (by cases h)⟩

theorem oneMaxReal_sound (n : Nat) : (oneMaxReal n : Fn K).Sound := by
  have hev : ∀ x : BV, (oneMaxReal n : Fn K).eval x = ok ((x.count true : Nat) : K) := fun x => by
    simp [oneMaxReal, bvHammingWeight_eq]
  refine ⟨fun x _ => ⟨_, hev x⟩, fun _ => ⟨rfl, n, rfl, ?_, List.replicate n true, by simp [oneMaxReal], ?_⟩, fun _ => ⟨rfl, ?_⟩⟩
  · intro x hx
    change x.length = n at hx
    refine ⟨_, hev x, ?_⟩
    have := count_le x
    rw [hx] at this
    exact_mod_cast this
  · rw [hev]; simp
  · intro x y v flips hx hy hs hr hf hv
    obtain ⟨_, hinc⟩ := oneMax_incremental n
    obtain ⟨w, h1, h2⟩ := hinc x y (x.count true : Nat) flips hx hy hs hr hf (oneMax_value n x)
    have hv' : v = ((x.count true : Nat) : K) := by
      rw [hev] at hv
      exact (Outcome.ok.inj hv).symm
    rw [oneMax_value] at h2
    have hw := Outcome.ok.inj h2
    simp only [oneMax, oneMaxInc] at h1
    obtain ⟨d, hd, hd'⟩ := bind_eq_ok.mp h1
    refine ⟨(w : K), ?_, ?_⟩
    · simp only [oneMaxReal]
      rw [hd, ok_bind, hv']
      have : ((x.count true : Nat) : Int) + d = w := Outcome.ok.inj hd'
      rw [← this]
      push_cast
      rfl
    · rw [hev, ← hw]
      push_cast
      rfl

end

/-! ## Weights in geometric progression -/

theorem forRange_split {σ : Type} {body : Nat → σ → Outcome σ} {a m b : Nat} {s : σ} (h1 : a ≤ m) (h2 : m ≤ b) :
    forRange a b body s = forRange a m body s >>= forRange m b body := by
  obtain ⟨k, rfl⟩ := Nat.exists_eq_add_of_le h1
  induction k generalizing a s with
  | zero => rw [forRange_empty (a := a) (b := a + 0) (by omega), ok_bind]; rfl
  | succ k ih =>
    rw [forRange_step (by omega), forRange_step (a := a) (b := a + (k + 1)) (by omega), bind_assoc]
    congr 1
    funext t
    have := ih (a := a + 1) (s := t) (by omega) (by omega)
    rw [this, show a + 1 + k = a + (k + 1) by omega]

theorem doublingWeights_eq {n : Nat} (hn : 0 < n) :
    (n ≤ 30 → doublingWeights n = ok ((List.range n).map fun i : Nat => (2 : K) ^ i)) ∧
    (30 < n → doublingWeights (K := K) n = ub) := by
  have hvs : (vresize [] n 0 : List K) = List.replicate n 0 := by simp [vresize]
  have step : ∀ i, i < 30 → i < n → ∀ (l : List K), l.length = n →
      (fun i (r : List K × Int) => (do
        let w ← checked 32 (r.2 * 2)
        let l ← vset r.1 i ((r.2 : Int) : K)
        ok (l, w) : Outcome (List K × Int))) i (l, 2 ^ i) = ok (l.set i ((2 : K) ^ i), 2 ^ (i + 1)) := by
    intro i hi hin l hl
    have h30 : (2 : Int) ^ i ≤ 2 ^ 29 := pow_le_pow_right₀ (by norm_num) (by omega)
    have hpos : (0 : Int) < 2 ^ i := by positivity
    have hc : checked 32 ((2 : Int) ^ i * 2) = ok (2 ^ i * 2) := by
      unfold checked
      rw [if_pos]
      constructor
      · have : (0 : Int) ≤ 2 ^ (32 - 1) := by positivity
        linarith
      · have : (2 : Int) ^ (32 - 1) = 2147483648 := by norm_num
        rw [this]
        norm_num at h30
        linarith
    simp only []
    rw [hc, ok_bind, vset_eq (by omega), ok_bind, pow_succ]
    push_cast
    rfl
  have run : ∀ m, m ≤ n → m ≤ 30 → forRange 0 m (fun i (r : List K × Int) => (do
        let w ← checked 32 (r.2 * 2)
        let l ← vset r.1 i ((r.2 : Int) : K)
        ok (l, w) : Outcome (List K × Int))) (List.replicate n 0, 1) =
      ok ((List.range m).map (fun i : Nat => (2 : K) ^ i) ++ List.replicate (n - m) 0, 2 ^ m) := by
    intro m hm hm30
    obtain ⟨s, h1, h2⟩ := forRange_returns (body := fun i (r : List K × Int) => (do
        let w ← checked 32 (r.2 * 2)
        let l ← vset r.1 i ((r.2 : Int) : K)
        ok (l, w) : Outcome (List K × Int)))
      (I := fun i s => s = ((List.range i).map (fun i : Nat => (2 : K) ^ i) ++ List.replicate (n - i) 0, (2 : Int) ^ i))
      (a := 0) (b := m) (s := (List.replicate n 0, 1)) (Nat.zero_le m) (by simp) (by
        intro i s _ hi hs
        subst hs
        refine ⟨_, step i (by omega) (by omega) _ (by simp; omega), ?_⟩
        refine Prod.ext ?_ rfl
        apply List.ext_getElem?
        intro j
        rw [List.getElem?_set]
        simp only [List.length_append, List.length_map, List.length_range, List.length_replicate, List.getElem?_append,
          List.getElem?_map, List.getElem?_replicate]
        by_cases hji : i = j
        · subst hji
          simp
          omega
        · by_cases hlt : j < i
          · simp [hji, hlt, show j < i + 1 by omega]
          · simp [hji, hlt, show ¬ j < i + 1 by omega]
            by_cases hjn : j < n
            · rw [if_pos (by omega), if_pos (by omega)]
            · rw [if_neg (by omega), if_neg (by omega)])
    rw [h1, h2]
  constructor
  · intro h30
    unfold doublingWeights
    rw [assert_pos (by simpa using hn), ok_bind, hvs, run n (le_refl _) h30, ok_bind]
    simp
  · intro h30
    unfold doublingWeights
    rw [assert_pos (by simpa using hn), ok_bind, hvs]
    have : forRange 0 n (fun i (r : List K × Int) => (do
        let w ← checked 32 (r.2 * 2)
        let l ← vset r.1 i ((r.2 : Int) : K)
        ok (l, w) : Outcome (List K × Int))) (List.replicate n 0, 1) = ub := by
      rw [forRange_split (show 0 ≤ 30 by omega) (show 30 ≤ n by omega), run 30 (by omega) (le_refl _), ok_bind,
        forRange_step (by omega)]
      rfl
    rw [this]
    rfl

end Hnco
