import Verif.Prob.GibbsLemmas
import Mathlib.Data.Nat.Factorial.Basic
import Mathlib.Data.Nat.Choose.Basic
import Mathlib.Algebra.BigOperators.Intervals

/-!
# Lemmas about random permutations
-/

namespace Hnco.Prob

open Outcome
open scoped ENNReal

/-! ## Counting permutations -/

/-- The permutations of a list. -/
def permsOf (l : List ℕ) : Finset (List ℕ) := l.permutations.toFinset

theorem mem_permsOf {l s : List ℕ} : s ∈ permsOf l ↔ s.Perm l := by
  unfold permsOf
  rw [List.mem_toFinset, List.mem_permutations]

theorem permsOf_card {l : List ℕ} (h : l.Nodup) : (permsOf l).card = l.length.factorial := by
  unfold permsOf
  rw [List.toFinset_card_of_nodup (List.nodup_permutations _ h), List.length_permutations]

/-- The permutations which begin with `k` elements of `S`. -/
theorem card_prefix (S : Finset ℕ) : ∀ (k : ℕ) (l : List ℕ), l.Nodup → k ≤ l.length →
    ((permsOf l).filter (fun s => ∀ x ∈ s.take k, x ∈ S)).card =
      (l.toFinset ∩ S).card.descFactorial k * (l.length - k).factorial
  | 0, l, hl, _ => by
    rw [Finset.filter_true_of_mem (by intro s _ x hx; simp at hx), permsOf_card hl]
    simp
  | k + 1, l, hl, hk => by
    have hset : (permsOf l).filter (fun s => ∀ x ∈ s.take (k + 1), x ∈ S) =
        (l.toFinset ∩ S).biUnion (fun a => ((permsOf (l.erase a)).filter (fun s => ∀ x ∈ s.take k, x ∈ S)).image (a :: ·)) := by
      ext s
      simp only [Finset.mem_filter, Finset.mem_biUnion, Finset.mem_image, mem_permsOf, Finset.mem_inter, List.mem_toFinset]
      constructor
      · rintro ⟨hs, hS⟩
        cases s with
        | nil =>
          have := hs.length_eq
          simp at this
          omega
        | cons a r =>
          have hal : a ∈ l := hs.mem_iff.mp (by simp)
          refine ⟨a, ⟨hal, hS a (by simp)⟩, r, ⟨?_, fun x hx => hS x (by simp [hx])⟩, rfl⟩
          exact (List.cons_perm_iff_perm_erase.mp hs).2
      · rintro ⟨a, ⟨hal, haS⟩, r, ⟨hr, hS⟩, rfl⟩
        refine ⟨List.cons_perm_iff_perm_erase.mpr ⟨hal, hr⟩, ?_⟩
        intro x hx
        rw [List.take_succ_cons, List.mem_cons] at hx
        rcases hx with rfl | hx
        · exact haS
        · exact hS x hx
    rw [hset, Finset.card_biUnion]
    · have hterm : ∀ a ∈ l.toFinset ∩ S, (((permsOf (l.erase a)).filter (fun s => ∀ x ∈ s.take k, x ∈ S)).image (a :: ·)).card =
          ((l.toFinset ∩ S).card - 1).descFactorial k * (l.length - (k + 1)).factorial := by
        intro a ha
        rw [Finset.mem_inter, List.mem_toFinset] at ha
        have hlen := List.length_erase_of_mem ha.1
        rw [Finset.card_image_of_injective _ (fun x y h => by simpa using h), card_prefix S k (l.erase a) (hl.erase a) (by omega), hlen,
          show l.length - 1 - k = l.length - (k + 1) by omega]
        congr 2
        have : (l.erase a).toFinset ∩ S = (l.toFinset ∩ S).erase a := by
          ext x
          simp only [Finset.mem_inter, List.mem_toFinset, Finset.mem_erase, hl.mem_erase_iff]
          tauto
        rw [this, Finset.card_erase_of_mem (by rw [Finset.mem_inter, List.mem_toFinset]; exact ha)]
      rw [Finset.sum_congr rfl hterm, Finset.sum_const, smul_eq_mul]
      generalize (l.toFinset ∩ S).card = c
      cases c with
      | zero => simp
      | succ c => rw [Nat.succ_descFactorial_succ, Nat.add_sub_cancel, mul_assoc]
    · intro a _ b _ hab
      rw [Function.onFun, Finset.disjoint_left]
      intro s hs ht
      obtain ⟨r, _, rfl⟩ := Finset.mem_image.mp hs
      obtain ⟨r', _, h⟩ := Finset.mem_image.mp ht
      exact hab (by simpa using (List.cons.inj h).1.symm)

/-- The permutations with `k` elements of `S` from position `p` on. -/
theorem card_slice (S : Finset ℕ) {k p N : ℕ} (h : p + k ≤ N) (hS : S ⊆ Finset.range N) :
    ((permsOf (List.range N)).filter (fun s => ∀ x ∈ (s.drop p).take k, x ∈ S)).card = S.card.descFactorial k * (N - k).factorial := by
  have hc := card_prefix S k (List.range N) List.nodup_range (by rw [List.length_range]; omega)
  rw [List.length_range] at hc
  have hSe : (List.range N).toFinset ∩ S = S := by
    apply Finset.inter_eq_right.mpr
    intro x hx
    rw [List.mem_toFinset, List.mem_range]
    exact Finset.mem_range.mp (hS hx)
  rw [hSe] at hc
  rw [← hc]
  refine Finset.card_bij (fun s _ => s.rotate p) ?_ ?_ ?_
  · intro s hs
    simp only [Finset.mem_filter, mem_permsOf] at hs ⊢
    have hlen : s.length = N := by simpa using hs.1.length_eq
    refine ⟨(List.rotate_perm s p).trans hs.1, ?_⟩
    rw [List.rotate_eq_drop_append_take (by omega), List.take_append_of_le_length (by rw [List.length_drop]; omega)]
    exact hs.2
  · intro s _ t _ h
    exact List.rotate_injective p h
  · intro s hs
    simp only [Finset.mem_filter, mem_permsOf] at hs
    have hlen : s.length = N := by simpa using hs.1.length_eq
    have hr : (s.rotate (N - p)).rotate p = s := by
      rw [List.rotate_rotate, show N - p + p = s.length by omega, List.rotate_length]
    refine ⟨s.rotate (N - p), ?_, hr⟩
    simp only [Finset.mem_filter, mem_permsOf]
    refine ⟨(List.rotate_perm _ _).trans hs.1, ?_⟩
    have h2 := hs.2
    rw [← hr, List.rotate_eq_drop_append_take (by rw [List.length_rotate]; omega),
      List.take_append_of_le_length (by rw [List.length_drop, List.length_rotate]; omega)] at h2
    exact h2

/-- The permutations with element `i` at position `w`. -/
theorem card_at {w i N : ℕ} (hw : w < N) (hi : i < N) :
    ((permsOf (List.range N)).filter (fun s => s[w]? = some i)).card = (N - 1).factorial := by
  have h := card_slice {i} (k := 1) (p := w) (N := N) (by omega) (by simpa using hi)
  rw [Finset.card_singleton] at h
  simp only [Nat.descFactorial_one, one_mul] at h
  rw [← h]
  congr 1
  apply Finset.filter_congr
  intro s hs
  have hlen : s.length = N := by simpa using (mem_permsOf.mp hs).length_eq
  rw [List.drop_eq_getElem_cons (by omega), List.getElem?_eq_getElem (by omega), List.take_succ_cons, List.take_zero]
  simp

/-! ## Probabilities -/

/-- The law of a function of a random permutation. -/
theorem permRandom_map {α : Type} [DecidableEq α] (N : ℕ) (g : List ℕ → α) (a : α) :
    (permRandom N >>= fun s => (pure (g s) : Dist α)) a =
      (((permsOf (List.range N)).filter (fun s => g s = a)).card : ℝ≥0∞) / ((N.factorial : ℕ) : ℝ≥0∞) := by
  rw [Dist.bind_apply, tsum_eq_sum (s := (permsOf (List.range N)).filter (fun s => g s = a))]
  · rw [Finset.sum_congr rfl (g := fun _ => ((N.factorial : ℕ) : ℝ≥0∞)⁻¹), Finset.sum_const, nsmul_eq_mul, div_eq_mul_inv]
    intro s hs
    rw [Finset.mem_filter, mem_permsOf] at hs
    rw [show permRandom N s = _ from if_pos hs.1, Dist.pure_apply, if_pos hs.2.symm, mul_one]
  · intro s hs
    rw [Finset.mem_filter, mem_permsOf] at hs
    by_cases h : s.Perm (List.range N)
    · rw [Dist.pure_apply, if_neg (fun h' => hs ⟨h, h'.symm⟩), mul_zero]
    · rw [show permRandom N s = 0 from if_neg h, zero_mul]

/-- Something which does not depend on the random permutation. -/
theorem permRandom_const {α : Type} (N : ℕ) (d : Dist α) : (permRandom N >>= fun _ => d) = d := by
  ext a
  rw [Dist.bind_apply, ENNReal.tsum_mul_right]
  change (permRandom N).total * _ = _
  rw [permRandom_total, one_mul]

end Hnco.Prob
