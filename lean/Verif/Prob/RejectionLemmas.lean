import Verif.Prob.Lemmas
import Mathlib.Data.Nat.Factorial.BigOperators

/-!
# Sampling different numbers with rejection
-/

namespace Hnco.Prob

open Outcome
open scoped ENNReal

/-- Conditional law of a uniform number given that it is not in a list. -/
theorem uniform_reject {n : ℕ} {l : List ℕ} (hn : 0 < n) (hnd : l.Nodup) (hl : ∀ j ∈ l, j < n) (i : ℕ) :
    Dist.repeatUntil (Dist.uniformInt 0 (n - 1)) (fun i => !l.contains i) i
      = if i < n ∧ i ∉ l then ((n - l.length : ℕ) : ℝ≥0∞)⁻¹ else 0 := by
  have hn1 : n - 1 - 0 + 1 = n := by omega
  have hu : ∀ j, Dist.uniformInt 0 (n - 1) j = if j < n then ((n : ℕ) : ℝ≥0∞)⁻¹ else 0 := by
    intro j
    change (if 0 ≤ j ∧ j ≤ n - 1 then ((n - 1 - 0 + 1 : ℕ) : ℝ≥0∞)⁻¹ else 0) = _
    rw [hn1]
    refine if_congr ?_ rfl rfl
    omega
  have hsub : l.toFinset ⊆ Finset.range n := fun j hj => Finset.mem_range.mpr (hl j (List.mem_toFinset.mp hj))
  have hhit : (∑' j, if (!l.contains j) = true then Dist.uniformInt 0 (n - 1) j else 0)
      = ((n - l.length : ℕ) : ℝ≥0∞) * ((n : ℕ) : ℝ≥0∞)⁻¹ := by
    rw [tsum_eq_sum (s := Finset.range n \ l.toFinset)]
    · rw [Finset.sum_congr rfl (g := fun _ => ((n : ℕ) : ℝ≥0∞)⁻¹)]
      · rw [Finset.sum_const, Finset.card_sdiff_of_subset hsub, Finset.card_range, List.toFinset_card_of_nodup hnd,
          nsmul_eq_mul]
      · intro j hj
        rw [Finset.mem_sdiff, Finset.mem_range, List.mem_toFinset] at hj
        rw [hu, if_pos (by simpa using hj.2), if_pos hj.1]
    · intro j hj
      rw [Finset.mem_sdiff, Finset.mem_range, List.mem_toFinset] at hj
      by_cases h : j ∈ l
      · rw [if_neg (by simpa using h)]
      · rw [hu, if_neg (fun h' => hj ⟨h', h⟩)]
        simp
  rw [Dist.repeatUntil_cond (Dist.uniformInt_total (Nat.zero_le _)), hhit, hu]
  have hn' : ((n : ℕ) : ℝ≥0∞) ≠ 0 := by exact_mod_cast hn.ne'
  by_cases h : i < n ∧ i ∉ l
  · rw [if_pos (by simpa using h.2), if_pos h.1, if_pos h, div_eq_mul_inv,
      ENNReal.mul_inv (Or.inr (ENNReal.inv_ne_top.mpr hn')) (Or.inr (by simp)), inv_inv, mul_comm, mul_assoc,
      ENNReal.mul_inv_cancel hn' (ENNReal.natCast_ne_top _), mul_one]
  · rw [if_neg h]
    by_cases h2 : i ∈ l
    · rw [if_neg (by simpa using h2)]
    · rw [if_neg (c := i < n) (fun h1 => h ⟨h1, h2⟩), ENNReal.zero_div]
      simp

open Classical in
/-- The uniform law of the sequences of `k` different numbers below `n`. -/
noncomputable def sequenceLaw (n k : ℕ) : Dist (List ℕ) :=
  ⟨fun l => if l.Nodup ∧ (∀ j ∈ l, j < n) ∧ l.length = k then ((n.descFactorial k : ℕ) : ℝ≥0∞)⁻¹ else 0⟩

open Classical in
theorem sequenceLaw_apply (n k : ℕ) (l : List ℕ) : sequenceLaw n k l
    = if l.Nodup ∧ (∀ j ∈ l, j < n) ∧ l.length = k then ((n.descFactorial k : ℕ) : ℝ≥0∞)⁻¹ else 0 := rfl

/-- One step of `rejection_sampling`. -/
noncomputable def rejectionStep (size : ℕ) (_ : ℕ) (flipped : List ℕ) : Dist (List ℕ) := do
  let index ← Dist.repeatUntil (Dist.uniformInt 0 (size - 1)) (fun index => !flipped.contains index)
  pure (flipped ++ [index])

theorem rejection_loop {size : ℕ} (hn : 0 < size) :
    ∀ k, Dist.forLoop k 0 (rejectionStep size) [] = sequenceLaw size k := by
  classical
  intro k
  induction k with
  | zero =>
    ext l
    change (pure [] : Dist (List ℕ)) l = _
    rw [Dist.pure_apply, sequenceLaw_apply]
    by_cases h : l = []
    · subst h; simp
    · rw [if_neg h, if_neg (fun h' => h (List.eq_nil_of_length_eq_zero h'.2.2))]
  | succ k ih =>
    rw [Dist.forLoop_last, ih]
    have hstep : ∀ l, sequenceLaw size k l ≠ 0 → rejectionStep size (0 + k) l
        = ((⟨fun i => if i < size ∧ i ∉ l then ((size - l.length : ℕ) : ℝ≥0∞)⁻¹ else 0⟩ : Dist ℕ) >>= fun i =>
          pure (l ++ [i])) := by
      intro l hl
      rw [sequenceLaw_apply] at hl
      have h : l.Nodup ∧ (∀ j ∈ l, j < size) ∧ l.length = k := by
        by_contra h
        exact hl (if_neg h)
      unfold rejectionStep
      congr 1
      ext i
      exact uniform_reject hn h.1 h.2.1 i
    rw [Dist.bind_congr_support hstep]
    ext l
    rcases List.eq_nil_or_concat l with rfl | ⟨l', i, rfl⟩
    · rw [sequenceLaw_apply, if_neg (by simp), Dist.bind_apply, ENNReal.tsum_eq_zero]
      intro l
      rw [Dist.bind_apply]
      simp [Dist.pure_apply]
    · rw [List.concat_eq_append, Dist.bind_apply, tsum_eq_single l']
      · rw [Dist.bind_apply, tsum_eq_single i]
        · rw [Dist.pure_apply, if_pos rfl, mul_one, sequenceLaw_apply, sequenceLaw_apply]
          by_cases h1 : l'.Nodup ∧ (∀ j ∈ l', j < size) ∧ l'.length = k
          · rw [if_pos h1]
            by_cases h2 : i < size ∧ i ∉ l'
            · rw [if_pos (c := (l' ++ [i]).Nodup ∧ _)]
              · simp only [h2, not_false_eq_true, and_self, if_true]
                rw [h1.2.2, Nat.descFactorial_succ, Nat.cast_mul, ENNReal.mul_inv]
                · ring
                · exact Or.inr (ENNReal.natCast_ne_top _)
                · exact Or.inl (ENNReal.natCast_ne_top _)
              · refine ⟨?_, ?_, by simp [h1.2.2]⟩
                · rw [List.nodup_append]
                  refine ⟨h1.1, by simp, ?_⟩
                  intro a ha b hb
                  rw [List.mem_singleton] at hb
                  subst hb
                  exact fun e => h2.2 (e ▸ ha)
                · intro j hj
                  rcases List.mem_append.mp hj with hj | hj
                  · exact h1.2.1 j hj
                  · rw [List.mem_singleton] at hj
                    rw [hj]
                    exact h2.1
            · simp only [h2, if_false, mul_zero]
              rw [if_neg]
              rintro ⟨h3, h4, _⟩
              refine h2 ⟨h4 i (by simp), fun hi => ?_⟩
              rw [List.nodup_append] at h3
              exact h3.2.2 i hi i (by simp) rfl
          · rw [if_neg h1, zero_mul, if_neg]
            rintro ⟨h3, h4, h5⟩
            refine h1 ⟨(List.nodup_append.mp h3).1, fun j hj => h4 j (by simp [hj]), ?_⟩
            simpa using h5
        · intro j hj
          rw [Dist.pure_apply, if_neg, mul_zero]
          intro e
          exact hj (by simpa using e.symm)
      · intro l'' hl''
        rw [Dist.bind_apply]
        have : (∑' j, (⟨fun i => if i < size ∧ i ∉ l'' then ((size - l''.length : ℕ) : ℝ≥0∞)⁻¹ else 0⟩ : Dist ℕ) j
            * (pure (l'' ++ [j]) : Dist (List ℕ)) (l' ++ [i])) = 0 := by
          rw [ENNReal.tsum_eq_zero]
          intro j
          rw [Dist.pure_apply, if_neg, mul_zero]
          intro e
          exact hl'' (List.append_inj_left' e.symm rfl)
        rw [this, mul_zero]

theorem sorted_eq_iff {l r : List ℕ} (hr : r.Pairwise (· < ·)) : l.insertionSort (· ≤ ·) = r ↔ l.Perm r := by
  constructor
  · intro h
    rw [← h]
    exact (List.perm_insertionSort (· ≤ ·) l).symm
  · intro h
    refine List.Perm.eq_of_pairwise (le := (· ≤ ·)) ?_ ?_ ?_ ((List.perm_insertionSort (· ≤ ·) l).trans h)
    · intro a b _ _ h1 h2
      exact Nat.le_antisymm h1 h2
    · exact List.pairwise_insertionSort (· ≤ ·) l
    · exact hr.imp (fun h => Nat.le_of_lt h)

/-- Rejection sampling chooses uniformly a set of `k` indices. -/
theorem rejectionSampling_law {size k : ℕ} (hk : k ≤ size) (hn : 0 < size) :
    rejectionSampling size k = chooseLaw 0 size k := by
  classical
  have h1 : rejectionSampling size k = (Dist.forLoop k 0 (rejectionStep size) [] >>= fun flipped =>
    pure (flipped.insertionSort (· ≤ ·))) := rfl
  rw [h1, rejection_loop hn]
  ext r
  rw [Dist.bind_apply, chooseLaw_apply]
  by_cases h : Ascending 0 size r ∧ r.length = k
  · have hnd : r.Nodup := h.1.1.imp (fun h => Nat.ne_of_lt h)
    rw [if_pos h, tsum_eq_sum (s := r.permutations.toFinset)]
    · rw [Finset.sum_congr rfl (g := fun _ => ((size.descFactorial k : ℕ) : ℝ≥0∞)⁻¹)]
      · rw [Finset.sum_const, List.toFinset_card_of_nodup (List.nodup_permutations r hnd), List.length_permutations, h.2,
          nsmul_eq_mul]
        have := ratio_inv (a := k.factorial) (b := 1) (c := size.descFactorial k) (d := size.choose k)
          (Nat.factorial_ne_zero k) one_ne_zero (Nat.descFactorial_pos.mpr hk).ne' (Nat.choose_pos hk).ne'
          (by rw [one_mul, Nat.descFactorial_eq_factorial_mul_choose, mul_comm])
        simpa using this
      · intro l hl
        have hp : l.Perm r := List.mem_permutations.mp (List.mem_toFinset.mp hl)
        rw [sequenceLaw_apply, Dist.pure_apply, if_pos, if_pos ((sorted_eq_iff h.1.1).mpr hp).symm, mul_one]
        refine ⟨hp.nodup_iff.mpr hnd, fun j hj => ?_, by rw [hp.length_eq, h.2]⟩
        have := h.1.2 j (hp.mem_iff.mp hj)
        omega
    · intro l hl
      rw [Dist.pure_apply, if_neg, mul_zero]
      intro e
      exact hl (List.mem_toFinset.mpr (List.mem_permutations.mpr ((sorted_eq_iff h.1.1).mp e.symm)))
  · rw [if_neg h, ENNReal.tsum_eq_zero]
    intro l
    rw [sequenceLaw_apply, Dist.pure_apply]
    by_cases hl : l.Nodup ∧ (∀ j ∈ l, j < size) ∧ l.length = k
    · rw [if_neg (c := r = _), mul_zero]
      rintro rfl
      have hp := List.perm_insertionSort (· ≤ ·) l
      refine h ⟨⟨?_, fun j hj => ?_⟩, by rw [hp.length_eq, hl.2.2]⟩
      · have hs := List.pairwise_insertionSort (· ≤ ·) l
        have hd : (l.insertionSort (· ≤ ·)).Nodup := hp.nodup_iff.mpr hl.1
        exact (hs.and hd).imp (fun h => lt_of_le_of_ne h.1 h.2)
      · have := hl.2.1 j (hp.mem_iff.mp hj)
        omega
    · rw [if_neg hl, zero_mul]

end Hnco.Prob
