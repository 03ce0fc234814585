import Verif.Prob.Sequences
import Verif.Prob.InstanceProps
import Verif.Prob.ShuffleLemmas
import Verif.Map.Sampling

/-!
# Lemmas about random maps, with probabilities
-/

namespace Hnco.Prob

open Outcome
open scoped ENNReal

variable {α β : Type} [DecidableEq α]

/-! ## Shuffling -/

/-- The permutations of a list. -/
def permsF (l : List α) : Finset (List α) := l.permutations.toFinset

theorem mem_permsF {l s : List α} : s ∈ permsF l ↔ s.Perm l := by
  unfold permsF
  rw [List.mem_toFinset, List.mem_permutations]

theorem permsF_card {l : List α} (h : l.Nodup) : (permsF l).card = l.length.factorial := by
  unfold permsF
  rw [List.toFinset_card_of_nodup (List.nodup_permutations _ h), List.length_permutations]

theorem shuffle_apply {l : List α} (h : l.Nodup) (s : List α) :
    shuffle l s = if s.Perm l then ((l.length.factorial : ℕ) : ℝ≥0∞)⁻¹ else 0 := by
  change (l.permutations.count s : ℝ≥0∞) / ((l.length.factorial : ℕ) : ℝ≥0∞) = _
  by_cases hs : s.Perm l
  · rw [List.count_eq_one_of_mem (List.nodup_permutations _ h) (List.mem_permutations.mpr hs), if_pos hs, Nat.cast_one, one_div]
  · rw [List.count_eq_zero_of_not_mem (fun h => hs (List.mem_permutations.mp h)), if_neg hs, Nat.cast_zero, ENNReal.zero_div]

theorem shuffle_support {l s : List α} (h : shuffle l s ≠ 0) : s.Perm l := by
  by_contra hs
  apply h
  change (l.permutations.count s : ℝ≥0∞) / ((l.length.factorial : ℕ) : ℝ≥0∞) = _
  rw [List.count_eq_zero_of_not_mem (fun h => hs (List.mem_permutations.mp h)), Nat.cast_zero, ENNReal.zero_div]

/-- What is done with a shuffled list. -/
theorem shuffle_bind {l : List α} (h : l.Nodup) (f : List α → Dist β) (b : β) :
    (shuffle l >>= f) b = ∑ s ∈ permsF l, ((l.length.factorial : ℕ) : ℝ≥0∞)⁻¹ * f s b := by
  rw [Dist.bind_apply, tsum_eq_sum (s := permsF l)]
  · refine Finset.sum_congr rfl (fun s hs => ?_)
    rw [shuffle_apply h, if_pos (mem_permsF.mp hs)]
  · intro s hs
    rw [shuffle_apply h, if_neg (fun e => hs (mem_permsF.mpr e)), zero_mul]

theorem shuffle_bind_const {l : List α} (h : l.Nodup) {f : List α → Dist β} {b : β} {Q : List α → Prop} [DecidablePred Q] {c : ℝ≥0∞}
    (hf : ∀ s, s.Perm l → f s b = if Q s then c else 0) :
    (shuffle l >>= f) b = (((permsF l).filter Q).card : ℝ≥0∞) / ((l.length.factorial : ℕ) : ℝ≥0∞) * c := by
  rw [shuffle_bind h, Finset.sum_congr rfl (fun s hs => by rw [hf s (mem_permsF.mp hs)])]
  simp only [mul_ite, mul_zero]
  rw [← Finset.sum_filter, Finset.sum_const, nsmul_eq_mul, div_eq_mul_inv, mul_assoc]

theorem shuffle_total {l : List α} : l.Nodup → (shuffle l).total = 1 := by
  intro h
  unfold Dist.total
  rw [tsum_eq_sum (s := permsF l) (fun s hs => by
    change shuffle l s = 0
    rw [shuffle_apply h, if_neg (fun e => hs (mem_permsF.mpr e))])]
  rw [Finset.sum_congr rfl (g := fun _ => ((l.length.factorial : ℕ) : ℝ≥0∞)⁻¹) (fun s hs => by
    rw [shuffle_apply h, if_pos (mem_permsF.mp hs)]), Finset.sum_const, permsF_card h, nsmul_eq_mul]
  exact ENNReal.mul_inv_cancel (by exact_mod_cast Nat.factorial_ne_zero _) (ENNReal.natCast_ne_top _)

/-- The permutations which begin with a given list. -/
theorem card_begin : ∀ (p l : List α), l.Nodup → p.Nodup → p ⊆ l →
    ((permsF l).filter (fun s => s.take p.length = p)).card = (l.length - p.length).factorial
  | [], l, hl, _, _ => by
    rw [Finset.filter_true_of_mem (by intro s _; simp), permsF_card hl]
    simp
  | a :: p, l, hl, hp, hsub => by
    have ha : a ∈ l := hsub (by simp)
    have hset : (permsF l).filter (fun s => s.take (a :: p).length = a :: p) =
        ((permsF (l.erase a)).filter (fun s => s.take p.length = p)).image (a :: ·) := by
      ext s
      simp only [Finset.mem_filter, Finset.mem_image, mem_permsF]
      constructor
      · rintro ⟨hs, ht⟩
        cases s with
        | nil => simp at ht
        | cons b r =>
          rw [List.length_cons, List.take_succ_cons] at ht
          obtain ⟨rfl, ht2⟩ := List.cons.inj ht
          exact ⟨r, ⟨(List.cons_perm_iff_perm_erase.mp hs).2, ht2⟩, rfl⟩
      · rintro ⟨r, ⟨hr, ht⟩, rfl⟩
        refine ⟨List.cons_perm_iff_perm_erase.mpr ⟨ha, hr⟩, ?_⟩
        rw [List.length_cons, List.take_succ_cons, ht]
    have hlen := List.length_erase_of_mem ha
    rw [List.nodup_cons] at hp
    rw [hset, Finset.card_image_of_injective _ (fun x y h => by simpa using h), card_begin p (l.erase a) (hl.erase a) hp.2 (by
      intro x hx
      have hxa : x ≠ a := fun e => hp.1 (e ▸ hx)
      exact (List.mem_erase_of_ne hxa).mpr (hsub (by simp [hx]))), hlen, List.length_cons,
      show l.length - 1 - p.length = l.length - (p.length + 1) by omega]

/-- The beginning of a shuffled list. -/
theorem shuffle_take {l : List α} (h : l.Nodup) {t : ℕ} (ht : t ≤ l.length) (p : List α) :
    (shuffle l >>= fun s => (pure (s.take t) : Dist (List α))) p =
      if p.length = t ∧ p.Nodup ∧ p ⊆ l then ((l.length - t).factorial : ℝ≥0∞) / (l.length.factorial : ℝ≥0∞) else 0 := by
  rw [shuffle_bind_const h (Q := fun s => s.take t = p) (c := 1) (fun s _ => by
    rw [Dist.pure_apply]
    by_cases e : p = s.take t
    · rw [if_pos e, if_pos e.symm]
    · rw [if_neg e, if_neg (fun h => e h.symm)]), mul_one]
  by_cases hp : p.length = t ∧ p.Nodup ∧ p ⊆ l
  · rw [if_pos hp, ← hp.1]
    have := card_begin p l h hp.2.1 hp.2.2
    rw [← this]
  · rw [if_neg hp, Finset.filter_false_of_mem, Finset.card_empty, Nat.cast_zero, ENNReal.zero_div]
    intro s hs e
    have hperm := mem_permsF.mp hs
    subst e
    exact hp ⟨by rw [List.length_take, hperm.length_eq]; omega, (hperm.nodup_iff.mpr h).sublist (List.take_sublist _ _),
      fun x hx => hperm.mem_iff.mp (List.mem_of_mem_take hx)⟩

/-- Shuffling a list, all orders of which are equally likely, changes nothing. -/
theorem shuffle_invariant {d : Dist (List α)} {P : List α → Prop} [DecidablePred P] {c : ℝ≥0∞} (hd : ∀ l, d l = if P l then c else 0)
    (hP : ∀ l s, P l → s.Perm l → P s) (hn : ∀ l, P l → l.Nodup) : d >>= shuffle = d := by
  ext s
  rw [Dist.bind_apply]
  by_cases hs : P s
  · rw [tsum_eq_sum (s := permsF s)]
    · rw [Finset.sum_congr rfl (g := fun _ => c * ((s.length.factorial : ℕ) : ℝ≥0∞)⁻¹), Finset.sum_const, permsF_card (hn s hs), hd, if_pos hs,
        nsmul_eq_mul, mul_comm c, ← mul_assoc, ENNReal.mul_inv_cancel (by exact_mod_cast Nat.factorial_ne_zero _) (ENNReal.natCast_ne_top _), one_mul]
      intro l hl
      have hl' := mem_permsF.mp hl
      have hPl := hP s l hs hl'
      rw [hd, if_pos hPl, shuffle_apply (hn l hPl), if_pos hl'.symm, hl'.length_eq]
    · intro l hl
      by_cases h : P l
      · rw [shuffle_apply (hn l h), if_neg (fun e => hl (mem_permsF.mpr e.symm)), mul_zero]
      · rw [hd, if_neg h, zero_mul]
  · rw [hd, if_neg hs, ENNReal.tsum_eq_zero]
    intro l
    by_cases h : P l
    · rw [shuffle_apply (hn l h), if_neg (fun e => hs (hP l s h e)), mul_zero]
    · rw [hd, if_neg h, zero_mul]

/-! ## Loops which append -/

omit [DecidableEq α] in
theorem append_loop {d : ℕ → Dist α} {body : ℕ → List α → Dist (List α)} : ∀ (m i : ℕ) (pre : List α),
    (∀ j pre, i ≤ j → j < i + m → body j pre = (d j >>= fun a => pure (pre ++ [a]))) →
      Dist.forLoop m i body pre = (famLaw d i m >>= fun l => pure (pre ++ l)) := by
  intro m
  induction m with
  | zero =>
    intro i pre _
    rw [famLaw, Dist.pure_bind', List.append_nil]
    rfl
  | succ m ih =>
    intro i pre hbody
    have e : Dist.forLoop (m + 1) i body pre = (body i pre >>= fun s => Dist.forLoop m (i + 1) body s) := rfl
    rw [e, hbody i pre (le_refl _) (by omega), famLaw, Dist.bind_assoc', Dist.bind_assoc']
    congr 1
    funext a
    rw [Dist.pure_bind', ih (i + 1) (pre ++ [a]) (fun j pre h2 h3 => hbody j pre (by omega) (by omega)), Dist.bind_assoc']
    congr 1
    funext l
    rw [Dist.pure_bind']
    simp

omit [DecidableEq α] in
theorem append_range {d : ℕ → Dist α} {body : ℕ → List α → Dist (List α)} {m : ℕ}
    (h : ∀ j pre, j < m → body j pre = (d j >>= fun a => pure (pre ++ [a]))) : Dist.forRange 0 m body [] = famLaw d 0 m := by
  unfold Dist.forRange
  rw [Nat.sub_zero, append_loop m 0 [] (fun j pre _ hj => h j pre (by omega))]
  simp only [List.nil_append]
  exact Dist.bind_pure' _

/-! ## Unique sources or destinations -/

/-- One endpoint is given, the other one is chosen after position `t`. -/
noncomputable def endLaw (f : ℕ → ℕ → Transvection) (vars : List ℕ) (n t : ℕ) (j : ℕ) : Dist Transvection :=
  Dist.uniformInt t (n - 1) >>= fun k => pure (f (vars.getD j 0) (vars.getD k 0))

theorem endLaw_apply {f : ℕ → ℕ → Transvection} {u v : Transvection → ℕ} (h1 : ∀ r c, u (f r c) = r) (h2 : ∀ r c, v (f r c) = c)
    (h3 : ∀ a, f (u a) (v a) = a) {vars : List ℕ} {n t j : ℕ} (hl : vars.length = n) (hv : vars.Nodup) (ht : t < n) (a : Transvection) :
    endLaw f vars n t j a = if u a = vars.getD j 0 ∧ v a ∈ vars.drop t then ((n - t : ℕ) : ℝ≥0∞)⁻¹ else 0 := by
  classical
  unfold endLaw
  rw [Dist.bind_apply]
  have hu : ∀ k, Dist.uniformInt t (n - 1) k = if t ≤ k ∧ k < n then ((n - t : ℕ) : ℝ≥0∞)⁻¹ else 0 := by
    intro k
    change (if t ≤ k ∧ k ≤ n - 1 then ((n - 1 - t + 1 : ℕ) : ℝ≥0∞)⁻¹ else 0) = _
    rw [show n - 1 - t + 1 = n - t by omega]
    exact if_congr (by omega) rfl rfl
  by_cases hc : u a = vars.getD j 0 ∧ v a ∈ vars.drop t
  · obtain ⟨k, hk, he⟩ := List.mem_iff_getElem.mp hc.2
    rw [List.getElem_drop] at he
    rw [List.length_drop] at hk
    have hk2 : t + k < vars.length := by omega
    rw [if_pos hc, tsum_eq_single (t + k)]
    · rw [hu, if_pos (by omega), Dist.pure_apply, if_pos, mul_one]
      rw [← hc.1, List.getD_eq_getElem _ _ hk2, he, h3]
    · intro k' hne
      rw [hu]
      by_cases hk' : t ≤ k' ∧ k' < n
      · rw [Dist.pure_apply, if_neg (c := a = _), mul_zero]
        intro e
        apply hne
        have := congrArg v e
        rw [h2, List.getD_eq_getElem _ _ (by omega), ← he] at this
        exact ((List.Nodup.getElem_inj_iff hv).mp this).symm
      · rw [if_neg hk', zero_mul]
  · rw [if_neg hc, ENNReal.tsum_eq_zero]
    intro k
    rw [hu]
    by_cases hk : t ≤ k ∧ k < n
    · rw [Dist.pure_apply, if_neg (c := a = _), mul_zero]
      intro e
      apply hc
      rw [e, h1, h2]
      refine ⟨rfl, ?_⟩
      rw [List.getD_eq_getElem _ _ (by omega), List.mem_iff_getElem]
      exact ⟨k - t, by rw [List.length_drop]; omega, by rw [List.getElem_drop]; congr 1; omega⟩
    · rw [if_neg hk, zero_mul]

/-- The law of the sequence before and after the last shuffle. -/
theorem ends_law {f : ℕ → ℕ → Transvection} {u v : Transvection → ℕ} (h1 : ∀ r c, u (f r c) = r) (h2 : ∀ r c, v (f r c) = c)
    (h3 : ∀ a, f (u a) (v a) = a) {n t : ℕ} (ht : t < n) (ts : List Transvection) :
    (shuffle (List.range n) >>= fun vars => famLaw (endLaw f vars n t) 0 t) ts =
      if ts.length = t ∧ (ts.map u).Nodup ∧ (∀ a ∈ ts, u a < n ∧ v a < n) ∧ (∀ a ∈ ts, ∀ b ∈ ts, u a ≠ v b) then
        (((n - t).factorial : ℕ) : ℝ≥0∞) / ((n.factorial : ℕ) : ℝ≥0∞) * (((n - t : ℕ) : ℝ≥0∞)⁻¹) ^ t else 0 := by
  rw [shuffle_bind_const List.nodup_range (Q := fun vars => ts.length = t ∧ vars.take t = ts.map u ∧ ∀ a ∈ ts, v a ∈ vars.drop t)
    (c := (((n - t : ℕ) : ℝ≥0∞)⁻¹) ^ t), List.length_range]
  · by_cases hts : ts.length = t ∧ (ts.map u).Nodup ∧ (∀ a ∈ ts, u a < n ∧ v a < n) ∧ (∀ a ∈ ts, ∀ b ∈ ts, u a ≠ v b)
    · rw [if_pos hts]
      obtain ⟨e1, e2, e3, e4⟩ := hts
      have hc := card_begin (ts.map u) (List.range n) List.nodup_range e2 (by
        intro x hx
        obtain ⟨a, ha, rfl⟩ := List.mem_map.mp hx
        exact List.mem_range.mpr (e3 a ha).1)
      rw [List.length_map, List.length_range, e1] at hc
      rw [← hc]
      congr 3
      congr 1
      apply Finset.filter_congr
      intro s hs
      constructor
      · exact fun h => h.2.1
      · intro h
        refine ⟨e1, h, fun a ha => ?_⟩
        have hm : v a ∈ s := (mem_permsF.mp hs).mem_iff.mpr (List.mem_range.mpr (e3 a ha).2)
        rw [← List.take_append_drop t s, List.mem_append] at hm
        rcases hm with hm | hm
        · rw [h] at hm
          obtain ⟨b, hb, he⟩ := List.mem_map.mp hm
          exact absurd he (e4 b hb a ha)
        · exact hm
    · rw [if_neg hts, Finset.filter_false_of_mem, Finset.card_empty, Nat.cast_zero, ENNReal.zero_div, zero_mul]
      rintro s hs ⟨e1, e2, e3⟩
      apply hts
      have hp := mem_permsF.mp hs
      have hnd : s.Nodup := hp.nodup_iff.mpr List.nodup_range
      refine ⟨e1, e2 ▸ hnd.sublist (List.take_sublist _ _), fun a ha => ⟨?_, ?_⟩, fun a ha b hb he => ?_⟩
      · have : u a ∈ s.take t := by rw [e2]; exact List.mem_map_of_mem ha
        exact List.mem_range.mp (hp.mem_iff.mp (List.mem_of_mem_take this))
      · exact List.mem_range.mp (hp.mem_iff.mp (List.mem_of_mem_drop (e3 a ha)))
      · have h4 : u a ∈ s.take t := by rw [e2]; exact List.mem_map_of_mem ha
        have h5 := e3 b hb
        rw [← he] at h5
        exact (List.disjoint_take_drop hnd (le_refl t)) h4 h5
  · intro s hs
    have hl : s.length = n := by simpa using hs.length_eq
    have hnd : s.Nodup := hs.nodup_iff.mpr List.nodup_range
    classical
    rw [famLaw_uniform (P := fun j a => u a = s.getD j 0 ∧ v a ∈ s.drop t) (u := ((n - t : ℕ) : ℝ≥0∞)⁻¹) t 0
      (fun j a _ _ => by rw [endLaw_apply h1 h2 h3 hl hnd ht a]; congr)]
    refine if_congr ?_ rfl rfl
    constructor
    · rintro ⟨e1, e2⟩
      refine ⟨e1, ?_, fun a ha => ?_⟩
      · apply List.ext_getElem
        · rw [List.length_take, List.length_map]; omega
        · intro i hi1 hi2
          rw [List.length_map] at hi2
          have := (e2 i _ (List.getElem?_eq_getElem hi2)).1
          rw [List.getElem_take, List.getElem_map, this, Nat.zero_add, List.getD_eq_getElem _ _ (by omega)]
      · obtain ⟨i, hi, rfl⟩ := List.mem_iff_getElem.mp ha
        exact (e2 i _ (List.getElem?_eq_getElem hi)).2
    · rintro ⟨e1, e2, e3⟩
      refine ⟨e1, fun j a ha => ?_⟩
      obtain ⟨hj, rfl⟩ := List.getElem?_eq_some_iff.mp ha
      refine ⟨?_, e3 _ (List.getElem_mem _)⟩
      have : (s.take t)[j]? = (ts.map u)[j]? := by rw [e2]
      rw [List.getElem?_take, if_pos (by omega), List.getElem?_map, List.getElem?_eq_getElem hj, List.getElem?_eq_getElem (by omega)] at this
      rw [Nat.zero_add, List.getD_eq_getElem _ _ (by omega)]
      simpa using this.symm

end Hnco.Prob
