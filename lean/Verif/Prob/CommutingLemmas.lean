import Verif.Prob.SequenceLemmas
import Verif.Prob.SequenceSpec

/-!
# Lemmas about random sequences of commuting transvections, with probabilities
-/

namespace Hnco.Prob

open Outcome
open scoped ENNReal

/-! ## Disjoint transvections -/

theorem endpoints_injective : ∀ a b : List Transvection, endpoints a = endpoints b → a = b
  | [], [], _ => rfl
  | [], _ :: _, h => by simp [endpoints] at h
  | _ :: _, [], h => by simp [endpoints] at h
  | ⟨r, c⟩ :: a, ⟨r', c'⟩ :: b, h => by
    simp only [endpoints, List.flatMap_cons, List.cons_append, List.nil_append, List.cons.injEq] at h
    obtain ⟨rfl, rfl, h⟩ := h
    rw [endpoints_injective a b h]

theorem endpoints_length (ts : List Transvection) : (endpoints ts).length = 2 * ts.length := by
  induction ts with
  | nil => rfl
  | cons a ts ih =>
    have : endpoints (a :: ts) = a.row :: a.col :: endpoints ts := rfl
    rw [this, List.length_cons, List.length_cons, ih, List.length_cons]
    ring

theorem disjointPairs_eq {vars : List ℕ} {n t : ℕ} (hp : vars.Perm (List.range n)) (h : 2 * t ≤ n) :
    ∃ ts, disjointPairs vars n t = ok ts ∧ endpoints ts = vars.take (2 * t) := by
  have hl : vars.length = n := by simpa using hp.length_eq
  have hnd : vars.Nodup := hp.nodup_iff.mpr List.nodup_range
  have hlt : ∀ v ∈ vars, v < n := fun v hv => List.mem_range.mp (hp.mem_iff.mp hv)
  unfold disjointPairs
  refine forRange_returns (fun i r => endpoints r = vars.take (2 * i)) (Nat.zero_le _) (by rfl) ?_
  intro i r _ hi hr
  have hi1 : 2 * i < vars.length := by omega
  have hi2 : 2 * i + 1 < vars.length := by omega
  rw [vget_eq hi1, ok_bind, vget_eq hi2, ok_bind]
  have hvN : tvIsValidN ⟨vars[2 * i], vars[2 * i + 1]⟩ n = true := by
    rw [tvIsValidN_iff]
    refine ⟨hlt _ (List.getElem_mem _), hlt _ (List.getElem_mem _), ?_⟩
    exact getElem?_ne_of_nodup hnd (show 2 * i ≠ 2 * i + 1 by omega) (List.getElem?_eq_getElem hi1) (List.getElem?_eq_getElem hi2)
  rw [assert_pos hvN, ok_bind]
  refine ⟨_, rfl, ?_⟩
  rw [show 2 * (i + 1) = 2 * i + 1 + 1 by ring, List.take_succ_eq_append_getElem hi2, List.take_succ_eq_append_getElem hi1, ← hr]
  simp [endpoints]

/-! ## Sizes -/

theorem even_admissible {k t : ℕ} (s : ℕ) (ht : t ≤ k * k) :
    s ∈ admissible (2 * k) t ↔ ∃ r, r ≤ min (k - 1) (Nat.sqrt (k * k - t)) ∧ 0 < k ∧ (s = k + r ∨ s = k - r) := by
  unfold admissible
  rw [Finset.mem_filter, Finset.mem_range]
  constructor
  · rintro ⟨h1, h2, h3⟩
    rcases Nat.le_total k s with hs | hs
    · obtain ⟨r, rfl⟩ := Nat.exists_eq_add_of_le hs
      refine ⟨r, ?_, by omega, Or.inl rfl⟩
      rw [le_min_iff, Nat.le_sqrt]
      refine ⟨by omega, ?_⟩
      obtain ⟨q, rfl⟩ := Nat.exists_eq_add_of_le (show r ≤ k by omega)
      rw [show 2 * (r + q) - (r + q + r) = q by omega] at h3
      have : t + r * r ≤ (r + q) * (r + q) := by nlinarith
      omega
    · obtain ⟨r, rfl⟩ := Nat.exists_eq_add_of_le hs
      refine ⟨r, ?_, by omega, Or.inr (by omega)⟩
      rw [le_min_iff, Nat.le_sqrt]
      refine ⟨by omega, ?_⟩
      rw [show 2 * (s + r) - s = s + 2 * r by omega] at h3
      have : t + r * r ≤ (s + r) * (s + r) := by nlinarith
      omega
  · rintro ⟨r, hr, hk, hs⟩
    rw [le_min_iff, Nat.le_sqrt] at hr
    have hmain := split_even hr.2 ht (by omega)
    rcases hs with rfl | rfl
    · exact ⟨by omega, by omega, by rw [show 2 * k - (k + r) = k - r by omega]; exact hmain⟩
    · exact ⟨by omega, by omega, by rw [show 2 * k - (k - r) = k + r by omega, Nat.mul_comm]; exact hmain⟩

theorem odd_admissible {k t : ℕ} (s : ℕ) (ht : t ≤ k * (k + 1)) :
    s ∈ admissible (2 * k + 1) t ↔
      ∃ r, 1 ≤ r ∧ r ≤ min k ((Nat.sqrt ((2 * k + 1) * (2 * k + 1) - 4 * t) + 1) / 2) ∧ (s = k + r ∨ s = k + 1 - r) := by
  have h4 : 4 * t + 1 ≤ (2 * k + 1) * (2 * k + 1) := by nlinarith
  have hsq : ∀ r, 1 ≤ r → (r ≤ (Nat.sqrt ((2 * k + 1) * (2 * k + 1) - 4 * t) + 1) / 2 ↔
      (2 * r - 1) * (2 * r - 1) ≤ (2 * k + 1) * (2 * k + 1) - 4 * t) := by
    intro r hr
    rw [← Nat.le_sqrt]
    omega
  unfold admissible
  rw [Finset.mem_filter, Finset.mem_range]
  constructor
  · rintro ⟨h1, h2, h3⟩
    rcases Nat.lt_or_ge k s with hs | hs
    · obtain ⟨q, rfl⟩ := Nat.exists_eq_add_of_lt hs
      refine ⟨q + 1, by omega, ?_, Or.inl (by omega)⟩
      rw [le_min_iff, hsq _ (by omega)]
      refine ⟨by omega, ?_⟩
      obtain ⟨p, rfl⟩ := Nat.exists_eq_add_of_le (show q ≤ k by omega)
      rw [show 2 * (q + p) + 1 - (q + p + q + 1) = p by omega] at h3
      rw [show 2 * (q + 1) - 1 = 2 * q + 1 by omega]
      have : 4 * t + (2 * q + 1) * (2 * q + 1) ≤ (2 * (q + p) + 1) * (2 * (q + p) + 1) := by nlinarith
      omega
    · obtain ⟨q, rfl⟩ := Nat.exists_eq_add_of_le hs
      refine ⟨q + 1, by omega, ?_, Or.inr (by omega)⟩
      rw [le_min_iff, hsq _ (by omega)]
      refine ⟨by omega, ?_⟩
      rw [show 2 * (s + q) + 1 - s = s + 2 * q + 1 by omega] at h3
      rw [show 2 * (q + 1) - 1 = 2 * q + 1 by omega]
      have : 4 * t + (2 * q + 1) * (2 * q + 1) ≤ (2 * (s + q) + 1) * (2 * (s + q) + 1) := by nlinarith
      omega
  · rintro ⟨r, hr1, hr, hs⟩
    rw [le_min_iff, hsq r hr1] at hr
    have hmain := split_odd hr.2 (by omega) hr.1 hr1
    rcases hs with rfl | rfl
    · exact ⟨by omega, by omega, by rw [show 2 * k + 1 - (k + r) = k + 1 - r by omega]; exact hmain⟩
    · exact ⟨by omega, by omega, by rw [show 2 * k + 1 - (k + 1 - r) = k + r by omega, Nat.mul_comm]; exact hmain⟩

theorem uniform_two {α : Type} [DecidableEq α] {lo hi : ℕ} (u v : ℕ → α) (a : α) :
    (Dist.uniformInt lo hi >>= fun r => Dist.bernoulli >>= fun b => (pure (if b then u r else v r) : Dist α)) a =
      ∑ r ∈ Finset.Icc lo hi, ((hi - lo + 1 : ℕ) : ℝ≥0∞)⁻¹ * ((if a = u r then 2⁻¹ else 0) + (if a = v r then 2⁻¹ else 0)) := by
  rw [Dist.bind_apply, tsum_eq_sum (s := Finset.Icc lo hi)]
  · refine Finset.sum_congr rfl (fun r hr => ?_)
    congr 1
    · exact if_pos (Finset.mem_Icc.mp hr)
    · rw [Dist.bind_apply, tsum_bool]
      have h1 : Dist.bernoulli true = 2⁻¹ := by simp [Dist.bernoulli, Dist.coin]
      have h2 : Dist.bernoulli false = 2⁻¹ := by
        simp [Dist.bernoulli, Dist.coin]
      rw [h1, h2, Dist.pure_apply, Dist.pure_apply, add_comm]
      congr 1
      · by_cases h : a = u r <;> simp [h]
      · by_cases h : a = v r <;> simp [h]
  · intro r hr
    rw [show Dist.uniformInt lo hi r = 0 from if_neg (fun h => hr (Finset.mem_Icc.mpr h)), zero_mul]

/-- The law of the size. -/
theorem commutingSplit_law {n t : ℕ} (hn : 1 < n) (ht : t ≤ commutingLengthMax n) (s : ℕ) : commutingSplit n t s = sizeProb n t s := by
  unfold commutingSplit
  unfold commutingLengthMax at ht
  have hdup : (2 : ℝ≥0∞)⁻¹ + 2⁻¹ = 1 := ENNReal.inv_two_add_inv_two
  by_cases he : n % 2 = 0
  · rw [if_pos (by simpa using he)] at ht
    rw [if_pos he]
    obtain ⟨k, rfl⟩ : ∃ k, n = 2 * k := ⟨n / 2, by omega⟩
    have hk : 2 * k / 2 = k := by omega
    rw [hk] at ht ⊢
    have hb : commutingBound (2 * k) t = min (k - 1) (Nat.sqrt (k * k - t)) := by
      unfold commutingBound
      rw [if_pos (by simpa using he), hk, show 2 * k * (2 * k) / 4 = k * k by rw [show 2 * k * (2 * k) = 4 * (k * k) by ring]; omega]
    have hadm := fun s => even_admissible (k := k) (t := t) s ht
    rw [← hb] at hadm
    have hbk : commutingBound (2 * k) t ≤ k - 1 := by rw [hb]; exact min_le_left _ _
    generalize commutingBound (2 * k) t = b at hadm hbk ⊢
    have hset : admissible (2 * k) t = Finset.Icc (k - b) (k + b) := by
      ext x
      rw [hadm, Finset.mem_Icc]
      constructor
      · rintro ⟨r, h1, h2, h3⟩
        omega
      · rintro ⟨h1, h2⟩
        rcases Nat.le_total k x with h | h
        · exact ⟨x - k, by omega, by omega, Or.inl (by omega)⟩
        · exact ⟨k - x, by omega, by omega, Or.inr (by omega)⟩
    have hcard : (admissible (2 * k) t).card + 1 = 2 * (b + 1) := by
      rw [hset, Nat.card_Icc]
      omega
    rw [uniform_two]
    unfold sizeProb
    rw [if_pos he, hcard, hset, Nat.sub_zero]
    have h2b : ((2 * (b + 1) : ℕ) : ℝ≥0∞)⁻¹ = ((b + 1 : ℕ) : ℝ≥0∞)⁻¹ * 2⁻¹ := by
      rw [Nat.cast_mul, ENNReal.mul_inv (by simp) (by simp), Nat.cast_ofNat, mul_comm]
    by_cases hs : s ∈ Finset.Icc (k - b) (k + b)
    · rw [if_pos hs]
      rw [Finset.mem_Icc] at hs
      rcases Nat.lt_trichotomy s k with h | h | h
      · rw [Finset.sum_eq_single (k - s)]
        · rw [if_neg (by omega), if_pos (by omega), zero_add, if_neg (by omega), one_div, h2b]
        · intro r hr hne
          rw [Finset.mem_Icc] at hr
          rw [if_neg (by omega), if_neg (by omega), zero_add, mul_zero]
        · intro h
          exact absurd (Finset.mem_Icc.mpr ⟨by omega, by omega⟩) h
      · subst h
        rw [Finset.sum_eq_single 0]
        · rw [if_pos (by omega), if_pos (by omega), hdup, mul_one, if_pos (by omega), div_eq_mul_inv, h2b, mul_comm, mul_assoc,
            ENNReal.inv_mul_cancel (by simp) (by simp), mul_one]
        · intro r hr hne
          rw [Finset.mem_Icc] at hr
          rw [if_neg (by omega), if_neg (by omega), zero_add, mul_zero]
        · intro h
          exact absurd (Finset.mem_Icc.mpr ⟨by omega, by omega⟩) h
      · rw [Finset.sum_eq_single (s - k)]
        · rw [if_pos (by omega), if_neg (by omega), add_zero, if_neg (by omega), one_div, h2b]
        · intro r hr hne
          rw [Finset.mem_Icc] at hr
          rw [if_neg (by omega), if_neg (by omega), zero_add, mul_zero]
        · intro h
          exact absurd (Finset.mem_Icc.mpr ⟨by omega, by omega⟩) h
    · rw [if_neg hs, Finset.sum_eq_zero]
      intro r hr
      rw [Finset.mem_Icc] at hr hs
      rw [if_neg (by omega), if_neg (by omega), zero_add, mul_zero]
  · rw [if_neg (by simpa using he)] at ht
    rw [if_neg he]
    obtain ⟨k, rfl⟩ : ∃ k, n = 2 * k + 1 := ⟨n / 2, by omega⟩
    have hk : (2 * k + 1) / 2 = k := by omega
    rw [hk] at ht ⊢
    have hb : commutingBound (2 * k + 1) t = min k ((Nat.sqrt ((2 * k + 1) * (2 * k + 1) - 4 * t) + 1) / 2) := by
      unfold commutingBound
      rw [if_neg (by simpa using he), hk]
    have h4 : 4 * t + 1 ≤ (2 * k + 1) * (2 * k + 1) := by nlinarith
    have hs1 : 1 ≤ Nat.sqrt ((2 * k + 1) * (2 * k + 1) - 4 * t) := Nat.le_sqrt.mpr (by omega)
    have hadm := fun s => odd_admissible (k := k) (t := t) s ht
    rw [← hb] at hadm
    have hbk : commutingBound (2 * k + 1) t ≤ k := by rw [hb]; exact min_le_left _ _
    have hb1 : 1 ≤ commutingBound (2 * k + 1) t := by rw [hb]; omega
    generalize commutingBound (2 * k + 1) t = b at hadm hbk hb1 ⊢
    have hset : admissible (2 * k + 1) t = Finset.Icc (k + 1 - b) (k + b) := by
      ext x
      rw [hadm, Finset.mem_Icc]
      constructor
      · rintro ⟨r, h1, h2, h3⟩
        omega
      · rintro ⟨h1, h2⟩
        rcases Nat.lt_or_ge k x with h | h
        · exact ⟨x - k, by omega, by omega, Or.inl (by omega)⟩
        · exact ⟨k + 1 - x, by omega, by omega, Or.inr (by omega)⟩
    have hcard : (admissible (2 * k + 1) t).card = 2 * b := by
      rw [hset, Nat.card_Icc]
      omega
    rw [uniform_two]
    unfold sizeProb
    rw [if_neg he, hcard, hset, show b - 1 + 1 = b by omega]
    have h2b : ((2 * b : ℕ) : ℝ≥0∞)⁻¹ = ((b : ℕ) : ℝ≥0∞)⁻¹ * 2⁻¹ := by
      rw [Nat.cast_mul, ENNReal.mul_inv (by simp) (by simp), Nat.cast_ofNat, mul_comm]
    by_cases hs : s ∈ Finset.Icc (k + 1 - b) (k + b)
    · rw [if_pos hs]
      rw [Finset.mem_Icc] at hs
      rcases Nat.lt_or_ge k s with h | h
      · rw [Finset.sum_eq_single (s - k)]
        · rw [if_pos (by omega), if_neg (by omega), add_zero, if_neg (by omega), one_div, h2b]
        · intro r hr hne
          rw [Finset.mem_Icc] at hr
          rw [if_neg (by omega), if_neg (by omega), zero_add, mul_zero]
        · intro h
          exact absurd (Finset.mem_Icc.mpr ⟨by omega, by omega⟩) h
      · rw [Finset.sum_eq_single (k + 1 - s)]
        · rw [if_neg (by omega), if_pos (by omega), zero_add, if_neg (by omega), one_div, h2b]
        · intro r hr hne
          rw [Finset.mem_Icc] at hr
          rw [if_neg (by omega), if_neg (by omega), zero_add, mul_zero]
        · intro h
          exact absurd (Finset.mem_Icc.mpr ⟨by omega, by omega⟩) h
    · rw [if_neg hs, Finset.sum_eq_zero]
      intro r hr
      rw [Finset.mem_Icc] at hr hs
      rw [if_neg (by omega), if_neg (by omega), zero_add, mul_zero]

/-! ## Pairs -/

/-- All transvections with a row in `A` and a column in `B`. -/
def pairsOf (A B : List ℕ) : List Transvection := (A ×ˢ B).map (fun p => ⟨p.1, p.2⟩)

theorem mem_pairsOf {A B : List ℕ} {a : Transvection} : a ∈ pairsOf A B ↔ a.row ∈ A ∧ a.col ∈ B := by
  unfold pairsOf
  rw [List.mem_map]
  constructor
  · rintro ⟨p, hp, rfl⟩
    exact List.mem_product.mp hp
  · intro h
    exact ⟨(a.row, a.col), List.mem_product.mpr h, rfl⟩

theorem pairsOf_nodup {A B : List ℕ} (hA : A.Nodup) (hB : B.Nodup) : (pairsOf A B).Nodup := by
  unfold pairsOf
  refine (hA.product hB).map ?_
  rintro ⟨a, b⟩ ⟨c, d⟩ h
  simp only [Transvection.mk.injEq] at h
  rw [h.1, h.2]

theorem pairsOf_length (A B : List ℕ) : (pairsOf A B).length = A.length * B.length := by
  unfold pairsOf
  rw [List.length_map, List.length_product]

theorem commutingPairs_eq {vars : List ℕ} {n s : ℕ} (hl : vars.length = n) (hs : s ≤ n) :
    commutingPairs vars n s [] = ok (pairsOf (vars.take s) (vars.drop s)) := by
  have : (commutingPairs vars n s []).Returns (fun r => r = pairsOf (vars.take s) (vars.drop s)) := by
    unfold commutingPairs
    refine forRange_returns (fun i r => r = pairsOf (vars.take i) (vars.drop s)) (Nat.zero_le _) (by rfl) ?_
    intro i r _ hi hr
    have hi1 : i < vars.length := by omega
    refine (forRange_returns (fun j r' => r' = r ++ ((vars.take j).drop s).map (fun c => (⟨vars[i], c⟩ : Transvection))) hs (by simp) ?_).mono ?_
    · intro j r' hj1 hj2 hr'
      have hj : j < vars.length := by omega
      rw [vget_eq hi1, ok_bind, vget_eq hj, ok_bind]
      refine ⟨_, rfl, ?_⟩
      rw [hr', List.take_succ_eq_append_getElem hj, List.drop_append_of_le_length (by rw [List.length_take]; omega)]
      simp
    · intro r' hr'
      rw [hr', hr, show vars.take n = vars from List.take_of_length_le (by omega), List.take_succ_eq_append_getElem hi1]
      unfold pairsOf
      simp only [List.product, SProd.sprod, List.flatMap_append, List.flatMap_cons, List.flatMap_nil, List.append_nil, List.map_append, List.map_map]
      rfl
  obtain ⟨r, h1, h2⟩ := this
  rw [h1, h2]

end Hnco.Prob
