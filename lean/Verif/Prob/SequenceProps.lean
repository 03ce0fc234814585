import Verif.Prob.CommutingLemmas

/-!
# Laws of random transvection sequences (C119)
-/

namespace Hnco.Prob

open Outcome
open scoped ENNReal

/-! ## Helper lemmas -/

theorem Dist.bind_swap {α β γ : Type} (d : Dist α) (e : Dist β) (f : α → β → Dist γ) :
    (d >>= fun a => e >>= fun b => f a b) = (e >>= fun b => d >>= fun a => f a b) := by
  ext c
  simp only [Dist.bind_apply, ← ENNReal.tsum_mul_left]
  rw [ENNReal.tsum_comm]
  refine tsum_congr (fun b => tsum_congr (fun a => ?_))
  ring

theorem chain_cons {α : Type} (d : Dist α) (e : α → Dist (List α)) (a : α) (l : List α) :
    (d >>= fun a => e a >>= fun l => (pure (a :: l) : Dist (List α))) (a :: l) = d a * e a l := by
  classical
  rw [Dist.bind_apply, tsum_eq_single a]
  · congr 1
    exact Dist.map_apply_inj (e a) (f := fun l => a :: l) (fun _ _ h => (List.cons.inj h).2) l
  · intro b hb
    rw [Dist.bind_apply, ENNReal.tsum_eq_zero.mpr, mul_zero]
    intro l'
    rw [Dist.pure_apply, if_neg (fun h => hb (List.cons.inj h).1.symm), mul_zero]

theorem chain_nil {α : Type} (d : Dist α) (e : α → Dist (List α)) :
    (d >>= fun a => e a >>= fun l => (pure (a :: l) : Dist (List α))) [] = 0 := by
  classical
  rw [Dist.bind_apply, ENNReal.tsum_eq_zero]
  intro b
  rw [Dist.bind_apply, ENNReal.tsum_eq_zero.mpr, mul_zero]
  intro l'
  rw [Dist.pure_apply, if_neg (by simp), mul_zero]

theorem tsRandomLoop_eq (n : ℕ) : ∀ t i, tsRandomLoop n t = famLaw (fun _ => tvRandom n) i t
  | 0, _ => rfl
  | t + 1, i => by rw [tsRandomLoop, famLaw, tsRandomLoop_eq n t (i + 1)]

/-! ## Unconstrained sequences -/

open Classical in
/-- C119: all sequences of `t` transvections are equally likely, whatever the sequence was before. -/
theorem tsRandom_law {n t : ℕ} (hn : 1 < n) (old ts : List Transvection) :
    tsRandom old n t ts = if ts.length = t ∧ ∀ a ∈ ts, a.row < n ∧ a.col < n ∧ a.row ≠ a.col
      then (((n * (n - 1)) ^ t : ℕ) : ℝ≥0∞)⁻¹ else 0 := by
  unfold tsRandom
  rw [Dist.assert_bind (by simpa using hn), tsRandomLoop_eq n t 0,
    famLaw_uniform (P := fun _ a => a.row < n ∧ a.col < n ∧ a.row ≠ a.col) (u := ((n * (n - 1) : ℕ) : ℝ≥0∞)⁻¹) t 0 (fun j a _ _ => by
      rw [tvRandom_law hn]; congr)]
  have hiff : (ts.length = t ∧ ∀ (j : ℕ) a, ts[j]? = some a → a.row < n ∧ a.col < n ∧ a.row ≠ a.col) ↔
      ts.length = t ∧ ∀ a ∈ ts, a.row < n ∧ a.col < n ∧ a.row ≠ a.col := by
    refine and_congr_right (fun _ => ⟨fun h a ha => ?_, fun h j a ha => h a (List.mem_of_getElem? ha)⟩)
    obtain ⟨j, hj⟩ := List.getElem?_of_mem ha
    exact h j a hj
  refine if_congr hiff ?_ rfl
  rw [← ENNReal.inv_pow, Nat.cast_pow]

example : tsRandom [] 3 2 [⟨0, 1⟩, ⟨0, 1⟩] = ((6 ^ 2 : ℕ) : ℝ≥0∞)⁻¹ := by
  rw [tsRandom_law (by decide), if_pos (by decide)]

/-! ## Unique rows or columns -/

theorem uniqueSource_eq {n t : ℕ} (hn : 1 < n) (ht : 0 < t) :
    tsRandomUniqueSource [] n t = ((shuffle (List.range n) >>= fun vars => famLaw (endLaw Transvection.mk vars n (min t (n - 1))) 0 (min t (n - 1)))
      >>= shuffle) := by
  unfold tsRandomUniqueSource
  rw [Dist.assert_bind (by simpa using hn), if_neg (by omega), Dist.bind_assoc']
  have hm : (if t > n - 1 then n - 1 else t) = min t (n - 1) := by split <;> omega
  rw [hm]
  generalize hmm : min t (n - 1) = m
  refine Dist.bind_congr_support (fun vars hv => ?_)
  have hl : vars.length = n := by simpa using (shuffle_support hv).length_eq
  rw [append_range (d := endLaw Transvection.mk vars n m)]
  · refine Dist.bind_congr_support (fun ts hts => ?_)
    rw [Dist.assert_bind]
    have hlen : ∀ (m i : ℕ) (l : List Transvection) (d : ℕ → Dist Transvection), famLaw d i m l ≠ 0 → l.length = m := by
      intro m
      induction m with
      | zero => intro i l d h; rw [pure_support h]; rfl
      | succ m ih =>
        intro i l d h
        obtain ⟨a, _, h⟩ := bind_support h
        obtain ⟨r, h1, h⟩ := bind_support h
        rw [pure_support h, List.length_cons, ih _ _ _ h1]
    rw [hlen _ _ _ _ hts]
    simp
  · intro j pre hj
    rw [vget_eq (by omega), Dist.lift_ok, Dist.pure_bind']
    unfold endLaw
    rw [Dist.bind_assoc']
    refine Dist.bind_congr_support (fun k hk => ?_)
    have hk' : m ≤ k ∧ k ≤ n - 1 := by
      by_contra h
      exact hk (if_neg h)
    rw [vget_eq (by omega), Dist.lift_ok, Dist.pure_bind', Dist.pure_bind', List.getD_eq_getElem _ _ (by omega),
      List.getD_eq_getElem _ _ (by omega)]

theorem uniqueDestination_eq {n t : ℕ} (hn : 1 < n) (ht : 0 < t) :
    tsRandomUniqueDestination [] n t = ((shuffle (List.range n) >>= fun vars =>
      famLaw (endLaw (fun c r => ⟨r, c⟩) vars n (min t (n - 1))) 0 (min t (n - 1))) >>= shuffle) := by
  unfold tsRandomUniqueDestination
  rw [Dist.assert_bind (by simpa using hn), if_neg (by omega), Dist.bind_assoc']
  have hm : (if t > n - 1 then n - 1 else t) = min t (n - 1) := by split <;> omega
  rw [hm]
  generalize hmm : min t (n - 1) = m
  refine Dist.bind_congr_support (fun vars hv => ?_)
  have hl : vars.length = n := by simpa using (shuffle_support hv).length_eq
  rw [append_range (d := endLaw (fun c r => ⟨r, c⟩) vars n m)]
  · refine Dist.bind_congr_support (fun ts hts => ?_)
    rw [Dist.assert_bind]
    have hlen : ∀ (m i : ℕ) (l : List Transvection) (d : ℕ → Dist Transvection), famLaw d i m l ≠ 0 → l.length = m := by
      intro m
      induction m with
      | zero => intro i l d h; rw [pure_support h]; rfl
      | succ m ih =>
        intro i l d h
        obtain ⟨a, _, h⟩ := bind_support h
        obtain ⟨r, h1, h⟩ := bind_support h
        rw [pure_support h, List.length_cons, ih _ _ _ h1]
    rw [hlen _ _ _ _ hts]
    simp
  · intro j pre hj
    unfold endLaw
    rw [Dist.bind_assoc']
    refine Dist.bind_congr_support (fun k hk => ?_)
    have hk' : m ≤ k ∧ k ≤ n - 1 := by
      by_contra h
      exact hk (if_neg h)
    rw [vget_eq (by omega), Dist.lift_ok, Dist.pure_bind', vget_eq (by omega), Dist.lift_ok, Dist.pure_bind', Dist.pure_bind',
      List.getD_eq_getElem _ _ (by omega), List.getD_eq_getElem _ _ (by omega)]

theorem unique_perm {u v : Transvection → ℕ} {n t : ℕ} : ∀ l s : List Transvection,
    (l.length = t ∧ (l.map u).Nodup ∧ (∀ a ∈ l, u a < n ∧ v a < n) ∧ (∀ a ∈ l, ∀ b ∈ l, u a ≠ v b)) → s.Perm l →
    (s.length = t ∧ (s.map u).Nodup ∧ (∀ a ∈ s, u a < n ∧ v a < n) ∧ (∀ a ∈ s, ∀ b ∈ s, u a ≠ v b)) := by
  rintro l s ⟨h1, h2, h3, h4⟩ h
  exact ⟨h.length_eq.trans h1, (h.map u).nodup_iff.mpr h2, fun a ha => h3 a (h.mem_iff.mp ha),
    fun a ha b hb => h4 a (h.mem_iff.mp ha) b (h.mem_iff.mp hb)⟩

open Classical in
/-- C119: all sequences of `t` (at most `n - 1`) transvections with different rows, none of which is a column, are equally likely. -/
theorem tsRandomUniqueSource_law {n t : ℕ} (hn : 1 < n) (ht : 0 < t) (ts : List Transvection) :
    tsRandomUniqueSource [] n t ts = if UniqueRows n (min t (n - 1)) ts
      then ((n - min t (n - 1)).factorial : ℝ≥0∞) / ((n.factorial : ℝ≥0∞) * ((n - min t (n - 1) : ℕ) : ℝ≥0∞) ^ min t (n - 1)) else 0 := by
  rw [uniqueSource_eq hn ht]
  have hlaw := ends_law (f := Transvection.mk) (u := (·.row)) (v := (·.col)) (fun _ _ => rfl) (fun _ _ => rfl) (fun _ => rfl)
    (n := n) (t := min t (n - 1)) (by omega)
  rw [shuffle_invariant hlaw unique_perm (fun l h => List.Nodup.of_map _ h.2.1), hlaw]
  have e : ((n - min t (n - 1)).factorial : ℝ≥0∞) / ((n.factorial : ℝ≥0∞) * ((n - min t (n - 1) : ℕ) : ℝ≥0∞) ^ min t (n - 1)) =
      (((n - min t (n - 1)).factorial : ℕ) : ℝ≥0∞) / ((n.factorial : ℕ) : ℝ≥0∞) * (((n - min t (n - 1) : ℕ) : ℝ≥0∞)⁻¹) ^ min t (n - 1) := by
    rw [div_eq_mul_inv, div_eq_mul_inv, ENNReal.mul_inv (Or.inl (by exact_mod_cast Nat.factorial_ne_zero _))
      (Or.inl (ENNReal.natCast_ne_top _)), ENNReal.inv_pow, mul_assoc]
  rw [e]
  unfold UniqueRows
  congr

open Classical in
/-- C119: all sequences of `t` (at most `n - 1`) transvections with different columns, none of which is a row, are equally likely. -/
theorem tsRandomUniqueDestination_law {n t : ℕ} (hn : 1 < n) (ht : 0 < t) (ts : List Transvection) :
    tsRandomUniqueDestination [] n t ts = if UniqueColumns n (min t (n - 1)) ts
      then ((n - min t (n - 1)).factorial : ℝ≥0∞) / ((n.factorial : ℝ≥0∞) * ((n - min t (n - 1) : ℕ) : ℝ≥0∞) ^ min t (n - 1)) else 0 := by
  rw [uniqueDestination_eq hn ht]
  have hlaw := ends_law (f := fun c r => (⟨r, c⟩ : Transvection)) (u := (·.col)) (v := (·.row)) (fun _ _ => rfl) (fun _ _ => rfl) (fun _ => rfl)
    (n := n) (t := min t (n - 1)) (by omega)
  rw [shuffle_invariant hlaw unique_perm (fun l h => List.Nodup.of_map _ h.2.1), hlaw]
  have e : ((n - min t (n - 1)).factorial : ℝ≥0∞) / ((n.factorial : ℝ≥0∞) * ((n - min t (n - 1) : ℕ) : ℝ≥0∞) ^ min t (n - 1)) =
      (((n - min t (n - 1)).factorial : ℕ) : ℝ≥0∞) / ((n.factorial : ℕ) : ℝ≥0∞) * (((n - min t (n - 1) : ℕ) : ℝ≥0∞)⁻¹) ^ min t (n - 1) := by
    rw [div_eq_mul_inv, div_eq_mul_inv, ENNReal.mul_inv (Or.inl (by exact_mod_cast Nat.factorial_ne_zero _))
      (Or.inl (ENNReal.natCast_ne_top _)), ENNReal.inv_pow, mul_assoc]
  rw [e]
  refine if_congr ?_ rfl rfl
  unfold UniqueColumns
  constructor
  · rintro ⟨h1, h2, h3, h4⟩
    exact ⟨h1, h2, fun a ha => (h3 a ha).symm, fun a ha b hb => (h4 b hb a ha).symm⟩
  · rintro ⟨h1, h2, h3, h4⟩
    exact ⟨h1, h2, fun a ha => (h3 a ha).symm, fun a ha b hb => (h4 b hb a ha).symm⟩

example : UniqueRows 4 2 [⟨3, 0⟩, ⟨1, 0⟩] ∧ UniqueColumns 4 2 [⟨0, 3⟩, ⟨0, 1⟩] := by
  constructor <;> refine ⟨rfl, by decide, by decide, by decide⟩

/-! ## Disjoint transvections -/

open Classical in
/-- C119: all sequences of `t` (at most `n / 2`) transvections, no two of which have a bit in common, are equally likely. -/
theorem tsRandomDisjoint_law {n t : ℕ} (hn : 1 < n) (ht : 0 < t) (old ts : List Transvection) :
    tsRandomDisjoint old n t ts = if Apart n (min t (n / 2)) ts
      then ((n - 2 * min t (n / 2)).factorial : ℝ≥0∞) / (n.factorial : ℝ≥0∞) else 0 := by
  unfold tsRandomDisjoint
  rw [Dist.assert_bind (by simpa using hn), if_neg (by omega)]
  have hm : (if 2 * t > n then n / 2 else t) = min t (n / 2) := by split <;> omega
  rw [hm]
  have hm2 : 2 * min t (n / 2) ≤ n := by omega
  generalize min t (n / 2) = m at hm2 ⊢
  rw [shuffle_bind_const List.nodup_range (Q := fun vars => vars.take (2 * m) = endpoints ts) (c := 1), mul_one, List.length_range]
  · by_cases h : Apart n m ts
    · rw [if_pos h]
      obtain ⟨h1, h2, h3⟩ := h
      have hc := card_begin (endpoints ts) (List.range n) List.nodup_range h3 (fun x hx => List.mem_range.mpr (h2 x hx))
      rw [endpoints_length, h1, List.length_range] at hc
      rw [← hc]
    · rw [if_neg h, Finset.filter_false_of_mem, Finset.card_empty, Nat.cast_zero, ENNReal.zero_div]
      intro s hs e
      have hp := mem_permsF.mp hs
      have hl : s.length = n := by simpa using hp.length_eq
      apply h
      refine ⟨?_, fun i hi => ?_, ?_⟩
      · have := congrArg List.length e
        rw [endpoints_length, List.length_take] at this
        omega
      · rw [← e] at hi
        exact List.mem_range.mp (hp.mem_iff.mp (List.mem_of_mem_take hi))
      · rw [← e]
        exact (hp.nodup_iff.mpr List.nodup_range).sublist (List.take_sublist _ _)
  · intro vars hp
    rw [Dist.assert_bind (by simpa using hm2)]
    obtain ⟨r, h1, h2⟩ := disjointPairs_eq hp hm2
    rw [h1, Dist.lift_ok, Dist.pure_apply, ← h2]
    by_cases e : ts = r
    · rw [if_pos e, if_pos (by rw [e])]
    · rw [if_neg e, if_neg (fun h => e (endpoints_injective _ _ h).symm)]

example : Apart 5 2 [⟨4, 0⟩, ⟨1, 3⟩] := ⟨rfl, by decide, by decide⟩

/-! ## Sequences of transvections which do not commute -/

theorem tvRandomNonCommuting_after {n : ℕ} (hn : 1 < n) {a : Transvection} (h1 : a.row < n) (h2 : a.col < n) (h3 : a.row ≠ a.col)
    (b : Transvection) : tvRandomNonCommuting n a b = afterProb n a b := by
  rw [tvRandomNonCommuting_law hn h1 h2 h3]
  unfold afterProb
  have hc : tvCommute b a = false ↔ b.row = a.col ∨ b.col = a.row := by
    unfold tvCommute
    by_cases e1 : b.row = a.col
    · simp [e1]
    · by_cases e2 : a.row = b.col
      · simp [e2]
      · simp [e1, e2, Ne.symm e2]
  refine if_congr (by rw [hc]) ?_ rfl
  have he : b = ⟨a.col, a.row⟩ ↔ b.row = a.col ∧ b.col = a.row := by
    cases b
    simp
  have h2n : ((2 * (n - 1) : ℕ) : ℝ≥0∞)⁻¹ = 2⁻¹ * ((n - 1 : ℕ) : ℝ≥0∞)⁻¹ := by
    rw [Nat.cast_mul, ENNReal.mul_inv (by simp) (by simp), Nat.cast_ofNat]
  by_cases hb : b.row = a.col ∧ b.col = a.row
  · rw [if_pos (he.mpr hb), if_pos hb, div_eq_mul_inv, h2n, ← mul_assoc, ENNReal.mul_inv_cancel (by simp) (by simp), one_mul]
  · rw [if_neg (fun e => hb (he.mp e)), if_neg hb, one_div, h2n]

theorem nonCommutingLoop_law {n : ℕ} (hn : 1 < n) : ∀ (k : ℕ) (a : Transvection), a.row < n → a.col < n → a.row ≠ a.col →
    ∀ ts, nonCommutingLoop n k a ts = if ts.length = k then chainProb n a ts else 0
  | 0, a, _, _, _, ts => by
    classical
    rw [nonCommutingLoop, Dist.pure_apply]
    cases ts with
    | nil => rw [if_pos rfl]; simp [chainProb]
    | cons b ts => rw [if_neg (by simp), if_neg (by simp)]
  | k + 1, a, h1, h2, h3, ts => by
    rw [nonCommutingLoop]
    cases ts with
    | nil => rw [chain_nil, if_neg (by simp)]
    | cons b ts =>
      rw [chain_cons, tvRandomNonCommuting_after hn h1 h2 h3]
      by_cases hb : b.row < n ∧ b.col < n ∧ b.row ≠ b.col
      · rw [nonCommutingLoop_law hn k b hb.1 hb.2.1 hb.2.2, List.length_cons, chainProb]
        by_cases h : ts.length = k
        · rw [if_pos h, if_pos (by omega)]
        · rw [if_neg h, if_neg (by omega), mul_zero]
      · have : afterProb n a b = 0 := if_neg (fun h => hb ⟨h.1, h.2.1, h.2.2.1⟩)
        rw [chainProb, this, zero_mul, zero_mul, ite_self]

/-- C119: sequences of transvections, each of which does not commute with the one before.  The first one is uniform; after `a`, the
transvection with row and column exchanged is twice as likely as the other ones. -/
theorem tsRandomNonCommuting_law {n t : ℕ} (hn : 1 < n) (ht : 0 < t) (old : List Transvection) (a : Transvection) (ts : List Transvection) :
    tsRandomNonCommuting old n t (a :: ts) = if ts.length + 1 = t ∧ a.row < n ∧ a.col < n ∧ a.row ≠ a.col
      then ((n * (n - 1) : ℕ) : ℝ≥0∞)⁻¹ * chainProb n a ts else 0 := by
  unfold tsRandomNonCommuting
  rw [Dist.assert_bind (by simpa using hn), if_neg (by omega), chain_cons, tvRandom_law hn]
  by_cases ha : a.row < n ∧ a.col < n ∧ a.row ≠ a.col
  · rw [if_pos ha, nonCommutingLoop_law hn _ a ha.1 ha.2.1 ha.2.2]
    by_cases h : ts.length + 1 = t
    · rw [if_pos (by omega), if_pos ⟨h, ha⟩]
    · rw [if_neg (by omega), if_neg (fun e => h e.1), mul_zero]
  · rw [if_neg ha, zero_mul, if_neg (fun e => ha e.2)]

example : tsRandomNonCommuting [] 3 2 [⟨0, 1⟩, ⟨1, 0⟩] = ((6 : ℕ) : ℝ≥0∞)⁻¹ * (2 / (4 : ℕ) * 1) := by
  rw [tsRandomNonCommuting_law (by decide) (by decide), if_pos (by decide)]
  norm_num [chainProb, afterProb]

/-! ## Commuting transvections -/

theorem card_separate {n s : ℕ} (hs : s ≤ n) {ts : List Transvection} (hts : ∀ a ∈ ts, a.row < n ∧ a.col < n) :
    ((permsF (List.range n)).filter (fun vars => ∀ a ∈ ts, a.row ∈ vars.take s ∧ a.col ∈ vars.drop s)).card =
      (((Finset.range n).powersetCard s).filter (fun A => ∀ a ∈ ts, a.row ∈ A ∧ a.col ∉ A)).card * (s.factorial * (n - s).factorial) := by
  have key : ∀ vars : List ℕ, vars.Perm (List.range n) → vars.length = n ∧ vars.Nodup ∧ (vars.take s).toFinset.card = s ∧
      ∀ x, x < n → (x ∈ vars.drop s ↔ x ∉ vars.take s) := by
    intro vars hp
    have hl : vars.length = n := by simpa using hp.length_eq
    have hnd : vars.Nodup := hp.nodup_iff.mpr List.nodup_range
    refine ⟨hl, hnd, ?_, fun x hx => ?_⟩
    · rw [List.toFinset_card_of_nodup (hnd.sublist (List.take_sublist _ _)), List.length_take]
      omega
    · constructor
      · exact fun h1 h2 => (List.disjoint_take_drop hnd (le_refl s)) h2 h1
      · intro h
        have hm : x ∈ vars := hp.mem_iff.mpr (List.mem_range.mpr hx)
        rw [← List.take_append_drop s vars, List.mem_append] at hm
        exact hm.resolve_left h
  rw [Finset.card_eq_sum_card_fiberwise (f := fun vars => (vars.take s).toFinset)
    (t := ((Finset.range n).powersetCard s).filter (fun A => ∀ a ∈ ts, a.row ∈ A ∧ a.col ∉ A))]
  · rw [Finset.sum_congr rfl (g := fun _ => s.factorial * (n - s).factorial), Finset.sum_const, smul_eq_mul]
    intro A hA
    rw [Finset.mem_filter, Finset.mem_powersetCard] at hA
    have hc := card_slice A (k := s) (p := 0) (N := n) (by omega) hA.1.1
    rw [hA.1.2, Nat.descFactorial_self] at hc
    rw [← hc]
    congr 1
    ext vars
    simp only [Finset.mem_filter, mem_permsF, mem_permsOf, List.drop_zero]
    constructor
    · rintro ⟨⟨hp, _⟩, rfl⟩
      exact ⟨hp, fun x hx => List.mem_toFinset.mpr hx⟩
    · rintro ⟨hp, hx⟩
      obtain ⟨hl, hnd, hcard, hdrop⟩ := key vars hp
      have hA2 : (vars.take s).toFinset = A := by
        apply Finset.eq_of_subset_of_card_le
        · intro x h
          exact hx x (List.mem_toFinset.mp h)
        · rw [hcard, hA.1.2]
      refine ⟨⟨hp, fun a ha => ?_⟩, hA2⟩
      have h := hA.2 a ha
      rw [← hA2, List.mem_toFinset, List.mem_toFinset] at h
      exact ⟨h.1, (hdrop _ (hts a ha).2).mpr h.2⟩
  · intro vars hv
    simp only [Finset.coe_filter, Set.mem_setOf_eq, mem_permsF] at hv
    obtain ⟨hl, hnd, hcard, hdrop⟩ := key vars hv.1
    simp only [Finset.coe_filter, Set.mem_setOf_eq, Finset.mem_powersetCard]
    refine ⟨⟨fun x hx => ?_, hcard⟩, fun a ha => ?_⟩
    · exact Finset.mem_range.mpr (List.mem_range.mp (hv.1.mem_iff.mp (List.mem_of_mem_take (List.mem_toFinset.mp hx))))
    · rw [List.mem_toFinset, List.mem_toFinset]
      exact ⟨(hv.2 a ha).1, (hdrop _ (hts a ha).2).mp (hv.2 a ha).2⟩

open Classical in
/-- C119: sequences of `t` (at most `n * n / 4`) commuting transvections.  A number `s` of possible rows is chosen among those which allow
`t` transvections, then a set of `s` rows, then the transvections among those with a row in the set and a column out of it. -/
theorem tsRandomCommuting_law {n t : ℕ} (hn : 1 < n) (ht : 0 < t) (ts : List Transvection) :
    tsRandomCommuting [] n t ts = if ts.length = min t (n * n / 4) ∧ ts.Nodup ∧ ∀ a ∈ ts, a.row < n ∧ a.col < n
      then ∑ s ∈ admissible n (min t (n * n / 4)),
        sizeProb n (min t (n * n / 4)) s * (separation n s ts * ((s * (n - s)).descFactorial (min t (n * n / 4)) : ℝ≥0∞)⁻¹) else 0 := by
  unfold tsRandomCommuting
  rw [Dist.assert_bind (by simpa using hn), if_neg (by omega)]
  have hm : (if t > commutingLengthMax n then commutingLengthMax n else t) = min t (n * n / 4) := by
    rw [commutingLengthMax_eq]; split <;> omega
  rw [hm]
  have hmm : min t (n * n / 4) ≤ commutingLengthMax n := by rw [commutingLengthMax_eq]; omega
  generalize min t (n * n / 4) = m at hmm ⊢
  rw [Dist.bind_swap, Dist.bind_apply, tsum_eq_sum (s := admissible n m) (fun s hs => by
    rw [commutingSplit_law hn hmm, show sizeProb n m s = 0 from if_neg hs, zero_mul])]
  have hterm : ∀ s ∈ admissible n m, (shuffle (List.range n) >>= fun vars => Dist.lift (commutingPairs vars n s []) >>= fun ts =>
      shuffle ts >>= fun ts => if m < ts.length then (pure (ts.take m) : Dist (List Transvection)) else pure ts) ts =
      if ts.length = m ∧ ts.Nodup ∧ ∀ a ∈ ts, a.row < n ∧ a.col < n
        then separation n s ts * ((s * (n - s)).descFactorial m : ℝ≥0∞)⁻¹ else 0 := by
    intro s hs
    unfold admissible at hs
    rw [Finset.mem_filter, Finset.mem_range] at hs
    have hstep : ∀ vars : List ℕ, vars.Perm (List.range n) → (Dist.lift (commutingPairs vars n s []) >>= fun ts =>
        shuffle ts >>= fun ts => if m < ts.length then (pure (ts.take m) : Dist (List Transvection)) else pure ts) ts =
        if (ts.length = m ∧ ts.Nodup) ∧ ∀ a ∈ ts, a.row ∈ vars.take s ∧ a.col ∈ vars.drop s
          then ((s * (n - s)).descFactorial m : ℝ≥0∞)⁻¹ else 0 := by
      intro vars hp
      have hl : vars.length = n := by simpa using hp.length_eq
      have hnd : vars.Nodup := hp.nodup_iff.mpr List.nodup_range
      have hlen : (pairsOf (vars.take s) (vars.drop s)).length = s * (n - s) := by
        rw [pairsOf_length, List.length_take, List.length_drop, hl, min_eq_left (by omega)]
      rw [commutingPairs_eq hl (by omega), Dist.lift_ok, Dist.pure_bind', Dist.bind_congr_support (g := fun l => pure (l.take m)),
        shuffle_take (pairsOf_nodup (hnd.sublist (List.take_sublist _ _)) (hnd.sublist (List.drop_sublist _ _))) (by rw [hlen]; exact hs.2.2), hlen]
      · refine if_congr ?_ ?_ rfl
        · rw [and_assoc]
          refine and_congr_right (fun _ => and_congr_right (fun _ => ?_))
          exact ⟨fun h a ha => mem_pairsOf.mp (h ha), fun h a ha => mem_pairsOf.mpr (h a ha)⟩
        · have := Nat.factorial_mul_descFactorial hs.2.2
          rw [← this, Nat.cast_mul, ENNReal.div_eq_inv_mul, ENNReal.mul_inv (Or.inl (by exact_mod_cast Nat.factorial_ne_zero _))
            (Or.inl (ENNReal.natCast_ne_top _)), mul_assoc, mul_comm (((s * (n - s)).descFactorial m : ℝ≥0∞)⁻¹), ← mul_assoc,
            ENNReal.inv_mul_cancel (by exact_mod_cast Nat.factorial_ne_zero _) (ENNReal.natCast_ne_top _), one_mul]
      · intro l hl'
        have := (shuffle_support hl').length_eq
        rw [hlen] at this
        by_cases h : m < l.length
        · rw [if_pos h]
        · rw [if_neg h, List.take_of_length_le (by omega)]
    rw [shuffle_bind_const List.nodup_range hstep, List.length_range]
    by_cases h1 : ts.length = m ∧ ts.Nodup
    · by_cases h2 : ∀ a ∈ ts, a.row < n ∧ a.col < n
      · rw [if_pos ⟨h1.1, h1.2, h2⟩]
        congr 1
        have hc := card_separate (n := n) (s := s) (by omega) h2
        unfold separation
        have hf : (permsF (List.range n)).filter (fun vars => (ts.length = m ∧ ts.Nodup) ∧ ∀ a ∈ ts, a.row ∈ vars.take s ∧ a.col ∈ vars.drop s) =
            (permsF (List.range n)).filter (fun vars => ∀ a ∈ ts, a.row ∈ vars.take s ∧ a.col ∈ vars.drop s) :=
          Finset.filter_congr (fun vars _ => ⟨fun h => h.2, fun h => ⟨h1, h⟩⟩)
        rw [hf, hc, ← Nat.choose_mul_factorial_mul_factorial (show s ≤ n by omega), mul_assoc (n.choose s), Nat.cast_mul, Nat.cast_mul (n.choose s)]
        exact ENNReal.mul_div_mul_right _ _ (by exact_mod_cast Nat.mul_ne_zero (Nat.factorial_ne_zero _) (Nat.factorial_ne_zero _))
          (ENNReal.natCast_ne_top _)
      · rw [if_neg (fun h => h2 h.2.2), Finset.filter_false_of_mem, Finset.card_empty, Nat.cast_zero, ENNReal.zero_div, zero_mul]
        rintro vars hv ⟨_, h⟩
        have hp := mem_permsF.mp hv
        exact h2 (fun a ha => ⟨List.mem_range.mp (hp.mem_iff.mp (List.mem_of_mem_take (h a ha).1)),
          List.mem_range.mp (hp.mem_iff.mp (List.mem_of_mem_drop (h a ha).2))⟩)
    · rw [if_neg (fun h => h1 ⟨h.1, h.2.1⟩), Finset.filter_false_of_mem, Finset.card_empty, Nat.cast_zero, ENNReal.zero_div, zero_mul]
      exact fun vars _ h => h1 h.1
  rw [Finset.sum_congr rfl (fun s hs => by rw [hterm s hs, commutingSplit_law hn hmm])]
  by_cases h : ts.length = m ∧ ts.Nodup ∧ ∀ a ∈ ts, a.row < n ∧ a.col < n
  · rw [if_pos h]
    exact Finset.sum_congr rfl (fun s _ => by rw [if_pos h])
  · rw [if_neg h]
    exact Finset.sum_eq_zero (fun s _ => by rw [if_neg h, mul_zero])

theorem law_four (ts : List Transvection) (h : ts.length = 2 ∧ ts.Nodup ∧ ∀ a ∈ ts, a.row < 4 ∧ a.col < 4) :
    tsRandomCommuting [] 4 2 ts = (1 / (4 : ℕ) * (separation 4 1 ts * ((6 : ℕ) : ℝ≥0∞)⁻¹) + (2 / (4 : ℕ) * (separation 4 2 ts * ((12 : ℕ) : ℝ≥0∞)⁻¹) +
      1 / (4 : ℕ) * (separation 4 3 ts * ((6 : ℕ) : ℝ≥0∞)⁻¹))) := by
  rw [tsRandomCommuting_law (by decide) (by decide), show min 2 (4 * 4 / 4) = 2 by decide, if_pos h]
  have hadm : admissible 4 2 = {1, 2, 3} := by decide
  have hsize : ∀ s, sizeProb 4 2 s = if s ∈ admissible 4 2 then (if 2 * s = 4 then 2 else 1) / ((4 : ℕ) : ℝ≥0∞) else 0 := by
    intro s
    unfold sizeProb
    rw [if_pos (show 4 % 2 = 0 by decide), hadm]
    rfl
  have h1 : sizeProb 4 2 1 = 1 / ((4 : ℕ) : ℝ≥0∞) := by rw [hsize, if_pos (by rw [hadm]; decide), if_neg (by decide)]
  have h2 : sizeProb 4 2 2 = 2 / ((4 : ℕ) : ℝ≥0∞) := by rw [hsize, if_pos (by rw [hadm]; decide), if_pos (by decide)]
  have h3 : sizeProb 4 2 3 = 1 / ((4 : ℕ) : ℝ≥0∞) := by rw [hsize, if_pos (by rw [hadm]; decide), if_neg (by decide)]
  rw [hadm, Finset.sum_insert (by decide), Finset.sum_insert (by decide), Finset.sum_singleton, h1, h2, h3]
  rfl

/-- C119 (negative part): the law of commuting sequences is not uniform.  Of four bits, two transvections with the same row are more likely
than two disjoint ones. -/
theorem tsRandomCommuting_biased :
    tsRandomCommuting [] 4 2 [⟨0, 1⟩, ⟨2, 3⟩] < tsRandomCommuting [] 4 2 [⟨0, 1⟩, ⟨0, 2⟩] := by
  rw [law_four _ (by decide), law_four _ (by decide)]
  have hs : ∀ s ts k c, ((((Finset.range 4).powersetCard s).filter (fun A => ∀ a ∈ ts, a.row ∈ A ∧ a.col ∉ A)).card = k ∧ (4 : ℕ).choose s = c) →
      separation 4 s ts = (k : ℕ) / (c : ℕ) := by
    rintro s ts k c ⟨rfl, rfl⟩
    rfl
  rw [hs 1 [⟨0, 1⟩, ⟨2, 3⟩] 0 4 (by decide), hs 2 [⟨0, 1⟩, ⟨2, 3⟩] 1 6 (by decide), hs 3 [⟨0, 1⟩, ⟨2, 3⟩] 0 4 (by decide),
    hs 1 [⟨0, 1⟩, ⟨0, 2⟩] 1 4 (by decide), hs 2 [⟨0, 1⟩, ⟨0, 2⟩] 1 6 (by decide), hs 3 [⟨0, 1⟩, ⟨0, 2⟩] 0 4 (by decide)]
  simp only [Nat.cast_zero, ENNReal.zero_div, zero_mul, mul_zero, add_zero, zero_add]
  rw [add_comm]
  refine ENNReal.lt_add_right ?_ ?_
  · refine ENNReal.mul_ne_top (ENNReal.div_ne_top (by simp) (by simp)) (ENNReal.mul_ne_top (ENNReal.div_ne_top (by simp) (by simp)) (by simp))
  · simp

end Hnco.Prob
