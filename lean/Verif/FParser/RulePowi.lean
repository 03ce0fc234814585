import Verif.FParser.RuleLemmas

/-!
# Powers with an immediate exponent are products and square roots
-/

namespace Hnco.FParser

noncomputable section

theorem eligible_pos {k : ℤ} (h : eligiblePowi k = true) : 1 ≤ k.natAbs := by
  simp only [eligiblePowi, Bool.and_eq_true, decide_eq_true_eq] at h
  exact h.1.2

theorem land_half : ∀ n : Nat, n < 513 → n ≠ 0 → Nat.land (2 * n) (2 * n - 1) = 0 → Nat.land n (n - 1) = 0 := by
  decide +kernel

theorem eligible_half {m : ℤ} (h : eligiblePowi (2 * m) = true) : eligiblePowi m = true := by
  have e : (2 * m).natAbs = 2 * m.natAbs := by omega
  simp only [eligiblePowi, Bool.and_eq_true, Bool.or_eq_true, decide_eq_true_eq, e] at h ⊢
  refine ⟨⟨by omega, by omega⟩, ?_⟩
  rcases h.2 with h1 | ⟨h1, h2⟩
  · exact Or.inl (by omega)
  · exact Or.inr ⟨by omega, land_half _ (by omega) (by omega) h2⟩

theorem eligible_pow {m : ℤ} : ∀ j : Nat, eligiblePowi (2 ^ j * m) = true → eligiblePowi m = true
  | 0, h => by simpa using h
  | j + 1, h => eligible_pow j (eligible_half (by rw [← mul_assoc, ← pow_succ']; exact h))

theorem powiSearch_spec : ∀ (r c : Nat) (v : ℝ) {count : Nat} {k : ℤ}, powiSearch r c v = some (count, k) →
    ∃ j, count = c + j ∧ (k : ℝ) = 2 ^ j * v ∧ eligiblePowi k = true
  | r, c, v, count, k, h => by
    unfold powiSearch at h
    split at h
    · next h0 =>
      cases h
      exact ⟨0, rfl, by rw [pow_zero, one_mul]; exact h0.1.symm, h0.2⟩
    · match r, h with
      | r + 1, h =>
        obtain ⟨j, h1, h2, h3⟩ := powiSearch_spec r (c + 1) (v + v) h
        exact ⟨j + 1, by omega, by rw [h2, pow_succ]; ring, h3⟩

/-- With square roots, the exponent is not an integer. -/
theorem powiSearch_not_int {x : ℝ} {count : Nat} {k : ℤ} (h : powiSearch 4 0 x = some (count, k)) (hc : count ≠ 0) :
    ¬ ∃ m : ℤ, (m : ℝ) = x := by
  rintro ⟨m, rfl⟩
  obtain ⟨j, h1, h2, h3⟩ := powiSearch_spec _ _ _ h
  have h2' : k = 2 ^ j * m := by exact_mod_cast h2
  have hm : eligiblePowi m = true := eligible_pow j (h2' ▸ h3)
  unfold powiSearch at h
  rw [if_pos ⟨by simp, by simpa using hm⟩] at h
  cases h
  exact hc rfl

theorem run_sqrts (ε : ℝ) (vals : List ℝ) (c : List Instr) : ∀ (m : Nat) {t : ℝ} (_ : 0 ≤ t) (st : List ℝ),
    runCode ε vals (List.replicate m (.op (.fn .sqrt)) ++ c) (t :: st) = runCode ε vals c (t ^ ((1 : ℝ) / 2 ^ m) :: st)
  | 0, t, ht, st => by simp
  | m + 1, t, ht, st => by
    rw [List.replicate_succ, List.cons_append, run_sqrt, if_pos ht, run_sqrts ε vals c m (Real.sqrt_nonneg t),
      Real.sqrt_eq_rpow, ← Real.rpow_mul ht]
    congr 3
    rw [pow_succ]
    field_simp

/-- A square, then a product, or only a product. -/
theorem run_evenPowi (ε : ℝ) (vals : List ℝ) {n : Nat} (hn : 1 ≤ n) (w : ℝ) (st : List ℝ) :
    runCode ε vals (if n % 2 = 0 then .op .sqr :: compilePowi (n / 2) (n / 2) 0 else compilePowi n n 0) (w :: st) =
      some (w ^ n :: st) := by
  split
  · next h =>
    rw [run_sqr]
    have := compilePowi_run ε vals (n / 2) (n / 2) [] (w * w) st (by omega) le_rfl
    simp only [List.length_nil, List.nil_append, List.prod_nil, one_mul] at this
    rw [this, ← pow_two, ← pow_mul, show 2 * (n / 2) = n by omega]
  · simpa using compilePowi_run ε vals n n [] w st hn le_rfl

theorem sound_455 {ε x : ℝ} {count : Nat} {k : ℤ} (h : powiSearch 4 0 x = some (count, k)) :
    Refines ε [.imm x, .op (.fn .pow)] (powiCode count k) := by
  intro vals st st'
  rcases st with _ | ⟨t, st⟩
  · run_code; simp
  run_code
  rintro ⟨g1, rfl⟩
  obtain ⟨j, hj, hk, he⟩ := powiSearch_spec _ _ _ h
  have hpos := eligible_pos he
  unfold powiCode
  by_cases hc : count = 0
  · have hj0 : j = 0 := by omega
    subst hc hj0
    rw [pow_zero, one_mul] at hk
    subst hk
    rw [if_pos rfl, List.nil_append, runCode_append, run_evenPowi ε vals hpos, Option.bind_some, Real.rpow_intCast]
    by_cases hneg : k < 0
    · have ht : t ≠ 0 := by
        rintro rfl
        rcases g1 with h1 | ⟨_, h1⟩ | ⟨h1, _⟩
        · exact absurd h1 (lt_irrefl 0)
        · exact absurd (Int.cast_lt_zero.mpr hneg) (not_lt.mpr h1)
        · exact absurd h1 (lt_irrefl 0)
      rw [if_pos ⟨rfl, hneg⟩, run_inv, if_pos (pow_ne_zero _ ht), run_nil, one_div, ← zpow_natCast, ← zpow_neg]
      congr 3
      omega
    · rw [if_neg (fun hn => hneg hn.2), run_nil, ← zpow_natCast]
      congr 3
      omega
  · have hni := powiSearch_not_int h hc
    have ht : 0 ≤ t := powDef_nonneg g1 hni
    have hj' : j = count := by omega
    subst hj'
    obtain ⟨m, rfl⟩ : ∃ m, j = m + 1 := ⟨j - 1, by omega⟩
    have hx : x = (1 : ℝ) / 2 ^ (m + 1) * k := by rw [hk]; field_simp
    rw [if_neg hc, Nat.add_sub_cancel, List.append_assoc, run_sqrts ε vals _ m ht, List.singleton_append]
    have hroot : Real.sqrt (t ^ ((1 : ℝ) / 2 ^ m)) = t ^ ((1 : ℝ) / 2 ^ (m + 1)) := by
      rw [Real.sqrt_eq_rpow, ← Real.rpow_mul ht]
      congr 1
      rw [pow_succ]; field_simp
    by_cases hneg : k < 0
    · have ht' : 0 < t := by
        rcases ht.lt_or_eq with h1 | h1
        · exact h1
        subst h1
        rcases g1 with h1 | ⟨_, h1⟩ | ⟨h1, _⟩
        · exact absurd h1 (lt_irrefl 0)
        · rw [hx] at h1
          exact absurd (mul_neg_of_pos_of_neg (by positivity) (Int.cast_lt_zero.mpr hneg)) (not_lt.mpr h1)
        · exact absurd h1 (lt_irrefl 0)
      rw [if_pos hneg, run_rsqrt, if_pos (Real.rpow_pos_of_pos ht' _), hroot, runCode_append, run_evenPowi ε vals hpos,
        Option.bind_some, if_neg (fun hn => hc hn.1), run_nil, one_div, inv_pow, ← Real.rpow_natCast, ← Real.rpow_mul ht,
        ← Real.rpow_neg ht]
      congr 3
      rw [hx, ← mul_neg]
      congr 1
      have : ((k.natAbs : ℤ) : ℝ) = -(k : ℝ) := by
        rw [show (k.natAbs : ℤ) = -k by omega]; push_cast; ring
      rw [← Int.cast_natCast, this, neg_neg]
    · rw [if_neg hneg, run_sqrt, if_pos (Real.rpow_nonneg ht _), hroot, runCode_append, run_evenPowi ε vals hpos,
        Option.bind_some, if_neg (fun hn => hc hn.1), run_nil, ← Real.rpow_natCast, ← Real.rpow_mul ht]
      congr 3
      rw [hx]
      congr 1
      rw [← Int.cast_natCast, show (k.natAbs : ℤ) = k by omega]

end

end Hnco.FParser
