import Verif.Prob.SearchLemmas
import Verif.Function.Theory
import Verif.Function.TheoryProps

/-!
# Lemmas about the time to find a maximum
-/

namespace Hnco.Prob

open Outcome
open scoped ENNReal

variable {K : Type} [LinearOrder K] {f : Fn K} {n : ℕ} {val : BV → K} {p : RlsParams K}

/-! ## Totals -/

theorem bitsLaw_total : ∀ (cs : List (Dist Bool)), (∀ c ∈ cs, c.total = 1) → (bitsLaw cs).total = 1 := by
  intro cs
  induction cs with
  | nil => intro _; rw [bitsLaw_nil, Dist.total_pure]
  | cons c cs ih =>
    intro h
    rw [bitsLaw_cons, Dist.total_bind]
    simp only [Dist.total_bind, Dist.total_pure, mul_one]
    have h1 : ∑' y, bitsLaw cs y = 1 := ih (fun c hc => h c (List.mem_cons_of_mem _ hc))
    rw [h1]
    simp only [mul_one]
    exact h c List.mem_cons_self

theorem bvRandomBits_bits (x : BV) : bvRandomBits x = bitsLaw ((List.range x.length).map (fun _ => Dist.bernoulli)) := by
  refine bits_range (fun _ => Dist.bernoulli) (fun j y hj hy => ?_)
  congr 1
  funext b
  rw [vset_eq (by omega), Dist.lift_ok]

theorem bvRandomBits_total (x : BV) : (bvRandomBits x).total = 1 := by
  rw [bvRandomBits_bits]
  refine bitsLaw_total _ (fun c hc => ?_)
  rw [List.mem_map] at hc
  obtain ⟨_, _, rfl⟩ := hc
  exact Dist.coin_total

theorem startLaw_total : (startLaw p n).total = 1 := by
  unfold startLaw
  split
  · exact bvRandomBits_total _
  · exact Dist.total_pure _

theorem steps_total {step : BV → Dist BV} {inv : BV → Prop} (hinv : ∀ a, inv a → ∀ b, step a b ≠ 0 → inv b)
    (htot : ∀ a, inv a → (step a).total = 1) (t : ℕ) : ∀ a, inv a → (Dist.steps step t a).total = 1 := by
  induction t with
  | zero => intro a _; exact Dist.total_pure _
  | succ t ih =>
    intro a ha
    change (step a >>= Dist.steps step t).total = 1
    rw [Dist.total_bind]
    have : ∀ b, step a b * (Dist.steps step t b).total = step a b := by
      intro b
      by_cases hb : step a b = 0
      · rw [hb, zero_mul]
      · rw [ih b (hinv a ha b hb), mul_one]
    simp only [this]
    exact htot a ha

theorem Samples.support (h : Samples p n) : ∀ l, p.sampleBits l ≠ 0 → Ascending 0 n l :=
  fun l hl => ⟨(h.sorted l hl).1, fun i hi => ⟨Nat.zero_le i, by have := (h.sorted l hl).2 i hi; omega⟩⟩

theorem Samples.of (h : ∀ l, p.sampleBits l ≠ 0 → Ascending 0 n l) (h1 : p.sampleBits.total = 1) : Samples p n :=
  ⟨fun l hl => ⟨(h l hl).1, fun i hi => by have := ((h l hl).2 i hi).2; omega⟩, h1⟩

open Classical in
/-- The probability to have missed, in terms of the chain. -/
theorem missProb_after (hf : Evaluates f n val) (hp : Elitist p) (hd : Samples p n) (hs : Starts p n) (found : BV → Prop) (t : ℕ) :
    missProb (rlsAfter p f n t) found
      = (startLaw p n).expect (fun x => (Dist.steps (move p.sampleBits val) t x).expect (missing found)) := by
  have hinv : ∀ a : BV, a.length = n → ∀ b, move p.sampleBits val a b ≠ 0 → b.length = n :=
    fun a ha b hb => (move_support hd.support ha hb).1
  have htot : (rlsAfter p f n t).total = 1 := by
    rw [rlsAfter_steps hf hp hd.support hs, Dist.total_bind]
    have : ∀ x, startLaw p n x * (Dist.steps (move p.sampleBits val) t x >>= fun x => (pure (x, val x) : Dist (BV × K))).total
        = startLaw p n x := by
      intro x
      by_cases hx : startLaw p n x = 0
      · rw [hx, zero_mul]
      · rw [Dist.total_bind]
        simp only [Dist.total_pure, mul_one]
        have := steps_total hinv (fun a ha => move_total (val := val) hd.support hd.total ha) t x (startLaw_support hs hx)
        unfold Dist.total at this
        rw [this, mul_one]
    simp only [this]
    exact startLaw_total
  unfold missProb
  rw [Dist.one_sub_prob htot, rlsAfter_steps hf hp hd.support hs, Dist.expect_bind]
  congr 1
  funext x
  rw [Dist.expect_bind]
  simp only [Dist.expect_pure]
  rfl

open Classical in
theorem expectedTime_eq (hf : Evaluates f n val) (hp : Elitist p) (hd : Samples p n) (hs : Starts p n) (found : BV → Prop) :
    expectedTime (rlsAfter p f n) found
      = (startLaw p n).expect (fun x => ∑' t, (Dist.steps (move p.sampleBits val) t x).expect (missing found)) := by
  unfold expectedTime
  simp only [missProb_after hf hp hd hs found]
  rw [Dist.expect_tsum]

/-! ## Fitness levels -/

/-- Fitness levels: if level `j` is left with probability at least `b j`, then the expected time is at most the sum of the
inverses. -/
theorem levels_le {step : BV → Dist BV} {inv : BV → Prop} (hinv : ∀ a, inv a → ∀ b, step a b ≠ 0 → inv b)
    (htot : ∀ a, inv a → (step a).total = 1) {level : BV → ℕ} {m : ℕ} {done : BV → Prop} [DecidablePred done]
    (hdone : ∀ a, inv a → (done a ↔ m ≤ level a)) (hup : ∀ a, inv a → ∀ b, step a b ≠ 0 → level a ≤ level b)
    {b : ℕ → ℝ≥0∞} (hb : ∀ a, inv a → level a < m → b (level a) ≤ (step a).prob (fun y => level a < level y))
    {a : BV} (ha : inv a) :
    ∑' t, (Dist.steps step t a).expect (missing done) ≤ ∑ j ∈ Finset.Ico (level a) m, (b j)⁻¹ := by
  refine drift_le (V := fun a => ∑ j ∈ Finset.Ico (level a) m, (b j)⁻¹) hinv ?_ ha
  intro a ha
  by_cases hl : level a < m
  · have hnd : ¬ done a := fun h => by have := (hdone a ha).mp h; omega
    rw [missing, if_neg hnd, Finset.sum_eq_sum_Ico_succ_bot hl]
    set R := ∑ j ∈ Finset.Ico (level a + 1) m, (b j)⁻¹ with hR
    by_cases hb0 : b (level a) = 0
    · rw [hb0, ENNReal.inv_zero, top_add]; exact le_top
    have hV : (step a).expect (fun y => ∑ j ∈ Finset.Ico (level y) m, (b j)⁻¹)
        ≤ (step a).expect (fun y => R + (b (level a))⁻¹ * (if level a < level y then 0 else 1)) := by
      refine Dist.expect_mono (fun y hy => ?_)
      have hle := hup a ha y hy
      by_cases hlt : level a < level y
      · rw [if_pos hlt, mul_zero, add_zero, hR]
        exact Finset.sum_le_sum_of_subset (Finset.Ico_subset_Ico_left (by omega))
      · have : level y = level a := by omega
        rw [if_neg hlt, mul_one, this, Finset.sum_eq_sum_Ico_succ_bot hl, add_comm]
    have hle1 : b (level a) ≤ 1 := by
      refine (hb a ha hl).trans ?_
      have := Dist.prob_add_not (step a) (fun y => level a < level y)
      rw [htot a ha] at this
      rw [← this]
      exact le_self_add
    have h1 : (step a).expect (fun y => R + (b (level a))⁻¹ * (if level a < level y then 0 else 1))
        ≤ R + (b (level a))⁻¹ * (1 - b (level a)) := by
      rw [Dist.expect_add, Dist.expect_const, htot a ha, one_mul, Dist.expect_mul_left, ← Dist.one_sub_prob (htot a ha)]
      exact add_le_add (le_refl _) (mul_le_mul_right (tsub_le_tsub_left (hb a ha hl) 1) _)
    calc 1 + (step a).expect (fun y => ∑ j ∈ Finset.Ico (level y) m, (b j)⁻¹)
        ≤ 1 + (R + (b (level a))⁻¹ * (1 - b (level a))) := add_le_add (le_refl _) (hV.trans h1)
      _ = (b (level a))⁻¹ * b (level a) + (R + (b (level a))⁻¹ * (1 - b (level a))) := by
          rw [ENNReal.inv_mul_cancel hb0 (ne_top_of_le_ne_top ENNReal.one_ne_top hle1)]
      _ = (b (level a))⁻¹ * (b (level a) + (1 - b (level a))) + R := by ring
      _ = (b (level a))⁻¹ + R := by rw [add_tsub_cancel_of_le hle1, mul_one]
  · have hd : done a := (hdone a ha).mpr (by omega)
    rw [missing, if_pos hd, zero_add]
    refine le_of_eq_of_le ?_ (zero_le)
    rw [Dist.expect_congr (W := fun _ => 0)]
    · rw [Dist.expect_const, mul_zero]
    · intro y hy
      have := hup a ha y hy
      rw [Finset.Ico_eq_empty (by omega), Finset.sum_empty]

/-! ## Neighbours -/

theorem differences_set {x : BV} {i : ℕ} (hi : i < x.length) (b : Bool) (hb : x[i] ≠ b) : differences x (x.set i b) = [i] := by
  refine ascending_ext (n := x.length) (differences_ascending _ _) ⟨by simp, by simpa using hi⟩ ?_
  intro j hj
  unfold differences
  rw [List.mem_filter, List.mem_range, List.mem_singleton]
  by_cases h : j = i
  · subst h
    rw [List.getElem?_set_self hj, List.getElem?_eq_getElem hj]
    simp [hj, hb]
  · rw [List.getElem?_set_ne (fun e => h e.symm)]
    simp [h]

theorem distance_set {x : BV} {i : ℕ} (hi : i < x.length) (b : Bool) (hb : x[i] ≠ b) : distance x (x.set i b) = 1 := by
  unfold distance
  rw [differences_set hi b hb]
  rfl

/-- The positions of the zeros. -/
def zeroPositions (x : BV) : Finset ℕ := (Finset.range x.length).filter (fun i => x[i]? = some false)

theorem zeroPositions_card (x : BV) : (zeroPositions x).card + ones x = x.length := by
  induction x using List.reverseRecOn with
  | nil => rfl
  | append_singleton x b ih =>
    have h1 : zeroPositions (x ++ [b]) = if b = false then insert x.length (zeroPositions x) else zeroPositions x := by
      unfold zeroPositions
      ext i
      rw [Finset.mem_filter, Finset.mem_range, List.length_append, List.length_singleton]
      by_cases h : i < x.length
      · rw [List.getElem?_append_left h]
        split
        · rw [Finset.mem_insert, Finset.mem_filter, Finset.mem_range]
          constructor
          · intro e; exact Or.inr ⟨h, e.2⟩
          · rintro (e | e)
            · omega
            · exact ⟨by omega, e.2⟩
        · rw [Finset.mem_filter, Finset.mem_range]
          exact ⟨fun e => ⟨h, e.2⟩, fun e => ⟨by omega, e.2⟩⟩
      · by_cases h2 : i = x.length
        · subst h2
          rw [List.getElem?_concat_length]
          cases b <;> simp
        · split
          · rw [Finset.mem_insert, Finset.mem_filter, Finset.mem_range]
            constructor
            · intro e; omega
            · rintro (e | e) <;> omega
          · rw [Finset.mem_filter, Finset.mem_range]
            constructor
            · intro e; omega
            · intro e; omega
    have h2 : x.length ∉ zeroPositions x := by
      unfold zeroPositions
      simp
    have h3 : ones (x ++ [b]) = ones x + if b = true then 1 else 0 := by
      unfold ones
      rw [List.count_append]
      cases b <;> simp
    rw [h1, h3, List.length_append, List.length_singleton]
    cases b
    · rw [if_pos rfl, Finset.card_insert_of_notMem h2, if_neg (by decide)]
      omega
    · rw [if_neg (by decide), if_pos rfl]
      omega

theorem ones_set {x : BV} {i : ℕ} (hi : i < x.length) :
    (x[i] = false → ones (x.set i true) = ones x + 1) ∧ (x[i] = true → ones (x.set i false) + 1 = ones x) := by
  unfold ones
  have h := List.count_set (a := true) (b := true) (l := x) hi
  have h' := List.count_set (a := false) (b := true) (l := x) hi
  constructor
  · intro hx
    rw [h, hx]
    simp
  · intro hx
    rw [h', hx]
    have : 0 < List.count true x := by
      rw [List.count_pos_iff]
      rw [← hx]
      exact List.getElem_mem hi
    simp
    omega

/-- The probability to go up, from a set of neighbours which are better. -/
theorem up_ge {d : Dist (List ℕ)} {x : BV} {level : BV → ℕ} (hval : ∀ y, level x < level y → val x ≤ val y) {Y : Finset BV} {c : ℝ≥0∞}
    (hY : ∀ y ∈ Y, level x < level y ∧ c ≤ mutate d x y) :
    (Y.card : ℝ≥0∞) * c ≤ (move d val x).prob (fun y => level x < level y) := by
  rw [Dist.prob_expect, move_expect]
  calc (Y.card : ℝ≥0∞) * c = ∑ y ∈ Y, c := by rw [Finset.sum_const, nsmul_eq_mul]
    _ ≤ ∑ y ∈ Y, mutate d x y * (if level x < level (if val x ≤ val y then y else x) then 1 else 0) := by
        refine Finset.sum_le_sum (fun y hy => ?_)
        have h := hY y hy
        rw [if_pos (hval y h.1), if_pos h.1, mul_one]
        exact h.2
    _ ≤ _ := ENNReal.sum_le_tsum _

/-! ## Samplers -/

/-- A given vector is made by standard bit mutation with at least the probability that the bits where it differs, and no others, are
flipped. -/
theorem standard_ge {x y : BV} (hn : 0 < x.length) {m : StandardBitMutation} (hp : m.rate ≤ 1) (hl : y.length = x.length) (hy : y ≠ x) :
    m.rate ^ distance x y * (1 - m.rate) ^ (x.length - distance x y) ≤ mutate (m.sampleBits x.length) x y := by
  classical
  by_cases h : m.allowNoMutation = false ∨ m.rejectionSampling = false
  · rw [standard_some hn hp h, mutate_apply (fun l hl => some_support hl), if_pos hl, someFlipsLaw_apply, flipsLaw_apply,
      if_pos (differences_ascending x y)]
    have hz := distance_zero hl
    unfold distance at hz
    rw [List.length_eq_zero_iff] at hz
    rw [if_neg (fun e => hy (hz.mp e)), div_eq_mul_inv]
    change _ ≤ m.rate ^ distance x y * (1 - m.rate) ^ (x.length - distance x y) * _
    refine le_mul_of_one_le_right (zero_le) ?_
    exact ENNReal.one_le_inv.mpr tsub_le_self
  · rw [not_or] at h
    rw [standardBitMutation_allowed hn (by simpa using h.1) (by simpa using h.2), if_pos hl]

theorem standard_samples {m : StandardBitMutation} (hn : 0 < n) (hp : m.rate ≤ 1) (h0 : m.rate ≠ 0) :
    (∀ l, m.sampleBits n l ≠ 0 → Ascending 0 n l) ∧ (m.sampleBits n).total = 1 := by
  classical
  have hsup : ∀ l, m.sampleBits n l ≠ 0 → Ascending 0 n l := by
    by_cases h : m.allowNoMutation = false ∨ m.rejectionSampling = false
    · rw [standard_some hn hp h]
      exact fun l hl => some_support hl
    · rw [not_or] at h
      intro l hl
      have ha : m.allowNoMutation = true := by simpa using h.1
      have hr : m.rejectionSampling = true := by simpa using h.2
      have h2 : m.sampleBits n l = flipsLaw 0 n m.rate l := by
        unfold StandardBitMutation.sampleBits
        simp only [ha, hr, if_true]
        exact binomial_choose hn m.rate l
      rw [h2] at hl
      exact flipsLaw_support hl
  refine ⟨hsup, ?_⟩
  have h1 := standardBitMutation_ends (x := List.replicate n false) (by simpa using hn) hp h0
  rw [mutate_total (fun l hl => by
    rw [List.length_replicate] at hl ⊢
    exact hsup l hl), List.length_replicate] at h1
  exact h1

theorem eaNeighborhood_rate (q : EaParams) (n : ℕ) : (eaNeighborhood q n).rate = q.mutationRate := by
  unfold eaNeighborhood StandardBitMutation.setAllowNoMutation StandardBitMutation.setMutationRate
  split <;> rfl

theorem eaSearch_samples {q : EaParams} (hn : 0 < n) (hp : q.mutationRate ≤ 1) (h0 : q.mutationRate ≠ 0) :
    Samples (eaSearch (K := K) q n) n := by
  obtain ⟨h1, h2⟩ := standard_samples (m := eaNeighborhood q n) hn (by rw [eaNeighborhood_rate]; exact hp)
    (by rw [eaNeighborhood_rate]; exact h0)
  exact Samples.of h1 h2

theorem eaSearch_elitist (q : EaParams) : Elitist (eaSearch (K := K) q n) := ⟨fun _ _ => rfl, le_refl _⟩

theorem eaSearch_starts (q : EaParams) : Starts (eaSearch (K := K) q n) n := fun h => by cases h

theorem ea_ge {q : EaParams} {x y : BV} (hn : 0 < n) (hp : q.mutationRate ≤ 1) (hx : x.length = n) (hl : y.length = n) (hy : y ≠ x) :
    q.mutationRate ^ distance x y * (1 - q.mutationRate) ^ (n - distance x y)
      ≤ mutate (eaSearch (K := K) q n).sampleBits x y := by
  subst hx
  have := standard_ge hn (m := eaNeighborhood q x.length) (by rw [eaNeighborhood_rate]; exact hp) hl hy
  rw [eaNeighborhood_rate] at this
  exact this

/-! ## Euler's number -/

theorem one_sub_inv_pow (n : ℕ) (hn : 0 < n) : Real.exp (-1) ≤ (1 - 1 / (n : ℝ)) ^ (n - 1) := by
  rcases Nat.eq_or_lt_of_le hn with h | h
  · rw [← h]
    simp [Real.exp_le_one_iff]
  · obtain ⟨m, rfl⟩ : ∃ m, n = m + 1 := ⟨n - 1, by omega⟩
    have hm : (0 : ℝ) < m := by exact_mod_cast (by omega : 0 < m)
    rw [Nat.add_sub_cancel]
    have h1 : Real.exp (-(1 / (m : ℝ))) ≤ 1 - 1 / ((m + 1 : ℕ) : ℝ) := by
      rw [Real.exp_neg]
      have h2 := Real.add_one_le_exp (1 / (m : ℝ))
      have h3 : 1 - 1 / ((m + 1 : ℕ) : ℝ) = (1 / (m : ℝ) + 1)⁻¹ := by
        push_cast
        field_simp
        ring
      rw [h3]
      exact inv_anti₀ (by positivity) h2
    calc Real.exp (-1) = Real.exp (-(1 / (m : ℝ))) ^ m := by
          rw [← Real.exp_nat_mul]
          congr 1
          field_simp
      _ ≤ _ := pow_le_pow_left₀ (Real.exp_pos _).le h1 m

theorem ennreal_one_sub_inv_pow (n : ℕ) (hn : 0 < n) :
    ENNReal.ofReal (Real.exp (-1)) ≤ (1 - (n : ℝ≥0∞)⁻¹) ^ (n - 1) := by
  have hn' : (0 : ℝ) < n := by exact_mod_cast hn
  have h1 : (1 - (n : ℝ≥0∞)⁻¹) = ENNReal.ofReal (1 - 1 / (n : ℝ)) := by
    rw [ENNReal.ofReal_sub _ (by positivity), ENNReal.ofReal_one, one_div, ENNReal.ofReal_inv_of_pos hn', ENNReal.ofReal_natCast]
  rw [h1, ← ENNReal.ofReal_pow]
  · exact ENNReal.ofReal_le_ofReal (one_sub_inv_pow n hn)
  · rw [sub_nonneg, div_le_one hn']
    exact_mod_cast hn

/-- The inverse of the probability that a given bit is the only one to be flipped, with rate `1 / n`. -/
theorem one_bit_inv (n : ℕ) (hn : 0 < n) :
    ((n : ℝ≥0∞)⁻¹ * (1 - (n : ℝ≥0∞)⁻¹) ^ (n - 1))⁻¹ ≤ ENNReal.ofReal (Real.exp 1) * n := by
  have h := ennreal_one_sub_inv_pow n hn
  have he : (ENNReal.ofReal (Real.exp (-1)))⁻¹ = ENNReal.ofReal (Real.exp 1) := by
    rw [← ENNReal.ofReal_inv_of_pos (Real.exp_pos _), ← Real.exp_neg, neg_neg]
  calc ((n : ℝ≥0∞)⁻¹ * (1 - (n : ℝ≥0∞)⁻¹) ^ (n - 1))⁻¹ ≤ ((n : ℝ≥0∞)⁻¹ * ENNReal.ofReal (Real.exp (-1)))⁻¹ :=
        ENNReal.inv_le_inv.mpr (mul_le_mul_right h _)
    _ = ENNReal.ofReal (Real.exp 1) * n := by
        rw [ENNReal.mul_inv (Or.inl (by simp)) (Or.inl (by simp; omega)), inv_inv, he, mul_comm]

end Hnco.Prob
