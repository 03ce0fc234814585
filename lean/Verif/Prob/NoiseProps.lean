import Verif.Prob.NoiseLemmas
import Verif.Prob.TimeProps

/-!
# What prior noise does to the values of functions
-/

namespace Hnco.Prob

open Outcome
open scoped ENNReal

variable {K : Type} {n : ℕ}

/-! ## Means -/

/-- The noisy value of a vector, whatever the noisy vector of the previous evaluation: the value of the mutated vector. -/
theorem mean_priorNoise {f : Fn K} {val : BV → K} (hs : f.size = n) (hf : ∀ y : BV, y.length = n → f.eval y = ok (val y))
    {d : Dist (List ℕ)} {x noisy : BV} (hx : x.length = n) (hn : noisy.length = n)
    (hd : ∀ y, mutate d x y ≠ 0 → y.length = n) (ht : ∀ y, mutate d x y ≠ ⊤) (quantity : K → ℝ) :
    mean (priorNoise f d noisy x) quantity = ((allBV n).map (fun y => (mutate d x y).toReal * quantity (val y))).sum := by
  rw [priorNoise_eq hs hf hx hn hd, mean_sum hd ht]

theorem toReal_weight {p : ℝ≥0∞} (hp : p ≤ 1) (x y : BV) :
    (p ^ distance x y * (1 - p) ^ (x.length - distance x y)).toReal = flipWeight p.toReal x y := by
  unfold flipWeight
  rw [ENNReal.toReal_mul, ENNReal.toReal_pow, ENNReal.toReal_pow, ENNReal.toReal_sub_of_le hp ENNReal.one_ne_top, ENNReal.toReal_one]

theorem weight_finite {p : ℝ≥0∞} (hp : p ≤ 1) (a b : ℕ) : p ^ a * (1 - p) ^ b ≠ ⊤ :=
  ENNReal.mul_ne_top (ENNReal.pow_ne_top (ne_top_of_le_ne_top ENNReal.one_ne_top hp))
    (ENNReal.pow_ne_top (ne_top_of_le_ne_top ENNReal.one_ne_top tsub_le_self))

section Standard

variable {m : StandardBitMutation} {x noisy : BV}

theorem allowed_mean (h0 : 0 < n) (hp : m.rate ≤ 1) (ha : m.allowNoMutation = true) (hr : m.rejectionSampling = true)
    {f : Fn K} {val : BV → K} (hs : f.size = n) (hf : ∀ y : BV, y.length = n → f.eval y = ok (val y))
    (hx : x.length = n) (hn : noisy.length = n) (quantity : K → ℝ) :
    mean (priorNoise f (m.sampleBits n) noisy x) quantity
      = ((allBV n).map (fun y => flipWeight m.rate.toReal x y * quantity (val y))).sum := by
  subst hx
  have hlaw := standardBitMutation_allowed h0 ha hr (x := x)
  rw [mean_priorNoise hs hf rfl hn]
  · congr 1
    refine List.map_congr_left (fun y hy => ?_)
    rw [hlaw, if_pos (length_of_mem_allBV hy), toReal_weight hp]
  · intro y hy
    rw [hlaw] at hy
    by_contra h
    exact hy (if_neg h)
  · intro y
    rw [hlaw]
    split
    · exact weight_finite hp _ _
    · exact ENNReal.zero_ne_top

theorem some_mean (h0 : 0 < n) (hp : m.rate ≤ 1) (hp0 : m.rate ≠ 0) (ha : m.allowNoMutation = false)
    {f : Fn K} {val : BV → K} (hs : f.size = n) (hf : ∀ y : BV, y.length = n → f.eval y = ok (val y))
    (hx : x.length = n) (hn : noisy.length = n) (quantity : K → ℝ) :
    mean (priorNoise f (m.sampleBits n) noisy x) quantity
      = (((allBV n).map (fun y => flipWeight m.rate.toReal x y * quantity (val y))).sum
          - (1 - m.rate.toReal) ^ n * quantity (val x)) / (1 - (1 - m.rate.toReal) ^ n) := by
  subst hx
  have hlaw := standardBitMutation_law h0 hp ha (x := x)
  have h1 : (1 - m.rate) ^ x.length < 1 := by
    refine pow_lt_one₀ zero_le (ENNReal.sub_lt_self ENNReal.one_ne_top one_ne_zero hp0) (by omega)
  have h2 : (1 - (1 - m.rate) ^ x.length : ℝ≥0∞) ≠ 0 := (tsub_pos_of_lt h1).ne'
  have hden : (1 - (1 - m.rate) ^ x.length : ℝ≥0∞).toReal = 1 - (1 - m.rate.toReal) ^ x.length := by
    rw [ENNReal.toReal_sub_of_le h1.le ENNReal.one_ne_top, ENNReal.toReal_pow, ENNReal.toReal_sub_of_le hp ENNReal.one_ne_top,
      ENNReal.toReal_one]
  rw [mean_priorNoise hs hf rfl hn]
  · have hself := sum_self (x := x) rfl (fun y => flipWeight m.rate.toReal x y * quantity (val y))
    have hw : flipWeight m.rate.toReal x x = (1 - m.rate.toReal) ^ x.length := by
      unfold flipWeight
      rw [distance_self]
      simp
    rw [hw] at hself
    rw [← hself]
    have e : (allBV x.length).map (fun y => (mutate (m.sampleBits x.length) x y).toReal * quantity (val y))
        = (allBV x.length).map (fun y => (1 - (1 - m.rate.toReal) ^ x.length)⁻¹ * (flipWeight m.rate.toReal x y * quantity (val y)
          + (-1) * ((if distance x y = 0 then 1 else 0) * (flipWeight m.rate.toReal x y * quantity (val y))))) := by
      refine List.map_congr_left (fun y hy => ?_)
      have hy := length_of_mem_allBV hy
      rw [hlaw]
      by_cases h : y = x
      · rw [if_neg (fun e => e.2 h), if_pos ((distance_zero hy).mpr h)]
        simp
      · rw [if_pos ⟨hy, h⟩, if_neg (fun e => h ((distance_zero hy).mp e)), ENNReal.toReal_div, hden, toReal_weight hp]
        ring
    rw [e, List.sum_map_mul_left, List.sum_map_add, List.sum_map_mul_left]
    ring
  · intro y hy
    rw [hlaw] at hy
    by_contra h
    exact hy (if_neg (fun e => h e.1))
  · intro y
    rw [hlaw]
    split
    · exact ENNReal.div_ne_top (weight_finite hp _ _) h2
    · exact ENNReal.zero_ne_top

theorem single_mean (h0 : 0 < n) {f : Fn K} {val : BV → K} (hs : f.size = n) (hf : ∀ y : BV, y.length = n → f.eval y = ok (val y))
    (hx : x.length = n) (hn : noisy.length = n) (quantity : K → ℝ) :
    mean (priorNoise f (singleBitFlip n) noisy x) quantity
      = (n : ℝ)⁻¹ * ((allBV n).map (fun y => (if distance x y = 1 then 1 else 0) * quantity (val y))).sum := by
  subst hx
  have hlaw := singleBitFlip_law h0 (x := x)
  rw [mean_priorNoise hs hf rfl hn, ← List.sum_map_mul_left]
  · congr 1
    refine List.map_congr_left (fun y hy => ?_)
    have hy := length_of_mem_allBV hy
    rw [hlaw]
    by_cases h : distance x y = 1
    · rw [if_pos ⟨hy, h⟩, if_pos h]
      simp
    · rw [if_neg (fun e => h e.2), if_neg h]
      simp
  · intro y hy
    rw [hlaw] at hy
    by_contra h
    exact hy (if_neg (fun e => h e.1))
  · intro y
    rw [hlaw]
    split
    · exact ENNReal.inv_ne_top.mpr (by exact_mod_cast h0.ne')
    · exact ENNReal.zero_ne_top

/-! ## Walsh expansions -/

theorem walsh_sum {terms : List (WalshTerm ℝ)} (ht : ∀ t ∈ terms, t.feature.length = n) (w : BV → ℝ) (factor : BV → ℝ) (hx : x.length = n)
    (h : ∀ u : BV, u.length = n → ((allBV n).map (fun y => w y * walshSign ℝ y u)).sum = factor u * walshSign ℝ x u) :
    ((allBV n).map (fun y => w y * (terms.map (fun t => walshSign ℝ y t.feature * t.coefficient)).sum)).sum
      = (terms.map (fun t => factor t.feature * (walshSign ℝ x t.feature * t.coefficient))).sum := by
  induction terms with
  | nil => simp
  | cons t ts ih =>
    have h1 := h t.feature (ht t List.mem_cons_self)
    simp only [List.map_cons, List.sum_cons]
    rw [← ih (fun s hs => ht s (List.mem_cons_of_mem _ hs))]
    have e : (allBV n).map (fun y => w y * (walshSign ℝ y t.feature * t.coefficient
          + (ts.map (fun t => walshSign ℝ y t.feature * t.coefficient)).sum))
        = (allBV n).map (fun y => t.coefficient * (w y * walshSign ℝ y t.feature)
          + w y * (ts.map (fun t => walshSign ℝ y t.feature * t.coefficient)).sum) :=
      List.map_congr_left (fun y _ => by ring)
    rw [e, List.sum_map_add, List.sum_map_mul_left, h1]
    ring

theorem walsh_evaluates {terms : List (WalshTerm ℝ)} (ht : ∀ t ∈ terms, t.feature.length = n) (y : BV) (hy : y.length = n) :
    (Fn.ofEval n (walshExpansionEval terms)).eval y = ok ((terms.map (fun t => walshSign ℝ y t.feature * t.coefficient)).sum) :=
  walshExpansionEval_eq terms y (fun t h => by rw [ht t h, hy])

/-- C125: noise by standard bit mutation with rate `p`, where the vector may stay as it is, multiplies each Walsh coefficient by
`(1 - 2p)^k`, where `k` is the number of ones of the feature, in the mean. -/
theorem noise_walsh_allowed (h0 : 0 < n) (hp : m.rate ≤ 1) (ha : m.allowNoMutation = true) (hr : m.rejectionSampling = true)
    {terms : List (WalshTerm ℝ)} (ht : ∀ t ∈ terms, t.feature.length = n) (hx : x.length = n) (hn : noisy.length = n) :
    mean (priorNoise (Fn.ofEval n (walshExpansionEval terms)) (m.sampleBits n) noisy x) id
      = (terms.map (fun t => (1 - 2 * m.rate.toReal) ^ ones t.feature * (walshSign ℝ x t.feature * t.coefficient))).sum := by
  rw [allowed_mean h0 hp ha hr rfl (walsh_evaluates ht) hx hn]
  exact walsh_sum ht _ (fun u => (1 - 2 * m.rate.toReal) ^ ones u) hx (fun u hu => flipWeight_sign _ hx hu)

/-- C125: noise by standard bit mutation with rate `p`, where at least one bit is flipped, multiplies each Walsh coefficient by
`((1 - 2p)^k - (1 - p)^n) / (1 - (1 - p)^n)`, where `k` is the number of ones of the feature, in the mean. -/
theorem noise_walsh_some (h0 : 0 < n) (hp : m.rate ≤ 1) (hp0 : m.rate ≠ 0) (ha : m.allowNoMutation = false)
    {terms : List (WalshTerm ℝ)} (ht : ∀ t ∈ terms, t.feature.length = n) (hx : x.length = n) (hn : noisy.length = n) :
    mean (priorNoise (Fn.ofEval n (walshExpansionEval terms)) (m.sampleBits n) noisy x) id
      = (terms.map (fun t => ((1 - 2 * m.rate.toReal) ^ ones t.feature - (1 - m.rate.toReal) ^ n) / (1 - (1 - m.rate.toReal) ^ n)
          * (walshSign ℝ x t.feature * t.coefficient))).sum := by
  rw [some_mean h0 hp hp0 ha rfl (walsh_evaluates ht) hx hn]
  simp only [id_eq]
  rw [walsh_sum ht _ (fun u => (1 - 2 * m.rate.toReal) ^ ones u) hx (fun u hu => flipWeight_sign _ hx hu), ← List.sum_map_mul_left,
    sub_div, div_eq_inv_mul, div_eq_inv_mul, ← List.sum_map_mul_left, ← List.sum_map_mul_left, sub_eq_iff_eq_add,
    ← List.sum_map_add]
  congr 1
  refine List.map_congr_left (fun t _ => ?_)
  ring

/-- C125: noise by flips of a single bit multiplies each Walsh coefficient by `1 - 2k/n`, where `k` is the number of ones of the
feature, in the mean. -/
theorem noise_walsh_single (h0 : 0 < n) {terms : List (WalshTerm ℝ)} (ht : ∀ t ∈ terms, t.feature.length = n) (hx : x.length = n)
    (hn : noisy.length = n) :
    mean (priorNoise (Fn.ofEval n (walshExpansionEval terms)) (singleBitFlip n) noisy x) id
      = (terms.map (fun t => (1 - 2 * ones t.feature / n) * (walshSign ℝ x t.feature * t.coefficient))).sum := by
  rw [single_mean h0 rfl (walsh_evaluates ht) hx hn]
  simp only [id_eq]
  rw [walsh_sum ht _ (fun u => (n - 2 * ones u : ℝ)) hx (fun u hu => single_sign hx hu), ← List.sum_map_mul_left]
  congr 1
  refine List.map_congr_left (fun t _ => ?_)
  have : (n : ℝ) ≠ 0 := by exact_mod_cast h0.ne'
  field_simp

/-- A function of three bits with two terms: the coefficient of a feature with two ones is multiplied by `1 - 4/3`. -/
example : mean (priorNoise (Fn.ofEval 3 (walshExpansionEval [⟨[true, true, false], 3⟩, ⟨[false, false, false], 5⟩])) (singleBitFlip 3)
    [false, false, false] [true, false, true]) id = 6 := by
  rw [noise_walsh_single (n := 3) (by decide) (by simp) (by rfl) (by rfl)]
  simp [ones, walshSign]
  norm_num

/-- The same function, with independent flips: `3 (1 - 2/4)^2 (-1) + 5`. -/
example : mean (priorNoise (Fn.ofEval 3 (walshExpansionEval [⟨[true, true, false], 3⟩, ⟨[false, false, false], 5⟩]))
    ((⟨4⁻¹, true, true⟩ : StandardBitMutation).sampleBits 3) [false, false, false] [true, false, true]) id = 17 / 4 := by
  rw [noise_walsh_allowed (n := 3) (by decide) (by simp) rfl rfl (by simp) (by rfl) (by rfl)]
  simp [ones, walshSign]
  norm_num

/-- The same function, if at least one bit is flipped. -/
example : mean (priorNoise (Fn.ofEval 3 (walshExpansionEval [⟨[true, true, false], 3⟩, ⟨[false, false, false], 5⟩]))
    ((StandardBitMutation.new 2⁻¹).sampleBits 3) [false, false, false] [true, false, true]) id = 38 / 7 := by
  rw [noise_walsh_some (n := 3) (by decide) (by simp [StandardBitMutation.new]) (by simp [StandardBitMutation.new]) rfl (by simp) (by rfl) (by rfl)]
  simp [ones, walshSign, StandardBitMutation.new]
  norm_num

/-! ## OneMax -/

/-- C125: with noise by standard bit mutation with rate `p`, where the vector may stay as it is, the mean of the noisy OneMax of a
vector with `k` ones is `(1 - 2p) k + n p`. -/
theorem noise_oneMax_allowed (h0 : 0 < n) (hp : m.rate ≤ 1) (ha : m.allowNoMutation = true) (hr : m.rejectionSampling = true)
    (hx : x.length = n) (hn : noisy.length = n) :
    mean (priorNoise (oneMax n) (m.sampleBits n) noisy x) (fun v => (v : ℝ)) = (1 - 2 * m.rate.toReal) * ones x + n * m.rate.toReal := by
  rw [allowed_mean h0 hp ha hr (oneMax_evaluates n).size (oneMax_evaluates n).eval hx hn, ← flipWeight_ones _ hx]
  simp

/-- C125: with noise by flips of a single bit, the mean of the noisy OneMax of a vector with `k` ones is `(1 - 2/n) k + 1`. -/
theorem noise_oneMax_single (h0 : 0 < n) (hx : x.length = n) (hn : noisy.length = n) :
    mean (priorNoise (oneMax n) (singleBitFlip n) noisy x) (fun v => (v : ℝ)) = (1 - 2 / n) * ones x + 1 := by
  have h1 := single_ones hx
  rw [single_mean h0 (oneMax_evaluates n).size (oneMax_evaluates n).eval hx hn]
  simp only [Int.cast_natCast]
  rw [h1]
  have : (n : ℝ) ≠ 0 := by exact_mod_cast h0.ne'
  field_simp

/-- C125: with noise by flips of a single bit, the noisy OneMax of a vector with `k` ones is `k - 1` with probability `k/n`, and
`k + 1` with probability `1 - k/n`. -/
theorem noise_oneMax_law (h0 : 0 < n) (hx : x.length = n) (hn : noisy.length = n) (v : ℤ) :
    (priorNoise (oneMax n) (singleBitFlip n) noisy x) v
      = if v = ones x - 1 then (ones x : ℝ≥0∞) / n else if v = ones x + 1 then (n - ones x : ℕ) / n else 0 := by
  classical
  subst hx
  have hlaw := singleBitFlip_law h0 (x := x)
  have hd : ∀ y, mutate (singleBitFlip x.length) x y ≠ 0 → y.length = x.length := by
    intro y hy
    rw [hlaw] at hy
    exact (ite_ne_right_iff.mp hy).1.1
  rw [priorNoise_eq (oneMax_evaluates x.length).size (oneMax_evaluates x.length).eval rfl hn hd, Dist.bind_apply,
    tsum_eq_sum (s := (allBV x.length).toFinset)]
  · have e : ∀ y ∈ (allBV x.length).toFinset, mutate (singleBitFlip x.length) x y * (pure (ones y : ℤ) : Dist ℤ) v
        = (x.length : ℝ≥0∞)⁻¹ * (((if distance x y = 1 then 1 else 0) * (if (ones y : ℤ) = v then 1 else 0) : ℕ) : ℝ≥0∞) := by
      intro y hy
      have hy := length_of_mem_allBV (List.mem_toFinset.mp hy)
      rw [hlaw, Dist.pure_apply]
      rcases eq_or_ne v (ones y) with h2 | h2
      · by_cases h1 : distance x y = 1 <;> simp [h1, h2, hy]
      · by_cases h1 : distance x y = 1 <;> simp [h1, h2, h2.symm, hy]
    rw [Finset.sum_congr rfl e, ← Finset.mul_sum, ← Nat.cast_sum, List.sum_toFinset _ (allBV_nodup _), single_count rfl v]
    rw [mul_comm, ← div_eq_mul_inv]
    split_ifs
    · omega
    · simp
    · simp
    · simp
  · intro y hy
    by_cases h : mutate (singleBitFlip x.length) x y = 0
    · rw [h, zero_mul]
    · exact absurd (List.mem_toFinset.mpr (mem_allBV.mpr (hd y h))) hy

example : mean (priorNoise (oneMax 4) (singleBitFlip 4) [true, true, true, true] [true, true, true, false]) (fun v => (v : ℝ)) = 5 / 2 := by
  rw [noise_oneMax_single (n := 4) (by decide) (by rfl) (by rfl)]
  norm_num [ones]

example : priorNoise (oneMax 4) (singleBitFlip 4) [true, true, true, true] [true, true, true, false] 4 = 4⁻¹ := by
  rw [noise_oneMax_law (n := 4) (by decide) (by rfl) (by rfl), if_neg (by decide), if_pos (by decide)]
  norm_num [ones]

/-! ## The maximum -/

/-- What is needed from the noise: vectors keep their size, and at least one bit is flipped. -/
theorem noise_value_zero {f : Fn K} {val : BV → K} (hs : f.size = n) (hf : ∀ y : BV, y.length = n → f.eval y = ok (val y))
    {d : Dist (List ℕ)} (hx : x.length = n) (hn : noisy.length = n) (hd : ∀ y, mutate d x y ≠ 0 → y.length = n ∧ y ≠ x) {v : K}
    (hv : ∀ y : BV, y.length = n → y ≠ x → val y ≠ v) : priorNoise f d noisy x v = 0 := by
  classical
  rw [priorNoise_eq hs hf hx hn (fun y hy => (hd y hy).1), Dist.bind_apply, ENNReal.tsum_eq_zero]
  intro y
  by_cases hy : mutate d x y = 0
  · rw [hy, zero_mul]
  · rw [Dist.pure_apply, if_neg (fun e => hv y (hd y hy).1 (hd y hy).2 e.symm), mul_zero]

/-- C125 (negative part): if a function has a single maximum, prior noise hides it: with flips of a single bit, Hamming spheres,
Hamming balls, and standard bit mutation where the vector may not stay as it is, its noisy value never is the maximum, although the
noisy function announces the maximum of the function. -/
theorem noise_maximum_hidden [LinearOrder K] (h0 : 0 < n) {f : Fn K} {val : BV → K} (hs : f.size = n)
    (hf : ∀ y : BV, y.length = n → f.eval y = ok (val y)) (hx : x.length = n) (hn : noisy.length = n)
    (hmax : ∀ y : BV, y.length = n → y ≠ x → val y < val x) :
    priorNoise f (singleBitFlip n) noisy x (val x) = 0 ∧
    (∀ r, 0 < r → r ≤ n → priorNoise f (hammingSphere n r) noisy x (val x) = 0) ∧
    (∀ r, 0 < r → r ≤ n → priorNoise f (hammingBall n r) noisy x (val x) = 0) ∧
    (m.rate ≤ 1 → m.allowNoMutation = false → priorNoise f (m.sampleBits n) noisy x (val x) = 0) := by
  subst hx
  have hself : ∀ {y : BV}, distance x y ≠ 0 → y ≠ x := by
    rintro y h rfl
    exact h (distance_self _)
  refine ⟨?_, fun r hr hrn => ?_, fun r hr hrn => ?_, fun hp ha => ?_⟩
  all_goals
    refine noise_value_zero hs hf rfl hn (fun y hy => ?_) (fun y hy hne => (hmax y hy hne).ne)
  · rw [singleBitFlip_law h0] at hy
    have h := (ite_ne_right_iff.mp hy).1
    exact ⟨h.1, hself (by omega)⟩
  · rw [hammingSphere_law h0 hrn] at hy
    have h := (ite_ne_right_iff.mp hy).1
    exact ⟨h.1, hself (by omega)⟩
  · rw [hammingBall_law hr hrn] at hy
    have h := (ite_ne_right_iff.mp hy).1
    exact ⟨h.1, hself (by omega)⟩
  · rw [standardBitMutation_law h0 hp ha] at hy
    exact (ite_ne_right_iff.mp hy).1

/-- C125 (negative part): with flips of a single bit, the neighbours of the maximum, and only they, may have the maximum as noisy
value, each of them with probability `1/n`: what a run which stops on the maximum reports never is the maximum. -/
theorem noise_maximum_neighbors [LinearOrder K] (h0 : 0 < n) {f : Fn K} {val : BV → K} (hs : f.size = n)
    (hf : ∀ y : BV, y.length = n → f.eval y = ok (val y)) {best : BV} (hb : best.length = n)
    (hmax : ∀ y : BV, y.length = n → y ≠ best → val y < val best) (hx : x.length = n) (hn : noisy.length = n) :
    priorNoise f (singleBitFlip n) noisy x (val best) = if distance x best = 1 then (n : ℝ≥0∞)⁻¹ else 0 := by
  classical
  subst hx
  have hlaw := singleBitFlip_law h0 (x := x)
  have hd : ∀ y, mutate (singleBitFlip x.length) x y ≠ 0 → y.length = x.length := by
    intro y hy
    rw [hlaw] at hy
    exact (ite_ne_right_iff.mp hy).1.1
  rw [priorNoise_eq hs hf rfl hn hd, Dist.bind_apply, tsum_eq_single best]
  · rw [Dist.pure_apply, if_pos rfl, mul_one, hlaw]
    simp [hb]
  · intro y hne
    by_cases hy : mutate (singleBitFlip x.length) x y = 0
    · rw [hy, zero_mul]
    · rw [Dist.pure_apply, if_neg (fun e => (hmax y (hd y hy) hne).ne e.symm), mul_zero]

/-- The all ones vector is the single maximum of OneMax; its noisy value is never `n`, whereas a neighbour may have it. -/
example : priorNoise (oneMax 3) (singleBitFlip 3) [false, false, false] [true, true, true] 3 = 0 ∧
    priorNoise (oneMax 3) (singleBitFlip 3) [false, false, false] [true, false, true] 3 = 3⁻¹ := by
  have hmax : ∀ y : BV, y.length = 3 → y ≠ [true, true, true] → (ones y : ℤ) < (ones [true, true, true] : ℕ) := by
    intro y hy hne
    have h := (oneMax_found 3 y).not.mpr hne
    rw [oneMax_isMax hy, not_le] at h
    exact_mod_cast h
  have h1 := (noise_maximum_hidden (m := StandardBitMutation.new 1) (by decide) (oneMax_evaluates 3).size (oneMax_evaluates 3).eval
    (x := [true, true, true]) (noisy := [false, false, false]) rfl rfl hmax).1
  have h2 := noise_maximum_neighbors (by decide) (oneMax_evaluates 3).size (oneMax_evaluates 3).eval (best := [true, true, true]) rfl hmax
    (x := [true, false, true]) (noisy := [false, false, false]) rfl rfl
  rw [if_pos (by decide)] at h2
  exact ⟨h1, h2⟩

end Standard

end Hnco.Prob
