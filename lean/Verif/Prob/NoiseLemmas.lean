import Verif.Prob.Noise
import Verif.Prob.NoiseSpec
import Verif.Prob.Props
import Verif.Prob.SearchSpec
import Verif.Function.WalshProps
import Verif.Neighborhood.Props

/-!
# Lemmas about prior noise
-/

namespace Hnco.Prob

open Outcome
open scoped ENNReal

variable {K : Type}

theorem neighborhoodMap_eq {n : ℕ} {d : Dist (List ℕ)} {x noisy : BV} (hx : x.length = n) (hy : noisy.length = n) :
    neighborhoodMap n d x noisy = mutate d x := by
  unfold neighborhoodMap mutate
  rw [Dist.assert_bind (by simp [hx]), Dist.assert_bind (by simp [hy]), copy_ok (by omega), Dist.lift_ok, Dist.pure_bind']

theorem priorNoise_eq {f : Fn K} {n : ℕ} {val : BV → K} (hs : f.size = n) (hf : ∀ y : BV, y.length = n → f.eval y = ok (val y))
    {d : Dist (List ℕ)} {x noisy : BV} (hx : x.length = n) (hn : noisy.length = n)
    (hd : ∀ y, mutate d x y ≠ 0 → y.length = n) :
    priorNoise f d noisy x = (mutate d x >>= fun y => pure (val y)) := by
  unfold priorNoise
  rw [hs, neighborhoodMap_eq hx hn]
  refine Dist.bind_congr_support (fun y hy => ?_)
  rw [hf y (hd y hy), Dist.lift_ok]

/-- Sums over the vectors of size `n`. -/
theorem mean_sum {n : ℕ} {d : Dist BV} (hd : ∀ y, d y ≠ 0 → y.length = n) (ht : ∀ y, d y ≠ ⊤) (val : BV → K) (quantity : K → ℝ) :
    mean (d >>= fun y => pure (val y)) quantity = ((allBV n).map (fun y => (d y).toReal * quantity (val y))).sum := by
  classical
  have hS : ∀ y, y ∉ (allBV n).toFinset → d y = 0 := by
    intro y hy
    by_contra h
    exact hy (List.mem_toFinset.mpr (mem_allBV.mpr (hd y h)))
  have h1 : ∀ v, (d >>= fun y => (pure (val y) : Dist K)) v = ∑ y ∈ (allBV n).toFinset, d y * (if v = val y then 1 else 0) := by
    intro v
    rw [Dist.bind_apply, tsum_eq_sum (s := (allBV n).toFinset)]
    · refine Finset.sum_congr rfl (fun y _ => ?_)
      rw [Dist.pure_apply]
    · intro y hy
      rw [hS y hy, zero_mul]
  have h2 : ∀ v, ((d >>= fun y => (pure (val y) : Dist K)) v).toReal
      = ∑ y ∈ (allBV n).toFinset, (d y).toReal * (if v = val y then 1 else 0) := by
    intro v
    rw [h1, ENNReal.toReal_sum]
    · refine Finset.sum_congr rfl (fun y _ => ?_)
      rw [ENNReal.toReal_mul]
      split <;> simp
    · intro y _
      refine ENNReal.mul_ne_top (ht y) ?_
      split <;> simp
  unfold mean
  rw [tsum_eq_sum (s := (allBV n).toFinset.image val)]
  · simp_rw [h2, Finset.sum_mul]
    rw [Finset.sum_comm, ← List.sum_toFinset _ (allBV_nodup n)]
    refine Finset.sum_congr rfl (fun y hy => ?_)
    rw [Finset.sum_eq_single (val y)]
    · simp
    · intro v _ hv
      rw [if_neg hv]
      simp
    · intro h
      exact absurd (Finset.mem_image_of_mem val hy) h
  · intro v hv
    rw [h2, Finset.sum_eq_zero, zero_mul]
    intro y hy
    rw [if_neg, mul_zero]
    intro e
    exact hv (e ▸ Finset.mem_image_of_mem val hy)

/-! ## Distances -/

theorem distance_snoc {x y : BV} (h : y.length = x.length) (a b : Bool) :
    distance (x ++ [a]) (y ++ [b]) = distance x y + if a = b then 0 else 1 := by
  unfold distance differences
  rw [List.length_append, List.length_singleton, List.range_succ, List.filter_append, List.length_append]
  congr 1
  · congr 1
    refine List.filter_congr (fun i hi => ?_)
    have hi := List.mem_range.mp hi
    rw [List.getElem?_append_left hi, List.getElem?_append_left (by omega)]
  · have h1 : (x ++ [a])[x.length]? = some a := by simp
    have h2 : (y ++ [b])[x.length]? = some b := by rw [← h]; simp
    rw [List.filter_cons, h1, h2]
    by_cases e : a = b
    · simp [e]
    · simp [e]

theorem ones_snoc (x : BV) (a : Bool) : ones (x ++ [a]) = ones x + if a = true then 1 else 0 := by
  unfold ones
  rw [List.count_append]
  cases a <;> simp

theorem snoc_exists {x : BV} {n : ℕ} (h : x.length = n + 1) : ∃ (x' : BV) (a : Bool), x = x' ++ [a] ∧ x'.length = n := by
  rcases List.eq_nil_or_concat x with rfl | ⟨x', a, rfl⟩
  · simp at h
  · refine ⟨x', a, by simp, by simpa using h⟩

/-! ## Independent flips -/

/-- The probability that `x` becomes `y`. -/
noncomputable def flipWeight (q : ℝ) (x y : BV) : ℝ := q ^ distance x y * (1 - q) ^ (x.length - distance x y)

theorem flipWeight_snoc (q : ℝ) {x y : BV} (h : y.length = x.length) (a b : Bool) :
    flipWeight q (x ++ [a]) (y ++ [b]) = flipWeight q x y * if a = b then 1 - q else q := by
  unfold flipWeight
  have hd := distance_le x y
  rw [distance_snoc h, List.length_append, List.length_singleton]
  by_cases e : a = b
  · simp only [if_pos e, add_zero]
    rw [show x.length + 1 - distance x y = x.length - distance x y + 1 by omega, pow_succ]
    ring
  · simp only [if_neg e]
    rw [show x.length + 1 - (distance x y + 1) = x.length - distance x y by omega, pow_succ]
    ring

theorem flipWeight_sign (q : ℝ) : ∀ {n : ℕ} {x u : BV}, x.length = n → u.length = n →
    ((allBV n).map (fun y => flipWeight q x y * walshSign ℝ y u)).sum = (1 - 2 * q) ^ ones u * walshSign ℝ x u := by
  intro n
  induction n with
  | zero =>
    intro x u hx hu
    rw [List.length_eq_zero_iff.mp hx, List.length_eq_zero_iff.mp hu]
    simp [allBV, flipWeight, distance, differences, ones]
  | succ n ih =>
    intro x u hx hu
    obtain ⟨x, a, rfl, hx'⟩ := snoc_exists hx
    clear hx
    rename' hx' => hx
    obtain ⟨u, c, rfl, hu'⟩ := snoc_exists hu
    clear hu
    rename' hu' => hu
    rw [sum_allBV_succ]
    have h1 : (allBV n).map (fun w => flipWeight q (x ++ [a]) (w ++ [false]) * walshSign ℝ (w ++ [false]) (u ++ [c])
          + flipWeight q (x ++ [a]) (w ++ [true]) * walshSign ℝ (w ++ [true]) (u ++ [c]))
        = (allBV n).map (fun w => ((if c = true then 1 - 2 * q else 1) * bitSign ℝ a c) * (flipWeight q x w * walshSign ℝ w u)) := by
      refine List.map_congr_left (fun w hw => ?_)
      have hw := length_of_mem_allBV hw
      rw [flipWeight_snoc q (by omega), flipWeight_snoc q (by omega), walshSign_append _ _ _ _ (by omega),
        walshSign_append _ _ _ _ (by omega)]
      cases a <;> cases c <;> simp [bitSign] <;> ring
    rw [h1, List.sum_map_mul_left, ih hx hu, ones_snoc, walshSign_append _ _ _ _ (by omega)]
    cases c
    · simp
      ring
    · simp [pow_succ]
      ring

theorem flipWeight_sum (q : ℝ) {n : ℕ} {x : BV} (hx : x.length = n) : ((allBV n).map (fun y => flipWeight q x y)).sum = 1 := by
  have h := flipWeight_sign q hx (u := List.replicate n false) (by simp)
  have hs : ∀ y : BV, walshSign ℝ y (List.replicate n false) = 1 := by
    intro y
    unfold walshSign
    rw [List.count_eq_zero.mpr, pow_zero]
    intro hm
    obtain ⟨i, hi, e⟩ := List.mem_iff_getElem.mp hm
    simp at e
  simp only [hs, mul_one] at h
  rw [h]
  simp [ones, List.count_replicate]

theorem flipWeight_ones (q : ℝ) : ∀ {n : ℕ} {x : BV}, x.length = n →
    ((allBV n).map (fun y => flipWeight q x y * (ones y : ℝ))).sum = (1 - 2 * q) * ones x + n * q := by
  intro n
  induction n with
  | zero =>
    intro x hx
    rw [List.length_eq_zero_iff.mp hx]
    simp [allBV, ones]
  | succ n ih =>
    intro x hx
    obtain ⟨x, a, rfl, hx'⟩ := snoc_exists hx
    clear hx
    rename' hx' => hx
    rw [sum_allBV_succ]
    have h1 : (allBV n).map (fun w => flipWeight q (x ++ [a]) (w ++ [false]) * (ones (w ++ [false]) : ℝ)
          + flipWeight q (x ++ [a]) (w ++ [true]) * (ones (w ++ [true]) : ℝ))
        = (allBV n).map (fun w => flipWeight q x w * (ones w : ℝ) + (if a = true then 1 - q else q) * flipWeight q x w) := by
      refine List.map_congr_left (fun w hw => ?_)
      have hw := length_of_mem_allBV hw
      rw [flipWeight_snoc q (by omega), flipWeight_snoc q (by omega), ones_snoc, ones_snoc]
      cases a <;> simp <;> ring
    rw [h1, List.sum_map_add, List.sum_map_mul_left, ih hx, flipWeight_sum q hx, ones_snoc]
    cases a <;> simp <;> ring

/-! ## Flips of a single bit -/

theorem distance_self (x : BV) : distance x x = 0 := (distance_zero rfl).mpr rfl

theorem sum_self {n : ℕ} {x : BV} (hx : x.length = n) (g : BV → ℝ) :
    ((allBV n).map (fun y => (if distance x y = 0 then 1 else 0) * g y)).sum = g x := by
  classical
  rw [← List.sum_toFinset _ (allBV_nodup n), Finset.sum_eq_single x]
  · rw [distance_self, if_pos rfl, one_mul]
  · intro y hy hne
    have hy := length_of_mem_allBV (List.mem_toFinset.mp hy)
    rw [if_neg (fun h => hne ((distance_zero (by omega)).mp h)), zero_mul]
  · intro h
    exact absurd (List.mem_toFinset.mpr (mem_allBV.mpr hx)) h

theorem single_sign : ∀ {n : ℕ} {x u : BV}, x.length = n → u.length = n →
    ((allBV n).map (fun y => (if distance x y = 1 then 1 else 0) * walshSign ℝ y u)).sum = (n - 2 * ones u) * walshSign ℝ x u := by
  intro n
  induction n with
  | zero =>
    intro x u hx hu
    rw [List.length_eq_zero_iff.mp hx, List.length_eq_zero_iff.mp hu]
    simp [allBV, distance, differences, ones]
  | succ n ih =>
    intro x u hx hu
    obtain ⟨x, a, rfl, hx'⟩ := snoc_exists hx
    clear hx
    rename' hx' => hx
    obtain ⟨u, c, rfl, hu'⟩ := snoc_exists hu
    clear hu
    rename' hu' => hu
    rw [sum_allBV_succ]
    have h1 : (allBV n).map (fun w => (if distance (x ++ [a]) (w ++ [false]) = 1 then 1 else 0) * walshSign ℝ (w ++ [false]) (u ++ [c])
          + (if distance (x ++ [a]) (w ++ [true]) = 1 then 1 else 0) * walshSign ℝ (w ++ [true]) (u ++ [c]))
        = (allBV n).map (fun w => bitSign ℝ a c * ((if distance x w = 1 then 1 else 0) * walshSign ℝ w u)
          + bitSign ℝ (!a) c * ((if distance x w = 0 then 1 else 0) * walshSign ℝ w u)) := by
      refine List.map_congr_left (fun w hw => ?_)
      have hw := length_of_mem_allBV hw
      rw [distance_snoc (by omega), distance_snoc (by omega), walshSign_append _ _ _ _ (by omega),
        walshSign_append _ _ _ _ (by omega)]
      generalize distance x w = k
      rcases k with _ | _ | k <;> cases a <;> simp <;> ring
    rw [h1, List.sum_map_add, List.sum_map_mul_left, List.sum_map_mul_left, ih hx hu, sum_self hx (fun y => walshSign ℝ y u),
      ones_snoc, walshSign_append _ _ _ _ (by omega)]
    cases a <;> cases c <;> simp [bitSign] <;> ring

theorem single_ones : ∀ {n : ℕ} {x : BV}, x.length = n →
    ((allBV n).map (fun y => (if distance x y = 1 then 1 else 0) * (ones y : ℝ))).sum = (n - 2) * ones x + n := by
  intro n
  induction n with
  | zero =>
    intro x hx
    rw [List.length_eq_zero_iff.mp hx]
    simp [allBV, ones]
  | succ n ih =>
    intro x hx
    obtain ⟨x, a, rfl, hx'⟩ := snoc_exists hx
    clear hx
    rename' hx' => hx
    rw [sum_allBV_succ]
    have hc : ((allBV n).map (fun y => (if distance x y = 1 then (1 : ℝ) else 0))).sum = n := by
      have h := single_sign hx (u := List.replicate n false) (by simp)
      have hs : ∀ y : BV, walshSign ℝ y (List.replicate n false) = 1 := by
        intro y
        unfold walshSign
        rw [List.count_eq_zero.mpr, pow_zero]
        intro hm
        obtain ⟨i, hi, e⟩ := List.mem_iff_getElem.mp hm
        simp at e
      simp only [hs, mul_one] at h
      rw [h]
      simp [ones, List.count_replicate]
    have h1 : (allBV n).map (fun w => (if distance (x ++ [a]) (w ++ [false]) = 1 then 1 else 0) * (ones (w ++ [false]) : ℝ)
          + (if distance (x ++ [a]) (w ++ [true]) = 1 then 1 else 0) * (ones (w ++ [true]) : ℝ))
        = (allBV n).map (fun w => (if distance x w = 1 then 1 else 0) * (ones w : ℝ)
          + ((if a = true then 1 else 0) * (if distance x w = 1 then 1 else 0)
            + (if distance x w = 0 then 1 else 0) * ((ones w : ℝ) + (if a = true then 0 else 1)))) := by
      refine List.map_congr_left (fun w hw => ?_)
      have hw := length_of_mem_allBV hw
      rw [distance_snoc (by omega), distance_snoc (by omega), ones_snoc, ones_snoc]
      generalize distance x w = k
      rcases k with _ | _ | k <;> cases a <;> simp <;> ring
    rw [h1, List.sum_map_add, List.sum_map_add, List.sum_map_mul_left, ih hx, hc, sum_self hx (fun w => (ones w : ℝ) + (if a = true then 0 else 1)),
      ones_snoc]
    cases a <;> simp <;> ring

theorem sum_self_nat {n : ℕ} {x : BV} (hx : x.length = n) (g : BV → ℕ) :
    ((allBV n).map (fun y => (if distance x y = 0 then 1 else 0) * g y)).sum = g x := by
  classical
  rw [← List.sum_toFinset _ (allBV_nodup n), Finset.sum_eq_single x]
  · rw [distance_self, if_pos rfl, one_mul]
  · intro y hy hne
    have hy := length_of_mem_allBV (List.mem_toFinset.mp hy)
    rw [if_neg (fun h => hne ((distance_zero (by omega)).mp h)), zero_mul]
  · intro h
    exact absurd (List.mem_toFinset.mpr (mem_allBV.mpr hx)) h

theorem ones_le (x : BV) : ones x ≤ x.length := List.count_le_length

theorem single_count : ∀ {n : ℕ} {x : BV}, x.length = n → ∀ v : ℤ,
    ((allBV n).map (fun y => (if distance x y = 1 then 1 else 0) * (if (ones y : ℤ) = v then 1 else 0))).sum
      = (if v = ones x - 1 then ones x else 0) + (if v = ones x + 1 then n - ones x else 0) := by
  intro n
  induction n with
  | zero =>
    intro x hx v
    rw [List.length_eq_zero_iff.mp hx]
    simp [allBV, ones, distance, differences]
  | succ n ih =>
    intro x hx v
    obtain ⟨x, a, rfl, hx'⟩ := snoc_exists hx
    clear hx
    rename' hx' => hx
    have hle := ones_le x
    rw [sum_allBV_succ]
    have h1 : (allBV n).map (fun w => (if distance (x ++ [a]) (w ++ [false]) = 1 then 1 else 0)
            * (if (ones (w ++ [false]) : ℤ) = v then 1 else 0)
          + (if distance (x ++ [a]) (w ++ [true]) = 1 then 1 else 0) * (if (ones (w ++ [true]) : ℤ) = v then 1 else 0))
        = (allBV n).map (fun w => (if distance x w = 1 then 1 else 0) * (if (ones w : ℤ) = v - (if a = true then 1 else 0) then 1 else 0)
          + (if distance x w = 0 then 1 else 0) * (if (ones w : ℤ) = v - (if a = true then 0 else 1) then 1 else 0)) := by
      refine List.map_congr_left (fun w hw => ?_)
      have hw := length_of_mem_allBV hw
      rw [distance_snoc (by omega), distance_snoc (by omega), ones_snoc, ones_snoc]
      generalize distance x w = k
      generalize ones w = o
      rcases k with _ | _ | k <;> cases a <;> simp [eq_sub_iff_add_eq]
    rw [h1, List.sum_map_add, ih hx, sum_self_nat hx (fun w => if (ones w : ℤ) = v - (if a = true then 0 else 1) then 1 else 0), ones_snoc]
    cases a
    · simp only [Bool.false_eq_true, if_false]
      split_ifs <;> omega
    · simp only [if_true]
      push_cast
      split_ifs <;> omega

end Hnco.Prob
