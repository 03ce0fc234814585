import Verif.Prob.WalkProps

/-!
# Synchronous updates of the Gibbs sampler do not keep the law of the Boltzmann machine
-/

namespace Hnco.Prob

open Outcome
open scoped ENNReal

/-- Two coupled bits. -/
def coupled : Moment := ⟨[0, 0], [[0, 1], [1, 0]]⟩

theorem coupled_is : coupled.Is true 2 (fun _ => 0) (fun _ _ => 1) := by
  refine ⟨⟨rfl, rfl, ?_⟩, ?_, ?_⟩
  · intro i row h
    match i, h with
    | 0, h => cases h; rfl
    | 1, h => cases h; rfl
  · intro i hi
    match i, hi with
    | 0, _ => rfl
    | 1, _ => rfl
  · intro i j hi hj
    obtain rfl : i = 1 := by omega
    obtain rfl : j = 0 := by omega
    rfl

theorem coupled_symm : coupled.Symm 2 := by
  intro i j hi hj
  obtain rfl : i = 1 := by omega
  obtain rfl : j = 0 := by omega
  rfl

/-- Minus the energy of the two bits. -/
noncomputable def coupledGoodness (x : BV) : ℝ := (goodness 2 (fun _ => 0) (fun _ _ => 1) x : ℝ)

theorem coupledGoodness_eq : coupledGoodness [true, true] = 1 ∧ coupledGoodness [false, false] = 1 ∧
    coupledGoodness [true, false] = -1 ∧ coupledGoodness [false, true] = -1 := by
  unfold coupledGoodness
  refine ⟨?_, ?_, ?_, ?_⟩
  · have : goodness 2 (fun _ => 0) (fun _ _ => 1) [true, true] = 1 := by decide +kernel
    rw [this]; simp
  · have : goodness 2 (fun _ => 0) (fun _ _ => 1) [false, false] = 1 := by decide +kernel
    rw [this]; simp
  · have : goodness 2 (fun _ => 0) (fun _ _ => 1) [true, false] = -1 := by decide +kernel
    rw [this]; simp
  · have : goodness 2 (fun _ => 0) (fun _ _ => 1) [false, true] = -1 := by decide +kernel
    rw [this]; simp

/-- The vectors of size 2. -/
def pairs : Finset BV := {[true, true], [false, false], [true, false], [false, true]}

theorem len2 (a b : Bool) : [a, b].length = 2 := rfl

theorem mem_pairs {x : BV} (h : x ∉ pairs) : x.length ≠ 2 := by
  intro hx
  apply h
  match x, hx with
  | [a, b], _ => revert a b; decide

theorem sum_pairs (g : BV → ℝ≥0∞) (h0 : ∀ x : BV, x.length ≠ 2 → g x = 0) :
    ∑' x, g x = g [true, true] + (g [false, false] + (g [true, false] + g [false, true])) := by
  rw [tsum_eq_sum (s := pairs) (fun x hx => h0 x (mem_pairs hx))]
  unfold pairs
  rw [Finset.sum_insert (by decide), Finset.sum_insert (by decide), Finset.sum_insert (by decide), Finset.sum_singleton]

/-- The probability that a bit becomes equal to the other one. -/
noncomputable def follow : ℝ := Real.exp 1 / (Real.exp 1 + Real.exp (-1))

theorem follow_bounds : 1 / 2 < follow ∧ follow < 1 := by
  have h1 := Real.exp_pos 1
  have h2 := Real.exp_pos (-1)
  have h3 : Real.exp (-1) < Real.exp 1 := Real.exp_lt_exp.mpr (by norm_num)
  unfold follow
  constructor
  · rw [div_lt_div_iff₀ (by norm_num) (by positivity)]
    linarith
  · rw [div_lt_one (by positivity)]
    linarith

theorem logistic_follow : logisticReal ((2 : ℚ) : ℝ) = follow ∧ logisticReal ((-2 : ℚ) : ℝ) = 1 - follow := by
  have h1 := Real.exp_pos 1
  have h2 := Real.exp_pos (-1)
  constructor
  · have := logistic_difference 1 (-1)
    rw [show ((2 : ℚ) : ℝ) = 1 - -1 by push_cast; norm_num, this]
    rfl
  · have := logistic_difference (-1) 1
    rw [show ((-2 : ℚ) : ℝ) = -1 - 1 by push_cast; norm_num, this]
    unfold follow
    field_simp
    ring

theorem sync_coupled (a b : Bool) : gibbsSync coupled [a, b] [true, true]
    = ENNReal.ofReal (if b then follow else 1 - follow) * ENNReal.ofReal (if a then follow else 1 - follow) := by
  have h0 : gibbsSyncDelta coupled [a, b] 0 = ok (if b then 2 else -2) := by revert a b; decide +kernel
  have h1 : gibbsSyncDelta coupled [a, b] 1 = ok (if a then 2 else -2) := by revert a b; decide +kernel
  have hl : ∀ c : Bool, ENNReal.ofReal (logisticReal ((if c then 2 else -2 : ℚ) : ℝ)) = ENNReal.ofReal (if c then follow else 1 - follow) := by
    intro c
    cases c
    · simp only [Bool.false_eq_true, if_false, logistic_follow.2]
    · simp only [if_true, logistic_follow.1]
  have hpv : gibbsSync coupled [a, b] = pvSample [ENNReal.ofReal (if b then follow else 1 - follow),
      ENNReal.ofReal (if a then follow else 1 - follow)] [a, b] := by
    unfold gibbsSync
    change ((((Dist.lift (gibbsSyncDelta coupled [a, b] 0) >>= _) >>= fun pv =>
      ((Dist.lift (gibbsSyncDelta coupled [a, b] 1) >>= _) >>= fun pv => pure pv))) >>= fun pv => pvSample pv [a, b]) = _
    rw [h0, h1]
    simp only [Dist.lift_ok, Dist.pure_bind', hl]
    rw [show vset (List.replicate [a, b].length (0 : ℝ≥0∞)) 0 (ENNReal.ofReal (if b then follow else 1 - follow))
      = ok [ENNReal.ofReal (if b then follow else 1 - follow), 0] from rfl]
    simp only [Dist.lift_ok, Dist.pure_bind']
    rw [show vset [ENNReal.ofReal (if b then follow else 1 - follow), 0] (0 + 1) (ENNReal.ofReal (if a then follow else 1 - follow))
      = ok [ENNReal.ofReal (if b then follow else 1 - follow), ENNReal.ofReal (if a then follow else 1 - follow)] from rfl]
    simp only [Dist.lift_ok, Dist.pure_bind']
  have hle : ∀ c : Bool, ENNReal.ofReal (if c then follow else 1 - follow) ≤ 1 := by
    intro c
    rw [ENNReal.ofReal_le_one]
    have := follow_bounds
    split <;> linarith
  rw [hpv, pvSample_law rfl (by
    intro p hp
    simp only [List.mem_cons, List.not_mem_nil, or_false] at hp
    rcases hp with rfl | rfl <;> exact hle _)]
  simp

theorem coupled_law : boltzmannLaw 2 coupledGoodness [true, true] = ENNReal.ofReal (follow / 2) ∧
    boltzmannLaw 2 coupledGoodness [false, false] = ENNReal.ofReal (follow / 2) ∧
    boltzmannLaw 2 coupledGoodness [true, false] = ENNReal.ofReal ((1 - follow) / 2) ∧
    boltzmannLaw 2 coupledGoodness [false, true] = ENNReal.ofReal ((1 - follow) / 2) := by
  obtain ⟨e1, e2, e3, e4⟩ := coupledGoodness_eq
  have h1 := Real.exp_pos 1
  have h2 := Real.exp_pos (-1)
  have hp : partition 2 coupledGoodness = ENNReal.ofReal (2 * (Real.exp 1 + Real.exp (-1))) := by
    unfold partition
    rw [sum_pairs _ (fun x hx => if_neg hx)]
    unfold weight
    rw [if_pos (len2 _ _), if_pos (len2 _ _), if_pos (len2 _ _), if_pos (len2 _ _), e1, e2, e3, e4, ← ENNReal.ofReal_add h2.le h2.le,
      ← ENNReal.ofReal_add h1.le (by positivity), ← ENNReal.ofReal_add h1.le (by positivity)]
    congr 1
    ring
  have hpos : 0 < 2 * (Real.exp 1 + Real.exp (-1)) := by positivity
  refine ⟨?_, ?_, ?_, ?_⟩
  all_goals
    rw [boltzmann_apply, if_pos (len2 _ _), hp]
    unfold weight
    first | rw [e1] | rw [e2] | rw [e3] | rw [e4]
    rw [← ENNReal.ofReal_div_of_pos hpos]
    congr 1
    unfold follow
    field_simp
    try ring

/-- C112 (negative part): synchronous sampling, which is one of the choices of BM-PBIL, does not keep the law of the Boltzmann
machine: two coupled bits with this law have another one after one cycle. -/
theorem synchronous_not_stationary : coupled.Is true 2 (fun _ => 0) (fun _ _ => 1) ∧ coupled.Symm 2 ∧
    ¬ Stationary (boltzmannLaw 2 (fun x => (goodness 2 (fun _ => 0) (fun _ _ => 1) x : ℝ))) (bmSynchronous 1 coupled) := by
  refine ⟨coupled_is, coupled_symm, fun h => ?_⟩
  have h : Stationary (boltzmannLaw 2 coupledGoodness) (bmSynchronous 1 coupled) := h
  obtain ⟨l1, l2, l3, l4⟩ := coupled_law
  have hb := follow_bounds
  have hone : ∀ x, bmSynchronous 1 coupled x = gibbsSync coupled x := fun x => Dist.bind_pure' _
  have hv := congrArg (fun d : Dist BV => d [true, true]) h
  rw [Dist.bind_apply, sum_pairs _ (fun x hx => by
    rw [boltzmann_apply, if_neg hx, zero_mul])] at hv
  simp only [hone] at hv
  rw [sync_coupled, sync_coupled, sync_coupled, sync_coupled, l1, l2, l3, l4] at hv
  simp only [if_true, Bool.false_eq_true, if_false] at hv
  have p1 : 0 ≤ follow := by linarith
  have p2 : 0 ≤ 1 - follow := by linarith
  rw [← ENNReal.ofReal_mul p1, ← ENNReal.ofReal_mul p2, ← ENNReal.ofReal_mul p1, ← ENNReal.ofReal_mul p2,
    ← ENNReal.ofReal_mul (by linarith), ← ENNReal.ofReal_mul (by linarith), ← ENNReal.ofReal_mul (by linarith),
    ← ENNReal.ofReal_mul (by linarith), ← ENNReal.ofReal_add (by positivity) (by positivity),
    ← ENNReal.ofReal_add (by positivity) (by positivity), ← ENNReal.ofReal_add (by positivity) (by positivity),
    ENNReal.ofReal_eq_ofReal_iff (by positivity) (by positivity)] at hv
  have : follow * (2 * follow - 1) * (1 - follow) = 0 := by nlinarith [hv]
  have h' : 0 < follow * (2 * follow - 1) * (1 - follow) := by
    have : 0 < follow := by linarith
    have : 0 < 2 * follow - 1 := by linarith
    have : 0 < 1 - follow := by linarith
    positivity
  linarith

end Hnco.Prob
