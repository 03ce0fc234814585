import Verif.Prob.TimeLemmas
import Mathlib.Data.Set.Finite.List
import Mathlib.Data.Set.Card

/-!
# Lemmas about single bit flips and random search
-/

namespace Hnco.Prob

open Outcome
open scoped ENNReal

variable {K : Type} [LinearOrder K] {f : Fn K} {n : ℕ} {val : BV → K} {p : RlsParams K}

/-! ## Single bit flips -/

theorem flip_one {x : BV} {i : ℕ} (hi : i < x.length) : bvFlipSparse x [i] = ok (x.set i (!x[i])) := by
  have ha : Ascending 0 x.length [i] := ⟨List.pairwise_singleton _ _, fun j hj => by
    rw [List.mem_singleton] at hj; omega⟩
  rw [flip_iff ha]
  exact ⟨List.length_set .., (differences_set hi (!x[i]) (by cases x[i] <;> decide)).symm⟩

theorem singleBitFlip_expect {x : BV} (hn : 0 < x.length) (W : BV → ℝ≥0∞) :
    (mutate (singleBitFlip x.length) x).expect W
      = (x.length : ℝ≥0∞)⁻¹ * ∑ i ∈ Finset.range x.length, W (x.set i (!(x[i]?.getD false))) := by
  unfold mutate singleBitFlip
  rw [Dist.expect_bind, Dist.expect_bind]
  simp only [Dist.expect_pure]
  unfold Dist.expect
  rw [tsum_eq_sum (s := Finset.range x.length) (fun i hi => by
    rw [uniformBelow hn, if_neg (by simpa using hi), zero_mul]), Finset.mul_sum]
  refine Finset.sum_congr rfl (fun i hi => ?_)
  have hi' := Finset.mem_range.mp hi
  rw [uniformBelow hn, if_pos hi']
  dsimp only
  rw [flip_one hi', Dist.lift_ok]
  have := Dist.expect_pure (x.set i (!x[i])) W
  unfold Dist.expect at this
  rw [this, List.getElem?_eq_getElem hi']
  rfl

theorem singleBitFlip_support {n : ℕ} (hn : 0 < n) {l : List ℕ} (h : singleBitFlip n l ≠ 0) : Ascending 0 n l := by
  unfold singleBitFlip at h
  obtain ⟨i, hi, h⟩ := bind_support h
  rw [uniformBelow hn] at hi
  have hlt : i < n := by
    by_contra h'
    exact hi (if_neg h')
  rw [pure_support h]
  exact ⟨List.pairwise_singleton _ _, fun j hj => by rw [List.mem_singleton] at hj; omega⟩

theorem singleBitFlip_total {n : ℕ} (hn : 0 < n) : (singleBitFlip n).total = 1 := by
  unfold singleBitFlip
  rw [Dist.total_bind]
  simp only [Dist.total_pure, mul_one]
  rw [tsum_eq_sum (s := Finset.range n) (fun i hi => by
    rw [uniformBelow hn, if_neg (by simpa using hi)])]
  rw [Finset.sum_congr rfl (fun i hi => by rw [uniformBelow hn, if_pos (Finset.mem_range.mp hi)]), Finset.sum_const,
    Finset.card_range, nsmul_eq_mul]
  exact ENNReal.mul_inv_cancel (by exact_mod_cast hn.ne') (ENNReal.natCast_ne_top _)

theorem singleBitFlip_samples (hn : 0 < n) (hp : p.sampleBits = singleBitFlip n) : Samples p n :=
  Samples.of (fun l hl => singleBitFlip_support hn (by rw [hp] at hl; exact hl)) (by rw [hp]; exact singleBitFlip_total hn)

/-- One iteration of the search on the number of ones. -/
theorem oneMax_move {x : BV} (hn : 0 < x.length) (W : ℕ → ℝ≥0∞) :
    (move (singleBitFlip x.length) (fun x => (ones x : ℤ)) x).expect (fun y => W (ones y))
      = (x.length : ℝ≥0∞)⁻¹ * (((x.length - ones x : ℕ) : ℝ≥0∞) * W (ones x + 1) + (ones x : ℝ≥0∞) * W (ones x)) := by
  classical
  rw [move_expect, singleBitFlip_expect hn]
  congr 1
  have hone : ∀ i ∈ Finset.range x.length,
      W (ones (if ((ones x : ℕ) : ℤ) ≤ (ones (x.set i (!(x[i]?.getD false))) : ℤ) then x.set i (!(x[i]?.getD false)) else x))
        = if x[i]? = some false then W (ones x + 1) else W (ones x) := by
    intro i hi
    have hi' := Finset.mem_range.mp hi
    rw [List.getElem?_eq_getElem hi']
    simp only [Option.getD_some, Option.some.injEq]
    rcases hb : x[i] with _ | _
    · have := (ones_set hi').1 hb
      rw [if_pos (by simp only [Bool.not_false]; rw [this]; push_cast; omega), if_pos rfl]
      simp only [Bool.not_false]
      rw [this]
    · have := (ones_set hi').2 hb
      rw [if_neg (by simp only [Bool.not_true]; rw [← this]; push_cast; omega), if_neg (by decide)]
  rw [Finset.sum_congr rfl hone, Finset.sum_ite, Finset.sum_const, Finset.sum_const, nsmul_eq_mul, nsmul_eq_mul]
  have hc := zeroPositions_card x
  have hc2 : (zeroPositions x).card + ((Finset.range x.length).filter (fun i => ¬ x[i]? = some false)).card = x.length := by
    unfold zeroPositions
    rw [Finset.card_filter_add_card_filter_not, Finset.card_range]
  have e1 : ((Finset.range x.length).filter (fun i => x[i]? = some false)).card = x.length - ones x := by
    change (zeroPositions x).card = _
    omega
  have e2 : ((Finset.range x.length).filter (fun i => ¬ x[i]? = some false)).card = ones x := by omega
  rw [e1, e2]

theorem harmonic_succ (d : ℕ) : harmonicNumber (d + 1) = harmonicNumber d + ((d + 1 : ℕ) : ℝ≥0∞)⁻¹ := by
  unfold harmonicNumber
  rw [Finset.sum_range_succ]

theorem harmonic_le (d : ℕ) : harmonicNumber d ≤ d := by
  induction d with
  | zero => simp [harmonicNumber]
  | succ d ih =>
    rw [harmonic_succ, Nat.cast_succ]
    exact add_le_add ih (ENNReal.inv_le_one.mpr (by exact_mod_cast Nat.le_add_left 1 d))

theorem oneMax_drift {x : BV} (hn : 0 < x.length) (hx : ones x < x.length) :
    1 + (move (singleBitFlip x.length) (fun x => (ones x : ℤ)) x).expect
        (fun y => (x.length : ℝ≥0∞) * harmonicNumber (x.length - ones y))
      = (x.length : ℝ≥0∞) * harmonicNumber (x.length - ones x) := by
  rw [oneMax_move hn (fun k => (x.length : ℝ≥0∞) * harmonicNumber (x.length - k))]
  obtain ⟨d, hd⟩ : ∃ d, x.length = ones x + d + 1 := ⟨x.length - ones x - 1, by omega⟩
  have e1 : x.length - ones x = d + 1 := by omega
  have e2 : x.length - (ones x + 1) = d := by omega
  rw [e1, e2]
  have hn0 : (x.length : ℝ≥0∞) ≠ 0 := by exact_mod_cast hn.ne'
  have hnt : (x.length : ℝ≥0∞) ≠ ∞ := ENNReal.natCast_ne_top _
  rw [show ((d + 1 : ℕ) : ℝ≥0∞) * (x.length * harmonicNumber d) + (ones x : ℝ≥0∞) * (x.length * harmonicNumber (d + 1))
      = x.length * (((d + 1 : ℕ) : ℝ≥0∞) * harmonicNumber d + ones x * harmonicNumber (d + 1)) by ring,
    ← mul_assoc, ENNReal.inv_mul_cancel hn0 hnt, one_mul]
  have h1 : ((d + 1 : ℕ) : ℝ≥0∞) * harmonicNumber (d + 1) = ((d + 1 : ℕ) : ℝ≥0∞) * harmonicNumber d + 1 := by
    rw [harmonic_succ, mul_add, ENNReal.mul_inv_cancel (by simp) (ENNReal.natCast_ne_top _)]
  have h2 : (x.length : ℝ≥0∞) = ((d + 1 : ℕ) : ℝ≥0∞) + ones x := by
    rw [hd]; push_cast; ring
  rw [h2, add_mul, h1]
  ring

/-! ## Random search -/

/-- The number of maxima. -/
theorem maxima_finite (n : ℕ) (P : BV → Prop) : {x : BV | x.length = n ∧ P x}.Finite :=
  (List.finite_length_eq Bool n).subset (fun _ h => h.1)

open Classical in
theorem uniform_prob {P : BV → Prop} (x : BV) (hP : ∀ y, P y → y.length = x.length) :
    (bvRandomBits x).prob P = ({y | P y}.ncard : ℝ≥0∞) * ((2 : ℝ≥0∞) ^ x.length)⁻¹ := by
  have hfin : {y : BV | P y}.Finite := (List.finite_length_eq Bool x.length).subset (fun y h => hP y h)
  unfold Dist.prob
  rw [tsum_eq_sum (s := hfin.toFinset) (fun y hy => if_neg (by simpa using hy))]
  rw [Finset.sum_congr rfl (fun y hy => by
    have hy' : P y := by simpa using hy
    rw [if_pos hy', bvRandomBits_law, if_pos (hP y hy')]), Finset.sum_const, nsmul_eq_mul, Set.ncard_eq_toFinset_card _ hfin]

/-- The state between two iterations. -/
structure GoodSearch (n : ℕ) (val : BV → K) (s : SearchState K) : Prop where
  candidate : s.candidate.length = n
  length : s.solution.1.length = n
  value : s.solution.2 = val s.solution.1

theorem searchIterate_eq (hf : Evaluates f n val) {s : SearchState K} (hs : GoodSearch n val s) :
    searchIterate f s = (bvRandomBits s.candidate >>= fun x =>
      pure ⟨x, if val s.solution.1 < val x then (x, val x) else s.solution⟩) := by
  unfold searchIterate
  refine Dist.bind_congr_support (fun x hx => ?_)
  have hlen : x.length = n := by
    rw [bvRandomBits_law, hs.candidate] at hx
    by_contra h'
    exact hx (if_neg h')
  rw [hf.eval x hlen, Dist.lift_ok, Dist.pure_bind', hs.value]

theorem searchIterate_good (hf : Evaluates f n val) {s u : SearchState K} (hs : GoodSearch n val s) (hu : searchIterate f s u ≠ 0) :
    GoodSearch n val u := by
  rw [searchIterate_eq hf hs] at hu
  obtain ⟨x, hx, hu⟩ := bind_support hu
  have hlen : x.length = n := by
    rw [bvRandomBits_law, hs.candidate] at hx
    by_contra h'
    exact hx (if_neg h')
  rw [pure_support hu]
  refine ⟨hlen, ?_, ?_⟩
  · change (if _ then _ else _ : BV × K).1.length = n
    split
    · exact hlen
    · exact hs.length
  · change (if _ then _ else _ : BV × K).2 = val (if _ then _ else _ : BV × K).1
    split
    · rfl
    · exact hs.value

open Classical in
theorem search_step (hf : Evaluates f n val) {s : SearchState K} (hs : GoodSearch n val s) :
    (searchIterate f s).expect (fun u => if IsMax n val u.solution.1 then 0 else 1)
      = (if IsMax n val s.solution.1 then 0 else 1) * (1 - ({y | IsMax n val y}.ncard : ℝ≥0∞) * ((2 : ℝ≥0∞) ^ n)⁻¹) := by
  rw [searchIterate_eq hf hs, Dist.expect_bind]
  simp only [Dist.expect_pure]
  by_cases hm : IsMax n val s.solution.1
  · rw [if_pos hm, zero_mul]
    rw [Dist.expect_congr (W := fun _ => 0) (fun x hx => ?_), Dist.expect_const, mul_zero]
    have hlen : x.length = n := by
      rw [bvRandomBits_law, hs.candidate] at hx
      by_contra h'
      exact hx (if_neg h')
    rw [if_neg (c := val s.solution.1 < val x) (not_lt.mpr (hm.2 x hlen)), if_pos hm]
  · rw [if_neg hm, one_mul, ← hs.candidate, ← uniform_prob s.candidate (P := IsMax s.candidate.length val) (fun y hy => hy.1),
      Dist.one_sub_prob (bvRandomBits_total _)]
    refine Dist.expect_congr (fun x hx => ?_)
    have hlen : x.length = n := by
      rw [bvRandomBits_law, hs.candidate] at hx
      by_contra h'
      exact hx (if_neg h')
    rw [hs.candidate]
    refine if_congr ?_ rfl rfl
    constructor
    · intro h
      split at h
      · exact h
      · exact absurd h hm
    · intro h
      rw [if_pos]
      · exact h
      · refine lt_of_le_of_ne (h.2 _ hs.length) (fun e => hm ⟨hs.length, fun y hy => ?_⟩)
        rw [e]
        exact h.2 y hy

open Classical in
theorem search_steps (hf : Evaluates f n val) (t : ℕ) : ∀ {s : SearchState K}, GoodSearch n val s →
    (boundedLoop (fun _ => false) (searchIterate f) t s).total = 1 ∧
    (boundedLoop (fun _ => false) (searchIterate f) t s).expect (fun u => if IsMax n val u.solution.1 then 0 else 1)
      = (if IsMax n val s.solution.1 then 0 else 1) * (1 - ({y | IsMax n val y}.ncard : ℝ≥0∞) * ((2 : ℝ≥0∞) ^ n)⁻¹) ^ t := by
  induction t with
  | zero =>
    intro s _
    refine ⟨Dist.total_pure _, ?_⟩
    change (pure s : Dist _).expect _ = _
    rw [Dist.expect_pure, pow_zero, mul_one]
  | succ t ih =>
    intro s hs
    have he : boundedLoop (fun _ => false) (searchIterate f) (t + 1) s
        = (searchIterate f s >>= boundedLoop (fun _ => false) (searchIterate f) t) := by
      change (if false = true then pure s else _) = _
      rw [if_neg (by decide)]
    rw [he]
    constructor
    · have h1 : (searchIterate f s).total = 1 := by
        rw [searchIterate_eq hf hs, Dist.total_bind]
        simp only [Dist.total_pure, mul_one]
        exact bvRandomBits_total _
      have h2 := Dist.expect_congr (d := searchIterate f s) (V := fun u => (boundedLoop (fun _ => false) (searchIterate f) t u).total)
        (W := fun _ => 1) (fun u hu => (ih (searchIterate_good hf hs hu)).1)
      rw [Dist.expect_const, h1, one_mul] at h2
      rw [Dist.total_bind]
      exact h2
    · rw [Dist.expect_bind]
      rw [Dist.expect_congr (fun u hu => (ih (searchIterate_good hf hs hu)).2)]
      set c := 1 - ({y | IsMax n val y}.ncard : ℝ≥0∞) * ((2 : ℝ≥0∞) ^ n)⁻¹ with hc
      have h3 := Dist.expect_mul_left (searchIterate f s) (c ^ t) (fun u => if IsMax n val u.solution.1 then 0 else 1)
      rw [search_step hf hs] at h3
      have h4 : (fun u : SearchState K => (if IsMax n val u.solution.1 then (0 : ℝ≥0∞) else 1) * c ^ t)
          = fun u => c ^ t * (if IsMax n val u.solution.1 then 0 else 1) := by
        funext u
        ring
      rw [h4, h3, ← hc]
      ring

end Hnco.Prob
