import Verif.Prob.RejectionLemmas
import Verif.Prob.Spec
import Verif.BitVector.Props

/-!
# The laws of mutation, of random bit vectors and of random choices
-/

namespace Hnco.Prob

open Outcome
open scoped ENNReal

/-! ## From flipped bits to bit vectors -/

theorem differences_ascending (x y : BV) : Ascending 0 x.length (differences x y) := by
  refine ⟨List.Pairwise.filter _ List.pairwise_lt_range, fun j hj => ?_⟩
  have := List.mem_range.mp (List.mem_filter.mp hj).1
  omega

theorem distance_le (x y : BV) : distance x y ≤ x.length := (differences_ascending x y).length_le

theorem distance_zero {x y : BV} (h : y.length = x.length) : distance x y = 0 ↔ y = x := by
  unfold distance differences
  rw [List.length_eq_zero_iff, List.filter_eq_nil_iff]
  constructor
  · intro hd
    apply List.ext_getElem?
    intro i
    by_cases hi : i < x.length
    · have := hd i (List.mem_range.mpr hi)
      simp only [ne_eq, decide_not, Bool.not_eq_eq_eq_not, Bool.not_true, decide_eq_false_iff_not, not_not] at this
      exact this.symm
    · rw [List.getElem?_eq_none (by omega), List.getElem?_eq_none (by omega)]
  · rintro rfl i _
    simp

theorem ascending_ext {n : ℕ} {l r : List ℕ} (hl : Ascending 0 n l) (hr : Ascending 0 n r)
    (h : ∀ i, i < n → (i ∈ l ↔ i ∈ r)) : l = r := by
  refine List.Perm.eq_of_pairwise (le := (· < ·)) ?_ hl.1 hr.1 ?_
  · intro a b _ _ h1 h2
    omega
  · rw [List.perm_ext_iff_of_nodup (hl.1.imp (fun h => Nat.ne_of_lt h)) (hr.1.imp (fun h => Nat.ne_of_lt h))]
    intro i
    by_cases hi : i < n
    · exact h i hi
    · constructor
      · intro h'; have := hl.2 i h'; omega
      · intro h'; have := hr.2 i h'; omega

/-- Flipping bits is a bijection between sets of positions and bit vectors. -/
theorem flip_iff {x y : BV} {l : List ℕ} (hl : Ascending 0 x.length l) :
    bvFlipSparse x l = ok y ↔ y.length = x.length ∧ l = differences x y := by
  obtain ⟨z, hz, hlen, hget⟩ := bvFlipSparse_exact x l hl.1 (fun i hi => by have := hl.2 i hi; omega)
  have key : ∀ i, i < x.length → (i ∈ l ↔ x[i]? ≠ z[i]?) := by
    intro i hi
    rw [hget i x[i] (List.getElem?_eq_getElem hi), List.getElem?_eq_getElem hi]
    by_cases h : i ∈ l
    · simp [h]
    · simp [h]
  have hd : l = differences x z := by
    refine ascending_ext hl (differences_ascending x z) (fun i hi => ?_)
    rw [key i hi]
    unfold differences
    simp [hi]
  rw [hz]
  constructor
  · intro e
    obtain rfl := Outcome.ok.inj e
    exact ⟨hlen, hd⟩
  · rintro ⟨hy, hl'⟩
    congr 1
    apply List.ext_getElem?
    intro i
    by_cases hi : i < x.length
    · have h1 := key i hi
      have h2 : i ∈ l ↔ x[i]? ≠ y[i]? := by
        rw [hl']
        unfold differences
        simp [hi]
      rw [List.getElem?_eq_getElem (by omega : i < z.length), List.getElem?_eq_getElem (by omega : i < y.length),
        List.getElem?_eq_getElem hi] at *
      have h3 : (x[i] ≠ z[i]) ↔ (x[i] ≠ y[i]) := by
        have := h1.symm.trans h2
        simpa using this
      generalize x[i] = a at *
      generalize z[i] = b at *
      generalize y[i] = c at *
      revert h3
      cases a <;> cases b <;> cases c <;> simp
    · rw [List.getElem?_eq_none (by omega), List.getElem?_eq_none (by omega)]

theorem lift_apply {α : Type} [DecidableEq α] (o : Outcome α) (a : α) :
    (Dist.lift o) a = if o = ok a then 1 else 0 := by
  classical
  cases o with
  | ok b =>
    rw [Dist.lift_ok, Dist.pure_apply]
    by_cases h : a = b
    · subst h; simp
    · rw [if_neg h, if_neg (fun e => h (Outcome.ok.inj e).symm)]
  | throw e => rfl
  | ub => rfl

/-- The law of a mutated vector, given the law of the flipped bits. -/
theorem mutate_apply {d : Dist (List ℕ)} {x : BV} (hd : ∀ l, d l ≠ 0 → Ascending 0 x.length l) (y : BV) :
    mutate d x y = if y.length = x.length then d (differences x y) else 0 := by
  have h1 : mutate d x y = ∑' l, d l * (Dist.lift (bvFlipSparse x l)) y := rfl
  have h2 : ∀ l, d l * (Dist.lift (bvFlipSparse x l)) y
      = if y.length = x.length ∧ l = differences x y then d l else 0 := by
    intro l
    by_cases hl : d l = 0
    · rw [hl, zero_mul, ite_self]
    · rw [lift_apply]
      rw [if_congr (flip_iff (hd l hl)) rfl rfl]
      split <;> simp
  rw [h1]
  simp only [h2]
  rw [tsum_eq_single (differences x y)]
  · simp
  · intro l hl
    rw [if_neg (fun e => hl e.2)]

theorem chooseLaw_support {n k : ℕ} {l : List ℕ} (h : chooseLaw 0 n k l ≠ 0) : Ascending 0 n l := by
  classical
  rw [chooseLaw_apply] at h
  by_contra h'
  exact h (if_neg (fun e => h' e.1))

theorem flipsLaw_support {n : ℕ} {p : ℝ≥0∞} {l : List ℕ} (h : flipsLaw 0 n p l ≠ 0) : Ascending 0 n l := by
  classical
  rw [flipsLaw_apply] at h
  by_contra h'
  exact h (if_neg h')

/-! ## Standard bit mutation -/

/-- The law of the flipped bits when there must be some. -/
noncomputable def someFlipsLaw (n : ℕ) (p : ℝ≥0∞) : Dist (List ℕ) :=
  ⟨fun l => if l = [] then 0 else flipsLaw 0 n p l / (1 - (1 - p) ^ n)⟩

theorem someFlipsLaw_apply (n : ℕ) (p : ℝ≥0∞) (l : List ℕ) :
    someFlipsLaw n p l = if l = [] then 0 else flipsLaw 0 n p l / (1 - (1 - p) ^ n) := rfl

theorem process_some (n : ℕ) {p : ℝ≥0∞} (hp : p ≤ 1) : bernoulliProcess n p = someFlipsLaw n p := by
  classical
  rw [bernoulliProcess_law hp]
  have hm : Dist.miss (flipsLaw 0 n p) (fun r => !r.isEmpty) = (1 - p) ^ n := by
    unfold Dist.miss
    rw [tsum_eq_single ([] : List ℕ)]
    · rw [flipsLaw_apply, if_neg (by simp), if_pos ⟨List.Pairwise.nil, by simp⟩]
      simp
    · intro r hr
      rw [if_pos]
      simpa using hr
  ext l
  rw [Dist.repeatUntil_apply, hm, someFlipsLaw_apply]
  by_cases h : l = []
  · rw [if_pos h, if_neg (by simp [h])]
  · rw [if_neg h, if_pos (by simpa using h)]
    rfl

/-- A binomial number of bits, which are chosen uniformly: the same as independent flips. -/
theorem binomial_choose {n : ℕ} (hn : 0 < n) (p : ℝ≥0∞) (l : List ℕ) :
    (Dist.binomial n p >>= fun k => rejectionSampling n k) l = flipsLaw 0 n p l := by
  classical
  rw [Dist.bind_apply, flipsLaw_apply]
  have h1 : ∀ k, Dist.binomial n p k * rejectionSampling n k l
      = if Ascending 0 n l ∧ l.length = k then p ^ k * (1 - p) ^ (n - k) else 0 := by
    intro k
    by_cases hk : k ≤ n
    · rw [rejectionSampling_law hk hn, chooseLaw_apply]
      change (if k ≤ n then (n.choose k : ℝ≥0∞) * p ^ k * (1 - p) ^ (n - k) else 0) * _ = _
      rw [if_pos hk]
      split
      · have hc : ((n.choose k : ℕ) : ℝ≥0∞) ≠ 0 := by exact_mod_cast (Nat.choose_pos hk).ne'
        calc (n.choose k : ℝ≥0∞) * p ^ k * (1 - p) ^ (n - k) * (n.choose k : ℝ≥0∞)⁻¹
            = p ^ k * (1 - p) ^ (n - k) * ((n.choose k : ℝ≥0∞) * (n.choose k : ℝ≥0∞)⁻¹) := by ring
          _ = _ := by rw [ENNReal.mul_inv_cancel hc (ENNReal.natCast_ne_top _), mul_one]
      · rw [mul_zero]
    · have : Dist.binomial n p k = 0 := if_neg hk
      rw [this, zero_mul, if_neg]
      rintro ⟨h1, h2⟩
      have := h1.length_le
      omega
  simp only [h1]
  rw [tsum_eq_single l.length]
  · simp
  · intro k hk
    rw [if_neg (fun e => hk e.2.symm)]

theorem binomial_some {n : ℕ} (hn : 0 < n) (p : ℝ≥0∞) :
    (Dist.repeatUntil (Dist.binomial n p) (fun k => k != 0) >>= fun k => rejectionSampling n k)
      = someFlipsLaw n p := by
  classical
  have hm : Dist.miss (Dist.binomial n p) (fun k => k != 0) = (1 - p) ^ n := by
    unfold Dist.miss
    rw [tsum_eq_single 0]
    · rw [if_neg (by simp)]
      change (if 0 ≤ n then (n.choose 0 : ℝ≥0∞) * p ^ 0 * (1 - p) ^ (n - 0) else 0) = _
      simp
    · intro k hk
      rw [if_pos]
      simpa using hk
  ext l
  rw [Dist.bind_apply, someFlipsLaw_apply]
  have h1 : ∀ k, Dist.repeatUntil (Dist.binomial n p) (fun k => k != 0) k * rejectionSampling n k l
      = (if l = [] then 0 else Dist.binomial n p k * rejectionSampling n k l) * (1 - (1 - p) ^ n)⁻¹ := by
    intro k
    rw [Dist.repeatUntil_apply, hm]
    by_cases hk : k = 0
    · subst hk
      rw [if_neg (by simp), zero_mul]
      split
      · rw [zero_mul]
      · next hl =>
        rw [rejectionSampling_law (Nat.zero_le n) hn, chooseLaw_apply, if_neg (c := Ascending 0 n l ∧ _), mul_zero, zero_mul]
        exact fun e => hl (List.eq_nil_of_length_eq_zero e.2)
    · rw [if_pos (by simpa using hk)]
      split
      · next hl =>
        by_cases hkn : k ≤ n
        · rw [rejectionSampling_law hkn hn, chooseLaw_apply, if_neg (c := Ascending 0 n l ∧ _), mul_zero, zero_mul]
          rintro ⟨_, h⟩
          rw [hl] at h
          exact hk h.symm
        · have : Dist.binomial n p k = 0 := if_neg hkn
          rw [this]
          simp
      · ring
  simp only [h1]
  rw [ENNReal.tsum_mul_right]
  split
  · simp
  · rw [← Dist.bind_apply (Dist.binomial n p) (fun k => rejectionSampling n k), binomial_choose hn]
    rfl

/-! ## Independent bits -/

/-- The law of independent bits. -/
noncomputable def bitsLaw (cs : List (Dist Bool)) : Dist BV :=
  ⟨fun y => if y.length = cs.length then (List.zipWith (fun c b => c.mass b) cs y).prod else 0⟩

theorem bitsLaw_apply (cs : List (Dist Bool)) (y : BV) :
    bitsLaw cs y = if y.length = cs.length then (List.zipWith (fun c b => c.mass b) cs y).prod else 0 := rfl

theorem bitsLaw_nil : bitsLaw [] = pure [] := by
  classical
  ext y
  rw [bitsLaw_apply, Dist.pure_apply]
  by_cases h : y = []
  · subst h; simp
  · rw [if_neg (by simpa using h), if_neg h]

theorem bitsLaw_cons (c : Dist Bool) (cs : List (Dist Bool)) :
    bitsLaw (c :: cs) = (c >>= fun b => bitsLaw cs >>= fun y => pure (b :: y)) := by
  classical
  ext y
  rw [Dist.bind_apply, tsum_fintype, Fintype.sum_bool]
  have h1 : ∀ b, (bitsLaw cs >>= fun y => (pure (b :: y) : Dist BV)) y
      = match y with | [] => 0 | b' :: y' => if b' = b then bitsLaw cs y' else 0 := by
    intro b
    cases y with
    | nil =>
      rw [Dist.bind_apply, ENNReal.tsum_eq_zero]
      intro y'
      rw [Dist.pure_apply, if_neg (by simp), mul_zero]
    | cons b' y' =>
      by_cases hb : b' = b
      · subst hb
        simp only [if_true]
        exact Dist.map_apply_inj (bitsLaw cs) (f := fun y => b' :: y) (fun _ _ h => (List.cons.inj h).2) y'
      · simp only [hb, if_false]
        rw [Dist.bind_apply, ENNReal.tsum_eq_zero]
        intro y''
        rw [Dist.pure_apply, if_neg (fun e => hb (List.cons.inj e).1), mul_zero]
  rw [h1, h1, bitsLaw_apply]
  cases y with
  | nil => simp
  | cons b y =>
    have h2 : (b :: y).length = (c :: cs).length ↔ y.length = cs.length := by simp
    rw [if_congr h2 rfl rfl]
    simp only [bitsLaw_apply, List.zipWith_cons_cons, List.prod_cons]
    cases b <;> by_cases h : y.length = cs.length <;> simp [h]

theorem set_take {x : BV} {i : ℕ} {b : Bool} (h : i < x.length) : (x.set i b).take (i + 1) = x.take i ++ [b] := by
  rw [List.take_add_one, List.getElem?_set_self h, List.take_set_of_le (Nat.le_refl i)]
  rfl

/-- A loop which assigns independent bits. -/
theorem bits_loop {body : ℕ → BV → Dist BV} (c : ℕ → Dist Bool) (n : ℕ)
    (hbody : ∀ j x, j < n → x.length = n → body j x = (c j >>= fun b => pure (x.set j b))) :
    ∀ (m i : ℕ) (x : BV), i + m = n → x.length = n →
      Dist.forLoop m i body x = (bitsLaw ((List.range' i m).map c) >>= fun r => pure (x.take i ++ r)) := by
  intro m
  induction m with
  | zero =>
    intro i x h1 h2
    rw [List.range'_zero, List.map_nil, bitsLaw_nil, Dist.pure_bind', List.append_nil,
      List.take_of_length_le (by omega)]
    rfl
  | succ m ih =>
    intro i x h1 h2
    change (body i x >>= fun x => Dist.forLoop m (i + 1) body x) = _
    rw [hbody i x (by omega) h2, Dist.bind_assoc', List.range'_succ, List.map_cons, bitsLaw_cons, Dist.bind_assoc']
    congr 1
    funext b
    rw [Dist.pure_bind', ih (i + 1) _ (by omega) (by simp [h2]), Dist.bind_assoc']
    congr 1
    funext r
    rw [Dist.pure_bind', set_take (by omega), List.append_assoc]
    rfl

theorem bits_range {body : ℕ → BV → Dist BV} (c : ℕ → Dist Bool) {x : BV}
    (hbody : ∀ j y, j < x.length → y.length = x.length → body j y = (c j >>= fun b => pure (y.set j b))) :
    Dist.forRange 0 x.length body x = bitsLaw ((List.range x.length).map c) := by
  unfold Dist.forRange
  rw [Nat.sub_zero, bits_loop c x.length hbody x.length 0 x (by omega) rfl, List.range_eq_range']
  simp only [List.take_zero, List.nil_append]
  exact Dist.bind_pure' _

end Hnco.Prob
