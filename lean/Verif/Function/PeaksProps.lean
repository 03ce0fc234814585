import Verif.BitVector.Lemmas
import Verif.Function.Peaks
import Verif.Function.Spec
import Verif.Function.TheoryProps
import Mathlib.Tactic.Linarith
import Mathlib.Tactic.Push

/-!
# Values and maxima of Jump, DeceptiveJump, Trap, FourPeaks and SixPeaks (C30, C31)
-/

namespace Hnco

open Outcome

/-! ## C30: Jump and DeceptiveJump -/

/-- C30: the constructor of `Jump` and `DeceptiveJump` accepts gaps from 1 on. -/
theorem jumpNew_spec (n : Nat) (gap : Int) (hn : 0 < n) :
    (jumpNew n gap = ok () ↔ 1 ≤ gap) ∧ (gap < 1 → jumpNew n gap = .throw .runtimeError) := by
  unfold jumpNew
  rw [assert_pos (by simpa using hn), ok_bind]
  constructor
  · split <;> simp <;> omega
  · intro h
    rw [if_pos h]

/-- C30: the value of `Jump` is the number of ones, except that it is 0 when there are more than `n - gap`
but fewer than `n` ones. -/
theorem jump_value (n : Nat) (gap : Int) (x : BV) (hx : x.length = n) :
    (jump n gap).eval x = ok (if x.count true < n ∧ (x.count true : Int) > n - gap then 0
      else (x.count true : Int)) := by
  have hc := count_le x
  simp only [jump, jumpEval, bvHammingWeight_eq, hx]
  rw [assert_pos (by simp), ok_bind]
  by_cases h : x.count true = n
  · rw [if_pos h, if_neg (by omega)]
    simp
  · rw [if_neg h, assert_pos (by simp; omega), ok_bind]
    by_cases h2 : (x.count true : Int) > n - gap
    · rw [if_pos h2, if_pos ⟨by omega, h2⟩]; rfl
    · rw [if_neg h2, if_neg (by tauto)]; rfl

/-- C30: the declared maximum of `Jump` is its maximum, for all accepted parameters. -/
theorem jump_maximum (n : Nat) (gap : Int) (_h : jumpNew n gap = ok ()) : DeclaresMaximum (jump n gap) := by
  refine ⟨rfl, n, rfl, ?_, List.replicate n true, by simp [jump], ?_⟩
  · intro x hx
    refine ⟨_, jump_value n gap x hx, ?_⟩
    have := count_le x
    change x.length = n at hx
    split <;> omega
  · rw [jump_value n gap _ (by simp)]
    simp

example : jumpNew 5 2 = ok () ∧ (jump 5 2).eval [true, true, true, true, false] = ok 0 ∧
    (jump 5 2).eval [true, true, true, false, false] = ok 3 := by decide

/-- C30: the value of `DeceptiveJump` is `n` minus the number of ones when there are more than `n - gap`
but fewer than `n` ones, and `gap` plus the number of ones otherwise. -/
theorem deceptiveJump_value (n : Nat) (gap : Int) (x : BV) (hx : x.length = n) :
    (deceptiveJump n gap).eval x = ok (if x.count true < n ∧ (x.count true : Int) > n - gap then
      (n : Int) - x.count true else gap + (x.count true : Int)) := by
  simp only [deceptiveJump, deceptiveJumpEval, bvHammingWeight_eq, hx]
  rw [assert_pos (by simp), ok_bind]
  by_cases h : x.count true < n ∧ (x.count true : Int) > n - gap
  · rw [if_pos h, if_pos (by simpa using h)]; rfl
  · rw [if_neg h, if_neg (by simpa using h)]; rfl

/-- C30: the declared maximum of `DeceptiveJump` is its maximum, for all accepted parameters. -/
theorem deceptiveJump_maximum (n : Nat) (gap : Int) (h : jumpNew n gap = ok ()) :
    DeclaresMaximum (deceptiveJump n gap) := by
  have hg : 1 ≤ gap := by
    unfold jumpNew at h
    by_contra hc
    rw [if_pos (by omega)] at h
    cases hb : assert (decide (0 < n)) <;> simp [hb] at h
  refine ⟨rfl, n + gap, rfl, ?_, List.replicate n true, by simp [deceptiveJump], ?_⟩
  · intro x hx
    refine ⟨_, deceptiveJump_value n gap x hx, ?_⟩
    have := count_le x
    change x.length = n at hx
    split <;> omega
  · rw [deceptiveJump_value n gap _ (by simp)]
    simp [add_comm]

example : jumpNew 5 2 = ok () ∧ (deceptiveJump 5 2).eval [true, true, true, true, false] = ok 1 ∧
    (deceptiveJump 5 2).eval [true, true, true, false, false] = ok 5 := by decide

/-! ## C30: Trap -/

/-- Value of one trap of size `s` containing `w` ones. -/
def trapBlock (s w : Nat) : Int := if w = s then s else s - w - 1

theorem weight_loop (x : BV) (a b : Nat) (hab : a ≤ b) (hb : b ≤ x.length) :
    forRange a b (fun j weight => do
      let b ← vget x j
      return weight + b.toNat) 0 = ok (((x.drop a).take (b - a)).count true) := by
  have := forRange_returns (body := fun j weight => do
      let b ← vget x j
      return weight + b.toNat) (fun k w => w = ((x.drop a).take (k - a)).count true)
      hab (s := 0) (by simp) ?_
  · obtain ⟨w, h, rfl⟩ := this
    exact h
  · intro j t h1 h2 h3
    rw [vget_eq (show j < x.length by omega), ok_bind]
    simp only [Outcome.pure_eq, returns_ok]
    rw [show j + 1 - a = (j - a) + 1 by omega, List.take_succ, List.count_append, ← h3]
    congr 1
    rw [List.getElem?_drop, show a + (j - a) = j by omega, List.getElem?_eq_getElem (by omega)]
    cases x[j] <;> simp

/-- C30: the constructor of `Trap` accepts exactly the sizes which are a multiple of the number of
traps. -/
theorem trapNew_spec (n m : Nat) (hm : 0 < m) :
    (∀ s, trapNew n m = ok s ↔ n = m * s) ∧ (¬ m ∣ n → trapNew n m = .throw .runtimeError) := by
  unfold trapNew
  rw [assert_pos (by simpa using hm), ok_bind]
  constructor
  · intro s
    by_cases h : n % m = 0
    · simp only [h, bne_self_eq_false, Bool.false_eq_true, if_false, Outcome.pure_eq, Outcome.ok.injEq]
      constructor
      · rintro rfl
        exact (Nat.mul_div_cancel' (Nat.dvd_of_mod_eq_zero h)).symm
      · rintro rfl
        exact Nat.mul_div_cancel_left s hm
    · rw [if_pos (by simpa using h)]
      simp only [reduceCtorEq, false_iff]
      rintro rfl
      simp at h
  · intro h
    rw [if_pos (by simpa using fun e => h (Nat.dvd_of_mod_eq_zero e))]

/-- C30: the value of `Trap` is the sum over the traps of the trap size if the trap is all ones, and of
the number of zeros minus one otherwise. -/
theorem trap_value (m s : Nat) (x : BV) (hx : x.length = m * s) :
    (trap (m * s) m s).eval x =
      ok (∑ i ∈ Finset.range m, trapBlock s (((x.drop (i * s)).take s).count true)) := by
  simp only [trap, trapEval]
  have := forRange_returns (body := fun _ t => trapBody s x t)
      (fun k (t : Int × Nat) => t.2 = k * s ∧
        t.1 = ∑ i ∈ Finset.range k, trapBlock s (((x.drop (i * s)).take s).count true))
      (Nat.zero_le m) (s := (0, 0)) (by simp) ?_
  · obtain ⟨t, h, h1, h2⟩ := this
    rw [h, ok_bind, h2]
    rfl
  · rintro k ⟨r, first⟩ _ hk ⟨h1, h2⟩
    simp only at h1 h2
    subst h1
    have hle : k * s + s ≤ x.length := by
      rw [hx, ← Nat.succ_mul]; exact Nat.mul_le_mul_right _ hk
    unfold trapBody
    simp only [weight_loop x (k * s) (k * s + s) (by omega) hle, ok_bind,
      show k * s + s - k * s = s by omega]
    have hc : ((x.drop (k * s)).take s).count true ≤ s := by
      refine le_trans (count_le _) ?_
      simp
    by_cases h : ((x.drop (k * s)).take s).count true = s
    · rw [if_pos h]
      simp only [Outcome.pure_eq, returns_ok]
      refine ⟨(Nat.succ_mul k s).symm, ?_⟩
      rw [Finset.sum_range_succ, ← h2, trapBlock, if_pos h]
    · rw [if_neg h, assert_pos (by simp; omega), ok_bind]
      simp only [Outcome.pure_eq, returns_ok]
      refine ⟨(Nat.succ_mul k s).symm, ?_⟩
      rw [Finset.sum_range_succ, ← h2, trapBlock, if_neg h]

/-- C30: the declared maximum of `Trap` is its maximum, for all accepted parameters. -/
theorem trap_maximum (n m s : Nat) (h : trapNew n m = ok s) : DeclaresMaximum (trap n m s) := by
  have hm : 0 < m := by
    by_contra hc
    rw [trapNew, assert_neg (by simpa using hc)] at h
    cases h
  have hn := ((trapNew_spec n m hm).1 s).mp h
  subst hn
  refine ⟨rfl, (m * s : Nat), rfl, ?_, List.replicate (m * s) true, by simp [trap], ?_⟩
  · intro x hx
    refine ⟨_, trap_value m s x hx, ?_⟩
    calc _ ≤ ∑ i ∈ Finset.range m, (s : Int) := by
          apply Finset.sum_le_sum
          intro i _
          unfold trapBlock
          split <;> omega
      _ = _ := by simp
  · rw [trap_value m s _ (by simp)]
    congr 1
    rw [Finset.sum_congr rfl (g := fun _ => (s : Int))]
    · simp
    · intro i hi
      rw [Finset.mem_range] at hi
      have hle : i * s + s ≤ m * s := by rw [← Nat.succ_mul]; exact Nat.mul_le_mul_right _ hi
      unfold trapBlock
      rw [if_pos]
      simp only [List.drop_replicate, List.take_replicate, List.count_replicate_self]
      omega

example : trapNew 6 2 = ok 3 ∧ trapNew 7 2 = .throw .runtimeError ∧
    (trap 6 2 3).eval [true, true, true, false, true, false] = ok 4 := by decide

/-! ## C31 -/

/-- The longest prefix of `x` made of `b`'s has length `h`. -/
def IsHead (b : Bool) (x : BV) (h : Nat) : Prop :=
  h ≤ x.length ∧ (∀ i < h, x[i]? = some b) ∧ x[h]? ≠ some b

theorem headRun_spec (b : Bool) (x : BV) : IsHead b x (headRun b x) := by
  induction x with
  | nil => simp [headRun, IsHead]
  | cons a x ih =>
    unfold headRun
    by_cases h : a = b
    · subst h
      simp only [beq_self_eq_true, if_true]
      refine ⟨by simpa using ih.1, ?_, by simpa using ih.2.2⟩
      intro i hi
      cases i with
      | zero => rfl
      | succ i => simpa using ih.2.1 i (by omega)
    · rw [if_neg (by simpa using h)]
      exact ⟨by simp, by simp, by simpa using h⟩

theorem IsHead.eq {b : Bool} {x : BV} {h : Nat} (hh : IsHead b x h) : h = headRun b x := by
  have hs := headRun_spec b x
  rcases lt_trichotomy h (headRun b x) with hlt | heq | hgt
  · exact absurd (hs.2.1 h hlt) hh.2.2
  · exact heq
  · exact absurd (hh.2.1 _ hgt) hs.2.2

theorem headRun_of_prefix (b : Bool) (k : Nat) (y : BV) : k ≤ headRun b (List.replicate k b ++ y) := by
  induction k with
  | zero => simp
  | succ k ih =>
    rw [List.replicate_succ, List.cons_append, headRun]
    simp
    exact ih

theorem headRun_le (b : Bool) (x : BV) : headRun b x ≤ x.length := (headRun_spec b x).1

theorem tailRun_le (b : Bool) (x : BV) : tailRun b x ≤ x.length := by
  have := headRun_le b x.reverse
  simpa [tailRun] using this

theorem tailRun_getElem (b : Bool) (x : BV) (i : Nat) (h : i < tailRun b x) :
    x[x.length - 1 - i]? = some b := by
  have hs := (headRun_spec b x.reverse).2.1 i h
  have hl := tailRun_le b x
  rw [List.getElem?_reverse (by omega)] at hs
  exact hs

theorem head_add_tail (b c : Bool) (hbc : b ≠ c) (x : BV) : headRun b x + tailRun c x ≤ x.length := by
  by_contra hlt
  have h1 := headRun_le b x
  have h2 := tailRun_le c x
  have e1 := (headRun_spec b x).2.1 (x.length - tailRun c x) (by omega)
  have e2 := tailRun_getElem c x (tailRun c x - 1) (by omega)
  rw [show x.length - 1 - (tailRun c x - 1) = x.length - tailRun c x by omega, e1] at e2
  simp at e2
  exact hbc e2

theorem head_excl (b c : Bool) (hbc : b ≠ c) (x : BV) (h : 0 < headRun b x) : headRun c x = 0 := by
  by_contra h2
  have e1 := (headRun_spec b x).2.1 0 h
  have e2 := (headRun_spec c x).2.1 0 (by omega)
  rw [e1] at e2
  simp at e2
  exact hbc e2

theorem tail_excl (b c : Bool) (hbc : b ≠ c) (x : BV) (h : 0 < tailRun b x) : tailRun c x = 0 :=
  head_excl b c hbc x.reverse h

/-- C31: the constructors accept exactly thresholds up to `n / 2 - 1` and declare the maximum
`2 n - t - 1`. -/
theorem peaksNew_spec (n : Nat) (t m : Int) :
    (peaksNew n t = ok m ↔ t ≤ (n / 2 : Nat) - 1 ∧ m = 2 * n - t - 1) ∧
      (t > (n / 2 : Nat) - 1 → peaksNew n t = .throw .runtimeError) := by
  unfold peaksNew
  constructor
  · split
    · simp; omega
    · simp only [Outcome.pure_eq, Outcome.ok.injEq]
      omega
  · intro h
    rw [if_pos h]

/-- C31: the value of `FourPeaks`: the larger of the length `h` of the longest prefix of ones and the
length `k` of the longest suffix of zeros, plus a reward of `n` if both exceed the threshold. -/
theorem fourPeaks_value (n : Nat) (t m : Int) (x : BV) (h k : Nat) (hh : IsHead true x h)
    (hk : IsHead false x.reverse k) :
    (fourPeaks n t m).eval x = ok (max (h : Int) k + if h > t ∧ k > t then (x.length : Int) else 0) := by
  have ek : k = tailRun false x := IsHead.eq hk
  rw [IsHead.eq hh, ek]
  simp only [fourPeaks, fourPeaksEval]
  split
  · rename_i _; simp
  · rename_i _; simp

example : IsHead true [true, true, false, true, false] 2 ∧
    IsHead false [true, true, false, true, false].reverse 1 ∧
    (fourPeaks 5 0 9).eval [true, true, false, true, false] = ok 7 := by
  unfold IsHead; decide

/-- C31: for every size `n` and threshold `t` at least -1 accepted by the constructor, the declared maximum
of `FourPeaks` is its maximum. -/
theorem fourPeaks_maximum (n : Nat) (t m : Int) (ht : -1 ≤ t) (hnew : peaksNew n t = ok m) :
    DeclaresMaximum (fourPeaks n t m) := by
  obtain ⟨h1, rfl⟩ := (peaksNew_spec n t m).1.mp hnew
  obtain ⟨k, rfl⟩ : ∃ k : Nat, t = (k : Int) - 1 := ⟨(t + 1).toNat, by omega⟩
  have hbound : ∀ x : BV, x.length = n → ∃ v, (fourPeaks n (k - 1) (2 * n - (k - 1) - 1)).eval x = ok v ∧
      v ≤ 2 * n - ((k : Int) - 1) - 1 := by
    intro x hx
    have e1 := headRun_le true x
    have e2 := tailRun_le false x
    have e3 := head_add_tail true false (by simp) x
    simp only [fourPeaks, fourPeaksEval, hx]
    split
    · exact ⟨_, rfl, by omega⟩
    · exact ⟨_, rfl, by omega⟩
  refine ⟨rfl, _, rfl, hbound, onesZeros n (n - k), length_onesZeros (by omega), ?_⟩
  have hl : (onesZeros n (n - k)).length = n := length_onesZeros (by omega)
  obtain ⟨v, hv, hle⟩ := hbound (onesZeros n (n - k)) hl
  have e1 := headRun_of_prefix true (n - k) (List.replicate (n - (n - k)) false)
  have e2 : k ≤ tailRun false (onesZeros n (n - k)) := by
    have := headRun_of_prefix false k (List.replicate (n - k) true)
    simp only [tailRun, onesZeros, List.reverse_append, List.reverse_replicate]
    rwa [show n - (n - k) = k by omega]
  change n - k ≤ headRun true (onesZeros n (n - k)) at e1
  rw [hv]
  simp only [fourPeaks, fourPeaksEval, hl] at hv
  rw [if_pos (by omega)] at hv
  simp only [Outcome.pure_eq, Outcome.ok.injEq] at hv ⊢
  omega

example : peaksNew 6 1 = ok 10 ∧ (fourPeaks 6 1 10).eval [true, true, true, true, false, false] = ok 10 := by
  decide

/-- C31: the value of `SixPeaks`: the largest of the lengths of the longest constant prefix and suffix,
plus a reward of `n` if both a prefix of zeros and a suffix of ones, or both a prefix of ones and a suffix of
zeros, exceed the threshold. -/
theorem sixPeaks_value (n : Nat) (t m : Int) (x : BV) (h0 h1 k0 k1 : Nat) (hh0 : IsHead false x h0)
    (hh1 : IsHead true x h1) (hk0 : IsHead false x.reverse k0) (hk1 : IsHead true x.reverse k1) :
    (sixPeaks n t m).eval x = ok (max (max (h0 : Int) h1) (max k0 k1) +
      if (h0 > t ∧ k1 > t) ∨ (h1 > t ∧ k0 > t) then (x.length : Int) else 0) := by
  have e0 : k0 = tailRun false x := IsHead.eq hk0
  have e1 : k1 = tailRun true x := IsHead.eq hk1
  rw [IsHead.eq hh0, IsHead.eq hh1, e0, e1]
  simp only [sixPeaks, sixPeaksEval]
  split
  · rename_i _; simp
  · rename_i _; simp

/-- C31: for every size `n` and threshold `t` at least -1 accepted by the constructor, the declared maximum
of `SixPeaks` is its maximum. -/
theorem sixPeaks_maximum (n : Nat) (t m : Int) (ht : -1 ≤ t) (hnew : peaksNew n t = ok m) :
    DeclaresMaximum (sixPeaks n t m) := by
  obtain ⟨h1, rfl⟩ := (peaksNew_spec n t m).1.mp hnew
  obtain ⟨k, rfl⟩ : ∃ k : Nat, t = (k : Int) - 1 := ⟨(t + 1).toNat, by omega⟩
  have hbound : ∀ x : BV, x.length = n → ∃ v, (sixPeaks n (k - 1) (2 * n - (k - 1) - 1)).eval x = ok v ∧
      v ≤ 2 * n - ((k : Int) - 1) - 1 := by
    intro x hx
    have a1 := headRun_le true x
    have a2 := headRun_le false x
    have a3 := tailRun_le true x
    have a4 := tailRun_le false x
    have e3 := head_add_tail true false (by simp) x
    have e4 := head_add_tail false true (by simp) x
    have e5 := head_excl true false (by simp) x
    have e6 := head_excl false true (by simp) x
    have e7 := tail_excl true false (by simp) x
    have e8 := tail_excl false true (by simp) x
    simp only [sixPeaks, sixPeaksEval, hx]
    split
    · exact ⟨_, rfl, by omega⟩
    · exact ⟨_, rfl, by omega⟩
  refine ⟨rfl, _, rfl, hbound, onesZeros n (n - k), length_onesZeros (by omega), ?_⟩
  have hl : (onesZeros n (n - k)).length = n := length_onesZeros (by omega)
  obtain ⟨v, hv, hle⟩ := hbound (onesZeros n (n - k)) hl
  have e1 := headRun_of_prefix true (n - k) (List.replicate (n - (n - k)) false)
  have e2 : k ≤ tailRun false (onesZeros n (n - k)) := by
    have := headRun_of_prefix false k (List.replicate (n - k) true)
    simp only [tailRun, onesZeros, List.reverse_append, List.reverse_replicate]
    rwa [show n - (n - k) = k by omega]
  change n - k ≤ headRun true (onesZeros n (n - k)) at e1
  rw [hv]
  simp only [sixPeaks, sixPeaksEval, hl] at hv
  rw [if_pos (by omega)] at hv
  simp only [Outcome.pure_eq, Outcome.ok.injEq] at hv ⊢
  omega

/-- C31: `SixPeaks` takes the same value on a vector and on its complement. -/
theorem sixPeaks_complement (n : Nat) (t m : Int) (x : BV) :
    (sixPeaks n t m).eval (x.map (fun b => !b)) = (sixPeaks n t m).eval x := by
  have hh : ∀ (b : Bool) (x : BV), headRun b (x.map (fun b => !b)) = headRun (!b) x := by
    intro b x
    induction x with
    | nil => rfl
    | cons a x ih =>
      simp only [List.map_cons, headRun, ih]
      cases a <;> cases b <;> simp
  have ht : ∀ (b : Bool) (x : BV), tailRun b (x.map (fun b => !b)) = tailRun (!b) x := by
    intro b x
    simp only [tailRun, ← List.map_reverse, hh]
  simp only [sixPeaks, sixPeaksEval, hh, ht, Bool.not_false, Bool.not_true, List.length_map]
  rw [max_comm (headRun true x), max_comm (tailRun true x)]
  simp only [or_comm]

example : peaksNew 6 1 = ok 10 ∧ (sixPeaks 6 1 10).eval [false, false, true, true, true, true] = ok 10 := by
  decide

/-- C31 (negative part): the constructors also accept thresholds below -1, for which the declared maximum is
larger than every value of `FourPeaks` and `SixPeaks`. -/
theorem peaks_negative_threshold (n : Nat) (t : Int) (ht : t < -1) :
    ∃ m, peaksNew n t = ok m ∧ ∀ (x : BV) (v : Int), x.length = n →
      ((fourPeaks n t m).eval x = ok v → v < m) ∧ ((sixPeaks n t m).eval x = ok v → v < m) := by
  refine ⟨2 * n - t - 1, ?_, ?_⟩
  · exact (peaksNew_spec n t _).1.mpr ⟨by omega, rfl⟩
  · intro x v hx
    have a1 := headRun_le true x
    have a2 := headRun_le false x
    have a3 := tailRun_le true x
    have a4 := tailRun_le false x
    constructor
    · intro h
      simp only [fourPeaks, fourPeaksEval] at h
      split at h <;> (simp only [Outcome.pure_eq, Outcome.ok.injEq] at h; omega)
    · intro h
      simp only [sixPeaks, sixPeaksEval] at h
      split at h <;> (simp only [Outcome.pure_eq, Outcome.ok.injEq] at h; omega)

end Hnco
