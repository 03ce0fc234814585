import Verif.Prob.Samplers
import Mathlib.Data.List.Permutation
import Mathlib.Data.Nat.Choose.Basic

/-!
# Lemmas about the laws of the samplers
-/

namespace Hnco.Prob

open Outcome
open scoped ENNReal

namespace Dist

variable {α β σ : Type}

theorem lift_ok (a : α) : (lift (.ok a) : Dist α) = pure a := rfl

theorem assert_bind {b : Bool} (h : b = true) (f : Unit → Dist β) :
    (lift (assert b) >>= f) = f () := by
  rw [Outcome.assert_pos h]
  exact pure_bind' _ _

theorem bind_congr_support {d : Dist α} {f g : α → Dist β} (h : ∀ a, d a ≠ 0 → f a = g a) :
    (d >>= f) = (d >>= g) := by
  ext b
  simp only [bind_apply]
  refine tsum_congr (fun a => ?_)
  by_cases ha : d a = 0
  · rw [ha, zero_mul, zero_mul]
  · rw [h a ha]

theorem coin_one (f : Bool → Dist β) : (coin 1 >>= f) = f true := by
  ext b
  rw [coin_bind]
  simp

theorem forLoop_last (body : ℕ → σ → Dist σ) :
    ∀ (n i : ℕ) (s : σ), forLoop (n + 1) i body s = (forLoop n i body s >>= fun t => body (i + n) t) := by
  intro n
  induction n with
  | zero =>
    intro i s
    change (body i s >>= fun t => pure t) = ((pure s : Dist σ) >>= fun t => body (i + 0) t)
    rw [bind_pure', pure_bind']
    rfl
  | succ n ih =>
    intro i s
    change (body i s >>= fun t => forLoop (n + 1) (i + 1) body t)
      = ((body i s >>= fun t => forLoop n (i + 1) body t) >>= fun t => body (i + (n + 1)) t)
    rw [bind_assoc']
    congr 1
    funext t
    rw [ih, show i + 1 + n = i + (n + 1) by omega]

theorem uniformInt_total {lo hi : ℕ} (h : lo ≤ hi) : (uniformInt lo hi).total = 1 := by
  unfold total
  rw [tsum_eq_sum (s := Finset.Icc lo hi)]
  · rw [Finset.sum_congr rfl (g := fun _ => ((hi - lo + 1 : ℕ) : ℝ≥0∞)⁻¹)]
    · rw [Finset.sum_const, Nat.card_Icc, nsmul_eq_mul, show hi + 1 - lo = hi - lo + 1 by omega]
      exact ENNReal.mul_inv_cancel (by simp) (ENNReal.natCast_ne_top _)
    · intro i hi
      exact if_pos (Finset.mem_Icc.mp hi)
  · intro i hi
    exact if_neg (fun e => hi (Finset.mem_Icc.mpr e))

theorem coin_total {p : ℝ≥0∞} : (coin p).total = 1 := by
  unfold total
  rw [tsum_fintype, Fintype.sum_bool]
  change min p 1 + (1 - p) = 1
  rcases le_total p 1 with h | h
  · rw [min_eq_left h, add_tsub_cancel_of_le h]
  · rw [min_eq_right h, tsub_eq_zero_of_le h, add_zero]

theorem binomial_total (n : ℕ) {p : ℝ≥0∞} (h : p ≤ 1) : (binomial n p).total = 1 := by
  unfold total
  rw [tsum_eq_sum (s := Finset.range (n + 1))]
  · have := add_pow p (1 - p) n
    rw [add_tsub_cancel_of_le h, one_pow] at this
    rw [this]
    refine Finset.sum_congr rfl (fun i hi => ?_)
    have : i ≤ n := Nat.lt_succ_iff.mp (Finset.mem_range.mp hi)
    change (if i ≤ n then _ else _) = _
    rw [if_pos this]
    ring
  · intro i hi
    exact if_neg (fun e => hi (Finset.mem_range.mpr (Nat.lt_succ_of_le e)))

/-- A loop whose rejected states all are the initial state is a rejection loop. -/
theorem doWhile_eq {body : σ → Dist σ} {again : σ → Bool} {s : σ}
    (h : ∀ t, body s t ≠ 0 → again t = true → t = s) :
    doWhile body again s = repeatUntil (body s) (fun t => !again t) := by
  have hk : ∀ k, doWhileGo body again k s = repeatGo (body s) (fun t => !again t) k := by
    intro k
    induction k with
    | zero => rfl
    | succ k ih =>
      rw [doWhileGo, repeatGo]
      refine bind_congr_support (fun t ht => ?_)
      cases ha : again t with
      | true =>
        have e := h t ht ha
        subst e
        simp [ih]
      | false => simp
  ext t
  change (⨆ k, doWhileGo body again k s t) = ⨆ k, repeatGo (body s) (fun t => !again t) k t
  simp only [hk]

end Dist

/-! ## Increasing lists of indices -/

/-- Strictly increasing lists of numbers between `i` and `i + m - 1`. -/
def Ascending (i m : ℕ) (r : List ℕ) : Prop := r.Pairwise (· < ·) ∧ ∀ j ∈ r, i ≤ j ∧ j < i + m

theorem Ascending.length_le {i m : ℕ} {r : List ℕ} (h : Ascending i m r) : r.length ≤ m := by
  have hn : r.Nodup := h.1.imp (fun h => Nat.ne_of_lt h)
  have : r.toFinset ⊆ Finset.Ico i (i + m) := by
    intro j hj
    exact Finset.mem_Ico.mpr (h.2 j (List.mem_toFinset.mp hj))
  have := Finset.card_le_card this
  rw [List.toFinset_card_of_nodup hn, Nat.card_Ico] at this
  omega

theorem ascending_zero {i : ℕ} {r : List ℕ} : Ascending i 0 r ↔ r = [] := by
  constructor
  · intro h
    exact List.eq_nil_of_length_eq_zero (Nat.le_zero.mp h.length_le)
  · rintro rfl
    exact ⟨List.Pairwise.nil, by simp⟩

theorem ascending_cons {i m : ℕ} {r : List ℕ} :
    Ascending i (m + 1) (i :: r) ↔ Ascending (i + 1) m r := by
  unfold Ascending
  rw [List.pairwise_cons]
  constructor
  · rintro ⟨⟨h1, h2⟩, h3⟩
    refine ⟨h2, fun j hj => ?_⟩
    have := h1 j hj
    have := h3 j (List.mem_cons_of_mem _ hj)
    omega
  · rintro ⟨h1, h2⟩
    refine ⟨⟨fun j hj => ?_, h1⟩, fun j hj => ?_⟩
    · have := h2 j hj; omega
    · rcases List.mem_cons.mp hj with rfl | hj
      · omega
      · have := h2 j hj; omega

theorem ascending_succ {i m : ℕ} {r : List ℕ} (h : ∀ r', r ≠ i :: r') :
    Ascending i (m + 1) r ↔ Ascending (i + 1) m r := by
  unfold Ascending
  constructor
  · rintro ⟨h1, h2⟩
    refine ⟨h1, fun j hj => ?_⟩
    have hj' := h2 j hj
    refine ⟨?_, by omega⟩
    cases r with
    | nil => cases hj
    | cons a r =>
      have ha : a ≠ i := fun e => h r (by rw [e])
      have := h2 a List.mem_cons_self
      rcases List.mem_cons.mp hj with rfl | hj
      · omega
      · have := (List.pairwise_cons.mp h1).1 j hj; omega
  · rintro ⟨h1, h2⟩
    exact ⟨h1, fun j hj => by have := h2 j hj; omega⟩

theorem not_ascending_cons {i m : ℕ} {r : List ℕ} : ¬ Ascending (i + 1) m (i :: r) := fun h => by
  have := h.2 i List.mem_cons_self
  omega

/-! ## Arithmetic -/

theorem ratio_inv {a b c d : ℕ} (ha : a ≠ 0) (hb : b ≠ 0) (hc : c ≠ 0) (hd : d ≠ 0) (h : b * c = d * a) :
    (a : ℝ≥0∞) / (b : ℝ≥0∞) * (c : ℝ≥0∞)⁻¹ = (d : ℝ≥0∞)⁻¹ := by
  have ha' : (a : ℝ≥0∞) ≠ 0 := by exact_mod_cast ha
  have hb' : (b : ℝ≥0∞) ≠ 0 := by exact_mod_cast hb
  have hd' : (d : ℝ≥0∞) ≠ 0 := by exact_mod_cast hd
  rw [div_eq_mul_inv, mul_assoc, ← ENNReal.mul_inv (Or.inl hb') (Or.inl (ENNReal.natCast_ne_top _)), ← Nat.cast_mul, h,
    Nat.cast_mul, ENNReal.mul_inv (Or.inl hd') (Or.inl (ENNReal.natCast_ne_top _)), mul_comm (d : ℝ≥0∞)⁻¹, ← mul_assoc,
    ENNReal.mul_inv_cancel ha' (ENNReal.natCast_ne_top _), one_mul]

theorem one_sub_ratio {k m : ℕ} (hk : k ≤ m) (hm : m ≠ 0) :
    1 - (k : ℝ≥0∞) / (m : ℝ≥0∞) = ((m - k : ℕ) : ℝ≥0∞) / (m : ℝ≥0∞) := by
  have hm' : (m : ℝ≥0∞) ≠ 0 := by exact_mod_cast hm
  refine ENNReal.sub_eq_of_eq_add (ENNReal.div_ne_top (ENNReal.natCast_ne_top _) hm') ?_
  rw [← ENNReal.add_div, ← Nat.cast_add, Nat.sub_add_cancel hk, ENNReal.div_self hm' (ENNReal.natCast_ne_top _)]

theorem ratio_le_one {k m : ℕ} (hk : k ≤ m) : (k : ℝ≥0∞) / (m : ℝ≥0∞) ≤ 1 :=
  ENNReal.div_le_of_le_mul (by rw [one_mul]; exact_mod_cast hk)

/-! ## Choosing `k` numbers with successive trials -/

open Classical in
/-- The uniform law of the sets of `k` numbers between `i` and `i + m - 1`. -/
noncomputable def chooseLaw (i m k : ℕ) : Dist (List ℕ) :=
  ⟨fun r => if Ascending i m r ∧ r.length = k then ((m.choose k : ℕ) : ℝ≥0∞)⁻¹ else 0⟩

open Classical in
theorem chooseLaw_apply (i m k : ℕ) (r : List ℕ) :
    chooseLaw i m k r = if Ascending i m r ∧ r.length = k then ((m.choose k : ℕ) : ℝ≥0∞)⁻¹ else 0 := rfl

theorem cons_law (d : Dist (List ℕ)) (i : ℕ) (r : List ℕ) : (d >>= fun r => pure (i :: r)) (i :: r) = d r :=
  Dist.map_apply_inj d (f := fun r => i :: r) (fun _ _ h => (List.cons.inj h).2) r

theorem cons_law_ne (d : Dist (List ℕ)) (i : ℕ) (r : List ℕ) (h : ∀ r', r ≠ i :: r') :
    (d >>= fun r => pure (i :: r)) r = 0 := by
  classical
  rw [Dist.bind_apply, ENNReal.tsum_eq_zero]
  intro r'
  rw [Dist.pure_apply, if_neg (h r'), mul_zero]

theorem chooseLaw_zero (i : ℕ) : chooseLaw i 0 0 = pure [] := by
  classical
  ext r
  rw [chooseLaw_apply, Dist.pure_apply, ascending_zero]
  by_cases h : r = []
  · subst h; simp
  · simp [h]

theorem chooseLaw_over {i m k : ℕ} (h : m < k) : chooseLaw i m k = Dist.never := by
  classical
  ext r
  rw [chooseLaw_apply, if_neg, Dist.never_apply]
  rintro ⟨h1, h2⟩
  have := h1.length_le
  omega

theorem chooseLaw_succ (i m k : ℕ) (hk : k ≤ m + 1) :
    chooseLaw i (m + 1) k = (Dist.coin ((k : ℝ≥0∞) / ((m + 1 : ℕ) : ℝ≥0∞)) >>= fun b =>
      if b then (chooseLaw (i + 1) m (k - 1) >>= fun r => pure (i :: r)) else chooseLaw (i + 1) m k) := by
  classical
  ext r
  rw [Dist.coin_bind, min_eq_left (ratio_le_one hk), one_sub_ratio hk (Nat.succ_ne_zero m)]
  simp only [if_true, Bool.false_eq_true, if_false]
  by_cases hr : ∃ r', r = i :: r'
  · obtain ⟨r', rfl⟩ := hr
    rw [cons_law, chooseLaw_apply, chooseLaw_apply, chooseLaw_apply, ascending_cons,
      if_neg (c := Ascending (i + 1) m (i :: r') ∧ (i :: r').length = k) (fun h => not_ascending_cons h.1), mul_zero,
      add_zero, List.length_cons]
    cases k with
    | zero => rw [if_neg (by simp), Nat.cast_zero, ENNReal.zero_div, zero_mul]
    | succ k =>
      rw [Nat.add_sub_cancel]
      by_cases h : Ascending (i + 1) m r' ∧ r'.length = k
      · rw [if_pos h, if_pos ⟨h.1, by rw [h.2]⟩, ratio_inv (Nat.succ_ne_zero k) (Nat.succ_ne_zero m)]
        · have := h.1.length_le
          exact (Nat.choose_pos (by omega)).ne'
        · have := h.1.length_le
          exact (Nat.choose_pos (by omega)).ne'
        · exact Nat.add_one_mul_choose_eq m k
      · rw [if_neg h, if_neg (fun h' => h ⟨h'.1, by have := h'.2; omega⟩), mul_zero]
  · have hr' : ∀ r', r ≠ i :: r' := fun r' e => hr ⟨r', e⟩
    rw [cons_law_ne _ _ _ hr', mul_zero, zero_add, chooseLaw_apply, chooseLaw_apply, ascending_succ hr']
    by_cases h : Ascending (i + 1) m r ∧ r.length = k
    · have hle := h.1.length_le
      rw [if_pos h, if_pos h, ratio_inv (by omega) (Nat.succ_ne_zero m)]
      · exact (Nat.choose_pos (by omega)).ne'
      · exact (Nat.choose_pos (by omega)).ne'
      · have := Nat.choose_mul_succ_eq m k
        rw [mul_comm]
        exact this
    · rw [if_neg h, if_neg h, mul_zero]

/-- One trial of `bernoulli_trials`. -/
noncomputable def trial (i : ℕ) (s : List ℕ × ℕ × ℕ) : Dist (List ℕ × ℕ × ℕ) := do
  let b ← Dist.coin ((s.2.1 : ℝ≥0∞) / (s.2.2 : ℝ≥0∞))
  if b then pure (s.1 ++ [i], s.2.1 - 1, s.2.2 - 1) else pure (s.1, s.2.1, s.2.2 - 1)

theorem trials_law : ∀ (m i k : ℕ) (l : List ℕ), k ≤ m →
    Dist.forLoop m i trial (l, k, m) = (chooseLaw i m k >>= fun r => pure (l ++ r, 0, 0)) := by
  intro m
  induction m with
  | zero =>
    intro i k l hk
    obtain rfl : k = 0 := by omega
    rw [chooseLaw_zero, Dist.pure_bind', List.append_nil]
    rfl
  | succ m ih =>
    intro i k l hk
    rw [chooseLaw_succ i m k hk]
    change ((Dist.coin ((k : ℝ≥0∞) / ((m + 1 : ℕ) : ℝ≥0∞)) >>= fun b =>
      if b then (pure (l ++ [i], k - 1, m) : Dist _) else pure (l, k, m)) >>= fun s => Dist.forLoop m (i + 1) trial s) = _
    rw [Dist.bind_assoc', Dist.bind_assoc']
    by_cases hkm : k = m + 1
    · have : (k : ℝ≥0∞) / ((m + 1 : ℕ) : ℝ≥0∞) = 1 := by
        rw [hkm]
        exact ENNReal.div_self (by simp) (ENNReal.natCast_ne_top _)
      rw [this, Dist.coin_one, Dist.coin_one, if_pos rfl, if_pos rfl, Dist.pure_bind', ih _ _ _ (by omega),
        Dist.bind_assoc']
      congr 1
      funext r
      rw [Dist.pure_bind', List.append_assoc]
      rfl
    · congr 1
      funext b
      cases b with
      | true =>
        simp only [if_true]
        rw [Dist.pure_bind', ih _ _ _ (by omega), Dist.bind_assoc']
        congr 1
        funext r
        rw [Dist.pure_bind', List.append_assoc]
        rfl
      | false =>
        simp only [Bool.false_eq_true, if_false]
        rw [Dist.pure_bind', ih _ _ _ (by omega)]

theorem bernoulliTrials_law {size k : ℕ} (hk : k ≤ size) : bernoulliTrials size k = chooseLaw 0 size k := by
  have h : bernoulliTrials size k = (Dist.forLoop size 0 trial ([], k, size) >>= fun s =>
    Dist.lift (assert (s.2.1 == 0)) >>= fun _ => pure s.1) := rfl
  rw [h, trials_law size 0 k [] hk, Dist.bind_assoc']
  conv_rhs => rw [← Dist.bind_pure' (chooseLaw 0 size k)]
  congr 1
  funext r
  rw [Dist.pure_bind', Dist.assert_bind (by rfl)]
  rfl

/-! ## Independent trials -/

open Classical in
/-- Every number between `i` and `i + m - 1` is chosen with probability `p`, independently of the others. -/
noncomputable def flipsLaw (i m : ℕ) (p : ℝ≥0∞) : Dist (List ℕ) :=
  ⟨fun r => if Ascending i m r then p ^ r.length * (1 - p) ^ (m - r.length) else 0⟩

open Classical in
theorem flipsLaw_apply (i m : ℕ) (p : ℝ≥0∞) (r : List ℕ) :
    flipsLaw i m p r = if Ascending i m r then p ^ r.length * (1 - p) ^ (m - r.length) else 0 := rfl

theorem flipsLaw_zero (i : ℕ) (p : ℝ≥0∞) : flipsLaw i 0 p = pure [] := by
  classical
  ext r
  rw [flipsLaw_apply, Dist.pure_apply, ascending_zero]
  by_cases h : r = []
  · subst h; simp
  · simp [h]

theorem flipsLaw_succ (i m : ℕ) {p : ℝ≥0∞} (hp : p ≤ 1) :
    flipsLaw i (m + 1) p = (Dist.coin p >>= fun b =>
      if b then (flipsLaw (i + 1) m p >>= fun r => pure (i :: r)) else flipsLaw (i + 1) m p) := by
  classical
  ext r
  rw [Dist.coin_bind, min_eq_left hp]
  simp only [if_true, Bool.false_eq_true, if_false]
  by_cases hr : ∃ r', r = i :: r'
  · obtain ⟨r', rfl⟩ := hr
    rw [cons_law, flipsLaw_apply, flipsLaw_apply, flipsLaw_apply, ascending_cons,
      if_neg (c := Ascending (i + 1) m (i :: r')) not_ascending_cons, mul_zero, add_zero, List.length_cons]
    split
    · rw [pow_succ, show m + 1 - (r'.length + 1) = m - r'.length by omega]
      ring
    · rw [mul_zero]
  · have hr' : ∀ r', r ≠ i :: r' := fun r' e => hr ⟨r', e⟩
    rw [cons_law_ne _ _ _ hr', mul_zero, zero_add, flipsLaw_apply, flipsLaw_apply, ascending_succ hr']
    split
    · next h =>
      have := h.length_le
      rw [show m + 1 - r.length = m - r.length + 1 by omega, pow_succ]
      ring
    · rw [mul_zero]

theorem flipsLaw_total (m : ℕ) {p : ℝ≥0∞} (hp : p ≤ 1) : ∀ i, (flipsLaw i m p).total = 1 := by
  induction m with
  | zero => intro i; rw [flipsLaw_zero, Dist.total_pure]
  | succ m ih =>
    intro i
    rw [flipsLaw_succ i m hp, Dist.total_bind]
    have h : ∀ b : Bool, (if b then (flipsLaw (i + 1) m p >>= fun r => pure (i :: r)) else flipsLaw (i + 1) m p).total
        = 1 := by
      intro b
      cases b
      · simp [ih]
      · simp only [if_true, Dist.total_bind, Dist.total_pure, mul_one]
        exact ih (i + 1)
    simp only [h, mul_one]
    exact Dist.coin_total

/-- One trial of `bernoulli_process`. -/
noncomputable def processStep (p : ℝ≥0∞) (i : ℕ) (s : List ℕ × Bool) : Dist (List ℕ × Bool) := do
  let b ← Dist.coin p
  if b then pure (s.1 ++ [i], false) else pure s

theorem process_law {p : ℝ≥0∞} (hp : p ≤ 1) : ∀ (m i : ℕ) (s : List ℕ × Bool),
    Dist.forLoop m i (processStep p) s = (flipsLaw i m p >>= fun r => pure (s.1 ++ r, s.2 && r.isEmpty)) := by
  intro m
  induction m with
  | zero =>
    intro i s
    rw [flipsLaw_zero, Dist.pure_bind', List.append_nil]
    simp [Dist.forLoop]
  | succ m ih =>
    intro i s
    rw [flipsLaw_succ i m hp]
    change ((Dist.coin p >>= fun b => if b then (pure (s.1 ++ [i], false) : Dist _) else pure s) >>= fun s =>
      Dist.forLoop m (i + 1) (processStep p) s) = _
    rw [Dist.bind_assoc', Dist.bind_assoc']
    congr 1
    funext b
    cases b with
    | true =>
      simp only [if_true]
      rw [Dist.pure_bind', ih, Dist.bind_assoc']
      congr 1
      funext r
      rw [Dist.pure_bind', List.append_assoc]
      simp
    | false =>
      simp only [Bool.false_eq_true, if_false]
      rw [Dist.pure_bind', ih]

/-- The Bernoulli process is repeated until some bit is flipped. -/
theorem bernoulliProcess_law {size : ℕ} {p : ℝ≥0∞} (hp : p ≤ 1) :
    bernoulliProcess size p = Dist.repeatUntil (flipsLaw 0 size p) (fun r => !r.isEmpty) := by
  classical
  have h1 : bernoulliProcess size p = (Dist.doWhile (fun s => Dist.forLoop size 0 (processStep p) s) (fun s => s.2)
    ([], true) >>= fun s => pure s.1) := rfl
  have hbody : ∀ t, Dist.forLoop size 0 (processStep p) ([], true) t
      = if t.2 = t.1.isEmpty then flipsLaw 0 size p t.1 else 0 := by
    intro t
    rw [process_law hp, Dist.bind_apply]
    simp only [List.nil_append, Bool.true_and, Dist.pure_apply]
    rw [tsum_eq_single t.1]
    · by_cases ht : t.2 = t.1.isEmpty
      · rw [if_pos (by rw [← ht]), if_pos ht, mul_one]
      · rw [if_neg (fun e => ht (by rw [e])), if_neg ht, mul_zero]
    · intro r hr
      rw [if_neg (fun e => hr (by rw [e])), mul_zero]
  have hloop : Dist.doWhile (fun s => Dist.forLoop size 0 (processStep p) s) (fun s => s.2) ([], true)
      = Dist.repeatUntil (Dist.forLoop size 0 (processStep p) ([], true)) (fun t => !t.2) := by
    refine Dist.doWhile_eq (fun t ht ha => ?_)
    rw [hbody] at ht
    have h2 : t.2 = t.1.isEmpty := by
      by_contra h
      exact ht (if_neg h)
    have h3 : t.2 = true := ha
    rw [h3] at h2
    have h4 : t.1 = [] := List.isEmpty_iff.mp h2.symm
    exact Prod.ext h4 h3
  have hmiss : Dist.miss (Dist.forLoop size 0 (processStep p) ([], true)) (fun t => !t.2)
      = Dist.miss (flipsLaw 0 size p) (fun r => !r.isEmpty) := by
    unfold Dist.miss
    rw [tsum_eq_single (([], true) : List ℕ × Bool), tsum_eq_single ([] : List ℕ)]
    · simp [hbody]
    · intro r hr
      rw [if_pos]
      simp [hr]
    · intro t ht
      rw [hbody]
      by_cases h2 : t.2 = true
      · rw [if_neg (by simp [h2])]
        rw [if_neg]
        intro h3
        rw [h2] at h3
        exact ht (Prod.ext (List.isEmpty_iff.mp h3.symm) h2)
      · rw [if_pos]
        simpa using h2
  rw [h1, hloop]
  ext r
  rw [Dist.bind_apply, tsum_eq_single (r, r.isEmpty)]
  · rw [Dist.repeatUntil_apply, Dist.repeatUntil_apply, hmiss, hbody, if_pos rfl, Dist.pure_apply, if_pos rfl, mul_one]
  · intro t ht
    rw [Dist.repeatUntil_apply, hbody, Dist.pure_apply]
    by_cases h2 : t.2 = t.1.isEmpty
    · rw [if_neg (c := r = t.1), mul_zero]
      intro e
      exact ht (Prod.ext e.symm (by rw [h2, e]))
    · rw [if_neg h2]
      simp

end Hnco.Prob
