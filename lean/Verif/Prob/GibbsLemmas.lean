import Verif.Prob.StationaryLemmas
import Verif.Prob.MoreLaws

/-!
# Lemmas about the Gibbs sampler, with probabilities
-/

namespace Hnco.Prob

open Outcome
open scoped ENNReal

/-! ## One update -/

/-- An update of the bit `i` for a Boltzmann law. -/
noncomputable def conditional (g : BV → ℝ) (i : ℕ) (x : BV) : Dist BV := do
  let b ← Dist.coin (weight g (x.set i true) / (weight g (x.set i true) + weight g (x.set i false)))
  pure (x.set i b)

theorem gibbsUpdate_eq {full : Bool} {n : ℕ} {m : Moment} {F : ℕ → Rat} {G : ℕ → ℕ → Rat} (h : m.Is full n F G) {x : BV}
    (hx : x.length = n) {i : ℕ} (hi : i < n) : gibbsUpdate m x i = conditional (fun y => (goodness n F G y : ℝ)) i x := by
  unfold gibbsUpdate conditional
  rw [Dist.assert_bind (by simp [hx, hi]), gibbsDelta_energy h hx hi, Dist.lift_ok, Dist.pure_bind', Rat.cast_sub, logistic_difference]
  have hp : ENNReal.ofReal (Real.exp (goodness n F G (x.set i true) : ℝ) / (Real.exp (goodness n F G (x.set i true) : ℝ) +
      Real.exp (goodness n F G (x.set i false) : ℝ))) = weight (fun y => (goodness n F G y : ℝ)) (x.set i true) /
      (weight (fun y => (goodness n F G y : ℝ)) (x.set i true) + weight (fun y => (goodness n F G y : ℝ)) (x.set i false)) := by
    unfold weight
    rw [ENNReal.ofReal_div_of_pos (by positivity), ENNReal.ofReal_add (Real.exp_pos _).le (Real.exp_pos _).le]
  rw [hp]
  congr 1
  funext b
  have hv : ∀ b, vset x i b = ok (x.set i b) := fun b => by unfold vset; rw [if_pos (by omega)]
  cases b
  · simp only [Bool.false_eq_true, if_false]
    rw [hv]; rfl
  · simp only [if_true]
    rw [hv]; rfl

theorem ratio_complement {a b : ℝ≥0∞} (ha : a ≠ 0) (ha' : a ≠ ∞) (hb' : b ≠ ∞) : 1 - a / (a + b) = b / (a + b) := by
  have h0 : a + b ≠ 0 := fun h => ha (add_eq_zero.mp h).1
  have ht : a + b ≠ ∞ := ENNReal.add_ne_top.mpr ⟨ha', hb'⟩
  have h1 : a / (a + b) + b / (a + b) = 1 := by
    rw [← ENNReal.add_div]
    exact ENNReal.div_self h0 ht
  rw [← h1, ENNReal.add_sub_cancel_left]
  exact ENNReal.div_ne_top ha' h0

open Classical in
theorem conditional_apply (g : BV → ℝ) {i : ℕ} {x : BV} (hi : i < x.length) (y : BV) :
    conditional g i x y = if ∃ b, y = x.set i b then weight g y / (weight g (x.set i true) + weight g (x.set i false)) else 0 := by
  unfold conditional
  rw [Dist.coin_bind, Dist.pure_apply, Dist.pure_apply]
  have hne : x.set i true ≠ x.set i false := by
    intro h
    have := congrArg (fun l : BV => l[i]?) h
    simp [hi] at this
  have hle : weight g (x.set i true) / (weight g (x.set i true) + weight g (x.set i false)) ≤ 1 :=
    ENNReal.div_le_of_le_mul (by rw [one_mul]; exact le_self_add)
  rw [min_eq_left hle, ratio_complement (weight_ne_zero g _) (weight_ne_top g _) (weight_ne_top g _)]
  by_cases h1 : y = x.set i true
  · rw [if_pos h1, if_neg (by rw [h1]; exact hne), if_pos ⟨true, h1⟩, mul_one, mul_zero, add_zero, h1]
  · rw [if_neg h1, mul_zero, zero_add]
    by_cases h0 : y = x.set i false
    · rw [if_pos h0, if_pos ⟨false, h0⟩, mul_one, h0]
    · rw [if_neg h0, mul_zero, if_neg]
      rintro ⟨b, hb⟩
      cases b
      · exact h0 hb
      · exact h1 hb

theorem conditional_length {g : BV → ℝ} {i : ℕ} {x y : BV} (h : conditional g i x y ≠ 0) : y.length = x.length := by
  unfold conditional at h
  obtain ⟨b, _, hb⟩ := bind_support h
  rw [pure_support hb, List.length_set]

theorem coin_total (p : ℝ≥0∞) : (Dist.coin p).total = 1 := by
  unfold Dist.total
  rw [tsum_fintype, Fintype.sum_bool]
  change min p 1 + (1 - p) = 1
  rcases le_total p 1 with h | h
  · rw [min_eq_left h, add_tsub_cancel_of_le h]
  · rw [min_eq_right h, tsub_eq_zero_of_le h, add_zero]

theorem conditional_total (g : BV → ℝ) (i : ℕ) (x : BV) : (conditional g i x).total = 1 := by
  unfold conditional
  rw [Dist.total_bind]
  simp only [Dist.total_pure, mul_one]
  exact coin_total _

theorem set_back {x y : BV} {i : ℕ} (hi : i < x.length) {b : Bool} (h : y = x.set i b) : ∃ b, x = y.set i b := by
  subst h
  exact ⟨x[i], by rw [List.set_set, List.set_getElem_self]⟩

theorem conditional_stationary (g : BV → ℝ) {n i : ℕ} (hi : i < n) : Stationary (boltzmannLaw n g) (conditional g i) := by
  classical
  refine boltzmann_stationary ?_ ?_ ?_
  · intro x y hx hy
    rw [conditional_apply g (by omega), conditional_apply g (by omega)]
    by_cases h : ∃ b, y = x.set i b
    · obtain ⟨b, hb⟩ := h
      have h' : ∃ b, x = y.set i b := set_back (by omega) hb
      rw [if_pos ⟨b, hb⟩, if_pos h', hb, List.set_set, List.set_set]
      rw [div_eq_mul_inv, div_eq_mul_inv]
      ring
    · rw [if_neg h, if_neg, mul_zero, mul_zero]
      rintro ⟨b, hb⟩
      exact h (set_back (by omega) hb)
  · intro x hx y hy
    rw [conditional_length hy, hx]
  · exact fun x _ => conditional_total g i x

/-- Every setting of the bit has at least its probability for the law. -/
theorem conditional_ge (g : BV → ℝ) {n i : ℕ} {x : BV} (hx : x.length = n) (hi : i < n) (b : Bool) :
    boltzmannLaw n g (x.set i b) ≤ conditional g i x (x.set i b) := by
  classical
  rw [conditional_apply g (by omega), if_pos ⟨b, rfl⟩, boltzmann_apply, if_pos (by simpa using hx)]
  refine ENNReal.div_le_div_left ?_ _
  have hne : x.set i true ≠ x.set i false := by
    intro h
    have := congrArg (fun l : BV => l[i]?) h
    simp [show i < x.length by omega] at this
  unfold partition
  calc weight g (x.set i true) + weight g (x.set i false)
      = ∑ y ∈ ({x.set i true, x.set i false} : Finset BV), (if y.length = n then weight g y else 0) := by
        rw [Finset.sum_pair hne, if_pos (by simpa using hx), if_pos (by simpa using hx)]
    _ ≤ _ := ENNReal.sum_le_tsum _

theorem boltzmann_min (n : ℕ) (g : BV → ℝ) : ∃ c : ℝ≥0∞, c ≠ 0 ∧ ∀ x : BV, x.length = n → c ≤ boltzmannLaw n g x := by
  obtain ⟨z, hz, hmin⟩ := Set.exists_min_image {x : BV | x.length = n} (fun x => boltzmannLaw n g x) (List.finite_length_eq Bool n)
    ⟨List.replicate n false, by simp⟩
  exact ⟨boltzmannLaw n g z, boltzmann_support.mpr hz, fun x hx => hmin x hx⟩

/-! ## Sequences of updates -/

/-- Updates in the order of a list. -/
noncomputable def updates (g : BV → ℝ) : List ℕ → BV → Dist BV
  | [], x => pure x
  | i :: l, x => conditional g i x >>= updates g l

theorem updates_stationary (g : BV → ℝ) {n : ℕ} : ∀ (l : List ℕ), (∀ i ∈ l, i < n) → Stationary (boltzmannLaw n g) (updates g l) := by
  intro l
  induction l with
  | nil => intro _; exact Dist.bind_pure' _
  | cons i l ih =>
    intro h
    unfold Stationary
    change (_ >>= fun x => conditional g i x >>= updates g l) = _
    rw [← Dist.bind_assoc', conditional_stationary g (h i List.mem_cons_self)]
    exact ih (fun j hj => h j (List.mem_cons_of_mem _ hj))

theorem updates_length {g : BV → ℝ} : ∀ {l : List ℕ} {x y : BV}, updates g l x y ≠ 0 → y.length = x.length := by
  intro l
  induction l with
  | nil =>
    intro x y h
    rw [pure_support h]
  | cons i l ih =>
    intro x y h
    obtain ⟨z, hz, h⟩ := bind_support h
    rw [ih h, conditional_length hz]

theorem updates_total (g : BV → ℝ) : ∀ (l : List ℕ) (x : BV), (updates g l x).total = 1 := by
  intro l
  induction l with
  | nil => intro x; exact Dist.total_pure _
  | cons i l ih =>
    intro x
    change (conditional g i x >>= updates g l).total = 1
    rw [Dist.total_bind]
    simp only [ih, mul_one]
    exact conditional_total g i x

/-- Setting the bits of a list as in a target. -/
theorem updates_ge (g : BV → ℝ) {n : ℕ} {c : ℝ≥0∞} (hc : ∀ x : BV, x.length = n → c ≤ boltzmannLaw n g x) {z : BV} (hz : z.length = n) :
    ∀ (l : List ℕ), (∀ i ∈ l, i < n) → ∀ x : BV, x.length = n → (∀ i, i < n → i ∉ l → x[i]? = z[i]?) →
      c ^ l.length ≤ updates g l x z := by
  classical
  intro l
  induction l with
  | nil =>
    intro _ x hx h
    have : z = x := by
      apply List.ext_getElem?
      intro i
      by_cases hi : i < n
      · exact (h i hi List.not_mem_nil).symm
      · rw [List.getElem?_eq_none (by omega), List.getElem?_eq_none (by omega)]
    change c ^ 0 ≤ (pure x : Dist BV) z
    rw [Dist.pure_apply, if_pos this, pow_zero]
  | cons i l ih =>
    intro hl x hx h
    have hi : i < n := hl i List.mem_cons_self
    have hy : (x.set i (z[i]'(by omega))).length = n := by rw [List.length_set, hx]
    have h2 := ih (fun j hj => hl j (List.mem_cons_of_mem _ hj)) (x.set i (z[i]'(by omega))) hy (by
      intro j hj hjl
      by_cases hji : j = i
      · subst hji
        rw [List.getElem?_set_self (by omega), List.getElem?_eq_getElem]
      · rw [List.getElem?_set_ne (fun e => hji e.symm)]
        exact h j hj (fun hm => by
          rcases List.mem_cons.mp hm with e | e
          · exact hji e
          · exact hjl e))
    have h1 : c ≤ conditional g i x (x.set i (z[i]'(by omega))) := (hc _ hy).trans (conditional_ge g hx hi _)
    change c ^ (l.length + 1) ≤ (conditional g i x >>= updates g l) z
    rw [Dist.bind_apply, pow_succ, mul_comm]
    exact (mul_le_mul' h1 h2).trans (ENNReal.le_tsum (f := fun y => conditional g i x y * updates g l y z) _)

/-! ## Loops -/

theorem forLoop_list {full : Bool} {n : ℕ} {m : Moment} {F : ℕ → Rat} {G : ℕ → ℕ → Rat} (h : m.Is full n F G) (order : List ℕ)
    (ho : ∀ i ∈ order, i < n) : ∀ (t k : ℕ), k + t = order.length → ∀ x : BV, x.length = n →
      Dist.forLoop t k (fun j x => Dist.lift (vget order j) >>= fun i => gibbsUpdate m x i) x
        = updates (fun y => (goodness n F G y : ℝ)) (order.drop k) x := by
  intro t
  induction t with
  | zero =>
    intro k hk x hx
    rw [List.drop_of_length_le (by omega)]
    rfl
  | succ t ih =>
    intro k hk x hx
    have hk' : k < order.length := by omega
    rw [List.drop_eq_getElem_cons hk']
    change ((Dist.lift (vget order k) >>= fun i => gibbsUpdate m x i) >>= Dist.forLoop t (k + 1) _) = _
    rw [vget_eq hk', Dist.lift_ok, Dist.pure_bind', gibbsUpdate_eq h hx (ho _ (List.getElem_mem hk'))]
    refine Dist.bind_congr_support (fun y hy => ?_)
    exact ih (k + 1) (by omega) y (by rw [conditional_length hy, hx])

theorem permRandom_support {n : ℕ} {l : List ℕ} (h : permRandom n l ≠ 0) : l.Perm (List.range n) := by
  by_contra h'
  exact h (if_neg h')

theorem permRandom_total (n : ℕ) : (permRandom n).total = 1 := by
  classical
  unfold Dist.total
  have h0 : ∀ l, l ∉ (List.range n).permutations.toFinset → permRandom n l = 0 := by
    intro l hl
    rw [List.mem_toFinset, List.mem_permutations] at hl
    exact if_neg hl
  rw [tsum_eq_sum h0]
  have h1 : ∀ l ∈ (List.range n).permutations.toFinset, permRandom n l = ((n.factorial : ℕ) : ℝ≥0∞)⁻¹ := by
    intro l hl
    rw [List.mem_toFinset, List.mem_permutations] at hl
    exact if_pos hl
  rw [Finset.sum_congr rfl h1, Finset.sum_const, List.toFinset_card_of_nodup (List.nodup_permutations _ List.nodup_range),
    List.length_permutations, List.length_range, nsmul_eq_mul]
  exact ENNReal.mul_inv_cancel (by exact_mod_cast n.factorial_ne_zero) (ENNReal.natCast_ne_top _)

/-! ## Cycles and random updates -/

/-- A cycle for a Boltzmann law. -/
noncomputable def cycle (g : BV → ℝ) (n : ℕ) (x : BV) : Dist BV := permRandom n >>= fun l => updates g l x

/-- An update of a random bit for a Boltzmann law. -/
noncomputable def randomUpdate (g : BV → ℝ) (n : ℕ) (x : BV) : Dist BV := Dist.uniformInt 0 (n - 1) >>= fun i => conditional g i x

variable {full : Bool} {n : ℕ} {m : Moment} {F : ℕ → Rat} {G : ℕ → ℕ → Rat}

theorem bmCycle_eq (h : m.Is full n F G) {x : BV} (hx : x.length = n) : bmCycle m x = cycle (fun y => (goodness n F G y : ℝ)) n x := by
  unfold bmCycle cycle
  rw [hx]
  refine Dist.bind_congr_support (fun l hl => ?_)
  have hp := permRandom_support hl
  have := forLoop_list h l (fun i hi => List.mem_range.mp (hp.mem_iff.mp hi)) l.length 0 (by omega) x hx
  rw [List.drop_zero] at this
  exact this

theorem cycle_length {g : BV → ℝ} {x y : BV} (h : cycle g n x y ≠ 0) : y.length = x.length := by
  obtain ⟨l, _, h⟩ := bind_support h
  exact updates_length h

theorem cycle_total (g : BV → ℝ) (n : ℕ) (x : BV) : (cycle g n x).total = 1 := by
  unfold cycle
  rw [Dist.total_bind]
  simp only [updates_total, mul_one]
  exact permRandom_total n

theorem cycle_stationary (g : BV → ℝ) (n : ℕ) : Stationary (boltzmannLaw n g) (cycle g n) :=
  stationary_bind_swap (step := fun l x => updates g l x) (permRandom_total n) (fun l hl =>
    updates_stationary g l (fun i hi => List.mem_range.mp ((permRandom_support hl).mem_iff.mp hi)))

theorem cycle_ge (g : BV → ℝ) {c : ℝ≥0∞} (hc : ∀ x : BV, x.length = n → c ≤ boltzmannLaw n g x) {x z : BV} (hx : x.length = n)
    (hz : z.length = n) : c ^ n ≤ cycle g n x z := by
  unfold cycle
  rw [Dist.bind_apply]
  have ht := permRandom_total n
  unfold Dist.total at ht
  calc c ^ n = ∑' l, permRandom n l * c ^ n := by rw [ENNReal.tsum_mul_right, ht, one_mul]
    _ ≤ _ := ENNReal.tsum_le_tsum (fun l => by
      by_cases hl : permRandom n l = 0
      · rw [hl, zero_mul, zero_mul]
      · have hp := permRandom_support hl
        have hlen : l.length = n := by rw [hp.length_eq, List.length_range]
        refine mul_le_mul' (le_refl _) ?_
        have := updates_ge g hc hz l (fun i hi => List.mem_range.mp (hp.mem_iff.mp hi)) x hx
          (fun i hi hil => absurd (hp.mem_iff.mpr (List.mem_range.mpr hi)) hil)
        rwa [hlen] at this)

theorem randomUpdate_length {g : BV → ℝ} {x y : BV} (h : randomUpdate g n x y ≠ 0) : y.length = x.length := by
  obtain ⟨l, _, h⟩ := bind_support h
  exact conditional_length h

theorem randomUpdate_total (g : BV → ℝ) (n : ℕ) (x : BV) : (randomUpdate g n x).total = 1 := by
  unfold randomUpdate
  rw [Dist.total_bind]
  simp only [conditional_total, mul_one]
  exact Dist.uniformInt_total (Nat.zero_le _)

theorem randomUpdate_stationary (g : BV → ℝ) (hn : 0 < n) : Stationary (boltzmannLaw n g) (randomUpdate g n) :=
  stationary_bind_swap (step := fun i x => conditional g i x) (Dist.uniformInt_total (Nat.zero_le _)) (fun i hi =>
    conditional_stationary g (by
      rw [uniformBelow hn] at hi
      by_contra h'
      exact hi (if_neg h')))

theorem randomUpdate_ge (g : BV → ℝ) (hn : 0 < n) {i : ℕ} (hi : i < n) (x y : BV) :
    ((n : ℕ) : ℝ≥0∞)⁻¹ * conditional g i x y ≤ randomUpdate g n x y := by
  unfold randomUpdate
  rw [Dist.bind_apply]
  have := ENNReal.le_tsum (f := fun i => Dist.uniformInt 0 (n - 1) i * conditional g i x y) i
  rwa [uniformBelow hn, if_pos hi] at this

theorem randomUpdates_ge (g : BV → ℝ) (hn : 0 < n) : ∀ (l : List ℕ), (∀ i ∈ l, i < n) → ∀ x z : BV,
    (((n : ℕ) : ℝ≥0∞)⁻¹) ^ l.length * updates g l x z ≤ Dist.steps (randomUpdate g n) l.length x z := by
  intro l
  induction l with
  | nil =>
    intro _ x z
    rw [List.length_nil, pow_zero, one_mul]
    exact le_refl _
  | cons i l ih =>
    intro hl x z
    change _ * (conditional g i x >>= updates g l) z ≤ (randomUpdate g n x >>= Dist.steps (randomUpdate g n) l.length) z
    rw [Dist.bind_apply, Dist.bind_apply, ← ENNReal.tsum_mul_left]
    refine ENNReal.tsum_le_tsum (fun y => ?_)
    calc (((n : ℕ) : ℝ≥0∞)⁻¹) ^ (l.length + 1) * (conditional g i x y * updates g l y z)
        = (((n : ℕ) : ℝ≥0∞)⁻¹ * conditional g i x y) * ((((n : ℕ) : ℝ≥0∞)⁻¹) ^ l.length * updates g l y z) := by ring
      _ ≤ _ := mul_le_mul' (randomUpdate_ge g hn (hl i List.mem_cons_self) x y) (ih (fun j hj => hl j (List.mem_cons_of_mem _ hj)) y z)

theorem forLoop_cycle (h : m.Is full n F G) : ∀ (t k : ℕ) (x : BV), x.length = n →
    Dist.forLoop t k (fun _ x => bmCycle m x) x = Dist.steps (cycle (fun y => (goodness n F G y : ℝ)) n) t x := by
  intro t
  induction t with
  | zero => intro k x _; rfl
  | succ t ih =>
    intro k x hx
    change (bmCycle m x >>= Dist.forLoop t (k + 1) _) = (_ >>= _)
    rw [bmCycle_eq h hx]
    exact Dist.bind_congr_support (fun y hy => ih _ y (by rw [cycle_length hy, hx]))

theorem forLoop_random (h : m.Is full n F G) (hn : 0 < n) : ∀ (t k : ℕ) (x : BV), x.length = n →
    Dist.forLoop t k (fun _ x => Dist.uniformInt 0 (n - 1) >>= fun i => gibbsUpdate m x i) x
      = Dist.steps (randomUpdate (fun y => (goodness n F G y : ℝ)) n) t x := by
  intro t
  induction t with
  | zero => intro k x _; rfl
  | succ t ih =>
    intro k x hx
    change ((Dist.uniformInt 0 (n - 1) >>= fun i => gibbsUpdate m x i) >>= Dist.forLoop t (k + 1) _) = (_ >>= _)
    have : (Dist.uniformInt 0 (n - 1) >>= fun i => gibbsUpdate m x i) = randomUpdate (fun y => (goodness n F G y : ℝ)) n x :=
      Dist.bind_congr_support (fun i hi => gibbsUpdate_eq h hx (by
        rw [uniformBelow hn] at hi
        by_contra h'
        exact hi (if_neg h')))
    rw [this]
    exact Dist.bind_congr_support (fun y hy => ih _ y (by rw [randomUpdate_length hy, hx]))

end Hnco.Prob
