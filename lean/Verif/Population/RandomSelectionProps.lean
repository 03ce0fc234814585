import Verif.Population.RandomSelection
import Verif.Population.Lemmas
import Mathlib.Analysis.SpecialFunctions.Exp
import Mathlib.Algebra.BigOperators.Group.List.Basic
import Mathlib.Tactic.Linarith
import Mathlib.Tactic.FieldSimp

/-!
# C74: random selection of parents
-/

namespace Hnco

open Outcome

variable {K : Type} [Field K] [LinearOrder K] [IsStrictOrderedRing K]

/-! ## Specification -/

/-- The variate `u` falls in the part of the unit interval of the individual `i`: a part of length `weights[i] / sum`, the parts of
different individuals being side by side. -/
def InPart (weights : List K) (i : Nat) (u : K) : Prop :=
  (weights.take i).sum / weights.sum ≤ u ∧ u < (weights.take (i + 1)).sum / weights.sum

/-- The length of the part of the individual `i`. -/
theorem part_length (weights : List K) {i : Nat} {w : K} (h : weights[i]? = some w) :
    (weights.take (i + 1)).sum / weights.sum - (weights.take i).sum / weights.sum = w / weights.sum := by
  obtain ⟨hi, rfl⟩ := List.getElem?_eq_some_iff.mp h
  rw [List.take_succ_eq_append_getElem hi, List.sum_append, List.sum_singleton]
  ring

/-! ## Search -/

theorem discreteSearch_spec {t : K} : ∀ (ws : List K) (acc : K) (i0 : Nat), acc ≤ t → t < acc + ws.sum →
    (∀ w ∈ ws, 0 ≤ w) → ∃ k, discreteSearch t ws acc i0 = ok (i0 + k) ∧ k < ws.length ∧
      acc + (ws.take k).sum ≤ t ∧ t < acc + (ws.take (k + 1)).sum
  | [], acc, i0, h1, h2, _ => absurd h2 (by simpa using h1)
  | w :: ws, acc, i0, h1, h2, hw => by
    unfold discreteSearch
    by_cases ht : t < acc + w
    · rw [if_pos ht]
      exact ⟨0, rfl, by simp, by simpa using h1, by simpa using ht⟩
    · rw [if_neg ht]
      obtain ⟨k, h3, h4, h5, h6⟩ := discreteSearch_spec ws (acc + w) (i0 + 1) (not_lt.mp ht)
        (by rw [List.sum_cons] at h2; rwa [add_assoc]) (fun x hx => hw x (List.mem_cons_of_mem _ hx))
      refine ⟨k + 1, by rw [h3]; congr 1; omega, by simpa using h4, ?_, ?_⟩
      · rw [List.take_succ_cons, List.sum_cons]; linarith
      · rw [List.take_succ_cons, List.sum_cons]; linarith

theorem take_sum_mono {ws : List K} (hw : ∀ w ∈ ws, 0 ≤ w) {i j : Nat} (h : i ≤ j) : (ws.take i).sum ≤ (ws.take j).sum := by
  obtain ⟨k, rfl⟩ := Nat.exists_eq_add_of_le h
  rw [List.take_add, List.sum_append]
  have : 0 ≤ ((ws.drop i).take k).sum := List.sum_nonneg (fun x hx => hw x (List.mem_of_mem_drop (List.mem_of_mem_take hx)))
  linarith

/-- Parts are disjoint. -/
theorem inPart_unique {ws : List K} (hw : ∀ w ∈ ws, 0 ≤ w) (hs : 0 < ws.sum) {i j : Nat} {u : K} (hi : InPart ws i u)
    (hj : InPart ws j u) : i = j := by
  have key : ∀ {i j : Nat}, InPart ws i u → InPart ws j u → ¬ i < j := by
    intro i j hi hj hlt
    have h1 := take_sum_mono hw (show i + 1 ≤ j from hlt)
    have h2 : (ws.take (i + 1)).sum / ws.sum ≤ (ws.take j).sum / ws.sum := div_le_div_of_nonneg_right h1 hs.le
    have := hi.2
    have := hj.1
    linarith
  have h1 := key hi hj
  have h2 := key hj hi
  omega

theorem discreteSample_spec {ws : List K} (hw : ∀ w ∈ ws, 0 ≤ w) (hs : 0 < ws.sum) {u : K} (h0 : 0 ≤ u) (h1 : u < 1) :
    ∃ i, discreteSample ws u = ok i ∧ i < ws.length ∧ InPart ws i u := by
  cases ws with
  | nil => simp at hs
  | cons w ws =>
    obtain ⟨k, h2, h3, h4, h5⟩ := discreteSearch_spec (t := u * (w :: ws).sum) (w :: ws) 0 0 (mul_nonneg h0 hs.le)
      (by rw [zero_add]; exact mul_lt_of_lt_one_left hs h1) hw
    refine ⟨k, by rw [Nat.zero_add] at h2; exact h2, h3, ?_, ?_⟩
    · rw [div_le_iff₀ hs]; linarith
    · rw [lt_div_iff₀ hs]; linarith

/-! ## Fitness proportionate selection -/

/-- C74: with non negative values which are not all null, fitness proportionate selection selects the individual `i` exactly when
the variate is in the part of the individual `i`, whose length is its share of the sum of the values. -/
theorem proportionate_shares {values : List K} {bvs : List BV} (hlen : values.length = bvs.length) (hv : ∀ v ∈ values, 0 ≤ v)
    (hpos : ∃ v ∈ values, 0 < v) :
    proportionateInit values = ok values ∧
    ∀ u : K, 0 ≤ u → u < 1 → ∃ i, InPart values i u ∧ (∀ j, InPart values j u → j = i) ∧
      ∃ bv v, bvs[i]? = some bv ∧ values[i]? = some v ∧ 0 < v ∧ proportionateSelect values bvs u = ok bv := by
  have hs : 0 < values.sum := by
    obtain ⟨v, hm, h⟩ := hpos
    exact lt_of_lt_of_le h (List.single_le_sum hv v hm)
  constructor
  · unfold proportionateInit discreteParams
    rw [assert_pos, ok_bind]
    simp only [Bool.or_eq_true, Bool.and_eq_true, List.all_eq_true, decide_eq_true_eq]
    exact Or.inr ⟨hv, hs⟩
  · intro u h0 h1
    obtain ⟨i, h2, h3, h4⟩ := discreteSample_spec hv hs h0 h1
    have hi : i < bvs.length := by omega
    refine ⟨i, h4, fun j hj => inPart_unique hv hs hj h4, bvs[i], values[i], List.getElem?_eq_getElem hi,
      List.getElem?_eq_getElem h3, ?_, ?_⟩
    · have := part_length values (List.getElem?_eq_getElem h3)
      have h5 : 0 < values[i] / values.sum := by rw [← this]; exact sub_pos.mpr (lt_of_le_of_lt h4.1 h4.2)
      by_contra hcon
      exact absurd h5 (not_lt.mpr (div_nonpos_of_nonpos_of_nonneg (not_lt.mp hcon) hs.le))
    · unfold proportionateSelect
      rw [h2, ok_bind, assert_pos (by simpa using hi), ok_bind, vget_eq hi]

/-- C74: conversely every individual with a positive value has a variate which selects it. -/
theorem proportionate_possible {values : List K} {bvs : List BV} (hlen : values.length = bvs.length) (hv : ∀ v ∈ values, 0 ≤ v)
    {i : Nat} {v : K} {bv : BV} (hi : values[i]? = some v) (hb : bvs[i]? = some bv) (hpos : 0 < v) :
    ∃ u : K, 0 ≤ u ∧ u < 1 ∧ proportionateSelect values bvs u = ok bv := by
  obtain ⟨hil, rfl⟩ := List.getElem?_eq_some_iff.mp hi
  obtain ⟨hbl, rfl⟩ := List.getElem?_eq_some_iff.mp hb
  have hs : 0 < values.sum := lt_of_lt_of_le hpos (List.single_le_sum hv _ (List.getElem_mem hil))
  have hle : (values.take (i + 1)).sum ≤ values.sum := by
    have := take_sum_mono hv (show i + 1 ≤ values.length from hil)
    rwa [List.take_length] at this
  have hsum : (values.take (i + 1)).sum = (values.take i).sum + values[i] := by
    rw [List.take_succ_eq_append_getElem hil, List.sum_append, List.sum_singleton]
  have h0 : 0 ≤ (values.take i).sum := List.sum_nonneg (fun x hx => hv x (List.mem_of_mem_take hx))
  have hu0 : 0 ≤ (values.take i).sum / values.sum := div_nonneg h0 hs.le
  have hu1 : (values.take i).sum / values.sum < 1 := by rw [div_lt_one hs]; linarith
  have hin : InPart values i ((values.take i).sum / values.sum) := ⟨le_refl _, div_lt_div_of_pos_right (by linarith) hs⟩
  refine ⟨_, hu0, hu1, ?_⟩
  obtain ⟨_, h⟩ := proportionate_shares hlen hv ⟨_, List.getElem_mem hil, hpos⟩
  obtain ⟨j, _, h2, bv, v, h3, _, _, h4⟩ := h _ hu0 hu1
  rw [← h2 i hin, List.getElem?_eq_getElem hbl] at h3
  cases h3
  exact h4

/-- C74 (negative part): a negative value, or a population of null values, breaks the precondition of the distribution. -/
theorem proportionate_undefined {values : List K} (hne : values ≠ []) (h : (∃ v ∈ values, v < 0) ∨ ∀ v ∈ values, v = 0) :
    proportionateInit values = ub := by
  unfold proportionateInit discreteParams
  rw [assert_neg]
  · rfl
  · rw [← Bool.not_eq_true]
    simp only [Bool.or_eq_true, Bool.and_eq_true, List.all_eq_true, decide_eq_true_eq, not_or, hne, not_false_eq_true, true_and]
    rintro ⟨h1, h2⟩
    rcases h with ⟨v, hm, hv⟩ | h
    · exact absurd (h1 v hm) (not_le.mpr hv)
    · rw [List.sum_eq_zero h] at h2
      exact lt_irrefl _ h2

/-! ## Boltzmann selection -/

theorem foldl_max_spec : ∀ (ys : List K) (y : K), ys.foldl max y ∈ y :: ys ∧ ∀ x ∈ y :: ys, x ≤ ys.foldl max y
  | [], y => by simp
  | z :: ys, y => by
    obtain ⟨h1, h2⟩ := foldl_max_spec ys (max y z)
    rw [List.foldl_cons]
    refine ⟨?_, ?_⟩
    · rcases List.mem_cons.mp h1 with h | h
      · rw [h]
        rcases max_choice y z with h | h <;> rw [h] <;> simp
      · exact List.mem_cons_of_mem _ (List.mem_cons_of_mem _ h)
    · intro x hx
      have h3 := h2 (max y z) (List.mem_cons_self ..)
      rcases List.mem_cons.mp hx with rfl | hx
      · exact le_trans (le_max_left _ _) h3
      · rcases List.mem_cons.mp hx with rfl | hx
        · exact le_trans (le_max_right _ _) h3
        · exact h2 x (List.mem_cons_of_mem _ hx)

theorem maxElement_spec {ys : List K} (h : ys ≠ []) : ∃ m, maxElement ys = ok m ∧ m ∈ ys ∧ ∀ y ∈ ys, y ≤ m := by
  cases ys with
  | nil => exact absurd rfl h
  | cons y ys => exact ⟨_, rfl, foldl_max_spec ys y⟩

/-- The weights of Boltzmann selection. -/
theorem boltzmann_loop {exp : K → K} {beta fmax : K} {ys zs : List K} (hz : zs.length = ys.length)
    (h : ∀ y ∈ ys, exp (beta * (y - fmax)) ≤ 1) :
    forRange 0 ys.length (boltzmannStep exp beta fmax ys) zs = ok (ys.map (fun y => exp (beta * (y - fmax)))) := by
  have key := forRange_returns (I := fun i (s : List K) => s.length = ys.length ∧
    ∀ (k : Nat), k < i → s[k]? = (ys.map (fun y => exp (beta * (y - fmax))))[k]?) (a := 0) (b := ys.length)
    (body := boltzmannStep exp beta fmax ys) (s := zs) (Nat.zero_le _) ⟨hz, by intro k hk; omega⟩ (by
      rintro i s _ hi ⟨h1, h2⟩
      have hg : ys[i]? = some ys[i] := List.getElem?_eq_getElem hi
      have hs : i < s.length := by omega
      unfold boltzmannStep
      rw [vget_eq hi, ok_bind]
      simp only
      rw [vset_eq hs, ok_bind, assert_pos (by simpa using h _ (List.getElem_mem hi)), ok_bind]
      refine ⟨_, rfl, by simpa using h1, fun k hk => ?_⟩
      by_cases hki : k = i
      · subst hki
        rw [List.getElem?_set_self hs, List.getElem?_map, hg]
        rfl
      · rw [List.getElem?_set_ne (by omega), h2 k (by omega)])
  obtain ⟨r, hr, h1, h2⟩ := key
  rw [hr]
  congr 1
  refine List.ext_getElem? (fun k => ?_)
  by_cases hk : k < ys.length
  · exact h2 k hk
  · rw [List.getElem?_eq_none (by omega), List.getElem?_eq_none (by simp; omega)]

theorem sum_scaled' (ws : List K) (c : K) : (ws.map (fun w => w * c)).sum = ws.sum * c := by
  rw [List.sum_map_mul_right, List.map_id']

theorem sum_scaled (ws : List K) (c : K) (j : Nat) : ((ws.map (fun w => w * c)).take j).sum = (ws.take j).sum * c := by
  rw [← List.map_take, sum_scaled']

/-- C74: with a non negative inverse temperature, Boltzmann selection selects each individual with a probability proportional to
the exponential of `beta` times its value, whatever the sign of the values: the individual `i` is selected exactly when the variate
is in its part, among consecutive parts of lengths `exp(beta v) / sum exp(beta v)`. -/
theorem boltzmann_shares {beta : ℝ} (hbeta : 0 ≤ beta) {values zs : List ℝ} {bvs : List BV} (hlen : values.length = bvs.length)
    (hz : zs.length = bvs.length) (hne : bvs ≠ []) :
    ∃ weights, boltzmannInit Real.exp beta bvs values zs = ok weights ∧
    ∀ u : ℝ, 0 ≤ u → u < 1 → ∃ i, InPart (values.map (fun v => Real.exp (beta * v))) i u ∧
      (∀ j, InPart (values.map (fun v => Real.exp (beta * v))) j u → j = i) ∧
      ∃ bv, bvs[i]? = some bv ∧ proportionateSelect weights bvs u = ok bv := by
  have hvne : values ≠ [] := by
    intro h
    rw [h] at hlen
    exact hne (List.length_eq_zero_iff.mp hlen.symm)
  obtain ⟨m, hm, hmem, hmax⟩ := maxElement_spec hvne
  have hle : ∀ y ∈ values, Real.exp (beta * (y - m)) ≤ 1 := fun y hy =>
    Real.exp_le_one_iff.mpr (mul_nonpos_of_nonneg_of_nonpos hbeta (by have := hmax y hy; linarith))
  have hloop := boltzmann_loop (exp := Real.exp) (zs := zs) (by rw [hz, hlen]) hle
  have hwpos : ∀ w ∈ values.map (fun y => Real.exp (beta * (y - m))), 0 ≤ w := by
    intro w hw
    obtain ⟨y, _, rfl⟩ := List.mem_map.mp hw
    exact (Real.exp_pos _).le
  obtain ⟨h1, h2⟩ := proportionate_shares (values := values.map (fun y => Real.exp (beta * (y - m)))) (bvs := bvs)
    (by simpa using hlen) hwpos ⟨_, List.mem_map.mpr ⟨m, hmem, rfl⟩, Real.exp_pos _⟩
  refine ⟨values.map (fun y => Real.exp (beta * (y - m))), ?_, fun u hu0 hu1 => ?_⟩
  · unfold boltzmannInit
    rw [hm, ok_bind, ← hlen, hloop, ok_bind]
    exact h1
  · have hscale : values.map (fun y => Real.exp (beta * (y - m))) =
        (values.map (fun v => Real.exp (beta * v))).map (fun w => w * Real.exp (-(beta * m))) := by
      rw [List.map_map]
      refine List.map_congr_left (fun y _ => ?_)
      show _ = Real.exp (beta * y) * Real.exp (-(beta * m))
      rw [← Real.exp_add]
      congr 1
      ring
    have hpart : ∀ j, InPart (values.map (fun y => Real.exp (beta * (y - m)))) j u ↔
        InPart (values.map (fun v => Real.exp (beta * v))) j u := by
      intro j
      have hc : Real.exp (-(beta * m)) ≠ 0 := (Real.exp_pos _).ne'
      unfold InPart
      rw [hscale, sum_scaled, sum_scaled, sum_scaled', mul_div_mul_right _ _ hc, mul_div_mul_right _ _ hc]
    obtain ⟨i, h3, h4, bv, v, h5, _, _, h6⟩ := h2 u hu0 hu1
    exact ⟨i, (hpart i).mp h3, fun j hj => h4 j ((hpart j).mpr hj), bv, h5, h6⟩

theorem forLoop_undefined {σ : Type} {body : Nat → σ → Outcome σ} (h1 : ∀ j s e, body j s ≠ throw e) : ∀ (n i k : Nat) (s : σ),
    i ≤ k → k < i + n → (∀ s, body k s = ub) → forLoop n i body s = ub
  | 0, i, k, s, h2, h3, _ => by omega
  | n + 1, i, k, s, h2, h3, h4 => by
    show (body i s >>= forLoop n (i + 1) body) = ub
    by_cases hik : i = k
    · subst hik
      rw [h4 s]
      rfl
    · cases hb : body i s with
      | ok s' => exact forLoop_undefined h1 n (i + 1) k s' (by omega) (by omega) h4
      | throw e => exact absurd hb (h1 i s e)
      | ub => rfl

/-- C74 (negative part): with a negative inverse temperature, the initialization fails on an assertion unless all values are equal
(in release builds, the distribution is the Boltzmann one). -/
theorem boltzmann_negative {beta : ℝ} (hbeta : beta < 0) {values zs : List ℝ} {bvs : List BV} (hlen : values.length = bvs.length)
    {y y' : ℝ} (hy : y ∈ values) (hy' : y' ∈ values) (hlt : y < y') : boltzmannInit Real.exp beta bvs values zs = ub := by
  obtain ⟨m, hm, hmem, hmax⟩ := maxElement_spec (List.ne_nil_of_mem hy)
  obtain ⟨k, hk, rfl⟩ := List.getElem_of_mem hy
  have hgt : 1 < Real.exp (beta * (values[k] - m)) := by
    rw [Real.one_lt_exp_iff]
    have := hmax y' hy'
    exact mul_pos_of_neg_of_neg hbeta (by linarith)
  unfold boltzmannInit
  rw [hm, ok_bind]
  have : forRange 0 bvs.length (boltzmannStep Real.exp beta m values) zs = ub := by
    refine forLoop_undefined ?_ _ 0 k zs (Nat.zero_le _) (by omega) ?_
    · intro j s e h
      unfold boltzmannStep at h
      by_cases hj : j < values.length
      · rw [vget_eq hj, ok_bind] at h
        simp only at h
        by_cases hs : j < s.length
        · rw [vset_eq hs, ok_bind] at h
          by_cases ha : Real.exp (beta * (values[j] - m)) ≤ 1
          · rw [assert_pos (by simpa using ha)] at h; cases h
          · rw [assert_neg (by simpa using ha)] at h; cases h
        · rw [vset_ub (by omega)] at h; cases h
      · rw [vget_ub (by omega)] at h; cases h
    · intro s
      unfold boltzmannStep
      rw [vget_eq hk, ok_bind]
      simp only
      by_cases hs : k < s.length
      · rw [vset_eq hs, ok_bind, assert_neg (by simpa using hgt)]; rfl
      · rw [vset_ub (by omega)]; rfl
  rw [this]
  rfl

/-! ## Uniform selection -/

/-- C74: uniform selection in a population which is not empty selects one of its individuals, and any of them. -/
theorem uniformSelect_any {L : Type} {p : Pop L} (hp : p.bvs ≠ []) :
    Sim.Post (uniformSelect p) (fun bv => bv ∈ p.bvs) ∧ ∀ bv ∈ p.bvs, Sim.Reaches (uniformSelect p) bv := by
  have hl := List.length_pos_iff.mpr hp
  refine ⟨?_, fun bv hb => ?_⟩
  · unfold uniformSelect
    refine (Sim.Post.uniformInt (Nat.zero_le _)).bind (fun i hi => ?_)
    have hi' : i < p.bvs.length := by
      have := hi.2
      unfold Pop.size at this
      omega
    rw [vget_eq hi']
    exact Sim.Post.lift ⟨_, rfl, List.getElem_mem hi'⟩
  · obtain ⟨i, hi, rfl⟩ := List.getElem_of_mem hb
    unfold uniformSelect
    refine (Sim.Reaches.uniformInt (Nat.zero_le i) (by unfold Pop.size; omega)).bind ?_
    exact Sim.Reaches.lift (vget_eq hi)

/-! ## Examples -/

/-- Three individuals with values 1, 0 and 3: three quarters of the variates select the third one. -/
example : proportionateInit ([1, 0, 3] : List Rat) = ok [1, 0, 3] ∧
    proportionateSelect ([1, 0, 3] : List Rat) [[false], [true], [true, true]] (1 / 8) = ok [false] ∧
    proportionateSelect ([1, 0, 3] : List Rat) [[false], [true], [true, true]] (1 / 4) = ok [true, true] ∧
    InPart ([1, 0, 3] : List Rat) 2 (1 / 4) := by
  refine ⟨by decide +kernel, by decide +kernel, by decide +kernel, ?_⟩
  unfold InPart
  norm_num

example : ∃ u : Rat, 0 ≤ u ∧ u < 1 ∧ proportionateSelect ([1, 0, 3] : List Rat) [[false], [true], [true, true]] u = ok [true, true] :=
  proportionate_possible (K := Rat) (values := [1, 0, 3]) (bvs := [[false], [true], [true, true]]) (i := 2) (v := 3) rfl (by decide) rfl rfl (by decide)

/-- A population of null values: OneMax on null vectors. -/
example : proportionateInit ([0, 0] : List Rat) = ub := proportionate_undefined (by simp) (Or.inr (by decide))

/-- Boltzmann selection with negative values. -/
example : ∃ weights, boltzmannInit Real.exp 1 [[false], [true]] [-1, -5] [0, 0] = ok weights ∧
    ∃ bv, proportionateSelect weights [[false], [true]] (1 / 2) = ok bv := by
  obtain ⟨w, h1, h2⟩ := boltzmann_shares (beta := 1) (by norm_num) (values := [-1, -5]) (zs := [0, 0]) (bvs := [[false], [true]]) rfl rfl
    (by simp)
  obtain ⟨i, _, _, bv, _, h3⟩ := h2 (1 / 2) (by norm_num) (by norm_num)
  exact ⟨w, h1, bv, h3⟩

example : boltzmannInit Real.exp (-1) [[false], [true]] [-1, -5] [0, 0] = ub :=
  boltzmann_negative (by norm_num) rfl (y := -5) (y' := -1) (by simp) (by simp) (by norm_num)

end Hnco
