import Verif.Prob.SymmetryProps
import Verif.Prob.VectorProps

/-!
# Probability vectors and the symmetries of the hypercube
-/

namespace Hnco.Prob

open Outcome
open scoped ENNReal

variable {n : ℕ} (σ : Symmetry n)

/-- The probability vector which corresponds to another one. -/
def Symmetry.turn (pv : List ℚ) : List ℚ :=
  (List.range n).map (fun i => if σ.exchange i then 1 - pv.getD (σ.source i) 0 else pv.getD (σ.source i) 0)

theorem Symmetry.turn_length (pv : List ℚ) : (σ.turn pv).length = n := by simp [Symmetry.turn]

theorem Symmetry.turn_get (pv : List ℚ) {i : ℕ} (hi : i < n) :
    (σ.turn pv).getD i 0 = if σ.exchange i then 1 - pv.getD (σ.source i) 0 else pv.getD (σ.source i) 0 := by
  simp [Symmetry.turn, hi]

theorem pv_ext {x y : List ℚ} (hx : x.length = n) (hy : y.length = n) (h : ∀ i < n, x.getD i 0 = y.getD i 0) : x = y := by
  apply List.ext_getElem (by omega)
  intro i h1 h2
  have := h i (by omega)
  rwa [List.getD_eq_getElem _ _ h1, List.getD_eq_getElem _ _ h2] at this

theorem Symmetry.turn_half : σ.turn (List.replicate n (1 / 2)) = List.replicate n (1 / 2) := by
  refine pv_ext (σ.turn_length _) (by simp) (fun i hi => ?_)
  rw [σ.turn_get _ hi, List.getD_replicate _ (σ.source_lt i hi), List.getD_replicate _ hi]
  split <;> norm_num

/-- Maps which commute with the exchange of zeros and ones. -/
theorem Symmetry.turn_map {F : ℚ → ℚ} (hF : ∀ p, F (1 - p) = 1 - F p) {pv : List ℚ} (hpv : pv.length = n) :
    (σ.turn pv).map F = σ.turn (pv.map F) := by
  refine pv_ext (by simp [σ.turn_length]) (σ.turn_length _) (fun i hi => ?_)
  have hs := σ.source_lt i hi
  rw [σ.turn_get _ hi, List.getD_eq_getElem _ _ (by simp [σ.turn_length, hi]), List.getElem_map, List.getD_eq_getElem _ _ (by simp [hpv, hs]),
    List.getElem_map, ← List.getD_eq_getElem _ 0, σ.turn_get _ hi, List.getD_eq_getElem _ _ (by omega)]
  split
  · exact hF _
  · rfl

theorem Symmetry.turn_bits {F : ℚ → Bool → ℚ} (hF : ∀ p b, F (1 - p) (!b) = 1 - F p b) {pv : List ℚ} {x : BV} (hpv : pv.length = n) (hx : x.length = n) :
    List.zipWith F (σ.turn pv) (σ.act x) = σ.turn (List.zipWith F pv x) := by
  refine pv_ext (by simp [σ.turn_length, σ.act_length]) (σ.turn_length _) (fun i hi => ?_)
  have hs := σ.source_lt i hi
  rw [σ.turn_get _ hi, List.getD_eq_getElem _ _ (by simp [σ.turn_length, σ.act_length, hi]), List.getElem_zipWith,
    List.getD_eq_getElem _ _ (by simp [hpv, hx, hs]), List.getElem_zipWith, ← List.getD_eq_getElem _ 0, ← List.getD_eq_getElem _ false,
    σ.turn_get _ hi, σ.act_get _ hi, List.getD_eq_getElem _ _ (by omega), List.getD_eq_getElem _ _ (by omega)]
  cases σ.exchange i
  · simp
  · simpa using hF _ _

theorem Symmetry.turn_pair {F : ℚ → ℚ → ℚ} (hF : ∀ p b, F (1 - p) (1 - b) = 1 - F p b) {pv x : List ℚ} (hpv : pv.length = n) (hx : x.length = n) :
    List.zipWith F (σ.turn pv) (σ.turn x) = σ.turn (List.zipWith F pv x) := by
  refine pv_ext (by simp [σ.turn_length]) (σ.turn_length _) (fun i hi => ?_)
  have hs := σ.source_lt i hi
  rw [σ.turn_get _ hi, List.getD_eq_getElem _ _ (by simp [σ.turn_length, hi]), List.getElem_zipWith,
    List.getD_eq_getElem _ _ (by simp [hpv, hx, hs]), List.getElem_zipWith, ← List.getD_eq_getElem _ 0, ← List.getD_eq_getElem _ 0,
    σ.turn_get _ hi, σ.turn_get _ hi, List.getD_eq_getElem _ _ (by omega), List.getD_eq_getElem _ _ (by omega)]
  split
  · exact hF _ _
  · rfl

theorem clamp_sub {lower upper : ℚ} (h1 : lower + upper = 1) (h2 : lower ≤ upper) (p : ℚ) :
    max lower (min upper (1 - p)) = 1 - max lower (min upper p) := by
  rcases le_total upper p with h | h
  · rw [min_eq_left h, max_eq_right h2]
    rcases le_total lower (min upper (1 - p)) with h' | h'
    · rw [max_eq_right h', min_eq_right (by linarith)]
      have := h'.trans (min_le_right _ _)
      linarith
    · rw [max_eq_left h']; linarith
  · rw [min_eq_right h]
    rcases le_total lower p with h' | h'
    · rw [max_eq_right h', min_eq_right (by linarith), max_eq_right (by linarith)]
    · rw [max_eq_left h', min_eq_left (by linarith), max_eq_right h2]; linarith

theorem Symmetry.turn_bound {lower upper : ℚ} (h1 : lower + upper = 1) (h2 : lower ≤ upper) {pv r : List ℚ} (hpv : pv.length = n)
    (h : pvBound pv lower upper = ok r) : r.length = n ∧ pvBound (σ.turn pv) lower upper = ok (σ.turn r) := by
  rw [pvBound_eq] at h
  injection h with h
  subst h
  rw [pvBound_eq, σ.turn_map (clamp_sub h1 h2) hpv]
  exact ⟨by simpa using hpv, rfl⟩

theorem bitRat_not (b : Bool) : bitRat (!b) = 1 - bitRat b := by cases b <;> simp [bitRat]

theorem Symmetry.turn_update (rate : ℚ) {pv : List ℚ} {x : BV} (hpv : pv.length = n) (hx : x.length = n) :
    ∃ r, pvUpdateBits pv x rate = ok r ∧ r.length = n ∧ pvUpdateBits (σ.turn pv) (σ.act x) rate = ok (σ.turn r) := by
  refine ⟨_, pvUpdateBits_eq (by omega), by simp [hpv, hx], ?_⟩
  rw [pvUpdateBits_eq (by rw [σ.act_length, σ.turn_length]), σ.turn_bits (fun p b => ?_) hpv hx]
  rw [bitRat_not]
  ring

theorem compactMove_get {pv r : List ℚ} {x y : BV} {rate : ℚ} (hpv : pv.length = n) (hx : x.length = n) (hy : y.length = n)
    (h : compactMove rate x y pv = ok r) :
    r.length = n ∧ ∀ i < n, r.getD i 0 = pv.getD i 0 + rate * (bitRat (x.getD i false) - bitRat (y.getD i false)) := by
  obtain ⟨r', h1, h2, h3⟩ := compactMove_spec hpv hx hy rate
  rw [h] at h1
  injection h1 with h1
  subst h1
  refine ⟨h2, fun i hi => ?_⟩
  have := h3 i pv[i] x[i] y[i] (List.getElem?_eq_getElem (by omega)) (List.getElem?_eq_getElem (by omega)) (List.getElem?_eq_getElem (by omega))
  rw [List.getD_eq_getElem?_getD, this, List.getD_eq_getElem _ _ (by omega), List.getD_eq_getElem _ _ (by omega), List.getD_eq_getElem _ _ (by omega)]
  rfl

theorem Symmetry.turn_move (rate : ℚ) {pv : List ℚ} {x y : BV} (hpv : pv.length = n) (hx : x.length = n) (hy : y.length = n) :
    ∃ r, compactMove rate x y pv = ok r ∧ r.length = n ∧ compactMove rate (σ.act x) (σ.act y) (σ.turn pv) = ok (σ.turn r) := by
  obtain ⟨r, h1, h2, _⟩ := compactMove_spec hpv hx hy rate
  obtain ⟨r', h1', h2', _⟩ := compactMove_spec (σ.turn_length pv) (σ.act_length x) (σ.act_length y) rate
  refine ⟨r, h1, h2, ?_⟩
  rw [h1']
  congr 1
  refine pv_ext h2' (σ.turn_length _) (fun i hi => ?_)
  have hs := σ.source_lt i hi
  rw [(compactMove_get (σ.turn_length pv) (σ.act_length x) (σ.act_length y) h1').2 i hi, σ.turn_get _ hi, σ.turn_get _ hi, σ.act_get _ hi,
    σ.act_get _ hi, (compactMove_get hpv hx hy h1).2 _ hs]
  cases σ.exchange i
  · simp
  · simp only [Bool.xor_true, bitRat_not, if_true]
    ring

/-! ## Sampling -/

theorem coin_not (p : ℚ) (b : Bool) : (Dist.coin (ENNReal.ofReal ((1 - p : ℚ) : ℝ))).mass (!b) = (Dist.coin (ENNReal.ofReal (p : ℝ))).mass b := by
  have key : ∀ q : ℝ, 1 - ENNReal.ofReal (1 - q) = min (ENNReal.ofReal q) 1 := by
    intro q
    rcases le_total q 1 with h | h
    · rw [← ENNReal.ofReal_one, ← ENNReal.ofReal_sub _ (by linarith), min_eq_left (ENNReal.ofReal_le_ofReal h)]
      congr 1
      ring
    · rw [ENNReal.ofReal_of_nonpos (by linarith), min_eq_right (by rw [← ENNReal.ofReal_one]; exact ENNReal.ofReal_le_ofReal h)]
      simp
  push_cast
  cases b
  · change min (ENNReal.ofReal (1 - (p : ℝ))) 1 = 1 - ENNReal.ofReal (p : ℝ)
    rw [← key]
    congr 2
    ring
  · exact key p

/-- The law of a vector sampled from any list of rational numbers. -/
theorem sampleVector_apply {pv : List ℚ} {x : BV} (hpv : pv.length = n) (hx : x.length = n) (y : BV) :
    sampleVector pv x y = if y.length = n then ∏ i ∈ Finset.range n, (Dist.coin (ENNReal.ofReal ((pv.getD i 0 : ℚ) : ℝ))).mass (y.getD i false) else 0 := by
  unfold sampleVector pvSample
  rw [Dist.assert_bind (by simp [hpv, hx])]
  let c : ℕ → Dist Bool := fun i => Dist.coin (ENNReal.ofReal ((pv.getD i 0 : ℚ) : ℝ))
  rw [bits_range c]
  · rw [bitsLaw_apply, List.length_map, List.length_range, hx]
    refine ite_congr rfl (fun hy => ?_) (fun _ => rfl)
    have : List.zipWith (fun (c : Dist Bool) b => c.mass b) ((List.range n).map c) y = (List.range n).map (fun i => (c i).mass (y.getD i false)) := by
      apply List.ext_getElem
      · simp [hy]
      · intro i h1 h2
        have hi : i < y.length := by simp at h2; omega
        rw [List.getElem_zipWith, List.getElem_map, List.getElem_map, List.getElem_range, List.getD_eq_getElem _ _ hi]
    rw [this]
    rfl
  · intro j z hj hz
    have hjp : j < pv.length := by omega
    rw [vget_eq (by simpa using hjp), Dist.lift_ok, Dist.pure_bind', List.getElem_map]
    have : c j = Dist.coin (ENNReal.ofReal ((pv[j] : ℚ) : ℝ)) := by
      change Dist.coin (ENNReal.ofReal ((pv.getD j 0 : ℚ) : ℝ)) = _
      rw [List.getD_eq_getElem _ _ hjp]
    rw [this]
    congr 1
    funext b
    rw [vset_eq (by omega), vset_eq (by omega), Dist.lift_ok, Dist.lift_ok]
    cases b <;> rfl

theorem sampleVector_length {pv : List ℚ} {x y : BV} (hpv : pv.length = n) (hx : x.length = n) (h : sampleVector pv x y ≠ 0) : y.length = n := by
  rw [sampleVector_apply hpv hx] at h
  by_contra h'
  exact h (if_neg h')

/-- The vector which corresponds to another one is as likely. -/
theorem Symmetry.sample_act {pv : List ℚ} {x x' y : BV} (hpv : pv.length = n) (hx : x.length = n) (hx' : x'.length = n) (hy : y.length = n) :
    sampleVector (σ.turn pv) x' (σ.act y) = sampleVector pv x y := by
  rw [sampleVector_apply (σ.turn_length pv) hx', sampleVector_apply hpv hx, if_pos (σ.act_length y), if_pos hy]
  refine Finset.prod_nbij' σ.source σ.dest ?_ ?_ ?_ ?_ ?_
  · exact fun i hi => Finset.mem_range.mpr (σ.source_lt i (Finset.mem_range.mp hi))
  · exact fun i hi => Finset.mem_range.mpr (σ.dest_lt i (Finset.mem_range.mp hi))
  · exact fun i hi => σ.dest_source i (Finset.mem_range.mp hi)
  · exact fun i hi => σ.source_dest i (Finset.mem_range.mp hi)
  · intro i hi
    have hi := Finset.mem_range.mp hi
    rw [σ.turn_get _ hi, σ.act_get _ hi]
    cases σ.exchange i
    · simp
    · simpa using coin_not _ _

theorem Symmetry.sample_paired {pv : List ℚ} {x x' : BV} (hpv : pv.length = n) (hx : x.length = n) (hx' : x'.length = n) :
    Paired (fun a b => a.length = n ∧ b = σ.act a) (sampleVector pv x) (sampleVector (σ.turn pv) x') := by
  have hl : ∀ {y}, sampleVector pv x y ≠ 0 → y.length = n := fun h => sampleVector_length hpv hx h
  have hl' : ∀ {y}, sampleVector (σ.turn pv) x' y ≠ 0 → y.length = n := fun h => sampleVector_length (σ.turn_length pv) hx' h
  refine Paired.of_bijection (φ := σ.act) (ψ := σ.unact) (fun a ha => ⟨σ.sample_act hpv hx hx' (hl ha), σ.unact_act (hl ha)⟩)
    (fun b hb => ⟨?_, σ.act_unact (hl' hb)⟩) (fun a ha => ⟨hl ha, rfl⟩)
  rw [← σ.sample_act hpv hx hx' (σ.unact_length b), σ.act_unact (hl' hb)]
  exact hb

end Hnco.Prob
