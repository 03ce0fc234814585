import Verif.Prob.Pairing
import Verif.Prob.Props
import Verif.Prob.SymmetrySpec

/-!
# Symmetries: lemmas
-/

namespace Hnco.Prob

open Outcome
open scoped ENNReal

variable {n : ℕ} (σ : Symmetry n)

theorem Symmetry.act_length (x : BV) : (σ.act x).length = n := by simp [Symmetry.act]

/-- The inverse. -/
def Symmetry.unact (y : BV) : BV := (List.range n).map (fun j => xor (y.getD (σ.dest j) false) (σ.exchange (σ.dest j)))

theorem Symmetry.unact_length (y : BV) : (σ.unact y).length = n := by simp [Symmetry.unact]

theorem Symmetry.act_get (x : BV) {i : ℕ} (hi : i < n) : (σ.act x).getD i false = xor (x.getD (σ.source i) false) (σ.exchange i) := by
  simp [Symmetry.act, hi]

theorem Symmetry.unact_get (y : BV) {j : ℕ} (hj : j < n) : (σ.unact y).getD j false = xor (y.getD (σ.dest j) false) (σ.exchange (σ.dest j)) := by
  simp [Symmetry.unact, hj]

theorem bv_ext {x y : BV} (hx : x.length = n) (hy : y.length = n) (h : ∀ i < n, x.getD i false = y.getD i false) : x = y := by
  refine List.ext_getElem (hx.trans hy.symm) (fun i h1 h2 => ?_)
  have := h i (by omega)
  simpa [List.getD, h1, h2] using this

theorem Symmetry.act_unact {y : BV} (hy : y.length = n) : σ.act (σ.unact y) = y := by
  refine bv_ext (σ.act_length _) hy (fun i hi => ?_)
  rw [σ.act_get _ hi, σ.unact_get _ (σ.source_lt i hi), σ.dest_source i hi]
  simp

theorem Symmetry.unact_act {x : BV} (hx : x.length = n) : σ.unact (σ.act x) = x := by
  refine bv_ext (σ.unact_length _) hx (fun j hj => ?_)
  rw [σ.unact_get _ hj, σ.act_get _ (σ.dest_lt j hj), σ.source_dest j hj]
  simp

/-! ## Positions -/

/-- Where positions go. -/
def Symmetry.move (l : List ℕ) : List ℕ := (List.range n).filter (fun i => decide (σ.source i ∈ l))

/-- Where positions come from. -/
def Symmetry.unmove (l : List ℕ) : List ℕ := (List.range n).filter (fun j => decide (σ.dest j ∈ l))

theorem Symmetry.mem_move {l : List ℕ} {i : ℕ} : i ∈ σ.move l ↔ i < n ∧ σ.source i ∈ l := by simp [Symmetry.move]

theorem Symmetry.mem_unmove {l : List ℕ} {j : ℕ} : j ∈ σ.unmove l ↔ j < n ∧ σ.dest j ∈ l := by simp [Symmetry.unmove]

theorem filter_range_ascending (p : ℕ → Bool) : Ascending 0 n ((List.range n).filter p) := by
  refine ⟨List.Pairwise.filter _ List.pairwise_lt_range, fun j hj => ?_⟩
  have := List.mem_range.mp (List.mem_filter.mp hj).1
  omega

theorem Symmetry.move_unmove {l : List ℕ} (hl : Ascending 0 n l) : σ.move (σ.unmove l) = l := by
  refine ascending_ext (filter_range_ascending _) hl (fun i hi => ?_)
  rw [σ.mem_move, σ.mem_unmove, σ.dest_source i hi]
  exact ⟨fun h => h.2.2, fun h => ⟨hi, σ.source_lt i hi, h⟩⟩

theorem Symmetry.unmove_move {l : List ℕ} (hl : Ascending 0 n l) : σ.unmove (σ.move l) = l := by
  refine ascending_ext (filter_range_ascending _) hl (fun j hj => ?_)
  rw [σ.mem_unmove, σ.mem_move, σ.source_dest j hj]
  exact ⟨fun h => h.2.2, fun h => ⟨hj, σ.dest_lt j hj, h⟩⟩

theorem Symmetry.move_length {l : List ℕ} (hl : Ascending 0 n l) : (σ.move l).length = l.length := by
  have hnd : l.Nodup := hl.1.imp (fun h => Nat.ne_of_lt h)
  have hlt : ∀ j ∈ l, j < n := fun j hj => by have := hl.2 j hj; omega
  have hp : (σ.move l).Perm (l.map σ.dest) := by
    have h1 : (σ.move l).Nodup := List.nodup_range.filter _
    have h2 : (l.map σ.dest).Nodup :=
      List.Nodup.map_on (fun a ha b hb h => by rw [← σ.source_dest a (hlt a ha), ← σ.source_dest b (hlt b hb), h]) hnd
    rw [List.perm_ext_iff_of_nodup h1 h2]
    intro i
    rw [σ.mem_move, List.mem_map]
    constructor
    · rintro ⟨h1, h2⟩
      exact ⟨_, h2, σ.dest_source i h1⟩
    · rintro ⟨j, hj, rfl⟩
      exact ⟨σ.dest_lt j (hlt j hj), by rw [σ.source_dest j (hlt j hj)]; exact hj⟩
  rw [hp.length_eq, List.length_map]

theorem Fair.support {d : Dist (List ℕ)} (hd : Fair d n) : ∀ l, d l ≠ 0 → Ascending 0 n l :=
  fun l hl => ⟨(hd.sorted l hl).1, fun j hj => by have := (hd.sorted l hl).2 j hj; omega⟩

theorem Fair.equal {d : Dist (List ℕ)} (hd : Fair d n) {l l' : List ℕ} (h : Ascending 0 n l) (h' : Ascending 0 n l') (he : l.length = l'.length) :
    d l = d l' :=
  hd.even l l' h.1 (fun i hi => by have := h.2 i hi; omega) h'.1 (fun i hi => by have := h'.2 i hi; omega) he

/-- Flipped positions, paired with their images. -/
theorem Fair.paired {d : Dist (List ℕ)} (hd : Fair d n) : Paired (fun l l' => Ascending 0 n l ∧ l' = σ.move l) d d := by
  refine Paired.of_bijection (φ := σ.move) (ψ := σ.unmove) (fun l hl => ?_) (fun l hl => ?_) (fun l hl => ⟨hd.support l hl, rfl⟩)
  · have ha := hd.support l hl
    exact ⟨hd.equal (filter_range_ascending _) ha (σ.move_length ha), σ.unmove_move ha⟩
  · have ha := hd.support l hl
    refine ⟨?_, σ.move_unmove ha⟩
    have hu : Ascending 0 n (σ.unmove l) := filter_range_ascending _
    rw [hd.equal hu ha (by rw [← σ.move_length hu, σ.move_unmove ha])]
    exact hl

theorem differences_get {x y : BV} (hx : x.length = n) (hy : y.length = n) {i : ℕ} (hi : i < n) :
    i ∈ differences x y ↔ x.getD i false ≠ y.getD i false := by
  unfold differences
  rw [List.mem_filter, List.mem_range, decide_eq_true_iff]
  simp [List.getD, hx, hy, hi]

theorem Symmetry.differences {x y : BV} (hx : x.length = n) (hy : y.length = n) :
    differences (σ.act x) (σ.act y) = σ.move (differences x y) := by
  have h1 : Ascending 0 n (Prob.differences (σ.act x) (σ.act y)) := by
    have := differences_ascending (σ.act x) (σ.act y)
    rwa [σ.act_length] at this
  refine ascending_ext h1 (filter_range_ascending _) (fun i hi => ?_)
  rw [differences_get (σ.act_length x) (σ.act_length y) hi, σ.mem_move, σ.act_get x hi, σ.act_get y hi,
    differences_get hx hy (σ.source_lt i hi)]
  simp [hi]

/-- Flipping and relabelling. -/
theorem Symmetry.flip {x y : BV} {l : List ℕ} (hx : x.length = n) (hl : Ascending 0 n l) (h : bvFlipSparse x l = ok y) :
    y.length = n ∧ bvFlipSparse (σ.act x) (σ.move l) = ok (σ.act y) := by
  obtain ⟨hy, hd⟩ := (flip_iff (by rw [hx]; exact hl)).mp h
  have hyn : y.length = n := hy.trans hx
  refine ⟨hyn, (flip_iff (by rw [σ.act_length]; exact filter_range_ascending _)).mpr ⟨by rw [σ.act_length, σ.act_length], ?_⟩⟩
  rw [σ.differences hx hyn, hd]

theorem flip_ok {x : BV} {l : List ℕ} (hx : x.length = n) (hl : Ascending 0 n l) : ∃ y, bvFlipSparse x l = ok y := by
  obtain ⟨y, hy, _⟩ := bvFlipSparse_exact x l hl.1 (fun i hi => by have := hl.2 i hi; omega)
  exact ⟨y, hy⟩

/-! ## Random vectors -/

theorem randomBits_paired {x x' : BV} (hx : x.length = n) (hx' : x'.length = n) :
    Paired (fun a b => a.length = n ∧ b = σ.act a) (bvRandomBits x) (bvRandomBits x') := by
  have hl : ∀ {z y : BV}, z.length = n → bvRandomBits z y ≠ 0 → y.length = n := by
    intro z y hz h
    rw [bvRandomBits_law, hz] at h
    by_contra h'
    exact h (if_neg h')
  refine Paired.of_bijection (φ := σ.act) (ψ := σ.unact) (fun a ha => ⟨?_, σ.unact_act (hl hx ha)⟩) (fun b hb => ⟨?_, σ.act_unact (hl hx' hb)⟩)
    (fun a ha => ⟨hl hx ha, rfl⟩)
  · rw [bvRandomBits_law, bvRandomBits_law, σ.act_length, hx, hx', if_pos rfl, if_pos (hl hx ha)]
  · rw [bvRandomBits_law, σ.unact_length, hx, if_pos rfl]
    exact ENNReal.inv_ne_zero.mpr (ENNReal.pow_ne_top (by norm_num))

variable {K : Type} [LinearOrder K] {f g : Fn K} {val val' : BV → K}

/-- Related solutions. -/
def SolR (n : ℕ) (σ : Symmetry n) (r r' : BV × K) : Prop := r.1.length = n ∧ r' = (σ.act r.1, r.2)

variable {σ}

theorem randomSolution_paired (h : Relabeled σ f g val val') {x x' : BV} (hx : x.length = n) (hx' : x'.length = n) :
    Paired (fun r r' => SolR n σ r r' ∧ r.2 = val r.1) (randomSolution f x) (randomSolution g x') := by
  refine (randomBits_paired σ hx hx').bind (fun a b hab => ?_)
  obtain ⟨ha, rfl⟩ := hab
  rw [h.left.eval a ha, h.right.eval _ (σ.act_length a), h.same a ha]
  simp only [Dist.lift_ok, Dist.pure_bind']
  exact Paired.pure ⟨⟨ha, rfl⟩, rfl⟩

end Hnco.Prob
