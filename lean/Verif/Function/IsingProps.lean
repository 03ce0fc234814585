import Verif.BitVector.Props
import Verif.Function.Ising
import Verif.Function.Spec
import Verif.Function.Sums
import Mathlib.Algebra.BigOperators.Intervals
import Mathlib.Tactic.Abel
import Mathlib.Tactic.Ring

/-!
# Ising models: values and incremental evaluation (C27), invariance under complement (part of C45)
-/

namespace Hnco

open Outcome

variable {K : Type} [Ring K]

/-! ## Specification -/

/-- The spin of site `i`: `(-1)^{x_i}`. -/
def spin (K : Type) [Ring K] (x : BV) (i : Nat) : K := if x[i]? = some true then -1 else 1

/-- Entry `i` of a vector (0 outside). -/
def entry (l : List K) (i : Nat) : K := l[i]?.getD 0

/-- Entry `(i, j)` of a grid (0 outside). -/
def gridEntry (g : List (List K)) (i j : Nat) : K := entry (g[i]?.getD []) j

/-- The grid has `rows` rows of `columns` elements. -/
def GridShape (g : List (List K)) (rows columns : Nat) : Prop :=
  g.length = rows ∧ ∀ row ∈ g, row.length = columns

/-! ## Helper lemmas -/

/-- Bit `i` as a boolean. -/
def bitOf (x : BV) (i : Nat) : Bool := x[i]?.getD false

theorem spin_bitOf (x : BV) (i : Nat) : spin K x i = if bitOf x i then -1 else 1 := by
  unfold spin bitOf
  rcases h : x[i]? with _ | b
  · simp
  · cases b <;> simp

theorem spin_mul (c : K) (x : BV) (i j : Nat) :
    c * spin K x i * spin K x j = if bitOf x i = bitOf x j then c else -c := by
  rw [spin_bitOf, spin_bitOf]
  cases bitOf x i <;> cases bitOf x j <;> simp

theorem mul_spin (c : K) (x : BV) (i : Nat) : c * spin K x i = if bitOf x i then -c else c := by
  rw [spin_bitOf]
  cases bitOf x i <;> simp

theorem vget_bitOf (x : BV) (i : Nat) (h : i < x.length) : vget x i = ok (bitOf x i) := by
  rw [vget_eq h]; simp [bitOf, h]

theorem vget_entry (l : List K) (i : Nat) (h : i < l.length) : vget l i = ok (entry l i) := by
  rw [vget_eq h]; simp [entry, h]

theorem gridGet_entry (g : List (List K)) (rows columns i j : Nat) (hg : GridShape g rows columns)
    (hi : i < rows) (hj : j < columns) : gridGet g i j = ok (gridEntry g i j) := by
  have hi' : i < g.length := by rw [hg.1]; exact hi
  unfold gridGet gridEntry
  rw [vget_eq hi', ok_bind, List.getElem?_eq_getElem hi', Option.getD_some, vget_entry]
  rw [hg.2 _ (List.getElem_mem hi')]
  exact hj

theorem equalBits_eq (x : BV) (i j : Nat) (hi : i < x.length) (hj : j < x.length) :
    equalBits x i j = ok (bitOf x i == bitOf x j) := by
  unfold equalBits
  rw [vget_bitOf x i hi, vget_bitOf x j hj]
  cases bitOf x i <;> cases bitOf x j <;> rfl

theorem forRange_sum_range {L : Type} [AddCommMonoid L] (n : Nat) (body : Nat → L → Outcome L) (t : Nat → L)
    (r : L) (h : ∀ i < n, ∀ r, body i r = ok (r + t i)) :
    forRange 0 n body r = ok (r + ∑ i ∈ Finset.range n, t i) := by
  rw [Finset.sum_range]
  exact forRange_sum body (fun i : Fin n => t i) r (fun i r => h i i.isLt r)

theorem forEach_flips_range {L : Type} [AddCommMonoid L] (n : Nat) (body : Nat → L → Outcome L) (d : Nat → L)
    (flips : List Nat) (hnd : flips.Nodup) (hr : ∀ i ∈ flips, i < n)
    (h : ∀ i < n, i ∈ flips → ∀ r, body i r = ok (r + d i)) (r : L) :
    forEach flips body r = ok (r + ∑ i ∈ Finset.range n, if i ∈ flips then d i else 0) := by
  rw [Finset.sum_range, ← sum_flips (fun i : Fin n => d i) flips hnd hr d (fun _ => rfl)]
  apply forEach_sum
  intro i hi r
  exact h i (hr i hi) hi r

/-- The interaction on the edge from `s` to `rt s`. -/
def edgeTerm (J : Nat → K) (rt : Nat → Nat) (x : Nat → Bool) (s : Nat) : K :=
  if x s = x (rt s) then J s else -J s

/-- Variation of the interactions when some bits are flipped. -/
theorem edge_flip (n : Nat) (rt lf : Nat → Nat) (hrt : ∀ s < n, rt s < n) (hlf : ∀ s < n, lf s < n)
    (h1 : ∀ s < n, lf (rt s) = s) (h2 : ∀ s < n, rt (lf s) = s) (J : Nat → K) (x : Nat → Bool)
    (flips : List Nat) :
    ∑ s ∈ Finset.range n, edgeTerm J rt (fun s => if s ∈ flips then !x s else x s) s =
      ∑ s ∈ Finset.range n, edgeTerm J rt x s +
      (∑ s ∈ Finset.range n, (if s ∈ flips then (if rt s ∈ flips then 0 else -(2 * edgeTerm J rt x s)) else 0) +
       ∑ s ∈ Finset.range n,
        (if s ∈ flips then (if lf s ∈ flips then 0 else -(2 * edgeTerm J rt x (lf s))) else 0)) := by
  have hre : ∑ s ∈ Finset.range n,
        (if s ∈ flips then (if lf s ∈ flips then 0 else -(2 * edgeTerm J rt x (lf s))) else 0) =
      ∑ s ∈ Finset.range n,
        (if rt s ∈ flips then (if s ∈ flips then 0 else -(2 * edgeTerm J rt x s)) else 0) := by
    apply Finset.sum_nbij' lf rt
    · intro s hs; rw [Finset.mem_range] at *; exact hlf s hs
    · intro s hs; rw [Finset.mem_range] at *; exact hrt s hs
    · intro s hs; rw [Finset.mem_range] at *; exact h2 s hs
    · intro s hs; rw [Finset.mem_range] at *; exact h1 s hs
    · intro s hs; rw [Finset.mem_range] at *; simp only [h2 s hs]
  rw [hre, ← Finset.sum_add_distrib, ← Finset.sum_add_distrib]
  apply Finset.sum_congr rfl
  intro s _
  unfold edgeTerm
  beta_reduce
  generalize x s = p
  generalize x (rt s) = q
  by_cases a : s ∈ flips <;> by_cases b : rt s ∈ flips <;> cases p <;> cases q <;>
    simp [a, b, two_mul]

theorem bitOf_flipped (x y : BV) (flips : List Nat) (n : Nat) (hx : x.length = n)
    (hf : ∀ (i : Nat) (b : Bool), x[i]? = some b → y[i]? = some (if i ∈ flips then !b else b)) (i : Nat)
    (hi : i < n) : bitOf y i = if i ∈ flips then !bitOf x i else bitOf x i := by
  have := hf i (bitOf x i) (by
    unfold bitOf
    rw [List.getElem?_eq_getElem (by omega)]; rfl)
  unfold bitOf at this ⊢
  rw [this]
  rfl

/-- Flipping a zero buffer marks the flipped bits; flipping it again clears it. -/
theorem flip_buffer (n : Nat) (flips : List Nat) (hs : flips.Pairwise (· < ·)) (hr : ∀ i ∈ flips, i < n) :
    ∃ flipped, bvFlipSparse (List.replicate n false) flips = ok flipped ∧
      bvFlipSparse flipped flips = ok (List.replicate n false) ∧
      ∀ i < n, vget flipped i = ok (decide (i ∈ flips)) := by
  obtain ⟨flipped, h1, h2, h3⟩ := bvFlipSparse_exact (List.replicate n false) flips hs (by simpa using hr)
  have htw := bvFlipSparse_twice (List.replicate n false) flips
    ((sbvIsValid_iff _ _).mpr ⟨hs.imp (fun h => Nat.le_of_lt h), by simpa using hr⟩)
  rw [h1, ok_bind] at htw
  refine ⟨flipped, h1, htw, ?_⟩
  intro i hi
  have := h3 i false (by simp [hi])
  unfold vget
  rw [this]
  by_cases h : i ∈ flips <;> simp [h]

/-- The contribution of a neighbour. -/
theorem flipInteraction_eq (n : Nat) (flips : List Nat) (flipped x : BV) (hx : x.length = n)
    (hfl : ∀ i < n, vget flipped i = ok (decide (i ∈ flips))) (index nb : Nat) (hi : index < n) (hn : nb < n)
    (coupling : Outcome K) (c : K) (hc : coupling = ok c) (v : K) :
    flipInteraction flipped x index nb coupling v =
      ok (v + if nb ∈ flips then 0 else
        -(2 * if bitOf x index = bitOf x nb then c else -c)) := by
  unfold flipInteraction
  rw [hfl nb hn, ok_bind]
  by_cases h : nb ∈ flips
  · simp [h]
  · simp only [h, decide_false, Bool.false_eq_true, if_false]
    rw [equalBits_eq x index nb (by omega) (by omega), ok_bind, hc, ok_bind]
    cases bitOf x index <;> cases bitOf x nb <;> simp [sub_eq_add_neg]

/-- The loop on the external field. -/
theorem field_loop (n : Nat) (flips : List Nat) (hnd : flips.Nodup) (hr : ∀ i ∈ flips, i < n) (x : BV)
    (hx : x.length = n) (field : Nat → Outcome K) (h : Nat → K) (hf : ∀ i < n, field i = ok (h i)) (v : K) :
    forEach flips (fun index value => do
      let b ← vget x index
      let h ← field index
      return if b then value + 2 * h else value - 2 * h) v =
    ok (v + ∑ i ∈ Finset.range n, if i ∈ flips then -(2 * if bitOf x i then -h i else h i) else 0) := by
  apply forEach_flips_range n _ _ flips hnd hr
  intro i hi _ r
  rw [vget_bitOf x i (by omega), ok_bind, hf i hi, ok_bind]
  cases bitOf x i <;> simp [sub_eq_add_neg]

theorem field_flip (n : Nat) (h : Nat → K) (x : Nat → Bool) (flips : List Nat) :
    ∑ i ∈ Finset.range n, (if (if i ∈ flips then !x i else x i) then -h i else h i) =
      ∑ i ∈ Finset.range n, (if x i then -h i else h i) +
      ∑ i ∈ Finset.range n, if i ∈ flips then -(2 * if x i then -h i else h i) else 0 := by
  rw [← Finset.sum_add_distrib]
  apply Finset.sum_congr rfl
  intro i _
  by_cases a : i ∈ flips <;> cases x i <;> simp [a, two_mul]

/-! ## One dimension -/

/-- Coupling of the edge that starts at `i` (0 if there is no such edge). -/
def ising1J (m : Ising1 K) (n : Nat) (i : Nat) : K :=
  if i = n - 1 ∧ ¬ m.periodic then 0 else entry m.coupling i

/-- Right neighbour on a cycle. -/
def cycRight (n i : Nat) : Nat := if i = n - 1 then 0 else i + 1

/-- Left neighbour on a cycle. -/
def cycLeft (n i : Nat) : Nat := if i = 0 then n - 1 else i - 1

theorem ising1Eval_edges (m : Ising1 K) (n : Nat) (hn : 0 < n) (hc : m.coupling.length = n)
    (hh : m.field.length = n) (x : BV) (hx : x.length = n) :
    ising1Eval m x = ok (∑ s ∈ Finset.range n, edgeTerm (ising1J m n) (cycRight n) (bitOf x) s +
      ∑ i ∈ Finset.range n, if bitOf x i then -entry m.field i else entry m.field i) := by
  unfold ising1Eval
  simp only [hc, hx]
  rw [assert_pos (by simpa using hn), ok_bind, assert_pos (by simp), ok_bind]
  have hpair : ∀ (i j : Nat) (r : K), i < n → j < n → (do
      let e ← equalBits x i j
      let c ← vget m.coupling i
      return if e then r + c else r - c : Outcome K) =
      ok (r + if bitOf x i = bitOf x j then entry m.coupling i else -entry m.coupling i) := by
    intro i j r hi hj
    rw [equalBits_eq x i j (by omega) (by omega), ok_bind, vget_entry _ _ (by omega), ok_bind]
    cases bitOf x i <;> cases bitOf x j <;> simp [sub_eq_add_neg]
  rw [forRange_sum_range (n - 1) _ (fun i => if bitOf x i = bitOf x (i + 1) then entry m.coupling i
    else -entry m.coupling i) _ (fun i hi r => hpair i (i + 1) r (by omega) (by omega)), ok_bind, zero_add]
  have hfield : ∀ r : K, forRange 0 n (fun i result => do
      let b ← vget x i
      let h ← vget m.field i
      return if b then result - h else result + h : Nat → K → Outcome K) r =
      ok (r + ∑ i ∈ Finset.range n, if bitOf x i then -entry m.field i else entry m.field i) := by
    intro r
    apply forRange_sum_range
    intro i hi r
    rw [vget_bitOf x i (by omega), ok_bind, vget_entry _ _ (by omega), ok_bind]
    cases bitOf x i <;> simp [sub_eq_add_neg]
  obtain ⟨k, rfl⟩ : ∃ k, n = k + 1 := ⟨n - 1, by omega⟩
  rw [Finset.sum_range_succ (fun s => edgeTerm (ising1J m (k + 1)) (cycRight (k + 1)) (bitOf x) s)]
  have hsum : ∑ s ∈ Finset.range k, edgeTerm (ising1J m (k + 1)) (cycRight (k + 1)) (bitOf x) s =
      ∑ i ∈ Finset.range k, if bitOf x i = bitOf x (i + 1) then entry m.coupling i
        else -entry m.coupling i := by
    apply Finset.sum_congr rfl
    intro i hi
    rw [Finset.mem_range] at hi
    simp only [edgeTerm, ising1J, cycRight, Nat.add_sub_cancel, show ¬ i = k by omega, false_and, if_false]
  rw [hsum]
  simp only [Nat.add_sub_cancel]
  unfold ising1Periodic
  cases hp : m.periodic with
  | true =>
    simp only [if_true]
    rw [hpair k 0 _ (by omega) (by omega), ok_bind, hfield]
    simp [edgeTerm, ising1J, cycRight, hp, add_assoc]
  | false =>
    simp only [Bool.false_eq_true, if_false]
    rw [ok_bind, hfield]
    simp [edgeTerm, ising1J, hp]

theorem ising1_value_of {m : Ising1 K} {n : Nat} (hn : 0 < n) (x : BV) :
    ∑ s ∈ Finset.range n, edgeTerm (ising1J m n) (cycRight n) (bitOf x) s =
      ∑ i ∈ Finset.range (n - 1), entry m.coupling i * spin K x i * spin K x (i + 1) +
        if m.periodic then entry m.coupling (n - 1) * spin K x (n - 1) * spin K x 0 else 0 := by
  obtain ⟨k, rfl⟩ : ∃ k, n = k + 1 := ⟨n - 1, by omega⟩
  rw [Finset.sum_range_succ]
  simp only [Nat.add_sub_cancel]
  congr 1
  · apply Finset.sum_congr rfl
    intro i hi
    rw [Finset.mem_range] at hi
    rw [spin_mul]
    simp only [edgeTerm, ising1J, cycRight, Nat.add_sub_cancel, show ¬ i = k by omega, false_and, if_false]
  · rw [spin_mul]
    cases hp : m.periodic <;> simp [edgeTerm, ising1J, cycRight, hp]

/-- C27: the value of the Ising model in one dimension is the sum over adjacent sites, including the last
and the first one for periodic boundary conditions, of the coupling times the product of the spins, plus the
sum over all sites of the field times the spin. -/
theorem ising1_value (m : Ising1 K) (n : Nat) (hn : 0 < n) (hc : m.coupling.length = n)
    (hh : m.field.length = n) (x : BV) (hx : x.length = n) :
    ising1Eval m x = ok (
      ∑ i ∈ Finset.range (n - 1), entry m.coupling i * spin K x i * spin K x (i + 1) +
      (if m.periodic then entry m.coupling (n - 1) * spin K x (n - 1) * spin K x 0 else 0) +
      ∑ i ∈ Finset.range n, entry m.field i * spin K x i) := by
  rw [ising1Eval_edges m n hn hc hh x hx, ising1_value_of hn]
  simp only [mul_spin]

/-- C27: incremental evaluation of the Ising model in one dimension gives the value of the flipped vector,
and leaves the buffer as it was. -/
theorem ising1_incremental (m : Ising1 K) (n : Nat) (hn : 0 < n) (hc : m.coupling.length = n)
    (hh : m.field.length = n) (x y : BV) (v : K) (flips : List Nat) (hx : x.length = n) (hy : y.length = n)
    (hs : flips.Pairwise (· < ·)) (hr : ∀ i ∈ flips, i < n)
    (hf : ∀ (i : Nat) (b : Bool), x[i]? = some b → y[i]? = some (if i ∈ flips then !b else b))
    (hv : ising1Eval m x = ok v) :
    ∃ w, ising1Inc m (List.replicate n false) x v flips = ok (w, List.replicate n false) ∧
      ising1Eval m y = ok w := by
  have hnd : flips.Nodup := hs.imp (fun h => Nat.ne_of_lt h)
  obtain ⟨flipped, hb1, hb2, hfl⟩ := flip_buffer n flips hs hr
  have hz : bvIsZero (List.replicate n false) = true := by simp [bvIsZero]
  rw [ising1Eval_edges m n hn hc hh x hx] at hv
  rw [ising1Eval_edges m n hn hc hh y hy]
  refine ⟨_, ?_, rfl⟩
  have hE : ∑ s ∈ Finset.range n, edgeTerm (ising1J m n) (cycRight n) (bitOf y) s =
      ∑ s ∈ Finset.range n,
        edgeTerm (ising1J m n) (cycRight n) (fun s => if s ∈ flips then !bitOf x s else bitOf x s) s := by
    apply Finset.sum_congr rfl
    intro s hs
    rw [Finset.mem_range] at hs
    unfold edgeTerm
    have hrt : cycRight n s < n := by unfold cycRight; split <;> omega
    rw [bitOf_flipped x y flips n hx hf s hs, bitOf_flipped x y flips n hx hf _ hrt]
  have hF : ∑ i ∈ Finset.range n, (if bitOf y i then -entry m.field i else entry m.field i) =
      ∑ i ∈ Finset.range n,
        (if (if i ∈ flips then !bitOf x i else bitOf x i) then -entry m.field i else entry m.field i) := by
    apply Finset.sum_congr rfl
    intro s hs
    rw [Finset.mem_range] at hs
    rw [bitOf_flipped x y flips n hx hf s hs]
  rw [hE, hF, field_flip, edge_flip n (cycRight n) (cycLeft n)
    (by intro s hs; unfold cycRight; split <;> omega)
    (by intro s hs; unfold cycLeft; split <;> omega)
    (by intro s hs; unfold cycRight cycLeft; split <;> split <;> omega)
    (by intro s hs; unfold cycRight cycLeft; split <;> split <;> omega)]
  unfold ising1Inc
  simp only [hc, hx]
  rw [assert_pos (by simpa using hn), ok_bind, assert_pos (by simp), ok_bind, assert_pos hz, ok_bind,
    hb1, ok_bind]
  rw [forEach_flips_range n _ (fun s => if cycRight n s ∈ flips then 0 else
    -(2 * edgeTerm (ising1J m n) (cycRight n) (bitOf x) s)) flips hnd hr, ok_bind]
  · rw [forEach_flips_range n _ (fun s => if cycLeft n s ∈ flips then 0 else
      -(2 * edgeTerm (ising1J m n) (cycRight n) (bitOf x) (cycLeft n s))) flips hnd hr, ok_bind]
    · rw [hb2, ok_bind, assert_pos hz, ok_bind]
      rw [field_loop n flips hnd hr x hx (fun i => vget m.field i) (entry m.field)
        (fun i hi => vget_entry _ _ (by omega)), ok_bind]
      simp only [Outcome.ok.injEq] at hv
      rw [← hv]
      simp only [Outcome.pure_eq, Outcome.ok.injEq, Prod.mk.injEq, and_true]
      abel
    · intro i hi _ r
      unfold ising1Left
      simp only [hc]
      by_cases hedge : i = 0 ∧ ¬ m.periodic = true
      · rw [if_pos hedge]
        simp only [Outcome.pure_eq, Outcome.ok.injEq]
        have hJ : ising1J m n (cycLeft n i) = 0 := by
          unfold ising1J cycLeft
          rw [if_pos hedge.1, if_pos ⟨rfl, hedge.2⟩]
        simp [edgeTerm, hJ]
      · rw [if_neg hedge]
        have hnb : (if i = 0 then n - 1 else i - 1) = cycLeft n i := rfl
        rw [hnb]
        have hlt : cycLeft n i < n := by unfold cycLeft; split <;> omega
        rw [assert_pos (by simpa using hlt), ok_bind,
          flipInteraction_eq n flips flipped x hx hfl i (cycLeft n i) hi hlt _ _
            (vget_entry m.coupling (cycLeft n i) (by omega))]
        have hJ : ising1J m n (cycLeft n i) = entry m.coupling (cycLeft n i) := by
          unfold ising1J
          rw [if_neg]
          rintro ⟨h1, h2⟩
          apply hedge
          refine ⟨?_, h2⟩
          unfold cycLeft at h1
          split at h1 <;> omega
        have hrl : cycRight n (cycLeft n i) = i := by
          unfold cycRight cycLeft; split <;> split <;> omega
        simp only [edgeTerm, hJ, hrl, eq_comm]
  · intro i hi _ r
    unfold ising1Right
    simp only [hc]
    by_cases hedge : i = n - 1 ∧ ¬ m.periodic = true
    · rw [if_pos hedge]
      simp only [Outcome.pure_eq, Outcome.ok.injEq, edgeTerm, ising1J]
      rw [if_pos hedge]
      simp
    · rw [if_neg hedge]
      have hnb : (if i = n - 1 then 0 else i + 1) = cycRight n i := rfl
      rw [hnb]
      have hlt : cycRight n i < n := by unfold cycRight; split <;> omega
      rw [assert_pos (by simpa using hlt), ok_bind,
        flipInteraction_eq n flips flipped x hx hfl i (cycRight n i) hi hlt _ _
          (vget_entry m.coupling i (by omega))]
      have hJ : ising1J m n i = entry m.coupling i := by
        unfold ising1J
        rw [if_neg hedge]
      simp only [edgeTerm, hJ]

example : ising1Eval ⟨[1, 2, (4 : Int)], [8, 16, 32], true⟩ [true, false, true] = ok (-23) ∧
    ising1Inc ⟨[1, 2, (4 : Int)], [8, 16, 32], true⟩ [false, false, false] [true, false, true] (-23) [0, 1] =
      ok (-43, [false, false, false]) ∧
    ising1Eval ⟨[1, 2, (4 : Int)], [8, 16, 32], true⟩ [false, true, true] = ok (-43) := by decide

/-! ## Two dimensions -/

theorem grid_sum {L : Type} [AddCommMonoid L] (rows columns : Nat) (f : Nat → L) :
    ∑ s ∈ Finset.range (rows * columns), f s =
      ∑ i ∈ Finset.range rows, ∑ j ∈ Finset.range columns, f (i * columns + j) := by
  induction rows with
  | zero => simp
  | succ k ih => rw [Nat.succ_mul, Finset.sum_range_add, ih, Finset.sum_range_succ]

theorem site_lt {rows columns i j : Nat} (hi : i < rows) (hj : j < columns) :
    i * columns + j < rows * columns := by
  calc i * columns + j < i * columns + columns := by omega
    _ = (i + 1) * columns := by ring
    _ ≤ rows * columns := Nat.mul_le_mul_right _ hi

theorem gridLoop_sum (rows columns numColumns : Nat) (body : Nat → Nat → Nat → K → Outcome K)
    (t : Nat → Nat → K)
    (h : ∀ i < rows, ∀ j < columns, ∀ r, body i j (i * numColumns + j) r = ok (r + t i j)) (r : K) :
    gridLoop rows columns numColumns body r =
      ok (r + ∑ i ∈ Finset.range rows, ∑ j ∈ Finset.range columns, t i j) := by
  unfold gridLoop
  have := forRange_returns (a := 0) (b := rows) (I := fun k (st : K × Nat) =>
      st = (r + ∑ i ∈ Finset.range k, ∑ j ∈ Finset.range columns, t i j, k * numColumns))
    (body := fun i (st : K × Nat) => do
      let result ← forRange 0 columns (fun j result => body i j (st.2 + j) result) st.1
      return (result, st.2 + numColumns)) (s := (r, 0)) (by omega) (by simp) (by
        intro i st _ hi hst
        subst hst
        refine ⟨_, ?_, rfl⟩
        simp only
        rw [forRange_sum_range columns _ (t i) _ (fun j hj r => h i hi j hj r), ok_bind,
          Finset.sum_range_succ, Nat.succ_mul, add_assoc]
        rfl)
  obtain ⟨st, h1, h2⟩ := this
  rw [h1, ok_bind, h2]
  rfl

theorem addInteraction_eq (x : BV) (i j : Nat) (hi : i < x.length) (hj : j < x.length) (coupling : Outcome K)
    (c : K) (hc : coupling = ok c) (r : K) :
    addInteraction x i j coupling r = ok (r + c * spin K x i * spin K x j) := by
  unfold addInteraction
  rw [equalBits_eq x i j hi hj, ok_bind, hc, ok_bind, spin_mul]
  cases bitOf x i <;> cases bitOf x j <;> simp [sub_eq_add_neg]

theorem ising2Columns_eq (m : Ising2 K) (rows columns : Nat) (hr : 0 < rows)
    (hf : GridShape m.field rows columns) : ising2Columns m = ok columns := by
  have h0 : 0 < m.field.length := by rw [hf.1]; exact hr
  unfold ising2Columns
  rw [vget_eq h0, ok_bind, hf.2 _ (List.getElem_mem h0)]
  rfl

theorem ising2Size_eq (m : Ising2 K) (rows columns : Nat) (hr : 0 < rows)
    (hf : GridShape m.field rows columns) : ising2Size m = ok (rows * columns) := by
  unfold ising2Size
  rw [assert_pos (by rw [hf.1]; simpa using hr), ok_bind, ising2Columns_eq m rows columns hr hf, ok_bind, hf.1]
  rfl

theorem ising2Periodic_eq (m : Ising2 K) (rows columns : Nat) (hr : 0 < rows) (hc : 0 < columns)
    (h1 : GridShape m.right rows columns) (h2 : GridShape m.below rows columns) (x : BV)
    (hx : x.length = rows * columns) (r : K) :
    ising2Periodic m rows columns x r = ok (r + if m.periodic then
      ∑ i ∈ Finset.range rows, gridEntry m.right i (columns - 1) *
        spin K x (i * columns + (columns - 1)) * spin K x (i * columns) +
      ∑ j ∈ Finset.range columns, gridEntry m.below (rows - 1) j *
        spin K x ((rows - 1) * columns + j) * spin K x j else 0) := by
  unfold ising2Periodic
  cases hp : m.periodic with
  | false => simp
  | true =>
    simp only [if_true]
    have := forRange_returns (a := 0) (b := rows) (I := fun k (st : K × Nat) =>
        st = (r + ∑ i ∈ Finset.range k, gridEntry m.right i (columns - 1) *
          spin K x (i * columns + (columns - 1)) * spin K x (i * columns), k * columns))
      (body := fun i (st : K × Nat) => do
        let result ← addInteraction x (st.2 + (columns - 1)) st.2 (gridGet m.right i (columns - 1)) st.1
        return (result, st.2 + columns)) (s := (r, 0)) (by omega) (by simp) (by
          intro i st _ hi hst
          subst hst
          refine ⟨_, ?_, rfl⟩
          have hlt := site_lt (columns := columns) (j := columns - 1) hi (by omega)
          simp only
          rw [addInteraction_eq x _ _ (by omega) (by omega) _ _
            (gridGet_entry m.right rows columns i (columns - 1) h1 hi (by omega)), ok_bind,
            Finset.sum_range_succ, Nat.succ_mul, add_assoc]
          rfl)
    obtain ⟨st, e1, e2⟩ := this
    rw [e1, ok_bind, e2]
    rw [forRange_sum_range columns _ (fun j => gridEntry m.below (rows - 1) j *
        spin K x ((rows - 1) * columns + j) * spin K x j), add_assoc]
    intro j hj r
    have hlt := site_lt (rows := rows) (columns := columns) (i := rows - 1) (by omega) hj
    have hlt' : j < x.length := by
      have : columns ≤ rows * columns := Nat.le_mul_of_pos_left _ hr
      omega
    exact addInteraction_eq x _ _ (by omega) hlt' _ _
      (gridGet_entry m.below rows columns (rows - 1) j h2 (by omega) hj) r

/-- C27: the value of the Ising model in two dimensions is the sum over horizontally and vertically adjacent
sites (including, for periodic boundary conditions, those at opposite ends of a row or column) of the
coupling times the product of the spins, plus the sum over all sites of the field times the spin.  Site
`(i, j)` is bit `i * columns + j`. -/
theorem ising2_value (m : Ising2 K) (rows columns : Nat) (hr : 0 < rows) (hc : 0 < columns)
    (h1 : GridShape m.right rows columns) (h2 : GridShape m.below rows columns)
    (h3 : GridShape m.field rows columns) (x : BV) (hx : x.length = rows * columns) :
    ising2Eval m x = ok (
      ∑ i ∈ Finset.range rows, ∑ j ∈ Finset.range (columns - 1),
        gridEntry m.right i j * spin K x (i * columns + j) * spin K x (i * columns + (j + 1)) +
      ∑ i ∈ Finset.range (rows - 1), ∑ j ∈ Finset.range columns,
        gridEntry m.below i j * spin K x (i * columns + j) * spin K x ((i + 1) * columns + j) +
      (if m.periodic then
        ∑ i ∈ Finset.range rows, gridEntry m.right i (columns - 1) *
          spin K x (i * columns + (columns - 1)) * spin K x (i * columns) +
        ∑ j ∈ Finset.range columns, gridEntry m.below (rows - 1) j *
          spin K x ((rows - 1) * columns + j) * spin K x j else 0) +
      ∑ i ∈ Finset.range rows, ∑ j ∈ Finset.range columns,
        gridEntry m.field i j * spin K x (i * columns + j)) := by
  unfold ising2Eval
  rw [assert_pos (by rw [h3.1]; simpa using hr), ok_bind, ising2Columns_eq m rows columns hr h3, ok_bind,
    assert_pos (by simpa using hc), ok_bind, ising2Size_eq m rows columns hr h3, ok_bind,
    assert_pos (by simpa using hx), ok_bind]
  simp only [h3.1]
  rw [gridLoop_sum rows (columns - 1) columns _ (fun i j =>
    gridEntry m.right i j * spin K x (i * columns + j) * spin K x (i * columns + (j + 1))), ok_bind]
  · rw [gridLoop_sum (rows - 1) columns columns _ (fun i j =>
      gridEntry m.below i j * spin K x (i * columns + j) * spin K x ((i + 1) * columns + j)), ok_bind]
    · rw [ising2Periodic_eq m rows columns hr hc h1 h2 x hx, ok_bind,
        gridLoop_sum rows columns columns _ (fun i j => gridEntry m.field i j * spin K x (i * columns + j)),
        zero_add]
      intro i hi j hj r
      have hlt := site_lt (columns := columns) hi hj
      rw [vget_bitOf x _ (by omega), ok_bind, gridGet_entry m.field rows columns i j h3 hi hj, ok_bind, mul_spin]
      cases bitOf x (i * columns + j) <;> simp [sub_eq_add_neg]
    · intro i hi j hj r
      have hlt := site_lt (rows := rows) (columns := columns) (i := i + 1) (by omega) hj
      have he : i * columns + j + columns = (i + 1) * columns + j := by ring
      rw [he, assert_pos (by simpa [hx] using hlt), ok_bind]
      have hlt' := site_lt (rows := rows) (columns := columns) (i := i) (by omega) hj
      exact addInteraction_eq x _ _ (by omega) (by omega) _ _
        (gridGet_entry m.below rows columns i j h2 (by omega) hj) r
  · intro i hi j hj r
    have hlt := site_lt (columns := columns) (j := j + 1) hi (by omega)
    have hlt' := site_lt (columns := columns) (j := j) hi (by omega)
    rw [Nat.add_assoc, assert_pos (by simpa [hx] using hlt), ok_bind]
    exact addInteraction_eq x _ _ (by omega) (by omega) _ _
        (gridGet_entry m.right rows columns i j h1 hi (by omega)) r

/-- Coupling of the horizontal edge that starts at site `s` (0 if there is no such edge). -/
def ising2JR (m : Ising2 K) (columns s : Nat) : K :=
  if s % columns = columns - 1 ∧ ¬ m.periodic then 0 else gridEntry m.right (s / columns) (s % columns)

/-- Coupling of the vertical edge that starts at site `s` (0 if there is no such edge). -/
def ising2JB (m : Ising2 K) (rows columns s : Nat) : K :=
  if s / columns = rows - 1 ∧ ¬ m.periodic then 0 else gridEntry m.below (s / columns) (s % columns)

/-- Right neighbour on a torus. -/
def torRight (columns s : Nat) : Nat := if s % columns = columns - 1 then s - (columns - 1) else s + 1

/-- Left neighbour on a torus. -/
def torLeft (columns s : Nat) : Nat := if s % columns = 0 then s + (columns - 1) else s - 1

/-- Neighbour below on a torus. -/
def torBelow (rows columns s : Nat) : Nat := if s / columns = rows - 1 then s % columns else s + columns

/-- Neighbour above on a torus. -/
def torAbove (rows columns s : Nat) : Nat :=
  if s / columns = 0 then rows * columns + s % columns - columns else s - columns

theorem site_div {columns i j : Nat} (hj : j < columns) : (i * columns + j) / columns = i := by
  rw [Nat.mul_comm, Nat.mul_add_div (by omega), Nat.div_eq_of_lt hj, Nat.add_zero]

theorem site_mod {columns i j : Nat} (hj : j < columns) : (i * columns + j) % columns = j := by
  rw [Nat.mul_comm, Nat.mul_add_mod, Nat.mod_eq_of_lt hj]

theorem exists_site {rows columns s : Nat} (h : s < rows * columns) :
    ∃ i j, i < rows ∧ j < columns ∧ s = i * columns + j := by
  have hc : 0 < columns := by
    rcases Nat.eq_zero_or_pos columns with h0 | h0
    · subst h0; omega
    · exact h0
  exact ⟨s / columns, s % columns, (Nat.div_lt_iff_lt_mul hc).mpr h, Nat.mod_lt _ hc,
    (Nat.div_add_mod' s columns).symm⟩

theorem torRight_site {columns i j : Nat} (hj : j < columns) :
    torRight columns (i * columns + j) = i * columns + cycRight columns j := by
  unfold torRight cycRight
  rw [site_mod hj]
  split <;> omega

theorem torLeft_site {columns i j : Nat} (hj : j < columns) :
    torLeft columns (i * columns + j) = i * columns + cycLeft columns j := by
  unfold torLeft cycLeft
  rw [site_mod hj]
  split <;> omega

theorem torBelow_site {rows columns i j : Nat} (hj : j < columns) :
    torBelow rows columns (i * columns + j) = cycRight rows i * columns + j := by
  unfold torBelow cycRight
  rw [site_div hj, site_mod hj]
  split
  · simp
  · rw [Nat.succ_mul]; omega

theorem torAbove_site {rows columns i j : Nat} (hi : i < rows) (hj : j < columns) :
    torAbove rows columns (i * columns + j) = cycLeft rows i * columns + j := by
  unfold torAbove cycLeft
  rw [site_div hj, site_mod hj]
  split
  · obtain ⟨k, rfl⟩ : ∃ k, rows = k + 1 := ⟨rows - 1, by omega⟩
    rw [Nat.succ_mul, Nat.add_sub_cancel]; omega
  · obtain ⟨k, rfl⟩ : ∃ k, i = k + 1 := ⟨i - 1, by omega⟩
    rw [Nat.succ_mul, Nat.add_sub_cancel]; omega

theorem cycRight_lt {n i : Nat} (h : i < n) : cycRight n i < n := by unfold cycRight; split <;> omega

theorem cycLeft_lt {n i : Nat} (h : i < n) : cycLeft n i < n := by unfold cycLeft; split <;> omega

theorem cycLeft_right {n i : Nat} (h : i < n) : cycLeft n (cycRight n i) = i := by
  unfold cycRight cycLeft; split <;> split <;> omega

theorem cycRight_left {n i : Nat} (h : i < n) : cycRight n (cycLeft n i) = i := by
  unfold cycRight cycLeft; split <;> split <;> omega

/-- Indices given by the row and the column. -/
theorem ising2JR_site (m : Ising2 K) {columns i j : Nat} (hj : j < columns) :
    ising2JR m columns (i * columns + j) =
      if j = columns - 1 ∧ ¬ m.periodic then 0 else gridEntry m.right i j := by
  unfold ising2JR
  rw [site_mod hj, site_div hj]

theorem ising2JB_site (m : Ising2 K) {rows columns i j : Nat} (hj : j < columns) :
    ising2JB m rows columns (i * columns + j) =
      if i = rows - 1 ∧ ¬ m.periodic then 0 else gridEntry m.below i j := by
  unfold ising2JB
  rw [site_mod hj, site_div hj]

theorem right_edges (m : Ising2 K) (rows columns : Nat) (hc : 0 < columns) (x : BV) :
    ∑ s ∈ Finset.range (rows * columns), edgeTerm (ising2JR m columns) (torRight columns) (bitOf x) s =
      ∑ i ∈ Finset.range rows, ∑ j ∈ Finset.range (columns - 1),
        gridEntry m.right i j * spin K x (i * columns + j) * spin K x (i * columns + (j + 1)) +
      if m.periodic then ∑ i ∈ Finset.range rows, gridEntry m.right i (columns - 1) *
          spin K x (i * columns + (columns - 1)) * spin K x (i * columns) else 0 := by
  obtain ⟨k, rfl⟩ : ∃ k, columns = k + 1 := ⟨columns - 1, by omega⟩
  rw [grid_sum]
  have hz : (if m.periodic then ∑ i ∈ Finset.range rows, gridEntry m.right i (k + 1 - 1) *
        spin K x (i * (k + 1) + (k + 1 - 1)) * spin K x (i * (k + 1)) else 0) =
      ∑ i ∈ Finset.range rows, if m.periodic then gridEntry m.right i (k + 1 - 1) *
        spin K x (i * (k + 1) + (k + 1 - 1)) * spin K x (i * (k + 1)) else 0 := by
    cases m.periodic <;> simp
  rw [hz, ← Finset.sum_add_distrib]
  apply Finset.sum_congr rfl
  intro i _
  rw [Finset.sum_range_succ]
  simp only [Nat.add_sub_cancel]
  congr 1
  · apply Finset.sum_congr rfl
    intro j hj
    rw [Finset.mem_range] at hj
    unfold edgeTerm
    rw [ising2JR_site m (by omega), torRight_site (by omega), spin_mul]
    simp only [cycRight, Nat.add_sub_cancel, show ¬ j = k by omega, false_and, if_false]
  · unfold edgeTerm
    rw [ising2JR_site m (by omega), torRight_site (by omega)]
    simp only [cycRight, Nat.add_sub_cancel, if_true, Nat.add_zero, true_and]
    rw [spin_mul]
    cases m.periodic <;> simp

theorem below_edges (m : Ising2 K) (rows columns : Nat) (hr : 0 < rows) (x : BV) :
    ∑ s ∈ Finset.range (rows * columns), edgeTerm (ising2JB m rows columns) (torBelow rows columns) (bitOf x) s =
      ∑ i ∈ Finset.range (rows - 1), ∑ j ∈ Finset.range columns,
        gridEntry m.below i j * spin K x (i * columns + j) * spin K x ((i + 1) * columns + j) +
      if m.periodic then ∑ j ∈ Finset.range columns, gridEntry m.below (rows - 1) j *
          spin K x ((rows - 1) * columns + j) * spin K x j else 0 := by
  obtain ⟨k, rfl⟩ : ∃ k, rows = k + 1 := ⟨rows - 1, by omega⟩
  rw [grid_sum, Finset.sum_range_succ]
  simp only [Nat.add_sub_cancel]
  congr 1
  · apply Finset.sum_congr rfl
    intro i hi
    apply Finset.sum_congr rfl
    intro j hj
    rw [Finset.mem_range] at hi hj
    unfold edgeTerm
    rw [ising2JB_site m hj, torBelow_site hj, spin_mul]
    simp only [cycRight, Nat.add_sub_cancel, show ¬ i = k by omega, false_and, if_false]
  · have hz : (if m.periodic then ∑ j ∈ Finset.range columns, gridEntry m.below k j *
          spin K x (k * columns + j) * spin K x j else 0) =
        ∑ j ∈ Finset.range columns, if m.periodic then gridEntry m.below k j *
          spin K x (k * columns + j) * spin K x j else 0 := by
      cases m.periodic <;> simp
    rw [hz]
    apply Finset.sum_congr rfl
    intro j hj
    rw [Finset.mem_range] at hj
    unfold edgeTerm
    rw [ising2JB_site m hj, torBelow_site hj]
    simp only [cycRight, Nat.add_sub_cancel, if_true, Nat.zero_mul, Nat.zero_add, true_and]
    rw [spin_mul]
    cases m.periodic <;> simp

/-- The field at a site. -/
def ising2H (m : Ising2 K) (columns s : Nat) : K := gridEntry m.field (s / columns) (s % columns)

theorem ising2Eval_edges (m : Ising2 K) (rows columns : Nat) (hr : 0 < rows) (hc : 0 < columns)
    (h1 : GridShape m.right rows columns) (h2 : GridShape m.below rows columns)
    (h3 : GridShape m.field rows columns) (x : BV) (hx : x.length = rows * columns) :
    ising2Eval m x = ok (
      ∑ s ∈ Finset.range (rows * columns), edgeTerm (ising2JR m columns) (torRight columns) (bitOf x) s +
      ∑ s ∈ Finset.range (rows * columns),
        edgeTerm (ising2JB m rows columns) (torBelow rows columns) (bitOf x) s +
      ∑ s ∈ Finset.range (rows * columns),
        if bitOf x s then -ising2H m columns s else ising2H m columns s) := by
  rw [ising2_value m rows columns hr hc h1 h2 h3 x hx, right_edges m rows columns hc,
    below_edges m rows columns hr]
  have hfield : ∑ s ∈ Finset.range (rows * columns),
        (if bitOf x s then -ising2H m columns s else ising2H m columns s) =
      ∑ i ∈ Finset.range rows, ∑ j ∈ Finset.range columns,
        gridEntry m.field i j * spin K x (i * columns + j) := by
    rw [grid_sum]
    apply Finset.sum_congr rfl
    intro i _
    apply Finset.sum_congr rfl
    intro j hj
    rw [Finset.mem_range] at hj
    rw [mul_spin]
    unfold ising2H
    rw [site_div hj, site_mod hj]
  rw [hfield]
  congr 1
  cases m.periodic
  · simp
  · simp only [if_true]
    abel

/-- C27: incremental evaluation of the Ising model in two dimensions gives the value of the flipped vector,
and leaves the buffer as it was.  There is no condition on the numbers of rows and columns except that they
are positive, so this includes periodic lattices with one or two rows or columns. -/
theorem ising2_incremental (m : Ising2 K) (rows columns : Nat) (hr : 0 < rows) (hc : 0 < columns)
    (h1 : GridShape m.right rows columns) (h2 : GridShape m.below rows columns)
    (h3 : GridShape m.field rows columns) (x y : BV) (v : K) (flips : List Nat)
    (hx : x.length = rows * columns) (hy : y.length = rows * columns)
    (hs : flips.Pairwise (· < ·)) (hr' : ∀ i ∈ flips, i < rows * columns)
    (hf : ∀ (i : Nat) (b : Bool), x[i]? = some b → y[i]? = some (if i ∈ flips then !b else b))
    (hv : ising2Eval m x = ok v) :
    ∃ w, ising2Inc m (List.replicate (rows * columns) false) x v flips =
        ok (w, List.replicate (rows * columns) false) ∧
      ising2Eval m y = ok w := by
  have hnd : flips.Nodup := hs.imp (fun h => Nat.ne_of_lt h)
  obtain ⟨flipped, hb1, hb2, hfl⟩ := flip_buffer (rows * columns) flips hs hr'
  have hz : bvIsZero (List.replicate (rows * columns) false) = true := by simp [bvIsZero]
  rw [ising2Eval_edges m rows columns hr hc h1 h2 h3 x hx] at hv
  rw [ising2Eval_edges m rows columns hr hc h1 h2 h3 y hy]
  refine ⟨_, ?_, rfl⟩
  have hbit := bitOf_flipped x y flips (rows * columns) hx hf
  have hRlt : ∀ s < rows * columns, torRight columns s < rows * columns := by
    intro s hs
    obtain ⟨i, j, hi, hj, rfl⟩ := exists_site hs
    rw [torRight_site hj]; exact site_lt hi (cycRight_lt hj)
  have hLlt : ∀ s < rows * columns, torLeft columns s < rows * columns := by
    intro s hs
    obtain ⟨i, j, hi, hj, rfl⟩ := exists_site hs
    rw [torLeft_site hj]; exact site_lt hi (cycLeft_lt hj)
  have hBlt : ∀ s < rows * columns, torBelow rows columns s < rows * columns := by
    intro s hs
    obtain ⟨i, j, hi, hj, rfl⟩ := exists_site hs
    rw [torBelow_site hj]; exact site_lt (cycRight_lt hi) hj
  have hAlt : ∀ s < rows * columns, torAbove rows columns s < rows * columns := by
    intro s hs
    obtain ⟨i, j, hi, hj, rfl⟩ := exists_site hs
    rw [torAbove_site hi hj]; exact site_lt (cycLeft_lt hi) hj
  have hLR : ∀ s < rows * columns, torLeft columns (torRight columns s) = s := by
    intro s hs
    obtain ⟨i, j, hi, hj, rfl⟩ := exists_site hs
    rw [torRight_site hj, torLeft_site (cycRight_lt hj), cycLeft_right hj]
  have hRL : ∀ s < rows * columns, torRight columns (torLeft columns s) = s := by
    intro s hs
    obtain ⟨i, j, hi, hj, rfl⟩ := exists_site hs
    rw [torLeft_site hj, torRight_site (cycLeft_lt hj), cycRight_left hj]
  have hAB : ∀ s < rows * columns, torAbove rows columns (torBelow rows columns s) = s := by
    intro s hs
    obtain ⟨i, j, hi, hj, rfl⟩ := exists_site hs
    rw [torBelow_site hj, torAbove_site (cycRight_lt hi) hj, cycLeft_right hi]
  have hBA : ∀ s < rows * columns, torBelow rows columns (torAbove rows columns s) = s := by
    intro s hs
    obtain ⟨i, j, hi, hj, rfl⟩ := exists_site hs
    rw [torAbove_site hi hj, torBelow_site hj, cycRight_left hi]
  have hE : ∀ (J : Nat → K) (rt : Nat → Nat), (∀ s < rows * columns, rt s < rows * columns) →
      ∑ s ∈ Finset.range (rows * columns), edgeTerm J rt (bitOf y) s =
      ∑ s ∈ Finset.range (rows * columns),
        edgeTerm J rt (fun s => if s ∈ flips then !bitOf x s else bitOf x s) s := by
    intro J rt hrt
    apply Finset.sum_congr rfl
    intro s hs
    rw [Finset.mem_range] at hs
    unfold edgeTerm
    rw [hbit s hs, hbit _ (hrt s hs)]
  have hF : ∑ i ∈ Finset.range (rows * columns),
        (if bitOf y i then -ising2H m columns i else ising2H m columns i) =
      ∑ i ∈ Finset.range (rows * columns),
        (if (if i ∈ flips then !bitOf x i else bitOf x i) then -ising2H m columns i
          else ising2H m columns i) := by
    apply Finset.sum_congr rfl
    intro s hs
    rw [Finset.mem_range] at hs
    rw [hbit s hs]
  rw [hE _ _ hRlt, hE _ _ hBlt, hF, field_flip, edge_flip _ _ _ hRlt hLlt hLR hRL,
    edge_flip _ _ _ hBlt hAlt hAB hBA]
  unfold ising2Inc
  rw [assert_pos (by rw [h3.1]; simpa using hr), ok_bind, ising2Columns_eq m rows columns hr h3, ok_bind,
    assert_pos (by simpa using hc), ok_bind, ising2Size_eq m rows columns hr h3, ok_bind,
    assert_pos (by simpa using hx), ok_bind, assert_pos hz, ok_bind, hb1, ok_bind]
  simp only [h3.1]
  rw [forEach_flips_range (rows * columns) _ (fun s => if torRight columns s ∈ flips then 0 else
    -(2 * edgeTerm (ising2JR m columns) (torRight columns) (bitOf x) s)) flips hnd hr', ok_bind]
  rotate_left
  · intro s hs _ r
    obtain ⟨i, j, hi, hj, rfl⟩ := exists_site hs
    have hlt := hRlt _ hs
    unfold ising2Right edgeTerm
    simp only [ising2JR_site m hj, site_mod hj, site_div hj]
    by_cases hedge : j = columns - 1 ∧ ¬ m.periodic = true
    · rw [if_pos hedge, if_pos hedge]
      simp
    · rw [if_neg hedge, if_neg hedge]
      have hnb : (if j = columns - 1 then i * columns + j - (columns - 1) else i * columns + j + 1) =
          torRight columns (i * columns + j) := by
        unfold torRight; rw [site_mod hj]
      rw [hnb, assert_pos (by simp; omega), ok_bind, assert_pos (by simpa using hs), ok_bind,
        assert_pos (by simpa using hlt), ok_bind,
        flipInteraction_eq _ flips flipped x hx hfl _ _ hs hlt _ _
          (gridGet_entry m.right rows columns i j h1 hi hj)]
  rw [forEach_flips_range (rows * columns) _ (fun s => if torLeft columns s ∈ flips then 0 else
    -(2 * edgeTerm (ising2JR m columns) (torRight columns) (bitOf x) (torLeft columns s))) flips hnd hr', ok_bind]
  rotate_left
  · intro s hs _ r
    have hback := hRL s hs
    obtain ⟨i, j, hi, hj, rfl⟩ := exists_site hs
    have hlt := hLlt _ hs
    unfold ising2Left edgeTerm
    rw [hback]
    rw [torLeft_site hj, ising2JR_site m (cycLeft_lt hj)]
    simp only [site_mod hj, site_div hj]
    by_cases hedge : j = 0 ∧ ¬ m.periodic = true
    · rw [if_pos hedge, if_pos (show cycLeft columns j = columns - 1 ∧ _ from
        ⟨by unfold cycLeft; rw [if_pos hedge.1], hedge.2⟩)]
      simp
    · rw [if_neg hedge, if_neg (show ¬ (cycLeft columns j = columns - 1 ∧ ¬ m.periodic = true) from by
        rintro ⟨e1, e2⟩
        exact hedge ⟨by unfold cycLeft at e1; split at e1 <;> omega, e2⟩)]
      have hnb : (if j = 0 then i * columns + j + (columns - 1) else i * columns + j - 1) =
          i * columns + cycLeft columns j := by
        rw [← torLeft_site hj]; unfold torLeft; rw [site_mod hj]
      have hj' : (if j = 0 then columns - 1 else j - 1) = cycLeft columns j := rfl
      rw [torLeft_site hj] at hlt
      rw [hnb, hj', assert_pos (by simp; omega), ok_bind, assert_pos (by simpa using hs), ok_bind,
        assert_pos (by simpa using hlt), ok_bind, assert_pos (by simpa using cycLeft_lt hj), ok_bind,
        flipInteraction_eq _ flips flipped x hx hfl _ _ hs hlt _ _
          (gridGet_entry m.right rows columns i _ h1 hi (cycLeft_lt hj))]
      simp only [eq_comm]
  rw [forEach_flips_range (rows * columns) _ (fun s => if torBelow rows columns s ∈ flips then 0 else
    -(2 * edgeTerm (ising2JB m rows columns) (torBelow rows columns) (bitOf x) s)) flips hnd hr', ok_bind]
  rotate_left
  · intro s hs _ r
    obtain ⟨i, j, hi, hj, rfl⟩ := exists_site hs
    have hlt := hBlt _ hs
    unfold ising2Below edgeTerm
    simp only [ising2JB_site m hj, site_mod hj, site_div hj]
    by_cases hedge : i = rows - 1 ∧ ¬ m.periodic = true
    · rw [if_pos hedge, if_pos hedge]
      simp
    · rw [if_neg hedge, if_neg hedge]
      have hnb : (if i = rows - 1 then j else i * columns + j + columns) =
          torBelow rows columns (i * columns + j) := by
        unfold torBelow; rw [site_mod hj, site_div hj]
      rw [hnb, assert_pos (by simpa using hs), ok_bind, assert_pos (by simpa using hlt), ok_bind,
        flipInteraction_eq _ flips flipped x hx hfl _ _ hs hlt _ _
          (gridGet_entry m.below rows columns i j h2 hi hj)]
  rw [forEach_flips_range (rows * columns) _ (fun s => if torAbove rows columns s ∈ flips then 0 else
    -(2 * edgeTerm (ising2JB m rows columns) (torBelow rows columns) (bitOf x) (torAbove rows columns s)))
    flips hnd hr', ok_bind]
  rotate_left
  · intro s hs _ r
    have hback := hBA s hs
    obtain ⟨i, j, hi, hj, rfl⟩ := exists_site hs
    have hlt := hAlt _ hs
    unfold ising2Above edgeTerm
    rw [hback]
    rw [torAbove_site hi hj, ising2JB_site m hj]
    simp only [site_mod hj, site_div hj]
    by_cases hedge : i = 0 ∧ ¬ m.periodic = true
    · rw [if_pos hedge, if_pos (show cycLeft rows i = rows - 1 ∧ _ from
        ⟨by unfold cycLeft; rw [if_pos hedge.1], hedge.2⟩)]
      simp
    · rw [if_neg hedge, if_neg (show ¬ (cycLeft rows i = rows - 1 ∧ ¬ m.periodic = true) from by
        rintro ⟨e1, e2⟩
        exact hedge ⟨by unfold cycLeft at e1; split at e1 <;> omega, e2⟩)]
      have hnb : (if i = 0 then rows * columns + j - columns else i * columns + j - columns) =
          cycLeft rows i * columns + j := by
        rw [← torAbove_site hi hj]; unfold torAbove; rw [site_mod hj, site_div hj]
      have hi' : (if i = 0 then rows - 1 else i - 1) = cycLeft rows i := rfl
      have hle : i = 0 ∨ columns ≤ i * columns + j := by
        rcases Nat.eq_zero_or_pos i with h0 | h0
        · exact Or.inl h0
        · right
          have : columns ≤ i * columns := Nat.le_mul_of_pos_left _ h0
          omega
      rw [torAbove_site hi hj] at hlt
      rw [hnb, hi', assert_pos (by simpa using hle), ok_bind, assert_pos (by simpa using hs), ok_bind,
        assert_pos (by simpa using hlt), ok_bind, assert_pos (by simpa using cycLeft_lt hi), ok_bind,
        flipInteraction_eq _ flips flipped x hx hfl _ _ hs hlt _ _
          (gridGet_entry m.below rows columns _ j h2 (cycLeft_lt hi) hj)]
      simp only [eq_comm]
  rw [hb2, ok_bind, assert_pos hz, ok_bind]
  rw [field_loop (rows * columns) flips hnd hr' x hx
    (fun index => gridGet m.field (index / columns) (index % columns)) (ising2H m columns)
    (fun s hs => by
      obtain ⟨i, j, hi, hj, rfl⟩ := exists_site hs
      unfold ising2H
      rw [site_mod hj, site_div hj]
      exact gridGet_entry m.field rows columns i j h3 hi hj), ok_bind]
  simp only [Outcome.ok.injEq] at hv
  rw [← hv]
  simp only [Outcome.pure_eq, Outcome.ok.injEq, Prod.mk.injEq, and_true]
  abel

/-- A periodic lattice with one row and two columns. -/
def smallIsing2 : Ising2 Int := ⟨[[1, 2]], [[4, 8]], [[16, 32]], true⟩

example : GridShape smallIsing2.right 1 2 ∧ GridShape smallIsing2.below 1 2 ∧
    GridShape smallIsing2.field 1 2 := by
  refine ⟨⟨rfl, ?_⟩, ⟨rfl, ?_⟩, ⟨rfl, ?_⟩⟩ <;> simp [smallIsing2]

example : ising2Eval smallIsing2 [true, false] = ok 25 ∧
    ising2Inc smallIsing2 [false, false] [true, false] 25 [0] = ok (63, [false, false]) ∧
    ising2Eval smallIsing2 [false, false] = ok 63 := by decide

end Hnco
