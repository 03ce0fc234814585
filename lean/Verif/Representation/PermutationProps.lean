import Verif.Representation.IntegerProps
import Verif.Map.Lemmas

/-!
# C38: the permutation representation decodes to permutations and reaches them all
-/

namespace Hnco

open Outcome

/-! ## Specification -/

/-- The number coded by the slice of element `i`. -/
def elementCode (r : PermutationRep) (bv : BV) (start i : Nat) : Nat :=
  bitsToNat (sliceOf bv (start + i * r.elementSize) r.elementSize)

/-- The key of element `i`: its code, stored in an `int`. -/
def elementKey (r : PermutationRep) (bv : BV) (start i : Nat) : Int :=
  (BitVec.ofNat 32 (elementCode r bv start i)).toInt

/-! ## Lemmas -/

theorem permutationKeys_eq {r : PermutationRep} (h0 : 0 < r.elementSize) (h64 : r.elementSize ≤ 64) {bv : BV}
    {start : Nat} (hb : start + r.count * r.elementSize ≤ bv.length) :
    permutationKeys r bv start = ok ((List.range r.count).map (elementKey r bv start)) := by
  unfold permutationKeys
  have hr : (forRange 0 r.count (fun i (st : List Int × Nat) => do
      let u ← bvToWordSlice bv st.2 (st.2 + r.elementSize)
      let values ← vset st.1 i (u.setWidth 32).toInt
      ok (values, st.2 + r.elementSize)) (List.replicate r.count 0, start)).Returns
      (fun st => st.1 = (List.range r.count).map (elementKey r bv start)) := by
    refine (forRange_returns (I := fun i (st : List Int × Nat) => st.2 = start + i * r.elementSize ∧
      st.1.length = r.count ∧ ∀ k : Nat, k < i → st.1[k]? = some (elementKey r bv start k)) (Nat.zero_le _)
      ⟨by simp, by simp, by intro k hk; omega⟩ ?_).mono ?_
    · rintro j ⟨l, s⟩ _ hj ⟨h1, h2, h3⟩
      simp only at h1 h2 h3
      have hle : (j + 1) * r.elementSize ≤ r.count * r.elementSize := Nat.mul_le_mul_right _ hj
      rw [Nat.add_mul, one_mul] at hle
      obtain ⟨u, hu, hn⟩ := bvToWordSlice_sliceOf (bv := bv) (start := s) h0 h64 (by omega)
      simp only
      rw [hu, ok_bind, vset_eq (by omega), ok_bind, returns_ok]
      have hkey : (u.setWidth 32).toInt = elementKey r bv start j := by
        unfold elementKey elementCode
        rw [← h1, ← hn]
        congr 1
      refine ⟨by simp only; rw [Nat.add_mul, one_mul]; omega, by simpa using h2, ?_⟩
      intro k hk
      rw [List.getElem?_set]
      by_cases hkj : j = k
      · subst hkj
        rw [if_pos rfl, if_pos (by omega), hkey]
      · rw [if_neg hkj]; exact h3 k (by omega)
    · rintro ⟨l, s⟩ ⟨_, h2, h3⟩
      simp only at h2 h3 ⊢
      apply List.ext_getElem?
      intro k
      by_cases hk : k < r.count
      · rw [h3 k hk, List.getElem?_map, List.getElem?_range hk]; rfl
      · rw [List.getElem?_eq_none (by omega), List.getElem?_eq_none (by simp; omega)]
  obtain ⟨st, hst, h1⟩ := hr
  rw [hst, ok_bind, h1]

theorem permIsValid_perm {p : List Nat} {n : Nat} (h : p.Perm (List.range n)) :
    permIsValid (p.map Int.ofNat) = ok true := by
  rw [permIsValid_ok]
  congr 1
  rw [decide_eq_true_eq]
  constructor
  · intro a ha
    obtain ⟨i, hi, rfl⟩ := List.mem_map.mp ha
    have := List.mem_range.mp (h.mem_iff.mp hi)
    rw [List.length_map, h.length_eq, List.length_range]
    exact ⟨Int.natCast_nonneg i, Int.ofNat_lt.mpr this⟩
  · exact (h.nodup_iff.mpr List.nodup_range).map (fun a b h => Int.ofNat.inj h)

/-- The comparison of elements, on indices. -/
theorem compare_eq {n : Nat} (key : Nat → Int) {i j : Nat} (hi : i < n) (hj : j < n) :
    decide (((List.range n).map key)[i]?.getD 0 < ((List.range n).map key)[j]?.getD 0) = decide (key i < key j) := by
  simp [List.getElem?_range hi, List.getElem?_range hj]

theorem permutationRepNew_eq_ok {ceilLog2 : Nat → Nat} {n additional : Nat} {r : PermutationRep}
    (hr : permutationRepNew ceilLog2 n additional = ok r) :
    0 < n ∧ r.count = n ∧ r.elementSize = ceilLog2 n + additional ∧ 0 < r.elementSize := by
  simp only [permutationRepNew, bind_eq_ok] at hr
  obtain ⟨_, h1, _, h2, h3⟩ := hr
  simp only [assert_eq_ok, decide_eq_true_eq] at h1 h2
  obtain rfl := Outcome.ok.inj h3
  exact ⟨h1, rfl, rfl, by simp only; omega⟩

/-! ## Theorems -/

/-- C38: whatever the random tie-breaking, every bit vector unpacks to a permutation sorted by keys. -/
theorem permutationUnpack_valid {ceilLog2 : Nat → Nat} {n additional : Nat} {r : PermutationRep}
    (hr : permutationRepNew ceilLog2 n additional = ok r) (h64 : r.elementSize ≤ 64) {bv : BV} {start : Nat}
    (hb : start + r.size ≤ bv.length) :
    Sim.Post (permutationUnpack r bv start) (fun p => p.Perm (List.range n) ∧
      p.Pairwise (fun i j => elementKey r bv start i ≤ elementKey r bv start j)) := by
  obtain ⟨_, hc, _, h0⟩ := permutationRepNew_eq_ok hr
  unfold permutationUnpack
  refine Sim.Post.bind (Sim.Post.lift ⟨_, permutationKeys_eq h0 h64 hb, rfl⟩) ?_
  intro values hv
  subst hv
  refine Sim.Post.bind (Sim.Post.shuffle _) ?_
  intro shuffled hs
  refine Sim.Post.bind (Sim.Post.sort _ ?_ ?_) ?_
  · intro a b c h1 h2
    rw [decide_eq_false_iff_not] at *
    omega
  · intro a b
    rw [decide_eq_false_iff_not, decide_eq_false_iff_not]
    omega
  intro p ⟨hp1, hp2⟩
  have hperm : p.Perm (List.range r.count) := hp1.trans hs
  refine Sim.Post.bind (Sim.Post.lift ⟨_, permIsValid_perm hperm, rfl⟩) ?_
  intro b hb
  refine Sim.Post.bind (Sim.Post.assert hb.symm) ?_
  intro _ _
  refine Sim.Post.pure ⟨hc ▸ hperm, ?_⟩
  refine hp2.imp_of_mem ?_
  intro a b ha hb h
  have ha := List.mem_range.mp (hperm.mem_iff.mp ha)
  have hb := List.mem_range.mp (hperm.mem_iff.mp hb)
  rw [compare_eq _ hb ha, decide_eq_false_iff_not] at h
  omega

/-- C38: when each element has at most 31 bits, the permutation is sorted by the coded numbers. -/
theorem permutationUnpack_sorted {ceilLog2 : Nat → Nat} {n additional : Nat} {r : PermutationRep}
    (hr : permutationRepNew ceilLog2 n additional = ok r) (h31 : r.elementSize ≤ 31) {bv : BV} {start : Nat}
    (hb : start + r.size ≤ bv.length) :
    Sim.Post (permutationUnpack r bv start) (fun p => p.Perm (List.range n) ∧
      p.Pairwise (fun i j => elementCode r bv start i ≤ elementCode r bv start j)) := by
  obtain ⟨_, hc, _, h0⟩ := permutationRepNew_eq_ok hr
  refine (permutationUnpack_valid hr (by omega) hb).mono ?_
  intro p ⟨h1, h2⟩
  refine ⟨h1, h2.imp_of_mem ?_⟩
  intro a b ha hb' h
  have key : ∀ i, i ∈ p → elementKey r bv start i = (elementCode r bv start i : Int) := by
    intro i hi
    have hi := List.mem_range.mp (h1.mem_iff.mp hi)
    have hle : (i + 1) * r.elementSize ≤ r.count * r.elementSize := Nat.mul_le_mul_right _ (by omega)
    rw [Nat.add_mul, one_mul] at hle
    unfold PermutationRep.size at hb
    have hlt : elementCode r bv start i < 2 ^ 31 := by
      have := bitsToNat_lt (sliceOf bv (start + i * r.elementSize) r.elementSize)
      rw [sliceOf_length (by omega)] at this
      exact lt_of_lt_of_le this (Nat.pow_le_pow_right (by decide) h31)
    unfold elementKey
    rw [BitVec.toInt_eq_toNat_of_lt] <;> rw [BitVec.toNat_ofNat, Nat.mod_eq_of_lt (by omega)]
    omega
  rw [key a ha, key b hb'] at h
  exact_mod_cast h

/-- C38: every permutation sorted by keys is a possible result: ties are broken in every way. -/
theorem permutationUnpack_ties {ceilLog2 : Nat → Nat} {n additional : Nat} {r : PermutationRep}
    (hr : permutationRepNew ceilLog2 n additional = ok r) (h64 : r.elementSize ≤ 64) {bv : BV} {start : Nat}
    (hb : start + r.size ≤ bv.length) {p : List Nat} (hp : p.Perm (List.range n))
    (hs : p.Pairwise (fun i j => elementKey r bv start i ≤ elementKey r bv start j)) :
    Sim.Reaches (permutationUnpack r bv start) p := by
  obtain ⟨_, hc, _, h0⟩ := permutationRepNew_eq_ok hr
  rw [← hc] at hp
  unfold permutationUnpack
  refine Sim.Reaches.bind (Sim.Reaches.lift (permutationKeys_eq h0 h64 hb)) ?_
  refine Sim.Reaches.bind (Sim.Reaches.shuffle (List.Perm.refl _)) ?_
  refine Sim.Reaches.bind (a := p) (Sim.Reaches.sort hp ?_) ?_
  · refine hs.imp_of_mem ?_
    intro a b ha hb h
    have ha := List.mem_range.mp (hp.mem_iff.mp ha)
    have hb := List.mem_range.mp (hp.mem_iff.mp hb)
    rw [compare_eq _ hb ha, decide_eq_false_iff_not]
    omega
  refine Sim.Reaches.bind (Sim.Reaches.lift (permIsValid_perm hp)) ?_
  refine Sim.Reaches.bind (a := ()) (Sim.Reaches.lift assert_true) ?_
  exact Sim.Reaches.pure p

/-- Concatenation of the slices. -/
theorem sliceOf_flatten (k : Nat) : ∀ (l : List BV), (∀ x ∈ l, x.length = k) → ∀ (i : Nat) (x : BV),
    l[i]? = some x → sliceOf l.flatten (i * k) k = x
  | [], _, i, x, h => by simp at h
  | y :: l, hl, 0, x, h => by
    simp only [List.getElem?_cons_zero, Option.some.injEq] at h
    subst h
    unfold sliceOf
    rw [Nat.zero_mul, List.drop_zero, List.flatten_cons, ← hl y (by simp), List.take_left]
  | y :: l, hl, i + 1, x, h => by
    rw [List.getElem?_cons_succ] at h
    rw [← sliceOf_flatten k l (fun z hz => hl z (by simp [hz])) i x h]
    unfold sliceOf
    rw [List.flatten_cons, Nat.add_mul, one_mul, Nat.add_comm, ← hl y (by simp), List.drop_append,
      List.drop_eq_nil_of_le (by omega), List.nil_append]
    congr 2
    omega

/-- C38: every permutation is the decoding of some bit vector, whatever the random tie-breaking, if the elements
have enough bits, which they do if the logarithm is exact. -/
theorem permutationUnpack_onto {ceilLog2 : Nat → Nat} {n additional : Nat} {r : PermutationRep}
    (hr : permutationRepNew ceilLog2 n additional = ok r) (h31 : r.elementSize ≤ 31)
    (hbits : n ≤ 2 ^ r.elementSize) {p : List Nat} (hp : p.Perm (List.range n)) :
    ∃ bv : BV, bv.length = r.size ∧ Sim.Post (permutationUnpack r bv 0) (fun q => q = p) ∧
      Sim.Reaches (permutationUnpack r bv 0) p := by
  obtain ⟨_, hc, _, h0⟩ := permutationRepNew_eq_ok hr
  have hlen : p.length = n := by rw [hp.length_eq, List.length_range]
  have hex : ∀ i, ∃ x : BV, x.length = r.elementSize ∧ (i < n → bitsToNat x = p.idxOf i) := by
    intro i
    by_cases hi : i < n
    · have hmem : i ∈ p := hp.mem_iff.mpr (List.mem_range.mpr hi)
      have := List.idxOf_lt_length_of_mem hmem
      obtain ⟨x, h1, h2⟩ := exists_bitsToNat r.elementSize (p.idxOf i) (by omega)
      exact ⟨x, h1, fun _ => h2⟩
    · exact ⟨List.replicate r.elementSize false, by simp, fun h => absurd h hi⟩
  choose code hcode1 hcode2 using hex
  have hl : ∀ x ∈ (List.range n).map code, x.length = r.elementSize := by
    intro x hx
    obtain ⟨i, _, rfl⟩ := List.mem_map.mp hx
    exact hcode1 i
  have hsize : ((List.range n).map code).flatten.length = r.size := by
    rw [List.length_flatten]
    unfold PermutationRep.size
    rw [hc, List.map_map]
    have : List.length ∘ code = fun _ => r.elementSize := by funext i; exact hcode1 i
    rw [this]
    simp
  have helem : ∀ i, i < n → elementCode r ((List.range n).map code).flatten 0 i = p.idxOf i := by
    intro i hi
    unfold elementCode
    rw [Nat.zero_add, sliceOf_flatten r.elementSize _ hl i (code i) (by simp [List.getElem?_range hi]), hcode2 i hi]
  have hsorted : p.Pairwise (fun i j => elementCode r ((List.range n).map code).flatten 0 i ≤
      elementCode r ((List.range n).map code).flatten 0 j) := by
    rw [List.pairwise_iff_getElem]
    intro a b ha hb hab
    have hnd : p.Nodup := hp.nodup_iff.mpr List.nodup_range
    have h1 := List.mem_range.mp (hp.mem_iff.mp (List.getElem_mem ha))
    have h2 := List.mem_range.mp (hp.mem_iff.mp (List.getElem_mem hb))
    rw [helem _ h1, helem _ h2, hnd.idxOf_getElem _ ha, hnd.idxOf_getElem _ hb]
    omega
  have hkey : ∀ i, i < n → elementKey r ((List.range n).map code).flatten 0 i = (p.idxOf i : Int) := by
    intro i hi
    unfold elementKey
    have hmem : i ∈ p := hp.mem_iff.mpr (List.mem_range.mpr hi)
    have := List.idxOf_lt_length_of_mem hmem
    have h2 : 2 ^ r.elementSize ≤ 2 ^ 31 := Nat.pow_le_pow_right (by decide) h31
    rw [helem i hi, BitVec.toInt_eq_toNat_of_lt] <;> rw [BitVec.toNat_ofNat, Nat.mod_eq_of_lt (by omega)]
    omega
  refine ⟨((List.range n).map code).flatten, hsize, ?_, ?_⟩
  · refine (permutationUnpack_sorted hr h31 (by omega)).mono ?_
    intro q ⟨h1, h2⟩
    refine List.Perm.eq_of_pairwise (le := fun i j => elementCode r ((List.range n).map code).flatten 0 i ≤
      elementCode r ((List.range n).map code).flatten 0 j) ?_ h2 hsorted (h1.trans hp.symm)
    intro a b ha hb hab hba
    have ha := List.mem_range.mp (h1.mem_iff.mp ha)
    have hb := List.mem_range.mp (hp.mem_iff.mp hb)
    rw [helem a ha, helem b hb] at hab hba
    exact (List.idxOf_inj (hp.mem_iff.mpr (List.mem_range.mpr ha))).mp (by omega)
  · refine permutationUnpack_ties hr (by omega) (by omega) hp (hsorted.imp_of_mem ?_)
    intro a b ha hb h
    have ha := List.mem_range.mp (hp.mem_iff.mp ha)
    have hb := List.mem_range.mp (hp.mem_iff.mp hb)
    rw [helem a ha, helem b hb] at h
    rw [hkey a ha, hkey b hb]
    exact_mod_cast h

/-- C38: with an exact logarithm, the elements have enough bits. -/
theorem permutationRepNew_bits {ceilLog2 : Nat → Nat} (hlog : ∀ m, ceilLog2 m = Nat.clog 2 m) {n additional : Nat}
    {r : PermutationRep} (hr : permutationRepNew ceilLog2 n additional = ok r) : n ≤ 2 ^ r.elementSize := by
  obtain ⟨_, _, h, _⟩ := permutationRepNew_eq_ok hr
  rw [h, hlog]
  exact le_trans (Nat.le_pow_clog (by decide) n) (Nat.pow_le_pow_right (by decide) (by omega))

/-- The code `2^31` for element 0, and the code 0 for element 1. -/
def exampleOverflow : BV := List.replicate 31 false ++ [true] ++ List.replicate 32 false

/-- C38 (negative part): with 32 bits per element, codes are stored in an `int` of 32 bits and the order of the
coded numbers is lost: the code `2^31` of element 0 comes before the code 0 of element 1. -/
theorem permutationUnpack_overflow :
    ∃ (r : PermutationRep) (bv : BV), permutationRepNew (fun _ => 1) 2 31 = ok r ∧ bv.length = r.size ∧
      elementCode r bv 0 1 < elementCode r bv 0 0 ∧
      Sim.Post (permutationUnpack r bv 0) (fun p => p = [0, 1]) ∧ Sim.Reaches (permutationUnpack r bv 0) [0, 1] := by
  have hr : permutationRepNew (fun _ => 1) 2 31 = ok { count := 2, elementSize := 32 } := by decide +kernel
  have hlen : exampleOverflow.length = PermutationRep.size { count := 2, elementSize := 32 } := by decide +kernel
  have h0 : elementKey { count := 2, elementSize := 32 } exampleOverflow 0 0 = -2147483648 := by decide +kernel
  have h1 : elementKey { count := 2, elementSize := 32 } exampleOverflow 0 1 = 0 := by decide +kernel
  refine ⟨{ count := 2, elementSize := 32 }, exampleOverflow, hr, hlen, by decide +kernel, ?_, ?_⟩
  · refine (permutationUnpack_valid hr (by decide) (by rw [hlen]; omega)).mono ?_
    intro p ⟨hp1, hp2⟩
    have hp : p ∈ (List.range 2).permutations' := List.mem_permutations'.mpr hp1
    rw [show (List.range 2).permutations' = [[0, 1], [1, 0]] by decide] at hp
    simp only [List.mem_cons, List.not_mem_nil, or_false] at hp
    rcases hp with rfl | rfl
    · rfl
    · simp [h0, h1] at hp2
  · refine permutationUnpack_ties hr (by decide) (by rw [hlen]; omega) (List.Perm.refl _) ?_
    simp [h0, h1]

example : ∃ r, permutationRepNew (Nat.clog 2) 3 1 = ok r ∧ r.elementSize = 3 ∧ r.size = 9 ∧
    [2, 0, 1].Perm (List.range 3) :=
  ⟨{ count := 3, elementSize := 3 }, by decide +kernel, rfl, rfl, by decide⟩

end Hnco
