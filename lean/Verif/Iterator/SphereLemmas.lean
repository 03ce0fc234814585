import Verif.Iterator.Lemmas

/-!
# Helper lemmas for the neighbourhood iterators
-/

namespace Hnco

open Outcome

/-! ### Vectors at a given distance and sets of positions -/

/-- The positions where two vectors differ. -/
def diffs (x y : BV) : List Nat := (List.range x.length).filter (fun i => x[i]? != y[i]?)

theorem diffs_sorted (x y : BV) : (diffs x y).Pairwise (· < ·) :=
  List.pairwise_lt_range.filter _

theorem mem_diffs {x y : BV} {i : Nat} : i ∈ diffs x y ↔ i < x.length ∧ x[i]? ≠ y[i]? := by
  simp [diffs]

theorem flip_diffs {x y : BV} (h : x.length = y.length) : bvFlipSparse x (diffs x y) = ok y := by
  obtain ⟨z, hz, hlen, hget⟩ := bvFlipSparse_exact x (diffs x y) (diffs_sorted x y)
    (fun i hi => (mem_diffs.mp hi).1)
  rw [hz]
  congr 1
  apply List.ext_getElem (by omega)
  intro i h1 h2
  have hx : i < x.length := by omega
  have := hget i x[i] (by simp [hx])
  rw [List.getElem?_eq_getElem h1] at this
  rw [Option.some.inj this]
  by_cases hm : i ∈ diffs x y
  · have := (mem_diffs.mp hm).2
    rw [List.getElem?_eq_getElem hx, List.getElem?_eq_getElem h2] at this
    simp only [hm, if_true]
    revert this
    cases x[i] <;> cases y[i] <;> simp
  · have : ¬ x[i]? ≠ y[i]? := fun hc => hm (mem_diffs.mpr ⟨hx, hc⟩)
    rw [List.getElem?_eq_getElem hx, List.getElem?_eq_getElem h2] at this
    simp only [hm, if_false]
    simpa using this

/-- The vectors at distance `r` from `x` are those obtained by flipping `r` positions. -/
theorem distance_iff {x y : BV} {r : Nat} :
    bvHammingDistance x y = ok r ↔
      ∃ L : List Nat, L.Pairwise (· < ·) ∧ (∀ i ∈ L, i < x.length) ∧ L.length = r ∧
        bvFlipSparse x L = ok y := by
  constructor
  · intro h
    have hl : x.length = y.length := by
      by_cases hl : x.length = y.length
      · exact hl
      · simp [bvHammingDistance_ub hl] at h
    refine ⟨diffs x y, diffs_sorted x y, fun i hi => (mem_diffs.mp hi).1, ?_, flip_diffs hl⟩
    have := bvFlipSparse_distance x (diffs x y) (diffs_sorted x y)
      (fun i hi => (mem_diffs.mp hi).1)
    rw [flip_diffs hl] at this
    simp only [ok_bind, h, Outcome.ok.injEq] at this
    exact this.symm
  · rintro ⟨L, hs, hr, rfl, hL⟩
    have := bvFlipSparse_distance x L hs hr
    rw [hL] at this
    simpa using this

/-- Sorted sets of positions with the same members are equal. -/
theorem sorted_ext {l l' : List Nat} (h : l.Pairwise (· < ·)) (h' : l'.Pairwise (· < ·))
    (hm : ∀ i, i ∈ l ↔ i ∈ l') : l = l' := by
  induction l generalizing l' with
  | nil =>
    cases l' with
    | nil => rfl
    | cons b t => exact absurd ((hm b).mpr (by simp)) (by simp)
  | cons a t ih =>
    cases l' with
    | nil => exact absurd ((hm a).mp (by simp)) (by simp)
    | cons b u =>
      have ha := List.pairwise_cons.mp h
      have hb := List.pairwise_cons.mp h'
      have hab : a = b := by
        have h1 : b ∈ a :: t := (hm b).mpr (by simp)
        have h2 : a ∈ b :: u := (hm a).mp (by simp)
        rcases List.mem_cons.mp h1 with h1 | h1
        · exact h1.symm
        · rcases List.mem_cons.mp h2 with h2 | h2
          · exact h2
          · have := ha.1 b h1; have := hb.1 a h2; omega
      subst hab
      congr 1
      refine ih ha.2 hb.2 ?_
      intro i
      constructor
      · intro hi
        rcases List.mem_cons.mp ((hm i).mp (by simp [hi])) with h1 | h1
        · have := ha.1 i hi; omega
        · exact h1
      · intro hi
        rcases List.mem_cons.mp ((hm i).mpr (by simp [hi])) with h1 | h1
        · have := hb.1 i hi; omega
        · exact h1

/-- Flipping different sets of positions gives different vectors. -/
theorem flip_inj {x y : BV} {l l' : List Nat} (h : l.Pairwise (· < ·)) (h' : l'.Pairwise (· < ·))
    (hr : ∀ i ∈ l, i < x.length) (hr' : ∀ i ∈ l', i < x.length)
    (e : bvFlipSparse x l = ok y) (e' : bvFlipSparse x l' = ok y) : l = l' := by
  obtain ⟨z, hz, -, hget⟩ := bvFlipSparse_exact x l h hr
  obtain ⟨z', hz', -, hget'⟩ := bvFlipSparse_exact x l' h' hr'
  rw [e] at hz; rw [e'] at hz'
  cases hz; cases hz'
  apply sorted_ext h h'
  intro i
  by_cases hi : i < x.length
  · have h1 := hget i x[i] (by simp [hi])
    have h2 := hget' i x[i] (by simp [hi])
    rw [h1] at h2
    have := Option.some.inj h2
    by_cases m : i ∈ l <;> by_cases m' : i ∈ l' <;> simp_all
  · exact ⟨fun hm => absurd (hr i hm) hi, fun hm => absurd (hr' i hm) hi⟩

theorem flip_singleton {x : BV} {i : Nat} (h : i < x.length) :
    bvFlipSparse x [i] = bvFlip x i := by
  have : sbvIsValid [i] x.length = true := by simp [sbvIsValid, isSorted, h]
  simp [bvFlipSparse, this, flipLoop, bvFlip_ok h]

/-! ### Combinations in lexicographic order -/

/-- Increasing lists of length `r` with elements in `[s, s + m)`, in lexicographic order. -/
def combs : Nat → Nat → Nat → List (List Nat)
  | _, _, 0 => [[]]
  | 0, _, _ + 1 => []
  | m + 1, s, r + 1 => (combs m (s + 1) r).map (s :: ·) ++ combs m (s + 1) (r + 1)

theorem mem_combs {m s r : Nat} {L : List Nat} :
    L ∈ combs m s r ↔ L.Pairwise (· < ·) ∧ (∀ i ∈ L, s ≤ i ∧ i < s + m) ∧ L.length = r := by
  induction m generalizing s r L with
  | zero =>
    cases r with
    | zero =>
      simp only [combs, List.mem_singleton]
      constructor
      · rintro rfl; simp
      · rintro ⟨-, -, h⟩; exact List.eq_nil_of_length_eq_zero h
    | succ r =>
      simp only [combs, List.not_mem_nil, false_iff]
      rintro ⟨-, h, hl⟩
      cases L with
      | nil => simp at hl
      | cons a t => have := h a (by simp); omega
  | succ m ih =>
    cases r with
    | zero =>
      simp only [combs, List.mem_singleton]
      constructor
      · rintro rfl; simp
      · rintro ⟨-, -, h⟩; exact List.eq_nil_of_length_eq_zero h
    | succ r =>
      simp only [combs, List.mem_append, List.mem_map, ih]
      constructor
      · rintro (⟨t, ⟨h1, h2, h3⟩, rfl⟩ | ⟨h1, h2, h3⟩)
        · refine ⟨List.pairwise_cons.mpr ⟨fun i hi => ?_, h1⟩, ?_, by simp [h3]⟩
          · have := h2 i hi; omega
          · intro i hi
            rcases List.mem_cons.mp hi with rfl | hi
            · omega
            · have := h2 i hi; omega
        · refine ⟨h1, ?_, h3⟩
          intro i hi
          have := h2 i hi; omega
      · rintro ⟨h1, h2, h3⟩
        cases L with
        | nil => simp at h3
        | cons a t =>
          have hp := List.pairwise_cons.mp h1
          by_cases ha : a = s
          · left
            subst ha
            refine ⟨t, ⟨hp.2, ?_, by simpa using h3⟩, rfl⟩
            intro i hi
            have := hp.1 i hi
            have := h2 i (by simp [hi])
            omega
          · right
            refine ⟨h1, ?_, h3⟩
            intro i hi
            have h4 := h2 i hi
            have h5 := h2 a (by simp)
            rcases List.mem_cons.mp hi with rfl | hi
            · omega
            · have := hp.1 i hi; omega

theorem nodup_combs {m s r : Nat} : (combs m s r).Nodup := by
  induction m generalizing s r with
  | zero => cases r <;> simp [combs]
  | succ m ih =>
    cases r with
    | zero => simp [combs]
    | succ r =>
      simp only [combs]
      rw [List.nodup_append]
      refine ⟨?_, ih, ?_⟩
      · have := ih (s := s + 1) (r := r)
        refine List.pairwise_map.mpr (this.imp ?_)
        intro a b hab h
        exact hab (by simpa using h)
      · intro a ha b hb hab
        subst hab
        obtain ⟨t, -, rfl⟩ := List.mem_map.mp ha
        have := (mem_combs.mp hb).2.1 s (by simp)
        omega

theorem combs_eq_nil {m s r : Nat} (h : m < r) : combs m s r = [] := by
  induction m generalizing s r with
  | zero => cases r <;> simp_all [combs]
  | succ m ih =>
    cases r with
    | zero => omega
    | succ r => simp [combs, ih (show m < r by omega), ih (show m < r + 1 by omega)]

/-- The successor of a combination with elements below `n`, if any. -/
def succComb (n : Nat) : List Nat → Option (List Nat)
  | [] => none
  | [a] => if a + 1 < n then some [a + 1] else none
  | a :: b :: t =>
    match succComb n (b :: t) with
    | some l => some (a :: l)
    | none => if a + 1 < b then some (List.range' (a + 1) (t.length + 2)) else none

theorem succComb_cons_some {n a : Nat} {l l' : List Nat} (hl : l ≠ [])
    (h : succComb n l = some l') : succComb n (a :: l) = some (a :: l') := by
  cases l with
  | nil => exact absurd rfl hl
  | cons b t => simp [succComb, h]

theorem succComb_cons_none {n a b : Nat} {t : List Nat} (h : succComb n (b :: t) = none) :
    succComb n (a :: b :: t)
      = if a + 1 < b then some (List.range' (a + 1) (t.length + 2)) else none := by
  simp [succComb, h]

/-- Iterating the successor: `StepsTo n c l e` if the successors of `c` are the elements of `l`, the
last element (of `c :: l`) being `e`. -/
inductive StepsTo (n : Nat) : List Nat → List (List Nat) → List Nat → Prop
  | done (c) : StepsTo n c [] c
  | step {c c' l e} : succComb n c = some c' → StepsTo n c' l e → StepsTo n c (c' :: l) e

theorem StepsTo.append {n : Nat} {c c' e e' : List Nat} {l l' : List (List Nat)}
    (h : StepsTo n c l e) (hs : succComb n e = some c') (h' : StepsTo n c' l' e') :
    StepsTo n c (l ++ c' :: l') e' := by
  induction h with
  | done c => exact .step hs h'
  | step h1 _ ih => exact .step h1 (ih hs)

theorem StepsTo.map_cons {n a : Nat} {c e : List Nat} {l : List (List Nat)} (hc : c ≠ [])
    (h : StepsTo n c l e) : StepsTo n (a :: c) (l.map (a :: ·)) (a :: e) := by
  induction h with
  | done c => exact .done _
  | step h1 h2 ih =>
    refine .step (succComb_cons_some hc h1) (ih ?_)
    rename_i c c' l e
    rintro rfl
    cases c with
    | nil => exact hc rfl
    | cons a t =>
      cases t with
      | nil => simp only [succComb] at h1; split at h1 <;> simp at h1
      | cons b t =>
        simp only [succComb] at h1
        split at h1
        · simp at h1
        · split at h1 <;> simp at h1

theorem succComb_last (n r : Nat) (hr : r ≤ n) : succComb n (List.range' (n - r) r) = none := by
  induction r with
  | zero => rfl
  | succ r ih =>
    have := ih (by omega)
    cases r with
    | zero =>
      simp only [Nat.zero_add, List.range'_one, succComb]
      rw [if_neg (by omega)]
    | succ r =>
      rw [List.range'_succ, show n - (r + 1 + 1) + 1 = n - (r + 1) by omega]
      rw [List.range'_succ] at this ⊢
      rw [succComb_cons_none this, if_neg (by omega)]

theorem combs_steps (n : Nat) : ∀ (m s r : Nat), s + m = n → r + 1 ≤ m →
    ∃ rest, combs m s (r + 1) = List.range' s (r + 1) :: rest ∧
      StepsTo n (List.range' s (r + 1)) rest (List.range' (n - (r + 1)) (r + 1)) := by
  intro m
  induction m with
  | zero => intro s r _ h; omega
  | succ m ih =>
    intro s r hs hr
    -- the part starting with `s`
    have first : ∃ rest, (combs m (s + 1) r).map (s :: ·) = List.range' s (r + 1) :: rest ∧
        StepsTo n (List.range' s (r + 1)) rest (s :: List.range' (n - r) r) := by
      cases r with
      | zero => exact ⟨[], by cases m <;> simp [combs], by simpa using StepsTo.done _⟩
      | succ r =>
        obtain ⟨rest, e, st⟩ := ih (s + 1) r (by omega) (by omega)
        refine ⟨rest.map (s :: ·), ?_, ?_⟩
        · rw [e, List.map_cons, List.range'_succ (s := s)]
        · rw [List.range'_succ (s := s)]
          exact st.map_cons (by simp [List.range'_succ])
    obtain ⟨rest, e, st⟩ := first
    simp only [combs, e]
    by_cases hm : r + 1 ≤ m
    · obtain ⟨rest', e', st'⟩ := ih (s + 1) r (by omega) hm
      refine ⟨rest ++ combs m (s + 1) (r + 1), by simp, ?_⟩
      rw [e']
      refine st.append ?_ st'
      cases r with
      | zero =>
        simp only [List.range'_zero, succComb]
        rw [if_pos (by omega)]
        simp
      | succ r =>
        have hl := succComb_last n (r + 1) (by omega)
        rw [List.range'_succ] at hl ⊢
        rw [succComb_cons_none hl, if_pos (by omega)]
        simp
    · have hrm : r = m := by omega
      subst hrm
      refine ⟨rest, by simp [combs_eq_nil], ?_⟩
      have : List.range' (n - (r + 1)) (r + 1) = s :: List.range' (n - r) r := by
        rw [List.range'_succ, show n - (r + 1) = s by omega, show s + 1 = n - r by omega]
      rwa [this]

/-! ### The index loops compute the successor -/

namespace HammingSphereIterator

theorem findIndex_cons (a : Nat) (b : List Nat) (i : Nat) (hi : i < b.length) :
    findIndex (a :: b) (i + 1) = (findIndex b i >>= fun o =>
      match o with
      | some j => ok (some (j + 1))
      | none => if (a : Int) < ((b[0]'(by omega)) : Int) - 1 then ok (some 0) else ok none) := by
  induction i with
  | zero =>
    simp only [findIndex, ok_bind]
    rw [vget_eq (by simp), vget_eq (by simpa using hi)]
    simp
  | succ i ih =>
    rw [findIndex, ih (by omega)]
    conv => rhs; rw [findIndex]
    rw [vget_eq (by simp; omega), vget_eq (by simp; omega), vget_eq (by omega), vget_eq hi]
    simp only [ok_bind, List.getElem_cons_succ, pure_eq]
    by_cases h : ((b[i] : Nat) : Int) < (b[i + 1] : Int) - 1
    · simp [h]
    · simp [h]

/-- The outcome of one update of the indexes. -/
theorem nextIndexes_spec (n : Nat) : ∀ (b : List Nat), b ≠ [] →
    (∃ b', succComb n b = some b' ∧ nextIndexes n b.length b = ok b' ∧
        ∃ u, vget b (b.length - 1) = ok u ∧ ((u : Int) < (n : Int) - 1 ∨
          ∃ j, j < b.length ∧ findIndex b (b.length - 1) = ok (some j))) ∨
    (succComb n b = none ∧ ∃ u, vget b (b.length - 1) = ok u ∧ ¬ ((u : Int) < (n : Int) - 1) ∧
        findIndex b (b.length - 1) = ok none) := by
  intro b
  induction b with
  | nil => intro h; exact absurd rfl h
  | cons a t ih =>
    intro _
    cases t with
    | nil =>
      by_cases h : a + 1 < n
      · left
        refine ⟨[a + 1], by simp [succComb, h], ?_, a, rfl, Or.inl (by omega)⟩
        simp only [nextIndexes, List.length_singleton, Nat.sub_self]
        rw [vget_eq (by simp)]
        simp only [List.getElem_cons_zero, ok_bind]
        rw [if_pos (by omega), vset_eq (by simp)]
        simp
      · right
        exact ⟨by simp [succComb, h], a, rfl, by omega, rfl⟩
    | cons c t =>
      have hlen : (a :: c :: t).length - 1 = ((c :: t).length - 1) + 1 := by simp
      have hvget : vget (a :: c :: t) ((a :: c :: t).length - 1)
          = vget (c :: t) ((c :: t).length - 1) := by
        rw [hlen]; simp [vget]
      have hfind := findIndex_cons a (c :: t) ((c :: t).length - 1) (by simp)
      rw [← hlen] at hfind
      rcases ih (by simp) with ⟨b', hs, hn, u, hu, hcase⟩ | ⟨hs, u, hu, hnot, hf⟩
      · left
        refine ⟨a :: b', succComb_cons_some (by simp) hs, ?_, u, by rw [hvget, hu], ?_⟩
        · simp only [nextIndexes] at hn ⊢
          rw [hvget, hu]
          rw [hu] at hn
          simp only [ok_bind] at hn ⊢
          by_cases hlt : (u : Int) < (n : Int) - 1
          · simp only [hlt, if_true] at hn ⊢
            rw [vset_eq (by simp)] at hn
            rw [vset_eq (by simp), hlen, List.set_cons_succ]
            simp only [Outcome.ok.injEq] at hn
            rw [hn]
          · simp only [hlt, if_false] at hn ⊢
            rcases hcase with hcase | ⟨j, hj, hj'⟩
            · exact absurd hcase hlt
            · rw [hj'] at hn
              rw [hfind, hj']
              simp only [ok_bind] at hn ⊢
              rw [vget_eq hj, ok_bind, vset_eq hj, ok_bind] at hn
              rw [vget_eq (by simp at hj ⊢; omega)]
              simp only [ok_bind, List.getElem_cons_succ]
              rw [vset_eq (by simp at hj ⊢; omega)]
              simp only [ok_bind, pure_eq, Outcome.ok.injEq, iotaFrom, List.set_cons_succ] at hn ⊢
              rw [← hn]
              simp
        · rcases hcase with hcase | ⟨j, hj, hj'⟩
          · exact Or.inl hcase
          · right
            refine ⟨j + 1, by simp at hj ⊢; omega, ?_⟩
            rw [hfind, hj']
            rfl
      · have hsc := succComb_cons_none (a := a) hs
        rw [hf] at hfind
        simp only [ok_bind, List.getElem_cons_zero] at hfind
        by_cases hac : a + 1 < c
        · left
          rw [if_pos hac] at hsc
          rw [if_pos (by omega)] at hfind
          refine ⟨_, hsc, ?_, u, by rw [hvget, hu], Or.inr ⟨0, by simp, hfind⟩⟩
          simp only [nextIndexes]
          rw [hvget, hu]
          simp only [ok_bind, hnot, if_false, hfind]
          rw [vget_eq (by simp)]
          simp only [ok_bind, List.getElem_cons_zero]
          rw [vset_eq (by simp)]
          simp only [ok_bind, pure_eq, iotaFrom, List.set_cons_zero]
          congr 1
        · right
          rw [if_neg hac] at hsc
          rw [if_neg (by omega)] at hfind
          exact ⟨hsc, u, by rw [hvget, hu], hnot, hfind⟩

end HammingSphereIterator

end Hnco
