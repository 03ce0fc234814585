import Verif.Function.ComplementProps
import Mathlib.Data.List.Rotate
import Mathlib.Tactic.Linarith

/-!
# Travelling salesman (C44)
-/

namespace Hnco

open Outcome

/-! ## Specification -/

section
variable {K : Type} [CommRing K]

/-- Length of the path through the given cities. -/
def pathLength (d : Nat → Nat → K) : List Nat → K
  | [] => 0
  | [_] => 0
  | a :: b :: l => d a b + pathLength d (b :: l)

/-- Length of the closed tour through the given cities, back to the first one. -/
def tourLength (d : Nat → Nat → K) : List Nat → K
  | [] => 0
  | a :: l => pathLength d (a :: l ++ [a])

/-- A square matrix which is symmetric, with zero diagonal. -/
def IsDistanceTable (g : List (List K)) (n : Nat) : Prop :=
  GridShape g n n ∧ (∀ i j, gridEntry g i j = gridEntry g j i) ∧ ∀ i, gridEntry g i i = 0

/-! ## Evaluation -/

theorem pathLength_append (d : Nat → Nat → K) (l : List Nat) (a b : Nat) :
    pathLength d (l ++ [a, b]) = pathLength d (l ++ [a]) + d a b := by
  induction l with
  | nil => simp [pathLength]
  | cons c l ih =>
    cases l with
    | nil => simp [pathLength]
    | cons e l =>
      simp only [List.cons_append, pathLength] at ih ⊢
      rw [ih, add_assoc]

theorem pathLength_sum (d : Nat → Nat → K) (p : List Nat) :
    ∑ i ∈ Finset.range (p.length - 1), d (p[i]?.getD 0) (p[i + 1]?.getD 0) = pathLength d p := by
  induction p with
  | nil => simp [pathLength]
  | cons a p ih =>
    cases p with
    | nil => simp [pathLength]
    | cons b p =>
      simp only [List.length_cons, Nat.add_sub_cancel] at ih ⊢
      rw [Finset.sum_range_succ', pathLength, ← ih, add_comm]
      simp

/-- C44: the value is minus the length of the closed tour. -/
theorem tsp_value (g : List (List K)) (n : Nat) (hn : 0 < n) (hg : GridShape g n n) (p : List Nat)
    (hp : p.length = n) (hr : ∀ a ∈ p, a < n) :
    tspEval g p = ok (-tourLength (gridEntry g) p) := by
  have hstep : ∀ i j, i < n → j < n → ∀ r : K, (do
      let a ← vget p i
      let b ← vget p j
      let row ← vget g a
      let d ← vget row b
      ok (r + d) : Outcome K) = ok (r + gridEntry g (p[i]?.getD 0) (p[j]?.getD 0)) := by
    intro i j hi hj r
    have hi' : i < p.length := by omega
    have hj' : j < p.length := by omega
    rw [vget_eq hi', ok_bind, vget_eq hj', ok_bind]
    have ha : p[i] < g.length := by rw [hg.1]; exact hr _ (List.getElem_mem hi')
    have hb := hr _ (List.getElem_mem hj')
    have hrow : (g[p[i]]'ha).length = n := hg.2 _ (List.getElem_mem ha)
    rw [vget_eq ha, ok_bind, vget_entry _ _ (by omega), ok_bind]
    congr 2
    unfold gridEntry
    rw [List.getElem?_eq_getElem hi', List.getElem?_eq_getElem hj']
    simp only [Option.getD_some]
    rw [List.getElem?_eq_getElem ha]
    rfl
  unfold tspEval
  simp only [hg.1]
  rw [assert_pos (by simpa using hn), ok_bind,
    forRange_sum_range (n - 1) _ (fun i => gridEntry g (p[i]?.getD 0) (p[i + 1]?.getD 0)) 0
      (fun i hi r => hstep i (i + 1) (by omega) (by omega) r), ok_bind, hstep (n - 1) 0 (by omega) hn, ok_bind,
    zero_add]
  congr 2
  rw [← hp, pathLength_sum]
  cases p with
  | nil => simp at hp; omega
  | cons a l =>
    unfold tourLength
    rcases List.eq_nil_or_concat (a :: l) with h | ⟨l', b, h⟩
    · cases h
    · have h1 : (a :: l)[(a :: l).length - 1]?.getD 0 = b := by
        rw [h]; simp
      rw [h1]
      simp only [List.length_cons, Nat.zero_lt_succ, List.getElem?_eq_getElem, List.getElem_cons_zero,
        Option.getD_some]
      rw [h]
      simp only [List.concat_eq_append, List.append_assoc, List.cons_append, List.nil_append]
      rw [pathLength_append]

theorem tourLength_rotate_one (d : Nat → Nat → K) (a : Nat) (l : List Nat) :
    tourLength d (l ++ [a]) = tourLength d (a :: l) := by
  cases l with
  | nil => rfl
  | cons b l =>
    simp only [List.cons_append, tourLength]
    simp only [pathLength, List.append_assoc, List.cons_append, List.nil_append]
    have := pathLength_append d (b :: l) a b
    simp only [List.cons_append] at this
    rw [this, add_comm]

theorem tourLength_rotate (d : Nat → Nat → K) (p : List Nat) (k : Nat) :
    tourLength d (p.rotate k) = tourLength d p := by
  induction k generalizing p with
  | zero => simp
  | succ k ih =>
    cases p with
    | nil => simp
    | cons a l =>
      rw [List.rotate_cons_succ, ih, tourLength_rotate_one]

/-- C44: rotating the tour does not change the value. -/
theorem tsp_rotate (g : List (List K)) (n : Nat) (hn : 0 < n) (hg : GridShape g n n) (p : List Nat)
    (hp : p.length = n) (hr : ∀ a ∈ p, a < n) (k : Nat) : tspEval g (p.rotate k) = tspEval g p := by
  rw [tsp_value g n hn hg p hp hr, tsp_value g n hn hg (p.rotate k) (by simpa using hp)
    (fun a ha => hr a (List.mem_rotate.mp ha)), tourLength_rotate]

theorem pathLength_reverse (d : Nat → Nat → K) (hd : ∀ i j, d i j = d j i) (p : List Nat) :
    pathLength d p.reverse = pathLength d p := by
  induction p with
  | nil => rfl
  | cons a p ih =>
    cases p with
    | nil => rfl
    | cons b p =>
      rw [List.reverse_cons, List.reverse_cons, List.append_assoc]
      simp only [List.cons_append, List.nil_append]
      rw [pathLength_append, ← List.reverse_cons, ih, pathLength, hd b a, add_comm]

/-- C44: when distances are symmetric, reversing the tour does not change the value. -/
theorem tsp_reverse (g : List (List K)) (n : Nat) (hn : 0 < n) (hg : IsDistanceTable g n) (p : List Nat)
    (hp : p.length = n) (hr : ∀ a ∈ p, a < n) : tspEval g p.reverse = tspEval g p := by
  rw [tsp_value g n hn hg.1 p hp hr, tsp_value g n hn hg.1 p.reverse (by simpa using hp)
    (fun a ha => hr a (List.mem_reverse.mp ha))]
  congr 2
  cases p with
  | nil => rfl
  | cons a l =>
    rw [List.reverse_cons, tourLength_rotate_one]
    show pathLength (gridEntry g) (a :: l.reverse ++ [a]) = pathLength (gridEntry g) (a :: l ++ [a])
    rw [← pathLength_reverse _ hg.2.1]
    simp

end

example : tspEval [[0, 1, 4], [1, 0, 2], [4, 2, (0 : Int)]] [2, 0, 1] = ok (-7) := by decide

/-! ## Distance tables -/

section
variable {K : Type} [CommRing K]

theorem resizeGrid_shape (g : List (List K)) (n : Nat) : GridShape (resizeGrid g n) n n := by
  constructor
  · unfold resizeGrid; simp; omega
  · intro row hrow
    obtain ⟨r, -, rfl⟩ := List.mem_map.mp hrow
    simp; omega

/-- Resizing only adds zeros. -/
theorem resizeGrid_diagonal (g : List (List K)) (n : Nat) (h : ∀ i, gridEntry g i i = 0) (i : Nat) :
    gridEntry (resizeGrid g n) i i = 0 := by
  unfold gridEntry entry resizeGrid at *
  rw [List.getElem?_map]
  rcases hr : (g.take n ++ List.replicate (n - g.length) [])[i]? with _ | row
  · simp
  · simp only [Option.map_some, Option.getD_some]
    have hrow : row = g[i]?.getD [] := by
      rw [List.getElem?_append] at hr
      split at hr
      · rw [List.getElem?_take] at hr
        split at hr
        · rw [hr]; rfl
        · cases hr
      · rename_i hlen
        rw [List.getElem?_replicate] at hr
        split at hr
        · rename_i hlt
          simp only [Option.some.injEq] at hr
          rw [List.getElem?_eq_none, ← hr]; rfl
          simp at hlen; omega
        · cases hr
    have h0 := h i
    rw [← hrow] at h0
    rw [List.getElem?_append]
    split
    · rw [List.getElem?_take]
      split
      · exact h0
      · rfl
    · rw [List.getElem?_replicate]; split <;> rfl

theorem gridSet_entry (g : List (List K)) (n i j : Nat) (a : K) (hg : GridShape g n n) (hi : i < n) (hj : j < n) :
    ∃ g', gridSet g i j a = ok g' ∧ GridShape g' n n ∧
      ∀ i' j', gridEntry g' i' j' = if i' = i ∧ j' = j then a else gridEntry g i' j' := by
  obtain ⟨g', h1, h2, h3⟩ := gridSet_shape g n i j a hg hi hj
  refine ⟨g', h1, h2, ?_⟩
  intro i' j'
  unfold gridEntry entry
  rw [h3]
  split <;> rfl

theorem setBoth_entry (g : List (List K)) (n i j : Nat) (a : K) (hg : GridShape g n n) (hi : i < n) (hj : j < n) :
    ∃ g', setBoth g i j a = ok g' ∧ GridShape g' n n ∧
      ∀ i' j', gridEntry g' i' j' =
        if (i' = i ∧ j' = j) ∨ (i' = j ∧ j' = i) then a else gridEntry g i' j' := by
  obtain ⟨g1, h1, h2, h3⟩ := gridSet_entry g n i j a hg hi hj
  obtain ⟨g2, h4, h5, h6⟩ := gridSet_entry g1 n j i a h2 hj hi
  refine ⟨g2, by unfold setBoth; rw [h1, ok_bind, h4], h5, ?_⟩
  intro i' j'
  rw [h6, h3]
  by_cases e1 : i' = j ∧ j' = i
  · rw [if_pos e1, if_pos (Or.inr e1)]
  · rw [if_neg e1]
    by_cases e2 : i' = i ∧ j' = j
    · rw [if_pos e2, if_pos (Or.inl e2)]
    · rw [if_neg e2, if_neg (by tauto)]

/-- A loop filling a symmetric table, with a state `σ` (the number of draws). -/
theorem fill_table {σ : Type} (n a : Nat) (ha : a ≤ 1) (body : Nat → Nat → List (List K) × σ → Outcome (List (List K) × σ))
    (value : Nat → Nat → K) (next : Nat → Nat → σ → Prop)
    (hnext : ∀ i, ∀ s, next i i s → next (i + 1) 0 s)
    (hbody : ∀ i j g s, j < i → i < n → GridShape g n n → next i j s →
      ∃ g' s', body i j (g, s) = ok (g', s') ∧ setBoth g i j (value i j) = ok g' ∧ next i (j + 1) s')
    (g : List (List K)) (s : σ) (hn : 0 < n) (hg : GridShape g n n) (hs : next a 0 s) :
    ∃ g' s', forRange a n (fun i r => forRange 0 i (fun j r => body i j r) r) (g, s) = ok (g', s') ∧
      GridShape g' n n ∧ (∀ i, gridEntry g' i i = gridEntry g i i) ∧
      ∀ i j, j < i → i < n → gridEntry g' i j = value i j ∧ gridEntry g' j i = value i j := by
  have outer := forRange_returns (a := a) (b := n)
    (body := fun i (r : List (List K) × σ) => forRange 0 i (fun j r => body i j r) r)
    (I := fun k (r : List (List K) × σ) => GridShape r.1 n n ∧ next k 0 r.2 ∧
      (∀ i, gridEntry r.1 i i = gridEntry g i i) ∧
      ∀ i j, j < i → i < k → gridEntry r.1 i j = value i j ∧ gridEntry r.1 j i = value i j)
    (s := (g, s)) (by omega) ⟨hg, hs, fun _ => rfl, by intro i j h1 h2; omega⟩ (by
      rintro k ⟨g1, s1⟩ hk1 hk2 ⟨k1, k2, k3, k4⟩
      simp only at k1 k2 k3 k4
      have inner := forRange_returns (a := 0) (b := k) (body := fun j (r : List (List K) × σ) => body k j r)
        (I := fun m (r : List (List K) × σ) => GridShape r.1 n n ∧ next k m r.2 ∧
          (∀ i, gridEntry r.1 i i = gridEntry g i i) ∧
          ∀ i j, j < i → (i < k ∨ (i = k ∧ j < m)) →
            gridEntry r.1 i j = value i j ∧ gridEntry r.1 j i = value i j)
        (s := (g1, s1)) (Nat.zero_le _) ⟨k1, k2, k3, by intro i j h1 h2; exact k4 i j h1 (by omega)⟩ (by
          rintro m ⟨g2, s2⟩ hm1 hm2 ⟨m1, m2, m3, m4⟩
          simp only at m1 m2 m3 m4
          obtain ⟨g', s', e1, e2, e3⟩ := hbody k m g2 s2 hm2 hk2 m1 m2
          obtain ⟨g'', e4, e5, e6⟩ := setBoth_entry g2 n k m (value k m) m1 hk2 (by omega)
          rw [e2] at e4; cases e4
          refine ⟨_, e1, e5, e3, ?_, ?_⟩
          · intro i
            simp only
            rw [e6, if_neg (by omega), m3]
          · intro i j hj hij
            simp only
            rw [e6, e6]
            by_cases hnew : i = k ∧ j = m
            · obtain ⟨rfl, rfl⟩ := hnew
              simp
            · rw [if_neg (by omega), if_neg (by omega)]
              exact m4 i j hj (by omega))
      obtain ⟨r, e1, e2, e3, e4, e5⟩ := inner
      refine ⟨r, e1, e2, hnext _ _ e3, e4, ?_⟩
      intro i j hj hi
      exact e5 i j hj (by omega))
  obtain ⟨⟨g', s'⟩, e1, e2, e3, e4, e5⟩ := outer
  exact ⟨g', s', e1, e2, e4, e5⟩

theorem isDistanceTable_of (g : List (List K)) (n : Nat) (value : Nat → Nat → K) (hg : GridShape g n n)
    (hd : ∀ i, gridEntry g i i = 0)
    (h : ∀ i j, j < i → i < n → gridEntry g i j = value i j ∧ gridEntry g j i = value i j) :
    IsDistanceTable g n := by
  refine ⟨hg, ?_, hd⟩
  have hout : ∀ i j, n ≤ i ∨ n ≤ j → gridEntry g i j = 0 := by
    intro i j hij
    unfold gridEntry entry
    rcases hr : g[i]? with _ | row
    · rfl
    · have hi : i < n := by
        by_contra hc
        rw [List.getElem?_eq_none (by rw [hg.1]; omega)] at hr
        cases hr
      have := hg.2 row (List.mem_of_getElem? hr)
      simp only [Option.getD_some]
      rw [List.getElem?_eq_none (by omega)]; rfl
  intro i j
  by_cases hij : n ≤ i ∨ n ≤ j
  · rw [hout i j hij, hout j i (by tauto)]
  · rcases Nat.lt_trichotomy i j with hlt | rfl | hlt
    · obtain ⟨a, b⟩ := h j i hlt (by omega)
      rw [a, b]
    · rfl
    · obtain ⟨a, b⟩ := h i j hlt (by omega)
      rw [a, b]

/-- C44: the random generator gives a symmetric table with zero diagonal, provided that the previous table, if
any, has a zero diagonal (it has none in a new object). -/
theorem tspGenerate_table (generator : Nat → K) (old : List (List K)) (n : Nat) (hn : 0 < n)
    (hold : ∀ i, gridEntry old i i = 0) :
    ∃ g, tspGenerate generator old n = ok g ∧ IsDistanceTable g n ∧
      ∀ i j, j < i → i < n → gridEntry g i j = generator (i * (i - 1) / 2 + j) := by
  have hvalue : ∀ i, (i + 1) * i / 2 = i * (i - 1) / 2 + i := by
    intro i
    cases i with
    | zero => rfl
    | succ i =>
      rw [Nat.add_sub_cancel, show (i + 1 + 1) * (i + 1) = (i + 1) * i + (i + 1) * 2 by ring,
        Nat.add_mul_div_right _ _ (by omega)]
  obtain ⟨g', s', e1, e2, e3, e4⟩ := fill_table (σ := Nat) n 0 (by omega) (fun i j r => do
      let g ← setBoth r.1 i j (generator r.2)
      ok (g, r.2 + 1)) (fun i j => generator (i * (i - 1) / 2 + j)) (fun i j s => s = i * (i - 1) / 2 + j)
    (by intro i s hs; rw [hs]; simp only [Nat.add_sub_cancel, hvalue, Nat.add_zero])
    (by
      intro i j g s hj hi hg hs
      obtain ⟨g', h1, -, -⟩ := setBoth_entry g n i j (generator (i * (i - 1) / 2 + j)) hg hi (by omega)
      refine ⟨g', s + 1, ?_, h1, by omega⟩
      simp only
      rw [hs, h1, ok_bind])
    (resizeGrid old n) 0 hn (resizeGrid_shape old n) (by simp)
  refine ⟨g', ?_, isDistanceTable_of g' n _ e2 (fun i => by rw [e3, resizeGrid_diagonal old n hold]) e4,
    fun i j hj hi => (e4 i j hj hi).1⟩
  unfold tspGenerate
  rw [assert_pos (by simpa using hn), ok_bind, e1, ok_bind]

/-- C44: distances computed from coordinates give a symmetric table with zero diagonal, for any previous
table; below the diagonal they are the weights of the differences of coordinates. -/
theorem tspDistances_table (weight : K → K → K) (xs ys : List K) (old : List (List K)) (n : Nat) (hn : 0 < n)
    (hx : xs.length = n) (hy : ys.length = n) :
    ∃ g, tspDistances weight xs ys old n = ok g ∧ IsDistanceTable g n ∧
      ∀ i j, j < i → i < n →
        gridEntry g i j = weight (entry xs i - entry xs j) (entry ys i - entry ys j) := by
  have hdiag := forRange_returns (a := 0) (b := n) (body := fun i (g : List (List K)) => gridSet g i i 0)
    (I := fun k g => GridShape g n n ∧ ∀ i < k, gridEntry g i i = 0) (s := resizeGrid old n) (Nat.zero_le _)
    ⟨resizeGrid_shape old n, by omega⟩ (by
      rintro k g - hk ⟨h1, h2⟩
      obtain ⟨g', e1, e2, e3⟩ := gridSet_entry g n k k 0 h1 hk hk
      refine ⟨g', e1, e2, ?_⟩
      intro i hi
      rw [e3]
      split
      · rfl
      · exact h2 i (by omega))
  obtain ⟨g0, d1, d2, d3⟩ := hdiag
  have d3' : ∀ i, gridEntry g0 i i = 0 := by
    intro i
    by_cases hi : i < n
    · exact d3 i hi
    · unfold gridEntry entry
      rw [show g0[i]? = none from List.getElem?_eq_none (by rw [d2.1]; omega)]; rfl
  have hfill := fill_table (σ := Unit) n 1 (by omega) (fun i j r => do
      let xi ← vget xs i
      let xj ← vget xs j
      let yi ← vget ys i
      let yj ← vget ys j
      let g ← setBoth r.1 i j (weight (xi - xj) (yi - yj))
      ok (g, ())) (fun i j => weight (entry xs i - entry xs j) (entry ys i - entry ys j)) (fun _ _ _ => True)
    (by simp) (by
      intro i j g s hj hi hg _
      obtain ⟨g', h1, -, -⟩ := setBoth_entry g n i j
        (weight (entry xs i - entry xs j) (entry ys i - entry ys j)) hg hi (by omega)
      refine ⟨g', (), ?_, h1, trivial⟩
      simp only
      rw [vget_entry _ _ (by omega), ok_bind, vget_entry _ _ (by omega), ok_bind, vget_entry _ _ (by omega),
        ok_bind, vget_entry _ _ (by omega), ok_bind, h1, ok_bind]) g0 () hn d2 trivial
  obtain ⟨g', s', e1, e2, e3, e4⟩ := hfill
  refine ⟨g', ?_, isDistanceTable_of g' n _ e2 (fun i => by rw [e3, d3']) e4, fun i j hj hi => (e4 i j hj hi).1⟩
  unfold tspDistances
  rw [assert_pos (by simpa using hn), ok_bind, d1, ok_bind]
  -- the loops with and without the unit state
  have hproj : ∀ (body : Nat → List (List K) → Outcome (List (List K))) (m a : Nat) (g : List (List K)),
      forLoop m a (fun j r => do let g ← body j r.1; ok (g, ())) (g, ()) =
        (do let g ← forLoop m a body g; ok (g, ())) := by
    intro body m
    induction m with
    | zero => intro a g; rfl
    | succ m ih =>
      intro a g
      simp only [forLoop, bind_assoc]
      congr 1
      funext g1
      rw [ok_bind, ih]
  have e1' := e1
  have hin : ∀ (i : Nat) (r : List (List K) × Unit), forRange 0 i (fun j (r : List (List K) × Unit) => do
      let xi ← vget xs i
      let xj ← vget xs j
      let yi ← vget ys i
      let yj ← vget ys j
      let g ← setBoth r.1 i j (weight (xi - xj) (yi - yj))
      ok (g, ())) r = (do
        let g ← forRange 0 i (fun j g => do
          let xi ← vget xs i
          let xj ← vget xs j
          let yi ← vget ys i
          let yj ← vget ys j
          setBoth g i j (weight (xi - xj) (yi - yj))) r.1
        ok (g, ())) := by
    rintro i ⟨g, u⟩
    unfold forRange
    rw [← hproj]
    congr 1
    funext j r
    simp only [bind_assoc]
  rw [show (fun i (r : List (List K) × Unit) => forRange 0 i (fun j (r : List (List K) × Unit) => do
      let xi ← vget xs i
      let xj ← vget xs j
      let yi ← vget ys i
      let yj ← vget ys j
      let g ← setBoth r.1 i j (weight (xi - xj) (yi - yj))
      ok (g, ())) r) = _ from funext (fun i => funext (hin i))] at e1'
  unfold forRange at e1' ⊢
  rw [hproj, bind_eq_ok] at e1'
  obtain ⟨g2, h1, h2⟩ := e1'
  cases h2
  exact h1

end

/-! ## Rounding -/

section
variable {K : Type} [Field K] [LinearOrder K] [IsStrictOrderedRing K] [FloorRing K]

/-- C44: the distance of type ATT is the pseudo Euclidean distance rounded up. -/
theorem tspAtt_ceil (sqrt : K → K) (hs : ∀ z, 0 ≤ sqrt z) (dx dy : K) :
    tspAtt sqrt dx dy = (⌈sqrt ((dx * dx + dy * dy) / 10)⌉ : K) := by
  unfold tspAtt truncInt
  simp only
  generalize hr : sqrt ((dx * dx + dy * dy) / 10) = r
  have h0 : 0 ≤ r := by rw [← hr]; exact hs _
  have hpos : 0 ≤ r + 1 / 2 := by linarith
  simp only [if_pos hpos]
  have h1 := Int.floor_le (r + 1 / 2)
  have h2 := Int.lt_floor_add_one (r + 1 / 2)
  split
  · rename_i hlt
    have : ⌈r⌉ = ⌊r + 1 / 2⌋ + 1 := by
      rw [Int.ceil_eq_iff]
      push_cast
      constructor <;> linarith
    rw [this]; push_cast; rfl
  · rename_i hge
    have : ⌈r⌉ = ⌊r + 1 / 2⌋ := by
      rw [Int.ceil_eq_iff]
      constructor
      · linarith
      · exact not_lt.mp hge
    rw [this]

/-- C44: the distance of type EUC_2D is the Euclidean distance rounded to the nearest integer, and halves are
rounded up. -/
theorem tspEuc_round (sqrt : K → K) (hs : ∀ z, 0 ≤ sqrt z) (dx dy : K) :
    ∃ m : Int, tspEuc sqrt dx dy = (m : K) ∧ (m : K) - 1 / 2 ≤ sqrt (dx * dx + dy * dy) ∧
      sqrt (dx * dx + dy * dy) < (m : K) + 1 / 2 := by
  unfold tspEuc truncInt
  generalize hr : sqrt (dx * dx + dy * dy) = r
  have h0 : 0 ≤ r := by rw [← hr]; exact hs _
  rw [if_pos (by linarith)]
  have h1 := Int.floor_le (r + 1 / 2)
  have h2 := Int.lt_floor_add_one (r + 1 / 2)
  exact ⟨_, rfl, by linarith, by linarith⟩

end

example : tspGenerate (fun k => (k : Int) + 5) [] 3 = ok [[0, 5, 6], [5, 0, 7], [6, 7, 0]] := by decide
example : ∀ i : Nat, gridEntry ([] : List (List Int)) i i = 0 := by simp [gridEntry, entry]
example : tspDistances (fun dx dy : Int => dx * dx + dy * dy) [0, 3] [0, 4] [] 2 = ok [[0, 25], [25, 0]] := by
  decide

end Hnco
