import Verif.Function.Sudoku
import Verif.Function.WalshProps
import Verif.Function.MaxSatProps
import Verif.TextLemmas
import Mathlib.Data.List.Nodup
import Mathlib.Algebra.Order.BigOperators.Group.List

/-!
# Sudoku (C43)
-/

namespace Hnco

open Outcome

/-! ## Specification -/

/-- A 9 × 9 board. -/
def IsBoard {α : Type} (g : List (List α)) : Prop := g.length = 9 ∧ ∀ row ∈ g, row.length = 9

/-- Content of cell `(i, j)`. -/
def cellAt {α : Type} (g : List (List α)) (i j : Nat) : Option α := (g[i]?.getD [])[j]?

/-- Each row, column and block contains each digit from 1 to 9 exactly once. -/
def ValidSudoku (g : List (List Nat)) : Prop :=
  ∀ d, 1 ≤ d → d ≤ 9 →
    (∀ i < 9, ∃! j, j < 9 ∧ cellAt g i j = some d) ∧
    (∀ j < 9, ∃! i, i < 9 ∧ cellAt g i j = some d) ∧
    (∀ a < 3, ∀ b < 3, ∃! p : Nat × Nat, (p.1 / 3 = a ∧ p.2 / 3 = b) ∧ cellAt g p.1 p.2 = some d)

/-- All cells, row by row. -/
def allCells : List (Nat × Nat) := (List.range 9).flatMap (fun i => (List.range 9).map (fun j => (i, j)))

/-- The empty cells of a problem, row by row. -/
def emptyCells (problem : List (List Char)) : List (Nat × Nat) :=
  allCells.filter (fun p => cellAt problem p.1 p.2 = some '.')

/-- Rows, columns and blocks. -/
def sudokuUnits : List (List (Nat × Nat)) :=
  (List.range 9).map (fun i => (List.range 9).map (fun j => (i, j))) ++
  (List.range 9).map (fun j => (List.range 9).map (fun i => (i, j))) ++
  (List.range 3).flatMap (fun a => (List.range 3).map (fun b =>
    (List.range 3).flatMap (fun i => (List.range 3).map (fun j => (3 * a + i, 3 * b + j)))))

/-- Number of occurrences of a digit in a row, column or block. -/
def occurrences (g : List (List Nat)) (cells : List (Nat × Nat)) (d : Nat) : Nat :=
  cells.countP (fun p => cellAt g p.1 p.2 = some d)

/-- Penalty of a row, column or block: the distance between 1 and the number of occurrences of each digit. -/
def unitPenalty (g : List (List Nat)) (cells : List (Nat × Nat)) : Int :=
  ((List.range' 1 9).map (fun d => |(occurrences g cells d : Int) - 1|)).sum

/-- A problem with its given cells already written in the candidate. -/
def SudokuReady (s : Sudoku) : Prop :=
  IsBoard s.problem ∧ IsBoard s.candidate ∧ s.numVariables = some (emptyCells s.problem).length ∧
    ∀ i < 9, ∀ j < 9, cellAt s.problem i j ≠ some '.' → ∃ d, 1 ≤ d ∧ d ≤ 9 ∧ cellAt s.candidate i j = some d

/-! ## Loops over cells -/

theorem forLoop_eq_forEach {σ : Type} (body : Nat → σ → Outcome σ) (n a : Nat) (s : σ) :
    forLoop n a body s = forEach (List.range' a n) body s := by
  induction n generalizing a s with
  | zero => rfl
  | succ n ih =>
    rw [List.range'_succ, forEach, forLoop]
    congr 1
    funext t
    exact ih _ _

theorem forRange_eq_forEach {σ : Type} (n : Nat) (body : Nat → σ → Outcome σ) (s : σ) :
    forRange 0 n body s = forEach (List.range n) body s := by
  unfold forRange
  rw [forLoop_eq_forEach, List.range_eq_range', Nat.sub_zero]

theorem forEach_append {α σ : Type} (l₁ l₂ : List α) (body : α → σ → Outcome σ) (s : σ) :
    forEach (l₁ ++ l₂) body s = forEach l₁ body s >>= forEach l₂ body := by
  induction l₁ generalizing s with
  | nil => rfl
  | cons a l ih =>
    rw [List.cons_append, forEach, forEach, bind_assoc]
    congr 1
    funext t
    exact ih t

theorem forEach_map {α β σ : Type} (f : α → β) (l : List α) (body : β → σ → Outcome σ) (s : σ) :
    forEach (l.map f) body s = forEach l (fun a => body (f a)) s := by
  induction l generalizing s with
  | nil => rfl
  | cons a l ih =>
    rw [List.map_cons, forEach, forEach]
    congr 1
    funext t
    exact ih t

theorem forEach_flatMap {α β σ : Type} (f : α → List β) (l : List α) (body : β → σ → Outcome σ) (s : σ) :
    forEach (l.flatMap f) body s = forEach l (fun a s => forEach (f a) body s) s := by
  induction l generalizing s with
  | nil => rfl
  | cons a l ih =>
    rw [List.flatMap_cons, forEach_append, forEach]
    congr 1
    funext t
    exact ih t

/-- Two nested loops are a loop over pairs. -/
theorem forRange_forRange {σ : Type} (m n : Nat) (f : Nat → Nat → Nat × Nat) (body : Nat → Nat → σ → Outcome σ) (s : σ)
    (body' : Nat × Nat → σ → Outcome σ) (h : ∀ i j, body i j = body' (f i j)) :
    forRange 0 m (fun i s => forRange 0 n (fun j s => body i j s) s) s =
      forEach ((List.range m).flatMap (fun i => (List.range n).map (fun j => f i j))) body' s := by
  rw [forEach_flatMap, forRange_eq_forEach]
  congr 1
  funext i t
  rw [forEach_map, forRange_eq_forEach]
  congr 1
  funext j t
  rw [h]

theorem allCells_nodup : allCells.Nodup := by decide

theorem mem_allCells (p : Nat × Nat) : p ∈ allCells ↔ p.1 < 9 ∧ p.2 < 9 := by
  unfold allCells
  simp only [List.mem_flatMap, List.mem_range, List.mem_map]
  constructor
  · rintro ⟨i, hi, j, hj, rfl⟩
    exact ⟨hi, hj⟩
  · rintro ⟨h1, h2⟩
    exact ⟨p.1, h1, p.2, h2, rfl⟩

theorem cellAt_isSome {α : Type} (g : List (List α)) (hg : IsBoard g) (i j : Nat) (hi : i < 9) (hj : j < 9) :
    ∃ a, cellAt g i j = some a ∧ gridGet g i j = ok a := by
  have hi' : i < g.length := by rw [hg.1]; exact hi
  have hrow : (g[i]'hi').length = 9 := hg.2 _ (List.getElem_mem hi')
  have hj' : j < (g[i]'hi').length := by omega
  refine ⟨g[i][j], ?_, ?_⟩
  · unfold cellAt
    rw [List.getElem?_eq_getElem hi']
    simp [hj']
  · unfold gridGet
    rw [vget_eq hi', ok_bind, vget_eq hj']

theorem gridGet_cell {α : Type} (g : List (List α)) (hg : IsBoard g) (i j : Nat) (hi : i < 9) (hj : j < 9) (a : α)
    (h : cellAt g i j = some a) : gridGet g i j = ok a := by
  obtain ⟨b, h1, h2⟩ := cellAt_isSome g hg i j hi hj
  rw [h1] at h; cases h
  exact h2

theorem gridSet_cell {α : Type} (g : List (List α)) (hg : IsBoard g) (i j : Nat) (hi : i < 9) (hj : j < 9) (a : α) :
    ∃ g', gridSet g i j a = ok g' ∧ IsBoard g' ∧
      ∀ i' j', cellAt g' i' j' = if i' = i ∧ j' = j then some a else cellAt g i' j' := by
  have hi' : i < g.length := by rw [hg.1]; exact hi
  have hrow : (g[i]'hi').length = 9 := hg.2 _ (List.getElem_mem hi')
  refine ⟨g.set i ((g[i]'hi').set j a), ?_, ⟨?_, ?_⟩, ?_⟩
  · unfold gridSet
    rw [vget_eq hi', ok_bind, vset_eq (by omega), ok_bind, vset_eq hi']
  · simp [hg.1]
  · intro row hrow'
    rcases List.mem_or_eq_of_mem_set hrow' with h | h
    · exact hg.2 _ h
    · rw [h]; simp [hrow]
  · intro i' j'
    unfold cellAt
    rw [List.getElem?_set]
    by_cases h1 : i = i'
    · subst h1
      rw [if_pos rfl, if_pos hi']
      simp only [Option.getD_some]
      rw [List.getElem?_set]
      by_cases h2 : j = j'
      · subst h2
        rw [if_pos rfl, if_pos (by omega), if_pos (by simp)]
      · rw [if_neg h2, if_neg (by intro h; exact h2 h.2.symm), List.getElem?_eq_getElem hi']
        rfl
    · rw [if_neg h1, if_neg (by intro h; exact h1 h.1.symm)]

/-! ## Writing variables -/

/-- C43: writing variables never changes a given cell; the empty cells, row by row, receive the variables, which
are digits counted from 0. -/
theorem sudokuWrite_cells (problem : List (List Char)) (candidate : List (List Nat)) (hp : IsBoard problem)
    (hc : IsBoard candidate) (x : List Nat) (hx : x.length = (emptyCells problem).length) :
    ∃ candidate', sudokuWrite problem candidate x = ok candidate' ∧ IsBoard candidate' ∧
      (∀ i < 9, ∀ j < 9, cellAt problem i j ≠ some '.' → cellAt candidate' i j = cellAt candidate i j) ∧
      (emptyCells problem).map (fun p => cellAt candidate' p.1 p.2) = x.map (fun v => some (v + 1)) := by
  let body : Nat × Nat → List (List Nat) × Nat → Outcome (List (List Nat) × Nat) := fun p r => do
    let c ← gridGet problem p.1 p.2
    if c = '.' then do
      let v ← vget x r.2
      let candidate ← gridSet r.1 p.1 p.2 (v + 1)
      ok (candidate, r.2 + 1)
    else ok r
  let isEmpty : Nat × Nat → Bool := fun p => cellAt problem p.1 p.2 = some '.'
  have hloop := forEach_returns (body := body)
    (I := fun done (r : List (List Nat) × Nat) => IsBoard r.1 ∧ r.2 = (done.filter isEmpty).length ∧
      (∀ i j, (i, j) ∉ done ∨ cellAt problem i j ≠ some '.' → cellAt r.1 i j = cellAt candidate i j) ∧
      (done.filter isEmpty).map (fun p => cellAt r.1 p.1 p.2) = (x.take r.2).map (fun v => some (v + 1)))
    allCells (candidate, 0) ⟨hc, rfl, fun _ _ _ => rfl, rfl⟩ (by
      rintro done ⟨i, j⟩ rest ⟨g, k⟩ hl ⟨h1, h2, h3, h4⟩
      simp only at h1 h2 h3 h4
      have hmem : (i, j) ∈ allCells := by rw [hl]; simp
      obtain ⟨hi, hj⟩ := (mem_allCells _).mp hmem
      simp only at hi hj
      obtain ⟨c, hc1, hc2⟩ := cellAt_isSome problem hp i j hi hj
      have hnot : (i, j) ∉ done := by
        have := allCells_nodup
        rw [hl] at this
        intro hin
        exact (List.disjoint_of_nodup_append this) hin (by simp)
      simp only [body]
      rw [hc2, ok_bind]
      by_cases hdot : c = '.'
      · rw [if_pos hdot]
        have hempty : isEmpty (i, j) = true := by simp [isEmpty, hc1, hdot]
        have hlen : k < x.length := by
          rw [hx]
          unfold emptyCells
          have : (allCells.filter isEmpty).length = (done.filter isEmpty).length + (1 + (rest.filter isEmpty).length) := by
            rw [hl, List.filter_append, List.filter_cons, if_pos hempty, List.length_append, List.length_cons]
            omega
          have e : (allCells.filter (fun p => decide (cellAt problem p.1 p.2 = some '.'))) =
            allCells.filter isEmpty := rfl
          rw [e, this]; omega
        obtain ⟨g', e1, e2, e3⟩ := gridSet_cell g h1 i j hi hj (x[k] + 1)
        rw [vget_eq hlen, ok_bind, e1, ok_bind]
        refine ⟨_, rfl, e2, ?_, ?_, ?_⟩
        · simp only
          rw [List.filter_append, List.length_append, h2]
          simp [hempty]
        · intro i' j' h
          simp only
          rw [e3]
          by_cases hij : i' = i ∧ j' = j
          · obtain ⟨rfl, rfl⟩ := hij
            rcases h with h | h
            · simp at h
            · rw [hc1, hdot] at h; simp at h
          · rw [if_neg hij]
            apply h3
            rcases h with h | h
            · left; intro hin; exact h (by simp [hin])
            · right; exact h
        · simp only
          rw [List.filter_append, List.map_append]
          have hs : [(i, j)].filter isEmpty = [(i, j)] := by simp [hempty]
          rw [hs, List.take_add_one, List.map_append, List.getElem?_eq_getElem hlen]
          congr 1
          · rw [← h4]
            apply List.map_congr_left
            rintro ⟨i', j'⟩ hin
            simp only
            rw [e3, if_neg]
            rintro ⟨rfl, rfl⟩
            exact hnot (List.mem_filter.mp hin).1
          · simp [e3]
      · rw [if_neg hdot]
        have hempty : isEmpty (i, j) = false := by simp [isEmpty, hc1, hdot]
        have hf : (done ++ [(i, j)]).filter isEmpty = done.filter isEmpty := by
          rw [List.filter_append]; simp [hempty]
        refine ⟨_, rfl, h1, ?_, ?_, ?_⟩
        · simp only; rw [hf, h2]
        · intro i' j' h
          simp only
          by_cases hij : i' = i ∧ j' = j
          · obtain ⟨rfl, rfl⟩ := hij
            exact h3 _ _ (Or.inl hnot)
          · apply h3
            rcases h with h | h
            · left; intro hin; exact h (by simp [hin])
            · right; exact h
        · simp only; rw [hf, h4])
  obtain ⟨⟨g, k⟩, e1, e2, e3, e4, e5⟩ := hloop
  simp only at e2 e3 e4 e5
  have hk : k = x.length := by rw [e3, hx]; rfl
  refine ⟨g, ?_, e2, ?_, ?_⟩
  · unfold sudokuWrite
    rw [forRange_forRange 9 9 (fun i j => (i, j)) _ _ body (fun i j => rfl)]
    have : (List.range 9).flatMap (fun i => (List.range 9).map (fun j => (i, j))) = allCells := rfl
    rw [this, e1, ok_bind, assert_pos (by simpa using hk), ok_bind]
  · intro i _ j _ h
    exact e4 i j (Or.inr h)
  · rw [hk, List.take_length] at e5
    exact e5

/-! ## Value -/

theorem sudokuCount_loop (g : List (List Nat)) (hg : IsBoard g) (cells : List (Nat × Nat))
    (hcells : ∀ p ∈ cells, p.1 < 9 ∧ p.2 < 9)
    (hd : ∀ i < 9, ∀ j < 9, ∃ d, 1 ≤ d ∧ d ≤ 9 ∧ cellAt g i j = some d) :
    ∃ counts, forEach cells (fun p counts => sudokuCount g p.1 p.2 counts) (List.replicate 10 0) = ok counts ∧
      counts.length = 10 ∧ ∀ d < 10, counts[d]? = some (occurrences g cells d : Int) := by
  refine forEach_returns (I := fun done (counts : List Int) => counts.length = 10 ∧
    ∀ d < 10, counts[d]? = some (occurrences g done d : Int)) cells (List.replicate 10 0) ?_ ?_
  · refine ⟨by simp, ?_⟩
    intro d hd
    rw [List.getElem?_replicate, if_pos hd]
    rfl
  · rintro done ⟨i, j⟩ rest counts hl ⟨h1, h2⟩
    obtain ⟨hi, hj⟩ := hcells (i, j) (by rw [hl]; simp)
    obtain ⟨d, hd1, hd2, hd3⟩ := hd i hi j hj
    have hlt : d < counts.length := by omega
    unfold sudokuCount
    rw [gridGet_cell g hg i j hi hj d hd3, ok_bind, assert_pos (by simpa using (by omega : 0 < d)), ok_bind,
      assert_pos (by simpa using (by omega : d < 10)), ok_bind, vget_eq hlt, ok_bind, vset_eq hlt]
    refine ⟨_, rfl, by simpa using h1, ?_⟩
    intro e he
    have h2e := h2 e he
    rw [List.getElem?_set]
    unfold occurrences at *
    rw [List.countP_append]
    by_cases hde : d = e
    · subst hde
      rw [if_pos rfl, if_pos hlt]
      rw [List.getElem?_eq_getElem hlt] at h2e
      have h2e' : counts[d] = _ := Option.some.inj h2e
      rw [h2e']
      simp [hd3]
    · rw [if_neg hde, h2e]
      have : ¬ (cellAt g i j = some e) := by rw [hd3]; simpa using hde
      simp [this]

theorem sudokuPenalty_eq (g : List (List Nat)) (cells : List (Nat × Nat)) (counts : List Int) (r : Int)
    (h0 : occurrences g cells 0 = 0) (hlen : counts.length = 10)
    (hc : ∀ d < 10, counts[d]? = some (occurrences g cells d : Int)) :
    sudokuPenalty counts r = ok (r + unitPenalty g cells) := by
  have hget : ∀ d < 10, vget counts d = ok (occurrences g cells d : Int) := by
    intro d hd
    rw [vget_eq (by omega)]
    have := hc d hd
    rw [List.getElem?_eq_getElem (by omega)] at this
    rw [Option.some.inj this]
  unfold sudokuPenalty
  rw [hget 0 (by omega), ok_bind, h0, assert_pos (by decide), ok_bind]
  unfold forRange
  rw [forLoop_eq_forEach]
  rw [forEach_sum _ (fun d => |(occurrences g cells d : Int) - 1|)]
  · rfl
  · intro d hd r
    rw [hget d (by simp at hd; omega), ok_bind, Int.natCast_natAbs]

/-- The penalty of a list of cells. -/
theorem sudokuUnit_eq (g : List (List Nat)) (hg : IsBoard g) (cells : List (Nat × Nat))
    (hcells : ∀ p ∈ cells, p.1 < 9 ∧ p.2 < 9)
    (hd : ∀ i < 9, ∀ j < 9, ∃ d, 1 ≤ d ∧ d ≤ 9 ∧ cellAt g i j = some d) (r : Int) :
    (forEach cells (fun p counts => sudokuCount g p.1 p.2 counts) (List.replicate 10 0) >>=
      fun counts => sudokuPenalty counts r) = ok (r + unitPenalty g cells) := by
  obtain ⟨counts, e1, e2, e3⟩ := sudokuCount_loop g hg cells hcells hd
  rw [e1, ok_bind]
  refine sudokuPenalty_eq g cells counts r ?_ e2 e3
  unfold occurrences
  rw [List.countP_eq_zero]
  rintro ⟨i, j⟩ hp
  obtain ⟨hi, hj⟩ := hcells _ hp
  obtain ⟨d, hd1, hd2, hd3⟩ := hd i hi j hj
  simp only [hd3, decide_eq_true_eq, Option.some.injEq]
  omega

/-- All cells of the candidate are digits once variables are written. -/
theorem digits_of_write (s : Sudoku) (hs : SudokuReady s) (x : List Nat) (hr : ∀ v ∈ x, v < 9) (g : List (List Nat))
    (hgiven : ∀ i < 9, ∀ j < 9, cellAt s.problem i j ≠ some '.' → cellAt g i j = cellAt s.candidate i j)
    (hempty : (emptyCells s.problem).map (fun p => cellAt g p.1 p.2) = x.map (fun v => some (v + 1))) :
    ∀ i < 9, ∀ j < 9, ∃ d, 1 ≤ d ∧ d ≤ 9 ∧ cellAt g i j = some d := by
  intro i hi j hj
  by_cases h : cellAt s.problem i j = some '.'
  · have hmem : (i, j) ∈ emptyCells s.problem := by
      unfold emptyCells
      rw [List.mem_filter, mem_allCells]
      exact ⟨⟨hi, hj⟩, by simpa using h⟩
    have : cellAt g i j ∈ (emptyCells s.problem).map (fun p => cellAt g p.1 p.2) :=
      List.mem_map.mpr ⟨(i, j), hmem, rfl⟩
    rw [hempty, List.mem_map] at this
    obtain ⟨v, hv, he⟩ := this
    have := hr v hv
    exact ⟨v + 1, by omega, by omega, he.symm⟩
  · rw [hgiven i hi j hj h]
    exact hs.2.2.2 i hi j hj h

/-- C43: the value is minus the sum of the penalties of rows, columns and blocks. -/
theorem sudoku_value (s : Sudoku) (hs : SudokuReady s) (x : List Nat)
    (hx : x.length = (emptyCells s.problem).length) (hr : ∀ v ∈ x, v < 9) :
    ∃ g, sudokuWrite s.problem s.candidate x = ok g ∧
      sudokuEval s x = ok (-(sudokuUnits.map (unitPenalty g)).sum, { s with candidate := g }) := by
  obtain ⟨g, h1, h2, h3, h4⟩ := sudokuWrite_cells s.problem s.candidate hs.1 hs.2.1 x hx
  have hd := digits_of_write s hs x hr g h3 h4
  refine ⟨g, h1, ?_⟩
  have unit := sudokuUnit_eq g h2
  have rows : ∀ r : Int, forRange 0 9 (fun i result => do
      let counts ← forRange 0 9 (fun j counts => sudokuCount g i j counts) (List.replicate 10 0)
      sudokuPenalty counts result) r =
      ok (r + (((List.range 9).map (fun i => (List.range 9).map (fun j => (i, j)))).map (unitPenalty g)).sum) := by
    intro r
    rw [forRange_eq_forEach, List.map_map,
      forEach_sum _ (unitPenalty g ∘ fun i => (List.range 9).map (fun j => (i, j)))]
    intro i hi r
    have := unit ((List.range 9).map (fun j => (i, j))) (by
      intro p hp
      simp only [List.mem_map, List.mem_range] at hp hi
      obtain ⟨j, hj, rfl⟩ := hp
      exact ⟨hi, hj⟩) hd r
    rw [forEach_map] at this
    rw [forRange_eq_forEach]
    exact this
  have columns : ∀ r : Int, forRange 0 9 (fun j result => do
      let counts ← forRange 0 9 (fun i counts => sudokuCount g i j counts) (List.replicate 10 0)
      sudokuPenalty counts result) r =
      ok (r + (((List.range 9).map (fun j => (List.range 9).map (fun i => (i, j)))).map (unitPenalty g)).sum) := by
    intro r
    rw [forRange_eq_forEach, List.map_map,
      forEach_sum _ (unitPenalty g ∘ fun j => (List.range 9).map (fun i => (i, j)))]
    intro j hj r
    have := unit ((List.range 9).map (fun i => (i, j))) (by
      intro p hp
      simp only [List.mem_map, List.mem_range] at hp hj
      obtain ⟨i, hi, rfl⟩ := hp
      exact ⟨hi, hj⟩) hd r
    rw [forEach_map] at this
    rw [forRange_eq_forEach]
    exact this
  have blocks : ∀ r : Int, forRange 0 3 (fun a result => forRange 0 3 (fun b result => do
      let counts ← forRange 0 3 (fun i counts => forRange 0 3 (fun j counts =>
        sudokuCount g (3 * a + i) (3 * b + j) counts) counts) (List.replicate 10 0)
      sudokuPenalty counts result) result) r =
      ok (r + (((List.range 3).flatMap (fun a => (List.range 3).map (fun b =>
        (List.range 3).flatMap (fun i => (List.range 3).map (fun j => (3 * a + i, 3 * b + j)))))).map
          (unitPenalty g)).sum) := by
    intro r
    rw [← forEach_sum (fun cells r => ok (r + unitPenalty g cells)) (unitPenalty g) _ r (fun _ _ _ => rfl),
      forEach_flatMap, forRange_eq_forEach]
    have hcongr : ∀ {α σ : Type} (l : List α) (f f' : α → σ → Outcome σ) (s : σ),
        (∀ a ∈ l, ∀ s, f a s = f' a s) → forEach l f s = forEach l f' s := by
      intro α σ l f f' s h
      induction l generalizing s with
      | nil => rfl
      | cons a l ih =>
        rw [forEach, forEach, h a (by simp)]
        congr 1
        funext t
        exact ih t (fun b hb => h b (by simp [hb]))
    apply hcongr
    intro a ha r
    rw [forEach_map, forRange_eq_forEach]
    apply hcongr
    intro b hb r
    rw [forRange_forRange 3 3 (fun i j => (3 * a + i, 3 * b + j)) _ _
      (fun p counts => sudokuCount g p.1 p.2 counts) (fun i j => rfl)]
    apply unit _ _ hd
    intro p hp
    simp only [List.mem_flatMap, List.mem_map, List.mem_range] at hp ha hb
    obtain ⟨i, hi, j, hj, rfl⟩ := hp
    simp only
    omega
  unfold sudokuEval
  rw [hs.2.2.1]
  simp only
  rw [ok_bind, assert_pos (by simpa using hx), ok_bind, h1, ok_bind, rows, ok_bind, columns, ok_bind, blocks, ok_bind]
  unfold sudokuUnits
  rw [List.map_append, List.map_append, List.sum_append, List.sum_append, zero_add]

theorem countP_eq_one_iff {α : Type} (l : List α) (hl : l.Nodup) (P : α → Prop) [DecidablePred P] :
    l.countP (fun a => decide (P a)) = 1 ↔ ∃! a, a ∈ l ∧ P a := by
  rw [List.countP_eq_length_filter, List.length_eq_one_iff]
  constructor
  · rintro ⟨a, ha⟩
    have hmem : ∀ b, b ∈ l ∧ P b ↔ b = a := by
      intro b
      have : b ∈ l.filter (fun a => decide (P a)) ↔ b ∈ [a] := by rw [ha]
      simpa [List.mem_filter] using this
    exact ⟨a, (hmem a).mpr rfl, fun b hb => (hmem b).mp hb⟩
  · rintro ⟨a, ⟨h1, h2⟩, h3⟩
    have hin : a ∈ l.filter (fun a => decide (P a)) := List.mem_filter.mpr ⟨h1, by simpa using h2⟩
    refine ⟨a, ?_⟩
    have hnd := hl.filter (fun a => decide (P a))
    have hall : ∀ b ∈ l.filter (fun a => decide (P a)), b = a := by
      intro b hb
      obtain ⟨hb1, hb2⟩ := List.mem_filter.mp hb
      exact h3 b ⟨hb1, by simpa using hb2⟩
    generalize l.filter (fun a => decide (P a)) = m at hin hnd hall
    cases m with
    | nil => cases hin
    | cons b m =>
      have hb : b = a := hall b (by simp)
      subst hb
      cases m with
      | nil => rfl
      | cons c m =>
        have hc : c = b := hall c (by simp)
        subst hc
        simp at hnd

theorem unitPenalty_nonneg (g : List (List Nat)) (cells : List (Nat × Nat)) : 0 ≤ unitPenalty g cells := by
  unfold unitPenalty
  apply List.sum_nonneg
  intro z hz
  obtain ⟨d, -, rfl⟩ := List.mem_map.mp hz
  exact abs_nonneg _

theorem sum_eq_zero_iff_of_nonneg (l : List Int) (h : ∀ z ∈ l, 0 ≤ z) : l.sum = 0 ↔ ∀ z ∈ l, z = 0 := by
  induction l with
  | nil => simp
  | cons a l ih =>
    have ha := h a (by simp)
    have hl : 0 ≤ l.sum := List.sum_nonneg (fun z hz => h z (by simp [hz]))
    rw [List.sum_cons, List.forall_mem_cons, ← ih (fun z hz => h z (by simp [hz]))]
    omega

theorem unitPenalty_zero (g : List (List Nat)) (cells : List (Nat × Nat)) :
    unitPenalty g cells = 0 ↔ ∀ d, 1 ≤ d → d ≤ 9 → occurrences g cells d = 1 := by
  unfold unitPenalty
  rw [sum_eq_zero_iff_of_nonneg _ (by
    intro z hz
    obtain ⟨d, -, rfl⟩ := List.mem_map.mp hz
    exact abs_nonneg _)]
  constructor
  · intro h d h1 h2
    have := h _ (List.mem_map.mpr ⟨d, List.mem_range'_1.mpr ⟨h1, by omega⟩, rfl⟩)
    rw [abs_eq_zero] at this
    omega
  · intro h z hz
    obtain ⟨d, hd, rfl⟩ := List.mem_map.mp hz
    obtain ⟨h1, h2⟩ := List.mem_range'_1.mp hd
    rw [h d h1 (by omega)]
    rfl

theorem penalties_zero_iff (g : List (List Nat)) :
    (sudokuUnits.map (unitPenalty g)).sum = 0 ↔ ValidSudoku g := by
  rw [sum_eq_zero_iff_of_nonneg _ (by
    intro z hz
    obtain ⟨u, -, rfl⟩ := List.mem_map.mp hz
    exact unitPenalty_nonneg _ _)]
  simp only [List.mem_map, forall_exists_index, and_imp, forall_apply_eq_imp_iff₂, unitPenalty_zero]
  unfold sudokuUnits
  simp only [List.mem_append, or_imp, forall_and, List.mem_map, forall_exists_index, and_imp,
    forall_apply_eq_imp_iff₂, List.mem_range, List.mem_flatMap]
  have hrow : ∀ i d, occurrences g ((List.range 9).map (fun j => (i, j))) d = 1 ↔
      ∃! j, j < 9 ∧ cellAt g i j = some d := by
    intro i d
    unfold occurrences
    rw [List.countP_map]
    have := countP_eq_one_iff (List.range 9) List.nodup_range (fun j => cellAt g i j = some d)
    simp only [List.mem_range] at this
    exact this
  have hcol : ∀ j d, occurrences g ((List.range 9).map (fun i => (i, j))) d = 1 ↔
      ∃! i, i < 9 ∧ cellAt g i j = some d := by
    intro j d
    unfold occurrences
    rw [List.countP_map]
    have := countP_eq_one_iff (List.range 9) List.nodup_range (fun i => cellAt g i j = some d)
    simp only [List.mem_range] at this
    exact this
  have hblock : ∀ a < 3, ∀ b < 3, ∀ d, occurrences g ((List.range 3).flatMap (fun i => (List.range 3).map (fun j =>
      (3 * a + i, 3 * b + j)))) d = 1 ↔
      ∃! p : Nat × Nat, (p.1 / 3 = a ∧ p.2 / 3 = b) ∧ cellAt g p.1 p.2 = some d := by
    intro a ha b hb d
    unfold occurrences
    have hnd : ((List.range 3).flatMap (fun i => (List.range 3).map (fun j => (3 * a + i, 3 * b + j)))).Nodup := by
      interval_cases a <;> interval_cases b <;> decide
    have := countP_eq_one_iff _ hnd (fun p => cellAt g p.1 p.2 = some d)
    rw [this]
    have hmem : ∀ p : Nat × Nat, p ∈ ((List.range 3).flatMap (fun i => (List.range 3).map (fun j =>
        (3 * a + i, 3 * b + j)))) ↔ (p.1 / 3 = a ∧ p.2 / 3 = b) := by
      intro p
      simp only [List.mem_flatMap, List.mem_map, List.mem_range]
      constructor
      · rintro ⟨i, hi, j, hj, rfl⟩
        simp only
        omega
      · rintro ⟨h1, h2⟩
        refine ⟨p.1 - 3 * a, by omega, p.2 - 3 * b, by omega, ?_⟩
        apply Prod.ext <;> simp only <;> omega
    simp only [hmem]
  constructor
  · rintro ⟨⟨h1, h2⟩, h3⟩ d hd1 hd2
    refine ⟨fun i hi => (hrow i d).mp (h1 i hi d hd1 hd2), fun j hj => (hcol j d).mp (h2 j hj d hd1 hd2), ?_⟩
    intro a ha b hb
    exact (hblock a ha b hb d).mp (h3 _ a ha b hb rfl d hd1 hd2)
  · intro h
    refine ⟨⟨fun i hi d hd1 hd2 => (hrow i d).mpr ((h d hd1 hd2).1 i hi),
      fun j hj d hd1 hd2 => (hcol j d).mpr ((h d hd1 hd2).2.1 j hj)⟩, ?_⟩
    rintro u a ha b hb rfl d hd1 hd2
    exact (hblock a ha b hb d).mpr ((h d hd1 hd2).2.2 a ha b hb)

/-- C43: the value is at most 0, and it is 0 exactly when the filled board is valid. -/
theorem sudoku_zero_iff (s : Sudoku) (hs : SudokuReady s) (x : List Nat)
    (hx : x.length = (emptyCells s.problem).length) (hr : ∀ v ∈ x, v < 9) :
    ∃ v s', sudokuEval s x = ok (v, s') ∧ v ≤ 0 ∧ (v = 0 ↔ ValidSudoku s'.candidate) := by
  obtain ⟨g, h1, h2⟩ := sudoku_value s hs x hx hr
  refine ⟨_, _, h2, ?_, ?_⟩
  · have : 0 ≤ (sudokuUnits.map (unitPenalty g)).sum := by
      apply List.sum_nonneg
      intro z hz
      obtain ⟨u, -, rfl⟩ := List.mem_map.mp hz
      exact unitPenalty_nonneg _ _
    omega
  · rw [neg_eq_zero]
    exact penalties_zero_iff g

/-- C43: evaluating a candidate leaves the problem ready for the next one. -/
theorem sudoku_ready_again (s : Sudoku) (hs : SudokuReady s) (x : List Nat)
    (hx : x.length = (emptyCells s.problem).length) (hr : ∀ v ∈ x, v < 9) (v : Int) (s' : Sudoku)
    (h : sudokuEval s x = ok (v, s')) : SudokuReady s' ∧ s'.problem = s.problem := by
  obtain ⟨g, h1, h2⟩ := sudoku_value s hs x hx hr
  rw [h2] at h
  cases h
  obtain ⟨g', e1, e2, e3, e4⟩ := sudokuWrite_cells s.problem s.candidate hs.1 hs.2.1 x hx
  rw [h1] at e1; cases e1
  refine ⟨⟨hs.1, e2, hs.2.2.1, ?_⟩, rfl⟩
  intro i hi j hj hne
  exact digits_of_write s hs x hr g e3 e4 i hi j hj

end Hnco
