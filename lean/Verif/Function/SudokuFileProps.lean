import Verif.Function.SudokuProps
import Mathlib.Tactic.IntervalCases
import Mathlib.Algebra.Order.Field.Rat

/-!
# Sudoku: files and random instances (C43)
-/

namespace Hnco

open Outcome

/-! ## Specification -/

/-- A dot or a digit from 1 to 9. -/
def IsSudokuChar (c : Char) : Prop := c = '.' ∨ ∃ d, 1 ≤ d ∧ d ≤ 9 ∧ c = digitChar d

/-- At least nine lines; the first nine have at least nine characters; the first nine of them are dots or
digits. -/
def IsSudokuText (lines : List (List Char)) : Prop :=
  ∀ i < 9, ∀ j < 9, ∃ c, cellAt lines i j = some c ∧ IsSudokuChar c

/-! ## Loading -/

theorem digitChar_facts (d : Nat) (h : d ≤ 9) : (digitChar d).toNat = 48 + d ∧ (digitChar d).isDigit = true ∧
    digitChar d ≠ '.' ∧ (digitChar d = '0' ↔ d = 0) := by
  interval_cases d <;> decide

theorem isSudokuChar_iff (c : Char) : (c == '.' || (c.isDigit && c != '0')) = true ↔ IsSudokuChar c := by
  unfold IsSudokuChar
  rw [Bool.or_eq_true, Bool.and_eq_true, beq_iff_eq, bne_iff_ne]
  constructor
  · rintro (h | ⟨h1, h2⟩)
    · exact Or.inl h
    · right
      unfold Char.isDigit at h1
      have h48 : 48 ≤ c.toNat := by
        simp only [Bool.and_eq_true, decide_eq_true_eq] at h1
        exact h1.1
      have h57 : c.toNat ≤ 57 := by
        simp only [Bool.and_eq_true, decide_eq_true_eq] at h1
        exact h1.2
      have hc : c = digitChar (c.toNat - 48) := by
        unfold digitChar
        rw [show 48 + (c.toNat - 48) = c.toNat by omega, Char.ofNat_toNat]
      refine ⟨c.toNat - 48, ?_, by omega, hc⟩
      by_contra hlt
      apply h2
      rw [hc, show c.toNat - 48 = 0 by omega]
      rfl
  · rintro (h | ⟨d, h1, h2, rfl⟩)
    · exact Or.inl h
    · obtain ⟨-, f2, -, f4⟩ := digitChar_facts d h2
      right
      exact ⟨f2, fun h => by have := f4.mp h; omega⟩

/-- A loop each step of which succeeds or throws, according to a test. -/
theorem forRange_dichotomy {σ : Type} {body : Nat → σ → Outcome σ} (I : Nat → σ → Prop) (G : Nat → Prop) (e : Exn)
    (a b : Nat) (hab : a ≤ b) (s : σ) (h0 : I a s)
    (hs : ∀ j t, a ≤ j → j < b → I j t →
      (∃ t', body j t = ok t' ∧ I (j + 1) t' ∧ G j) ∨ (body j t = .throw e ∧ ¬ G j)) :
    (∃ t, forRange a b body s = ok t ∧ I b t ∧ ∀ j, a ≤ j → j < b → G j) ∨
      (forRange a b body s = .throw e ∧ ∃ j, a ≤ j ∧ j < b ∧ ¬ G j) := by
  obtain ⟨n, rfl⟩ := Nat.exists_eq_add_of_le hab
  induction n generalizing a s with
  | zero =>
    left
    exact ⟨s, forRange_empty (by omega), h0, fun j h1 h2 => by omega⟩
  | succ n ih =>
    rw [forRange_step (by omega)]
    rcases hs a s (Nat.le_refl _) (by omega) h0 with ⟨t', h1, h2, h3⟩ | ⟨h1, h2⟩
    · rw [h1, ok_bind]
      have := ih (a + 1) t' h2 (by omega) (fun j t k1 k2 => hs j t (by omega) (by omega))
      rw [show a + 1 + n = a + (n + 1) by omega] at this
      rcases this with ⟨t, e1, e2, e3⟩ | ⟨e1, j, e2, e3, e4⟩
      · left
        refine ⟨t, e1, e2, ?_⟩
        intro j k1 k2
        rcases Nat.eq_or_lt_of_le k1 with rfl | hlt
        · exact h3
        · exact e3 j (by omega) k2
      · right
        exact ⟨e1, j, by omega, e3, e4⟩
    · right
      rw [h1]
      exact ⟨rfl, a, Nat.le_refl _, by omega, h2⟩

/-- What is known once the first `k` cells are read. -/
def SudokuRead (lines : List (List Char)) (k : Nat) (s : List (List Char) × List (List Nat) × Nat) : Prop :=
  IsBoard s.1 ∧ IsBoard s.2.1 ∧
  s.2.2 = ((allCells.take k).filter (fun p => cellAt lines p.1 p.2 = some '.')).length ∧
  ∀ p ∈ allCells.take k, cellAt s.1 p.1 p.2 = cellAt lines p.1 p.2 ∧
    (∀ d, 1 ≤ d → d ≤ 9 → cellAt lines p.1 p.2 = some (digitChar d) → cellAt s.2.1 p.1 p.2 = some d)

theorem allCells_get : ∀ i < 9, ∀ j < 9, allCells[9 * i + j]? = some (i, j) := by decide +kernel

theorem allCells_take (i j : Nat) (hi : i < 9) (hj : j < 9) :
    allCells.take (9 * i + j + 1) = allCells.take (9 * i + j) ++ [(i, j)] ∧ (i, j) ∉ allCells.take (9 * i + j) := by
  have h := allCells_get i hi j hj
  refine ⟨by rw [List.take_add_one, h]; rfl, ?_⟩
  intro hin
  have hnd := allCells_nodup
  have hlt : 9 * i + j < allCells.length := by
    by_contra hc
    rw [List.getElem?_eq_none (by omega)] at h; cases h
  rw [List.getElem?_eq_getElem hlt] at h
  have h' : allCells[9 * i + j] = (i, j) := Option.some.inj h
  rw [← List.take_append_drop (9 * i + j) allCells, List.nodup_append] at hnd
  refine hnd.2.2 _ hin (i, j) ?_ rfl
  rw [List.drop_eq_getElem_cons hlt, h']
  simp

theorem sudokuReadCell_step (lines : List (List Char)) (i j : Nat) (hi : i < 9) (hj : j < 9) (c : Char)
    (hc : cellAt lines i j = some c) (s : List (List Char) × List (List Nat) × Nat)
    (hs : SudokuRead lines (9 * i + j) s) :
    (∃ s', sudokuReadCell i j c s = ok s' ∧ SudokuRead lines (9 * i + j + 1) s' ∧ IsSudokuChar c) ∨
      (sudokuReadCell i j c s = .throw .runtimeError ∧ ¬ IsSudokuChar c) := by
  obtain ⟨problem, candidate, n⟩ := s
  obtain ⟨h1, h2, h3, h4⟩ := hs
  simp only at h1 h2 h3 h4
  obtain ⟨ht, hnot⟩ := allCells_take i j hi hj
  by_cases hok : IsSudokuChar c
  · left
    have hok' := (isSudokuChar_iff c).mpr hok
    unfold sudokuReadCell
    rw [if_neg (by rw [hok']; decide)]
    obtain ⟨p', e1, e2, e3⟩ := gridSet_cell problem h1 i j hi hj c
    simp only
    rw [e1, ok_bind]
    have hp : ∀ q ∈ allCells.take (9 * i + j + 1), cellAt p' q.1 q.2 = cellAt lines q.1 q.2 := by
      rintro ⟨a, b⟩ hq
      rw [ht, List.mem_append, List.mem_singleton] at hq
      rw [e3]
      rcases hq with hq | hq
      · rw [if_neg]
        · exact (h4 _ hq).1
        · rintro ⟨rfl, rfl⟩
          exact hnot hq
      · cases hq
        rw [if_pos ⟨rfl, rfl⟩, hc]
    by_cases hdot : c = '.'
    · rw [if_pos hdot]
      refine ⟨_, rfl, ⟨e2, h2, ?_, ?_⟩, hok⟩
      · simp only
        rw [ht, List.filter_append, List.length_append, h3]
        simp [hc, hdot]
      · intro q hq
        refine ⟨hp q hq, ?_⟩
        rw [ht, List.mem_append, List.mem_singleton] at hq
        rcases hq with hq | rfl
        · exact (h4 _ hq).2
        · intro d hd1 hd2 hd3
          simp only at hd3
          rw [hc, hdot] at hd3
          exact absurd (Option.some.inj hd3).symm (digitChar_facts d hd2).2.2.1
    · rw [if_neg hdot]
      rcases hok with rfl | ⟨d, hd1, hd2, rfl⟩
      · exact absurd rfl hdot
      obtain ⟨f1, -, -, -⟩ := digitChar_facts d hd2
      obtain ⟨g', e4, e5, e6⟩ := gridSet_cell candidate h2 i j hi hj d
      rw [assert_pos (by rw [f1]; simp; omega), ok_bind, f1, show 48 + d - 48 = d by omega, e4, ok_bind]
      refine ⟨_, rfl, ⟨e2, e5, ?_, ?_⟩, Or.inr ⟨d, hd1, hd2, rfl⟩⟩
      · simp only
        rw [ht, List.filter_append, List.length_append, h3]
        simp [hc, hdot]
      · intro q hq
        refine ⟨hp q hq, ?_⟩
        intro d' hd1' hd2' hd3'
        simp only at hd3' ⊢
        rw [e6]
        rw [ht, List.mem_append, List.mem_singleton] at hq
        rcases hq with hq | rfl
        · rw [if_neg]
          · exact (h4 _ hq).2 d' hd1' hd2' hd3'
          · rintro ⟨r1, r2⟩
            apply hnot
            have e : (i, j) = q := Prod.ext r1.symm r2.symm
            rw [e]
            exact hq
        · rw [if_pos ⟨rfl, rfl⟩]
          simp only at hd3'
          rw [hc] at hd3'
          have := congrArg Char.toNat (Option.some.inj hd3')
          rw [f1, (digitChar_facts d' hd2').1] at this
          rw [show d = d' by omega]
  · right
    refine ⟨?_, hok⟩
    unfold sudokuReadCell
    rw [if_pos]
    cases hb : (c == '.' || (c.isDigit && c != '0')) with
    | false => rfl
    | true => exact absurd ((isSudokuChar_iff c).mp hb) hok

/-- The first nine characters of line `i` are dots or digits. -/
def GoodLine (lines : List (List Char)) (i : Nat) : Prop :=
  ∀ j < 9, ∃ c, cellAt lines i j = some c ∧ IsSudokuChar c

theorem sudokuReadLine_step (lines : List (List Char)) (i : Nat) (hi : i < 9) (line : List Char)
    (hl : lines[i]? = some line) (s : List (List Char) × List (List Nat) × Nat)
    (hs : SudokuRead lines (9 * i) s) :
    (∃ s', sudokuReadLine i line s = ok s' ∧ SudokuRead lines (9 * (i + 1)) s' ∧ GoodLine lines i) ∨
      (sudokuReadLine i line s = .throw .runtimeError ∧ ¬ GoodLine lines i) := by
  have hcell : ∀ j, cellAt lines i j = line[j]? := by intro j; unfold cellAt; rw [hl]; rfl
  unfold sudokuReadLine
  by_cases hlen : line.length < 9
  · right
    rw [if_pos hlen]
    refine ⟨rfl, ?_⟩
    intro h
    obtain ⟨c, h1, -⟩ := h 8 (by omega)
    rw [hcell, List.getElem?_eq_none (by omega)] at h1
    cases h1
  · rw [if_neg hlen]
    have hd := forRange_dichotomy (body := fun j s => do
      let c ← vget line j
      sudokuReadCell i j c s) (fun j s => SudokuRead lines (9 * i + j) s)
      (fun j => ∃ c, cellAt lines i j = some c ∧ IsSudokuChar c) .runtimeError 0 9 (by omega) s (by simpa using hs) (by
        intro j t _ hj ht
        have hj' : j < line.length := by omega
        have hc : cellAt lines i j = some line[j] := by rw [hcell, List.getElem?_eq_getElem hj']
        rw [vget_eq hj', ok_bind]
        rcases sudokuReadCell_step lines i j hi hj line[j] hc t ht with ⟨s', e1, e2, e3⟩ | ⟨e1, e2⟩
        · left
          exact ⟨s', e1, e2, _, hc, e3⟩
        · right
          refine ⟨e1, ?_⟩
          rintro ⟨c, k1, k2⟩
          rw [hc] at k1; cases k1
          exact e2 k2)
    rcases hd with ⟨t, e1, e2, e3⟩ | ⟨e1, j, -, e3, e4⟩
    · left
      exact ⟨t, e1, e2, fun j hj => e3 j (by omega) hj⟩
    · right
      exact ⟨e1, fun h => e4 (h j e3)⟩

theorem sudokuReadLines_spec (lines : List (List Char)) : ∀ (rest : List (List Char)) (i : Nat)
    (s : List (List Char) × List (List Nat) × Nat), i < 9 → lines.drop i = rest → SudokuRead lines (9 * i) s →
    (∃ s', sudokuReadLines rest i s = ok (9, s') ∧ SudokuRead lines 81 s' ∧ ∀ k, i ≤ k → k < 9 → GoodLine lines k) ∨
    ((sudokuReadLines rest i s = .throw .runtimeError ∨ ∃ m s', m < 9 ∧ sudokuReadLines rest i s = ok (m, s')) ∧
      ∃ k, k < 9 ∧ ¬ GoodLine lines k) := by
  intro rest
  induction rest with
  | nil =>
    intro i s hi hd hs
    right
    refine ⟨Or.inr ⟨i, s, hi, rfl⟩, i, hi, ?_⟩
    intro h
    obtain ⟨c, h1, -⟩ := h 0 (by omega)
    unfold cellAt at h1
    rw [List.getElem?_eq_none (l := lines) (by have := List.drop_eq_nil_iff.mp hd; omega)] at h1
    cases h1
  | cons line rest ih =>
    intro i s hi hd hs
    have hlt : i < lines.length := by
      by_contra hc
      rw [List.drop_eq_nil_of_le (by omega)] at hd; cases hd
    rw [List.drop_eq_getElem_cons hlt] at hd
    have hline : lines[i] = line := (List.cons.inj hd).1
    have hrest := (List.cons.inj hd).2
    have hl : lines[i]? = some line := by rw [List.getElem?_eq_getElem hlt, hline]
    rw [sudokuReadLines]
    rcases sudokuReadLine_step lines i hi line hl s hs with ⟨s', e1, e2, e3⟩ | ⟨e1, e2⟩
    · rw [e1, ok_bind]
      by_cases h9 : i + 1 = 9
      · left
        rw [if_pos h9]
        refine ⟨s', rfl, ?_, ?_⟩
        · rw [show (81 : Nat) = 9 * (i + 1) by omega]; exact e2
        · intro k k1 k2
          have : k = i := by omega
          rw [this]; exact e3
      · rw [if_neg h9]
        rcases ih (i + 1) s' (by omega) hrest e2 with ⟨s'', k1, k2, k3⟩ | h
        · left
          refine ⟨s'', k1, k2, ?_⟩
          intro k m1 m2
          rcases Nat.eq_or_lt_of_le m1 with rfl | hlt
          · exact e3
          · exact k3 k (by omega) m2
        · right
          exact h
    · right
      rw [e1]
      exact ⟨Or.inl rfl, i, hi, e2⟩

/-- C43: loading succeeds exactly on texts whose first nine lines start with nine dots or digits, and throws
otherwise.  The problem is then the text, and is ready for evaluation. -/
theorem sudokuLoad_spec (s : Sudoku) (h1 : IsBoard s.problem) (h2 : IsBoard s.candidate) (text : List Char) :
    (IsSudokuText (splitLines text) ∧ ∃ s', sudokuLoad s text = ok s' ∧ SudokuReady s' ∧
      ∀ i < 9, ∀ j < 9, cellAt s'.problem i j = cellAt (splitLines text) i j ∧
        ∀ d, 1 ≤ d → d ≤ 9 → cellAt (splitLines text) i j = some (digitChar d) →
          cellAt s'.candidate i j = some d) ∨
    (¬ IsSudokuText (splitLines text) ∧ sudokuLoad s text = .throw .runtimeError) := by
  have hread : SudokuRead (splitLines text) (9 * 0) (s.problem, s.candidate, 0) :=
    ⟨h1, h2, by simp, by simp⟩
  rcases sudokuReadLines_spec (splitLines text) (splitLines text) 0 _ (by omega) rfl hread with
    ⟨s', e1, e2, e3⟩ | ⟨e1, k, e2, e3⟩
  · left
    have hgood : IsSudokuText (splitLines text) := fun i hi => e3 i (by omega) hi
    refine ⟨hgood, ?_⟩
    obtain ⟨problem, candidate, n⟩ := s'
    obtain ⟨r1, r2, r3, r4⟩ := e2
    have hall : allCells.take 81 = allCells := by decide +kernel
    simp only at r1 r2 r3 r4
    rw [hall] at r3 r4
    have hcells : ∀ i < 9, ∀ j < 9, cellAt problem i j = cellAt (splitLines text) i j ∧
        ∀ d, 1 ≤ d → d ≤ 9 → cellAt (splitLines text) i j = some (digitChar d) → cellAt candidate i j = some d := by
      intro i hi j hj
      exact r4 (i, j) ((mem_allCells _).mpr ⟨hi, hj⟩)
    refine ⟨⟨problem, candidate, some n⟩, ?_, ⟨r1, r2, ?_, ?_⟩, hcells⟩
    · unfold sudokuLoad
      rw [e1, ok_bind, if_neg (by simp)]
    · simp only
      rw [r3]
      unfold emptyCells
      congr 2
      apply List.filter_congr
      rintro ⟨i, j⟩ hp
      obtain ⟨hi, hj⟩ := (mem_allCells _).mp hp
      simp only at hi hj ⊢
      rw [(hcells i hi j hj).1]
    · intro i hi j hj hne
      simp only at hne ⊢
      obtain ⟨c, hc1, hc2⟩ := hgood i hi j hj
      rw [(hcells i hi j hj).1, hc1] at hne
      rcases hc2 with rfl | ⟨d, hd1, hd2, rfl⟩
      · exact absurd rfl hne
      · exact ⟨d, hd1, hd2, (hcells i hi j hj).2 d hd1 hd2 hc1⟩
  · right
    refine ⟨fun h => e3 (h k e2), ?_⟩
    unfold sudokuLoad
    rcases e1 with e1 | ⟨m, s', hm, e1⟩
    · rw [e1]; rfl
    · rw [e1, ok_bind, if_pos hm]

/-! ## Saving -/

theorem unlines_append (l₁ l₂ : List (List Char)) : unlines (l₁ ++ l₂) = unlines l₁ ++ unlines l₂ := by
  induction l₁ with
  | nil => rfl
  | cons a l ih => simp [unlines, ih]

theorem sudokuSave_eq (s : Sudoku) (h : IsBoard s.problem) : sudokuSave s = ok (unlines s.problem) := by
  unfold sudokuSave
  have houter := forRange_returns (a := 0) (b := 9) (body := fun i (out : List Char) => do
    let out ← forRange 0 9 (fun j out => do
      let c ← gridGet s.problem i j
      ok (out ++ [c])) out
    ok (out ++ ['\n'])) (I := fun i out => out = unlines (s.problem.take i)) (s := []) (by omega) (by rfl) (by
      intro i out _ hi hout
      have hi' : i < s.problem.length := by rw [h.1]; exact hi
      have hrow : (s.problem[i]'hi').length = 9 := h.2 _ (List.getElem_mem hi')
      obtain ⟨out', e1, e2⟩ := forRange_returns (a := 0) (b := 9) (body := fun j (out : List Char) => do
        let c ← gridGet s.problem i j
        ok (out ++ [c])) (I := fun j o => o = out ++ (s.problem[i]'hi').take j) (s := out) (by omega) (by simp) (by
          intro j o _ hj ho
          have hj' : j < (s.problem[i]'hi').length := by omega
          refine ⟨_, by unfold gridGet; rw [vget_eq hi', ok_bind, vget_eq hj', ok_bind], ?_⟩
          rw [ho, List.take_add_one, List.getElem?_eq_getElem hj']
          simp)
      rw [e1, ok_bind]
      refine ⟨_, rfl, ?_⟩
      rw [e2, List.take_add_one, List.getElem?_eq_getElem hi', unlines_append, ← hout,
        List.take_of_length_le (by omega)]
      simp [unlines])
  obtain ⟨out, e1, e2⟩ := houter
  rw [e1, e2, List.take_of_length_le (by rw [h.1])]

/-- C43: a saved problem is loaded back. -/
theorem sudoku_round_trip (s : Sudoku) (h : IsBoard s.problem)
    (hchars : ∀ i < 9, ∀ j < 9, ∀ c, cellAt s.problem i j = some c → IsSudokuChar c) (t : Sudoku)
    (ht1 : IsBoard t.problem) (ht2 : IsBoard t.candidate) :
    ∃ text t', sudokuSave s = ok text ∧ sudokuLoad t text = ok t' ∧ SudokuReady t' ∧
      (∀ i < 9, ∀ j < 9, cellAt t'.problem i j = cellAt s.problem i j ∧
        ∀ d, 1 ≤ d → d ≤ 9 → cellAt s.problem i j = some (digitChar d) → cellAt t'.candidate i j = some d) := by
  have hnl : ∀ l ∈ s.problem, '\n' ∉ l := by
    intro l hl hin
    obtain ⟨i, hi, rfl⟩ := List.getElem_of_mem hl
    obtain ⟨j, hj, hc⟩ := List.getElem_of_mem hin
    have hrow : (s.problem[i]'hi).length = 9 := h.2 _ hl
    have hcell : cellAt s.problem i j = some '\n' := by
      unfold cellAt
      rw [List.getElem?_eq_getElem hi]
      simp only [Option.getD_some]
      rw [List.getElem?_eq_getElem hj, hc]
    rcases hchars i (by rw [← h.1]; exact hi) j (by omega) _ hcell with hc | ⟨d, hd1, hd2, hd3⟩
    · exact absurd hc (by decide)
    · have := congrArg Char.toNat hd3
      rw [(digitChar_facts d hd2).1] at this
      simp at this
      omega
  have hsplit := splitLines_unlines s.problem hnl
  have hcell : ∀ i < 9, ∀ j < 9, cellAt (splitLines (unlines s.problem)) i j = cellAt s.problem i j := by
    intro i hi j hj
    rw [hsplit]
    unfold cellAt
    rw [List.getElem?_append_left (by rw [h.1]; exact hi)]
  have hgood : IsSudokuText (splitLines (unlines s.problem)) := by
    intro i hi j hj
    obtain ⟨c, hc, -⟩ := cellAt_isSome s.problem h i j hi hj
    exact ⟨c, by rw [hcell i hi j hj, hc], hchars i hi j hj c hc⟩
  rcases sudokuLoad_spec t ht1 ht2 (unlines s.problem) with ⟨-, t', e1, e2, e3⟩ | ⟨hbad, -⟩
  · refine ⟨_, t', sudokuSave_eq s h, e1, e2, ?_⟩
    intro i hi j hj
    have := e3 i hi j hj
    rw [hcell i hi j hj] at this
    exact this
  · exact absurd hgood hbad

/-! ## Random instances -/

/-- Position, in the first row, of the digit of cell `(i, j)` of the complete board. -/
def sudokuSource (i j : Nat) : Nat := (3 * (j / 3) + (j % 3 + i / 3) % 3 + 3 * (i % 3)) % 9

theorem nine {α : Type} (l : List α) (h : l.length = 9) :
    ∃ a0 a1 a2 a3 a4 a5 a6 a7 a8, l = [a0, a1, a2, a3, a4, a5, a6, a7, a8] := by
  match l, h with
  | [a0, a1, a2, a3, a4, a5, a6, a7, a8], _ => exact ⟨a0, a1, a2, a3, a4, a5, a6, a7, a8, rfl⟩

theorem sudokuOtherRows_eq {α : Type} (board : List (List α)) (h : IsBoard board) :
    ∃ g, sudokuOtherRows board = ok g ∧ IsBoard g ∧
      ∀ i < 9, ∀ j < 9, cellAt g i j = cellAt board 0 (sudokuSource i j) := by
  -- second and third rows
  have hshift := forRange_returns (a := 1) (b := 3) (body := fun i (board : List (List α)) =>
    forRange 0 9 (fun j board => do
      let c ← gridGet board (i - 1) ((j + 3) % 9)
      gridSet board i j c) board)
    (I := fun k g => IsBoard g ∧ ∀ i < k, ∀ j < 9, cellAt g i j = cellAt board 0 ((j + 3 * i) % 9)) (s := board)
    (by omega) ⟨h, by
      intro i hi j hj
      rw [show i = 0 by omega, show (j + 3 * 0) % 9 = j by omega]⟩ (by
      rintro k g hk1 hk2 ⟨g1, g2⟩
      refine (forRange_returns (a := 0) (b := 9) (I := fun m t => IsBoard t ∧
        (∀ i < k, ∀ j < 9, cellAt t i j = cellAt board 0 ((j + 3 * i) % 9)) ∧
        ∀ j < m, cellAt t k j = cellAt board 0 ((j + 3 * k) % 9)) (s := g) (by omega) ⟨g1, g2, by omega⟩ ?_).mono ?_
      · rintro j t _ hj ⟨t1, t2, t3⟩
        obtain ⟨c, c1, c2⟩ := cellAt_isSome t t1 (k - 1) ((j + 3) % 9) (by omega) (by omega)
        obtain ⟨t', e1, e2, e3⟩ := gridSet_cell t t1 k j (by omega) hj c
        refine ⟨t', by rw [c2, ok_bind, e1], e2, ?_, ?_⟩
        · intro i' hi' j' hj'
          rw [e3, if_neg (by omega)]
          exact t2 i' hi' j' hj'
        · intro j' hj'
          rw [e3]
          by_cases hjj : j' = j
          · rw [if_pos ⟨rfl, hjj⟩, ← c1, t2 (k - 1) (by omega) _ (by omega), hjj]
            congr 1
            omega
          · rw [if_neg (by omega)]
            exact t3 j' (by omega)
      · rintro t ⟨t1, t2, t3⟩
        refine ⟨t1, ?_⟩
        intro i' hi' j' hj'
        by_cases hik : i' = k
        · rw [hik]; exact t3 j' hj'
        · exact t2 i' (by omega) j' hj')
  obtain ⟨g, e1, e2, e3⟩ := hshift
  -- the other blocks
  have hblocks := forRange_returns (a := 1) (b := 3) (body := fun bi (board : List (List α)) =>
    forRange 0 3 (fun bj board =>
      forRange 0 3 (fun i board =>
        forRange 0 3 (fun j board => do
          let c ← gridGet board (3 * (bi - 1) + i) (3 * bj + (j + 1) % 3)
          gridSet board (3 * bi + i) (3 * bj + j) c) board) board) board)
    (I := fun k g => IsBoard g ∧ ∀ i < 3 * k, ∀ j < 9, cellAt g i j = cellAt board 0 (sudokuSource i j)) (s := g)
    (by omega) ⟨e2, by
      intro i hi j hj
      rw [e3 i (by omega) j hj]
      congr 1
      unfold sudokuSource
      have : i < 3 := by omega
      interval_cases i <;> omega⟩ (by
      rintro k g hk1 hk2 ⟨g1, g2⟩
      refine (forRange_returns (a := 0) (b := 3) (I := fun m t => IsBoard t ∧
        ∀ i j, j < 9 → (i < 3 * k ∨ (i < 3 * (k + 1) ∧ j < 3 * m)) →
          cellAt t i j = cellAt board 0 (sudokuSource i j)) (s := g) (by omega)
        ⟨g1, fun i j hj h => g2 i (by omega) j hj⟩ ?_).mono ?_
      · rintro bj t _ hbj ⟨t1, t2⟩
        refine (forRange_returns (a := 0) (b := 3) (I := fun m t => IsBoard t ∧
          ∀ i j, j < 9 → (i < 3 * k ∨ (i < 3 * (k + 1) ∧ j < 3 * bj) ∨ (i < 3 * k + m ∧ j < 3 * (bj + 1))) →
            cellAt t i j = cellAt board 0 (sudokuSource i j)) (s := t) (by omega)
          ⟨t1, fun i j hj h => t2 i j hj (by omega)⟩ ?_).mono ?_
        · rintro i t _ hi ⟨t1, t2⟩
          refine (forRange_returns (a := 0) (b := 3) (I := fun m t => IsBoard t ∧
            ∀ i' j, j < 9 → (i' < 3 * k ∨ (i' < 3 * (k + 1) ∧ j < 3 * bj) ∨ (i' < 3 * k + i ∧ j < 3 * (bj + 1)) ∨
              (i' = 3 * k + i ∧ j < 3 * bj + m)) →
              cellAt t i' j = cellAt board 0 (sudokuSource i' j)) (s := t) (by omega)
            ⟨t1, fun i' j hj h => t2 i' j hj (by omega)⟩ ?_).mono ?_
          · rintro j t _ hj ⟨t1, t2⟩
            obtain ⟨c, c1, c2⟩ := cellAt_isSome t t1 (3 * (k - 1) + i) (3 * bj + (j + 1) % 3) (by omega) (by omega)
            obtain ⟨t', f1, f2, f3⟩ := gridSet_cell t t1 (3 * k + i) (3 * bj + j) (by omega) (by omega) c
            refine ⟨t', by rw [c2, ok_bind, f1], f2, ?_⟩
            intro i' j' hj' hcase
            rw [f3]
            by_cases hnew : i' = 3 * k + i ∧ j' = 3 * bj + j
            · rw [if_pos hnew, ← c1, t2 _ _ (by omega) (Or.inl (by omega))]
              congr 1
              obtain ⟨rfl, rfl⟩ := hnew
              unfold sudokuSource
              have hk : k = 1 ∨ k = 2 := by omega
              have hi3 : i = 0 ∨ i = 1 ∨ i = 2 := by omega
              have hj3 : j = 0 ∨ j = 1 ∨ j = 2 := by omega
              have hb3 : bj = 0 ∨ bj = 1 ∨ bj = 2 := by omega
              rcases hk with rfl | rfl <;> rcases hi3 with rfl | rfl | rfl <;> rcases hj3 with rfl | rfl | rfl <;>
                rcases hb3 with rfl | rfl | rfl <;> rfl
            · rw [if_neg hnew]
              exact t2 i' j' hj' (by omega)
          · rintro t ⟨t1, t2⟩
            exact ⟨t1, fun i' j hj h => t2 i' j hj (by omega)⟩
        · rintro t ⟨t1, t2⟩
          exact ⟨t1, fun i' j hj h => t2 i' j hj (by omega)⟩
      · rintro t ⟨t1, t2⟩
        exact ⟨t1, fun i' hi' j hj => t2 i' j hj (by omega)⟩)
  obtain ⟨g', f1, f2, f3⟩ := hblocks
  refine ⟨g', by unfold sudokuOtherRows; rw [e1, ok_bind, f1], f2, fun i hi j hj => f3 i (by omega) j hj⟩

theorem source_lt (i j : Nat) : sudokuSource i j < 9 := Nat.mod_lt _ (by omega)

theorem source_row : ∀ i < 9, ∀ k < 9, ∃ j < 9, sudokuSource i j = k ∧ ∀ j' < 9, sudokuSource i j' = k → j' = j := by
  decide +kernel

theorem source_column : ∀ j < 9, ∀ k < 9, ∃ i < 9, sudokuSource i j = k ∧
    ∀ i' < 9, sudokuSource i' j = k → i' = i := by
  decide +kernel

theorem source_block : ∀ a < 3, ∀ b < 3, ∀ k < 9, ∃ m < 9, sudokuSource (3 * a + m / 3) (3 * b + m % 3) = k ∧
    ∀ m' < 9, sudokuSource (3 * a + m' / 3) (3 * b + m' % 3) = k → m' = m := by
  decide +kernel

/-- The complete board made from a first row of digits counted from 0. -/
def completeBoard (permutation : List Nat) : List (List Nat) :=
  (List.range 9).map (fun i => (List.range 9).map (fun j => (permutation[sudokuSource i j]?).getD 0 + 1))

theorem cellAt_table (f : Nat → Nat → Nat) (i j : Nat) : cellAt ((List.range 9).map (fun i => (List.range 9).map
    (fun j => f i j))) i j = if i < 9 ∧ j < 9 then some (f i j) else none := by
  unfold cellAt
  rw [List.getElem?_map]
  by_cases hi : i < 9
  · rw [List.getElem?_range hi]
    simp only [Option.map_some, Option.getD_some]
    rw [List.getElem?_map]
    by_cases hj : j < 9
    · rw [List.getElem?_range hj, if_pos ⟨hi, hj⟩]; rfl
    · rw [List.getElem?_eq_none (by simpa using hj), if_neg (by omega)]; rfl
  · rw [List.getElem?_eq_none (l := List.range 9) (by simpa using hi), if_neg (by omega)]; rfl

theorem completeBoard_valid (permutation : List Nat) (hp : permutation.Perm (List.range 9)) :
    ValidSudoku (completeBoard permutation) := by
  have hlen : permutation.length = 9 := by rw [hp.length_eq]; simp
  have hnd : permutation.Nodup := hp.nodup_iff.mpr List.nodup_range
  have hk : ∀ d, 1 ≤ d → d ≤ 9 → ∃ k < 9, permutation[k]? = some (d - 1) ∧
      ∀ k' < 9, permutation[k']? = some (d - 1) → k' = k := by
    intro d h1 h2
    have : d - 1 ∈ permutation := hp.mem_iff.mpr (List.mem_range.mpr (by omega))
    obtain ⟨k, hk, he⟩ := List.getElem_of_mem this
    refine ⟨k, by omega, by rw [List.getElem?_eq_getElem hk, he], ?_⟩
    intro k' hk' he'
    rw [List.getElem?_eq_getElem (by omega)] at he'
    exact (List.Nodup.getElem_inj_iff hnd).mp ((Option.some.inj he').trans he.symm)
  have hget : ∀ k < 9, ∃ a, permutation[k]? = some a := by
    intro k hk
    exact ⟨_, List.getElem?_eq_getElem (by omega)⟩
  have hcell : ∀ i j d, 1 ≤ d → (cellAt (completeBoard permutation) i j = some d ↔
      (i < 9 ∧ j < 9) ∧ permutation[sudokuSource i j]? = some (d - 1)) := by
    intro i j d hd
    unfold completeBoard
    rw [cellAt_table]
    by_cases h : i < 9 ∧ j < 9
    · rw [if_pos h]
      obtain ⟨a, ha⟩ := hget (sudokuSource i j) (source_lt i j)
      rw [ha]
      simp only [Option.getD_some, Option.some.injEq]
      constructor
      · intro he; exact ⟨h, by omega⟩
      · rintro ⟨-, he⟩; omega
    · rw [if_neg h]
      simp [h]
  intro d h1 h2
  obtain ⟨k, hk9, hk1, hk2⟩ := hk d h1 h2
  refine ⟨?_, ?_, ?_⟩
  · intro i hi
    obtain ⟨j, hj, e1, e2⟩ := source_row i hi k hk9
    refine ⟨j, ⟨hj, (hcell i j d h1).mpr ⟨⟨hi, hj⟩, by rw [e1, hk1]⟩⟩, ?_⟩
    rintro j' ⟨hj', hc⟩
    exact e2 j' hj' (hk2 _ (source_lt _ _) ((hcell i j' d h1).mp hc).2)
  · intro j hj
    obtain ⟨i, hi, e1, e2⟩ := source_column j hj k hk9
    refine ⟨i, ⟨hi, (hcell i j d h1).mpr ⟨⟨hi, hj⟩, by rw [e1, hk1]⟩⟩, ?_⟩
    rintro i' ⟨hi', hc⟩
    exact e2 i' hi' (hk2 _ (source_lt _ _) ((hcell i' j d h1).mp hc).2)
  · intro a ha b hb
    obtain ⟨m, hm, e1, e2⟩ := source_block a ha b hb k hk9
    refine ⟨(3 * a + m / 3, 3 * b + m % 3), ⟨by simp only; omega,
      (hcell _ _ d h1).mpr ⟨by omega, by rw [e1, hk1]⟩⟩, ?_⟩
    rintro ⟨p, q⟩ ⟨hpq, hc⟩
    simp only at hpq hc
    have hs := hk2 _ (source_lt _ _) ((hcell p q d h1).mp hc).2
    have f1 := e2 (3 * (p - 3 * a) + (q - 3 * b)) (by omega) (by
      rw [show 3 * a + (3 * (p - 3 * a) + (q - 3 * b)) / 3 = p by omega,
        show 3 * b + (3 * (p - 3 * a) + (q - 3 * b)) % 3 = q by omega]
      exact hs)
    apply Prod.ext <;> simp only <;> omega

theorem sudokuFirstRow_eq (digit : Nat → Outcome Char) (v : Nat → Char) (hd : ∀ j < 9, digit j = ok (v j))
    (board : List (List Char)) (h : IsBoard board) :
    ∃ g, sudokuFirstRow digit board = ok g ∧ IsBoard g ∧ ∀ j < 9, cellAt g 0 j = some (v j) := by
  refine (forRange_returns (a := 0) (b := 9) (I := fun k g => IsBoard g ∧ ∀ j < k, cellAt g 0 j = some (v j))
    (s := board) (by omega) ⟨h, by omega⟩ ?_)
  rintro j g _ hj ⟨g1, g2⟩
  obtain ⟨g', e1, e2, e3⟩ := gridSet_cell g g1 0 j (by omega) hj (v j)
  refine ⟨g', by rw [hd j hj, ok_bind, e1], e2, ?_⟩
  intro j' hj'
  rw [e3]
  by_cases hjj : j' = j
  · rw [if_pos ⟨rfl, hjj⟩, hjj]
  · rw [if_neg (by omega)]
    exact g2 j' (by omega)

theorem sudokuErase_eq (erase : BV) (he : erase.length = 81) (board : List (List Char)) (h : IsBoard board) :
    ∃ g, sudokuErase erase board = ok g ∧ IsBoard g ∧ ∀ i < 9, ∀ j < 9,
      cellAt g i j = if erase[i + 9 * j]? = some true then some '.' else cellAt board i j := by
  let body : Nat × Nat → List (List Char) → Outcome (List (List Char)) := fun p board => do
    let b ← vget erase (p.1 + 9 * p.2)
    if b then gridSet board p.1 p.2 '.' else ok board
  have hl := forEach_returns (body := body) (I := fun done g => IsBoard g ∧
    ∀ i j, cellAt g i j = if (i, j) ∈ done ∧ erase[i + 9 * j]? = some true then some '.' else cellAt board i j)
    allCells board ⟨h, by simp⟩ (by
      rintro done ⟨i, j⟩ rest g hl ⟨g1, g2⟩
      obtain ⟨hi, hj⟩ := (mem_allCells (i, j)).mp (by rw [hl]; simp)
      simp only at hi hj
      have hlt : i + 9 * j < erase.length := by omega
      simp only [body]
      rw [vget_eq hlt, ok_bind]
      have hmem : ∀ i' j', (i', j') ∈ done ++ [(i, j)] ↔ (i', j') ∈ done ∨ (i' = i ∧ j' = j) := by
        intro i' j'; simp
      cases hb : erase[i + 9 * j] with
      | true =>
        obtain ⟨g', e1, e2, e3⟩ := gridSet_cell g g1 i j hi hj '.'
        refine ⟨g', by simpa using e1, e2, ?_⟩
        intro i' j'
        rw [e3, g2]
        by_cases hij : i' = i ∧ j' = j
        · obtain ⟨rfl, rfl⟩ := hij
          rw [if_pos ⟨rfl, rfl⟩, if_pos]
          exact ⟨by simp, by rw [List.getElem?_eq_getElem hlt, hb]⟩
        · rw [if_neg hij]
          simp only [hmem, hij, or_false]
      | false =>
        refine ⟨g, by simp, g1, ?_⟩
        intro i' j'
        rw [g2]
        by_cases hij : i' = i ∧ j' = j
        · obtain ⟨rfl, rfl⟩ := hij
          have : ¬ (erase[i' + 9 * j']? = some true) := by rw [List.getElem?_eq_getElem hlt, hb]; simp
          simp [this]
        · simp only [hmem, hij, or_false])
  obtain ⟨g, e1, e2, e3⟩ := hl
  refine ⟨g, ?_, e2, ?_⟩
  · unfold sudokuErase
    rw [forRange_forRange 9 9 (fun i j => (i, j)) _ _ body (fun i j => rfl)]
    exact e1
  · intro i hi j hj
    rw [e3]
    simp only [(mem_allCells (i, j)).mpr ⟨hi, hj⟩, true_and]

theorem erase_order : (allCells.map (fun p => p.1 + 9 * p.2)).Perm (List.range 81) := by decide +kernel

theorem count_true_eq (x : BV) : x.count true = (List.range x.length).countP (fun k => x[k]? = some true) := by
  induction x using List.reverseRecOn with
  | nil => rfl
  | append_singleton l b ih =>
    rw [List.count_append, ih, List.length_append, List.length_singleton, List.range_succ, List.countP_append]
    congr 1
    · apply List.countP_congr
      intro k hk
      rw [List.getElem?_append_left (by simpa using hk)]
    · cases b <;> simp

/-- C43: whatever the shuffle and the draws, the generator erases `c` cells of a valid complete board. -/
theorem sudokuRandom_valid {K : Type} [LT K] [DecidableLT K] (ratio : Nat → Nat → K) (uniform : Nat → Nat → K)
    (hu : ∀ d n j, 0 < n → uniform d j < ratio n n) (s : Sudoku) (h : IsBoard s.problem) (c : Nat) (hc : 0 < c)
    (hc' : c ≤ 81) :
    Sim.Post (sudokuRandom ratio uniform s c) (fun s' => IsBoard s'.problem ∧
      (emptyCells s'.problem).length = c ∧
      ∃ g, IsBoard g ∧ ValidSudoku g ∧ ∀ i < 9, ∀ j < 9, cellAt s'.problem i j = some '.' ∨
        ∃ d, 1 ≤ d ∧ d ≤ 9 ∧ cellAt g i j = some d ∧ cellAt s'.problem i j = some (digitChar d)) := by
  unfold sudokuRandom
  refine (Sim.Post.assert (decide_eq_true hc)).bind (fun _ _ => ?_)
  refine (Sim.Post.shuffle (List.range 9)).bind ?_
  intro permutation hp
  have hlen : permutation.length = 9 := by rw [hp.length_eq]; simp
  obtain ⟨b1, e1, e2, e3⟩ := sudokuFirstRow_eq (fun j => do
      let d ← vget permutation j
      ok (Char.ofNat (49 + d))) (fun j => digitChar (permutation[j]?.getD 0 + 1)) (by
        intro j hj
        have hj' : j < permutation.length := by omega
        rw [vget_eq hj', ok_bind, List.getElem?_eq_getElem hj']
        simp only [Option.getD_some]
        unfold digitChar
        congr 2
        omega) s.problem h
  obtain ⟨b2, f1, f2, f3⟩ := sudokuOtherRows_eq b1 e2
  rw [e1]
  refine (post_lift_ok rfl).bind ?_
  intro b hb
  rw [hb]
  clear hb b
  rw [f1]
  refine (post_lift_ok rfl).bind ?_
  intro b hb
  rw [hb]
  clear hb b
  refine (Post_bvRandomSim ratio uniform hu (List.replicate 81 false) c (by simpa using hc')).bind ?_
  rintro erase ⟨r1, r2⟩
  obtain ⟨b3, g1, g2, g3⟩ := sudokuErase_eq erase (by simpa using r1) b2 f2
  rw [g1]
  refine (post_lift_ok rfl).bind ?_
  intro b hb
  rw [hb]
  clear hb b
  refine Sim.Post.pure ⟨g2, ?_, completeBoard permutation, ?_, completeBoard_valid permutation hp, ?_⟩
  · have hb2 : ∀ i < 9, ∀ j < 9, cellAt b2 i j ≠ some '.' := by
      intro i hi j hj
      rw [f3 i hi j hj, e3 _ (source_lt i j)]
      intro he
      refine (digitChar_facts _ ?_).2.2.1 (Option.some.inj he)
      have hlt : sudokuSource i j < permutation.length := by rw [hlen]; exact source_lt i j
      rw [List.getElem?_eq_getElem hlt]
      have := List.mem_range.mp (hp.mem_iff.mp (List.getElem_mem hlt))
      simp only [Option.getD_some]
      omega
    have h81 : erase.length = 81 := by simpa using r1
    rw [bvHammingWeight_eq, count_true_eq, h81, ← List.Perm.countP_eq _ erase_order, List.countP_map] at r2
    rw [← r2, List.countP_eq_length_filter]
    unfold emptyCells
    congr 1
    apply List.filter_congr
    rintro ⟨i, j⟩ hp
    obtain ⟨hi, hj⟩ := (mem_allCells (i, j)).mp hp
    simp only at hi hj ⊢
    simp only [Function.comp]
    rw [decide_eq_decide, g3 i hi j hj]
    by_cases hcase : erase[i + 9 * j]? = some true
    · rw [if_pos hcase]; simp [hcase]
    · rw [if_neg hcase]
      exact ⟨fun h => absurd h (hb2 i hi j hj), fun h => absurd h hcase⟩
  · refine ⟨by simp [completeBoard], ?_⟩
    intro row hrow
    obtain ⟨i, -, rfl⟩ := List.mem_map.mp hrow
    simp
  · intro i hi j hj
    simp only
    rw [g3 i hi j hj]
    split
    · exact Or.inl rfl
    · right
      have hlt : sudokuSource i j < permutation.length := by rw [hlen]; exact source_lt i j
      have hrange := List.mem_range.mp (hp.mem_iff.mp (List.getElem_mem hlt))
      refine ⟨permutation[sudokuSource i j] + 1, by omega, by omega, ?_, ?_⟩
      · unfold completeBoard
        rw [cellAt_table, if_pos ⟨hi, hj⟩, List.getElem?_eq_getElem hlt]
        rfl
      · rw [f3 i hi j hj, e3 _ (source_lt i j), List.getElem?_eq_getElem hlt]
        rfl

theorem validSudoku_congr (g g' : List (List Nat)) (h : ∀ i < 9, ∀ j < 9, cellAt g i j = cellAt g' i j)
    (hv : ValidSudoku g) : ValidSudoku g' := by
  intro d h1 h2
  obtain ⟨v1, v2, v3⟩ := hv d h1 h2
  refine ⟨?_, ?_, ?_⟩
  · intro i hi
    obtain ⟨j, ⟨hj, hc⟩, hu⟩ := v1 i hi
    exact ⟨j, ⟨hj, by rw [← h i hi j hj, hc]⟩, fun j' hj' => hu j' ⟨hj'.1, by rw [h i hi j' hj'.1, hj'.2]⟩⟩
  · intro j hj
    obtain ⟨i, ⟨hi, hc⟩, hu⟩ := v2 j hj
    exact ⟨i, ⟨hi, by rw [← h i hi j hj, hc]⟩, fun i' hi' => hu i' ⟨hi'.1, by rw [h i' hi'.1 j hj, hi'.2]⟩⟩
  · intro a ha b hb
    obtain ⟨p, ⟨hp, hc⟩, hu⟩ := v3 a ha b hb
    refine ⟨p, ⟨hp, by rw [← h p.1 (by omega) p.2 (by omega), hc]⟩, ?_⟩
    intro q hq
    exact hu q ⟨hq.1, by rw [h q.1 (by have := hq.1; omega) q.2 (by have := hq.1; omega), hq.2]⟩

/-- C43: a generated instance, once saved and loaded, has a solution, of value 0, with `c` variables. -/
theorem sudokuRandom_solvable {K : Type} [LT K] [DecidableLT K] (ratio : Nat → Nat → K) (uniform : Nat → Nat → K)
    (hu : ∀ d n j, 0 < n → uniform d j < ratio n n) (s : Sudoku) (h : IsBoard s.problem) (c : Nat) (hc : 0 < c)
    (hc' : c ≤ 81) (t : Sudoku) (ht1 : IsBoard t.problem) (ht2 : IsBoard t.candidate) :
    Sim.Post (sudokuRandom ratio uniform s c) (fun s' => ∃ text t', sudokuSave s' = ok text ∧
      sudokuLoad t text = ok t' ∧ SudokuReady t' ∧ t'.numVariables = some c ∧
      ∃ x t'', x.length = c ∧ (∀ v ∈ x, v < 9) ∧ sudokuEval t' x = ok (0, t'')) := by
  refine (sudokuRandom_valid ratio uniform hu s h c hc hc').mono ?_
  rintro s' ⟨h1, h2, g, g1, g2, g3⟩
  have hchars : ∀ i < 9, ∀ j < 9, ∀ ch, cellAt s'.problem i j = some ch → IsSudokuChar ch := by
    intro i hi j hj ch hch
    rcases g3 i hi j hj with h | ⟨d, k1, k2, k3, k4⟩
    · rw [h] at hch; cases hch; exact Or.inl rfl
    · rw [k4] at hch; cases hch; exact Or.inr ⟨d, k1, k2, rfl⟩
  obtain ⟨text, t', e1, e2, e3, e4⟩ := sudoku_round_trip s' h1 hchars t ht1 ht2
  have hempty : emptyCells t'.problem = emptyCells s'.problem := by
    unfold emptyCells
    apply List.filter_congr
    rintro ⟨i, j⟩ hp
    obtain ⟨hi, hj⟩ := (mem_allCells (i, j)).mp hp
    simp only at hi hj ⊢
    rw [(e4 i hi j hj).1]
  have hdigits : ∀ i < 9, ∀ j < 9, ∃ d, 1 ≤ d ∧ d ≤ 9 ∧ cellAt g i j = some d := by
    intro i hi j hj
    obtain ⟨d, hd, -⟩ := cellAt_isSome g g1 i j hi hj
    -- every cell of a valid board is a digit: the nine digits fill its row
    by_cases hr : 1 ≤ d ∧ d ≤ 9
    · exact ⟨d, hr.1, hr.2, hd⟩
    · exfalso
      have hinj : ∀ e, 1 ≤ e → e ≤ 9 → ∃ k, k < 9 ∧ cellAt g i k = some e := by
        intro e he1 he2
        obtain ⟨k, hk, -⟩ := (g2 e he1 he2).1 i hi
        exact ⟨k, hk⟩
      choose! f hf using hinj
      have hsub : insert j ((Finset.Icc 1 9).image f) ⊆ Finset.range 9 := by
        intro k hk
        rw [Finset.mem_insert, Finset.mem_image] at hk
        rcases hk with rfl | ⟨e, he, rfl⟩
        · exact Finset.mem_range.mpr hj
        · rw [Finset.mem_Icc] at he
          exact Finset.mem_range.mpr (hf e he.1 he.2).1
      have hcard := Finset.card_le_card hsub
      rw [Finset.card_insert_of_notMem, Finset.card_image_of_injOn] at hcard
      · simp at hcard
      · intro a ha b hb hab
        have ha := Finset.mem_Icc.mp ha
        have hb := Finset.mem_Icc.mp hb
        have h1 := (hf a ha.1 ha.2).2
        have h2 := (hf b hb.1 hb.2).2
        rw [hab, h2] at h1
        exact (Option.some.inj h1).symm
      · intro hk
        obtain ⟨e, he, hfe⟩ := Finset.mem_image.mp hk
        have he := Finset.mem_Icc.mp he
        have := (hf e he.1 he.2).2
        rw [hfe, hd] at this
        have := Option.some.inj this
        omega
  let x := (emptyCells s'.problem).map (fun p => (cellAt g p.1 p.2).getD 0 - 1)
  have hx : x.length = (emptyCells t'.problem).length := by simp [x, hempty]
  have hr : ∀ v ∈ x, v < 9 := by
    intro v hv
    obtain ⟨p, hp, rfl⟩ := List.mem_map.mp hv
    obtain ⟨hi, hj⟩ := (mem_allCells p).mp (List.mem_filter.mp hp).1
    obtain ⟨d, k1, k2, k3⟩ := hdigits p.1 hi p.2 hj
    rw [k3]
    simp only [Option.getD_some]
    omega
  obtain ⟨v, t'', f1, f2, f3⟩ := sudoku_zero_iff t' e3 x hx hr
  refine ⟨text, t', e1, e2, e3, ?_, x, t'', ?_, hr, ?_⟩
  · rw [e3.2.2.1, hempty, h2]
  · simp [x, h2]
  · rw [f1, f3.mpr]
    -- the candidate is the complete board
    obtain ⟨g', w1, w2, w3, w4⟩ := sudokuWrite_cells t'.problem t'.candidate e3.1 e3.2.1 x hx
    obtain ⟨g'', v1, v2⟩ := sudoku_value t' e3 x hx hr
    rw [w1] at v1; cases v1
    rw [v2] at f1
    have hcand : t''.candidate = g' := by cases f1; rfl
    rw [hcand]
    refine validSudoku_congr g g' ?_ g2
    intro i hi j hj
    obtain ⟨d, k1, k2, k3⟩ := hdigits i hi j hj
    rcases g3 i hi j hj with hdot | ⟨d', m1, m2, m3, m4⟩
    · rw [hempty] at w4
      simp only [x, List.map_map] at w4
      have hmem : (i, j) ∈ emptyCells s'.problem := by
        unfold emptyCells
        rw [List.mem_filter, mem_allCells]
        exact ⟨⟨hi, hj⟩, by simpa using hdot⟩
      have := List.map_inj_left.mp w4 (i, j) hmem
      simp only [Function.comp, k3, Option.getD_some] at this
      rw [this, k3]
      congr 1
      omega
    · have hne : cellAt t'.problem i j ≠ some '.' := by
        rw [(e4 i hi j hj).1, m4]
        intro he
        exact (digitChar_facts d' m2).2.2.1 (Option.some.inj he)
      rw [w3 i hi j hj hne, (e4 i hi j hj).2 d' m1 m2 m4, m3]

/-- C43 (negative part): a random instance cannot be evaluated before it is saved and loaded: the generator
sets neither the number of variables nor the given cells of the candidate. -/
theorem sudokuRandom_not_ready {K : Type} [LT K] [DecidableLT K] (ratio : Nat → Nat → K)
    (uniform : Nat → Nat → K) (c : Nat) :
    Sim.PostOk (sudokuRandom ratio uniform Sudoku.new c) (fun s' => ∀ x, sudokuEval s' x = ub) := by
  unfold sudokuRandom
  refine (Sim.PostOk.trivial _).bind (fun _ _ => (Sim.PostOk.trivial _).bind (fun _ _ =>
    (Sim.PostOk.trivial _).bind (fun _ _ => (Sim.PostOk.trivial _).bind (fun _ _ =>
      (Sim.PostOk.trivial _).bind (fun _ _ => (Sim.PostOk.trivial _).bind (fun _ _ => Sim.PostOk.pure ?_))))))
  intro x
  rfl

theorem sudokuNew_boards : IsBoard Sudoku.new.problem ∧ IsBoard Sudoku.new.candidate := by
  constructor
  · refine ⟨by simp [Sudoku.new], ?_⟩
    intro row hrow
    simp only [Sudoku.new, List.mem_replicate] at hrow
    rw [hrow.2]; simp
  · refine ⟨by simp [Sudoku.new], ?_⟩
    intro row hrow
    simp only [Sudoku.new, List.mem_replicate] at hrow
    rw [hrow.2]; simp

/-- A puzzle with two empty cells. -/
def samplePuzzle : List Char :=
  ".2345678.\n456789123\n789123456\n231564897\n564897231\n897231564\n312645978\n645978312\n978312645\n".toList

-- the hypotheses are met by a concrete puzzle, which is solved by 1 and 9
example : (do
    let s ← sudokuLoad Sudoku.new samplePuzzle
    let r ← sudokuEval s [0, 8]
    ok (r.1, s.numVariables)) = ok (0, some 2) := by decide +kernel
example : (do
    let s ← sudokuLoad Sudoku.new samplePuzzle
    let r ← sudokuEval s [0, 0]
    ok r.1) = ok (-6) := by decide +kernel
-- the assumption on the uniform numbers is met, and every permutation is the outcome of some shuffle
example : ∀ (_d n _j : Nat), 0 < n → (fun _ _ => (0 : Rat)) _d _j < (fun k n : Nat => (k : Rat) / n) n n := by
  intro _ n _ hn
  have : (0 : Rat) < n := by exact_mod_cast hn
  simp only
  rw [div_self (ne_of_gt this)]
  exact one_pos
example : ∃ d, Sim.shuffle (List.range 9) [d] = .ok [8, 7, 6, 5, 4, 3, 2, 1, 0] [] :=
  Sim.shuffle_onto (by decide)

end Hnco
