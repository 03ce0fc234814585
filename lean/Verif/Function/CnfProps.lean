import Verif.Function.MaxSatProps
import Verif.Function.QuboProps
import Mathlib.Data.List.TakeWhile

/-!
# CNF files (C41)
-/

namespace Hnco

open Outcome

/-! ## Specification -/

/-- The text is a sequence of literals over `numVariables` variables, ended by 0 and possibly followed by
anything. -/
inductive IsClauseText (numVariables : Int) : List Char → List Int → Prop
  | stop {s rest : List Char} : extractInt s = some (0, rest) → IsClauseText numVariables s []
  | literal {s rest : List Char} {lit : Int} {clause : List Int} : extractInt s = some (lit, rest) →
      lit ≠ 0 → (lit.natAbs : Int) ≤ numVariables → IsClauseText numVariables rest clause →
      IsClauseText numVariables s (lit :: clause)

/-- The line is `p cnf numVariables numClauses`, possibly followed by anything. -/
def IsCnfHeader (line : List Char) (numVariables numClauses : Int) : Prop :=
  line.head? = some 'p' ∧ ∃ r1 r2 r3 r4,
    extractToken line = some (['p'], r1) ∧ extractToken r1 = some (['c', 'n', 'f'], r2) ∧
    extractInt r2 = some (numVariables, r3) ∧ 0 < numVariables ∧
    extractInt r3 = some (numClauses, r4) ∧ 0 < numClauses

/-- The text is a well formed file for the expression: empty lines and comments, one header, then empty lines,
comments and clauses, whose number is announced in the header. -/
def IsCnfFile (text : List Char) (numVariables : Int) (expression : List (List Int)) : Prop :=
  ∃ before header after, splitLines text = before ++ header :: after ∧ (∀ l ∈ before, IsBlankLine l) ∧
    IsCnfHeader header numVariables expression.length ∧
    List.Forall₂ (IsClauseText numVariables) (after.filter (fun l => ¬ IsBlankLine l)) expression

/-- Two defects in the text make the behaviour undefined: a line of spaces and tabs only, and the smallest
`int`. -/
def HasTrap (text : List Char) : Prop :=
  ∃ line ∈ splitLines text, (line ≠ [] ∧ ∀ c ∈ line, isBlankChar c = true) ∨
    ∃ s rest, s <:+ line ∧ extractInt s = some (-2147483648, rest)

/-! ## Helper lemmas -/

theorem dropWhile_dropWhile {α : Type} (p q : α → Bool) (h : ∀ a, p a = true → q a = true) (l : List α) :
    (l.dropWhile p).dropWhile q = l.dropWhile q := by
  induction l with
  | nil => rfl
  | cons a l ih =>
    rw [List.dropWhile_cons]
    split
    · rename_i hp
      rw [ih, List.dropWhile_cons, if_pos (h a hp)]
    · rfl

theorem extractInt_blank (s : List Char) : extractInt (s.dropWhile isBlankChar) = extractInt s := by
  unfold extractInt skipSpace
  rw [dropWhile_dropWhile]
  intro c hc
  unfold isBlankChar at hc
  unfold isSpace
  simp only [Bool.or_eq_true] at hc ⊢
  tauto

theorem extractSign_suffix (s : List Char) : (extractSign s).2 <:+ s := by
  cases s with
  | nil => exact List.suffix_refl _
  | cons c t =>
    simp only [extractSign]
    split
    · exact List.suffix_cons c t
    · split
      · exact List.suffix_cons c t
      · exact List.suffix_refl _

/-- Extraction of an integer consumes characters and stays in range. -/
theorem extractInt_consumes {s rest : List Char} {z : Int} (h : extractInt s = some (z, rest)) :
    rest <:+ s ∧ rest.length < s.length ∧ -2147483648 ≤ z ∧ z ≤ 2147483647 := by
  unfold extractInt at h
  revert h
  generalize hp : extractSign (skipSpace s) = p
  have hsuf : p.2 <:+ s := by
    rw [← hp]
    exact (extractSign_suffix _).trans (List.dropWhile_suffix _)
  intro h
  change (if p.2.takeWhile Char.isDigit = [] then none else _) = _ at h
  by_cases hne : p.2.takeWhile Char.isDigit = []
  · rw [if_pos hne] at h; cases h
  rw [if_neg hne] at h
  generalize (if p.1 = true then -(digitsValue (p.2.takeWhile Char.isDigit) : Int)
    else (digitsValue (p.2.takeWhile Char.isDigit) : Int)) = v at h
  by_cases hrange : -2147483648 ≤ v ∧ v ≤ 2147483647
  · rw [if_pos hrange] at h
    simp only [Option.some.injEq, Prod.mk.injEq] at h
    obtain ⟨rfl, rfl⟩ := h
    refine ⟨(List.dropWhile_suffix _).trans hsuf, ?_, hrange.1, hrange.2⟩
    have h1 := List.takeWhile_append_dropWhile (p := Char.isDigit) (l := p.2)
    have h2 := congrArg List.length h1
    rw [List.length_append] at h2
    have h3 : 0 < (p.2.takeWhile Char.isDigit).length := List.length_pos_iff.mpr hne
    have h4 := hsuf.length_le
    omega
  · rw [if_neg hrange] at h; cases h

theorem extractInt_nil : extractInt [] = none := by
  simp [extractInt, skipSpace, extractSign]

theorem IsClauseText.unique {nv : Int} {s : List Char} {c c' : List Int} (h : IsClauseText nv s c)
    (h' : IsClauseText nv s c') : c = c' := by
  induction h generalizing c' with
  | stop e =>
    cases h' with
    | stop _ => rfl
    | literal e' hne _ _ => rw [e] at e'; cases e'; exact absurd rfl hne
  | literal e hne _ _ ih =>
    cases h' with
    | stop e' => rw [e] at e'; cases e'; exact absurd rfl hne
    | literal e' _ _ h'' =>
      rw [e] at e'; cases e'
      rw [ih h'']

/-- Outcome of the loop over the literals of a line. -/
theorem cnfLiterals_cases (nv : Int) (hnv : nv ≤ 2147483647) :
    ∀ (fuel : Nat) (s : List Char) (n : Option Int) (clause : List Int), s.length < fuel → n ≠ some 0 →
      (∃ ls, cnfLiterals nv fuel s n clause = ok (some 0, clause ++ ls) ∧ IsClauseText nv s ls) ∨
      ((∀ ls, ¬ IsClauseText nv s ls) ∧
        (cnfLiterals nv fuel s n clause = Outcome.throw .runtimeError ∨
         (∃ m cl, cnfLiterals nv fuel s n clause = ok (m, cl) ∧ m ≠ some 0 ∧
            (m = none → n = none ∧ ∀ c ∈ s, isBlankChar c = true)) ∨
         (cnfLiterals nv fuel s n clause = ub ∧
            ∃ s' rest, s' <:+ s ∧ extractInt s' = some (-2147483648, rest)))) := by
  intro fuel
  induction fuel with
  | zero => intro s n clause h; omega
  | succ fuel ih =>
    intro s n clause hfuel hn
    rw [cnfLiterals]
    by_cases hs : s.dropWhile isBlankChar = []
    · right
      have hnone : extractInt s = none := by rw [← extractInt_blank, hs, extractInt_nil]
      refine ⟨?_, Or.inr (Or.inl ⟨n, clause, by rw [if_pos hs], hn, fun h => ⟨h, ?_⟩⟩)⟩
      · intro ls hls
        cases hls with
        | stop e => rw [hnone] at e; cases e
        | literal e _ _ _ => rw [hnone] at e; cases e
      · exact List.dropWhile_eq_nil_iff.mp hs
    rw [if_neg hs, extractInt_blank]
    rcases e1 : extractInt s with _ | ⟨z, rest⟩
    · right
      refine ⟨?_, Or.inl rfl⟩
      intro ls hls
      cases hls with
      | stop e => rw [e1] at e; cases e
      | literal e _ _ _ => rw [e1] at e; cases e
    simp only [orThrow, ok_bind]
    by_cases hz : z = 0
    · left
      subst hz
      exact ⟨[], by simp, IsClauseText.stop e1⟩
    rw [if_neg hz]
    obtain ⟨c1, c2, c3, c4⟩ := extractInt_consumes e1
    by_cases hmin : z = -2147483648
    · right
      refine ⟨?_, Or.inr (Or.inr ⟨by rw [if_pos hmin], s, rest, List.suffix_refl _, by rw [← hmin, e1]⟩)⟩
      intro ls hls
      cases hls with
      | stop e => rw [e1] at e; cases e; exact hz rfl
      | literal e _ hle _ => rw [e1] at e; cases e; omega
    rw [if_neg hmin]
    by_cases hv : (if z > 0 then z else -z) > nv
    · right
      refine ⟨?_, Or.inl (by rw [if_pos hv])⟩
      intro ls hls
      cases hls with
      | stop e => rw [e1] at e; cases e; exact hz rfl
      | literal e _ hle _ => rw [e1] at e; cases e; split at hv <;> omega
    rw [if_neg hv]
    have hle : (z.natAbs : Int) ≤ nv := by split at hv <;> omega
    rcases ih rest (some z) (clause ++ [z]) (by omega) (by simpa using hz) with
      ⟨ls, h1, h2⟩ | ⟨h1, h2⟩
    · left
      exact ⟨z :: ls, by rw [h1]; simp, IsClauseText.literal e1 hz hle h2⟩
    · right
      refine ⟨?_, ?_⟩
      · intro ls hls
        cases hls with
        | stop e => rw [e1] at e; cases e; exact hz rfl
        | literal e _ _ h => rw [e1] at e; cases e; exact h1 _ h
      · rcases h2 with h2 | ⟨m, cl, h2, h3, h4⟩ | ⟨h2, s', r', h3, h4⟩
        · exact Or.inl h2
        · refine Or.inr (Or.inl ⟨m, cl, h2, h3, ?_⟩)
          intro hm
          exact absurd (h4 hm).1 (by simp)
        · exact Or.inr (Or.inr ⟨h2, s', r', h3.trans c1, h4⟩)

/-- Outcome of the reading of a clause line. -/
theorem cnfClauseLine_cases (nv : Int) (hnv : nv ≤ 2147483647) (line : List Char) :
    (∃ clause, cnfClauseLine nv line = ok clause ∧ IsClauseText nv line clause) ∨
    ((∀ clause, ¬ IsClauseText nv line clause) ∧
      (cnfClauseLine nv line = Outcome.throw .runtimeError ∨
       (cnfClauseLine nv line = ub ∧ ((∀ c ∈ line, isBlankChar c = true) ∨
          ∃ s rest, s <:+ line ∧ extractInt s = some (-2147483648, rest))))) := by
  unfold cnfClauseLine
  rcases cnfLiterals_cases nv hnv (line.length + 1) line none [] (by omega) (by simp) with
    ⟨ls, h1, h2⟩ | ⟨h1, h2 | ⟨m, cl, h2, h3, h4⟩ | ⟨h2, s, r, h3, h4⟩⟩
  · left; exact ⟨ls, by rw [h1]; simp, h2⟩
  · right; exact ⟨h1, Or.inl (by rw [h2]; rfl)⟩
  · right
    refine ⟨h1, ?_⟩
    rw [h2, ok_bind]
    cases m with
    | none => exact Or.inr ⟨rfl, Or.inl (h4 rfl).2⟩
    | some n => exact Or.inl (by simp only; rw [if_pos (by simpa using h3)])
  · right; exact ⟨h1, Or.inr ⟨by rw [h2]; rfl, Or.inr ⟨s, r, h3, h4⟩⟩⟩

theorem cnfSpecLine_spec (line : List Char) (hp : line.head? = some 'p') :
    (∃ h, cnfSpecLine line = ok h ∧ IsCnfHeader line h.1 h.2) ∨
    (cnfSpecLine line = Outcome.throw .runtimeError ∧ ∀ a b, ¬ IsCnfHeader line a b) := by
  unfold cnfSpecLine
  rcases e1 : extractToken line with _ | ⟨t1, r1⟩
  · right
    refine ⟨rfl, ?_⟩
    rintro a b ⟨-, s1, s2, s3, s4, h1, -⟩
    rw [e1] at h1; cases h1
  simp only [orThrow, ok_bind]
  by_cases c1 : t1 = ['p']
  rotate_left
  · right
    refine ⟨by rw [if_pos c1], ?_⟩
    rintro a b ⟨-, s1, s2, s3, s4, h1, -⟩
    rw [e1] at h1; cases h1; exact c1 rfl
  rw [if_neg (by simpa using c1)]
  subst c1
  rcases e2 : extractToken r1 with _ | ⟨t2, r2⟩
  · right
    refine ⟨rfl, ?_⟩
    rintro a b ⟨-, s1, s2, s3, s4, h1, h2, -⟩
    rw [e1] at h1; cases h1; rw [e2] at h2; cases h2
  simp only [ok_bind]
  by_cases c2 : t2 = ['c', 'n', 'f']
  rotate_left
  · right
    refine ⟨by rw [if_pos c2], ?_⟩
    rintro a b ⟨-, s1, s2, s3, s4, h1, h2, -⟩
    rw [e1] at h1; cases h1; rw [e2] at h2; cases h2; exact c2 rfl
  rw [if_neg (by simpa using c2)]
  subst c2
  rcases e4 : extractInt r2 with _ | ⟨nv, r4⟩
  · right
    refine ⟨rfl, ?_⟩
    rintro a b ⟨-, s1, s2, s3, s4, h1, h2, h4, -⟩
    rw [e1] at h1; cases h1; rw [e2] at h2; cases h2; rw [e4] at h4; cases h4
  simp only [ok_bind]
  by_cases c4 : nv ≤ 0
  · right
    refine ⟨by rw [if_pos c4], ?_⟩
    rintro a b ⟨-, s1, s2, s3, s4, h1, h2, h4, h5, -⟩
    rw [e1] at h1; cases h1; rw [e2] at h2; cases h2; rw [e4] at h4; cases h4
    omega
  rw [if_neg c4]
  rcases e5 : extractInt r4 with _ | ⟨nc, r5⟩
  · right
    refine ⟨rfl, ?_⟩
    rintro a b ⟨-, s1, s2, s3, s4, h1, h2, h4, h5, h6, -⟩
    rw [e1] at h1; cases h1; rw [e2] at h2; cases h2; rw [e4] at h4; cases h4
    rw [e5] at h6; cases h6
  simp only [ok_bind]
  by_cases c5 : nc ≤ 0
  · right
    refine ⟨by rw [if_pos c5], ?_⟩
    rintro a b ⟨-, s1, s2, s3, s4, h1, h2, h4, h5, h6, h7⟩
    rw [e1] at h1; cases h1; rw [e2] at h2; cases h2; rw [e4] at h4; cases h4
    rw [e5] at h6; cases h6
    omega
  rw [if_neg c5]
  left
  exact ⟨_, rfl, hp, r1, r2, r4, r5, e1, e2, e4, by simp only; omega, e5, by simp only; omega⟩

theorem IsCnfHeader.unique {line : List Char} {a a' b b' : Int} (h : IsCnfHeader line a b)
    (h' : IsCnfHeader line a' b') : a = a' ∧ b = b' := by
  obtain ⟨-, r1, r2, r4, r5, e1, e2, e4, -, e5, -⟩ := h
  obtain ⟨-, s1, s2, s4, s5, h1, h2, h4, -, h5, -⟩ := h'
  rw [e1] at h1; cases h1; rw [e2] at h2; cases h2; rw [e4] at h4; cases h4
  rw [e5] at h5; cases h5
  exact ⟨rfl, rfl⟩

theorem cnfLines_blank (lines : List (List Char)) (h : ∀ l ∈ lines, IsBlankLine l) (st : CnfState) :
    forEach lines cnfLine st = ok st := by
  induction lines with
  | nil => rfl
  | cons l ls ih =>
    have hb : cnfLine l st = ok st := by
      rcases h l (by simp) with rfl | hc
      · rfl
      · cases l with
        | nil => rfl
        | cons c t =>
          simp only [List.head?_cons, Option.some.injEq] at hc
          subst hc
          simp [cnfLine]
    rw [forEach, hb, ok_bind]
    exact ih (fun l hl => h l (by simp [hl]))

/-- A line with a defect. -/
def LineTrap (line : List Char) : Prop :=
  (line ≠ [] ∧ ∀ c ∈ line, isBlankChar c = true) ∨
    ∃ s rest, s <:+ line ∧ extractInt s = some (-2147483648, rest)

/-- Lines after the header. -/
theorem cnfLines_clauses (nv : Int) (hnv : nv ≤ 2147483647) (lines : List (List Char)) :
    ∀ (st : CnfState), st.spec = true → st.numVariables = nv →
      (∃ es, forEach lines cnfLine st = ok { st with expression := st.expression ++ es } ∧
        List.Forall₂ (IsClauseText nv) (lines.filter (fun l => ¬ IsBlankLine l)) es) ∨
      ((∀ es, ¬ List.Forall₂ (IsClauseText nv) (lines.filter (fun l => ¬ IsBlankLine l)) es) ∧
        (forEach lines cnfLine st = Outcome.throw .runtimeError ∨
         (forEach lines cnfLine st = ub ∧ ∃ line ∈ lines, LineTrap line))) := by
  induction lines with
  | nil =>
    intro st h1 h2
    left
    exact ⟨[], by simp [forEach], List.Forall₂.nil⟩
  | cons l ls ih =>
    intro st h1 h2
    by_cases hb : IsBlankLine l
    · have hl : cnfLine l st = ok st := by
        have := cnfLines_blank [l] (by simpa using hb) st
        simp only [forEach, bind_eq_ok] at this
        obtain ⟨a, h6, h7⟩ := this
        rw [h6]; simpa using h7
      rw [forEach, hl, ok_bind, List.filter_cons_of_neg (by simpa using hb)]
      rcases ih st h1 h2 with h | ⟨h, h' | ⟨h', l', hl', ht⟩⟩
      · exact Or.inl h
      · exact Or.inr ⟨h, Or.inl h'⟩
      · exact Or.inr ⟨h, Or.inr ⟨h', l', by simp [hl'], ht⟩⟩
    · rw [List.filter_cons_of_pos (by simpa using hb)]
      obtain ⟨c, t, rfl⟩ : ∃ c t, l = c :: t := by
        cases l with
        | nil => exact absurd (Or.inl rfl) hb
        | cons c t => exact ⟨c, t, rfl⟩
      have hc : c ≠ 'c' := by rintro rfl; exact hb (Or.inr rfl)
      by_cases hp : c = 'p'
      · subst hp
        right
        constructor
        · intro es hes
          have hn : extractInt ('p' :: t) = none := by
            simp [extractInt, skipSpace, isSpace, extractSign]
          cases hes with
          | cons he _ =>
            cases he with
            | stop e => rw [hn] at e; cases e
            | literal e _ _ _ => rw [hn] at e; cases e
        · left
          simp [forEach, cnfLine, h1]
      · have hline : cnfLine (c :: t) st = (do
            let clause ← cnfClauseLine nv (c :: t)
            ok { st with expression := st.expression ++ [clause] }) := by
          simp only [cnfLine, hc, hp, h1, if_false, not_true_eq_false, h2]
        rw [forEach, hline]
        rcases cnfClauseLine_cases nv hnv (c :: t) with ⟨clause, e1, e2⟩ | ⟨e1, e2 | ⟨e2, e3⟩⟩
        · rw [e1, ok_bind, ok_bind]
          rcases ih { st with expression := st.expression ++ [clause] } h1 h2 with
            ⟨es, h, h'⟩ | ⟨h, h' | ⟨h', l', hl', ht⟩⟩
          · left
            refine ⟨clause :: es, ?_, List.Forall₂.cons e2 h'⟩
            rw [h]; simp
          · right
            refine ⟨?_, Or.inl h'⟩
            intro es hes
            cases hes with | cons _ hr => exact h _ hr
          · right
            refine ⟨?_, Or.inr ⟨h', l', by simp [hl'], ht⟩⟩
            intro es hes
            cases hes with | cons _ hr => exact h _ hr
        · right
          refine ⟨?_, Or.inl (by rw [e2]; rfl)⟩
          intro es hes
          cases hes with | cons he _ => exact e1 _ he
        · right
          refine ⟨?_, Or.inr ⟨by rw [e2]; rfl, c :: t, by simp, ?_⟩⟩
          · intro es hes
            cases hes with | cons he _ => exact e1 _ he
          · rcases e3 with e3 | e3
            · exact Or.inl ⟨by simp, e3⟩
            · exact Or.inr e3

theorem not_blank_of_cnfHeader {line : List Char} {a b : Int} (h : IsCnfHeader line a b) :
    ¬ IsBlankLine line := by
  have hp := h.1
  rintro (rfl | hc)
  · cases hp
  · rw [hp] at hc
    revert hc
    decide

theorem forall₂_clause_unique {nv : Int} {lines : List (List Char)} {es es' : List (List Int)}
    (h : List.Forall₂ (IsClauseText nv) lines es) (h' : List.Forall₂ (IsClauseText nv) lines es') : es = es' := by
  obtain ⟨l1, g1⟩ := List.forall₂_iff_get.mp h
  obtain ⟨l2, g2⟩ := List.forall₂_iff_get.mp h'
  apply List.ext_get (l1.symm.trans l2)
  intro i a b
  exact (g1 i (by omega) a).unique (g2 i (by omega) b)

/-- A text has at most one meaning. -/
theorem IsCnfFile.unique {text : List Char} {nv nv' : Int} {e e' : List (List Int)} (h : IsCnfFile text nv e)
    (h' : IsCnfFile text nv' e') : nv = nv' ∧ e = e' := by
  obtain ⟨b, hd, a, k1, k2, k3, k4⟩ := h
  obtain ⟨b', hd', a', k1', k2', k3', k4'⟩ := h'
  obtain ⟨rfl, rfl, rfl⟩ := split_blank_unique (k1.symm.trans k1') k2 k2' (not_blank_of_cnfHeader k3)
    (not_blank_of_cnfHeader k3')
  obtain ⟨rfl, -⟩ := k3.unique k3'
  exact ⟨rfl, forall₂_clause_unique k4 k4'⟩

theorem cnfLoad_cases (text : List Char) (hne : ¬ ∀ l ∈ splitLines text, IsBlankLine l) :
    (∃ nv e, cnfLoad text = ok (nv, e) ∧ IsCnfFile text nv e) ∨
    ((∀ nv e, ¬ IsCnfFile text nv e) ∧
      (cnfLoad text = Outcome.throw .runtimeError ∨ (cnfLoad text = ub ∧ HasTrap text))) := by
  rcases split_blank (splitLines text) with h | ⟨before, header, after, h1, h2, h3⟩
  · exact absurd h hne
  obtain ⟨c, t, rfl⟩ : ∃ c t, header = c :: t := by
    cases header with
    | nil => exact absurd (Or.inl rfl) h3
    | cons c t => exact ⟨c, t, rfl⟩
  have hc : c ≠ 'c' := by rintro rfl; exact h3 (Or.inr rfl)
  have happ : ∀ (l1 l2 : List (List Char)) (st : CnfState), forEach (l1 ++ l2) cnfLine st =
      forEach l1 cnfLine st >>= forEach l2 cnfLine := by
    intro l1
    induction l1 with
    | nil => intro l2 st; rfl
    | cons l ls ih =>
      intro l2 st
      simp only [List.cons_append, forEach, bind_assoc]
      congr 1
      funext st'
      exact ih l2 st'
  have huniq : ∀ nv es, IsCnfFile text nv es → IsCnfHeader (c :: t) nv es.length ∧
      List.Forall₂ (IsClauseText nv) (after.filter (fun l => ¬ IsBlankLine l)) es := by
    rintro nv es ⟨b', h', a', k1, k2, k3, k4⟩
    obtain ⟨rfl, rfl, rfl⟩ := split_blank_unique (h1.symm.trans k1) h2 k2 h3 (not_blank_of_cnfHeader k3)
    exact ⟨k3, k4⟩
  unfold cnfLoad
  rw [h1, happ, cnfLines_blank before h2, ok_bind]
  by_cases hp : c = 'p'
  · subst hp
    have hline : ∀ st : CnfState, st.spec = false → cnfLine ('p' :: t) st = (do
        let h ← cnfSpecLine ('p' :: t)
        ok { st with spec := true, numVariables := h.1, numClauses := h.2 }) := by
      intro st hs
      simp [cnfLine, hs]
    rw [forEach, hline _ rfl]
    rcases cnfSpecLine_spec ('p' :: t) rfl with ⟨⟨nv, nc⟩, e1, e2⟩ | ⟨e1, e2⟩
    · rw [e1, ok_bind, ok_bind]
      simp only at e2
      have hnv : nv ≤ 2147483647 := by
        obtain ⟨-, r1, r2, r4, r5, -, -, e4, -, -, -⟩ := e2
        exact (extractInt_consumes e4).2.2.2
      rcases cnfLines_clauses nv hnv after { spec := true, numClauses := nc, numVariables := nv, expression := [] }
        rfl rfl with ⟨es, m1, m2⟩ | ⟨m1, m2 | ⟨m2, l, hl, m3⟩⟩
      · simp only at m1 ⊢
        rw [m1, ok_bind]
        simp only [List.nil_append]
        by_cases hcount : (es.length : Int) ≠ nc
        · right
          refine ⟨?_, Or.inl (by rw [if_pos hcount])⟩
          intro nv' es' hf
          obtain ⟨k1, k2⟩ := huniq nv' es' hf
          obtain ⟨rfl, u⟩ := k1.unique e2
          rw [forall₂_clause_unique k2 m2] at u
          exact hcount u
        · left
          rw [if_neg hcount]
          refine ⟨nv, es, rfl, before, 'p' :: t, after, h1, h2, ?_, m2⟩
          rw [not_ne_iff.mp hcount]; exact e2
      · right
        refine ⟨?_, Or.inl ?_⟩
        · intro nv' es' hf
          obtain ⟨k1, k2⟩ := huniq nv' es' hf
          obtain ⟨rfl, u⟩ := k1.unique e2
          exact m1 _ k2
        · simp only at m2 ⊢; rw [m2]; rfl
      · right
        refine ⟨?_, Or.inr ⟨?_, l, ?_, m3⟩⟩
        · intro nv' es' hf
          obtain ⟨k1, k2⟩ := huniq nv' es' hf
          obtain ⟨rfl, u⟩ := k1.unique e2
          exact m1 _ k2
        · simp only at m2 ⊢; rw [m2]; rfl
        · rw [h1]; simp [hl]
    · right
      refine ⟨?_, Or.inl (by rw [e1]; rfl)⟩
      intro nv es hf
      exact e2 _ _ (huniq nv es hf).1
  · right
    refine ⟨?_, Or.inl (by simp [forEach, cnfLine, hc, hp])⟩
    intro nv es hf
    have := (huniq nv es hf).1.1
    simp only [List.head?_cons, Option.some.injEq] at this
    exact hp this

/-! ## Properties -/

/-- C41: the loader succeeds exactly on well formed files, with the expression they describe, and on files
without any header or clause, with the empty expression. -/
theorem cnfLoad_iff (text : List Char) (nv : Int) (e : List (List Int)) :
    cnfLoad text = ok (nv, e) ↔
      IsCnfFile text nv e ∨ ((∀ l ∈ splitLines text, IsBlankLine l) ∧ nv = 0 ∧ e = []) := by
  by_cases hne : ∀ l ∈ splitLines text, IsBlankLine l
  · have hl : cnfLoad text = ok (0, []) := by
      unfold cnfLoad
      rw [cnfLines_blank _ hne]
      simp
    rw [hl]
    constructor
    · intro h; cases h; exact Or.inr ⟨hne, rfl, rfl⟩
    · rintro (⟨b, hd, a, k1, k2, k3, k4⟩ | ⟨-, rfl, rfl⟩)
      · exact absurd (hne hd (by rw [k1]; simp)) (not_blank_of_cnfHeader k3)
      · rfl
  · rcases cnfLoad_cases text hne with ⟨nv', e', h1, h2⟩ | ⟨h1, h2⟩
    · rw [h1]
      constructor
      · intro h; cases h; exact Or.inl h2
      · rintro (h | ⟨h, -⟩)
        · obtain ⟨rfl, rfl⟩ := h.unique h2; rfl
        · exact absurd h hne
    · constructor
      · intro h
        rcases h2 with h2 | ⟨h2, -⟩ <;> rw [h2] at h <;> cases h
      · rintro (h | ⟨h, -⟩)
        · exact absurd h (h1 _ _)
        · exact absurd h hne

/-- C41: in an accepted file each literal is non zero and its variable is in range. -/
theorem cnfLoad_range (text : List Char) (nv : Int) (e : List (List Int)) (h : cnfLoad text = ok (nv, e)) :
    0 ≤ nv ∧ IsExpression nv.toNat e := by
  rcases (cnfLoad_iff text nv e).mp h with ⟨b, hd, a, k1, k2, k3, k4⟩ | ⟨-, rfl, rfl⟩
  · obtain ⟨-, r1, r2, r4, r5, -, -, -, hpos, -, -⟩ := k3
    refine ⟨by omega, ?_⟩
    intro clause hc lit hl
    obtain ⟨l2, g2⟩ := List.forall₂_iff_get.mp k4
    obtain ⟨i, hi, rfl⟩ := List.mem_iff_getElem.mp hc
    have hct := g2 i (by omega) hi
    rw [List.get_eq_getElem (l := e)] at hct
    generalize e[i] = clause at hct hl
    clear g2
    generalize List.get _ _ = s at hct
    induction hct with
    | stop _ => cases hl
    | literal e1 hne hle _ ih =>
      rcases List.mem_cons.mp hl with rfl | hl
      · exact ⟨hne, by omega⟩
      · exact ih hl
  · exact ⟨Int.le_refl _, by intro c hc; cases hc⟩

/-- C41: any other file is rejected with an exception, unless it has a line made of spaces and tabs only or
the smallest `int`. -/
theorem cnfLoad_rejects (text : List Char) (h : ∀ nv e, cnfLoad text ≠ ok (nv, e)) (ht : ¬ HasTrap text) :
    cnfLoad text = Outcome.throw .runtimeError := by
  have hne : ¬ ∀ l ∈ splitLines text, IsBlankLine l := by
    intro hall
    exact h 0 [] ((cnfLoad_iff text 0 []).mpr (Or.inr ⟨hall, rfl, rfl⟩))
  rcases cnfLoad_cases text hne with ⟨nv', e', h1, h2⟩ | ⟨h1, h2 | ⟨h2, h3⟩⟩
  · exact absurd h1 (h _ _)
  · exact h2
  · exact absurd h3 ht

/-- C41 (negative part): on a line made of a single space the loader reads an uninitialised variable. -/
theorem cnfLoad_blank_clause : cnfLoad "p cnf 1 1\n \n".toList = ub := by decide +kernel

/-- C41 (negative part): the loader negates the smallest `int`. -/
theorem cnfLoad_smallest_int : cnfLoad "p cnf 1 1\n-2147483648 0\n".toList = ub := by decide +kernel

/-- C41: the loader of MAX-NAE-3SAT accepts the same files, provided that each clause has three literals. -/
theorem nae3Load_iff (text : List Char) (nv : Int) (e : List (List Int)) :
    nae3Load text = ok (nv, e) ↔ cnfLoad text = ok (nv, e) ∧ ∀ clause ∈ e, clause.length = 3 := by
  have key : ∀ (l : List (List Int)),
      forEach l (fun clause (u : Unit) => if clause.length ≠ 3 then Outcome.throw .runtimeError else ok u) () =
        if ∀ clause ∈ l, clause.length = 3 then ok () else Outcome.throw .runtimeError := by
    intro l
    induction l with
    | nil => simp [forEach]
    | cons a l ih =>
      rw [forEach]
      by_cases ha : a.length = 3
      · rw [if_neg (by simpa using ha), ok_bind, ih]
        simp [ha]
      · rw [if_pos ha]
        simp [ha]
  unfold nae3Load
  simp only [key, bind_eq_ok]
  constructor
  · rintro ⟨r, h1, _, h2, h3⟩
    cases h3
    split at h2
    · exact ⟨h1, by assumption⟩
    · cases h2
  · rintro ⟨h1, h2⟩
    exact ⟨_, h1, (), by rw [if_pos h2], rfl⟩

/-! ## Round trip -/

theorem isClauseText_save (nv : Int) (hnv : nv ≤ 2147483647) (clause : List Int)
    (h : ∀ lit ∈ clause, lit ≠ 0 ∧ (lit.natAbs : Int) ≤ nv) (sp : List Char) (hsp : ∀ c ∈ sp, isSpace c = true) :
    IsClauseText nv (sp ++ ((clause.map (fun lit => showInt lit ++ [' '])).flatten ++ ['0'])) clause := by
  induction clause generalizing sp with
  | nil =>
    have hz : showInt 0 = ['0'] := by
      rw [show showInt 0 = showNat 0 from rfl, showNat]; rfl
    have := extractInt_showInt 0 (by omega) (by omega) [] (by simp) sp hsp
    rw [hz] at this
    exact IsClauseText.stop this
  | cons lit clause ih =>
    obtain ⟨h0, h1⟩ := h lit (by simp)
    have e := extractInt_showInt lit (by omega) (by omega)
      ([' '] ++ ((clause.map (fun lit => showInt lit ++ [' '])).flatten ++ ['0']))
      (by intro c hc; simp at hc; rw [← hc]; decide) sp hsp
    have e' : sp ++ ((List.map (fun lit => showInt lit ++ [' ']) (lit :: clause)).flatten ++ ['0']) =
        sp ++ (showInt lit ++ ([' '] ++ ((clause.map (fun lit => showInt lit ++ [' '])).flatten ++ ['0']))) := by
      simp
    rw [e']
    exact IsClauseText.literal e h0 h1 (ih (fun l hl => h l (by simp [hl])) [' '] (by simp [isSpace]))

theorem cnfSave_eq (nv : Int) (e : List (List Int)) : cnfSave nv e =
    unlines ("c HNCO AbstractMaxSat::save".toList ::
      ("p cnf ".toList ++ (showInt nv ++ ' ' :: showInt e.length)) ::
      e.map (fun clause => (clause.map (fun lit => showInt lit ++ [' '])).flatten ++ ['0'])) := by
  have key : ∀ e : List (List Int), (e.map (fun clause =>
        (clause.map (fun lit => showInt lit ++ [' '])).flatten ++ ['0', '\n'])).flatten =
      unlines (e.map (fun clause => (clause.map (fun lit => showInt lit ++ [' '])).flatten ++ ['0'])) := by
    intro e
    induction e with
    | nil => rfl
    | cons c e ih => simp only [List.map_cons, List.flatten_cons, ih, unlines]; simp
  unfold cnfSave
  rw [key]
  simp only [unlines]
  simp

/-- C41: saving then loading gives the same expression, when there is at least one variable and one clause. -/
theorem cnf_roundtrip (nv : Int) (e : List (List Int)) (h0 : 0 < nv) (hnv : nv ≤ 2147483647) (he : e ≠ [])
    (hlen : e.length ≤ 2147483647) (h : IsExpression nv.toNat e) : cnfLoad (cnfSave nv e) = ok (nv, e) := by
  rw [cnfLoad_iff]
  left
  have hsp : ∀ c ∈ [' '], isSpace c = true := by simp [isSpace]
  have hlit : ∀ clause ∈ e, ∀ lit ∈ clause, lit ≠ 0 ∧ (lit.natAbs : Int) ≤ nv := by
    intro clause hc lit hl
    obtain ⟨a, b⟩ := h clause hc lit hl
    exact ⟨a, by omega⟩
  have hnl : ∀ l ∈ "c HNCO AbstractMaxSat::save".toList ::
      ("p cnf ".toList ++ (showInt nv ++ ' ' :: showInt e.length)) ::
      e.map (fun clause => (clause.map (fun lit => showInt lit ++ [' '])).flatten ++ ['0']), '\n' ∉ l := by
    intro l hl
    rcases List.mem_cons.mp hl with rfl | hl
    · decide
    rcases List.mem_cons.mp hl with rfl | hl
    · simp [newline_not_mem_showInt]
    · obtain ⟨clause, -, rfl⟩ := List.mem_map.mp hl
      simp [newline_not_mem_showInt]
  refine ⟨["c HNCO AbstractMaxSat::save".toList], "p cnf ".toList ++ (showInt nv ++ ' ' :: showInt e.length),
    e.map (fun clause => (clause.map (fun lit => showInt lit ++ [' '])).flatten ++ ['0']) ++ [[]],
    ?_, ?_, ⟨?_, ?_⟩, ?_⟩
  · exact (congrArg splitLines (cnfSave_eq nv e)).trans (splitLines_unlines _ hnl)
  · intro l hl
    simp only [List.mem_singleton] at hl
    subst hl
    exact Or.inr rfl
  · rfl
  · have t1 := extractToken_append ['p'] (" cnf ".toList ++ (showInt nv ++ ' ' :: showInt e.length))
      (by simp) (by simp [isSpace]) (by intro c hc; simp at hc; rw [← hc]; decide) [] (by simp)
    have t2 := extractToken_append "cnf".toList (" ".toList ++ (showInt nv ++ ' ' :: showInt e.length))
      (by simp) (by simp [isSpace]) (by intro c hc; simp at hc; rw [← hc]; decide) [' '] hsp
    have t3 := extractInt_showInt nv (by omega) (by omega) (' ' :: showInt e.length)
      (by intro c hc; simp at hc; rw [← hc]; decide) [' '] hsp
    have t4 := extractInt_showInt e.length (by omega) (by omega) [] (by simp) [' '] hsp
    simp only [List.append_nil] at t4
    have := List.length_pos_iff.mpr he
    exact ⟨_, _, _, _, t1, t2, t3, h0, t4, by omega⟩
  · have hfilter : (e.map (fun clause : List Int => (clause.map (fun lit => showInt lit ++ [' '])).flatten ++ ['0']) ++
        [[]]).filter (fun l => ¬ IsBlankLine l) =
        e.map (fun clause => (clause.map (fun lit => showInt lit ++ [' '])).flatten ++ ['0']) := by
      rw [List.filter_append, List.filter_eq_self.mpr]
      · simp [IsBlankLine]
      · intro l hl
        obtain ⟨clause, hc, rfl⟩ := List.mem_map.mp hl
        have ht := isClauseText_save nv hnv clause (hlit clause hc) [] (by simp)
        simp only [List.nil_append] at ht
        generalize (clause.map (fun lit => showInt lit ++ [' '])).flatten ++ ['0'] = l at ht
        simp only [decide_eq_true_eq]
        intro hbl
        have hnone : extractInt l = none := by
          rcases hbl with rfl | hcc
          · exact extractInt_nil
          · cases l with
            | nil => cases hcc
            | cons d t =>
              simp only [List.head?_cons, Option.some.injEq] at hcc
              subst hcc
              simp [extractInt, skipSpace, isSpace, extractSign]
        cases ht with
        | stop e' => rw [hnone] at e'; cases e'
        | literal e' _ _ _ => rw [hnone] at e'; cases e'
    rw [hfilter]
    rw [List.forall₂_map_left_iff, List.forall₂_same]
    intro clause hc
    exact isClauseText_save nv hnv clause (hlit clause hc) [] (by simp)

/-- C41 (negative part): an expression without clauses is saved to a file which cannot be loaded. -/
theorem cnf_roundtrip_empty : cnfLoad (cnfSave 3 []) = Outcome.throw .runtimeError := by
  have hz : showInt 0 = ['0'] := by
    rw [show showInt 0 = showNat 0 from rfl, showNat]; rfl
  have h3 : showInt 3 = ['3'] := by
    rw [show showInt 3 = showNat 3 from rfl, showNat]; rfl
  unfold cnfSave
  simp only [List.length_nil, Nat.cast_zero, hz, h3]
  decide +kernel

example : cnfLoad "c test\np cnf 3 2\n1 -2 0\n\t3 0\n".toList = ok (3, [[1, -2], [3]]) := by decide +kernel
example : cnfLoad "p cnf 3 1\n1 -4 0\n".toList = Outcome.throw .runtimeError := by decide +kernel
example : cnfLoad "p cnf 3 1\n1 -2\n".toList = Outcome.throw .runtimeError := by decide +kernel
example : IsExpression 3 [[1, -2], [3]] := by unfold IsExpression; decide

end Hnco
