import Verif.App.Model
import Mathlib.Data.List.Infix
import Mathlib.Data.List.Intervals

/-! # C61: splitting strings -/

namespace Hnco

/-! ## Specification -/

/-- The string `s` is cut at the delimiters found from left to right: each one is the first occurrence in what remains. -/
inductive Splits (d : List Char) : List Char → List (List Char) → Prop
  | last {s : List Char} : ¬ d <:+: s → Splits d s [s]
  | cut {p rest : List Char} {ps : List (List Char)} : (∀ j, j < p.length → ¬ d <+: (p ++ d ++ rest).drop j) → Splits d rest ps →
    Splits d (p ++ d ++ rest) (p :: ps)

/-- The number of delimiters found from left to right, without overlap. -/
def countFound (d : List Char) (s : List Char) : Nat :=
  if d <+: s ∧ d ≠ [] then countFound d (s.drop d.length) + 1
  else
    match s with
    | [] => 0
    | _ :: t => countFound d t
termination_by s.length
decreasing_by
  · rename_i h
    have := h.1.length_le
    have := List.length_pos_iff.mpr h.2
    rw [List.length_drop]
    omega
  · simp

/-! ## Search -/

theorem strFind_some {s d : List Char} {start i : Nat} (h : strFind s d start = some i) :
    start ≤ i ∧ d <+: s.drop i ∧ i ≤ s.length ∧ ∀ j, start ≤ j → j < i → ¬ d <+: s.drop j := by
  unfold strFind at h
  rw [List.find?_range'_eq_some] at h
  obtain ⟨h1, h2, h3⟩ := h
  rw [List.mem_range'_1] at h2
  refine ⟨h2.1, List.isPrefixOf_iff_prefix.mp h1, by omega, fun j hj hji hd => ?_⟩
  have := h3 j hj hji
  rw [List.isPrefixOf_iff_prefix.mpr hd] at this
  cases this

theorem strFind_none {s d : List Char} {start : Nat} (h : strFind s d start = none) :
    ∀ j, start ≤ j → j ≤ s.length → ¬ d <+: s.drop j := by
  unfold strFind at h
  rw [List.find?_eq_none] at h
  intro j h1 h2 hd
  exact h j (by rw [List.mem_range'_1]; omega) (List.isPrefixOf_iff_prefix.mpr hd)

theorem strFind_eq {s d : List Char} {start i : Nat} (h1 : start ≤ i) (h2 : d <+: s.drop i) (h3 : i ≤ s.length)
    (h4 : ∀ j, start ≤ j → j < i → ¬ d <+: s.drop j) : strFind s d start = some i := by
  cases h : strFind s d start with
  | none => exact absurd h2 (strFind_none h i h1 h3)
  | some k =>
    obtain ⟨g1, g2, g3, g4⟩ := strFind_some h
    rcases Nat.lt_trichotomy i k with hlt | heq | hlt
    · exact absurd h2 (g4 i h1 hlt)
    · rw [heq]
    · exact absurd g2 (h4 k g1 hlt)

theorem infix_iff_drop {s d : List Char} : d <:+: s ↔ ∃ j, j ≤ s.length ∧ d <+: s.drop j := by
  constructor
  · rintro ⟨a, b, rfl⟩
    refine ⟨a.length, by simp, ?_⟩
    rw [List.append_assoc, List.drop_left]
    exact List.prefix_append _ _
  · rintro ⟨j, _, h⟩
    exact h.isInfix.trans (List.drop_suffix j s).isInfix

/-! ## Splitting -/

theorem splitLoop_splits {s d : List Char} (hd : d ≠ []) (hs : s.length < 4294967296) : ∀ (fuel start : Nat) (items : List (List Char)),
    start ≤ s.length → s.length < start + fuel → ∃ ps, splitLoop s d fuel start items = some (items ++ ps) ∧ Splits d (s.drop start) ps
  | 0, start, items, h1, h2 => by omega
  | fuel + 1, start, items, h1, h2 => by
    have hpos := List.length_pos_iff.mpr hd
    unfold splitLoop
    cases h : strFind s d start with
    | none =>
      refine ⟨[s.drop start], rfl, Splits.last ?_⟩
      rw [infix_iff_drop]
      rintro ⟨j, hj, hp⟩
      rw [List.length_drop] at hj
      rw [List.drop_drop] at hp
      exact strFind_none h (start + j) (by omega) (by omega) hp
    | some stop =>
      obtain ⟨g1, g2, g3, g4⟩ := strFind_some h
      obtain ⟨rest, hrest⟩ := g2
      have hlen := congrArg List.length hrest
      rw [List.length_append, List.length_drop] at hlen
      simp only
      rw [Nat.mod_eq_of_lt (by omega)]
      obtain ⟨ps, e, hps⟩ := splitLoop_splits hd hs fuel (stop + d.length) (items ++ [(s.drop start).take (stop - start)])
        (by omega) (by omega)
      refine ⟨(s.drop start).take (stop - start) :: ps, by rw [e]; simp, ?_⟩
      have hr : s.drop (stop + d.length) = rest := by
        rw [← List.drop_drop, ← hrest, List.drop_left]
      rw [hr] at hps
      have hsplit : s.drop start = (s.drop start).take (stop - start) ++ d ++ rest := by
        conv_lhs => rw [← List.take_append_drop (stop - start) (s.drop start)]
        rw [List.append_assoc, hrest, List.drop_drop]
        congr 2
        omega
      have := Splits.cut (d := d) (p := (s.drop start).take (stop - start)) (rest := rest) (ps := ps) (by
        intro j hj
        rw [← hsplit, List.drop_drop]
        rw [List.length_take, List.length_drop] at hj
        exact g4 (start + j) (by omega) (by omega)) hps
      rw [← hsplit] at this
      exact this

/-- C61: splitting a string of less than 2^32 characters with a non empty delimiter cuts it at the delimiters found from left to
right. -/
theorem splitString_splits {s d : List Char} (hd : d ≠ []) (hs : s.length < 4294967296) {fuel : Nat} (hf : s.length < fuel) :
    ∃ ps, splitString fuel s d = some ps ∧ Splits d s ps := by
  obtain ⟨ps, e, h⟩ := splitLoop_splits hd hs fuel 0 [] (Nat.zero_le _) (by omega)
  exact ⟨ps, by simpa [splitString] using e, by simpa using h⟩

/-- C61: the pieces are determined by the string and the delimiter. -/
theorem splits_unique {d s : List Char} {ps qs : List (List Char)} (h1 : Splits d s ps) (h2 : Splits d s qs) : ps = qs := by
  induction h1 generalizing qs with
  | last hn =>
    cases h2 with
    | last _ => rfl
    | cut h _ => exact absurd (⟨_, _, rfl⟩ : d <:+: _) hn
  | @cut p rest ps h _ ih =>
    generalize hs : p ++ d ++ rest = s at h2
    cases h2 with
    | last hn => exact absurd (⟨p, rest, hs⟩ : d <:+: s) hn
    | @cut p' rest' ps' h' h2 =>
      have hp : ∀ {p rest p' rest' : List Char}, p ++ d ++ rest = p' ++ d ++ rest' →
          (∀ j, j < p.length → ¬ d <+: (p ++ d ++ rest).drop j) → p.length ≤ p'.length := by
        intro p rest p' rest' e h
        by_contra hcon
        refine h p'.length (by omega) ?_
        rw [e, List.append_assoc, List.drop_left]
        exact List.prefix_append _ _
      have hle : p.length = p'.length := Nat.le_antisymm (hp hs h) (hp hs.symm h')
      rw [List.append_assoc, List.append_assoc] at hs
      obtain ⟨rfl, e⟩ := List.append_inj hs hle
      have e := List.append_cancel_left e
      subst e
      rw [ih h2]

/-- C61: the pieces joined with the delimiter give back the string. -/
theorem splits_join {d s : List Char} {ps : List (List Char)} (h : Splits d s ps) : List.intercalate d ps = s := by
  induction h with
  | last _ => simp [List.intercalate]
  | @cut p rest ps _ h2 ih =>
    cases h2 with
    | last _ => simp [List.intercalate]
    | cut _ _ =>
      rw [← ih]
      simp [List.intercalate, List.intersperse]

/-- C61: no piece contains the delimiter. -/
theorem splits_pieces {d s : List Char} (hd : d ≠ []) {ps : List (List Char)} (h : Splits d s ps) : ∀ p ∈ ps, ¬ d <:+: p := by
  have hpos := List.length_pos_iff.mpr hd
  induction h with
  | last hn =>
    intro p hp
    rw [List.mem_singleton] at hp
    subst hp
    exact hn
  | @cut p rest ps h _ ih =>
    intro q hq
    rcases List.mem_cons.mp hq with rfl | hq
    · rintro ⟨a, b, rfl⟩
      refine h a.length (by simp; omega) ?_
      simp only [List.append_assoc]
      rw [List.drop_left]
      exact List.prefix_append _ _
    · exact ih q hq

theorem countFound_cons {d s : List Char} {c : Char} (h : ¬ d <+: c :: s) : countFound d (c :: s) = countFound d s := by
  rw [countFound, if_neg (by tauto)]

theorem countFound_none {d : List Char} (hd : d ≠ []) : ∀ {s : List Char}, ¬ d <:+: s → countFound d s = 0
  | [], h => by
    rw [countFound, if_neg (fun h' => h h'.1.isInfix)]
  | c :: t, h => by
    rw [countFound_cons (fun h' => h h'.isInfix)]
    exact countFound_none hd (fun h' => h (h'.trans (List.suffix_cons c t).isInfix))

theorem countFound_cut {d rest : List Char} (hd : d ≠ []) : ∀ {p : List Char}, (∀ j, j < p.length → ¬ d <+: (p ++ d ++ rest).drop j) →
    countFound d (p ++ d ++ rest) = countFound d rest + 1
  | [], _ => by
    rw [countFound.eq_def, if_pos ⟨by simp, hd⟩]
    simp
  | c :: p, h => by
    rw [List.cons_append, List.cons_append, countFound_cons (by simpa using h 0 (by simp))]
    exact countFound_cut hd (fun j hj => by simpa using h (j + 1) (by simpa using hj))

/-- C61: there is one piece more than delimiters found from left to right. -/
theorem splits_count {d s : List Char} (hd : d ≠ []) {ps : List (List Char)} (h : Splits d s ps) :
    ps.length = countFound d s + 1 := by
  induction h with
  | last hn => rw [countFound_none hd hn]; rfl
  | cut h _ ih => rw [countFound_cut hd h, List.length_cons, ih]

/-- C61 (negative part): with an empty delimiter the loop does not end. -/
theorem splitString_empty_delimiter (s : List Char) : ∀ fuel, splitString fuel s [] = none := by
  have hfind : strFind s [] 0 = some 0 := strFind_eq (le_refl _) (by simp) (Nat.zero_le _) (by omega)
  have key : ∀ fuel items, splitLoop s [] fuel 0 items = none := by
    intro fuel
    induction fuel with
    | zero => intro items; rfl
    | succ fuel ih =>
      intro items
      unfold splitLoop
      rw [hfind]
      exact ih _
  exact fun fuel => key fuel []

/-- C61 (negative part): `start` has 32 bits, so that if the first delimiter ends at position 2^32, then the loop does not end. -/
theorem splitString_wraps {d p rest : List Char} (hp : p.length + d.length = 4294967296)
    (h : ∀ j, j < p.length → ¬ d <+: (p ++ d ++ rest).drop j) : ∀ fuel, splitString fuel (p ++ d ++ rest) d = none := by
  have hfind : strFind (p ++ d ++ rest) d 0 = some p.length := by
    refine strFind_eq (Nat.zero_le _) ?_ (by simp) (fun j _ hj => h j hj)
    rw [List.append_assoc, List.drop_left]
    exact List.prefix_append _ _
  have key : ∀ fuel items, splitLoop (p ++ d ++ rest) d fuel 0 items = none := by
    intro fuel
    induction fuel with
    | zero => intro items; rfl
    | succ fuel ih =>
      intro items
      unfold splitLoop
      rw [hfind]
      simp only
      rw [hp]
      exact ih _
  exact fun fuel => key fuel []

/-! ## Examples -/

/-- A string and a delimiter which meet the hypotheses of `splitString_splits`. -/
example : splitString 8 "x,,yz,".toList ",".toList = some ["x".toList, [], "yz".toList, []] := by decide +kernel

/-- The delimiters found do not overlap. -/
example : splitString 8 "aaa".toList "aa".toList = some [[], "a".toList] := by decide +kernel

theorem comma_first (k : Nat) : ∃ p : List Char, p.length = k ∧ ∀ rest : List Char, ∀ j, j < p.length →
    ¬ [','] <+: (p ++ [','] ++ rest).drop j := by
  refine ⟨List.replicate k 'x', List.length_replicate, ?_⟩
  intro rest j hj hd
  rw [List.length_replicate] at hj
  have h0 : ((List.replicate k 'x' ++ [','] ++ rest).drop j)[0]? = some ',' := by
    obtain ⟨t, ht⟩ := hd
    rw [← ht]
    rfl
  rw [List.getElem?_drop, List.append_assoc, List.getElem?_append_left (by rw [List.length_replicate]; omega),
    List.getElem?_replicate, if_pos (by omega)] at h0
  simp at h0

/-- There are strings whose first delimiter ends at position 2^32. -/
example : ∃ p : List Char, p.length + [','].length = 4294967296 ∧ ∀ fuel, splitString fuel (p ++ [','] ++ []) [','] = none := by
  obtain ⟨p, h1, h2⟩ := comma_first 4294967295
  have h3 : p.length + [','].length = 4294967296 := by
    rw [h1, List.length_singleton]
  exact ⟨p, h3, splitString_wraps h3 (h2 [])⟩

end Hnco
