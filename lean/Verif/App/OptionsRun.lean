import Verif.App.OptionsLemmas
import Verif.TextLemmas

/-!
# Lemmas on the loop over options
-/

namespace Hnco

open Outcome

/-! ## Conversions -/

/-- The number computed by `std::atoi`, without a bound. -/
def atoiValue (s : List Char) : Int :=
  if (extractSign (skipSpace s)).1 then -(digitsValue ((extractSign (skipSpace s)).2.takeWhile Char.isDigit) : Int)
  else (digitsValue ((extractSign (skipSpace s)).2.takeWhile Char.isDigit) : Int)

theorem digit_not_sign {c : Char} (h : c.isDigit = true) : c ≠ '-' ∧ c ≠ '+' := by
  constructor <;> (rintro rfl; revert h; decide)

theorem skipSpace_append {blanks rest : List Char} (hb : ∀ c ∈ blanks, isSpace c = true)
    (hr : ∀ c, rest.head? = some c → isSpace c = false) : skipSpace (blanks ++ rest) = rest := by
  unfold skipSpace
  rw [List.dropWhile_append_of_pos hb]
  cases rest with
  | nil => rfl
  | cons c t => simp [hr c rfl]

theorem startsWithNumber_scan {s : List Char} {n : Int} (h : StartsWithNumber s n) :
    n = atoiValue s ∧ (extractSign (skipSpace s)).2.takeWhile Char.isDigit ≠ [] := by
  obtain ⟨blanks, sign, digits, rest, rfl, hb, hd, hdig, hr, hs⟩ := h
  obtain ⟨d, ds, rfl⟩ := List.exists_cons_of_ne_nil hd
  have hd0 := hdig d (by simp)
  have htake : (d :: ds ++ rest).takeWhile Char.isDigit = d :: ds := (takeWhile_append_stop _ _ _ hdig hr).1
  have key : ∀ sg : List Char, (sg = [] ∨ sg = ['+'] ∨ sg = ['-']) →
      skipSpace (blanks ++ (sg ++ (d :: ds ++ rest))) = sg ++ (d :: ds ++ rest) := by
    intro sg hsg
    refine skipSpace_append hb ?_
    rcases hsg with rfl | rfl | rfl
    · intro c hc
      simp only [List.nil_append, List.cons_append, List.head?_cons, Option.some.injEq] at hc
      exact hc ▸ isDigit_not_isSpace hd0
    · intro c hc
      simp only [List.cons_append, List.head?_cons, Option.some.injEq] at hc
      exact hc ▸ (by decide)
    · intro c hc
      simp only [List.cons_append, List.head?_cons, Option.some.injEq] at hc
      exact hc ▸ (by decide)
  have hplain : extractSign (d :: ds ++ rest) = (false, d :: ds ++ rest) := by
    simp [extractSign, (digit_not_sign hd0).1, (digit_not_sign hd0).2]
  unfold atoiValue
  rcases hs with ⟨rfl | rfl, rfl⟩ | ⟨rfl, rfl⟩
  · rw [key [] (by simp), List.nil_append, hplain]
    simp only [htake]
    exact ⟨by simp, by simp⟩
  · rw [key ['+'] (by simp)]
    have : extractSign (['+'] ++ (d :: ds ++ rest)) = (false, d :: ds ++ rest) := by simp [extractSign]
    rw [this]
    simp only [htake]
    exact ⟨by simp, by simp⟩
  · rw [key ['-'] (by simp)]
    have : extractSign (['-'] ++ (d :: ds ++ rest)) = (true, d :: ds ++ rest) := by simp [extractSign]
    rw [this]
    simp only [htake]
    exact ⟨by simp, by simp⟩

theorem dropWhile_head_false {α : Type} (p : α → Bool) (l : List α) : ∀ c, (l.dropWhile p).head? = some c → p c = false := by
  intro c hc
  induction l with
  | nil => simp at hc
  | cons a t ih =>
    rw [List.dropWhile_cons] at hc
    split at hc
    · exact ih hc
    · rename_i h
      simp only [List.head?_cons, Option.some.injEq] at hc
      subst hc
      simpa using h

theorem mem_takeWhile_true {α : Type} {p : α → Bool} {l : List α} {c : α} (h : c ∈ l.takeWhile p) : p c = true := by
  induction l with
  | nil => simp at h
  | cons a t ih =>
    rw [List.takeWhile_cons] at h
    split at h
    · rename_i ha
      rcases List.mem_cons.mp h with rfl | h
      · exact ha
      · exact ih h
    · cases h

theorem extractSign_split (s : List Char) : ∃ sign, s = sign ++ (extractSign s).2 ∧
    (((sign = [] ∨ sign = ['+']) ∧ (extractSign s).1 = false) ∨ (sign = ['-'] ∧ (extractSign s).1 = true)) := by
  cases s with
  | nil => exact ⟨[], by simp [extractSign]⟩
  | cons c t =>
    simp only [extractSign]
    split_ifs with h1 h2
    · exact ⟨['-'], by simp [h1]⟩
    · exact ⟨['+'], by simp [h2]⟩
    · exact ⟨[], by simp⟩

theorem scan_startsWithNumber {s : List Char} (h : (extractSign (skipSpace s)).2.takeWhile Char.isDigit ≠ []) :
    StartsWithNumber s (atoiValue s) := by
  obtain ⟨sign, hs, hcase⟩ := extractSign_split (skipSpace s)
  refine ⟨s.takeWhile isSpace, sign, (extractSign (skipSpace s)).2.takeWhile Char.isDigit,
    (extractSign (skipSpace s)).2.dropWhile Char.isDigit, ?_, ?_, h, ?_, dropWhile_head_false _ _, ?_⟩
  · rw [List.takeWhile_append_dropWhile, ← hs]
    exact (List.takeWhile_append_dropWhile (p := isSpace)).symm
  · exact fun c hc => mem_takeWhile_true hc
  · exact fun c hc => mem_takeWhile_true hc
  · unfold atoiValue
    rcases hcase with ⟨h1, h2⟩ | ⟨h1, h2⟩
    · exact Or.inl ⟨h1, by rw [h2]; simp⟩
    · exact Or.inr ⟨h1, by rw [h2]; simp⟩

/-- `std::atoi` computes the integer read in a text. -/
theorem intRead_iff (s : List Char) (n : Int) : IntRead s n ↔ n = atoiValue s := by
  constructor
  · rintro (h | ⟨rfl, h⟩)
    · exact (startsWithNumber_scan h).1
    · by_cases he : (extractSign (skipSpace s)).2.takeWhile Char.isDigit = []
      · simp [atoiValue, he, digitsValue]
      · exact absurd (scan_startsWithNumber he) (h _)
  · rintro rfl
    by_cases he : (extractSign (skipSpace s)).2.takeWhile Char.isDigit = []
    · refine Or.inr ⟨by simp [atoiValue, he, digitsValue], fun m hm => (startsWithNumber_scan hm).2 he⟩
    · exact Or.inl (scan_startsWithNumber he)

theorem cAtoi_eq (s : List Char) : cAtoi s = checked 32 (atoiValue s) := rfl

theorem convert_iff (lib : OptLib) (k : OptKind) (v : List Char) (x : OptValue) :
    optConvert lib k v = .ok x ↔ Means lib k v x := by
  cases k with
  | int =>
    simp only [optConvert, cAtoi_eq, checked]
    constructor
    · intro h
      split_ifs at h with hb
      · cases h
        exact Means.int ((intRead_iff _ _).mpr rfl) (by simpa using hb.1) (by simpa using hb.2)
    · rintro ⟨hr, h1, h2⟩
      rw [(intRead_iff _ _).mp hr] at h1 h2 ⊢
      rw [if_pos ⟨by simpa using h1, by simpa using h2⟩]
  | double =>
    simp only [optConvert, Except.ok.injEq]
    exact ⟨fun h => h ▸ Means.double, fun h => by cases h; rfl⟩
  | string =>
    simp only [optConvert, Except.ok.injEq]
    exact ⟨fun h => h ▸ Means.string, fun h => by cases h; rfl⟩
  | unsigned =>
    simp only [optConvert, Except.ok.injEq]
    exact ⟨fun h => h ▸ Means.unsigned, fun h => by cases h; rfl⟩
  | bool =>
    simp only [optConvert]
    constructor
    · intro h
      split_ifs at h with hb
      · rcases hb with rfl | rfl
        · cases h; exact Means.true
        · cases h; exact Means.false
    · intro h
      cases h <;> rfl

theorem convert_error {lib : OptLib} {k : OptKind} {v : List Char} {x : OptExit} (h : optConvert lib k v = .error x) :
    (k = .bool ∧ v ≠ "true".toList ∧ v ≠ "false".toList ∧ x = .exit 1 none) ∨
    (k = .int ∧ (∃ n, IntRead v n ∧ ¬ (-2 ^ 31 ≤ n ∧ n < 2 ^ 31)) ∧ x = .undefined) := by
  cases k with
  | int =>
    simp only [optConvert, cAtoi_eq, checked] at h
    split_ifs at h with hb
    · cases h
      exact Or.inr ⟨rfl, ⟨_, (intRead_iff _ _).mpr rfl, by simpa using hb⟩, rfl⟩
  | double => cases h
  | string => cases h
  | unsigned => cases h
  | bool =>
    simp only [optConvert] at h
    split_ifs at h with hb
    · cases h
      rw [not_or] at hb
      exact Or.inl ⟨rfl, hb.1, hb.2, rfl⟩

/-! ## The loop -/

/-- The effect of an option on the object. -/
def applyItem (lib : OptLib) (s : OptState) (i : OptDoc × Option (List Char)) : OptState :=
  match i.1.kind with
  | .flag => { s with raised := fun name => if name = memberOf i.1.name then true else s.raised name }
  | .shows => s
  | .value k _ =>
    match i.2 with
    | none => s
    | some v =>
      match optConvert lib k v with
      | .error _ => s
      | .ok x => { s with
          given := fun name => if name = memberOf i.1.name then true else s.given name
          value := fun name => if name = memberOf i.1.name then some x else s.value name }

theorem step_item {c : OptClass} {lib : OptLib} {ignore : Bool} {s : OptState} {i : OptDoc × Option (List Char)} {e : OptEvent}
    (he : EventOf c i e) (hf : FineItem lib i) : c.step lib ignore s e = .ok (applyItem lib s i) := by
  obtain ⟨-, hc, ha, -⟩ := he
  cases hf with
  | flag hk => simp only [OptClass.step, hc, OptDoc.action, hk, OptAction.run, applyItem]
  | value hk hm =>
    have hx := (convert_iff _ _ _ _).mpr hm
    simp only [OptClass.step, hc, OptDoc.action, hk, OptAction.run, ha, applyItem, hx]

theorem process_items {c : OptClass} {lib : OptLib} {ignore : Bool} {items : List (OptDoc × Option (List Char))}
    {es : List OptEvent} (he : List.Forall₂ (EventOf c) items es) (hf : ∀ i ∈ items, FineItem lib i) (s : OptState) :
    c.process lib ignore es s = .ok (items.foldl (applyItem lib) s) := by
  induction he generalizing s with
  | nil => rfl
  | cons h _ ih =>
    rw [OptClass.process, step_item h (hf _ (by simp))]
    exact ih (fun i hi => hf i (by simp [hi])) _

theorem process_append (c : OptClass) (lib : OptLib) (ignore : Bool) (es fs : List OptEvent) (s : OptState) :
    c.process lib ignore (es ++ fs) s =
      match c.process lib ignore es s with
      | .error x => .error x
      | .ok t => c.process lib ignore fs t := by
  induction es generalizing s with
  | nil => rfl
  | cons e es ih =>
    rw [List.cons_append, OptClass.process, OptClass.process]
    cases c.step lib ignore s e with
    | error x => rfl
    | ok t => exact ih t

/-! ## The settings -/

theorem init_value {c : OptClass} (h : c.check = true) {d : OptDoc} (hd : d ∈ c.help) {k : OptKind} {x : Option OptValue}
    (hk : d.kind = .value k x) : c.init.value (memberOf d.name) = x := by
  simp [OptClass.init, (doc_member h hd hk).1]

theorem get_eq {c : OptClass} (h : c.check = true) {d : OptDoc} (hd : d ∈ c.help) {k : OptKind} {x : Option OptValue}
    (hk : d.kind = .value k x) (s : OptState) :
    c.get s (memberOf d.name) =
      if x.isSome ∨ s.given (memberOf d.name) = true then
        match s.value (memberOf d.name) with
        | some v => ok v
        | none => ub
      else Outcome.throw .runtimeError := by
  rw [OptClass.get, (doc_member h hd hk).2]
  cases x with
  | none => simp [OptDoc.getter]; rfl
  | some x => simp [OptDoc.getter]; rfl

/-- The state after fine options: which parameters have been set, and to which value. -/
theorem foldl_state {c : OptClass} (h : c.check = true) (lib : OptLib) {items : List (OptDoc × Option (List Char))}
    (hd : ∀ i ∈ items, i.1 ∈ c.help) (hf : ∀ i ∈ items, FineItem lib i) :
    (∀ d ∈ c.help, d.takes = true → ((items.foldl (applyItem lib) c.init).given (memberOf d.name) = true ↔ Mentioned items d)) ∧
    (∀ d ∈ c.help, d.kind = .flag → ((items.foldl (applyItem lib) c.init).raised (memberOf d.name) = true ↔ Mentioned items d)) ∧
    (∀ d ∈ c.help, ∀ k x v, d.kind = .value k x → LastArgument items d v →
      ∃ y, Means lib k v y ∧ (items.foldl (applyItem lib) c.init).value (memberOf d.name) = some y) ∧
    (∀ d ∈ c.help, ∀ k x, d.kind = .value k x → ¬ Mentioned items d →
      (items.foldl (applyItem lib) c.init).value (memberOf d.name) = x) := by
  induction items using List.reverseRecOn with
  | nil =>
    refine ⟨?_, ?_, ?_, ?_⟩
    · intro d hd _
      simp [OptClass.init, Mentioned]
    · intro d hd _
      simp [OptClass.init, Mentioned]
    · rintro d _ k x v _ ⟨before, after, he, -⟩
      simp at he
    · intro d hd k x hk _
      exact init_value h hd hk
  | append_singleton items i ih =>
    obtain ⟨h1, h2, h3, h4⟩ := ih (fun j hj => hd j (by simp [hj])) (fun j hj => hf j (by simp [hj]))
    have hi := hd i (by simp)
    have hfi := hf i (by simp)
    have hmem : ∀ d, Mentioned (items ++ [i]) d ↔ Mentioned items d ∨ i.1 = d := by
      intro d
      simp only [Mentioned, List.mem_append, List.mem_singleton]
      constructor
      · rintro ⟨j, hj | rfl, hjd⟩
        · exact Or.inl ⟨j, hj, hjd⟩
        · exact Or.inr hjd
      · rintro (⟨j, hj, hjd⟩ | hjd)
        · exact ⟨j, Or.inl hj, hjd⟩
        · exact ⟨i, Or.inr rfl, hjd⟩
    have hlast : ∀ d v, LastArgument (items ++ [i]) d v → (i = (d, some v)) ∨ (i.1 ≠ d ∧ LastArgument items d v) := by
      rintro d v ⟨before, after, he, ha⟩
      rcases List.eq_nil_or_concat after with rfl | ⟨after', j, rfl⟩
      · have := List.append_inj' he rfl
        exact Or.inl (by simpa using this.2)
      · rw [List.concat_eq_append] at he ha
        have he' : items ++ [i] = (before ++ (d, some v) :: after') ++ [j] := by rw [he]; simp
        have := List.append_inj' he' rfl
        have hij : i = j := by simpa using this.2
        exact Or.inr ⟨hij ▸ ha j (by simp), before, after', this.1, fun k hk => ha k (by simp [hk])⟩
    rw [List.foldl_append]
    simp only [List.foldl_cons, List.foldl_nil]
    generalize items.foldl (applyItem lib) c.init = s at h1 h2 h3 h4
    cases hfi with
    | @flag di hk =>
      have hs : applyItem lib s (di, none) =
          { s with raised := fun name => if name = memberOf di.name then true else s.raised name } := by
        simp only [applyItem, hk]
      rw [hs]
      refine ⟨?_, ?_, ?_, ?_⟩
      · intro d hd ht
        rw [hmem, h1 d hd ht]
        constructor
        · exact Or.inl
        · rintro (hm | hm)
          · exact hm
          · simp only at hm
            subst hm
            simp [OptDoc.takes, hk] at ht
      · intro d hd hkd
        rw [hmem]
        by_cases he : memberOf d.name = memberOf di.name
        · simp only [he, if_true, true_iff]
          exact Or.inr (doc_unique h hi hd he.symm)
        · simp only [he, if_false]
          rw [h2 d hd hkd]
          constructor
          · exact Or.inl
          · rintro (hm | hm)
            · exact hm
            · exact absurd (by rw [← hm]) he
      · intro d hd k x v hkd hl
        rcases hlast d v hl with he | ⟨-, hl⟩
        · cases he
        · exact h3 d hd k x v hkd hl
      · intro d hd k x hkd hm
        exact h4 d hd k x hkd (fun hm' => hm ((hmem d).mpr (Or.inl hm')))
    | @value di ki xi vi yi hk hm =>
      have hx := (convert_iff _ _ _ _).mpr hm
      have hs : applyItem lib s (di, some vi) =
          { s with
            given := fun name => if name = memberOf di.name then true else s.given name
            value := fun name => if name = memberOf di.name then some yi else s.value name } := by
        simp only [applyItem, hk, hx]
      rw [hs]
      refine ⟨?_, ?_, ?_, ?_⟩
      · intro d hd ht
        rw [hmem]
        by_cases he : memberOf d.name = memberOf di.name
        · simp only [he, if_true, true_iff]
          exact Or.inr (doc_unique h hi hd he.symm)
        · simp only [he, if_false]
          rw [h1 d hd ht]
          constructor
          · exact Or.inl
          · rintro (hm | hm)
            · exact hm
            · exact absurd (by rw [← hm]) he
      · intro d hd hkd
        rw [hmem, h2 d hd hkd]
        constructor
        · exact Or.inl
        · rintro (hm | hm)
          · exact hm
          · simp only at hm
            subst hm
            rw [hk] at hkd
            cases hkd
      · intro d hd k x v hkd hl
        rcases hlast d v hl with he | ⟨hne, hl⟩
        · cases he
          rw [hk] at hkd
          cases hkd
          exact ⟨yi, hm, by simp⟩
        · obtain ⟨y, hy, hv⟩ := h3 d hd k x v hkd hl
          refine ⟨y, hy, ?_⟩
          have he : memberOf d.name ≠ memberOf di.name := fun he => hne (doc_unique h hi hd he.symm)
          simp only [he, if_false]
          exact hv
      · intro d hd k x hkd hmn
        have he : memberOf d.name ≠ memberOf di.name :=
          fun he => hmn ((hmem d).mpr (Or.inr (doc_unique h hi hd he.symm)))
        simp only [he, if_false]
        exact h4 d hd k x hkd (fun hm' => hmn ((hmem d).mpr (Or.inl hm')))

theorem foldl_settings {c : OptClass} (h : c.check = true) (lib : OptLib) {items : List (OptDoc × Option (List Char))}
    (hd : ∀ i ∈ items, i.1 ∈ c.help) (hf : ∀ i ∈ items, FineItem lib i) :
    Settings c lib items (items.foldl (applyItem lib) c.init) := by
  obtain ⟨h1, h2, h3, h4⟩ := foldl_state h lib hd hf
  constructor
  · exact h1
  · intro d hd k x v hk hl
    obtain ⟨y, hy, hv⟩ := h3 d hd k x v hk hl
    refine ⟨y, hy, ?_⟩
    have hm : Mentioned items d := by
      obtain ⟨before, after, he, -⟩ := hl
      exact ⟨(d, some v), by rw [he]; simp, rfl⟩
    rw [get_eq h hd hk, if_pos (Or.inr ((h1 d hd (by simp [OptDoc.takes, hk])).mpr hm)), hv]
  · intro d hd k x hk hm
    rw [get_eq h hd hk, if_pos (Or.inl (by simp)), h4 d hd k _ hk hm]
  · intro d hd k hk hm
    rw [get_eq h hd hk, if_neg]
    rintro (he | he)
    · cases he
    · exact hm ((h1 d hd (by simp [OptDoc.takes, hk])).mp he)
  · exact h2

end Hnco
