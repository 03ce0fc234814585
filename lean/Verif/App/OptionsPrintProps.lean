import Verif.App.OptionsProps

/-!
# Printed parameters
-/

namespace Hnco

open Outcome

/-! ## Specification -/

/-- A value without the quotes around it. -/
def unquoted : List Char → List Char
  | '"' :: t => t.dropLast
  | v => v

/-- The option written in a line: `# name = value` is the option `--name=value`, `# name = "value"` also, and `# name ` is the option
`--name`, with dashes in place of underscores. -/
def optionOfLine (line : List Char) : List Char :=
  let body := line.drop 2
  let name := (body.takeWhile (fun c => decide (c ≠ ' '))).map (fun c => if c = '_' then '-' else c)
  let after := (body.dropWhile (fun c => decide (c ≠ ' '))).drop 1
  if after = [] then '-' :: '-' :: name else '-' :: '-' :: (name ++ '=' :: unquoted (after.drop 2))

/-- Numbers are written without quotes. -/
def OptLib.Plain (lib : OptLib) : Prop := ∀ r, (lib.showDouble r).head? ≠ some '"'

/-- A value once it has been written and read: only numbers of type `double` can change. -/
def OptLib.reread (lib : OptLib) : OptValue → OptValue
  | .double r => .double (lib.atof (lib.showDouble r))
  | x => x

/-! ## Tables -/

/-- What should be printed about an option. -/
def OptDoc.print (d : OptDoc) : OptPrint :=
  match d.kind with
  | .value k default =>
    .value (if default.isSome then none else some (memberOf d.name)) (memberOf d.name) (memberOf d.name) (decide (k = .string))
  | _ => .flag (memberOf d.name) (memberOf d.name)

/-- Default values have the type of their parameter. -/
def defaultOk : OptKind → OptValue → Bool
  | .int, .int n => decide (-2 ^ 31 ≤ n ∧ n < 2 ^ 31)
  | .double, .double _ => true
  | .string, .str _ => true
  | .bool, .bool _ => true
  | .unsigned, .unsigned n => decide (n < 2 ^ 32)
  | _, _ => false

/-- The statements of `operator<<` agree with the help pages. -/
def OptClass.checkPrint (c : OptClass) : Bool :=
  c.prints.all (fun p => c.help.any (fun d => decide (d.kind ≠ .shows) && decide (p = d.print))) &&
  c.help.all (fun d => (decide (d.kind = .shows) || c.prints.contains d.print) &&
    (match d.kind with
      | .value k (some x) => defaultOk k x
      | _ => true) &&
    !(d.name.contains '_') && !(d.name.contains ' '))

set_option maxRecDepth 100000

theorem checkPrint_mapgen : mapgenClass.checkPrint = true := by decide +kernel
theorem checkPrint_ffgen : ffgenClass.checkPrint = true := by decide +kernel
theorem checkPrint_hncoMo : hncoMoClass.checkPrint = true := by decide +kernel
theorem checkPrint_hnco : hncoClass.checkPrint = true := by decide +kernel

theorem checkPrint_classes {c : OptClass} (hc : c ∈ optionClasses) : c.checkPrint = true := by
  simp only [optionClasses, List.mem_cons, List.not_mem_nil, or_false] at hc
  rcases hc with rfl | rfl | rfl | rfl
  · exact checkPrint_hnco
  · exact checkPrint_hncoMo
  · exact checkPrint_ffgen
  · exact checkPrint_mapgen

theorem checkPrint_parts {c : OptClass} (h : c.checkPrint = true) :
    (∀ p ∈ c.prints, ∃ d ∈ c.help, d.kind ≠ .shows ∧ p = d.print) ∧
    (∀ d ∈ c.help, d.kind ≠ .shows → d.print ∈ c.prints) ∧
    (∀ d ∈ c.help, ∀ k x, d.kind = .value k (some x) → defaultOk k x = true) ∧
    (∀ d ∈ c.help, '_' ∉ d.name ∧ ' ' ∉ d.name) := by
  simp only [OptClass.checkPrint, Bool.and_eq_true, List.all_eq_true, List.any_eq_true, decide_eq_true_eq] at h
  obtain ⟨h1, h2⟩ := h
  refine ⟨?_, ?_, ?_, ?_⟩
  · intro p hp
    obtain ⟨d, hd, hk, he⟩ := h1 p hp
    exact ⟨d, hd, hk, he⟩
  · intro d hd hk
    have := (h2 d hd).1.1.1
    simp only [Bool.or_eq_true, decide_eq_true_eq, hk, false_or] at this
    simpa using this
  · intro d hd k x hk
    have := (h2 d hd).1.1.2
    rw [hk] at this
    exact this
  · intro d hd
    exact ⟨by simpa using (h2 d hd).1.2, by simpa using (h2 d hd).2⟩

/-! ## Lines -/

theorem memberOf_toList (name : List Char) : (memberOf name).toList = name.map (fun c => if c = '-' then '_' else c) := by
  simp [memberOf]

theorem underscores_back {name : List Char} (h : '_' ∉ name) :
    (name.map (fun c => if c = '-' then '_' else c)).map (fun c => if c = '_' then '-' else c) = name := by
  rw [List.map_map]
  conv => rhs; rw [← List.map_id name]
  apply List.map_congr_left
  intro c hc
  have : c ≠ '_' := fun e => h (e ▸ hc)
  by_cases h1 : c = '-'
  · simp [h1]
  · simp [h1, this]

theorem member_noSpace {name : List Char} (h : ' ' ∉ name) : ∀ c ∈ (memberOf name).toList, decide (c ≠ ' ') = true := by
  intro c hc
  rw [memberOf_toList] at hc
  obtain ⟨d, hd, rfl⟩ := List.mem_map.mp hc
  have : d ≠ ' ' := fun e => h (e ▸ hd)
  split_ifs
  · decide
  · simpa using this

theorem name_read {name : List Char} (h1 : '_' ∉ name) (h2 : ' ' ∉ name) (rest : List Char) :
    (((memberOf name).toList ++ ' ' :: rest).takeWhile (fun c => decide (c ≠ ' '))).map (fun c => if c = '_' then '-' else c) = name ∧
    ((memberOf name).toList ++ ' ' :: rest).dropWhile (fun c => decide (c ≠ ' ')) = ' ' :: rest := by
  rw [List.takeWhile_append_of_pos (member_noSpace h2), List.dropWhile_append_of_pos (member_noSpace h2)]
  simp only [ne_eq, not_true_eq_false, decide_false, Bool.false_eq_true, not_false_eq_true, List.takeWhile_cons_of_neg,
    List.append_nil, List.dropWhile_cons_of_neg, and_true]
  rw [memberOf_toList]
  exact underscores_back h1

theorem optionOfLine_flag {name : List Char} (h1 : '_' ∉ name) (h2 : ' ' ∉ name) :
    optionOfLine ("# ".toList ++ (memberOf name).toList ++ " ".toList) = '-' :: '-' :: name := by
  have e : ("# ".toList ++ (memberOf name).toList ++ " ".toList).drop 2 = (memberOf name).toList ++ ' ' :: [] := by
    simp
  unfold optionOfLine
  rw [e]
  simp only [(name_read h1 h2 []).1, (name_read h1 h2 []).2]
  rfl

theorem optionOfLine_value {name : List Char} (h1 : '_' ∉ name) (h2 : ' ' ∉ name) (v : List Char) :
    optionOfLine ("# ".toList ++ (memberOf name).toList ++ " = ".toList ++ v) = '-' :: '-' :: (name ++ '=' :: unquoted v) := by
  have e : ("# ".toList ++ (memberOf name).toList ++ " = ".toList ++ v).drop 2 = (memberOf name).toList ++ ' ' :: '=' :: ' ' :: v := by
    simp
  unfold optionOfLine
  rw [e]
  simp only [(name_read h1 h2 ('=' :: ' ' :: v)).1, (name_read h1 h2 ('=' :: ' ' :: v)).2]
  rfl

/-! ## Values -/

/-- A value which can be printed and read again. -/
inductive Printable (lib : OptLib) : OptKind → OptValue → Prop
  | int {n : Int} : -2 ^ 31 ≤ n → n < 2 ^ 31 → Printable lib .int (.int n)
  | double {r : Rat} : lib.Plain → Printable lib .double (.double r)
  | string {s : List Char} : Printable lib .string (.str s)
  | bool {b : Bool} : Printable lib .bool (.bool b)
  | unsigned {n : Nat} : n < 2 ^ 32 → Printable lib .unsigned (.unsigned n)

theorem atoiValue_showNat (n : Nat) : atoiValue (showNat n) = n := by
  have e : (showNat n).takeWhile Char.isDigit = showNat n := by
    have := takeWhile_append_stop Char.isDigit (showNat n) [] (showNat_digits _) (by simp)
    simpa using this.1
  simp [atoiValue, scan_showNat, e, showNat_value]

theorem atoiValue_negative (n : Nat) : atoiValue ('-' :: showNat n) = -n := by
  have e : skipSpace ('-' :: showNat n) = '-' :: showNat n := by
    simp [skipSpace, show isSpace '-' = false by decide]
  have e2 : (showNat n).takeWhile Char.isDigit = showNat n := by
    have := takeWhile_append_stop Char.isDigit (showNat n) [] (showNat_digits _) (by simp)
    simpa using this.1
  simp [atoiValue, e, extractSign, e2, showNat_value]

theorem atoiValue_showInt (n : Int) : atoiValue (showInt n) = n := by
  by_cases h : n < 0
  · have e : showInt n = '-' :: showNat n.natAbs := by simp [showInt, h]
    rw [e, atoiValue_negative]
    omega
  · have e : showInt n = showNat n.natAbs := by simp [showInt, h]
    rw [e, atoiValue_showNat]
    omega

theorem Printable.means {lib : OptLib} {k : OptKind} {x : OptValue} (h : Printable lib k x) :
    Means lib k (x.shown lib) (lib.reread x) := by
  cases h with
  | int h1 h2 => exact .int ((intRead_iff _ _).mpr (atoiValue_showInt _).symm) h1 h2
  | double => exact .double
  | string => exact .string
  | @bool b =>
    cases b
    · exact .false
    · exact .true
  | @unsigned n h =>
    have := Means.unsigned (lib := lib) (s := showNat n)
    rw [cStrtoul_showNat (by omega), Nat.mod_eq_of_lt h] at this
    exact this

theorem showInt_noQuote (n : Int) : (showInt n).head? ≠ some '"' := by
  unfold showInt
  split_ifs
  · simp
  · intro e
    have := showNat_digits n.natAbs '"' (List.mem_of_mem_head? (by rw [e]; rfl))
    revert this
    decide

theorem Printable.noQuote {lib : OptLib} {k : OptKind} {x : OptValue} (h : Printable lib k x) (hk : k ≠ .string) :
    (x.shown lib).head? ≠ some '"' := by
  cases h with
  | int => exact showInt_noQuote _
  | double h => exact h _
  | string => exact absurd rfl hk
  | @bool b => cases b <;> simp [OptValue.shown]
  | @unsigned n _ =>
    intro e
    have := showNat_digits n '"' (List.mem_of_mem_head? (by
      have e' : (showNat n).head? = some '"' := e
      rw [e']; rfl))
    revert this
    decide

theorem unquoted_self {v : List Char} (h : v.head? ≠ some '"') : unquoted v = v := by
  cases v with
  | nil => rfl
  | cons c t =>
    have : c ≠ '"' := by simpa using h
    unfold unquoted
    split
    · rename_i e
      exact absurd (List.cons.inj e).1 this
    · rfl

theorem unquoted_quoted (v : List Char) : unquoted ('"' :: (v ++ ['"'])) = v := by
  simp [unquoted]

theorem Means.unique {lib : OptLib} {k : OptKind} {v : List Char} {x y : OptValue} (hx : Means lib k v x) (hy : Means lib k v y) :
    x = y := by
  have e1 := (convert_iff lib k v x).mpr hx
  have e2 := (convert_iff lib k v y).mpr hy
  rw [e1] at e2
  simpa using e2

/-! ## Reading the lines again -/

/-- What is printed about an option. -/
inductive PrintedItem (lib : OptLib) (s : OptState) : OptDoc × Option (List Char) → Prop
  | flag {d : OptDoc} : d.kind = .flag → s.raised (memberOf d.name) = true → PrintedItem lib s (d, none)
  | value {d : OptDoc} {k : OptKind} {default : Option OptValue} {x : OptValue} : d.kind = .value k default →
      (default.isSome ∨ s.given (memberOf d.name) = true) → s.value (memberOf d.name) = some x →
      PrintedItem lib s (d, some (x.shown lib))

/-- The values which are printed can be read again. -/
structure AllPrintable (c : OptClass) (lib : OptLib) (s : OptState) : Prop where
  known : ∀ d ∈ c.help, ∀ k default, d.kind = .value k default → (default.isSome ∨ s.given (memberOf d.name) = true) →
    ∃ x, s.value (memberOf d.name) = some x ∧ Printable lib k x

theorem printed_takes {lib : OptLib} {s : OptState} {i : OptDoc × Option (List Char)} (h : PrintedItem lib s i) :
    i.1.kind ≠ .shows := by
  cases h with
  | flag h _ => simp [h]
  | value h _ _ => simp [h]

theorem print_member {d e : OptDoc} (hd : d.kind ≠ .shows) (he : e.kind ≠ .shows) (h : d.print = e.print) :
    memberOf d.name = memberOf e.name := by
  unfold OptDoc.print at h
  cases hk1 : d.kind <;> cases hk2 : e.kind <;> simp_all

theorem printLines_items {c : OptClass} (h : c.check = true) (hp : c.checkPrint = true) {lib : OptLib} {s : OptState}
    (ha : AllPrintable c lib s) (ps : List OptPrint) (hps : ∀ p ∈ ps, ∃ d ∈ c.help, d.kind ≠ .shows ∧ p = d.print) :
    ∃ lines items, printLines lib s ps = ok lines ∧ CommandLine c.help (lines.map optionOfLine) items ∧
      (∀ i ∈ items, i.1 ∈ c.help ∧ FineItem lib i ∧ PrintedItem lib s i) ∧
      (∀ i, PrintedItem lib s i → i.1.print ∈ ps → i.1 ∈ c.help → Mentioned items i.1) := by
  induction ps with
  | nil => exact ⟨[], [], rfl, .done, by simp, fun i _ h => by cases h⟩
  | cons p ps ih =>
    obtain ⟨lines, items, h1, h2, h3, h4⟩ := ih (fun q hq => hps q (by simp [hq]))
    obtain ⟨d, hd, hk, rfl⟩ := hps p (by simp)
    obtain ⟨hu, hs⟩ := (checkPrint_parts hp).2.2.2 d hd
    have hsame : ∀ i : OptDoc × Option (List Char), PrintedItem lib s i → i.1.print = d.print → i.1 ∈ c.help → i.1 = d :=
      fun i hi he hm => doc_unique h hm hd (print_member (printed_takes hi) hk he)
    have found : ∀ w arg, Spelled c.help d arg [optionOfLine w] → PrintedItem lib s (d, arg) → FineItem lib (d, arg) →
        d.print.lines lib s = ok [w] → ∃ lines items, printLines lib s (d.print :: ps) = ok lines ∧
          CommandLine c.help (lines.map optionOfLine) items ∧
          (∀ i ∈ items, i.1 ∈ c.help ∧ FineItem lib i ∧ PrintedItem lib s i) ∧
          (∀ i, PrintedItem lib s i → i.1.print ∈ d.print :: ps → i.1 ∈ c.help → Mentioned items i.1) := by
      intro w arg hw hi hf hl
      refine ⟨w :: lines, (d, arg) :: items, by simp [printLines, hl, h1], CommandLine.option hw h2, ?_, ?_⟩
      · intro i hi'
        rcases List.mem_cons.mp hi' with rfl | hi'
        · exact ⟨hd, hf, hi⟩
        · exact h3 i hi'
      · intro i hi' hm hc
        rcases List.mem_cons.mp hm with he | hm
        · exact ⟨(d, arg), by simp, (hsame i hi' he hc).symm⟩
        · obtain ⟨j, hj, e⟩ := h4 i hi' hm hc
          exact ⟨j, by simp [hj], e⟩
    have missing : (∀ arg, ¬ PrintedItem lib s (d, arg)) → d.print.lines lib s = ok [] →
        ∃ lines items, printLines lib s (d.print :: ps) = ok lines ∧
          CommandLine c.help (lines.map optionOfLine) items ∧
          (∀ i ∈ items, i.1 ∈ c.help ∧ FineItem lib i ∧ PrintedItem lib s i) ∧
          (∀ i, PrintedItem lib s i → i.1.print ∈ d.print :: ps → i.1 ∈ c.help → Mentioned items i.1) := by
      intro hn hl
      refine ⟨lines, items, by simp [printLines, hl, h1], h2, h3, ?_⟩
      intro i hi' hm hc
      rcases List.mem_cons.mp hm with he | hm
      · have := hsame i hi' he hc
        exact absurd (this ▸ hi' : PrintedItem lib s (d, i.2)) (hn i.2)
      · exact h4 i hi' hm hc
    cases hkd : d.kind with
    | shows => exact absurd hkd hk
    | flag =>
      by_cases hr : s.raised (memberOf d.name) = true
      · refine found ("# ".toList ++ (memberOf d.name).toList ++ " ".toList) none ?_ (.flag hkd hr) (.flag hkd) ?_
        · rw [optionOfLine_flag hu hs]
          exact .flag ⟨hd, .inl rfl⟩ (by simp [OptDoc.takes, hkd])
        · simp [OptDoc.print, hkd, OptPrint.lines, hr]
      · refine missing ?_ ?_
        · intro arg hi
          cases hi with
          | flag _ h => exact hr h
          | value h _ _ => rw [hkd] at h; cases h
        · simp [OptDoc.print, hkd, OptPrint.lines, hr]
    | value k default =>
      by_cases hg : default.isSome = true ∨ s.given (memberOf d.name) = true
      · obtain ⟨x, hx, hpx⟩ := ha.known d hd k default hkd hg
        have hneeds : (if default.isSome = true then none else some (memberOf d.name)).all s.given = true := by
          rcases hg with hg | hg
          · simp [hg]
          · split_ifs <;> simp [hg]
        by_cases hks : k = .string
        · refine found ("# ".toList ++ (memberOf d.name).toList ++ " = \"".toList ++ x.shown lib ++ "\"".toList) (some (x.shown lib))
            ?_ (.value hkd hg hx) (.value hkd hpx.means) ?_
          · have e : "# ".toList ++ (memberOf d.name).toList ++ " = \"".toList ++ x.shown lib ++ "\"".toList =
                "# ".toList ++ (memberOf d.name).toList ++ " = ".toList ++ ('"' :: (x.shown lib ++ ['"'])) := by simp
            rw [e, optionOfLine_value hu hs, unquoted_quoted]
            exact .joined ⟨hd, .inl rfl⟩ (by simp [OptDoc.takes, hkd])
          · simp only [OptDoc.print, hkd, OptPrint.lines, hneeds, if_true, hx, hks, decide_true]
        · refine found ("# ".toList ++ (memberOf d.name).toList ++ " = ".toList ++ x.shown lib) (some (x.shown lib))
            ?_ (.value hkd hg hx) (.value hkd hpx.means) ?_
          · rw [optionOfLine_value hu hs, unquoted_self (hpx.noQuote hks)]
            exact .joined ⟨hd, .inl rfl⟩ (by simp [OptDoc.takes, hkd])
          · simp [OptDoc.print, hkd, OptPrint.lines, hneeds, hx, hks]
      · refine missing ?_ ?_
        · intro arg hi
          cases hi with
          | flag h _ => rw [hkd] at h; cases h
          | value h h' _ =>
            rw [hkd] at h
            cases h
            exact hg h'
        · rw [not_or] at hg
          simp [OptDoc.print, hkd, OptPrint.lines, hg.1, hg.2]

theorem lastArgument_of_mentioned {lib : OptLib} {items : List (OptDoc × Option (List Char))} (hf : ∀ i ∈ items, FineItem lib i)
    {d : OptDoc} {k : OptKind} {default : Option OptValue} (hk : d.kind = .value k default) (hm : Mentioned items d) :
    ∃ v, LastArgument items d v ∧ (d, some v) ∈ items := by
  induction items with
  | nil =>
    obtain ⟨i, hi, -⟩ := hm
    cases hi
  | cons i items ih =>
    by_cases hlater : Mentioned items d
    · obtain ⟨v, ⟨before, after, e, ha⟩, hv⟩ := ih (fun j hj => hf j (by simp [hj])) hlater
      exact ⟨v, ⟨i :: before, after, by simp [e], ha⟩, by simp [hv]⟩
    · obtain ⟨j, hj, hjd⟩ := hm
      rcases List.mem_cons.mp hj with rfl | hj
      · have := hf j (by simp)
        cases this with
        | flag h => simp only at hjd; rw [hjd, hk] at h; cases h
        | @value d' k' x' v y h _ =>
          simp only at hjd
          subst hjd
          exact ⟨v, ⟨[], items, rfl, fun i hi e => hlater ⟨i, hi, e⟩⟩, by simp⟩
      · exact absurd ⟨j, hj, hjd⟩ hlater

theorem cStrtoul_lt (s : List Char) : cStrtoul s < 2 ^ 32 := by
  unfold cStrtoul
  exact Nat.mod_lt _ (by norm_num)

theorem means_printable {lib : OptLib} {k : OptKind} {v : List Char} {x : OptValue} (h : Means lib k v x)
    (hx : lib.Plain) : Printable lib k x := by
  cases h with
  | int _ h1 h2 => exact .int h1 h2
  | double => exact .double hx
  | string => exact .string
  | true => exact .bool
  | false => exact .bool
  | unsigned => exact .unsigned (cStrtoul_lt _)

theorem default_printable {lib : OptLib} {k : OptKind} {x : OptValue} (h : defaultOk k x = true)
    (hx : lib.Plain) : Printable lib k x := by
  cases k <;> cases x <;> simp only [defaultOk, Bool.false_eq_true, decide_eq_true_eq] at h
  · exact .int h.1 h.2
  · exact .double hx
  · exact .string
  · exact .bool
  · exact .unsigned h

/-- C92: the parameters that a program prints are a command line.  Every line but the last ones is read as an option, and then
the program accepts these options; every parameter has the value which has been printed, and the flags are the same. -/
theorem options_reprinted {c : OptClass} (hc : c ∈ optionClasses) {lib : OptLib} (hplain : lib.Plain) {argv : List (List Char)}
    {s : OptState} (hs : c.parse lib false argv = .ok s) :
    ∃ lines t, c.printed lib s = ok lines ∧ c.parse lib false (lines.map optionOfLine) = .ok t ∧
      (∀ d ∈ c.help, d.takes = true → c.get t (memberOf d.name) = lib.reread <$> c.get s (memberOf d.name)) ∧
      (∀ d ∈ c.help, d.kind = .flag → t.raised (memberOf d.name) = s.raised (memberOf d.name)) := by
  have h := check_classes hc
  have hp := checkPrint_classes hc
  obtain ⟨items, hl, hf⟩ := (options_accepted_iff hc lib argv).mp ⟨s, hs⟩
  have he := getoptEvents_line h hl
  have hfold : s = items.foldl (applyItem lib) c.init := by
    have := process_items (ignore := false) he hf c.init
    have e : c.parse lib false argv = .ok (items.foldl (applyItem lib) c.init) := this
    rw [hs] at e
    simpa using e
  obtain ⟨g1, -, g3, g4⟩ := foldl_state h lib (events_docs he) hf
  rw [← hfold] at g1 g3 g4
  have takes : ∀ {d : OptDoc} {k default}, d.kind = .value k default → d.takes = true := fun hk => by simp [OptDoc.takes, hk]
  have ha : AllPrintable c lib s := by
    constructor
    intro d hd k default hk hg
    have hget := get_eq h hd hk s
    rw [if_pos hg] at hget
    by_cases hm : Mentioned items d
    · obtain ⟨v, hv, -⟩ := lastArgument_of_mentioned hf hk hm
      obtain ⟨y, hy, hval⟩ := g3 d hd k default v hk hv
      rw [hval] at hget
      exact ⟨y, hval, means_printable hy hplain⟩
    · have hval := g4 d hd k default hk hm
      cases default with
      | none =>
        rcases hg with hg | hg
        · cases hg
        · exact absurd ((g1 d hd (takes hk)).mp hg) hm
      | some x =>
        rw [hval] at hget
        exact ⟨x, hval, default_printable ((checkPrint_parts hp).2.2.1 d hd k x hk) hplain⟩
  obtain ⟨lines, items', h1, h2, h3, h4⟩ := printLines_items h hp ha c.prints (checkPrint_parts hp).1
  obtain ⟨t, ht, hset⟩ := options_read hc lib false h2 (fun i hi => (h3 i hi).2.1)
  have hprint := (checkPrint_parts hp).2.1
  refine ⟨lines, t, h1, ht, ?_, ?_⟩
  · intro d hd ht
    cases hk : d.kind with
    | flag => simp [OptDoc.takes, hk] at ht
    | shows => simp [OptDoc.takes, hk] at ht
    | value k default =>
      by_cases hg : default.isSome = true ∨ s.given (memberOf d.name) = true
      · obtain ⟨x, hx, hpx⟩ := ha.known d hd k default hk hg
        have hm := h4 (d, some (x.shown lib)) (.value hk hg hx) (hprint d hd (by simp [hk])) hd
        obtain ⟨v, hv, hmem⟩ := lastArgument_of_mentioned (fun i hi => (h3 i hi).2.1) hk hm
        obtain ⟨y, hy, hget⟩ := hset.set d hd k default v hk hv
        have hv' : v = x.shown lib := by
          have := (h3 _ hmem).2.2
          cases this with
          | @value d' k' default' x' e _ hx' =>
            rw [hx] at hx'
            cases hx'
            rfl
        subst hv'
        rw [hget, get_eq h hd hk s, if_pos hg, hx, hy.unique hpx.means]
        rfl
      · have hm : ¬ Mentioned items' d := by
          rintro ⟨i, hi, rfl⟩
          have := (h3 i hi).2.2
          cases this with
          | flag e _ => simp only at hk; rw [hk] at e; cases e
          | value e hg' _ =>
            simp only at hk hg
            rw [hk] at e
            cases e
            exact hg hg'
        rw [get_eq h hd hk s, if_neg hg]
        cases default with
        | none =>
          rw [hset.absent d hd k hk hm]
          rfl
        | some x => exact absurd (.inl rfl) hg
  · intro d hd hk
    rw [Bool.eq_iff_iff, hset.flags d hd hk]
    constructor
    · rintro ⟨i, hi, rfl⟩
      have := (h3 i hi).2.2
      cases this with
      | flag _ h => exact h
      | value e _ _ => simp only at hk; rw [hk] at e; cases e
    · intro hr
      exact h4 (d, none) (.flag hk hr) (hprint d hd (by simp [hk])) hd

/-- C92: the parameters that a program prints are a command line for the same run: if numbers are written without loss then
every parameter and every flag is as in the run which has printed them. -/
theorem options_replayed {c : OptClass} (hc : c ∈ optionClasses) {lib : OptLib} (hplain : lib.Plain) {argv : List (List Char)}
    {s : OptState} (hs : c.parse lib false argv = .ok s)
    (hexact : ∀ d ∈ c.help, ∀ r, c.get s (memberOf d.name) = ok (.double r) → lib.atof (lib.showDouble r) = r) :
    ∃ lines t, c.printed lib s = ok lines ∧ c.parse lib false (lines.map optionOfLine) = .ok t ∧
      (∀ d ∈ c.help, d.takes = true → c.get t (memberOf d.name) = c.get s (memberOf d.name)) ∧
      (∀ d ∈ c.help, d.kind = .flag → t.raised (memberOf d.name) = s.raised (memberOf d.name)) := by
  obtain ⟨lines, t, h1, h2, h3, h4⟩ := options_reprinted hc hplain hs
  refine ⟨lines, t, h1, h2, fun d hd ht => ?_, h4⟩
  rw [h3 d hd ht]
  cases hg : c.get s (memberOf d.name) with
  | ok x =>
    cases x with
    | double r =>
      have := hexact d hd r hg
      change ok (OptValue.double (lib.atof (lib.showDouble r))) = _
      rw [this]
    | _ => rfl
  | throw _ => rfl
  | ub => rfl

/-- The option `--target` of `hnco`. -/
def targetDoc : OptDoc := ⟨none, "target".toList, .value .double none⟩

set_option maxRecDepth 100000 in
theorem targetDoc_mem : targetDoc ∈ hncoClass.help := by decide +kernel

/-- C92 (negative part): numbers are printed with six digits, so that a target which needs more of them is another one in the
run with the printed parameters. -/
theorem options_replay_rounds {lib : OptLib} (hplain : lib.Plain) {v : List Char}
    (hv : lib.atof (lib.showDouble (lib.atof v)) ≠ lib.atof v) :
    ∃ s lines t, hncoClass.parse lib false ["--target".toList, v] = .ok s ∧ hncoClass.printed lib s = ok lines ∧
      hncoClass.parse lib false (lines.map optionOfLine) = .ok t ∧ hncoClass.get s "target" = ok (.double (lib.atof v)) ∧
      hncoClass.get t "target" = ok (.double (lib.atof (lib.showDouble (lib.atof v)))) ∧
      hncoClass.get t "target" ≠ hncoClass.get s "target" := by
  have hl : CommandLine hncoClass.help (["--target".toList, v] ++ []) [(targetDoc, some v)] :=
    .option (.separate (p := "target".toList) ⟨targetDoc_mem, .inl rfl⟩ rfl) .done
  have hc : hncoClass ∈ optionClasses := by simp [optionClasses]
  obtain ⟨s, hs, hset⟩ := options_read hc lib false hl (by
    intro i hi
    rw [List.mem_singleton] at hi
    subst hi
    exact .value (k := .double) (default := none) rfl .double)
  obtain ⟨x, hx, hg⟩ := hset.set targetDoc targetDoc_mem .double none v rfl ⟨[], [], rfl, by simp⟩
  cases hx
  obtain ⟨lines, t, h1, h2, h3, -⟩ := options_reprinted hc hplain hs
  have ht := h3 targetDoc targetDoc_mem rfl
  have hname : memberOf targetDoc.name = "target" := by decide +kernel
  rw [hname] at hg ht
  rw [hg] at ht
  refine ⟨s, lines, t, hs, h1, h2, hg, ht, ?_⟩
  rw [ht, hg]
  intro e
  have e' : lib.atof (lib.showDouble (lib.atof v)) = lib.atof v := by
    have := Outcome.ok.inj e
    exact OptValue.double.inj this
  exact hv e'

/-- Numbers without decimals: what is printed is rounded. -/
def roundedLib : OptLib := ⟨fun s => (atoiValue s : Rat) / 2, fun r => showInt r.floor⟩

example : roundedLib.Plain ∧ roundedLib.atof (roundedLib.showDouble (roundedLib.atof ['3'])) ≠ roundedLib.atof ['3'] := by
  refine ⟨fun r => showInt_noQuote _, ?_⟩
  simp only [roundedLib, atoiValue_showInt]
  decide +kernel

/-- Numbers written as fractions. -/
def fractionLib : OptLib where
  atof s := (atoiValue (s.takeWhile (fun c => decide (c ≠ '/'))) : Rat) / atoiValue ((s.dropWhile (fun c => decide (c ≠ '/'))).drop 1)
  showDouble r := showInt r.num ++ '/' :: showNat r.den

theorem fractionLib_plain : fractionLib.Plain := by
  intro r e
  simp only [fractionLib] at e
  have hne := showInt_noQuote r.num
  cases hl : showInt r.num with
  | nil => rw [hl] at e; revert e; simp
  | cons a t =>
    rw [hl] at e hne
    simp only [List.cons_append, List.head?_cons] at e hne
    exact hne e

theorem fractionLib_exact (r : Rat) : fractionLib.atof (fractionLib.showDouble r) = r := by
  have hslash : ∀ c ∈ showInt r.num, decide (c ≠ '/') = true := by
    intro c hc
    rw [decide_eq_true_eq]
    rintro rfl
    unfold showInt at hc
    split_ifs at hc
    · rcases List.mem_cons.mp hc with hc | hc
      · revert hc; decide
      · have := showNat_digits _ _ hc
        revert this; decide
    · have := showNat_digits _ _ hc
      revert this; decide
  simp only [fractionLib]
  rw [List.takeWhile_append_of_pos hslash, List.dropWhile_append_of_pos hslash]
  simp [atoiValue_showInt, atoiValue_showNat, Rat.num_div_den]

set_option maxRecDepth 100000 in
example : (match hncoClass.parse fractionLib false exampleWords with
    | .ok _ => true
    | .error _ => false) = true := by decide +kernel

example : optionOfLine "# fn_name = \"first one\"".toList = "--fn-name=first one".toList ∧
    optionOfLine "# bv_size = 20".toList = "--bv-size=20".toList ∧ optionOfLine "# load_solution ".toList = "--load-solution".toList := by
  decide +kernel

end Hnco
