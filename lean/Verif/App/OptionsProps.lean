import Verif.App.OptionsEnd

/-!
# Properties of the options of the programs
-/

namespace Hnco

open Outcome

/-- The classes of options of the programs `hnco`, `hnco-mo`, `ffgen` and `mapgen`. -/
def optionClasses : List OptClass := [hncoClass, hncoMoClass, ffgenClass, mapgenClass]

theorem check_classes {c : OptClass} (hc : c ∈ optionClasses) : c.check = true := by
  simp only [optionClasses, List.mem_cons, List.not_mem_nil, or_false] at hc
  rcases hc with rfl | rfl | rfl | rfl
  · exact check_hnco
  · exact check_hncoMo
  · exact check_ffgen
  · exact check_mapgen

theorem events_docs {c : OptClass} {items : List (OptDoc × Option (List Char))} {es : List OptEvent}
    (he : List.Forall₂ (EventOf c) items es) : ∀ i ∈ items, i.1 ∈ c.help := by
  induction he with
  | nil => simp
  | cons h _ ih =>
    intro i hi
    rcases List.mem_cons.mp hi with rfl | hi
    · exact h.1
    · exact ih i hi

/-! ## Command lines which are read -/

/-- C90: a command line written as in the help pages, with options whose values have a meaning, is read: each parameter gets the
last value given for it, or else the default value of the help page, or else its getter throws, and the flags are those given.
This holds for any order, any spelling and any number of repetitions. -/
theorem options_read {c : OptClass} (hc : c ∈ optionClasses) (lib : OptLib) (ignore : Bool) {argv : List (List Char)}
    {items : List (OptDoc × Option (List Char))} (hl : CommandLine c.help argv items) (hf : ∀ i ∈ items, FineItem lib i) :
    ∃ s, c.parse lib ignore argv = .ok s ∧ Settings c lib items s := by
  have h := check_classes hc
  have he := getoptEvents_line h hl
  refine ⟨_, process_items he hf _, foldl_settings h lib ?_ hf⟩
  exact events_docs he

/-- The options of an example. -/
def exampleWords : List (List Char) :=
  ["-A".toList, "300".toList, "--bv-size=20".toList, "word".toList, "--cache".toList, "-A310".toList, "--popul".toList, "5".toList,
    "--hea-bound-moment=false".toList, "--".toList, "--unknown".toList]

def exampleOptLib : OptLib := ⟨fun _ => 0, fun _ => ['0']⟩

set_option maxRecDepth 100000 in
example : CommandLine hncoClass.help exampleWords
    [(⟨some 'A', "algorithm".toList, .value .int (some (.int 100))⟩, some "300".toList),
      (⟨some 's', "bv-size".toList, .value .int (some (.int 100))⟩, some "20".toList),
      (⟨none, "cache".toList, .flag⟩, none),
      (⟨some 'A', "algorithm".toList, .value .int (some (.int 100))⟩, some "310".toList),
      (⟨some 'x', "population-size".toList, .value .int (some (.int 10))⟩, some "5".toList),
      (⟨none, "hea-bound-moment".toList, .value .bool (some (.bool true))⟩, some "false".toList)] := by
  have words : exampleWords = ["-A".toList, "300".toList] ++ (["--bv-size=20".toList] ++ ("word".toList :: (["--cache".toList] ++
    (["-A310".toList] ++ (["--popul".toList, "5".toList] ++ (["--hea-bound-moment=false".toList] ++
    (["--".toList] ++ ["--unknown".toList]))))))) := rfl
  rw [words]
  refine .option (.letterSeparate (c := 'A') (by decide +kernel) rfl) ?_
  refine .option (.joined (p := "bv-size".toList) (v := "20".toList) ⟨by decide +kernel, Or.inl rfl⟩ rfl) ?_
  refine .word (Or.inl (by decide)) ?_
  refine .option (.flag (p := "cache".toList) ⟨by decide +kernel, Or.inl rfl⟩ rfl) ?_
  refine .option (.letterJoined (c := 'A') (v := "310".toList) (by decide +kernel) rfl (by decide)) ?_
  refine .option (.separate (p := "popul".toList) (v := "5".toList) ⟨by decide +kernel, Or.inr ⟨by decide, by decide, ?_⟩⟩ rfl) ?_
  · decide +kernel
  refine .option (.joined (p := "hea-bound-moment".toList) (v := "false".toList) ⟨by decide +kernel, Or.inl rfl⟩ rfl) ?_
  exact .stop _

/-- The parameters of an example which are shown: the algorithm, the size, the size of populations, the budget, the seed and a
Boolean, and a flag. -/
def exampleSettings (s : OptState) : List (Outcome OptValue) × Bool :=
  (["algorithm", "bv_size", "population_size", "budget", "seed", "hea_bound_moment"].map (hncoClass.get s), s.raised "cache")

set_option maxRecDepth 100000 in
example : (hncoClass.parse exampleOptLib false exampleWords).map exampleSettings =
    .ok ([ok (.int 310), ok (.int 20), ok (.int 5), ok (.int 10000), Outcome.throw .runtimeError, ok (.bool false)], true) := by
  decide +kernel

/-- C91: without `ignore_bad_options`, a program goes on after reading its options if and only if its command line is written as
in the help pages, with values which have a meaning, and without asking for a page. -/
theorem options_accepted_iff {c : OptClass} (hc : c ∈ optionClasses) (lib : OptLib) (argv : List (List Char)) :
    (∃ s, c.parse lib false argv = .ok s) ↔ ∃ items, CommandLine c.help argv items ∧ ∀ i ∈ items, FineItem lib i := by
  have h := check_classes hc
  constructor
  · rintro ⟨s, hs⟩
    obtain ⟨pre, post, items, h1, h2, h3, -, h5, -⟩ :=
      getoptEvents_split h argv.length argv le_rfl _ [] (List.append_nil _).symm (process_good hs)
    rw [h5 rfl, List.append_nil] at h1
    exact ⟨items, h1 ▸ h2, process_fine h3 hs⟩
  · rintro ⟨items, hl, hf⟩
    obtain ⟨s, hs, -⟩ := options_read hc lib false hl hf
    exact ⟨s, hs⟩

/-- C91: a program which ends while reading its options does it for a reason: it has read some words written as in the help
pages, and then it ends with status 1 because of a word which is not an option or of a value which is not a Boolean, or with
status 0 after the page which is asked for.  Its behavior is undefined only if a value is too large for its type. -/
theorem options_refused {c : OptClass} (hc : c ∈ optionClasses) (lib : OptLib) {argv : List (List Char)} {x : OptExit}
    (hx : c.parse lib false argv = .error x) :
    ∃ pre post items, argv = pre ++ post ∧ CommandLine c.help pre items ∧ (∀ i ∈ items, FineItem lib i) ∧ Problem c.help post x := by
  have h := check_classes hc
  obtain ⟨es1, e, es2, t, he, h1, h2⟩ := process_error hx
  obtain ⟨pre, post, items, h3, h4, h5, h6, -, h7⟩ :=
    getoptEvents_split h argv.length argv le_rfl es1 (e :: es2) he (process_good h1)
  obtain ⟨w, rest, rfl, hw1, hw2, hw3⟩ := h7 (by simp)
  exact ⟨pre, w :: rest, items, h3, h4, process_fine h5 h1, step_problem h hw1 hw2 hw3 h6 h2⟩

set_option maxRecDepth 100000 in
example : (hncoClass.parse exampleOptLib false ["--budget=10".toList, "--versio".toList]).map exampleSettings =
    .error (.exit 0 (some "version")) := by
  decide +kernel

set_option maxRecDepth 100000 in
example : (hncoClass.parse exampleOptLib false ["--cache".toList, "--pv-log=3".toList]).map exampleSettings =
    .error (.exit 1 none) := by
  decide +kernel

/-! ## Values -/

/-- The number read in a text which starts with digits. -/
theorem intRead_digits {digits rest : List Char} (hd : digits ≠ []) (h1 : ∀ c ∈ digits, c.isDigit = true)
    (h2 : ∀ c, rest.head? = some c → c.isDigit = false) : IntRead (digits ++ rest) (digitsValue digits) :=
  Or.inl ⟨[], [], digits, rest, rfl, by simp, hd, h1, h2, Or.inl ⟨Or.inl rfl, rfl⟩⟩

/-- The option `--budget` of `hnco`. -/
def budgetDoc : OptDoc := ⟨some 'b', "budget".toList, .value .int (some (.int 10000))⟩

set_option maxRecDepth 100000 in
theorem budgetDoc_mem : budgetDoc ∈ hncoClass.help := by decide +kernel

theorem read_budget {v : List Char} {n : Int} (hr : IntRead v n) (h1 : -2 ^ 31 ≤ n) (h2 : n < 2 ^ 31) (lib : OptLib) (ignore : Bool) :
    ∃ s, hncoClass.parse lib ignore ["--budget".toList, v] = .ok s ∧ hncoClass.get s "budget" = ok (.int n) := by
  have hm : Means lib .int v (.int n) := .int hr h1 h2
  have hl : CommandLine hncoClass.help ["--budget".toList, v] [(budgetDoc, some v)] :=
    .option (words := ["--budget".toList, v]) (rest := [])
      (.separate (p := "budget".toList) ⟨budgetDoc_mem, Or.inl rfl⟩ rfl) .done
  obtain ⟨s, hs, hset⟩ := options_read (c := hncoClass) (by simp [optionClasses]) lib ignore hl (by
    intro i hi
    rw [List.mem_singleton] at hi
    subst hi
    exact .value (k := .int) (default := some (.int 10000)) rfl hm)
  obtain ⟨x, hx, hg⟩ := hset.set budgetDoc budgetDoc_mem .int (some (.int 10000)) v rfl ⟨[], [], rfl, by simp⟩
  refine ⟨s, hs, ?_⟩
  have : x = .int n := by
    have e1 := (convert_iff lib .int v x).mpr hx
    have e2 := (convert_iff lib .int v (.int n)).mpr hm
    rw [e1] at e2
    simpa using e2
  rw [← this, ← hg]
  rfl

/-- C90 (negative part): a number is read up to the first character which is not a digit, and what follows is ignored: a budget
of `1e6` is a budget of 1 evaluation. -/
theorem options_ignore_exponent {n : Nat} (hn : n < 2 ^ 31) {rest : List Char}
    (hr : ∀ c, rest.head? = some c → c.isDigit = false) (lib : OptLib) :
    ∃ s, hncoClass.parse lib false ["--budget".toList, showNat n ++ rest] = .ok s ∧
      hncoClass.get s "budget" = ok (.int n) := by
  have hread := intRead_digits (showNat_ne_nil n) (showNat_digits n) hr
  rw [showNat_value] at hread
  exact read_budget hread (by omega) (by omega) lib false

example : ∃ s, hncoClass.parse exampleOptLib false ["--budget".toList, showNat 1 ++ "e6".toList] = .ok s ∧
    hncoClass.get s "budget" = ok (.int 1) :=
  options_ignore_exponent (n := 1) (by decide) (by decide) exampleOptLib

/-- C90 (negative part): a text which does not start with a number is read as 0, and a budget of 0 is no budget at all. -/
theorem options_read_words_as_zero {c : Char} {rest : List Char} (h1 : isSpace c = false) (h2 : c.isDigit = false) (h3 : c ≠ '-')
    (h4 : c ≠ '+') (lib : OptLib) :
    ∃ s, hncoClass.parse lib false ["--budget".toList, c :: rest] = .ok s ∧ hncoClass.get s "budget" = ok (.int 0) := by
  refine read_budget ((intRead_iff _ _).mpr ?_) (by decide) (by decide) lib false
  simp [atoiValue, skipSpace, h1, extractSign, h3, h4, h2, digitsValue]

example : ∃ s, hncoClass.parse exampleOptLib false ["--budget".toList, "all".toList] = .ok s ∧ hncoClass.get s "budget" = ok (.int 0) :=
  options_read_words_as_zero (c := 'a') (rest := "ll".toList) (by decide) (by decide) (by decide) (by decide) exampleOptLib

/-! ## Seeds -/

theorem hexValue_digit {c : Char} (h : c.isDigit = true) : hexValue c = c.toNat - 48 ∧ hexValue c < 10 := by
  have h1 : hexValue c = c.toNat - 48 := by simp [hexValue, h]
  refine ⟨h1, ?_⟩
  rw [h1]
  have h2 := (Char.isDigit_iff_toNat (c := c)).mp h
  have h3 : '0'.toNat = 48 := rfl
  have h4 : '9'.toNat = 57 := rfl
  omega

theorem baseValue_digits {l : List Char} (h : ∀ c ∈ l, c.isDigit = true) : baseValue 10 l = digitsValue l := by
  unfold baseValue digitsValue
  have h1 : l.takeWhile (fun c => decide (hexValue c < 10)) = l := by
    have := List.takeWhile_append_of_pos (p := fun c => decide (hexValue c < 10)) (l₁ := l) (l₂ := []) (by
      intro c hc
      simpa using (hexValue_digit (h c hc)).2)
    simpa using this
  rw [h1]
  have : ∀ a, l.foldl (fun a c => 10 * a + hexValue c) a = l.foldl (fun a c => 10 * a + (c.toNat - 48)) a := by
    clear h1
    induction l with
    | nil => intro a; rfl
    | cons c t ih =>
      intro a
      rw [List.foldl_cons, List.foldl_cons, (hexValue_digit (h c (by simp))).1]
      exact ih (fun d hd => h d (by simp [hd])) _
  exact this 0

theorem showNat_head {n : Nat} (h : 0 < n) : ∃ c t, showNat n = c :: t ∧ c ≠ '0' := by
  induction n using Nat.strongRecOn with
  | _ n ih =>
    rw [showNat]
    split
    · refine ⟨digitChar n, [], rfl, ?_⟩
      intro e
      have h1 := digitChar_val (n := n) (by omega)
      rw [e] at h1
      have : ('0'.toNat - 48 : Nat) = 0 := by decide
      omega
    · obtain ⟨c, t, e, hc⟩ := ih (n / 10) (by omega) (by omega)
      exact ⟨c, t ++ [digitChar (n % 10)], by rw [e]; rfl, hc⟩

theorem prefixedValue_showNat (n : Nat) : prefixedValue (showNat n) = n := by
  rcases Nat.eq_zero_or_pos n with rfl | hn
  · rw [showNat]
    decide
  · obtain ⟨c, t, e, hc⟩ := showNat_head hn
    have h1 : prefixedValue (showNat n) = baseValue 10 (showNat n) := by
      rw [e, prefixedValue]
      rintro x s hx
      exact hc (List.cons.inj hx).1
    rw [h1, baseValue_digits (showNat_digits n), showNat_value]

theorem scan_showNat (n : Nat) : extractSign (skipSpace (showNat n)) = (false, showNat n) := by
  have hne := showNat_ne_nil n
  have hd := showNat_digits n
  cases hl : showNat n with
  | nil => exact absurd hl hne
  | cons c t =>
    have hc := hd c (by rw [hl]; simp)
    simp [skipSpace, isDigit_not_isSpace hc, extractSign, digit_not_sign hc]

/-- A seed written in decimal notation. -/
theorem cStrtoul_showNat {n : Nat} (h : n < 2 ^ 64) : cStrtoul (showNat n) = n % 2 ^ 32 := by
  simp only [cStrtoul, scan_showNat, prefixedValue_showNat]
  rw [if_neg (by omega)]
  rfl

/-- The option `--seed` of `hnco`. -/
def seedDoc : OptDoc := ⟨none, "seed".toList, .value .unsigned none⟩

set_option maxRecDepth 100000 in
theorem seedDoc_mem : seedDoc ∈ hncoClass.help := by decide +kernel

theorem read_seed (v : List Char) (lib : OptLib) (ignore : Bool) :
    ∃ s, hncoClass.parse lib ignore ["--seed".toList, v] = .ok s ∧ hncoClass.get s "seed" = ok (.unsigned (cStrtoul v)) := by
  have hl : CommandLine hncoClass.help ["--seed".toList, v] [(seedDoc, some v)] :=
    .option (words := ["--seed".toList, v]) (rest := []) (.separate (p := "seed".toList) ⟨seedDoc_mem, Or.inl rfl⟩ rfl) .done
  obtain ⟨s, hs, hset⟩ := options_read (c := hncoClass) (by simp [optionClasses]) lib ignore hl (by
    intro i hi
    rw [List.mem_singleton] at hi
    subst hi
    exact .value (k := .unsigned) (default := none) rfl .unsigned)
  obtain ⟨x, hx, hg⟩ := hset.set seedDoc seedDoc_mem .unsigned none v rfl ⟨[], [], rfl, by simp⟩
  refine ⟨s, hs, ?_⟩
  cases hx
  rw [← hg]
  rfl

/-- C90: a seed in decimal notation which fits in 32 bits is the seed. -/
theorem options_seed {n : Nat} (hn : n < 2 ^ 32) (lib : OptLib) :
    ∃ s, hncoClass.parse lib false ["--seed".toList, showNat n] = .ok s ∧ hncoClass.get s "seed" = ok (.unsigned n) := by
  obtain ⟨s, h1, h2⟩ := read_seed (showNat n) lib false
  rw [cStrtoul_showNat (by omega), Nat.mod_eq_of_lt hn] at h2
  exact ⟨s, h1, h2⟩

example : ∃ s, hncoClass.parse exampleOptLib false ["--seed".toList, showNat 4000000000] = .ok s ∧
    hncoClass.get s "seed" = ok (.unsigned 4000000000) :=
  options_seed (by decide) exampleOptLib

/-- C90 (negative part): seeds which differ by a multiple of 2^32 are the same seed. -/
theorem options_same_seed {m n : Nat} (hm : m < 2 ^ 64) (hn : n < 2 ^ 64) (h : m % 2 ^ 32 = n % 2 ^ 32) (lib : OptLib) :
    ∃ s t, hncoClass.parse lib false ["--seed".toList, showNat m] = .ok s ∧
      hncoClass.parse lib false ["--seed".toList, showNat n] = .ok t ∧ hncoClass.get s "seed" = hncoClass.get t "seed" := by
  obtain ⟨s, h1, h2⟩ := read_seed (showNat m) lib false
  obtain ⟨t, h3, h4⟩ := read_seed (showNat n) lib false
  refine ⟨s, t, h1, h3, ?_⟩
  rw [h2, h4, cStrtoul_showNat hm, cStrtoul_showNat hn, h]

example : (1 : Nat) < 2 ^ 64 ∧ 1 + 2 ^ 32 < 2 ^ 64 ∧ 1 % 2 ^ 32 = (1 + 2 ^ 32) % 2 ^ 32 := by decide

/-- C90 (negative part): a seed which starts with a zero is read in base 8: the seed `0` followed by two digits less than 8 is not
the number in decimal notation unless the first digit is 0. -/
theorem options_octal_seed {a b : Nat} (ha : a < 8) (hb : b < 8) (lib : OptLib) :
    ∃ s, hncoClass.parse lib false ["--seed".toList, ['0', digitChar a, digitChar b]] = .ok s ∧
      hncoClass.get s "seed" = ok (.unsigned (8 * a + b)) := by
  obtain ⟨s, h1, h2⟩ := read_seed ['0', digitChar a, digitChar b] lib false
  refine ⟨s, h1, ?_⟩
  rw [h2]
  have : ∀ a < 8, ∀ b < 8, cStrtoul ['0', digitChar a, digitChar b] = 8 * a + b := by decide +kernel
  rw [this a ha b hb]

example : ∃ s, hncoClass.parse exampleOptLib false ["--seed".toList, "012".toList] = .ok s ∧
    hncoClass.get s "seed" = ok (.unsigned 10) :=
  options_octal_seed (a := 1) (b := 2) (by decide) (by decide) exampleOptLib

end Hnco
