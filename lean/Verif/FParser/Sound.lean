import Verif.FParser.Grammar
import Mathlib.Tactic.IntervalCases
import Mathlib.Tactic.Ring

/-!
# Lemmas: what the parser accepts is derived by the grammar
-/

namespace Hnco.FParser

theorem isSp_iff (c : Char) : isSp c = true ↔ c ∈ [' ', '\t', '\n', '\r', '\x0b'] := by
  simp [isSp]; tauto

theorem spaces_iff (w : List Char) : Spaces w ↔ ∀ c ∈ w, isSp c = true := by
  simp only [Spaces, isSp_iff]

theorem takeWhile_forall {α : Type} (p : α → Bool) (l : List α) : ∀ a ∈ l.takeWhile p, p a = true := by
  induction l with
  | nil => simp
  | cons b l ih =>
    rw [List.takeWhile_cons]
    split
    · next h =>
      intro a ha
      rcases List.mem_cons.1 ha with rfl | ha
      exacts [h, ih a ha]
    · simp

theorem skipSp_split (s : List Char) : ∃ w, Spaces w ∧ s = w ++ skipSp s :=
  ⟨s.takeWhile isSp, (spaces_iff _).2 (takeWhile_forall _ _), (List.takeWhile_append_dropWhile).symm⟩

theorem readIdentifier_split {s : List Char} (h : readIdentifier s ≠ []) :
    Identifier (readIdentifier s) ∧ s = readIdentifier s ++ afterIdentifier s := by
  cases s with
  | nil => simp [readIdentifier] at h
  | cons c r =>
    by_cases hc : isHead c = true
    · have e : readIdentifier (c :: r) = c :: r.takeWhile isWord := by simp [readIdentifier, hc]
      refine ⟨⟨c, r.takeWhile isWord, e, by simpa [isHead] using hc, ?_⟩, ?_⟩
      · intro d hd
        have := takeWhile_forall isWord r d hd
        simpa [isWord, or_assoc] using this
      · have : afterIdentifier (c :: r) = r.dropWhile isWord := by
          simp only [afterIdentifier, e, List.length_cons, List.drop_succ_cons]
          conv => lhs; arg 2; rw [← List.takeWhile_append_dropWhile (p := isWord) (l := r)]
          exact List.drop_left
        rw [e, this, List.cons_append, List.takeWhile_append_dropWhile]
    · simp [readIdentifier, hc] at h

/-! ## Names and digits -/

theorem builtin_mem {x : List Char} {b : Builtin} (h : builtin x = some b) : (x, b) ∈ builtins := by
  have h' : builtins.lookup x = some b := h
  clear h
  revert h'
  generalize builtins = l
  intro h
  induction l with
  | nil => simp at h
  | cons p l ih =>
    obtain ⟨y, c⟩ := p
    rw [List.lookup_cons] at h
    split at h
    · next hxy =>
      have : x = y := by simpa using hxy
      simp only [Option.some.injEq] at h
      subst h this
      simp
    · exact List.mem_cons_of_mem _ (ih h)

theorem builtin_cond {x : List Char} (h : builtin x = some .cond) : x = ['i', 'f'] := by
  have := builtin_mem h
  simpa [builtins] using this

theorem params_cases (f : Fn) : f.params = 1 ∨ f.params = 2 := by cases f <;> simp [Fn.params]

theorem params_iff (f : Fn) : f.params = 2 ↔ f.Binary := by cases f <;> simp [Fn.params, Fn.Binary]

/-- The name of what a reserved name means. -/
def Builtin.text : Builtin → List Char
  | .cond => "if".toList
  | .fn f => f.name.toList

theorem builtins_names : ∀ p ∈ builtins, p.1 = p.2.text := by decide +kernel

theorem builtin_name (f : Fn) : builtin f.name.toList = some (.fn f) := by cases f <;> decide +kernel

theorem builtin_fn_iff {x : List Char} {f : Fn} : builtin x = some (.fn f) ↔ x = f.name.toList := by
  constructor
  · intro h
    exact builtins_names _ (builtin_mem h)
  · rintro rfl
    exact builtin_name f

theorem builtin_none_iff {x : List Char} : builtin x = none ↔ ¬ Reserved x := by
  constructor
  · rintro h (rfl | ⟨f, rfl⟩)
    · exact absurd h (by decide +kernel)
    · rw [builtin_name] at h; simp at h
  · intro h
    cases hb : builtin x with
    | none => rfl
    | some b =>
      cases b with
      | cond => exact absurd (.inl (builtins_names _ (builtin_mem hb))) h
      | fn f => exact absurd (.inr ⟨f, builtins_names _ (builtin_mem hb)⟩) h

theorem isXdigit_iff (c : Char) : isXdigit c = true ↔ c.isDigit ∨ ('a' ≤ c ∧ c ≤ 'f') ∨ ('A' ≤ c ∧ c ≤ 'F') := by
  simp [isXdigit]; tauto

theorem isXdigit_mem {c : Char} (h : isXdigit c = true) : c ∈ "0123456789abcdefABCDEF".toList := by
  rw [isXdigit_iff] at h
  have hc : Char.ofNat c.toNat = c := Char.ofNat_toNat c
  rw [← hc]
  have bounds : (48 ≤ c.toNat ∧ c.toNat ≤ 57) ∨ (97 ≤ c.toNat ∧ c.toNat ≤ 102) ∨ (65 ≤ c.toNat ∧ c.toNat ≤ 70) := by
    rcases h with h | ⟨h1, h2⟩ | ⟨h1, h2⟩
    · rw [Char.isDigit] at h
      simp only [Bool.and_eq_true, decide_eq_true_eq] at h
      exact .inl ⟨h.1, h.2⟩
    · exact .inr (.inl ⟨h1, h2⟩)
    · exact .inr (.inr ⟨h1, h2⟩)
  revert bounds
  generalize c.toNat = n
  intro bounds
  rcases bounds with ⟨h1, h2⟩ | ⟨h1, h2⟩ | ⟨h1, h2⟩ <;> interval_cases n <;> decide

theorem xdigit_value {c : Char} (h : isXdigit c = true) : xdigit c = digitValue c := by
  have : ∀ d ∈ "0123456789abcdefABCDEF".toList, xdigit d = digitValue d := by decide +kernel
  exact this c (isXdigit_mem h)

theorem numeral_value (base : Nat) {ds : List Char} (h : ∀ c ∈ ds, isXdigit c = true) : numeral base ds = placeValue base ds := by
  have key : ∀ (l : List Char) (a : Nat), (∀ c ∈ l, isXdigit c = true) →
      l.foldl (fun a c => base * a + xdigit c) a = a * base ^ l.length + placeValue base l := by
    intro l
    induction l with
    | nil => intro a _; simp [placeValue]
    | cons c l ih =>
      intro a hl
      rw [List.foldl_cons, ih _ (fun d hd => hl d (List.mem_cons_of_mem _ hd)), xdigit_value (hl c (by simp)), placeValue,
        List.length_cons, pow_succ]
      ring
  simpa [numeral] using key ds 0 h

theorem digits_xdigits {ds : List Char} (h : ∀ c ∈ ds, c.isDigit = true) : ∀ c ∈ ds, isXdigit c = true := by
  intro c hc
  simp [isXdigit, h c hc]

/-! ## Literals -/

theorem readMantissa_split {isDig : Char → Bool} {P : List Char → Prop} {base : Nat} {s r : List Char} {m : ℚ}
    (hP : ∀ ds, (∀ c ∈ ds, isDig c = true) → P ds) (hX : ∀ c, isDig c = true → isXdigit c = true) (h : readMantissa isDig base s = some (m, r)) :
    ∃ t, s = t ++ r ∧ Mantissa P base t m := by
  have hs : s = s.takeWhile isDig ++ s.dropWhile isDig := (List.takeWhile_append_dropWhile).symm
  have ha := hP _ (takeWhile_forall isDig s)
  unfold readMantissa at h
  split at h
  · next r' hr =>
    simp only at h
    split at h
    · simp at h
    · next hne =>
      simp only [Option.some.injEq, Prod.mk.injEq] at h
      obtain ⟨rfl, rfl⟩ := h
      rw [numeral_value base (by
        intro c hc
        rcases List.mem_append.1 hc with hc | hc
        · exact hX _ (takeWhile_forall isDig s c hc)
        · exact hX _ (takeWhile_forall isDig r' c hc))]
      refine ⟨s.takeWhile isDig ++ '.' :: r'.takeWhile isDig, ?_, .point _ _ ha (hP _ (takeWhile_forall isDig r')) ?_⟩
      · rw [List.append_assoc, List.cons_append, List.takeWhile_append_dropWhile, ← hr]; exact hs
      · tauto
  · next r' hr =>
    simp only at h
    split at h
    · simp at h
    · next hne =>
      simp only [Option.some.injEq, Prod.mk.injEq] at h
      obtain ⟨rfl, rfl⟩ := h
      rw [numeral_value base (fun c hc => hX _ (takeWhile_forall isDig s c hc))]
      exact ⟨_, hs, .whole _ ha hne⟩

theorem extractSign_cases (r : List Char) :
    (∃ r', r = '-' :: r' ∧ extractSign r = (true, r')) ∨ (∃ r', r = '+' :: r' ∧ extractSign r = (false, r')) ∨
      (extractSign r = (false, r)) := by
  cases r with
  | nil => right; right; rfl
  | cons c t =>
    by_cases h1 : c = '-'
    · left; exact ⟨t, by rw [h1], by simp [extractSign, h1]⟩
    · by_cases h2 : c = '+'
      · right; left; exact ⟨t, by rw [h2], by simp [extractSign, h2]⟩
      · right; right; simp [extractSign, h1, h2]

/-- What `readSigned` reads. -/
theorem readSigned_split {s r : List Char} {k : Int} (h : readSigned s = some (k, r)) :
    ∃ u, s = u ++ r ∧ ∀ (marks : List Char) (c : Char), c ∈ marks → Exponent marks (c :: u) k := by
  unfold readSigned at h
  simp only at h
  have hd : Digits ((extractSign s).2.takeWhile Char.isDigit) := takeWhile_forall _ _
  rcases extractSign_cases s with ⟨r', rfl, he⟩ | ⟨r', rfl, he⟩ | he <;> rw [he] at h hd <;> simp only at h hd <;> split at h
  · simp at h
  · next hne =>
    simp only [if_true, Option.some.injEq, Prod.mk.injEq] at h
    obtain ⟨rfl, rfl⟩ := h
    rw [numeral_value 10 (digits_xdigits hd)]
    exact ⟨'-' :: r'.takeWhile Char.isDigit, by simp, fun marks c hc => .minus c _ hc hd hne⟩
  · simp at h
  · next hne =>
    simp only [Bool.false_eq_true, if_false, Option.some.injEq, Prod.mk.injEq] at h
    obtain ⟨rfl, rfl⟩ := h
    rw [numeral_value 10 (digits_xdigits hd)]
    exact ⟨'+' :: r'.takeWhile Char.isDigit, by simp, fun marks c hc => .plus c _ hc hd hne⟩
  · simp at h
  · next hne =>
    simp only [Bool.false_eq_true, if_false, Option.some.injEq, Prod.mk.injEq] at h
    obtain ⟨rfl, rfl⟩ := h
    rw [numeral_value 10 (digits_xdigits hd)]
    exact ⟨s.takeWhile Char.isDigit, by simp, fun marks c hc => .plain c _ hc hd hne⟩

theorem readExponent_split {mark : Char → Bool} {marks : List Char} (hmark : ∀ c, mark c = true → c ∈ marks) (s : List Char) :
    ∃ u, s = u ++ (readExponent mark s).2 ∧ Exponent marks u (readExponent mark s).1 := by
  cases s with
  | nil => exact ⟨[], rfl, .none⟩
  | cons c r =>
    unfold readExponent
    simp only
    split
    · next hc =>
      split
      · next p hp =>
        obtain ⟨u, hu, hx⟩ := readSigned_split (k := p.1) (r := p.2) hp
        exact ⟨c :: u, by rw [List.cons_append, ← hu], hx marks c (hmark c hc)⟩
      · exact ⟨[], rfl, .none⟩
    · exact ⟨[], rfl, .none⟩

theorem strtodDecimal_split {s r : List Char} {q : ℚ} (h : strtodDecimal s = some (q, r)) :
    ∃ t, s = t ++ r ∧ Literal t q := by
  unfold strtodDecimal at h
  split at h
  · simp at h
  · next m r' hm =>
    obtain ⟨t, rfl, ht⟩ := readMantissa_split (P := Digits) (fun ds h => h) (by intro c hc; simp [isXdigit, hc]) hm
    obtain ⟨u, hu, hx⟩ := readExponent_split (mark := fun c => c == 'e' || c == 'E') (marks := ['e', 'E'])
      (by intro c; simp) r'
    simp only [Option.some.injEq, Prod.mk.injEq] at h
    obtain ⟨rfl, rfl⟩ := h
    refine ⟨t ++ u, ?_, .decimal t u m _ ht hx⟩
    rw [List.append_assoc, ← hu]

theorem strtodHexadecimal_split {x : Char} (hx : x = 'x' ∨ x = 'X') {s r : List Char} {q : ℚ}
    (h : strtodHexadecimal s = some (q, r)) : ∃ t, '0' :: x :: s = t ++ r ∧ Literal t q := by
  unfold strtodHexadecimal at h
  split at h
  · simp at h
  · next m r' hm =>
    obtain ⟨t, rfl, ht⟩ := readMantissa_split (P := XDigits) (fun ds h c hc => (isXdigit_iff c).1 (h c hc)) (fun c hc => hc) hm
    obtain ⟨u, hu, hx'⟩ := readExponent_split (mark := fun c => c == 'p' || c == 'P') (marks := ['p', 'P'])
      (by intro c; simp) r'
    simp only [Option.some.injEq, Prod.mk.injEq] at h
    obtain ⟨rfl, rfl⟩ := h
    refine ⟨'0' :: x :: (t ++ u), ?_, .hexadecimal x t u m _ hx ht hx'⟩
    rw [List.cons_append, List.cons_append, List.append_assoc, ← hu]

theorem skipSpace_split (s : List Char) : ∃ w, (∀ d ∈ w, isSpace d = true) ∧ s = w ++ skipSpace s :=
  ⟨s.takeWhile isSpace, takeWhile_forall _ _, (List.takeWhile_append_dropWhile).symm⟩

/-- What `readHexTail` reads: nothing, or an exponent after optional spaces. -/
theorem readHexTail_split (s : List Char) : readHexTail s = s ∨
    ∃ c w u k, s = c :: (w ++ u) ++ readHexTail s ∧ (∀ d ∈ w, isSpace d = true) ∧ Exponent ['p', 'P'] (c :: u) k ∧
      -2147483648 ≤ k ∧ k ≤ 2147483647 := by
  cases s with
  | nil => left; rfl
  | cons c r =>
    obtain ⟨w, hw, hr⟩ := skipSpace_split r
    unfold readHexTail
    simp only
    split
    · next hc =>
      split
      · next k r' hk =>
        split
        · next hk' =>
          obtain ⟨u, hu, hx⟩ := readSigned_split hk
          right
          refine ⟨c, w, u, k, ?_, hw, hx _ c (by simpa using hc), hk'.1, hk'.2⟩
          conv => lhs; rw [hr, hu]
          simp
        · left; rfl
      · left; rfl
    · left; rfl

theorem parseNoHex_split {s : List Char} (h : parseNoHex s ≠ s) : ∃ t, '0' :: 'x' :: s = t ++ parseNoHex s ∧ Literal t 0 := by
  unfold parseNoHex at h ⊢
  split
  · next r =>
    rcases readHexTail_split r with hr | ⟨c, w, u, k, hs, hw, hu, h1, h2⟩
    · rw [hr]
      exact ⟨['0', 'x', '.'], rfl, .noDigit⟩
    · refine ⟨'0' :: 'x' :: (['.'] ++ c :: (w ++ u)), ?_, .noDigitExponent ['.'] (.inr rfl) c w u k hw hu h1 h2⟩
      conv => lhs; rw [hs]
      simp
  · next hnd =>
    rcases readHexTail_split s with hr | ⟨c, w, u, k, hs, hw, hu, h1, h2⟩
    · exfalso
      apply h
      split
      · next r => exact absurd rfl (hnd r)
      · exact hr
    · refine ⟨'0' :: 'x' :: ([] ++ c :: (w ++ u)), ?_, .noDigitExponent [] (.inl rfl) c w u k hw hu h1 h2⟩
      conv => lhs; rw [hs]
      simp

theorem parseLiteral_split {s r : List Char} {q : ℚ} (h : parseLiteral s = some (q, r)) :
    ∃ t, s = t ++ r ∧ Literal t q := by
  unfold parseLiteral at h
  split at h
  · next r' =>
    split at h
    · next p hp =>
      simp only [Option.some.injEq] at h
      subst h
      exact strtodHexadecimal_split (.inl rfl) hp
    · split at h
      · simp at h
      · next hne =>
        simp only [Option.some.injEq, Prod.mk.injEq] at h
        obtain ⟨rfl, rfl⟩ := h
        exact parseNoHex_split hne
  · next r' =>
    split at h
    · next p hp =>
      simp only [Option.some.injEq] at h
      subst h
      exact strtodHexadecimal_split (.inr rfl) hp
    · simp only [Option.some.injEq, Prod.mk.injEq] at h
      obtain ⟨rfl, rfl⟩ := h
      refine ⟨['0'], rfl, ?_⟩
      have := Literal.decimal ['0'] [] _ 0 (.whole ['0'] (by simp [Digits]) (by decide)) .none
      simpa [placeValue, show digitValue '0' = 0 by decide] using this
  · exact strtodDecimal_split h

/-! ## The parser -/

/-- What a function of the parser accepts is derived by the grammar. -/
def Sound (N : Names) (I : List (List Char)) (l : Level) (P : List Char → PRes Expr) : Prop :=
  ∀ s e r, P s = .ok (e, r) → ∃ t, s = t ++ r ∧ Derives N I l t e

/-- The same, where spaces may precede. -/
def SoundSp (N : Names) (I : List (List Char)) (l : Level) (P : List Char → PRes Expr) : Prop :=
  ∀ s e r, P s = .ok (e, r) → ∃ w t, s = w ++ t ++ r ∧ Spaces w ∧ Derives N I l t e

theorem next_ok {α β : Type} {m : PRes α} {f : α → List Char → PRes β} {b : β} {r' : List Char}
    (h : PRes.next m f = .ok (b, r')) : ∃ a r, m = .ok (a, r) ∧ f a r = .ok (b, r') := by
  unfold PRes.next at h
  split at h
  · simp at h
  · next a r => exact ⟨a, r, rfl, h⟩

theorem compileComma_ok {expr : List Char → PRes Expr} {s r : List Char} {e : Expr} (h : compileComma expr s = .ok (e, r)) :
    ∃ s', s = ',' :: s' ∧ expr s' = .ok (e, r) := by
  unfold compileComma at h
  split at h
  · next s' => exact ⟨s', rfl, h⟩
  · simp at h

theorem compileClose_ok {α : Type} {a b : α} {s r : List Char} (h : compileClose a s = .ok (b, r)) :
    b = a ∧ ∃ w, Spaces w ∧ s = ')' :: (w ++ r) := by
  unfold compileClose at h
  split at h
  · next s' =>
    simp only [Except.ok.injEq, Prod.mk.injEq] at h
    obtain ⟨rfl, rfl⟩ := h
    obtain ⟨w, hw, he⟩ := skipSp_split s'
    exact ⟨rfl, w, hw, by rw [← he]⟩
  · simp at h

theorem compileFirstParam_ok {expr : List Char → PRes Expr} {s r : List Char} {e : Expr}
    (h : compileFirstParam expr s = .ok (e, r)) : expr s = .ok (e, r) := by
  unfold compileFirstParam at h
  split at h
  · next p hp => rw [hp, h]
  · split at h <;> simp at h

theorem compileElement_sound {N : Names} {I : List (List Char)} {expr : List Char → PRes Expr}
    (hexpr : SoundSp N I .expression expr) : Sound N I .element (compileElement N I expr) := by
  intro s e r h
  unfold compileElement at h
  split at h
  · -- a literal
    unfold compileLiteral at h
    split at h
    · simp at h
    · next q r' hq =>
      simp only [Except.ok.injEq, Prod.mk.injEq] at h
      obtain ⟨rfl, rfl⟩ := h
      obtain ⟨t, rfl, ht⟩ := parseLiteral_split hq
      obtain ⟨w, hw, he⟩ := skipSp_split r'
      exact ⟨t ++ w, by rw [List.append_assoc, ← he], .literal ht hw⟩
  split at h
  · -- a parenthesis
    split at h
    · next r₀ _ _ =>
      unfold compileParenthesis at h
      obtain ⟨w, hw, he⟩ := skipSp_split r₀
      split at h
      · simp at h
      · obtain ⟨e', r', h1, h2⟩ := next_ok h
        obtain ⟨w', t, ht, hw', hd⟩ := hexpr _ _ _ h1
        split at h2
        · next r'' =>
          simp only [Except.ok.injEq, Prod.mk.injEq] at h2
          obtain ⟨rfl, rfl⟩ := h2
          obtain ⟨w₂, hw₂, he₂⟩ := skipSp_split r''
          refine ⟨'(' :: ((w ++ w') ++ t ++ ')' :: w₂), ?_, .paren ?_ hd hw₂⟩
          · conv => lhs; rw [he, ht, he₂]
            simp
          · intro c hc
            rcases List.mem_append.1 hc with hc | hc
            exacts [hw c hc, hw' c hc]
        · simp at h2
    · simp at h
    · simp at h
  · next hid =>
    obtain ⟨hx, hs⟩ := readIdentifier_split hid
    obtain ⟨w₀, hw₀, he₀⟩ := skipSp_split (afterIdentifier s)
    split at h
    · next hb =>
      -- a conditional
      have hx' := builtin_cond hb
      unfold compileIf at h
      split at h
      · next r₀ hr₀ =>
        obtain ⟨c, r1, hc, h⟩ := next_ok h
        obtain ⟨a, r2, ha, h⟩ := next_ok h
        obtain ⟨b, r3, hb', h⟩ := next_ok h
        obtain ⟨rfl, w₄, hw₄, rfl⟩ := compileClose_ok h
        obtain ⟨s2, rfl, ha⟩ := compileComma_ok ha
        obtain ⟨s3, rfl, hb'⟩ := compileComma_ok hb'
        obtain ⟨w₁, t, rfl, hw₁, hdc⟩ := hexpr _ _ _ hc
        obtain ⟨w₂, u, rfl, hw₂, hda⟩ := hexpr _ _ _ ha
        obtain ⟨w₃, v, rfl, hw₃, hdb⟩ := hexpr _ _ _ hb'
        refine ⟨_, ?_, .cond hw₀ hw₁ hdc hw₂ hda hw₃ hdb hw₄⟩
        rw [hs, hx', he₀, hr₀]
        simp
      · simp at h
    · next f hb =>
      unfold compileFunction at h
      split at h
      · next r₀ hr₀ =>
        obtain ⟨a, r1, ha, h'⟩ := next_ok h
        clear h
        obtain ⟨w₁, t, ht, hw₁, hda⟩ := hexpr _ _ _ (compileFirstParam_ok ha)
        split at h'
        · next hp =>
          obtain ⟨b, r2, hb', h⟩ := next_ok h'
          obtain ⟨s2, hs2, hb'⟩ := compileComma_ok hb'
          obtain ⟨rfl, w₃, hw₃, hr2⟩ := compileClose_ok h
          obtain ⟨w₂, u, hu, hw₂, hdb⟩ := hexpr _ _ _ hb'
          refine ⟨_, ?_, .call2 (builtin_fn_iff.1 hb) ((params_iff f).1 hp) hw₀ hw₁ hda hw₂ hdb hw₃⟩
          conv => lhs; rw [hs, he₀, hr₀, ht, hs2, hu, hr2]
          simp
        · next hp =>
          obtain ⟨rfl, w₃, hw₃, hr2⟩ := compileClose_ok h'
          refine ⟨_, ?_, .call1 (builtin_fn_iff.1 hb) (fun hb => hp ((params_iff f).2 hb)) hw₀ hw₁ hda hw₃⟩
          conv => lhs; rw [hs, he₀, hr₀, ht, hr2]
          simp
      · simp at h
    · next hb =>
      unfold compileName at h
      simp only at h
      have hs' : s = (readIdentifier s ++ w₀) ++ skipSp (afterIdentifier s) := by
        rw [List.append_assoc, ← he₀]; exact hs
      split at h
      · next hv =>
        simp only [Except.ok.injEq, Prod.mk.injEq] at h
        obtain ⟨rfl, rfl⟩ := h
        exact ⟨_, hs', .var hx (builtin_none_iff.1 hb) hv hw₀⟩
      split at h
      · next hv hc =>
        simp only [Except.ok.injEq, Prod.mk.injEq] at h
        obtain ⟨rfl, rfl⟩ := h
        exact ⟨_, hs', .const hx (builtin_none_iff.1 hb) hv hc hw₀⟩
      split at h
      · next hv hc hi =>
        simp only [Except.ok.injEq, Prod.mk.injEq] at h
        obtain ⟨rfl, rfl⟩ := h
        exact ⟨_, hs', .inl hx (builtin_none_iff.1 hb) hv hc hi hw₀⟩
      · simp at h

/-- What recognizes the operators of a level. -/
def OpSound (l : Level) (op : List Char → Option (BinOp × List Char)) : Prop :=
  ∀ s o r, op s = some (o, r) → ∃ t, s = t ++ r ∧ Operator l t o

theorem mulOp_sound : OpSound .product mulOp := by
  intro s o r h
  unfold mulOp at h
  split at h <;> simp only [Option.some.injEq, Prod.mk.injEq, reduceCtorEq] at h <;> obtain ⟨rfl, rfl⟩ := h
  exacts [⟨_, rfl, .mod⟩, ⟨_, rfl, .mul⟩, ⟨_, rfl, .div⟩]

theorem addOp_sound : OpSound .sum addOp := by
  intro s o r h
  unfold addOp at h
  split at h <;> simp only [Option.some.injEq, Prod.mk.injEq, reduceCtorEq] at h <;> obtain ⟨rfl, rfl⟩ := h
  exacts [⟨_, rfl, .add⟩, ⟨_, rfl, .sub⟩]

theorem cmpOp_sound : OpSound .comparison cmpOp := by
  intro s o r h
  unfold cmpOp at h
  split at h <;> simp only [Option.some.injEq, Prod.mk.injEq, reduceCtorEq] at h <;> obtain ⟨rfl, rfl⟩ := h
  exacts [⟨_, rfl, .eq⟩, ⟨['!', '='], rfl, .ne⟩, ⟨['<', '='], rfl, .le⟩, ⟨_, rfl, .lt⟩, ⟨['>', '='], rfl, .ge⟩, ⟨_, rfl, .gt⟩]

theorem andOp_sound : OpSound .conjunction andOp := by
  intro s o r h
  unfold andOp at h
  split at h <;> simp only [Option.some.injEq, Prod.mk.injEq, reduceCtorEq] at h <;> obtain ⟨rfl, rfl⟩ := h
  exacts [⟨_, rfl, .and⟩]

theorem orOp_sound : OpSound .expression orOp := by
  intro s o r h
  unfold orOp at h
  split at h <;> simp only [Option.some.injEq, Prod.mk.injEq, reduceCtorEq] at h <;> obtain ⟨rfl, rfl⟩ := h
  exacts [⟨_, rfl, .or⟩]

theorem chainLoop_sound {N : Names} {I : List (List Char)} {l : Level} {sub : List Char → PRes Expr}
    {op : List Char → Option (BinOp × List Char)} (hsub : Sound N I l.tighter sub) (hop : OpSound l op) :
    ∀ (n : Nat) (t₀ : List Char) (e₀ : Expr) (s : List Char) (e : Expr) (r : List Char), Derives N I l t₀ e₀ →
      chainLoop sub op n e₀ s = .ok (e, r) → ∃ t, s = t ++ r ∧ Derives N I l (t₀ ++ t) e := by
  intro n
  induction n with
  | zero => intro t₀ e₀ s e r _ h; simp [chainLoop] at h
  | succ n ih =>
    intro t₀ e₀ s e r hd h
    unfold chainLoop at h
    split at h
    · simp only [Except.ok.injEq, Prod.mk.injEq] at h
      obtain ⟨rfl, rfl⟩ := h
      exact ⟨[], rfl, by simpa using hd⟩
    · next o r₀ ho =>
      split at h
      · simp at h
      · next e' r' he' =>
        obtain ⟨ot, rfl, hot⟩ := hop _ _ _ ho
        obtain ⟨w, hw, hr₀⟩ := skipSp_split r₀
        obtain ⟨u, hu, hdu⟩ := hsub _ _ _ he'
        obtain ⟨t, ht, hdt⟩ := ih _ _ _ _ _ (.binary hot hd hw hdu) h
        refine ⟨ot ++ w ++ u ++ t, ?_, ?_⟩
        · conv => lhs; rw [hr₀, hu, ht]
          simp
        · simpa using hdt

theorem chain_sound {N : Names} {I : List (List Char)} {l : Level} (hl : l ≠ .element) {sub : List Char → PRes Expr}
    {op : List Char → Option (BinOp × List Char)} (hsub : Sound N I l.tighter sub) (hop : OpSound l op) :
    Sound N I l (chain sub op) := by
  intro s e r h
  obtain ⟨e₀, r₀, h1, h2⟩ := next_ok h
  obtain ⟨t₀, rfl, ht₀⟩ := hsub _ _ _ h1
  obtain ⟨t, rfl, ht⟩ := chainLoop_sound hsub hop _ _ _ _ _ _ (.tighter hl ht₀) h2
  exact ⟨t₀ ++ t, by simp, ht⟩

theorem compilePow_sound {N : Names} {I : List (List Char)} {element unary : List Char → PRes Expr}
    (he : Sound N I .element element) (hu : Sound N I .unary unary) : Sound N I .power (compilePow element unary) := by
  intro s e r h
  obtain ⟨a, r₀, h1, h2⟩ := next_ok h
  obtain ⟨t, rfl, ht⟩ := he _ _ _ h1
  split at h2
  · next r' =>
    obtain ⟨b, r'', h3, h4⟩ := next_ok h2
    simp only [Except.ok.injEq, Prod.mk.injEq] at h4
    obtain ⟨rfl, rfl⟩ := h4
    obtain ⟨w, hw, hr⟩ := skipSp_split r'
    obtain ⟨u, hu', hdu⟩ := hu _ _ _ h3
    refine ⟨t ++ '^' :: (w ++ u), ?_, .power ht hw hdu⟩
    conv => lhs; rw [hr, hu']
    simp
  · simp only [Except.ok.injEq, Prod.mk.injEq] at h2
    obtain ⟨rfl, rfl⟩ := h2
    exact ⟨t, rfl, .tighter (by simp) ht⟩

theorem compileAnd_sound {N : Names} {I : List (List Char)} {unary : List Char → PRes Expr} (hu : Sound N I .unary unary) :
    Sound N I .conjunction (compileAnd unary) :=
  chain_sound (by simp) (chain_sound (l := .comparison) (by simp) (chain_sound (l := .sum) (by simp)
    (chain_sound (l := .product) (by simp) hu mulOp_sound) addOp_sound) cmpOp_sound) andOp_sound

theorem compile_sound_pair (N : Names) (I : List (List Char)) (n : Nat) :
    Sound N I .unary (compileUnary N I n) ∧ SoundSp N I .expression (compileExpression N I n) := by
  induction n with
  | zero =>
    refine ⟨?_, ?_⟩ <;> intro s e r h
    · simp [compileUnary] at h
    · simp [compileExpression] at h
  | succ n ih =>
    obtain ⟨ihu, ihe⟩ := ih
    refine ⟨?_, ?_⟩ <;> intro s e r h
    · unfold compileUnary at h
      split at h
      · next r₀ =>
        obtain ⟨e', r', h1, h2⟩ := next_ok h
        simp only [Except.ok.injEq, Prod.mk.injEq] at h2
        obtain ⟨rfl, rfl⟩ := h2
        obtain ⟨w, hw, hr⟩ := skipSp_split r₀
        obtain ⟨u, hu', hdu⟩ := ihu _ _ _ h1
        refine ⟨'-' :: (w ++ u), ?_, .neg hw hdu⟩
        conv => lhs; rw [hr, hu']
        simp
      · next r₀ =>
        obtain ⟨e', r', h1, h2⟩ := next_ok h
        simp only [Except.ok.injEq, Prod.mk.injEq] at h2
        obtain ⟨rfl, rfl⟩ := h2
        obtain ⟨w, hw, hr⟩ := skipSp_split r₀
        obtain ⟨u, hu', hdu⟩ := ihu _ _ _ h1
        refine ⟨'!' :: (w ++ u), ?_, .not hw hdu⟩
        conv => lhs; rw [hr, hu']
        simp
      · obtain ⟨t, ht, hd⟩ := compilePow_sound (compileElement_sound ihe) ihu _ _ _ h
        exact ⟨t, ht, .tighter (by simp) hd⟩
    · unfold compileExpression at h
      obtain ⟨w, hw, hs⟩ := skipSp_split s
      obtain ⟨t, ht, hd⟩ := chain_sound (l := .expression) (by simp) (compileAnd_sound ihu) orOp_sound _ _ _ h
      refine ⟨w, t, ?_, hw, hd⟩
      conv => lhs; rw [hs, ht]
      simp

theorem inlineDef_split {N : Names} {s x r : List Char} (h : inlineDef N s = some (x, r)) :
    Identifier x ∧ builtin x = none ∧ x ∉ N.vars ∧ x ∉ N.consts ∧ ∃ w, Spaces w ∧ s = x ++ w ++ ':' :: '=' :: r := by
  unfold inlineDef at h
  simp only at h
  split at h
  · next hc =>
    obtain ⟨hne, hb, hv, hcc⟩ := hc
    obtain ⟨hx, hs⟩ := readIdentifier_split hne
    obtain ⟨w, hw, he⟩ := skipSp_split (afterIdentifier s)
    split at h
    · next r' hr =>
      simp only [Option.some.injEq, Prod.mk.injEq] at h
      obtain ⟨rfl, rfl⟩ := h
      refine ⟨hx, hb, hv, hcc, w, hw, ?_⟩
      conv => lhs; rw [hs, he, hr]
      simp
    · simp at h
  · simp at h

theorem compile_sound (N : Names) : ∀ (n : Nat) (I : List (List Char)) (s : List Char) (p : Program) (r : List Char),
    compile N n I s = .ok (p, r) → ∃ t, s = t ++ r ∧ DerivesProgram N I t p := by
  intro n
  induction n with
  | zero => intro I s p r h; simp [compile] at h
  | succ n ih =>
    intro I s p r h
    unfold compile at h
    obtain ⟨w, hw, hs⟩ := skipSp_split s
    split at h
    · obtain ⟨e, r', h1, h2⟩ := next_ok h
      simp only [Except.ok.injEq, Prod.mk.injEq] at h2
      obtain ⟨rfl, rfl⟩ := h2
      obtain ⟨w', t, ht, hw', hd⟩ := (compile_sound_pair N I _).2 _ _ _ h1
      refine ⟨(w ++ w') ++ t, ?_, .body ?_ hd⟩
      · conv => lhs; rw [hs, ht]
        simp
      · intro c hc
        rcases List.mem_append.1 hc with hc | hc
        exacts [hw c hc, hw' c hc]
    · next x r₀ hdef =>
      obtain ⟨hx, hb, hv, hc, w₁, hw₁, hs₁⟩ := inlineDef_split hdef
      obtain ⟨e, r', h1, h2⟩ := next_ok h
      obtain ⟨w₂, t, ht, hw₂, hd⟩ := (compile_sound_pair N I _).2 _ _ _ h1
      split at h2
      · next r'' =>
        obtain ⟨p', r3, h3, h4⟩ := next_ok h2
        simp only [Except.ok.injEq, Prod.mk.injEq] at h4
        obtain ⟨rfl, rfl⟩ := h4
        obtain ⟨u, hu, hp⟩ := ih _ _ _ _ h3
        refine ⟨_, ?_, .define hw hx (builtin_none_iff.1 hb) hv hc hw₁ hw₂ hd hp⟩
        conv => lhs; rw [hs, hs₁, ht, hu]
        simp
      · simp only [Except.ok.injEq, Prod.mk.injEq] at h2
        obtain ⟨rfl, rfl⟩ := h2
        refine ⟨_, ?_, .last hw hx (builtin_none_iff.1 hb) hv hc hw₁ hw₂ hd⟩
        conv => lhs; rw [hs, hs₁, ht]
        simp

end Hnco.FParser
