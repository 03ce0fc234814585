import Verif.FParser.Sound
import Verif.TextLemmas

/-!
# Lemmas: what the grammar derives is accepted by the parser
-/

namespace Hnco.FParser

/-- The text cannot continue an element. -/
def Ends (r : List Char) : Prop := ∀ c, r.head? = some c → isSp c = false ∧ isWord c = false ∧ c ≠ '.'

theorem dropWhile_stop {α : Type} (p : α → Bool) (w r : List α) (hw : ∀ c ∈ w, p c = true)
    (hr : ∀ c, r.head? = some c → p c = false) : (w ++ r).dropWhile p = r ∧ (w ++ r).takeWhile p = w := by
  induction w with
  | nil =>
    cases r with
    | nil => simp
    | cons c r => simp [hr c rfl]
  | cons c w ih =>
    have h := ih (fun d hd => hw d (List.mem_cons_of_mem _ hd))
    have hc := hw c (by simp)
    simp [hc, h.1, h.2]

theorem skipSp_append {w r : List Char} (hw : Spaces w) (hr : ∀ c, r.head? = some c → isSp c = false) :
    skipSp (w ++ r) = r := (dropWhile_stop isSp w r ((spaces_iff w).1 hw) hr).1

theorem skipSp_ends {w r : List Char} (hw : Spaces w) (hr : Ends r) : skipSp (w ++ r) = r :=
  skipSp_append hw (fun c hc => (hr c hc).1)

theorem isSp_not_word {c : Char} (h : isSp c = true) : isWord c = false ∧ c ≠ '.' := by
  rw [isSp_iff] at h
  simp only [List.mem_cons, List.not_mem_nil, or_false] at h
  rcases h with rfl | rfl | rfl | rfl | rfl <;> decide

/-- After spaces, the text cannot continue a word. -/
theorem stop_append {w r : List Char} (hw : Spaces w) (hr : Ends r) :
    ∀ c, (w ++ r).head? = some c → isWord c = false ∧ c ≠ '.' := by
  intro c hc
  cases w with
  | nil => exact (hr c hc).2
  | cons d w =>
    simp only [List.cons_append, List.head?_cons, Option.some.injEq] at hc
    subst hc
    exact isSp_not_word ((isSp_iff d).2 (hw d (by simp)))

theorem readIdentifier_append {x r : List Char} (hx : Identifier x) (hr : ∀ c, r.head? = some c → isWord c = false) :
    readIdentifier (x ++ r) = x ∧ afterIdentifier (x ++ r) = r := by
  obtain ⟨c, t, rfl, hc, ht⟩ := hx
  have hc' : isHead c = true := by simpa [isHead] using hc
  have h := dropWhile_stop isWord t r (by
    intro d hd
    have := ht d hd
    simpa [isWord, or_assoc] using this) hr
  have e : readIdentifier (c :: t ++ r) = c :: t := by simp [readIdentifier, hc', h.2]
  refine ⟨e, ?_⟩
  rw [afterIdentifier, e]
  exact List.drop_left

/-! ## Literals -/

theorem word_of_digit {c : Char} (h : c.isDigit = true) : isWord c = true := by simp [isWord, h]

theorem word_of_xdigit {c : Char} (h : isXdigit c = true) : isWord c = true := by
  rw [isXdigit_iff] at h
  rcases h with h | ⟨h1, h2⟩ | ⟨h1, h2⟩
  · exact word_of_digit h
  · simp only [isWord, Char.isAlpha, Char.isLower, Char.isUpper, Bool.or_eq_true, Bool.and_eq_true, decide_eq_true_eq]
    left; left; right
    exact ⟨h1, Char.le_trans h2 (by decide)⟩
  · simp only [isWord, Char.isAlpha, Char.isLower, Char.isUpper, Bool.or_eq_true, Bool.and_eq_true, decide_eq_true_eq]
    left; left; left
    exact ⟨h1, Char.le_trans h2 (by decide)⟩

/-- The text cannot continue a literal. -/
def Stop (r : List Char) : Prop := ∀ c, r.head? = some c → isWord c = false ∧ c ≠ '.'

theorem readMantissa_append {isDig : Char → Bool} {P : List Char → Prop} {base : Nat} {t r : List Char} {m : ℚ}
    (hP : ∀ ds, P ds → ∀ c ∈ ds, isDig c = true) (hX : ∀ c, isDig c = true → isXdigit c = true) (hpt : isDig '.' = false) (h : Mantissa P base t m)
    (hr : ∀ c, r.head? = some c → isDig c = false ∧ c ≠ '.') : readMantissa isDig base (t ++ r) = some (m, r) := by
  cases h with
  | whole _ ha hne =>
    have h := dropWhile_stop isDig t r (hP _ ha) (fun c hc => (hr c hc).1)
    unfold readMantissa
    rw [h.1, h.2]
    split
    · next r' => exact absurd rfl (hr '.' rfl).2
    · simp [hne, numeral_value base (fun c hc => hX c (hP _ ha c hc))]
  | point a b ha hb hne =>
    have h := dropWhile_stop isDig a ('.' :: b ++ r) (hP _ ha) (by intro c hc; simp at hc; subst hc; exact hpt)
    have h' := dropWhile_stop isDig b r (hP _ hb) (fun c hc => (hr c hc).1)
    unfold readMantissa
    rw [List.append_assoc, h.1, h.2]
    simp only [List.cons_append, h'.1, h'.2]
    rw [if_neg (by tauto), numeral_value base (by
      intro c hc
      rcases List.mem_append.1 hc with hc | hc
      · exact hX c (hP _ ha c hc)
      · exact hX c (hP _ hb c hc))]

theorem extractSign_digit {ds r : List Char} (hd : Digits ds) (hne : ds ≠ []) : extractSign (ds ++ r) = (false, ds ++ r) := by
  cases ds with
  | nil => exact absurd rfl hne
  | cons c ds =>
    have hc := hd c (by simp)
    have h1 : c ≠ '-' := by rintro rfl; exact absurd hc (by decide)
    have h2 : c ≠ '+' := by rintro rfl; exact absurd hc (by decide)
    simp [extractSign, h1, h2]

theorem readSigned_append {marks u r : List Char} {c : Char} {k : Int} (h : Exponent marks (c :: u) k)
    (hr : ∀ d, r.head? = some d → d.isDigit = false) : readSigned (u ++ r) = some (k, r) := by
  cases h with
  | plain _ _ hc hd hne =>
    have h := dropWhile_stop Char.isDigit u r hd hr
    simp [readSigned, extractSign_digit hd hne, h.1, h.2, hne, numeral_value 10 (digits_xdigits hd)]
  | plus _ ds hc hd hne =>
    have h := dropWhile_stop Char.isDigit ds r hd hr
    have e : extractSign ('+' :: (ds ++ r)) = (false, ds ++ r) := by simp [extractSign]
    simp [readSigned, e, h.1, h.2, hne, numeral_value 10 (digits_xdigits hd)]
  | minus _ ds hc hd hne =>
    have h := dropWhile_stop Char.isDigit ds r hd hr
    have e : extractSign ('-' :: (ds ++ r)) = (true, ds ++ r) := by simp [extractSign]
    simp [readSigned, e, h.1, h.2, hne, numeral_value 10 (digits_xdigits hd)]

theorem Stop.digit {r : List Char} (h : Stop r) : ∀ d, r.head? = some d → d.isDigit = false := by
  intro d hd
  by_contra hc
  have := word_of_digit (c := d) (by simpa using hc)
  simp [(h d hd).1] at this

theorem Stop.xdigit {r : List Char} (h : Stop r) : ∀ d, r.head? = some d → isXdigit d = false := by
  intro d hd
  by_contra hc
  have := word_of_xdigit (c := d) (by simpa using hc)
  simp [(h d hd).1] at this

theorem exponent_head {marks u : List Char} {k : Int} (h : Exponent marks u k) : u = [] ∧ k = 0 ∨ ∃ c v, u = c :: v ∧ c ∈ marks := by
  cases h with
  | none => left; simp
  | plain c ds hc => right; exact ⟨_, _, rfl, hc⟩
  | plus c ds hc => right; exact ⟨_, _, rfl, hc⟩
  | minus c ds hc => right; exact ⟨_, _, rfl, hc⟩

theorem readExponent_append {mark : Char → Bool} {marks u r : List Char} {k : Int} (hmark : ∀ c, mark c = true ↔ c ∈ marks)
    (hword : ∀ c ∈ marks, isWord c = true) (h : Exponent marks u k) (hr : Stop r) :
    readExponent mark (u ++ r) = (k, r) := by
  rcases exponent_head h with ⟨rfl, rfl⟩ | ⟨c, v, rfl, hc⟩
  · cases r with
    | nil => rfl
    | cons d r =>
      have : ¬ mark d = true := by
        intro hm
        have := hword d ((hmark d).1 hm)
        simp [(hr d rfl).1] at this
      simp [readExponent, this]
  · have := readSigned_append h hr.digit
    simp [readExponent, (hmark c).2 hc, this]

theorem strtodDecimal_append {t u r : List Char} {m : ℚ} {k : Int} (hm : Mantissa Digits 10 t m) (hx : Exponent ['e', 'E'] u k)
    (hr : Stop r) : strtodDecimal (t ++ u ++ r) = some (m * (10 : ℚ) ^ k, r) := by
  have h1 := readMantissa_append (isDig := Char.isDigit) (P := Digits) (base := 10) (r := u ++ r) (fun ds h => h) (by intro c hc; simp [isXdigit, hc]) (by decide) hm (by
    intro c hc
    rcases exponent_head hx with ⟨rfl, -⟩ | ⟨d, v, rfl, hd⟩
    · exact ⟨hr.digit c hc, (hr c hc).2⟩
    · simp only [List.cons_append, List.head?_cons, Option.some.injEq] at hc
      subst hc
      simp only [List.mem_cons, List.not_mem_nil, or_false] at hd
      rcases hd with rfl | rfl <;> decide)
  have h2 := readExponent_append (mark := fun c => c == 'e' || c == 'E') (by intro c; simp) (by decide) hx hr
  rw [List.append_assoc]
  unfold strtodDecimal
  rw [h1]
  simp only [h2]

theorem strtodHexadecimal_append {t u r : List Char} {m : ℚ} {k : Int} (hm : Mantissa XDigits 16 t m)
    (hx : Exponent ['p', 'P'] u k) (hr : Stop r) : strtodHexadecimal (t ++ u ++ r) = some (m * (2 : ℚ) ^ k, r) := by
  have h1 := readMantissa_append (isDig := isXdigit) (P := XDigits) (base := 16) (r := u ++ r)
    (fun ds h c hc => (isXdigit_iff c).2 (h c hc)) (fun c hc => hc) (by decide) hm (by
    intro c hc
    rcases exponent_head hx with ⟨rfl, -⟩ | ⟨d, v, rfl, hd⟩
    · exact ⟨hr.xdigit c hc, (hr c hc).2⟩
    · simp only [List.cons_append, List.head?_cons, Option.some.injEq] at hc
      subst hc
      simp only [List.mem_cons, List.not_mem_nil, or_false] at hd
      rcases hd with rfl | rfl <;> decide)
  have h2 := readExponent_append (mark := fun c => c == 'p' || c == 'P') (by intro c; simp) (by decide) hx hr
  rw [List.append_assoc]
  unfold strtodHexadecimal
  rw [h1]
  simp only [h2]

/-- The two first characters of a decimal number are not those of a hexadecimal number. -/
theorem decimal_not_hex {t u r : List Char} {m : ℚ} {k : Int} (hm : Mantissa Digits 10 t m) (hx : Exponent ['e', 'E'] u k)
    (hr : Stop r) : ∀ x s, (x = 'x' ∨ x = 'X') → t ++ u ++ r ≠ '0' :: x :: s := by
  rintro x s hxx heq
  have hxd : ¬ (x.isDigit = true) := by rcases hxx with rfl | rfl <;> decide
  have hxw : isWord x = true := by rcases hxx with rfl | rfl <;> decide
  have hxe : x ∉ ['e', 'E'] := by rcases hxx with rfl | rfl <;> decide
  have hxp : x ≠ '.' := by rcases hxx with rfl | rfl <;> decide
  -- what follows the first digit
  have tail : ∀ a : List Char, u ++ r = x :: a → False := by
    intro a ha
    rcases exponent_head hx with ⟨rfl, -⟩ | ⟨d, v, rfl, hd⟩
    · have := (hr x (by rw [List.nil_append] at ha; rw [ha]; rfl)).1
      simp [hxw] at this
    · simp only [List.cons_append, List.cons.injEq] at ha
      exact hxe (ha.1 ▸ hd)
  cases hm with
  | whole _ ha hne =>
    cases t with
    | nil => exact absurd rfl hne
    | cons c t =>
      simp only [List.cons_append, List.cons.injEq] at heq
      cases t with
      | nil => exact tail _ heq.2
      | cons d t =>
        simp only [List.cons_append, List.cons.injEq] at heq
        exact hxd (heq.2.1 ▸ ha d (by simp))
  | point a b ha hb hne =>
    cases a with
    | nil => simp at heq
    | cons c a =>
      simp only [List.cons_append, List.cons.injEq] at heq
      cases a with
      | nil =>
        simp only [List.nil_append, List.cons_append, List.cons.injEq] at heq
        exact hxp heq.2.1.symm
      | cons d a =>
        simp only [List.cons_append, List.cons.injEq] at heq
        exact hxd (heq.2.1 ▸ ha d (by simp))

theorem isXdigit_p {c : Char} (h : c ∈ ['p', 'P']) : isXdigit c = false ∧ c ≠ '.' := by
  simp only [List.mem_cons, List.not_mem_nil, or_false] at h
  rcases h with rfl | rfl <;> decide

theorem readMantissa_none {s : List Char} (h : ∀ c, s.head? = some c → isXdigit c = false)
    (h' : ∀ r c, s = '.' :: r → r.head? = some c → isXdigit c = false) : readMantissa isXdigit 16 s = none := by
  have h1 := dropWhile_stop isXdigit [] s (by simp) h
  simp only [List.nil_append] at h1
  unfold readMantissa
  rw [h1.1, h1.2]
  split
  · next r =>
    have h2 := dropWhile_stop isXdigit [] r (by simp) (fun c hc => h' r c rfl hc)
    simp only [List.nil_append] at h2
    simp [h2.2]
  · simp

theorem exponent_tail_head {marks u : List Char} {c : Char} {k : Int} (h : Exponent marks (c :: u) k) :
    ∃ d v, u = d :: v ∧ isSpace d = false := by
  cases h with
  | plain _ _ hc hd hne =>
    cases u with
    | nil => exact absurd rfl hne
    | cons d v => exact ⟨d, v, rfl, isDigit_not_isSpace (hd d (by simp))⟩
  | plus => exact ⟨_, _, rfl, by decide⟩
  | minus => exact ⟨_, _, rfl, by decide⟩

theorem exponent_mark {marks u : List Char} {c : Char} {k : Int} (h : Exponent marks (c :: u) k) : c ∈ marks := by
  rcases exponent_head h with ⟨h, -⟩ | ⟨d, v, h, hd⟩
  · simp at h
  · simp only [List.cons.injEq] at h
    rw [h.1]; exact hd

theorem readHexTail_append {c : Char} {w u r : List Char} {k : Int} (hw : ∀ d ∈ w, isSpace d = true)
    (hu : Exponent ['p', 'P'] (c :: u) k) (h1 : -2147483648 ≤ k) (h2 : k ≤ 2147483647) (hr : Stop r) :
    readHexTail (c :: (w ++ u) ++ r) = r := by
  have hc := exponent_mark hu
  simp only [List.mem_cons, List.not_mem_nil, or_false] at hc
  obtain ⟨d, v, hv, hd⟩ := exponent_tail_head hu
  have hs : skipSpace (w ++ (u ++ r)) = u ++ r := by
    refine (dropWhile_stop isSpace w (u ++ r) hw ?_).1
    intro c' hc'
    rw [hv] at hc'
    simp only [List.cons_append, List.head?_cons, Option.some.injEq] at hc'
    rw [← hc']; exact hd
  have := readSigned_append hu hr.digit
  simp [readHexTail, hc, hs, this, h1, h2]

theorem parseLiteral_append {t r : List Char} {q : ℚ} (h : Literal t q) (hr : Stop r) : parseLiteral (t ++ r) = some (q, r) := by
  cases h with
  | decimal t u m k hm hx =>
    have h := decimal_not_hex hm hx hr
    unfold parseLiteral
    split
    · next s he => exact absurd he (h 'x' s (.inl rfl))
    · next s he => exact absurd he (h 'X' s (.inr rfl))
    · exact strtodDecimal_append hm hx hr
  | hexadecimal x t u m k hx hm hu =>
    have h := strtodHexadecimal_append hm hu hr
    rcases hx with rfl | rfl <;> simp only [List.cons_append, parseLiteral, h]
  | noDigit =>
    have h : strtodHexadecimal ('.' :: r) = none := by
      unfold strtodHexadecimal
      rw [readMantissa_none]
      · intro c hc; simp at hc; subst hc; decide
      · intro r' c he hc
        simp only [List.cons.injEq, true_and] at he
        subst he
        exact hr.xdigit c hc
    have h2 : readHexTail r = r := by
      cases r with
      | nil => rfl
      | cons c r =>
        have hw := (hr c rfl).1
        have : ¬ (c = 'p' ∨ c = 'P') := by
          rintro (rfl | rfl) <;> exact absurd hw (by decide)
        simp [readHexTail, this]
    simp [parseLiteral, h, parseNoHex, h2]
  | noDigitExponent dot hdot c w u k hw hu h1 h2 =>
    have hc := exponent_mark hu
    have hx := readHexTail_append hw hu h1 h2 hr
    have hcx := isXdigit_p hc
    have hlen : ∀ z : List Char, r ≠ c :: (w ++ u) ++ r ∧ r ≠ '.' :: (c :: (w ++ u) ++ r) := by
      intro _
      constructor <;> intro h <;> have := congrArg List.length h <;> simp at this <;> omega
    rcases hdot with rfl | rfl
    · have h : strtodHexadecimal (c :: (w ++ u) ++ r) = none := by
        unfold strtodHexadecimal
        rw [readMantissa_none]
        · intro d hd; simp at hd; subst hd; exact hcx.1
        · intro r' d he; simp only [List.cons_append, List.cons.injEq] at he; exact absurd he.1 hcx.2
      have h' : parseNoHex (c :: (w ++ u) ++ r) = r := by
        unfold parseNoHex
        split
        · next r' he => simp only [List.cons_append, List.cons.injEq] at he; exact absurd he.1 hcx.2
        · exact hx
      simp only [List.nil_append, List.cons_append] at h h' ⊢
      simp only [parseLiteral, h, h']
      rw [if_neg]
      exact (hlen []).1
    · have h : strtodHexadecimal ('.' :: (c :: (w ++ u) ++ r)) = none := by
        unfold strtodHexadecimal
        rw [readMantissa_none]
        · intro d hd; simp at hd; subst hd; decide
        · intro r' d he hd
          simp only [List.cons.injEq, true_and] at he
          subst he
          simp only [List.cons_append, List.head?_cons, Option.some.injEq] at hd
          subst hd; exact hcx.1
      have h' : parseNoHex ('.' :: (c :: (w ++ u) ++ r)) = r := hx
      simp only [List.nil_append, List.cons_append] at h h' ⊢
      simp only [parseLiteral, h, h']
      rw [if_neg]
      exact (hlen []).2

theorem mantissa_begins {t : List Char} {m : ℚ} (h : Mantissa Digits 10 t m) : ∃ c v, t = c :: v ∧ (c = '.' ∨ c.isDigit = true) := by
  cases h with
  | whole _ ha hne =>
    cases t with
    | nil => exact absurd rfl hne
    | cons c t => exact ⟨c, t, rfl, .inr (ha c (by simp))⟩
  | point a b ha hb hne =>
    cases a with
    | nil => exact ⟨'.', b, rfl, .inl rfl⟩
    | cons c a => exact ⟨c, _, rfl, .inr (ha c (by simp))⟩

theorem literal_begins {t : List Char} {q : ℚ} (h : Literal t q) : ∃ c v, t = c :: v ∧ (c = '.' ∨ c.isDigit = true) := by
  cases h with
  | decimal t u m k hm hx =>
    obtain ⟨c, v, rfl, hc⟩ := mantissa_begins hm
    exact ⟨c, v ++ u, rfl, hc⟩
  | hexadecimal => exact ⟨'0', _, rfl, .inr (by decide)⟩
  | noDigit => exact ⟨'0', _, rfl, .inr (by decide)⟩
  | noDigitExponent => exact ⟨'0', _, rfl, .inr (by decide)⟩

end Hnco.FParser
