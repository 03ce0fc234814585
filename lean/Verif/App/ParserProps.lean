import Verif.App.SplitProps
import Verif.TextLemmas
import Mathlib.Tactic.NormNum

/-! # C69: parsing representations -/

namespace Hnco

/-! ## Specification: the written representations -/

/-- White space. -/
def Blank (s : List Char) : Prop := ∀ c ∈ s, isSpace c = true

/-- A piece of text without commas, semicolons, closing parentheses and equal signs. -/
def Plain (s : List Char) : Prop := ∀ c ∈ s, c ≠ ',' ∧ c ≠ ';' ∧ c ≠ ')' ∧ c ≠ '='

/-- The text is that of the number, according to the conversion `stod`. -/
def NumberText (stod : List Char → Except ParseExn Rat) (x : Rat) (t : List Char) : Prop := stod t = .ok x ∧ Plain t

/-- The parameters are written `type(body)`. -/
inductive Written (stod : List Char → Except ParseExn Rat) (o : ParseOptions) : RepParams → List Char → List Char → Prop
  | int {a b : Int} {s1 s2 s3 s4 : List Char} : -2147483648 ≤ a → a ≤ 2147483647 → -2147483648 ≤ b → b ≤ 2147483647 →
    Blank s1 → Blank s2 → Blank s3 → Blank s4 →
    Written stod o (.int a b) "int".toList (s1 ++ showInt a ++ s2 ++ ',' :: (s3 ++ showInt b ++ s4))
  | long {a b : Int} {s1 s2 s3 s4 : List Char} : -9223372036854775808 ≤ a → a ≤ 9223372036854775807 →
    -9223372036854775808 ≤ b → b ≤ 9223372036854775807 → Blank s1 → Blank s2 → Blank s3 → Blank s4 →
    Written stod o (.long a b) "long".toList (s1 ++ showInt a ++ s2 ++ ',' :: (s3 ++ showInt b ++ s4))
  | precision {a b c : Rat} {ta tb tc s1 s2 : List Char} : NumberText stod a ta → NumberText stod b tb → NumberText stod c tc →
    Blank s1 → Blank s2 →
    Written stod o (.doublePrecision a b c) "double".toList
      (ta ++ ',' :: (tb ++ ',' :: (s1 ++ "precision".toList ++ s2 ++ '=' :: tc)))
  | size {a b : Rat} {n : Int} {ta tb s1 s2 s3 s4 : List Char} : NumberText stod a ta → NumberText stod b tb →
    -2147483648 ≤ n → n ≤ 2147483647 → Blank s1 → Blank s2 → Blank s3 → Blank s4 →
    Written stod o (.doubleSize a b n) "double".toList
      (ta ++ ',' :: (tb ++ ',' :: (s1 ++ "size".toList ++ s2 ++ '=' :: (s3 ++ showInt n ++ s4))))
  | defaultPrecision {a b p : Rat} {ta tb : List Char} : NumberText stod a ta → NumberText stod b tb → o.precision = some p →
    Written stod o (.doublePrecision a b p) "double".toList (ta ++ ',' :: tb)
  | defaultSize {a b : Rat} {n : Int} {ta tb : List Char} : NumberText stod a ta → NumberText stod b tb → o.precision = none →
    o.size = some n → Written stod o (.doubleSize a b n) "double".toList (ta ++ ',' :: tb)
  | set {vs : List Rat} {ts : List (List Char)} : ts ≠ [] → List.Forall₂ (NumberText stod) vs ts →
    Written stod o (.set vs) "set".toList (List.intercalate [','] ts)

/-- The declaration of a name: `name : type(body)`, with white space anywhere and anything but a semicolon at the end. -/
inductive Declares (stod : List Char → Except ParseExn Rat) (o : ParseOptions) : List Char × RepParams → List Char → Prop
  | mk {name type body s1 s2 s3 s4 junk : List Char} {r : RepParams} : name ≠ [] →
    (∀ c ∈ name, isSpace c = false ∧ c ≠ ':' ∧ c ≠ ';') → Written stod o r type body → Blank s1 → Blank s2 → Blank s3 → Blank s4 →
    ';' ∉ junk →
    Declares stod o (name, r) (s1 ++ name ++ s2 ++ ':' :: (s3 ++ type ++ s4 ++ '(' :: (body ++ ')' :: junk)))

/-- The last declaration of a name. -/
def lastDeclared (ds : List (List Char × RepParams)) (name : List Char) : Option RepParams :=
  (ds.reverse.find? (fun d => decide (d.1 = name))).map Prod.snd

/-! ## Lemmas -/

theorem Blank.not_mem {s : List Char} (h : Blank s) {c : Char} (hc : isSpace c = false) : c ∉ s := fun hm => by
  rw [h c hm] at hc
  cases hc

theorem splits_intercalate (c : Char) : ∀ (ps : List (List Char)), ps ≠ [] → (∀ p ∈ ps, c ∉ p) → Splits [c] (List.intercalate [c] ps) ps
  | [], h, _ => absurd rfl h
  | [p], _, h => by
    have : List.intercalate [c] [p] = p := by simp [List.intercalate]
    rw [this]
    refine Splits.last ?_
    rintro ⟨a, b, e⟩
    refine h p (by simp) ?_
    rw [← e]
    simp
  | p :: q :: ps, _, h => by
    have : List.intercalate [c] (p :: q :: ps) = p ++ [c] ++ List.intercalate [c] (q :: ps) := by
      simp [List.intercalate, List.intersperse]
    rw [this]
    refine Splits.cut ?_ (splits_intercalate c (q :: ps) (by simp) (fun r hr => h r (List.mem_cons_of_mem _ hr)))
    rintro j hj ⟨t, ht⟩
    have h0 : ((p ++ [c] ++ List.intercalate [c] (q :: ps)).drop j)[0]? = some c := by
      rw [← ht]
      rfl
    rw [List.getElem?_drop, Nat.add_zero, List.append_assoc, List.getElem?_append_left hj] at h0
    exact h p (by simp) (List.mem_of_getElem? h0)

/-- Splitting pieces which do not contain the delimiter. -/
theorem splitAt_intercalate {c : Char} {ps : List (List Char)} (h1 : ps ≠ []) (h2 : ∀ p ∈ ps, c ∉ p)
    (h3 : (List.intercalate [c] ps).length < 4294967296) : splitAt (List.intercalate [c] ps) c = .ok ps := by
  obtain ⟨qs, e, hq⟩ := splitString_splits (s := List.intercalate [c] ps) (d := [c]) (by simp) h3 (Nat.lt_succ_self _)
  rw [splits_unique hq (splits_intercalate c ps h1 h2)] at e
  unfold splitAt
  rw [show splitString ((List.intercalate [c] ps).length + 1) (List.intercalate [c] ps) [c] = some ps from e]

theorem strFind_char {a b rest : List Char} {c : Char} (h : c ∉ b) :
    strFind (a ++ (b ++ c :: rest)) [c] a.length = some (a.length + b.length) := by
  refine strFind_eq (Nat.le_add_right _ _) ?_ (by simp) ?_
  · rw [← List.drop_drop, List.drop_left, List.drop_left]
    exact ⟨rest, rfl⟩
  · rintro j hj hj' ⟨t, ht⟩
    have h0 : ((a ++ (b ++ c :: rest)).drop j)[0]? = some c := by
      rw [← ht]
      rfl
    rw [List.getElem?_drop, Nat.add_zero, List.getElem?_append_right hj, List.getElem?_append_left (by omega)] at h0
    exact h (List.mem_of_getElem? h0)

theorem strFind_char_none {s : List Char} {c : Char} (h : c ∉ s) : strFind s [c] 0 = none := by
  cases e : strFind s [c] 0 with
  | none => rfl
  | some i =>
    obtain ⟨_, ⟨t, ht⟩, _, _⟩ := strFind_some e
    refine absurd (List.mem_of_mem_drop (i := i) (l := s) ?_) h
    rw [← ht]
    simp

theorem showInt_chars {z : Int} {c : Char} (h : c ∈ showInt z) : c = '-' ∨ c.isDigit = true := by
  unfold showInt at h
  split at h
  · rcases List.mem_cons.mp h with h | h
    · exact Or.inl h
    · exact Or.inr (showNat_digits _ _ h)
  · exact Or.inr (showNat_digits _ _ h)

theorem not_mem_showInt (z : Int) {c : Char} (h1 : c ≠ '-') (h2 : c.isDigit = false) : c ∉ showInt z := fun h => by
  rcases showInt_chars h with h | h
  · exact h1 h
  · rw [h] at h2
    cases h2

theorem stringToInt_showInt {lo hi z : Int} (h1 : lo ≤ z) (h2 : z ≤ hi) {s1 s2 : List Char} (b1 : Blank s1) (b2 : Blank s2) :
    stringToInt lo hi (s1 ++ showInt z ++ s2) = .ok z := by
  have hdig := showNat_digits z.natAbs
  have hrest : ∀ c, s2.head? = some c → c.isDigit = false := by
    intro c hc
    have hs := b2 c (List.mem_of_mem_head? hc)
    by_contra hcon
    rw [isDigit_not_isSpace (by simpa using hcon)] at hs
    cases hs
  obtain ⟨ht, _⟩ := takeWhile_append_stop Char.isDigit (showNat z.natAbs) s2 hdig hrest
  obtain ⟨d, ds, hds⟩ : ∃ d ds, showNat z.natAbs = d :: ds := by
    rcases hs : showNat z.natAbs with _ | ⟨d, ds⟩
    · exact absurd hs (showNat_ne_nil _)
    · exact ⟨d, ds, rfl⟩
  have hd0 : d.isDigit = true := hdig d (by rw [hds]; simp)
  have hskip : ∀ (c : Char) (t : List Char), isSpace c = false → skipSpace (s1 ++ (c :: t)) = c :: t := by
    intro c t hc
    unfold skipSpace
    rw [List.dropWhile_append_of_pos b1]
    simp [hc]
  have hval : digitsValue (showNat z.natAbs) = z.natAbs := showNat_value _
  rw [List.append_assoc]
  unfold stringToInt
  by_cases hneg : z < 0
  · have hs : showInt z = '-' :: showNat z.natAbs := by simp [showInt, hneg]
    rw [hs, List.cons_append, hskip '-' _ (by decide)]
    have he : extractSign ('-' :: (showNat z.natAbs ++ s2)) = (true, showNat z.natAbs ++ s2) := by
      simp [extractSign]
    simp only [he, ht, if_neg (showNat_ne_nil z.natAbs), hval, if_true]
    rw [if_pos (by omega)]
    congr 1
    omega
  · have hs : showInt z = showNat z.natAbs := by simp [showInt, hneg]
    rw [hs]
    have hne1 : d ≠ '-' := by rintro rfl; revert hd0; decide
    have hne2 : d ≠ '+' := by rintro rfl; revert hd0; decide
    have he : extractSign (skipSpace (s1 ++ (showNat z.natAbs ++ s2))) = (false, showNat z.natAbs ++ s2) := by
      rw [hds, List.cons_append, hskip d _ (isDigit_not_isSpace hd0)]
      simp [extractSign, hne1, hne2]
    simp only [he, ht, if_neg (showNat_ne_nil z.natAbs), hval]
    simp only [Bool.false_eq_true, if_false]
    rw [if_pos (by omega)]
    congr 1
    omega

theorem parseToken_eq {s1 w s2 : List Char} (b1 : Blank s1) (hne : w ≠ []) (hw : ∀ c ∈ w, isSpace c = false) (b2 : Blank s2) :
    parseToken (s1 ++ w ++ s2) = .ok w := by
  unfold parseToken
  rw [List.append_assoc, extractToken_append w s2 hne hw (fun c hc => b2 c (List.mem_of_mem_head? hc)) s1 b1]

theorem split_two {c : Char} {x y : List Char} (hx : c ∉ x) (hy : c ∉ y) (hl : (x ++ c :: y).length < 4294967296) :
    splitAt (x ++ c :: y) c = .ok [x, y] := by
  have e : x ++ c :: y = List.intercalate [c] [x, y] := by simp [List.intercalate, List.intersperse]
  rw [e] at hl ⊢
  refine splitAt_intercalate (by simp) ?_ hl
  intro p hp
  simp only [List.mem_cons, List.not_mem_nil, or_false] at hp
  rcases hp with rfl | rfl
  · exact hx
  · exact hy

theorem split_three {c : Char} {x y z : List Char} (hx : c ∉ x) (hy : c ∉ y) (hz : c ∉ z)
    (hl : (x ++ c :: (y ++ c :: z)).length < 4294967296) : splitAt (x ++ c :: (y ++ c :: z)) c = .ok [x, y, z] := by
  have e : x ++ c :: (y ++ c :: z) = List.intercalate [c] [x, y, z] := by simp [List.intercalate, List.intersperse]
  rw [e] at hl ⊢
  refine splitAt_intercalate (by simp) ?_ hl
  intro p hp
  simp only [List.mem_cons, List.not_mem_nil, or_false] at hp
  rcases hp with rfl | rfl | rfl
  · exact hx
  · exact hy
  · exact hz

section
variable {stod : List Char → Except ParseExn Rat} {o : ParseOptions}

theorem NumberText.comma {x : Rat} {t : List Char} (h : NumberText stod x t) : ',' ∉ t := fun hm => (h.2 _ hm).1 rfl
theorem NumberText.semicolon {x : Rat} {t : List Char} (h : NumberText stod x t) : ';' ∉ t := fun hm => (h.2 _ hm).2.1 rfl
theorem NumberText.paren {x : Rat} {t : List Char} (h : NumberText stod x t) : ')' ∉ t := fun hm => (h.2 _ hm).2.2.1 rfl
theorem NumberText.equal {x : Rat} {t : List Char} (h : NumberText stod x t) : '=' ∉ t := fun hm => (h.2 _ hm).2.2.2 rfl

theorem parseValues_eq {vs : List Rat} {ts : List (List Char)} (h : List.Forall₂ (NumberText stod) vs ts) :
    parseValues stod ts = .ok vs := by
  induction h with
  | nil => rfl
  | cons h _ ih =>
    unfold parseValues
    rw [h.1, ih]
    rfl

theorem forall₂_right {α β : Type} {R : α → β → Prop} {l : List α} {m : List β} (h : List.Forall₂ R l m) {b : β} (hb : b ∈ m) :
    ∃ a, R a b := by
  induction h with
  | nil => cases hb
  | cons h _ ih =>
    rcases List.mem_cons.mp hb with rfl | hb
    · exact ⟨_, h⟩
    · exact ih hb

theorem not_mem_intercalate {c d : Char} (hc : c ≠ d) : ∀ {ts : List (List Char)}, (∀ t ∈ ts, c ∉ t) → c ∉ List.intercalate [d] ts
  | [], _ => by simp [List.intercalate]
  | [t], h => by simpa [List.intercalate] using h
  | t :: u :: ts, h => by
    have e : List.intercalate [d] (t :: u :: ts) = t ++ d :: List.intercalate [d] (u :: ts) := by
      simp [List.intercalate, List.intersperse]
    have ih := not_mem_intercalate hc (ts := u :: ts) (fun r hr => h r (List.mem_cons_of_mem _ hr))
    rw [e, List.mem_append, List.mem_cons]
    rintro (h' | h' | h')
    · exact h t (by simp) h'
    · exact hc h'
    · exact ih h'

/-- The texts between parentheses contain neither closing parentheses nor semicolons. -/
theorem Written.body {r : RepParams} {type body : List Char} (h : Written stod o r type body) : ')' ∉ body ∧ ';' ∉ body := by
  have hint : ∀ (z : Int), ')' ∉ showInt z ∧ ';' ∉ showInt z := fun z =>
    ⟨not_mem_showInt z (by decide) (by decide), not_mem_showInt z (by decide) (by decide)⟩
  have hbl : ∀ {s : List Char}, Blank s → ')' ∉ s ∧ ';' ∉ s := fun h => ⟨h.not_mem (by decide), h.not_mem (by decide)⟩
  cases h with
  | int _ _ _ _ b1 b2 b3 b4 =>
    simp [hint, hbl b1, hbl b2, hbl b3, hbl b4]
  | long _ _ _ _ b1 b2 b3 b4 =>
    simp [hint, hbl b1, hbl b2, hbl b3, hbl b4]
  | precision h1 h2 h3 b1 b2 =>
    simp [hbl b1, hbl b2, h1.paren, h2.paren, h3.paren, h1.semicolon, h2.semicolon, h3.semicolon]
  | size h1 h2 _ _ b1 b2 b3 b4 =>
    simp [hint, hbl b1, hbl b2, hbl b3, hbl b4, h1.paren, h2.paren, h1.semicolon, h2.semicolon]
  | defaultPrecision h1 h2 _ => simp [h1.paren, h2.paren, h1.semicolon, h2.semicolon]
  | defaultSize h1 h2 _ _ => simp [h1.paren, h2.paren, h1.semicolon, h2.semicolon]
  | @set vs ts hne h =>
    have : ∀ t ∈ ts, ')' ∉ t ∧ ';' ∉ t := by
      intro t ht
      obtain ⟨v, hv⟩ := forall₂_right h ht
      exact ⟨hv.paren, hv.semicolon⟩
    exact ⟨not_mem_intercalate (by decide) (fun t ht => (this t ht).1), not_mem_intercalate (by decide) (fun t ht => (this t ht).2)⟩

/-- C69: a written representation is parsed as its parameters. -/
theorem parseType_written {r : RepParams} {type body : List Char} (h : Written stod o r type body) (hl : body.length < 4294967296) :
    parseType stod o type body = .ok r := by
  have hint : ∀ (z : Int), ',' ∉ showInt z ∧ '=' ∉ showInt z := fun z =>
    ⟨not_mem_showInt z (by decide) (by decide), not_mem_showInt z (by decide) (by decide)⟩
  have hbl : ∀ {s : List Char}, Blank s → ',' ∉ s ∧ '=' ∉ s := fun h => ⟨h.not_mem (by decide), h.not_mem (by decide)⟩
  unfold parseType
  cases h with
  | int h1 h2 h3 h4 b1 b2 b3 b4 =>
    rw [if_pos rfl]
    unfold parseIntRep
    rw [split_two (by simp [hint, hbl b1, hbl b2]) (by simp [hint, hbl b3, hbl b4]) hl]
    unfold stoi
    show (do
      let a ← stringToInt _ _ _
      let b ← stringToInt _ _ _
      Except.ok (RepParams.int a b)) = _
    rw [stringToInt_showInt h1 h2 b1 b2, stringToInt_showInt h3 h4 b3 b4]
    rfl
  | long h1 h2 h3 h4 b1 b2 b3 b4 =>
    rw [if_neg (by decide), if_pos rfl]
    unfold parseLongRep
    rw [split_two (by simp [hint, hbl b1, hbl b2]) (by simp [hint, hbl b3, hbl b4]) hl]
    unfold stol
    show (do
      let a ← stringToInt _ _ _
      let b ← stringToInt _ _ _
      Except.ok (RepParams.long a b)) = _
    rw [stringToInt_showInt h1 h2 b1 b2, stringToInt_showInt h3 h4 b3 b4]
    rfl
  | @precision a b c ta tb tc s1 s2 h1 h2 h3 b1 b2 =>
    rw [if_neg (by decide), if_neg (by decide), if_pos rfl]
    unfold parseDoubleRep
    rw [split_three h1.comma h2.comma (by simp [hbl b1, hbl b2, h3.comma]) hl]
    show (do
      let a ← stod ta
      let b ← stod tb
      parseDoubleKey stod a b _) = _
    rw [h1.1, h2.1]
    show parseDoubleKey stod a b _ = _
    unfold parseDoubleKey
    rw [split_two (by simp [hbl b1, hbl b2]) h3.equal (by simp at hl ⊢; omega)]
    show (do
      let key ← parseToken (s1 ++ "precision".toList ++ s2)
      if key = "precision".toList then do
        let c ← stod tc
        Except.ok (RepParams.doublePrecision a b c)
      else if key = "size".toList then do
        let n ← stoi tc
        Except.ok (RepParams.doubleSize a b n)
      else Except.error ParseExn.runtime) = _
    rw [parseToken_eq b1 (by decide) (by decide) b2]
    simp only [bind, Except.bind, if_true, h3.1]
  | @size a b n ta tb s1 s2 s3 s4 h1 h2 h3 h4 b1 b2 b3 b4 =>
    rw [if_neg (by decide), if_neg (by decide), if_pos rfl]
    unfold parseDoubleRep
    rw [split_three h1.comma h2.comma (by simp [hint, hbl b1, hbl b2, hbl b3, hbl b4]) hl]
    show (do
      let a ← stod ta
      let b ← stod tb
      parseDoubleKey stod a b _) = _
    rw [h1.1, h2.1]
    show parseDoubleKey stod a b _ = _
    unfold parseDoubleKey
    rw [split_two (by simp [hbl b1, hbl b2]) (by simp [hint, hbl b3, hbl b4]) (by simp at hl ⊢; omega)]
    show (do
      let key ← parseToken (s1 ++ "size".toList ++ s2)
      if key = "precision".toList then do
        let c ← stod (s3 ++ showInt n ++ s4)
        Except.ok (RepParams.doublePrecision a b c)
      else if key = "size".toList then do
        let n ← stoi (s3 ++ showInt n ++ s4)
        Except.ok (RepParams.doubleSize a b n)
      else Except.error ParseExn.runtime) = _
    rw [parseToken_eq b1 (by decide) (by decide) b2]
    have hne : ("size".toList = "precision".toList) = False := by simp
    have hi : stoi (s3 ++ showInt n ++ s4) = .ok n := stringToInt_showInt h3 h4 b3 b4
    simp only [bind, Except.bind, hne, if_false, if_true, hi]
  | defaultPrecision h1 h2 h3 =>
    rw [if_neg (by decide), if_neg (by decide), if_pos rfl]
    unfold parseDoubleRep
    rw [split_two h1.comma h2.comma hl]
    simp only [bind, Except.bind, h1.1, h2.1, h3]
  | defaultSize h1 h2 h3 h4 =>
    rw [if_neg (by decide), if_neg (by decide), if_pos rfl]
    unfold parseDoubleRep
    rw [split_two h1.comma h2.comma hl]
    simp only [bind, Except.bind, h1.1, h2.1, h3, h4]
  | @set vs ts hne h =>
    rw [if_neg (by decide), if_neg (by decide), if_neg (by decide), if_pos rfl]
    unfold parseValueSetRep
    rw [splitAt_intercalate hne (by
      intro t ht
      obtain ⟨v, hv⟩ := forall₂_right h ht
      exact hv.comma) hl]
    simp only [bind, Except.bind, parseValues_eq h]

/-- C69: a representation is parsed as its parameters, whatever follows the closing parenthesis. -/
theorem parseRepresentation_written {r : RepParams} {type body s1 s2 junk : List Char} (h : Written stod o r type body)
    (b1 : Blank s1) (b2 : Blank s2) (hl : body.length < 4294967296) :
    parseRepresentation stod o (s1 ++ type ++ s2 ++ '(' :: (body ++ ')' :: junk)) = .ok r := by
  have ht : type ≠ [] ∧ (∀ c ∈ type, isSpace c = false) ∧ '(' ∉ type := by
    cases h <;> decide
  unfold parseRepresentation
  rw [if_neg (by simp)]
  have f1 := strFind_char (a := []) (b := s1 ++ type ++ s2) (rest := body ++ ')' :: junk) (c := '(')
    (by simp [b1.not_mem (c := '(') (by decide), b2.not_mem (c := '(') (by decide), ht.2.2])
  rw [List.nil_append, List.length_nil, Nat.zero_add] at f1
  rw [f1]
  have f2 := strFind_char (a := s1 ++ type ++ s2) (b := '(' :: body) (rest := junk) (c := ')') (by simp [h.body.1])
  rw [List.cons_append] at f2
  simp only
  rw [f2]
  simp only
  rw [List.take_left, parseToken_eq b1 ht.1 ht.2.1 b2]
  have e : ((s1 ++ type ++ s2 ++ '(' :: (body ++ ')' :: junk)).drop ((s1 ++ type ++ s2).length + 1)).take
      ((s1 ++ type ++ s2).length + ('(' :: body).length - (s1 ++ type ++ s2).length - 1) = body := by
    rw [← List.drop_drop, List.drop_left]
    have : (s1 ++ type ++ s2).length + ('(' :: body).length - (s1 ++ type ++ s2).length - 1 = body.length := by
      rw [List.length_cons]
      omega
    rw [this]
    simp
  rw [e]
  show parseType stod o type body = _
  exact parseType_written h hl

theorem parseDeclaration_declares {d : List Char × RepParams} {t : List Char} (h : Declares stod o d t) (hl : t.length < 4294967296)
    (env : RepEnv) : parseDeclaration stod o env t = .ok (env.put d.1 d.2) := by
  cases h with
  | @mk name type body s1 s2 s3 s4 junk r hne hn hw b1 b2 b3 b4 hj =>
    have hc : ':' ∉ name := fun h => (hn _ h).2.1 rfl
    unfold parseDeclaration
    rw [if_neg (by simp)]
    have f1 := strFind_char (a := []) (b := s1 ++ name ++ s2) (rest := s3 ++ type ++ s4 ++ '(' :: (body ++ ')' :: junk)) (c := ':')
      (by simp [b1.not_mem (c := ':') (by decide), b2.not_mem (c := ':') (by decide), hc])
    rw [List.nil_append, List.length_nil, Nat.zero_add] at f1
    rw [f1]
    simp only
    rw [List.take_left, parseToken_eq b1 hne (fun c hc => (hn c hc).1) b2]
    have e : (s1 ++ name ++ s2 ++ ':' :: (s3 ++ type ++ s4 ++ '(' :: (body ++ ')' :: junk))).drop ((s1 ++ name ++ s2).length + 1) =
        s3 ++ type ++ s4 ++ '(' :: (body ++ ')' :: junk) := by
      rw [← List.drop_drop, List.drop_left]
      rfl
    rw [e]
    have hb : body.length < 4294967296 := by
      simp only [List.length_append, List.length_cons] at hl
      omega
    show (do
      let r ← parseRepresentation stod o _
      Except.ok (env.put name r)) = _
    rw [parseRepresentation_written hw b3 b4 hb]
    rfl

theorem Declares.semicolon {d : List Char × RepParams} {t : List Char} (h : Declares stod o d t) : ';' ∉ t := by
  cases h with
  | @mk name type body s1 s2 s3 s4 junk r hne hn hw b1 b2 b3 b4 hj =>
    have ht : ';' ∉ type := by cases hw <;> decide
    have hc : ';' ∉ name := fun h => (hn _ h).2.2 rfl
    simp [b1.not_mem (c := ';') (by decide), b2.not_mem (c := ';') (by decide), b3.not_mem (c := ';') (by decide),
      b4.not_mem (c := ';') (by decide), hc, ht, hw.body.2, hj]

/-- A text is empty or declares a name. -/
inductive Declarations (stod : List Char → Except ParseExn Rat) (o : ParseOptions) : List (List Char × RepParams) → List (List Char) → Prop
  | nil : Declarations stod o [] []
  | empty {ds : List (List Char × RepParams)} {ts : List (List Char)} : Declarations stod o ds ts → Declarations stod o ds ([] :: ts)
  | cons {d : List Char × RepParams} {ds : List (List Char × RepParams)} {t : List Char} {ts : List (List Char)} :
    Declares stod o d t → Declarations stod o ds ts → Declarations stod o (d :: ds) (t :: ts)

theorem Declarations.semicolon {ds : List (List Char × RepParams)} {ts : List (List Char)} (h : Declarations stod o ds ts) :
    ∀ t ∈ ts, ';' ∉ t := by
  induction h with
  | nil => intro t ht; cases ht
  | empty _ ih =>
    intro t ht
    rcases List.mem_cons.mp ht with rfl | ht
    · simp
    · exact ih t ht
  | cons h _ ih =>
    intro t ht
    rcases List.mem_cons.mp ht with rfl | ht
    · exact h.semicolon
    · exact ih t ht

theorem foldlM_declarations {ds : List (List Char × RepParams)} {ts : List (List Char)} (h : Declarations stod o ds ts)
    (hl : ∀ t ∈ ts, t.length < 4294967296) (env : RepEnv) :
    ts.foldlM (parseDeclaration stod o) env = .ok (ds.foldl (fun e d => e.put d.1 d.2) env) := by
  induction h generalizing env with
  | nil => rfl
  | empty _ ih =>
    rw [List.foldlM_cons]
    show (do
      let e ← parseDeclaration stod o env []
      _) = _
    unfold parseDeclaration
    rw [if_pos rfl]
    exact ih (fun t ht => hl t (List.mem_cons_of_mem _ ht)) env
  | cons h _ ih =>
    rw [List.foldlM_cons, parseDeclaration_declares h (hl _ (by simp))]
    exact ih (fun t ht => hl t (List.mem_cons_of_mem _ ht)) _

theorem foldl_put (ds : List (List Char × RepParams)) (env : RepEnv) (name : List Char) :
    ds.foldl (fun e d => e.put d.1 d.2) env name = (lastDeclared ds name).or (env name) := by
  induction ds generalizing env with
  | nil => rfl
  | cons d ds ih =>
    rw [List.foldl_cons, ih]
    unfold lastDeclared
    rw [List.reverse_cons, List.find?_append]
    cases h : ds.reverse.find? (fun d => decide (d.1 = name)) with
    | some e => simp
    | none =>
      unfold RepEnv.put
      by_cases e : d.1 = name
      · subst e
        simp
      · have e' : ¬ name = d.1 := fun h => e h.symm
        simp [e, e']

theorem length_le_intercalate (c : Char) : ∀ {ts : List (List Char)} {t : List Char}, t ∈ ts → t.length ≤ (List.intercalate [c] ts).length
  | [u], t, h => by
    simp only [List.mem_singleton] at h
    subst h
    simp [List.intercalate]
  | u :: v :: ts, t, h => by
    have e : List.intercalate [c] (u :: v :: ts) = u ++ c :: List.intercalate [c] (v :: ts) := by
      simp [List.intercalate, List.intersperse]
    rw [e, List.length_append, List.length_cons]
    rcases List.mem_cons.mp h with rfl | h
    · omega
    · have := length_le_intercalate c h
      omega

/-- C69: declarations separated by semicolons, among which there may be empty ones, are parsed as an environment which binds each
declared name to the parameters of its last declaration, and no other name. -/
theorem parseRepresentations_correct {ds : List (List Char × RepParams)} {ts : List (List Char)} (hne : ts ≠ [])
    (h : Declarations stod o ds ts) (hl : (List.intercalate [';'] ts).length < 4294967296) :
    parseRepresentations stod o (List.intercalate [';'] ts) = .ok (lastDeclared ds) := by
  unfold parseRepresentations
  rw [splitAt_intercalate hne h.semicolon hl]
  show ts.foldlM (parseDeclaration stod o) (fun _ => none) = _
  rw [foldlM_declarations h (fun t ht => lt_of_le_of_lt (length_le_intercalate ';' ht) hl)]
  congr 1
  funext name
  rw [foldl_put]
  simp

/-- C69 (negative part): contrary to an empty declaration, a declaration made of white space is an error; so is therefore a file which
ends with a semicolon and a newline. -/
theorem parseRepresentations_blank {ds : List (List Char × RepParams)} {ts : List (List Char)} (h : Declarations stod o ds ts)
    {s : List Char} (hs : s ≠ []) (hb : Blank s) (hl : (List.intercalate [';'] (ts ++ [s])).length < 4294967296) :
    parseRepresentations stod o (List.intercalate [';'] (ts ++ [s])) = .error .runtime := by
  unfold parseRepresentations
  rw [splitAt_intercalate (by simp) (by
    intro t ht
    rcases List.mem_append.mp ht with ht | ht
    · exact h.semicolon t ht
    · rw [List.mem_singleton] at ht
      rw [ht]
      exact hb.not_mem (by decide)) hl]
  show (ts ++ [s]).foldlM (parseDeclaration stod o) (fun _ => none) = _
  rw [List.foldlM_append, foldlM_declarations h (fun t ht => lt_of_le_of_lt (length_le_intercalate ';' (by simp [ht])) hl)]
  show [s].foldlM (parseDeclaration stod o) _ = _
  rw [List.foldlM_cons]
  unfold parseDeclaration
  rw [if_neg hs, strFind_char_none (hb.not_mem (by decide))]
  rfl

/-- C69 (negative part): a bound which is not a number makes the conversion throw an exception which is not a `std::runtime_error`, so
that it is not caught in order to be thrown again with the name. -/
theorem parseType_conversion {x y : List Char} (hx : ',' ∉ x) (hy : ',' ∉ y) (hl : (x ++ ',' :: y).length < 4294967296)
    (h : (extractSign (skipSpace x)).2.takeWhile Char.isDigit = []) :
    parseType stod o "int".toList (x ++ ',' :: y) = .error .conversion := by
  unfold parseType parseIntRep
  rw [if_pos rfl, split_two hx hy hl]
  show (do
      let a ← stoi x
      let b ← stoi y
      Except.ok (RepParams.int a b)) = _
  have : stoi x = .error .conversion := by
    unfold stoi stringToInt
    simp only [h, if_true]
  rw [this]
  rfl

end

/-! ## Examples -/

/-- A conversion which knows a single number. -/
def exampleStod (s : List Char) : Except ParseExn Rat := if s = "0.5".toList then .ok (1 / 2) else .error .conversion

/-- The hypotheses of `parseRepresentations_correct` are met. -/
example : parseRepresentations exampleStod ⟨none, some 8⟩ " x : int(-3, 7) ;;y:double (0.5,0.5) ok;x:set(0.5,0.5)".toList =
    .ok (lastDeclared [("x".toList, .int (-3) 7), ("y".toList, .doubleSize (1 / 2) (1 / 2) 8), ("x".toList, .set [1 / 2, 1 / 2])]) := by
  have n : NumberText exampleStod (1 / 2) "0.5".toList := ⟨rfl, by unfold Plain; decide⟩
  have b : Blank [' '] := by unfold Blank; decide
  have e : Blank [] := by unfold Blank; decide
  have h3 : showInt 7 = ['7'] := by unfold showInt showNat; decide
  have h3' : showInt (-3) = ['-', '3'] := by unfold showInt showNat; decide
  have w1 : Written exampleStod ⟨none, some 8⟩ (.int (-3) 7) "int".toList "-3, 7".toList := by
    have := Written.int (stod := exampleStod) (o := ⟨none, some 8⟩) (a := -3) (b := 7) (by decide) (by decide) (by decide) (by decide)
      e e b e
    rw [h3, h3'] at this
    exact this
  have d1 : Declares exampleStod ⟨none, some 8⟩ ("x".toList, .int (-3) 7) " x : int(-3, 7) ".toList :=
    .mk (junk := [' ']) (by decide) (by decide) w1 b b b e (by decide)
  have d2 : Declares exampleStod ⟨none, some 8⟩ ("y".toList, .doubleSize (1 / 2) (1 / 2) 8) "y:double (0.5,0.5) ok".toList :=
    .mk (junk := " ok".toList) (by decide) (by decide) (.defaultSize n n rfl rfl) e e e b (by decide)
  have d3 : Declares exampleStod ⟨none, some 8⟩ ("x".toList, .set [1 / 2, 1 / 2]) "x:set(0.5,0.5)".toList :=
    .mk (junk := []) (by decide) (by decide) (.set (ts := ["0.5".toList, "0.5".toList]) (by decide) (.cons n (.cons n .nil))) e e e e
      (by decide)
  exact parseRepresentations_correct (by simp) (.cons d1 (.empty (.cons d2 (.cons d3 .nil)))) (by decide)

end Hnco
