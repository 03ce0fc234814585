import Verif.FParser.CompleteProgram

/-!
# Property C106: the parser accepts the grammar of expressions, and finds the only meaning of a text

The grammar is in `Verif/FParser/Grammar.lean`.
-/

namespace Hnco.FParser

/-! ## A specification: the text of a tree, with all parentheses -/

/-- The text of a binary operator. -/
def BinOp.text : BinOp → List Char
  | .mul => ['*'] | .div => ['/'] | .mod => ['%'] | .add => ['+'] | .sub => ['-'] | .eq => ['='] | .ne => ['!', '=']
  | .lt => ['<'] | .le => ['<', '='] | .gt => ['>'] | .ge => ['>', '='] | .and => ['&'] | .or => ['|']

/-- The text of a tree, where all operations are between parentheses.  The texts of the literals are given. -/
def Expr.text (lits : ℚ → List Char) : Expr → List Char
  | .lit q => lits q
  | .var x => x
  | .const x => x
  | .inl x => x
  | .paren e => '(' :: (e.text lits ++ [')'])
  | .call1 f a => f.name.toList ++ '(' :: (a.text lits ++ [')'])
  | .call2 f a b => f.name.toList ++ '(' :: (a.text lits ++ ',' :: (b.text lits ++ [')']))
  | .cond c a b => 'i' :: 'f' :: '(' :: (c.text lits ++ ',' :: (a.text lits ++ ',' :: (b.text lits ++ [')'])))
  | .pow a b => '(' :: (a.text lits ++ '^' :: (b.text lits ++ [')']))
  | .neg e => '(' :: '-' :: (e.text lits ++ [')'])
  | .not e => '(' :: '!' :: (e.text lits ++ [')'])
  | .bin op a b => '(' :: (a.text lits ++ op.text ++ (b.text lits ++ [')']))

/-- A tree without its parentheses. -/
def Expr.strip : Expr → Expr
  | .lit q => .lit q
  | .var x => .var x
  | .const x => .const x
  | .inl x => .inl x
  | .paren e => e.strip
  | .call1 f a => .call1 f a.strip
  | .call2 f a b => .call2 f a.strip b.strip
  | .cond c a b => .cond c.strip a.strip b.strip
  | .pow a b => .pow a.strip b.strip
  | .neg e => .neg e.strip
  | .not e => .not e.strip
  | .bin op a b => .bin op a.strip b.strip

/-- A tree which makes sense: literals are those of the given texts, the names are identifiers which are not reserved, each is what the tree says, and functions have
the right number of parameters. -/
def Expr.Valid (lits : ℚ → List Char) (N : Names) (I : List (List Char)) : Expr → Prop
  | .lit q => Literal (lits q) q
  | .var x => Identifier x ∧ ¬ Reserved x ∧ x ∈ N.vars
  | .const x => Identifier x ∧ ¬ Reserved x ∧ x ∉ N.vars ∧ x ∈ N.consts
  | .inl x => Identifier x ∧ ¬ Reserved x ∧ x ∉ N.vars ∧ x ∉ N.consts ∧ x ∈ I
  | .paren e => e.Valid lits N I
  | .call1 f a => ¬ f.Binary ∧ a.Valid lits N I
  | .call2 f a b => f.Binary ∧ a.Valid lits N I ∧ b.Valid lits N I
  | .cond c a b => c.Valid lits N I ∧ a.Valid lits N I ∧ b.Valid lits N I
  | .pow a b => a.Valid lits N I ∧ b.Valid lits N I
  | .neg e => e.Valid lits N I
  | .not e => e.Valid lits N I
  | .bin _ a b => a.Valid lits N I ∧ b.Valid lits N I

/-! ## Lemmas -/

theorem derives_up {N : Names} {I : List (List Char)} {t : List Char} {e : Expr} {l : Level} (h : Derives N I .element t e) :
    Derives N I l t e := by
  have h1 : Derives N I .power t e := .tighter (by simp) h
  have h2 : Derives N I .unary t e := .tighter (by simp) h1
  have h3 : Derives N I .product t e := .tighter (by simp) h2
  have h4 : Derives N I .sum t e := .tighter (by simp) h3
  have h5 : Derives N I .comparison t e := .tighter (by simp) h4
  have h6 : Derives N I .conjunction t e := .tighter (by simp) h5
  have h7 : Derives N I .expression t e := .tighter (by simp) h6
  cases l <;> assumption

theorem derives_binary_up {N : Names} {I : List (List Char)} {t : List Char} {e : Expr} {l : Level} {o : List Char} {op : BinOp}
    (ho : Operator l o op) (h : Derives N I l t e) : Derives N I .expression t e := by
  have h4 : Derives N I .product t e → Derives N I .sum t e := fun h => .tighter (by simp) h
  have h5 : Derives N I .sum t e → Derives N I .comparison t e := fun h => .tighter (by simp) h
  have h6 : Derives N I .comparison t e → Derives N I .conjunction t e := fun h => .tighter (by simp) h
  have h7 : Derives N I .conjunction t e → Derives N I .expression t e := fun h => .tighter (by simp) h
  cases ho
  exacts [h7 (h6 (h5 (h4 h))), h7 (h6 (h5 (h4 h))), h7 (h6 (h5 (h4 h))), h7 (h6 (h5 h)), h7 (h6 (h5 h)), h7 (h6 h), h7 (h6 h),
    h7 (h6 h), h7 (h6 h), h7 (h6 h), h7 (h6 h), h7 h, h]

theorem spaces_nil : Spaces [] := by simp [Spaces]

theorem operator_text (op : BinOp) : ∃ l, Operator l op.text op := by
  cases op
  exacts [⟨_, .mul⟩, ⟨_, .div⟩, ⟨_, .mod⟩, ⟨_, .add⟩, ⟨_, .sub⟩, ⟨_, .eq⟩, ⟨_, .ne⟩, ⟨_, .lt⟩, ⟨_, .le⟩, ⟨_, .gt⟩, ⟨_, .ge⟩,
    ⟨_, .and⟩, ⟨_, .or⟩]

theorem text_derives {N : Names} {I : List (List Char)} (lits : ℚ → List Char) (e : Expr)
    (h : e.Valid lits N I) : ∃ e', Derives N I .element (e.text lits) e' ∧ e'.strip = e.strip := by
  induction e with
  | lit q => exact ⟨.lit q, by simpa [Expr.text] using Derives.literal (N := N) (I := I) h spaces_nil, rfl⟩
  | var x => exact ⟨.var x, by simpa [Expr.text] using Derives.var (I := I) h.1 h.2.1 h.2.2 spaces_nil, rfl⟩
  | const x => exact ⟨.const x, by simpa [Expr.text] using Derives.const (I := I) h.1 h.2.1 h.2.2.1 h.2.2.2 spaces_nil, rfl⟩
  | inl x =>
    exact ⟨.inl x, by simpa [Expr.text] using Derives.inl h.1 h.2.1 h.2.2.1 h.2.2.2.1 h.2.2.2.2 spaces_nil, rfl⟩
  | paren e ih =>
    obtain ⟨e', hd, hs⟩ := ih h
    exact ⟨.paren e', by simpa [Expr.text] using Derives.paren spaces_nil (derives_up hd) spaces_nil, hs⟩
  | call1 f a ih =>
    obtain ⟨a', hd, hs⟩ := ih h.2
    exact ⟨.call1 f a', by simpa [Expr.text] using Derives.call1 rfl h.1 spaces_nil spaces_nil (derives_up hd) spaces_nil,
      by simp [Expr.strip, hs]⟩
  | call2 f a b iha ihb =>
    obtain ⟨a', hda, hsa⟩ := iha h.2.1
    obtain ⟨b', hdb, hsb⟩ := ihb h.2.2
    exact ⟨.call2 f a' b', by
      simpa [Expr.text] using
        Derives.call2 rfl h.1 spaces_nil spaces_nil (derives_up hda) spaces_nil (derives_up hdb) spaces_nil,
      by simp [Expr.strip, hsa, hsb]⟩
  | cond c a b ihc iha ihb =>
    obtain ⟨c', hdc, hsc⟩ := ihc h.1
    obtain ⟨a', hda, hsa⟩ := iha h.2.1
    obtain ⟨b', hdb, hsb⟩ := ihb h.2.2
    exact ⟨.cond c' a' b', by
      simpa [Expr.text] using
        Derives.cond spaces_nil spaces_nil (derives_up hdc) spaces_nil (derives_up hda) spaces_nil (derives_up hdb) spaces_nil,
      by simp [Expr.strip, hsa, hsb, hsc]⟩
  | pow a b iha ihb =>
    obtain ⟨a', hda, hsa⟩ := iha h.1
    obtain ⟨b', hdb, hsb⟩ := ihb h.2
    have h1 := Derives.power hda spaces_nil (derives_up (l := .unary) hdb)
    have h2 : Derives N I .product _ _ := .tighter (by simp) (.tighter (l := .unary) (by simp) h1)
    refine ⟨.paren (.pow a' b'), ?_, by simp [Expr.strip, hsa, hsb]⟩
    simpa [Expr.text] using Derives.paren spaces_nil (derives_binary_up .mul h2) spaces_nil
  | neg e ih =>
    obtain ⟨e', hd, hs⟩ := ih h
    have h1 := Derives.neg spaces_nil (derives_up (l := .unary) hd)
    have h2 : Derives N I .product _ _ := .tighter (by simp) h1
    refine ⟨.paren (.neg e'), ?_, by simp [Expr.strip, hs]⟩
    simpa [Expr.text] using Derives.paren spaces_nil (derives_binary_up .mul h2) spaces_nil
  | not e ih =>
    obtain ⟨e', hd, hs⟩ := ih h
    have h1 := Derives.not spaces_nil (derives_up (l := .unary) hd)
    have h2 : Derives N I .product _ _ := .tighter (by simp) h1
    refine ⟨.paren (.not e'), ?_, by simp [Expr.strip, hs]⟩
    simpa [Expr.text] using Derives.paren spaces_nil (derives_binary_up .mul h2) spaces_nil
  | bin op a b iha ihb =>
    obtain ⟨a', hda, hsa⟩ := iha h.1
    obtain ⟨b', hdb, hsb⟩ := ihb h.2
    obtain ⟨l, ho⟩ := operator_text op
    have h1 := Derives.binary ho (derives_up hda) spaces_nil (derives_up hdb)
    refine ⟨.paren (.bin op a' b'), ?_, by simp [Expr.strip, hsa, hsb]⟩
    simpa [Expr.text] using Derives.paren spaces_nil (derives_binary_up ho h1) spaces_nil

theorem parse_ok_iff (N : Names) (s : List Char) (p : Program) :
    parseFunction N s = .ok p ↔ compile N (s.length + 1) [] s = .ok (p, []) := by
  unfold parseFunction
  split
  · next h => simp [h]
  · next h => simp [h]
  · next p' r h =>
    simp only [h, reduceCtorEq, Except.ok.injEq, Prod.mk.injEq, false_iff, not_and]
    rintro rfl rfl
    exact absurd h (by tauto)

/-! ## Theorems -/

/-- C106: the parser accepts a text, and finds the program `p`, if and only if the grammar says that the text means `p`. -/
theorem parse_iff_derives (N : Names) (s : List Char) (p : Program) :
    parseFunction N s = .ok p ↔ DerivesProgram N [] s p := by
  rw [parse_ok_iff]
  constructor
  · intro h
    obtain ⟨t, ht, hd⟩ := compile_sound N _ _ _ _ _ h
    rw [List.append_nil] at ht
    rwa [ht]
  · intro h
    exact program_complete h _ (by omega)

/-- C106: the grammar is not ambiguous: a text has at most one meaning. -/
theorem program_unambiguous (N : Names) (s : List Char) (p q : Program) (hp : DerivesProgram N [] s p)
    (hq : DerivesProgram N [] s q) : p = q := by
  rw [← parse_iff_derives] at hp hq
  rw [hp] at hq
  simpa using hq

/-- C106: the parser always decides: it either accepts, or reports one of its errors, at a place of the text. -/
theorem parse_decides (N : Names) (s : List Char) :
    (∃ p, parseFunction N s = .ok p) ∨ ∃ k i, parseFunction N s = .error (k, i) ∧ k ≠ .stuck ∧ i ≤ s.length := by
  cases h : parseFunction N s with
  | ok p => exact .inl ⟨p, rfl⟩
  | error x =>
    right
    obtain ⟨k, i⟩ := x
    refine ⟨k, i, rfl, ?_⟩
    have hf := fine_compile N (s.length + 1) [] s (by omega)
    unfold parseFunction at h
    split at h
    · next t r hc =>
      simp only [Except.error.injEq, Prod.mk.injEq] at h
      rw [hc] at hf
      obtain ⟨rfl, rfl⟩ := h
      exact ⟨hf.1, by omega⟩
    · simp at h
    · simp only [Except.error.injEq, Prod.mk.injEq] at h
      obtain ⟨rfl, rfl⟩ := h
      exact ⟨by simp, by omega⟩

/-- C106: every tree can be written: the text of a valid tree, with all parentheses, is accepted, and what is found is that tree
with more parentheses. -/
theorem parse_text (N : Names) (lits : ℚ → List Char) (e : Expr) (h : e.Valid lits N []) :
    ∃ e', parseFunction N (e.text lits) = .ok ⟨[], e'⟩ ∧ e'.strip = e.strip := by
  obtain ⟨e', hd, hs⟩ := text_derives lits e h
  exact ⟨e', (parse_iff_derives _ _ _).2 (by simpa using DerivesProgram.body spaces_nil (derives_up hd)), hs⟩

/-- C106 (negative part): a definition which is not followed by a semicolon and an expression is accepted: its value is that of
the program. -/
theorem definition_accepted (N : Names) (x t : List Char) (e : Expr) (hx : Identifier x) (hr : ¬ Reserved x) (hv : x ∉ N.vars)
    (hc : x ∉ N.consts) (h : parseFunction N t = .ok ⟨[], e⟩) (ht : ':' ∉ t) :
    parseFunction N (x ++ ':' :: '=' :: t) = .ok ⟨[], e⟩ := by
  rw [parse_iff_derives] at h ⊢
  generalize hI : ([] : List (List Char)) = I at h ⊢
  generalize hp : (⟨[], e⟩ : Program) = p at h
  cases h with
  | @body I w t e' hw he =>
    subst hI
    simp only [Program.mk.injEq, true_and] at hp
    subst hp
    simpa using DerivesProgram.last spaces_nil hx hr hv hc spaces_nil hw he
  | last => simp at ht
  | define => simp at ht

/-! ## Examples -/

/-- The names of `x`, `y`, `pi` and `e`. -/
def exampleNames : Names := ⟨["x".toList, "y".toList], ["pi".toList, "e".toList]⟩

/-- The power binds tighter than the sign, is grouped from the right, and may be followed by a sign. -/
example : parseFunction exampleNames "-x^y^-2".toList =
    .ok ⟨[], .neg (.pow (.var ['x']) (.pow (.var ['y']) (.neg (.lit 2))))⟩ := by decide +kernel

/-- The other operators are grouped from the left. -/
example : parseFunction exampleNames "x - y/2*e - 1 < 3 & x".toList =
    .ok ⟨[], .bin .and (.bin .lt (.bin .sub (.bin .sub (.var ['x'])
      (.bin .mul (.bin .div (.var ['y']) (.lit 2)) (.const ['e']))) (.lit 1)) (.lit 3)) (.var ['x'])⟩ := by decide +kernel

/-- Inline variables, functions and conditionals. -/
example : parseFunction exampleNames "r := x*x; if(r > 2, sqrt(r), max(x, y))".toList =
    .ok ⟨[(['r'], .bin .mul (.var ['x']) (.var ['x']))],
      .cond (.bin .gt (.inl ['r']) (.lit 2)) (.call1 .sqrt (.inl ['r'])) (.call2 .max (.var ['x']) (.var ['y']))⟩ := by
  decide +kernel

/-- A text which is not an expression, and the place of its error. -/
example : parseFunction exampleNames "x + * y".toList = .error (.syntaxError, 4) := by decide +kernel

example : parseFunction exampleNames "x + z".toList = .error (.unknownIdentifier, 4) := by decide +kernel

example : parseFunction exampleNames "(x".toList = .error (.missingParenth, 2) := by decide +kernel

example : parseFunction exampleNames "2 x".toList = .error (.expectOperator, 2) := by decide +kernel

/-- Hexadecimal numbers without digits are accepted, and mean zero. -/
example : parseFunction exampleNames "0x. + 0xp5".toList = .ok ⟨[], .bin .add (.lit 0) (.lit 0)⟩ := by decide +kernel

/-- The hypotheses of `definition_accepted`. -/
example : parseFunction exampleNames "a := 3".toList = .ok ⟨[], .lit 3⟩ := by decide +kernel

/-- The hypotheses of `parse_text`. -/
example : (Expr.bin .mul (.bin .add (.var ['x']) (.lit 12)) (.call1 .sin (.const ['p', 'i']))).Valid
    (fun _ => ['1', '2']) exampleNames [] := by
  have hx : Identifier ['x'] := ⟨'x', [], rfl, .inl (by decide), by simp⟩
  have hp : Identifier ['p', 'i'] := ⟨'p', ['i'], rfl, .inl (by decide), by simp⟩
  have hn : ∀ x : List Char, builtin x = none → ¬ Reserved x := fun x h => builtin_none_iff.1 h
  have hl : Literal ['1', '2'] 12 := by
    obtain ⟨t, ht, hl⟩ := parseLiteral_split (s := ['1', '2']) (q := 12) (r := []) (by decide +kernel)
    rw [List.append_nil] at ht
    rwa [ht]
  exact ⟨⟨⟨hx, hn _ (by decide +kernel), by decide +kernel⟩, hl⟩, by simp [Fn.Binary], hp, hn _ (by decide +kernel),
    by decide +kernel, by decide +kernel⟩

end Hnco.FParser
