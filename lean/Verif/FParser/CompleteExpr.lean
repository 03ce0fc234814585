import Verif.FParser.Complete

/-!
# Lemmas: every derivation of the grammar is found by the parser
-/

namespace Hnco.FParser

/-! ## The first character of an expression -/

/-- A character which may begin an element. -/
def ElemStart (c : Char) : Prop := c = '.' ∨ c.isDigit = true ∨ isHead c = true ∨ c = '('

theorem identifier_begins {x : List Char} (h : Identifier x) : ∃ c v, x = c :: v ∧ isHead c = true := by
  obtain ⟨c, r, rfl, hc, -⟩ := h
  exact ⟨c, r, rfl, by simpa [isHead] using hc⟩

theorem builtins_identifiers : ∀ p ∈ builtins, readIdentifier p.1 = p.1 ∧ p.1 ≠ [] := by decide +kernel

theorem builtin_identifier {x : List Char} {b : Builtin} (h : builtin x = some b) : Identifier x := by
  have h' := builtins_identifiers _ (builtin_mem h)
  simp only at h'
  obtain ⟨h1, -⟩ := readIdentifier_split (s := x) (by rw [h'.1]; exact h'.2)
  rwa [h'.1] at h1

theorem derives_begins {N : Names} {I : List (List Char)} {l : Level} {t : List Char} {e : Expr} (h : Derives N I l t e) :
    ∃ c v, t = c :: v ∧ (ElemStart c ∨ ((l ≠ .element ∧ l ≠ .power) ∧ (c = '-' ∨ c = '!'))) := by
  induction h with
  | literal ht hw =>
    obtain ⟨c, v, rfl, hc⟩ := literal_begins ht
    refine ⟨c, _, rfl, .inl ?_⟩
    unfold ElemStart; tauto
  | var hx => obtain ⟨c, v, rfl, hc⟩ := identifier_begins hx; exact ⟨c, _, rfl, .inl (by unfold ElemStart; tauto)⟩
  | const hx => obtain ⟨c, v, rfl, hc⟩ := identifier_begins hx; exact ⟨c, _, rfl, .inl (by unfold ElemStart; tauto)⟩
  | inl hx => obtain ⟨c, v, rfl, hc⟩ := identifier_begins hx; exact ⟨c, _, rfl, .inl (by unfold ElemStart; tauto)⟩
  | paren => exact ⟨'(', _, rfl, .inl (by unfold ElemStart; tauto)⟩
  | call1 hx =>
    obtain ⟨c, v, rfl, hc⟩ := identifier_begins (builtin_identifier (builtin_fn_iff.2 hx))
    exact ⟨c, _, rfl, .inl (by unfold ElemStart; tauto)⟩
  | call2 hx =>
    obtain ⟨c, v, rfl, hc⟩ := identifier_begins (builtin_identifier (builtin_fn_iff.2 hx))
    exact ⟨c, _, rfl, .inl (by unfold ElemStart; tauto)⟩
  | cond => exact ⟨'i', _, rfl, .inl (by unfold ElemStart; right; right; left; decide)⟩
  | power ha hw hb iha ihb =>
    obtain ⟨c, v, rfl, hc⟩ := iha
    refine ⟨c, _, rfl, ?_⟩
    rcases hc with hc | ⟨⟨h, -⟩, -⟩
    · exact .inl hc
    · exact absurd rfl h
  | neg => exact ⟨'-', _, rfl, .inr ⟨by simp, .inl rfl⟩⟩
  | not => exact ⟨'!', _, rfl, .inr ⟨by simp, .inr rfl⟩⟩
  | binary ho ha hw hb iha ihb =>
    obtain ⟨c, v, rfl, hc⟩ := iha
    exact ⟨c, _, by simp only [List.cons_append]; rfl, hc⟩
  | @tighter l t e hl h ih =>
    obtain ⟨c, v, rfl, hc⟩ := ih
    refine ⟨c, v, rfl, ?_⟩
    rcases hc with hc | ⟨⟨h1, h2⟩, hc⟩
    · exact .inl hc
    · exact .inr ⟨by cases l <;> simp_all [Level.tighter], hc⟩

theorem elemStart_cases {c : Char} (h : ElemStart c) :
    isSp c = false ∧ c ≠ '=' ∧ c ≠ ')' ∧ c ≠ '-' ∧ c ≠ '!' := by
  have key : ∀ d : Char, isWord d = false → d ≠ '.' → d ≠ '(' → c ≠ d := by
    rintro d h1 h2 h3 rfl
    rcases h with h | h | h | h
    · exact h2 h
    · simp [isWord, h] at h1
    · rw [isHead, Bool.or_eq_true] at h
      rcases h with h | h <;> simp [isWord, h] at h1
    · exact h3 h
  refine ⟨?_, key _ (by decide) (by decide) (by decide), key _ (by decide) (by decide) (by decide),
    key _ (by decide) (by decide) (by decide), key _ (by decide) (by decide) (by decide)⟩
  by_contra hc
  have hc : isSp c = true := by simpa using hc
  rw [isSp_iff] at hc
  simp only [List.mem_cons, List.not_mem_nil, or_false] at hc
  rcases hc with rfl | rfl | rfl | rfl | rfl <;>
    exact absurd rfl (key _ (by decide) (by decide) (by decide))

theorem derives_head {N : Names} {I : List (List Char)} {l : Level} {t : List Char} {e : Expr} (h : Derives N I l t e) :
    ∃ c v, t = c :: v ∧ isSp c = false ∧ c ≠ '=' ∧ c ≠ ')' := by
  obtain ⟨c, v, rfl, hc⟩ := derives_begins h
  refine ⟨c, v, rfl, ?_⟩
  rcases hc with hc | ⟨-, rfl | rfl⟩
  · have := elemStart_cases hc; tauto
  · decide
  · decide

theorem skipSp_derives {N : Names} {I : List (List Char)} {l : Level} {w t : List Char} {e : Expr} (hw : Spaces w)
    (h : Derives N I l t e) (z : List Char) : skipSp (w ++ (t ++ z)) = t ++ z := by
  obtain ⟨c, v, rfl, hc, -⟩ := derives_head h
  refine skipSp_append hw ?_
  intro d hd
  simp only [List.cons_append, List.head?_cons, Option.some.injEq] at hd
  rw [← hd]; exact hc

/-! ## What may follow an expression -/

/-- The operators recognized at a level. -/
def opAt : Level → List Char → Option (BinOp × List Char)
  | .product => mulOp
  | .sum => addOp
  | .comparison => cmpOp
  | .conjunction => andOp
  | .expression => orOp
  | _ => fun _ => none

/-- The text cannot continue an expression of the level. -/
def Follow : Level → List Char → Prop
  | .element, r => Ends r
  | .power, r => Ends r ∧ r.head? ≠ some '^'
  | .unary, r => Ends r ∧ r.head? ≠ some '^'
  | .product, r => (Ends r ∧ r.head? ≠ some '^') ∧ mulOp r = none
  | .sum, r => ((Ends r ∧ r.head? ≠ some '^') ∧ mulOp r = none) ∧ addOp r = none
  | .comparison, r => (((Ends r ∧ r.head? ≠ some '^') ∧ mulOp r = none) ∧ addOp r = none) ∧ cmpOp r = none
  | .conjunction, r =>
    ((((Ends r ∧ r.head? ≠ some '^') ∧ mulOp r = none) ∧ addOp r = none) ∧ cmpOp r = none) ∧ andOp r = none
  | .expression, r =>
    (((((Ends r ∧ r.head? ≠ some '^') ∧ mulOp r = none) ∧ addOp r = none) ∧ cmpOp r = none) ∧ andOp r = none) ∧ orOp r = none

theorem ends_cons {c : Char} {r : List Char} (h : isSp c = false ∧ isWord c = false ∧ c ≠ '.') : Ends (c :: r) := by
  intro d hd
  simp only [List.head?_cons, Option.some.injEq] at hd
  rw [← hd]; exact h

theorem follow_nil : Follow .expression [] := by
  simp [Follow, Ends, mulOp, addOp, cmpOp, andOp, orOp]

theorem follow_close (r : List Char) : Follow .expression (')' :: r) := by
  have : Ends (')' :: r) := ends_cons (by decide)
  simp [Follow, this, mulOp, addOp, cmpOp, andOp, orOp]

theorem follow_comma (r : List Char) : Follow .expression (',' :: r) := by
  have : Ends (',' :: r) := ends_cons (by decide)
  simp [Follow, this, mulOp, addOp, cmpOp, andOp, orOp]

theorem follow_semicolon (r : List Char) : Follow .expression (';' :: r) := by
  have : Ends (';' :: r) := ends_cons (by decide)
  simp [Follow, this, mulOp, addOp, cmpOp, andOp, orOp]

theorem op_follow {l : Level} {o : List Char} {op : BinOp} (h : Operator l o op) (z : List Char) :
    Follow l.tighter (o ++ z) := by
  have key : ∀ (c : Char) (r : List Char), (isSp c = false ∧ isWord c = false ∧ c ≠ '.') → Ends (c :: r) :=
    fun c r h => ends_cons h
  cases h <;>
    simp [Level.tighter, Follow, mulOp, addOp, cmpOp, andOp] <;> refine key _ _ ?_ <;> decide

theorem op_complete {l : Level} {o : List Char} {op : BinOp} (h : Operator l o op) {z : List Char} (hz : z.head? ≠ some '=') :
    opAt l (o ++ z) = some (op, z) := by
  cases h <;> simp [opAt, mulOp, addOp, cmpOp, andOp, orOp]
  all_goals
    cases z with
    | nil => rfl
    | cons c z =>
      have : c ≠ '=' := by simpa using hz
      split
      · next he => simp_all
      · next he => simp_all
      · next he => simp_all
      all_goals simp_all

/-! ## The functions of the parser -/

/-- The function of the parser for a level. -/
def parserAt (N : Names) (I : List (List Char)) : Level → Nat → List Char → PRes Expr
  | .element, n => compileElement N I (compileExpression N I n)
  | .power, n => compilePow (compileElement N I (compileExpression N I n)) (compileUnary N I n)
  | .unary, n => compileUnary N I (n + 1)
  | .product, n => compileMult (compileUnary N I (n + 1))
  | .sum, n => compileAddition (compileUnary N I (n + 1))
  | .comparison, n => compileComparison (compileUnary N I (n + 1))
  | .conjunction, n => compileAnd (compileUnary N I (n + 1))
  | .expression, n => chain (compileAnd (compileUnary N I (n + 1))) orOp

/-- What is proved by induction on the derivation: the function of the level accepts the text; if the level has a loop, it
has reached the text after it. -/
def Goal (N : Names) (I : List (List Char)) (l : Level) (n : Nat) (t : List Char) (e : Expr) (r : List Char) : Prop :=
  match l with
  | .element => Follow .element r → parserAt N I .element n (t ++ r) = .ok (e, r)
  | .power => Follow .power r → parserAt N I .power n (t ++ r) = .ok (e, r)
  | .unary => Follow .unary r → parserAt N I .unary n (t ++ r) = .ok (e, r)
  | l => Follow l.tighter r → ∃ k, r.length < k ∧
      parserAt N I l n (t ++ r) = chainLoop (parserAt N I l.tighter n) (opAt l) k e r

theorem chainLoop_stop {sub : List Char → PRes Expr} {op : List Char → Option (BinOp × List Char)} {k : Nat} {e : Expr}
    {r : List Char} (hk : r.length < k) (h : op r = none) : chainLoop sub op k e r = .ok (e, r) := by
  cases k with
  | zero => simp at hk
  | succ k => simp [chainLoop, h]

theorem Goal.ok {N : Names} {I : List (List Char)} {l : Level} {n : Nat} {t : List Char} {e : Expr} {r : List Char}
    (h : Goal N I l n t e r) (hf : Follow l r) : parserAt N I l n (t ++ r) = .ok (e, r) := by
  cases l
  case element => exact h hf
  case power => exact h hf
  case unary => exact h hf
  all_goals
    obtain ⟨k, hk, he⟩ := h hf.1
    rw [he]
    exact chainLoop_stop hk hf.2

theorem goal_chain {N : Names} {I : List (List Char)} {l : Level} {o : List Char} {op : BinOp} (ho : Operator l o op) (n : Nat)
    (t : List Char) (e : Expr) (r : List Char) :
    Goal N I l n t e r ↔ (Follow l.tighter r → ∃ k, r.length < k ∧
      parserAt N I l n (t ++ r) = chainLoop (parserAt N I l.tighter n) (opAt l) k e r) := by
  cases ho <;> rfl

theorem next_eq {α β : Type} {m : PRes α} {a : α} {r : List Char} (h : m = .ok (a, r)) (f : α → List Char → PRes β) :
    PRes.next m f = f a r := by
  rw [h]; rfl

/-- The parser of expressions on a derived text between spaces and something which ends it. -/
theorem expr_ok {N : Names} {I : List (List Char)} {w t : List Char} {e : Expr} (hw : Spaces w)
    (hd : Derives N I .expression t e) (ih : ∀ n r, 2 * (t ++ r).length ≤ n → Goal N I .expression n t e r) {n : Nat}
    {z : List Char} (hn : 2 * (t ++ z).length + 2 ≤ n) (hz : Follow .expression z) :
    compileExpression N I n (w ++ (t ++ z)) = .ok (e, z) := by
  obtain ⟨m, rfl⟩ : ∃ m, n = m + 2 := ⟨n - 2, by omega⟩
  have := (ih m z (by omega)).ok hz
  unfold compileExpression
  rw [skipSp_derives hw hd]
  exact this

theorem beginsLiteral_iff {s : List Char} : beginsLiteral s = true ↔ ∃ c v, s = c :: v ∧ (c = '.' ∨ c.isDigit = true) := by
  cases s with
  | nil => simp [beginsLiteral]
  | cons c s => simp [beginsLiteral, or_comm]

theorem identifier_not_literal {x r : List Char} (hx : Identifier x) : beginsLiteral (x ++ r) = false := by
  obtain ⟨c, v, rfl, hc⟩ := identifier_begins hx
  by_contra h
  rw [Bool.not_eq_false, beginsLiteral_iff] at h
  obtain ⟨d, u, he, hd⟩ := h
  simp only [List.cons_append, List.cons.injEq] at he
  rw [← he.1] at hd
  rcases hd with rfl | hd
  · exact absurd hc (by decide)
  · rw [isHead, Bool.or_eq_true] at hc
    rcases hc with hc | hc
    · rw [Char.isDigit] at hd
      simp only [Char.isAlpha, Char.isUpper, Char.isLower, Bool.or_eq_true, Bool.and_eq_true, decide_eq_true_eq] at hc hd
      have h1 : c.val.toNat ≤ 57 := hd.2
      rcases hc with hc | hc
      · have : 65 ≤ c.val.toNat := hc.1
        omega
      · have : 97 ≤ c.val.toNat := hc.1
        omega
    · simp at hc
      subst hc
      exact absurd hd (by decide)

/-- The beginning of `CompileElement` on an identifier followed by spaces. -/
theorem element_identifier {N : Names} {I : List (List Char)} {expr : List Char → PRes Expr} {x w r : List Char}
    (hx : Identifier x) (hw : Spaces w) (hr : Ends r) :
    compileElement N I expr (x ++ w ++ r) = match builtin x with
      | some .cond => compileIf expr r
      | some (.fn f) => compileFunction expr f r
      | none =>
        if x ∈ N.vars then .ok (.var x, r)
        else if x ∈ N.consts then .ok (.const x, r)
        else if x ∈ I then .ok (.inl x, r)
        else .error (.unknownIdentifier, x ++ w ++ r) := by
  rw [List.append_assoc]
  obtain ⟨h1, h2⟩ := readIdentifier_append hx (r := w ++ r) (fun c hc => (stop_append hw hr c hc).1)
  have hne : x ≠ [] := by obtain ⟨c, v, rfl, -⟩ := identifier_begins hx; simp
  unfold compileElement compileName
  rw [identifier_not_literal hx, h1, h2, skipSp_ends hw hr]
  simp only [Bool.false_eq_true, if_false, hne]
  rfl

theorem element_open {N : Names} {I : List (List Char)} (expr : List Char → PRes Expr) (r : List Char) :
    compileElement N I expr ('(' :: r) = compileParenthesis expr r := by
  have h1 : readIdentifier ('(' :: r) = [] := by
    have : isHead '(' = false := by decide
    simp [readIdentifier, this]
  have h2 : beginsLiteral ('(' :: r) = false := by
    by_contra h
    rw [Bool.not_eq_false, beginsLiteral_iff] at h
    obtain ⟨c, v, he, hc⟩ := h
    simp only [List.cons.injEq] at he
    rw [← he.1] at hc
    exact absurd hc (by decide)
  unfold compileElement
  rw [h1, h2]
  simp

theorem derives_complete {N : Names} {I : List (List Char)} {l : Level} {t : List Char} {e : Expr} (h : Derives N I l t e) :
    ∀ n r, 2 * (t ++ r).length ≤ n → Goal N I l n t e r := by
  induction h with
  | @literal t w q ht hw =>
    intro n r hn hf
    have hlit := parseLiteral_append ht (r := w ++ r) (stop_append hw hf)
    have hb : beginsLiteral (t ++ w ++ r) = true := by
      obtain ⟨c, v, rfl, hc⟩ := literal_begins ht
      exact beginsLiteral_iff.2 ⟨c, _, rfl, hc⟩
    change compileElement N I _ _ = _
    unfold compileElement compileLiteral
    rw [if_pos hb, List.append_assoc, hlit]
    simp only [skipSp_ends hw hf]
  | var hx hb hv hw =>
    intro n r hn hf
    change compileElement N I _ _ = _
    rw [element_identifier hx hw hf, builtin_none_iff.2 hb]
    simp [hv]
  | const hx hb hv hc hw =>
    intro n r hn hf
    change compileElement N I _ _ = _
    rw [element_identifier hx hw hf, builtin_none_iff.2 hb]
    simp [hv, hc]
  | inl hx hb hv hc hi hw =>
    intro n r hn hf
    change compileElement N I _ _ = _
    rw [element_identifier hx hw hf, builtin_none_iff.2 hb]
    simp [hv, hc, hi]
  | @paren w₁ t w₂ e h₁ he h₂ ih =>
    intro n r hn hf
    have := expr_ok (w := []) (by simp [Spaces]) he ih (n := n) (z := ')' :: (w₂ ++ r)) (by simp at hn ⊢; omega) (follow_close _)
    change compileElement N I _ _ = _
    have ht : '(' :: (w₁ ++ t ++ ')' :: w₂) ++ r = '(' :: (w₁ ++ (t ++ ')' :: (w₂ ++ r))) := by simp
    rw [ht, element_open]
    unfold compileParenthesis
    rw [skipSp_derives h₁ he]
    rw [List.nil_append] at this
    split
    · next r' he' =>
      obtain ⟨c, v, rfl, -, -, hc⟩ := derives_head he
      simp only [List.cons_append, List.cons.injEq] at he'
      exact absurd he'.1 hc
    · rw [next_eq this]
      simp only [skipSp_ends h₂ hf]
  | @call1 x w₀ w₁ t w₂ f a hx hp h₀ h₁ ha h₂ ih =>
    intro n r hn hf
    have := expr_ok h₁ ha ih (n := n) (z := ')' :: (w₂ ++ r)) (by simp at hn ⊢; omega) (follow_close _)
    change compileElement N I _ _ = _
    have ht : x ++ w₀ ++ '(' :: (w₁ ++ t ++ ')' :: w₂) ++ r = x ++ w₀ ++ '(' :: (w₁ ++ (t ++ ')' :: (w₂ ++ r))) := by simp
    rw [ht, element_identifier (builtin_identifier (builtin_fn_iff.2 hx)) h₀ (ends_cons (by decide)), builtin_fn_iff.2 hx]
    simp only [compileFunction, compileFirstParam, this]
    rw [next_eq rfl]
    rw [if_neg (fun h => hp ((params_iff f).1 h))]
    simp [compileClose, skipSp_ends h₂ hf]
  | @call2 x w₀ w₁ t w₂ u w₃ f a b hx hp h₀ h₁ ha h₂ hb h₃ iha ihb =>
    intro n r hn hf
    have e1 := expr_ok h₁ ha iha (n := n) (z := ',' :: (w₂ ++ (u ++ ')' :: (w₃ ++ r)))) (by simp at hn ⊢; omega) (follow_comma _)
    have e2 := expr_ok h₂ hb ihb (n := n) (z := ')' :: (w₃ ++ r)) (by simp at hn ⊢; omega) (follow_close _)
    change compileElement N I _ _ = _
    have ht : x ++ w₀ ++ '(' :: (w₁ ++ t ++ ',' :: (w₂ ++ u ++ ')' :: w₃)) ++ r =
        x ++ w₀ ++ '(' :: (w₁ ++ (t ++ ',' :: (w₂ ++ (u ++ ')' :: (w₃ ++ r))))) := by simp
    rw [ht, element_identifier (builtin_identifier (builtin_fn_iff.2 hx)) h₀ (ends_cons (by decide)), builtin_fn_iff.2 hx]
    simp only [compileFunction, compileFirstParam, e1]
    rw [next_eq rfl, if_pos ((params_iff f).2 hp)]
    simp only [compileComma]
    rw [next_eq e2]
    simp [compileClose, skipSp_ends h₃ hf]
  | @cond w₀ w₁ t w₂ u w₃ v w₄ c a b h₀ h₁ hc h₂ ha h₃ hb h₄ ihc iha ihb =>
    intro n r hn hf
    have e0 := expr_ok h₁ hc ihc (n := n) (z := ',' :: (w₂ ++ (u ++ ',' :: (w₃ ++ (v ++ ')' :: (w₄ ++ r))))))
      (by simp at hn ⊢; omega) (follow_comma _)
    have e1 := expr_ok h₂ ha iha (n := n) (z := ',' :: (w₃ ++ (v ++ ')' :: (w₄ ++ r)))) (by simp at hn ⊢; omega) (follow_comma _)
    have e2 := expr_ok h₃ hb ihb (n := n) (z := ')' :: (w₄ ++ r)) (by simp at hn ⊢; omega) (follow_close _)
    change compileElement N I _ _ = _
    have ht : 'i' :: 'f' :: (w₀ ++ '(' :: (w₁ ++ t ++ ',' :: (w₂ ++ u ++ ',' :: (w₃ ++ v ++ ')' :: w₄)))) ++ r =
        ['i', 'f'] ++ w₀ ++ '(' :: (w₁ ++ (t ++ ',' :: (w₂ ++ (u ++ ',' :: (w₃ ++ (v ++ ')' :: (w₄ ++ r))))))) := by simp
    have hb' : builtin ['i', 'f'] = some .cond := by decide +kernel
    rw [ht, element_identifier (builtin_identifier hb') h₀ (ends_cons (by decide)), hb']
    simp only [compileIf]
    rw [next_eq e0]
    simp only [compileComma]
    rw [next_eq e1]
    simp only []
    rw [next_eq e2]
    simp [compileClose, skipSp_ends h₄ hf]
  | @power t w u a b ha hw hb iha ihb =>
    intro n r hn hf
    have e1 : compileElement N I (compileExpression N I n) (t ++ '^' :: (w ++ (u ++ r))) = _ :=
      iha n ('^' :: (w ++ (u ++ r))) (by simpa using hn) (ends_cons (by decide))
    have hlen : 1 ≤ n := by simp at hn; omega
    obtain ⟨m, rfl⟩ : ∃ m, n = m + 1 := ⟨n - 1, by omega⟩
    have e2 : compileUnary N I (m + 1) (u ++ r) = _ := ihb m r (by simp at hn ⊢; omega) hf
    change compilePow _ _ _ = _
    have ht : t ++ '^' :: (w ++ u) ++ r = t ++ '^' :: (w ++ (u ++ r)) := by simp
    unfold compilePow
    rw [ht, next_eq e1]
    simp only [skipSp_derives hw hb]
    rw [next_eq e2]
  | @neg w t e hw he ih =>
    intro n r hn hf
    have hlen : 1 ≤ n := by simp at hn; omega
    obtain ⟨m, rfl⟩ : ∃ m, n = m + 1 := ⟨n - 1, by omega⟩
    have e2 : compileUnary N I (m + 1) (t ++ r) = _ := ih m r (by simp at hn ⊢; omega) hf
    change compileUnary N I _ ('-' :: (w ++ t ++ r)) = _
    rw [List.append_assoc]
    unfold compileUnary
    simp only [skipSp_derives hw he]
    rw [next_eq e2]
  | @not w t e hw he ih =>
    intro n r hn hf
    have hlen : 1 ≤ n := by simp at hn; omega
    obtain ⟨m, rfl⟩ : ∃ m, n = m + 1 := ⟨n - 1, by omega⟩
    have e2 : compileUnary N I (m + 1) (t ++ r) = _ := ih m r (by simp at hn ⊢; omega) hf
    change compileUnary N I _ ('!' :: (w ++ t ++ r)) = _
    rw [List.append_assoc]
    unfold compileUnary
    simp only [skipSp_derives hw he]
    rw [next_eq e2]
  | @binary l t o w u op a b ho ha hw hb iha ihb =>
    intro n r hn
    rw [goal_chain ho]
    intro hf
    have hz : (w ++ (u ++ r)).head? ≠ some '=' := by
      obtain ⟨c, v, rfl, -, hc, -⟩ := derives_head hb
      cases w with
      | nil => simpa using hc
      | cons d w =>
        intro h
        simp only [List.cons_append, List.head?_cons, Option.some.injEq] at h
        have := hw d (by simp)
        rw [h] at this
        exact absurd this (by decide)
    have e1 := iha n (o ++ (w ++ (u ++ r))) (by simpa using hn)
    rw [goal_chain ho] at e1
    obtain ⟨k, hk, e1⟩ := e1 (op_follow ho _)
    have e2 := (ihb n r (by simp at hn ⊢; omega)).ok hf
    have hpos : 0 < o.length := by cases ho <;> simp
    obtain ⟨k', rfl⟩ : ∃ k', k = k' + 1 := ⟨k - 1, by omega⟩
    refine ⟨k', by simp at hk; omega, ?_⟩
    have ht : t ++ o ++ w ++ u ++ r = t ++ (o ++ (w ++ (u ++ r))) := by simp
    rw [ht, e1]
    conv => lhs; unfold chainLoop
    rw [op_complete ho hz]
    simp only [skipSp_derives hw hb, e2]
  | @tighter l t e hl h ih =>
    intro n r hn
    have ih := ih n r hn
    cases l
    case element => exact absurd rfl hl
    case power =>
      intro hf
      have e1 : compileElement N I (compileExpression N I n) (t ++ r) = _ := ih hf.1
      change compilePow _ _ _ = _
      unfold compilePow
      rw [next_eq e1]
      split
      · next r' => exact absurd rfl hf.2
      · rfl
    case unary =>
      intro hf
      have e1 := ih hf
      obtain ⟨c, v, rfl, hc⟩ := derives_begins h
      have hc : ElemStart c := by
        rcases hc with hc | ⟨⟨-, h⟩, -⟩
        · exact hc
        · exact absurd rfl h
      obtain ⟨-, -, -, h1, h2⟩ := elemStart_cases hc
      change compileUnary N I (n + 1) _ = _
      unfold compileUnary
      split
      · next he => simp only [List.cons_append, List.cons.injEq] at he; exact absurd he.1 h1
      · next he => simp only [List.cons_append, List.cons.injEq] at he; exact absurd he.1 h2
      · exact e1
    all_goals
      intro hf
      have e1 := ih.ok hf
      refine ⟨r.length + 1, by omega, ?_⟩
      exact next_eq e1 _

theorem compileExpr_complete {N : Names} {I : List (List Char)} {w t z : List Char} {e : Expr} (hw : Spaces w)
    (hd : Derives N I .expression t e) (hz : Follow .expression z) : compileExpr N I (w ++ (t ++ z)) = .ok (e, z) :=
  expr_ok hw hd (derives_complete hd) (by simp) hz

end Hnco.FParser
