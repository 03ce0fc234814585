import Verif.FParser.CompleteExpr

/-!
# Lemmas: programs, and the errors of the parser
-/

namespace Hnco.FParser

/-! ## No colon in an expression -/

theorem colon_spaces {w : List Char} (hw : Spaces w) : ':' ∉ w := fun h => absurd (hw _ h) (by decide)

theorem colon_identifier {x : List Char} (hx : Identifier x) : ':' ∉ x := by
  obtain ⟨c, r, rfl, hc, hr⟩ := hx
  intro h
  rcases List.mem_cons.1 h with h | h
  · subst h; exact absurd hc (by decide)
  · exact absurd (hr _ h) (by decide)

theorem colon_digits {ds : List Char} (h : Digits ds) : ':' ∉ ds := fun hc => absurd (h _ hc) (by decide)

theorem colon_mantissa {P : List Char → Prop} {base : Nat} {t : List Char} {m : ℚ} (hP : ∀ ds, P ds → ':' ∉ ds)
    (h : Mantissa P base t m) : ':' ∉ t := by
  cases h with
  | whole _ ha => exact hP _ ha
  | point a b ha hb => simp [hP _ ha, hP _ hb]

theorem colon_exponent {marks u : List Char} {k : Int} (hm : ':' ∉ marks) (h : Exponent marks u k) : ':' ∉ u := by
  have key : ∀ c ∈ marks, ':' ≠ c := by rintro c hc rfl; exact hm hc
  cases h with
  | none => simp
  | plain c ds hc hd => simp [key c hc, colon_digits hd]
  | plus c ds hc hd => simp [key c hc, colon_digits hd]
  | minus c ds hc hd => simp [key c hc, colon_digits hd]

theorem colon_literal {t : List Char} {q : ℚ} (h : Literal t q) : ':' ∉ t := by
  cases h with
  | decimal t u m k hm hx => simp [colon_mantissa (fun _ => colon_digits) hm, colon_exponent (by decide) hx]
  | hexadecimal x t u m k hx hm hu =>
    have h1 : ':' ≠ x := by rintro rfl; exact absurd hx (by decide)
    have h2 : ':' ∉ t := colon_mantissa (fun ds h hc => absurd (h _ hc) (by decide)) hm
    simp [h1, h2, colon_exponent (by decide) hu]
  | noDigit => decide
  | noDigitExponent dot hdot c w u k hw hu =>
    have h1 : ':' ∉ dot := by rcases hdot with rfl | rfl <;> decide
    have h2 : ':' ∉ w := fun hc => absurd (hw _ hc) (by decide)
    have h3 : ':' ∉ c :: u := colon_exponent (by decide) hu
    simp only [List.mem_cons, not_or] at h3
    simp [h1, h2, h3.1, h3.2]

theorem derives_colon {N : Names} {I : List (List Char)} {l : Level} {t : List Char} {e : Expr} (h : Derives N I l t e) :
    ':' ∉ t := by
  induction h with
  | literal ht hw => simp [colon_literal ht, colon_spaces hw]
  | var hx hb hv hw => simp [colon_identifier hx, colon_spaces hw]
  | const hx hb hv hc hw => simp [colon_identifier hx, colon_spaces hw]
  | inl hx hb hv hc hi hw => simp [colon_identifier hx, colon_spaces hw]
  | paren h₁ he h₂ ih => simp [colon_spaces h₁, colon_spaces h₂, ih]
  | call1 hx hp h₀ h₁ ha h₂ ih =>
    simp [colon_identifier (builtin_identifier (builtin_fn_iff.2 hx)), colon_spaces h₀, colon_spaces h₁, colon_spaces h₂, ih]
  | call2 hx hp h₀ h₁ ha h₂ hb h₃ iha ihb =>
    simp [colon_identifier (builtin_identifier (builtin_fn_iff.2 hx)), colon_spaces h₀, colon_spaces h₁, colon_spaces h₂, colon_spaces h₃, iha, ihb]
  | cond h₀ h₁ hc h₂ ha h₃ hb h₄ ihc iha ihb =>
    simp [colon_spaces h₀, colon_spaces h₁, colon_spaces h₂, colon_spaces h₃, colon_spaces h₄, ihc, iha, ihb]
  | power ha hw hb iha ihb => simp [colon_spaces hw, iha, ihb]
  | neg hw he ih => simp [colon_spaces hw, ih]
  | not hw he ih => simp [colon_spaces hw, ih]
  | binary ho ha hw hb iha ihb =>
    have : ∀ (l : Level) (o : List Char) (op : BinOp), Operator l o op → ':' ∉ o := by
      intro l o op h; cases h <;> decide
    simp [this _ _ _ ho, colon_spaces hw, iha, ihb]
  | tighter hl h ih => exact ih

theorem inlineDef_derives {N : Names} {I : List (List Char)} {l : Level} {t : List Char} {e : Expr} (h : Derives N I l t e) :
    inlineDef N t = none := by
  cases hd : inlineDef N t with
  | none => rfl
  | some p =>
    obtain ⟨x, r⟩ := p
    exfalso
    obtain ⟨-, -, -, -, w, -, ht⟩ := inlineDef_split hd
    exact derives_colon h (by rw [ht]; simp)

theorem inlineDef_append {N : Names} {x w r : List Char} (hx : Identifier x) (hb : builtin x = none) (hv : x ∉ N.vars)
    (hc : x ∉ N.consts) (hw : Spaces w) : inlineDef N (x ++ w ++ ':' :: '=' :: r) = some (x, r) := by
  have hr : Ends (':' :: '=' :: r) := ends_cons (by decide)
  obtain ⟨h1, h2⟩ := readIdentifier_append hx (r := w ++ ':' :: '=' :: r) (fun c hc => (stop_append hw hr c hc).1)
  have hne : x ≠ [] := by obtain ⟨c, v, rfl, -⟩ := identifier_begins hx; simp
  unfold inlineDef
  rw [List.append_assoc, h1, h2, skipSp_ends hw hr]
  simp [hne, hb, hv, hc]

theorem skipSp_identifier {w x : List Char} (hw : Spaces w) (hx : Identifier x) (z : List Char) :
    skipSp (w ++ (x ++ z)) = x ++ z := by
  obtain ⟨c, v, rfl, hc⟩ := identifier_begins hx
  refine skipSp_append hw ?_
  intro d hd
  simp only [List.cons_append, List.head?_cons, Option.some.injEq] at hd
  subst hd
  exact (elemStart_cases (by unfold ElemStart; tauto)).1

theorem program_complete {N : Names} {I : List (List Char)} {t : List Char} {p : Program} (h : DerivesProgram N I t p) :
    ∀ n, t.length < n → compile N n I t = .ok (p, []) := by
  induction h with
  | @body I w t e hw he =>
    intro n hn
    obtain ⟨n, rfl⟩ : ∃ m, n = m + 1 := ⟨n - 1, by omega⟩
    have h1 : skipSp (w ++ t) = t := by simpa using skipSp_derives hw he []
    have h2 : compileExpr N I t = .ok (e, []) := by
      simpa using compileExpr_complete (w := []) (z := []) (by simp [Spaces]) he follow_nil
    unfold compile
    rw [h1, inlineDef_derives he]
    simp only
    rw [next_eq h2]
  | @last I w x w₁ w₂ t e hw hx hb hv hc h₁ h₂ he =>
    intro n hn
    obtain ⟨n, rfl⟩ : ∃ m, n = m + 1 := ⟨n - 1, by omega⟩
    have h1 := skipSp_identifier hw hx (w₁ ++ ':' :: '=' :: (w₂ ++ t))
    have h2 : compileExpr N I (w₂ ++ t) = .ok (e, []) := by
      simpa using compileExpr_complete (z := []) h₂ he follow_nil
    have h3 : inlineDef N (x ++ (w₁ ++ ':' :: '=' :: (w₂ ++ t))) = some (x, w₂ ++ t) := by
      rw [← List.append_assoc]; exact inlineDef_append hx (builtin_none_iff.2 hb) hv hc h₁
    have ht : w ++ x ++ w₁ ++ ':' :: '=' :: (w₂ ++ t) = w ++ (x ++ (w₁ ++ ':' :: '=' :: (w₂ ++ t))) := by simp
    unfold compile
    rw [ht, h1, h3]
    simp only
    rw [next_eq h2]
  | @define I w x w₁ w₂ t u e p hw hx hb hv hc h₁ h₂ he hp ih =>
    intro n hn
    obtain ⟨n, rfl⟩ : ∃ m, n = m + 1 := ⟨n - 1, by omega⟩
    have h1 := skipSp_identifier hw hx (w₁ ++ ':' :: '=' :: (w₂ ++ (t ++ ';' :: u)))
    have h2 : compileExpr N I (w₂ ++ (t ++ ';' :: u)) = .ok (e, ';' :: u) :=
      compileExpr_complete h₂ he (follow_semicolon u)
    have h3 : inlineDef N (x ++ (w₁ ++ ':' :: '=' :: (w₂ ++ (t ++ ';' :: u)))) = some (x, w₂ ++ (t ++ ';' :: u)) := by
      rw [← List.append_assoc]; exact inlineDef_append hx (builtin_none_iff.2 hb) hv hc h₁
    have h4 := ih n (by simp at hn; omega)
    have ht : w ++ x ++ w₁ ++ ':' :: '=' :: (w₂ ++ t ++ ';' :: u) =
        w ++ (x ++ (w₁ ++ ':' :: '=' :: (w₂ ++ (t ++ ';' :: u)))) := by simp
    unfold compile
    rw [ht, h1, h3]
    simp only
    rw [next_eq h2]
    simp only
    rw [next_eq h4]

/-! ## Errors -/

/-- The result on `s` is not that of an exhausted bound, and leaves an end of `s`. -/
def Fine {α : Type} (s : List Char) (m : PRes α) : Prop :=
  match m with
  | .error (k, r) => k ≠ .stuck ∧ r <:+ s
  | .ok (_, r) => r <:+ s

theorem Fine.mono {α : Type} {s s' : List Char} {m : PRes α} (h : Fine s m) (hs : s <:+ s') : Fine s' m := by
  unfold Fine at h ⊢
  split <;> simp only at h
  · exact ⟨h.1, h.2.trans hs⟩
  · exact h.trans hs

theorem Fine.next {α β : Type} {s : List Char} {m : PRes α} {f : α → List Char → PRes β} (h : Fine s m)
    (hf : ∀ a r, m = .ok (a, r) → r <:+ s → Fine s (f a r)) : Fine s (PRes.next m f) := by
  unfold PRes.next
  split
  · next x => exact h
  · next a r => exact hf a r rfl h

theorem skipSp_suffix (s : List Char) : skipSp s <:+ s := List.dropWhile_suffix _

theorem afterIdentifier_suffix (s : List Char) : afterIdentifier s <:+ s := List.drop_suffix _ _

theorem suffix_tail {c : Char} {r s : List Char} (h : c :: r <:+ s) : r <:+ s := (List.suffix_cons c r).trans h

/-- `P` is fine on the texts of length at most `k`. -/
def FineTo (k : Nat) (P : List Char → PRes Expr) : Prop := ∀ s : List Char, s.length ≤ k → Fine s (P s)

theorem fine_comma {expr : List Char → PRes Expr} {k : Nat} (h : FineTo k expr) {s : List Char} (hs : s.length ≤ k + 1) :
    Fine s (compileComma expr s) := by
  unfold compileComma
  split
  · next r => exact (h r (by simpa using hs)).mono (List.suffix_cons _ _)
  · refine ⟨?_, List.suffix_refl _⟩
    unfold noCommaError; split <;> simp

theorem fine_close {α : Type} (a : α) (s : List Char) : Fine s (compileClose a s) := by
  unfold compileClose
  split
  · next r => exact (skipSp_suffix r).trans (List.suffix_cons _ _)
  · refine ⟨?_, List.suffix_refl _⟩
    unfold noParenthError; split <;> simp

theorem fine_element {N : Names} {I : List (List Char)} {expr : List Char → PRes Expr} {k : Nat} (h : FineTo k expr) :
    FineTo (k + 1) (compileElement N I expr) := by
  intro s hs
  unfold compileElement
  split
  · unfold compileLiteral
    split
    · exact ⟨by simp, List.suffix_refl _⟩
    · next q r hq =>
      obtain ⟨t, rfl, -⟩ := parseLiteral_split hq
      exact (skipSp_suffix r).trans (List.suffix_append _ _)
  split
  · split
    · next r _ _ =>
      have hr : r.length ≤ k := by simpa using hs
      refine Fine.mono (s := r) ?_ (List.suffix_cons _ _)
      unfold compileParenthesis
      split
      · next r' he => exact ⟨by simp, he ▸ skipSp_suffix r⟩
      · refine Fine.next ((h _ ((skipSp_suffix r).length_le.trans hr)).mono (skipSp_suffix r)) ?_
        intro e r' _ hr'
        split
        · exact (skipSp_suffix _).trans (suffix_tail hr')
        · exact ⟨by simp, hr'⟩
    · exact ⟨by simp, List.suffix_refl _⟩
    · exact ⟨by simp, List.suffix_refl _⟩
  · have hsuf : skipSp (afterIdentifier s) <:+ s := (skipSp_suffix _).trans (afterIdentifier_suffix s)
    split
    · refine Fine.mono ?_ hsuf
      have hlen : (skipSp (afterIdentifier s)).length ≤ k + 1 := hsuf.length_le.trans hs
      revert hlen
      generalize skipSp (afterIdentifier s) = s'
      intro hlen
      unfold compileIf
      split
      · next r =>
        have hr : r.length ≤ k := by simpa using hlen
        refine Fine.mono (s := r) ?_ (List.suffix_cons _ _)
        refine Fine.next (h r hr) ?_
        intro c r1 _ h1
        refine Fine.next ((fine_comma h (by have := h1.length_le; omega)).mono h1) ?_
        intro a r2 _ h2
        refine Fine.next ((fine_comma h (by have := h2.length_le; omega)).mono h2) ?_
        intro b r3 _ h3
        exact (fine_close _ _).mono h3
      · exact ⟨by simp, List.suffix_refl _⟩
    · next f _ =>
      refine Fine.mono ?_ hsuf
      have hlen : (skipSp (afterIdentifier s)).length ≤ k + 1 := hsuf.length_le.trans hs
      revert hlen
      generalize skipSp (afterIdentifier s) = s'
      intro hlen
      unfold compileFunction
      split
      · next r =>
        have hr : r.length ≤ k := by simpa using hlen
        refine Fine.mono (s := r) ?_ (List.suffix_cons _ _)
        have hfirst : Fine r (compileFirstParam expr r) := by
          have := h r hr
          unfold compileFirstParam
          split
          · next p hp => rw [hp] at this; exact this
          · next x hx =>
            rw [hx] at this
            split
            · next r' he => exact ⟨by simp, he ▸ skipSp_suffix r⟩
            · exact this
        refine Fine.next hfirst ?_
        intro a r1 _ h1
        split
        · refine Fine.next ((fine_comma h (by have := h1.length_le; omega)).mono h1) ?_
          intro b r2 _ h2
          exact (fine_close _ _).mono h2
        · exact (fine_close _ _).mono h1
      · exact ⟨by simp, List.suffix_refl _⟩
    · unfold compileName
      simp only
      split
      · exact hsuf
      split
      · exact hsuf
      split
      · exact hsuf
      · exact ⟨by simp, List.suffix_refl _⟩

theorem op_suffix {l : Level} {op : List Char → Option (BinOp × List Char)} (hop : OpSound l op) {s : List Char} {o : BinOp}
    {r : List Char} (h : op s = some (o, r)) : r <:+ s ∧ r.length < s.length := by
  obtain ⟨t, rfl, ht⟩ := hop _ _ _ h
  refine ⟨List.suffix_append _ _, ?_⟩
  have : 0 < t.length := by cases ht <;> simp
  simp; omega

theorem fine_chainLoop {l : Level} {sub : List Char → PRes Expr} {op : List Char → Option (BinOp × List Char)} {k : Nat}
    (hsub : FineTo k sub) (hop : OpSound l op) :
    ∀ (n : Nat) (e : Expr) (s : List Char), s.length < n → s.length ≤ k → Fine s (chainLoop sub op n e s) := by
  intro n
  induction n with
  | zero => intro e s h; simp at h
  | succ n ih =>
    intro e s hn hk
    unfold chainLoop
    split
    · exact List.suffix_refl _
    · next o r ho =>
      obtain ⟨h1, h2⟩ := op_suffix hop ho
      have h3 : skipSp r <:+ s := (skipSp_suffix r).trans h1
      have hf := (hsub (skipSp r) (h3.length_le.trans hk))
      have hlen := (skipSp_suffix r).length_le
      split
      · next x hx => rw [hx] at hf; exact hf.mono h3
      · next e' r' hr' =>
        rw [hr'] at hf
        have hf : r' <:+ skipSp r := hf
        exact (ih _ r' (by have := hf.length_le; omega) (by have := hf.length_le; omega)).mono (hf.trans h3)

theorem fine_chain {l : Level} {sub : List Char → PRes Expr} {op : List Char → Option (BinOp × List Char)} {k : Nat}
    (hsub : FineTo k sub) (hop : OpSound l op) : FineTo k (chain sub op) := by
  intro s hs
  refine Fine.next (hsub s hs) ?_
  intro e r _ hr
  exact (fine_chainLoop hsub hop _ e r (by omega) (hr.length_le.trans hs)).mono hr

theorem fine_and {unary : List Char → PRes Expr} {k : Nat} (h : FineTo k unary) : FineTo k (compileAnd unary) :=
  fine_chain (fine_chain (fine_chain (fine_chain h mulOp_sound) addOp_sound) cmpOp_sound) andOp_sound

theorem fine_pair (N : Names) (I : List (List Char)) (k : Nat) : ∀ n,
    (2 * k + 1 ≤ n → FineTo k (compileUnary N I n)) ∧ (2 * k + 2 ≤ n → FineTo k (compileExpression N I n)) := by
  induction k with
  | zero =>
    have hu : ∀ n, 1 ≤ n → FineTo 0 (compileUnary N I n) := by
      intro n hn s hs
      obtain ⟨n, rfl⟩ : ∃ m, n = m + 1 := ⟨n - 1, by omega⟩
      have : s = [] := by simpa using hs
      subst this
      have h : compileUnary N I (n + 1) [] = .error (.syntaxError, []) := by
        simp [compileUnary, compilePow, compileElement, beginsLiteral, readIdentifier, PRes.next]
      rw [h]
      exact ⟨by simp, List.suffix_refl _⟩
    intro n
    refine ⟨fun hn => hu n (by omega), ?_⟩
    intro hn s hs
    obtain ⟨n, rfl⟩ : ∃ m, n = m + 1 := ⟨n - 1, by omega⟩
    unfold compileExpression
    have := fine_chain (fine_and (hu n (by omega))) orOp_sound (skipSp s) ((skipSp_suffix s).length_le.trans hs)
    exact this.mono (skipSp_suffix s)
  | succ k ih =>
    have hu : ∀ n, 2 * (k + 1) + 1 ≤ n → FineTo (k + 1) (compileUnary N I n) := by
      intro n hn s hs
      obtain ⟨n, rfl⟩ : ∃ m, n = m + 1 := ⟨n - 1, by omega⟩
      have ihu := (ih n).1 (by omega)
      have ihe := (ih n).2 (by omega)
      unfold compileUnary
      split
      · next r =>
        have hr : r.length ≤ k := by simpa using hs
        refine Fine.mono (s := r) (Fine.next ((ihu _ ((skipSp_suffix r).length_le.trans hr)).mono (skipSp_suffix r)) ?_)
          (List.suffix_cons _ _)
        intro e r' _ h; exact h
      · next r =>
        have hr : r.length ≤ k := by simpa using hs
        refine Fine.mono (s := r) (Fine.next ((ihu _ ((skipSp_suffix r).length_le.trans hr)).mono (skipSp_suffix r)) ?_)
          (List.suffix_cons _ _)
        intro e r' _ h; exact h
      · unfold compilePow
        refine Fine.next (fine_element ihe s hs) ?_
        intro a r _ hr
        split
        · next r' _ =>
          have h1 : r' <:+ s := suffix_tail hr
          have h2 : r'.length ≤ k := by have := hr.length_le; simp at this; omega
          refine Fine.next ((ihu _ ((skipSp_suffix r').length_le.trans h2)).mono ((skipSp_suffix r').trans h1)) ?_
          intro b r'' _ h; exact h
        · exact hr
    intro n
    refine ⟨hu n, ?_⟩
    intro hn s hs
    obtain ⟨n, rfl⟩ : ∃ m, n = m + 1 := ⟨n - 1, by omega⟩
    unfold compileExpression
    have := fine_chain (fine_and (hu n (by omega))) orOp_sound (skipSp s) ((skipSp_suffix s).length_le.trans hs)
    exact this.mono (skipSp_suffix s)

theorem fine_expr (N : Names) (I : List (List Char)) (s : List Char) : Fine s (compileExpr N I s) :=
  (fine_pair N I s.length _).2 (Nat.le_refl _) s (Nat.le_refl _)

theorem fine_compile (N : Names) : ∀ (n : Nat) (I : List (List Char)) (s : List Char), s.length < n → Fine s (compile N n I s) := by
  intro n
  induction n with
  | zero => intro I s h; simp at h
  | succ n ih =>
    intro I s hn
    unfold compile
    split
    · refine Fine.next ((fine_expr N I _).mono (skipSp_suffix s)) ?_
      intro e r _ h; exact h
    · next x r hd =>
      obtain ⟨-, -, -, -, w, -, ht⟩ := inlineDef_split hd
      have h0 := skipSp_suffix s
      rw [ht] at h0
      have h1 : r <:+ s := (suffix_tail (suffix_tail ((List.suffix_append _ _).trans h0)))
      refine Fine.next ((fine_expr N I r).mono h1) ?_
      intro e r' he hr'
      split
      · next r'' =>
        have hlen : r''.length < n := by
          have := hr'.length_le; simp at this; omega
        refine Fine.next ((ih _ r'' hlen).mono (suffix_tail hr')) ?_
        intro p r3 _ h; exact h
      · exact hr'

end Hnco.FParser
