import Verif.FParser.Deduce
import Verif.FParser.CompleteProgram
import Verif.FParser.SyntaxProps
import Verif.FParser.Value
import Verif.FParser.Variables
import Mathlib.Data.List.Nodup
import Mathlib.Data.List.Perm.Subperm

/-!
# Lemmas: deduction of the names of variables
-/

namespace Hnco.FParser

/-! ## Parsing with fewer variables -/

/-- The text `s` begins with one of the names `F`, which is not in `W`. -/
def Missing (W F : List (List Char)) (s : List Char) : Prop :=
  readIdentifier s ∈ F ∧ readIdentifier s ∉ W ∧ readIdentifier s ≠ [] ∧ builtin (readIdentifier s) = none

theorem Missing.mono {W F F' : List (List Char)} {s : List Char} (h : Missing W F s) (hF : F ⊆ F') : Missing W F' s :=
  ⟨hF h.1, h.2⟩

/-- What is known of the second result when the first one is a success. -/
def Tracks (W : List (List Char)) (a b : PRes Expr) : Prop :=
  ∀ e r, a = .ok (e, r) →
    (b = .ok (e, r) ∧ e.variables ⊆ W) ∨ ∃ s', b = .error (.unknownIdentifier, s') ∧ Missing W e.variables s'

theorem Tracks.next {W : List (List Char)} {m m' : PRes Expr} {f g : Expr → List Char → PRes Expr} (h : Tracks W m m')
    (hf : ∀ e r, e.variables ⊆ W → Tracks W (f e r) (g e r))
    (hsub : ∀ e r e' r', f e r = .ok (e', r') → e.variables ⊆ e'.variables) : Tracks W (PRes.next m f) (PRes.next m' g) := by
  intro e' r' hm
  obtain ⟨e, r, h1, h2⟩ := next_ok hm
  rcases h e r h1 with ⟨h3, h4⟩ | ⟨s', h3, h4⟩
  · rcases hf e r h4 e' r' h2 with ⟨h5, h6⟩ | ⟨s', h5, h6⟩
    · exact .inl ⟨by rw [h3]; exact h5, h6⟩
    · exact .inr ⟨s', by rw [h3]; exact h5, h6⟩
  · exact .inr ⟨s', by rw [h3]; rfl, h4.mono (hsub _ _ _ _ h2)⟩

theorem Tracks.ok {W : List (List Char)} {e : Expr} {r : List Char} (h : e.variables ⊆ W) : Tracks W (.ok (e, r)) (.ok (e, r)) := by
  intro e' r' h'
  simp only [Except.ok.injEq, Prod.mk.injEq] at h'
  obtain ⟨rfl, rfl⟩ := h'
  exact .inl ⟨rfl, h⟩

theorem Tracks.error {W : List (List Char)} {x : ParseErr × List Char} {b : PRes Expr} : Tracks W (.error x) b :=
  fun _ _ h => by simp at h

theorem tracks_comma {W : List (List Char)} {f g : List Char → PRes Expr} (h : ∀ s, Tracks W (f s) (g s)) (s : List Char) :
    Tracks W (compileComma f s) (compileComma g s) := by
  unfold compileComma
  split
  · exact h _
  · exact .error

theorem tracks_close {W : List (List Char)} {e : Expr} (s : List Char) (h : e.variables ⊆ W) :
    Tracks W (compileClose e s) (compileClose e s) := by
  unfold compileClose
  split
  · exact .ok h
  · exact .error

theorem close_variables {e e' : Expr} {s r : List Char} (h : compileClose e s = .ok (e', r)) : e' = e :=
  (compileClose_ok h).1

theorem tracks_first {W : List (List Char)} {f g : List Char → PRes Expr} (h : ∀ s, Tracks W (f s) (g s))
    (hf : ∀ s r, skipSp s = ')' :: r → ∀ p, f s ≠ .ok p) (s : List Char) :
    Tracks W (compileFirstParam f s) (compileFirstParam g s) := by
  intro e r he
  have hs := compileFirstParam_ok he
  rcases h s e r hs with ⟨h1, h2⟩ | ⟨s', h1, h2⟩
  · left
    refine ⟨?_, h2⟩
    unfold compileFirstParam
    rw [h1]
  · right
    refine ⟨s', ?_, h2⟩
    unfold compileFirstParam
    rw [h1]
    simp only
    split
    · next r' hr' => exact absurd hs (hf s r' hr' _)
    · rfl

theorem tracks_if {W : List (List Char)} {f g : List Char → PRes Expr} (h : ∀ s, Tracks W (f s) (g s)) (s : List Char) :
    Tracks W (compileIf f s) (compileIf g s) := by
  unfold compileIf
  split
  · next r =>
    refine Tracks.next (h r) (fun c r1 hc => ?_) (fun c r1 e' r' he => ?_)
    · refine Tracks.next (tracks_comma h r1) (fun a r2 ha => ?_) (fun a r2 e' r' he => ?_)
      · refine Tracks.next (tracks_comma h r2) (fun b r3 hb => ?_) (fun b r3 e' r' he => ?_)
        · exact tracks_close _ (by simp only [Expr.variables]; exact List.append_subset.2 ⟨List.append_subset.2 ⟨hc, ha⟩, hb⟩)
        · rw [close_variables he]; simp [Expr.variables]
      · obtain ⟨b, r3, -, he⟩ := next_ok he
        rw [close_variables he]; intro x hx; simp [Expr.variables, hx]
    · obtain ⟨a, r2, -, he⟩ := next_ok he
      obtain ⟨b, r3, -, he⟩ := next_ok he
      rw [close_variables he]; intro x hx; simp [Expr.variables, hx]
  · exact .error

theorem tracks_function {W : List (List Char)} {f g : List Char → PRes Expr} (h : ∀ s, Tracks W (f s) (g s))
    (hf : ∀ s r, skipSp s = ')' :: r → ∀ p, f s ≠ .ok p) (k : Fn) (s : List Char) :
    Tracks W (compileFunction f k s) (compileFunction g k s) := by
  unfold compileFunction
  split
  · next r =>
    refine Tracks.next (tracks_first h hf r) (fun a r1 ha => ?_) (fun a r1 e' r' he => ?_)
    · split
      · refine Tracks.next (tracks_comma h r1) (fun b r2 hb => ?_) (fun b r2 e' r' he => ?_)
        · exact tracks_close _ (by simp only [Expr.variables]; exact List.append_subset.2 ⟨ha, hb⟩)
        · rw [close_variables he]; simp [Expr.variables]
      · exact tracks_close _ ha
    · split at he
      · obtain ⟨b, r2, -, he⟩ := next_ok he
        rw [close_variables he]; simp [Expr.variables]
      · rw [close_variables he]; simp [Expr.variables]
  · exact .error

theorem tracks_parenthesis {W : List (List Char)} {f g : List Char → PRes Expr} (h : ∀ s, Tracks W (f s) (g s)) (s : List Char) :
    Tracks W (compileParenthesis f s) (compileParenthesis g s) := by
  unfold compileParenthesis
  split
  · exact .error
  · refine Tracks.next (h _) (fun e r he => ?_) (fun e r e' r' he => ?_)
    · split
      · exact .ok he
      · exact .error
    · split at he
      · simp only [Except.ok.injEq, Prod.mk.injEq] at he
        rw [← he.1]; simp [Expr.variables]
      · simp at he

theorem tracks_name {V W C I : List (List Char)} (hWV : W ⊆ V) (hVC : ∀ x ∈ V, x ∉ C) (hVI : ∀ x ∈ V, x ∉ I) (s : List Char)
    (hs : readIdentifier s ≠ []) (hb : builtin (readIdentifier s) = none) :
    Tracks W (compileName ⟨V, C⟩ I s) (compileName ⟨W, C⟩ I s) := by
  unfold compileName
  simp only
  by_cases hV : readIdentifier s ∈ V
  · rw [if_pos hV]
    by_cases hW : readIdentifier s ∈ W
    · rw [if_pos hW]
      exact .ok (by simpa [Expr.variables] using hW)
    · rw [if_neg hW, if_neg (hVC _ hV), if_neg (hVI _ hV)]
      intro e r he
      simp only [Except.ok.injEq, Prod.mk.injEq] at he
      refine .inr ⟨s, rfl, ?_, hW, hs, hb⟩
      rw [← he.1]; simp [Expr.variables]
  · rw [if_neg hV, if_neg (fun h => hV (hWV h))]
    split
    · exact .ok (by simp [Expr.variables])
    split
    · exact .ok (by simp [Expr.variables])
    · exact .error

theorem tracks_element {V W C I : List (List Char)} (hWV : W ⊆ V) (hVC : ∀ x ∈ V, x ∉ C) (hVI : ∀ x ∈ V, x ∉ I)
    {f g : List Char → PRes Expr} (h : ∀ s, Tracks W (f s) (g s)) (hf : ∀ s r, skipSp s = ')' :: r → ∀ p, f s ≠ .ok p)
    (s : List Char) : Tracks W (compileElement ⟨V, C⟩ I f s) (compileElement ⟨W, C⟩ I g s) := by
  unfold compileElement
  split
  · unfold compileLiteral
    split
    · exact .error
    · exact .ok (by simp [Expr.variables])
  split
  · split
    · exact tracks_parenthesis h _
    · exact .error
    · exact .error
  · next hid =>
    split
    · exact tracks_if h _
    · exact tracks_function h hf _ _
    · next hb => exact tracks_name hWV hVC hVI s hid hb

theorem tracks_chainLoop {W : List (List Char)} {f g : List Char → PRes Expr} (h : ∀ s, Tracks W (f s) (g s))
    (op : List Char → Option (BinOp × List Char)) (n : Nat) : ∀ (e : Expr) (s : List Char), e.variables ⊆ W →
      Tracks W (chainLoop f op n e s) (chainLoop g op n e s) := by
  have mono : ∀ (n : Nat) (e : Expr) (s : List Char) (e' : Expr) (r : List Char), chainLoop f op n e s = .ok (e', r) →
      e.variables ⊆ e'.variables := by
    intro n
    induction n with
    | zero => intro e s e' r he; simp [chainLoop] at he
    | succ n ih =>
      intro e s e' r he
      unfold chainLoop at he
      split at he
      · simp only [Except.ok.injEq, Prod.mk.injEq] at he
        rw [← he.1]; simp
      · split at he
        · simp at he
        · have := ih _ _ _ _ he
          simp only [Expr.variables] at this
          exact (List.append_subset.1 this).1
  have mono' : ∀ (n : Nat) (o : BinOp) (e e₁ : Expr) (s : List Char) (e' : Expr) (r : List Char),
      chainLoop f op n (.bin o e e₁) s = .ok (e', r) → e₁.variables ⊆ e'.variables := by
    intro n o e e₁ s e' r he
    have := mono _ _ _ _ _ he
    simp only [Expr.variables] at this
    exact (List.append_subset.1 this).2
  induction n with
  | zero => intro e s _; exact .error
  | succ n ih =>
    intro e s he
    unfold chainLoop
    split
    · exact .ok he
    · next o r _ =>
      intro e' r' h'
      split at h'
      · simp at h'
      · next e₁ r₁ h₁ =>
        rcases h _ _ _ h₁ with ⟨h2, h3⟩ | ⟨s', h2, h3⟩
        · rw [h2]
          simp only
          exact ih _ _ (by simp only [Expr.variables]; exact List.append_subset.2 ⟨he, h3⟩) _ _ h'
        · rw [h2]
          exact .inr ⟨s', rfl, h3.mono (mono' _ _ _ _ _ _ _ h')⟩

theorem chainLoop_mono {f : List Char → PRes Expr} {op : List Char → Option (BinOp × List Char)} :
    ∀ (n : Nat) (e : Expr) (s : List Char) (e' : Expr) (r : List Char), chainLoop f op n e s = .ok (e', r) →
      e.variables ⊆ e'.variables := by
  intro n
  induction n with
  | zero => intro e s e' r he; simp [chainLoop] at he
  | succ n ih =>
    intro e s e' r he
    unfold chainLoop at he
    split at he
    · simp only [Except.ok.injEq, Prod.mk.injEq] at he
      rw [← he.1]; simp
    · split at he
      · simp at he
      · have := ih _ _ _ _ he
        simp only [Expr.variables] at this
        exact (List.append_subset.1 this).1

theorem tracks_chain {W : List (List Char)} {f g : List Char → PRes Expr} (h : ∀ s, Tracks W (f s) (g s))
    (op : List Char → Option (BinOp × List Char)) (s : List Char) : Tracks W (chain f op s) (chain g op s) :=
  Tracks.next (h s) (fun e r he => tracks_chainLoop h op _ e r he) (fun _ _ _ _ he => chainLoop_mono _ _ _ _ _ he)

theorem tracks_and {W : List (List Char)} {f g : List Char → PRes Expr} (h : ∀ s, Tracks W (f s) (g s)) (s : List Char) :
    Tracks W (compileAnd f s) (compileAnd g s) :=
  tracks_chain (tracks_chain (tracks_chain (tracks_chain h mulOp) addOp) cmpOp) andOp s

theorem tracks_pow {W : List (List Char)} {f g f' g' : List Char → PRes Expr} (h : ∀ s, Tracks W (f s) (g s))
    (h' : ∀ s, Tracks W (f' s) (g' s)) (s : List Char) : Tracks W (compilePow f f' s) (compilePow g g' s) := by
  refine Tracks.next (h s) (fun a r ha => ?_) (fun a r e' r' he => ?_)
  · split
    · refine Tracks.next (h' _) (fun b r'' hb => ?_) (fun b r'' e' r' he => ?_)
      · exact .ok (by simp only [Expr.variables]; exact List.append_subset.2 ⟨ha, hb⟩)
      · simp only [Except.ok.injEq, Prod.mk.injEq] at he
        rw [← he.1]; simp [Expr.variables]
    · exact .ok ha
  · split at he
    · obtain ⟨b, r'', -, he⟩ := next_ok he
      simp only [Except.ok.injEq, Prod.mk.injEq] at he
      rw [← he.1]; simp [Expr.variables]
    · simp only [Except.ok.injEq, Prod.mk.injEq] at he
      rw [← he.1]; simp

/-- No expression begins with a closing parenthesis. -/
theorem expression_close {N : Names} {I : List (List Char)} (n : Nat) (s r : List Char) (hs : skipSp s = ')' :: r) (p : Expr × List Char) :
    compileExpression N I n s ≠ .ok p := by
  cases n with
  | zero => simp [compileExpression]
  | succ n =>
    unfold compileExpression
    rw [hs]
    have hu : ∃ x, compileUnary N I n (')' :: r) = .error x := by
      cases n with
      | zero => exact ⟨_, rfl⟩
      | succ n =>
        refine ⟨(.mismParenth, ')' :: r), ?_⟩
        rfl
    obtain ⟨x, hx⟩ := hu
    simp [compileAnd, compileComparison, compileAddition, compileMult, chain, hx, PRes.next]

theorem tracks_pair {V W C I : List (List Char)} (hWV : W ⊆ V) (hVC : ∀ x ∈ V, x ∉ C) (hVI : ∀ x ∈ V, x ∉ I) (n : Nat) :
    (∀ s, Tracks W (compileUnary ⟨V, C⟩ I n s) (compileUnary ⟨W, C⟩ I n s)) ∧
      ∀ s, Tracks W (compileExpression ⟨V, C⟩ I n s) (compileExpression ⟨W, C⟩ I n s) := by
  induction n with
  | zero => exact ⟨fun s => .error, fun s => .error⟩
  | succ n ih =>
    obtain ⟨ihu, ihe⟩ := ih
    have un : ∀ (k : Expr → Expr), (∀ e, (k e).variables = e.variables) → ∀ s,
        Tracks W (PRes.next (compileUnary ⟨V, C⟩ I n s) fun e r' => .ok (k e, r'))
          (PRes.next (compileUnary ⟨W, C⟩ I n s) fun e r' => .ok (k e, r')) := by
      intro k hk s
      refine Tracks.next (ihu s) (fun e r he => .ok (by rw [hk]; exact he)) (fun e r e' r' he => ?_)
      simp only [Except.ok.injEq, Prod.mk.injEq] at he
      rw [← he.1, hk]; simp
    refine ⟨fun s => ?_, fun s => ?_⟩
    · unfold compileUnary
      split
      · exact un .neg (fun _ => rfl) _
      · exact un .not (fun _ => rfl) _
      · exact tracks_pow (tracks_element hWV hVC hVI ihe (fun s r hs p => expression_close n s r hs p)) ihu _
    · unfold compileExpression
      exact tracks_chain (tracks_and ihu) orOp _

theorem tracks_expr {V W C I : List (List Char)} (hWV : W ⊆ V) (hVC : ∀ x ∈ V, x ∉ C) (hVI : ∀ x ∈ V, x ∉ I) (s : List Char) :
    Tracks W (compileExpr ⟨V, C⟩ I s) (compileExpr ⟨W, C⟩ I s) := (tracks_pair hWV hVC hVI _).2 s

theorem inlineDef_colon {N : Names} {t : List Char} (h : ':' ∉ t) : inlineDef N t = none := by
  cases hd : inlineDef N t with
  | none => rfl
  | some p =>
    obtain ⟨x, r⟩ := p
    exfalso
    obtain ⟨-, -, -, -, w, -, ht⟩ := inlineDef_split hd
    exact h (by rw [ht]; simp)

theorem next_error {α β : Type} {m : PRes α} {f : α → List Char → PRes β} {x : ParseErr × List Char} (h : m = .error x) :
    PRes.next m f = .error x := by rw [h]; rfl

/-- If a text means a program with the variables `V`, then, with fewer variables, either it is recognized as well, or the error
is at a variable which is missing. -/
theorem program_tracks {V W C : List (List Char)} (hWV : W ⊆ V) (hVC : ∀ x ∈ V, x ∉ C) {I : List (List Char)} {t : List Char}
    {p : Program} (h : DerivesProgram ⟨V, C⟩ I t p) : (∀ x ∈ V, x ∉ I) → ∀ n, t.length < n →
      (compile ⟨W, C⟩ n I t = .ok (p, []) ∧ p.variables ⊆ W) ∨
        ∃ s', compile ⟨W, C⟩ n I t = .error (.unknownIdentifier, s') ∧ Missing W p.variables s' := by
  induction h with
  | @body I w t e hw he =>
    intro hVI n hn
    obtain ⟨n, rfl⟩ : ∃ m, n = m + 1 := ⟨n - 1, by omega⟩
    have h1 : skipSp (w ++ t) = t := by simpa using skipSp_derives hw he []
    have h2 : compileExpr ⟨V, C⟩ I t = .ok (e, []) := by
      simpa using compileExpr_complete (w := []) (z := []) (by simp [Spaces]) he follow_nil
    unfold compile
    rw [h1, inlineDef_colon (derives_colon he)]
    simp only
    rcases tracks_expr hWV hVC hVI _ _ _ h2 with ⟨h3, h4⟩ | ⟨s', h3, h4⟩
    · exact .inl ⟨by rw [next_eq h3], by simpa [Program.variables] using h4⟩
    · exact .inr ⟨s', next_error h3, by simpa [Program.variables] using h4⟩
  | @last I w x w₁ w₂ t e hw hx hb hv hc h₁ h₂ he =>
    intro hVI n hn
    obtain ⟨n, rfl⟩ : ∃ m, n = m + 1 := ⟨n - 1, by omega⟩
    have h1 := skipSp_identifier hw hx (w₁ ++ ':' :: '=' :: (w₂ ++ t))
    have h2 : compileExpr ⟨V, C⟩ I (w₂ ++ t) = .ok (e, []) := by
      simpa using compileExpr_complete (z := []) h₂ he follow_nil
    have h3 : inlineDef ⟨W, C⟩ (x ++ (w₁ ++ ':' :: '=' :: (w₂ ++ t))) = some (x, w₂ ++ t) := by
      rw [← List.append_assoc]; exact inlineDef_append hx (builtin_none_iff.2 hb) (fun h => hv (hWV h)) hc h₁
    have ht : w ++ x ++ w₁ ++ ':' :: '=' :: (w₂ ++ t) = w ++ (x ++ (w₁ ++ ':' :: '=' :: (w₂ ++ t))) := by simp
    unfold compile
    rw [ht, h1, h3]
    simp only
    rcases tracks_expr hWV hVC hVI _ _ _ h2 with ⟨h3, h4⟩ | ⟨s', h3, h4⟩
    · exact .inl ⟨by rw [next_eq h3], by simpa [Program.variables] using h4⟩
    · exact .inr ⟨s', next_error h3, by simpa [Program.variables] using h4⟩
  | @define I w x w₁ w₂ t u e p hw hx hb hv hc h₁ h₂ he hp ih =>
    intro hVI n hn
    obtain ⟨n, rfl⟩ : ∃ m, n = m + 1 := ⟨n - 1, by omega⟩
    have h1 := skipSp_identifier hw hx (w₁ ++ ':' :: '=' :: (w₂ ++ (t ++ ';' :: u)))
    have h2 : compileExpr ⟨V, C⟩ I (w₂ ++ (t ++ ';' :: u)) = .ok (e, ';' :: u) :=
      compileExpr_complete h₂ he (follow_semicolon u)
    have h3 : inlineDef ⟨W, C⟩ (x ++ (w₁ ++ ':' :: '=' :: (w₂ ++ (t ++ ';' :: u)))) = some (x, w₂ ++ (t ++ ';' :: u)) := by
      rw [← List.append_assoc]; exact inlineDef_append hx (builtin_none_iff.2 hb) (fun h => hv (hWV h)) hc h₁
    have ht : w ++ x ++ w₁ ++ ':' :: '=' :: (w₂ ++ t ++ ';' :: u) =
        w ++ (x ++ (w₁ ++ ':' :: '=' :: (w₂ ++ (t ++ ';' :: u)))) := by simp
    have hvar : (⟨(x, e) :: p.defs, p.body⟩ : Program).variables = e.variables ++ p.variables := by
      simp [Program.variables]
    unfold compile
    rw [ht, h1, h3, hvar]
    simp only
    rcases tracks_expr hWV hVC hVI _ _ _ h2 with ⟨h3, h4⟩ | ⟨s', h3, h4⟩
    · rw [next_eq h3]
      simp only
      rcases ih (fun y hy hmem => by
        rcases List.mem_append.1 hmem with h | h
        · exact hVI y hy h
        · simp only [List.mem_singleton] at h
          subst h
          exact hv hy) n (by simp at hn; omega) with ⟨h5, h6⟩ | ⟨s', h5, h6⟩
      · exact .inl ⟨by rw [next_eq h5], List.append_subset.2 ⟨h4, h6⟩⟩
      · exact .inr ⟨s', next_error h5, h6.mono (List.subset_append_right _ _)⟩
    · exact .inr ⟨s', next_error h3, h4.mono (List.subset_append_left _ _)⟩

/-- The same, for `parseFunction`. -/
theorem parseFunction_tracks {V W C : List (List Char)} (hWV : W ⊆ V) (hVC : ∀ x ∈ V, x ∉ C) {s : List Char} {p : Program}
    (h : DerivesProgram ⟨V, C⟩ [] s p) :
    (parseFunction ⟨W, C⟩ s = .ok p ∧ p.variables ⊆ W) ∨
      ∃ i, parseFunction ⟨W, C⟩ s = .error (.unknownIdentifier, i) ∧ i < s.length ∧ Missing W p.variables (s.drop i) := by
  rcases program_tracks hWV hVC h (by simp) (s.length + 1) (by omega) with ⟨h1, h2⟩ | ⟨s', h1, h2⟩
  · exact .inl ⟨(parse_ok_iff _ _ _).2 h1, h2⟩
  · have hf := fine_compile ⟨W, C⟩ (s.length + 1) [] s (by omega)
    rw [h1] at hf
    obtain ⟨u, rfl⟩ := hf.2
    have hlen : (u ++ s').length - s'.length = u.length := by simp
    have hne : s' ≠ [] := by rintro rfl; exact h2.2.2.1 rfl
    refine .inr ⟨u.length, ?_, ?_, ?_⟩
    · unfold parseFunction
      rw [h1]
      simp
    · have := List.length_pos_of_ne_nil hne
      simp
      omega
    · simpa using h2

/-! ## Lists of names -/

/-- A name which can be that of a variable. -/
def Good (x : List Char) : Prop := Identifier x ∧ builtin x = none

theorem good_iff {s : List Char} (h : readIdentifier s ≠ []) (hb : builtin (readIdentifier s) = none) : Good (readIdentifier s) :=
  ⟨(readIdentifier_split h).1, hb⟩

theorem insertName_mem {x y : List Char} {l : List (List Char)} : y ∈ insertName x l ↔ y = x ∨ y ∈ l := by
  induction l with
  | nil => simp [insertName]
  | cons z l ih =>
    unfold insertName
    split
    · simp
    split
    · next h => subst h; simp
    · simp only [List.mem_cons, ih]; tauto

theorem insertName_sorted {x : List Char} {l : List (List Char)} (h : l.Pairwise (· < ·)) : (insertName x l).Pairwise (· < ·) := by
  induction l with
  | nil => simp [insertName]
  | cons z l ih =>
    unfold insertName
    rw [List.pairwise_cons] at h
    split
    · next hx =>
      rw [List.pairwise_cons, List.pairwise_cons]
      refine ⟨?_, h⟩
      intro y hy
      rcases List.mem_cons.1 hy with rfl | hy
      · exact hx
      · exact lt_trans hx (h.1 y hy)
    split
    · rw [List.pairwise_cons]; exact h
    · next h1 h2 =>
      rw [List.pairwise_cons]
      refine ⟨?_, ih h.2⟩
      intro y hy
      rcases insertName_mem.1 hy with rfl | hy
      · exact lt_of_le_of_ne (not_lt.1 h1) (fun h => h2 h.symm)
      · exact h.1 y hy

theorem insertName_of_mem {x : List Char} {l : List (List Char)} (h : l.Pairwise (· < ·)) (hx : x ∈ l) : insertName x l = l := by
  induction l with
  | nil => simp at hx
  | cons z l ih =>
    rw [List.pairwise_cons] at h
    unfold insertName
    rcases List.mem_cons.1 hx with rfl | hx
    · rw [if_neg (lt_irrefl _), if_pos rfl]
    · have := h.1 x hx
      rw [if_neg (not_lt.2 this.le), if_neg (ne_of_gt this), ih h.2 hx]

theorem insertName_length {x : List Char} {l : List (List Char)} (hx : x ∉ l) : (insertName x l).length = l.length + 1 := by
  induction l with
  | nil => simp [insertName]
  | cons z l ih =>
    simp only [List.mem_cons, not_or] at hx
    unfold insertName
    split
    · simp
    · rw [if_neg hx.1]; simp [ih hx.2]

theorem sorted_nodup {l : List (List Char)} (h : l.Pairwise (· < ·)) : l.Nodup := h.imp (fun h => ne_of_lt h)

theorem sorted_ext {l l' : List (List Char)} (h : l.Pairwise (· < ·)) (h' : l'.Pairwise (· < ·)) (hm : ∀ x, x ∈ l ↔ x ∈ l') :
    l = l' :=
  List.Perm.eq_of_pairwise (fun a b _ _ hab hba => absurd (lt_trans hab hba) (lt_irrefl _)) h h'
    ((List.perm_ext_iff_of_nodup (sorted_nodup h) (sorted_nodup h')).2 hm)

theorem readIdentifier_good {x r : List Char} (hx : Identifier x) (hr : ∀ c ∈ r.head?, isWord c = false) :
    readIdentifier (x ++ r) = x ∧ afterIdentifier (x ++ r) = r := readIdentifier_append hx hr

theorem skipSp_good {x r : List Char} (hx : Identifier x) : skipSp (x ++ r) = x ++ r := by
  simpa using skipSp_identifier (w := []) (by simp [Spaces]) hx r

/-- The loop which reads the names, on the text of distinct names. -/
theorem varLoop_join (C : List (List Char)) : ∀ (names : List (List Char)), (∀ x ∈ names, Good x) → names.Nodup →
    ∀ (n : Nat) (vs : List (List Char)), (∀ x ∈ names, x ∉ vs) → names.length < n →
      ((∀ x ∈ names, x ∉ C) → varLoop C n vs (joinNames names) = (true, vs ++ names)) ∧
        ((varLoop C n vs (joinNames names)).1 = true → ∀ x ∈ names, x ∉ C) := by
  intro names
  induction names with
  | nil =>
    intro _ _ n vs _ hn
    obtain ⟨n, rfl⟩ : ∃ m, n = m + 1 := ⟨n - 1, by simp at hn; omega⟩
    simp [varLoop, joinNames]
  | cons x names ih =>
    intro hg hnd n vs hvs hn
    obtain ⟨n, rfl⟩ : ∃ m, n = m + 1 := ⟨n - 1, by simp at hn; omega⟩
    obtain ⟨hx, hb⟩ := hg x (by simp)
    have hxvs : x ∉ vs := hvs x (by simp)
    have hne : x ≠ [] := by obtain ⟨c, v, rfl, -⟩ := identifier_begins hx; simp
    rw [List.nodup_cons] at hnd
    cases names with
    | nil =>
      have h1 := readIdentifier_good (r := []) hx (by simp)
      have h2 := skipSp_good (r := []) hx
      rw [List.append_nil] at h1 h2
      unfold varLoop
      have h3 : skipSp [] = [] := rfl
      simp only [joinNames, hne, if_false, h2, h1.1, h1.2, hb, ne_eq, not_true_eq_false, or_self, h3, hxvs, or_false]
      by_cases hC : x ∈ C <;> simp [hC]
    | cons y names =>
      have hj : joinNames (x :: y :: names) = x ++ ',' :: joinNames (y :: names) := rfl
      have h1 := readIdentifier_good (r := ',' :: joinNames (y :: names)) hx (by simp [isWord])
      have h2 := skipSp_good (r := ',' :: joinNames (y :: names)) hx
      have h3 : skipSp (',' :: joinNames (y :: names)) = ',' :: joinNames (y :: names) := by
        simp [skipSp, isSp]
      obtain ⟨ih1, ih2⟩ := ih (fun z hz => hg z (by simp [hz])) hnd.2 n (vs ++ [x]) (fun z hz => by
        simp only [List.mem_append, List.mem_singleton, not_or]
        exact ⟨hvs z (by simp [hz]), fun h => hnd.1 (h ▸ hz)⟩) (by simp at hn ⊢; omega)
      unfold varLoop
      rw [hj]
      simp only [List.append_eq_nil_iff, hne, false_and, if_false, h2, h1.1, h1.2, hb, ne_eq, not_true_eq_false, or_self, h3,
        hxvs, or_false]
      by_cases hC : x ∈ C
      · simp [hC]
      · simp only [hC, if_false]
        refine ⟨fun h => ?_, fun h z hz => ?_⟩
        · rw [ih1 (fun z hz => h z (by simp [hz]))]; simp
        · rcases List.mem_cons.1 hz with rfl | hz
          · exact hC
          · exact ih2 h z hz

theorem joinNames_length {names : List (List Char)} (h : ∀ x ∈ names, x ≠ []) : names.length ≤ (joinNames names).length := by
  induction names with
  | nil => simp
  | cons x names ih =>
    have h1 := List.length_pos_of_ne_nil (h x (by simp))
    cases names with
    | nil => simp [joinNames]; omega
    | cons y names =>
      have := ih (fun z hz => h z (by simp [hz]))
      simp only [joinNames, List.length_append, List.length_cons] at this ⊢
      omega

/-! ## States of the parser -/

/-- The variables of the parser are those of `mVariablesString`. -/
def PData.Consistent {K : Type} (d : PData K) : Prop :=
  varLoop (d.consts.map Prod.fst) (d.varString.length + 1) [] d.varString = (true, d.vars)

theorem parseVariables_eq {K : Type} {d : PData K} (h : d.Consistent) (s : List Char) :
    parseVariables d s = ((varLoop (d.consts.map Prod.fst) (s.length + 1) [] s).1,
      ⟨s, (varLoop (d.consts.map Prod.fst) (s.length + 1) [] s).2, d.consts⟩) := by
  unfold parseVariables
  split
  · next hs =>
    subst hs
    rw [h]
  · rfl

theorem parseVariables_join {K : Type} {d : PData K} (h : d.Consistent) {names : List (List Char)} (hg : ∀ x ∈ names, Good x)
    (hnd : names.Nodup) :
    ((∀ x ∈ names, x ∉ d.consts.map Prod.fst) ∧ parseVariables d (joinNames names) = (true, ⟨joinNames names, names, d.consts⟩) ∧
        (⟨joinNames names, names, d.consts⟩ : PData K).Consistent) ∨
      ((¬ ∀ x ∈ names, x ∉ d.consts.map Prod.fst) ∧ ∃ d', parseVariables d (joinNames names) = (false, d')) := by
  have hlen : names.length < (joinNames names).length + 1 := by
    have := joinNames_length (fun x hx => by obtain ⟨c, v, rfl, -⟩ := identifier_begins (hg x hx).1; simp)
    omega
  obtain ⟨h1, h2⟩ := varLoop_join (d.consts.map Prod.fst) names hg hnd ((joinNames names).length + 1) [] (by simp) hlen
  by_cases hC : ∀ x ∈ names, x ∉ d.consts.map Prod.fst
  · left
    have h3 := h1 hC
    rw [List.nil_append] at h3
    refine ⟨hC, ?_, h3⟩
    rw [parseVariables_eq h, h3]
  · right
    have : (varLoop (d.consts.map Prod.fst) ((joinNames names).length + 1) [] (joinNames names)).1 = false := by
      by_contra hb
      exact hC (h2 (by simpa using hb))
    rw [parseVariables_eq h, this]
    exact ⟨hC, _, rfl⟩

/-- `parse` with the text of names. -/
theorem parse_join {K : Type} {d : PData K} (h : d.Consistent) (s : List Char) {names : List (List Char)}
    (hg : ∀ x ∈ names, Good x) (hnd : names.Nodup) :
    ((∀ x ∈ names, x ∉ d.consts.map Prod.fst) ∧
        parse d s (joinNames names) = (parseFunction ⟨names, d.consts.map Prod.fst⟩ s, ⟨joinNames names, names, d.consts⟩) ∧
        (⟨joinNames names, names, d.consts⟩ : PData K).Consistent) ∨
      ((¬ ∀ x ∈ names, x ∉ d.consts.map Prod.fst) ∧
        ∃ d', parse d s (joinNames names) = (.error (.invalidVars, s.length), d')) := by
  rcases parseVariables_join h hg hnd with ⟨h1, h2, h3⟩ | ⟨h1, d', h2⟩
  · exact .inl ⟨h1, by unfold parse; rw [h2]; rfl, h3⟩
  · exact .inr ⟨h1, d', by unfold parse; rw [h2]⟩

/-! ## The loop -/

/-- What the names found so far satisfy. -/
structure LoopInv (s : List Char) (names : List (List Char)) : Prop where
  good : ∀ x ∈ names, Good x
  sorted : names.Pairwise (· < ·)
  found : ∀ x ∈ names, ∃ i < s.length, readIdentifier (s.drop i) = x

theorem LoopInv.length {s : List Char} {names : List (List Char)} (h : LoopInv s names) : names.length ≤ s.length := by
  have hs : names ⊆ (List.range s.length).map (fun i => readIdentifier (s.drop i)) := by
    intro x hx
    obtain ⟨i, hi, rfl⟩ := h.found x hx
    exact List.mem_map.2 ⟨i, List.mem_range.2 hi, rfl⟩
  have := (List.subperm_of_subset (sorted_nodup h.sorted) hs).length_le
  simpa using this

theorem LoopInv.insert {s : List Char} {names : List (List Char)} (h : LoopInv s names) {i : Nat}
    (hne : readIdentifier (s.drop i) ≠ []) (hb : builtin (readIdentifier (s.drop i)) = none) :
    LoopInv s (insertName (readIdentifier (s.drop i)) names) where
  good := fun x hx => by
    rcases insertName_mem.1 hx with rfl | hx
    · exact good_iff hne hb
    · exact h.good x hx
  sorted := insertName_sorted h.sorted
  found := fun x hx => by
    rcases insertName_mem.1 hx with rfl | hx
    · refine ⟨i, ?_, rfl⟩
      by_contra hi
      rw [List.drop_eq_nil_of_le (by omega)] at hne
      exact hne rfl
    · exact h.found x hx

/-- The loop ends. -/
theorem deduceLoop_ends {K : Type} (s : List Char) : ∀ (n : Nat) (d : PData K) (names : List (List Char)) (old : Option Nat),
    d.Consistent → LoopInv s names → s.length + 2 ≤ n + names.length → ∀ i, (deduceLoop s n d names old).1 ≠ .error (.stuck, i) := by
  intro n
  induction n with
  | zero =>
    intro d names old _ hinv hn
    have := hinv.length
    omega
  | succ n ih =>
    intro d names old hd hinv hn i
    unfold deduceLoop
    rcases parse_join hd s hinv.good (sorted_nodup hinv.sorted) with ⟨hC, hp, hc⟩ | ⟨hC, d', hp⟩
    · rw [hp]
      cases hf : parseFunction ⟨names, d.consts.map Prod.fst⟩ s with
      | ok p => simp
      | error x =>
        obtain ⟨t, j⟩ := x
        simp only
        have ht : t ≠ .stuck := by
          rcases parse_decides ⟨names, d.consts.map Prod.fst⟩ s with ⟨p, h⟩ | ⟨k, i', h, hk, -⟩
          · rw [h] at hf; simp at hf
          · rw [h] at hf
            simp only [Except.error.injEq, Prod.mk.injEq] at hf
            rw [← hf.1]; exact hk
        split
        · simp [ht]
        split
        · simp [ht]
        · next h1 h2 =>
          simp only [not_or, ne_eq, not_not] at h2
          by_cases hx : readIdentifier (s.drop j) ∈ names
          · rw [insertName_of_mem hinv.sorted hx]
            obtain ⟨m, rfl⟩ : ∃ m, n = m + 1 := ⟨n - 1, by have := hinv.length; omega⟩
            unfold deduceLoop
            rcases parse_join hc s hinv.good (sorted_nodup hinv.sorted) with ⟨-, hp', -⟩ | ⟨hC', -⟩
            · rw [hp', hf]
              simp [ht]
            · exact absurd hC hC'
          · refine ih _ _ _ hc (hinv.insert h2.1 h2.2) ?_ i
            rw [insertName_length hx]
            omega
    · rw [hp]
      simp only
      split
      · simp
      · rw [List.drop_length]
        simp [readIdentifier]

/-- The loop finds the variables of the program, if there is one. -/
theorem deduceLoop_finds {K : Type} {s : List Char} {V : List (List Char)} {p : Program} (C : List (List Char × K))
    (hVC : ∀ x ∈ V, x ∉ C.map Prod.fst) (hp : DerivesProgram ⟨V, C.map Prod.fst⟩ [] s p) :
    ∀ (n : Nat) (d : PData K) (names : List (List Char)) (old : Option Nat), d.Consistent → d.consts = C → LoopInv s names →
      names ⊆ V → names ⊆ p.variables → (∀ i, old = some i → readIdentifier (s.drop i) ∈ names) →
      (∃ i, (deduceLoop s n d names old).1 = .error (.stuck, i)) ∨
        ∃ names', (deduceLoop s n d names old).1 = .ok (names', p) ∧ names'.Pairwise (· < ·) ∧ ∀ x, x ∈ names' ↔ x ∈ p.variables := by
  have hFV : p.variables ⊆ V := by
    rcases parseFunction_tracks (List.Subset.refl V) hVC hp with ⟨-, h⟩ | ⟨i, h, -⟩
    · exact h
    · rw [(parse_iff_derives _ _ _).2 hp] at h
      simp at h
  intro n
  induction n with
  | zero => intro d names old _ _ _ _ _ _; exact .inl ⟨0, rfl⟩
  | succ n ih =>
    intro d names old hd hdC hinv hV hF hold
    subst hdC
    unfold deduceLoop
    rcases parse_join hd s hinv.good (sorted_nodup hinv.sorted) with ⟨hC, hp', hc⟩ | ⟨hC, d', hp'⟩
    · rw [hp']
      rcases parseFunction_tracks hV hVC hp with ⟨h1, h2⟩ | ⟨i, h1, h2, h3⟩
      · rw [h1]
        exact .inr ⟨names, rfl, hinv.sorted, fun x => ⟨fun h => hF h, fun h => h2 h⟩⟩
      · rw [h1]
        simp only
        have hne : old ≠ some i := fun h => h3.2.1 (hold i h)
        rw [if_neg hne, if_neg (by simp [h3.2.2.1, h3.2.2.2])]
        refine ih _ _ _ hc rfl (hinv.insert h3.2.2.1 h3.2.2.2) ?_ ?_ ?_
        · intro x hx
          rcases insertName_mem.1 hx with rfl | hx
          · exact hFV h3.1
          · exact hV hx
        · intro x hx
          rcases insertName_mem.1 hx with rfl | hx
          · exact h3.1
          · exact hF hx
        · intro j hj
          simp only [Option.some.injEq] at hj
          subst hj
          exact insertName_mem.2 (.inl rfl)
    · exact absurd (fun x hx => hVC x (hV hx)) hC

/-- A success of the loop is one of the parser, with the names found. -/
theorem deduceLoop_sound {K : Type} {s : List Char} (C : List (List Char × K)) :
    ∀ (n : Nat) (d : PData K) (names : List (List Char)) (old : Option Nat), d.Consistent → d.consts = C → LoopInv s names →
      ∀ names' p, (deduceLoop s n d names old).1 = .ok (names', p) →
        (∀ x ∈ names', x ∉ C.map Prod.fst) ∧ DerivesProgram ⟨names', C.map Prod.fst⟩ [] s p ∧
          (deduceLoop s n d names old).2.vars = names' ∧ (deduceLoop s n d names old).2.consts = C := by
  intro n
  induction n with
  | zero => intro d names old _ _ _ names' p h; simp [deduceLoop] at h
  | succ n ih =>
    intro d names old hd hdC hinv names' p h
    subst hdC
    unfold deduceLoop at h ⊢
    rcases parse_join hd s hinv.good (sorted_nodup hinv.sorted) with ⟨hC, hp', hc⟩ | ⟨hC, d', hp'⟩
    · rw [hp'] at h ⊢
      cases hf : parseFunction ⟨names, d.consts.map Prod.fst⟩ s with
      | ok q =>
        rw [hf] at h
        simp only [Except.ok.injEq, Prod.mk.injEq] at h
        obtain ⟨rfl, rfl⟩ := h
        exact ⟨hC, (parse_iff_derives _ _ _).1 hf, rfl, rfl⟩
      | error x =>
        obtain ⟨t, j⟩ := x
        rw [hf] at h
        simp only at h ⊢
        split at h
        · simp at h
        next h1 =>
        rw [if_neg h1]
        split at h
        · simp at h
        · next h2 =>
          rw [if_neg h2]
          simp only [not_or, ne_eq, not_not] at h2
          exact ih _ _ _ hc rfl (hinv.insert h2.1 h2.2) _ _ h
    · rw [hp'] at h
      simp only at h
      split at h
      · simp at h
      · rw [List.drop_length] at h
        simp [readIdentifier] at h

/-- The position of an error is in the text. -/
theorem deduceLoop_position {K : Type} (s : List Char) : ∀ (n : Nat) (d : PData K) (names : List (List Char)) (old : Option Nat)
    (k : ParseErr) (i : Nat), (deduceLoop s n d names old).1 = .error (k, i) → i ≤ s.length := by
  intro n
  induction n with
  | zero =>
    intro d names old k i h
    simp only [deduceLoop, Except.error.injEq, Prod.mk.injEq] at h
    omega
  | succ n ih =>
    intro d names old k i h
    have hpos : ∀ t j d', parse d s (joinNames names) = (.error (t, j), d') → j ≤ s.length := by
      intro t j d' hp
      unfold parse at hp
      split at hp
      · simp only [Prod.mk.injEq, Except.error.injEq] at hp
        omega
      · simp only [Prod.mk.injEq] at hp
        next e _ =>
        rcases parse_decides e.names s with ⟨p, h⟩ | ⟨k, i', h, -, hi⟩
        · rw [h] at hp; simp at hp
        · rw [h] at hp
          simp only [Except.error.injEq, Prod.mk.injEq] at hp
          omega
    unfold deduceLoop at h
    split at h
    · simp at h
    · next t j d' hp =>
      split at h
      · simp only [Except.error.injEq, Prod.mk.injEq] at h
        have := hpos _ _ _ hp
        omega
      split at h
      · simp only [Except.error.injEq, Prod.mk.injEq] at h
        have := hpos _ _ _ hp
        omega
      · exact ih _ _ _ _ _ h

/-! ## Values -/

theorem value_congr {ε : ℝ} {ρ ρ' : NameValues} (hc : ρ.const = ρ'.const) (hi : ρ.inl = ρ'.inl) (e : Expr)
    (hv : ∀ x ∈ e.variables, ρ.var x = ρ'.var x) : e.value ε ρ = e.value ε ρ' := by
  induction e with
  | lit q => rfl
  | var x => exact hv x (by simp [Expr.variables])
  | const x => simp [Expr.value, hc]
  | inl x => simp [Expr.value, hi]
  | paren e ih => exact ih hv
  | call1 f a ih => simp [Expr.value, ih hv]
  | call2 f a b iha ihb =>
    simp only [Expr.variables, List.mem_append] at hv
    simp [Expr.value, iha fun x h => hv x (.inl h), ihb fun x h => hv x (.inr h)]
  | cond c a b ihc iha ihb =>
    simp only [Expr.variables, List.mem_append] at hv
    simp [Expr.value, ihc fun x h => hv x (.inl (.inl h)), iha fun x h => hv x (.inl (.inr h)), ihb fun x h => hv x (.inr h)]
  | pow a b iha ihb =>
    simp only [Expr.variables, List.mem_append] at hv
    simp [Expr.value, iha fun x h => hv x (.inl h), ihb fun x h => hv x (.inr h)]
  | neg e ih => simp [Expr.value, ih hv]
  | not e ih => simp [Expr.value, ih hv]
  | bin o a b iha ihb =>
    simp only [Expr.variables, List.mem_append] at hv
    simp [Expr.value, iha fun x h => hv x (.inl h), ihb fun x h => hv x (.inr h)]

theorem valueAfter_congr {ε : ℝ} (ds : List (List Char × Expr)) : ∀ {ρ ρ' : NameValues} (_ : ρ.const = ρ'.const)
    (_ : ρ.inl = ρ'.inl) (e : Expr) (_ : ∀ x ∈ ds.flatMap (fun d => d.2.variables) ++ e.variables, ρ.var x = ρ'.var x),
    valueAfter ε ρ ds e = valueAfter ε ρ' ds e := by
  induction ds with
  | nil => intro ρ ρ' hc hi e hv; exact value_congr hc hi e (by simpa using hv)
  | cons d ds ih =>
    intro ρ ρ' hc hi e hv
    obtain ⟨x, d⟩ := d
    simp only [List.flatMap_cons, List.mem_append] at hv
    simp only [valueAfter]
    rw [value_congr hc hi d (fun y hy => hv y (.inl (.inl hy)))]
    congr 1
    funext v
    refine @ih ⟨ρ.var, ρ.const, fun y => if y = x then some v else ρ.inl y⟩
      ⟨ρ'.var, ρ'.const, fun y => if y = x then some v else ρ'.inl y⟩ hc (by simp [hi]) e (fun y hy => ?_)
    rcases List.mem_append.1 hy with h | h
    · exact hv y (.inl (.inr h))
    · exact hv y (.inr h)

theorem program_value_congr {ε : ℝ} {var var' const : List Char → Option ℝ} {p : Program}
    (hv : ∀ x ∈ p.variables, var x = var' x) : p.value ε var const = p.value ε var' const :=
  valueAfter_congr p.defs (ρ := ⟨var, const, fun _ => none⟩) (ρ' := ⟨var', const, fun _ => none⟩) rfl rfl p.body hv

theorem lookup_zip_map {names : List (List Char)} (σ : List Char → ℝ) {x : List Char} (hx : x ∈ names) :
    (names.zip (names.map σ)).lookup x = some (σ x) := by
  induction names with
  | nil => simp at hx
  | cons y names ih =>
    simp only [List.map_cons, List.zip_cons_cons, List.lookup_cons]
    by_cases hxy : x = y
    · subst hxy; simp
    · have : (x == y) = false := by simpa using hxy
      rw [this]
      exact ih (by simpa [hxy] using hx)

end Hnco.FParser
