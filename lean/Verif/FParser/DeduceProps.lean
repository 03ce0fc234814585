import Verif.FParser.DeduceLemmas
import Verif.FParser.CodeProps
import Verif.FParser.RunLemmas

/-!
# Property C109: the variables of a parsed function are those of its expression

The meaning of a text is that of the grammar (`Verif/FParser/Grammar.lean`), and the value of an expression is defined in
`Verif/FParser/Value.lean`.
-/

namespace Hnco.FParser

open Outcome

/-! ## Lemmas -/

theorem fresh_consistent {K : Type} (consts : List (List Char × K)) : (⟨[], [], consts⟩ : PData K).Consistent := rfl

theorem fresh_inv (s : List Char) : LoopInv s [] := ⟨by simp, by simp, by simp⟩

theorem deduce_not_stuck {K : Type} (consts : List (List Char × K)) (s : List Char) (i : Nat) :
    (deduceVariables ⟨[], [], consts⟩ s).1 ≠ .error (.stuck, i) :=
  deduceLoop_ends s _ _ _ _ (fresh_consistent consts) (fresh_inv s) (by simp) i

theorem deduce_finds {K : Type} {consts : List (List Char × K)} {s : List Char} {V : List (List Char)} {p : Program}
    (hV : ∀ x ∈ V, x ∉ consts.map Prod.fst) (hp : DerivesProgram ⟨V, consts.map Prod.fst⟩ [] s p) :
    ∃ names, (deduceVariables ⟨[], [], consts⟩ s).1 = .ok (names, p) ∧ names.Pairwise (· < ·) ∧
      ∀ x, x ∈ names ↔ x ∈ p.variables := by
  rcases deduceLoop_finds consts hV hp (s.length + 2) ⟨[], [], consts⟩ [] none (fresh_consistent consts) rfl (fresh_inv s)
    (by simp) (by simp) (by simp) with ⟨i, h⟩ | h
  · exact absurd h (deduce_not_stuck consts s i)
  · exact h

theorem deduce_sound {K : Type} {consts : List (List Char × K)} {s : List Char} {names : List (List Char)} {p : Program}
    (h : (deduceVariables ⟨[], [], consts⟩ s).1 = .ok (names, p)) :
    (∀ x ∈ names, x ∉ consts.map Prod.fst) ∧ DerivesProgram ⟨names, consts.map Prod.fst⟩ [] s p ∧
      (deduceVariables ⟨[], [], consts⟩ s).2.vars = names ∧ (deduceVariables ⟨[], [], consts⟩ s).2.consts = consts :=
  deduceLoop_sound consts _ _ _ _ (fresh_consistent consts) rfl (fresh_inv s) _ _ h

/-- Running better code gives the same result, if there is one. -/
theorem evalCode_refines {ε : ℝ} {l r : List Instr} (h : Refines ε l r) {vals : List ℝ} {v : ℝ} (hv : evalCode ε vals l = some v) :
    evalCode ε vals r = some v := by
  unfold evalCode at hv ⊢
  cases hl : runCode ε vals l [] with
  | none => rw [hl] at hv; simp at hv
  | some st =>
    rw [hl] at hv
    rw [h vals [] st hl]
    exact hv

/-! ## Theorems -/

/-- C109: what the deduction of variables finds: the names of the variables are those which occur in the program, without
repetition and in alphabetical order, none of them is that of a constant, and, with these variables, the text means this
program. -/
theorem deduce_iff {K : Type} (consts : List (List Char × K)) (s : List Char) (names : List (List Char)) (p : Program) :
    (deduceVariables ⟨[], [], consts⟩ s).1 = .ok (names, p) ↔
      names.Pairwise (· < ·) ∧ (∀ x, x ∈ names ↔ x ∈ p.variables) ∧ (∀ x ∈ names, x ∉ consts.map Prod.fst) ∧
        DerivesProgram ⟨names, consts.map Prod.fst⟩ [] s p := by
  constructor
  · intro h
    obtain ⟨h1, h2, -⟩ := deduce_sound h
    obtain ⟨names', h3, h4, h5⟩ := deduce_finds h1 h2
    rw [h] at h3
    simp only [Except.ok.injEq, Prod.mk.injEq, and_true] at h3
    subst h3
    exact ⟨h4, h5, h1, h2⟩
  · rintro ⟨h1, h2, h3, h4⟩
    obtain ⟨names', h5, h6, h7⟩ := deduce_finds h3 h4
    rw [h5, sorted_ext h6 h1 (fun x => (h7 x).trans (h2 x).symm)]

/-- C109: the deduction never fails when it could succeed: if the text means a program with some variables, whose names are not
those of constants, then the deduction finds the same program. -/
theorem deduce_complete {K : Type} (consts : List (List Char × K)) (s : List Char) (V : List (List Char)) (p : Program)
    (hV : ∀ x ∈ V, x ∉ consts.map Prod.fst) (hp : DerivesProgram ⟨V, consts.map Prod.fst⟩ [] s p) :
    ∃ names, (deduceVariables ⟨[], [], consts⟩ s).1 = .ok (names, p) := by
  obtain ⟨names, h, -⟩ := deduce_finds hV hp
  exact ⟨names, h⟩

/-- C109: the deduction always ends, and, if it fails, it reports one of the errors of the parser, at a place of the text: there
are then no variables with which the text means something. -/
theorem deduce_refuses {K : Type} (consts : List (List Char × K)) (s : List Char) :
    (∃ k i, (deduceVariables ⟨[], [], consts⟩ s).1 = .error (k, i) ∧ k ≠ .stuck ∧ i ≤ s.length) ↔
      ∀ V p, (∀ x ∈ V, x ∉ consts.map Prod.fst) → ¬ DerivesProgram ⟨V, consts.map Prod.fst⟩ [] s p := by
  constructor
  · rintro ⟨k, i, h, -⟩ V p hV hp
    obtain ⟨names, h'⟩ := deduce_complete consts s V p hV hp
    rw [h] at h'
    simp at h'
  · intro h
    cases hd : (deduceVariables ⟨[], [], consts⟩ s).1 with
    | ok r =>
      obtain ⟨names, p⟩ := r
      obtain ⟨h1, h2, -⟩ := deduce_sound hd
      exact absurd h2 (h names p h1)
    | error x =>
      obtain ⟨k, i⟩ := x
      refine ⟨k, i, rfl, ?_, deduceLoop_position _ _ _ _ _ _ _ hd⟩
      rintro rfl
      exact deduce_not_stuck consts s i hd

/-- C109: the meaning of a text does not depend on the variables: with two sets of variables, it cannot mean two programs. -/
theorem meaning_unique (C V V' : List (List Char)) (hV : ∀ x ∈ V, x ∉ C) (hV' : ∀ x ∈ V', x ∉ C) (s : List Char) (p p' : Program)
    (hp : DerivesProgram ⟨V, C⟩ [] s p) (hp' : DerivesProgram ⟨V', C⟩ [] s p') : p = p' := by
  have hC : (C.map (fun x => (x, ()))).map Prod.fst = C := by simp [Function.comp_def]
  rw [← hC] at hp hp' hV hV'
  obtain ⟨n, h⟩ := deduce_complete _ s V p hV hp
  obtain ⟨n', h'⟩ := deduce_complete _ s V' p' hV' hp'
  rw [h] at h'
  simp only [Except.ok.injEq, Prod.mk.injEq] at h'
  exact h'.2

/-- The values of the constants of HNCO. -/
noncomputable def hncoConstants (x : List Char) : Option ℝ :=
  if x = "pi".toList then some Real.pi else if x = "e".toList then some (Real.exp 1) else none

theorem hncoParser_eq : hncoParser = ⟨[], [], [("pi".toList, Real.pi), ("e".toList, Real.exp 1)]⟩ := by
  have h1 : validName "pi".toList = true := by decide +kernel
  have h2 : validName "e".toList = true := by decide +kernel
  unfold hncoParser PData.new addConstant
  simp only [h1, h2]
  simp

theorem hncoConstants_lookup : (fun x => [("pi".toList, Real.pi), ("e".toList, Real.exp 1)].lookup x) = hncoConstants := by
  funext x
  unfold hncoConstants
  rw [List.lookup_cons, List.lookup_cons, List.lookup_nil]
  by_cases h1 : x = "pi".toList
  · rw [if_pos h1, h1]; rfl
  · have h1' : (x == "pi".toList) = false := by simpa using h1
    rw [if_neg h1, h1']
    by_cases h2 : x = "e".toList
    · rw [if_pos h2, h2]; rfl
    · have h2' : (x == "e".toList) = false := by simpa using h2
      rw [if_neg h2, h2']

/-- C109: a parsed function, from the text of the expression to the values: if the text means a program, with some variables
which are not the constants `pi` and `e`, then it is accepted, the variables of the function are those of the program in
alphabetical order, and the value of the function, at the values of the variables in this order, is that of the program.  The
optimizations are any which never change what the code computes. -/
theorem parsed_function {ε : ℝ} (O : Optimizer) (hadd : AddsOp ε O.addOp) (hopt : ∀ c, Refines ε c (O.optimize c)) (s : List Char)
    (V : List (List Char)) (p : Program) (hV : "pi".toList ∉ V ∧ "e".toList ∉ V)
    (hp : DerivesProgram ⟨V, ["pi".toList, "e".toList]⟩ [] s p) :
    ∃ f, parsedParse O hncoParser s = ok f ∧ f.names.Pairwise (· < ·) ∧ (∀ x, x ∈ f.names ↔ x ∈ p.variables) ∧
      ∀ (σ : List Char → ℝ) (v : ℝ), p.value ε (fun x => some (σ x)) hncoConstants = some v →
        f.evaluate ε (f.names.map σ) = v := by
  rw [hncoParser_eq]
  set C : List (List Char × ℝ) := [("pi".toList, Real.pi), ("e".toList, Real.exp 1)] with hCdef
  have hV' : ∀ x ∈ V, x ∉ C.map Prod.fst := by
    intro x hx hC
    simp only [hCdef, List.map_cons, List.map_nil, List.mem_cons, List.not_mem_nil, or_false] at hC
    rcases hC with rfl | rfl
    · exact hV.1 hx
    · exact hV.2 hx
  obtain ⟨names, h1, h2, h3⟩ := deduce_finds (consts := C) hV' hp
  obtain ⟨h4, h5, h6, h7⟩ := deduce_sound h1
  generalize hd : deduceVariables ⟨[], [], C⟩ s = r at h1 h6 h7
  obtain ⟨r1, d'⟩ := r
  simp only at h1 h6 h7
  subst h1
  refine ⟨⟨names, O.optimize (programCode ⟨O.addOp, d'.vars, d'.consts⟩ p)⟩, ?_, h2, h3, ?_⟩
  · unfold parsedParse
    rw [hd]
  · intro σ v hv
    unfold ParsedFunction.evaluate evalResult
    rw [h6, h7]
    have h8 : evalCode ε (names.map σ) (programCode ⟨O.addOp, names, C⟩ p) = some v := by
      refine code_computes_value ε ⟨O.addOp, names, C⟩ hadd p _ v ?_
      simp only
      rw [hncoConstants_lookup, ← hv]
      exact program_value_congr fun x hx => lookup_zip_map σ ((h3 x).2 hx)
    rw [evalCode_refines (hopt _) h8]
    rfl

/-- C109: if there are no variables with which the text means something, then it is refused: an exception is thrown. -/
theorem parsed_function_refused (O : Optimizer) (s : List Char)
    (h : ∀ V p, "pi".toList ∉ V → "e".toList ∉ V → ¬ DerivesProgram ⟨V, ["pi".toList, "e".toList]⟩ [] s p) :
    parsedParse O hncoParser s = .throw .runtimeError := by
  rw [hncoParser_eq]
  obtain ⟨k, i, h1, -⟩ := (deduce_refuses [("pi".toList, Real.pi), ("e".toList, Real.exp 1)] s).2 (fun V p hV hp => by
    refine h V p (fun hx => hV _ hx (by simp)) (fun hx => hV _ hx (by simp)) hp)
  generalize hd : deduceVariables ⟨[], [], [("pi".toList, Real.pi), ("e".toList, Real.exp 1)]⟩ s = r at h1
  obtain ⟨r1, d'⟩ := r
  simp only at h1
  subst h1
  unfold parsedParse
  rw [hd]

/-- C109: each expression of a multiobjective function is parsed in the same way. -/
theorem moParser_function {ε : ℝ} (O : Optimizer) (hadd : AddsOp ε O.addOp) (hopt : ∀ c, Refines ε c (O.optimize c)) (s : List Char)
    (V : List (List Char)) (p : Program) (hV : "pi".toList ∉ V ∧ "e".toList ∉ V)
    (hp : DerivesProgram ⟨V, ["pi".toList, "e".toList]⟩ [] s p) :
    ∃ q, moParser ε O hncoParser s = some q ∧ q.names.Pairwise (· < ·) ∧ (∀ x, x ∈ q.names ↔ x ∈ p.variables) ∧
      ∀ (σ : List Char → ℝ) (v : ℝ), p.value ε (fun x => some (σ x)) hncoConstants = some v → q.eval (q.names.map σ) = v := by
  obtain ⟨f, h1, h2, h3, h4⟩ := parsed_function O hadd hopt s V p hV hp
  refine ⟨⟨f.names, f.evaluate ε⟩, ?_, h2, h3, h4⟩
  unfold moParser
  rw [h1]

theorem modifier_parse {K : Type} (s : List Char) :
    parse (PData.new K) s ['x'] = (parseFunction ⟨[['x']], []⟩ s, ⟨['x'], [['x']], []⟩) := by
  have h : varLoop [] (['x'].length + 1) [] ['x'] = (true, [['x']]) := by decide +kernel
  unfold parse parseVariables PData.new
  rw [if_neg (by simp)]
  simp only [List.map_nil]
  rw [h]
  rfl

/-- C109: the modifier which applies an expression to the values of a function: it accepts the texts which mean something with
the only variable `x`, and then computes the value of the expression. -/
theorem parsed_modifier {ε : ℝ} (addOp : List Instr → Op → List Instr) (hadd : AddsOp ε addOp) (s : List Char) :
    (∀ p, DerivesProgram ⟨[['x']], []⟩ [] s p → ∃ g, parsedModifier ε addOp s = ok g ∧
      ∀ y v : ℝ, p.value ε (fun x => if x = ['x'] then some y else none) (fun _ => none) = some v → g y = v) ∧
    ((∀ p, ¬ DerivesProgram ⟨[['x']], []⟩ [] s p) → parsedModifier ε addOp s = .throw .runtimeError) := by
  constructor
  · intro p hp
    rw [← parse_iff_derives] at hp
    refine ⟨fun y => evalResult ε [y] (programCode ⟨addOp, [['x']], []⟩ p), ?_, ?_⟩
    · unfold parsedModifier
      rw [modifier_parse, hp]
    · intro y v hv
      have : evalCode ε [y] (programCode ⟨addOp, [['x']], []⟩ p) = some v := by
        refine code_computes_value ε ⟨addOp, [['x']], []⟩ hadd p _ v ?_
        rw [← hv]
        congr 1
        · funext x
          by_cases hx : x = ['x']
          · subst hx; simp
          · have : (x == ['x']) = false := by simpa using hx
            simp [List.lookup, this, hx]
      simp only [evalResult, this]
      rfl
  · intro h
    unfold parsedModifier
    rw [modifier_parse]
    cases hf : parseFunction ⟨[['x']], []⟩ s with
    | ok p => exact absurd ((parse_iff_derives _ _ _).1 hf) (h p)
    | error x => rfl

/-- C109 (negative part): an error may be reported at a wrong place, for a wrong reason: in `x e`, an operator is missing at
position 2, but the name `e` is taken for a missing variable there, and the error is that names are invalid, at the end. -/
theorem misplaced_error : (deduceVariables (K := Unit) ⟨[], [], [("pi".toList, ()), ("e".toList, ())]⟩ "x e".toList).1 =
    .error (.invalidVars, 3) := by decide +kernel

/-- C109 (negative part): names of variables which are refused are accepted when they are given a second time. -/
theorem invalid_names_accepted : (parse (PData.new Unit) "x".toList "x,x".toList).1 = .error (.invalidVars, 1) ∧
    (parse (parse (PData.new Unit) "x".toList "x,x".toList).2 "x".toList "x,x".toList).1 = .ok ⟨[], .var "x".toList⟩ := by
  decide +kernel

/-- C109 (negative part): the constants `pi` and `e` are unknown to the modifier. -/
theorem modifier_without_constants (ε : ℝ) (addOp : List Instr → Op → List Instr) :
    parsedModifier ε addOp "pi*x".toList = .throw .runtimeError := by
  have : parseFunction ⟨[['x']], []⟩ "pi*x".toList = .error (.unknownIdentifier, 0) := by decide +kernel
  unfold parsedModifier
  rw [modifier_parse, this]

theorem varLoop_names (C : List (List Char)) : ∀ (n : Nat) (vs : List (List Char)) (s : List Char) (ws : List (List Char)),
    vs.Nodup → (∀ x ∈ vs, x ∉ C ∧ builtin x = none) → varLoop C n vs s = (true, ws) →
      ws.Nodup ∧ ∀ x ∈ ws, x ∉ C ∧ builtin x = none := by
  intro n
  induction n with
  | zero => intro vs s ws _ _ h; cases h
  | succ n ih =>
    intro vs s ws hn hc h
    unfold varLoop at h
    split at h
    · cases h; exact ⟨hn, hc⟩
    · dsimp only at h
      split at h
      · cases h
      · next hx =>
        rw [not_or, not_not] at hx
        have key : ∀ x, ¬ (x ∈ C ∨ x ∈ vs) → builtin x = none →
            (vs ++ [x]).Nodup ∧ ∀ y ∈ vs ++ [x], y ∉ C ∧ builtin y = none := by
          intro x hx hb
          rw [not_or] at hx
          refine ⟨List.nodup_append.2 ⟨hn, by simp, fun a ha b hb' => ?_⟩, fun y hy => ?_⟩
          · rw [List.mem_singleton] at hb'
            subst hb'
            exact fun e => hx.2 (e ▸ ha)
          · rcases List.mem_append.1 hy with hy | hy
            · exact hc y hy
            · rw [List.mem_singleton] at hy
              subst hy
              exact ⟨hx.1, hb⟩
        split at h
        · split at h
          · cases h
          · next hm =>
            cases h
            exact key _ hm hx.2
        · split at h
          · cases h
          · next hm => exact ih _ _ _ (key _ hm hx.2).1 (key _ hm hx.2).2 h
        · cases h

/-- C109: the names of variables which are accepted by a new parser are distinct, and are neither names of functions nor names
of constants. -/
theorem accepted_names {K : Type} (consts : List (List Char × K)) (s : List Char) (h : s ≠ [])
    (ha : (parseVariables ⟨[], [], consts⟩ s).1 = true) :
    (parseVariables ⟨[], [], consts⟩ s).2.vars.Nodup ∧
      ∀ x ∈ (parseVariables ⟨[], [], consts⟩ s).2.vars, x ∉ consts.map Prod.fst ∧ builtin x = none := by
  unfold parseVariables at ha ⊢
  have hs : ¬ ([] : List Char) = s := fun e => h e.symm
  simp only [if_neg hs] at ha ⊢
  exact varLoop_names _ _ [] s _ List.nodup_nil (by simp) (Prod.ext ha rfl)

/-- C109: a constant is accepted if and only if its name is an identifier which is neither the name of a function nor that of a
variable; then it has the given value, and the other constants are not changed. -/
theorem accepted_constant {K : Type} (d : PData K) (name : List Char) (value : K) :
    ((addConstant d name value).1 = true ↔ (name ≠ [] ∧ readIdentifier name = name ∧ builtin name = none) ∧
      (name ∈ d.consts.map Prod.fst ∨ name ∉ d.vars)) ∧
    ((addConstant d name value).1 = true → ∀ c v, (c, v) ∈ (addConstant d name value).2.consts ↔
      if c = name then v = value else (c, v) ∈ d.consts) := by
  unfold addConstant validName
  by_cases hv : name ≠ [] ∧ readIdentifier name = name ∧ builtin name = none
  · rw [if_pos (by simpa using hv)]
    by_cases hc : name ∈ d.consts.map Prod.fst
    · rw [if_pos hc]
      refine ⟨⟨fun _ => ⟨hv, .inl hc⟩, fun _ => rfl⟩, fun _ c v => ?_⟩
      dsimp only
      rw [List.mem_map]
      by_cases hcn : c = name
      · rw [if_pos hcn]
        constructor
        · rintro ⟨a, ha, he⟩
          split at he
          · exact (Prod.mk.inj he).2.symm
          · next hne => exact absurd (by rw [he]; exact hcn) hne
        · rintro rfl
          obtain ⟨a, ha, he⟩ := List.mem_map.1 hc
          exact ⟨a, ha, by rw [if_pos he, hcn]⟩
      · rw [if_neg hcn]
        constructor
        · rintro ⟨a, ha, he⟩
          split at he
          · exact absurd (Prod.mk.inj he).1.symm hcn
          · rw [← he]; exact ha
        · intro ha
          exact ⟨(c, v), ha, if_neg hcn⟩
    · rw [if_neg hc]
      by_cases hm : name ∈ d.vars
      · rw [if_pos hm]
        refine ⟨⟨fun h => (by cases h), fun h => absurd h.2 (fun e => e.elim hc (fun e => e hm))⟩, fun h => (by cases h)⟩
      · rw [if_neg hm]
        refine ⟨⟨fun _ => ⟨hv, .inr hm⟩, fun _ => rfl⟩, fun _ c v => ?_⟩
        dsimp only
        rw [List.mem_append, List.mem_singleton]
        by_cases hcn : c = name
        · rw [if_pos hcn]
          constructor
          · rintro (h | h)
            · exact absurd (List.mem_map.2 ⟨_, h, hcn⟩) hc
            · exact (Prod.mk.inj h).2
          · rintro rfl
            exact .inr (by rw [hcn])
        · rw [if_neg hcn]
          constructor
          · rintro (h | h)
            · exact h
            · exact absurd (Prod.mk.inj h).1 hcn
          · exact .inl
  · rw [if_neg (by simpa using hv)]
    exact ⟨⟨fun h => (by cases h), fun h => absurd h.1 hv⟩, fun h => (by cases h)⟩

/-! ## Examples -/

example : (parseVariables (K := Unit) ⟨[], [], [("pi".toList, ()), ("e".toList, ())]⟩ "x, y".toList).1 = true ∧
    (parseVariables (K := Unit) ⟨[], [], []⟩ "x,x,y".toList).1 = false := by decide +kernel

example : (addConstant (PData.new Unit) "e".toList ()).1 = true ∧ (addConstant (PData.new Unit) "sin".toList ()).1 = false := by
  decide +kernel

/-- The hypotheses of `deduce_complete` and `parsed_function`: an inline variable is not a variable, `pi` is a constant, and the
variables are found in alphabetical order. -/
example : ∃ p, DerivesProgram ⟨["y2".toList, "B".toList, "z".toList], ["pi".toList, "e".toList]⟩ [] "r := z*y2; r + pi*B + r^2".toList p ∧
    (deduceVariables (K := Unit) ⟨[], [], [("pi".toList, ()), ("e".toList, ())]⟩ "r := z*y2; r + pi*B + r^2".toList).1 =
      .ok (["B".toList, "y2".toList, "z".toList], p) :=
  ⟨⟨[(['r'], .bin .mul (.var ['z']) (.var ['y', '2']))],
    .bin .add (.bin .add (.inl ['r']) (.bin .mul (.const ['p', 'i']) (.var ['B']))) (.pow (.inl ['r']) (.lit 2))⟩,
    (parse_iff_derives _ _ _).1 (by decide +kernel), by decide +kernel⟩

/-- The hypothesis of `deduce_refuses`: a name cannot be used before it is defined. -/
example : (deduceVariables (K := Unit) ⟨[], [], []⟩ "a := b; b := 1; a + b".toList).1 = .error (.expectOperator, 10) := by
  decide +kernel

/-- The optimizations which do nothing satisfy the hypotheses of `parsed_function`. -/
example (ε : ℝ) : ∃ O : Optimizer, AddsOp ε O.addOp ∧ ∀ c, Refines ε c (O.optimize c) :=
  ⟨⟨fun c o => c ++ [.op o], id⟩, fun _ _ _ _ _ h => h, fun _ _ _ _ h => h⟩

end Hnco.FParser
