import Verif.FParser.EmitExpr
import Verif.FParser.SyntaxProps

/-!
# Property C107: the code of a parsed expression computes the value of the expression

The value of an expression is defined in `Verif/FParser/Value.lean`, and the meaning of a text in `Verif/FParser/Grammar.lean`.
-/

namespace Hnco.FParser

/-! ## Lemmas -/

theorem lookup_zip_idxOf {xs : List (List Char)} {vals : List ℝ} {x : List Char} {v : ℝ} (h : (xs.zip vals).lookup x = some v) :
    vals[xs.idxOf x]? = some v := by
  induction xs generalizing vals with
  | nil => simp at h
  | cons y xs ih =>
    cases vals with
    | nil => simp at h
    | cons w vals =>
      rw [List.zip_cons_cons, List.lookup_cons] at h
      by_cases hxy : x = y
      · subst hxy
        simpa using h
      · have h1 : (x == y) = false := by simpa using hxy
        rw [h1] at h
        rw [List.idxOf_cons_ne _ (Ne.symm hxy)]
        simpa using ih h

/-- An emitter which only appends opcodes. -/
noncomputable def plainEmitter (vars : List (List Char)) (consts : List (List Char × ℝ)) : Emitter where
  addOp c o := c ++ [.op o]
  vars := vars
  consts := consts

theorem powiFactor_pos {n : Nat} (h : powiFactor n ≠ 0) : 1 ≤ powiFactor n ∧ powiFactor n ∣ n ∧ (2 ≤ n → powiFactor n < n ∧ 2 ≤ powiFactor n) := by
  have hn : n < 128 := by
    by_contra hn
    apply h
    unfold powiFactor
    rw [List.getD_eq_getElem?_getD, List.getElem?_eq_none (by simp [powiFactorTable]; omega)]
    rfl
  revert h
  revert n
  decide

/-- The code of a power, after `muls` factors have been left below it on the stack. -/
theorem compilePowi_run (ε : ℝ) (vals : List ℝ) (fuel : Nat) : ∀ (n : Nat) (fs : List ℝ) (x : ℝ) (st : List ℝ), 1 ≤ n → n ≤ fuel →
    runCode ε vals (compilePowi fuel n fs.length) (x :: (fs ++ st)) = some ((fs.prod * x ^ n) :: st) := by
  have hmul : ∀ (fs : List ℝ) (x : ℝ) (st : List ℝ),
      runCode ε vals (List.replicate fs.length (.op .mul)) (x :: (fs ++ st)) = some ((fs.prod * x) :: st) := by
    intro fs
    induction fs with
    | nil => intro x st; simp [runCode]
    | cons f fs ih =>
      intro x st
      rw [List.length_cons, List.replicate_succ, runCode, runInstr, List.cons_append, evalMul, Option.bind_some, ih]
      simp
      ring
  induction fuel with
  | zero => intro n fs x st h1 h2; omega
  | succ fuel ih =>
    intro n fs x st h1 h2
    rw [compilePowi]
    split
    · obtain rfl : n = 1 := by omega
      simpa using hmul fs x st
    · split
      · next hf =>
        obtain ⟨h3, ⟨k, hk⟩, h5⟩ := powiFactor_pos hf
        obtain ⟨h6, h7⟩ := h5 (by omega)
        have h8 : n / powiFactor n = k := by
          exact Nat.div_eq_of_eq_mul_right h3 hk
        have hk1 : 1 ≤ k := by
          rcases Nat.eq_zero_or_pos k with h | h
          · subst h; omega
          · exact h
        have hkn : k < n := by
          calc k < 2 * k := by omega
            _ ≤ powiFactor n * k := Nat.mul_le_mul_right k h7
            _ = n := hk.symm
        rw [runCode_append]
        have h9 := ih (powiFactor n) [] x (fs ++ st) h3 (by omega)
        simp only [List.length_nil, List.nil_append, List.prod_nil, one_mul] at h9
        rw [h9, Option.bind_some, h8, ih k fs _ st hk1 (by omega), ← pow_mul, ← hk]
      · split
        · next he =>
          rw [runCode, runInstr]
          have : evalOp ε .sqr (x :: (fs ++ st)) = some (x * x :: (fs ++ st)) := rfl
          rw [this, Option.bind_some, ih (n / 2) fs _ st (by omega) (by omega)]
          congr 3
          rw [← pow_two, ← pow_mul]
          congr 1
          omega
        · rw [runCode, runInstr, Option.bind_some]
          have := ih (n - 1) (x :: fs) x st (by omega) (by omega)
          rw [List.length_cons] at this
          rw [List.cons_append] at this
          rw [this]
          congr 2
          rw [List.prod_cons]
          have : x ^ n = x * x ^ (n - 1) := by
            rw [← pow_succ']
            congr 1
            omega
          rw [this]
          ring

/-! ## Theorems -/

/-- C107: if an expression, with its definitions, has a value, then its code computes this value, whatever the local
optimizations made while opcodes are added, provided that they are right. -/
theorem code_computes_value (ε : ℝ) (E : Emitter) (hE : AddsOp ε E.addOp) (p : Program) (vals : List ℝ) (v : ℝ)
    (hv : p.value ε (fun x => (E.vars.zip vals).lookup x) (fun x => E.consts.lookup x) = some v) :
    evalCode ε vals (programCode E p) = some v := by
  have h0 : Reaches ε vals [] ⟨[], 0⟩ [] := ⟨rfl, rfl⟩
  obtain ⟨st', h⟩ := emitProgram_ok hE p.defs
    (ρ := ⟨fun x => (E.vars.zip vals).lookup x, fun x => E.consts.lookup x, fun _ => none⟩)
    (fun x w hw => lookup_zip_idxOf hw) (fun x w hw => hw) (I := []) h0 (fun x w hw => by cases hw) hv
  rw [evalCode, programCode, h.1]
  rfl

/-- C107: from the text to the number: if the grammar says that a text means `p`, and if `p` has the value `v`, then the text is
accepted and the evaluation of its code returns `v`. -/
theorem text_computes_value (ε : ℝ) (E : Emitter) (hE : AddsOp ε E.addOp) (s : List Char) (p : Program) (vals : List ℝ) (v : ℝ)
    (hs : DerivesProgram ⟨E.vars, E.consts.map Prod.fst⟩ [] s p)
    (hv : p.value ε (fun x => (E.vars.zip vals).lookup x) (fun x => E.consts.lookup x) = some v) :
    parseFunction ⟨E.vars, E.consts.map Prod.fst⟩ s = .ok p ∧ evalResult ε vals (programCode E p) = v :=
  ⟨(parse_iff_derives _ _ _).2 hs, by rw [evalResult, code_computes_value ε E hE p vals v hv]; rfl⟩

/-- C107: appending opcodes without any optimization is right. -/
theorem plainEmitter_right (ε : ℝ) (vars : List (List Char)) (consts : List (List Char × ℝ)) :
    AddsOp ε (plainEmitter vars consts).addOp := fun _ _ _ _ _ h => h

/-- C107: the code of an integer power: it replaces the base, at the top of the stack, by its power, and leaves the rest of the
stack unchanged. -/
theorem compilePowi_computes (ε : ℝ) (vals : List ℝ) (n : Nat) (x : ℝ) (st : List ℝ) (hn : 1 ≤ n) :
    runCode ε vals (compilePowi n n 0) (x :: st) = some (x ^ n :: st) := by
  simpa using compilePowi_run ε vals n n [] x st hn (le_refl n)

/-- C107 (negative part): the converse is false: an expression which divides by zero has no value, but its code computes one
without error.  The expression is `x/(5/y)`, whose code is that of `x*y*0.2`, at `y = 0`. -/
theorem division_by_zero_unnoticed (ε x : ℝ) :
    let p : Program := ⟨[], .bin .div (.var ['x']) (.paren (.bin .div (.lit 5) (.var ['y'])))⟩
    let E := plainEmitter [['x'], ['y']] []
    p.value ε (fun z => (E.vars.zip [x, 0]).lookup z) (fun z => E.consts.lookup z) = none ∧
      evalCode ε [x, 0] (programCode E p) = some 0 := by
  constructor
  · simp [Program.value, valueAfter, Expr.value, plainEmitter, List.lookup, BinOp.apply, when]
  · have : programCode (plainEmitter [['x'], ['y']] []) ⟨[], .bin .div (.var ['x']) (.paren (.bin .div (.lit 5) (.var ['y'])))⟩ =
        [.var 0, .var 1, .op .mul, .imm (1 / 5), .op .mul] := by
      simp [programCode, emitProgram, emit, emitRaw, plainEmitter, emitVar, asMul, finish, stepMul, EState.popImm, takeLeft,
        takeRight, takeUnary, EState.popImmOp, EState.popOp, EState.addImm, EState.addOp, flushMul, List.idxOf, List.findIdx,
        List.findIdx.go]
    rw [this]
    simp [evalCode, runCode, runInstr, evalOp]

/-- C107 (negative part): an error during the evaluation is not noticed by HNCO, and the result is then zero, whatever the
expression: `log(x) + 7` is 0 at `x = 0`. -/
theorem error_gives_zero (ε : ℝ) :
    let p : Program := ⟨[], .bin .add (.call1 .log (.var ['x'])) (.lit 7)⟩
    let E := plainEmitter [['x']] []
    p.value ε (fun z => (E.vars.zip [0]).lookup z) (fun z => E.consts.lookup z) = none ∧
      evalResult ε [0] (programCode E p) = 0 := by
  constructor
  · simp [Program.value, valueAfter, Expr.value, plainEmitter, List.lookup, Fn.apply1, when]
  · have : programCode (plainEmitter [['x']] []) ⟨[], .bin .add (.call1 .log (.var ['x'])) (.lit 7)⟩ =
        [.var 0, .op (.fn .log), .imm 7, .op .add] := by
      simp [programCode, emitProgram, emit, emitRaw, plainEmitter, emitVar, asAdd, finish, stepAdd, EState.popImm, takeLeft,
        takeRight, takeUnary, EState.popImmOp, EState.popOp, EState.addImm, EState.addOp, flushAdd, List.idxOf, List.findIdx,
        List.findIdx.go]
    rw [this]
    simp [evalResult, evalCode, runCode, runInstr, evalOp, Fn.params, evalFn1]

/-! ## Examples -/

/-- The hypotheses of `text_computes_value`, with an inline variable and a conditional: `r := x*x; if(r > 2, r - 3, 1/x)` has
the value 1 at `x = 2`, with the tolerance `10 ^ (-12)`. -/
example :
    let E := plainEmitter [['x']] []
    ∃ s p, DerivesProgram ⟨E.vars, E.consts.map Prod.fst⟩ [] s p ∧
      p.value (10 ^ (-12 : ℤ)) (fun z => (E.vars.zip [2]).lookup z) (fun z => E.consts.lookup z) = some 1 := by
  refine ⟨"r := x*x; if(r > 2, r - 3, 1/x)".toList, ⟨[(['r'], .bin .mul (.var ['x']) (.var ['x']))],
    .cond (.bin .gt (.inl ['r']) (.lit 2)) (.bin .sub (.inl ['r']) (.lit 3)) (.bin .div (.lit 1) (.var ['x']))⟩,
    (parse_iff_derives _ _ _).1 ?_, ?_⟩
  · simp only [plainEmitter, List.map_nil]
    decide +kernel
  · have h : (2 : ℝ) < 2 * 2 - 10 ^ (-12 : ℤ) := by norm_num
    simp [Program.value, valueAfter, Expr.value, plainEmitter, List.lookup, BinOp.apply, ofProp, isTrue]
    norm_num at h ⊢

/-- The code of the fifteenth power: five multiplications, three of which are squares. -/
example : (compilePowi 15 15 0).length = 7 := by decide

end Hnco.FParser
