import Verif.FParser.EmitLemmas

/-!
# The code emitted by the parser of expressions: the code of an expression computes its value
-/

namespace Hnco.FParser

/-! ## Opcodes -/

section

variable {ε : ℝ} {vals : List ℝ}

theorem evalFnOp1 {f : Fn} {x v : ℝ} (h : f.apply1 x = some v) (st : List ℝ) : evalOp ε (.fn f) (x :: st) = some (v :: st) := by
  rw [← evalFn1_eq] at h
  have hp : f.params ≠ 2 := by
    intro hp
    cases f <;> simp_all [Fn.params, evalFn1]
  simp [evalOp, hp, h]

theorem evalFnOp2 {f : Fn} {x y v : ℝ} (h : f.apply2 x y = some v) (st : List ℝ) :
    evalOp ε (.fn f) (y :: x :: st) = some (v :: st) := by
  rw [← evalFn2_eq] at h
  have hp : f.params = 2 := by
    by_contra hp
    cases f <;> simp_all [Fn.params, evalFn2]
  simp [evalOp, hp, h]

theorem ofBool_decide (p : Prop) [Decidable p] : ofBool (decide p) = ofProp p := by
  by_cases h : p <;> simp [ofBool, ofProp, h]

theorem fpTruth_iff (x : ℝ) : fpTruth x = true ↔ isTrue x := by simp [fpTruth, isTrue]

theorem ofBool_iff {b : Bool} {p : Prop} (h : b = true ↔ p) : ofBool b = ofProp p := by
  by_cases hp : p
  · simp [ofBool, ofProp, hp, h.mpr hp]
  · have : b = false := by
      cases b
      · rfl
      · exact absurd (h.mp rfl) hp
    simp [ofBool, ofProp, hp, this]

theorem ofBool_nonneg (b : Bool) : 0 ≤ ofBool b := by cases b <;> simp [ofBool]

/-- The values of the opcodes which are never negative. -/
theorem neverNegative_nonneg {o : Op} (ho : neverNegative o = true) {sm st : List ℝ} {u : ℝ}
    (h : evalOp ε o sm = some (u :: st)) : 0 ≤ u := by
  match o, ho with
  | .fn .sqrt, _ =>
    match sm with
    | [] => simp [evalOp, Fn.params] at h
    | x :: sm =>
      simp only [evalOp, evalFn1] at h
      rw [if_neg (by simp [Fn.params])] at h
      split at h
      · simp at h
      · simp at h; rw [← h.1]; exact Real.sqrt_nonneg _
  | .fn .abs, _ =>
    match sm with
    | [] => simp [evalOp, Fn.params] at h
    | x :: sm => simp [evalOp, Fn.params, evalFn1] at h; rw [← h.1]; exact abs_nonneg _
  | .fn .acos, _ =>
    match sm with
    | [] => simp [evalOp, Fn.params] at h
    | x :: sm =>
      simp only [evalOp, evalFn1] at h
      rw [if_neg (by simp [Fn.params])] at h
      split at h
      · simp at h
      · simp at h; rw [← h.1]; exact Real.arccos_nonneg _
  | .fn .cosh, _ =>
    match sm with
    | [] => simp [evalOp, Fn.params] at h
    | x :: sm => simp [evalOp, Fn.params, evalFn1] at h; rw [← h.1]; exact (Real.cosh_pos x).le
  | .fn .hypot, _ =>
    match sm with
    | [] => simp [evalOp, Fn.params] at h
    | [x] => simp [evalOp, Fn.params] at h
    | y :: x :: sm => simp [evalOp, Fn.params, evalFn2] at h; rw [← h.1]; exact Real.sqrt_nonneg _
  | .rsqrt, _ =>
    match sm with
    | [] => simp [evalOp] at h
    | x :: sm =>
      simp only [evalOp] at h
      split at h
      · simp at h
      · simp at h; rw [← h.1]; positivity
  | .sqr, _ =>
    match sm with
    | [] => simp [evalOp] at h
    | x :: sm => simp [evalOp] at h; rw [← h.1]; exact mul_self_nonneg x
  | .not, _ | .absNot, _ | .notNot, _ | .absNotNot, _ =>
    match sm with
    | [] => simp [evalOp] at h
    | x :: sm => simp only [evalOp, Option.some.injEq, List.cons.injEq] at h; rw [← h.1]; exact ofBool_nonneg _
  | .and, _ | .absAnd, _ | .or, _ | .absOr, _ | .equal, _ | .nequal, _ | .less, _ | .lessOrEq, _ | .greater, _ | .greaterOrEq, _ =>
    match sm with
    | [] => simp [evalOp] at h
    | [x] => simp [evalOp] at h
    | y :: x :: sm => simp only [evalOp, Option.some.injEq, List.cons.injEq] at h; rw [← h.1]; exact ofBool_nonneg _

theorem Reaches.absolute {st₀ : List ℝ} {s : EState} {st : List ℝ} {u : ℝ} (h : Reaches ε vals st₀ s (u :: st))
    (ha : s.absolute = true) : fpAbsTruth u = fpTruth u := by
  unfold EState.absolute at ha
  split at ha
  · next o ho =>
    have h1 := h.1
    rw [getLast?_snoc ho, runCode_snoc] at h1
    obtain ⟨sm, -, h3⟩ := h1
    have := neverNegative_nonneg ha h3
    simp [fpAbsTruth, fpTruth, abs_of_nonneg this]
  · cases ha

/-! ## Names -/

/-- The inline variables are on the stack. -/
def InlOk (I : List (List Char × Nat)) (inl : List Char → Option ℝ) (st : List ℝ) : Prop :=
  ∀ x v, inl x = some v → ∃ k, I.lookup x = some k ∧ st.reverse[k]? = some v

theorem InlOk.push {I : List (List Char × Nat)} {inl : List Char → Option ℝ} {st : List ℝ} (h : InlOk I inl st) (w : ℝ) :
    InlOk I inl (w :: st) := by
  intro x v hx
  obtain ⟨k, hk, hv⟩ := h x v hx
  refine ⟨k, hk, ?_⟩
  rw [List.reverse_cons, List.getElem?_append_left (List.getElem?_eq_some_iff.mp hv).1, hv]

theorem emitVar_ok {st₀ : List ℝ} {s : EState} {st : List ℝ} {i : Nat} {v : ℝ} (h : Reaches ε vals st₀ s st)
    (hv : vals[i]? = some v) : Reaches ε vals st₀ (emitVar i s) (v :: st) := by
  have hpush : Reaches ε vals st₀ ⟨s.code ++ [.var i], s.sp + 1⟩ (v :: st) := h.push (by simp [runInstr, hv])
  unfold emitVar
  split
  · next j hj =>
    split
    · next e =>
      subst e
      have h1 := h.1
      rw [getLast?_snoc hj, runCode_snoc] at h1
      obtain ⟨sm, -, h3⟩ := h1
      simp only [runInstr, hv, Option.map_some, Option.some.injEq] at h3
      subst h3
      exact h.push rfl
    · exact hpush
  · exact hpush

theorem emitInline_ok {st₀ : List ℝ} {s : EState} {st : List ℝ} {k : Nat} {v : ℝ} (h : Reaches ε vals st₀ s st)
    (hv : st.reverse[k]? = some v) : Reaches ε vals st₀ (emitInline k s) (v :: st) := by
  unfold emitInline
  split
  · next e =>
    match st with
    | [] => simp at hv
    | w :: st =>
      have hk : k = st.length := by
        have := h.2
        simp at this
        omega
      obtain rfl : w = v := by simpa [hk] using hv
      exact h.push rfl
  · exact h.push (by simp [runInstr, hv])

/-! ## Expressions -/

variable {E : Emitter} (hE : AddsOp ε E.addOp)

theorem power_exp (y : ℝ) : power (Real.exp 1) y = some (Real.exp y) := by
  rw [power, if_pos (Real.exp_pos 1), Real.exp_one_rpow]

theorem power_two (y : ℝ) : power 2 y = Fn.apply1 .exp2 y := by
  rw [power, if_pos (by norm_num)]
  rfl

include hE in
theorem comparison_ok {st₀ : List ℝ} {s : EState} {st : List ℝ} {x y v : ℝ} {op : BinOp}
    (h : Reaches ε vals st₀ s (y :: x :: st)) (hv : op.apply ε x y = some v)
    (hop : op = .eq ∨ op = .ne ∨ op = .lt ∨ op = .le ∨ op = .gt ∨ op = .ge) :
    Reaches ε vals st₀ (s.addOp E (comparisonOp op) 1) (v :: st) := by
  refine h.addOp hE ?_ (by simp)
  rcases hop with rfl | rfl | rfl | rfl | rfl | rfl <;>
    simp only [BinOp.apply, Option.some.injEq] at hv <;> subst hv <;> simp only [comparisonOp, evalOp, Option.some.injEq,
      List.cons.injEq, and_true] <;> apply ofBool_iff <;> simp

variable {ρ : NameValues} (hvar : ∀ x v, ρ.var x = some v → vals[E.vars.idxOf x]? = some v)
  (hconst : ∀ x v, ρ.const x = some v → E.consts.lookup x = some v)

include hE hvar hconst in
theorem emitRaw_ok (I : List (List Char × Nat)) (e : Expr) : ∀ {st₀ : List ℝ} {s : EState} {st : List ℝ} {v : ℝ},
    Reaches ε vals st₀ s st → InlOk I ρ.inl st → e.value ε ρ = some v →
    Rep (ε := ε) (vals := vals) (st₀ := st₀) (emitRaw E I e s) st v := by
  induction e with
  | lit q =>
    intro st₀ s st v h hI hv
    obtain rfl : (q : ℝ) = v := by simpa [Expr.value] using hv
    exact h.addImm _
  | var x =>
    intro st₀ s st v h hI hv
    exact emitVar_ok h (hvar x v hv)
  | const x =>
    intro st₀ s st v h hI hv
    have := hconst x v hv
    simp only [emitRaw, this, Option.getD_some]
    exact h.addImm _
  | inl x =>
    intro st₀ s st v h hI hv
    obtain ⟨k, hk, hv⟩ := hI x v hv
    simp only [emitRaw, hk, Option.getD_some]
    exact emitInline_ok h hv
  | paren e ih =>
    intro st₀ s st v h hI hv
    exact finish_ok hE (ih h hI hv)
  | call1 f a ih =>
    intro st₀ s st v h hI hv
    simp only [Expr.value, Option.bind_eq_some_iff] at hv
    obtain ⟨x, hx, hv⟩ := hv
    exact (finish_ok hE (ih h hI hx)).addOp hE (evalFnOp1 hv st) (by simp)
  | call2 f a b iha ihb =>
    intro st₀ s st v h hI hv
    simp only [Expr.value, Option.bind_eq_some_iff] at hv
    obtain ⟨x, hx, y, hy, hv⟩ := hv
    have h1 := finish_ok hE (iha h hI hx)
    exact (finish_ok hE (ihb h1 (hI.push x) hy)).addOp hE (evalFnOp2 hv st) (by simp)
  | cond c a b ihc iha ihb =>
    intro st₀ s st v h hI hv
    simp only [Expr.value, Option.bind_eq_some_iff] at hv
    obtain ⟨x, hx, hv⟩ := hv
    obtain ⟨w, hw, h1⟩ := (finish_ok hE (ihc h hI hx)).dropNotNot
    rw [emitRaw]
    generalize (finish E (emitRaw E I c s)).dropNotNot = s1 at h1 ⊢
    have hsp : s1.sp - 1 = st.length := by rw [h1.2]; rfl
    have h0 : Reaches ε vals st ⟨[], s1.sp - 1⟩ st := ⟨rfl, hsp⟩
    have hbranch : (if fpTruth w then runCode ε vals (finish E (emitRaw E I a ⟨[], s1.sp - 1⟩)).code st
        else runCode ε vals (finish E (emitRaw E I b ⟨[], s1.sp - 1⟩)).code st) = some (v :: st) := by
      rw [hw]
      by_cases ht : isTrue x
      · rw [if_pos ((fpTruth_iff x).mpr ht)]
        rw [if_pos ht] at hv
        exact (finish_ok hE (iha h0 hI hv)).1
      · rw [if_neg (fun hc => ht ((fpTruth_iff x).mp hc))]
        rw [if_neg ht] at hv
        exact (finish_ok hE (ihb h0 hI hv)).1
    refine ⟨(runCode_snoc ..).mpr ⟨_, h1.1, ?_⟩, by simp [hsp]⟩
    rw [runInstr]
    cases hab : s1.absolute with
    | false => simpa using hbranch
    | true =>
      rw [← h1.absolute hab] at hbranch
      simpa using hbranch
  | pow a b iha ihb =>
    intro st₀ s st v h hI hv
    simp only [Expr.value, Option.bind_eq_some_iff] at hv
    obtain ⟨x, hx, y, hy, hv⟩ := hv
    have h1 := finish_ok hE (iha h hI hx)
    rw [emitRaw]
    generalize finish E (emitRaw E I a s) = s1 at h1 ⊢
    have hpow : Reaches ε vals st₀ ((finish E (emitRaw E I b s1)).addOp E (.fn .pow) 1) (v :: st) :=
      (finish_ok hE (ihb h1 (hI.push x) hy)).addOp hE (evalFnOp2 (f := .pow) hv st) (by simp)
    cases hp : s1.popImm with
    | none => simp only [powBegin, hp, if_true]; exact hpow
    | some r =>
      obtain ⟨w, s2⟩ := r
      obtain ⟨rfl, h2⟩ := h1.popImm hp
      have h3 := finish_ok hE (ihb h2 hI hy)
      by_cases h4 : x = Real.exp 1
      · simp only [powBegin, hp, h4]
        rw [h4, power_exp] at hv
        exact h3.addOp hE (evalFnOp1 (f := .exp) hv st) (by simp)
      · by_cases h5 : x = 2
        · subst h5
          simp only [powBegin, hp, h4, if_false]
          rw [power_two] at hv
          exact h3.addOp hE (evalFnOp1 (f := .exp2) hv st) (by simp)
        · simp only [powBegin, hp, h4, h5, if_false, if_true]
          exact hpow
  | neg e ih =>
    intro st₀ s st v h hI hv
    simp only [Expr.value, Option.map_eq_some_iff] at hv
    obtain ⟨x, hx, rfl⟩ := hv
    exact (finish_ok hE (ih h hI hx)).addOp hE (evalNeg x st) (by simp)
  | not e ih =>
    intro st₀ s st v h hI hv
    simp only [Expr.value, Option.map_eq_some_iff] at hv
    obtain ⟨x, hx, rfl⟩ := hv
    refine (finish_ok hE (ih h hI hx)).addOp (st' := ofProp (¬ isTrue x) :: st) hE ?_ (by simp)
    simp only [evalOp, Option.some.injEq, List.cons.injEq, and_true]
    apply ofBool_iff
    simp [← fpTruth_iff]
  | bin op a b iha ihb =>
    intro st₀ s st v h hI hv
    simp only [Expr.value, Option.bind_eq_some_iff] at hv
    obtain ⟨x, hx, y, hy, hv⟩ := hv
    have hop : ∀ s', Reaches ε vals st₀ s' st → Reaches ε vals st₀ (finish E (emitRaw E I b s')) (y :: st) :=
      fun s' h' => finish_ok hE (ihb h' hI hy)
    have hop' : ∀ s' w, Reaches ε vals st₀ s' (w :: st) → Reaches ε vals st₀ (finish E (emitRaw E I b s')) (y :: w :: st) :=
      fun s' w h' => finish_ok hE (ihb h' (hI.push w) hy)
    have ha := iha h hI hx
    have h1 := hop' _ _ (finish_ok hE ha)
    cases op with
    | mul =>
      obtain ⟨u, h2, hu⟩ := asMul_ok hE ha
      obtain ⟨w, h3, hw⟩ := stepMul_ok (p := (asMul E (emitRaw E I a s)).2) (star := true) hE h2 (by simp) hop hop'
      simp only [BinOp.apply, Option.some.injEq] at hv
      rw [hu] at hw
      exact ⟨w, h3, hw.trans hv⟩
    | div =>
      obtain ⟨u, h2, hu⟩ := asMul_ok hE ha
      simp only [BinOp.apply, when] at hv
      split at hv
      · next h0 =>
        obtain ⟨w, h3, hw⟩ := stepMul_ok (p := (asMul E (emitRaw E I a s)).2) (star := false) hE h2 (fun _ => h0) hop hop'
        simp only [Option.some.injEq] at hv
        rw [hu] at hw
        exact ⟨w, h3, hw.trans hv⟩
      · cases hv
    | mod =>
      obtain ⟨u, h2, hu⟩ := asMul_ok hE ha
      simp only [BinOp.apply, when] at hv
      split at hv
      · next h0 =>
        simp only [Option.some.injEq] at hv
        have h3 := hop' _ _ (flushMul_ok hE (p := (asMul E (emitRaw E I a s)).2) h2)
        rw [hu] at h3
        refine ⟨_, h3.addOp hE (evalMod h0 x st) (by simp), ?_⟩
        rw [mul_one, fpMod, fpTrunc_eq, ← hv]
      · cases hv
    | add =>
      obtain ⟨u, h2, hu⟩ := asAdd_ok hE ha
      obtain ⟨w, h3, hw⟩ := stepAdd_ok (p := (asAdd E (emitRaw E I a s)).2) (plus := true) hE h2 hop hop'
      simp only [BinOp.apply, Option.some.injEq] at hv
      rw [hu] at hw
      exact ⟨w, h3, hw.trans hv⟩
    | sub =>
      obtain ⟨u, h2, hu⟩ := asAdd_ok hE ha
      obtain ⟨w, h3, hw⟩ := stepAdd_ok (p := (asAdd E (emitRaw E I a s)).2) (plus := false) hE h2 hop hop'
      simp only [BinOp.apply, Option.some.injEq] at hv
      rw [hu] at hw
      exact ⟨w, h3, hw.trans hv⟩
    | and =>
      obtain ⟨w, hw, h2⟩ := h1.dropNotNot
      refine h2.addOp hE ?_ (by simp)
      simp only [BinOp.apply, Option.some.injEq] at hv
      simp only [evalOp, hw, Option.some.injEq, List.cons.injEq, and_true]
      rw [← hv]
      apply ofBool_iff
      simp [← fpTruth_iff]
    | or =>
      obtain ⟨w, hw, h2⟩ := h1.dropNotNot
      refine h2.addOp hE ?_ (by simp)
      simp only [BinOp.apply, Option.some.injEq] at hv
      simp only [evalOp, hw, Option.some.injEq, List.cons.injEq, and_true]
      rw [← hv]
      apply ofBool_iff
      simp [← fpTruth_iff]
    | eq => exact comparison_ok hE h1 hv (by simp)
    | ne => exact comparison_ok hE h1 hv (by simp)
    | lt => exact comparison_ok hE h1 hv (by simp)
    | le => exact comparison_ok hE h1 hv (by simp)
    | gt => exact comparison_ok hE h1 hv (by simp)
    | ge => exact comparison_ok hE h1 hv (by simp)

include hE hvar hconst in
theorem emit_ok (I : List (List Char × Nat)) (e : Expr) {st₀ : List ℝ} {s : EState} {st : List ℝ} {v : ℝ}
    (h : Reaches ε vals st₀ s st) (hI : InlOk I ρ.inl st) (hv : e.value ε ρ = some v) :
    Reaches ε vals st₀ (emit E I e s) (v :: st) :=
  finish_ok hE (emitRaw_ok hE hvar hconst I e h hI hv)

include hE in
theorem emitProgram_ok (ds : List (List Char × Expr)) : ∀ {ρ : NameValues} (_ : ∀ x v, ρ.var x = some v → vals[E.vars.idxOf x]? = some v)
    (_ : ∀ x v, ρ.const x = some v → E.consts.lookup x = some v) {I : List (List Char × Nat)} {e : Expr} {st₀ : List ℝ} {s : EState} {st : List ℝ} {v : ℝ},
    Reaches ε vals st₀ s st → InlOk I ρ.inl st → valueAfter ε ρ ds e = some v →
    ∃ st', Reaches ε vals st₀ (emitProgram E ds I e s) (v :: st') := by
  induction ds with
  | nil =>
    intro ρ hvar hconst I e st₀ s st v h hI hv
    exact ⟨st, emit_ok hE hvar hconst I e h hI hv⟩
  | cons d ds ih =>
    intro ρ hvar hconst I e st₀ s st v h hI hv
    obtain ⟨x, d⟩ := d
    simp only [valueAfter, Option.bind_eq_some_iff] at hv
    obtain ⟨w, hw, hv⟩ := hv
    have h1 := emit_ok hE hvar hconst I d h hI hw
    refine ih (ρ := { ρ with inl := fun y => if y = x then some w else ρ.inl y }) hvar hconst h1 ?_ hv
    intro y u hy
    by_cases hyx : y = x
    · subst hyx
      obtain rfl : w = u := by simpa using hy
      refine ⟨st.length, ?_, by simp⟩
      have : (emit E I d s).sp - 1 = st.length := by rw [h1.2]; rfl
      simp [this]
    · simp only [hyx, if_false] at hy
      obtain ⟨k, hk, hu⟩ := hI.push w y u hy
      refine ⟨k, ?_, hu⟩
      rw [List.lookup_cons]
      have : (y == x) = false := by simpa using hyx
      simp [this, hk]

end

end Hnco.FParser
