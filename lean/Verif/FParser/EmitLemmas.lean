import Verif.FParser.FnLemmas

/-!
# The code emitted by the parser of expressions: lemmas
-/

namespace Hnco.FParser

/-- Adding an opcode is right if the new code does what the old code followed by the opcode does. -/
def AddsOp (ε : ℝ) (add : List Instr → Op → List Instr) : Prop :=
  ∀ vals c o st st', runCode ε vals (c ++ [.op o]) st = some st' → runCode ε vals (add c o) st = some st'

theorem runCode_append (ε : ℝ) (vals : List ℝ) (c₁ c₂ : List Instr) (st : List ℝ) :
    runCode ε vals (c₁ ++ c₂) st = (runCode ε vals c₁ st).bind (runCode ε vals c₂) := by
  induction c₁ generalizing st with
  | nil => simp [runCode]
  | cons i c ih =>
    rw [List.cons_append, runCode, runCode]
    cases h : runInstr ε vals i st with
    | none => rfl
    | some s => simp [ih]

theorem runCode_single (ε : ℝ) (vals : List ℝ) (i : Instr) (st : List ℝ) :
    runCode ε vals [i] st = runInstr ε vals i st := by
  rw [runCode]
  cases runInstr ε vals i st <;> simp [runCode]

theorem runCode_snoc (ε : ℝ) (vals : List ℝ) (c : List Instr) (i : Instr) (st st' : List ℝ) :
    runCode ε vals (c ++ [i]) st = some st' ↔ ∃ sm, runCode ε vals c st = some sm ∧ runInstr ε vals i sm = some st' := by
  rw [runCode_append]
  cases h : runCode ε vals c st with
  | none => simp
  | some sm => simp [runCode_single]

section

variable (ε : ℝ) (vals : List ℝ) (st₀ : List ℝ)

/-- The code of a state leads to a stack. -/
def Reaches (s : EState) (st : List ℝ) : Prop := runCode ε vals s.code st₀ = some st ∧ s.sp = st.length

variable {ε vals st₀}

theorem Reaches.push {s : EState} {st : List ℝ} (h : Reaches ε vals st₀ s st) {i : Instr} {v : ℝ}
    (hi : runInstr ε vals i st = some (v :: st)) : Reaches ε vals st₀ ⟨s.code ++ [i], s.sp + 1⟩ (v :: st) := by
  refine ⟨(runCode_snoc ..).mpr ⟨st, h.1, hi⟩, ?_⟩
  simp [h.2]

theorem Reaches.addImm {s : EState} {st : List ℝ} (h : Reaches ε vals st₀ s st) (v : ℝ) :
    Reaches ε vals st₀ (s.addImm v) (v :: st) := h.push rfl

theorem Reaches.addOp {E : Emitter} (hE : AddsOp ε E.addOp) {s : EState} {st st' : List ℝ} (h : Reaches ε vals st₀ s st) {o : Op}
    {k : Nat} (ho : evalOp ε o st = some st') (hl : st'.length = st.length - k) :
    Reaches ε vals st₀ (s.addOp E o k) st' :=
  ⟨hE _ _ _ _ _ ((runCode_snoc ..).mpr ⟨st, h.1, ho⟩), by rw [EState.addOp, hl, h.2]⟩

theorem getLast?_snoc {α : Type} {l : List α} {a : α} (h : l.getLast? = some a) : l = l.dropLast ++ [a] :=
  (List.dropLast_append_getLast? a h).symm

theorem Reaches.popImm {s s' : EState} {st : List ℝ} {u v : ℝ} (h : Reaches ε vals st₀ s (u :: st)) (hp : s.popImm = some (v, s')) :
    u = v ∧ Reaches ε vals st₀ s' st := by
  unfold EState.popImm at hp
  split at hp
  · next w hw =>
    obtain ⟨rfl, rfl⟩ : w = v ∧ _ = s' := by simpa using hp
    have h1 := h.1
    rw [getLast?_snoc hw, runCode_snoc] at h1
    obtain ⟨sm, h2, h3⟩ := h1
    simp only [runInstr, Option.some.injEq, List.cons.injEq] at h3
    obtain ⟨rfl, rfl⟩ := h3
    exact ⟨rfl, h2, by simp [h.2]⟩
  · cases hp

theorem popOp_code {s s' : EState} {o : Op} (hp : s.popOp o = some s') : s.code = s'.code ++ [.op o] ∧ s'.sp = s.sp := by
  unfold EState.popOp at hp
  split at hp
  · next o' ho =>
    split at hp
    · next e =>
      subst e
      obtain rfl : _ = s' := by simpa using hp
      exact ⟨getLast?_snoc ho, rfl⟩
    · cases hp
  · cases hp

theorem popImmOp_code {s s' : EState} {o : Op} {v : ℝ} (hp : s.popImmOp o = some (v, s')) :
    s.code = (s'.code ++ [.imm v]) ++ [.op o] ∧ s'.sp = s.sp := by
  unfold EState.popImmOp at hp
  split at hp
  · cases hp
  · next s1 h1 =>
    obtain ⟨hc, hs⟩ := popOp_code h1
    split at hp
    · next w hw =>
      obtain ⟨rfl, rfl⟩ : w = v ∧ _ = s' := by simpa using hp
      exact ⟨by rw [hc, getLast?_snoc hw]; simp, hs⟩
    · cases hp

/-- The last opcode removed. -/
theorem Reaches.popOp {s s' : EState} {st : List ℝ} {u : ℝ} {o : Op} (h : Reaches ε vals st₀ s (u :: st))
    (hp : s.popOp o = some s') :
    ∃ sm, runCode ε vals s'.code st₀ = some sm ∧ evalOp ε o sm = some (u :: st) ∧ s'.sp = st.length + 1 := by
  obtain ⟨hc, hs⟩ := popOp_code hp
  have h1 := h.1
  rw [hc, runCode_snoc] at h1
  obtain ⟨sm, h2, h3⟩ := h1
  exact ⟨sm, h2, h3, by rw [hs, h.2]; rfl⟩

theorem Reaches.popInv {s s' : EState} {st : List ℝ} {u : ℝ} (h : Reaches ε vals st₀ s (u :: st)) (hp : s.popOp .inv = some s') :
    ∃ w, w ≠ 0 ∧ u = 1 / w ∧ Reaches ε vals st₀ s' (w :: st) := by
  obtain ⟨sm, h1, h2, h3⟩ := h.popOp hp
  match sm with
  | [] => cases h2
  | w :: sm =>
    by_cases hw : w = 0
    · simp [evalOp, hw] at h2
    · simp only [evalOp, hw, if_false, Option.some.injEq, List.cons.injEq] at h2
      obtain ⟨e, rfl⟩ := h2
      exact ⟨w, hw, e.symm, h1, h3⟩

theorem Reaches.popNeg {s s' : EState} {st : List ℝ} {u : ℝ} (h : Reaches ε vals st₀ s (u :: st)) (hp : s.popOp .neg = some s') :
    ∃ w, u = -w ∧ Reaches ε vals st₀ s' (w :: st) := by
  obtain ⟨sm, h1, h2, h3⟩ := h.popOp hp
  match sm with
  | [] => cases h2
  | w :: sm =>
    simp only [evalOp, Option.some.injEq, List.cons.injEq] at h2
    obtain ⟨e, rfl⟩ := h2
    exact ⟨w, e.symm, h1, h3⟩

theorem Reaches.dropNotNot {s : EState} {st : List ℝ} {u : ℝ} (h : Reaches ε vals st₀ s (u :: st)) :
    ∃ w, fpTruth w = fpTruth u ∧ Reaches ε vals st₀ s.dropNotNot (w :: st) := by
  unfold EState.dropNotNot
  cases hp : s.popOp .notNot with
  | none => exact ⟨u, rfl, h⟩
  | some s' =>
    obtain ⟨sm, h1, h2, h3⟩ := h.popOp hp
    match sm with
    | [] => cases h2
    | w :: sm =>
      simp only [evalOp, Option.some.injEq, List.cons.injEq] at h2
      obtain ⟨e, rfl⟩ := h2
      refine ⟨w, ?_, h1, h3⟩
      rw [← e]
      cases hw : fpTruth w <;> simp [ofBool, fpTruth] <;> norm_num

/-- The last two instructions removed. -/
theorem Reaches.popImmOp {s s' : EState} {st : List ℝ} {u v : ℝ} {o : Op} (h : Reaches ε vals st₀ s (u :: st))
    (hp : s.popImmOp o = some (v, s')) :
    ∃ sm, runCode ε vals s'.code st₀ = some sm ∧ evalOp ε o (v :: sm) = some (u :: st) ∧ s'.sp = st.length + 1 := by
  obtain ⟨hc, hs⟩ := popImmOp_code hp
  have h1 := h.1
  rw [hc, runCode_snoc] at h1
  obtain ⟨sm, h2, h3⟩ := h1
  rw [runCode_snoc] at h2
  obtain ⟨sm', h4, h5⟩ := h2
  simp only [runInstr, Option.some.injEq] at h5
  subst h5
  exact ⟨sm', h4, h3, by rw [hs, h.2]; rfl⟩

theorem Reaches.popImmMul {s s' : EState} {st : List ℝ} {u v : ℝ} (h : Reaches ε vals st₀ s (u :: st))
    (hp : s.popImmOp .mul = some (v, s')) : ∃ w, u = w * v ∧ Reaches ε vals st₀ s' (w :: st) := by
  obtain ⟨sm, h1, h2, h3⟩ := h.popImmOp hp
  match sm with
  | [] => cases h2
  | w :: sm =>
    simp only [evalOp, Option.some.injEq, List.cons.injEq] at h2
    obtain ⟨e, rfl⟩ := h2
    exact ⟨w, e.symm, h1, h3⟩

theorem Reaches.popImmRDiv {s s' : EState} {st : List ℝ} {u v : ℝ} (h : Reaches ε vals st₀ s (u :: st))
    (hp : s.popImmOp .rdiv = some (v, s')) : ∃ w, w ≠ 0 ∧ u = v / w ∧ Reaches ε vals st₀ s' (w :: st) := by
  obtain ⟨sm, h1, h2, h3⟩ := h.popImmOp hp
  match sm with
  | [] => cases h2
  | w :: sm =>
    by_cases hw : w = 0
    · simp [evalOp, hw] at h2
    · simp only [evalOp, hw, if_false, Option.some.injEq, List.cons.injEq] at h2
      obtain ⟨e, rfl⟩ := h2
      exact ⟨w, hw, e.symm, h1, h3⟩

theorem Reaches.popImmAdd {s s' : EState} {st : List ℝ} {u v : ℝ} (h : Reaches ε vals st₀ s (u :: st))
    (hp : s.popImmOp .add = some (v, s')) : ∃ w, u = w + v ∧ Reaches ε vals st₀ s' (w :: st) := by
  obtain ⟨sm, h1, h2, h3⟩ := h.popImmOp hp
  match sm with
  | [] => cases h2
  | w :: sm =>
    simp only [evalOp, Option.some.injEq, List.cons.injEq] at h2
    obtain ⟨e, rfl⟩ := h2
    exact ⟨w, e.symm, h1, h3⟩

theorem Reaches.popImmRSub {s s' : EState} {st : List ℝ} {u v : ℝ} (h : Reaches ε vals st₀ s (u :: st))
    (hp : s.popImmOp .rsub = some (v, s')) : ∃ w, u = v - w ∧ Reaches ε vals st₀ s' (w :: st) := by
  obtain ⟨sm, h1, h2, h3⟩ := h.popImmOp hp
  match sm with
  | [] => cases h2
  | w :: sm =>
    simp only [evalOp, Option.some.injEq, List.cons.injEq] at h2
    obtain ⟨e, rfl⟩ := h2
    exact ⟨w, e.symm, h1, h3⟩

theorem evalMul (x y : ℝ) (st : List ℝ) : evalOp ε .mul (y :: x :: st) = some (x * y :: st) := rfl
theorem evalAdd (x y : ℝ) (st : List ℝ) : evalOp ε .add (y :: x :: st) = some ((x + y) :: st) := rfl
theorem evalSub (x y : ℝ) (st : List ℝ) : evalOp ε .sub (y :: x :: st) = some ((x - y) :: st) := rfl
theorem evalRSub (x y : ℝ) (st : List ℝ) : evalOp ε .rsub (y :: x :: st) = some ((y - x) :: st) := rfl
theorem evalNeg (x : ℝ) (st : List ℝ) : evalOp ε .neg (x :: st) = some (-x :: st) := rfl
theorem evalDiv {y : ℝ} (h : y ≠ 0) (x : ℝ) (st : List ℝ) : evalOp ε .div (y :: x :: st) = some (x / y :: st) := by
  simp [evalOp, h]
theorem evalMod {y : ℝ} (h : y ≠ 0) (x : ℝ) (st : List ℝ) : evalOp ε .mod (y :: x :: st) = some (fpMod x y :: st) := by
  simp [evalOp, h]
theorem evalRDiv {x : ℝ} (h : x ≠ 0) (y : ℝ) (st : List ℝ) : evalOp ε .rdiv (y :: x :: st) = some (y / x :: st) := by
  simp [evalOp, h]
theorem evalInv {x : ℝ} (h : x ≠ 0) (st : List ℝ) : evalOp ε .inv (x :: st) = some (1 / x :: st) := by simp [evalOp, h]

/-! ## Pending values -/

/-- What a pair of a state and a pending value stands for. -/
def Rep (r : EState × Pending) (st : List ℝ) (v : ℝ) : Prop :=
  match r with
  | (s, .none) => Reaches ε vals st₀ s (v :: st)
  | (s, .mul p) => ∃ u, Reaches ε vals st₀ s (u :: st) ∧ u * p = v
  | (s, .add p) => ∃ u, Reaches ε vals st₀ s (u :: st) ∧ u + p = v

variable {E : Emitter} (hE : AddsOp ε E.addOp)

include hE in
theorem flushMul_ok {s : EState} {st : List ℝ} {u p : ℝ} (h : Reaches ε vals st₀ s (u :: st)) :
    Reaches ε vals st₀ (flushMul E s p) (u * p :: st) := by
  unfold flushMul
  split
  · split
    · next s' hp =>
      obtain ⟨w, hw, rfl, h1⟩ := h.popInv hp
      convert (h1.addImm p).addOp hE (evalRDiv hw p st) (k := 1) (by simp) using 2
      field_simp
    · exact (h.addImm p).addOp hE (evalMul u p st) (by simp)
  · next hp => simpa [not_not.mp hp] using h

include hE in
theorem flushAdd_ok {s : EState} {st : List ℝ} {u p : ℝ} (h : Reaches ε vals st₀ s (u :: st)) :
    Reaches ε vals st₀ (flushAdd E s p) ((u + p) :: st) := by
  unfold flushAdd
  split
  · split
    · next s' hp =>
      obtain ⟨w, rfl, h1⟩ := h.popNeg hp
      convert (h1.addImm p).addOp hE (evalRSub w p st) (k := 1) (by simp) using 2
      ring
    · exact (h.addImm p).addOp hE (evalAdd u p st) (by simp)
  · next hp => simpa [not_not.mp hp] using h

include hE in
theorem finish_ok {r : EState × Pending} {st : List ℝ} {v : ℝ} (h : Rep (ε := ε) (vals := vals) (st₀ := st₀) r st v) :
    Reaches ε vals st₀ (finish E r) (v :: st) := by
  obtain ⟨s, p⟩ := r
  cases p with
  | none => exact h
  | mul p => obtain ⟨u, h1, rfl⟩ := h; exact flushMul_ok hE h1
  | add p => obtain ⟨u, h1, rfl⟩ := h; exact flushAdd_ok hE h1

include hE in
theorem asMul_ok {r : EState × Pending} {st : List ℝ} {v : ℝ} (h : Rep (ε := ε) (vals := vals) (st₀ := st₀) r st v) :
    ∃ u, Reaches ε vals st₀ (asMul E r).1 (u :: st) ∧ u * (asMul E r).2 = v := by
  obtain ⟨s, p⟩ := r
  cases p with
  | mul p => exact h
  | none => exact ⟨v, finish_ok hE h, mul_one v⟩
  | add p => exact ⟨v, finish_ok hE h, mul_one v⟩

include hE in
theorem asAdd_ok {r : EState × Pending} {st : List ℝ} {v : ℝ} (h : Rep (ε := ε) (vals := vals) (st₀ := st₀) r st v) :
    ∃ u, Reaches ε vals st₀ (asAdd E r).1 (u :: st) ∧ u + (asAdd E r).2 = v := by
  obtain ⟨s, p⟩ := r
  cases p with
  | add p => exact h
  | none => exact ⟨v, finish_ok hE h, add_zero v⟩
  | mul p => exact ⟨v, finish_ok hE h, add_zero v⟩

/-! ## Products -/

/-- The value of `a * b` or of `a / b`. -/
noncomputable def mulDiv (star : Bool) (a b : ℝ) : ℝ := if star then a * b else a / b

/-- The value of `a + b` or of `a - b`. -/
noncomputable def addSub (plus : Bool) (a b : ℝ) : ℝ := if plus then a + b else a - b

include hE in
theorem stepMul_ok {s : EState} {st : List ℝ} {u p b : ℝ} {star : Bool} {operand : EState → EState}
    (h : Reaches ε vals st₀ s (u :: st)) (hb : star = false → b ≠ 0)
    (ho : ∀ s', Reaches ε vals st₀ s' st → Reaches ε vals st₀ (operand s') (b :: st))
    (ho' : ∀ s' w, Reaches ε vals st₀ s' (w :: st) → Reaches ε vals st₀ (operand s') (b :: w :: st)) :
    ∃ w, Reaches ε vals st₀ (stepMul E star s p operand).1 (w :: st) ∧
      w * (stepMul E star s p operand).2 = mulDiv star (u * p) b := by
  unfold stepMul
  split
  · next v s' hp =>
    obtain ⟨rfl, h1⟩ := h.popImm hp
    have h2 := ho _ h1
    cases star with
    | true => exact ⟨b, h2, by simp only [mulDiv]; simp; ring⟩
    | false =>
      refine ⟨1 / b, h2.addOp hE (evalInv (hb rfl) st) (by simp), ?_⟩
      have := hb rfl
      simp only [mulDiv]
      simp
      field_simp
  · -- the immediate value of the product of the left
    obtain ⟨p1, s1, u1, e1, h1, hu1⟩ : ∃ p1 s1 u1, takeLeft .mul (· * ·) p s = (p1, s1) ∧ Reaches ε vals st₀ s1 (u1 :: st) ∧ u1 * p1 = u * p := by
      cases hp : s.popImmOp .mul with
      | none => exact ⟨p, s, u, by simp [takeLeft, hp], h, rfl⟩
      | some r =>
        obtain ⟨v, s'⟩ := r
        obtain ⟨w, rfl, h1⟩ := h.popImmMul hp
        exact ⟨_, s', w, by simp only [takeLeft, hp]; rfl, h1, by ring⟩
    simp only [e1]
    -- the inverse of the left
    obtain ⟨iv, s2, u2, e2, h2, hu2, hiv⟩ : ∃ iv s2 u2, (if star then takeUnary .inv s1 else (false, s1)) = (iv, s2) ∧ Reaches ε vals st₀ s2 (u2 :: st) ∧
          (iv = false → u1 = u2) ∧ (iv = true → u2 ≠ 0 ∧ u1 = 1 / u2 ∧ star = true) := by
      cases star with
      | false => exact ⟨false, s1, u1, rfl, h1, fun _ => rfl, by simp⟩
      | true =>
        cases hp : s1.popOp .inv with
        | none => exact ⟨false, s1, u1, by simp [takeUnary, hp], h1, fun _ => rfl, by simp⟩
        | some s' =>
          obtain ⟨w, hw, rfl, h2⟩ := h1.popInv hp
          exact ⟨true, s', w, by simp [takeUnary, hp], h2, by simp, fun _ => ⟨hw, rfl, rfl⟩⟩
    simp only [e2]
    have h3 := ho' _ _ h2
    -- the immediate value of the right
    obtain ⟨star3, p3, s3, b3, e3, h3', hb3, hv3⟩ : ∃ star3 p3 s3 b3, takeRight .mul .rdiv (· * ·) (· / ·) star p1 (operand s2) = (star3, p3, s3) ∧ Reaches ε vals st₀ s3 (b3 :: u2 :: st) ∧
          (star3 = false → b3 ≠ 0) ∧ mulDiv star3 (u1 * p3) b3 = mulDiv star (u1 * p1) b := by
      cases hp : (operand s2).popImmOp .mul with
      | some r =>
        obtain ⟨v, s'⟩ := r
        obtain ⟨w, rfl, h4⟩ := h3.popImmMul hp
        refine ⟨_, _, _, w, by simp only [takeRight, hp]; rfl, h4, ?_, ?_⟩
        · intro hs
          have := hb hs
          exact left_ne_zero_of_mul this
        · cases star with
          | true => simp only [mulDiv]; simp; ring
          | false =>
            have := hb rfl
            have hw := left_ne_zero_of_mul this
            have hv := right_ne_zero_of_mul this
            simp only [mulDiv]; simp; field_simp
      | none =>
        cases hq : (operand s2).popImmOp .rdiv with
        | none => exact ⟨_, _, _, b, by simp only [takeRight, hp, hq], h3, hb, rfl⟩
        | some r =>
          obtain ⟨v, s'⟩ := r
          obtain ⟨w, hw, rfl, h4⟩ := h3.popImmRDiv hq
          refine ⟨_, _, _, w, by simp only [takeRight, hp, hq]; rfl, h4, fun _ => hw, ?_⟩
          cases star with
          | true => simp only [mulDiv]; simp; field_simp
          | false =>
            have hv : v ≠ 0 := by
              intro hv
              exact hb rfl (by simp [hv])
            simp only [mulDiv]; simp; field_simp
    simp only [e3]
    rw [← hu1, ← hv3]
    cases iv with
    | false =>
      have hu := hu2 rfl
      subst hu
      cases star3 with
      | true => exact ⟨_, h3'.addOp hE (evalMul _ _ _) (by simp), by simp only [mulDiv]; simp; ring⟩
      | false =>
        have := hb3 rfl
        exact ⟨_, h3'.addOp hE (evalDiv this _ _) (by simp), by simp only [mulDiv]; simp; field_simp⟩
    | true =>
      obtain ⟨hw, rfl, -⟩ := hiv rfl
      cases star3 with
      | true => exact ⟨_, h3'.addOp hE (evalRDiv hw _ _) (by simp), by simp only [mulDiv]; simp; field_simp⟩
      | false =>
        have := hb3 rfl
        have h5 : Reaches ε vals st₀ _ (u2 * b3 :: st) := h3'.addOp (k := 1) hE (evalMul _ _ _) (by simp)
        exact ⟨_, h5.addOp hE (evalInv (mul_ne_zero hw this) _) (by simp), by simp only [mulDiv]; simp; field_simp⟩

include hE in
theorem stepAdd_ok {s : EState} {st : List ℝ} {u p b : ℝ} {plus : Bool} {operand : EState → EState}
    (h : Reaches ε vals st₀ s (u :: st))
    (ho : ∀ s', Reaches ε vals st₀ s' st → Reaches ε vals st₀ (operand s') (b :: st))
    (ho' : ∀ s' w, Reaches ε vals st₀ s' (w :: st) → Reaches ε vals st₀ (operand s') (b :: w :: st)) :
    ∃ w, Reaches ε vals st₀ (stepAdd E plus s p operand).1 (w :: st) ∧
      w + (stepAdd E plus s p operand).2 = addSub plus (u + p) b := by
  unfold stepAdd
  split
  · next v s' hp =>
    obtain ⟨rfl, h1⟩ := h.popImm hp
    have h2 := ho _ h1
    cases plus with
    | true => exact ⟨b, h2, by simp only [addSub]; simp; ring⟩
    | false => exact ⟨-b, h2.addOp hE (evalNeg b st) (by simp), by simp only [addSub]; simp; ring⟩
  · obtain ⟨p1, s1, u1, e1, h1, hu1⟩ : ∃ p1 s1 u1, takeLeft .add (· + ·) p s = (p1, s1) ∧ Reaches ε vals st₀ s1 (u1 :: st) ∧ u1 + p1 = u + p := by
      cases hp : s.popImmOp .add with
      | none => exact ⟨p, s, u, by simp [takeLeft, hp], h, rfl⟩
      | some r =>
        obtain ⟨v, s'⟩ := r
        obtain ⟨w, rfl, h1⟩ := h.popImmAdd hp
        exact ⟨_, s', w, by simp only [takeLeft, hp]; rfl, h1, by ring⟩
    simp only [e1]
    obtain ⟨iv, s2, u2, e2, h2, hu2, hiv⟩ : ∃ iv s2 u2, takeUnary .neg s1 = (iv, s2) ∧ Reaches ε vals st₀ s2 (u2 :: st) ∧
          (iv = false → u1 = u2) ∧ (iv = true → u1 = -u2) := by
      cases hp : s1.popOp .neg with
      | none => exact ⟨false, s1, u1, by simp [takeUnary, hp], h1, fun _ => rfl, by simp⟩
      | some s' =>
        obtain ⟨w, rfl, h2⟩ := h1.popNeg hp
        exact ⟨true, s', w, by simp [takeUnary, hp], h2, by simp, fun _ => rfl⟩
    simp only [e2]
    have h3 := ho' _ _ h2
    obtain ⟨plus3, p3, s3, b3, e3, h3', hv3⟩ : ∃ plus3 p3 s3 b3, takeRight .add .rsub (· + ·) (· - ·) plus p1 (operand s2) = (plus3, p3, s3) ∧ Reaches ε vals st₀ s3 (b3 :: u2 :: st) ∧
          addSub plus3 (u1 + p3) b3 = addSub plus (u1 + p1) b := by
      cases hp : (operand s2).popImmOp .add with
      | some r =>
        obtain ⟨v, s'⟩ := r
        obtain ⟨w, rfl, h4⟩ := h3.popImmAdd hp
        refine ⟨_, _, _, w, by simp only [takeRight, hp]; rfl, h4, ?_⟩
        cases plus <;> (simp only [addSub]; simp; ring)
      | none =>
        cases hq : (operand s2).popImmOp .rsub with
        | none => exact ⟨_, _, _, b, by simp only [takeRight, hp, hq], h3, rfl⟩
        | some r =>
          obtain ⟨v, s'⟩ := r
          obtain ⟨w, rfl, h4⟩ := h3.popImmRSub hq
          refine ⟨_, _, _, w, by simp only [takeRight, hp, hq]; rfl, h4, ?_⟩
          cases plus <;> (simp only [addSub]; simp; ring)
    simp only [e3]
    rw [← hu1, ← hv3]
    cases iv with
    | false =>
      have hu := hu2 rfl
      subst hu
      cases plus3 with
      | true => exact ⟨_, h3'.addOp hE (evalAdd _ _ _) (by simp), by simp only [addSub]; simp; ring⟩
      | false => exact ⟨_, h3'.addOp hE (evalSub _ _ _) (by simp), by simp only [addSub]; simp; ring⟩
    | true =>
      obtain rfl := hiv rfl
      cases plus3 with
      | true => exact ⟨_, h3'.addOp hE (evalRSub _ _ _) (by simp), by simp only [addSub]; simp; ring⟩
      | false =>
        have h5 : Reaches ε vals st₀ _ ((u2 + b3) :: st) := h3'.addOp (k := 1) hE (evalAdd _ _ _) (by simp)
        exact ⟨_, h5.addOp hE (evalNeg _ _) (by simp), by simp only [addSub]; simp; ring⟩

end

end Hnco.FParser
