import Verif.App.MakeAdapter
import Verif.App.ParserProps
import Verif.Representation.AdapterProps

/-!
# C73: variables of parsed functions get their declared representations
-/

namespace Hnco

open Outcome

/-! ## Specification -/

/-- The parameters used for a variable: the declared ones if there are some of a suitable kind, otherwise the default ones. -/
def used (suitable : RepParams → Bool) (default : RepParams) : Option RepParams → RepParams
  | some p => if suitable p then p else default
  | none => default

/-- Parameters of doubles. -/
def RepParams.isDouble : RepParams → Bool
  | .doublePrecision _ _ _ => true
  | .doubleSize _ _ _ => true
  | _ => false

/-- Parameters of integers of 64 bits. -/
def RepParams.isLong : RepParams → Bool
  | .long _ _ => true
  | _ => false

/-- Parameters of integers of 32 bits. -/
def RepParams.isInt : RepParams → Bool
  | .int _ _ => true
  | _ => false

/-- The values allowed by a declaration. -/
def RepParams.Admits : RepParams → Rat → Prop
  | .int a b, v => ∃ z : Int, v = z ∧ a ≤ z ∧ z ≤ b
  | .long a b, v => ∃ z : Int, v = z ∧ a ≤ z ∧ z ≤ b
  | .doublePrecision a b _, v => a ≤ v ∧ v < b
  | .doubleSize a b _, v => a ≤ v ∧ v < b
  | .set values, v => v ∈ values

/-- The declaration can be represented. -/
def RepParams.Representable (l : LogOps) : RepParams → Prop
  | .int a b => a < b ∧ b - a + 1 < 2 ^ 31
  | .long a b => a < b ∧ b - a + 1 < 2 ^ 63
  | .doublePrecision a b p => a < b ∧ 0 < p ∧ 0 < l.ceilLog2Real ((b - a) / p)
  | .doubleSize a b n => a < b ∧ 0 < n
  | .set values => 2 ≤ values.length

/-- The adapter with representations `reps` is a function of the variables `names`: on vectors of the size of the adapter, it
evaluates the function on values such that the value of the variable `name` satisfies `P name`. -/
def AdapterOf {D : Type} (names : List (List Char)) (reps : List (Rep D)) (P : List Char → D → Prop) : Prop :=
  reps.length = names.length ∧ ∃ size, multivariateSize reps = ok size ∧
    ∀ (C K : Type) (f : List D → Outcome C) (converter : C → Outcome K) (vars : List D) (bv : BV),
      vars.length = names.length → bv.length = size →
      ∃ values, multivariateEvaluate f converter reps vars bv = (f values >>= converter) ∧ values.length = names.length ∧
        ∀ (i : Nat) (name : List Char), names[i]? = some name → ∃ v, values[i]? = some v ∧ P name v

/-- All the values which satisfy `P` can be obtained. -/
def AdapterOnto {D : Type} (names : List (List Char)) (reps : List (Rep D)) (P : List Char → D → Prop) : Prop :=
  ∃ size, multivariateSize reps = ok size ∧ ∀ values : List D, values.length = names.length →
    (∀ (i : Nat) (name : List Char) (v : D), names[i]? = some name → values[i]? = some v → P name v) →
    ∃ bv : BV, bv.length = size ∧
      ∀ (C K : Type) (f : List D → Outcome C) (converter : C → Outcome K) (vars : List D), vars.length = names.length →
        multivariateEvaluate f converter reps vars bv = (f values >>= converter)

/-! ## Lists of results -/

theorem mapM_except {α β ε : Type} {f : α → Except ε β} : ∀ {l : List α} {rs : List β}, l.mapM f = .ok rs →
    List.Forall₂ (fun a r => f a = .ok r) l rs
  | [], rs, h => by
    rw [List.mapM_nil] at h
    cases h
    exact .nil
  | a :: l, rs, h => by
    rw [List.mapM_cons] at h
    cases ha : f a with
    | error e => rw [ha] at h; cases h
    | ok r =>
      cases hl : l.mapM f with
      | error e => rw [ha, hl] at h; cases h
      | ok rs' =>
        rw [ha, hl] at h
        cases h
        exact .cons ha (mapM_except hl)

theorem mapM_except_ok {α β ε : Type} {f : α → Except ε β} : ∀ {l : List α}, (∀ a ∈ l, ∃ r, f a = .ok r) →
    ∃ rs, l.mapM f = .ok rs
  | [], _ => ⟨[], List.mapM_nil⟩
  | a :: l, h => by
    obtain ⟨r, hr⟩ := h a (List.mem_cons_self ..)
    obtain ⟨rs, hrs⟩ := mapM_except_ok (fun b hb => h b (List.mem_cons_of_mem _ hb))
    exact ⟨r :: rs, by rw [List.mapM_cons, hr, hrs]; rfl⟩

theorem mapM_except_congr {α β ε : Type} {f g : α → Except ε β} : ∀ {l : List α}, (∀ a ∈ l, f a = g a) → l.mapM f = l.mapM g
  | [], _ => by rw [List.mapM_nil, List.mapM_nil]
  | a :: l, h => by
    rw [List.mapM_cons, List.mapM_cons, h a (List.mem_cons_self ..),
      mapM_except_congr (fun b hb => h b (List.mem_cons_of_mem _ hb))]

/-! ## Completing the environment -/

/-- The step of both loops. -/
def putUnless (suitable : RepParams → Bool) (default : RepParams) (env : RepEnv) (name : List Char) : RepEnv :=
  match env name with
  | none => env.put name default
  | some p => if suitable p then env else env.put name default

theorem used_used (suitable : RepParams → Bool) (d : RepParams) (o : Option RepParams) :
    used suitable d (some (used suitable d o)) = used suitable d o := by
  cases o with
  | none =>
    show (if suitable d then d else d) = d
    split <;> rfl
  | some p =>
    by_cases h : suitable p = true
    · simp [used, h]
    · simp [used, h]

theorem putUnless_same (suitable : RepParams → Bool) (d : RepParams) (env : RepEnv) (name : List Char) :
    putUnless suitable d env name name = some (used suitable d (env name)) := by
  unfold putUnless
  cases h : env name with
  | none => simp [used, RepEnv.put]
  | some p =>
    by_cases hs : suitable p = true
    · simp [used, hs, h]
    · simp [used, hs, RepEnv.put]

theorem putUnless_other (suitable : RepParams → Bool) (d : RepParams) (env : RepEnv) {name x : List Char} (hx : x ≠ name) :
    putUnless suitable d env name x = env x := by
  unfold putUnless
  cases env name with
  | none => simp [RepEnv.put, hx]
  | some p =>
    by_cases hs : suitable p = true
    · simp [hs]
    · simp [hs, RepEnv.put, hx]

theorem putUnless_fold (suitable : RepParams → Bool) (d : RepParams) : ∀ (names : List (List Char)) (env : RepEnv)
    (x : List Char), x ∈ names → names.foldl (putUnless suitable d) env x = some (used suitable d (env x)) := by
  have key : ∀ (names : List (List Char)) (env : RepEnv) (x : List Char),
      names.foldl (putUnless suitable d) env x = if x ∈ names then some (used suitable d (env x)) else env x := by
    intro names
    induction names with
    | nil => intro env x; simp
    | cons n names ih =>
      intro env x
      rw [List.foldl_cons, ih]
      by_cases hx : x = n
      · subst hx
        rw [putUnless_same, used_used]
        simp
      · rw [putUnless_other suitable d env hx]
        simp [hx]
  intro names env x hx
  rw [key, if_pos hx]

theorem completeEntry_eq (d : RepParams) : completeEntry d = putUnless (fun p => p.index == d.index) d := by
  funext env name
  unfold completeEntry putUnless
  cases env name with
  | none => rfl
  | some p => by_cases h : p.index = d.index <;> simp [h]

theorem completeMixed_eq (d : RepParams) : completeMixed d = putUnless (fun p => !p.isInt) d := by
  funext env name
  unfold completeMixed putUnless
  cases env name with
  | none => rfl
  | some p => cases p <;> rfl

theorem foldl_pairs {α β : Type} (f : β → α → β) (g h : α → α) : ∀ (l : List α) (b : β),
    l.foldl (fun b a => f (f b (g a)) (h a)) b = (l.flatMap (fun a => [g a, h a])).foldl f b
  | [], b => rfl
  | a :: l, b => by
    rw [List.foldl_cons, foldl_pairs f g h l, List.flatMap_cons, List.foldl_append]
    rfl

/-! ## Parsed parameters are values of their types -/

/-- The bounds are values of their types. -/
def RepParams.InTypes : RepParams → Prop
  | .int a b => InType 32 a ∧ InType 32 b
  | .long a b => InType 64 a ∧ InType 64 b
  | _ => True

theorem stringToInt_range {lo hi : Int} {s : List Char} {z : Int} (h : stringToInt lo hi s = .ok z) : lo ≤ z ∧ z ≤ hi := by
  unfold stringToInt at h
  extract_lets p ds v at h
  by_cases h0 : ds = []
  · rw [if_pos h0] at h; cases h
  · rw [if_neg h0] at h
    by_cases h1 : lo ≤ v ∧ v ≤ hi
    · rw [if_pos h1] at h
      injection h with h
      rw [← h]
      exact h1
    · rw [if_neg h1] at h; cases h

theorem except_bind_ok {ε α β : Type} {m : Except ε α} {f : α → Except ε β} {b : β} (h : (m >>= f) = .ok b) :
    ∃ a, m = .ok a ∧ f a = .ok b := by
  cases m with
  | error e => cases h
  | ok a => exact ⟨a, rfl, h⟩

theorem parseType_inTypes {stod : List Char → Except ParseExn Rat} {o : ParseOptions} {type str : List Char} {p : RepParams}
    (h : parseType stod o type str = .ok p) : p.InTypes := by
  unfold parseType at h
  split at h
  · unfold parseIntRep at h
    obtain ⟨ps, _, h⟩ := except_bind_ok h
    split at h
    · obtain ⟨a, ha, h⟩ := except_bind_ok h
      obtain ⟨b, hb, h⟩ := except_bind_ok h
      cases h
      have ha := stringToInt_range ha
      have hb := stringToInt_range hb
      exact ⟨⟨by simpa using ha.1, by simpa using ha.2⟩, ⟨by simpa using hb.1, by simpa using hb.2⟩⟩
    · cases h
  · split at h
    · unfold parseLongRep at h
      obtain ⟨ps, _, h⟩ := except_bind_ok h
      split at h
      · obtain ⟨a, ha, h⟩ := except_bind_ok h
        obtain ⟨b, hb, h⟩ := except_bind_ok h
        cases h
        have ha := stringToInt_range ha
        have hb := stringToInt_range hb
        exact ⟨⟨by simpa using ha.1, by simpa using ha.2⟩, ⟨by simpa using hb.1, by simpa using hb.2⟩⟩
      · cases h
    · split at h
      · unfold parseDoubleRep at h
        obtain ⟨ps, _, h⟩ := except_bind_ok h
        split at h
        · obtain ⟨a, _, h⟩ := except_bind_ok h
          obtain ⟨b, _, h⟩ := except_bind_ok h
          split at h <;> cases h <;> trivial
        · obtain ⟨a, _, h⟩ := except_bind_ok h
          obtain ⟨b, _, h⟩ := except_bind_ok h
          unfold parseDoubleKey at h
          obtain ⟨ts, _, h⟩ := except_bind_ok h
          split at h
          · obtain ⟨k, _, h⟩ := except_bind_ok h
            split at h
            · obtain ⟨c, _, h⟩ := except_bind_ok h
              cases h; trivial
            · split at h
              · obtain ⟨c, _, h⟩ := except_bind_ok h
                cases h; trivial
              · cases h
          · cases h
        · cases h
      · split at h
        · unfold parseValueSetRep at h
          obtain ⟨ps, _, h⟩ := except_bind_ok h
          obtain ⟨vs, _, h⟩ := except_bind_ok h
          cases h; trivial
        · cases h

theorem parseRepresentation_inTypes {stod : List Char → Except ParseExn Rat} {o : ParseOptions} {s : List Char} {p : RepParams}
    (h : parseRepresentation stod o s = .ok p) : p.InTypes := by
  unfold parseRepresentation at h
  split at h
  · cases h
  · split at h
    · cases h
    · split at h
      · cases h
      · obtain ⟨t, _, h⟩ := except_bind_ok h
        exact parseType_inTypes h

theorem parseDeclarations_inTypes {stod : List Char → Except ParseExn Rat} {o : ParseOptions} : ∀ (ds : List (List Char))
    (env env' : RepEnv), (∀ name p, env name = some p → p.InTypes) → ds.foldlM (parseDeclaration stod o) env = .ok env' →
    ∀ name p, env' name = some p → p.InTypes
  | [], env, env', h, he => by
    cases he; exact h
  | d :: ds, env, env', h, he => by
    rw [List.foldlM_cons] at he
    obtain ⟨env1, h1, he⟩ := except_bind_ok he
    refine parseDeclarations_inTypes ds env1 env' ?_ he
    unfold parseDeclaration at h1
    split at h1
    · cases h1; exact h
    · split at h1
      · cases h1
      · obtain ⟨n, _, h1⟩ := except_bind_ok h1
        obtain ⟨r, hr, h1⟩ := except_bind_ok h1
        cases h1
        intro name p hp
        unfold RepEnv.put at hp
        split at hp
        · cases hp; exact parseRepresentation_inTypes hr
        · exact h name p hp

theorem parseRepresentations_inTypes {stod : List Char → Except ParseExn Rat} {o : ParseOptions} {s : List Char} {env : RepEnv}
    (h : parseRepresentations stod o s = .ok env) : ∀ name p, env name = some p → p.InTypes := by
  unfold parseRepresentations at h
  obtain ⟨ds, _, h⟩ := except_bind_ok h
  exact parseDeclarations_inTypes ds _ env (fun _ _ h => by cases h) h

theorem used_inTypes {s : RepParams → Bool} {d : RepParams} {o : Option RepParams} (hd : d.InTypes)
    (ho : ∀ p, o = some p → p.InTypes) : (used s d o).InTypes := by
  cases o with
  | none => exact hd
  | some p =>
    by_cases hs : s p = true
    · simpa [used, hs] using ho p rfl
    · simpa [used, hs] using hd

/-! ## Representations of declarations -/

/-- The representation decodes values of `P`, from its slice. -/
def Rep.Gives {D : Type} (rep : Rep D) (P : D → Prop) : Prop :=
  rep.Decodes ∧ ∀ (bv : BV) (v : D), bv.length = rep.size → rep.unpack bv 0 = ok v → P v

/-- The representation decodes all values of `P`. -/
def Rep.Onto {D : Type} (rep : Rep D) (P : D → Prop) : Prop :=
  ∀ v, P v → ∃ bv : BV, bv.length = rep.size ∧ rep.unpack bv 0 = ok v

theorem liftConstruct_ok {α : Type} {m : Outcome α} {a : α} (h : liftConstruct m = .ok a) : m = ok a := by
  cases m with
  | ok b => cases h; rfl
  | throw e => cases h
  | ub => cases h

theorem integerToRep_gives {l : LogOps} {w : Nat} (hw : w ≤ 64) {a b : Int} (ha : InType w a) (hb : InType w b) {rep : Rep Int}
    (h : integerToRep l w a b = .ok rep) : rep.Gives (fun z => a ≤ z ∧ z ≤ b) ∧
      ((∀ m, l.ceilLog2 m = Nat.clog 2 m) → rep.Onto (fun z => a ≤ z ∧ z ≤ b)) := by
  unfold integerToRep at h
  obtain ⟨r, hr, h⟩ := except_bind_ok h
  cases h
  have hr := liftConstruct_ok hr
  have hc : r.Constructed w l.ceilLog2 := Or.inr (Or.inl ⟨a, b, ha, hb, hr⟩)
  obtain ⟨_, e1, e2⟩ := dyadicExact_size.1 a b hr
  refine ⟨⟨dyadic_decodes hw hc, fun bv v hl hv => ?_⟩, fun hlog v hv => ?_⟩
  · obtain ⟨v', h1, h2, h3, _⟩ := dyadicUnpack_spec hw hc (bv := bv) (start := 0) (by
      have : bv.length = r.size := hl
      omega)
    have hv : dyadicUnpack r bv 0 = ok v := hv
    rw [h1] at hv
    cases hv
    rw [e1] at h2
    rw [e2] at h3
    exact ⟨h2, h3⟩
  · exact dyadicExact_onto hw hlog ha hb hr hv.1 hv.2

theorem doubleFloat_size {l : LogOps} {p : RepParams} {r : DyadicFloat Rat} (h : doubleFloat l p = .ok r) :
    ∃ a b n, floatWithSize a b n = ok r ∧ ∀ v, a ≤ v → v < b → p.Admits v := by
  cases p with
  | int a b => cases h
  | long a b => cases h
  | set vs => cases h
  | doubleSize a b n => exact ⟨a, b, n, liftConstruct_ok h, fun v h1 h2 => ⟨h1, h2⟩⟩
  | doublePrecision a b c =>
    have h := liftConstruct_ok h
    simp only [floatWithPrecision, bind_eq_ok] at h
    obtain ⟨_, h1, _, h2, lengths, h3, h4⟩ := h
    refine ⟨a, b, l.ceilLog2Real ((b - a) / c), ?_, fun v h1 h2 => ⟨h1, h2⟩⟩
    unfold floatWithSize
    have h0 : 0 < l.ceilLog2Real ((b - a) / c) := by
      by_contra hcon
      unfold floatLengths at h3
      rw [assert_neg (by simpa using hcon)] at h3
      cases h3
    rw [h1, ok_bind, assert_pos (by simpa using h0), ok_bind, h3, ok_bind]
    exact h4

theorem doubleRep_gives {l : LogOps} {p : RepParams} {rep : Rep Rat} (h : doubleRep l p = .ok rep) : rep.Gives p.Admits := by
  unfold doubleRep at h
  obtain ⟨r, hr, h⟩ := except_bind_ok h
  cases h
  obtain ⟨a, b, n, hs, hA⟩ := doubleFloat_size hr
  refine ⟨float_decodes hs, fun bv v hl hv => ?_⟩
  obtain ⟨v', h1, h2, h3, _⟩ := floatUnpack_range hs (bv := bv) (start := 0) (by
    have : bv.length = r.lengths.length := hl
    omega)
  have hv : floatUnpack r bv 0 = ok v := hv
  rw [h1] at hv
  cases hv
  exact hA _ h2 h3

theorem intRep_gives {l : LogOps} {p : RepParams} (hp : p.InTypes) {rep : Rep Int} (h : intRep l p = .ok rep) :
    rep.Gives (fun z => p.Admits z) ∧ ((∀ m, l.ceilLog2 m = Nat.clog 2 m) → rep.Onto (fun z => p.Admits z)) := by
  cases p with
  | int a b =>
    obtain ⟨h1, h2⟩ := integerToRep_gives (by decide) hp.1 hp.2 h
    refine ⟨⟨h1.1, fun bv v hl hv => ⟨v, rfl, h1.2 bv v hl hv⟩⟩, fun hlog v hv => ?_⟩
    obtain ⟨z, hz, hv⟩ := hv
    rw [Int.cast_inj.mp hz]
    exact h2 hlog z hv
  | long a b => cases h
  | set vs => cases h
  | doubleSize a b n => cases h
  | doublePrecision a b n => cases h

theorem longRep_gives {l : LogOps} {p : RepParams} (hp : p.InTypes) {rep : Rep Int} (h : longRep l p = .ok rep) :
    rep.Gives (fun z => p.Admits z) ∧ ((∀ m, l.ceilLog2 m = Nat.clog 2 m) → rep.Onto (fun z => p.Admits z)) := by
  cases p with
  | long a b =>
    obtain ⟨h1, h2⟩ := integerToRep_gives (by decide) hp.1 hp.2 h
    refine ⟨⟨h1.1, fun bv v hl hv => ⟨v, rfl, h1.2 bv v hl hv⟩⟩, fun hlog v hv => ?_⟩
    obtain ⟨z, hz, hv⟩ := hv
    rw [Int.cast_inj.mp hz]
    exact h2 hlog z hv
  | int a b => cases h
  | set vs => cases h
  | doubleSize a b n => cases h
  | doublePrecision a b n => cases h

theorem map_gives {rep : Rep Int} {P : Rat → Prop} (h : rep.Gives (fun z => P z)) : (rep.map (fun z : Int => (z : Rat))).Gives P := by
  refine ⟨map_decodes _ h.1, fun bv v hl hv => ?_⟩
  have hv : (do let z ← rep.unpack bv 0; ok ((z : Int) : Rat)) = ok v := hv
  obtain ⟨z, h1, h2⟩ := bind_eq_ok.mp hv
  cases h2
  exact h.2 bv z hl h1

theorem variantRep_gives {l : LogOps} {p : RepParams} (hp : p.InTypes) (hset : ∀ vs, p = .set vs → vs.length < 2 ^ 31)
    {rep : Rep Rat} (h : variantRep l p = .ok rep) : rep.Gives p.Admits := by
  cases p with
  | int a b =>
    obtain ⟨r, hr, h⟩ := except_bind_ok (show (integerToRep l 32 a b >>= fun r => Except.ok (r.map _)) = .ok rep from h)
    cases h
    refine map_gives ?_
    obtain ⟨h1, _⟩ := integerToRep_gives (by decide) hp.1 hp.2 hr
    exact ⟨h1.1, fun bv v hl hv => ⟨v, rfl, h1.2 bv v hl hv⟩⟩
  | long a b =>
    obtain ⟨r, hr, h⟩ := except_bind_ok (show (integerToRep l 64 a b >>= fun r => Except.ok (r.map _)) = .ok rep from h)
    cases h
    refine map_gives ?_
    obtain ⟨h1, _⟩ := integerToRep_gives (by decide) hp.1 hp.2 hr
    exact ⟨h1.1, fun bv v hl hv => ⟨v, rfl, h1.2 bv v hl hv⟩⟩
  | set vs =>
    obtain ⟨r, hr, h⟩ := except_bind_ok (show (liftConstruct (valueSetNew l.ceilLog2 vs) >>= fun r => Except.ok r.rep) = .ok rep from h)
    cases h
    have hr := liftConstruct_ok hr
    refine ⟨valueSet_decodes (hset vs rfl) hr, fun bv v hl hv => ?_⟩
    obtain ⟨v', h1, h2⟩ := valueSetUnpack_mem (hset vs rfl) hr (bv := bv) (start := 0) (by
      have : bv.length = r.index.size := hl
      omega)
    have hv : valueSetUnpack r bv 0 = ok v := hv
    rw [h2] at hv
    cases hv
    exact h1
  | doubleSize a b n => exact doubleRep_gives h
  | doublePrecision a b n => exact doubleRep_gives h

theorem liftConstruct_iff {α β : Type} {m : Outcome α} {f : α → β} :
    (∃ b, (liftConstruct m >>= fun a => Except.ok (f a)) = .ok b) ↔ ∃ a, m = ok a := by
  cases m with
  | ok a => exact ⟨fun _ => ⟨a, rfl⟩, fun _ => ⟨f a, rfl⟩⟩
  | throw e => exact ⟨fun ⟨_, h⟩ => by (cases h), fun ⟨_, h⟩ => by (cases h)⟩
  | ub => exact ⟨fun ⟨_, h⟩ => by (cases h), fun ⟨_, h⟩ => by (cases h)⟩

theorem floatWithPrecision_accepts {g : Rat → Int} {a b c : Rat} :
    (∃ r, floatWithPrecision g a b c = ok r) ↔ a < b ∧ 0 < c ∧ 0 < g ((b - a) / c) := by
  constructor
  · rintro ⟨r, h⟩
    simp only [floatWithPrecision, bind_eq_ok] at h
    obtain ⟨_, h1, _, h2, lengths, h3, h4⟩ := h
    simp only [assert_eq_ok, decide_eq_true_eq] at h1 h2
    refine ⟨h1, h2, ?_⟩
    by_contra hcon
    unfold floatLengths at h3
    rw [assert_neg (by simpa using hcon)] at h3
    cases h3
  · rintro ⟨h1, h2, h3⟩
    unfold floatWithPrecision
    rw [assert_pos (by simpa using h1), ok_bind, assert_pos (by simpa using h2), ok_bind]
    simp only [floatLengths_eq h3, ok_bind]
    exact ⟨_, rfl⟩

theorem doubleFloat_iff {l : LogOps} {p : RepParams} (hp : p.isDouble = true) :
    (∃ r, doubleFloat l p = .ok r) ↔ p.Representable l := by
  have key : ∀ (m : Outcome (DyadicFloat Rat)), (∃ r, liftConstruct m = .ok r) ↔ ∃ r, m = ok r := by
    intro m
    constructor
    · rintro ⟨r, h⟩; exact ⟨r, liftConstruct_ok h⟩
    · rintro ⟨r, rfl⟩; exact ⟨r, rfl⟩
  cases p with
  | int a b => cases hp
  | long a b => cases hp
  | set vs => cases hp
  | doubleSize a b n => exact (key _).trans floatUnpack_spec.1
  | doublePrecision a b c => exact (key _).trans floatWithPrecision_accepts

theorem except_map_iff {ε α β : Type} {m : Except ε α} {f : α → β} :
    (∃ b, (m >>= fun a => Except.ok (f a)) = .ok b) ↔ ∃ a, m = .ok a := by
  cases m with
  | ok a => exact ⟨fun _ => ⟨a, rfl⟩, fun _ => ⟨f a, rfl⟩⟩
  | error e => exact ⟨fun ⟨_, h⟩ => by (cases h), fun ⟨_, h⟩ => by (cases h)⟩

theorem doubleRep_iff {l : LogOps} {p : RepParams} (hp : p.isDouble = true) :
    (∃ r, doubleRep l p = .ok r) ↔ p.Representable l :=
  except_map_iff.trans (doubleFloat_iff hp)

theorem integerToRep_iff {l : LogOps} (hlog : ∀ m, l.ceilLog2 m = Nat.clog 2 m) {w : Nat} {a b : Int} (ha : InType w a)
    (hb : InType w b) : (∃ r, integerToRep l w a b = .ok r) ↔ a < b ∧ b - a + 1 < 2 ^ (w - 1) := by
  refine liftConstruct_iff.trans ((dyadicExact_accepts hlog ha hb).trans ?_)
  have := two_pow_pos_int (w - 1)
  unfold InType
  constructor
  · rintro ⟨h1, h2, h3⟩; exact ⟨h1, by omega⟩
  · rintro ⟨h1, h2⟩; exact ⟨h1, by omega, by omega⟩

theorem variantRep_iff {l : LogOps} (hlog : ∀ m, l.ceilLog2 m = Nat.clog 2 m) {p : RepParams} (hp : p.InTypes)
    (hset : ∀ vs, p = .set vs → vs.length < 2 ^ 31) : (∃ r, variantRep l p = .ok r) ↔ p.Representable l := by
  cases p with
  | int a b => exact except_map_iff.trans (integerToRep_iff hlog hp.1 hp.2)
  | long a b => exact except_map_iff.trans (integerToRep_iff hlog hp.1 hp.2)
  | set vs => exact liftConstruct_iff.trans (valueSetNew_accepts hlog (hset vs rfl))
  | doubleSize a b n => exact doubleRep_iff (p := .doubleSize a b n) rfl
  | doublePrecision a b n => exact doubleRep_iff (p := .doublePrecision a b n) rfl

theorem longRep_iff {l : LogOps} (hlog : ∀ m, l.ceilLog2 m = Nat.clog 2 m) {p : RepParams} (hp : p.InTypes)
    (hk : p.isLong = true) : (∃ r, longRep l p = .ok r) ↔ p.Representable l := by
  cases p with
  | long a b => exact integerToRep_iff hlog hp.1 hp.2
  | _ => cases hk

theorem intRep_iff {l : LogOps} (hlog : ∀ m, l.ceilLog2 m = Nat.clog 2 m) {p : RepParams} (hp : p.InTypes)
    (hk : p.isInt = true) : (∃ r, intRep l p = .ok r) ↔ p.Representable l := by
  cases p with
  | int a b => exact integerToRep_iff hlog hp.1 hp.2
  | _ => cases hk

theorem mapM_except_iff {α β ε : Type} {f : α → Except ε β} {l : List α} :
    (∃ rs, l.mapM f = .ok rs) ↔ ∀ a ∈ l, ∃ r, f a = .ok r := by
  constructor
  · rintro ⟨rs, h⟩ a ha
    obtain ⟨i, hi, rfl⟩ := List.getElem_of_mem ha
    have h := mapM_except h
    exact ⟨_, (List.forall₂_iff_get.mp h).2 i hi (by have := h.length_eq; omega)⟩
  · exact mapM_except_ok

theorem forall₂_mono {α β : Type} {R S : α → β → Prop} (hRS : ∀ a b, R a b → S a b) {l : List α} {m : List β}
    (h : List.Forall₂ R l m) : List.Forall₂ S l m := h.imp hRS

/-! ## Adapters -/

theorem multivariateSize_eq {D : Type} (reps : List (Rep D)) : multivariateSize reps = ok (reps.map Rep.size).sum := by
  unfold multivariateSize
  rw [forEach_add Rep.size reps 0, Nat.zero_add]

theorem adapterOf_gives {D : Type} {names : List (List Char)} {reps : List (Rep D)} {P : List Char → D → Prop}
    (h : List.Forall₂ (fun name (rep : Rep D) => rep.Gives (P name)) names reps) : AdapterOf names reps P := by
  have hlen := h.length_eq
  have hdec : ∀ rep ∈ reps, rep.Decodes := by
    intro rep hr
    obtain ⟨i, hi, rfl⟩ := List.getElem_of_mem hr
    exact ((List.forall₂_iff_get.mp h).2 i (by omega) hi).1
  refine ⟨hlen.symm, (reps.map Rep.size).sum, multivariateSize_eq reps, ?_⟩
  intro C K f converter vars bv hv hb
  obtain ⟨_, _, h3⟩ := multivariateEvaluate_spec f converter hdec (vars := vars) (by rw [hv, hlen]) bv
  obtain ⟨values, h1, _, h2⟩ := h3 hb
  refine ⟨values, h2, by rw [h1.1, hlen], fun i name hi => ?_⟩
  obtain ⟨hi', rfl⟩ := List.getElem?_eq_some_iff.mp hi
  have hir : i < reps.length := by omega
  obtain ⟨v, hv1, hv2⟩ := h1.2 i reps[i] (List.getElem?_eq_getElem hir)
  refine ⟨v, hv1, ((List.forall₂_iff_get.mp h).2 i hi' hir).2 _ v ?_ hv2⟩
  refine sliceOf_length ?_
  have := take_sum_add_le (reps.map Rep.size) i (reps[i]).size (by
    rw [List.getElem?_map, List.getElem?_eq_getElem hir]; rfl)
  unfold sliceStart
  omega

theorem onto_vector {D : Type} : ∀ {names : List (List Char)} {reps : List (Rep D)} {P : List Char → D → Prop},
    List.Forall₂ (fun name (rep : Rep D) => rep.Onto (P name)) names reps → ∀ values : List D, values.length = names.length →
    (∀ (i : Nat) (name : List Char) (v : D), names[i]? = some name → values[i]? = some v → P name v) →
    ∃ bv : BV, bv.length = (reps.map Rep.size).sum ∧ ∀ pre : BV, DecodedFrom reps (pre ++ bv) pre.length values := by
  intro names reps P h
  induction h with
  | nil =>
    intro values hl _
    have : values = [] := List.length_eq_zero_iff.mp hl
    subst this
    exact ⟨[], rfl, fun pre => ⟨rfl, fun i rep h => by simp at h⟩⟩
  | @cons name rep names reps hr _ ih =>
    intro values hl hP
    cases values with
    | nil => cases hl
    | cons v values =>
      obtain ⟨b0, h0, h0'⟩ := hr v (hP 0 name v rfl rfl)
      obtain ⟨b1, h1, h1'⟩ := ih values (by simpa using hl) (fun i n w hn hw => hP (i + 1) n w hn hw)
      refine ⟨b0 ++ b1, by simp [h0, h1], fun pre => ?_⟩
      obtain ⟨h2, h3⟩ := h1' (pre ++ b0)
      refine ⟨by simp [h2], fun i r hi => ?_⟩
      cases i with
      | zero =>
        cases hi
        refine ⟨v, rfl, ?_⟩
        have : sliceOf (pre ++ (b0 ++ b1)) (sliceStart pre.length ((rep :: reps).map Rep.size) 0) rep.size = b0 := by
          unfold sliceOf sliceStart
          simp [← h0]
        rw [this]
        exact h0'
      | succ i =>
        obtain ⟨w, hw1, hw2⟩ := h3 i r hi
        refine ⟨w, hw1, ?_⟩
        rw [List.map_cons, sliceStart_cons, ← h0, ← List.length_append, ← List.append_assoc]
        exact hw2

theorem adapterOnto_onto {D : Type} {names : List (List Char)} {reps : List (Rep D)} {P : List Char → D → Prop}
    (h : List.Forall₂ (fun name (rep : Rep D) => rep.Decodes ∧ rep.Onto (P name)) names reps) : AdapterOnto names reps P := by
  have hlen := h.length_eq
  have hdec : ∀ rep ∈ reps, rep.Decodes := by
    intro rep hr
    obtain ⟨i, hi, rfl⟩ := List.getElem_of_mem hr
    exact ((List.forall₂_iff_get.mp h).2 i (by omega) hi).1
  refine ⟨(reps.map Rep.size).sum, multivariateSize_eq reps, fun values hl hP => ?_⟩
  obtain ⟨bv, h1, h2⟩ := onto_vector (forall₂_mono (fun _ _ h => h.2) h) values hl hP
  refine ⟨bv, h1, fun C K f converter vars hv => ?_⟩
  obtain ⟨_, _, h3⟩ := multivariateEvaluate_spec f converter hdec (vars := vars) (by rw [hv, hlen]) bv
  obtain ⟨values', h4, _, h5⟩ := h3 h1
  have h2 := h2 []
  rw [List.nil_append] at h2
  have : values' = values := by
    refine List.ext_getElem? (fun i => ?_)
    by_cases hi : i < reps.length
    · obtain ⟨v, hv1, hv2⟩ := h2.2 i reps[i] (List.getElem?_eq_getElem hi)
      obtain ⟨v', hv1', hv2'⟩ := h4.2 i reps[i] (List.getElem?_eq_getElem hi)
      rw [hv1, hv1']
      have : (ok v' : Outcome D) = ok v := by rw [← hv2', ← hv2]; rfl
      cases this
      rfl
    · rw [List.getElem?_eq_none (by have := h4.1; omega), List.getElem?_eq_none (by have := h2.1; omega)]
  rw [h5, this]

/-! ## What is made -/

theorem index_isDouble {p d : RepParams} (hd : d.isDouble = true) : (p.index == d.index) = p.isDouble := by
  cases d <;> first | (cases p <;> rfl) | cases hd

theorem index_isLong {p d : RepParams} (hd : d.isLong = true) : (p.index == d.index) = p.isLong := by
  cases d <;> first | (cases p <;> rfl) | cases hd

theorem index_isInt {p d : RepParams} (hd : d.isInt = true) : (p.index == d.index) = p.isInt := by
  cases d <;> first | (cases p <;> rfl) | cases hd

theorem used_suitable {s : RepParams → Bool} {d : RepParams} (hd : s d = true) (o : Option RepParams) : s (used s d o) = true := by
  cases o with
  | none => exact hd
  | some p =>
    by_cases hs : s p = true
    · simp [used, hs]
    · simpa [used, hs] using hd

theorem makeMultivariate_eq {D : Type} (toRep : RepParams → Except AdapterExn (Rep D)) {o : FpOptions} {text : List Char}
    {env : RepEnv} {d : RepParams} (henv : parseRepresentations o.stod o.parse o.representations = .ok env)
    (hd : parseRepresentation o.stod o.parse text = .ok d) (names : List (List Char)) :
    makeMultivariate toRep o text names = names.mapM (fun name => toRep (used (fun p => p.index == d.index) d (env name))) := by
  unfold makeMultivariate
  rw [henv, hd]
  show names.mapM (envRep toRep (names.foldl (completeEntry d) env)) = _
  refine mapM_except_congr (fun name hn => ?_)
  unfold envRep
  rw [completeEntry_eq, putUnless_fold _ _ _ _ _ hn]

/-- C73: variables of functions on doubles.  The adapter is made exactly when the declaration used for each variable can be
represented; then its evaluations give to each variable a value in the interval of its declaration. -/
theorem makeDouble_made {l : LogOps} {o : FpOptions} {env : RepEnv} {d : RepParams}
    (henv : parseRepresentations o.stod o.parse o.representations = .ok env)
    (hd : parseRepresentation o.stod o.parse o.defaultDouble = .ok d) (hk : d.isDouble = true) (names : List (List Char)) :
    ((∃ reps, makeDouble l o names = .ok reps) ↔
      ∀ name ∈ names, (used RepParams.isDouble d (env name)).Representable l) ∧
    ∀ reps, makeDouble l o names = .ok reps →
      AdapterOf names reps (fun name v => (used RepParams.isDouble d (env name)).Admits v) := by
  have hs : (fun p : RepParams => p.index == d.index) = RepParams.isDouble := funext (fun p => index_isDouble hk)
  unfold makeDouble
  rw [makeMultivariate_eq _ henv hd, hs]
  refine ⟨mapM_except_iff.trans ?_, fun reps h => adapterOf_gives ?_⟩
  · exact forall₂_congr (fun name _ => doubleRep_iff (used_suitable hk _))
  · exact forall₂_mono (fun name rep h => doubleRep_gives h) (mapM_except h)

/-- C73: variables of functions on long integers; moreover, every choice of values in the declared intervals is obtained on
some bit vector. -/
theorem makeLong_made {l : LogOps} (hlog : ∀ m, l.ceilLog2 m = Nat.clog 2 m) {o : FpOptions} {env : RepEnv} {d : RepParams}
    (henv : parseRepresentations o.stod o.parse o.representations = .ok env)
    (hd : parseRepresentation o.stod o.parse o.defaultLong = .ok d) (hk : d.isLong = true) (names : List (List Char)) :
    ((∃ reps, makeLong l o names = .ok reps) ↔ ∀ name ∈ names, (used RepParams.isLong d (env name)).Representable l) ∧
    ∀ reps, makeLong l o names = .ok reps →
      AdapterOf names reps (fun name (z : Int) => (used RepParams.isLong d (env name)).Admits z) ∧
      AdapterOnto names reps (fun name (z : Int) => (used RepParams.isLong d (env name)).Admits z) := by
  have hs : (fun p : RepParams => p.index == d.index) = RepParams.isLong := funext (fun p => index_isLong hk)
  have ht : ∀ name, (used RepParams.isLong d (env name)).InTypes := fun name =>
    used_inTypes (parseRepresentation_inTypes hd) (fun p hp => parseRepresentations_inTypes henv name p hp)
  unfold makeLong
  rw [makeMultivariate_eq _ henv hd, hs]
  refine ⟨mapM_except_iff.trans ?_, fun reps h => ⟨adapterOf_gives ?_, adapterOnto_onto ?_⟩⟩
  · exact forall₂_congr (fun name _ => longRep_iff hlog (ht name) (used_suitable hk _))
  · exact forall₂_mono (fun name rep h => (longRep_gives (ht name) h).1) (mapM_except h)
  · exact forall₂_mono (fun name rep h => ⟨(longRep_gives (ht name) h).1.1, (longRep_gives (ht name) h).2 hlog⟩) (mapM_except h)

/-- C73: variables of functions on integers. -/
theorem makeInt_made {l : LogOps} (hlog : ∀ m, l.ceilLog2 m = Nat.clog 2 m) {o : FpOptions} {env : RepEnv} {d : RepParams}
    (henv : parseRepresentations o.stod o.parse o.representations = .ok env)
    (hd : parseRepresentation o.stod o.parse o.defaultInt = .ok d) (hk : d.isInt = true) (names : List (List Char)) :
    ((∃ reps, makeInt l o names = .ok reps) ↔ ∀ name ∈ names, (used RepParams.isInt d (env name)).Representable l) ∧
    ∀ reps, makeInt l o names = .ok reps →
      AdapterOf names reps (fun name (z : Int) => (used RepParams.isInt d (env name)).Admits z) ∧
      AdapterOnto names reps (fun name (z : Int) => (used RepParams.isInt d (env name)).Admits z) := by
  have hs : (fun p : RepParams => p.index == d.index) = RepParams.isInt := funext (fun p => index_isInt hk)
  have ht : ∀ name, (used RepParams.isInt d (env name)).InTypes := fun name =>
    used_inTypes (parseRepresentation_inTypes hd) (fun p hp => parseRepresentations_inTypes henv name p hp)
  unfold makeInt
  rw [makeMultivariate_eq _ henv hd, hs]
  refine ⟨mapM_except_iff.trans ?_, fun reps h => ⟨adapterOf_gives ?_, adapterOnto_onto ?_⟩⟩
  · exact forall₂_congr (fun name _ => intRep_iff hlog (ht name) (used_suitable hk _))
  · exact forall₂_mono (fun name rep h => (intRep_gives (ht name) h).1) (mapM_except h)
  · exact forall₂_mono (fun name rep h => ⟨(intRep_gives (ht name) h).1.1, (intRep_gives (ht name) h).2 hlog⟩) (mapM_except h)

theorem makeComplex_eq (l : LogOps) {o : FpOptions} {env : RepEnv} {d : RepParams}
    (henv : parseRepresentations o.stod o.parse o.representations = .ok env)
    (hd : parseRepresentation o.stod o.parse o.defaultDouble = .ok d) (names : List (List Char)) :
    makeComplex l o names = names.mapM (fun name => do
      let re ← doubleFloat l (used (fun p => p.index == d.index) d (env (reName name)))
      let im ← doubleFloat l (used (fun p => p.index == d.index) d (env (imName name)))
      .ok (complexRep re im)) := by
  unfold makeComplex
  rw [henv, hd]
  show names.mapM (envComplex l (names.foldl (fun env name => completeEntry d (completeEntry d env (reName name)) (imName name)) env)) = _
  rw [foldl_pairs (completeEntry d) reName imName, completeEntry_eq]
  refine mapM_except_congr (fun name hn => ?_)
  unfold envComplex
  rw [putUnless_fold _ _ _ _ _ (List.mem_flatMap.mpr ⟨name, hn, by simp⟩),
    putUnless_fold _ _ _ _ _ (List.mem_flatMap.mpr ⟨name, hn, by simp⟩)]

/-- C73: variables of functions on complex numbers.  The declarations of the variable `z` are those of the names `z_re` and
`z_im`. -/
theorem makeComplex_made {l : LogOps} {o : FpOptions} {env : RepEnv} {d : RepParams}
    (henv : parseRepresentations o.stod o.parse o.representations = .ok env)
    (hd : parseRepresentation o.stod o.parse o.defaultDouble = .ok d) (hk : d.isDouble = true) (names : List (List Char)) :
    ((∃ reps, makeComplex l o names = .ok reps) ↔
      ∀ name ∈ names, (used RepParams.isDouble d (env (name ++ "_re".toList))).Representable l ∧
        (used RepParams.isDouble d (env (name ++ "_im".toList))).Representable l) ∧
    ∀ reps, makeComplex l o names = .ok reps →
      AdapterOf names reps (fun name z => (used RepParams.isDouble d (env (name ++ "_re".toList))).Admits z.1 ∧
        (used RepParams.isDouble d (env (name ++ "_im".toList))).Admits z.2) := by
  have hs : (fun p : RepParams => p.index == d.index) = RepParams.isDouble := funext (fun p => index_isDouble hk)
  rw [makeComplex_eq l henv hd, hs]
  refine ⟨mapM_except_iff.trans ?_, fun reps h => adapterOf_gives ?_⟩
  · refine forall₂_congr (fun name _ => ?_)
    have h1 := doubleFloat_iff (l := l) (used_suitable hk (env (name ++ "_re".toList)))
    have h2 := doubleFloat_iff (l := l) (used_suitable hk (env (name ++ "_im".toList)))
    rw [← h1, ← h2]
    constructor
    · rintro ⟨r, h⟩
      obtain ⟨re, hre, h⟩ := except_bind_ok h
      obtain ⟨im, him, h⟩ := except_bind_ok h
      exact ⟨⟨re, hre⟩, ⟨im, him⟩⟩
    · rintro ⟨⟨re, hre⟩, ⟨im, him⟩⟩
      refine ⟨complexRep re im, ?_⟩
      unfold reName imName
      rw [hre, him]
      rfl
  · refine forall₂_mono (fun name rep h => ?_) (mapM_except h)
    obtain ⟨re, hre, h⟩ := except_bind_ok h
    obtain ⟨im, him, h⟩ := except_bind_ok h
    cases h
    obtain ⟨a, b, n, hs, hA⟩ := doubleFloat_size hre
    obtain ⟨a', b', n', hs', hA'⟩ := doubleFloat_size him
    refine ⟨complex_decodes hs hs', fun bv v hl hv => ?_⟩
    obtain ⟨x, y, h1, _, _, h2, h3, h4, h5⟩ := complexUnpack_spec hs hs' (bv := bv) (start := 0) (by
      have : bv.length = re.lengths.length + im.lengths.length := hl
      omega)
    have hv : complexUnpack re im bv 0 = ok v := hv
    rw [h1] at hv
    cases hv
    exact ⟨hA x h2 h3, hA' y h4 h5⟩

/-- C73: variables of functions on mixed types: longs, doubles and sets are kept; integers are replaced by the default double
representation. -/
theorem makeMixed_made {l : LogOps} (hlog : ∀ m, l.ceilLog2 m = Nat.clog 2 m) {o : FpOptions} {env : RepEnv} {d d' : RepParams}
    (henv : parseRepresentations o.stod o.parse o.representations = .ok env)
    (hd' : parseRepresentation o.stod o.parse o.defaultLong = .ok d')
    (hd : parseRepresentation o.stod o.parse o.defaultDouble = .ok d) (hk : d.isDouble = true)
    (hset : ∀ name vs, env name = some (.set vs) → vs.length < 2 ^ 31) (names : List (List Char)) :
    ((∃ reps, makeMixed l o names = .ok reps) ↔
      ∀ name ∈ names, (used (fun p => !p.isInt) d (env name)).Representable l) ∧
    ∀ reps, makeMixed l o names = .ok reps →
      AdapterOf names reps (fun name v => (used (fun p => !p.isInt) d (env name)).Admits v) := by
  have ht : ∀ name, (used (fun p => !p.isInt) d (env name)).InTypes := fun name =>
    used_inTypes (parseRepresentation_inTypes hd) (fun p hp => parseRepresentations_inTypes henv name p hp)
  have hset' : ∀ name vs, used (fun p => !p.isInt) d (env name) = .set vs → vs.length < 2 ^ 31 := by
    intro name vs h
    cases he : env name with
    | none =>
      rw [he] at h
      have h : d = .set vs := h
      rw [h] at hk
      cases hk
    | some p =>
      rw [he] at h
      have h : (if !p.isInt then p else d) = .set vs := h
      split at h
      · exact hset name vs (by rw [he, h])
      · rw [h] at hk; cases hk
  have e : makeMixed l o names = names.mapM (fun name => variantRep l (used (fun p => !p.isInt) d (env name))) := by
    unfold makeMixed
    rw [henv, hd', hd]
    show names.mapM (envRep (variantRep l) (names.foldl (completeMixed d) env)) = _
    refine mapM_except_congr (fun name hn => ?_)
    unfold envRep
    rw [completeMixed_eq, putUnless_fold _ _ _ _ _ hn]
  rw [e]
  refine ⟨mapM_except_iff.trans ?_, fun reps h => adapterOf_gives ?_⟩
  · exact forall₂_congr (fun name _ => variantRep_iff hlog (ht name) (hset' name))
  · exact forall₂_mono (fun name rep h => variantRep_gives (ht name) (hset' name) h) (mapM_except h)

/-! ## Failures -/

theorem mapM_except_error {α β ε : Type} {f : α → Except ε β} {a : α} {l : List α} {e : ε} (h : f a = .error e) :
    (a :: l).mapM f = .error e := by
  rw [List.mapM_cons, h]; rfl

/-- C73 (negative part): a default representation which is well formed but of another kind makes every function on doubles
with a variable fail, with an exception which is not a `std::runtime_error`, even if all its variables are declared. -/
theorem makeDouble_default_kind {l : LogOps} {o : FpOptions} {env : RepEnv} {d : RepParams}
    (henv : parseRepresentations o.stod o.parse o.representations = .ok env)
    (hd : parseRepresentation o.stod o.parse o.defaultDouble = .ok d) (hk : d.isDouble = false) {names : List (List Char)}
    (hn : names ≠ []) : makeDouble l o names = .error .access := by
  unfold makeDouble
  rw [makeMultivariate_eq _ henv hd]
  cases names with
  | nil => exact absurd rfl hn
  | cons name names =>
    refine mapM_except_error ?_
    have h : ((used (fun p => p.index == d.index) d (env name)).index == d.index) = true :=
      used_suitable (s := fun p : RepParams => p.index == d.index) (by simp) _
    revert h
    generalize used (fun p => p.index == d.index) d (env name) = p
    intro h
    have : p.isDouble = false := by
      cases d <;> cases p <;> simp_all [RepParams.index, RepParams.isDouble]
    cases p <;> first | rfl | cases this

/-- C73 (negative part): a malformed default representation of longs makes every function on mixed types fail, although no
variable uses it. -/
theorem makeMixed_default_long {l : LogOps} {o : FpOptions} {env : RepEnv} {e : ParseExn}
    (henv : parseRepresentations o.stod o.parse o.representations = .ok env)
    (hd : parseRepresentation o.stod o.parse o.defaultLong = .error e) (names : List (List Char)) :
    makeMixed l o names = .error (.parse e) := by
  unfold makeMixed
  rw [henv, hd]
  rfl

/-- C73: a malformed declaration makes the construction fail with the exception of the parser, for all kinds of functions. -/
theorem make_malformed {l : LogOps} {o : FpOptions} {e : ParseExn}
    (henv : parseRepresentations o.stod o.parse o.representations = .error e) (names : List (List Char)) :
    makeDouble l o names = .error (.parse e) ∧ makeLong l o names = .error (.parse e) ∧
    makeInt l o names = .error (.parse e) ∧ makeComplex l o names = .error (.parse e) ∧
    makeMixed l o names = .error (.parse e) := by
  unfold makeDouble makeLong makeInt makeMultivariate makeComplex makeMixed
  rw [henv]
  exact ⟨rfl, rfl, rfl, rfl, rfl⟩

/-! ## Examples -/

/-- Numbers of one digit. -/
def digitStod (s : List Char) : Except ParseExn Rat :=
  match s.filter (fun c => !isSpace c) with
  | [c] => if c.isDigit then .ok ((c.toNat - 48 : Nat) : Rat) else .error .conversion
  | _ => .error .conversion

/-- A variable `x` declared, and a variable `y` with a declaration of the wrong kind. -/
def fpOptions : FpOptions :=
  { stod := digitStod, parse := ⟨none, some 4⟩, representations := "x : long(-3, 7); y : int(0, 3); z : set(1, 2, 5)".toList,
    defaultInt := "int(-10, 10)".toList, defaultLong := "long(-100, 100)".toList, defaultDouble := "double(0, 1)".toList }

def fpEnv : RepEnv :=
  RepEnv.put (RepEnv.put (RepEnv.put (fun _ => none) "x".toList (.long (-3) 7)) "y".toList (.int 0 3)) "z".toList (.set [1, 2, 5])

/-- The computation of sizes without rounding. -/
def exactLog : LogOps := ⟨Nat.clog 2, fun x => (Nat.clog 2 ⌈x⌉.toNat : Nat)⟩

theorem fpOptions_env : parseRepresentations fpOptions.stod fpOptions.parse fpOptions.representations = .ok fpEnv := by
  rfl

theorem fpOptions_long : parseRepresentation fpOptions.stod fpOptions.parse fpOptions.defaultLong = .ok (.long (-100) 100) := by
  rfl

theorem fpOptions_double : parseRepresentation fpOptions.stod fpOptions.parse fpOptions.defaultDouble = .ok (.doubleSize 0 1 4) := by
  rfl

/-- Functions on mixed types: `x` is a long of the declared interval, `y` is a double by default, `z` an element of the set. -/
example : ∃ reps, makeMixed exactLog fpOptions ["x".toList, "y".toList, "z".toList] = .ok reps ∧
    AdapterOf ["x".toList, "y".toList, "z".toList] reps (fun name v => (used (fun p => !p.isInt) (.doubleSize 0 1 4) (fpEnv name)).Admits v) ∧
    used (fun p => !p.isInt) (.doubleSize 0 1 4) (fpEnv "x".toList) = .long (-3) 7 ∧
    used (fun p => !p.isInt) (.doubleSize 0 1 4) (fpEnv "y".toList) = .doubleSize 0 1 4 := by
  have hset : ∀ name vs, fpEnv name = some (.set vs) → vs.length < 2 ^ 31 := by
    intro name vs h
    simp only [fpEnv, RepEnv.put] at h
    split at h
    · cases h; decide
    · split at h
      · cases h
      · split at h <;> cases h
  obtain ⟨h1, h2⟩ := makeMixed_made (l := exactLog) (fun _ => rfl) fpOptions_env fpOptions_long fpOptions_double rfl hset
    ["x".toList, "y".toList, "z".toList]
  have hx : used (fun p => !p.isInt) (.doubleSize 0 1 4) (fpEnv "x".toList) = .long (-3) 7 := by decide +kernel
  have hy : used (fun p => !p.isInt) (.doubleSize 0 1 4) (fpEnv "y".toList) = .doubleSize 0 1 4 := by decide +kernel
  have hz : used (fun p => !p.isInt) (.doubleSize 0 1 4) (fpEnv "z".toList) = .set [1, 2, 5] := by decide +kernel
  obtain ⟨reps, hr⟩ := h1.mpr (by
    intro name hn
    simp only [List.mem_cons, List.not_mem_nil, or_false] at hn
    rcases hn with rfl | rfl | rfl
    · rw [hx]; exact ⟨by decide, by decide⟩
    · rw [hy]; exact ⟨by norm_num, by decide⟩
    · rw [hz]; exact (by decide : 2 ≤ 3))
  exact ⟨reps, hr, h2 reps hr, hx, hy⟩

/-- Functions on longs: all values of `x` between -3 and 7 and of `y` between -100 and 100 are obtained. -/
example : ∃ reps, makeLong exactLog fpOptions ["x".toList, "y".toList] = .ok reps ∧
    AdapterOnto ["x".toList, "y".toList] reps (fun name (z : Int) => (used RepParams.isLong (.long (-100) 100) (fpEnv name)).Admits z) := by
  obtain ⟨h1, h2⟩ := makeLong_made (l := exactLog) (fun _ => rfl) fpOptions_env fpOptions_long rfl ["x".toList, "y".toList]
  have hx : used RepParams.isLong (.long (-100) 100) (fpEnv "x".toList) = .long (-3) 7 := by decide +kernel
  have hy : used RepParams.isLong (.long (-100) 100) (fpEnv "y".toList) = .long (-100) 100 := by decide +kernel
  obtain ⟨reps, hr⟩ := h1.mpr (by
    intro name hn
    simp only [List.mem_cons, List.not_mem_nil, or_false] at hn
    rcases hn with rfl | rfl
    · rw [hx]; exact ⟨by decide, by decide⟩
    · rw [hy]; exact ⟨by decide, by decide⟩)
  exact ⟨reps, hr, (h2 reps hr).2⟩

/-- A default representation of the wrong kind. -/
example : makeDouble exactLog { fpOptions with defaultDouble := "int(0, 3)".toList } ["x".toList] = .error .access :=
  makeDouble_default_kind (o := { fpOptions with defaultDouble := "int(0, 3)".toList }) fpOptions_env (d := .int 0 3) rfl rfl (by simp)

/-- A malformed default representation of longs. -/
example : makeMixed exactLog { fpOptions with defaultLong := "long(0)".toList } ["x".toList] = .error (.parse .runtime) :=
  makeMixed_default_long (o := { fpOptions with defaultLong := "long(0)".toList }) fpOptions_env (e := .runtime) rfl _

/-- Complex variables and integers, with default representations. -/
example : (∃ reps, makeComplex exactLog fpOptions ["u".toList] = .ok reps) ∧ (∃ reps, makeDouble exactLog fpOptions ["u".toList, "x".toList] = .ok reps) ∧
    ∃ reps, makeInt exactLog fpOptions ["y".toList, "u".toList] = .ok reps := by
  refine ⟨(makeComplex_made fpOptions_env fpOptions_double rfl _).1.mpr ?_, (makeDouble_made fpOptions_env fpOptions_double rfl _).1.mpr ?_,
    (makeInt_made (l := exactLog) (fun _ => rfl) fpOptions_env (d := .int (-10) 10) rfl rfl _).1.mpr ?_⟩
  · intro name hn
    simp only [List.mem_cons, List.not_mem_nil, or_false] at hn
    subst hn
    have h1 : used RepParams.isDouble (.doubleSize 0 1 4) (fpEnv ("u".toList ++ "_re".toList)) = .doubleSize 0 1 4 := by decide +kernel
    have h2 : used RepParams.isDouble (.doubleSize 0 1 4) (fpEnv ("u".toList ++ "_im".toList)) = .doubleSize 0 1 4 := by decide +kernel
    rw [h1, h2]
    exact ⟨⟨by norm_num, by decide⟩, ⟨by norm_num, by decide⟩⟩
  · intro name hn
    simp only [List.mem_cons, List.not_mem_nil, or_false] at hn
    have h1 : used RepParams.isDouble (.doubleSize 0 1 4) (fpEnv "u".toList) = .doubleSize 0 1 4 := by decide +kernel
    have h2 : used RepParams.isDouble (.doubleSize 0 1 4) (fpEnv "x".toList) = .doubleSize 0 1 4 := by decide +kernel
    rcases hn with rfl | rfl
    · rw [h1]; exact ⟨by norm_num, by decide⟩
    · rw [h2]; exact ⟨by norm_num, by decide⟩
  · intro name hn
    simp only [List.mem_cons, List.not_mem_nil, or_false] at hn
    have h1 : used RepParams.isInt (.int (-10) 10) (fpEnv "y".toList) = .int 0 3 := by decide +kernel
    have h2 : used RepParams.isInt (.int (-10) 10) (fpEnv "u".toList) = .int (-10) 10 := by decide +kernel
    rcases hn with rfl | rfl
    · rw [h1]; exact ⟨by decide, by decide⟩
    · rw [h2]; exact ⟨by decide, by decide⟩

/-- A malformed declaration. -/
example : makeInt exactLog { fpOptions with representations := "x : float(0, 1)".toList } ["y".toList] = .error (.parse .runtime) :=
  (make_malformed (o := { fpOptions with representations := "x : float(0, 1)".toList }) (e := .runtime) rfl _).2.2.1

end Hnco
