import Verif.App.MoMainSpec
import Verif.App.OptionReadLemmas
import Verif.Multiobjective.ApplicationProps
import Verif.App.MakeAdapterProps

/-!
# The program `hnco-mo`: lemmas
-/

namespace Hnco

open Outcome

theorem moClass_mem : hncoMoClass ∈ optionClasses := by simp [optionClasses]

/-! ## Tables -/

/-- The parameters with a default value which are read. -/
def moParams : List (String × String × OptKind) := [
  ("num-threads", "num_threads", .int), ("bv-size", "bv_size", .int), ("function", "function", .int), ("algorithm", "algorithm", .int),
  ("ea-mu", "ea_mu", .int), ("ea-tournament-size", "ea_tournament_size", .int), ("num-iterations", "num_iterations", .int),
  ("path", "path", .string), ("fp-representations-path", "fp_representations_path", .string),
  ("fp-default-int-rep", "fp_default_int_rep", .string), ("fp-default-long-rep", "fp_default_long_rep", .string),
  ("fp-default-double-rep", "fp_default_double_rep", .string)]

/-- The parameters without default value which are read. -/
def moOptionals : List (String × String × OptKind) := [("fp-expression", "fp_expression", .string),
  ("fp-representations", "fp_representations", .string), ("fp-default-double-precision", "fp_default_double_precision", .double),
  ("fp-default-double-size", "fp_default_double_size", .int), ("ea-mutation-rate", "ea_mutation_rate", .double)]

/-- The flags which are read. -/
def moFlags : List (String × String) := [("print-default-parameters", "print_default_parameters"),
  ("fn-get-bv-size", "fn_get_bv_size"), ("fn-get-output-size", "fn_get_output_size"), ("fn-display", "fn_display"),
  ("print-description", "print_description"), ("print-pareto-front", "print_pareto_front"),
  ("ea-allow-no-mutation", "ea_allow_no_mutation")]

set_option maxRecDepth 100000 in
theorem moParams_ok : (moParams.all fun r => isParamIn hncoMoClass r.1 r.2.1 r.2.2) = true := by decide +kernel

set_option maxRecDepth 100000 in
theorem moOptionals_ok : (moOptionals.all fun r => isOptionalIn hncoMoClass r.1 r.2.1 r.2.2) = true := by decide +kernel

set_option maxRecDepth 100000 in
theorem moFlags_ok : (moFlags.all fun r => isFlagIn hncoMoClass r.1 r.2) = true := by decide +kernel

theorem moParam_ok (i : Nat) {name member : String} {kind : OptKind} (h : moParams[i]? = some (name, member, kind)) :
    isParamIn hncoMoClass name member kind = true := List.all_eq_true.mp moParams_ok _ (List.mem_of_getElem? h)

theorem moOptional_ok (i : Nat) {name member : String} {kind : OptKind} (h : moOptionals[i]? = some (name, member, kind)) :
    isOptionalIn hncoMoClass name member kind = true := List.all_eq_true.mp moOptionals_ok _ (List.mem_of_getElem? h)

theorem moFlag_ok (i : Nat) {name member : String} (h : moFlags[i]? = some (name, member)) :
    isFlagIn hncoMoClass name member = true := List.all_eq_true.mp moFlags_ok _ (List.mem_of_getElem? h)

/-! ## Reading -/

section
variable {w : MoWorld} {items : List (OptDoc × Option (List Char))} {s : OptState}

/-- A command line which has been read. -/
structure MoRead (w : MoWorld) (items : List (OptDoc × Option (List Char))) (s : OptState) : Prop where
  settings : Settings hncoMoClass w.opt items s
  fine : ∀ i ∈ items, FineItem w.opt i
  docs : ∀ i ∈ items, i.1 ∈ hncoMoClass.help

theorem MoRead.int (h : MoRead w items s) {name member : String} (hk : isParamIn hncoMoClass name member .int = true) {z : Int}
    (hz : ParamOf hncoMoClass w.opt items name (.int z)) : hncoMoClass.int s member = ok z := by
  obtain ⟨y, h1, h2⟩ := get_int moClass_mem h.settings h.fine hk
  cases h2.unique moClass_mem hz
  exact h1

theorem MoRead.str (h : MoRead w items s) {name member : String} (hk : isParamIn hncoMoClass name member .string = true)
    {z : List Char} (hz : ParamOf hncoMoClass w.opt items name (.str z)) : hncoMoClass.str s member = ok z := by
  obtain ⟨y, h1, h2⟩ := get_str moClass_mem h.settings h.fine hk
  cases h2.unique moClass_mem hz
  exact h1

theorem MoRead.flag (h : MoRead w items s) {name member : String} (hk : isFlagIn hncoMoClass name member = true) :
    s.raised member = true ↔ Appears items name := get_flag moClass_mem h.settings h.docs hk

theorem MoRead.lowered (h : MoRead w items s) {name member : String} (hk : isFlagIn hncoMoClass name member = true)
    (hn : ¬ Appears items name) : s.raised member = false := by
  rw [← Bool.not_eq_true]
  exact fun hc => hn ((h.flag hk).mp hc)

/-- An option which does not appear has no value, without default value. -/
theorem optional_none (h : MoRead w items s) {name member : String} {kind : OptKind}
    (hk : isOptionalIn hncoMoClass name member kind = true) (hn : ¬ Appears items name) (x : OptValue) :
    ¬ ParamOf hncoMoClass w.opt items name x := by
  unfold isOptionalIn at hk
  split at hk
  · rename_i l n k hd
    rintro ⟨d, h1, h2, k', df, h3, h4⟩
    obtain ⟨h5, h6⟩ := docIn_some hd
    obtain rfl := doc_eq (check_classes moClass_mem) h1 h5 (by rw [h2, h6])
    cases h3
    rcases h4 with ⟨v, hv, _⟩ | ⟨_, h4⟩
    · exact hn ((appears_iff moClass_mem h.docs hd).mpr hv.mentioned)
    · cases h4
  · cases hk

/-- A text which is given, or else read in a file. -/
theorem MoRead.text (h : MoRead w items s) {name member pathName pathMember : String}
    (hk : isOptionalIn hncoMoClass name member .string = true) (hp : isParamIn hncoMoClass pathName pathMember .string = true)
    {text : List Char} (ht : ParamOf hncoMoClass w.opt items name (.str text) ∨
      (¬ Appears items name ∧ ∃ path, ParamOf hncoMoClass w.opt items pathName (.str path) ∧ w.file path = some text)) :
    (if s.given member then hncoMoClass.str s member
      else do
        let path ← hncoMoClass.str s pathMember
        moReadFile w path) = ok text := by
  rcases get_optional moClass_mem h.settings h.fine h.docs hk with ⟨h1, h2⟩ | ⟨h1, h2, x, h3, h4, h5⟩
  · rcases ht with ht | ⟨_, path, hpath, hfile⟩
    · exact absurd ht (optional_none h hk h2 _)
    · rw [if_neg (by simp [h1]), h.str hp hpath, ok_bind]
      simp [moReadFile, hfile]
  · rcases ht with ht | ⟨hn, _⟩
    · cases h4.unique moClass_mem ht
      rw [if_pos h1]
      simp [OptClass.str, h3]
    · exact absurd h2 hn

theorem MoRead.optionalDouble (h : MoRead w items s) {name member : String}
    (hk : isOptionalIn hncoMoClass name member .double = true) :
    ∃ z, optionalOf s member (hncoMoClass.double s member) = ok z ∧
      ∀ r, z = some r ↔ ParamOf hncoMoClass w.opt items name (.double r) := by
  rcases get_optional moClass_mem h.settings h.fine h.docs hk with ⟨h1, h2⟩ | ⟨h1, h2, x, h3, h4, h5⟩
  · exact ⟨none, by simp [optionalOf, h1], fun r => ⟨fun hc => by (cases hc), fun hc => absurd hc (optional_none h hk h2 _)⟩⟩
  · cases x with
    | double z =>
      refine ⟨some z, by simp [optionalOf, h1, OptClass.double, h3], fun r => ⟨fun hc => ?_, fun hc => ?_⟩⟩
      · cases hc; exact h4
      · cases h4.unique moClass_mem hc; rfl
    | _ => exact h5.elim

theorem MoRead.optionalInt (h : MoRead w items s) {name member : String}
    (hk : isOptionalIn hncoMoClass name member .int = true) :
    ∃ z, optionalOf s member (hncoMoClass.int s member) = ok z ∧
      ∀ r, z = some r ↔ ParamOf hncoMoClass w.opt items name (.int r) := by
  rcases get_optional moClass_mem h.settings h.fine h.docs hk with ⟨h1, h2⟩ | ⟨h1, h2, x, h3, h4, h5⟩
  · exact ⟨none, by simp [optionalOf, h1], fun r => ⟨fun hc => by (cases hc), fun hc => absurd hc (optional_none h hk h2 _)⟩⟩
  · cases x with
    | int z =>
      refine ⟨some z, by simp [optionalOf, h1, OptClass.int, h3], fun r => ⟨fun hc => ?_, fun hc => ?_⟩⟩
      · cases hc; exact h4
      · cases h4.unique moClass_mem hc; rfl
    | _ => exact h5.elim

theorem option_eq_of_iff {α : Type} {a b : Option α} {P : α → Prop} (ha : ∀ r, a = some r ↔ P r) (hb : ∀ r, b = some r ↔ P r) :
    a = b := by
  cases a with
  | some x => exact ((hb x).mpr ((ha x).mp rfl)).symm
  | none =>
    cases b with
    | none => rfl
    | some y => exact (ha y).mpr ((hb y).mp rfl)

theorem moFpOptions_eq (h : MoRead w items s) {o : FpOptions} (ho : FpSettings w items o) : moFpOptions w s = ok o := by
  obtain ⟨p, h1, h2⟩ := h.optionalDouble (moOptional_ok 2 rfl)
  obtain ⟨n, h3, h4⟩ := h.optionalInt (moOptional_ok 3 rfl)
  have e1 := h.text (moOptional_ok 1 rfl) (moParam_ok 8 rfl) ho.declarations
  obtain rfl := option_eq_of_iff h2 ho.precision
  obtain rfl := option_eq_of_iff h4 ho.size
  unfold moFpOptions
  rw [show moGetRepresentations w s = ok o.representations from e1, ok_bind, h1, ok_bind, h3, ok_bind,
    h.str (moParam_ok 9 rfl) ho.defaultInt, ok_bind, h.str (moParam_ok 10 rfl) ho.defaultLong, ok_bind,
    h.str (moParam_ok 11 rfl) ho.defaultDouble, ok_bind, ← ho.stod]

theorem moGetExpression_eq (h : MoRead w items s) {text : List Char} (ht : MoExpressionText w items text) :
    moGetExpression w s = ok text := h.text (moOptional_ok 0 rfl) (moParam_ok 7 rfl) ht

theorem MoCommand.read {argv : List (List Char)} {k : Int} {es : List (List Char)} {o : FpOptions}
    (h : MoCommand w argv items k es o) : ∃ s, hncoMoClass.parse w.opt false argv = .ok s ∧ MoRead w items s := by
  obtain ⟨s, h1, h2⟩ := options_read moClass_mem w.opt false h.line h.fine
  exact ⟨s, h1, h2, h.fine, fun i hi => h.line.docs i hi⟩

end

/-! ## Functions -/

section
variable {D : Type}

/-- What a function is made for. -/
structure MoFunction.Good (parser : List Char → Option (ParsedExpr D)) (converter : D → Rat) (es : List (List Char))
    (domain : List Char → D → Prop) (bits : List Char → Nat) (f : MoFunction) : Prop where
  outputs : f.outputs = es.length
  positive : (∃ e ∈ es, ∃ p, parser e = some p ∧ p.names ≠ []) → 0 < f.size
  size : ∃ names, IsVariables parser es names ∧ f.size = (names.map bits).sum
  eval : ∃ decode : BV → List Char → D, ∀ x : BV, x.length = f.size → ∃ v, f.eval x = ok v ∧ v.length = es.length ∧
    (∀ e ∈ es, ∀ p, parser e = some p → ∀ name ∈ p.names, domain name (decode x name)) ∧ IsObjectives parser converter (decode x) es v

theorem sum_pos_of_mem {l : List Nat} (h : ∃ a ∈ l, 0 < a) : 0 < l.sum := by
  obtain ⟨a, ha, h0⟩ := h
  exact lt_of_lt_of_le h0 (List.le_sum_of_mem ha)

theorem map_eq_of_forall₂ {α β : Type} {f : α → Nat} {g : β → Nat} {as : List α} {bs : List β}
    (h : List.Forall₂ (fun a b => f a = g b) as bs) : as.map f = bs.map g := by
  induction h with
  | nil => rfl
  | cons h _ ih => simp [h, ih]

theorem assigns_domain {names : List (List Char)} {rs : List (Rep D)} {domain : List Char → D → Prop}
    (hr : List.Forall₂ (fun name (rep : Rep D) => rep.Gives (domain name)) names rs) {bv : BV}
    (hbv : bv.length = (rs.map Rep.size).sum) {σ : List Char → D} (hσ : AssignsFrom names rs bv σ) :
    ∀ name ∈ names, domain name (σ name) := by
  intro name hn
  obtain ⟨j, hj, rfl⟩ := List.mem_iff_getElem.mp hn
  have hj' : j < rs.length := hr.length_eq ▸ hj
  have hg : rs[j].Gives (domain names[j]) := by
    have := List.forall₂_iff_get.mp hr
    exact this.2 j hj hj'
  have hs := hσ j names[j] rs[j] (List.getElem?_eq_getElem hj) (List.getElem?_eq_getElem hj')
  refine hg.2 _ _ ?_ hs
  have hsum : ((rs.take j).map Rep.size).sum + rs[j].size ≤ (rs.map Rep.size).sum := by
    have e : rs = rs.take j ++ rs[j] :: rs.drop (j + 1) := by
      rw [List.cons_getElem_drop_succ, List.take_append_drop]
    conv_rhs => rw [e]
    rw [List.map_append, List.sum_append, List.map_cons, List.sum_cons]
    omega
  unfold sliceOf
  rw [List.length_take, List.length_drop, hbv]
  omega

theorem moMake_post {w : MoWorld} {s : OptState} {zero : D} {parser : List Char → Option (ParsedExpr D)}
    {reps : FpOptions → List (List Char) → Except AdapterExn (List (Rep D))}
    {evaluate : MoAdapter D → BV → MoValue → Outcome (MoAdapter D × MoValue)} {converter : D → Rat} {text : List Char}
    {es : List (List Char)} {o : FpOptions} {domain : List Char → D → Prop} {bits : List Char → Nat}
    (ht : moGetExpression w s = ok text) (hes : moExpressions text = some es) (hp : ∀ e ∈ es, ∃ p, parser e = some p)
    (ho : moFpOptions w s = ok o)
    (hr : ∀ names, IsVariables parser es names → ∃ rs, reps o names = .ok rs ∧
      List.Forall₂ (fun name (rep : Rep D) => rep.Gives (domain name) ∧ rep.size = bits name ∧ 0 < rep.size) names rs)
    (hev : ∀ (a : MoAdapter D) names rs, a.Ready parser es names rs → (∀ rep ∈ rs, rep.Decodes) → ∀ bv : BV,
      bv.length = (rs.map Rep.size).sum → ∀ value : MoValue, value.length = es.length →
        ∃ b result σ, evaluate a bv value = ok (b, result) ∧ AssignsFrom names rs bv σ ∧ IsObjectives parser converter σ es result) :
    Sim.Post (moMake w s zero parser reps evaluate) (fun r => ∃ f, r = some f ∧ f.Good parser converter es domain bits) := by
  unfold moMake
  refine Sim.Post.lift_bind ht ?_
  have hsplit : moSplit text = pure es := by simp [moSplit, hes]
  rw [hsplit]
  refine (Sim.Post.pure (P := fun l => l = es) rfl).bind (fun l hl => ?_)
  rw [hl]
  refine (moParse_ready zero hp).bind (fun f hf => ?_)
  refine Sim.Post.lift_bind ho ?_
  obtain ⟨rs, h1, h2⟩ := hr f.orderedNames hf.names
  have hg : List.Forall₂ (fun name (rep : Rep D) => rep.Gives (domain name)) f.orderedNames rs := h2.imp (fun _ _ h => h.1)
  have hpos : ∀ rep ∈ rs, 0 < rep.size := by
    intro rep hrep
    obtain ⟨j, hj, rfl⟩ := List.mem_iff_getElem.mp hrep
    exact ((List.forall₂_iff_get.mp h2).2 j (h2.length_eq ▸ hj) hj).2.2
  have hdec : ∀ rep ∈ rs, rep.Decodes := by
    intro rep hrep
    obtain ⟨j, hj, rfl⟩ := List.mem_iff_getElem.mp hrep
    exact ((List.forall₂_iff_get.mp h2).2 j (h2.length_eq ▸ hj) hj).1.1
  rw [h1]
  refine (Sim.Post.pure (P := fun l => l = some rs) rfl).bind (fun l hl => ?_)
  subst hl
  obtain ⟨a, h3, h4⟩ := moAdapterNew_ready zero hf h2.length_eq.symm
  refine Sim.Post.lift_bind h3 ?_
  have hpl : a.function.parsers.length = es.length := h4.function.parsers.length_eq.symm
  have h5 : moAdapterFunction evaluate a = ok ⟨(rs.map Rep.size).sum, es.length, fun bv => do
      let r ← evaluate a bv (List.replicate es.length 0)
      ok r.2⟩ := by
    unfold moAdapterFunction
    rw [h4.representations, multivariateSize_eq, ok_bind, hpl]
  refine Sim.Post.lift_bind h5 (Sim.Post.pure ⟨_, rfl, ⟨rfl, ?_, ?_, ?_⟩⟩)
  · rintro ⟨e, he, p, hpe, hne⟩
    obtain ⟨name, hname⟩ := List.exists_mem_of_ne_nil _ hne
    have hmem := (hf.names.mem name).mpr ⟨e, he, p, hpe, hname⟩
    obtain ⟨j, hj, _⟩ := List.mem_iff_getElem.mp hmem
    have hj' : j < rs.length := h2.length_eq ▸ hj
    exact sum_pos_of_mem ⟨_, List.mem_map.mpr ⟨rs[j], List.getElem_mem hj', rfl⟩, hpos _ (List.getElem_mem hj')⟩
  · refine ⟨f.orderedNames, hf.names, ?_⟩
    have : List.Forall₂ (fun name (rep : Rep D) => bits name = rep.size) f.orderedNames rs := h2.imp (fun _ _ h => h.2.1.symm)
    rw [map_eq_of_forall₂ this]
  · have key : ∀ x : BV, ∃ σ : List Char → D, x.length = (rs.map Rep.size).sum → ∃ b v, evaluate a x (List.replicate es.length 0) = ok (b, v) ∧
        AssignsFrom f.orderedNames rs x σ ∧ IsObjectives parser converter σ es v := by
      intro x
      by_cases hx : x.length = (rs.map Rep.size).sum
      · obtain ⟨b, v, σ, h6, h7, h8⟩ := hev a _ rs h4 hdec x hx (List.replicate es.length 0) List.length_replicate
        exact ⟨σ, fun _ => ⟨b, v, h6, h7, h8⟩⟩
      · exact ⟨fun _ => zero, fun h => absurd h hx⟩
    choose decode hdecode using key
    refine ⟨decode, fun x hx => ?_⟩
    obtain ⟨b, v, h6, h7, h8⟩ := hdecode x hx
    refine ⟨v, by simp [h6], h8.length_eq.symm, ?_, h8⟩
    intro e he p hpe name hname
    exact assigns_domain hg hx h7 name ((hf.names.mem name).mpr ⟨e, he, p, hpe, hname⟩)

theorem moMakeOthers_post {w : MoWorld} {s : OptState} {P : MoFunction → Prop}
    (h : Sim.Post (moMakeFunction w s) (fun r => ∃ f, r = some f ∧ P f)) :
    ∀ n, Sim.Post (moMakeOthers w s n) (fun b => b = true)
  | 0 => Sim.Post.pure rfl
  | n + 1 => by
    unfold moMakeOthers
    refine h.bind (fun r hr => ?_)
    obtain ⟨f, rfl, _⟩ := hr
    exact moMakeOthers_post h n

theorem Sim.Post.moCatch {m : Sim MoEnd} {P : MoEnd → Prop} (h : Sim.Post m P) : Sim.Post (moCatch m) P := by
  intro ds
  have := h ds
  unfold Hnco.moCatch
  cases hm : m ds <;> simp_all

theorem moCatch_bind {α : Type} {m : Sim α} {f : α → Sim MoEnd} {P : α → Prop} {Q : MoEnd → Prop} (h : Sim.Post m P)
    (hf : ∀ a, P a → Sim.Post (moCatch (f a)) Q) : Sim.Post (moCatch (m >>= f)) Q := by
  intro ds
  have h1 := h ds
  have e : (m >>= f) ds = Sim.bind m f ds := rfl
  unfold moCatch
  rw [e]
  unfold Sim.bind
  cases hd : m ds with
  | throw e => rw [hd] at h1; exact h1.elim
  | ub => rw [hd] at h1; exact h1.elim
  | out => trivial
  | ok a rest =>
    rw [hd] at h1
    exact hf a h1 rest

/-! ## The program -/

theorem splits_nonempty {d t : List Char} {es : List (List Char)} (h : Splits d t es) : es ≠ [] := by
  cases h <;> simp

theorem moExpressions_eq {text : List Char} {es : List (List Char)} (hl : text.length < 2 ^ 32) (h : Splits "::".toList text es) :
    moExpressions text = some es := by
  obtain ⟨es', h1, h2, _⟩ := moParsed_expressions (D := Unit) (expression := text) hl
  rw [h1, splits_unique h h2]

variable {w : MoWorld} {argv : List (List Char)} {items : List (OptDoc × Option (List Char))} {k : Int} {es : List (List Char)}
  {o : FpOptions}

/-- The functions are made, then `run` goes on. -/
theorem hncoMo_made (h : MoCommand w argv items k es o) {P : MoFunction → Prop} {Q : MoEnd → Prop} {s : OptState}
    (hs : hncoMoClass.parse w.opt false argv = .ok s) (hr : MoRead w items s)
    (hm : Sim.Post (moMakeFunction w s) (fun r => ∃ f, r = some f ∧ P f))
    (hq : ∀ f, P f → Sim.Post (moCatch (moFinish w s f)) Q) : Sim.Post (hncoMoMain w argv) Q := by
  unfold hncoMoMain
  rw [hs]
  obtain ⟨z, hz, hthreads⟩ := h.threads
  have hprog : moProgram w s = (moMakeFunction w s >>= moGoOn w s (z.toNat - 1)) := by
    unfold moProgram
    rw [if_neg (by simp [hr.lowered (moFlag_ok 0 rfl) h.defaults]), hr.int (moParam_ok 0 rfl) hthreads]
    change (if z < 1 then _ else _) = _
    rw [if_neg (by omega)]
  simp only [hprog]
  refine moCatch_bind hm (fun r hr => ?_)
  obtain ⟨f, rfl, hf⟩ := hr
  refine moCatch_bind (moMakeOthers_post hm _) (fun b hb => ?_)
  rw [if_pos hb]
  exact hq f hf

theorem moFinish_prints {parser : List Char → Option (ParsedExpr D)} {converter : D → Rat} {domain : List Char → D → Prop} {bits : List Char → Nat}
    {s : OptState} (hr : MoRead w items s) (hruns : MoRuns items) (ha : MoAlgorithm w items) (hes : es ≠ [])
    (hvar : ∃ e ∈ es, ∃ p, parser e = some p ∧ p.names ≠ []) {f : MoFunction} (hf : f.Good parser converter es domain bits) :
    Sim.Post (moFinish w s f) (MoPrints parser converter es domain items) := by
  unfold moFinish
  rw [if_neg (by simp [hr.lowered (moFlag_ok 1 rfl) (hruns _ (by simp))]),
    if_neg (by simp [hr.lowered (moFlag_ok 2 rfl) (hruns _ (by simp))]),
    if_neg (by simp [hr.lowered (moFlag_ok 3 rfl) (hruns _ (by simp))])]
  obtain ⟨mu, t, hmu, ht, ht2, htmu⟩ := ha.tournament
  obtain ⟨ni, hni, _⟩ := get_int moClass_mem hr.settings hr.fine (moParam_ok 6 rfl)
  obtain ⟨rate, h1, h2⟩ := hr.optionalDouble (moOptional_ok 4 rfl)
  have hpos := hf.positive hvar
  have hrate : 0 ≤ rate.getD (1 / (f.size : Rat)) ∧ rate.getD (1 / (f.size : Rat)) ≤ 1 := by
    cases rate with
    | some r => exact ha.rate r ((h2 r).mp rfl)
    | none =>
      have : (1 : Rat) ≤ f.size := by exact_mod_cast hpos
      exact ⟨by rw [Option.getD_none]; positivity, by rw [Option.getD_none, div_le_one (by linarith)]; exact this⟩
  have hopt : moOptionsOf w s f.size = ok ⟨100, mu, t, ni, w.belowSqrt (rate.getD (1 / (f.size : Rat))) f.size,
      s.raised "ea_allow_no_mutation"⟩ := by
    unfold moOptionsOf
    rw [hr.int (moParam_ok 3 rfl) ha.algorithm, ok_bind, hr.int (moParam_ok 4 rfl) hmu, ok_bind, hr.int (moParam_ok 5 rfl) ht, ok_bind,
      hni, ok_bind, h1, ok_bind]
    simp only
    rw [assert_pos (by simpa using hrate), ok_bind]
  refine Sim.Post.lift_bind hopt ?_
  obtain ⟨decode, hdec⟩ := hf.eval
  have hcomp : MoComputes f.size f.outputs f.eval (fun x => match f.eval x with | .ok v => v | _ => []) := by
    intro x hx
    obtain ⟨v, h3, h4, _⟩ := hdec x hx
    simp [h3, h4, hf.outputs]
  refine (moRun_spec hpos (by rw [hf.outputs]; exact List.length_pos_iff.mpr hes) hcomp rfl ht2 htmu (by simp only; omega)).bind
    (fun r hres => Sim.Post.pure ?_)
  obtain ⟨h3, _, _, h4, h5⟩ := hres
  refine ⟨r.1, _, _, rfl, ⟨h3, ⟨f.size, decode, fun x v hxv => ?_⟩, h5⟩, ?_, ?_, ?_, ?_⟩
  · obtain ⟨hx, hv⟩ := h4 x v hxv
    obtain ⟨v', h6, _, h7, h8⟩ := hdec x hx
    rw [hv] at h6
    cases h6
    exact ⟨hx, h7, h8⟩
  · exact fun hc => by rw [if_pos ((hr.flag (moFlag_ok 4 rfl)).mpr hc)]
  · exact fun hc => by rw [if_neg (by simp [hr.lowered (moFlag_ok 4 rfl) hc])]
  · exact fun hc => by rw [if_pos ((hr.flag (moFlag_ok 5 rfl)).mpr hc)]
  · exact fun hc => by rw [if_neg (by simp [hr.lowered (moFlag_ok 5 rfl) hc])]

theorem moCatch_throw {m : Sim MoEnd} (h : ∀ ds, m ds = .throw .runtimeError) : Sim.Post (moCatch m) (fun e => e = .exit 1 .message) := by
  intro ds
  unfold moCatch
  rw [h ds]

theorem moFinish_refused {parser : List Char → Option (ParsedExpr D)} {converter : D → Rat} {domain : List Char → D → Prop}
    {bits : List Char → Nat} {s : OptState} (hr : MoRead w items s) (hruns : MoRuns items) (ha : MoRefused w items) (hes : es ≠ [])
    (hvar : ∃ e ∈ es, ∃ p, parser e = some p ∧ p.names ≠ []) {f : MoFunction} (hf : f.Good parser converter es domain bits) :
    Sim.Post (moCatch (moFinish w s f)) (fun e => e = .exit 1 .message) := by
  refine moCatch_throw (fun ds => ?_)
  unfold moFinish
  rw [if_neg (by simp [hr.lowered (moFlag_ok 1 rfl) (hruns _ (by simp))]),
    if_neg (by simp [hr.lowered (moFlag_ok 2 rfl) (hruns _ (by simp))]),
    if_neg (by simp [hr.lowered (moFlag_ok 3 rfl) (hruns _ (by simp))])]
  obtain ⟨a, mu, t, hal, hmu, ht, hwrong⟩ := ha.wrong
  obtain ⟨ni, hni, _⟩ := get_int moClass_mem hr.settings hr.fine (moParam_ok 6 rfl)
  obtain ⟨rate, h1, h2⟩ := hr.optionalDouble (moOptional_ok 4 rfl)
  have hpos := hf.positive hvar
  have hrate : 0 ≤ rate.getD (1 / (f.size : Rat)) ∧ rate.getD (1 / (f.size : Rat)) ≤ 1 := by
    cases rate with
    | some r => exact ha.rate r ((h2 r).mp rfl)
    | none =>
      have : (1 : Rat) ≤ f.size := by exact_mod_cast hpos
      exact ⟨by rw [Option.getD_none]; positivity, by rw [Option.getD_none, div_le_one (by linarith)]; exact this⟩
  have hopt : moOptionsOf w s f.size = ok ⟨a, mu, t, ni, w.belowSqrt (rate.getD (1 / (f.size : Rat))) f.size,
      s.raised "ea_allow_no_mutation"⟩ := by
    unfold moOptionsOf
    rw [hr.int (moParam_ok 3 rfl) hal, ok_bind, hr.int (moParam_ok 4 rfl) hmu, ok_bind, hr.int (moParam_ok 5 rfl) ht, ok_bind,
      hni, ok_bind, h1, ok_bind]
    simp only
    rw [assert_pos (by simpa using hrate), ok_bind]
  rw [hopt]
  have hthrow := moRun_options (f := f.eval) (n := f.size) (m := f.outputs) hpos (by rw [hf.outputs]; exact List.length_pos_iff.mpr hes)
    (o := ⟨a, mu, t, ni, w.belowSqrt (rate.getD (1 / (f.size : Rat))) f.size, s.raised "ea_allow_no_mutation"⟩)
    (fuel := (2 * mu).toNat) ds
  have : moRun ⟨a, mu, t, ni, w.belowSqrt (rate.getD (1 / (f.size : Rat))) f.size, s.raised "ea_allow_no_mutation"⟩ f.eval f.size
      f.outputs (2 * mu).toNat ds = .throw .runtimeError := by
    by_cases h100 : a = 100
    · rcases hwrong with h | ⟨h3, h4⟩
      · exact absurd h100 h
      · exact hthrow.2 h100 h3 h4
    · exact hthrow.1 h100
  change Sim.bind (moRun _ f.eval f.size f.outputs (2 * mu).toNat) _ ds = _
  unfold Sim.bind
  rw [this]

theorem moCatch_imp {m : Sim MoEnd} {H : Prop} {P : MoEnd → Prop} (h : H → Sim.Post (moCatch m) P) :
    Sim.Post (moCatch m) (fun e => H → P e) := by
  intro ds
  by_cases hH : H
  · have := h hH ds
    cases hc : moCatch m ds <;> simp_all
  · unfold moCatch
    cases m ds <;> simp [hH]

theorem Sim.Post.all {α : Type} {m : Sim α} {P Q : α → Prop} (h1 : Sim.Post m P) (h2 : Sim.Post m Q) :
    Sim.Post m (fun a => P a ∧ Q a) := by
  intro ds
  have h1 := h1 ds
  have h2 := h2 ds
  cases hc : m ds <;> simp_all

/-- What the last part of the program reports. -/
theorem moFinish_reports {parser : List Char → Option (ParsedExpr D)} {converter : D → Rat} {domain : List Char → D → Prop}
    {bits : List Char → Nat} {s : OptState} (hr : MoRead w items s) (hes : es ≠ []) {f : MoFunction}
    (hf : f.Good parser converter es domain bits) :
    Sim.Post (moCatch (moFinish w s f)) (MoReports parser converter es domain bits w items) := by
  have b : ∀ {i : Nat} {name member : String} (hk : moFlags[i]? = some (name, member)), Appears items name → s.raised member = true :=
    fun hk h => (hr.flag (moFlag_ok _ hk)).mpr h
  have n : ∀ {i : Nat} {name member : String} (hk : moFlags[i]? = some (name, member)), ¬ Appears items name →
      ¬ s.raised member = true := fun hk h => by simp [hr.lowered (moFlag_ok _ hk) h]
  refine Sim.Post.mono (Sim.Post.all (moCatch_imp (P := fun e => ∃ names, IsVariables parser es names ∧
      e = .exit 0 (.bvSize (names.map bits).sum)) fun h => ?_) (Sim.Post.all
    (moCatch_imp (H := ¬ Appears items "fn-get-bv-size" ∧ Appears items "fn-get-output-size")
      (P := fun e => e = .exit 0 (.outputSize es.length)) fun h => ?_) (Sim.Post.all
    (moCatch_imp (H := ¬ Appears items "fn-get-bv-size" ∧ ¬ Appears items "fn-get-output-size" ∧ Appears items "fn-display")
      (P := fun e => e = .exit 0 .display) fun h => ?_) (Sim.Post.all
    (moCatch_imp (H := MoRuns items ∧ MoAlgorithm w items ∧ (∃ e ∈ es, ∃ p, parser e = some p ∧ p.names ≠ []))
      (P := MoPrints parser converter es domain items) fun h => ?_)
    (moCatch_imp (H := MoRuns items ∧ MoRefused w items ∧ (∃ e ∈ es, ∃ p, parser e = some p ∧ p.names ≠ []))
      (P := fun e => e = .exit 1 .message) fun h => ?_)))))
    (fun e h => ⟨h.1, fun h1 h2 => h.2.1 ⟨h1, h2⟩, fun h1 h2 h3 => h.2.2.1 ⟨h1, h2, h3⟩, fun h1 h2 h3 => h.2.2.2.1 ⟨h1, h2, h3⟩,
      fun h1 h2 h3 => h.2.2.2.2 ⟨h1, h2, h3⟩⟩)
  · obtain ⟨names, h1, h2⟩ := hf.size
    refine Sim.Post.moCatch ?_
    unfold moFinish
    rw [if_pos (b (i := 1) rfl h), h2]
    exact Sim.Post.pure ⟨names, h1, rfl⟩
  · refine Sim.Post.moCatch ?_
    unfold moFinish
    rw [if_neg (n (i := 1) rfl h.1), if_pos (b (i := 2) rfl h.2), hf.outputs]
    exact Sim.Post.pure rfl
  · refine Sim.Post.moCatch ?_
    unfold moFinish
    rw [if_neg (n (i := 1) rfl h.1), if_neg (n (i := 2) rfl h.2.1), if_pos (b (i := 3) rfl h.2.2)]
    exact Sim.Post.pure rfl
  · exact (moFinish_prints hr h.1 h.2.1 hes h.2.2 hf).moCatch
  · exact moFinish_refused hr h.1 h.2.1 hes h.2.2 hf

end

end Hnco
