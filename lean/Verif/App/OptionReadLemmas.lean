import Verif.App.OptionReadSpec
import Verif.App.OptionRead
import Verif.App.MainLemmas

/-!
# Reading the options of a program: lemmas
-/

namespace Hnco

open Outcome

variable {c : OptClass} {lib : OptLib} {items : List (OptDoc × Option (List Char))} {s : OptState}

theorem ParamOf.unique (hc : c ∈ optionClasses) {name : String} {x y : OptValue} (h : ParamOf c lib items name x)
    (h' : ParamOf c lib items name y) : x = y := by
  obtain ⟨d, h1, h2, k, df, h3, h4⟩ := h
  obtain ⟨d', h1', h2', k', df', h3', h4'⟩ := h'
  obtain rfl : d = d' := doc_eq (check_classes hc) h1 h1' (by rw [h2, h2'])
  rw [h3] at h3'
  cases h3'
  rcases h4 with ⟨v, hv, hx⟩ | ⟨hm, hx⟩
  · rcases h4' with ⟨v', hv', hx'⟩ | ⟨hm, _⟩
    · cases hv.unique hv'
      exact hx.unique hx'
    · exact absurd hv.mentioned hm
  · rcases h4' with ⟨v', hv', _⟩ | ⟨_, hx'⟩
    · exact absurd hv'.mentioned hm
    · rw [hx] at hx'
      exact Option.some.inj hx'

/-- The option of a name. -/
def docIn (c : OptClass) (name : String) : Option OptDoc := c.help.find? (fun d => decide (d.name = name.toList))

/-- Whether an option is a parameter of the given kind with a default value. -/
def isParamIn (c : OptClass) (name member : String) (kind : OptKind) : Bool :=
  match docIn c name with
  | some ⟨_, n, .value k (some _)⟩ => decide (k = kind) && decide (memberOf n = member)
  | _ => false

/-- Whether an option is a parameter of the given kind without default value. -/
def isOptionalIn (c : OptClass) (name member : String) (kind : OptKind) : Bool :=
  match docIn c name with
  | some ⟨_, n, .value k none⟩ => decide (k = kind) && decide (memberOf n = member)
  | _ => false

/-- Whether an option is a flag. -/
def isFlagIn (c : OptClass) (name member : String) : Bool :=
  match docIn c name with
  | some ⟨_, n, .flag⟩ => decide (memberOf n = member)
  | _ => false

theorem docIn_some {name : String} {d : OptDoc} (h : docIn c name = some d) : d ∈ c.help ∧ d.name = name.toList :=
  ⟨List.mem_of_find?_eq_some h, by simpa using List.find?_some h⟩

/-- Default values have the type of their parameters. -/
def typedDefaults (c : OptClass) : Bool := c.help.all fun d =>
    match d.kind with
    | .value .int (some (.int _)) => true
    | .value .double (some (.double _)) => true
    | .value .string (some (.str _)) => true
    | .value .bool (some (.bool _)) => true
    | .value _ none => true
    | .value _ _ => false
    | _ => true

set_option maxRecDepth 100000 in
theorem typedDefaults_all : (optionClasses.all typedDefaults) = true := by decide +kernel

/-- The value is of the type of the parameter. -/
def OptKind.Typed : OptKind → OptValue → Prop
  | .int, .int _ => True
  | .double, .double _ => True
  | .string, .str _ => True
  | .bool, .bool _ => True
  | .unsigned, .unsigned _ => True
  | _, _ => False

theorem Means.typed {k : OptKind} {v : List Char} {x : OptValue} (h : Means lib k v x) : k.Typed x := by
  cases h <;> trivial

theorem default_typed (hc : c ∈ optionClasses) {d : OptDoc} (hd : d ∈ c.help) {k : OptKind} {x : OptValue}
    (h : d.kind = .value k (some x)) : k.Typed x := by
  have := List.all_eq_true.mp (List.all_eq_true.mp typedDefaults_all c hc) d hd
  rw [h] at this
  cases k <;> cases x <;> first | trivial | simp at this

theorem appears_iff (hc : c ∈ optionClasses) (hdocs : ∀ i ∈ items, i.1 ∈ c.help) {name : String} {d : OptDoc}
    (hd : docIn c name = some d) : Appears items name ↔ Mentioned items d := by
  obtain ⟨h1, h2⟩ := docIn_some hd
  constructor
  · rintro ⟨i, hi, hn⟩
    exact ⟨i, hi, doc_eq (check_classes hc) (hdocs i hi) h1 (by rw [hn, h2])⟩
  · rintro ⟨i, hi, rfl⟩
    exact ⟨i, hi, h2⟩

/-- A parameter with a default value. -/
theorem get_param (hc : c ∈ optionClasses) (hs : Settings c lib items s) (hf : ∀ i ∈ items, FineItem lib i) {name member : String}
    {kind : OptKind} (h : isParamIn c name member kind = true) :
    ∃ x, c.get s member = ok x ∧ ParamOf c lib items name x ∧ kind.Typed x := by
  unfold isParamIn at h
  split at h
  · rename_i l n k x0 hd
    simp only [Bool.and_eq_true, decide_eq_true_eq] at h
    obtain ⟨h1, h2⟩ := docIn_some hd
    obtain ⟨rfl, rfl⟩ := h
    by_cases hm : Mentioned items ⟨l, n, .value k (some x0)⟩
    · obtain ⟨v, hv⟩ := lastArgument_exists hf rfl hm
      obtain ⟨x, hx, hg⟩ := hs.set _ h1 k (some x0) v rfl hv
      exact ⟨x, hg, ⟨_, h1, h2, k, _, rfl, Or.inl ⟨v, hv, hx⟩⟩, hx.typed⟩
    · exact ⟨x0, hs.default _ h1 k x0 rfl hm, ⟨_, h1, h2, k, _, rfl, Or.inr ⟨hm, rfl⟩⟩, default_typed hc h1 rfl⟩
  · cases h

theorem get_int (hc : c ∈ optionClasses) (hs : Settings c lib items s) (hf : ∀ i ∈ items, FineItem lib i) {name member : String}
    (h : isParamIn c name member .int = true) : ∃ z, c.int s member = ok z ∧ ParamOf c lib items name (.int z) := by
  obtain ⟨x, h1, h2, h3⟩ := get_param hc hs hf h
  cases x with
  | int z => exact ⟨z, by simp [OptClass.int, h1], h2⟩
  | _ => exact h3.elim

theorem get_str (hc : c ∈ optionClasses) (hs : Settings c lib items s) (hf : ∀ i ∈ items, FineItem lib i) {name member : String}
    (h : isParamIn c name member .string = true) : ∃ z, c.str s member = ok z ∧ ParamOf c lib items name (.str z) := by
  obtain ⟨x, h1, h2, h3⟩ := get_param hc hs hf h
  cases x with
  | str z => exact ⟨z, by simp [OptClass.str, h1], h2⟩
  | _ => exact h3.elim

theorem get_double (hc : c ∈ optionClasses) (hs : Settings c lib items s) (hf : ∀ i ∈ items, FineItem lib i) {name member : String}
    (h : isParamIn c name member .double = true) : ∃ z, c.double s member = ok z ∧ ParamOf c lib items name (.double z) := by
  obtain ⟨x, h1, h2, h3⟩ := get_param hc hs hf h
  cases x with
  | double z => exact ⟨z, by simp [OptClass.double, h1], h2⟩
  | _ => exact h3.elim

/-- A parameter without default value: it has been given, or not. -/
theorem get_optional (hc : c ∈ optionClasses) (hs : Settings c lib items s) (hf : ∀ i ∈ items, FineItem lib i)
    (hdocs : ∀ i ∈ items, i.1 ∈ c.help) {name member : String} {kind : OptKind} (h : isOptionalIn c name member kind = true) :
    (s.given member = false ∧ ¬ Appears items name) ∨
      (s.given member = true ∧ Appears items name ∧ ∃ x, c.get s member = ok x ∧ ParamOf c lib items name x ∧ kind.Typed x) := by
  unfold isOptionalIn at h
  split at h
  · rename_i l n k hd
    simp only [Bool.and_eq_true, decide_eq_true_eq] at h
    obtain ⟨h1, h2⟩ := docIn_some hd
    obtain ⟨rfl, rfl⟩ := h
    have hg := hs.given _ h1 rfl
    rw [appears_iff hc hdocs hd]
    by_cases hm : Mentioned items ⟨l, n, .value k none⟩
    · obtain ⟨v, hv⟩ := lastArgument_exists hf rfl hm
      obtain ⟨x, hx, hget⟩ := hs.set _ h1 k none v rfl hv
      exact Or.inr ⟨hg.mpr hm, hm, x, hget, ⟨_, h1, h2, k, _, rfl, Or.inl ⟨v, hv, hx⟩⟩, hx.typed⟩
    · refine Or.inl ⟨?_, hm⟩
      rw [← Bool.not_eq_true]
      exact fun hc => hm (hg.mp hc)
  · cases h

theorem get_flag (hc : c ∈ optionClasses) (hs : Settings c lib items s) (hdocs : ∀ i ∈ items, i.1 ∈ c.help) {name member : String}
    (h : isFlagIn c name member = true) : s.raised member = true ↔ Appears items name := by
  unfold isFlagIn at h
  split at h
  · rename_i l n hd
    simp only [decide_eq_true_eq] at h
    subst h
    obtain ⟨h1, h2⟩ := docIn_some hd
    rw [appears_iff hc hdocs hd]
    exact hs.flags _ h1 rfl
  · cases h

end Hnco
