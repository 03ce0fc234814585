import Verif.App.MainLemmas
import Verif.App.FactoryProps
import Verif.App.HncoRunProps

/-!
# More lemmas about the program `hnco`
-/

namespace Hnco

open Outcome

universe u v

variable {w : HncoWorld} {argv : List (List Char)} {items : List (OptDoc × Option (List Char))}

/-! ## Uniqueness -/

section
variable {lib : OptLib} {s : OptState}

theorem optional_absent (hdocs : ∀ i ∈ items, i.1 ∈ hncoClass.help) {name member : String} (h : isOptional name member = true)
    (hp : ¬ Present items name) (r : Rat) : ¬ Param lib items name (.double r) := by
  unfold isOptional at h
  split at h
  · rename_i l n hd
    obtain ⟨h1, h2⟩ := docOf_some hd
    rw [present_iff hdocs hd] at hp
    rintro ⟨d, hd', hn, k, default, hk, hv⟩
    have : d = ⟨l, n, .value .double none⟩ := doc_eq check_hnco hd' h1 (by rw [hn, h2])
    subst this
    cases hk
    rcases hv with ⟨v, hv, _⟩ | ⟨_, hv⟩
    · exact hp hv.mentioned
    · cases hv
  · cases h

theorem param_int_eq {name : String} {a b : Int} (h : Param lib items name (.int a)) (h' : Param lib items name (.int b)) :
    a = b := by simpa using h.unique h'

theorem param_double_eq {name : String} {a b : Rat} (h : Param lib items name (.double a)) (h' : Param lib items name (.double b)) :
    a = b := by simpa using h.unique h'

theorem param_bool_eq {name : String} {a b : Bool} (h : Param lib items name (.bool a)) (h' : Param lib items name (.bool b)) :
    a = b := by simpa using h.unique h'

theorem bool_eq_of_iff {a b : Bool} {p : Prop} (h : a = true ↔ p) (h' : b = true ↔ p) : a = b := by
  rw [Bool.eq_iff_iff, h, h']

theorem AppSettings.unique (hdocs : ∀ i ∈ items, i.1 ∈ hncoClass.help) {o o' : AppOptions Rat} (h : AppSettings lib items o)
    (h' : AppSettings lib items o') : o = o' := by
  obtain ⟨a1, a2, a3, a4, a5, a6, a7⟩ := h
  obtain ⟨b1, b2, b3, b4, b5, b6, b7⟩ := h'
  cases o
  cases o'
  have := a5.unique b5 (optional_absent hdocs (show isOptional "target" "target" = true from optionals_ok 0 rfl))
  simp only [AppOptions.mk.injEq]
  exact ⟨param_int_eq a1 b1, bool_eq_of_iff a2 b2, bool_eq_of_iff a3 b3, bool_eq_of_iff a4 b4, this, bool_eq_of_iff a6 b6,
    bool_eq_of_iff a7 b7⟩

theorem FunctionSettings.unique {o o' : FactoryOptions} (h : FunctionSettings lib items o) (h' : FunctionSettings lib items o') :
    o = o' := by
  obtain ⟨⟨k1, a1, a1', a1''⟩, a2, a3, ⟨k4, a4, a4'⟩, ⟨k5, a5, a5'⟩, ⟨k6, a6, a6', a6''⟩⟩ := h
  obtain ⟨⟨l1, b1, b1', b1''⟩, b2, b3, ⟨l4, b4, b4'⟩, ⟨l5, b5, b5'⟩, ⟨l6, b6, b6', b6''⟩⟩ := h'
  have e1 := param_int_eq a1 b1
  have e4 := param_int_eq a4 b4
  have e5 := param_int_eq a5 b5
  have e6 := param_int_eq a6 b6
  cases o
  cases o'
  simp only [FactoryOptions.mk.injEq]
  simp only at *
  refine ⟨?_, param_int_eq a2 b2, param_int_eq a3 b3, by omega, by omega, ?_⟩
  · rcases lt_or_ge k1 0 with hk | hk
    · rw [a1' hk, b1' (by omega)]
    · have := a1'' hk
      have := b1'' (by omega)
      omega
  · rcases lt_or_ge k6 0 with hk | hk
    · rw [a6' hk, b6' (by omega)]
    · have := a6'' hk
      have := b6'' (by omega)
      omega

theorem AlgorithmSettings.unique (hdocs : ∀ i ∈ items, i.1 ∈ hncoClass.help) {o o' : AlgOptions}
    (h : AlgorithmSettings lib items o) (h' : AlgorithmSettings lib items o') : o = o' := by
  have e1 := h.eaMutationRate.unique h'.eaMutationRate
    (optional_absent hdocs (show isOptional "ea-mutation-rate" "ea_mutation_rate" = true from optionals_ok 1 rfl))
  have e2 := h.eaMutationRateMin.unique h'.eaMutationRateMin
    (optional_absent hdocs (show isOptional "ea-mutation-rate-min" "ea_mutation_rate_min" = true from optionals_ok 2 rfl))
  obtain ⟨a1, a2, a3, a4, a5, a6, a7, a8, a9, a10, a11, -, -, a14, a15, a16, a17, a18, a19, a20, a21, a22, a23, a24, a25, a26, a27,
    a28, a29, a30, a31, a32, a33, a34, a35, a36, a37, a38, a39, a40, a41, a42⟩ := h
  obtain ⟨b1, b2, b3, b4, b5, b6, b7, b8, b9, b10, b11, -, -, b14, b15, b16, b17, b18, b19, b20, b21, b22, b23, b24, b25, b26, b27,
    b28, b29, b30, b31, b32, b33, b34, b35, b36, b37, b38, b39, b40, b41, b42⟩ := h'
  cases o
  cases o'
  simp only [AlgOptions.mk.injEq]
  exact ⟨param_int_eq a1 b1, param_int_eq a2 b2, param_int_eq a3 b3, param_int_eq a4 b4, param_int_eq a5 b5, bool_eq_of_iff a6 b6,
    param_int_eq a7 b7, bool_eq_of_iff a8 b8, param_int_eq a9 b9, param_int_eq a10 b10, bool_eq_of_iff a11 b11, e1, e2,
    param_double_eq a14 b14, param_double_eq a15 b15, param_double_eq a16 b16, param_int_eq a17 b17, param_int_eq a18 b18,
    param_int_eq a19 b19, param_double_eq a20 b20, param_int_eq a21 b21, param_int_eq a22 b22, param_int_eq a23 b23,
    param_int_eq a24 b24, param_double_eq a25 b25, param_int_eq a26 b26, param_double_eq a27 b27, param_int_eq a28 b28,
    param_int_eq a29 b29, param_int_eq a30 b30, param_int_eq a31 b31, param_double_eq a32 b32, param_double_eq a33 b33,
    bool_eq_of_iff a34 b34, param_bool_eq a35 b35, param_bool_eq a36 b36, param_int_eq a37 b37, param_int_eq a38 b38,
    param_int_eq a39 b39, param_int_eq a40 b40, param_int_eq a41 b41, bool_eq_of_iff a42 b42⟩

end

/-- The functions which are not read from a file do not depend on it. -/
theorem makeFunction_file {lib : FactoryLib Rat} {o : FactoryOptions} (h : o.function ∉ loadedIds) (file file' : InstanceFile Rat) :
    makeFunction lib o file = makeFunction lib o file' := by
  have known : ∀ k, o.function = k → k ∈ loadedIds → ∀ a b : Outcome (Made Rat), a = b := fun k hk hm => absurd (hk ▸ hm) h
  unfold makeFunction
  split
  · rfl
  · unfold makeCase
    split <;> first | exact known _ ‹_› (by decide) _ _ | rfl | skip
    unfold makeCase2
    split <;> first | exact known _ ‹_› (by decide) _ _ | rfl | skip
    unfold makeCase3
    split <;> first | exact known _ ‹_› (by decide) _ _ | rfl | skip

theorem hncoFunction_asked {s : OptState} (hs : Settings hncoClass w.opt items s) (hf : ∀ i ∈ items, FineItem w.opt i) {f : Fn Rat}
    (h : AsksFor w items f) : hncoFunction w s = ok (.plain f) := by
  obtain ⟨fo, file, h1, h2, h3⟩ := h
  obtain ⟨fo', h4, h5⟩ := factoryOptionsOf_settings hs hf
  have : fo' = fo := h5.unique h1
  subst this
  obtain ⟨path, h6, h7⟩ := param_str hs hf (show isParam "path" "path" .string = true from params_ok 2 rfl)
  have hsize : ¬ fo'.bvSize ≤ 0 := by
    intro hc
    rw [factory_no_size w.fn fo' file hc] at h2
    cases h2
  unfold hncoFunction
  rw [h4, ok_bind, h6, ok_bind, if_neg hsize]
  by_cases hid : fo'.function ∈ loadedIds
  · have hr : readsFile fo'.function = true := by
      simp only [loadedIds, List.mem_cons, List.not_mem_nil, or_false] at hid
      rcases hid with h | h | h | h | h | h | h | h | h | h | h | h | h <;> rw [h] <;> rfl
    obtain ⟨path', h8, h9⟩ := h3 hid
    have : path = path' := by simpa using h7.unique h8
    subst this
    rw [if_pos hr, h9]
    exact h2
  · split
    · rename_i hr
      have : fo'.function = 150 ∨ fo'.function = 200 := by
        simp only [readsFile, decide_eq_true_eq, List.mem_cons, List.not_mem_nil, or_false] at hr
        simp only [loadedIds, List.mem_cons, List.not_mem_nil, or_false] at hid
        omega
      exfalso
      rw [make_eq (by omega)] at h2
      rcases this with h | h <;> simp [makeCase, makeCase2, makeCase3, h] at h2
    · rw [makeFunction_file hid _ file]
      exact h2

/-! ## Before the algorithm -/

theorem not_raised {s : OptState} (hs : Settings hncoClass w.opt items s) (hdocs : ∀ i ∈ items, i.1 ∈ hncoClass.help)
    {name member : String} (h : isFlag name member = true) (hp : ¬ Present items name) : s.raised member = false := by
  rw [← Bool.not_eq_true, flag_raised hs hdocs h]
  exact hp

theorem sim_bind_ok {α : Type u} {β : Type v} (a : α) (k : α → Sim β) : Sim.bind (Sim.lift (ok a)) k = k a := rfl

theorem sim_bind_ok_inv {α : Type u} {β : Type v} {m : Sim α} {k : α → Sim β} {ds rest : List Nat} {b : β}
    (h : Sim.bind m k ds = .ok b rest) : ∃ a ds', m ds = .ok a ds' ∧ k a ds' = .ok b rest := by
  unfold Sim.bind at h
  split at h
  · exact ⟨_, _, by assumption, h⟩
  · cases h
  · cases h
  · cases h

theorem sim_lift_ok_inv {α : Type u} {o : Outcome α} {ds rest : List Nat} {a : α} (h : Sim.lift o ds = .ok a rest) : o = ok a := by
  cases o with
  | ok b => cases h; rfl
  | throw e => cases h
  | ub => cases h

/-- What is done with a function if there is nothing to show. -/
def appGoOn (w : HncoWorld) (F : AppFactories) (s : OptState) (app : AppOptions Rat) (fn : Fn Rat) (map : Option MapObj) : Outcome Prepared :=
  Outcome.bind (makeController app fn w.event) fun st => appAlgorithm F s fn map app st

variable {F : AppFactories}

theorem appPrepare_function {s : OptState} (hs : Settings hncoClass w.opt items s) (hf : ∀ i ∈ items, FineItem w.opt i)
    (hdocs : ∀ i ∈ items, i.1 ∈ hncoClass.help) (hp : PlainFunction w.opt items) :
    appPrepare w F s = Sim.bind (Sim.lift (F.makeFunction s)) fun made =>
      match made with
      | .plain f => Sim.bind (Sim.lift (assert (decide (f.size > 0)))) fun _ =>
        appSteps w F s (if s.raised "minimize" then opposite f else f) none
      | _ => pure .notModelled := by
  have r0 := not_raised hs hdocs (show isFlag "print-default-parameters" "print_default_parameters" = true from flags_ok 0 rfl)
    hp.defaults
  have r9 := not_raised hs hdocs (show isFlag "prior-noise" "prior_noise" = true from flags_ok 9 rfl)
    (hp.modifiers _ (by simp))
  have r10 := not_raised hs hdocs (show isFlag "parsed-modifier" "parsed_modifier" = true from flags_ok 10 rfl)
    (hp.modifiers _ (by simp))
  have r11 := not_raised hs hdocs (show isFlag "additive-gaussian-noise" "additive_gaussian_noise" = true from flags_ok 11 rfl)
    (hp.modifiers _ (by simp))
  obtain ⟨t, ht, ht'⟩ := param_int hs hf (show isParam "num-threads" "num_threads" .int = true from params_ok 0 rfl)
  have := param_int_eq ht' hp.threads
  subst this
  obtain ⟨m, hm, hm'⟩ := param_int hs hf (show isParam "map" "map" .int = true from params_ok 1 rfl)
  obtain ⟨k, hk, hk'⟩ := hp.map
  have := param_int_eq hm' hk'
  subst this
  have hmod : hncoModified s = false := by
    unfold hncoModified
    rw [r9, r10, r11]
    rfl
  obtain ⟨i1, hi1, -⟩ := param_int hs hf (show isParam "map-input-size" "map_input_size" .int = true from mapParams_ok 0 rfl)
  obtain ⟨i2, hi2, -⟩ := param_int hs hf (show isParam "map-ts-length" "map_ts_length" .int = true from mapParams_ok 1 rfl)
  obtain ⟨i3, hi3, -⟩ := param_int hs hf
    (show isParam "map-ts-sampling-mode" "map_ts_sampling_mode" .int = true from mapParams_ok 2 rfl)
  obtain ⟨i4, hi4, -⟩ := param_str hs hf (show isParam "map-path" "map_path" .string = true from mapParams_ok 3 rfl)
  have hmap : ∀ n, hncoMap w s n = pure none := by
    intro n
    unfold hncoMap
    rw [hm, hi1, hi2, hi3, hi4]
    simp only [sim_bind_ok]
    rw [if_pos hk]
  unfold appPrepare
  rw [if_neg (by rw [r0]; simp), ht, sim_bind_ok, if_neg (by omega), if_neg (by omega), hmod]
  simp only [hmap, Bool.false_eq_true, if_false]
  congr 1

theorem appPrepare_steps {s : OptState} (hs : Settings hncoClass w.opt items s) (hf : ∀ i ∈ items, FineItem w.opt i)
    (hdocs : ∀ i ∈ items, i.1 ∈ hncoClass.help) (hp : PlainFunction w.opt items) {f : Fn Rat} (h : F.makeFunction s = ok (.plain f))
    (hn : 0 < f.size) : appPrepare w F s = appSteps w F s (if s.raised "minimize" then opposite f else f) none := by
  have hsz : assert (decide (f.size > 0)) = ok () := assert_pos (by simpa using hn)
  rw [appPrepare_function hs hf hdocs hp, h, sim_bind_ok]
  dsimp only
  rw [hsz, sim_bind_ok]

theorem appSteps_goOn {s : OptState} (hs : Settings hncoClass w.opt items s) (hdocs : ∀ i ∈ items, i.1 ∈ hncoClass.help)
    (hruns : ∀ name ∈ "load-solution" :: showingOptions, ¬ Present items name) {app : AppOptions Rat}
    (happ : appOptionsOf s = ok app) (fn : Fn Rat) (map : Option MapObj) (ds : List Nat) :
    appSteps w F s fn map ds = Sim.lift (appGoOn w F s app fn map) ds := by
  have r1 := not_raised hs hdocs (show isFlag "load-solution" "load_solution" = true from flags_ok 1 rfl)
    (hruns _ (by simp))
  have r2 := not_raised hs hdocs (show isFlag "fn-has-known-maximum" "fn_has_known_maximum" = true from flags_ok 2 rfl)
    (hruns _ (by simp [showingOptions]))
  have r3 := not_raised hs hdocs (show isFlag "fn-get-maximum" "fn_get_maximum" = true from flags_ok 3 rfl)
    (hruns _ (by simp [showingOptions]))
  have r4 := not_raised hs hdocs (show isFlag "fn-get-bv-size" "fn_get_bv_size" = true from flags_ok 4 rfl)
    (hruns _ (by simp [showingOptions]))
  have r5 := not_raised hs hdocs
    (show isFlag "fn-provides-incremental-evaluation" "fn_provides_incremental_evaluation" = true from flags_ok 5 rfl)
    (hruns _ (by simp [showingOptions]))
  have r6 := not_raised hs hdocs (show isFlag "fn-walsh-transform" "fn_walsh_transform" = true from flags_ok 6 rfl)
    (hruns _ (by simp [showingOptions]))
  have r7 := not_raised hs hdocs (show isFlag "fn-display" "fn_display" = true from flags_ok 7 rfl)
    (hruns _ (by simp [showingOptions]))
  have r8 := not_raised hs hdocs (show isFlag "map-display" "map_display" = true from flags_ok 8 rfl)
    (hruns _ (by simp [showingOptions]))
  unfold appSteps appGoOn
  rw [happ, sim_bind_ok]
  cases makeController app fn w.event with
  | throw e => rfl
  | ub => rfl
  | ok st =>
    rw [sim_bind_ok, if_neg (by rw [r1]; simp)]
    simp only [printInformation, infoOptionsOf, r2, r3, r4, r5, r6, r7, r8, Bool.false_eq_true, if_false]
    rfl

theorem appPrepare_plain {s : OptState} (hs : Settings hncoClass w.opt items s) (hf : ∀ i ∈ items, FineItem w.opt i)
    (hdocs : ∀ i ∈ items, i.1 ∈ hncoClass.help) (hp : PlainRun w.opt items) {f : Fn Rat} (h : F.makeFunction s = ok (.plain f)) (hn : 0 < f.size)
    {app : AppOptions Rat} (happ : appOptionsOf s = ok app) (ds : List Nat) :
    appPrepare w F s ds = Sim.lift (appGoOn w F s app (if s.raised "minimize" then opposite f else f) none) ds := by
  rw [appPrepare_steps hs hf hdocs hp.toPlainFunction h hn, appSteps_goOn hs hdocs hp.runs happ]

/-- The options of the controllers are those of the command line. -/
theorem appPrepare_app {s : OptState} {app : AppOptions Rat} (happ : appOptionsOf s = ok app) {ds rest : List Nat} {R : HncoReady}
    (h : appPrepare w F s ds = .ok (.ready R) rest) : R.app = app := by
  have key : ∀ (fn : Fn Rat) map st x, appAlgorithm F s fn map app st = ok (.ready x) → x.app = app := by
    intro fn map st x hx
    unfold appAlgorithm at hx
    obtain ⟨m, -, hx⟩ := bind_eq_ok.mp hx
    cases m <;> cases hx
    rfl
  unfold appPrepare at h
  split at h
  · cases h
  obtain ⟨threads, ds1, -, h⟩ := sim_bind_ok_inv h
  split at h
  · cases h
  split at h
  · cases h
  obtain ⟨made, ds2, -, h⟩ := sim_bind_ok_inv h
  split at h
  · rename_i f
    obtain ⟨-, ds3, -, h⟩ := sim_bind_ok_inv h
    obtain ⟨map, ds4, -, h⟩ := sim_bind_ok_inv h
    obtain ⟨f', ds4', -, h⟩ := sim_bind_ok_inv h
    split at h
    · cases h
    unfold appSteps at h
    rw [happ, sim_bind_ok] at h
    obtain ⟨st, ds5, -, h⟩ := sim_bind_ok_inv h
    split at h
    · obtain ⟨x, ds6, -, h⟩ := sim_bind_ok_inv h
      cases h
    · obtain ⟨i, ds6, -, h⟩ := sim_bind_ok_inv h
      split at h
      · cases h
      · exact key _ _ st R (sim_lift_ok_inv h)
  · cases h

theorem appConclude_finish {o : AppOptions Rat} {st : FnStack Rat} {r : RunResult Rat} {x : BV} {res : AppResult Rat}
    (h : appConclude o st r x = ok res) : ∃ tr sol reached, res = appFinish o tr sol reached := by
  unfold appConclude at h
  split at h
  · cases h; exact ⟨_, _, _, rfl⟩
  · split at h
    · cases h
    · dsimp only at h
      split at h
      · cases h
      · cases h; exact ⟨_, _, _, rfl⟩
  · cases h; exact ⟨_, _, _, rfl⟩
  · cases h

theorem hncoConclude_finish {R : HncoReady} {r : RunResult Rat} {x : BV} {res : AppResult Rat}
    (h : hncoConclude R r x = ok res) : ∃ tr sol reached, res = appFinish R.app tr sol reached := by
  unfold hncoConclude at h
  obtain ⟨a, h1, h⟩ := bind_eq_ok.mp h
  obtain ⟨y, h2, h⟩ := bind_eq_ok.mp h
  obtain ⟨_, h3, h⟩ := bind_eq_ok.mp h
  cases h
  obtain ⟨tr, sol, reached, rfl⟩ := appConclude_finish h1
  exact ⟨tr, y, reached, rfl⟩

/-- The function, possibly with its opposite. -/
theorem hnco_fn {s : OptState} (hmin : s.raised "minimize" = true ↔ Present items "minimize") {f : Fn Rat} {value : BV → Rat}
    (hval : ∀ x : BV, x.length = f.size → (¬ Present items "minimize" ∧ f.eval x = ok (value x)) ∨
      (Present items "minimize" ∧ f.eval x = ok (-value x))) {app : AppOptions Rat} {goal : Option Rat}
    (hgoal : (app.stopOnMaximum = false ∧ goal = app.target) ∨
      (app.stopOnMaximum = true ∧ ¬ Present items "minimize" ∧ f.hasMax = true ∧ ∃ M, f.maximum = ok M ∧ goal = some M)) :
    ∃ fn : Fn Rat, (if s.raised "minimize" = true then opposite f else f) = fn ∧
      fn.size = f.size ∧ (∀ x : BV, x.length = fn.size → fn.eval x = ok (value x)) ∧
      (app.stopOnMaximum = true → fn.hasMax = true ∧ ∃ M, fn.maximum = ok M) ∧ appGoal app fn = goal := by
  by_cases hm : Present items "minimize"
  · refine ⟨opposite f, by rw [if_pos (hmin.mpr hm)], rfl, fun x hx => ?_, ?_⟩
    · rcases hval x hx with ⟨h1, _⟩ | ⟨_, h2⟩
      · exact absurd hm h1
      · simp [opposite, h2]
    · rcases hgoal with ⟨h1, h2⟩ | ⟨_, h2, _⟩
      · exact ⟨fun h => absurd h (by simp [h1]), by simp [appGoal, h1, h2]⟩
      · exact absurd hm h2
  · refine ⟨f, by rw [if_neg (fun h => hm (hmin.mp h))], rfl, fun x hx => ?_, ?_⟩
    · rcases hval x hx with ⟨_, h2⟩ | ⟨h1, _⟩
      · exact h2
      · exact absurd h1 hm
    · rcases hgoal with ⟨h1, h2⟩ | ⟨h1, _, h2, M, h3, h4⟩
      · exact ⟨fun h => absurd h (by simp [h1]), by simp [appGoal, h1, h2]⟩
      · exact ⟨fun _ => ⟨h2, M, h3⟩, by simp [appGoal, h1, h3, h4]⟩

theorem makeController_ok {app : AppOptions Rat} {fn : Fn Rat} {v : Rat}
    (hmax : app.stopOnMaximum = true → fn.hasMax = true ∧ ∃ M, fn.maximum = ok M) : ∃ st, makeController app fn v = ok st := by
  unfold makeController
  cases hsm : app.stopOnMaximum with
  | true =>
    obtain ⟨h1, M, h2⟩ := hmax hsm
    rw [if_pos rfl, if_pos h1, h2]
    exact ⟨_, rfl⟩
  | false =>
    rw [if_neg (by simp)]
    cases app.target <;> exact ⟨_, rfl⟩

theorem appLoad_value {fn : Fn Rat} {g : BV → Rat} {o : AppOptions Rat} {v : Rat} {st : FnStack Rat}
    (hf : ∀ x, x.length = fn.size → fn.eval x = ok (g x)) (hst : makeController o fn v = ok st) {x : BV} (hx : x.length = fn.size)
    (rest : List Char) : appLoad st fn.size (bvDisplay x ++ '\n' :: rest) =
      match appGoal o fn with
      | none => ok (g x)
      | some t => if t ≤ g x then .throw .targetReached else ok (g x) := by
  have hst' : makeController { o with concreteSolution := false } fn v = ok st := hst
  have h := (appLoad_saved hf hst' none rfl hx rest).2
  rw [show appGoal { o with concreteSolution := false } fn = appGoal o fn from rfl] at h
  rw [h]
  cases appGoal o fn <;> rfl

/-- The algorithm of the command line is made. -/
theorem hncoMakeAlgorithm_own {s : OptState} (hinc : ¬ Present items "incremental-evaluation") {n : Nat} {ao : AlgOptions}
    (hao : algOptionsOf s = ok ao) (hao' : AlgorithmSettings w.opt items ao) {m : MadeAlgorithm Rat}
    (hm : makeAlgorithm w.alg ao n = .own (ok m)) : (commandLineFactories w).makeAlgorithm s n = ok (some m) := by
  have hinc' : ao.incrementalEvaluation = false := by
    rw [← Bool.not_eq_true, hao'.incrementalEvaluation]
    exact hinc
  change hncoMakeAlgorithm w s n = _
  unfold hncoMakeAlgorithm
  rw [hao]
  change (if ao.incrementalEvaluation = true then ok none else _) = _
  rw [hinc', if_neg (by simp), hm]
  rfl

/-- The algorithm is made. -/
theorem appGoOn_ready {s : OptState} (hs : Settings hncoClass w.opt items s) (hdocs : ∀ i ∈ items, i.1 ∈ hncoClass.help)
    (hres : ¬ Present items "restart") {fn : Fn Rat} (map : Option MapObj)
    {app : AppOptions Rat} {st : FnStack Rat} (hst : makeController app fn w.event = ok st) {m : MadeAlgorithm Rat}
    (hm : F.makeAlgorithm s fn.size = ok (some m)) : appGoOn w F s app fn map = ok (.ready ⟨fn, map, app, st, m⟩) := by
  have hres' : s.raised "restart" = false :=
    not_raised hs hdocs (show isFlag "restart" "restart" = true from flags_ok 13 rfl) hres
  unfold appGoOn
  rw [hst]
  change appAlgorithm F s fn map app st = _
  unfold appAlgorithm
  rw [hm]
  change ok (Prepared.ready ⟨fn, map, app, st, if s.raised "restart" = true then m.restart else m⟩) = _
  rw [hres']
  rfl

/-- The algorithm is made, and then run. -/
theorem appPrepare_ready {s : OptState} (hs : Settings hncoClass w.opt items s) (hf : ∀ i ∈ items, FineItem w.opt i)
    (hdocs : ∀ i ∈ items, i.1 ∈ hncoClass.help) (hp : PlainRun w.opt items) {f fn : Fn Rat}
    (h : F.makeFunction s = ok (.plain f)) (hn : 0 < f.size)
    (hfn : (if s.raised "minimize" = true then opposite f else f) = fn) {app : AppOptions Rat} (happ : appOptionsOf s = ok app)
    {st : FnStack Rat} (hst : makeController app fn w.event = ok st) {m : MadeAlgorithm Rat}
    (hm : F.makeAlgorithm s fn.size = ok (some m))
    (ds : List Nat) : appPrepare w F s ds = .ok (.ready ⟨fn, none, app, st, m⟩) ds := by
  rw [appPrepare_plain hs hf hdocs hp h hn happ, hfn, appGoOn_ready hs hdocs hp.restart none hst hm]
  rfl

/-! ## Ends -/

theorem ends_throw {s : OptState} (hparse : hncoClass.parse w.opt false argv = .ok s) {x : Exn}
    (hprep : ∀ ds, appPrepare w F s ds = .throw x) (e : ProgramEnd) : AppEnds w F argv e ↔ e = .exit 1 .message := by
  constructor
  · intro he
    cases he with
    | options h => rw [hparse] at h; cases h
    | badOptions h => rw [hparse] at h; cases h
    | failed h h' => rfl
    | stuck h h' => rw [hparse] at h; cases h; rw [hprep] at h'; cases h'
    | shown h h' => rw [hparse] at h; cases h; rw [hprep] at h'; cases h'
    | run h h' => rw [hparse] at h; cases h; rw [hprep] at h'; cases h'
    | runConcludes h h' => rw [hparse] at h; cases h; rw [hprep] at h'; cases h'
    | runFails h h' => rfl
    | runThrows h h' => rfl
    | runStuck h h' => rw [hparse] at h; cases h; rw [hprep] at h'; cases h'
  · rintro rfl
    exact .failed hparse (hprep [])

theorem ends_ub {s : OptState} (hparse : hncoClass.parse w.opt false argv = .ok s) (hprep : ∀ ds, appPrepare w F s ds = .ub)
    (e : ProgramEnd) : AppEnds w F argv e ↔ e = .undefined := by
  constructor
  · intro he
    cases he with
    | options h => rw [hparse] at h; cases h
    | badOptions h => rfl
    | failed h h' => rw [hparse] at h; cases h; rw [hprep] at h'; cases h'
    | stuck h h' => rfl
    | shown h h' => rw [hparse] at h; cases h; rw [hprep] at h'; cases h'
    | run h h' => rw [hparse] at h; cases h; rw [hprep] at h'; cases h'
    | runConcludes h h' => rfl
    | runFails h h' => rw [hparse] at h; cases h; rw [hprep] at h'; cases h'
    | runThrows h h' => rw [hparse] at h; cases h; rw [hprep] at h'; cases h'
    | runStuck h h' => rfl
  · rintro rfl
    exact .stuck hparse (hprep [])

theorem ends_shown {s : OptState} (hparse : hncoClass.parse w.opt false argv = .ok s) {x : HncoShown}
    (hprep : ∀ ds, appPrepare w F s ds = .ok (.shown x) ds) (e : ProgramEnd) : AppEnds w F argv e ↔ e = .exit 0 (.shown x) := by
  constructor
  · intro he
    cases he with
    | options h => rw [hparse] at h; cases h
    | badOptions h => rw [hparse] at h; cases h
    | failed h h' => rw [hparse] at h; cases h; rw [hprep] at h'; cases h'
    | stuck h h' => rw [hparse] at h; cases h; rw [hprep] at h'; cases h'
    | shown h h' => rw [hparse] at h; cases h; rw [hprep] at h'; cases h'; rfl
    | run h h' => rw [hparse] at h; cases h; rw [hprep] at h'; cases h'
    | runConcludes h h' => rw [hparse] at h; cases h; rw [hprep] at h'; cases h'
    | runFails h h' => rw [hparse] at h; cases h; rw [hprep] at h'; cases h'
    | runThrows h h' => rw [hparse] at h; cases h; rw [hprep] at h'; cases h'
    | runStuck h h' => rw [hparse] at h; cases h; rw [hprep] at h'; cases h'
  · rintro rfl
    exact .shown hparse (hprep [])

/-- If the run of the algorithm has results which satisfy `P`, then so does the program. -/
theorem ends_ready_post {s : OptState} (hparse : hncoClass.parse w.opt false argv = .ok s) {G : HncoReady → Prop}
    (hready : Sim.Post (appPrepare w F s) (fun p => ∃ R, p = .ready R ∧ G R)) {P : AppResult Rat → Prop}
    (hrun : ∀ R, G R → ∀ fuel, Sim.Post (R.alg.run (R.st.env R.fn) fuel) (fun r => ∀ x, r.Last (R.st.env R.fn) x →
      ∃ res, hncoConclude R r x = ok res ∧ P res)) {e : ProgramEnd} (he : AppEnds w F argv e) :
    ∃ res, e = .exit res.exit (.results res) ∧ P res := by
  have hgood : ∀ {ds R rest}, appPrepare w F s ds = .ok (.ready R) rest → G R := by
    intro ds R rest h
    have := hready ds
    rw [h] at this
    obtain ⟨R', h1, h2⟩ := this
    cases h1
    exact h2
  have hdone : ∀ {R : HncoReady} {fuel rest r rest' x}, G R → R.alg.run (R.st.env R.fn) fuel rest = .ok r rest' →
      (∀ e, r.ending = .error e → (R.st.env R.fn).stop r.calls x = some e) → ∃ res, hncoConclude R r x = ok res ∧ P res := by
    intro R fuel rest r rest' x hR hr hlast
    have := hrun R hR fuel rest
    rw [hr] at this
    exact this x hlast
  cases he with
  | options h => rw [hparse] at h; cases h
  | badOptions h => rw [hparse] at h; cases h
  | @failed _ ds _ h h' => rw [hparse] at h; cases h; have := hready ds; rw [h'] at this; exact this.elim
  | @stuck _ ds h h' => rw [hparse] at h; cases h; have := hready ds; rw [h'] at this; exact this.elim
  | @shown _ ds _ _ h h' =>
    rw [hparse] at h; cases h; have := hready ds; rw [h'] at this
    obtain ⟨R, h1, _⟩ := this
    cases h1
  | run h h' hr hlast hconc =>
    rw [hparse] at h; cases h
    obtain ⟨res, h1, h2⟩ := hdone (hgood h') hr hlast
    rw [h1] at hconc
    cases hconc
    exact ⟨_, rfl, h2⟩
  | runConcludes h h' hr hlast hconc =>
    rw [hparse] at h; cases h
    obtain ⟨res, h1, h2⟩ := hdone (hgood h') hr hlast
    rw [h1] at hconc
    cases hconc
  | runFails h h' hr hlast hconc =>
    rw [hparse] at h; cases h
    obtain ⟨res, h1, h2⟩ := hdone (hgood h') hr hlast
    rw [h1] at hconc
    cases hconc
  | @runThrows _ _ R rest fuel _ h h' hr =>
    rw [hparse] at h; cases h
    have := hrun R (hgood h') fuel rest
    rw [hr] at this
    exact this.elim
  | @runStuck _ _ R rest fuel h h' hr =>
    rw [hparse] at h; cases h
    have := hrun R (hgood h') fuel rest
    rw [hr] at this
    exact this.elim

/-- Without map, the solution is printed as it is. -/
theorem hncoConclude_plain {R : HncoReady} (h : R.map = none) (r : RunResult Rat) (x : BV) :
    hncoConclude R r x = appConclude R.app R.st r x := by
  unfold hncoConclude
  rw [h]
  cases appConclude R.app R.st r x with
  | throw e => rfl
  | ub => rfl
  | ok res =>
    have h1 : appConcrete R.app none res.solution = ok res.solution := by
      unfold appConcrete
      split <;> rfl
    change Outcome.bind (appConcrete R.app none res.solution) _ = _
    rw [h1]
    change Outcome.bind (if R.app.printDescription = true then _ else _) _ = _
    split <;> rfl

theorem ends_ready {s : OptState} (hparse : hncoClass.parse w.opt false argv = .ok s) {R : HncoReady} (hmap : R.map = none)
    (hready : ∀ ds, appPrepare w F s ds = .ok (.ready R) ds) {P : AppResult Rat → Prop}
    (hrun : ∀ fuel, Sim.Post (R.alg.run (R.st.env R.fn) fuel) (fun r => ∀ x, r.Last (R.st.env R.fn) x →
      ∃ res, appConclude R.app R.st r x = ok res ∧ P res)) {e : ProgramEnd} (he : AppEnds w F argv e) :
    ∃ res, e = .exit res.exit (.results res) ∧ P res := by
  refine ends_ready_post (G := fun R' => R' = R) hparse (fun ds => by rw [hready ds]; exact ⟨R, rfl, rfl⟩) ?_ he
  rintro _ rfl fuel
  simp only [hncoConclude_plain hmap]
  exact hrun fuel

/-! ## Complete search -/

theorem completeLoop_fuel {env : Env Rat} {fuel fuel' : Nat} (hle : fuel ≤ fuel') (it : HypercubeIterator) (s : AlgState Rat Unit)
    (ds : List Nat) : completeLoop env fuel it s ds = .out ∨ completeLoop env fuel it s ds = completeLoop env fuel' it s ds := by
  induction fuel generalizing fuel' it s ds with
  | zero => exact .inl rfl
  | succ fuel ih =>
    obtain ⟨k, rfl⟩ : ∃ k, fuel' = k + 1 := ⟨fuel' - 1, by omega⟩
    have hk : fuel ≤ k := by omega
    simp only [completeLoop, Alg.bind_apply]
    split
    · split
      · split
        · simp only [Alg.bind_apply]
          split
          · split
            · split
              · split
                · exact ih hk _ _ _
                · exact .inr rfl
              all_goals exact .inr rfl
            · exact .inr rfl
          all_goals exact .inr rfl
        · exact .inr rfl
      · exact .inr rfl
    all_goals exact .inr rfl

theorem completeMaximize_fuel {env : Env Rat} {fuel fuel' : Nat} (hle : fuel ≤ fuel') (s : AlgState Rat Unit)
    (ds : List Nat) : completeMaximize env fuel s ds = .out ∨ completeMaximize env fuel s ds = completeMaximize env fuel' s ds := by
  simp only [completeMaximize, Alg.bind_apply]
  split
  · split
    · split
      · split
        · split
          · simp only [Alg.bind_apply]
            split
            · split
              · split
                · split
                  · exact completeLoop_fuel hle _ _ _
                  · exact .inr rfl
                all_goals exact .inr rfl
              · exact .inr rfl
            all_goals exact .inr rfl
          · exact .inr rfl
        · exact .inr rfl
      all_goals exact .inr rfl
    · exact .inr rfl
  all_goals exact .inr rfl

theorem sim_bind_head {α β : Type} {m m' : Sim α} {ds : List Nat} (h : m ds = m' ds) (k : α → Sim β) :
    (m >>= k) ds = (m' >>= k) ds := by
  change Sim.bind m k ds = Sim.bind m' k ds
  unfold Sim.bind
  rw [h]

/-- The fuel makes no difference to a complete search which ends. -/
theorem complete_fuel {lib : AlgLib} {ao : AlgOptions} {n : Nat} {m : MadeAlgorithm Rat} (h : ao.algorithm = 0)
    (hm : makeAlgorithm lib ao n = .own (ok m)) {env : Env Rat} {fuel fuel' : Nat} (hle : fuel ≤ fuel') (ds : List Nat) :
    m.run env fuel ds = .out ∨ m.run env fuel ds = m.run env fuel' ds := by
  unfold makeAlgorithm at hm
  rw [if_pos h] at hm
  unfold makeCompleteSearch algorithmNew at hm
  split at hm
  · simp [Outcome.made] at hm
  · simp only [Outcome.made, FactoryResult.own.injEq, Outcome.ok.injEq] at hm
    subst hm
    unfold MadeAlgorithm.run
    rcases completeMaximize_fuel (env := env) hle (newState n ()) ds with h | h
    · exact .inl (sim_bind_head (m' := fun _ => .out) h _)
    · exact .inr (sim_bind_head h _)

end Hnco
