import Verif.App.MainSettings

/-!
# Properties of the program `hnco` (C94)
-/

namespace Hnco

open Outcome

variable {w : HncoWorld} {argv : List (List Char)} {items : List (OptDoc × Option (List Char))}

/-! ## The options of the parts of the program -/

/-- C94: for a command line written as in the help pages, each option of the controllers, of the function and of the algorithm is
the option of the same name: its last value in the command line, or else its default value. -/
theorem hnco_options (lib : OptLib) (hl : CommandLine hncoClass.help argv items) (hf : ∀ i ∈ items, FineItem lib i) :
    ∃ s, hncoClass.parse lib false argv = .ok s ∧ (∃ o, appOptionsOf s = ok o ∧ AppSettings lib items o) ∧
      (∃ o, factoryOptionsOf s = ok o ∧ FunctionSettings lib items o) ∧
      (∃ o, algOptionsOf s = ok o ∧ AlgorithmSettings lib items o) := by
  obtain ⟨s, h1, h2⟩ := options_read (c := hncoClass) (by simp [optionClasses]) lib false hl hf
  exact ⟨s, h1, appOptionsOf_settings h2 hf hl.docs, factoryOptionsOf_settings h2 hf, algOptionsOf_settings h2 hf hl.docs⟩

/-! ## Ends of the program -/

/-- C94: a program which ends with results has exit status 0, 2 or 3.  Status 2 is for a maximum which has not been reached, only
with `--stop-on-maximum`, and status 3 is for a target which has not been reached, only with `--target` and without
`--stop-on-maximum`.  Without results, the status is 0 or 1. -/
theorem hnco_statuses {status : Nat} {printed : Printed} (h : HncoEnds w argv (.exit status printed)) :
    ((∀ res, printed ≠ .results res) ∧ (status = 0 ∨ status = 1)) ∨
    ∃ res items, printed = .results res ∧ CommandLine hncoClass.help argv items ∧ (∀ i ∈ items, FineItem w.opt i) ∧
      ((status = 0 ∧ res.success ≠ some false) ∨
        (status = 2 ∧ res.success = some false ∧ Present items "stop-on-maximum") ∨
        (status = 3 ∧ res.success = some false ∧ ¬ Present items "stop-on-maximum" ∧ Present items "target")) := by
  have hc : hncoClass ∈ optionClasses := by simp [optionClasses]
  cases h with
  | options hparse =>
    obtain ⟨_, _, _, _, _, _, hp⟩ := options_refused hc w.opt hparse
    cases hp <;> simp
  | failed => simp
  | shown => simp
  | runFails => simp
  | runThrows => simp
  | @run s ds R rest fuel r rest' x res hparse hprep hrun hlast hconc =>
    right
    obtain ⟨items, hl, hf⟩ := (options_accepted_iff hc w.opt argv).mp ⟨s, hparse⟩
    obtain ⟨s', hs', hset⟩ := options_read hc w.opt false hl hf
    rw [hparse] at hs'
    cases hs'
    obtain ⟨app, happ, hsettings⟩ := appOptionsOf_settings hset hf hl.docs
    have hR : R.app = app := appPrepare_app happ hprep
    refine ⟨res, items, rfl, hl, hf, ?_⟩
    obtain ⟨tr, sol, reached, rfl⟩ : ∃ tr sol reached, res = appFinish R.app tr sol reached := hncoConclude_finish hconc
    rw [hR]
    have htarget : app.target.isSome = true → Present items "target" := by
      intro ht
      by_contra hno
      rcases hsettings.target with ⟨_, h2⟩ | ⟨r, h1, h2⟩
      · rw [h2] at ht; cases ht
      · exact optional_absent hl.docs (show isOptional "target" "target" = true from optionals_ok 0 rfl) hno r h2
    simp only [appFinish]
    cases h1 : app.stopOnMaximum <;> cases h2 : app.target.isSome <;> cases reached <;> simp [← hsettings.stopOnMaximum, h1]
    exact htarget h2

/-- C94: a plain run from the command line to the exit status.  The command line is written as in the help pages, the function it
asks for gives a value to each vector (the opposite one with `--minimize`), the options of the algorithm it asks for are in order,
and if it asks to stop on the maximum, then the maximum is known.  Then the behaviour of the program is defined, and it always ends
with results, which are right: the number of evaluations, the best value, the solution, the budget and the exit status. -/
theorem hnco_program (hl : CommandLine hncoClass.help argv items) (hf : ∀ i ∈ items, FineItem w.opt i) (hp : PlainRun w.opt items)
    {f : Fn Rat} (hask : AsksFor w items f) (hn : 0 < f.size) {value : BV → Rat}
    (hval : ∀ x : BV, x.length = f.size → (¬ Present items "minimize" ∧ f.eval x = ok (value x)) ∨
      (Present items "minimize" ∧ f.eval x = ok (-value x)))
    {app : AppOptions Rat} (happ : AppSettings w.opt items app) {goal : Option Rat}
    (hgoal : (app.stopOnMaximum = false ∧ goal = app.target) ∨
      (app.stopOnMaximum = true ∧ ¬ Present items "minimize" ∧ f.hasMax = true ∧ ∃ M, f.maximum = ok M ∧ goal = some M))
    {ao : AlgOptions} (hao : AlgorithmSettings w.opt items ao) {plan : Plan} (hacc : Accepted w.alg ao f.size plan)
    (h30 : ao.algorithm ≠ 30) {e : ProgramEnd} (he : HncoEnds w argv e) :
    ∃ res h xs, e = .exit res.exit (.results res) ∧ HncoEnd app f.size goal value ao.numIterations plan h xs res := by
  obtain ⟨s, hparse, hset⟩ := options_read (c := hncoClass) (by simp [optionClasses]) w.opt false hl hf
  obtain ⟨app', happ1, happ2⟩ := appOptionsOf_settings hset hf hl.docs
  have := happ2.unique hl.docs happ
  subst this
  obtain ⟨ao', hao1, hao2⟩ := algOptionsOf_settings hset hf hl.docs
  have := hao2.unique hl.docs hao
  subst this
  have hprep := appPrepare_plain (F := commandLineFactories w) hset hf hl.docs hp (hncoFunction_asked hset hf hask) hn happ1
  obtain ⟨fn, hfn, hsize, heval, hmax, hgoal'⟩ := hnco_fn (s := s) (flag_raised hset hl.docs
    (show isFlag "minimize" "minimize" = true from flags_ok 12 rfl)) hval hgoal
  rw [hfn] at hprep
  obtain ⟨st, hst⟩ := makeController_ok (v := w.event) hmax
  rw [← hsize] at hacc
  obtain ⟨m, hm, hrun⟩ := hnco_run hacc h30 heval hst
  rw [hgoal', hsize] at hrun
  have hready := appPrepare_ready hset hf hl.docs hp (hncoFunction_asked hset hf hask) hn hfn happ1 hst
    (hncoMakeAlgorithm_own hp.incremental hao1 hao2 hm)
  obtain ⟨res, h1, h, xs, h2⟩ := ends_ready (P := fun res => ∃ h xs, HncoEnd app' f.size goal value ao'.numIterations plan h xs res)
    hparse rfl hready (fun fuel => (hrun fuel).mono (fun r hr x hx => by
      obtain ⟨res, h, xs, h1, h2⟩ := hr.2 x hx
      exact ⟨res, h1, h, xs, h2⟩)) he
  exact ⟨res, h, xs, h1, h2⟩

/-- C94: a plain run of complete search, without budget.  The program always ends, with right results; if the goal is reached by a
vector then it is reported as reached, otherwise the solution is a maximum, the value of which is reported. -/
theorem hnco_complete (hl : CommandLine hncoClass.help argv items) (hf : ∀ i ∈ items, FineItem w.opt i) (hp : PlainRun w.opt items)
    {f : Fn Rat} (hask : AsksFor w items f) (hn : 0 < f.size) {value : BV → Rat}
    (hval : ∀ x : BV, x.length = f.size → (¬ Present items "minimize" ∧ f.eval x = ok (value x)) ∨
      (Present items "minimize" ∧ f.eval x = ok (-value x)))
    {app : AppOptions Rat} (happ : AppSettings w.opt items app) {goal : Option Rat}
    (hgoal : (app.stopOnMaximum = false ∧ goal = app.target) ∨
      (app.stopOnMaximum = true ∧ ¬ Present items "minimize" ∧ f.hasMax = true ∧ ∃ M, f.maximum = ok M ∧ goal = some M))
    (halg : Param w.opt items "algorithm" (.int 0)) (hbudget : app.budget ≤ 0) :
    (∃ e, HncoEnds w argv e) ∧ ∀ e, HncoEnds w argv e → ∃ res xs, e = .exit res.exit (.results res) ∧
      AppReported app goal value xs res ∧ xs.Nodup ∧ (∀ y ∈ xs, y.length = f.size) ∧
      (∀ t, goal = some t → (∃ y : BV, y.length = f.size ∧ t ≤ value y) → res.success = some true ∧ res.exit = 0) ∧
      ((∀ t, goal = some t → ∀ y : BV, y.length = f.size → value y < t) → (∀ y : BV, y.length = f.size → y ∈ xs) ∧
        res.solution.length = f.size ∧ res.value = value res.solution ∧
        ∀ y : BV, y.length = f.size → value y ≤ value res.solution) := by
  obtain ⟨s, hparse, hset⟩ := options_read (c := hncoClass) (by simp [optionClasses]) w.opt false hl hf
  obtain ⟨app', happ1, happ2⟩ := appOptionsOf_settings hset hf hl.docs
  have := happ2.unique hl.docs happ
  subst this
  obtain ⟨ao, hao1, hao2⟩ := algOptionsOf_settings hset hf hl.docs
  have halg' : ao.algorithm = 0 := param_int_eq hao2.algorithm halg
  obtain ⟨fn, hfn, hsize, heval, hmax, hgoal'⟩ := hnco_fn (s := s) (flag_raised hset hl.docs
    (show isFlag "minimize" "minimize" = true from flags_ok 12 rfl)) hval hgoal
  obtain ⟨st, hst⟩ := makeController_ok (v := w.event) hmax
  obtain ⟨m, hm, hrun⟩ := hnco_complete_search (lib := w.alg) halg' (by omega) heval hst hbudget
  have hready := appPrepare_ready hset hf hl.docs hp (hncoFunction_asked hset hf hask) hn hfn happ1 hst
    (hncoMakeAlgorithm_own hp.incremental hao1 hao2 hm)
  rw [hgoal', hsize] at hrun
  constructor
  · obtain ⟨r, rest, hr, _, ⟨x, hx⟩, hall⟩ := hrun (2 ^ f.size) le_rfl [] (by simp)
    obtain ⟨res, xs, h1, _⟩ := hall x hx
    exact ⟨_, .run hparse (hready []) hr hx (by rw [hncoConclude_plain rfl]; exact h1)⟩
  · intro e he
    obtain ⟨res, h1, xs, h2⟩ := ends_ready (P := fun res => ∃ xs, _) hparse rfl hready (fun fuel ds => by
      obtain ⟨r, rest, hr, _, _, hall⟩ := hrun (max fuel (2 ^ f.size)) (by omega) ds (by simp)
      rcases complete_fuel halg' hm (env := st.env fn) (le_max_left fuel (2 ^ f.size)) ds with h | h
      · dsimp only
        rw [h]
        trivial
      · dsimp only
        rw [h, hr]
        intro x hx
        obtain ⟨res, xs, h1, h2⟩ := hall x hx
        exact ⟨res, h1, xs, h2⟩) he
    exact ⟨res, xs, h1, h2⟩

/-- C94: with `--load-solution` and `--print-results`, the program prints the value of the solution in the file at
`--solution-path`, which may be the solution saved by a previous run, and its exit status is 0; but if the value reaches the goal
(with `--stop-on-maximum` or `--target`), then it prints an error message only, and its exit status is 1. -/
theorem hnco_load (hl : CommandLine hncoClass.help argv items) (hf : ∀ i ∈ items, FineItem w.opt i) (hp : PlainFunction w.opt items)
    {f : Fn Rat} (hask : AsksFor w items f) (hn : 0 < f.size) {value : BV → Rat}
    (hval : ∀ x : BV, x.length = f.size → (¬ Present items "minimize" ∧ f.eval x = ok (value x)) ∨
      (Present items "minimize" ∧ f.eval x = ok (-value x)))
    {app : AppOptions Rat} (happ : AppSettings w.opt items app) {goal : Option Rat}
    (hgoal : (app.stopOnMaximum = false ∧ goal = app.target) ∨
      (app.stopOnMaximum = true ∧ ¬ Present items "minimize" ∧ f.hasMax = true ∧ ∃ M, f.maximum = ok M ∧ goal = some M))
    (hload : Present items "load-solution") (hprint : Present items "print-results") {path : List Char}
    (hpath : Param w.opt items "solution-path" (.str path)) {x : BV} (hx : x.length = f.size) {rest : List Char}
    (hfile : w.solution path = some (bvDisplay x ++ '\n' :: rest)) (e : ProgramEnd) :
    HncoEnds w argv e ↔
      ((∃ t, goal = some t ∧ t ≤ value x) ∧ e = .exit 1 .message) ∨
      ((∀ t, goal = some t → value x < t) ∧ e = .exit 0 (.shown (.loaded (some (value x))))) := by
  obtain ⟨s, hparse, hset⟩ := options_read (c := hncoClass) (by simp [optionClasses]) w.opt false hl hf
  obtain ⟨app', happ1, happ2⟩ := appOptionsOf_settings hset hf hl.docs
  have := happ2.unique hl.docs happ
  subst this
  obtain ⟨fn, hfn, hsize, heval, hmax, hgoal'⟩ := hnco_fn (s := s) (flag_raised hset hl.docs
    (show isFlag "minimize" "minimize" = true from flags_ok 12 rfl)) hval hgoal
  have hprep := appPrepare_steps (F := commandLineFactories w) hset hf hl.docs hp (hncoFunction_asked hset hf hask) hn
  rw [hfn] at hprep
  obtain ⟨st, hst⟩ := makeController_ok (v := w.event) hmax
  obtain ⟨path', hpath1, hpath2⟩ := param_str hset hf (show isParam "solution-path" "solution_path" .string = true from params_ok 3 rfl)
  have : path' = path := by simpa using hpath2.unique hpath
  subst this
  have hc : appLoad st fn.size (bvDisplay x ++ '\n' :: rest) =
      match appGoal app' fn with
      | none => ok (value x)
      | some t => if t ≤ value x then .throw .targetReached else ok (value x) :=
    appLoad_value heval hst (by rw [hsize]; exact hx) rest
  have hstep : appPrepare w (commandLineFactories w) s = Sim.bind (Sim.lift (appLoad st fn.size (bvDisplay x ++ '\n' :: rest))) (fun v =>
      pure (.shown (.loaded (some v)))) := by
    rw [hprep]
    unfold appSteps
    rw [happ1, sim_bind_ok, hst, sim_bind_ok,
      if_pos ((flag_raised hset hl.docs (show isFlag "load-solution" "load_solution" = true from flags_ok 1 rfl)).mpr hload)]
    unfold hncoLoad
    rw [hpath1, ok_bind, hfile]
    dsimp only
    rw [if_pos ((flag_raised hset hl.docs (show isFlag "print-results" "print_results" = true from flags_ok 14 rfl)).mpr hprint)]
    cases appLoad st fn.size (bvDisplay x ++ '\n' :: rest) <;> rfl
  rw [hc, hgoal'] at hstep
  change AppEnds w (commandLineFactories w) argv e ↔ _
  cases hg : goal with
  | none =>
    rw [hg] at hstep
    rw [ends_shown hparse (x := .loaded (some (value x))) (fun ds => by rw [hstep]; rfl)]
    simp
  | some t =>
    rw [hg] at hstep
    by_cases ht : t ≤ value x
    · simp only [ht, if_true] at hstep
      rw [ends_throw hparse (x := .targetReached) (fun ds => by rw [hstep]; rfl)]
      simp [ht]
    · simp only [ht, if_false] at hstep
      rw [ends_shown hparse (x := .loaded (some (value x))) (fun ds => by rw [hstep]; rfl)]
      simp [ht, not_le.mp ht]

/-- C94 (negative part): with `--minimize`, the maximum is never known, and `--stop-on-maximum` is an error. -/
theorem hnco_minimize_maximum (hl : CommandLine hncoClass.help argv items) (hf : ∀ i ∈ items, FineItem w.opt i)
    (hp : PlainFunction w.opt items) {f : Fn Rat} (hask : AsksFor w items f) (hn : 0 < f.size) (h1 : Present items "minimize")
    (h2 : Present items "stop-on-maximum") (e : ProgramEnd) : HncoEnds w argv e ↔ e = .exit 1 .message := by
  obtain ⟨s, hparse, hset⟩ := options_read (c := hncoClass) (by simp [optionClasses]) w.opt false hl hf
  obtain ⟨app, happ1, happ2⟩ := appOptionsOf_settings hset hf hl.docs
  refine ends_throw hparse (x := .runtimeError) (fun ds => ?_) e
  rw [appPrepare_steps (F := commandLineFactories w) hset hf hl.docs hp (hncoFunction_asked hset hf hask) hn,
    if_pos ((flag_raised hset hl.docs (show isFlag "minimize" "minimize" = true from flags_ok 12 rfl)).mpr h1)]
  unfold appSteps
  rw [happ1, sim_bind_ok]
  have : makeController app (opposite f) w.event = .throw .runtimeError := by
    unfold makeController
    rw [if_pos (happ2.stopOnMaximum.mpr h2)]
    rfl
  rw [this]
  rfl

/-- C94: if the function is read from a file which cannot be opened, then the exit status is 1, and there is no result. -/
theorem hnco_missing_file (hl : CommandLine hncoClass.help argv items) (hf : ∀ i ∈ items, FineItem w.opt i)
    (hp : PlainFunction w.opt items) {fo : FactoryOptions} (hfo : FunctionSettings w.opt items fo)
    (hid : fo.function ∈ loadedIds) {path : List Char} (hpath : Param w.opt items "path" (.str path)) (hfile : w.file path = none)
    (e : ProgramEnd) : HncoEnds w argv e ↔ e = .exit 1 .message := by
  obtain ⟨s, hparse, hset⟩ := options_read (c := hncoClass) (by simp [optionClasses]) w.opt false hl hf
  refine ends_throw hparse (x := .runtimeError) (fun ds => ?_) e
  rw [appPrepare_function hset hf hl.docs hp]
  obtain ⟨fo', h4, h5⟩ := factoryOptionsOf_settings hset hf
  have : fo' = fo := h5.unique hfo
  subst this
  obtain ⟨path', h6, h7⟩ := param_str hset hf (show isParam "path" "path" .string = true from params_ok 2 rfl)
  have : path' = path := by simpa using h7.unique hpath
  subst this
  have hr : readsFile fo'.function = true := by
    simp only [loadedIds, List.mem_cons, List.not_mem_nil, or_false] at hid
    rcases hid with h | h | h | h | h | h | h | h | h | h | h | h | h <;> rw [h] <;> rfl
  have : hncoFunction w s = .throw .runtimeError := by
    unfold hncoFunction
    rw [h4, ok_bind, h6, ok_bind, if_pos hr, hfile]
    dsimp only
    split <;> rfl
  rw [show (commandLineFactories w).makeFunction s = _ from this]
  rfl

/-- C94 (negative part): the behaviour of the program is undefined for function 5 (a linear function whose weights are the powers of
two) from 31 bits on, since the weights are computed in a variable of type `int`, which overflows. -/
theorem hnco_doubling_undefined (hl : CommandLine hncoClass.help argv items) (hf : ∀ i ∈ items, FineItem w.opt i)
    (hp : PlainFunction w.opt items) (hfun : Param w.opt items "function" (.int 5)) {n : Int}
    (hsize : Param w.opt items "bv-size" (.int n)) (hn : 31 ≤ n) (e : ProgramEnd) : HncoEnds w argv e ↔ e = .undefined := by
  obtain ⟨s, hparse, hset⟩ := options_read (c := hncoClass) (by simp [optionClasses]) w.opt false hl hf
  refine ends_ub hparse (fun ds => ?_) e
  rw [appPrepare_function hset hf hl.docs hp]
  obtain ⟨fo, h4, h5⟩ := factoryOptionsOf_settings hset hf
  obtain ⟨path', h6, h7⟩ := param_str hset hf (show isParam "path" "path" .string = true from params_ok 2 rfl)
  have hid : fo.function = 5 := by
    obtain ⟨k, h1, _, h2⟩ := h5.function
    have : k = 5 := param_int_eq h1 hfun
    subst this
    have := h2 (by decide)
    omega
  have hbv : fo.bvSize = n := param_int_eq h5.bvSize hsize
  have : hncoFunction w s = ub := by
    unfold hncoFunction
    rw [h4, ok_bind, h6, ok_bind, if_neg (by omega), if_neg (by rw [hid]; decide)]
    exact factory_doubling_overflows _ _ _ hid (by omega)
  rw [show (commandLineFactories w).makeFunction s = _ from this]
  rfl

end Hnco
