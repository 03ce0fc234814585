import Verif.App.MainSettings
import Verif.App.MainMapSpec

/-!
# Lemmas about the program `hnco` with a map
-/

namespace Hnco

open Outcome

variable {w : HncoWorld} {argv : List (List Char)} {items : List (OptDoc × Option (List Char))}

/-! ## The map -/

/-- The options of maps in the state of the options. -/
structure MapState (w : HncoWorld) (s : OptState) (kind inputSize length mode : Int) (path : List Char) : Prop where
  kind : s.int "map" = ok kind
  inputSize : s.int "map_input_size" = ok inputSize
  length : s.int "map_ts_length" = ok length
  mode : s.int "map_ts_sampling_mode" = ok mode
  path : s.str "map_path" = ok path

theorem mapState {s : OptState} (hs : Settings hncoClass w.opt items s) (hf : ∀ i ∈ items, FineItem w.opt i) :
    ∃ kind inputSize length mode path, MapState w s kind inputSize length mode path ∧ Param w.opt items "map" (.int kind) ∧
      Param w.opt items "map-input-size" (.int inputSize) ∧ Param w.opt items "map-ts-length" (.int length) ∧
      Param w.opt items "map-ts-sampling-mode" (.int mode) ∧ Param w.opt items "map-path" (.str path) := by
  obtain ⟨m, hm, hm'⟩ := param_int hs hf (show isParam "map" "map" .int = true from params_ok 1 rfl)
  obtain ⟨i1, hi1, h1⟩ := param_int hs hf (show isParam "map-input-size" "map_input_size" .int = true from mapParams_ok 0 rfl)
  obtain ⟨i2, hi2, h2⟩ := param_int hs hf (show isParam "map-ts-length" "map_ts_length" .int = true from mapParams_ok 1 rfl)
  obtain ⟨i3, hi3, h3⟩ := param_int hs hf
    (show isParam "map-ts-sampling-mode" "map_ts_sampling_mode" .int = true from mapParams_ok 2 rfl)
  obtain ⟨i4, hi4, h4⟩ := param_str hs hf (show isParam "map-path" "map_path" .string = true from mapParams_ok 3 rfl)
  exact ⟨m, i1, i2, i3, i4, ⟨hm, hi1, hi2, hi3, hi4⟩, hm', h1, h2, h3, h4⟩

theorem MapState.eq {s : OptState} {kind inputSize length mode : Int} {path : List Char}
    (h : MapState w s kind inputSize length mode path) (n : Nat) : hncoMap w s n =
      if kind ≤ 0 then pure none
      else if 6 < kind then Sim.lift (Outcome.throw .runtimeError)
      else if s.raised "map_random" then
        Sim.bind (if kind = 6 then
            Sim.bind (Sim.lift (assert (decide (length ≥ 0)))) fun _ =>
            match samplingModeOf mode with
            | some mode => pure mode
            | none => Sim.lift (Outcome.throw .runtimeError)
          else pure SamplingMode.unconstrained) fun mode =>
        Sim.bind (makeMap ⟨kind.toNat, inputSize, s.raised "map_surjective", length.toNat, mode, none⟩ n) fun m =>
        pure (some m)
      else
        match w.mapFile path with
        | none => Sim.lift (Outcome.throw .runtimeError)
        | some tokens =>
          Sim.bind (Sim.lift (loadMap kind.toNat tokens)) fun m =>
          Sim.bind (makeMap ⟨kind.toNat, inputSize, s.raised "map_surjective", length.toNat, .unconstrained, some m⟩ n) fun m =>
          pure (some m) := by
  unfold hncoMap
  rw [h.kind, h.inputSize, h.length, h.mode, h.path]
  simp only [sim_bind_ok]
  rfl

theorem random_raised {s : OptState} (hs : Settings hncoClass w.opt items s) (hdocs : ∀ i ∈ items, i.1 ∈ hncoClass.help) :
    s.raised "map_random" = true ↔ Present items "map-random" :=
  flag_raised hs hdocs (show isFlag "map-random" "map_random" = true from mapFlags_ok 0 rfl)

/-- A random map is made with the options of the command line; those of transvections matter only for them. -/
theorem hncoMap_random {s : OptState} (hs : Settings hncoClass w.opt items s) (hf : ∀ i ∈ items, FineItem w.opt i)
    (hdocs : ∀ i ∈ items, i.1 ∈ hncoClass.help) {mo : MapOptions} (hmo : MapSettings w.opt items mo) (h1 : 1 ≤ mo.kind)
    (h6 : mo.kind ≤ 6) (n : Nat) : ∃ o : MapOptions, o.kind = mo.kind ∧ o.inputSize = mo.inputSize ∧ o.surjective = mo.surjective ∧
      o.loaded = none ∧ (mo.kind = 6 → o = mo) ∧ hncoMap w s n = Sim.bind (makeMap o n) fun m => pure (some m) := by
  obtain ⟨kind, inputSize, length, mode, path, hst, p1, p2, p3, p4, -⟩ := mapState hs hf
  have e1 : kind = mo.kind := param_int_eq p1 hmo.kind
  have e2 : inputSize = mo.inputSize := param_int_eq p2 hmo.inputSize
  subst e1 e2
  have hsur : s.raised "map_surjective" = mo.surjective := bool_eq_of_iff
    (flag_raised hs hdocs (show isFlag "map-surjective" "map_surjective" = true from mapFlags_ok 1 rfl)) hmo.surjective
  rw [hst.eq, if_neg (by omega), if_neg (by omega), if_pos ((random_raised hs hdocs).mpr hmo.random.2), hsur]
  by_cases hk : mo.kind = 6
  · have e3 : length = mo.tsLength := param_int_eq p3 (hmo.tsLength hk)
    have e4 := param_int_eq p4 (hmo.tsMode hk)
    subst e3
    have hmode : samplingModeOf mode = some mo.tsMode := by
      rw [e4]
      cases mo.tsMode <;> rfl
    refine ⟨mo, rfl, rfl, rfl, hmo.random.1, fun _ => rfl, ?_⟩
    rw [if_pos (by omega), assert_pos (by simp), sim_bind_ok, hmode]
    dsimp only
    have : (⟨(mo.kind : Int).toNat, mo.inputSize, mo.surjective, (mo.tsLength : Int).toNat, mo.tsMode, none⟩ : MapOptions) = mo := by
      obtain ⟨a, b, c, d, e, f⟩ := mo
      have := hmo.random.1
      simp_all
    exact congrArg (fun o => Sim.bind (makeMap o n) fun m => pure (some m)) this
  · rw [if_neg (by omega)]
    exact ⟨⟨mo.kind, mo.inputSize, mo.surjective, length.toNat, .unconstrained, none⟩, rfl, rfl, rfl, rfl, fun h => absurd h hk, rfl⟩

theorem hncoMap_made {s : OptState} (hs : Settings hncoClass w.opt items s) (hf : ∀ i ∈ items, FineItem w.opt i)
    (hdocs : ∀ i ∈ items, i.1 ∈ hncoClass.help) {mo : MapOptions} (hmo : MapSettings w.opt items mo) {n : Nat} (hn : 0 < n)
    (hfeas : mo.Feasible n) : Sim.Post (hncoMap w s n) (fun r => ∃ m, r = some m ∧ MapMade mo n m) := by
  obtain ⟨o, e1, e2, e3, e4, -, e5⟩ := hncoMap_random hs hf hdocs hmo hfeas.1 hfeas.2.1 n
  rw [e5]
  have hfeas' : o.Feasible n := by
    obtain ⟨h1, h2, h3, h4, h5⟩ := hfeas
    exact ⟨by omega, by omega, e4, by rw [e1, e2, e3]; exact h4, by rw [e1]; exact h5⟩
  refine (makeMap_made o n hn hfeas').bind fun m hm => Sim.Post.pure ⟨m, rfl, ?_⟩
  obtain ⟨q1, q2, q3⟩ := hm
  rw [e1, e2] at q2
  rw [e1, e3] at q3
  exact ⟨q1, q2, q3⟩

theorem hncoMap_loaded {s : OptState} (hs : Settings hncoClass w.opt items s) (hf : ∀ i ∈ items, FineItem w.opt i)
    (hdocs : ∀ i ∈ items, i.1 ∈ hncoClass.help) {kind : Nat} (hk : Param w.opt items "map" (.int kind)) (h1 : 1 ≤ kind) (h6 : kind ≤ 6)
    (hload : ¬ Present items "map-random") {path : List Char} (hpath : Param w.opt items "map-path" (.str path)) {n : Nat}
    (hn : 0 < n) : hncoMap w s n =
      match w.mapFile path with
      | none => Sim.lift (Outcome.throw .runtimeError)
      | some tokens => Sim.bind (Sim.lift (loadMap kind tokens)) fun m => pure (some m) := by
  obtain ⟨kind', inputSize, length, mode, path', hst, p1, -, -, -, p5⟩ := mapState hs hf
  have e1 : kind' = kind := param_int_eq p1 hk
  have e5 : path' = path := by simpa using p5.unique hpath
  subst e1 e5
  rw [hst.eq, if_neg (by omega), if_neg (by omega), if_neg (fun h => hload ((random_raised hs hdocs).mp h))]
  cases w.mapFile path' with
  | none => rfl
  | some tokens =>
    dsimp only [Int.toNat_natCast]
    congr 1
    funext m
    have : makeMap ⟨kind, inputSize, s.raised "map_surjective", length.toNat, .unconstrained, some m⟩ n = pure m := by
      unfold makeMap
      dsimp only
      rw [assert_pos (decide_eq_true (show kind > 0 from h1)), assert_pos (decide_eq_true (show n > 0 from hn)), if_pos h6]
      rfl
    rw [this]
    rfl

theorem hncoMap_unknown {s : OptState} (hs : Settings hncoClass w.opt items s) (hf : ∀ i ∈ items, FineItem w.opt i)
    {kind : Int} (hk : Param w.opt items "map" (.int kind)) (h6 : 6 < kind) (n : Nat) :
    hncoMap w s n = Sim.lift (Outcome.throw .runtimeError) := by
  obtain ⟨kind', inputSize, length, mode, path', hst, p1, -, -, -, -⟩ := mapState hs hf
  have e1 : kind' = kind := param_int_eq p1 hk
  subst e1
  rw [hst.eq, if_neg (by omega), if_pos h6]

/-! ## The composition -/

theorem hncoCompose_ok {f : Fn Rat} {m : MapObj} {k n : Nat} {g : BV → BV} {b : Bool} (hin : m.inputSize = k) (hout : m.outputSize = n)
    (hn : f.size = n) (hc : MapSpec.Computes m.map k n g) (hb : m.isSurjective = ok b) :
    ∃ c, hncoCompose f (some m) = ok c ∧ c.size = k ∧ (∀ x : BV, x.length = k → c.eval x = f.eval (g x)) ∧
      c.hasMax = (f.hasMax && b) ∧ (c.hasMax = true → c.maximum = f.maximum) := by
  have hnew := (functionMapNew_iff f m).1 (by omega)
  obtain ⟨e1, e2⟩ := functionMapMaximum_cases f m b hb
  refine ⟨composedFn f m (List.replicate f.size false), by unfold hncoCompose; dsimp only; rw [hnew]; rfl, hin, fun x hx => ?_, ?_, fun h => ?_⟩
  · obtain ⟨h1, h2⟩ := hc x (List.replicate f.size false) hx (by simp [hn])
    simp only [composedFn, functionMapEvaluate, h1, ok_bind]
    cases f.eval (g x) <;> rfl
  · simp only [composedFn, e1]
  · simp only [composedFn, e1] at h
    simp only [composedFn, e2, h, if_true]

/-! ## Before the algorithm -/

theorem hncoPrepare_mapped {s : OptState} (hs : Settings hncoClass w.opt items s) (hf : ∀ i ∈ items, FineItem w.opt i)
    (hdocs : ∀ i ∈ items, i.1 ∈ hncoClass.help) (hp : MappedRun w.opt items) {f : Fn Rat} (h : AsksFor w items f) (hn : 0 < f.size)
    {app : AppOptions Rat} (happ : appOptionsOf s = ok app) :
    appPrepare w (commandLineFactories w) s = Sim.bind (hncoMap w s f.size) fun map =>
      Sim.bind (Sim.lift (hncoCompose f map)) fun c =>
      Sim.lift (appGoOn w (commandLineFactories w) s app (if s.raised "minimize" then opposite c else c) map) := by
  have r0 := not_raised hs hdocs (show isFlag "print-default-parameters" "print_default_parameters" = true from flags_ok 0 rfl)
    hp.defaults
  have r9 := not_raised hs hdocs (show isFlag "prior-noise" "prior_noise" = true from flags_ok 9 rfl)
    (hp.modifiers _ (by simp))
  have r10 := not_raised hs hdocs (show isFlag "parsed-modifier" "parsed_modifier" = true from flags_ok 10 rfl)
    (hp.modifiers _ (by simp))
  have r11 := not_raised hs hdocs (show isFlag "additive-gaussian-noise" "additive_gaussian_noise" = true from flags_ok 11 rfl)
    (hp.modifiers _ (by simp))
  obtain ⟨t, ht, ht'⟩ := param_int hs hf (show isParam "num-threads" "num_threads" .int = true from params_ok 0 rfl)
  have := param_int_eq ht' hp.threads
  subst this
  have hmod : hncoModified s = false := by
    unfold hncoModified
    rw [r9, r10, r11]
    rfl
  have hsz : assert (decide (f.size > 0)) = ok () := assert_pos (by simpa using hn)
  unfold appPrepare
  rw [if_neg (by rw [r0]; simp), ht, sim_bind_ok, if_neg (by omega), if_neg (by omega), hmod,
    show (commandLineFactories w).makeFunction s = _ from hncoFunction_asked hs hf h, sim_bind_ok]
  dsimp only
  rw [hsz, sim_bind_ok]
  simp only [Bool.false_eq_true, if_false]
  congr 1
  funext map
  congr 1
  funext c
  funext ds
  exact appSteps_goOn hs hdocs hp.runs happ _ _ _

theorem Sim.Post.bindUp {α : Type} {β : Type 1} {m : Sim α} {k : α → Sim β} {P : α → Prop} {P' : β → Prop} (h : Sim.Post m P)
    (hk : ∀ a, P a → Sim.Post (k a) P') : Sim.Post (Sim.bind m k) P' := by
  intro ds
  have h1 := h ds
  unfold Sim.bind
  cases hm : m ds with
  | ok a rest =>
    rw [hm] at h1
    exact hk a h1 rest
  | throw e => rw [hm] at h1; exact h1.elim
  | ub => rw [hm] at h1; exact h1.elim
  | out => trivial

/-- What is known of the map which is made or loaded. -/
def MapKnown (f : Fn Rat) (k : Nat) (stops : Bool) (Q : (BV → BV) → Prop) (m : MapObj) : Prop :=
  ∃ g b, m.inputSize = k ∧ m.outputSize = f.size ∧ MapSpec.Computes m.map k f.size g ∧ m.isSurjective = ok b ∧
    (stops = true → b = true) ∧ Q g

/-- What is known when the algorithm is run. -/
structure MappedReady (w : HncoWorld) (n k : Nat) (app : AppOptions Rat) (ao : AlgOptions) (goal : Option Rat) (value : BV → Rat)
    (g : BV → BV) (m : MapObj) (R : HncoReady) : Prop where
  map : R.map = some m
  app : R.app = app
  controller : makeController R.app R.fn w.event = ok R.st
  alg : makeAlgorithm w.alg ao R.fn.size = .own (ok R.alg)
  size : R.fn.size = k
  eval : ∀ x : BV, x.length = R.fn.size → R.fn.eval x = ok (value (g x))
  goal : appGoal R.app R.fn = goal
  input : m.inputSize = k
  output : m.outputSize = n
  computes : MapSpec.Computes m.map k n g

theorem hncoPrepare_mappedReady {s : OptState} (hs : Settings hncoClass w.opt items s) (hf : ∀ i ∈ items, FineItem w.opt i)
    (hdocs : ∀ i ∈ items, i.1 ∈ hncoClass.help) (hp : MappedRun w.opt items) {f : Fn Rat} (hask : AsksFor w items f) (hn : 0 < f.size)
    {value : BV → Rat} (hval : ∀ x : BV, x.length = f.size → (¬ Present items "minimize" ∧ f.eval x = ok (value x)) ∨
      (Present items "minimize" ∧ f.eval x = ok (-value x)))
    {app : AppOptions Rat} (happ : appOptionsOf s = ok app) {goal : Option Rat}
    (hgoal : (app.stopOnMaximum = false ∧ goal = app.target) ∨
      (app.stopOnMaximum = true ∧ ¬ Present items "minimize" ∧ f.hasMax = true ∧ ∃ M, f.maximum = ok M ∧ goal = some M))
    {ao : AlgOptions} (hao : algOptionsOf s = ok ao) (hao' : AlgorithmSettings w.opt items ao) {k : Nat}
    (hmade : ∃ m : MadeAlgorithm Rat, makeAlgorithm w.alg ao k = .own (ok m)) {Q : (BV → BV) → Prop}
    (hmap : Sim.Post (hncoMap w s f.size) (fun r => ∃ m, r = some m ∧ MapKnown f k app.stopOnMaximum Q m)) :
    Sim.Post (appPrepare w (commandLineFactories w) s) (fun p => ∃ R, p = .ready R ∧ ∃ g m, Q g ∧ MappedReady w f.size k app ao goal value g m R) := by
  rw [hncoPrepare_mapped hs hf hdocs hp hask hn happ]
  refine Sim.Post.bindUp hmap ?_
  rintro _ ⟨m, rfl, g, b, h1, h2, h3, h4, h5, h6⟩
  obtain ⟨c, c1, c2, c3, c4, c5⟩ := hncoCompose_ok h1 h2 rfl h3 h4
  rw [c1, sim_bind_ok]
  have hlen : ∀ x : BV, x.length = k → (g x).length = f.size := fun x hx => (h3 x (List.replicate f.size false) hx (by simp)).2
  obtain ⟨fn, hfn, hsize, heval, hmax, hgoal'⟩ := hnco_fn (f := c) (value := fun x => value (g x)) (app := app) (goal := goal)
    (flag_raised hs hdocs (show isFlag "minimize" "minimize" = true from flags_ok 12 rfl))
    (fun x hx => by
      rw [c2] at hx
      rw [c3 x hx]
      exact hval _ (hlen x hx))
    (by
      rcases hgoal with h | ⟨q1, q2, q3, M, q4, q5⟩
      · exact .inl h
      · have hM : c.hasMax = true := by rw [c4, q3, h5 q1]; rfl
        exact .inr ⟨q1, q2, hM, M, by rw [c5 hM]; exact q4, q5⟩)
  rw [hfn]
  obtain ⟨st, hst⟩ := makeController_ok (v := w.event) hmax
  obtain ⟨alg, halg⟩ := hmade
  rw [← c2, ← hsize] at halg
  rw [appGoOn_ready hs hdocs hp.restart (some m) hst (hncoMakeAlgorithm_own hp.incremental hao hao' halg)]
  intro ds
  exact ⟨_, rfl, g, m, h6, rfl, rfl, hst, halg, by rw [hsize, c2], heval, hgoal', h1, h2, h3⟩

/-! ## After the algorithm -/

theorem hncoConclude_mapped {n k : Nat} {app : AppOptions Rat} {ao : AlgOptions} {goal : Option Rat} {value : BV → Rat}
    {g : BV → BV} {m : MapObj} {R : HncoReady} (hR : MappedReady w n k app ao goal value g m R) {r : RunResult Rat} {x : BV}
    {res : AppResult Rat} (hres : appConclude R.app R.st r x = ok res)
    (hlen : app.concreteSolution = true ∨ app.printDescription = true → res.solution.length = k)
    (hsame : app.concreteSolution = true → app.printDescription = true → k = n) :
    hncoConclude R r x = ok { res with solution := if app.concreteSolution then g res.solution else res.solution } := by
  unfold hncoConclude
  rw [hres, hR.app, hR.map]
  change Outcome.bind (appConcrete app (some m) res.solution) _ = _
  have h1 : appConcrete app (some m) res.solution = ok (if app.concreteSolution then g res.solution else res.solution) := by
    unfold appConcrete
    split
    · rename_i hc
      dsimp only
      exact (hR.computes _ _ (hlen (.inl hc)) (by simp [hR.output])).1
    · rfl
  rw [h1]
  change Outcome.bind (if app.printDescription = true then _ else _) _ = _
  by_cases hd : app.printDescription = true
  · rw [if_pos hd]
    have hy : (if app.concreteSolution = true then g res.solution else res.solution).length = k := by
      split
      · rename_i hc
        rw [(hR.computes _ (List.replicate n false) (hlen (.inl hc)) (by simp)).2, hsame hc hd]
      · exact hlen (.inr hd)
    have h2 : ∃ z, fnDescribed (some m) (((some m).elim [] fun m => List.replicate m.outputSize false))
        (if app.concreteSolution = true then g res.solution else res.solution) = ok z := by
      unfold fnDescribed
      dsimp only
      rw [assert_pos (by rw [hy, hR.input]; simp), ok_bind]
      exact ⟨_, (hR.computes _ _ hy (by simp [hR.output])).1⟩
    obtain ⟨z, hz⟩ := h2
    rw [hz]
    rfl
  · rw [if_neg hd]
    rfl

end Hnco
