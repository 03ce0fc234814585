import Verif.App.MainMapLemmas
import Verif.App.MainCommandProps
import Verif.App.GenMainProps

/-!
# Properties of the program `hnco` with a map (C104)
-/

namespace Hnco

open Outcome

variable {w : HncoWorld} {argv : List (List Char)} {items : List (OptDoc × Option (List Char))}

/-! ## Runs -/

/-- A run with a map about which `Q` is known. -/
theorem hnco_mapped {s : OptState} (hparse : hncoClass.parse w.opt false argv = .ok s) (hs : Settings hncoClass w.opt items s)
    (hf : ∀ i ∈ items, FineItem w.opt i) (hdocs : ∀ i ∈ items, i.1 ∈ hncoClass.help) (hp : MappedRun w.opt items) {f : Fn Rat}
    (hask : AsksFor w items f) (hn : 0 < f.size) {value : BV → Rat}
    (hval : ∀ x : BV, x.length = f.size → (¬ Present items "minimize" ∧ f.eval x = ok (value x)) ∨
      (Present items "minimize" ∧ f.eval x = ok (-value x)))
    {app : AppOptions Rat} (happ : AppSettings w.opt items app) {goal : Option Rat}
    (hgoal : (app.stopOnMaximum = false ∧ goal = app.target) ∨
      (app.stopOnMaximum = true ∧ ¬ Present items "minimize" ∧ f.hasMax = true ∧ ∃ M, f.maximum = ok M ∧ goal = some M))
    {ao : AlgOptions} (hao : AlgorithmSettings w.opt items ao) {plan : Plan} {k : Nat} (hacc : Accepted w.alg ao k plan)
    (h30 : ao.algorithm ≠ 30) (hpres : Presentable app plan.batch k f.size) {Q : (BV → BV) → Prop}
    (hmap : Sim.Post (hncoMap w s f.size) (fun r => ∃ m, r = some m ∧ MapKnown f k app.stopOnMaximum Q m)) {e : ProgramEnd}
    (he : HncoEnds w argv e) :
    ∃ res g x h xs, e = .exit res.exit (.results res) ∧ Q g ∧ (∀ y : BV, y.length = k → (g y).length = f.size) ∧
      MappedEnd app k goal value g ao.numIterations plan x h xs res := by
  obtain ⟨app', happ1, happ2⟩ := appOptionsOf_settings hs hf hdocs
  have := happ2.unique hdocs happ
  subst this
  obtain ⟨ao', hao1, hao2⟩ := algOptionsOf_settings hs hf hdocs
  have := hao2.unique hdocs hao
  subst this
  obtain ⟨alg, halg, -⟩ := makeAlgorithm_ok (K := Rat) (lib := w.alg) (o := ao')
    (env := ⟨{ size := k, hasMax := false, maximum := .throw .runtimeError, eval := fun x => ok (value x), hasInc := false
               evalInc := fun _ _ _ => .throw .runtimeError }, fun _ _ => none⟩) (val := value) hacc
    (fun _ _ => rfl) (fun _ h => by cases h)
  have hready := hncoPrepare_mappedReady hs hf hdocs hp hask hn hval happ1 hgoal hao1 hao2 ⟨alg, halg⟩ hmap
  obtain ⟨res, h1, g, x, h, xs, h2⟩ := ends_ready_post (P := fun res => ∃ g x h xs, Q g ∧
      (∀ y : BV, y.length = k → (g y).length = f.size) ∧ MappedEnd app' k goal value g ao'.numIterations plan x h xs res)
    hparse hready (by
      rintro R ⟨g, m, hQ, hR⟩ fuel
      rw [← hR.size] at hacc
      obtain ⟨m', hm', hrun⟩ := hnco_run hacc h30 hR.eval hR.controller
      rw [hR.alg] at hm'
      cases hm'
      refine (hrun fuel).mono fun r hr x hx => ?_
      obtain ⟨res, h, xs, h1, h2⟩ := hr.2 x hx
      rw [hR.goal, hR.size, hR.app] at h2
      have hlen : app'.concreteSolution = true ∨ app'.printDescription = true → res.solution.length = k := fun h' =>
        h2.sizes _ (h2.solved (hpres.1 h'))
      refine ⟨_, hncoConclude_mapped hR h1 hlen hpres.2, g, res.solution, h, xs, hQ, fun y hy =>
        (hR.computes y (List.replicate f.size false) hy (by simp)).2, h2, fun hc => ?_, fun hc => ?_⟩
      · rw [hc]; rfl
      · rw [hc]; rfl) he
  exact ⟨res, g, x, h, xs, h1, h2⟩

/-- What is known at the end of a complete search of the vectors of `k` bits on the function `value` seen through
the map `g`, where `x` is the solution found by the search. -/
structure SearchedThrough (o : AppOptions Rat) (k : Nat) (goal : Option Rat) (value : BV → Rat) (g : BV → BV) (x : BV) (xs : List BV)
    (res : AppResult Rat) : Prop where
  reported : AppReported o goal (fun y => value (g y)) xs { res with solution := x }
  once : xs.Nodup
  sizes : ∀ y ∈ xs, y.length = k
  reached : ∀ t, goal = some t → (∃ y : BV, y.length = k ∧ t ≤ value (g y)) → res.success = some true ∧ res.exit = 0
  optimal : (∀ t, goal = some t → ∀ y : BV, y.length = k → value (g y) < t) → (∀ y : BV, y.length = k → y ∈ xs) ∧ x.length = k ∧
    res.value = value (g x) ∧ ∀ y : BV, y.length = k → value (g y) ≤ value (g x)
  abstract : o.concreteSolution = false → res.solution = x
  concrete : o.concreteSolution = true → res.solution = g x

/-- Through a surjective map, complete search without goal finds a maximum of the function itself. -/
theorem SearchedThrough.maximum {o : AppOptions Rat} {k n : Nat} {value : BV → Rat} {g : BV → BV} {x : BV} {xs : List BV}
    {res : AppResult Rat} (h : SearchedThrough o k none value g x xs res) (hlen : ∀ y : BV, y.length = k → (g y).length = n)
    (hsur : MapSpec.Surjective k n g) (hc : o.concreteSolution = true) :
    res.solution.length = n ∧ res.value = value res.solution ∧ ∀ y : BV, y.length = n → value y ≤ value res.solution := by
  obtain ⟨-, h1, h2, h3⟩ := h.optimal (by simp)
  rw [h.concrete hc]
  refine ⟨hlen x h1, h2, fun y hy => ?_⟩
  obtain ⟨z, hz, rfl⟩ := hsur y hy
  exact h3 z hz

theorem mapped_search {n k : Nat} {app : AppOptions Rat} {ao : AlgOptions} {goal : Option Rat} {value : BV → Rat} {g : BV → BV}
    {m : MapObj} {R : HncoReady} (hR : MappedReady w n k app ao goal value g m R) (halg : ao.algorithm = 0) (hbudget : app.budget ≤ 0)
    (hk : 0 < k) (fuel : Nat) (hfuel : 2 ^ k ≤ fuel) :
    Sim.Within 0 (R.alg.run (R.st.env R.fn) fuel) (fun r => (∃ x, r.Last (R.st.env R.fn) x) ∧
      ∀ x, r.Last (R.st.env R.fn) x → ∃ res xs, appConclude R.app R.st r x = ok res ∧ res.solution.length = k ∧
        AppReported app goal (fun y => value (g y)) xs res ∧ xs.Nodup ∧ (∀ y ∈ xs, y.length = k) ∧
        (∀ t, goal = some t → (∃ y : BV, y.length = k ∧ t ≤ value (g y)) → res.success = some true ∧ res.exit = 0) ∧
        ((∀ t, goal = some t → ∀ y : BV, y.length = k → value (g y) < t) → (∀ y : BV, y.length = k → y ∈ xs) ∧
          res.solution.length = k ∧ res.value = value (g res.solution) ∧
          ∀ y : BV, y.length = k → value (g y) ≤ value (g res.solution))) := by
  intro ds hds
  obtain ⟨m', hm', hrun⟩ := hnco_complete_search (lib := w.alg) halg (by rw [hR.size]; exact hk) hR.eval hR.controller
    (by rw [hR.app]; exact hbudget)
  rw [hR.alg] at hm'
  cases hm'
  rw [hR.goal, hR.size] at hrun
  obtain ⟨r, rest, h1, h2, h3, h4⟩ := hrun fuel hfuel ds hds
  refine ⟨r, rest, h1, h2, h3, fun x hx => ?_⟩
  obtain ⟨res, xs, q1, q2, q3, q4, q5, q6⟩ := h4 x hx
  have hlen : res.solution.length = k := by
    by_cases hreach : ∃ t, goal = some t ∧ ∃ y : BV, y.length = k ∧ t ≤ value (g y)
    · obtain ⟨t, rfl, y⟩ := hreach
      have h5 := (q5 t rfl y).1
      rw [q2.success] at h5
      simp only [Option.map_some, Option.some.injEq, decide_eq_true_eq] at h5
      obtain ⟨ys, hys, _⟩ := q2.stops t rfl h5
      exact q4 _ (by rw [hys]; simp)
    · exact (q6 (fun t ht y hy => not_le.mp fun h => hreach ⟨t, ht, y, hy, h⟩)).2.1
  rw [hR.app] at q2
  exact ⟨res, xs, q1, hlen, q2, q3, q4, q5, q6⟩

/-- A complete search with a map about which `Q` is known. -/
theorem hnco_mapped_complete {s : OptState} (hparse : hncoClass.parse w.opt false argv = .ok s)
    (hs : Settings hncoClass w.opt items s)
    (hf : ∀ i ∈ items, FineItem w.opt i) (hdocs : ∀ i ∈ items, i.1 ∈ hncoClass.help) (hp : MappedRun w.opt items) {f : Fn Rat}
    (hask : AsksFor w items f) (hn : 0 < f.size) {value : BV → Rat}
    (hval : ∀ x : BV, x.length = f.size → (¬ Present items "minimize" ∧ f.eval x = ok (value x)) ∨
      (Present items "minimize" ∧ f.eval x = ok (-value x)))
    {app : AppOptions Rat} (happ : AppSettings w.opt items app) {goal : Option Rat}
    (hgoal : (app.stopOnMaximum = false ∧ goal = app.target) ∨
      (app.stopOnMaximum = true ∧ ¬ Present items "minimize" ∧ f.hasMax = true ∧ ∃ M, f.maximum = ok M ∧ goal = some M))
    (halg : Param w.opt items "algorithm" (.int 0)) (hbudget : app.budget ≤ 0) {k : Nat} (hk : 0 < k)
    (hpres : Presentable app 1 k f.size) {Q : (BV → BV) → Prop}
    (hmap : Sim.Post (hncoMap w s f.size) (fun r => ∃ m, r = some m ∧ MapKnown f k app.stopOnMaximum Q m)) :
    ((∃ ds r rest, hncoMap w s f.size ds = .ok r rest) → ∃ e, HncoEnds w argv e) ∧
    ∀ e, HncoEnds w argv e → ∃ res g x xs, e = .exit res.exit (.results res) ∧ Q g ∧
      (∀ y : BV, y.length = k → (g y).length = f.size) ∧ SearchedThrough app k goal value g x xs res := by
  obtain ⟨app', happ1, happ2⟩ := appOptionsOf_settings hs hf hdocs
  have := happ2.unique hdocs happ
  subst this
  obtain ⟨ao, hao1, hao2⟩ := algOptionsOf_settings hs hf hdocs
  have halg' : ao.algorithm = 0 := param_int_eq hao2.algorithm halg
  have hmade : ∃ m : MadeAlgorithm Rat, makeAlgorithm w.alg ao k = .own (ok m) := by
    have h := hnco_complete_search (K := Rat) (lib := w.alg) (ao := ao)
      (fn := { size := k, hasMax := false, maximum := .throw .runtimeError, eval := fun x => ok (value x), hasInc := false
               evalInc := fun _ _ _ => .throw .runtimeError }) (g := value)
      (o := { app' with stopOnMaximum := false, target := none }) (v := 0) halg' hk (fun _ _ => rfl) rfl hbudget
    obtain ⟨m, hm, -⟩ := h
    exact ⟨m, hm⟩
  have hready := hncoPrepare_mappedReady hs hf hdocs hp hask hn hval happ1 hgoal hao1 hao2 hmade hmap
  have key : ∀ {g m R}, MappedReady w f.size k app' ao goal value g m R → ∀ fuel, 2 ^ k ≤ fuel →
      Sim.Within 0 (R.alg.run (R.st.env R.fn) fuel) (fun r => (∃ x, r.Last (R.st.env R.fn) x) ∧
        ∀ x, r.Last (R.st.env R.fn) x → ∃ res, hncoConclude R r x = ok res ∧
          ∃ x xs, SearchedThrough app' k goal value g x xs res) := by
    intro g m R hR fuel hfuel ds hds
    obtain ⟨r, rest, h1, h2, h3, h4⟩ := mapped_search hR halg' hbudget hk fuel hfuel ds hds
    refine ⟨r, rest, h1, h2, h3, fun x hx => ?_⟩
    obtain ⟨res, xs, q1, hlen, q2, q3, q4, q5, q6⟩ := h4 x hx
    refine ⟨_, hncoConclude_mapped hR q1 (fun _ => hlen) hpres.2, res.solution, xs, q2, q3, q4, q5, q6, fun hc => ?_, fun hc => ?_⟩
    · rw [hc]; rfl
    · rw [hc]; rfl
  constructor
  · rintro ⟨ds, r, rest, hr⟩
    cases hprep : appPrepare w (commandLineFactories w) s ds with
    | ok p rest' =>
      have := hready ds
      rw [hprep] at this
      obtain ⟨R, rfl, g, m, hQ, hR⟩ := this
      obtain ⟨r, rest'', h1, _, ⟨x, hx⟩, hall⟩ := key hR (2 ^ k) le_rfl rest' (by simp)
      obtain ⟨res, h2, -⟩ := hall x hx
      exact ⟨_, .run hparse hprep h1 hx h2⟩
    | throw e => have := hready ds; rw [hprep] at this; exact this.elim
    | ub => have := hready ds; rw [hprep] at this; exact this.elim
    | out =>
      exfalso
      rw [hncoPrepare_mapped hs hf hdocs hp hask hn happ1, Sim.bind, hr] at hprep
      cases hc : hncoCompose f r with
      | throw e => simp [hc, Sim.bind, Sim.lift] at hprep
      | ub => simp [hc, Sim.bind, Sim.lift] at hprep
      | ok c =>
        dsimp only at hprep
        rw [hc, sim_bind_ok] at hprep
        cases hgo : appGoOn w (commandLineFactories w) s app' (if s.raised "minimize" = true then opposite c else c) r <;> rw [hgo] at hprep <;> cases hprep
  · intro e he
    obtain ⟨res, h1, g, x, xs, h2⟩ := ends_ready_post (P := fun res => ∃ g x xs, Q g ∧
      (∀ y : BV, y.length = k → (g y).length = f.size) ∧ SearchedThrough app' k goal value g x xs res) hparse hready (by
        rintro R ⟨g, m, hQ, hR⟩ fuel ds
        obtain ⟨r, rest, hr, _, _, hall⟩ := key hR (max fuel (2 ^ k)) (by omega) ds (by simp)
        rcases complete_fuel halg' hR.alg (env := R.st.env R.fn) (le_max_left fuel (2 ^ k)) ds with h | h
        · dsimp only
          rw [h]
          trivial
        · dsimp only
          rw [h, hr]
          intro x hx
          obtain ⟨res, h1, x, xs, h2⟩ := hall x hx
          exact ⟨res, h1, g, x, xs, hQ, fun y hy => (hR.computes y (List.replicate f.size false) hy (by simp)).2, h2⟩) he
    exact ⟨res, g, x, xs, h1, h2⟩

/-- C104: a run of the program on a function seen through a random map (`--map` 1 to 6 with `--map-random`).  The options are as for a
plain run, the map can be made, and if the program must stop on the maximum then the map is surjective, either by its kind or because this
is asked for.  Then the behaviour of the program is defined whatever the random numbers, and it always ends with results, which
are right for the composition of the function and of a map of the kind asked for, with the sizes asked for, and surjective if asked for;
with `--concrete-solution`, the image of the solution is printed. -/
theorem hnco_map_random (hl : CommandLine hncoClass.help argv items) (hf : ∀ i ∈ items, FineItem w.opt i) (hp : MappedRun w.opt items)
    {f : Fn Rat} (hask : AsksFor w items f) (hn : 0 < f.size) {value : BV → Rat}
    (hval : ∀ x : BV, x.length = f.size → (¬ Present items "minimize" ∧ f.eval x = ok (value x)) ∨
      (Present items "minimize" ∧ f.eval x = ok (-value x)))
    {mo : MapOptions} (hmo : MapSettings w.opt items mo) (hfeas : mo.Feasible f.size)
    {app : AppOptions Rat} (happ : AppSettings w.opt items app) {goal : Option Rat}
    (hgoal : (app.stopOnMaximum = false ∧ goal = app.target) ∨
      (app.stopOnMaximum = true ∧ (mo.surjective = true ∨ (mo.kind ≠ 4 ∧ mo.kind ≠ 5)) ∧ ¬ Present items "minimize" ∧
        f.hasMax = true ∧ ∃ M, f.maximum = ok M ∧ goal = some M))
    {ao : AlgOptions} (hao : AlgorithmSettings w.opt items ao) {plan : Plan} (hacc : Accepted w.alg ao (mo.bits f.size) plan)
    (h30 : ao.algorithm ≠ 30) (hpres : Presentable app plan.batch (mo.bits f.size) f.size) {e : ProgramEnd}
    (he : HncoEnds w argv e) :
    ∃ res g x h xs, e = .exit res.exit (.results res) ∧
      (MapKind (mo.bits f.size) f.size g mo.kind ∧
        (mo.surjective = true ∨ (mo.kind ≠ 4 ∧ mo.kind ≠ 5) → MapSpec.Surjective (mo.bits f.size) f.size g)) ∧
      (∀ y : BV, y.length = mo.bits f.size → (g y).length = f.size) ∧
      MappedEnd app (mo.bits f.size) goal value g ao.numIterations plan x h xs res := by
  obtain ⟨s, hparse, hset⟩ := options_read (c := hncoClass) (by simp [optionClasses]) w.opt false hl hf
  have hstop : app.stopOnMaximum = true → mo.surjective = true ∨ (mo.kind ≠ 4 ∧ mo.kind ≠ 5) := by
    intro h
    rcases hgoal with ⟨h', _⟩ | ⟨_, h', _⟩
    · rw [h'] at h; cases h
    · exact h'
  refine hnco_mapped hparse hset hf hl.docs hp hask hn hval happ ?_ hao hacc h30 hpres
    ((hncoMap_made hset hf hl.docs hmo hn hfeas).mono ?_) he
  · rcases hgoal with h | ⟨h1, _, h2⟩
    · exact .inl h
    · exact .inr ⟨h1, h2⟩
  · rintro _ ⟨m, rfl, q1, q2, g, q3, b, q4, q5, -, q7, q8⟩
    have q2' : m.inputSize = mo.bits f.size := q2
    rw [q1, q2'] at q3 q5 q8
    exact ⟨m, rfl, g, b, q2', q1, q3, q4, fun h => q7 (hstop h), q8, fun h => q5 (q7 h)⟩

/-- C104: a run of the program on a function seen through a map which is loaded from the file at `--map-path`: as for a random map, where
the map is the one in the file. -/
theorem hnco_map_loaded (hl : CommandLine hncoClass.help argv items) (hf : ∀ i ∈ items, FineItem w.opt i) (hp : MappedRun w.opt items)
    {f : Fn Rat} (hask : AsksFor w items f) (hn : 0 < f.size) {value : BV → Rat}
    (hval : ∀ x : BV, x.length = f.size → (¬ Present items "minimize" ∧ f.eval x = ok (value x)) ∨
      (Present items "minimize" ∧ f.eval x = ok (-value x)))
    {kind : Nat} (hkind : Param w.opt items "map" (.int kind)) (h1 : 1 ≤ kind) (h6 : kind ≤ 6) (hload : ¬ Present items "map-random")
    {path : List Char} (hpath : Param w.opt items "map-path" (.str path)) {tokens : List (Tok Rat)}
    (hfile : w.mapFile path = some tokens) {m : MapObj} (hm : loadMap kind tokens = ok m) (hsize : m.outputSize = f.size) {g : BV → BV}
    (hg : MapSpec.Computes m.map m.inputSize m.outputSize g) {b : Bool} (hb : m.isSurjective = ok b)
    {app : AppOptions Rat} (happ : AppSettings w.opt items app) {goal : Option Rat}
    (hgoal : (app.stopOnMaximum = false ∧ goal = app.target) ∨
      (app.stopOnMaximum = true ∧ b = true ∧ ¬ Present items "minimize" ∧
        f.hasMax = true ∧ ∃ M, f.maximum = ok M ∧ goal = some M))
    {ao : AlgOptions} (hao : AlgorithmSettings w.opt items ao) {plan : Plan} (hacc : Accepted w.alg ao m.inputSize plan)
    (h30 : ao.algorithm ≠ 30) (hpres : Presentable app plan.batch m.inputSize f.size) {e : ProgramEnd}
    (he : HncoEnds w argv e) :
    ∃ res x h xs, e = .exit res.exit (.results res) ∧ MappedEnd app m.inputSize goal value g ao.numIterations plan x h xs res := by
  obtain ⟨s, hparse, hset⟩ := options_read (c := hncoClass) (by simp [optionClasses]) w.opt false hl hf
  have hstop : app.stopOnMaximum = true → b = true := by
    intro h
    rcases hgoal with ⟨h', _⟩ | ⟨_, h', _⟩
    · rw [h'] at h; cases h
    · exact h'
  have hpost : Sim.Post (hncoMap w s f.size) (fun r => ∃ m', r = some m' ∧
      MapKnown f m.inputSize app.stopOnMaximum (fun g' => g' = g) m') := by
    rw [hncoMap_loaded hset hf hl.docs hkind h1 h6 hload hpath hn, hfile]
    dsimp only
    rw [hm, sim_bind_ok]
    rw [hsize] at hg
    exact Sim.Post.pure ⟨m, rfl, g, b, rfl, hsize, hg, hb, hstop, rfl⟩
  obtain ⟨res, g', x, h, xs, q1, rfl, -, q2⟩ := hnco_mapped hparse hset hf hl.docs hp hask hn hval happ (by
    rcases hgoal with h | ⟨h1, _, h2⟩
    · exact .inl h
    · exact .inr ⟨h1, h2⟩) hao hacc h30 hpres hpost he
  exact ⟨res, x, h, xs, q1, q2⟩

/-! ## Complete search -/

/-- C104: complete search without budget through a random map: the program always ends with right results, and a run without goal through a
surjective map finds a maximum of the function itself, which is printed with `--concrete-solution`. -/
theorem hnco_map_complete (hl : CommandLine hncoClass.help argv items) (hf : ∀ i ∈ items, FineItem w.opt i)
    (hp : MappedRun w.opt items) {f : Fn Rat} (hask : AsksFor w items f) (hn : 0 < f.size) {value : BV → Rat}
    (hval : ∀ x : BV, x.length = f.size → (¬ Present items "minimize" ∧ f.eval x = ok (value x)) ∨
      (Present items "minimize" ∧ f.eval x = ok (-value x)))
    {mo : MapOptions} (hmo : MapSettings w.opt items mo) (hfeas : mo.Feasible f.size)
    {app : AppOptions Rat} (happ : AppSettings w.opt items app) {goal : Option Rat}
    (hgoal : (app.stopOnMaximum = false ∧ goal = app.target) ∨
      (app.stopOnMaximum = true ∧ (mo.surjective = true ∨ (mo.kind ≠ 4 ∧ mo.kind ≠ 5)) ∧ ¬ Present items "minimize" ∧
        f.hasMax = true ∧ ∃ M, f.maximum = ok M ∧ goal = some M))
    (halg : Param w.opt items "algorithm" (.int 0)) (hbudget : app.budget ≤ 0)
    (hpres : app.concreteSolution = true → app.printDescription = true → mo.bits f.size = f.size) {e : ProgramEnd}
    (he : HncoEnds w argv e) :
    ∃ res g x xs, e = .exit res.exit (.results res) ∧ MapKind (mo.bits f.size) f.size g mo.kind ∧
      (∀ y : BV, y.length = mo.bits f.size → (g y).length = f.size) ∧ SearchedThrough app (mo.bits f.size) goal value g x xs res ∧
      (mo.surjective = true ∨ (mo.kind ≠ 4 ∧ mo.kind ≠ 5) → goal = none → app.concreteSolution = true →
        res.solution.length = f.size ∧ res.value = value res.solution ∧ ∀ y : BV, y.length = f.size → value y ≤ value res.solution) := by
  obtain ⟨s, hparse, hset⟩ := options_read (c := hncoClass) (by simp [optionClasses]) w.opt false hl hf
  have hstop : app.stopOnMaximum = true → mo.surjective = true ∨ (mo.kind ≠ 4 ∧ mo.kind ≠ 5) := by
    intro h
    rcases hgoal with ⟨h', _⟩ | ⟨_, h', _⟩
    · rw [h'] at h; cases h
    · exact h'
  have hbits : 0 < mo.bits f.size := by
    unfold MapOptions.bits
    split
    · rename_i h
      have := (hfeas.2.2.2.1 h).1
      omega
    · exact hn
  obtain ⟨res, g, x, xs, h1, ⟨h2, h3⟩, h4, h5⟩ := (hnco_mapped_complete hparse hset hf hl.docs hp hask hn hval happ (by
      rcases hgoal with h | ⟨h1, _, h2⟩
      · exact .inl h
      · exact .inr ⟨h1, h2⟩) halg hbudget hbits ⟨fun _ h => absurd h (by omega), hpres⟩
    (Q := fun g => MapKind (mo.bits f.size) f.size g mo.kind ∧
      (mo.surjective = true ∨ (mo.kind ≠ 4 ∧ mo.kind ≠ 5) → MapSpec.Surjective (mo.bits f.size) f.size g))
    ((hncoMap_made hset hf hl.docs hmo hn hfeas).mono (by
      rintro _ ⟨m, rfl, q1, q2, g, q3, b, q4, q5, -, q7, q8⟩
      have q2' : m.inputSize = mo.bits f.size := q2
      rw [q1, q2'] at q3 q5 q8
      exact ⟨m, rfl, g, b, q2', q1, q3, q4, fun h => q7 (hstop h), q8, fun h => q5 (q7 h)⟩))).2 e he
  refine ⟨res, g, x, xs, h1, h2, h4, h5, fun hsur hg hc => ?_⟩
  subst hg
  exact h5.maximum h4 (h3 hsur) hc

/-- C104: complete search without budget through a map loaded from a file: the program has an end, and always ends with right
results. -/
theorem hnco_map_loaded_complete (hl : CommandLine hncoClass.help argv items) (hf : ∀ i ∈ items, FineItem w.opt i)
    (hp : MappedRun w.opt items) {f : Fn Rat} (hask : AsksFor w items f) (hn : 0 < f.size) {value : BV → Rat}
    (hval : ∀ x : BV, x.length = f.size → (¬ Present items "minimize" ∧ f.eval x = ok (value x)) ∨
      (Present items "minimize" ∧ f.eval x = ok (-value x)))
    {kind : Nat} (hkind : Param w.opt items "map" (.int kind)) (h1 : 1 ≤ kind) (h6 : kind ≤ 6) (hload : ¬ Present items "map-random")
    {path : List Char} (hpath : Param w.opt items "map-path" (.str path)) {tokens : List (Tok Rat)}
    (hfile : w.mapFile path = some tokens) {m : MapObj} (hm : loadMap kind tokens = ok m) (hsize : m.outputSize = f.size)
    (hin : 0 < m.inputSize) {g : BV → BV}
    (hg : MapSpec.Computes m.map m.inputSize m.outputSize g) {b : Bool} (hb : m.isSurjective = ok b)
    {app : AppOptions Rat} (happ : AppSettings w.opt items app) {goal : Option Rat}
    (hgoal : (app.stopOnMaximum = false ∧ goal = app.target) ∨
      (app.stopOnMaximum = true ∧ b = true ∧ ¬ Present items "minimize" ∧
        f.hasMax = true ∧ ∃ M, f.maximum = ok M ∧ goal = some M))
    (halg : Param w.opt items "algorithm" (.int 0)) (hbudget : app.budget ≤ 0)
    (hpres : app.concreteSolution = true → app.printDescription = true → m.inputSize = f.size) :
    (∃ e, HncoEnds w argv e) ∧ ∀ e, HncoEnds w argv e → ∃ res x xs, e = .exit res.exit (.results res) ∧
      SearchedThrough app m.inputSize goal value g x xs res := by
  obtain ⟨s, hparse, hset⟩ := options_read (c := hncoClass) (by simp [optionClasses]) w.opt false hl hf
  have hstop : app.stopOnMaximum = true → b = true := by
    intro h
    rcases hgoal with ⟨h', _⟩ | ⟨_, h', _⟩
    · rw [h'] at h; cases h
    · exact h'
  have hmap : hncoMap w s f.size = pure (some m) := by
    rw [hncoMap_loaded hset hf hl.docs hkind h1 h6 hload hpath hn, hfile]
    dsimp only
    rw [hm, sim_bind_ok]
  have hpost : Sim.Post (hncoMap w s f.size) (fun r => ∃ m', r = some m' ∧
      MapKnown f m.inputSize app.stopOnMaximum (fun g' => g' = g) m') := by
    rw [hmap]
    rw [hsize] at hg
    exact Sim.Post.pure ⟨m, rfl, g, b, rfl, hsize, hg, hb, hstop, rfl⟩
  obtain ⟨q1, q2⟩ := hnco_mapped_complete hparse hset hf hl.docs hp hask hn hval happ (by
    rcases hgoal with h | ⟨h1, _, h2⟩
    · exact .inl h
    · exact .inr ⟨h1, h2⟩) halg hbudget hin ⟨fun _ h => absurd h (by omega), hpres⟩ hpost
  refine ⟨q1 ⟨[], some m, [], by rw [hmap]; rfl⟩, fun e he => ?_⟩
  obtain ⟨res, g', x, xs, r1, rfl, -, r2⟩ := q2 e he
  exact ⟨res, x, xs, r1, r2⟩

/-! ## Maps made by `mapgen` -/

/-- C104: a map made by `mapgen` is then used by `hnco -A 0`.  Whatever the random numbers, `mapgen` succeeds; once its file is at the path, a
run of `hnco` with complete search through this map, without budget and without goal, always ends; with `--concrete-solution`, and if the map is
surjective, as asked for or by its kind, the solution which is printed is a maximum of the function. -/
theorem mapgen_then_hnco {gw : GenWorld} {gargv : List (List Char)} {gitems : List (OptDoc × Option (List Char))} {m : MapgenOptions}
    {path : List Char} (h : MapgenCommand gw gargv gitems m path) (hw : gw.writable path = true) (h1 : 1 ≤ m.kind) (h6 : m.kind ≤ 6)
    (hn : 0 < m.outputSize) (hlin : m.kind = 4 ∨ m.kind = 5 → 0 < m.inputSize ∧ (m.surjective = true → m.outputSize ≤ m.inputSize))
    (hts : m.kind = 6 → 1 < m.inputSize ∧ m.outputSize = m.inputSize) (hsur : m.surjective = true ∨ (m.kind ≠ 4 ∧ m.kind ≠ 5)) :
    Sim.Post (mapgenMain gw gargv) (fun e => ∃ tokens, e = .exit 0 (some (path, .archive tokens)) ∧
      ∀ (w : HncoWorld) (argv : List (List Char)) (items : List (OptDoc × Option (List Char))) (f : Fn Rat) (value : BV → Rat)
        (app : AppOptions Rat), w.mapFile path = some tokens → CommandLine hncoClass.help argv items → (∀ i ∈ items, FineItem w.opt i) →
        MappedRun w.opt items → AsksFor w items f → f.size = m.outputSize →
        (∀ x : BV, x.length = f.size → (¬ Present items "minimize" ∧ f.eval x = ok (value x)) ∨
          (Present items "minimize" ∧ f.eval x = ok (-value x))) →
        Param w.opt items "map" (.int m.kind) → ¬ Present items "map-random" → Param w.opt items "map-path" (.str path) →
        AppSettings w.opt items app → app.stopOnMaximum = false → app.target = none → app.budget ≤ 0 →
        app.concreteSolution = true → app.printDescription = false → Param w.opt items "algorithm" (.int 0) →
        (∃ e, HncoEnds w argv e) ∧ ∀ e, HncoEnds w argv e → ∃ res, e = .exit 0 (.results res) ∧
          res.solution.length = f.size ∧ res.value = value res.solution ∧
          ∀ y : BV, y.length = f.size → value y ≤ value res.solution) := by
  refine (mapgen_program h hw h1 h6 hn hlin hts).mono ?_
  rintro e ⟨tokens, rfl, map, k1, k2, k3, g, k4, b, k5, k6, -, k8, -⟩
  refine ⟨tokens, rfl, fun w argv items f value app g1 g2 g3 g4 g5 g6 g7 g8 g9 g10 g11 g12 g13 g14 g15 g16 g17 => ?_⟩
  have hin : 0 < map.inputSize := by
    rw [k3]
    split
    · rename_i hk
      have := (hlin hk).1
      simp only [MapgenOptions.toMap]
      omega
    · exact hn
  have hb : b = true := k8 hsur
  obtain ⟨q1, q2⟩ := hnco_map_loaded_complete g2 g3 g4 g5 (by omega) g7 g8 h1 h6 g9 g10 g1 k1 (by omega) hin k4 k5 g11
    (goal := none) (.inl ⟨g12, g13.symm⟩) g17 g14 (fun _ h => by rw [g16] at h; cases h)
  refine ⟨q1, fun e he => ?_⟩
  obtain ⟨res, x, xs, r1, r2⟩ := q2 e he
  have hsz : map.outputSize = f.size := by omega
  rw [hsz] at k4 k6
  obtain ⟨s1, s2, s3⟩ := r2.maximum (fun y hy => (k4 y (List.replicate f.size false) hy (by simp)).2) (k6 hb) g15
  exact ⟨res, by rw [r1, r2.reported.exit.1 rfl], s1, s2, s3⟩

/-! ## Refusals -/

theorem sim_bind_throw {α β : Type*} {m : Sim α} {x : Exn} {ds : List Nat} (h : m ds = .throw x) (k : α → Sim β) :
    Sim.bind m k ds = .throw x := by
  unfold Sim.bind
  rw [h]

/-- C104: with a map which cannot be made, or loaded, or put together with the function, or which would hide the maximum, the program prints an
error message and its exit status is 1. -/
theorem hnco_map_refused (hl : CommandLine hncoClass.help argv items) (hf : ∀ i ∈ items, FineItem w.opt i)
    (hp : MappedRun w.opt items) {f : Fn Rat} (hask : AsksFor w items f) (hn : 0 < f.size) (h : MapRefused w items f.size)
    (e : ProgramEnd) : HncoEnds w argv e ↔ e = .exit 1 .message := by
  obtain ⟨s, hparse, hs⟩ := options_read (c := hncoClass) (by simp [optionClasses]) w.opt false hl hf
  have hdocs := hl.docs
  obtain ⟨app, happ1, happ2⟩ := appOptionsOf_settings hs hf hdocs
  have hprep := hncoPrepare_mapped hs hf hdocs hp hask hn happ1
  have key : (∃ x, ∀ ds, hncoMap w s f.size ds = .throw x) → (HncoEnds w argv e ↔ e = .exit 1 .message) := by
    rintro ⟨x, hx⟩
    exact ends_throw (x := x) hparse (fun ds => by rw [hprep]; exact sim_bind_throw (hx ds) _) e
  cases h with
  | unknown h1 h2 => exact key ⟨.runtimeError, fun ds => by rw [hncoMap_unknown hs hf h1 h2]; rfl⟩
  | @sizes mo h1 h2 h3 =>
    obtain ⟨o, e1, e2, e3, e4, -, e5⟩ := hncoMap_random hs hf hdocs h1 (by omega) (by omega) f.size
    refine key ⟨.runtimeError, fun ds => ?_⟩
    rw [e5]
    exact sim_bind_throw (makeMap_refused o f.size hn e4 (.inr ⟨by omega, by rw [e2, e3]; exact h3⟩) ds) _
  | @mode length mode h1 h2 h3 h4 h5 h6 =>
    obtain ⟨kind, inputSize, length', mode', path, hst, p1, p2, p3, p4, -⟩ := mapState hs hf
    have e1 : kind = 6 := param_int_eq p1 h1
    have e3 : length' = length := param_int_eq p3 h3
    have e4 : mode' = mode := param_int_eq p4 h5
    subst e1 e3 e4
    refine key ⟨.runtimeError, fun ds => ?_⟩
    have hm : samplingModeOf mode' = none := by
      unfold samplingModeOf
      rw [if_neg (by omega), if_neg (by omega), if_neg (by omega), if_neg (by omega), if_neg (by omega), if_neg (by omega)]
    rw [hst.eq, if_neg (by omega), if_neg (by omega), if_pos ((random_raised hs hdocs).mpr h2), if_pos rfl,
      assert_pos (decide_eq_true (show length' ≥ 0 from h4)), sim_bind_ok, hm]
    rfl
  | @missing kind h1 =>
    obtain ⟨path, q1, q2⟩ := h1.file
    refine key ⟨.runtimeError, fun ds => ?_⟩
    rw [hncoMap_loaded hs hf hdocs h1.asked h1.known.1 h1.known.2 h1.loads q1 hn, q2]
    rfl
  | @unreadable kind tokens x h1 h2 =>
    obtain ⟨path, q1, q2⟩ := h1.file
    refine key ⟨x, fun ds => ?_⟩
    rw [hncoMap_loaded hs hf hdocs h1.asked h1.known.1 h1.known.2 h1.loads q1 hn, q2]
    dsimp only
    rw [h2]
    rfl
  | @mismatch kind tokens m h1 h2 h3 =>
    obtain ⟨path, q1, q2⟩ := h1.file
    refine ends_throw (x := .runtimeError) hparse (fun ds => ?_) e
    rw [hprep, hncoMap_loaded hs hf hdocs h1.asked h1.known.1 h1.known.2 h1.loads q1 hn, q2]
    dsimp only
    rw [h2]
    change Sim.bind (Sim.lift (hncoCompose f (some m))) _ ds = _
    refine sim_bind_throw ?_ _
    unfold hncoCompose
    dsimp only
    rw [(functionMapNew_iff f m).2 h3]
    rfl
  | @notSurjective kind tokens m h1 h2 h3 h4 =>
    obtain ⟨path, q1, q2⟩ := h1.file
    refine ends_throw (x := .runtimeError) hparse (fun ds => ?_) e
    rw [hprep, hncoMap_loaded hs hf hdocs h1.asked h1.known.1 h1.known.2 h1.loads q1 hn, q2]
    dsimp only
    rw [h2]
    change Sim.bind (Sim.lift (hncoCompose f (some m))) _ ds = _
    by_cases hsz : m.outputSize = f.size
    · have hnew := (functionMapNew_iff f m).1 hsz
      have hc : hncoCompose f (some m) = ok (composedFn f m (List.replicate f.size false)) := by
        unfold hncoCompose; dsimp only; rw [hnew]; rfl
      rw [hc, sim_bind_ok]
      have hmax : (composedFn f m (List.replicate f.size false)).hasMax = false := by
        simp [composedFn, (functionMapMaximum_cases f m false h3).1]
      have hgo : appGoOn w (commandLineFactories w) s app (if s.raised "minimize" = true then opposite (composedFn f m (List.replicate f.size false))
          else composedFn f m (List.replicate f.size false)) (some m) = .throw .runtimeError := by
        unfold appGoOn makeController
        rw [if_pos (happ2.stopOnMaximum.mpr h4), if_neg]
        · rfl
        · split
          · simp [opposite]
          · rw [hmax]; simp
      rw [hgo]
      rfl
    · refine sim_bind_throw ?_ _
      unfold hncoCompose
      dsimp only
      rw [(functionMapNew_iff f m).2 hsz]
      rfl

/-! ## Undefined behaviour -/

/-- C104 (negative part): with random transvections on a function of one bit, the behaviour of the program is undefined for any random
numbers. -/
theorem hnco_map_one_bit (hl : CommandLine hncoClass.help argv items) (hf : ∀ i ∈ items, FineItem w.opt i)
    (hp : MappedRun w.opt items) {f : Fn Rat} (hask : AsksFor w items f) (hn : f.size = 1) {mo : MapOptions}
    (hmo : MapSettings w.opt items mo) (hk : mo.kind = 6) (e : ProgramEnd) : HncoEnds w argv e ↔ e = .undefined := by
  obtain ⟨s, hparse, hs⟩ := options_read (c := hncoClass) (by simp [optionClasses]) w.opt false hl hf
  have hdocs := hl.docs
  obtain ⟨app, happ1, happ2⟩ := appOptionsOf_settings hs hf hdocs
  have hprep := hncoPrepare_mapped hs hf hdocs hp hask (by omega) happ1
  obtain ⟨o, e1, e2, e3, e4, -, e5⟩ := hncoMap_random hs hf hdocs hmo (by omega) (by omega) f.size
  rw [e5, hn] at hprep
  have hub : ∀ d ds, appPrepare w (commandLineFactories w) s (d :: ds) = .ub := by
    intro d ds
    rw [hprep]
    unfold Sim.bind
    rw [makeMap_transvections_one_bit o (by omega) e4 d ds]
  have hout : appPrepare w (commandLineFactories w) s [] = .out := by
    have : makeMap o 1 [] = .out := by
      have h : makeMap o 1 [] = makeRandomMap o 1 [] := by
        unfold makeMap
        rw [assert_pos (decide_eq_true (show o.kind > 0 by omega)), assert_pos (by simp), e4]
        rfl
      rw [h]
      unfold makeRandomMap
      simp only [e1, hk]
      cases o.tsMode <;> rfl
    rw [hprep]
    unfold Sim.bind
    rw [this]
  have hboth : ∀ ds, appPrepare w (commandLineFactories w) s ds = .ub ∨ appPrepare w (commandLineFactories w) s ds = .out := by
    intro ds
    cases ds with
    | nil => exact .inr hout
    | cons d ds => exact .inl (hub d ds)
  constructor
  · intro he
    cases he with
    | options h => rw [hparse] at h; cases h
    | badOptions h => rfl
    | @failed _ ds _ h h' => rw [hparse] at h; cases h; rcases hboth ds with q | q <;> rw [q] at h' <;> cases h'
    | stuck h h' => rfl
    | @shown _ ds _ _ h h' => rw [hparse] at h; cases h; rcases hboth ds with q | q <;> rw [q] at h' <;> cases h'
    | @run _ ds _ _ _ _ _ _ _ h h' => rw [hparse] at h; cases h; rcases hboth ds with q | q <;> rw [q] at h' <;> cases h'
    | runConcludes h h' => rfl
    | @runFails _ ds _ _ _ _ _ _ _ h h' => rw [hparse] at h; cases h; rcases hboth ds with q | q <;> rw [q] at h' <;> cases h'
    | @runThrows _ ds _ _ _ _ h h' => rw [hparse] at h; cases h; rcases hboth ds with q | q <;> rw [q] at h' <;> cases h'
    | runStuck h h' => rfl
  · rintro rfl
    exact .stuck hparse (hub 0 [])

/-- C104 (negative part): with `--concrete-solution` and `--print-description`, the image of the solution is described, as if it were the
solution itself; if the map changes the number of bits, then the behaviour of the program is undefined.  This is so at the end of any
complete search without budget through a map loaded from a file. -/
theorem hnco_map_described (hl : CommandLine hncoClass.help argv items) (hf : ∀ i ∈ items, FineItem w.opt i)
    (hp : MappedRun w.opt items) {f : Fn Rat} (hask : AsksFor w items f) (hn : 0 < f.size) {value : BV → Rat}
    (hval : ∀ x : BV, x.length = f.size → (¬ Present items "minimize" ∧ f.eval x = ok (value x)) ∨
      (Present items "minimize" ∧ f.eval x = ok (-value x)))
    {kind : Nat} {tokens : List (Tok Rat)} (hfile : MapFile w items kind (some tokens)) {m : MapObj} (hm : loadMap kind tokens = ok m)
    (hsize : m.outputSize = f.size) (hin : 0 < m.inputSize) (hne : m.inputSize ≠ f.size) {g : BV → BV}
    (hg : MapSpec.Computes m.map m.inputSize m.outputSize g) {b : Bool} (hb : m.isSurjective = ok b)
    {app : AppOptions Rat} (happ : AppSettings w.opt items app) (hstop : app.stopOnMaximum = false)
    (halg : Param w.opt items "algorithm" (.int 0)) (hbudget : app.budget ≤ 0)
    (hc : app.concreteSolution = true) (hd : app.printDescription = true) (e : ProgramEnd) :
    HncoEnds w argv e ↔ e = .undefined := by
  obtain ⟨s, hparse, hs⟩ := options_read (c := hncoClass) (by simp [optionClasses]) w.opt false hl hf
  have hdocs := hl.docs
  obtain ⟨app', happ1, happ2⟩ := appOptionsOf_settings hs hf hdocs
  have := happ2.unique hdocs happ
  subst this
  obtain ⟨ao, hao1, hao2⟩ := algOptionsOf_settings hs hf hdocs
  have halg' : ao.algorithm = 0 := param_int_eq hao2.algorithm halg
  obtain ⟨path, hp1, hp2⟩ := hfile.file
  have hmap : hncoMap w s f.size = pure (some m) := by
    rw [hncoMap_loaded hs hf hdocs hfile.asked hfile.known.1 hfile.known.2 hfile.loads hp1 hn, hp2]
    dsimp only
    rw [hm, sim_bind_ok]
  have hpost : Sim.Post (hncoMap w s f.size) (fun r => ∃ m', r = some m' ∧
      MapKnown f m.inputSize app'.stopOnMaximum (fun g' => g' = g) m') := by
    rw [hmap]
    rw [hsize] at hg
    exact Sim.Post.pure ⟨m, rfl, g, b, rfl, hsize, hg, hb, (fun h => by rw [hstop] at h; cases h), rfl⟩
  have hmade : ∃ m' : MadeAlgorithm Rat, makeAlgorithm w.alg ao m.inputSize = .own (ok m') := by
    have h := hnco_complete_search (K := Rat) (lib := w.alg) (ao := ao)
      (fn := { size := m.inputSize, hasMax := false, maximum := .throw .runtimeError, eval := fun x => ok (value x), hasInc := false
               evalInc := fun _ _ _ => .throw .runtimeError }) (g := value)
      (o := { app' with stopOnMaximum := false, target := none }) (v := 0) halg' hin (fun _ _ => rfl) rfl hbudget
    obtain ⟨m, hm, -⟩ := h
    exact ⟨m, hm⟩
  have hready := hncoPrepare_mappedReady hs hf hdocs hp hask hn hval happ1 (goal := app'.target) (.inl ⟨hstop, rfl⟩) hao1 hao2 hmade hpost
  have key : ∀ {g m' R}, MappedReady w f.size m.inputSize app' ao app'.target value g m' R → ∀ fuel, 2 ^ m.inputSize ≤ fuel →
      Sim.Within 0 (R.alg.run (R.st.env R.fn) fuel) (fun r => (∃ x, r.Last (R.st.env R.fn) x) ∧
        ∀ x, r.Last (R.st.env R.fn) x → hncoConclude R r x = ub) := by
    intro g m' R hR fuel hfuel ds hds
    obtain ⟨r, rest, h1, h2, h3, h4⟩ := mapped_search hR halg' hbudget hin fuel hfuel ds hds
    refine ⟨r, rest, h1, h2, h3, fun x hx => ?_⟩
    obtain ⟨res, xs, q1, hlen, -⟩ := h4 x hx
    obtain ⟨c1, c2⟩ := hR.computes res.solution (List.replicate m'.outputSize false) hlen (by simp [hR.output])
    unfold hncoConclude
    rw [q1, hR.app, hR.map]
    change Outcome.bind (appConcrete app' (some m') res.solution) _ = _
    unfold appConcrete
    rw [if_pos hc]
    dsimp only
    rw [c1]
    change Outcome.bind (if app'.printDescription = true then _ else _) _ = _
    rw [if_pos hd]
    unfold fnDescribed
    dsimp only
    rw [assert_neg (by
      rw [c2, hR.input]
      simpa using fun h => hne h.symm)]
    rfl
  have hgood : ∀ {ds R rest}, appPrepare w (commandLineFactories w) s ds = .ok (.ready R) rest →
      ∃ g m', MappedReady w f.size m.inputSize app' ao app'.target value g m' R := by
    intro ds R rest h
    have := hready ds
    rw [h] at this
    obtain ⟨R', h1, g, m', _, h2⟩ := this
    cases h1
    exact ⟨g, m', h2⟩
  have hend : ∀ {ds R rest fuel r rest' x}, appPrepare w (commandLineFactories w) s ds = .ok (.ready R) rest →
      R.alg.run (R.st.env R.fn) fuel rest = .ok r rest' → r.Last (R.st.env R.fn) x → hncoConclude R r x = ub := by
    intro ds R rest fuel r rest' x h hr hx
    obtain ⟨g, m', hR⟩ := hgood h
    obtain ⟨r', _, h1, _, _, h2⟩ := key hR (max fuel (2 ^ m.inputSize)) (by omega) rest (by simp)
    rcases complete_fuel halg' hR.alg (env := R.st.env R.fn) (le_max_left fuel (2 ^ m.inputSize)) rest with h | h
    · rw [hr] at h; cases h
    · rw [hr, h1] at h
      cases h
      exact h2 x hx
  constructor
  · intro he
    cases he with
    | options h => rw [hparse] at h; cases h
    | badOptions h => rfl
    | @failed _ ds _ h h' => rw [hparse] at h; cases h; have := hready ds; rw [h'] at this; exact this.elim
    | stuck h h' => rfl
    | @shown _ ds _ _ h h' =>
      rw [hparse] at h; cases h; have := hready ds; rw [h'] at this
      obtain ⟨R, h1, _⟩ := this
      cases h1
    | run h h' hr hlast hconc => rw [hparse] at h; cases h; rw [hend h' hr hlast] at hconc; cases hconc
    | runConcludes h h' => rfl
    | runFails h h' hr hlast hconc => rw [hparse] at h; cases h; rw [hend h' hr hlast] at hconc; cases hconc
    | @runThrows _ ds R rest fuel _ h h' hr =>
      rw [hparse] at h; cases h
      obtain ⟨g, m', hR⟩ := hgood h'
      obtain ⟨r', _, h1, _⟩ := key hR (max fuel (2 ^ m.inputSize)) (by omega) rest (by simp)
      rcases complete_fuel halg' hR.alg (env := R.st.env R.fn) (le_max_left fuel (2 ^ m.inputSize)) rest with h | h
      · rw [hr] at h; cases h
      · rw [hr, h1] at h; cases h
    | runStuck h h' => rfl
  · rintro rfl
    cases hprep : appPrepare w (commandLineFactories w) s [] with
    | ok p rest' =>
      have := hready []
      rw [hprep] at this
      obtain ⟨R, rfl, g, m', hQ, hR⟩ := this
      obtain ⟨r, rest'', h1, _, ⟨x, hx⟩, hall⟩ := key hR (2 ^ m.inputSize) le_rfl rest' (by simp)
      exact .runConcludes hparse hprep h1 hx (hall x hx)
    | throw e => have := hready []; rw [hprep] at this; exact this.elim
    | ub => have := hready []; rw [hprep] at this; exact this.elim
    | out =>
      exfalso
      rw [hncoPrepare_mapped hs hf hdocs hp hask hn happ1, hmap] at hprep
      change Sim.bind (Sim.lift (hncoCompose f (some m))) _ [] = _ at hprep
      cases hc : hncoCompose f (some m) with
      | throw e => rw [hc] at hprep; cases hprep
      | ub => rw [hc] at hprep; cases hprep
      | ok c =>
        rw [hc, sim_bind_ok] at hprep
        cases hgo : appGoOn w (commandLineFactories w) s app' (if s.raised "minimize" = true then opposite c else c) (some m) <;> rw [hgo] at hprep <;>
          cases hprep

end Hnco
