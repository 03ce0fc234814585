import Verif.App.OptionTables
import Verif.App.Options
import Verif.App.Factory
import Verif.App.Information
import Verif.App.HncoRun
import Verif.App.Modifier
import Verif.Serialization.Model

/-!
# Model of the program `hnco`

Models `main` (`app/hnco.cc:30-43`) and `CommandLineApplication::run` (`lib/hnco/app/application.cc:317-326`), from the words of the
command line to the exit status.  Simplifications: numbers are rational; a single thread; functions with modifiers other than
`--minimize` and maps, or not modelled in `Factory.lean`, incremental evaluation, and the algorithms of other libraries are left
out (`Prepared.notModelled`); parameters are read at once, which makes no difference since those which are read here have default
values; no solution, description or result is saved.
-/

namespace Hnco

open Outcome

/-! ## Reading options -/

/-- A parameter of type `int` of `HncoOptions`. -/
def OptState.int (s : OptState) (name : String) : Outcome Int := do
  let v ← hncoClass.get s name
  match v with
  | .int n => ok n
  | _ => ub

/-- A parameter of type `double` of `HncoOptions`. -/
def OptState.double (s : OptState) (name : String) : Outcome Rat := do
  let v ← hncoClass.get s name
  match v with
  | .double r => ok r
  | _ => ub

/-- A parameter of type `bool` of `HncoOptions`. -/
def OptState.bool (s : OptState) (name : String) : Outcome Bool := do
  let v ← hncoClass.get s name
  match v with
  | .bool b => ok b
  | _ => ub

/-- A parameter of type `std::string` of `HncoOptions`. -/
def OptState.str (s : OptState) (name : String) : Outcome (List Char) := do
  let v ← hncoClass.get s name
  match v with
  | .str t => ok t
  | _ => ub

/-- A parameter which is read only if it has been set: `if (_options.with_...()) ..._options.get_...()` (for example
`algorithm-factory.cc:195-196`). -/
def OptState.optional (s : OptState) (name : String) : Outcome (Option Rat) :=
  if s.given name then do
    let r ← s.double name
    ok (some r)
  else ok none

/-- The options read by `make_function_controller` (`decorated-function-factory.cc:271-308`) and by `CommandLineApplication`
(`application.cc:236`, `258`, `308`). -/
def appOptionsOf (s : OptState) : Outcome (AppOptions Rat) := do
  let budget ← s.int "budget"
  let target ← s.optional "target"
  ok { budget := budget
       cache := s.raised "cache"
       cacheBudget := s.raised "cache_budget"
       stopOnMaximum := s.raised "stop_on_maximum"
       target := target
       concreteSolution := s.raised "concrete_solution"
       printDescription := s.raised "print_description" }

/-- The flags read by `print_information` (`application.cc:105-167`). -/
def infoOptionsOf (s : OptState) : InfoOptions where
  hasKnownMaximum := s.raised "fn_has_known_maximum"
  getMaximum := s.raised "fn_get_maximum"
  getBvSize := s.raised "fn_get_bv_size"
  providesIncremental := s.raised "fn_provides_incremental_evaluation"
  walshTransform := s.raised "fn_walsh_transform"
  display := s.raised "fn_display"
  mapDisplay := s.raised "map_display"

/-- The number of a function.  Negative numbers are those of no function, as 2 is (`function-factory.cc:41-418`). -/
def functionNumber (k : Int) : Nat := if k < 0 then 2 else k.toNat

/-- The number of a representation.  Negative numbers are those of no representation, as 2 is (`function-factory.cc:208-222`). -/
def representationNumber (k : Int) : Nat := if k < 0 then 2 else k.toNat

/-- The options read by the function factory (`function-factory.cc:38-221`). -/
def factoryOptionsOf (s : OptState) : Outcome FactoryOptions := do
  let function ← s.int "function"
  let bvSize ← s.int "bv_size"
  let threshold ← s.int "fn_threshold"
  let numTraps ← s.int "fn_num_traps"
  let prefixLength ← s.int "fn_prefix_length"
  let categorical ← s.int "rep_categorical_representation"
  ok { function := functionNumber function
       bvSize := bvSize
       threshold := threshold
       numTraps := numTraps.toNat
       prefixLength := prefixLength.toNat
       categorical := representationNumber categorical }

/-- The first half of the options read by the algorithm factory (`algorithm-factory.cc:43-331`). -/
def algOptionsOf1 (s : OptState) : Outcome AlgOptions := do
  let algorithm ← s.int "algorithm"
  let numIterations ← s.int "num_iterations"
  let neighborhood ← s.int "neighborhood"
  let neighborhoodIterator ← s.int "neighborhood_iterator"
  let radius ← s.int "radius"
  let rlsPatience ← s.int "rls_patience"
  let saNumTransitions ← s.int "sa_num_transitions"
  let saNumTrials ← s.int "sa_num_trials"
  let eaMutationRate ← s.optional "ea_mutation_rate"
  let eaMutationRateMin ← s.optional "ea_mutation_rate_min"
  let eaMutationRateMax ← s.double "ea_mutation_rate_max"
  let eaSuccessRatio ← s.double "ea_success_ratio"
  let eaUpdateStrength ← s.double "ea_update_strength"
  let eaMu ← s.int "ea_mu"
  let eaLambda ← s.int "ea_lambda"
  let eaTournamentSize ← s.int "ea_tournament_size"
  let eaCrossoverBias ← s.double "ea_crossover_bias"
  let eaItInitialHammingWeight ← s.int "ea_it_initial_hamming_weight"
  let eaItReplacement ← s.int "ea_it_replacement"
  ok { algorithm := algorithm
       numIterations := numIterations
       neighborhood := neighborhood
       neighborhoodIterator := neighborhoodIterator
       radius := radius
       incrementalEvaluation := s.raised "incremental_evaluation"
       rlsPatience := rlsPatience
       rlsStrict := s.raised "rls_strict"
       saNumTransitions := saNumTransitions
       saNumTrials := saNumTrials
       eaAllowNoMutation := s.raised "ea_allow_no_mutation"
       eaMutationRate := eaMutationRate
       eaMutationRateMin := eaMutationRateMin
       eaMutationRateMax := eaMutationRateMax
       eaSuccessRatio := eaSuccessRatio
       eaUpdateStrength := eaUpdateStrength
       eaMu := eaMu
       eaLambda := eaLambda
       eaTournamentSize := eaTournamentSize
       eaCrossoverBias := eaCrossoverBias
       eaItInitialHammingWeight := eaItInitialHammingWeight
       eaItReplacement := eaItReplacement }

/-- The options read by the algorithm factory (`algorithm-factory.cc:43-545`). -/
def algOptionsOf (s : OptState) : Outcome AlgOptions := do
  let o ← algOptionsOf1 s
  let populationSize ← s.int "population_size"
  let selectionSize ← s.int "selection_size"
  let learningRate ← s.double "learning_rate"
  let ramTsLength ← s.int "ram_ts_length"
  let ramTsLengthDistributionParameter ← s.double "ram_ts_length_distribution_parameter"
  let ramTsLengthIncrementPeriod ← s.int "ram_ts_length_increment_period"
  let ramTsLengthLowerBound ← s.int "ram_ts_length_lower_bound"
  let ramTsLengthMode ← s.int "ram_ts_length_mode"
  let ramTsLengthUpperBound ← s.int "ram_ts_length_upper_bound"
  let ramCrossoverProbability ← s.double "ram_crossover_probability"
  let ramLatentSpaceProbability ← s.double "ram_latent_space_probability"
  let heaBoundMoment ← s.bool "hea_bound_moment"
  let heaRandomizeBitOrder ← s.bool "hea_randomize_bit_order"
  let heaResetPeriod ← s.int "hea_reset_period"
  let bmNumGsCycles ← s.int "bm_num_gs_cycles"
  let bmNumGsSteps ← s.int "bm_num_gs_steps"
  let bmResetMode ← s.int "bm_reset_mode"
  let bmSamplingMode ← s.int "bm_sampling_mode"
  ok { o with
       populationSize := populationSize
       selectionSize := selectionSize
       learningRate := learningRate
       ramTsLength := ramTsLength
       ramTsLengthDistributionParameter := ramTsLengthDistributionParameter
       ramTsLengthIncrementPeriod := ramTsLengthIncrementPeriod
       ramTsLengthLowerBound := ramTsLengthLowerBound
       ramTsLengthMode := ramTsLengthMode
       ramTsLengthUpperBound := ramTsLengthUpperBound
       ramCrossoverProbability := ramCrossoverProbability
       ramLatentSpaceProbability := ramLatentSpaceProbability
       mmasStrict := s.raised "mmas_strict"
       heaBoundMoment := heaBoundMoment
       heaRandomizeBitOrder := heaRandomizeBitOrder
       heaResetPeriod := heaResetPeriod
       bmNumGsCycles := bmNumGsCycles
       bmNumGsSteps := bmNumGsSteps
       bmResetMode := bmResetMode
       bmSamplingMode := bmSamplingMode
       bmNegativePositiveSelection := s.raised "bm_negative_positive_selection" }

/-! ## Before the algorithm -/

/-- What the program finds outside: the libraries, the files with functions, those with maps and those with solutions (none for a file
which cannot be opened), and the value of a default constructed event of the tracker. -/
structure HncoWorld where
  opt : OptLib
  alg : AlgLib
  fn : FactoryLib Rat
  file : List Char → Option (InstanceFile Rat)
  mapFile : List Char → Option (List (Tok Rat))
  solution : List Char → Option (List Char)
  event : Rat

/-- The functions which are read from the file at `_path` (`function-factory.cc:47-227`). -/
def readsFile (function : Nat) : Bool :=
  decide (function ∈ [1, 50, 60, 70, 71, 90, 91, 150, 160, 161, 162, 171, 172, 190, 200])

/-- `make_function` (`decorated-function-factory.cc:191-208`); the classes which read a file throw if it cannot be opened (for example
`lib/hnco/serialization.hh:46-48`). -/
def hncoFunction (w : HncoWorld) (s : OptState) : Outcome (Made Rat) := do
  let fo ← factoryOptionsOf s
  let path ← s.str "path"
  if fo.bvSize ≤ 0 then throw .runtimeError
  else if readsFile fo.function then
    match w.file path with
    | none => throw .runtimeError
    | some file => makeFunction w.fn fo file
  else makeFunction w.fn fo ⟨[], none⟩

/-- Whether there is a modifier which is not modelled in this file (`decorated-function-factory.cc:231-250`). -/
def hncoModified (s : OptState) : Bool := s.raised "prior_noise" || s.raised "parsed_modifier" || s.raised "additive_gaussian_noise"

/-- The mode of an `int` (`lib/hnco/maps/map.hh:627-643`), if there is one. -/
def samplingModeOf (k : Int) : Option SamplingMode :=
  if k = 0 then some .unconstrained
  else if k = 1 then some .commuting
  else if k = 2 then some .uniqueSource
  else if k = 3 then some .uniqueDestination
  else if k = 4 then some .disjoint
  else if k = 5 then some .nonCommuting
  else none

/-- The map, if there is one (`decorated-function-factory.cc:219-223`, with `make_map` and `load_map`, `38-151`).  The length of a
random transvection sequence must not be negative, and its mode must be known (`lib/hnco/maps/map.cc:194-231`): the random numbers which
are drawn before an unknown mode is refused are left out.  A file with a map which cannot be opened, or the archive of which
cannot be read, is an error. -/
def hncoMap (w : HncoWorld) (s : OptState) (bvSize : Nat) : Sim (Option MapObj) :=
  Sim.bind (Sim.lift (s.int "map")) fun kind =>
  Sim.bind (Sim.lift (s.int "map_input_size")) fun inputSize =>
  Sim.bind (Sim.lift (s.int "map_ts_length")) fun length =>
  Sim.bind (Sim.lift (s.int "map_ts_sampling_mode")) fun mode =>
  Sim.bind (Sim.lift (s.str "map_path")) fun path =>
  if kind ≤ 0 then pure none
  else if 6 < kind then Sim.lift (Outcome.throw .runtimeError)
  else if s.raised "map_random" then
    Sim.bind (if kind = 6 then
        Sim.bind (Sim.lift (assert (decide (length ≥ 0)))) fun _ =>
        match samplingModeOf mode with
        | some mode => pure mode
        | none => Sim.lift (Outcome.throw .runtimeError)
      else pure SamplingMode.unconstrained) fun mode =>
    Sim.bind (makeMap ⟨kind.toNat, inputSize, s.raised "map_surjective", length.toNat, mode, none⟩ bvSize) fun m =>
    pure (some m)
  else
    match w.mapFile path with
    | none => Sim.lift (Outcome.throw .runtimeError)
    | some tokens =>
      Sim.bind (Sim.lift (loadMap kind.toNat tokens)) fun m =>
      Sim.bind (makeMap ⟨kind.toNat, inputSize, s.raised "map_surjective", length.toNat, .unconstrained, some m⟩ bvSize) fun m =>
      pure (some m)

/-- `FunctionMapComposition` (`modifiers/modifier.hh:83-142`, `modifier.cc:42-47`) as a function.  Simplifications: the buffer `_output` has
the given contents at each evaluation, which makes no difference for the maps of `make_map`, since they write all of it; if
`is_surjective` has no result, then the maximum is not known. -/
def composedFn (f : Fn Rat) (m : MapObj) (output : BV) : Fn Rat where
  size := m.inputSize
  hasMax := match functionMapHasMax f m with
    | .ok b => b
    | _ => false
  maximum := functionMapMaximum f m
  eval := fun x => do
    let r ← functionMapEvaluate f m output x
    ok r.1
  hasInc := false
  evalInc := fun _ _ _ => .throw .runtimeError

/-- The composition of a function and a map, if there is one (`decorated-function-factory.cc:222`). -/
def hncoCompose (f : Fn Rat) : Option MapObj → Outcome (Fn Rat)
  | none => ok f
  | some m => do
    let output ← functionMapNew f m
    ok (composedFn f m output)

/-- What is known when the algorithm is run. -/
structure HncoReady where
  fn : Fn Rat
  map : Option MapObj
  app : AppOptions Rat
  st : FnStack Rat
  alg : MadeAlgorithm Rat

/-- What is printed by a program which ends with `exit(0)` before the algorithm is run: the default parameters, the value of a
solution, if it is printed, or information. -/
inductive HncoShown where
  | parameters
  | loaded (value : Option Rat)
  | info (i : Info Rat)

/-- The end of the preparation. -/
inductive Prepared where
  | shown (x : HncoShown)
  | ready (r : HncoReady)
  | notModelled

/-- `load_solution` (`application.cc:83-100`); without `--print-results` the solution is not evaluated. -/
def hncoLoad (w : HncoWorld) (s : OptState) (st : FnStack Rat) (size : Nat) : Outcome HncoShown := do
  let path ← s.str "solution_path"
  match w.solution path with
  | none => throw .runtimeError
  | some text =>
    if s.raised "print_results" then do
      let v ← appLoad st size text
      ok (.loaded (some v))
    else do
      let r ← bvFromStream text
      if r.1.length ≠ size then throw .runtimeError else ok (.loaded none)

/-- The factories which are passed to the application (`application.hh:83-95`, `app/hnco.cc:33-35`): `make_function`
(`decorated-function-factory.cc:191-208`) with the function factory, and `make` of the algorithm factory for vectors of the given size, which is
none for an algorithm which is not modelled. -/
structure AppFactories where
  makeFunction : OptState → Outcome (Made Rat)
  makeAlgorithm : OptState → Nat → Outcome (Option (MadeAlgorithm Rat))

/-- `CommandLineAlgorithmFactory::make` (`algorithm-factory.cc:94-560`). -/
def hncoMakeAlgorithm (w : HncoWorld) (s : OptState) (n : Nat) : Outcome (Option (MadeAlgorithm Rat)) :=
  Outcome.bind (algOptionsOf s) fun ao =>
  if ao.incrementalEvaluation then ok none
  else
    match makeAlgorithm (K := Rat) w.alg ao n with
    | .wrapper => ok none
    | .own made =>
      Outcome.bind made fun m =>
      ok (some m)

/-- The factories of the program `hnco` (`app/hnco.cc:33-34`). -/
def commandLineFactories (w : HncoWorld) : AppFactories := ⟨hncoFunction w, hncoMakeAlgorithm w⟩

/-- `make_algorithm` (`application.cc:177-191`), and what is known then. -/
def appAlgorithm (F : AppFactories) (s : OptState) (fn : Fn Rat) (map : Option MapObj) (app : AppOptions Rat) (st : FnStack Rat) :
    Outcome Prepared :=
  Outcome.bind (F.makeAlgorithm s fn.size) fun m =>
  match m with
  | none => ok .notModelled
  | some m => ok (.ready ⟨fn, map, app, st, if s.raised "restart" then m.restart else m⟩)

/-- The part of `run` which deals with a function (`application.cc:79-99`, `320-324`). -/
def appSteps (w : HncoWorld) (F : AppFactories) (s : OptState) (fn : Fn Rat) (map : Option MapObj) : Sim Prepared :=
  Sim.bind (Sim.lift (appOptionsOf s)) fun app =>
  Sim.bind (Sim.lift (makeController app fn w.event)) fun st =>
  if s.raised "load_solution" then
    Sim.bind (Sim.lift (hncoLoad w s st fn.size)) fun x =>
    pure (.shown x)
  else
    Sim.bind (printInformation (infoOptionsOf s) app fn st map) fun i =>
    match i with
    | some i => pure (.shown (.info i))
    | none => Sim.lift (appAlgorithm F s fn map app st)

/-- `run` up to the run of the algorithm (`application.cc:47-81`, `317-324`). -/
def appPrepare (w : HncoWorld) (F : AppFactories) (s : OptState) : Sim Prepared :=
  if s.raised "print_default_parameters" then pure (.shown .parameters)
  else
    Sim.bind (Sim.lift (s.int "num_threads")) fun threads =>
    if threads < 1 then Sim.lift (Outcome.throw .runtimeError)
    else if threads > 1 then pure .notModelled
    else
      Sim.bind (Sim.lift (F.makeFunction s)) fun made =>
      match made with
      | .plain f =>
        Sim.bind (Sim.lift (assert (decide (f.size > 0)))) fun _ =>
        Sim.bind (hncoMap w s f.size) fun map =>
        Sim.bind (Sim.lift (hncoCompose f map)) fun f =>
        if hncoModified s then pure .notModelled
        else appSteps w F s (if s.raised "minimize" then opposite f else f) map
      | _ => pure .notModelled

/-! ## The program -/

/-- The end of `maximize` (`application.cc:282-315`) with `manage_solution` (`application.cc:231-267`): in the results, the solution is
the one which is printed or saved. -/
def hncoConclude (R : HncoReady) (r : RunResult Rat) (x : BV) : Outcome (AppResult Rat) :=
  Outcome.bind (appConclude R.app R.st r x) fun res =>
  Outcome.bind (appConcrete R.app R.map res.solution) fun y =>
  Outcome.bind (if R.app.printDescription then fnDescribed R.map (R.map.elim [] fun m => List.replicate m.outputSize false) y
    else ok y) fun _ =>
  ok { res with solution := y }

/-- What is printed: a page of help, or none with a message about the options; the message of an exception; what is shown before the
algorithm is run; the results. -/
inductive Printed where
  | page (page : Option String)
  | message
  | shown (x : HncoShown)
  | results (res : AppResult Rat)

/-- How the program ends: with an exit status, after what is printed, or with undefined behaviour. -/
inductive ProgramEnd where
  | exit (status : Nat) (printed : Printed)
  | undefined

/-- `main` (`app/hnco.cc:30-43`): the ends of the program which are possible with the given command line and factories.  All exceptions are caught
by `main`, since those of the controllers derive from `std::runtime_error` (`lib/hnco/exception.hh:33-44`). -/
inductive AppEnds (w : HncoWorld) (F : AppFactories) (argv : List (List Char)) : ProgramEnd → Prop
  | options {status page} : hncoClass.parse w.opt false argv = .error (.exit status page) → AppEnds w F argv (.exit status (.page page))
  | badOptions : hncoClass.parse w.opt false argv = .error .undefined → AppEnds w F argv .undefined
  | failed {s ds e} : hncoClass.parse w.opt false argv = .ok s → appPrepare w F s ds = .throw e → AppEnds w F argv (.exit 1 .message)
  | stuck {s ds} : hncoClass.parse w.opt false argv = .ok s → appPrepare w F s ds = .ub → AppEnds w F argv .undefined
  | shown {s ds x rest} : hncoClass.parse w.opt false argv = .ok s → appPrepare w F s ds = .ok (.shown x) rest →
      AppEnds w F argv (.exit 0 (.shown x))
  | run {s ds R rest fuel r rest' x res} : hncoClass.parse w.opt false argv = .ok s → appPrepare w F s ds = .ok (.ready R) rest →
      R.alg.run (R.st.env R.fn) fuel rest = .ok r rest' → (∀ e, r.ending = .error e → (R.st.env R.fn).stop r.calls x = some e) →
      hncoConclude R r x = ok res → AppEnds w F argv (.exit res.exit (.results res))
  | runConcludes {s ds R rest fuel r rest' x} : hncoClass.parse w.opt false argv = .ok s →
      appPrepare w F s ds = .ok (.ready R) rest → R.alg.run (R.st.env R.fn) fuel rest = .ok r rest' →
      (∀ e, r.ending = .error e → (R.st.env R.fn).stop r.calls x = some e) → hncoConclude R r x = ub →
      AppEnds w F argv .undefined
  | runFails {s ds R rest fuel r rest' x e} : hncoClass.parse w.opt false argv = .ok s →
      appPrepare w F s ds = .ok (.ready R) rest → R.alg.run (R.st.env R.fn) fuel rest = .ok r rest' →
      (∀ e, r.ending = .error e → (R.st.env R.fn).stop r.calls x = some e) → hncoConclude R r x = Outcome.throw e →
      AppEnds w F argv (.exit 1 .message)
  | runThrows {s ds R rest fuel e} : hncoClass.parse w.opt false argv = .ok s → appPrepare w F s ds = .ok (.ready R) rest →
      R.alg.run (R.st.env R.fn) fuel rest = .throw e → AppEnds w F argv (.exit 1 .message)
  | runStuck {s ds R rest fuel} : hncoClass.parse w.opt false argv = .ok s → appPrepare w F s ds = .ok (.ready R) rest →
      R.alg.run (R.st.env R.fn) fuel rest = .ub → AppEnds w F argv .undefined

/-- The ends of the program `hnco`. -/
abbrev HncoEnds (w : HncoWorld) : List (List Char) → ProgramEnd → Prop := AppEnds w (commandLineFactories w)

end Hnco
