import Verif.App.OptionTables
import Verif.App.OptionRead
import Verif.App.Ffgen
import Verif.App.Main

/-!
# Model of the programs `ffgen` and `mapgen`

Models `main` of `app/ffgen.cc` and of `app/mapgen.cc`, from the words of the command line to the exit status and the file.
Simplifications: numbers are rational; options are read at once; the seed and the messages are left out; a file which can be
opened is written without errors.
-/

namespace Hnco

open Outcome

/-- What the programs find outside: the conversions of options, the numerical library, and whether a file can be opened for
writing. -/
structure GenWorld where
  opt : OptLib
  num : Numerics Rat
  writable : List Char → Bool

/-- How the programs end: with a page of help, or none with a message about the options; with an exit status, after the file at a
path is written or without file; with an exception which is not caught; or with undefined behaviour. -/
inductive GenEnd where
  | page (status : Nat) (page : Option String)
  | exit (status : Nat) (written : Option (List Char × FfgenFile Rat))
  | terminated
  | undefined

/-- The number of a generator.  Negative numbers are those of no generator, as 4 is (`app/ffgen.cc:43-68`, `82-94`, `107-135`,
`149-181`). -/
def generatorNumber (k : Int) : Nat := if k < 0 then 4 else k.toNat

/-- The options read by `generate_function` (`app/ffgen.cc:39-294`).  A negative size fails the same assertions as zero, except for
planted solutions (see `ffgenProgram`).  Negative numbers are those of no function, as 2 is. -/
def ffgenOptionsOf (s : OptState) : Outcome (FfgenOptions Rat) := do
  let function ← ffgenClass.int s "function"
  let bvSize ← ffgenClass.int s "bv_size"
  let stddev ← ffgenClass.double s "stddev"
  let linGenerator ← ffgenClass.int s "lin_generator"
  let linInitialWeight ← ffgenClass.double s "lin_initial_weight"
  let linDistance ← ffgenClass.double s "lin_distance"
  let linRatio ← ffgenClass.double s "lin_ratio"
  let nkK ← ffgenClass.int s "nk_k"
  let msNumClauses ← ffgenClass.int s "ms_num_clauses"
  let msNumLiterals ← ffgenClass.int s "ms_num_literals_per_clause"
  let epUpperBound ← ffgenClass.double s "ep_upper_bound"
  let partUpperBound ← ffgenClass.int s "part_upper_bound"
  let walshNumFeatures ← ffgenClass.int s "walsh_num_features"
  let walsh2Generator ← ffgenClass.int s "walsh2_generator"
  let walsh2Alpha ← ffgenClass.double s "walsh2_ising_alpha"
  let nn1Generator ← ffgenClass.int s "nn1_generator"
  let nn2Generator ← ffgenClass.int s "nn2_generator"
  let nn2Rows ← ffgenClass.int s "nn2_num_rows"
  let nn2Columns ← ffgenClass.int s "nn2_num_columns"
  let couplingConstant ← ffgenClass.double s "coupling_constant"
  let fieldConstant ← ffgenClass.double s "field_constant"
  let sudokuEmptyCells ← ffgenClass.int s "sudoku_num_empty_cells"
  ok { function := functionNumber function
       bvSize := bvSize.toNat
       stddev := stddev
       linGenerator := generatorNumber linGenerator
       linInitialWeight := linInitialWeight
       linDistance := linDistance
       linRatio := linRatio
       nkK := nkK.toNat
       msNumClauses := msNumClauses.toNat
       msNumLiterals := msNumLiterals.toNat
       msPlanted := s.raised "ms_planted_solution"
       epUpperBound := epUpperBound
       partUpperBound := partUpperBound.toNat
       walshNumFeatures := walshNumFeatures.toNat
       walsh2Generator := generatorNumber walsh2Generator
       walsh2Alpha := walsh2Alpha
       nn1Generator := generatorNumber nn1Generator
       nn2Generator := generatorNumber nn2Generator
       nn2Rows := nn2Rows.toNat
       nn2Columns := nn2Columns.toNat
       couplingConstant := couplingConstant
       fieldConstant := fieldConstant
       periodic := s.raised "periodic_boundary_conditions"
       sudokuEmptyCells := sudokuEmptyCells.toNat }

/-- The handlers of `main` (`app/ffgen.cc:313-316`, `app/mapgen.cc:139-142`): all exceptions of the model are runtime errors. -/
def genCatch (m : Sim GenEnd) : Sim GenEnd := fun ds =>
  match m ds with
  | .ok e ds => .ok e ds
  | .throw _ => .ok (.exit 1 none) []
  | .ub => .ok .undefined []
  | .out => .out

/-- `generate_function` (`app/ffgen.cc:195-294`) with the file (`lib/hnco/serialization.hh:64-76`,
`lib/hnco/functions/collection/max-sat.hh:100-105`, `sudoku.hh:112-117`).  The bit vector for a planted solution of negative size
(`app/ffgen.cc:218`) cannot be made: `std::length_error` does not derive from `std::runtime_error`. -/
def ffgenProgram (w : GenWorld) (s : OptState) : Sim GenEnd := do
  let path ← Sim.lift (ffgenClass.str s "path")
  let size ← Sim.lift (ffgenClass.int s "bv_size")
  let o ← Sim.lift (ffgenOptionsOf s)
  if o.function = 70 ∧ o.msPlanted = true ∧ size < 0 then pure .terminated
  else do
    let file ← ffgen w.num o
    if w.writable path then pure (.exit 0 (some (path, file))) else Sim.lift (.throw .runtimeError)

/-- `main` (`app/ffgen.cc:297-319`), on the words of the command line which follow the name of the program. -/
def ffgenMain (w : GenWorld) (argv : List (List Char)) : Sim GenEnd :=
  match ffgenClass.parse w.opt false argv with
  | .ok s => genCatch (ffgenProgram w s)
  | .error (.exit status page) => pure (.page status page)
  | .error .undefined => pure .undefined

/-- `generate_map` (`app/mapgen.cc:38-120`) with the file.  A negative size fails the same assertions as zero.  The length of a
transvection sequence must not be negative, and its mode must be known (`lib/hnco/maps/map.cc:194-231`): the random numbers which
are drawn before an unknown mode is refused are left out.  An unknown map ends the program with status 1.  A file which cannot be opened is not
reported; the archive on its stream throws `boost::archive::archive_exception`, which does not derive from `std::runtime_error`
(assumed of boost, see `Serialization/Model.lean`). -/
def mapgenProgram (w : GenWorld) (s : OptState) : Sim GenEnd := do
  let path ← Sim.lift (mapgenClass.str s "path")
  let kind ← Sim.lift (mapgenClass.int s "map")
  let inputSize ← Sim.lift (mapgenClass.int s "input_size")
  let outputSize ← Sim.lift (mapgenClass.int s "output_size")
  let length ← Sim.lift (mapgenClass.int s "ts_length")
  let mode ← Sim.lift (mapgenClass.int s "ts_sampling_mode")
  if kind < 1 ∨ 6 < kind then pure (.exit 1 none)
  else do
    let mode ← (if kind = 6 then do
        Sim.lift (assert (decide (inputSize > 0)))
        Sim.lift (assert (decide (length ≥ 0)))
        match samplingModeOf mode with
        | some mode => pure mode
        | none => Sim.lift (.throw .runtimeError)
      else pure SamplingMode.unconstrained)
    let tokens ← mapgen (K := Rat) ⟨kind.toNat, inputSize.toNat, outputSize.toNat, s.raised "surjective", length.toNat, mode⟩
    if w.writable path then pure (.exit 0 (some (path, .archive tokens))) else pure .terminated

/-- `main` (`app/mapgen.cc:123-145`), on the words of the command line which follow the name of the program. -/
def mapgenMain (w : GenWorld) (argv : List (List Char)) : Sim GenEnd :=
  match mapgenClass.parse w.opt false argv with
  | .ok s => genCatch (mapgenProgram w s)
  | .error (.exit status page) => pure (.page status page)
  | .error .undefined => pure .undefined

end Hnco
