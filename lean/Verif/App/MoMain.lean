import Verif.App.OptionTables
import Verif.App.OptionRead
import Verif.App.MakeAdapter
import Verif.Multiobjective.Application

/-!
# Model of the program `hnco-mo`

Models `main` (`app/hnco-mo.cc:30-43`) and `CommandLineApplication::run`
(`lib/hnco/multiobjective/app/application.cc:162-172`), from the words of the command line to the exit status.  Simplifications:
numbers are rational or unbounded integers; the program is built without Python; the functions of the other threads are made but
not used, as in NSGA-II; parameters with a default value are read at once; the text of a display is not modelled, and what is
printed for an individual is its bit vector and its objectives.
-/

namespace Hnco

open Outcome

/-- What the program depends on: the conversions of options, logarithms, `std::stod`, the parsers of expressions over `double`,
`long` and `std::complex<double>` (with their constants), the files, and the test `rate < 1 / sqrt(n)` of the mutation operator
(`neighborhood.hh:282-287`). -/
structure MoWorld where
  opt : OptLib
  log : LogOps
  stod : List Char → Except ParseExn Rat
  doubles : List Char → Option (ParsedExpr Rat)
  longs : List Char → Option (ParsedExpr Int)
  complexes : List Char → Option (ParsedExpr (Rat × Rat))
  file : List Char → Option (List Char)
  belowSqrt : Rat → Nat → Bool

/-- A function: the number of bits, the number of objectives, and the evaluation. -/
structure MoFunction where
  size : Nat
  outputs : Nat
  eval : BV → Outcome MoValue

/-! ## Functions -/

/-- `read_file_content` (`parser.cc:33-43`). -/
def moReadFile (w : MoWorld) (path : List Char) : Outcome (List Char) :=
  match w.file path with
  | some text => ok text
  | none => .throw .runtimeError

/-- `get_expression` (`parser.hh:119-126`). -/
def moGetExpression (w : MoWorld) (s : OptState) : Outcome (List Char) :=
  if s.given "fp_expression" then hncoMoClass.str s "fp_expression"
  else do
    let path ← hncoMoClass.str s "path"
    moReadFile w path

/-- `get_representations` (`parser.hh:128-135`). -/
def moGetRepresentations (w : MoWorld) (s : OptState) : Outcome (List Char) :=
  if s.given "fp_representations" then hncoMoClass.str s "fp_representations"
  else do
    let path ← hncoMoClass.str s "fp_representations_path"
    moReadFile w path

/-- The options read by `parse_representations` and `get_default_representation` (`parser.hh:155-158`, `273-287`). -/
def moFpOptions (w : MoWorld) (s : OptState) : Outcome FpOptions := do
  let representations ← moGetRepresentations w s
  let precision ← optionalOf s "fp_default_double_precision" (hncoMoClass.double s "fp_default_double_precision")
  let size ← optionalOf s "fp_default_double_size" (hncoMoClass.int s "fp_default_double_size")
  let defaultInt ← hncoMoClass.str s "fp_default_int_rep"
  let defaultLong ← hncoMoClass.str s "fp_default_long_rep"
  let defaultDouble ← hncoMoClass.str s "fp_default_double_rep"
  ok ⟨w.stod, ⟨precision, size⟩, representations, defaultInt, defaultLong, defaultDouble⟩

/-- The construction of representations: `std::invalid_argument`, `std::out_of_range` (`ParseExn.conversion`) and
`std::bad_variant_access` do not derive from `std::runtime_error`, and are not caught by `main` (`hnco-mo.cc:36-42`): `none`. -/
def moUncaught {α : Type} : Except AdapterExn α → Sim (Option α)
  | .ok a => pure (some a)
  | .error (.parse .runtime) => Sim.lift (.throw .runtimeError)
  | .error (.parse .conversion) => pure none
  | .error (.parse .diverges) => fun _ => .out
  | .error .access => pure none
  | .error (.construct e) => Sim.lift (.throw e)
  | .error .undefined => Sim.lift .ub

/-- The sub expressions: an expression which is too long is never split (see `splitString`). -/
def moSplit (expression : List Char) : Sim (List (List Char)) :=
  match moExpressions expression with
  | some es => pure es
  | none => fun _ => .out

/-- The adapter as a function: `get_bv_size`, `get_output_size` and `evaluate` (`multivariate-function-adapter.hh:107-132`,
`218-242`).  Its state is not kept from an evaluation to another one, which makes no difference (see `moAdapter_objectives` and
`moMixed_objectives`). -/
def moAdapterFunction {D : Type} (evaluate : MoAdapter D → BV → MoValue → Outcome (MoAdapter D × MoValue)) (a : MoAdapter D) :
    Outcome MoFunction := do
  let size ← multivariateSize a.reps
  ok ⟨size, a.function.parsers.length, fun bv => do
    let r ← evaluate a bv (List.replicate a.function.parsers.length 0)
    ok r.2⟩

/-- `make_multivariate_function_adapter` (`make-multivariate-function-adapter.hh:59-92`), and the same for complex numbers
(`97-135`) and mixed representations (`143-181`): the function, or `none` if an exception which is not caught is thrown. -/
def moMake {D : Type} (w : MoWorld) (s : OptState) (zero : D) (parser : List Char → Option (ParsedExpr D))
    (reps : FpOptions → List (List Char) → Except AdapterExn (List (Rep D)))
    (evaluate : MoAdapter D → BV → MoValue → Outcome (MoAdapter D × MoValue)) : Sim (Option MoFunction) := do
  let expression ← Sim.lift (moGetExpression w s)
  let es ← moSplit expression
  let instance_ ← moParse zero parser es
  let o ← Sim.lift (moFpOptions w s)
  let made ← moUncaught (reps o instance_.orderedNames)
  match made with
  | none => pure none
  | some rs => do
    let a ← Sim.lift (moAdapterNew zero instance_ rs)
    let f ← Sim.lift (moAdapterFunction evaluate a)
    pure (some f)

/-- The representations of 32 bit integers, converted to `double`. -/
def makeIntReal (l : LogOps) (o : FpOptions) (names : List (List Char)) : Except AdapterExn (List (Rep Rat)) :=
  match makeInt l o names with
  | .ok rs => .ok (rs.map (fun r => r.map (fun z : Int => (z : Rat))))
  | .error e => .error e

/-- `CommandLineFunctionFactory::make` (`multiobjective/app/function-factory.cc:38-135`). -/
def moMakeFunction (w : MoWorld) (s : OptState) : Sim (Option MoFunction) := do
  let n ← Sim.lift (hncoMoClass.int s "bv_size")
  let k ← Sim.lift (hncoMoClass.int s "function")
  if n ≤ 0 then Sim.lift (.throw .runtimeError)
  else if k = 520 then moMake w s 0 w.doubles (makeDouble w.log) (moAdapterEvaluate scalarToDouble)
  else if k = 521 then moMake w s 0 w.longs (makeLong w.log) (moAdapterEvaluate (fun z : Int => scalarToDouble z))
  else if k = 522 then moMake w s (0, 0) w.complexes (makeComplex w.log) (moAdapterEvaluate squaredMagnitude)
  else if k = 523 then moMake w s 0 w.doubles (makeIntReal w.log) (moAdapterEvaluate scalarToDouble)
  else if k = 524 then moMake w s 0 w.doubles (makeMixed w.log) (moMixedEvaluate scalarToDouble)
  else if k = 530 then moMake w s 0 w.doubles (makeDouble w.log) (moAdapterEvaluate absoluteValue)
  else if k = 531 then moMake w s 0 w.longs (makeLong w.log) (moAdapterEvaluate (fun z : Int => absoluteValue z))
  else if k = 532 then moMake w s (0, 0) w.complexes (makeComplex w.log) (moAdapterEvaluate squaredMagnitude)
  else if k = 533 then moMake w s 0 w.doubles (makeIntReal w.log) (moAdapterEvaluate absoluteValue)
  else if k = 534 then moMake w s 0 w.doubles (makeMixed w.log) (moMixedEvaluate absoluteValue)
  else Sim.lift (.throw .runtimeError)

/-- The rest of the loop of `make_functions` (`multiobjective/app/application.cc:72-75`), for `n` more functions: whether they are
made without an exception which is not caught. -/
def moMakeOthers (w : MoWorld) (s : OptState) : Nat → Sim Bool
  | 0 => pure true
  | n + 1 => do
    let f ← moMakeFunction w s
    match f with
    | none => pure false
    | some _ => moMakeOthers w s n

/-! ## The program -/

/-- What is printed on the standard output: a page of the options; nothing, an exception being reported on the standard error
stream; the default parameters; a number of bits or of objectives; the display of the function; the individuals of the description,
if it is printed, and the values of the Pareto front, if it is printed. -/
inductive MoPrinted where
  | page (page : Option String)
  | message
  | parameters
  | bvSize (n : Nat)
  | outputSize (m : Nat)
  | display
  | results (description : Option (List (BV × MoValue))) (front : Option (List MoValue))

/-- How the program ends: with a status; by `std::terminate`, since an exception is not caught; or undefined behavior. -/
inductive MoEnd where
  | exit (status : Nat) (printed : MoPrinted)
  | terminated
  | undefined

/-- The options of the algorithm (`multiobjective/app/algorithm-factory.cc:42-48`), with the default mutation rate `1 / n`
(`nsga2.hh:156`).  The distributions of the mutation operator are undefined for a rate which is not a probability
(`neighborhood.hh:282-287`): here they are made before the tournaments. -/
def moOptionsOf (w : MoWorld) (s : OptState) (n : Nat) : Outcome MoOptions := do
  let algorithm ← hncoMoClass.int s "algorithm"
  let eaMu ← hncoMoClass.int s "ea_mu"
  let tournamentSize ← hncoMoClass.int s "ea_tournament_size"
  let numIterations ← hncoMoClass.int s "num_iterations"
  let rate ← optionalOf s "ea_mutation_rate" (hncoMoClass.double s "ea_mutation_rate")
  let rate := rate.getD (1 / (n : Rat))
  assert (decide (0 ≤ rate ∧ rate ≤ 1))
  ok ⟨algorithm, eaMu, tournamentSize, numIterations, w.belowSqrt rate n, s.raised "ea_allow_no_mutation"⟩

/-- The end of `run` (`multiobjective/app/application.cc:166-171`): `print_information` (`86-104`), `make_algorithm`, `minimize`
and `manage_solutions` (`128-160`).  The number of fronts of a population is bounded by its size. -/
def moFinish (w : MoWorld) (s : OptState) (f : MoFunction) : Sim MoEnd :=
  if s.raised "fn_get_bv_size" then pure (.exit 0 (.bvSize f.size))
  else if s.raised "fn_get_output_size" then pure (.exit 0 (.outputSize f.outputs))
  else if s.raised "fn_display" then pure (.exit 0 .display)
  else do
    let o ← Sim.lift (moOptionsOf w s f.size)
    let r ← moRun o f.eval f.size f.outputs (2 * o.eaMu).toNat
    pure (.exit 0 (.results (if s.raised "print_description" then some r.1 else none)
      (if s.raised "print_pareto_front" then some (r.1.map Prod.snd) else none)))

/-- `run` after the first function is made (`multiobjective/app/application.cc:72-76`, `166-171`): the functions of the `n` other
threads, then the end. -/
def moGoOn (w : MoWorld) (s : OptState) (n : Nat) : Option MoFunction → Sim MoEnd
  | none => pure .terminated
  | some f => do
    let others ← moMakeOthers w s n
    if others then moFinish w s f else pure .terminated

/-- `run` (`multiobjective/app/application.cc:162-172`), with `init` (`44-67`) and `make_functions` (`69-84`). -/
def moProgram (w : MoWorld) (s : OptState) : Sim MoEnd :=
  if s.raised "print_default_parameters" then pure (.exit 0 .parameters)
  else do
    let threads ← Sim.lift (hncoMoClass.int s "num_threads")
    if threads < 1 then Sim.lift (.throw .runtimeError)
    else do
      let first ← moMakeFunction w s
      moGoOn w s (threads.toNat - 1) first

/-- The handler of `main` (`hnco-mo.cc:39-42`): all exceptions of the model are runtime errors. -/
def moCatch (m : Sim MoEnd) : Sim MoEnd := fun ds =>
  match m ds with
  | .ok e ds => .ok e ds
  | .throw _ => .ok (.exit 1 .message) []
  | .ub => .ok .undefined []
  | .out => .out

/-- `main` (`hnco-mo.cc:30-43`), on the words of the command line which follow the name of the program. -/
def hncoMoMain (w : MoWorld) (argv : List (List Char)) : Sim MoEnd :=
  match hncoMoClass.parse w.opt false argv with
  | .ok s => moCatch (moProgram w s)
  | .error (.exit status page) => pure (.exit status (.page page))
  | .error .undefined => pure .undefined

end Hnco
