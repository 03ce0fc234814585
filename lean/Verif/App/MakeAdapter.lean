import Verif.App.Model
import Verif.Representation.Adapter

/-!
# Model of the construction of multivariate function adapters

Models `lib/hnco/app/make-multivariate-function-adapter.hh`.  The expression is parsed by an external library: the names of
its variables are a parameter of the model, and so is the function it denotes.  Doubles are replaced by rationals.
-/

namespace Hnco

open Outcome

/-- The ways in which making an adapter fails: parsing representations fails; `std::get` throws `std::bad_variant_access`, which
does not derive from `std::runtime_error`; the constructor of a representation throws; undefined behaviour. -/
inductive AdapterExn where
  | parse (e : ParseExn)
  | access
  | construct (e : Exn)
  | undefined
  deriving DecidableEq

/-- A call of the parser. -/
def liftParse {α : Type} : Except ParseExn α → Except AdapterExn α
  | .ok a => .ok a
  | .error e => .error (.parse e)

/-- A call of a constructor. -/
def liftConstruct {α : Type} : Outcome α → Except AdapterExn α
  | .ok a => .ok a
  | .throw e => .error (.construct e)
  | .ub => .error .undefined

/-- `param_var_t::index` (`parser.hh:115`). -/
def RepParams.index : RepParams → Nat
  | .int _ _ => 0
  | .long _ _ => 1
  | .doublePrecision _ _ _ => 2
  | .doubleSize _ _ _ => 2
  | .set _ => 3

/-- The floating point computations of sizes: `std::ceil(std::log(n) / std::log(2))`, for integers and for reals. -/
structure LogOps where
  ceilLog2 : Nat → Nat
  ceilLog2Real : Rat → Int

/-- `IntRepParams::to_rep` (`parser.hh:63`) and `LongRepParams::to_rep` (`parser.hh:74`), for a type of `w` bits. -/
def integerToRep (l : LogOps) (w : Nat) (a b : Int) : Except AdapterExn (Rep Int) := do
  let r ← liftConstruct (dyadicExact w l.ceilLog2 a b)
  .ok r.rep

/-- `param_var_to_rep<IntRep>` (`make-multivariate-function-adapter.hh:36-39`). -/
def intRep (l : LogOps) : RepParams → Except AdapterExn (Rep Int)
  | .int a b => integerToRep l 32 a b
  | _ => .error .access

/-- `param_var_to_rep<LongRep>` (`make-multivariate-function-adapter.hh:41-44`). -/
def longRep (l : LogOps) : RepParams → Except AdapterExn (Rep Int)
  | .long a b => integerToRep l 64 a b
  | _ => .error .access

/-- `param_var_to_rep<DoubleRep>` (`make-multivariate-function-adapter.hh:46-49`), `DoubleRepParams::to_rep`
(`parser.hh:95-104`): the dyadic float itself. -/
def doubleFloat (l : LogOps) : RepParams → Except AdapterExn (DyadicFloat Rat)
  | .doublePrecision a b precision => liftConstruct (floatWithPrecision l.ceilLog2Real a b precision)
  | .doubleSize a b size => liftConstruct (floatWithSize a b size)
  | _ => .error .access

/-- The same as a representation. -/
def doubleRep (l : LogOps) (p : RepParams) : Except AdapterExn (Rep Rat) := do
  let r ← doubleFloat l p
  .ok r.rep

/-- Body of the loop which completes the environment (`make-multivariate-function-adapter.hh:75-83`, `113-121`). -/
def completeEntry (default : RepParams) (env : RepEnv) (name : List Char) : RepEnv :=
  match env name with
  | none => env.put name default
  | some p => if p.index ≠ default.index then env.put name default else env

/-- Body of the loop which makes representations (`make-multivariate-function-adapter.hh:86-89`). -/
def envRep {D : Type} (toRep : RepParams → Except AdapterExn (Rep D)) (env : RepEnv) (name : List Char) :
    Except AdapterExn (Rep D) :=
  match env name with
  | none => .error .undefined
  | some p => toRep p

/-- The options read when an adapter is made: the declarations of representations and the default ones. -/
structure FpOptions where
  stod : List Char → Except ParseExn Rat
  parse : ParseOptions
  representations : List Char
  defaultInt : List Char
  defaultLong : List Char
  defaultDouble : List Char

/-- `make_multivariate_function_adapter` (`make-multivariate-function-adapter.hh:59-92`): the representations of the variables.
The text of the default representation is the one of the domain of the representations (`parser.hh:273-287`). -/
def makeMultivariate {D : Type} (toRep : RepParams → Except AdapterExn (Rep D)) (o : FpOptions) (defaultText : List Char)
    (names : List (List Char)) : Except AdapterExn (List (Rep D)) := do
  let env ← liftParse (parseRepresentations o.stod o.parse o.representations)
  let default ← liftParse (parseRepresentation o.stod o.parse defaultText)
  let env := names.foldl (completeEntry default) env
  names.mapM (envRep toRep env)

/-- Function types 500, 510 (`function-factory.cc:234-240`, `273-279`). -/
def makeDouble (l : LogOps) (o : FpOptions) (names : List (List Char)) : Except AdapterExn (List (Rep Rat)) :=
  makeMultivariate (doubleRep l) o o.defaultDouble names

/-- Function types 501, 511 (`function-factory.cc:242-248`, `281-287`). -/
def makeLong (l : LogOps) (o : FpOptions) (names : List (List Char)) : Except AdapterExn (List (Rep Int)) :=
  makeMultivariate (longRep l) o o.defaultLong names

/-- Function types 503, 513 (`function-factory.cc:258-264`, `297-303`). -/
def makeInt (l : LogOps) (o : FpOptions) (names : List (List Char)) : Except AdapterExn (List (Rep Int)) :=
  makeMultivariate (intRep l) o o.defaultInt names

/-- `name + "_re"` and `name + "_im"`. -/
def reName (name : List Char) : List Char := name ++ "_re".toList
/-- See `reName`. -/
def imName (name : List Char) : List Char := name ++ "_im".toList

/-- The representations of the real and imaginary parts (`make-multivariate-function-adapter.hh:127-132`). -/
def envComplex (l : LogOps) (env : RepEnv) (name : List Char) : Except AdapterExn (Rep (Rat × Rat)) :=
  match env (reName name), env (imName name) with
  | some p, some q => do
    let re ← doubleFloat l p
    let im ← doubleFloat l q
    .ok (complexRep re im)
  | _, _ => .error .undefined

/-- `make_multivariate_function_adapter_complex` (`make-multivariate-function-adapter.hh:97-135`). -/
def makeComplex (l : LogOps) (o : FpOptions) (names : List (List Char)) : Except AdapterExn (List (Rep (Rat × Rat))) := do
  let env ← liftParse (parseRepresentations o.stod o.parse o.representations)
  let default ← liftParse (parseRepresentation o.stod o.parse o.defaultDouble)
  let env := names.foldl (fun env name => completeEntry default (completeEntry default env (reName name)) (imName name)) env
  names.mapM (envComplex l env)

/-- Body of the loop of `make_mixed_type_multivariate_function_adapter` (`make-multivariate-function-adapter.hh:157-172`). -/
def completeMixed (default : RepParams) (env : RepEnv) (name : List Char) : RepEnv :=
  match env name with
  | none => env.put name default
  | some (.int _ _) => env.put name default
  | some _ => env

/-- `std::visit([](auto&& arg) { return rep_var_t(arg.to_rep()); }, ...)` (`make-multivariate-function-adapter.hh:177`); the
adapter converts all values to `double`. -/
def variantRep (l : LogOps) : RepParams → Except AdapterExn (Rep Rat)
  | .int a b => do
    let r ← integerToRep l 32 a b
    .ok (r.map (fun z : Int => (z : Rat)))
  | .long a b => do
    let r ← integerToRep l 64 a b
    .ok (r.map (fun z : Int => (z : Rat)))
  | .set values => do
    let r ← liftConstruct (valueSetNew l.ceilLog2 values)
    .ok r.rep
  | p => doubleRep l p

/-- `make_mixed_type_multivariate_function_adapter` (`make-multivariate-function-adapter.hh:143-181`).  The default long
representation is parsed although it is not used. -/
def makeMixed (l : LogOps) (o : FpOptions) (names : List (List Char)) : Except AdapterExn (List (Rep Rat)) := do
  let env ← liftParse (parseRepresentations o.stod o.parse o.representations)
  let _ ← liftParse (parseRepresentation o.stod o.parse o.defaultLong)
  let default ← liftParse (parseRepresentation o.stod o.parse o.defaultDouble)
  let env := names.foldl (completeMixed default) env
  names.mapM (envRep (variantRep l) env)

end Hnco
