import Verif.App.Options

/-!
# Reading the options of a program

The getters of the classes of options, for any of the classes.
-/

namespace Hnco

open Outcome

/-- A parameter of type `int` (for example `multiobjective/app/hnco-mo-options.hh:202`). -/
def OptClass.int (c : OptClass) (s : OptState) (name : String) : Outcome Int := do
  let v ← c.get s name
  match v with
  | .int n => ok n
  | _ => ub

/-- A parameter of type `double` (for example `multiobjective/app/hnco-mo-options.hh:226-231`). -/
def OptClass.double (c : OptClass) (s : OptState) (name : String) : Outcome Rat := do
  let v ← c.get s name
  match v with
  | .double r => ok r
  | _ => ub

/-- A parameter of type `std::string` (for example `multiobjective/app/hnco-mo-options.hh:294-299`). -/
def OptClass.str (c : OptClass) (s : OptState) (name : String) : Outcome (List Char) := do
  let v ← c.get s name
  match v with
  | .str t => ok t
  | _ => ub

/-- A parameter which is read only if it has been set: `if (options.with_...()) options.get_...()` (for example
`parser.hh:122-123`). -/
def optionalOf {α : Type} (s : OptState) (name : String) (read : Outcome α) : Outcome (Option α) :=
  if s.given name then do
    let r ← read
    ok (some r)
  else ok none

end Hnco
