import Verif.Text
import Mathlib.Algebra.Field.Rat

/-! # Model of the parser of the application

`lib/hnco/app/parser.{hh,cc}`.  A string is a list of characters.  `std::stod` is a parameter, as doubles are replaced by
rationals. -/

namespace Hnco

/-- `std::string::find(d, start)`: the first position at or after `start` where `d` occurs. -/
def strFind (s d : List Char) (start : Nat) : Option Nat :=
  (List.range' start (s.length + 1 - start)).find? (fun i => d.isPrefixOf (s.drop i))

/-- Loop of `split_string` (`parser.cc:51-56`): `none` if the loop is not finished after `fuel` evaluations of its condition.
`start` is an `unsigned int`, because it is declared as `auto start = 0U`, and the sum of a `size_t` is truncated to 32 bits. -/
def splitLoop (s d : List Char) : Nat → Nat → List (List Char) → Option (List (List Char))
  | 0, _, _ => none
  | fuel + 1, start, items =>
    match strFind s d start with
    | some stop => splitLoop s d fuel ((stop + d.length) % 4294967296) (items ++ [(s.drop start).take (stop - start)])
    | none => some (items ++ [s.drop start])

/-- `split_string` (`parser.cc:45-58`). -/
def splitString (fuel : Nat) (s d : List Char) : Option (List (List Char)) := splitLoop s d fuel 0 []

/-! ## Representations -/

/-- The ways in which parsing fails: `std::runtime_error`; the exceptions of `std::stoi`, `std::stol` and `std::stod`, which derive
from `std::logic_error`; a loop which does not end. -/
inductive ParseExn where
  | runtime
  | conversion
  | diverges
  deriving DecidableEq

/-- `split_string` with a delimiter of one character.  The loop is given one step more than there are characters. -/
def splitAt (s : List Char) (c : Char) : Except ParseExn (List (List Char)) :=
  match splitString (s.length + 1) s [c] with
  | some ps => .ok ps
  | none => .error .diverges

/-- `std::stoi` and `std::stol`: the integers must be between `lo` and `hi`; what follows the number is ignored. -/
def stringToInt (lo hi : Int) (s : List Char) : Except ParseExn Int :=
  let p := extractSign (skipSpace s)
  let ds := p.2.takeWhile Char.isDigit
  let v : Int := if p.1 then -(digitsValue ds : Int) else (digitsValue ds : Int)
  if ds = [] then .error .conversion
  else if lo ≤ v ∧ v ≤ hi then .ok v
  else .error .conversion

/-- `std::stoi`. -/
def stoi (s : List Char) : Except ParseExn Int := stringToInt (-2147483648) 2147483647 s

/-- `std::stol`. -/
def stol (s : List Char) : Except ParseExn Int := stringToInt (-9223372036854775808) 9223372036854775807 s

/-- `param_var_t` (`parser.hh:57-121`). -/
inductive RepParams where
  | int (a b : Int)
  | long (a b : Int)
  | doublePrecision (a b precision : Rat)
  | doubleSize (a b : Rat) (size : Int)
  | set (values : List Rat)
  deriving DecidableEq

/-- The options read by the parser: `fp_default_double_precision` and `fp_default_double_size`. -/
structure ParseOptions where
  precision : Option Rat
  size : Option Int

/-- `stream >> key; if (!stream) throw std::runtime_error(...)`. -/
def parseToken (s : List Char) : Except ParseExn (List Char) :=
  match extractToken s with
  | some r => .ok r.1
  | none => .error .runtime

/-- `parse_int_rep` (`parser.cc:60-69`). -/
def parseIntRep (expression : List Char) : Except ParseExn RepParams := do
  let parameters ← splitAt expression ','
  match parameters with
  | [x, y] => do
    let a ← stoi x
    let b ← stoi y
    .ok (.int a b)
  | _ => .error .runtime

/-- `parse_long_rep` (`parser.cc:71-80`). -/
def parseLongRep (expression : List Char) : Except ParseExn RepParams := do
  let parameters ← splitAt expression ','
  match parameters with
  | [x, y] => do
    let a ← stol x
    let b ← stol y
    .ok (.long a b)
  | _ => .error .runtime

/-- The third parameter of a double representation (`parser.hh:162-176`). -/
def parseDoubleKey (stod : List Char → Except ParseExn Rat) (a b : Rat) (z : List Char) : Except ParseExn RepParams := do
  let terms ← splitAt z '='
  match terms with
  | [k, v] => do
    let key ← parseToken k
    if key = "precision".toList then do
      let c ← stod v
      .ok (.doublePrecision a b c)
    else if key = "size".toList then do
      let n ← stoi v
      .ok (.doubleSize a b n)
    else .error .runtime
  | _ => .error .runtime

/-- `parse_double_rep` (`parser.hh:143-177`). -/
def parseDoubleRep (stod : List Char → Except ParseExn Rat) (o : ParseOptions) (expression : List Char) : Except ParseExn RepParams := do
  let parameters ← splitAt expression ','
  match parameters with
  | [x, y] => do
    let a ← stod x
    let b ← stod y
    match o.precision, o.size with
    | some p, _ => .ok (.doublePrecision a b p)
    | none, some n => .ok (.doubleSize a b n)
    | none, none => .error .runtime
  | [x, y, z] => do
    let a ← stod x
    let b ← stod y
    parseDoubleKey stod a b z
  | _ => .error .runtime

/-- The loop of `parse_value_set_rep` (`parser.cc:87-88`). -/
def parseValues (stod : List Char → Except ParseExn Rat) : List (List Char) → Except ParseExn (List Rat)
  | [] => .ok []
  | x :: xs => do
    let v ← stod x
    let vs ← parseValues stod xs
    .ok (v :: vs)

/-- `parse_value_set_rep` (`parser.cc:82-90`). -/
def parseValueSetRep (stod : List Char → Except ParseExn Rat) (expression : List Char) : Except ParseExn RepParams := do
  let parameters ← splitAt expression ','
  let values ← parseValues stod parameters
  .ok (.set values)

/-- The choice of a parser (`parser.hh:209-219`). -/
def parseType (stod : List Char → Except ParseExn Rat) (o : ParseOptions) (type str : List Char) : Except ParseExn RepParams :=
  if type = "int".toList then parseIntRep str
  else if type = "long".toList then parseLongRep str
  else if type = "double".toList then parseDoubleRep stod o str
  else if type = "set".toList then parseValueSetRep stod str
  else .error .runtime

/-- `parse_representation` (`parser.hh:187-220`). -/
def parseRepresentation (stod : List Char → Except ParseExn Rat) (o : ParseOptions) (expression : List Char) :
    Except ParseExn RepParams :=
  if expression = [] then .error .runtime
  else
    match strFind expression ['('] 0 with
    | none => .error .runtime
    | some openp =>
      match strFind expression [')'] openp with
      | none => .error .runtime
      | some closep => do
        let type ← parseToken (expression.take openp)
        parseType stod o type ((expression.drop (openp + 1)).take (closep - openp - 1))

/-- `env_t`, an `std::unordered_map`: the parameters of a name. -/
abbrev RepEnv := List Char → Option RepParams

/-- `env[name] = r`. -/
def RepEnv.put (env : RepEnv) (name : List Char) (r : RepParams) : RepEnv := fun x => if x = name then some r else env x

/-- Body of the loop of `parse_representations` (`parser.hh:250-269`).  A `std::runtime_error` is thrown again, with the name in its
message; the message is not modelled. -/
def parseDeclaration (stod : List Char → Except ParseExn Rat) (o : ParseOptions) (env : RepEnv) (declaration : List Char) :
    Except ParseExn RepEnv :=
  if declaration = [] then .ok env
  else
    match strFind declaration [':'] 0 with
    | none => .error .runtime
    | some stop => do
      let name ← parseToken (declaration.take stop)
      let r ← parseRepresentation stod o (declaration.drop (stop + 1))
      .ok (env.put name r)

/-- `parse_representations` (`parser.hh:244-271`). -/
def parseRepresentations (stod : List Char → Except ParseExn Rat) (o : ParseOptions) (expression : List Char) :
    Except ParseExn RepEnv := do
  let declarations ← splitAt expression ';'
  declarations.foldlM (parseDeclaration stod o) (fun _ => none)

end Hnco
