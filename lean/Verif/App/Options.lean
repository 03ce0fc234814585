import Verif.Representation.Model
import Verif.Text

/-!
# Model of the options of the programs

Models `getopt_long` of the C library as it is used by the classes of options, and the constructors, the getters and the
`operator<<` of these classes (`lib/hnco/app/hnco-options.cc`, `lib/hnco/multiobjective/app/hnco-mo-options.cc`,
`app/ffgen-options.cc`, `app/mapgen-options.cc`).  The classes differ in their tables only, which are in `OptionTables.lean`.
Simplifications: a `double` is a rational number; the environment variable `POSIXLY_CORRECT` is not set; messages are not
modelled.
-/

namespace Hnco

open Outcome

/-! ## `getopt_long` -/

/-- `struct option` of `getopt.h`: the name, whether an argument is required, and the value to be returned. -/
structure LongOption where
  name : List Char
  required : Bool
  val : Nat
  deriving DecidableEq

/-- What a call of `getopt_long` returns, with `optarg`. -/
structure OptEvent where
  val : Nat
  arg : Option (List Char)
  deriving DecidableEq

/-- `getopt_long` returns `'?'` after an error. -/
def badEvent : OptEvent := ⟨'?'.toNat, none⟩

/-- The search of a long option by `getopt_long`: an exact match, or else an abbreviation which is not ambiguous. -/
def findLong (long : List LongOption) (name : List Char) : Option LongOption :=
  match long.find? (fun o => decide (o.name = name)) with
  | some o => some o
  | none =>
    match long.filter (fun o => name.isPrefixOf o.name) with
    | [] => none
    | o :: os => if os.all (fun p => decide (p.required = o.required ∧ p.val = o.val)) then some o else none

/-- What `getopt_long` makes of a word: it returns, or it takes the next word as the argument of an option. -/
inductive LongRead where
  | event (e : OptEvent)
  | next (val : Nat)
  deriving DecidableEq

/-- A word which starts with two dashes, without them. -/
def readLong (long : List LongOption) (body : List Char) : LongRead :=
  match findLong long (body.takeWhile (fun c => decide (c ≠ '='))) with
  | none => .event badEvent
  | some o =>
    match body.dropWhile (fun c => decide (c ≠ '=')) with
    | _ :: v => .event (if o.required then ⟨o.val, some v⟩ else badEvent)
    | [] => if o.required then .next o.val else .event ⟨o.val, none⟩

/-- Whether a character is an option of `short_options`, and then whether it requires an argument.  Simplification: there are
no optional arguments, which are noted by two colons. -/
def shortArg (short : List Char) (c : Char) : Option Bool :=
  if c = ':' ∨ c = ';' then none
  else
    match short.dropWhile (fun d => decide (d ≠ c)) with
    | [] => none
    | _ :: t => some (decide (t.head? = some ':'))

/-- The characters of a word which starts with one dash: what is returned for them, and the last of them if its argument is
the next word. -/
def readCluster (short : List Char) : List Char → List OptEvent × Option Nat
  | [] => ([], none)
  | c :: cs =>
    match shortArg short c with
    | none => (badEvent :: (readCluster short cs).1, (readCluster short cs).2)
    | some false => (⟨c.toNat, none⟩ :: (readCluster short cs).1, (readCluster short cs).2)
    | some true => if cs = [] then ([], some c.toNat) else ([⟨c.toNat, some cs⟩], none)

/-- What successive calls of `getopt_long` return for the arguments of a program, until it returns -1.  Words which are not
options are skipped: they are permuted to the end of `argv`. -/
def getoptEvents (short : List Char) (long : List LongOption) : List (List Char) → List OptEvent
  | [] => []
  | word :: rest =>
    match word with
    | '-' :: '-' :: body =>
      if body = [] then []
      else
        match readLong long body with
        | .event e => e :: getoptEvents short long rest
        | .next val =>
          match rest with
          | [] => [badEvent]
          | v :: rest => ⟨val, some v⟩ :: getoptEvents short long rest
    | '-' :: c :: cs =>
      match (readCluster short (c :: cs)).2 with
      | none => (readCluster short (c :: cs)).1 ++ getoptEvents short long rest
      | some val =>
        match rest with
        | [] => (readCluster short (c :: cs)).1 ++ [badEvent]
        | v :: rest => (readCluster short (c :: cs)).1 ++ ⟨val, some v⟩ :: getoptEvents short long rest
    | _ => getoptEvents short long rest

/-! ## Conversions -/

/-- The types of parameters. -/
inductive OptKind where
  | int | double | string | bool | unsigned
  deriving DecidableEq

/-- Values of parameters. -/
inductive OptValue where
  | int (n : Int)
  | double (r : Rat)
  | str (s : List Char)
  | bool (b : Bool)
  | unsigned (n : Nat)
  deriving DecidableEq

/-- `std::atoi`: undefined if the number is not an `int`. -/
def cAtoi (s : List Char) : Outcome Int :=
  let p := extractSign (skipSpace s)
  let v : Int := (digitsValue (p.2.takeWhile Char.isDigit) : Int)
  checked 32 (if p.1 then -v else v)

/-- Value of a hexadecimal digit, 16 for other characters. -/
def hexValue (c : Char) : Nat :=
  if c.isDigit then c.toNat - 48
  else if 'a' ≤ c ∧ c ≤ 'f' then c.toNat - 87
  else if 'A' ≤ c ∧ c ≤ 'F' then c.toNat - 55
  else 16

/-- Value of the digits at the beginning of a text, in a base. -/
def baseValue (base : Nat) (s : List Char) : Nat :=
  (s.takeWhile (fun c => decide (hexValue c < base))).foldl (fun a c => base * a + hexValue c) 0

/-- The digits read by `strtoul` in base 0: the prefix tells the base. -/
def prefixedValue : List Char → Nat
  | '0' :: x :: s =>
    if (x = 'x' ∨ x = 'X') ∧ (s.head?.map hexValue).getD 16 < 16 then baseValue 16 s else baseValue 8 (x :: s)
  | s => baseValue 10 s

/-- `std::strtoul(optarg, NULL, 0)` with a `long` of 64 bits, stored in an `unsigned` of 32 bits. -/
def cStrtoul (s : List Char) : Nat :=
  let p := extractSign (skipSpace s)
  let v := prefixedValue p.2
  let r := if v ≥ 2 ^ 64 then 2 ^ 64 - 1 else if p.1 then (2 ^ 64 - v) % 2 ^ 64 else v
  r % 2 ^ 32

/-! ## The classes -/

/-- What is done in a case of the switch: the two assignments of a parameter (the name in `_with_`..., and that of the member)
after a conversion, the assignment of a flag, or printing a page and `exit(0)`. -/
inductive OptAction where
  | assign (with_ : String) (member : String) (kind : OptKind)
  | raise (flag : String)
  | show (page : String)
  deriving DecidableEq

/-- A parameter: its name, its type, and its initial value if there is one. -/
structure OptMember where
  name : String
  kind : OptKind
  init : Option OptValue
  deriving DecidableEq

/-- The getter of a parameter: the parameter which must have been set for it not to throw, and the member it returns. -/
structure OptGetter where
  name : String
  needs : Option String
  member : String
  deriving DecidableEq

/-- What a help page says about an option: a flag, a parameter with its type and its default value, or an option which shows a
page. -/
inductive DocKind where
  | flag
  | value (kind : OptKind) (default : Option OptValue)
  | shows
  deriving DecidableEq

/-- An option in a help page: its letter, its name and its kind. -/
structure OptDoc where
  letter : Option Char
  name : List Char
  kind : DocKind
  deriving DecidableEq

/-- A line printed by `operator<<`: a parameter, if the parameter `needs` has been set, or a flag.  The label is what is
printed, `quoted` tells whether the value is between quotes. -/
inductive OptPrint where
  | value (needs : Option String) (label : String) (member : String) (quoted : Bool)
  | flag (flag : String) (label : String)
  deriving DecidableEq

/-- The tables of a class of options. -/
structure OptClass where
  long : List LongOption
  short : List Char
  cases : List (List Nat × OptAction)
  members : List OptMember
  flags : List String
  getters : List OptGetter
  help : List OptDoc
  prints : List OptPrint

/-- An object: the members `_with_`..., the parameters (`none` if indeterminate), and the flags. -/
structure OptState where
  given : String → Bool
  value : String → Option OptValue
  raised : String → Bool

/-- The numerical library: `std::atof`, and what `stream << x` writes for a `double`. -/
structure OptLib where
  atof : List Char → Rat
  showDouble : Rat → List Char

/-- What does not return from the constructor: `exit` with a status, after a page if the status is 0, or undefined
behavior. -/
inductive OptExit where
  | exit (status : Nat) (page : Option String)
  | undefined
  deriving DecidableEq

/-- The members before the body of the constructor (for example `hnco-options.hh:161-599`). -/
def OptClass.init (c : OptClass) : OptState where
  given := fun _ => false
  value := fun name => (c.members.find? (fun m => decide (m.name = name))).bind OptMember.init
  raised := fun _ => false

/-- The right hand side of the assignment of a parameter (for example `hnco-options.cc:163-164`), and the test of a Boolean
(`hnco-options.cc:8`, `338-343`). -/
def optConvert (lib : OptLib) (kind : OptKind) (s : List Char) : Except OptExit OptValue :=
  match kind with
  | .int =>
    match cAtoi s with
    | .ok n => .ok (.int n)
    | _ => .error .undefined
  | .double => .ok (.double (lib.atof s))
  | .string => .ok (.str s)
  | .unsigned => .ok (.unsigned (cStrtoul s))
  | .bool => if s = "true".toList ∨ s = "false".toList then .ok (.bool (decide (s = "true".toList))) else .error (.exit 1 none)

/-- The switch (for example `hnco-options.cc:160-814`): the action of the case of a value. -/
def OptClass.caseOf (c : OptClass) (val : Nat) : Option OptAction :=
  (c.cases.find? (fun r => decide (val ∈ r.1))).map Prod.snd

/-- An action. A null `optarg` is not converted. -/
def OptAction.run (lib : OptLib) (a : OptAction) (arg : Option (List Char)) (s : OptState) : Except OptExit OptState :=
  match a with
  | .assign w m kind =>
    match arg with
    | none => .error .undefined
    | some v =>
      match optConvert lib kind v with
      | .error e => .error e
      | .ok x => .ok { s with
          given := fun name => if name = w then true else s.given name
          value := fun name => if name = m then some x else s.value name }
  | .raise f => .ok { s with raised := fun name => if name = f then true else s.raised name }
  | .show page => .error (.exit 0 (some page))

/-- An iteration of the loop (for example `hnco-options.cc:156-815`). -/
def OptClass.step (c : OptClass) (lib : OptLib) (ignore : Bool) (s : OptState) (e : OptEvent) : Except OptExit OptState :=
  match c.caseOf e.val with
  | some a => a.run lib e.arg s
  | none => if ignore then .ok s else .error (.exit 1 none)

/-- The loop over what `getopt_long` returns. -/
def OptClass.process (c : OptClass) (lib : OptLib) (ignore : Bool) : List OptEvent → OptState → Except OptExit OptState
  | [], s => .ok s
  | e :: es, s =>
    match c.step lib ignore s e with
    | .error x => .error x
    | .ok s => c.process lib ignore es s

/-- The constructor from the arguments of the program, without its name (for example `hnco-options.cc:10-816`). -/
def OptClass.parse (c : OptClass) (lib : OptLib) (ignore : Bool) (argv : List (List Char)) : Except OptExit OptState :=
  c.process lib ignore (getoptEvents c.short c.long argv) c.init

/-- The getter of a parameter (for example `hnco-options.hh:657-1155`): reading an indeterminate value is undefined. -/
def OptClass.get (c : OptClass) (s : OptState) (name : String) : Outcome OptValue :=
  match c.getters.find? (fun g => decide (g.name = name)) with
  | none => ub
  | some g =>
    if g.needs.all s.given then
      match s.value g.member with
      | some v => ok v
      | none => ub
    else throw .runtimeError

/-! ## Printing -/

/-- What is written for a value, after `std::boolalpha`. -/
def OptValue.shown (lib : OptLib) : OptValue → List Char
  | .int n => showInt n
  | .double r => lib.showDouble r
  | .str s => s
  | .bool b => if b then "true".toList else "false".toList
  | .unsigned n => showNat n

/-- A statement of `operator<<` (for example `hnco-options.cc:1347-1525`): the lines it writes, without their ends. -/
def OptPrint.lines (lib : OptLib) (s : OptState) : OptPrint → Outcome (List (List Char))
  | .value needs label member quoted =>
    if needs.all s.given then
      match s.value member with
      | none => ub
      | some x =>
        ok [if quoted then "# ".toList ++ label.toList ++ " = \"".toList ++ x.shown lib ++ "\"".toList
          else "# ".toList ++ label.toList ++ " = ".toList ++ x.shown lib]
    else ok []
  | .flag name label => ok (if s.raised name then ["# ".toList ++ label.toList ++ " ".toList] else [])

/-- The statements of `operator<<`. -/
def printLines (lib : OptLib) (s : OptState) : List OptPrint → Outcome (List (List Char))
  | [] => ok []
  | p :: ps => do
    let a ← p.lines lib s
    let b ← printLines lib s ps
    ok (a ++ b)

/-- `operator<<` (for example `hnco-options.cc:1344-1531`).  Simplification: the last four lines, about the program, are left out. -/
def OptClass.printed (c : OptClass) (lib : OptLib) (s : OptState) : Outcome (List (List Char)) := printLines lib s c.prints

end Hnco
