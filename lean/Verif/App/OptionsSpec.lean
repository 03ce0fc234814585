import Verif.App.Options

/-!
# Specification of command lines

How options may be written according to the help pages of a program, and what a command line then means.  Nothing here depends
on `getopt_long` or on the switch.
-/

namespace Hnco

/-- The name of the member of an option: dashes become underscores. -/
def memberOf (name : List Char) : String := String.ofList (name.map (fun c => if c = '-' then '_' else c))

/-- Whether an option is followed by a value: all parameters are, flags are not. -/
def OptDoc.takes (d : OptDoc) : Bool :=
  match d.kind with
  | .value _ _ => true
  | _ => false

/-- `p` is the name of an option, or an abbreviation of the name of this option and of no other one. -/
def Denotes (docs : List OptDoc) (p : List Char) (d : OptDoc) : Prop :=
  d ∈ docs ∧ (p = d.name ∨ (p ≠ [] ∧ p <+: d.name ∧ ∀ e ∈ docs, p <+: e.name → e = d))

/-- The ways of writing an option, as one or two words: `--flag`, `--name=value`, `--name value`, `-nvalue`, and `-n value`. -/
inductive Spelled (docs : List OptDoc) : OptDoc → Option (List Char) → List (List Char) → Prop
  | flag {d : OptDoc} {p : List Char} : Denotes docs p d → d.takes = false → Spelled docs d none ['-' :: '-' :: p]
  | joined {d : OptDoc} {p v : List Char} : Denotes docs p d → d.takes = true →
      Spelled docs d (some v) ['-' :: '-' :: (p ++ '=' :: v)]
  | separate {d : OptDoc} {p v : List Char} : Denotes docs p d → d.takes = true → Spelled docs d (some v) ['-' :: '-' :: p, v]
  | letterJoined {d : OptDoc} {c : Char} {v : List Char} : d ∈ docs → d.letter = some c → v ≠ [] →
      Spelled docs d (some v) ['-' :: c :: v]
  | letterSeparate {d : OptDoc} {c : Char} {v : List Char} : d ∈ docs → d.letter = some c → Spelled docs d (some v) [['-', c], v]

/-- Command lines, with the options they contain: words which are not options are skipped, and nothing is read after `--`. -/
inductive CommandLine (docs : List OptDoc) : List (List Char) → List (OptDoc × Option (List Char)) → Prop
  | done : CommandLine docs [] []
  | stop (rest : List (List Char)) : CommandLine docs (['-', '-'] :: rest) []
  | word {w : List Char} {rest : List (List Char)} {items : List (OptDoc × Option (List Char))} : w.head? ≠ some '-' ∨ w = ['-'] →
      CommandLine docs rest items → CommandLine docs (w :: rest) items
  | option {d : OptDoc} {arg : Option (List Char)} {words rest : List (List Char)} {items : List (OptDoc × Option (List Char))} :
      Spelled docs d arg words → CommandLine docs rest items → CommandLine docs (words ++ rest) ((d, arg) :: items)

/-- A text starts with a decimal number, after white space: all of its digits are read, and nothing after them. -/
def StartsWithNumber (s : List Char) (n : Int) : Prop :=
  ∃ blanks sign digits rest : List Char, s = blanks ++ (sign ++ (digits ++ rest)) ∧ (∀ c ∈ blanks, isSpace c = true) ∧ digits ≠ [] ∧
    (∀ c ∈ digits, c.isDigit = true) ∧ (∀ c, rest.head? = some c → c.isDigit = false) ∧
    (((sign = [] ∨ sign = ['+']) ∧ n = (digitsValue digits : Int)) ∨ (sign = ['-'] ∧ n = -(digitsValue digits : Int)))

/-- The integer read in a text: 0 if there is none. -/
def IntRead (s : List Char) (n : Int) : Prop := StartsWithNumber s n ∨ (n = 0 ∧ ∀ m, ¬ StartsWithNumber s m)

/-- What the value of a parameter means. -/
inductive Means (lib : OptLib) : OptKind → List Char → OptValue → Prop
  | int {s : List Char} {n : Int} : IntRead s n → -2 ^ 31 ≤ n → n < 2 ^ 31 → Means lib .int s (.int n)
  | double {s : List Char} : Means lib .double s (.double (lib.atof s))
  | string {s : List Char} : Means lib .string s (.str s)
  | true : Means lib .bool "true".toList (.bool true)
  | false : Means lib .bool "false".toList (.bool false)
  | unsigned {s : List Char} : Means lib .unsigned s (.unsigned (cStrtoul s))

/-- An option which does not end the program: a flag, or a parameter whose value has a meaning. -/
inductive FineItem (lib : OptLib) : OptDoc × Option (List Char) → Prop
  | flag {d : OptDoc} : d.kind = .flag → FineItem lib (d, none)
  | value {d : OptDoc} {k : OptKind} {default : Option OptValue} {v : List Char} {x : OptValue} :
      d.kind = .value k default → Means lib k v x → FineItem lib (d, some v)

/-- The last value given to an option. -/
def LastArgument (items : List (OptDoc × Option (List Char))) (d : OptDoc) (v : List Char) : Prop :=
  ∃ before after, items = before ++ (d, some v) :: after ∧ ∀ i ∈ after, i.1 ≠ d

/-- Whether an option is in a command line. -/
def Mentioned (items : List (OptDoc × Option (List Char))) (d : OptDoc) : Prop := ∃ i ∈ items, i.1 = d

/-- The object after a command line: parameters have the last value given, or else their documented default value, or else their
getters throw; flags are those given. -/
structure Settings (c : OptClass) (lib : OptLib) (items : List (OptDoc × Option (List Char))) (s : OptState) : Prop where
  given : ∀ d ∈ c.help, d.takes = true → (s.given (memberOf d.name) = true ↔ Mentioned items d)
  set : ∀ d ∈ c.help, ∀ k default v, d.kind = .value k default → LastArgument items d v →
    ∃ x, Means lib k v x ∧ c.get s (memberOf d.name) = Outcome.ok x
  default : ∀ d ∈ c.help, ∀ k x, d.kind = .value k (some x) → ¬ Mentioned items d → c.get s (memberOf d.name) = Outcome.ok x
  absent : ∀ d ∈ c.help, ∀ k, d.kind = .value k none → ¬ Mentioned items d →
    c.get s (memberOf d.name) = Outcome.throw .runtimeError
  flags : ∀ d ∈ c.help, d.kind = .flag → (s.raised (memberOf d.name) = true ↔ Mentioned items d)

/-- Why a program ends instead of reading the rest of its command line: what comes next is not an option, or it is an option which
shows a page, or it is an option whose value is refused, or whose value has no meaning. -/
inductive Problem (docs : List OptDoc) : List (List Char) → OptExit → Prop
  | unreadable {w : List Char} {rest : List (List Char)} : w.head? = some '-' → w ≠ ['-'] → w ≠ ['-', '-'] →
      (∀ d arg words after, Spelled docs d arg words → w :: rest ≠ words ++ after) → Problem docs (w :: rest) (.exit 1 none)
  | shows {d : OptDoc} {words rest : List (List Char)} : Spelled docs d none words → d.kind = .shows →
      Problem docs (words ++ rest) (.exit 0 (some (memberOf d.name)))
  | notBoolean {d : OptDoc} {default : Option OptValue} {v : List Char} {words rest : List (List Char)} :
      Spelled docs d (some v) words → d.kind = .value .bool default → v ≠ "true".toList → v ≠ "false".toList →
      Problem docs (words ++ rest) (.exit 1 none)
  | tooLarge {d : OptDoc} {default : Option OptValue} {v : List Char} {n : Int} {words rest : List (List Char)} :
      Spelled docs d (some v) words → d.kind = .value .int default → IntRead v n → ¬ (-2 ^ 31 ≤ n ∧ n < 2 ^ 31) →
      Problem docs (words ++ rest) .undefined

end Hnco
