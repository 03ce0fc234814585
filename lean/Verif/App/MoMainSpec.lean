import Verif.App.MoMain
import Verif.App.OptionReadSpec
import Verif.App.SplitProps
import Verif.Multiobjective.ParsedProps

/-!
# Specification of the program `hnco-mo`

What the options of a command line mean for the parts of the program, in terms of the names in the help pages, and what the program
reports.
-/

namespace Hnco

/-- The text of the expression: given in the command line, or else read at `--path`. -/
def MoExpressionText (w : MoWorld) (items : List (OptDoc × Option (List Char))) (text : List Char) : Prop :=
  ParamOf hncoMoClass w.opt items "fp-expression" (.str text) ∨
    (¬ Appears items "fp-expression" ∧ ∃ path, ParamOf hncoMoClass w.opt items "path" (.str path) ∧ w.file path = some text)

/-- The text of the declarations of representations: given in the command line, or else read at `--fp-representations-path`. -/
def MoDeclarationsText (w : MoWorld) (items : List (OptDoc × Option (List Char))) (text : List Char) : Prop :=
  ParamOf hncoMoClass w.opt items "fp-representations" (.str text) ∨
    (¬ Appears items "fp-representations" ∧
      ∃ path, ParamOf hncoMoClass w.opt items "fp-representations-path" (.str path) ∧ w.file path = some text)

/-- The options of the representations. -/
structure FpSettings (w : MoWorld) (items : List (OptDoc × Option (List Char))) (o : FpOptions) : Prop where
  stod : o.stod = w.stod
  declarations : MoDeclarationsText w items o.representations
  precision : ∀ r, o.parse.precision = some r ↔ ParamOf hncoMoClass w.opt items "fp-default-double-precision" (.double r)
  size : ∀ n, o.parse.size = some n ↔ ParamOf hncoMoClass w.opt items "fp-default-double-size" (.int n)
  defaultInt : ParamOf hncoMoClass w.opt items "fp-default-int-rep" (.str o.defaultInt)
  defaultLong : ParamOf hncoMoClass w.opt items "fp-default-long-rep" (.str o.defaultLong)
  defaultDouble : ParamOf hncoMoClass w.opt items "fp-default-double-rep" (.str o.defaultDouble)

/-- A command line, with the options `items`, which asks for the function number `k` made of the sub expressions `es`, and for no
default parameters. -/
structure MoCommand (w : MoWorld) (argv : List (List Char)) (items : List (OptDoc × Option (List Char))) (k : Int)
    (es : List (List Char)) (o : FpOptions) : Prop where
  line : CommandLine hncoMoClass.help argv items
  fine : ∀ i ∈ items, FineItem w.opt i
  defaults : ¬ Appears items "print-default-parameters"
  threads : ∃ z ≥ 1, ParamOf hncoMoClass w.opt items "num-threads" (.int z)
  bvSize : ∃ z > 0, ParamOf hncoMoClass w.opt items "bv-size" (.int z)
  function : ParamOf hncoMoClass w.opt items "function" (.int k)
  expression : ∃ text, MoExpressionText w items text ∧ text.length < 2 ^ 32 ∧ Splits "::".toList text es
  representations : FpSettings w items o

/-- No information about the function is asked for. -/
def MoRuns (items : List (OptDoc × Option (List Char))) : Prop :=
  ∀ name ∈ ["fn-get-bv-size", "fn-get-output-size", "fn-display"], ¬ Appears items name

/-- The parameters of NSGA-II are right. -/
structure MoAlgorithm (w : MoWorld) (items : List (OptDoc × Option (List Char))) : Prop where
  algorithm : ParamOf hncoMoClass w.opt items "algorithm" (.int 100)
  tournament : ∃ mu t, ParamOf hncoMoClass w.opt items "ea-mu" (.int mu) ∧
    ParamOf hncoMoClass w.opt items "ea-tournament-size" (.int t) ∧ 2 ≤ t ∧ t < mu
  rate : ∀ r, ParamOf hncoMoClass w.opt items "ea-mutation-rate" (.double r) → 0 ≤ r ∧ r ≤ 1

/-- The bit vectors and the objectives of a front: there is one, it has no dominated member, and the objectives are the values of
the sub expressions, the values of the variables being decoded from the bit vector, in their domains. -/
structure MoFrontOf {D : Type} (parser : List Char → Option (ParsedExpr D)) (converter : D → Rat) (es : List (List Char))
    (domain : List Char → D → Prop) (front : List (BV × MoValue)) : Prop where
  nonempty : front ≠ []
  objectives : ∃ (n : Nat) (decode : BV → List Char → D), ∀ x v, (x, v) ∈ front → x.length = n ∧
    (∀ e ∈ es, ∀ p, parser e = some p → ∀ name ∈ p.names, domain name (decode x name)) ∧
    IsObjectives parser converter (decode x) es v
  incomparable : ∀ x v y w, (x, v) ∈ front → (y, w) ∈ front → ¬ Dominates w v

/-- The number of bits of the representation of a variable. -/
def RepParams.bits (l : LogOps) : RepParams → Nat
  | .int a b => l.ceilLog2 (b - a + 1).toNat
  | .long a b => l.ceilLog2 (b - a + 1).toNat
  | .doublePrecision a b p => (l.ceilLog2Real ((b - a) / p)).toNat
  | .doubleSize _ _ n => n.toNat
  | .set values => l.ceilLog2 values.length

/-- The program succeeds, and prints a front as it is asked for. -/
def MoPrints {D : Type} (parser : List Char → Option (ParsedExpr D)) (converter : D → Rat) (es : List (List Char))
    (domain : List Char → D → Prop) (items : List (OptDoc × Option (List Char))) (e : MoEnd) : Prop :=
  ∃ front description values, e = .exit 0 (.results description values) ∧ MoFrontOf parser converter es domain front ∧
    (Appears items "print-description" → description = some front) ∧ (¬ Appears items "print-description" → description = none) ∧
    (Appears items "print-pareto-front" → values = some (front.map Prod.snd)) ∧
    (¬ Appears items "print-pareto-front" → values = none)

/-- The parameters of NSGA-II are wrong: another algorithm, or tournaments which cannot take place.  The mutation rate is a
probability. -/
structure MoRefused (w : MoWorld) (items : List (OptDoc × Option (List Char))) : Prop where
  rate : ∀ r, ParamOf hncoMoClass w.opt items "ea-mutation-rate" (.double r) → 0 ≤ r ∧ r ≤ 1
  wrong : ∃ a mu t, ParamOf hncoMoClass w.opt items "algorithm" (.int a) ∧ ParamOf hncoMoClass w.opt items "ea-mu" (.int mu) ∧
    ParamOf hncoMoClass w.opt items "ea-tournament-size" (.int t) ∧ (a ≠ 100 ∨ (2 ≤ mu ∧ (t < 2 ∨ mu ≤ t)))

/-- What the program reports, once the function is made: the number of bits of all variables; the number of objectives; the
display of the function; a front, if the parameters of NSGA-II are right; an error if they are wrong. -/
structure MoReports {D : Type} (parser : List Char → Option (ParsedExpr D)) (converter : D → Rat) (es : List (List Char))
    (domain : List Char → D → Prop) (bits : List Char → Nat) (w : MoWorld) (items : List (OptDoc × Option (List Char)))
    (e : MoEnd) : Prop where
  bvSize : Appears items "fn-get-bv-size" → ∃ names, IsVariables parser es names ∧ e = .exit 0 (.bvSize (names.map bits).sum)
  outputSize : ¬ Appears items "fn-get-bv-size" → Appears items "fn-get-output-size" → e = .exit 0 (.outputSize es.length)
  display : ¬ Appears items "fn-get-bv-size" → ¬ Appears items "fn-get-output-size" → Appears items "fn-display" →
    e = .exit 0 .display
  front : MoRuns items → MoAlgorithm w items → (∃ e ∈ es, ∃ p, parser e = some p ∧ p.names ≠ []) →
    MoPrints parser converter es domain items e
  refused : MoRuns items → MoRefused w items → (∃ e ∈ es, ∃ p, parser e = some p ∧ p.names ≠ []) → e = .exit 1 .message

end Hnco
