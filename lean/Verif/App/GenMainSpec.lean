import Verif.App.GenMain
import Verif.App.OptionReadSpec
import Verif.App.FactoryFileSpec
import Verif.App.MainSpec
import Verif.App.ModifierProps

/-!
# Specification of the programs `ffgen` and `mapgen`

What the options of a command line mean, in terms of the names in the help pages, and what `hnco` finds in the file.
-/

namespace Hnco

open Outcome

/-- The parameter is a size: `m`, or zero for a negative size. -/
def SizeOption (c : OptClass) (lib : OptLib) (items : List (OptDoc × Option (List Char))) (name : String) (m : Nat) : Prop :=
  ∃ k : Int, ParamOf c lib items name (.int k) ∧ (m : Int) = max k 0

/-- The parameter is a choice: `m`, or `other` for a negative number. -/
def ChoiceOption (c : OptClass) (lib : OptLib) (items : List (OptDoc × Option (List Char))) (name : String) (other m : Nat) : Prop :=
  ∃ k : Int, ParamOf c lib items name (.int k) ∧ (k < 0 → m = other) ∧ (0 ≤ k → (m : Int) = k)

/-- The options of `ffgen`. -/
structure FfgenSettings (lib : OptLib) (items : List (OptDoc × Option (List Char))) (o : FfgenOptions Rat) : Prop where
  function : ChoiceOption ffgenClass lib items "function" 2 o.function
  bvSize : SizeOption ffgenClass lib items "bv-size" o.bvSize
  stddev : ParamOf ffgenClass lib items "stddev" (.double o.stddev)
  linGenerator : ChoiceOption ffgenClass lib items "lin-generator" 4 o.linGenerator
  linInitialWeight : ParamOf ffgenClass lib items "lin-initial-weight" (.double o.linInitialWeight)
  linDistance : ParamOf ffgenClass lib items "lin-distance" (.double o.linDistance)
  linRatio : ParamOf ffgenClass lib items "lin-ratio" (.double o.linRatio)
  nkK : SizeOption ffgenClass lib items "nk-k" o.nkK
  msNumClauses : SizeOption ffgenClass lib items "ms-num-clauses" o.msNumClauses
  msNumLiterals : SizeOption ffgenClass lib items "ms-num-literals-per-clause" o.msNumLiterals
  msPlanted : o.msPlanted = true ↔ Appears items "ms-planted-solution"
  epUpperBound : ParamOf ffgenClass lib items "ep-upper-bound" (.double o.epUpperBound)
  partUpperBound : SizeOption ffgenClass lib items "part-upper-bound" o.partUpperBound
  walshNumFeatures : SizeOption ffgenClass lib items "walsh-num-features" o.walshNumFeatures
  walsh2Generator : ChoiceOption ffgenClass lib items "walsh2-generator" 4 o.walsh2Generator
  walsh2Alpha : ParamOf ffgenClass lib items "walsh2-ising-alpha" (.double o.walsh2Alpha)
  nn1Generator : ChoiceOption ffgenClass lib items "nn1-generator" 4 o.nn1Generator
  nn2Generator : ChoiceOption ffgenClass lib items "nn2-generator" 4 o.nn2Generator
  nn2Rows : SizeOption ffgenClass lib items "nn2-num-rows" o.nn2Rows
  nn2Columns : SizeOption ffgenClass lib items "nn2-num-columns" o.nn2Columns
  couplingConstant : ParamOf ffgenClass lib items "coupling-constant" (.double o.couplingConstant)
  fieldConstant : ParamOf ffgenClass lib items "field-constant" (.double o.fieldConstant)
  periodic : o.periodic = true ↔ Appears items "periodic-boundary-conditions"
  sudokuEmptyCells : SizeOption ffgenClass lib items "sudoku-num-empty-cells" o.sudokuEmptyCells

/-- A command line of `ffgen` with the given options and path. -/
structure FfgenCommand (w : GenWorld) (argv : List (List Char)) (items : List (OptDoc × Option (List Char))) (o : FfgenOptions Rat)
    (path : List Char) : Prop where
  line : CommandLine ffgenClass.help argv items
  fine : ∀ i ∈ items, FineItem w.opt i
  settings : FfgenSettings w.opt items o
  path : ParamOf ffgenClass w.opt items "path" (.str path)

/-- Once the file is at the path, `hnco` finds a function of size `n` whose values satisfy `value`: in a world where the file is
at the path, each command line which asks for the function number `k` at this path, with a positive size, asks for a sound
function of size `n` with such values. -/
def HncoFinds (file : FfgenFile Rat) (path : List Char) (k n : Nat) (value : BV → Rat → Prop) : Prop :=
  ∀ (w : HncoWorld) (seen : InstanceFile Rat) (argv : List (List Char)) (items : List (OptDoc × Option (List Char))),
    w.file path = some seen → seen.Holds file → CommandLine hncoClass.help argv items → (∀ i ∈ items, FineItem w.opt i) →
    Param w.opt items "function" (.int k) → Param w.opt items "path" (.str path) →
    (∃ size > 0, Param w.opt items "bv-size" (.int size)) →
    ∃ f, AsksFor w items f ∧ f.size = n ∧ f.Sound ∧ ∀ x : BV, x.length = n → ∃ v, f.eval x = ok v ∧ value x v

/-- The options of `mapgen`. -/
structure MapgenSettings (lib : OptLib) (items : List (OptDoc × Option (List Char))) (o : MapgenOptions) : Prop where
  kind : SizeOption mapgenClass lib items "map" o.kind
  inputSize : SizeOption mapgenClass lib items "input-size" o.inputSize
  outputSize : SizeOption mapgenClass lib items "output-size" o.outputSize
  surjective : o.surjective = true ↔ Appears items "surjective"
  tsLength : o.kind = 6 → ParamOf mapgenClass lib items "ts-length" (.int o.tsLength)
  tsMode : o.kind = 6 → ParamOf mapgenClass lib items "ts-sampling-mode" (.int (match o.tsMode with
    | .unconstrained => 0
    | .commuting => 1
    | .uniqueSource => 2
    | .uniqueDestination => 3
    | .disjoint => 4
    | .nonCommuting => 5))

/-- A command line of `mapgen` with the given options and path. -/
structure MapgenCommand (w : GenWorld) (argv : List (List Char)) (items : List (OptDoc × Option (List Char))) (o : MapgenOptions)
    (path : List Char) : Prop where
  line : CommandLine mapgenClass.help argv items
  fine : ∀ i ∈ items, FineItem w.opt i
  settings : MapgenSettings w.opt items o
  path : ParamOf mapgenClass w.opt items "path" (.str path)

end Hnco
