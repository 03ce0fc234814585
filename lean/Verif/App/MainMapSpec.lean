import Verif.App.MainSpec
import Verif.App.HncoRunProps
import Verif.App.ModifierProps

/-!
# Specification of the program `hnco` with a map (C104)
-/

namespace Hnco

/-- A command line for a run which may have a map: one thread, no noise and no expression, no default parameters, no solution to load
and no information, no incremental evaluation and no restart. -/
structure MappedRun (lib : OptLib) (items : List (OptDoc × Option (List Char))) : Prop where
  defaults : ¬ Present items "print-default-parameters"
  threads : Param lib items "num-threads" (.int 1)
  modifiers : ∀ name ∈ ["prior-noise", "parsed-modifier", "additive-gaussian-noise"], ¬ Present items name
  runs : ∀ name ∈ "load-solution" :: showingOptions, ¬ Present items name
  incremental : ¬ Present items "incremental-evaluation"
  restart : ¬ Present items "restart"

/-- The options of a random map; the last two matter only for transvections. -/
structure MapSettings (lib : OptLib) (items : List (OptDoc × Option (List Char))) (o : MapOptions) : Prop where
  random : o.loaded = none ∧ Present items "map-random"
  kind : Param lib items "map" (.int o.kind)
  inputSize : Param lib items "map-input-size" (.int o.inputSize)
  surjective : o.surjective = true ↔ Present items "map-surjective"
  tsLength : o.kind = 6 → Param lib items "map-ts-length" (.int o.tsLength)
  tsMode : o.kind = 6 → Param lib items "map-ts-sampling-mode" (.int (match o.tsMode with
    | .unconstrained => 0
    | .commuting => 1
    | .uniqueSource => 2
    | .uniqueDestination => 3
    | .disjoint => 4
    | .nonCommuting => 5))

/-- The number of bits of the vectors given to a random map for a function on `n` bits. -/
def MapOptions.bits (o : MapOptions) (n : Nat) : Nat := if o.kind = 4 ∨ o.kind = 5 then o.inputSize.toNat else n

/-- What is known at the end of a run on the function `value` seen through the map `g` from `k` bits: the results are those of a run on the
composed function, where `x` is the solution found by the algorithm, and the one which is printed or saved is `x` or its image. -/
structure MappedEnd (o : AppOptions Rat) (k : Nat) (goal : Option Rat) (value : BV → Rat) (g : BV → BV) (iterations : Int) (plan : Plan)
    (x : BV) (h xs : List BV) (res : AppResult Rat) : Prop where
  run : HncoEnd o k goal (fun y => value (g y)) iterations plan h xs { res with solution := x }
  abstract : o.concreteSolution = false → res.solution = x
  concrete : o.concreteSolution = true → res.solution = g x

/-- The solution can be mapped or described at the end: it has been found, since the budget is at least the size of a batch; and if it is
first replaced by its image, then it can only be described if the image has as many bits. -/
def Presentable (o : AppOptions Rat) (batch k n : Nat) : Prop :=
  (o.concreteSolution = true ∨ o.printDescription = true → o.budget > 0 → (batch : Int) ≤ o.budget) ∧
  (o.concreteSolution = true → o.printDescription = true → k = n)

/-- The map of this kind is loaded from the file at `--map-path`, which has these contents, if it can be opened. -/
structure MapFile (w : HncoWorld) (items : List (OptDoc × Option (List Char))) (kind : Nat) (contents : Option (List (Tok Rat))) : Prop where
  asked : Param w.opt items "map" (.int kind)
  known : 1 ≤ kind ∧ kind ≤ 6
  loads : ¬ Present items "map-random"
  file : ∃ path, Param w.opt items "map-path" (.str path) ∧ w.mapFile path = contents

/-- The maps with which the program cannot go on, for a function on `n` bits. -/
inductive MapRefused (w : HncoWorld) (items : List (OptDoc × Option (List Char))) (n : Nat) : Prop
  /-- there is no such map -/
  | unknown {kind : Int} : Param w.opt items "map" (.int kind) → 6 < kind → MapRefused w items n
  /-- a random linear or affine map from no bits, or onto more bits than it is given -/
  | sizes {mo : MapOptions} : MapSettings w.opt items mo → mo.kind = 4 ∨ mo.kind = 5 →
      mo.inputSize ≤ 0 ∨ (mo.surjective = true ∧ mo.inputSize < n) → MapRefused w items n
  /-- random transvections with an unknown mode -/
  | mode {length mode : Int} : Param w.opt items "map" (.int 6) → Present items "map-random" →
      Param w.opt items "map-ts-length" (.int length) → 0 ≤ length → Param w.opt items "map-ts-sampling-mode" (.int mode) →
      mode < 0 ∨ 5 < mode → MapRefused w items n
  /-- a file which cannot be opened -/
  | missing {kind : Nat} : MapFile w items kind none → MapRefused w items n
  /-- a file in which there is no map of this kind -/
  | unreadable {kind : Nat} {tokens : List (Tok Rat)} {x : Exn} : MapFile w items kind (some tokens) →
      loadMap kind tokens = .throw x → MapRefused w items n
  /-- a map onto vectors of another size -/
  | mismatch {kind : Nat} {tokens : List (Tok Rat)} {m : MapObj} : MapFile w items kind (some tokens) → loadMap kind tokens = .ok m →
      m.outputSize ≠ n → MapRefused w items n
  /-- a map which is not surjective, if the program must stop on the maximum -/
  | notSurjective {kind : Nat} {tokens : List (Tok Rat)} {m : MapObj} : MapFile w items kind (some tokens) →
      loadMap kind tokens = .ok m → m.isSurjective = .ok false → Present items "stop-on-maximum" → MapRefused w items n

end Hnco
