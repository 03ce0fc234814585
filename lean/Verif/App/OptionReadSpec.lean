import Verif.App.OptionsSpec
import Verif.App.OptionTables

/-!
# What the options of a program mean

In terms of the names in the help pages of the program.
-/

namespace Hnco

/-- The parameter `--name` of the program has the value `x`: what its last occurrence means, or the default value of the help
page. -/
def ParamOf (c : OptClass) (lib : OptLib) (items : List (OptDoc × Option (List Char))) (name : String) (x : OptValue) : Prop :=
  ∃ d ∈ c.help, d.name = name.toList ∧ ∃ k default, d.kind = .value k default ∧
    ((∃ v, LastArgument items d v ∧ Means lib k v x) ∨ (¬ Mentioned items d ∧ default = some x))

/-- The option `--name` is in the command line. -/
def Appears (items : List (OptDoc × Option (List Char))) (name : String) : Prop := ∃ i ∈ items, i.1.name = name.toList

end Hnco
