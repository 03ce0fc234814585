import Verif.App.OptionsSpec
import Verif.App.OptionTables

/-!
# Consistency of the tables of options
-/

namespace Hnco

/-- What the switch should do for an option of a help page. -/
def OptDoc.action (d : OptDoc) : OptAction :=
  match d.kind with
  | .flag => .raise (memberOf d.name)
  | .value k _ => .assign (memberOf d.name) (memberOf d.name) k
  | .shows => .show (memberOf d.name)

/-- The getter that a parameter should have. -/
def OptDoc.getter (d : OptDoc) (default : Option OptValue) : OptGetter :=
  ⟨memberOf d.name, if default.isSome then none else some (memberOf d.name), memberOf d.name⟩

/-- What the tables of a class must satisfy for an option of the help pages. -/
def OptClass.docOk (c : OptClass) (d : OptDoc) : Bool :=
  (match c.long.find? (fun o => decide (o.name = d.name)) with
    | some o => decide (o.required = d.takes) && decide (c.caseOf o.val = some d.action)
    | none => false) &&
  (match d.letter with
    | some l => d.takes && decide (shortArg c.short l = some true) && decide (c.caseOf l.toNat = some d.action) && decide (l ≠ '-')
    | none => true) &&
  (match d.kind with
    | .value k default =>
      decide (c.members.find? (fun m => decide (m.name = memberOf d.name)) = some ⟨memberOf d.name, k, default⟩) &&
      decide (c.getters.find? (fun g => decide (g.name = memberOf d.name)) = some (d.getter default))
    | _ => true) &&
  !(d.name.contains '=') && !d.name.isEmpty

/-- The tables of a class agree with its help pages. -/
def OptClass.check (c : OptClass) : Bool :=
  decide ((c.help.map (fun d => memberOf d.name)).Nodup) && c.help.all c.docOk &&
  decide ((c.long.map LongOption.val).Nodup) && decide ((c.long.map LongOption.name).Nodup) &&
  c.long.all (fun o => c.help.any (fun d => decide (d.name = o.name))) &&
  c.short.all (fun l => decide (l = ':') || c.help.any (fun d => decide (d.letter = some l))) &&
  decide (c.caseOf '?'.toNat = none) && decide (2 ≤ c.long.length)

set_option maxRecDepth 100000

theorem check_mapgen : mapgenClass.check = true := by decide +kernel
theorem check_ffgen : ffgenClass.check = true := by decide +kernel
theorem check_hncoMo : hncoMoClass.check = true := by decide +kernel
theorem check_hnco : hncoClass.check = true := by decide +kernel

end Hnco
