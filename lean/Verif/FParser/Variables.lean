import Verif.FParser.Syntax

/-!
# Specification: the variables of an expression

Specification only, no part of the code is modelled here: which names are those of the variables of an expression.  Constants
and inline variables are not variables.
-/

namespace Hnco.FParser

/-- The names of the variables which occur in an expression. -/
def Expr.variables : Expr → List (List Char)
  | .lit _ => []
  | .var x => [x]
  | .const _ => []
  | .inl _ => []
  | .paren e => e.variables
  | .call1 _ a => a.variables
  | .call2 _ a b => a.variables ++ b.variables
  | .cond c a b => c.variables ++ a.variables ++ b.variables
  | .pow a b => a.variables ++ b.variables
  | .neg e => e.variables
  | .not e => e.variables
  | .bin _ a b => a.variables ++ b.variables

/-- The names of the variables which occur in a program. -/
def Program.variables (p : Program) : List (List Char) := p.defs.flatMap (fun d => d.2.variables) ++ p.body.variables

end Hnco.FParser
