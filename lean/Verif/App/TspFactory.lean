import Verif.Function.TspLoad
import Verif.Representation.Adapter

/-! # Model of the function factory: travelling salesman

Models case 200 of `lib/hnco/app/function-factory.cc`.
-/

namespace Hnco

open Outcome

variable {K : Type} [Field K] [LinearOrder K] [FloorRing K]

/-- Case 200 (`function-factory.cc:225-232`): the distances and the representation held by the adapter.  `additional` is
`rep_num_additional_bits`; `text` is the file at `path`. -/
def makeTsp (sqrt : K → K) (ef : List Char → Option (K × List Char)) (ceilLog2 : Nat → Nat) (additional : Nat)
    (text : List Char) : Outcome (List (List K) × PermutationRep) := do
  let st ← tspLoad sqrt ef text
  let rep ← permutationRepNew ceilLog2 st.distances.length additional
  permutationAdapterNew st.distances.length rep
  ok (st.distances, rep)

end Hnco
