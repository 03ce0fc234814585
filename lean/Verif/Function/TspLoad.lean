import Verif.Text
import Verif.Function.Collection
import Verif.Function.NkLandscape

/-!
# Loading an instance of the travelling salesman

Models `Tsp::load_` and `Tsp::load_coordinates` (`lib/hnco/functions/collection/tsp.cc:37-98`).  Coordinates and distances are in
an ordered field.
-/

namespace Hnco

open Outcome

/-- `Tsp::EdgeWeightType` (`tsp.hh:54-59`). -/
inductive EdgeWeight where
  | att
  | euc2d
  deriving DecidableEq

/-- The members of `Tsp` (`tsp.hh:43-63`) and the local variables `key` and `value` of `load_` (`tsp.cc:41`).  The number of
cities is not initialised in a new object. -/
structure TspState (K : Type) where
  key : List Char
  value : List Char
  name : List Char
  comment : List Char
  numCities : Option Int
  edgeWeight : EdgeWeight
  xs : List K
  ys : List K
  distances : List (List K)
  deriving DecidableEq

/-- A new object (`tsp.hh:61`, `87`) when `load_` is entered. -/
def tspNew (K : Type) : TspState K where
  key := []
  value := []
  name := []
  comment := []
  numCities := none
  edgeWeight := .att
  xs := []
  ys := []
  distances := []

/-- `stream >> word` where the variable `word` holds `old`: nothing is stored if there is no word. -/
def streamWord (old s : List Char) : List Char :=
  match extractToken s with
  | some p => p.1
  | none => old

/-- `stream >> n` where the variable `n` is an `int` which holds `old`: nothing is stored if the stream is exhausted, 0 is stored
if there is no number, and the nearest limit is stored if the number does not fit. -/
def streamInt (old : Option Int) (s : List Char) : Option Int :=
  let t := skipSpace s
  if t = [] then old
  else
    let p := extractSign t
    let v : Int := if p.1 then -(digitsValue (p.2.takeWhile Char.isDigit) : Int)
      else (digitsValue (p.2.takeWhile Char.isDigit) : Int)
    some (if v < -2147483648 then -2147483648 else if 2147483647 < v then 2147483647 else v)

/-- `line.substr(0, pos)` where `pos` is the position of the first colon (`tsp.cc:48-49`); if there is no colon, the whole
line. -/
def beforeColon (line : List Char) : List Char := line.takeWhile (fun c => c != ':')

/-- `line.substr(pos + 1)` (`tsp.cc:53`, `59`).  If there is no colon then `pos` is `npos` and `pos + 1` is 0, and this is the
whole line. -/
def afterColon (line : List Char) : List Char :=
  match line.dropWhile (fun c => c != ':') with
  | [] => line
  | _ :: t => t

section
variable {K : Type} [Field K] [LinearOrder K] [FloorRing K]

/-- The body of the loop of `Tsp::load_` (`tsp.cc:45-79`) except for the last branch.  The result tells whether the line opens
the section of coordinates. -/
def tspLine (st : TspState K) (line : List Char) : Outcome (TspState K × Bool) :=
  if line = [] then ok (st, false)
  else
    let key := streamWord st.key (beforeColon line)
    let after := afterColon line
    let st := { st with key := key }
    if key = "NAME".toList then ok ({ st with name := streamWord st.name after }, false)
    else if key = "COMMENT".toList then ok ({ st with comment := after }, false)
    else if key = "TYPE".toList then
      let value := streamWord st.value after
      if value ≠ "TSP".toList then .throw .runtimeError else ok ({ st with value := value }, false)
    else if key = "DIMENSION".toList then ok ({ st with numCities := streamInt st.numCities after }, false)
    else if key = "EDGE_WEIGHT_TYPE".toList then
      let value := streamWord st.value after
      if value = "ATT".toList then ok ({ st with value := value, edgeWeight := .att }, false)
      else if value = "EUC_2D".toList then ok ({ st with value := value, edgeWeight := .euc2d }, false)
      else .throw .runtimeError
    else if key = "NODE_COORD_SECTION".toList then ok (st, true)
    else ok (st, false)

/-- `stream >> x` where the variable `x` is a `float` which holds `old`: what `x` holds and what remains, `none` if the extraction
fails.  Nothing is stored if the stream is exhausted, 0 is stored if there is no number.  Simplification: numbers which do not
fit are not distinguished from other failures. -/
def streamFloat (ef : List Char → Option (K × List Char)) (old : K) (s : List Char) : K × Option (List Char) :=
  match ef s with
  | some p => (p.1, some p.2)
  | none => (if skipSpace s = [] then old else 0, none)

/-- The loop of `Tsp::load_coordinates` (`tsp.cc:89-97`).  After a failed extraction all others fail and store nothing, then
the loop ends.  The fuel bounds the number of iterations; running out of fuel is `ub` and does not happen since each iteration
consumes at least one character. -/
def tspCoordinates (ef : List Char → Option (K × List Char)) (n : Int) :
    Nat → List Char → List K × List K → Outcome (List K × List K)
  | 0, _, _ => ub
  | fuel + 1, s, c =>
    match extractInt s with
    | none => ok c
    | some (index, s) => do
      assert (decide (1 ≤ index ∧ index ≤ n))
      let oldX ← vget c.1 (index - 1).toNat
      let x := streamFloat ef oldX s
      let xs ← vset c.1 (index - 1).toNat x.1
      match x.2 with
      | none => ok (xs, c.2)
      | some s => do
        let oldY ← vget c.2 (index - 1).toNat
        let y := streamFloat ef oldY s
        let ys ← vset c.2 (index - 1).toNat y.1
        match y.2 with
        | none => ok (xs, ys)
        | some s => tspCoordinates ef n fuel s (xs, ys)

/-- The distance of the given type (`tsp.cc:110-122`). -/
def EdgeWeight.weight (sqrt : K → K) : EdgeWeight → K → K → K
  | .att => tspAtt sqrt
  | .euc2d => tspEuc sqrt

/-- The branch of `NODE_COORD_SECTION` (`tsp.cc:76-78`, `86-88`, `103-108`); `s` is what follows the line.  Reading the number of
cities when it is not initialised is undefined. -/
def tspSection (sqrt : K → K) (ef : List Char → Option (K × List Char)) (st : TspState K) (s : List Char) :
    Outcome (TspState K) :=
  match st.numCities with
  | none => ub
  | some n => do
    assert (decide (n > 0))
    let c ← tspCoordinates ef n (s.length + 1) s (vresize st.xs n.toNat 0, vresize st.ys n.toNat 0)
    let d ← tspDistances (st.edgeWeight.weight sqrt) c.1 c.2 st.distances n.toNat
    ok { st with xs := c.1, ys := c.2, distances := d }

/-- The loop of `Tsp::load_` (`tsp.cc:43-80`), reading characters one by one; `line` holds the beginning of the current line. -/
def tspScan (sqrt : K → K) (ef : List Char → Option (K × List Char)) :
    TspState K → List Char → List Char → Outcome (TspState K)
  | st, line, [] => do
    let r ← tspLine st line
    if r.2 then tspSection sqrt ef r.1 [] else ok r.1
  | st, line, c :: s =>
    if c = '\n' then do
      let r ← tspLine st line
      if r.2 then tspSection sqrt ef r.1 s else tspScan sqrt ef r.1 [] s
    else tspScan sqrt ef st (line ++ [c]) s

/-- `Tsp::load_` (`tsp.cc:37-81`) on a new object. -/
def tspLoad (sqrt : K → K) (ef : List Char → Option (K × List Char)) (text : List Char) : Outcome (TspState K) :=
  tspScan sqrt ef (tspNew K) [] text

end

end Hnco
