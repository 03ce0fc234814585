import Verif.Function.TspLoad
import Verif.Function.TspProps

/-! # Vocabulary for statements about files in TSPLIB format -/

namespace Hnco

/-- `word` is the first word of the text. -/
def FirstWord (text word : List Char) : Prop :=
  ∃ before after, text = before ++ (word ++ after) ∧ word ≠ [] ∧ (∀ c ∈ before, isSpace c = true) ∧
    (∀ c ∈ word, isSpace c = false) ∧ ∀ c, after.head? = some c → isSpace c = true

/-- The key of the line is the first word before the first colon, or the first word if there is no colon. -/
def HasKey (line key : List Char) : Prop :=
  ∃ before after, line = before ++ after ∧ ':' ∉ before ∧ (after = [] ∨ after.head? = some ':') ∧ FirstWord before key

/-- The line is `key: rest`. -/
def IsField (line key rest : List Char) : Prop :=
  ∃ before, line = before ++ ':' :: rest ∧ ':' ∉ before ∧ FirstWord before key

/-- The fields of the header which matter. -/
inductive TspField where
  | type
  | dimension (n : Nat)
  | edgeWeight (w : EdgeWeight)
  | ignored

/-- The name of a type of distance in a file. -/
def EdgeWeight.keyword : EdgeWeight → List Char
  | .att => "ATT".toList
  | .euc2d => "EUC_2D".toList

/-- The keys which matter. -/
def tspKeys : List (List Char) :=
  ["TYPE".toList, "DIMENSION".toList, "EDGE_WEIGHT_TYPE".toList, "NODE_COORD_SECTION".toList]

/-- The line of the header gives the field.  Blank lines and lines with other keys are ignored. -/
def IsHeaderLine (line : List Char) : TspField → Prop
  | .type => ∃ rest, IsField line "TYPE".toList rest ∧ FirstWord rest "TSP".toList
  | .dimension n => ∃ rest digits, IsField line "DIMENSION".toList rest ∧ FirstWord rest digits ∧
      (∀ c ∈ digits, c.isDigit = true) ∧ digitsValue digits = n ∧ n ≤ 2147483647
  | .edgeWeight w => ∃ rest, IsField line "EDGE_WEIGHT_TYPE".toList rest ∧ FirstWord rest w.keyword
  | .ignored => (∀ c ∈ line, isSpace c = true) ∨ ∃ key, HasKey line key ∧ key ∉ tspKeys

/-- The dimension given by a field. -/
def TspField.dimension? : TspField → Option Nat
  | .dimension n => some n
  | _ => none

/-- The type of distance given by a field. -/
def TspField.edgeWeight? : TspField → Option EdgeWeight
  | .edgeWeight w => some w
  | _ => none

/-- The text lists cities, each by a number from 1 to `n` and two coordinates.  The list ends where no number can be read, for
example at `EOF`. -/
inductive ListsCities {K : Type} (ef : List Char → Option (K × List Char)) (n : Nat) : List Char → List (Nat × K × K) → Prop where
  | stop {s : List Char} : extractInt s = none → ListsCities ef n s []
  | city {s s1 s2 s3 : List Char} {i : Nat} {x y : K} {l : List (Nat × K × K)} : extractInt s = some ((i : Int), s1) →
      1 ≤ i → i ≤ n → ef s1 = some (x, s2) → ef s2 = some (y, s3) → ListsCities ef n s3 l →
      ListsCities ef n s ((i, x, y) :: l)

/-- The text is a file in TSPLIB format: lines of the header, the line of the section, then cities.  If a field is given several
times, the last one counts.  If there is no type of distance, it is ATT. -/
structure IsTspFile {K : Type} (ef : List Char → Option (K × List Char)) (text : List Char) (n : Nat) (w : EdgeWeight)
    (cities : List (Nat × K × K)) : Prop where
  parts : ∃ header fields opening coordinates,
    text = (header.map (fun l => l ++ ['\n'])).flatten ++ (opening ++ '\n' :: coordinates) ∧
    (∀ l ∈ header, '\n' ∉ l) ∧ List.Forall₂ IsHeaderLine header fields ∧ '\n' ∉ opening ∧
    HasKey opening "NODE_COORD_SECTION".toList ∧ (fields.filterMap TspField.dimension?).getLast? = some n ∧
    (fields.filterMap TspField.edgeWeight?).getLast?.getD .att = w ∧ ListsCities ef n coordinates cities
  positive : 0 < n

/-- The coordinates of a city, from 0, are the last ones listed, or (0, 0) if there are none. -/
def HasCoordinates {K : Type} [Zero K] (cities : List (Nat × K × K)) (i : Nat) (x y : K) : Prop :=
  (∃ l1 l2, cities = l1 ++ (i + 1, x, y) :: l2 ∧ ∀ c ∈ l2, c.1 ≠ i + 1) ∨ ((∀ c ∈ cities, c.1 ≠ i + 1) ∧ x = 0 ∧ y = 0)

/-- The distance between two cities according to TSPLIB: for ATT, the square root of a tenth of the square of the Euclidean
distance, rounded up; for EUC_2D, the Euclidean distance rounded to the nearest integer. -/
def EdgeWeight.IsDistance {K : Type} [Field K] [LinearOrder K] [FloorRing K] (sqrt : K → K) (dx dy d : K) : EdgeWeight → Prop
  | .att => d = (⌈sqrt ((dx * dx + dy * dy) / 10)⌉ : K)
  | .euc2d => ∃ m : Int, d = (m : K) ∧ (m : K) - 1 / 2 ≤ sqrt (dx * dx + dy * dy) ∧ sqrt (dx * dx + dy * dy) < (m : K) + 1 / 2

/-- The number, once written, is read without loss if it is preceded by a space and followed by white space. -/
def ReadsBack {K : Type} (ef : List Char → Option (K × List Char)) (showValue : K → List Char) (v : K) : Prop :=
  ∀ rest : List Char, (∃ c t, rest = c :: t ∧ isSpace c = true) → ef (' ' :: (showValue v ++ rest)) = some (v, rest)

/-- The text of an instance, as in TSPLIB. -/
def tspText {K : Type} (showValue : K → List Char) (name : List Char) (w : EdgeWeight) (points : List (K × K)) : List Char :=
  ((["NAME : ".toList ++ name, "TYPE : TSP".toList, "DIMENSION : ".toList ++ showInt points.length,
    "EDGE_WEIGHT_TYPE : ".toList ++ w.keyword].map (fun l => l ++ ['\n'])).flatten) ++ ("NODE_COORD_SECTION".toList ++ '\n' ::
    ((points.zipIdx 1).flatMap (fun p => showInt p.2 ++ ' ' :: (showValue p.1.1 ++ ' ' :: (showValue p.1.2 ++ ['\n']))) ++
      "EOF\n".toList))

end Hnco
