import Verif.Base

/-!
# Text streams

A model of the part of `std::istream`, `std::istringstream` and `std::ostream` used by the loaders, in the
"C" locale.  A stream is the list of its remaining characters.  Simplifications: I/O errors are not
modelled; after a failed extraction, where the code always throws, the state of the stream is not modelled.
-/

namespace Hnco

open Outcome

/-- `std::isspace` in the "C" locale. -/
def isSpace (c : Char) : Bool :=
  c == ' ' || c == '\t' || c == '\n' || c == '\x0b' || c == '\x0c' || c == '\r'

/-- Skips leading white space, as formatted extraction does. -/
def skipSpace (s : List Char) : List Char := s.dropWhile isSpace

/-- The lines read by `while (!stream.eof()) { std::string line; getline(stream, line); ... }`. -/
def splitLines : List Char → List (List Char)
  | [] => [[]]
  | c :: t =>
    if c = '\n' then [] :: splitLines t
    else match splitLines t with
      | [] => [[c]]
      | l :: ls => (c :: l) :: ls

/-- `stream >> token` where `token` is a `std::string`: the token and the remaining characters, or `none` if
the extraction fails. -/
def extractToken (s : List Char) : Option (List Char × List Char) :=
  let t := skipSpace s
  let w := t.takeWhile (fun c => !isSpace c)
  if w = [] then none else some (w, t.dropWhile (fun c => !isSpace c))

/-- Value of a sequence of decimal digits. -/
def digitsValue (ds : List Char) : Nat := ds.foldl (fun a c => 10 * a + (c.toNat - 48)) 0

/-- An optional sign: whether it is a minus sign, and the remaining characters. -/
def extractSign : List Char → Bool × List Char
  | [] => (false, [])
  | c :: t => if c = '-' then (true, t) else if c = '+' then (false, t) else (false, c :: t)

/-- `stream >> n` where `n` is an `int` (32 bits): the value and the remaining characters, or `none` if the
extraction fails, because there is no digit or because the value does not fit. -/
def extractInt (s : List Char) : Option (Int × List Char) :=
  let p := extractSign (skipSpace s)
  let ds := p.2.takeWhile Char.isDigit
  let v : Int := if p.1 then -(digitsValue ds : Int) else (digitsValue ds : Int)
  if ds = [] then none
  else if -2147483648 ≤ v ∧ v ≤ 2147483647 then some (v, p.2.dropWhile Char.isDigit)
  else none

/-- Extraction followed by `if (stream.fail()) throw std::runtime_error(...)`. -/
def orThrow {α : Type u} (o : Option α) : Outcome α :=
  match o with
  | some a => ok a
  | none => .throw .runtimeError

/-- The character of a digit. -/
def digitChar (n : Nat) : Char := Char.ofNat (48 + n)

/-- Decimal notation of a natural number, as written by `stream << n`. -/
def showNat (n : Nat) : List Char :=
  if n < 10 then [digitChar n] else showNat (n / 10) ++ [digitChar (n % 10)]
termination_by n
decreasing_by omega

/-- Decimal notation of an integer, as written by `stream << n`. -/
def showInt (z : Int) : List Char := if z < 0 then '-' :: showNat z.natAbs else showNat z.natAbs

end Hnco
