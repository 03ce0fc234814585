import Verif.App.Modifier
import Verif.Function.NkLandscape
import Verif.Function.Ising
import Verif.Function.Walsh

/-!
# Model of archives

Models `lib/hnco/serialization.hh`, the members `save`, `load` and `serialize` of maps and functions, `load_map` and the reading
of maps in `make_map` (`lib/hnco/app/decorated-function-factory.cc:39-151`), and `app/mapgen.cc`.

The archives of boost are an external library, whose source is not available here: what follows is assumed of its text archives
and has not been checked against it.  An archive is the sequence of the numbers written; its header and the information on
classes are left out, and a real number is read as it has been written.  An item of the wrong type, the end of the file, a
negative size, a `bool` other than 0 or 1 and a byte which is not an unsigned short are archive exceptions; a byte is read as
an unsigned short, then cut to 8 bits.  Archive exceptions become runtime errors (`serialization.hh:53-55`,
`decorated-function-factory.cc:50-52, 103-105`).  Opening files, which may throw as well, is not modelled.
-/

namespace Hnco

open Outcome

/-- A number in an archive. -/
inductive Tok (K : Type) where
  | int (z : Int)
  | real (x : K)
  deriving DecidableEq

/-- Reading from an archive: the object and the rest of the archive. -/
abbrev Reader (K α : Type) := List (Tok K) → Outcome (α × List (Tok K))

variable {K α : Type}

/-- Reading an integer. -/
def readInt : Reader K Int
  | .int z :: ts => ok (z, ts)
  | _ => .throw .runtimeError

/-- Reading a real number. -/
def readReal : Reader K K
  | .real x :: ts => ok (x, ts)
  | _ => .throw .runtimeError

/-- Reading a `bool` (see the assumptions above). -/
def readBool (ts : List (Tok K)) : Outcome (Bool × List (Tok K)) := do
  let r ← readInt ts
  if r.1 = 0 ∨ r.1 = 1 then ok (decide (r.1 = 1), r.2) else .throw .runtimeError

/-- Reading a `bit_t`, which is a byte (see the assumptions above). -/
def readBitByte (ts : List (Tok K)) : Outcome (Int × List (Tok K)) := do
  let r ← readInt ts
  if 0 ≤ r.1 ∧ r.1 < 65536 then ok (r.1 % 256, r.2) else .throw .runtimeError

/-- Reading `n` items. -/
def readMany (item : Reader K α) : Nat → Reader K (List α)
  | 0, ts => ok ([], ts)
  | n + 1, ts => do
    let a ← item ts
    let b ← readMany item n a.2
    ok (a.1 :: b.1, b.2)

/-- Reading a `std::vector`: its size, then its elements. -/
def readVector (item : Reader K α) (ts : List (Tok K)) : Outcome (List α × List (Tok K)) := do
  let n ← readInt ts
  if n.1 < 0 then .throw .runtimeError else readMany item n.1.toNat n.2

/-- Writing an integer. -/
def writeInt (z : Int) : List (Tok K) := [.int z]

/-- Writing a real number. -/
def writeReal (x : K) : List (Tok K) := [.real x]

/-- Writing a bit or a `bool`. -/
def writeBit (b : Bool) : List (Tok K) := [.int (if b then 1 else 0)]

/-- Writing a `std::vector`. -/
def writeVector (item : α → List (Tok K)) (l : List α) : List (Tok K) := .int l.length :: l.flatMap item

/-- `bv_is_valid` (`bit-vector.hh:103`) on the bytes which have been read. -/
def bytesValid (raw : List Int) : Bool := raw.all (fun z => decide (z = 0 ∨ z = 1))

/-- The bit vector given by bytes which are valid. -/
def bytesBv (raw : List Int) : BV := raw.map (fun z => decide (z = 1))

/-! ## Maps -/

/-- `Translation::save` (`map.hh:87-90`). -/
def saveTranslation (bv : BV) : List (Tok K) := writeVector writeBit bv

/-- `Translation::load` (`map.hh:94-99`). -/
def loadTranslation (ts : List (Tok K)) : Outcome (BV × List (Tok K)) := do
  let r ← readVector readBitByte ts
  assert (bytesValid r.1)
  ok (bytesBv r.1, r.2)

/-- `Permutation::save` (`map.hh:175-178`). -/
def savePermutation (p : List Int) : List (Tok K) := writeVector writeInt p

/-- `Permutation::load` (`map.hh:182-187`). -/
def loadPermutation (ts : List (Tok K)) : Outcome (List Int × List (Tok K)) := do
  let r ← readVector readInt ts
  let v ← permIsValid r.1
  assert v
  ok r

/-- `LinearMap::save` (`map.hh:255-258`). -/
def saveLinear (M : BM) : List (Tok K) := writeVector (writeVector writeBit) M

/-- `bm_is_valid` (`bit-matrix.cc:93-110`) on the bytes which have been read. -/
def matrixValid (raw : List (List Int)) : Outcome Bool := do
  let v ← bmIsValid (raw.map bytesBv)
  ok (v && raw.all bytesValid)

/-- `LinearMap::load` (`map.hh:262-267`). -/
def loadLinear (ts : List (Tok K)) : Outcome (BM × List (Tok K)) := do
  let r ← readVector (readVector readBitByte) ts
  let v ← matrixValid r.1
  assert v
  ok (r.1.map bytesBv, r.2)

/-- `AffineMap::save` (`map.hh:339-343`). -/
def saveAffine (f : BM × BV) : List (Tok K) := saveLinear f.1 ++ saveTranslation f.2

/-- `AffineMap::load` (`map.hh:347-355`). -/
def loadAffine (ts : List (Tok K)) : Outcome ((BM × BV) × List (Tok K)) := do
  let r ← readVector (readVector readBitByte) ts
  let s ← readVector readBitByte r.2
  let v ← matrixValid r.1
  assert v
  assert (bytesValid s.1)
  assert (decide (r.1.length = s.1.length))
  ok ((r.1.map bytesBv, bytesBv s.1), s.2)

/-- `Transvection::save` (`transvection.hh:64-68`). -/
def saveTransvection (t : Transvection) : List (Tok K) := writeInt t.row ++ writeInt t.col

/-- `Transvection::load` (`transvection.hh:71-76`), with `is_valid` (`transvection.cc:34-44`). -/
def loadTransvection (ts : List (Tok K)) : Outcome (Transvection × List (Tok K)) := do
  let r ← readInt ts
  let c ← readInt r.2
  assert (decide (0 ≤ r.1))
  assert (decide (0 ≤ c.1))
  assert (tvIsValid ⟨r.1.toNat, c.1.toNat⟩)
  ok (⟨r.1.toNat, c.1.toNat⟩, c.2)

/-- `TsAffineMap::save` (`map.hh:606-610`). -/
def saveTsAffine (f : TsAffine) : List (Tok K) := writeVector writeBit f.bv ++ writeVector saveTransvection f.ts

/-- `TsAffineMap::load` (`map.hh:613-619`). -/
def loadTsAffine (ts : List (Tok K)) : Outcome (TsAffine × List (Tok K)) := do
  let r ← readVector readBitByte ts
  let s ← readVector loadTransvection r.2
  assert (bytesValid r.1)
  assert (tsIsValidN s.1 r.1.length)
  ok (⟨s.1, bytesBv r.1⟩, s.2)

/-! ## Maps in the applications -/

/-- The maps read by `make_map` (`decorated-function-factory.cc:62-149`) from the contents of a file; with kind 3, the constructor
of `MapComposition` (`map.hh:447-453`) checks sizes.  What comes after is not read. -/
def loadMap (kind : Nat) (file : List (Tok K)) : Outcome MapObj :=
  match kind with
  | 1 => do
    let r ← loadTranslation file
    ok (translationObj r.1)
  | 2 => do
    let r ← loadPermutation file
    ok (permutationObj r.1)
  | 3 => do
    let p ← loadPermutation file
    let v ← loadTranslation p.2
    assert ((permutationObj p.1).inputSize == (translationObj v.1).outputSize)
    ok (mapComposition (permutationObj p.1) (translationObj v.1) (List.replicate v.1.length false))
  | 4 => do
    let r ← loadLinear file
    let cols ← bmNumColumns r.1
    ok (linearObj r.1 r.1.length cols)
  | 5 => do
    let r ← loadAffine file
    let cols ← bmNumColumns r.1.1
    ok (affineObj r.1.1 r.1.2 r.1.1.length cols)
  | 6 => do
    let r ← loadTsAffine file
    ok (tsAffineObj r.1)
  | _ => .throw .runtimeError

/-- The options of mapgen (`app/mapgen-options.hh:32-61`).  Simplification: sizes are not negative; a negative size fails the same
assertions as zero. -/
structure MapgenOptions where
  kind : Nat
  inputSize : Nat
  outputSize : Nat
  surjective : Bool
  tsLength : Nat
  tsMode : SamplingMode

/-- `generate_map` (`app/mapgen.cc:38-120`): what is written; an unknown kind ends the program, which is shown as an exception. -/
def mapgen (o : MapgenOptions) : Sim (List (Tok K)) :=
  match o.kind with
  | 1 => do
    let v ← translationRandom o.outputSize
    pure (saveTranslation v)
  | 2 => do
    let p ← permutationRandom o.outputSize
    pure (savePermutation p)
  | 3 => do
    let p ← permutationRandom o.outputSize
    let v ← translationRandom o.outputSize
    pure (savePermutation p ++ saveTranslation v)
  | 4 => do
    let M ← linearRandom o.outputSize o.inputSize o.surjective
    pure (saveLinear M)
  | 5 => do
    let f ← affineRandom o.outputSize o.inputSize o.surjective
    pure (saveAffine f)
  | 6 => do
    let f ← tsAffineRandom ⟨[], []⟩ o.inputSize o.tsLength o.tsMode
    pure (saveTsAffine f)
  | _ => Sim.lift (Outcome.throw Exn.runtimeError)

/-! ## Functions -/

/-- `serialize` of `LinearFunction` (`linear-function.hh:48-51`), `WalshExpansion1` (`walsh-expansion-1.hh:57-60`) and
`EqualProducts` (`equal-products.hh:67-70`), writing. -/
def saveReals (l : List K) : List (Tok K) := writeVector writeReal l
/-- The same, reading. -/
def loadReals : Reader K (List K) := readVector readReal

/-- `Partition::serialize` (`partition.hh:60-63`), writing. -/
def saveInts (l : List Int) : List (Tok K) := writeVector writeInt l
/-- The same, reading. -/
def loadInts : Reader K (List Int) := readVector readInt

/-- Reading an index.  Simplification: a negative one is undefined at once, instead of when it is used. -/
def readIndex (ts : List (Tok K)) : Outcome (Nat × List (Tok K)) := do
  let r ← readInt ts
  assert (decide (0 ≤ r.1))
  ok (r.1.toNat, r.2)

/-- `NkLandscape::serialize` (`nk-landscape.hh:53-57`), writing. -/
def saveNk (f : Nk K) : List (Tok K) :=
  writeVector (writeVector (fun i : Nat => writeInt (i : Int))) f.neighbors ++ writeVector (writeVector writeReal) f.partials
/-- The same, reading. -/
def loadNk (ts : List (Tok K)) : Outcome (Nk K × List (Tok K)) := do
  let a ← readVector (readVector readIndex) ts
  let b ← readVector (readVector readReal) a.2
  ok (⟨a.1, b.1⟩, b.2)

/-- `NearestNeighborIsingModel1::save` (`nearest-neighbor-ising-model-1.hh:72-77`). -/
def saveIsing1 (f : Ising1 K) : List (Tok K) := saveReals f.coupling ++ saveReals f.field ++ writeBit f.periodic
/-- `NearestNeighborIsingModel1::load` (`nearest-neighbor-ising-model-1.hh:81-88`). -/
def loadIsing1 (ts : List (Tok K)) : Outcome (Ising1 K × List (Tok K)) := do
  let a ← loadReals ts
  let b ← loadReals a.2
  let c ← readBool b.2
  ok (⟨a.1, b.1, c.1⟩, c.2)

/-- `NearestNeighborIsingModel2::save` (`nearest-neighbor-ising-model-2.hh:74-80`). -/
def saveIsing2 (f : Ising2 K) : List (Tok K) :=
  writeVector saveReals f.right ++ writeVector saveReals f.below ++ writeVector saveReals f.field ++ writeBit f.periodic
/-- `NearestNeighborIsingModel2::load` (`nearest-neighbor-ising-model-2.hh:84-92`). -/
def loadIsing2 (ts : List (Tok K)) : Outcome (Ising2 K × List (Tok K)) := do
  let a ← readVector loadReals ts
  let b ← readVector loadReals a.2
  let c ← readVector loadReals b.2
  let d ← readBool c.2
  ok (⟨a.1, b.1, c.1, d.1⟩, d.2)

/-- `WalshTerm::serialize` (`walsh-term.hh:47-51`), writing. -/
def saveWalshTerm (t : WalshTerm K) : List (Tok K) := writeVector writeBit t.feature ++ writeReal t.coefficient
/-- The same, reading. -/
def loadWalshTerm (ts : List (Tok K)) : Outcome (WalshTerm K × List (Tok K)) := do
  let a ← readVector readBool ts
  let b ← readReal a.2
  ok (⟨a.1, b.1⟩, b.2)

/-- `WalshExpansion::serialize` (`walsh-expansion.hh:60-63`), writing. -/
def saveWalsh (terms : List (WalshTerm K)) : List (Tok K) := writeVector saveWalshTerm terms
/-- The same, reading. -/
def loadWalsh : Reader K (List (WalshTerm K)) := readVector loadWalshTerm

/-- `WalshExpansion2::serialize` (`walsh-expansion-2.hh:57-61`), writing: the linear and the quadratic part. -/
def saveWalsh2 (f : List K × List (List K)) : List (Tok K) := saveReals f.1 ++ writeVector saveReals f.2
/-- The same, reading. -/
def loadWalsh2 (ts : List (Tok K)) : Outcome ((List K × List (List K)) × List (Tok K)) := do
  let a ← loadReals ts
  let b ← readVector loadReals a.2
  ok ((a.1, b.1), b.2)

end Hnco
