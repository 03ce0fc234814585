import Verif.Serialization.Model
import Verif.Function.MaxSat
import Verif.Function.Sudoku
import Verif.Function.Qubo
import Verif.Function.NkLandscape

/-!
# Model of the instance generators and of the program `ffgen`

Models `app/ffgen.cc` and the functions `generate` and `random` of the classes of functions it writes.  Sizes, which are of type
`int`, are natural numbers: a negative size makes the same assertions fail as the size 0.  Progress messages are not modelled.
The random number generator, the normal and the uniform deviates and `std::pow` are parameters.
-/

namespace Hnco

open Outcome

variable {K : Type}

/-- The options of `ffgen` (`app/ffgen-options.hh:50-150`), except the path and the seed. -/
structure FfgenOptions (K : Type) where
  /-- `_function` -/
  function : Nat
  /-- `_bv_size` -/
  bvSize : Nat
  /-- `_stddev` -/
  stddev : K
  /-- `_lin_generator` -/
  linGenerator : Nat
  /-- `_lin_initial_weight` -/
  linInitialWeight : K
  /-- `_lin_distance` -/
  linDistance : K
  /-- `_lin_ratio` -/
  linRatio : K
  /-- `_nk_k` -/
  nkK : Nat
  /-- `_ms_num_clauses` -/
  msNumClauses : Nat
  /-- `_ms_num_literals_per_clause` -/
  msNumLiterals : Nat
  /-- `_ms_planted_solution` -/
  msPlanted : Bool
  /-- `_ep_upper_bound` -/
  epUpperBound : K
  /-- `_part_upper_bound` -/
  partUpperBound : Nat
  /-- `_walsh_num_features` -/
  walshNumFeatures : Nat
  /-- `_walsh2_generator` -/
  walsh2Generator : Nat
  /-- `_walsh2_ising_alpha` -/
  walsh2Alpha : K
  /-- `_nn1_generator` -/
  nn1Generator : Nat
  /-- `_nn2_generator` -/
  nn2Generator : Nat
  /-- `_nn2_num_rows` -/
  nn2Rows : Nat
  /-- `_nn2_num_columns` -/
  nn2Columns : Nat
  /-- `_coupling_constant` -/
  couplingConstant : K
  /-- `_field_constant` -/
  fieldConstant : K
  /-- `_periodic_boundary_conditions` -/
  periodic : Bool
  /-- `_sudoku_num_empty_cells` -/
  sudokuEmptyCells : Nat

/-- The numerical library: `Generator::normal`, `Generator::uniform` (`lib/hnco/random.hh`) and `std::pow`; `ratio` and
`deviate` are those of `bvRandomSim`. -/
structure Numerics (K : Type) where
  normal : Sim K
  uniform : Sim K
  power : K → K → K
  ratio : Nat → Nat → K
  deviate : Nat → Nat → K

/-- A file written by `ffgen`: a boost text archive, or a text. -/
inductive FfgenFile (K : Type) where
  | archive (tokens : List (Tok K))
  | text (chars : List Char)
  deriving DecidableEq

/-! ## Generators of the classes -/

/-- `std::generate` on the whole of a vector with a generator object of state `σ`, which is copied. -/
def stdGenerate {σ : Type} (call : σ → Sim (K × σ)) (s : σ) (l : List K) : Sim (List K) := do
  let r ← Sim.forRange 0 l.length (fun i (r : List K × σ) => do
    let v ← call r.2
    let l ← Sim.lift (vset r.1 i v.1)
    pure (l, v.2)) (l, s)
  pure r.1

/-- `LinearFunction::generate` (`linear-function.hh:70-75`) on a new object. -/
def linearGenerate [Zero K] {σ : Type} (call : σ → Sim (K × σ)) (s : σ) (n : Nat) : Sim (List K) := do
  Sim.lift (assert (decide (n > 0)))
  stdGenerate call s (vresize [] n 0)

/-- `WalshExpansion1::generate` (`walsh-expansion-1.hh:80-87`), `EqualProducts::generate` (`equal-products.hh:90-97`) and
`Partition::generate` (`partition.hh:83-90`) on a new object: the loop is that of `nkFill`. -/
def vectorGenerate [Zero K] (generator : Sim K) (n : Nat) : Sim (List K) := do
  Sim.lift (assert (decide (n > 0)))
  nkFill generator (vresize [] n 0)

/-- `Partition::random` (`partition.hh:100-106`). -/
def partitionRandom (n upperBound : Nat) : Sim (List Int) := do
  Sim.lift (assert (decide (n > 0)))
  Sim.lift (assert (decide (upperBound > 0)))
  vectorGenerate (do
    let d ← Sim.uniformInt 1 upperBound
    pure (d : Int)) n

/-- `WalshExpansion::generate` (`walsh-expansion.hh:84-102`).  `bv_to_vector_bool` (`lib/hnco/bit-vector.cc:144-155`) copies
the bits. -/
def walshGenerate [Zero K] (generator : Sim K) (n numFeatures : Nat) : Sim (List (WalshTerm K)) := do
  Sim.lift (assert (decide (n > 0)))
  Sim.lift (assert (decide (numFeatures > 0)))
  let terms : List (WalshTerm K) := vresize [] numFeatures ⟨[], 0⟩
  Sim.forRange 0 terms.length (fun i terms => do
    let bv ← bvRandomBits n
    let coefficient ← generator
    Sim.lift (vset terms i ⟨bv, coefficient⟩)) terms

/-- `WalshExpansion2::resize` (`walsh-expansion-2.cc:36-49`) on a new object. -/
def walsh2Resize [Zero K] (n : Nat) : Outcome (List K × List (List K)) := do
  assert (decide (n > 0))
  let quadratic := vresize ([] : List (List K)) n []
  let quadratic ← forRange 1 quadratic.length (fun i quadratic => do
    let row ← vget quadratic i
    vset quadratic i (vresize row i 0)) quadratic
  return (vresize [] n 0, quadratic)

/-- `WalshExpansion2::generate` (`walsh-expansion-2.hh:92-107`) on a new object. -/
def walsh2Generate [Zero K] (linearGen quadraticGen : Sim K) (n : Nat) : Sim (List K × List (List K)) := do
  Sim.lift (assert (decide (n > 0)))
  let f ← Sim.lift (walsh2Resize n)
  let linear ← nkFill linearGen f.1
  let quadratic ← Sim.forRange 1 f.2.length (fun i quadratic =>
    Sim.forRange 0 i (fun j quadratic => do
      let v ← quadraticGen
      Sim.lift (gridSet quadratic i j v)) quadratic) f.2
  pure (linear, quadratic)

/-- `WalshExpansion2::generate_ising1_long_range` (`walsh-expansion-2.cc:82-100`) on a new object.  `i - j` is a difference of
unsigned numbers with `j < i`, and `std::fabs` returns it as a real. -/
def walsh2LongRange [Zero K] [NatCast K] [Neg K] (power : K → K → K) (alpha : K) (n : Nat) : Outcome (List K × List (List K)) := do
  assert (decide (n > 0))
  let f ← walsh2Resize n
  let linear := f.1.map (fun _ => (0 : K))
  let quadratic ← forRange 1 f.2.length (fun i quadratic =>
    forRange 0 i (fun j quadratic => do
      assert (decide (j < i))
      gridSet quadratic i j (power ((i - j : Nat) : K) (-alpha))) quadratic) f.2
  return (linear, quadratic)

/-- `WalshExpansion2::generate_ising1_long_range_periodic` (`walsh-expansion-2.cc:103-122`) on a new object.  The minimum of the
reals `d` and `n - d` is that of the integers. -/
def walsh2LongRangePeriodic [Zero K] [NatCast K] [Neg K] (power : K → K → K) (alpha : K) (n : Nat) :
    Outcome (List K × List (List K)) := do
  assert (decide (n > 0))
  let f ← walsh2Resize n
  let linear := f.1.map (fun _ => (0 : K))
  let quadratic ← forRange 1 f.2.length (fun i quadratic =>
    forRange 0 i (fun j quadratic => do
      assert (decide (j < i))
      let d := i - j
      gridSet quadratic i j (power ((min d (n - d) : Nat) : K) (-alpha))) quadratic) f.2
  return (linear, quadratic)

/-- `NearestNeighborIsingModel1::generate` (`nearest-neighbor-ising-model-1.hh:123-132`) and `resize`
(`nearest-neighbor-ising-model-1.cc:34-42`) on a new object. -/
def ising1Generate [Zero K] (couplingGen fieldGen : Sim K) (n : Nat) : Sim (Ising1 K) := do
  Sim.lift (assert (decide (n > 0)))
  let coupling : List K := vresize [] n 0
  let field : List K := vresize [] n 0
  Sim.forRange 0 coupling.length (fun i (m : Ising1 K) => do
    let v ← couplingGen
    let coupling ← Sim.lift (vset m.coupling i v)
    let v ← fieldGen
    let field ← Sim.lift (vset m.field i v)
    pure ⟨coupling, field, m.periodic⟩) ⟨coupling, field, false⟩

/-- Body of the loops of `NearestNeighborIsingModel2::generate` (`nearest-neighbor-ising-model-2.hh:139-141`). -/
def ising2Site (couplingGen fieldGen : Sim K) (i j : Nat) (m : Ising2 K) : Sim (Ising2 K) := do
  let v ← couplingGen
  let right ← Sim.lift (gridSet m.right i j v)
  let v ← couplingGen
  let below ← Sim.lift (gridSet m.below i j v)
  let v ← fieldGen
  let field ← Sim.lift (gridSet m.field i j v)
  pure ⟨right, below, field, m.periodic⟩

/-- `NearestNeighborIsingModel2::generate` (`nearest-neighbor-ising-model-2.hh:131-143`) and `resize`
(`nearest-neighbor-ising-model-2.cc:34-45`) on a new object. -/
def ising2Generate [Zero K] (couplingGen fieldGen : Sim K) (rows columns : Nat) : Sim (Ising2 K) := do
  Sim.lift (assert (decide (rows > 0)))
  Sim.lift (assert (decide (columns > 0)))
  let zero : List (List K) := List.replicate rows (List.replicate columns 0)
  Sim.forRange 0 rows (fun i m => Sim.forRange 0 columns (fun j m => ising2Site couplingGen fieldGen i j m) m)
    ⟨zero, zero, zero, false⟩

/-! ## The program -/

/-- The lambda `generator` (`app/ffgen.cc:47`, `79`, `104`, `146`, `198`). -/
def scaledNormal [Mul K] (num : Numerics K) (stddev : K) : Sim K := do
  let x ← num.normal
  pure (stddev * x)

/-- `generate_linear_function` (`app/ffgen.cc:39-73`). -/
def ffgenLinear [Ring K] (num : Numerics K) (o : FfgenOptions K) : Sim (FfgenFile K) := do
  let weights ← (match o.linGenerator with
    | 0 => linearGenerate (fun (u : Unit) => do
        let v ← scaledNormal num o.stddev
        pure (v, u)) () o.bvSize
    | 1 => linearGenerate (fun (w : K) => pure (w, w + o.linDistance)) o.linInitialWeight o.bvSize
    | 2 => linearGenerate (fun (w : K) => pure (w, w * o.linRatio)) o.linInitialWeight o.bvSize
    | _ => Sim.lift (Outcome.throw .runtimeError))
  pure (.archive (saveReals weights))

/-- `generate_walsh_expansion_2` (`app/ffgen.cc:76-99`). -/
def ffgenWalsh2 [Ring K] (num : Numerics K) (o : FfgenOptions K) : Sim (FfgenFile K) := do
  let generator := scaledNormal num o.stddev
  let f ← (match o.walsh2Generator with
    | 0 => walsh2Generate generator generator o.bvSize
    | 1 => Sim.lift (walsh2LongRange num.power o.walsh2Alpha o.bvSize)
    | _ => Sim.lift (Outcome.throw .runtimeError))
  pure (.archive (saveWalsh2 f))

/-- `generate_nearest_neighbor_ising_model_1` (`app/ffgen.cc:102-141`). -/
def ffgenIsing1 [Ring K] (num : Numerics K) (o : FfgenOptions K) : Sim (FfgenFile K) := do
  let generator := scaledNormal num o.stddev
  let m ← (match o.nn1Generator with
    | 0 => ising1Generate generator generator o.bvSize
    | 1 => ising1Generate generator (pure o.fieldConstant) o.bvSize
    | 2 => ising1Generate (pure o.couplingConstant) generator o.bvSize
    | 3 => ising1Generate (pure o.couplingConstant) (pure o.fieldConstant) o.bvSize
    | _ => Sim.lift (Outcome.throw .runtimeError))
  pure (.archive (saveIsing1 { m with periodic := o.periodic }))

/-- `generate_nearest_neighbor_ising_model_2` (`app/ffgen.cc:144-192`).  The warning about the size is not modelled, except that
`get_bv_size` must not fail. -/
def ffgenIsing2 [Ring K] (num : Numerics K) (o : FfgenOptions K) : Sim (FfgenFile K) := do
  let generator := scaledNormal num o.stddev
  let m ← (match o.nn2Generator with
    | 0 => ising2Generate generator generator o.nn2Rows o.nn2Columns
    | 1 => ising2Generate generator (pure o.fieldConstant) o.nn2Rows o.nn2Columns
    | 2 => ising2Generate (pure o.couplingConstant) generator o.nn2Rows o.nn2Columns
    | 3 => ising2Generate (pure o.couplingConstant) (pure o.fieldConstant) o.nn2Rows o.nn2Columns
    | _ => Sim.lift (Outcome.throw .runtimeError))
  let _ ← Sim.lift (ising2Size m)
  pure (.archive (saveIsing2 { m with periodic := o.periodic }))

/-- The case of MaxSat (`app/ffgen.cc:215-232`): number of variables and expression. -/
def ffgenMaxSat [LT K] [DecidableLT K] (num : Numerics K) (o : FfgenOptions K) : Sim (FfgenFile K) := do
  let e ← (if o.msPlanted then do
      let solution ← bvRandomBits o.bvSize
      maxSatRandomPlanted num.ratio num.deviate solution o.msNumLiterals o.msNumClauses
    else maxSatRandom num.ratio num.deviate o.bvSize o.msNumLiterals o.msNumClauses)
  pure (.text (cnfSave o.bvSize e))

/-- `generate_function` (`app/ffgen.cc:195-294`): the file which is written.  `main` (`app/ffgen.cc:297-319`) reports a
`runtime_error` and writes nothing. -/
def ffgen [Ring K] [LT K] [DecidableLT K] (num : Numerics K) (o : FfgenOptions K) : Sim (FfgenFile K) :=
  match o.function with
  | 1 => ffgenLinear num o
  | 60 => do
    let f ← nkGenerate (scaledNormal num o.stddev) o.bvSize o.nkK nkNew
    pure (.archive (saveNk f))
  | 70 => ffgenMaxSat num o
  | 90 => do
    let f ← vectorGenerate (do
      let u ← num.uniform
      pure (o.epUpperBound * u)) o.bvSize
    pure (.archive (saveReals f))
  | 91 => do
    let f ← partitionRandom o.bvSize o.partUpperBound
    pure (.archive (saveInts f))
  | 160 => do
    let f ← walshGenerate (scaledNormal num o.stddev) o.bvSize o.walshNumFeatures
    pure (.archive (saveWalsh f))
  | 161 => do
    let f ← vectorGenerate (scaledNormal num o.stddev) o.bvSize
    pure (.archive (saveReals f))
  | 162 => ffgenWalsh2 num o
  | 171 => ffgenIsing1 num o
  | 172 => ffgenIsing2 num o
  | 190 => do
    let s ← sudokuRandom num.ratio num.deviate Sudoku.new o.sudokuEmptyCells
    let t ← Sim.lift (sudokuSave s)
    pure (.text t)
  | _ => Sim.lift (Outcome.throw .runtimeError)

end Hnco
