import Verif.App.Ffgen
import Verif.Function.Theory
import Verif.Function.Peaks
import Verif.Function.Cancellation
import Verif.Function.Collection
import Verif.Representation.Adapter

/-!
# Model of the function factory

Models `lib/hnco/app/function-factory.cc`, which makes the function to be maximized by `hnco`.  Values, which are of type
`double`, are in an ordered field.  The cases left to other models are those of factorization (150), the travelling salesman
(200), parsed functions (500-534), plugins (1000) and Python (1100).
-/

namespace Hnco

open Outcome

variable {K : Type}

/-- The options read by the factory (`function-factory.cc:38-232`).  The number of traps and the length of
prefixes are natural numbers: negative ones fail the same assertions as 0. -/
structure FactoryOptions where
  /-- `_function` -/
  function : Nat
  /-- `_bv_size` -/
  bvSize : Int
  /-- `_fn_threshold` -/
  threshold : Int
  /-- `_fn_num_traps` -/
  numTraps : Nat
  /-- `_fn_prefix_length` -/
  prefixLength : Nat
  /-- `_rep_categorical_representation` -/
  categorical : Nat

/-- The file at `_path`, as seen by functions which read text, and as seen by functions which read an archive: `none` stands
for an archive exception. -/
structure InstanceFile (K : Type) where
  text : List Char
  archive : Option (List (Tok K))

/-- What comes from the standard library: `std::sin`, and reading a `double` from a stream as in `quboLoad`. -/
structure FactoryLib (K : Type) where
  sin : K → K
  readFloat : List Char → Option (K × List Char)

/-- What is made: a function which depends on its argument only, a Sudoku behind an adapter with its representations, or a
function which is not modelled here. -/
inductive Made (K : Type) where
  | plain (f : Fn K)
  | sudoku (s : Sudoku) (reps : List (Rep Nat))
  | other

/-- Reading an object from the file (`lib/hnco/serialization.hh:43-56`), with the reader of its class. -/
def InstanceFile.read {α : Type} (file : InstanceFile K) (reader : Reader K α) : Outcome α :=
  match file.archive with
  | none => .throw .runtimeError
  | some ts => do
    let r ← reader ts
    ok r.1

section
variable [Field K] [LinearOrder K]

/-- A function whose integer values are stored in a `double`. -/
def Fn.real (f : Fn Int) : Fn K where
  size := f.size
  hasMax := f.hasMax
  maximum := do
    let m ← f.maximum
    ok (m : K)
  eval := fun x => do
    let v ← f.eval x
    ok (v : K)
  hasInc := false
  evalInc := fun _ _ _ => .throw .runtimeError

/-- `OneMax` with values in a `double` (`theory.hh:37-72`, `theory.cc:34-50`). -/
def oneMaxReal (n : Nat) : Fn K where
  size := n
  hasMax := true
  maximum := ok (n : K)
  eval := fun x => ok (bvHammingWeight x : K)
  hasInc := true
  evalInc := fun x v flips => do
    let delta ← forEach flips (fun i (delta : Int) => do
      let b ← vget x i
      return if b then delta - 1 else delta + 1) 0
    ok (v + (delta : K))

/-- The weights generated by the lambda of case 5 (`function-factory.cc:53-58`) in `LinearFunction::generate`
(`linear-function.hh:71-75`): the counter `w` is an `int` of 32 bits, whose overflow is undefined. -/
def doublingWeights (n : Nat) : Outcome (List K) := do
  assert (decide (n > 0))
  let r ← forRange 0 n (fun i (r : List K × Int) => do
    let w ← checked 32 (r.2 * 2)
    let l ← vset r.1 i ((r.2 : Int) : K)
    ok (l, w)) (vresize [] n 0, 1)
  ok r.1

/-- `Qubo` (`qubo.hh:74-120`). -/
def quboFn (q : List (List K)) : Fn K := Fn.ofEval q.length (quboEval q)

/-- `NkLandscape` (`nk-landscape.hh:139-143`). -/
def nkFn (f : Nk K) : Fn K := Fn.ofEval f.partials.length (nkEval f)

/-- `MaxSat` and `MaxNae3Sat` (`max-sat.hh:72-73`, `149-150`, `170-171`); `count` is the number of clauses which are
satisfied. -/
def satFn (count : List (List Int) → BV → Outcome Nat) (e : Int × List (List Int)) : Fn K :=
  Fn.ofEval e.1.toNat (fun x => do
    let v ← count e.2 x
    ok (v : K))

/-- `Labs` (`labs.hh:59-70`).  The sequence, which is overwritten by each evaluation before it is read, is that of the
constructor. -/
def labsFn (merit : Bool) (n : Nat) : Fn K := Fn.ofEval n (labsEval merit (List.replicate n 0))

/-- `EqualProducts` (`equal-products.hh:136-140`). -/
def equalProductsFn (l : List K) : Fn K := Fn.ofEval l.length (equalProductsEval l)

/-- `Partition` (`partition.hh:132-136`). -/
def partitionFn (l : List Int) : Fn K :=
  Fn.ofEval l.length (fun x => do
    let v ← partitionEval l x
    ok (v : K))

/-- `WalshExpansion` (`walsh-expansion.hh:142-149`).  The assertion of `get_bv_size` is made at once. -/
def walshFn (terms : List (WalshTerm K)) : Outcome (Fn K) := do
  let t ← vget terms 0
  ok (Fn.ofEval t.feature.length (walshExpansionEval terms))

/-- `WalshExpansion2` (`walsh-expansion-2.hh:196-200`). -/
def walsh2Fn (f : List K × List (List K)) : Fn K := Fn.ofEval f.2.length (walshExpansion2Eval f.1 f.2)

/-- `NearestNeighborIsingModel1` (`nearest-neighbor-ising-model-1.hh:178-199`).  The buffer `_flipped_bits` has the size of the
function and holds zeros (`nearest-neighbor-ising-model-1.hh:87`) before and after each evaluation. -/
def ising1Fn (m : Ising1 K) : Fn K where
  size := m.coupling.length
  hasMax := false
  maximum := .throw .runtimeError
  eval := ising1Eval m
  hasInc := true
  evalInc := fun x v flips => do
    let r ← ising1Inc m (List.replicate m.coupling.length false) x v flips
    ok r.1

/-- `NearestNeighborIsingModel2` (`nearest-neighbor-ising-model-2.hh:190-216`) of size `n`. -/
def ising2FnOf (m : Ising2 K) (n : Nat) : Fn K where
  size := n
  hasMax := false
  maximum := .throw .runtimeError
  eval := ising2Eval m
  hasInc := true
  evalInc := fun x v flips => do
    let r ← ising2Inc m (List.replicate n false) x v flips
    ok r.1

/-- `NearestNeighborIsingModel2` after `load`, which computes its size (`nearest-neighbor-ising-model-2.hh:91`). -/
def ising2Fn (m : Ising2 K) : Outcome (Fn K) := do
  let n ← ising2Size m
  ok (ising2FnOf m n)

/-- The case of Sudoku (`function-factory.cc:203-223`). -/
def makeSudoku (categorical : Nat) (text : List Char) : Outcome (Made K) := do
  let s ← sudokuLoad Sudoku.new text
  match s.numVariables with
  | none => ub
  | some n =>
    match categorical with
    | 0 => do
      let r ← integerCategoricalNew 9
      ok (.sudoku s (List.replicate n r.rep))
    | 1 => do
      let r ← linearCategoricalNew 9
      ok (.sudoku s (List.replicate n r.rep))
    | _ => .throw .runtimeError

/-- The cases of `CommandLineFunctionFactory::make` from 140 to 1100 (`function-factory.cc:160-418`), where `n` is the size. -/
def makeCase3 (lib : FactoryLib K) (o : FactoryOptions) (n : Nat) (file : InstanceFile K) : Outcome (Made K) :=
  match o.function with
  | 140 => do
    longPathNew n o.prefixLength
    ok (.plain (longPath n o.prefixLength).real)
  | 160 => do
    let terms ← file.read loadWalsh
    let f ← walshFn terms
    ok (.plain f)
  | 161 => do
    let w ← file.read loadReals
    ok (.plain (walshExpansion1 w))
  | 162 => do
    let f ← file.read loadWalsh2
    ok (.plain (walsh2Fn f))
  | 171 => do
    let m ← file.read loadIsing1
    ok (.plain (ising1Fn m))
  | 172 => do
    let m ← file.read loadIsing2
    let f ← ising2Fn m
    ok (.plain f)
  | 190 => makeSudoku o.categorical file.text
  | id => if id = 150 ∨ id = 200 ∨ (500 ≤ id ∧ id ≤ 504) ∨ (510 ≤ id ∧ id ≤ 514) ∨ (520 ≤ id ∧ id ≤ 524) ∨
      (530 ≤ id ∧ id ≤ 534) ∨ id = 1000 ∨ id = 1100 then ok .other
    else .throw .runtimeError

/-- The cases of `CommandLineFunctionFactory::make` from 70 (`function-factory.cc:104-418`). -/
def makeCase2 (lib : FactoryLib K) (o : FactoryOptions) (n : Nat) (file : InstanceFile K) : Outcome (Made K) :=
  match o.function with
  | 70 => do
    let e ← cnfLoad file.text
    ok (.plain (satFn maxSatEval e))
  | 71 => do
    let e ← nae3Load file.text
    ok (.plain (satFn maxNae3SatEval e))
  | 80 => ok (.plain (labsFn false n))
  | 81 => ok (.plain (labsFn true n))
  | 90 => do
    let l ← file.read loadReals
    ok (.plain (equalProductsFn l))
  | 91 => do
    let l ← file.read loadInts
    ok (.plain (partitionFn l))
  | 100 => do
    let m ← cancellationNew n
    ok (.plain (summationCancellation n m))
  | 101 => do
    let m ← cancellationNew n
    ok (.plain (sinusSummationCancellation lib.sin n m))
  | 110 => do
    let s ← trapNew n o.numTraps
    ok (.plain (trap n o.numTraps s).real)
  | 120 => do
    let d ← hiffNew n
    ok (.plain (hiff n d).real)
  | 130 => ok (.plain (plateau n).real)
  | _ => makeCase3 lib o n file

/-- The cases of `CommandLineFunctionFactory::make` (`function-factory.cc:41-418`), where `n` is the size. -/
def makeCase (lib : FactoryLib K) (o : FactoryOptions) (n : Nat) (file : InstanceFile K) : Outcome (Made K) :=
  match o.function with
  | 0 => ok (.plain (oneMaxReal n))
  | 1 => do
    let w ← file.read loadReals
    ok (.plain (linearFunction w))
  | 5 => do
    let w ← doublingWeights n
    ok (.plain (linearFunction w))
  | 10 => ok (.plain (leadingOnes n).real)
  | 11 => ok (.plain (ridge n).real)
  | 20 => ok (.plain (needle n).real)
  | 30 => do
    jumpNew n o.threshold
    ok (.plain (jump n o.threshold).real)
  | 31 => do
    jumpNew n o.threshold
    ok (.plain (deceptiveJump n o.threshold).real)
  | 40 => do
    let m ← peaksNew n o.threshold
    ok (.plain (fourPeaks n o.threshold m).real)
  | 41 => do
    let m ← peaksNew n o.threshold
    ok (.plain (sixPeaks n o.threshold m).real)
  | 50 => do
    let q ← quboLoad lib.readFloat [] file.text
    ok (.plain (quboFn q))
  | 60 => do
    let f ← file.read loadNk
    ok (.plain (nkFn f))
  | _ => makeCase2 lib o n file

/-- `CommandLineFunctionFactory::make` (`function-factory.cc:35-419`). -/
def makeFunction (lib : FactoryLib K) (o : FactoryOptions) (file : InstanceFile K) : Outcome (Made K) :=
  if o.bvSize ≤ 0 then .throw .runtimeError else makeCase lib o o.bvSize.toNat file

/-- Evaluation of a Sudoku behind its adapter (`multivariate-function-adapter.hh:109-113`): the value and the new state of the
Sudoku.  `vars` holds the previous values of the variables. -/
def sudokuFnEval (s : Sudoku) (reps : List (Rep Nat)) (vars : List Nat) (bv : BV) : Outcome (K × Sudoku) :=
  multivariateEvaluate (sudokuEval s) (fun r => ok ((r.1 : K), r.2)) reps vars bv

end

end Hnco
