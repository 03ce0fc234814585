import Verif.Representation.Model
import Verif.Function.Base

/-!
# Function adapters

Model of `lib/hnco/functions/multivariate-function-adapter.hh`, `universal-function-adapter.hh`,
`permutation-function-adapter.hh` and `multiobjective-function-adapter.hh`; the adapters of
`lib/hnco/multiobjective/functions/` have the same unpacking loops.
-/

namespace Hnco

open Outcome

/-- What adapters use of a representation: its size and its unpacking. -/
structure Rep (D : Type) where
  size : Nat
  unpack : BV → Nat → Outcome D

/-- A dyadic integer representation. -/
def DyadicInteger.rep (r : DyadicInteger) : Rep Int := ⟨r.size, dyadicUnpack r⟩

/-- A value set representation. -/
def ValueSet.rep {α : Type} (r : ValueSet α) : Rep α := ⟨r.index.size, valueSetUnpack r⟩

/-- A dyadic float representation (`float.hh:120` for the size). -/
def DyadicFloat.rep {K : Type} [Field K] (r : DyadicFloat K) : Rep K := ⟨r.lengths.length, floatUnpack r⟩

/-- A complex representation (`complex.hh:83` for the size). -/
def complexRep {K : Type} [Field K] (re im : DyadicFloat K) : Rep (K × K) :=
  ⟨re.lengths.length + im.lengths.length, complexUnpack re im⟩

/-- A linear categorical representation (`categorical.hh:119` for the size). -/
def LinearCategorical.rep (r : LinearCategorical) : Rep Nat := ⟨r.ncols, linearCategoricalUnpack r⟩

/-- An integer categorical representation. -/
def IntegerCategorical.rep (r : IntegerCategorical) : Rep Nat := ⟨r.size, integerCategoricalUnpack r⟩

/-- The result of a representation converted to another type (`multivariate-function-adapter.hh:168-171`, where
the alternatives of a variant are all converted to `double`). -/
def Rep.map {D E : Type} (r : Rep D) (convert : D → E) : Rep E :=
  ⟨r.size, fun bv start => do let v ← r.unpack bv start; ok (convert v)⟩

/-- The loop unpacking all the variables of a type from `start`
(`multivariate-function-adapter.hh:66-70`, `167-172`, `universal-function-adapter.hh:94-109`): the variables and the
position after the last slice. -/
def unpackLoop {D : Type} (reps : List (Rep D)) (vars : List D) (bv : BV) (start : Nat) : Outcome (List D × Nat) :=
  forRange 0 vars.length (fun i (st : List D × Nat) => do
    let rep ← vget reps i
    let v ← rep.unpack bv st.2
    let vars ← vset st.1 i v
    ok (vars, st.2 + rep.size)) (vars, start)

/-- `get_bv_size` (`multivariate-function-adapter.hh:97-102`, `195-200`). -/
def multivariateSize {D : Type} (reps : List (Rep D)) : Outcome Nat :=
  forEach reps (fun rep result => ok (result + rep.size)) 0

/-- `MultivariateFunctionAdapter::unpack` (`multivariate-function-adapter.hh:65-71`), and that of
`MixedRepresentationMultivariateFunctionAdapter` (`166-173`).  `vars` holds the previous values of the variables. -/
def multivariateUnpack {D : Type} (reps : List (Rep D)) (vars : List D) (bv : BV) : Outcome (List D) := do
  let st ← unpackLoop reps vars bv 0
  ok st.1

/-- `MultivariateFunctionAdapter::evaluate` (`multivariate-function-adapter.hh:109-113`, `207-211`). -/
def multivariateEvaluate {D C K : Type} (f : List D → Outcome C) (converter : C → Outcome K) (reps : List (Rep D))
    (vars : List D) (bv : BV) : Outcome K := do
  let size ← multivariateSize reps
  assert (bv.length == size)
  let values ← multivariateUnpack reps vars bv
  let y ← f values
  converter y

/-- The representations of `UniversalFunctionAdapter` (`universal-function-adapter.hh:47-64`). -/
structure UniversalReps (K : Type) where
  numBooleans : Nat
  integers : List DyadicInteger
  floats : List (DyadicFloat K)
  complexes : List (DyadicFloat K × DyadicFloat K)
  categoricals : List LinearCategorical
  permutations : List PermutationRep

/-- The variables of `UniversalFunctionAdapter` (`universal-function-adapter.hh:66-83`). -/
structure UniversalVars (K : Type) where
  booleans : BV
  integers : List Int
  floats : List K
  complexes : List (K × K)
  categoricals : List Nat
  permutations : List (List Nat)

section
variable {K : Type} [Field K] [LinearOrder K]

/-- The size computed by the constructor (`universal-function-adapter.hh:159-170`). -/
def UniversalReps.bvSize (r : UniversalReps K) : Outcome Nat := do
  let size := r.numBooleans
  let size ← forEach r.integers (fun rep size => ok (size + rep.rep.size)) size
  let size ← forEach r.floats (fun rep size => ok (size + rep.rep.size)) size
  let size ← forEach r.complexes (fun rep size => ok (size + (complexRep rep.1 rep.2).size)) size
  let size ← forEach r.categoricals (fun rep size => ok (size + rep.rep.size)) size
  forEach r.permutations (fun rep size => ok (size + rep.size)) size

/-- `UniversalFunctionAdapter::unpack` (`universal-function-adapter.hh:89-114`).  The vectors of variables have
the sizes set by the constructor (`universal-function-adapter.hh:148-157`). -/
def universalUnpack (r : UniversalReps K) (vars : UniversalVars K) (bv : BV) : Sim (UniversalVars K) := do
  let size ← Sim.lift r.bvSize
  Sim.lift (assert (bv.length == size))
  let booleans ← Sim.lift (forRange 0 vars.booleans.length (fun i (booleans : BV) => do
    let b ← vget bv i
    vset booleans i b) vars.booleans)
  let start := vars.booleans.length
  let p1 ← Sim.lift (unpackLoop (r.integers.map DyadicInteger.rep) vars.integers bv start)
  let p2 ← Sim.lift (unpackLoop (r.floats.map DyadicFloat.rep) vars.floats bv p1.2)
  let p3 ← Sim.lift (unpackLoop (r.complexes.map (fun p => complexRep p.1 p.2)) vars.complexes bv p2.2)
  let p4 ← Sim.lift (unpackLoop (r.categoricals.map LinearCategorical.rep) vars.categoricals bv p3.2)
  let p5 ← Sim.forRange 0 vars.permutations.length (fun i (st : List (List Nat) × Nat) => do
    let rep ← Sim.lift (vget r.permutations i)
    let old ← Sim.lift (vget st.1 i)
    Sim.lift (assert (old.length == rep.count))
    let p ← permutationUnpack rep bv st.2
    let perms ← Sim.lift (vset st.1 i p)
    pure (perms, st.2 + rep.size)) (vars.permutations, p4.2)
  pure { booleans := booleans, integers := p1.1, floats := p2.1, complexes := p3.1, categoricals := p4.1
         permutations := p5.1 }

end

/-- Constructor of `PermutationFunctionAdapter` (`permutation-function-adapter.hh:66-75`): the number of elements
of the function and the representation must be the same. -/
def permutationAdapterNew (functionElements : Nat) (rep : PermutationRep) : Outcome Unit :=
  if rep.count ≠ functionElements then .throw .runtimeError else ok ()

/-- `PermutationFunctionAdapter::evaluate` (`permutation-function-adapter.hh:54-57`, `81-84`). -/
def permutationAdapterEvaluate {K : Type} (f : List Nat → Outcome K) (rep : PermutationRep) (bv : BV) : Sim K := do
  Sim.lift (assert (bv.length == rep.size))
  let p ← permutationUnpack rep bv 0
  Sim.lift (f p)

/-- `MultiobjectiveFunctionAdapter::evaluate` (`multiobjective-function-adapter.hh:71-74`). -/
def multiobjectiveAdapterEvaluate {K : Type} [Add K] [Zero K] (f : BV → Outcome (List K)) (bv : BV) : Outcome K := do
  let value ← f bv
  forEach value (fun v result => ok (result + v)) 0

end Hnco
