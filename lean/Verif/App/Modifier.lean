import Verif.Map.CompositionProps
import Verif.Neighborhood.Model
import Verif.Algorithm.Alg

/-!
# Model of the function modifiers and of their assembly

Models `lib/hnco/functions/modifiers/`, and `make_map`, `make_prior_noise_neighborhood` and
`DecoratedFunctionFactory::make_function_modifier` (`lib/hnco/app/decorated-function-factory.cc:56-253`).
-/

namespace Hnco

open Outcome

variable {K : Type}

/-! ## Maps -/

/-- `Translation` as a map object (`lib/hnco/maps/map.hh:79-157`). -/
def translationObj (bv : BV) : MapObj where
  inputSize := bv.length
  outputSize := bv.length
  map := translationMap bv
  isSurjective := ok true

/-- `Permutation` as a map object (`map.hh:166-239`). -/
def permutationObj (p : List Int) : MapObj where
  inputSize := p.length
  outputSize := p.length
  map := permutationMap p
  isSurjective := ok true

/-- `AffineMap` as a map object (`map.hh:330-415`).  Simplification: the dimensions, read off the matrix by the code, are
arguments. -/
def affineObj (bm : BM) (bv : BV) (rows cols : Nat) : MapObj where
  inputSize := cols
  outputSize := rows
  map := affineMap bm bv
  isSurjective := linearIsSurjective bm

/-- `TsAffineMap` as a map object (`map.hh:601-684`). -/
def tsAffineObj (f : TsAffine) : MapObj where
  inputSize := f.bv.length
  outputSize := f.bv.length
  map := tsAffineMap f
  isSurjective := ok true

/-- `Translation::random` (`map.hh:127-132`): the translation vector. -/
def translationRandom (n : Nat) : Sim BV := do
  Sim.lift (assert (decide (n > 0)))
  bvRandomBits n

/-- `Permutation::random` (`map.hh:197-202`) and `perm_random` (`lib/hnco/permutation.hh:60-64`). -/
def permutationRandom (n : Nat) : Sim (List Int) := do
  Sim.lift (assert (decide (n > 0)))
  Sim.shuffle ((List.range n).map Int.ofNat)

/-- `AffineMap::random` (`map.cc:105-127`). -/
def affineRandom (rows cols : Nat) (surjective : Bool) : Sim (BM × BV) := do
  let M ← linearRandom rows cols surjective
  let v ← bvRandomBits rows
  Sim.lift (assert (M.length == v.length))
  pure (M, v)

/-- The options read by `make_map`.  `loaded` is none with the option `--map-random`, otherwise the map which has been read
from the file (see `loadMap` in `Verif/Serialization/Model.lean`). -/
structure MapOptions where
  kind : Nat
  inputSize : Int
  surjective : Bool
  tsLength : Nat
  tsMode : SamplingMode
  loaded : Option MapObj

/-- The random maps of `make_map` (`decorated-function-factory.cc:62-149`). -/
def makeRandomMap (o : MapOptions) (bvSize : Nat) : Sim MapObj :=
  match o.kind with
  | 1 => do
    let v ← translationRandom bvSize
    pure (translationObj v)
  | 2 => do
    let p ← permutationRandom bvSize
    pure (permutationObj p)
  | 3 => do
    let p ← permutationRandom bvSize
    let v ← translationRandom bvSize
    Sim.lift (assert ((permutationObj p).inputSize == (translationObj v).outputSize))
    pure (mapComposition (permutationObj p) (translationObj v) (List.replicate v.length false))
  | 4 =>
    if o.inputSize ≤ 0 then Sim.lift (Outcome.throw Exn.runtimeError) else do
      let M ← linearRandom bvSize o.inputSize.toNat o.surjective
      pure (linearObj M bvSize o.inputSize.toNat)
  | 5 =>
    if o.inputSize ≤ 0 then Sim.lift (Outcome.throw Exn.runtimeError) else do
      let r ← affineRandom bvSize o.inputSize.toNat o.surjective
      pure (affineObj r.1 r.2 bvSize o.inputSize.toNat)
  | 6 => do
    let f ← tsAffineRandom ⟨[], []⟩ bvSize o.tsLength o.tsMode
    pure (tsAffineObj f)
  | _ => Sim.lift (Outcome.throw Exn.runtimeError)

/-- `make_map` (`decorated-function-factory.cc:56-151`). -/
def makeMap (o : MapOptions) (bvSize : Nat) : Sim MapObj := do
  Sim.lift (assert (decide (o.kind > 0)))
  Sim.lift (assert (decide (bvSize > 0)))
  match o.loaded with
  | none => makeRandomMap o bvSize
  | some m => if o.kind ≤ 6 then pure m else Sim.lift (Outcome.throw Exn.runtimeError)

/-! ## Functions with noise -/

/-- The interface of `Function` (`lib/hnco/functions/function.hh:40-137`), for functions which draw random numbers and have a
state `σ`. -/
structure NoisyFn (σ K : Type) where
  /-- `get_bv_size()` -/
  size : Nat
  /-- `has_known_maximum()` -/
  hasMax : Outcome Bool
  /-- `get_maximum()` -/
  maximum : Outcome K
  /-- `provides_incremental_evaluation()` -/
  hasInc : Bool
  /-- `evaluate(x)` -/
  eval : BV → σ → Sim (K × σ)
  /-- `evaluate_incrementally(x, value, flipped_bits)` -/
  evalInc : BV → K → List Nat → σ → Sim (K × σ)

/-- A function without noise and without state. -/
def NoisyFn.base (f : Fn K) : NoisyFn Unit K where
  size := f.size
  hasMax := ok f.hasMax
  maximum := f.maximum
  hasInc := f.hasInc
  eval := fun x _ => do
    let v ← Sim.lift (f.eval x)
    pure (v, ())
  evalInc := fun x value flips _ => do
    let v ← Sim.lift (f.evalInc x value flips)
    pure (v, ())

/-- `FunctionMapComposition` (`modifiers/modifier.hh:83-142`, `modifier.cc:42-47`); the state is the one of the function and
`_output`. -/
def NoisyFn.mapped {σ : Type} (g : NoisyFn σ K) (m : MapObj) : NoisyFn (σ × BV) K where
  size := m.inputSize
  hasMax := do
    let b ← g.hasMax
    if b then m.isSurjective else return false
  maximum := do
    let b ← g.hasMax
    let b ← if b then m.isSurjective else (return false)
    if b then g.maximum else .throw .runtimeError
  hasInc := false
  eval := fun x s => do
    let output ← Sim.lift (m.map x s.2)
    let r ← g.eval output s.1
    pure (r.1, (r.2, output))
  evalInc := fun _ _ _ _ => Sim.lift (Outcome.throw Exn.runtimeError)

/-- `PriorNoise` (`modifiers/prior-noise.hh:37-93`, `prior-noise.cc:28-33`); the state is the one of the function, the
neighbourhood and `_noisy_bv`. -/
def NoisyFn.priorNoise {σ : Type} (g : NoisyFn σ K) (k : Sampler) : NoisyFn (σ × Nbh × BV) K where
  size := g.size
  hasMax := g.hasMax
  maximum := g.maximum
  hasInc := false
  eval := fun x s => do
    let r ← s.2.1.map k x s.2.2
    let v ← g.eval r.2 s.1
    pure (v.1, (v.2, r))
  evalInc := fun _ _ _ _ => Sim.lift (Outcome.throw Exn.runtimeError)

/-- `ParsedModifier` (`modifiers/parsed-modifier.hh:40-77`, `parsed-modifier.cc:46-51`).  The expression is any function of
the value. -/
def NoisyFn.parsed {σ : Type} (g : NoisyFn σ K) (e : K → K) : NoisyFn σ K where
  size := g.size
  hasMax := ok false
  maximum := .throw .runtimeError
  hasInc := false
  eval := fun x s => do
    let r ← g.eval x s
    pure (e r.1, r.2)
  evalInc := fun _ _ _ _ => Sim.lift (Outcome.throw Exn.runtimeError)

/-- `OppositeFunction` (`modifiers/modifier.hh:51-80`, `modifier.cc:30-40`). -/
def NoisyFn.opposite {σ : Type} [Neg K] (g : NoisyFn σ K) : NoisyFn σ K where
  size := g.size
  hasMax := ok false
  maximum := .throw .runtimeError
  hasInc := true
  eval := fun x s => do
    let r ← g.eval x s
    pure (-r.1, r.2)
  evalInc := fun x value flips s => do
    let r ← g.evalInc x (-value) flips s
    pure (-r.1, r.2)

/-- `AdditiveGaussianNoise` (`modifiers/modifier.hh:145-166`, `modifier.cc:57-61`).  `normal` gives the variate obtained from a
raw draw. -/
def NoisyFn.gaussian {σ : Type} [Add K] (g : NoisyFn σ K) (normal : Nat → K) : NoisyFn σ K where
  size := g.size
  hasMax := ok false
  maximum := .throw .runtimeError
  hasInc := false
  eval := fun x s => do
    let r ← g.eval x s
    let d ← Sim.draw
    pure (r.1 + normal d, r.2)
  evalInc := fun _ _ _ _ => Sim.lift (Outcome.throw Exn.runtimeError)

/-- A function object with its state after construction. -/
structure NoisyStack (K : Type) where
  σ : Type
  obj : NoisyFn σ K
  init : σ

/-! ## Assembly -/

/-- The options of `make_prior_noise_neighborhood`; `rateBelowSqrt` is none without the option `--pn-mutation-rate`, otherwise
it says whether the given rate is below `1 / std::sqrt(n)`. -/
structure PnOptions where
  kind : Nat
  allowNoMutation : Bool
  rateBelowSqrt : Option Bool
  radius : Nat

/-- The neighbourhood chosen by `make_prior_noise_neighborhood` (`decorated-function-factory.cc:154-188`). -/
def pnSampler (o : PnOptions) : Outcome Sampler :=
  match o.kind with
  | 0 => ok .singleBitFlip
  | 1 =>
    let params := StandardParams.setAllowNoMutation o.allowNoMutation ⟨false, false⟩
    match o.rateBelowSqrt with
    | none => ok (.standardBitMutation params)
    | some b => ok (.standardBitMutation (params.setMutationRate b))
  | 2 => ok (.hammingBall o.radius)
  | 3 => ok (.hammingSphere o.radius)
  | _ => .throw .runtimeError

/-- The options read by `make_function_modifier`; `expression` is none without the option `--parsed-modifier`, `gaussian` is
none without the option `--additive-gaussian-noise`. -/
structure ModOptions (K : Type) where
  priorNoise : Option PnOptions
  expression : Option (K → K)
  minimize : Bool
  gaussian : Option (Nat → K)

/-- The composition with a map in `make_function_modifier` (`decorated-function-factory.cc:220-223`). -/
def decorateMap (f : Fn K) (map : Option MapObj) : Outcome (NoisyStack K) :=
  match map with
  | none => ok ⟨Unit, .base f, ()⟩
  | some m =>
    match functionMapNew f m with
    | .ok output => ok ⟨Unit × BV, (NoisyFn.base f).mapped m, ((), output)⟩
    | .throw e => .throw e
    | .ub => ub

/-- The prior noise in `make_function_modifier` (`decorated-function-factory.cc:232-235`): `bvSize` is the size of the function
before the composition with a map. -/
def decoratePrior (pn : Option PnOptions) (bvSize : Nat) (st : NoisyStack K) : Outcome (NoisyStack K) :=
  match pn with
  | none => ok st
  | some o =>
    match pnSampler o with
    | .ok k =>
      match k.construct bvSize with
      | .ok nbh => ok ⟨st.σ × Nbh × BV, st.obj.priorNoise k, (st.init, nbh, List.replicate st.obj.size false)⟩
      | .throw e => .throw e
      | .ub => ub
    | .throw e => .throw e
    | .ub => ub

/-- The other modifiers in `make_function_modifier` (`decorated-function-factory.cc:237-250`). -/
def decorateValue [Neg K] [Add K] (o : ModOptions K) (st : NoisyStack K) : NoisyStack K :=
  let st1 : NoisyStack K := match o.expression with
    | none => st
    | some e => ⟨st.σ, st.obj.parsed e, st.init⟩
  let st2 : NoisyStack K := if o.minimize then ⟨st1.σ, st1.obj.opposite, st1.init⟩ else st1
  match o.gaussian with
  | none => st2
  | some normal => ⟨st2.σ, st2.obj.gaussian normal, st2.init⟩

/-- `make_function_modifier` (`decorated-function-factory.cc:211-253`), after `make_function` has given `f` and `make_map` has
given `map`.  Not modelled: warnings. -/
def decorate [Neg K] [Add K] (o : ModOptions K) (f : Fn K) (map : Option MapObj) : Outcome (NoisyStack K) :=
  match decorateMap f map with
  | .ok st =>
    match decoratePrior o.priorNoise f.size st with
    | .ok st => ok (decorateValue o st)
    | .throw e => .throw e
    | .ub => ub
  | .throw e => .throw e
  | .ub => ub

/-- Successive evaluations. -/
def NoisyFn.evalAll {σ : Type} (g : NoisyFn σ K) : List BV → σ → Sim (List K × σ)
  | [], s => pure ([], s)
  | x :: xs, s => do
    let r ← g.eval x s
    let t ← g.evalAll xs r.2
    pure (r.1 :: t.1, t.2)

end Hnco
