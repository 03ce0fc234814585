import Verif.Prob.Dist
import Verif.BitVector.Model
import Verif.Map.Model
import Mathlib.Data.List.Sort
import Mathlib.Analysis.SpecialFunctions.Exp

/-!
# The random samplers, with probabilities

A second model of the functions of hnco which only sample: bit vectors, bits to be flipped, offspring, individuals,
transvections and matrices.  The first model (`Verif/Neighborhood/Model.lean`, `Verif/Map/Model.lean`, ...) tells what may
be sampled, this one how likely it is.
-/

namespace Hnco.Prob

open Outcome
open scoped ENNReal

/-! ## Bit vectors -/

/-- `bv_random(x)` (`lib/hnco/bit-vector.hh:160`): `std::generate` assigns fair coins in order. -/
noncomputable def bvRandomBits (x : BV) : Dist BV :=
  Dist.forRange 0 x.length (fun i x => do
    let b ← Dist.bernoulli
    Dist.lift (vset x i b)) x

/-- `bit_random(p)` (`lib/hnco/bit-vector.hh:75`). -/
noncomputable def bitRandom (p : ℝ≥0∞) : Dist Bool := do
  let b ← Dist.coin p
  pure (if b then true else false)

/-- Body of the loop of `bv_random(x, k)` (`lib/hnco/bit-vector.cc:108-120`); the state consists of `x`, `k` and `n`. -/
noncomputable def bvRandomBody (i : ℕ) (s : BV × ℕ × ℕ) : Dist (BV × ℕ × ℕ) :=
  if s.2.1 > 0 then do
    Dist.lift (assert (decide (s.2.2 > 0)))
    let b ← Dist.coin ((s.2.1 : ℝ≥0∞) / (s.2.2 : ℝ≥0∞))
    if b then do
      let x ← Dist.lift (vset s.1 i true)
      pure (x, s.2.1 - 1, s.2.2 - 1)
    else do
      let x ← Dist.lift (vset s.1 i false)
      pure (x, s.2.1, s.2.2 - 1)
  else do
    let x ← Dist.lift (vset s.1 i false)
    pure (x, s.2.1, s.2.2)

/-- `bv_random(x, k)` (`lib/hnco/bit-vector.cc:101-121`). -/
noncomputable def bvRandom (x : BV) (k : ℕ) : Dist BV := do
  Dist.lift (assert (decide (k ≤ x.length)))
  let s ← Dist.forRange 0 x.length bvRandomBody (x, k, x.length)
  pure s.1

/-- `pv_sample` (`lib/hnco/algorithms/probability-vector/probability-vector.cc:45-56`). -/
noncomputable def pvSample (pv : List ℝ≥0∞) (bv : BV) : Dist BV := do
  Dist.lift (assert (bv.length == pv.length))
  Dist.forRange 0 bv.length (fun i bv => do
    let p ← Dist.lift (vget pv i)
    let b ← Dist.coin p
    if b then Dist.lift (vset bv i true) else Dist.lift (vset bv i false)) bv

/-! ## Neighbourhoods -/

/-- `MultiBitFlip::bernoulli_trials` (`lib/hnco/neighborhoods/neighborhood.cc:33-48`), where `size` is the size of the
candidate.  The state of the loop consists of the flipped bits, `k` and `n`. -/
noncomputable def bernoulliTrials (size k : ℕ) : Dist (List ℕ) := do
  let s ← Dist.forRange 0 size (fun i (s : List ℕ × ℕ × ℕ) => do
    let b ← Dist.coin ((s.2.1 : ℝ≥0∞) / (s.2.2 : ℝ≥0∞))
    if b then pure (s.1 ++ [i], s.2.1 - 1, s.2.2 - 1) else pure (s.1, s.2.1, s.2.2 - 1))
    (([] : List ℕ), k, size)
  Dist.lift (assert (s.2.1 == 0))
  pure s.1

/-- `MultiBitFlip::rejection_sampling` (`lib/hnco/neighborhoods/neighborhood.cc:51-63`).  Numbers which are all different
can be sorted in only one way. -/
noncomputable def rejectionSampling (size k : ℕ) : Dist (List ℕ) := do
  let flipped ← Dist.forRange 0 k (fun _ flipped => do
    let index ← Dist.repeatUntil (Dist.uniformInt 0 (size - 1)) (fun index => !flipped.contains index)
    pure (flipped ++ [index])) ([] : List ℕ)
  pure (flipped.insertionSort (· ≤ ·))

/-- `StandardBitMutation::bernoulli_process` (`lib/hnco/neighborhoods/neighborhood.cc:85-97`).  The state consists of the
flipped bits and `again`. -/
noncomputable def bernoulliProcess (size : ℕ) (p : ℝ≥0∞) : Dist (List ℕ) := do
  let s ← Dist.doWhile (fun (s : List ℕ × Bool) =>
      Dist.forRange 0 size (fun i (s : List ℕ × Bool) => do
        let b ← Dist.coin p
        if b then pure (s.1 ++ [i], false) else pure s) s)
    (fun s => s.2) (([] : List ℕ), true)
  pure s.1

/-- Data members of `StandardBitMutation` (`lib/hnco/neighborhoods/neighborhood.hh:225-241`); `rate` is the parameter of
both distributions. -/
structure StandardBitMutation where
  rate : ℝ≥0∞
  rejectionSampling : Bool
  allowNoMutation : Bool

/-- Constructor (`lib/hnco/neighborhoods/neighborhood.hh:267-270`, with `257-260` for the rate `1 / n`). -/
noncomputable def StandardBitMutation.new (p : ℝ≥0∞) : StandardBitMutation :=
  { rate := p, rejectionSampling := false, allowNoMutation := false }

open Classical in
/-- `set_mutation_rate` (`lib/hnco/neighborhoods/neighborhood.hh:282-287`).  The test `p < 1 / std::sqrt(n)` is done as
`p * p * n < 1`. -/
noncomputable def StandardBitMutation.setMutationRate (size : ℕ) (p : ℝ≥0∞) (m : StandardBitMutation) :
    StandardBitMutation :=
  if p * p * size < 1 then { m with rate := p, rejectionSampling := true } else { m with rate := p }

/-- `set_allow_no_mutation` (`lib/hnco/neighborhoods/neighborhood.hh:290`). -/
def StandardBitMutation.setAllowNoMutation (b : Bool) (m : StandardBitMutation) : StandardBitMutation :=
  { m with allowNoMutation := b }

/-- `StandardBitMutation::sample_bits` (`lib/hnco/neighborhoods/neighborhood.cc:66-82`).  The loop `while (k == 0)`, which
is entered with `k == 0`, runs at least once. -/
noncomputable def StandardBitMutation.sampleBits (size : ℕ) (m : StandardBitMutation) : Dist (List ℕ) :=
  if m.rejectionSampling then do
    let k ← (if m.allowNoMutation then Dist.binomial size m.rate
      else Dist.repeatUntil (Dist.binomial size m.rate) (fun k => k != 0))
    Prob.rejectionSampling size k
  else bernoulliProcess size m.rate

/-- `SingleBitFlip::sample_bits` (`lib/hnco/neighborhoods/neighborhood.hh:167-170`). -/
noncomputable def singleBitFlip (size : ℕ) : Dist (List ℕ) := do
  let index ← Dist.uniformInt 0 (size - 1)
  pure [index]

/-- `HammingSphere::sample_bits` (`lib/hnco/neighborhoods/neighborhood.cc:115-122`).  The test `k < std::sqrt(n)` is done
as `k * k < n`. -/
noncomputable def hammingSphere (size radius : ℕ) : Dist (List ℕ) :=
  if radius * radius < size then rejectionSampling size radius else bernoulliTrials size radius

/-- `HammingBall::sample_bits` (`lib/hnco/neighborhoods/neighborhood.cc:100-112`). -/
noncomputable def hammingBall (size radius : ℕ) : Dist (List ℕ) := do
  let k ← Dist.uniformInt 1 radius
  Dist.lift (assert (decide (k > 0)))
  Dist.lift (assert (decide (k ≤ size)))
  if k * k < size then rejectionSampling size k else bernoulliTrials size k

/-- `Neighborhood::mutate` (`lib/hnco/neighborhoods/neighborhood.hh:137-141`), for a neighbourhood given by its function
`sample_bits`; `propose` (`113-117`) and `map` (`151-157`) make the same vector. -/
noncomputable def mutate (sampleBits : Dist (List ℕ)) (x : BV) : Dist BV := do
  let flipped ← sampleBits
  Dist.lift (bvFlipSparse x flipped)

/-! ## Crossover and selection -/

/-- `UniformCrossover::recombine` (`lib/hnco/algorithms/evolutionary-algorithms/crossover.cc:29-41`). -/
noncomputable def uniformCrossover (parent1 parent2 offspring : BV) : Dist BV := do
  Dist.lift (assert (offspring.length == parent1.length))
  Dist.lift (assert (offspring.length == parent2.length))
  Dist.forRange 0 offspring.length (fun i offspring => do
    let b ← Dist.bernoulli
    if b then do
      let c ← Dist.lift (vget parent1 i)
      Dist.lift (vset offspring i c)
    else do
      let c ← Dist.lift (vget parent2 i)
      Dist.lift (vset offspring i c)) offspring

/-- `BiasedCrossover::recombine` (`lib/hnco/algorithms/evolutionary-algorithms/crossover.cc:44-56`). -/
noncomputable def biasedCrossover (bias : ℝ≥0∞) (parent1 parent2 offspring : BV) : Dist BV := do
  Dist.lift (assert (offspring.length == parent1.length))
  Dist.lift (assert (offspring.length == parent2.length))
  Dist.forRange 0 offspring.length (fun i offspring => do
    let b ← Dist.coin bias
    if b then do
      let c ← Dist.lift (vget parent2 i)
      Dist.lift (vset offspring i c)
    else do
      let c ← Dist.lift (vget parent1 i)
      Dist.lift (vset offspring i c)) offspring

/-- `UniformSelection::select` (`lib/hnco/algorithms/evolutionary-algorithms/random-selection.cc:32-36`): the index; the
range of the distribution is `[0, size - 1]` (`random-selection.hh:67-70`). -/
noncomputable def uniformSelection (size : ℕ) : Dist ℕ := Dist.uniformInt 0 (size - 1)

/-- `FitnessProportionateSelection::select` (`lib/hnco/algorithms/evolutionary-algorithms/random-selection.cc:51-64`): the
index.  Values are not negative, as `std::discrete_distribution` requires. -/
noncomputable def fitnessProportionateSelection (values : List ℝ≥0∞) : Dist ℕ := Dist.discrete values

/-- `std::max_element` (`lib/hnco/algorithms/evolutionary-algorithms/random-selection.cc:72`) of a sequence which is not
empty; the first element `y` is given apart. -/
noncomputable def maxValue (y : ℝ) (ys : List ℝ) : ℝ := ys.foldl (fun m y => if m < y then y else m) y

open Classical in
/-- `BoltzmannSelection::init` and `select` (`lib/hnco/algorithms/evolutionary-algorithms/random-selection.cc:66-83`, and
`58-64` for the inherited `select`): the index. -/
noncomputable def boltzmannSelection (beta y : ℝ) (ys : List ℝ) : Dist ℕ := do
  let zs := (y :: ys).map (fun v => Real.exp (beta * (v - maxValue y ys)))
  Dist.lift (assert (decide (∀ z ∈ zs, z ≤ 1)))
  Dist.discrete (zs.map ENNReal.ofReal)

/-! ## Maps -/

/-- `Transvection::random(n)` (`lib/hnco/maps/transvection.cc:60-73`). -/
noncomputable def tvRandom (n : ℕ) : Dist Transvection := do
  Dist.lift (assert (decide (n > 1)))
  Dist.repeatUntil (do
    let i ← Dist.uniformInt 0 (n - 1)
    let j ← Dist.uniformInt 0 (n - 1)
    pure ⟨i, j⟩) (fun t => !(t.row == t.col))

/-- `Transvection::random_non_commuting(n, a)` (`lib/hnco/maps/transvection.cc:76-101`). -/
noncomputable def tvRandomNonCommuting (n : ℕ) (a : Transvection) : Dist Transvection := do
  Dist.lift (assert (decide (n > 1)))
  let b ← Dist.bernoulli
  let t ← (if b then do
      let i ← Dist.repeatUntil (Dist.uniformInt 0 (n - 1)) (fun i => !(i == a.col))
      pure ⟨a.col, i⟩
    else do
      let i ← Dist.repeatUntil (Dist.uniformInt 0 (n - 1)) (fun i => !(i == a.row))
      pure ⟨i, a.row⟩ : Dist Transvection)
  Dist.lift (assert (tvIsValidN t n))
  Dist.lift (assert (!tvCommute t a))
  pure t

/-- `bm_resize` followed by `bm_random` (`lib/hnco/bit-matrix.cc:151-165`): every entry is redrawn, so that the previous
contents do not matter. -/
noncomputable def bmRandom (nrows ncols : ℕ) : Dist BM := do
  Dist.lift (assert (decide (nrows > 0)))
  Dist.lift (assert (decide (ncols > 0)))
  Dist.forRange 0 nrows (fun _ M => do
    let row ← Dist.forRange 0 ncols (fun _ r => do
      let b ← Dist.bernoulli
      pure (r ++ [b])) ([] : List Bool)
    pure (M ++ [row])) ([] : BM)

/-- `LinearMap::random` (`lib/hnco/maps/map.cc:70-87`); also the matrix part of `AffineMap::random` (`105-121`). -/
noncomputable def linearRandom (rows cols : ℕ) (surjective : Bool) : Dist BM := do
  Dist.lift (assert (decide (rows > 0)))
  Dist.lift (assert (decide (cols > 0)))
  if surjective then
    if rows > cols then Dist.lift (Outcome.throw .runtimeError)
    else do
      let r ← Dist.repeatUntil (do
        let M ← bmRandom rows cols
        let s ← Dist.lift (linearIsSurjective M)
        pure (M, s)) (fun r => r.2)
      pure r.1
  else bmRandom rows cols

end Hnco.Prob
