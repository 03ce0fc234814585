import Verif.Prob.Walks

/-!
# Random maps, with probabilities

Second model of the samplers of transvection sequences (`lib/hnco/maps/transvection.cc`) and of the random maps
(`lib/hnco/maps/map.cc`, `lib/hnco/maps/map.hh`), in which maps have probabilities.  What draws nothing is taken from the first
model (`Verif/Map/Model.lean`).
-/

namespace Hnco.Prob

open Outcome
open scoped ENNReal

/-- `std::shuffle` (`lib/hnco/maps/transvection.cc:206`, `238`, `262`, `274`, `295`, `307`, `321`): each order has the number of
ways to obtain it (one, if the elements differ) divided by the number of permutations. -/
noncomputable def shuffle {α : Type} [DecidableEq α] (l : List α) : Dist (List α) := ⟨fun s =>
  (l.permutations.count s : ℝ≥0∞) / ((l.length.factorial : ℕ) : ℝ≥0∞)⟩

/-- The loop of `ts_random` (`lib/hnco/maps/transvection.cc:178-179`). -/
noncomputable def tsRandomLoop (n : ℕ) : ℕ → Dist (List Transvection)
  | 0 => pure []
  | k + 1 => do
    let t ← tvRandom n
    let ts ← tsRandomLoop n k
    pure (t :: ts)

/-- `ts_random` (`lib/hnco/maps/transvection.cc:172-180`).  The previous contents of the sequence are overwritten. -/
noncomputable def tsRandom (_ts : List Transvection) (n t : ℕ) : Dist (List Transvection) := do
  Dist.lift (assert (decide (n > 1)))
  tsRandomLoop n t

/-- The choice of the split point (`lib/hnco/maps/transvection.cc:210-227`); the bounds are those of the first model
(`commutingBound`: real arithmetic instead of floating point). -/
noncomputable def commutingSplit (n t : ℕ) : Dist ℕ :=
  if n % 2 = 0 then do
    let r ← Dist.uniformInt 0 (commutingBound n t)
    let b ← Dist.bernoulli
    pure (if b then n / 2 + r else n / 2 - r)
  else do
    let r ← Dist.uniformInt 1 (commutingBound n t)
    let b ← Dist.bernoulli
    pure (if b then n / 2 + r else n / 2 + 1 - r)

/-- `ts_random_commuting` (`lib/hnco/maps/transvection.cc:183-242`). -/
noncomputable def tsRandomCommuting (ts : List Transvection) (n t : ℕ) : Dist (List Transvection) := do
  Dist.lift (assert (decide (n > 1)))
  if t ≤ 0 then pure ts
  else do
    let t := if t > commutingLengthMax n then commutingLengthMax n else t
    let vars ← shuffle (List.range n)
    let split ← commutingSplit n t
    let ts ← Dist.lift (commutingPairs vars n split ts)
    let ts ← shuffle ts
    if t < ts.length then pure (ts.take t) else pure ts

/-- `ts_random_unique_source` (`lib/hnco/maps/transvection.cc:245-275`). -/
noncomputable def tsRandomUniqueSource (ts : List Transvection) (n t : ℕ) : Dist (List Transvection) := do
  Dist.lift (assert (decide (n > 1)))
  if t ≤ 0 then pure ts
  else do
    let t := if t > n - 1 then n - 1 else t
    let vars ← shuffle (List.range n)
    let ts ← Dist.forRange 0 t (fun i ts => do
      let r ← Dist.lift (vget vars i)
      let k ← Dist.uniformInt t (n - 1)
      let c ← Dist.lift (vget vars k)
      pure (ts ++ [⟨r, c⟩])) ts
    Dist.lift (assert (t == ts.length))
    shuffle ts

/-- `ts_random_unique_destination` (`lib/hnco/maps/transvection.cc:278-308`). -/
noncomputable def tsRandomUniqueDestination (ts : List Transvection) (n t : ℕ) : Dist (List Transvection) := do
  Dist.lift (assert (decide (n > 1)))
  if t ≤ 0 then pure ts
  else do
    let t := if t > n - 1 then n - 1 else t
    let vars ← shuffle (List.range n)
    let ts ← Dist.forRange 0 t (fun j ts => do
      let k ← Dist.uniformInt t (n - 1)
      let r ← Dist.lift (vget vars k)
      let c ← Dist.lift (vget vars j)
      pure (ts ++ [⟨r, c⟩])) ts
    Dist.lift (assert (t == ts.length))
    shuffle ts

/-- `ts_random_disjoint` (`lib/hnco/maps/transvection.cc:311-338`). -/
noncomputable def tsRandomDisjoint (ts : List Transvection) (n t : ℕ) : Dist (List Transvection) := do
  Dist.lift (assert (decide (n > 1)))
  if t ≤ 0 then pure ts
  else do
    let vars ← shuffle (List.range n)
    let t := if 2 * t > n then n / 2 else t
    Dist.lift (assert (decide (2 * t ≤ n)))
    Dist.lift (disjointPairs vars n t)

/-- The loop of `ts_random_non_commuting` (`lib/hnco/maps/transvection.cc:350-352`), after a first transvection. -/
noncomputable def nonCommutingLoop (n : ℕ) : ℕ → Transvection → Dist (List Transvection)
  | 0, _ => pure []
  | k + 1, a => do
    let t ← tvRandomNonCommuting n a
    let ts ← nonCommutingLoop n k t
    pure (t :: ts)

/-- `ts_random_non_commuting` (`lib/hnco/maps/transvection.cc:341-353`). -/
noncomputable def tsRandomNonCommuting (ts : List Transvection) (n t : ℕ) : Dist (List Transvection) := do
  Dist.lift (assert (decide (n > 1)))
  if t ≤ 0 then pure ts
  else do
    let a ← tvRandom n
    let ts ← nonCommutingLoop n (t - 1) a
    pure (a :: ts)

/-- The switch of `TsAffineMap::random` (`lib/hnco/maps/map.cc:202-230`).  Simplification: the mode is one of the six values of the
enumeration. -/
noncomputable def tsSample (ts : List Transvection) (n t : ℕ) : SamplingMode → Dist (List Transvection)
  | .unconstrained => tsRandom ts n t
  | .commuting => tsRandomCommuting ts n t
  | .uniqueSource => tsRandomUniqueSource ts n t
  | .uniqueDestination => tsRandomUniqueDestination ts n t
  | .disjoint => tsRandomDisjoint ts n t
  | .nonCommuting => tsRandomNonCommuting ts n t

/-- `TsAffineMap::random` (`lib/hnco/maps/map.cc:193-231`) of a new map: `resize` makes `n` zeros, all of which are assigned. -/
noncomputable def tsAffineRandom (n t : ℕ) (mode : SamplingMode) : Dist TsAffine := do
  Dist.lift (assert (decide (n > 0)))
  let bv ← bvRandomBits (List.replicate n false)
  let ts ← tsSample [] n t mode
  pure ⟨ts, bv⟩

/-- `AffineMap::random` (`lib/hnco/maps/map.cc:105-127`): the matrix and the vector. -/
noncomputable def affineRandom (rows cols : ℕ) (surjective : Bool) : Dist (BM × BV) := do
  let bm ← linearRandom rows cols surjective
  let bv ← bvRandomBits (List.replicate rows false)
  Dist.lift (assert (bm.length == bv.length))
  pure (bm, bv)

/-- `Translation::random` (`lib/hnco/maps/map.hh:127-132`). -/
noncomputable def translationRandom (n : ℕ) : Dist BV := do
  Dist.lift (assert (decide (n > 0)))
  bvRandomBits (List.replicate n false)

/-- `Permutation::random` (`lib/hnco/maps/map.hh:197-202`). -/
noncomputable def permutationRandom (n : ℕ) : Dist (List ℕ) := do
  Dist.lift (assert (decide (n > 0)))
  permRandom n

end Hnco.Prob
