import Verif.Prob.Search

/-!
# Prior noise, with probabilities

Second model of `lib/hnco/functions/modifiers/prior-noise.cc`, in which evaluations have probabilities.  The first one
(`NoisyFn.priorNoise` in `Verif/App/Modifier.lean`) tells which values may be returned.
-/

namespace Hnco.Prob

open Outcome

variable {K : Type}

/-- `Neighborhood::map` (`lib/hnco/neighborhoods/neighborhood.hh:151-157`), for a neighbourhood of vectors of size `n` given by its
function `sample_bits`. -/
noncomputable def neighborhoodMap (n : ℕ) (sampleBits : Dist (List ℕ)) (input output : BV) : Dist BV := do
  Dist.lift (assert (input.length == n))
  Dist.lift (assert (output.length == n))
  let output ← Dist.lift (forRange 0 input.length (fun i output => do
    let b ← vget input i
    vset output i b) output)
  let flipped ← sampleBits
  Dist.lift (bvFlipSparse output flipped)

/-- `PriorNoise::evaluate` (`lib/hnco/functions/modifiers/prior-noise.cc:28-33`); `noisy` is the member `_noisy_bv`, whose size is
set by the constructor (`lib/hnco/functions/modifiers/prior-noise.hh:49-56`). -/
noncomputable def priorNoise (f : Fn K) (sampleBits : Dist (List ℕ)) (noisy : BV) (x : BV) : Dist K := do
  let y ← neighborhoodMap f.size sampleBits x noisy
  Dist.lift (f.eval y)

end Hnco.Prob
