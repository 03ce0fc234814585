import Verif.Prob.PopulationSpec
import Verif.Algorithm.PathReach

/-!
# Specification: what happens with positive probability can happen

In the first model (`Verif/Random.lean`) a run is determined by a list of draws, any of which is possible.  In the second
one (`Verif/Prob`) its results have probabilities.  Here is what it means that the second model only does what the first
one can do.
-/

namespace Hnco.Prob

open Outcome

variable {K σ : Type}

/-- Whatever the populations and the tournament are, sorting, replacement and tournaments only give what some draws give. -/
structure Choices.Possible [LinearOrder K] (c : Choices K) : Prop where
  sort : ∀ (p q : Pop K), c.sort p q ≠ 0 → ∃ draws rest, p.sort draws = .ok q rest
  comma : ∀ (parents offsprings : Pop K) (r : Pop K × Pop K), c.comma parents offsprings r ≠ 0 →
    ∃ draws rest, commaSelect parents offsprings draws = .ok r rest
  plus : ∀ (parents offsprings pool : Pop K) (r : Pop K × Pop K × Pop K), c.plus parents offsprings pool r ≠ 0 →
    ∃ draws rest, plusSelect parents offsprings pool draws = .ok r rest
  start : ∀ (t u : Tournament), c.start t u ≠ 0 → ∃ draws rest, t.init draws = .ok u rest
  select : ∀ (parents : Pop K) (t : Tournament) (r : ℕ × BV × Tournament), c.select parents t r ≠ 0 →
    ∃ draws rest, t.select (fun a b => decide (b < a)) parents.bvs parents.values draws = .ok r rest

/-- An algorithm of the first model, whose data are `d` when it has been constructed, can return the solution `r`: it does so for
some draws (and some bound on the number of iterations, if it has none itself), when no evaluation is interrupted.  The solution
which it starts with has the right size. -/
def CanReturn (maximize : Env K → ℕ → Alg (AlgState K σ) Unit) (f : Fn K) (n : ℕ) (d : σ) (r : BV × K) : Prop :=
  ∀ (v : K) (last : Bool), ∃ fuel draws rest t,
    maximize ⟨f, fun _ _ => none⟩ fuel ⟨(List.replicate n false, v), last, [], d⟩ draws = .ok (.ok (), t) rest ∧ t.solution = r

/-- The parameters of the mutation in the first model, which only knows whether the rate is below `1 / std::sqrt(n)`. -/
noncomputable def MutationLaw.params (m : MutationLaw) (n : ℕ) : MutationParams :=
  ⟨@decide (m.rate * m.rate * n < 1) (Classical.dec _), m.allowNoMutation⟩

/-- The parameters of the genetic algorithm in the first model. -/
noncomputable def GaLaw.params (q : GaLaw) (n : ℕ) : GaParams := ⟨q.toMutationLaw.params n, q.tournamentSize⟩

/-- The neighbourhoods of the first model and their laws, for vectors of size `n`. -/
inductive SampledBy (n : ℕ) : Sampler → Dist (List ℕ) → Prop where
  | singleBitFlip : SampledBy n .singleBitFlip (singleBitFlip n)
  | standardBitMutation (m : StandardBitMutation) :
      SampledBy n (.standardBitMutation ⟨m.rejectionSampling, m.allowNoMutation⟩) (m.sampleBits n)
  | hammingBall (radius : ℕ) : SampledBy n (.hammingBall radius) (hammingBall n radius)
  | hammingSphere (radius : ℕ) : SampledBy n (.hammingSphere radius) (hammingSphere n radius)

/-- The parameters of random local search in the first model, with the neighbourhood `k`. -/
def RlsParams.withSampler (p : RlsParams K) (k : Sampler) : Hnco.RlsParams K :=
  { toStartParams := p.toStartParams, sampler := k, compare := p.compare, patience := p.patience, incremental := p.incremental }

/-- The parameters of the (1+1) evolutionary algorithm in the first model. -/
noncomputable def EaParams.first (q : EaParams) (n : ℕ) : OnePlusOneParams :=
  ⟨q.numIterations, @decide (q.mutationRate * q.mutationRate * n < 1) (Classical.dec _), q.allowNoMutation, q.incremental⟩

end Hnco.Prob
