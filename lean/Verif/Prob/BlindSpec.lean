import Verif.Prob.Populations

/-!
# Specification of selections which only look at values (C121)
-/

namespace Hnco.Prob

open Outcome

/-- Sorting and selections which are left open only look at values and at permutations of indices, never at bit vectors: what is drawn is
a permutation of the indices, or the index of the winner of a tournament, and the rest is that of the first model
(`lib/hnco/algorithms/population.hh:89-105`, `lib/hnco/algorithms/evolutionary-algorithms/selection.hh:62-69`, `106-122`,
`lib/hnco/multiobjective/algorithms/random-selection.hh:95-114`). -/
structure Blind {K : Type} (c : Choices K) : Prop where
  sort : ∃ law : List K → List ℕ → Dist (List ℕ), (∀ values perm perm', law values perm perm' ≠ 0 → perm'.Perm perm) ∧
    ∀ p, c.sort p = (do
      let perm ← law p.values p.perm
      pure { p with perm := perm })
  comma : ∃ law : ℕ → List K → List ℕ → Dist (List ℕ), (∀ size values perm perm', law size values perm perm' ≠ 0 → perm'.Perm perm) ∧
    ∀ parents offsprings, c.comma parents offsprings = (do
      let perm ← law parents.size offsprings.values offsprings.perm
      let s ← Dist.lift (forRange 0 parents.size takeBest (parents, { offsprings with perm := perm }))
      pure ({ s.1 with perm := permIdentity s.1.perm.length }, s.2))
  plus : ∃ law : ℕ → List K → List ℕ → Dist (List ℕ), (∀ size values perm perm', law size values perm perm' ≠ 0 → perm'.Perm perm) ∧
    ∀ parents offsprings pool, c.plus parents offsprings pool = (do
      let s ← Dist.lift (forRange 0 parents.size (fillPool 0) (parents, pool))
      let t ← Dist.lift (forRange 0 offsprings.size (fillPool s.1.size) (offsprings, s.2))
      let perm ← law s.1.size t.2.values t.2.perm
      let u ← Dist.lift (forRange 0 s.1.size takeBest (s.1, { t.2 with perm := perm }))
      pure ({ u.1 with perm := permIdentity u.1.perm.length }, t.1, u.2))
  select : ∃ law : List K → Tournament → Dist (ℕ × Tournament), ∀ (p : Pop K) (t : Tournament), p.values.length = p.bvs.length →
    c.select p t = (do
      let r ← law p.values t
      let x ← Dist.lift (vget p.bvs r.1)
      pure (r.1, x, r.2))

end Hnco.Prob
