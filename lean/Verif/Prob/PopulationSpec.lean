import Verif.Prob.Populations
import Verif.Prob.SearchSpec
import Verif.Population.Props
import Verif.Population.TournamentProps

/-!
# Specification for algorithms with a probability vector or with populations, with probabilities

What is assumed about sorting and tournaments: the law, whatever it is, always gives a result, and only results which
`perm_shuffle`, `std::sort` and `std::partial_sort` may give (`Follows`).  In particular, how ties are broken may depend on
everything, and may even help or hinder the search.
-/

namespace Hnco.Prob

open Outcome
open scoped ENNReal

/-- The laws of sorting, of replacement and of tournaments are possible ones, for populations of the right sizes. -/
structure Choices.Valid {K : Type} [LinearOrder K] (c : Choices K) : Prop where
  sort : ∀ (p : Pop K) (size n : ℕ), p.Valid size n → Follows (c.sort p) p.sort
  comma : ∀ (parents offsprings : Pop K) (mu lam n : ℕ), 0 < mu → mu ≤ lam → parents.Valid mu n → offsprings.Valid lam n →
    Follows (c.comma parents offsprings) (commaSelect parents offsprings)
  plus : ∀ (parents offsprings pool : Pop K) (mu lam n : ℕ), 0 < mu → parents.Valid mu n → offsprings.Valid lam n →
    pool.Valid (mu + lam) n → Follows (c.plus parents offsprings pool) (plusSelect parents offsprings pool)
  start : ∀ (t : Tournament) (mu : ℕ), t.perm.Perm (List.range mu) → Follows (c.start t) t.init
  select : ∀ (parents : Pop K) (t : Tournament) (mu n : ℕ), parents.Valid mu n → t.Valid mu →
    Follows (c.select parents t) (t.select (fun a b => decide (b < a)) parents.bvs parents.values)

/-- The comparison of `Mmas`: better vectors are accepted, and worse ones are not. -/
structure Compares {K : Type} [LinearOrder K] (compare : K → K → Bool) : Prop where
  better : ∀ a b, b < a → compare a b = true
  worse : ∀ a b, a < b → compare a b = false

end Hnco.Prob
