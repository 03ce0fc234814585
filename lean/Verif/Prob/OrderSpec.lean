import Verif.Prob.Adaptive

/-!
# Specification of functions which order vectors alike (C127)
-/

namespace Hnco.Prob

open Outcome

variable {K L : Type}

/-- The values of `f'` are those of `f`, transformed by `g`, which is strictly increasing; so are the values which are computed
incrementally. -/
structure Transformed [Preorder K] [Preorder L] (g : K → L) (f : Fn K) (f' : Fn L) : Prop where
  increasing : StrictMono g
  eval : ∀ x, f'.eval x = (f.eval x >>= fun v => ok (g v))
  hasInc : f'.hasInc = f.hasInc
  evalInc : ∀ x v l, f'.evalInc x (g v) l = (f.evalInc x v l >>= fun w => ok (g w))

/-- A law of solutions: the same vectors, the values transformed by `g`. -/
noncomputable def transformed (g : K → L) (d : Dist (List Bool × K)) : Dist (List Bool × L) := do
  let r ← d
  pure (r.1, g r.2)

/-- The same parameters of a random local search; the comparisons agree. -/
structure SameSearch (g : K → L) (p : RlsParams K) (p' : RlsParams L) : Prop where
  start : p'.toStartParams = p.toStartParams
  sampleBits : p'.sampleBits = p.sampleBits
  compare : ∀ a b, p'.compare (g a) (g b) = p.compare a b
  patience : p'.patience = p.patience
  incremental : p'.incremental = p.incremental

/-- A population: the same vectors and permutation, the values transformed by `g`. -/
def popBy (g : K → L) (p : Pop K) : Pop L := ⟨p.bvs, p.values.map g, p.perm⟩

/-- Populations are sorted alike. -/
def SortsAlike (g : K → L) (c : Choices K) (c' : Choices L) : Prop := ∀ p, c'.sort (popBy g p) = (c.sort p >>= fun q => pure (popBy g q))

/-- Populations are sorted, replaced and selected alike: the law of the permutations and of the winners of tournaments is the same when
values are transformed.  The loops of replacement are those of the code
(`lib/hnco/algorithms/evolutionary-algorithms/selection.hh:62-69`, `106-122`). -/
structure ChoosesAlike (g : K → L) (c : Choices K) (c' : Choices L) : Prop where
  sort : ∃ (law : List K → List ℕ → Dist (List ℕ)) (law' : List L → List ℕ → Dist (List ℕ)),
    (∀ values perm, law' (values.map g) perm = law values perm) ∧
    (∀ p, c.sort p = (do
      let perm ← law p.values p.perm
      pure { p with perm := perm })) ∧
    (∀ p, c'.sort p = (do
      let perm ← law' p.values p.perm
      pure { p with perm := perm }))
  comma : ∃ (law : ℕ → List K → List ℕ → Dist (List ℕ)) (law' : ℕ → List L → List ℕ → Dist (List ℕ)),
    (∀ size values perm, law' size (values.map g) perm = law size values perm) ∧
    (∀ parents offsprings, c.comma parents offsprings = (do
      let perm ← law parents.size offsprings.values offsprings.perm
      let s ← Dist.lift (forRange 0 parents.size takeBest (parents, { offsprings with perm := perm }))
      pure ({ s.1 with perm := permIdentity s.1.perm.length }, s.2))) ∧
    (∀ parents offsprings, c'.comma parents offsprings = (do
      let perm ← law' parents.size offsprings.values offsprings.perm
      let s ← Dist.lift (forRange 0 parents.size takeBest (parents, { offsprings with perm := perm }))
      pure ({ s.1 with perm := permIdentity s.1.perm.length }, s.2)))
  plus : ∃ (law : ℕ → List K → List ℕ → Dist (List ℕ)) (law' : ℕ → List L → List ℕ → Dist (List ℕ)),
    (∀ size values perm, law' size (values.map g) perm = law size values perm) ∧
    (∀ parents offsprings pool, c.plus parents offsprings pool = (do
      let s ← Dist.lift (forRange 0 parents.size (fillPool 0) (parents, pool))
      let t ← Dist.lift (forRange 0 offsprings.size (fillPool s.1.size) (offsprings, s.2))
      let perm ← law s.1.size t.2.values t.2.perm
      let u ← Dist.lift (forRange 0 s.1.size takeBest (s.1, { t.2 with perm := perm }))
      pure ({ u.1 with perm := permIdentity u.1.perm.length }, t.1, u.2))) ∧
    (∀ parents offsprings pool, c'.plus parents offsprings pool = (do
      let s ← Dist.lift (forRange 0 parents.size (fillPool 0) (parents, pool))
      let t ← Dist.lift (forRange 0 offsprings.size (fillPool s.1.size) (offsprings, s.2))
      let perm ← law' s.1.size t.2.values t.2.perm
      let u ← Dist.lift (forRange 0 s.1.size takeBest (s.1, { t.2 with perm := perm }))
      pure ({ u.1 with perm := permIdentity u.1.perm.length }, t.1, u.2)))
  start : c'.start = c.start
  select : ∀ p t, c'.select (popBy g p) t = c.select p t

end Hnco.Prob
