import Verif.Prob.BlindSpec
import Verif.Prob.TournamentProps
import Verif.Prob.EvolutionProps

/-!
# Selections which only look at values exist (C121)
-/

namespace Hnco.Prob

open Outcome
open scoped ENNReal

variable {K : Type} [LinearOrder K]

open Classical in
/-- Some permutation of the indices which sorts the values, always the same. -/
noncomputable def sortLaw (values : List K) (perm : List ℕ) : Dist (List ℕ) :=
  if h : ∃ q : List ℕ, q.Perm perm ∧ Pop.Sorted (⟨[], values, q⟩ : Pop K) then pure h.choose else Dist.never

theorem sortLaw_perm {values : List K} {perm q : List ℕ} (h : sortLaw values perm q ≠ 0) : q.Perm perm := by
  unfold sortLaw at h
  split at h
  · next he =>
    rw [pure_support h]
    exact he.choose_spec.1
  · exact absurd rfl h

theorem descending_sorted {size n : ℕ} {p : Pop K} (hp : p.Valid size n) (hs : Descending p.ranked) : p.Sorted := by
  intro i j v w hij hi hj
  obtain ⟨x, hx⟩ := hp.rankValue.mp hi
  obtain ⟨y, hy⟩ := hp.rankValue.mp hj
  rcases Nat.lt_or_eq_of_le hij with hlt | rfl
  · obtain ⟨hi', ex⟩ := List.getElem?_eq_some_iff.mp hx
    obtain ⟨hj', ey⟩ := List.getElem?_eq_some_iff.mp hy
    have := (List.pairwise_iff_getElem.mp hs) i j hi' hj' hlt
    rw [ex, ey] at this
    exact this
  · rw [hx] at hy
    cases hy
    exact le_refl _

theorem sorted_descending {size n : ℕ} {p : Pop K} (hp : p.Valid size n) (hs : p.Sorted) : Descending p.ranked := by
  refine List.pairwise_iff_getElem.mpr (fun i j hi hj hij => ?_)
  exact hs i j _ _ hij.le (hp.rankValue.mpr ⟨_, List.getElem?_eq_getElem hi⟩) (hp.rankValue.mpr ⟨_, List.getElem?_eq_getElem hj⟩)

theorem sortLaw_eq {size n : ℕ} {p : Pop K} (hp : p.Valid size n) :
    ∃ q, sortLaw p.values p.perm = pure q ∧ q.Perm (List.range size) ∧ Pop.Valid size n { p with perm := q } ∧ Pop.Sorted { p with perm := q } := by
  have h : ∃ q : List ℕ, q.Perm p.perm ∧ Pop.Sorted (⟨[], p.values, q⟩ : Pop K) := by
    obtain ⟨l, h1, h2⟩ := exists_descending p.individuals
    obtain ⟨perm, e1, e2⟩ := exists_ranking hp h1
    have hv : Pop.Valid size n { p with perm := perm } := ⟨hp.bvs, hp.values, e1, hp.bits⟩
    have hs : Pop.Sorted { p with perm := perm } := descending_sorted hv (by rw [e2]; exact h2)
    exact ⟨perm, e1.trans hp.perm.symm, hs⟩
  refine ⟨h.choose, dif_pos h, h.choose_spec.1.trans hp.perm, ⟨hp.bvs, hp.values, h.choose_spec.1.trans hp.perm, hp.bits⟩, h.choose_spec.2⟩

/-- Tournament selection, before the bit vector is read. -/
noncomputable def selectLaw (values : List K) (t : Tournament) : Dist (ℕ × Tournament) := do
  Dist.lift (assert (decide (2 ≤ t.stop) && decide (t.stop < values.length + 1)))
  let w ← Dist.lift (t.round (fun a b => decide (b < a)) values)
  let t ← tournamentNext values.length t
  let k ← Dist.lift (vget t.perm w.1)
  pure (k, t)

/-- Laws of sorting and of selection. -/
noncomputable def blindChoices (K : Type) [LinearOrder K] : Choices K where
  sort p := do
    let perm ← sortLaw p.values p.perm
    pure { p with perm := perm }
  comma parents offsprings := do
    let perm ← sortLaw offsprings.values offsprings.perm
    let s ← Dist.lift (forRange 0 parents.size takeBest (parents, { offsprings with perm := perm }))
    pure ({ s.1 with perm := permIdentity s.1.perm.length }, s.2)
  plus parents offsprings pool := do
    let s ← Dist.lift (forRange 0 parents.size (fillPool 0) (parents, pool))
    let t ← Dist.lift (forRange 0 offsprings.size (fillPool s.1.size) (offsprings, s.2))
    let perm ← sortLaw t.2.values t.2.perm
    let u ← Dist.lift (forRange 0 s.1.size takeBest (s.1, { t.2 with perm := perm }))
    pure ({ u.1 with perm := permIdentity u.1.perm.length }, t.1, u.2)
  start := tournamentInit
  select p t := tournamentSelect (fun a b => decide (b < a)) p.bvs p.values t

theorem blindChoices_blind (K : Type) [LinearOrder K] : Blind (blindChoices K) := by
  refine ⟨⟨sortLaw, fun _ _ _ h => sortLaw_perm h, fun _ => rfl⟩, ⟨fun _ => sortLaw, fun _ _ _ _ h => sortLaw_perm h, fun _ _ => rfl⟩,
    ⟨fun _ => sortLaw, fun _ _ _ _ h => sortLaw_perm h, fun _ _ _ => rfl⟩, ⟨selectLaw, fun p t h => ?_⟩⟩
  change tournamentSelect _ p.bvs p.values t = _
  unfold tournamentSelect selectLaw
  rw [h]
  simp only [Dist.bind_assoc', Dist.pure_bind']

theorem follows_pure {α : Type} {m : Sim α} {a : α} (h : Sim.Reaches m a) : Follows (pure a : Dist α) m :=
  ⟨Dist.total_pure _, fun b hb => by rw [pure_support hb]; exact reaches_draws h⟩

theorem partialSort_reached {size n mu : ℕ} {p : Pop K} (hp : p.Valid size n) (hmu : 0 < mu) (hle : mu ≤ size) {q : List ℕ}
    (hq : q.Perm (List.range size)) (hv : Pop.Valid size n { p with perm := q }) (hs : Pop.Sorted { p with perm := q }) :
    Sim.Reaches (p.partialSort mu) { p with perm := q } := by
  obtain ⟨h1, h2⟩ := descending_take (sorted_descending hv hs) mu
  exact pop_partialSort_onto hp hmu hle hq h1 h2

theorem blindChoices_valid (K : Type) [LinearOrder K] : (blindChoices K).Valid := by
  have ht := tournament_choices (someChoices_valid K)
  refine ⟨fun p size n hp => ?_, fun parents offsprings mu lam n hmu hle hp ho => ?_, fun parents offsprings pool mu lam n hmu hp ho hpool => ?_,
    ht.start, ht.select⟩
  · obtain ⟨q, e, h1, h2, h3⟩ := sortLaw_eq hp
    change Follows (sortLaw p.values p.perm >>= fun perm => pure { p with perm := perm }) _
    rw [e, Dist.pure_bind']
    exact follows_pure (pop_sort_onto hp h1 h3)
  · obtain ⟨q, e, h1, h2, h3⟩ := sortLaw_eq ho
    obtain ⟨r, hr, _⟩ := takeBest_loop h2 hle hp.bvs hp.values hp.bits
    change Follows (sortLaw offsprings.values offsprings.perm >>= fun perm => _) _
    rw [e, Dist.pure_bind', show parents.size = mu from hp.bvs, hr, Dist.lift_ok, Dist.pure_bind']
    refine follows_pure ?_
    unfold commaSelect
    rw [show parents.size = mu from hp.bvs]
    exact Sim.Reaches.bind (partialSort_reached ho hmu hle h1 h2 h3) (Sim.Reaches.bind (Sim.Reaches.lift hr) (Sim.Reaches.pure _))
  · obtain ⟨⟨P, Q⟩, x0, a1, a2, a3, a4, a5, a6, a7, a8, a9, a10⟩ := fillPool_loop (offset := 0) hp.bvs hp.values hp.bits
      (by rw [hpool.bvs]; omega) (by rw [hpool.bvs, hpool.values]) hpool.bits
    dsimp only at a1 a2 a3 a4 a5 a6 a7 a8 a9 a10
    have hPs : P.size = mu := a1
    obtain ⟨⟨T, U⟩, y0, b1, b2, b3, b4, b5, b6, b7, b8, b9, b10⟩ := fillPool_loop (offset := mu) (pool := Q) ho.bvs ho.values ho.bits
      (by rw [a5, hpool.bvs]) (by rw [a6, a5, hpool.bvs, hpool.values]) a8
    dsimp only at b1 b2 b3 b4 b5 b6 b7 b8 b9 b10
    have hU : U.Valid (mu + lam) n := ⟨by rw [b5, a5, hpool.bvs], by rw [b6, a6, hpool.values], by rw [b7, a7]; exact hpool.perm, b8⟩
    obtain ⟨q, e, h1, h2, h3⟩ := sortLaw_eq hU
    obtain ⟨r, hr, _⟩ := takeBest_loop h2 (by omega : mu ≤ mu + lam) a1 (by rw [a2, hp.values]) a4
    have hd : (blindChoices K).plus parents offsprings pool = pure ({ r.1 with perm := permIdentity r.1.perm.length }, T, r.2) := by
      unfold blindChoices
      dsimp only
      rw [show parents.size = mu from hp.bvs, show offsprings.size = lam from ho.bvs, x0, Dist.lift_ok, Dist.pure_bind']
      dsimp only
      rw [hPs, y0, Dist.lift_ok, Dist.pure_bind']
      dsimp only
      rw [e, Dist.pure_bind', hr, Dist.lift_ok, Dist.pure_bind']
    rw [hd]
    refine follows_pure ?_
    unfold plusSelect
    rw [show parents.size = mu from hp.bvs, show offsprings.size = lam from ho.bvs]
    refine Sim.Reaches.bind (Sim.Reaches.lift x0) ?_
    dsimp only
    rw [hPs]
    exact Sim.Reaches.bind (Sim.Reaches.lift y0) (Sim.Reaches.bind (partialSort_reached hU hmu (by omega) h1 h2 h3)
      (Sim.Reaches.bind (Sim.Reaches.lift hr) (Sim.Reaches.pure _)))

end Hnco.Prob
