import Verif.Population.Lemmas
import Mathlib.Algebra.Order.Field.Basic

/-! # Properties of populations and of the selection for replacement (C46, C47) -/

namespace Hnco

open Outcome

variable {K : Type}

/-! ## Sorting -/

/-- C46: sorting a population keeps individuals and values in place, whatever the shuffle and the order of ties; the
permutation becomes a permutation of the indices along which values are non-increasing. -/
theorem pop_sort_spec [LinearOrder K] {size n : Nat} {p : Pop K} (hp : p.Valid size n) :
    Sim.Post p.sort (fun q => q.bvs = p.bvs ∧ q.values = p.values ∧ q.perm.Perm (List.range size) ∧ q.Sorted) := by
  unfold Pop.sort
  refine (Sim.Post.shuffle _).bind (fun perm hperm => ?_)
  obtain ⟨l, h1, h2, h3⟩ := readValues_eq (hp.perm_lt hperm)
  refine Sim.Post.lift_bind h1 ?_
  refine (Sim.Post.sort _ better_trans better_total).bind ?_
  rintro r ⟨hr1, hr2⟩
  refine Sim.Post.pure ⟨rfl, rfl, ?_, ?_⟩
  · have := hr1.map Prod.fst
    rw [h2] at this
    exact this.trans (hperm.trans hp.perm)
  · have hr3 : ∀ a ∈ r, p.values[a.1]? = some a.2 := fun a ha => h3 a (hr1.mem_iff.mp ha)
    intro i j v w hij hv hw
    rw [rankValue_of hr3] at hv hw
    obtain ⟨k, hk⟩ := hv
    obtain ⟨k', hk'⟩ := hw
    rcases Nat.lt_or_eq_of_le hij with hlt | rfl
    · have := pairwise_getElem? hr2 hlt hk hk'
      simpa [better] using this
    · rw [hk] at hk'
      cases hk'
      exact le_refl _

/-- C46: ties can be broken in any way: every permutation along which values are non-increasing is a possible result. -/
theorem pop_sort_onto [LinearOrder K] {size n : Nat} {p : Pop K} (hp : p.Valid size n) {perm : List Nat}
    (hperm : perm.Perm (List.range size)) (hs : Pop.Sorted { p with perm := perm }) :
    Sim.Reaches p.sort { p with perm := perm } := by
  unfold Pop.sort
  have hpp : perm.Perm p.perm := hperm.trans hp.perm.symm
  obtain ⟨l, h1, h2, h3⟩ := readValues_eq (hp.perm_lt hpp)
  refine Sim.Reaches.bind (Sim.Reaches.shuffle hpp) (Sim.Reaches.bind (Sim.Reaches.lift h1) ?_)
  refine Sim.Reaches.bind (Sim.Reaches.sort (List.Perm.refl l) ?_) ?_
  · rw [List.pairwise_iff_getElem]
    intro i j hi hj hij
    simp only [better, decide_eq_false_iff_not, not_lt]
    rw [← h2] at hs
    refine hs i j _ _ (le_of_lt hij) ((rankValue_of h3).mpr ⟨l[i].1, by simp⟩) ((rankValue_of h3).mpr ⟨l[j].1, by simp⟩)
  · rw [h2]
    exact Sim.Reaches.pure _

/-- C46: after partial sorting the first ranks are non-increasing, and no later individual is better than one of
them. -/
theorem pop_partialSort_spec [LinearOrder K] {size n m : Nat} {p : Pop K} (hp : p.Valid size n) (hm : 0 < m)
    (hms : m ≤ size) :
    Sim.Post (p.partialSort m) (fun q => q.bvs = p.bvs ∧ q.values = p.values ∧ q.perm.Perm (List.range size) ∧
      ∀ i j v w, i < m → i ≤ j → q.RankValue i v → q.RankValue j w → w ≤ v) := by
  unfold Pop.partialSort
  refine (Sim.Post.assert (decide_eq_true hm)).bind (fun _ _ => (Sim.Post.shuffle _).bind (fun perm hperm => ?_))
  obtain ⟨l, h1, h2, h3⟩ := readValues_eq (hp.perm_lt hperm)
  refine Sim.Post.lift_bind h1 ?_
  have hlen : m ≤ l.length := by
    have := congrArg List.length h2
    rw [List.length_map, hperm.length_eq, hp.perm_length] at this
    omega
  refine (Sim.Post.partialSort _ hlen better_trans better_total).bind ?_
  rintro r ⟨hr1, hr2, hr4⟩
  refine Sim.Post.pure ⟨rfl, rfl, ?_, ?_⟩
  · have := hr1.map Prod.fst
    rw [h2] at this
    exact this.trans (hperm.trans hp.perm)
  · have hr3 : ∀ a ∈ r, p.values[a.1]? = some a.2 := fun a ha => h3 a (hr1.mem_iff.mp ha)
    intro i j v w him hij hv hw
    rw [rankValue_of hr3] at hv hw
    obtain ⟨k, hk⟩ := hv
    obtain ⟨k', hk'⟩ := hw
    have hki : (r.take m)[i]? = some (k, v) := by rw [List.getElem?_take, if_pos him]; exact hk
    rcases Nat.lt_or_eq_of_le hij with hlt | rfl
    · rcases Nat.lt_or_ge j m with hjm | hjm
      · have hkj : (r.take m)[j]? = some (k', w) := by rw [List.getElem?_take, if_pos hjm]; exact hk'
        have := pairwise_getElem? hr2 hlt hki hkj
        simpa [better] using this
      · have hkj : (r.drop m)[j - m]? = some (k', w) := by
          rw [List.getElem?_drop, show m + (j - m) = j by omega]
          exact hk'
        have := hr4 _ (List.mem_of_getElem? hki) _ (List.mem_of_getElem? hkj)
        simpa [better] using this
    · rw [hk] at hk'
      cases hk'
      exact le_refl _

/-- C46: in a sorted population, the range reported for a rank is exactly the set of ranks with the same value; ranks
before it have greater values, ranks after it smaller ones. -/
theorem pop_equivalent_spec [LinearOrder K] {size n : Nat} {p : Pop K} (hp : p.Valid size n) (hs : p.Sorted)
    {index : Nat} (hi : index < size) :
    (p.getEquivalentBvs index).Returns (fun r => r.1 ≤ index ∧ index < r.2 ∧ r.2 ≤ size ∧
      ∀ i v w, p.RankValue i v → p.RankValue index w →
        (i < r.1 ↔ w < v) ∧ (r.1 ≤ i ∧ i < r.2 ↔ v = w) ∧ (r.2 ≤ i ↔ v < w)) := by
  unfold Pop.getEquivalentBvs
  rw [assert_pos (by rw [decide_eq_true_eq, hp.perm_length]; exact hi), ok_bind]
  obtain ⟨l, h1, h2, h3⟩ := readValues_eq (hp.perm_lt (List.Perm.refl _))
  rw [h1, ok_bind]
  have hlen : l.length = size := by
    have := congrArg List.length h2
    rwa [List.length_map, hp.perm_length] at this
  have hil : index < l.length := by omega
  rw [vget_eq hil, ok_bind]
  have hrank : ∀ i v, p.RankValue i v ↔ ∃ k, l[i]? = some (k, v) := by
    intro i v
    have := rankValue_of h3 (bvs := p.bvs) (i := i) (v := v)
    rwa [h2] at this
  have hsorted : l.Pairwise (fun a b => b.2 ≤ a.2) := by
    rw [List.pairwise_iff_getElem]
    intro i j hi hj hij
    exact hs i j _ _ (le_of_lt hij) ((hrank _ _).mpr ⟨l[i].1, by simp⟩) ((hrank _ _).mpr ⟨l[j].1, by simp⟩)
  generalize hc : l[index] = c
  have hcl : l[index]? = some c := by rw [← hc]; simp
  have ha := takeWhile_iff (R := fun a b : Nat × K => b.2 ≤ a.2) (p := fun e => better e c)
    (by intro a b hab hb; simp only [better, decide_eq_true_eq] at *; exact lt_of_lt_of_le hb hab) hsorted
  have hb := takeWhile_iff (R := fun a b : Nat × K => b.2 ≤ a.2) (p := fun e => !better c e)
    (by
      intro a b hab hb
      simp only [better, Bool.not_eq_true', decide_eq_false_iff_not, not_lt] at *
      exact le_trans hb hab) hsorted
  unfold equalRange
  dsimp only
  generalize hna : (l.takeWhile (fun e => better e c)).length = na at *
  generalize hnb : (l.takeWhile (fun e => !better c e)).length = nb at *
  have hdrop : ∀ {k : Nat} {q : Nat × K → Bool}, (∀ (i : Nat) e, l[i]? = some e → k ≤ i → q e = true) →
      (l.drop k).all q = true := by
    intro k q h
    rw [List.all_eq_true]
    intro e he
    obtain ⟨j, hj⟩ := List.mem_iff_getElem?.mp he
    rw [List.getElem?_drop] at hj
    exact h _ e hj (by omega)
  rw [assert_pos (hdrop (fun i e he hk => by
    have := (ha i e he).not.mp (by omega)
    simpa using this)), ok_bind]
  rw [assert_pos (hdrop (fun i e he hk => by
    have := (hb i e he).not.mp (by omega)
    simpa using this)), ok_bind, returns_ok]
  have ha0 := (ha index c hcl).not.mpr (by simp [better])
  have hb0 := (hb index c hcl).mpr (by simp [better])
  refine ⟨by omega, hb0, ?_, ?_⟩
  · dsimp only
    rw [← hlen, ← hnb]
    exact (List.takeWhile_sublist _).length_le
  · intro i v w hv hw
    rw [hrank] at hv hw
    obtain ⟨k, hk⟩ := hv
    obtain ⟨k', hk'⟩ := hw
    rw [hcl] at hk'
    cases hk'
    have e1 : i < na ↔ w < v := by
      rw [ha i _ hk]
      simp [better]
    have e2 : i < nb ↔ w ≤ v := by
      rw [hb i _ hk]
      simp [better]
    refine ⟨e1, ?_, ?_⟩
    · dsimp only
      rw [← not_lt, e1, e2, not_lt]
      exact ⟨fun h => le_antisymm h.1 h.2, fun h => ⟨le_of_eq h, le_of_eq h.symm⟩⟩
    · dsimp only
      rw [← not_lt, e2, not_le]

/-! ## Selection for replacement -/

/-- The population consists of `mu` best individuals of the pool, each with its value, from the best to the worst; its
permutation is the identity. -/
structure SelectsBest [LE K] (mu n : Nat) (pool : List (BV × K)) (q : Pop K) : Prop where
  valid : q.Valid mu n
  perm : q.perm = List.range mu
  sorted : q.individuals.Pairwise (fun a b => b.2 ≤ a.2)
  best : ∃ discarded, (q.individuals ++ discarded).Perm pool ∧ ∀ d ∈ discarded, ∀ c ∈ q.individuals, d.2 ≤ c.2

theorem ranked_sorted [LinearOrder K] {size n m : Nat} {p : Pop K} (hp : p.Valid size n)
    (h : ∀ i j v w, i < m → i ≤ j → p.RankValue i v → p.RankValue j w → w ≤ v) :
    (p.ranked.take m).Pairwise (fun a b => b.2 ≤ a.2) ∧
      ∀ d ∈ p.ranked.drop m, ∀ c ∈ p.ranked.take m, d.2 ≤ c.2 := by
  constructor
  · rw [List.pairwise_iff_getElem]
    intro i j hi hj hij
    simp only [List.length_take] at hi hj
    refine h i j _ _ (by omega) (le_of_lt hij) (hp.rankValue.mpr ⟨(p.ranked.take m)[i].1, ?_⟩)
      (hp.rankValue.mpr ⟨(p.ranked.take m)[j].1, ?_⟩)
    · rw [List.getElem_take]; simp
    · rw [List.getElem_take]; simp
  · intro d hd c hc
    obtain ⟨j, hj⟩ := List.mem_iff_getElem?.mp hd
    obtain ⟨i, hi⟩ := List.mem_iff_getElem?.mp hc
    rw [List.getElem?_drop] at hj
    rw [List.getElem?_take] at hi
    by_cases him : i < m
    · rw [if_pos him] at hi
      exact h i (m + j) _ _ him (by omega) (hp.rankValue.mpr ⟨c.1, hi⟩) (hp.rankValue.mpr ⟨d.1, hj⟩)
    · rw [if_neg him] at hi
      cases hi

/-- The end of both selections. -/
theorem takeBest_selects [LinearOrder K] {mu size n : Nat} {parents pool : Pop K} (hmu0 : 0 < mu)
    (hp : pool.Valid size n) (hmu : mu ≤ size) (h1 : parents.bvs.length = mu) (h2 : parents.values.length = mu)
    (h3 : ∀ x ∈ parents.bvs, x.length = n) (h4 : parents.perm.length = mu) {β : Type} {f : Pop K × Pop K → Sim β}
    {Q : β → Prop}
    (hQ : ∀ r : Pop K × Pop K, SelectsBest mu n pool.individuals { r.1 with perm := permIdentity r.1.perm.length } →
      r.2.Valid size n → Sim.Post (f r) Q) :
    Sim.Post (pool.partialSort mu >>= fun pool => Sim.lift (forRange 0 mu takeBest (parents, pool)) >>= f) Q := by
  refine (pop_partialSort_spec hp hmu0 hmu).bind ?_
  rintro q ⟨g1, g2, g3, g4⟩
  have hq : q.Valid size n := ⟨by rw [g1, hp.bvs], by rw [g2, hp.values], g3, by rw [g1]; exact hp.bits⟩
  have hqi : q.individuals = pool.individuals := by simp only [Pop.individuals, g1, g2]
  refine Sim.Post.returns_bind (takeBest_loop hq hmu h1 h2 h3) ?_
  rintro r ⟨e1, e2, e3, e4, e5, e6⟩
  refine hQ r ?_ e6
  have hid : permIdentity r.1.perm.length = List.range mu := by rw [e4, h4]; rfl
  obtain ⟨s1, s2⟩ := ranked_sorted hq g4
  refine ⟨⟨e2, e3, by rw [hid], e5⟩, hid, ?_, q.ranked.drop mu, ?_, ?_⟩
  · change r.1.individuals.Pairwise _
    rw [e1]
    exact s1
  · change (r.1.individuals ++ _).Perm _
    rw [e1, List.take_append_drop, ← hqi]
    exact hq.ranked_perm
  · change ∀ d ∈ _, ∀ c ∈ r.1.individuals, _
    rw [e1]
    exact s2

/-- C47: after comma selection the parents are best offsprings, with their values, from the best to the worst. -/
theorem comma_select_spec [LinearOrder K] {mu lam n : Nat} {parents offsprings : Pop K} (hmu : 0 < mu)
    (hp : parents.Valid mu n) (ho : offsprings.Valid lam n) (hnew : commaNew parents offsprings = ok ()) :
    Sim.Post (commaSelect parents offsprings) (fun r =>
      SelectsBest mu n offsprings.individuals r.1 ∧ r.2.Valid lam n) := by
  have hle : mu ≤ lam := by
    unfold commaNew Pop.size at hnew
    rw [hp.bvs, ho.bvs] at hnew
    by_cases h : mu ≤ lam
    · exact h
    · rw [if_neg h] at hnew; cases hnew
  unfold commaSelect
  have hs : parents.size = mu := hp.bvs
  rw [hs]
  exact takeBest_selects hmu ho hle hp.bvs hp.values hp.bits hp.perm_length
    (fun r h1 h2 => Sim.Post.pure ⟨h1, h2⟩)

/-- C47: after plus selection the parents are best individuals of parents and offsprings together, with their values,
from the best to the worst. -/
theorem plus_select_spec [LinearOrder K] {mu lam n : Nat} {parents offsprings pool : Pop K} (hmu : 0 < mu)
    (hp : parents.Valid mu n) (ho : offsprings.Valid lam n) (hpool : pool.Valid (mu + lam) n) :
    Sim.Post (plusSelect parents offsprings pool) (fun r =>
      SelectsBest mu n (parents.individuals ++ offsprings.individuals) r.1 ∧ r.2.1.Valid lam n ∧
        r.2.2.Valid (mu + lam) n) := by
  unfold plusSelect
  have hs : parents.size = mu := hp.bvs
  have hos : offsprings.size = lam := ho.bvs
  rw [hs, hos]
  refine Sim.Post.returns_bind (fillPool_loop (offset := 0) hp.bvs hp.values hp.bits
    (by rw [hpool.bvs]; omega) (by rw [hpool.bvs, hpool.values]) hpool.bits) ?_
  rintro ⟨P, Q⟩ ⟨a1, a2, a3, a4, a5, a6, a7, a8, a9, a10⟩
  dsimp only at a1 a2 a3 a4 a5 a6 a7 a8 a9 a10 ⊢
  have hPs : P.size = mu := a1
  rw [hPs]
  refine Sim.Post.returns_bind (fillPool_loop (offset := mu) ho.bvs ho.values ho.bits
    (by rw [a5, hpool.bvs]) (by rw [a5, a6, hpool.bvs, hpool.values]) a8) ?_
  rintro ⟨O, R⟩ ⟨b1, b2, b3, b4, b5, b6, b7, b8, b9, b10⟩
  dsimp only at b1 b2 b3 b4 b5 b6 b7 b8 b9 b10 ⊢
  have hR : R.Valid (mu + lam) n :=
    ⟨by rw [b5, a5, hpool.bvs], by rw [b6, a6, hpool.values], by rw [b7, a7]; exact hpool.perm, b8⟩
  have hind : R.individuals = parents.individuals ++ offsprings.individuals := by
    have e1 : R.bvs = parents.bvs ++ offsprings.bvs := by
      apply List.ext_getElem?
      intro j
      rw [b9, a9, List.getElem?_append, hp.bvs, Nat.sub_zero, Nat.zero_add]
      by_cases hj : j < mu
      · rw [if_neg (by omega), if_pos (by omega), if_pos hj]
      · rw [if_neg hj]
        by_cases hj2 : j < mu + lam
        · rw [if_pos (by omega)]
        · rw [if_neg (by omega), if_neg (by omega), List.getElem?_eq_none (by rw [hpool.bvs]; omega),
            List.getElem?_eq_none (by rw [ho.bvs]; omega)]
    have e2 : R.values = parents.values ++ offsprings.values := by
      apply List.ext_getElem?
      intro j
      rw [b10, a10, List.getElem?_append, hp.values, Nat.sub_zero, Nat.zero_add]
      by_cases hj : j < mu
      · rw [if_neg (by omega), if_pos (by omega), if_pos hj]
      · rw [if_neg hj]
        by_cases hj2 : j < mu + lam
        · rw [if_pos (by omega)]
        · rw [if_neg (by omega), if_neg (by omega), List.getElem?_eq_none (by rw [hpool.values]; omega),
            List.getElem?_eq_none (by rw [ho.values]; omega)]
    unfold Pop.individuals
    rw [e1, e2, List.zip_append (by rw [hp.bvs, hp.values])]
  refine takeBest_selects hmu hR (by omega) a1 (by rw [a2, hp.values]) a4 (by rw [a3, hp.perm_length])
    (fun r h1 h2 => Sim.Post.pure ⟨?_, ⟨b1, by rw [b2, ho.values], by rw [b3]; exact ho.perm, b4⟩, h2⟩)
  rw [← hind]
  exact h1

/-- The constructor of plus selection gives the pool which `plus_select_spec` needs. -/
theorem plusNew_valid [Zero K] {mu lam n : Nat} {parents offsprings : Pop K} (hmu : 0 < mu) (hlam : 0 < lam)
    (hn : 0 < n) (hp : parents.Valid mu n) (ho : offsprings.Valid lam n) :
    (plusNew parents offsprings).Returns (fun pool => pool.Valid (mu + lam) n) := by
  have hb : ∀ {m : Nat} {q : Pop K}, 0 < m → q.Valid m n → q.bvSize = ok n := by
    intro m q hm hq
    have h0 : 0 < q.bvs.length := by rw [hq.bvs]; exact hm
    unfold Pop.bvSize
    rw [vget_eq h0, ok_bind, hq.bits _ (List.getElem_mem h0)]
  unfold plusNew
  rw [hb hmu hp, ok_bind]
  have hs : parents.size + offsprings.size = mu + lam := by
    unfold Pop.size
    rw [hp.bvs, ho.bvs]
  rw [hs]
  unfold Pop.new
  rw [if_neg (by omega), if_neg (by omega), ok_bind, hb hlam ho, ok_bind, if_pos rfl, returns_ok]
  refine ⟨by simp; omega, by simp; omega, List.Perm.refl _, ?_⟩
  intro x hx
  rw [List.eq_of_mem_replicate hx]
  simp

/-- C47: the best individual after a selection is at least as good as the whole pool; thus under plus selection the
best value never decreases. -/
theorem selectsBest_first [LinearOrder K] {mu n : Nat} {pool : List (BV × K)} {q : Pop K}
    (h : SelectsBest mu n pool q) (hmu : 0 < mu) :
    ∃ x v, q.bestBv 0 = ok x ∧ q.bestValue 0 = ok v ∧ (x, v) ∈ pool ∧ ∀ c ∈ pool, c.2 ≤ v := by
  obtain ⟨hv, hperm, hsort, discarded, hd1, hd2⟩ := h
  obtain ⟨k, x, v, hk, e1, e2, e3, _, e5, e6⟩ := hv.ranked_read hmu
  have hk0 : k = 0 := by
    rw [hperm] at e1
    simpa [hmu, eq_comm] using e1
  subst hk0
  have h0 : q.individuals[0]? = some (x, v) := individuals_getElem?.mpr ⟨e2, e3⟩
  have hmem : (x, v) ∈ q.individuals := List.mem_of_getElem? h0
  refine ⟨x, v, e5, e6, hd1.mem_iff.mp (List.mem_append_left _ hmem), ?_⟩
  intro c hc
  rcases List.mem_append.mp (hd1.mem_iff.mpr hc) with hc | hc
  · obtain ⟨i, hi⟩ := List.mem_iff_getElem?.mp hc
    rcases Nat.eq_zero_or_pos i with rfl | hpos
    · rw [h0] at hi
      cases hi
      exact le_refl _
    · exact pairwise_getElem? hsort hpos h0 hi
  · exact hd2 c hc _ hmem

/-- A population of four individuals with a tie. -/
def examplePop : Pop Int := ⟨[[true, false], [false, false], [true, true], [false, true]], [1, 0, 2, 1], [0, 1, 2, 3]⟩

example : examplePop.Valid 4 2 :=
  ⟨rfl, rfl, List.Perm.refl _, by decide⟩

example : (match examplePop.sort [0, 0] with
    | .ok q _ => some (q.perm.length, q.perm.head?, q.perm.getLast?) | _ => none) = some (4, some 2, some 1) := by
  decide +kernel

/-- Plus selection of two parents with `examplePop` as offsprings. -/
example : (match plusSelect (K := Int) ⟨[[true, true], [false, false]], [2, 0], [0, 1]⟩ examplePop
      ⟨List.replicate 6 [false, false], List.replicate 6 0, [0, 1, 2, 3, 4, 5]⟩ [0, 0] with
    | .ok r _ => some r.1 | _ => none) = some ⟨[[true, true], [true, true]], [2, 2], [0, 1]⟩ := by
  decide +kernel

/-- The population sorted: ranks 1 and 2 are equivalent. -/
example : Pop.getEquivalentBvs 1 { examplePop with perm := [2, 3, 0, 1] } = ok (1, 3) := by decide +kernel

end Hnco
