import Verif.Algorithm.GenerationLemmas
import Verif.Algorithm.PathReach
import Verif.Function.NkProps

/-! # Generations which searches with a population can make -/

namespace Hnco

open Outcome

variable {K σ : Type}

theorem Sim.Reaches.post {α : Type} {m : Sim α} {a : α} {P : α → Prop} (h : Sim.Reaches m a) (hp : Sim.Post m P) : P a := by
  obtain ⟨ds, h⟩ := h
  have := hp (ds ++ [])
  rw [h []] at this
  exact this

/-! ## Orders of the individuals of a population -/

theorem exists_perm_map {α β : Type} (f : α → β) : ∀ {l : List β} {r : List α}, l.Perm (r.map f) →
    ∃ r' : List α, r'.Perm r ∧ r'.map f = l
  | [], r, h => ⟨[], by rw [List.map_eq_nil_iff.mp h.symm.eq_nil], rfl⟩
  | b :: t, r, h => by
    obtain ⟨a, ha, rfl⟩ := List.mem_map.mp (h.mem_iff.mp List.mem_cons_self)
    obtain ⟨s₁, s₂, rfl⟩ := List.append_of_mem ha
    have h' : t.Perm ((s₁ ++ s₂).map f) :=
      (h.trans (List.perm_middle.map f)).cons_inv
    obtain ⟨r', h1, h2⟩ := exists_perm_map f h'
    exact ⟨a :: r', (h1.cons a).trans List.perm_middle.symm, by rw [List.map_cons, h2]⟩

theorem exists_ranking {size n : Nat} {p : Pop K} (hp : p.Valid size n) {l : List (BV × K)} (h : l.Perm p.individuals) :
    ∃ perm, perm.Perm (List.range size) ∧ Pop.ranked { p with perm := perm } = l := by
  have h' : (l.map some).Perm ((List.range size).map (fun k => p.individuals[k]?)) := by
    refine (h.map some).trans (List.Perm.of_eq ?_)
    rw [← hp.individuals_length]
    apply List.ext_getElem?
    intro i
    rw [List.getElem?_map, List.getElem?_map]
    by_cases hi : i < p.individuals.length
    · rw [List.getElem?_range hi, List.getElem?_eq_getElem hi]
      simp [hi]
    · rw [List.getElem?_eq_none (by omega), List.getElem?_eq_none (by simpa using hi)]
      rfl
  obtain ⟨perm, h1, h2⟩ := exists_perm_map _ h'
  refine ⟨perm, h1, ?_⟩
  show perm.filterMap (fun k => p.individuals[k]?) = l
  have := congrArg (List.filterMap id) h2
  rw [List.filterMap_map, List.filterMap_map] at this
  simpa [Function.comp_def] using this

theorem ranked_in_order {size n : Nat} {p : Pop K} (hp : p.Valid size n) {l : List (Nat × K)} (h1 : l.map Prod.fst = p.perm)
    (h2 : ∀ a ∈ l, p.values[a.1]? = some a.2) : l.map Prod.snd = p.ranked.map Prod.snd := by
  have hlen : l.length = size := by
    have := congrArg List.length h1
    rw [List.length_map, hp.perm_length] at this
    exact this
  apply List.ext_getElem?
  intro i
  rw [List.getElem?_map, List.getElem?_map]
  by_cases hi : i < size
  · obtain ⟨k, x, v, _, e1, _, e3, e4, _⟩ := hp.ranked_read hi
    rw [e4, List.getElem?_eq_getElem (by omega)]
    have hk : l[i].1 = k := by
      have : (l.map Prod.fst)[i]? = some k := by rw [h1]; exact e1
      rw [List.getElem?_map, List.getElem?_eq_getElem (by omega)] at this
      exact Option.some.inj this
    have := h2 l[i] (List.getElem_mem _)
    rw [hk, e3] at this
    exact (congrArg some (Option.some.inj this)).symm
  · rw [List.getElem?_eq_none (by omega), List.getElem?_eq_none (by rw [hp.ranked_length]; omega)]
    rfl

section
variable [LinearOrder K]

/-- From the best to the worst. -/
def Descending (l : List (BV × K)) : Prop := l.Pairwise (fun a b => b.2 ≤ a.2)

theorem exists_descending (l : List (BV × K)) : ∃ r, r.Perm l ∧ Descending r := by
  refine ⟨l.mergeSort (fun a b => decide (b.2 ≤ a.2)), List.mergeSort_perm _ _, ?_⟩
  have := List.pairwise_mergeSort (le := fun a b : BV × K => decide (b.2 ≤ a.2))
    (fun a b c h1 h2 => by simp only [decide_eq_true_eq] at *; exact le_trans h2 h1)
    (fun a b => by simpa using le_total b.2 a.2) l
  exact this.imp (fun h => by simpa using h)

theorem exists_descending_from {l : List (BV × K)} {c : BV × K} (hc : c ∈ l) (hmax : ∀ a ∈ l, a.2 ≤ c.2) :
    ∃ r, r.Perm l ∧ Descending r ∧ r[0]? = some c := by
  obtain ⟨s₁, s₂, rfl⟩ := List.append_of_mem hc
  obtain ⟨r, h1, h2⟩ := exists_descending (s₁ ++ s₂)
  refine ⟨c :: r, (h1.cons c).trans List.perm_middle.symm, List.pairwise_cons.mpr ⟨fun a ha => ?_, h2⟩, rfl⟩
  refine hmax a ?_
  have := h1.mem_iff.mp ha
  simp only [List.mem_append, List.mem_cons] at this ⊢
  tauto

/-- The chosen evaluations can be ordered so that the update with the first one gives the new solution. -/
theorem Improves.order {old new : BV × K} {generation chosen : List (BV × K)} (h : Improves old generation chosen new)
    (hc : ∀ c ∈ chosen, c ∈ generation ∨ c.2 ≤ old.2) :
    ∃ r, r.Perm chosen ∧ Descending r ∧ ∀ x v, r[0]? = some (x, v) → (if old.2 < v then (x, v) else old) = new := by
  rcases h with ⟨rfl, h⟩ | ⟨h1, h2, h3, h4⟩
  · obtain ⟨r, g1, g2⟩ := exists_descending chosen
    refine ⟨r, g1, g2, fun x v hx => if_neg (not_lt.mpr ?_)⟩
    rcases hc _ (g1.mem_iff.mp (List.mem_of_getElem? hx)) with hm | hm
    · exact h _ hm
    · exact hm
  · obtain ⟨r, g1, g2, g3⟩ := exists_descending_from h2 (fun a ha => by
      rcases hc a ha with hm | hm
      · exact h4 a hm
      · exact le_of_lt (lt_of_le_of_lt hm h3))
    refine ⟨r, g1, g2, fun x v hx => ?_⟩
    rw [g3] at hx
    cases hx
    exact if_pos h3

theorem pop_partialSort_onto {size n m : Nat} {p : Pop K} (hp : p.Valid size n) (hm : 0 < m) (hms : m ≤ size) {perm : List Nat}
    (hperm : perm.Perm (List.range size)) (h1 : Descending ((Pop.ranked { p with perm := perm }).take m))
    (h2 : ∀ c ∈ (Pop.ranked { p with perm := perm }).take m, ∀ d ∈ (Pop.ranked { p with perm := perm }).drop m, d.2 ≤ c.2) :
    Sim.Reaches (p.partialSort m) { p with perm := perm } := by
  unfold Pop.partialSort
  have hpp : perm.Perm p.perm := hperm.trans hp.perm.symm
  obtain ⟨l, g1, g2, g3⟩ := readValues_eq (hp.perm_lt hpp)
  have hv : Pop.Valid size n { p with perm := perm } := ⟨hp.bvs, hp.values, hperm, hp.bits⟩
  have hval := ranked_in_order hv g2 g3
  have hlen : l.length = size := by
    have := congrArg List.length g2
    rw [List.length_map, hperm.length_eq, List.length_range] at this
    exact this
  refine Sim.Reaches.bind (a := ()) (Sim.Reaches.lift (assert_pos (decide_eq_true hm))) ?_
  refine Sim.Reaches.bind (Sim.Reaches.shuffle hpp) (Sim.Reaches.bind (Sim.Reaches.lift g1) ?_)
  refine Sim.Reaches.bind (Sim.Reaches.partialSort (by omega) (List.Perm.refl l) ?_ ?_) ?_
  · have e : ((l.take m).map Prod.snd).Pairwise (fun a b => b ≤ a) := by
      rw [List.map_take, hval, ← List.map_take, List.pairwise_map]
      exact h1
    rw [List.pairwise_map] at e
    exact e.imp (fun h => by simpa [better] using h)
  · intro a ha b hb
    have ha' : a.2 ∈ ((Pop.ranked { p with perm := perm }).take m).map Prod.snd := by
      rw [List.map_take, ← hval, ← List.map_take]
      exact List.mem_map_of_mem ha
    have hb' : b.2 ∈ ((Pop.ranked { p with perm := perm }).drop m).map Prod.snd := by
      rw [List.map_drop, ← hval, ← List.map_drop]
      exact List.mem_map_of_mem hb
    obtain ⟨c, hc, hc'⟩ := List.mem_map.mp ha'
    obtain ⟨d, hd, hd'⟩ := List.mem_map.mp hb'
    have := h2 c hc d hd
    rw [hc', hd'] at this
    simpa [better] using this
  · rw [g2]
    exact Sim.Reaches.pure _

/-- Any order of a population from the best to the worst is a possible result of sorting. -/
theorem pop_sort_reaches {size n : Nat} {p : Pop K} (hp : p.Valid size n) {l : List (BV × K)} (h : l.Perm p.individuals)
    (hs : Descending l) : ∃ q, Sim.Reaches p.sort q ∧ q.Valid size n ∧ q.bvs = p.bvs ∧ q.individuals = p.individuals ∧ q.ranked = l := by
  obtain ⟨perm, h1, h2⟩ := exists_ranking hp h
  have hv : Pop.Valid size n { p with perm := perm } := ⟨hp.bvs, hp.values, h1, hp.bits⟩
  refine ⟨_, pop_sort_onto hp h1 ?_, hv, rfl, rfl, h2⟩
  intro i j v w hij hi hj
  obtain ⟨x, hx⟩ := hv.rankValue.mp hi
  obtain ⟨y, hy⟩ := hv.rankValue.mp hj
  rw [h2] at hx hy
  rcases Nat.lt_or_eq_of_le hij with hlt | rfl
  · obtain ⟨hi', ex⟩ := List.getElem?_eq_some_iff.mp hx
    obtain ⟨hj', ey⟩ := List.getElem?_eq_some_iff.mp hy
    have := (List.pairwise_iff_getElem.mp hs) i j hi' hj' hlt
    rw [ex, ey] at this
    exact this
  · rw [hx] at hy
    cases hy
    exact le_refl _

/-! ## Selections -/

theorem takeBest_reaches {mu size n : Nat} {parents pool : Pop K} (hmu0 : 0 < mu) (hp : pool.Valid size n) (hmu : mu ≤ size)
    (h1 : parents.bvs.length = mu) (h2 : parents.values.length = mu) (h3 : ∀ x ∈ parents.bvs, x.length = n)
    (h4 : parents.perm.length = mu) {l others : List (BV × K)} (hl : l.length = mu) (hperm : (l ++ others).Perm pool.individuals)
    (hs : Descending l) (ho : ∀ a ∈ l, ∀ b ∈ others, b.2 ≤ a.2) :
    ∃ q r, Sim.Reaches (pool.partialSort mu) q ∧ forRange 0 mu takeBest (parents, q) = ok r ∧
      Pop.Valid mu n { r.1 with perm := permIdentity r.1.perm.length } ∧ permIdentity r.1.perm.length = List.range mu ∧
      r.1.individuals = l ∧ r.2.Valid size n := by
  obtain ⟨perm, e1, e2⟩ := exists_ranking hp hperm
  have hv : Pop.Valid size n { pool with perm := perm } := ⟨hp.bvs, hp.values, e1, hp.bits⟩
  have et : (Pop.ranked { pool with perm := perm }).take mu = l := by rw [e2, ← hl, List.take_left]
  have ed : (Pop.ranked { pool with perm := perm }).drop mu = others := by rw [e2, ← hl, List.drop_left]
  obtain ⟨r, hr, g1, g2, g3, g4, g5, g6⟩ := takeBest_loop hv hmu h1 h2 h3
  have hid : permIdentity r.1.perm.length = List.range mu := by rw [g4, h4]; rfl
  exact ⟨_, r, pop_partialSort_onto hp hmu0 hmu e1 (by rw [et]; exact hs) (by rw [et, ed]; exact ho), hr,
    ⟨g2, g3, by rw [hid], g5⟩, hid, by rw [g1, et], g6⟩

theorem comma_select_reaches {mu lam n : Nat} {parents offsprings : Pop K} (hmu : 0 < mu) (hle : mu ≤ lam)
    (hp : parents.Valid mu n) (ho : offsprings.Valid lam n) {l others : List (BV × K)} (hl : l.length = mu)
    (hperm : (l ++ others).Perm offsprings.individuals) (hs : Descending l) (hb : ∀ a ∈ l, ∀ b ∈ others, b.2 ≤ a.2) :
    ∃ p o, Sim.Reaches (commaSelect parents offsprings) (p, o) ∧ p.Valid mu n ∧ p.perm = List.range mu ∧ p.individuals = l ∧
      o.Valid lam n := by
  unfold commaSelect
  have hsz : parents.size = mu := hp.bvs
  rw [hsz]
  obtain ⟨q, r, e1, e2, e3, e4, e5, e6⟩ := takeBest_reaches hmu ho hle hp.bvs hp.values hp.bits hp.perm_length hl hperm hs hb
  exact ⟨_, _, Sim.Reaches.bind e1 (Sim.Reaches.bind (Sim.Reaches.lift e2) (Sim.Reaches.pure _)), e3, e4, e5, e6⟩

theorem plus_select_reaches {mu lam n : Nat} {parents offsprings pool : Pop K} (hmu : 0 < mu)
    (hp : parents.Valid mu n) (ho : offsprings.Valid lam n) (hpool : pool.Valid (mu + lam) n) {l others : List (BV × K)}
    (hl : l.length = mu) (hperm : (l ++ others).Perm (parents.individuals ++ offsprings.individuals)) (hs : Descending l)
    (hb : ∀ a ∈ l, ∀ b ∈ others, b.2 ≤ a.2) :
    ∃ p o r, Sim.Reaches (plusSelect parents offsprings pool) (p, o, r) ∧ p.Valid mu n ∧ p.perm = List.range mu ∧
      p.individuals = l ∧ o.Valid lam n ∧ r.Valid (mu + lam) n := by
  unfold plusSelect
  have hsz : parents.size = mu := hp.bvs
  have hos : offsprings.size = lam := ho.bvs
  rw [hsz, hos]
  obtain ⟨⟨P, Q⟩, hPQ, a1, a2, a3, a4, a5, a6, a7, a8, a9, a10⟩ := fillPool_loop (offset := 0) hp.bvs hp.values hp.bits
    (by rw [hpool.bvs]; omega) (by rw [hpool.bvs, hpool.values]) hpool.bits
  dsimp only at a1 a2 a3 a4 a5 a6 a7 a8 a9 a10
  have hPs : P.size = mu := a1
  obtain ⟨⟨O, R⟩, hOR, b1, b2, b3, b4, b5, b6, b7, b8, b9, b10⟩ := fillPool_loop (offset := mu) ho.bvs ho.values ho.bits
    (by rw [a5, hpool.bvs]) (by rw [a5, a6, hpool.bvs, hpool.values]) a8
  dsimp only at b1 b2 b3 b4 b5 b6 b7 b8 b9 b10
  have hR : R.Valid (mu + lam) n :=
    ⟨by rw [b5, a5, hpool.bvs], by rw [b6, a6, hpool.values], by rw [b7, a7]; exact hpool.perm, b8⟩
  have hind : R.individuals = parents.individuals ++ offsprings.individuals := by
    have e1 : R.bvs = parents.bvs ++ offsprings.bvs := by
      apply List.ext_getElem?
      intro j
      rw [b9, a9, List.getElem?_append, hp.bvs, Nat.sub_zero, Nat.zero_add]
      by_cases hj : j < mu
      · rw [if_neg (by omega), if_pos (by omega), if_pos hj]
      · rw [if_neg hj]
        by_cases hj2 : j < mu + lam
        · rw [if_pos (by omega)]
        · rw [if_neg (by omega), if_neg (by omega), List.getElem?_eq_none (by rw [hpool.bvs]; omega),
            List.getElem?_eq_none (by rw [ho.bvs]; omega)]
    have e2 : R.values = parents.values ++ offsprings.values := by
      apply List.ext_getElem?
      intro j
      rw [b10, a10, List.getElem?_append, hp.values, Nat.sub_zero, Nat.zero_add]
      by_cases hj : j < mu
      · rw [if_neg (by omega), if_pos (by omega), if_pos hj]
      · rw [if_neg hj]
        by_cases hj2 : j < mu + lam
        · rw [if_pos (by omega)]
        · rw [if_neg (by omega), if_neg (by omega), List.getElem?_eq_none (by rw [hpool.values]; omega),
            List.getElem?_eq_none (by rw [ho.values]; omega)]
    unfold Pop.individuals
    rw [e1, e2, List.zip_append (by rw [hp.bvs, hp.values])]
  obtain ⟨q, r, e1, e2, e3, e4, e5, e6⟩ := takeBest_reaches hmu hR (by omega) a1 (by rw [a2, hp.values]) a4
    (by rw [a3, hp.perm_length]) hl (by rw [hind]; exact hperm) hs hb
  refine ⟨_, _, _, Sim.Reaches.bind (Sim.Reaches.lift hPQ) ?_, e3, e4, e5,
    ⟨b1, by rw [b2, ho.values], by rw [b3]; exact ho.perm, b4⟩, e6⟩
  dsimp only
  rw [hPs]
  exact Sim.Reaches.bind (Sim.Reaches.lift hOR) (Sim.Reaches.bind e1 (Sim.Reaches.bind (Sim.Reaches.lift e2) (Sim.Reaches.pure _)))

end

/-- The best individual. -/
theorem ranked_best {size n : Nat} {p : Pop K} (hp : p.Valid size n) (h0 : 0 < size) :
    ∃ x v, p.ranked[0]? = some (x, v) ∧ p.bestBv 0 = ok x ∧ p.bestValue 0 = ok v := by
  obtain ⟨k, x, v, _, _, _, _, e4, e5, e6⟩ := hp.ranked_read h0
  exact ⟨x, v, e4, e5, e6⟩

theorem ranked_identity {size n : Nat} {p : Pop K} (hp : p.Valid size n) (h : p.perm = List.range size) :
    p.ranked = p.individuals := by
  unfold Pop.ranked
  rw [h, ← hp.individuals_length, filterMap_range]

/-! ## Members of algorithms -/

theorem Alg.Reaches.forLoop {S : Type} {body : Nat → Alg S Unit} (f : Nat → S) :
    ∀ n i, (∀ j, i ≤ j → j < i + n → Alg.Reaches (body j) (f j) () (f (j + 1))) →
      Alg.Reaches (Alg.forLoop n i body) (f i) () (f (i + n))
  | 0, i, _ => Alg.Reaches.pure _ _
  | n + 1, i, h => by
    refine Alg.Reaches.bind (h i (le_refl _) (by omega)) ?_
    have := Alg.Reaches.forLoop f n (i + 1) (fun j h1 h2 => h j (by omega) (by omega))
    rwa [show i + 1 + n = i + (n + 1) by omega] at this

theorem popEvaluate_reaches {env : Env K} {n : Nat} {val : BV → K} (henv : env.Computes n val)
    (hstop : ∀ calls x, env.stop calls x = none) {L : PopLens σ K}
    {s : AlgState K σ} {size : Nat} {p : Pop K} (hp : L.get s.data = p) (hv : p.Valid size n) :
    Alg.Reaches (popEvaluate env L) s ()
      { s with calls := s.calls ++ evaluated val p.bvs, data := L.put { p with values := p.bvs.map val } s.data } := by
  subst hp
  unfold popEvaluate
  refine Alg.Reaches.get_bind (Alg.Reaches.lift_bind (a := ()) (assert_pos (by rw [hv.bvs, hv.values]; simp)) ?_)
  have hpv := hv.values
  have hpb := hv.bvs
  have key := Alg.Reaches.forLoop (body := popEvaluateOne env L) (fun i => ({ s with calls := s.calls ++ evaluated val ((L.get s.data).bvs.take i), data := L.put { L.get s.data with values := ((L.get s.data).bvs.map val).take i ++ (L.get s.data).values.drop i } s.data } : AlgState K σ)) (L.get s.data).bvs.length 0 ?_
  · simp only [List.take_zero, evaluated, List.map_nil, List.append_nil, List.nil_append, List.drop_zero, Nat.zero_add] at key
    rw [show ({ L.get s.data with values := (L.get s.data).values } : Pop K) = L.get s.data from rfl, L.put_get,
      show (L.get s.data).bvs.take (L.get s.data).bvs.length = (L.get s.data).bvs from List.take_length,
      show ((L.get s.data).bvs.map val).take (L.get s.data).bvs.length = (L.get s.data).bvs.map val by
        rw [List.take_of_length_le (by simp)],
      show (L.get s.data).values.drop (L.get s.data).bvs.length = [] by
        rw [List.drop_of_length_le (by omega)], List.append_nil] at key
    exact key
  · intro i _ hi
    rw [Nat.zero_add] at hi
    unfold popEvaluateOne
    refine Alg.Reaches.get_bind ?_
    dsimp only
    rw [L.get_put]
    dsimp only
    refine Alg.Reaches.lift_bind (vget_eq hi) ?_
    refine Alg.Reaches.evaluate_bind henv hstop (hv.bits _ (List.getElem_mem hi)) ?_
    have hlen : i < (((L.get s.data).bvs.map val).take i ++ (L.get s.data).values.drop i).length := by
      rw [List.length_append, List.length_take, List.length_drop, List.length_map]
      omega
    refine Alg.Reaches.lift_bind (vset_eq hlen) ?_
    have hm := Alg.Reaches.modify (fun s' : AlgState K σ => { s' with data := L.put { L.get s'.data with values := ((((L.get s.data).bvs.map val).take i ++ (L.get s.data).values.drop i).set i (val (L.get s.data).bvs[i])) } s'.data })
      { s with calls := s.calls ++ evaluated val ((L.get s.data).bvs.take i) ++ [((L.get s.data).bvs[i], val (L.get s.data).bvs[i])], data := L.put { L.get s.data with values := ((L.get s.data).bvs.map val).take i ++ (L.get s.data).values.drop i } s.data }
    dsimp only at hm
    rw [L.get_put, L.put_put] at hm
    dsimp only at hm
    have hset : ((((L.get s.data).bvs.map val).take i ++ (L.get s.data).values.drop i).set i
        (val (L.get s.data).bvs[i])) =
        ((L.get s.data).bvs.map val).take (i + 1) ++ (L.get s.data).values.drop (i + 1) := by
      apply List.ext_getElem?
      intro j
      rcases Nat.lt_trichotomy j i with h | rfl | h
      · rw [List.getElem?_set_ne (by omega), List.getElem?_append_left (by simp; omega),
          List.getElem?_append_left (by simp; omega), List.getElem?_take, List.getElem?_take, if_pos h,
          if_pos (by omega)]
      · rw [List.getElem?_set_self hlen, List.getElem?_append_left (by simp; omega), List.getElem?_take,
          if_pos (by omega)]
        simp [hi]
      · rw [List.getElem?_set_ne (by omega), List.getElem?_append_right (by simp; omega),
          List.getElem?_append_right (by simp; omega), List.getElem?_drop, List.getElem?_drop, List.length_take,
          List.length_take, List.length_map]
        congr 1
        omega
    have hcalls : evaluated val ((L.get s.data).bvs.take i) ++ [((L.get s.data).bvs[i], val (L.get s.data).bvs[i])] =
        evaluated val ((L.get s.data).bvs.take (i + 1)) := by
      unfold evaluated
      rw [List.take_add_one, List.map_append, List.getElem?_eq_getElem hi]
      simp
    rw [hset, List.append_assoc, hcalls] at hm
    rw [hset, List.append_assoc, hcalls]
    exact hm

theorem randomBvs_reaches : ∀ {old new : List BV}, new.map List.length = old.map List.length → Sim.Reaches (randomBvs old) new
  | [], [], _ => Sim.Reaches.pure _
  | bv :: old, x :: new, h => by
    simp only [List.map_cons, List.cons.injEq] at h
    unfold randomBvs
    refine Sim.Reaches.bind (a := x) (by rw [← h.1]; exact bvRandomBits_any x) ?_
    exact Sim.Reaches.bind (randomBvs_reaches h.2) (Sim.Reaches.pure _)

theorem popRandom_reaches {L : PopLens σ K} {s : AlgState K σ} {size n : Nat} {p : Pop K} (hp : L.get s.data = p)
    (hv : p.Valid size n) {bvs : List BV} (h1 : bvs.length = size) (h2 : ∀ x ∈ bvs, x.length = n) :
    Alg.Reaches (popRandom L) s () { s with data := L.put { p with bvs := bvs } s.data } := by
  subst hp
  unfold popRandom Pop.random
  refine Alg.Reaches.get_bind (Alg.Reaches.sim_bind (Sim.Reaches.bind (randomBvs_reaches ?_) (Sim.Reaches.pure _)) (Alg.Reaches.modify _ _))
  rw [List.eq_replicate_of_mem (a := n) (l := bvs.map List.length) (by simpa using h2),
    List.eq_replicate_of_mem (a := n) (l := (L.get s.data).bvs.map List.length) (by simpa using hv.bits)]
  simp [h1, hv.bvs]

theorem popUpdateSolution_reaches [LinearOrder K] {L : PopLens σ K} {t : AlgState K σ} {p : Pop K} (hp : L.get t.data = p)
    {size n : Nat} (hv : p.Valid size n) (h0 : 0 < size) {new : BV × K}
    (h : ∀ x v, p.ranked[0]? = some (x, v) → (if t.solution.2 < v then (x, v) else t.solution) = new) :
    Alg.Reaches (popUpdateSolution L) t () { t with solution := new } := by
  subst hp
  obtain ⟨x, v, e1, e2, e3⟩ := ranked_best hv h0
  have h := h x v e1
  unfold popUpdateSolution
  refine Alg.Reaches.get_bind (Alg.Reaches.lift_bind e2 (Alg.Reaches.lift_bind e3 ?_))
  have := Alg.Reaches.modify (fun s : AlgState K σ => if s.solution.2 < v then { s with solution := (x, v) } else s) t
  split at h
  · rename_i hc
    rw [if_pos hc] at this
    subst h
    exact this
  · rename_i hc
    rw [if_neg hc] at this
    subst h
    exact this

/-! ## Breeding -/

theorem mutate_reaches {k : Sampler} {s : Nbh} (hs : s.Valid k) {x y : BV} (hx : x.length = s.n) (hy : MutantOf k.Count x y) :
    ∃ t, Sim.Reaches (s.mutate k x) (t, y) ∧ t.Valid k ∧ t.n = s.n := by
  have hl : k.Flips s.n ((List.range x.length).filter (fun i => x[i]? != y[i]?)) := by
    refine ⟨List.Pairwise.filter _ List.pairwise_lt_range, ?_, hy.2⟩
    intro i hi
    rw [← hx]
    exact List.mem_range.mp (List.mem_filter.mp hi).1
  have hf := flipped_of_differing hy.1
  obtain ⟨z, hz, hz1, hz2⟩ := bvFlipSparse_exact x _ hl.1 (fun i hi => by rw [hx]; exact hl.2.1 i hi)
  have : z = y := by
    apply List.ext_getElem?
    intro i
    by_cases hi : i < x.length
    · rw [hz2 i _ (List.getElem?_eq_getElem hi), hf.2 i _ (List.getElem?_eq_getElem hi)]
    · rw [List.getElem?_eq_none (by omega), List.getElem?_eq_none (by have := hf.1; omega)]
  subst this
  have hr : Sim.Reaches (s.mutate k x) ({ s with flipped := (List.range x.length).filter (fun i => x[i]? != z[i]?) }, z) := by
    unfold Nbh.mutate
    refine Sim.Reaches.bind (a := ()) (Sim.Reaches.lift (assert_pos (by simp only [beq_iff_eq]; rw [hx, hs.origin]))) ?_
    exact Sim.Reaches.bind (sampleBits_onto hs hl) (Sim.Reaches.bind (Sim.Reaches.lift hz) (Sim.Reaches.pure _))
  exact ⟨_, hr, (hr.post (mutate_spec hs hx)).2.1, rfl⟩

theorem map_reaches {k : Sampler} {s : Nbh} (hs : s.Valid k) {x y old : BV} (hx : x.length = s.n) (ho : old.length = s.n)
    (hy : MutantOf k.Count x y) : ∃ t, Sim.Reaches (s.map k x old) (t, y) ∧ t.Valid k ∧ t.n = s.n := by
  obtain ⟨t, h1, h2, h3⟩ := mutate_reaches hs hx hy
  refine ⟨t, ?_, h2, h3⟩
  have he : s.map k x old = s.mutate k x := by
    unfold Nbh.map Nbh.mutate
    rw [copy_ok (show old.length = x.length by omega)]
    funext ds
    have e1 : (old.length == s.origin.length) = true := by simp only [beq_iff_eq]; rw [ho, hs.origin]
    rw [e1]
    rfl
  rw [he]
  exact h1

theorem makeOffspring_reaches {params : StandardParams} {parents : Pop K} {mu lam n : Nat}
    (hp : parents.Valid mu n) {i : Nat} (hi : i < lam) {s : Nbh × Pop K}
    (hs : s.1.Valid (.standardBitMutation params) ∧ s.1.n = n ∧ s.2.Valid lam n) {y : BV}
    (hy : MutantOfParent (Sampler.standardBitMutation params).Count parents.bvs y) :
    ∃ m, Sim.Reaches (makeOffspring params parents i s) (m, { s.2 with bvs := s.2.bvs.set i y }) ∧
      m.Valid (.standardBitMutation params) ∧ m.n = n := by
  obtain ⟨h1, h2, h3⟩ := hs
  obtain ⟨x, hx, hxy⟩ := hy
  obtain ⟨k, hk, rfl⟩ := List.getElem_of_mem hx
  have hkm : k < mu := by rw [← hp.bvs]; exact hk
  have hil : i < s.2.bvs.length := by rw [h3.bvs]; exact hi
  obtain ⟨m, g1, g2, g3⟩ := mutate_reaches h1 (x := parents.bvs[k]) (by rw [hp.bits _ hx, h2]) hxy
  refine ⟨m, ?_, g2, g3.trans h2⟩
  unfold makeOffspring Pop.size
  rw [hp.bvs]
  refine Sim.Reaches.bind (Sim.Reaches.uniformInt (Nat.zero_le k) (by omega)) ?_
  refine Sim.Reaches.bind (Sim.Reaches.lift (vget_eq hk)) (Sim.Reaches.bind (Sim.Reaches.lift (vset_eq hil)) ?_)
  refine Sim.Reaches.bind g1 (Sim.Reaches.bind (Sim.Reaches.lift (vset_eq (by simpa using hil))) ?_)
  rw [List.set_set]
  exact Sim.Reaches.pure _

/-- Loops which write one vector after the other. -/
theorem breed_loop {lam n : Nat} {V : Nbh → Prop} {body : Nat → Nbh × Pop K → Sim (Nbh × Pop K)} {ys : List BV}
    (hys : ys.length = lam) (hn : ∀ y ∈ ys, y.length = n) {a b : Nat} (hab : a ≤ b) (hb : b ≤ lam)
    (hbody : ∀ i (hi : i < ys.length) (s : Nbh × Pop K), a ≤ i → i < b → V s.1 → s.2.Valid lam n →
      ∃ m, Sim.Reaches (body i s) (m, { s.2 with bvs := s.2.bvs.set i ys[i] }) ∧ V m)
    {m : Nbh} {p : Pop K} (hm : V m) (hp : p.Valid lam n) {old : List BV} (ho : old.length = lam) (hpo : p.bvs = overwritten old ys a) :
    ∃ m' q, Sim.Reaches (Sim.forRange a b body (m, p)) (m', q) ∧ V m' ∧ q.Valid lam n ∧ q.bvs = overwritten old ys b := by
  obtain ⟨⟨m', q⟩, ⟨h1, h2, h3⟩, h4⟩ := Sim.ReachesSome.forRange (body := body) (s := (m, p))
    (fun i (s : Nbh × Pop K) => V s.1 ∧ s.2.Valid lam n ∧ s.2.bvs = overwritten old ys i) hab ⟨hm, hp, hpo⟩ (by
      rintro i s ha hi ⟨e1, e2, e3⟩
      have hil : i < ys.length := by omega
      obtain ⟨m', g1, g2⟩ := hbody i hil s ha hi e1 e2
      refine ⟨_, ⟨g2, e2.setBv i (hn _ (List.getElem_mem hil)), ?_⟩, g1⟩
      dsimp only
      rw [e3]
      exact overwritten_succ (by omega) hil)
  exact ⟨m', q, h4, h1, h2, h3⟩

theorem overwritten_zero {α : Type} (old new : List α) : overwritten old new 0 = old := by simp [overwritten]

theorem overwritten_all {α : Type} {old new : List α} (h : old.length = new.length) : overwritten old new new.length = new := by
  simp [overwritten, ← h]

theorem makeOffsprings_reaches {τ : Type} {s : AlgState K (EaData K τ)} {n mu lam : Nat} (hv : s.data.Valid n mu lam)
    {ys : List BV} (hlen : ys.length = lam)
    (hys : ∀ y ∈ ys, MutantOfParent (Sampler.standardBitMutation s.data.params).Count s.data.parents.bvs y) :
    ∃ m p, Alg.Reaches makeOffsprings s () { s with data := { s.data with mutation := m, offsprings := p } } ∧
      EaData.Valid n mu lam { s.data with mutation := m, offsprings := p } ∧ p.bvs = ys := by
  have hn : ∀ y ∈ ys, y.length = n := by
    intro y hy
    obtain ⟨x, hx, hxy⟩ := hys y hy
    rw [hxy.1]
    exact hv.parents.bits x hx
  obtain ⟨m, p, h1, h2, h3, h4⟩ := breed_loop (V := fun m => m.Valid (.standardBitMutation s.data.params) ∧ m.n = n)
    (body := makeOffspring s.data.params s.data.parents) hlen hn (Nat.zero_le lam) (le_refl _)
    (fun i hi t _ hb hV ht => makeOffspring_reaches hv.parents hb ⟨hV.1, hV.2, ht⟩ (hys _ (List.getElem_mem hi)))
    ⟨hv.mutation, hv.bits⟩ hv.offsprings (old := s.data.offsprings.bvs) hv.offsprings.bvs (overwritten_zero _ _).symm
  have h5 : p.bvs = ys := by rw [h4, ← hlen]; exact overwritten_all (by rw [hv.offsprings.bvs, hlen])
  refine ⟨m, p, ?_, ⟨hv.mu_pos, hv.lam_pos, hv.parents, h3, h2.1, h2.2⟩, h5⟩
  unfold makeOffsprings Pop.size
  rw [← hv.offsprings.bvs] at h1
  exact Alg.Reaches.get_bind (Alg.Reaches.sim_bind h1 (Alg.Reaches.modify _ _))

theorem evaluated_true_calls {n : Nat} {val : BV → K} {calls : List (BV × K)} (h : TrueCalls n val calls) :
    evaluated val (calls.map Prod.fst) = calls := by
  unfold evaluated
  rw [List.map_map]
  conv_rhs => rw [← List.map_id calls]
  refine List.map_congr_left (fun c hc => ?_)
  show (c.1, val c.1) = c
  rw [← (h c hc).2]

theorem setMutation_reaches {τ : Type} (q : MutationParams) {s : AlgState K (EaData K τ)} {n mu lam : Nat}
    (hv : s.data.Valid n mu lam) :
    ∃ p, Alg.Reaches (setMutation q) s () { s with data := { s.data with params := p } } ∧
      EaData.Valid n mu lam { s.data with params := p } ∧ ∀ d, q.Count d → (Sampler.standardBitMutation p).Count d := by
  refine ⟨_, Alg.Reaches.modify _ _, ⟨hv.mu_pos, hv.lam_pos, hv.parents, hv.offsprings, standard_valid hv.mutation, hv.bits⟩, ?_⟩
  rintro d (h | ⟨h1, h2⟩)
  · exact .inl h
  · refine .inr ⟨?_, h2⟩
    unfold StandardParams.setAllowNoMutation StandardParams.setMutationRate
    rw [if_pos h1]

/-! ## The algorithms -/

section
variable [LinearOrder K]

/-- The first parents can be any vectors, and the first solution any best one of them. -/
theorem firstParents_reaches {τ : Type} {env : Env K} {n mu lam : Nat} {val : BV → K} (henv : env.Computes n val)
    (hstop : ∀ calls x, env.stop calls x = none) {s : AlgState K (EaData K τ)} (hv : s.data.Valid n mu lam)
    (hcalls : s.calls = []) {initial : List (BV × K)} (hlen : initial.length = mu) (htrue : TrueCalls n val initial)
    {solution : BV × K} (hbest : BestOf initial solution) :
    ∃ p, Alg.Reaches (do
        popRandom (parentsLens K τ)
        popEvaluate env (parentsLens K τ)
        popSort (parentsLens K τ)
        popSetSolution (parentsLens K τ)) s ()
        { s with solution := solution, calls := initial, data := { s.data with parents := p } } ∧
      p.Valid mu n ∧ p.individuals = initial := by
  have hev := evaluated_true_calls htrue
  have hbits : ∀ x ∈ initial.map Prod.fst, x.length = n := by
    intro x hx
    obtain ⟨c, hc, rfl⟩ := List.mem_map.mp hx
    exact (htrue c hc).1
  have h1 := popRandom_reaches (L := parentsLens K τ) (s := s) rfl hv.parents (bvs := initial.map Prod.fst) (by simpa using hlen) hbits
  have hv1 : Pop.Valid mu n { s.data.parents with bvs := initial.map Prod.fst } :=
    ⟨by simpa using hlen, hv.parents.values, hv.parents.perm, hbits⟩
  have h2 : Alg.Reaches (popEvaluate env (parentsLens K τ))
      { s with data := { s.data with parents := { s.data.parents with bvs := initial.map Prod.fst } } } ()
      { s with calls := initial, data := { s.data with parents := { s.data.parents with bvs := initial.map Prod.fst, values := (initial.map Prod.fst).map val } } } := by
    have h : Alg.Reaches (popEvaluate env (parentsLens K τ))
        { s with data := { s.data with parents := { s.data.parents with bvs := initial.map Prod.fst } } } ()
        { s with calls := s.calls ++ evaluated val (initial.map Prod.fst), data := { s.data with parents := { s.data.parents with bvs := initial.map Prod.fst, values := (initial.map Prod.fst).map val } } } :=
      popEvaluate_reaches henv hstop (L := parentsLens K τ)
        (s := { s with data := { s.data with parents := { s.data.parents with bvs := initial.map Prod.fst } } }) rfl hv1
    have hc : s.calls ++ evaluated val (initial.map Prod.fst) = initial := by rw [hcalls, List.nil_append, hev]
    rw [hc] at h
    exact h
  have hv2 : Pop.Valid mu n { s.data.parents with bvs := initial.map Prod.fst, values := (initial.map Prod.fst).map val } :=
    hv1.withValues (by simpa using hlen)
  have hind : Pop.individuals { s.data.parents with bvs := initial.map Prod.fst, values := (initial.map Prod.fst).map val } = initial :=
    (evaluated_individuals val { s.data.parents with bvs := initial.map Prod.fst }).trans hev
  obtain ⟨l, g1, g2, g3⟩ := exists_descending_from hbest.1 hbest.2
  obtain ⟨p, e1, e2, e3, e4, e5⟩ := pop_sort_reaches hv2 (l := l) (by rw [hind]; exact g1) g2
  refine ⟨p, ?_, e2, e4.trans hind⟩
  refine h1.bind (h2.bind ?_)
  unfold popSort popSetSolution
  refine Alg.Reaches.bind (a := ()) (t := { s with calls := initial, data := { s.data with parents := p } })
    (Alg.Reaches.get_bind (Alg.Reaches.sim_bind e1 (Alg.Reaches.modify _ _))) ?_
  · obtain ⟨x, v, d1, d2, d3⟩ := ranked_best e2 hv.mu_pos
    rw [e5, g3] at d1
    cases d1
    exact Alg.Reaches.get_bind (Alg.Reaches.lift_bind d2 (Alg.Reaches.lift_bind d3 (Alg.Reaches.modify _ _)))

/-- The (mu + lambda) EA can be in this state after these evaluations. -/
structure PlusAt (q : MutationParams) (n mu lam : Nat) (calls kept : List (BV × K)) (solution : BV × K)
    (t : AlgState K (EaData K (Pop K))) : Prop where
  valid : t.data.Valid n mu lam
  pool : t.data.extra.Valid (mu + lam) n
  mutates : ∀ d, q.Count d → (Sampler.standardBitMutation t.data.params).Count d
  parents : t.data.parents.individuals.Perm kept
  below : ∀ c ∈ kept, c.2 ≤ solution.2
  solution : t.solution = solution
  calls : t.calls = calls
  last : t.lastIteration = false

theorem muPlusIterate_reaches {env : Env K} {n mu lam : Nat} {val : BV → K} (henv : env.Computes n val)
    (hstop : ∀ calls x, env.stop calls x = none) {q : MutationParams} {calls kept : List (BV × K)} {solution : BV × K}
    {s : AlgState K (EaData K (Pop K))} (hs : PlusAt q n mu lam calls kept solution s)
    {generation chosen kept' : List (BV × K)} {solution' : BV × K} (hsize : generation.length = lam)
    (htrue : TrueCalls n val generation)
    (hbreed : ∀ c ∈ generation, MutantOfParent q.Count (kept.map Prod.fst) c.1)
    (hsurvive : SurvivePlus mu kept generation chosen kept') (hsolution : Improves solution generation chosen solution') :
    ∃ u, Alg.Reaches (muPlusIterate env) s () u ∧ PlusAt q n mu lam (calls ++ generation) kept' solution' u := by
  obtain ⟨rfl, hlen, others, hperm, hbest⟩ := hsurvive
  have hev := evaluated_true_calls htrue
  obtain ⟨m, p, h1, h2, h3⟩ := makeOffsprings_reaches hs.valid (ys := generation.map Prod.fst) (by simpa using hsize) (by
    intro y hy
    obtain ⟨c, hc, rfl⟩ := List.mem_map.mp hy
    obtain ⟨x, hx, hxy⟩ := hbreed c hc
    refine ⟨x, ?_, hxy.1, hs.mutates _ hxy.2⟩
    rw [← individuals_fst hs.valid.parents]
    exact (hs.parents.map Prod.fst).mem_iff.mpr hx)
  have h4 := popEvaluate_reaches henv hstop (L := offspringsLens K (Pop K))
    (s := { s with data := { s.data with mutation := m, offsprings := p } }) rfl h2.offsprings
  have hv1 : Pop.Valid lam n { p with values := p.bvs.map val } := h2.offsprings.withValues (by simpa using h2.offsprings.bvs)
  have hind : Pop.individuals { p with values := p.bvs.map val } = generation := by rw [evaluated_individuals, h3, hev]
  have hmem : ∀ c ∈ kept', c ∈ kept ∨ c ∈ generation := by
    intro c hc
    exact List.mem_append.mp (hperm.mem_iff.mp (List.mem_append_left _ hc))
  obtain ⟨l, g1, g2, g3⟩ := hsolution.order (fun c hc => (hmem c hc).elim (fun h => .inr (hs.below c h)) .inl)
  obtain ⟨P, O, R, e1, e2, e3, e4, e5, e6⟩ := plus_select_reaches hs.valid.mu_pos hs.valid.parents hv1 hs.pool (l := l)
    (others := others) (by rw [g1.length_eq, hlen])
    (by rw [hind]; exact (g1.append_right _).trans (hperm.trans (hs.parents.symm.append_right _))) g2
    (fun a ha b hb => hbest a (g1.mem_iff.mp ha) b hb)
  have hr : P.ranked = l := by rw [ranked_identity e2 e3, e4]
  have h5 := popUpdateSolution_reaches (L := parentsLens K (Pop K))
    (t := { s with calls := s.calls ++ evaluated val p.bvs,
                   data := ⟨P, O, m, s.data.params, R⟩ }) (p := P) rfl e2 hs.valid.mu_pos (new := solution')
    (by rw [hr]; simp only [hs.solution]; exact g3)
  refine ⟨{ s with solution := solution', calls := s.calls ++ evaluated val p.bvs, data := ⟨P, O, m, s.data.params, R⟩ }, ?_, ?_⟩
  · unfold muPlusIterate
    refine h1.bind (h4.bind (Alg.Reaches.bind (a := ()) ?_ h5))
    unfold applyPlus
    exact Alg.Reaches.get_bind (Alg.Reaches.sim_bind e1 (Alg.Reaches.modify _ _))
  · refine ⟨⟨hs.valid.mu_pos, hs.valid.lam_pos, e2, e5, h2.mutation, h2.bits⟩, e6, hs.mutates, by rw [e4]; exact g1, ?_, rfl, ?_, hs.last⟩
    · intro c hc
      rcases hsolution with ⟨rfl, h⟩ | ⟨_, _, h, h'⟩
      · exact (hmem c hc).elim (hs.below c) (h c)
      · exact (hmem c hc).elim (fun hk => le_trans (hs.below c hk) (le_of_lt h)) (h' c)
    · simp only [hs.calls, h3, hev]

theorem muPlus_reaches {env : Env K} {n mu lam : Nat} {val : BV → K} (henv : env.Computes n val)
    (hstop : ∀ calls x, env.stop calls x = none) (q : MutationParams) {s : AlgState K (EaData K (Pop K))}
    (hv : s.data.Valid n mu lam) (hpool : s.data.extra.Valid (mu + lam) n) (hcalls : s.calls = [])
    {calls kept : List (BV × K)} {solution : BV × K} (h : PlusGenerations q mu lam calls kept solution)
    (htrue : TrueCalls n val calls) {k : Nat} (hk : 0 < k) (hlen : calls.length = mu + k * lam) (fuel : Nat) :
    ∃ u, Alg.Reaches (muPlusMaximize env q k fuel) s () u ∧ PlusAt q n mu lam calls kept solution u := by
  obtain ⟨initial, later, kept₀, solution₀, rfl, hinit, ⟨rfl, hbest⟩, hgen⟩ := h
  have htrue₀ : TrueCalls n val kept₀ := fun c hc => htrue c (List.mem_append_left _ hc)
  have htrue₁ : TrueCalls n val later := fun c hc => htrue c (List.mem_append_right _ hc)
  obtain ⟨prm, h1, h2, h3⟩ := setMutation_reaches q hv
  obtain ⟨p, h4, h5, h6⟩ := firstParents_reaches henv hstop (s := { s with data := { s.data with params := prm } }) h2 hcalls
    hinit htrue₀ hbest
  have hI : Alg.Reaches (muPlusInit env q) s ()
      { s with solution := solution₀, calls := kept₀, data := { s.data with params := prm, parents := p } } := h1.bind h4
  have key : ∀ {later kept solution}, Generations lam (fun kept _ => MutantOfParent q.Count (kept.map Prod.fst)) (SurvivePlus mu)
      kept₀ solution₀ later kept solution → TrueCalls n val later → ∃ j u, later.length = j * lam ∧
      Iterations (muPlusIterate env) { s with solution := solution₀, calls := kept₀, data := { s.data with params := prm, parents := p }, lastIteration := false } j u ∧
      PlusAt q n mu lam (kept₀ ++ later) kept solution u := by
    intro later kept solution hgen
    induction hgen with
    | start =>
      intro _
      exact ⟨0, _, by simp, .zero, ⟨⟨h2.mu_pos, h2.lam_pos, h5, h2.offsprings, h2.mutation, h2.bits⟩, hpool, h3,
        by rw [h6], hbest.2, rfl, by simp, rfl⟩⟩
    | next _ hsize hbreed hsurvive hsolution ih =>
      intro htrue
      obtain ⟨j, u, d1, d2, d3⟩ := ih (fun c hc => htrue c (List.mem_append_left _ hc))
      obtain ⟨w, d4, d5⟩ := muPlusIterate_reaches henv hstop d3 hsize (fun c hc => htrue c (List.mem_append_right _ hc)) hbreed
        hsurvive hsolution
      exact ⟨j + 1, w, by rw [List.length_append, d1, hsize, Nat.succ_mul], .step d2 d3.last d4, by rw [← List.append_assoc]; exact d5⟩
  obtain ⟨j, u, d1, d2, d3⟩ := key hgen htrue₁
  have hj : j = k := by
    rw [List.length_append, hinit, d1] at hlen
    exact Nat.eq_of_mul_eq_mul_right hv.lam_pos (by omega)
  subst hj
  exact ⟨u, algLoop_reaches hk hI d2 fuel, d3⟩

/-- The (mu, lambda) EA can be in this state after these evaluations. -/
structure CommaAt (q : MutationParams) (n mu lam : Nat) (calls : List (BV × K)) (kept : List BV) (solution : BV × K)
    (t : AlgState K (EaData K Unit)) : Prop where
  valid : t.data.Valid n mu lam
  mutates : ∀ d, q.Count d → (Sampler.standardBitMutation t.data.params).Count d
  parents : t.data.parents.bvs.Perm kept
  solution : t.solution = solution
  calls : t.calls = calls
  last : t.lastIteration = false

theorem muCommaIterate_reaches {env : Env K} {n mu lam : Nat} {val : BV → K} (henv : env.Computes n val)
    (hstop : ∀ calls x, env.stop calls x = none) (hle : mu ≤ lam) {q : MutationParams} {calls : List (BV × K)} {kept : List BV}
    {solution : BV × K} {s : AlgState K (EaData K Unit)} (hs : CommaAt q n mu lam calls kept solution s)
    {generation chosen : List (BV × K)} {kept' : List BV} {solution' : BV × K} (hsize : generation.length = lam)
    (htrue : TrueCalls n val generation) (hbreed : ∀ c ∈ generation, MutantOfParent q.Count kept c.1)
    (hsurvive : SurviveComma mu kept generation chosen kept') (hsolution : Improves solution generation chosen solution') :
    ∃ u, Alg.Reaches (muCommaIterate env) s () u ∧ CommaAt q n mu lam (calls ++ generation) kept' solution' u := by
  obtain ⟨rfl, hlen, others, hperm, hbest⟩ := hsurvive
  have hev := evaluated_true_calls htrue
  obtain ⟨m, p, h1, h2, h3⟩ := makeOffsprings_reaches hs.valid (ys := generation.map Prod.fst) (by simpa using hsize) (by
    intro y hy
    obtain ⟨c, hc, rfl⟩ := List.mem_map.mp hy
    obtain ⟨x, hx, hxy⟩ := hbreed c hc
    exact ⟨x, hs.parents.mem_iff.mpr hx, hxy.1, hs.mutates _ hxy.2⟩)
  have h4 := popEvaluate_reaches henv hstop (L := offspringsLens K Unit)
    (s := { s with data := { s.data with mutation := m, offsprings := p } }) rfl h2.offsprings
  have hv1 : Pop.Valid lam n { p with values := p.bvs.map val } := h2.offsprings.withValues (by simpa using h2.offsprings.bvs)
  have hind : Pop.individuals { p with values := p.bvs.map val } = generation := by rw [evaluated_individuals, h3, hev]
  obtain ⟨l, g1, g2, g3⟩ := hsolution.order (fun c hc => .inl (hperm.mem_iff.mp (List.mem_append_left _ hc)))
  obtain ⟨P, O, e1, e2, e3, e4, e5⟩ := comma_select_reaches hs.valid.mu_pos hle hs.valid.parents hv1 (l := l)
    (others := others) (by rw [g1.length_eq, hlen]) (by rw [hind]; exact (g1.append_right _).trans hperm) g2
    (fun a ha b hb => hbest a (g1.mem_iff.mp ha) b hb)
  have hr : P.ranked = l := by rw [ranked_identity e2 e3, e4]
  have h5 := popUpdateSolution_reaches (L := parentsLens K Unit)
    (t := { s with calls := s.calls ++ evaluated val p.bvs,
                   data := ⟨P, O, m, s.data.params, s.data.extra⟩ }) (p := P) rfl e2 hs.valid.mu_pos (new := solution')
    (by rw [hr]; simp only [hs.solution]; exact g3)
  refine ⟨{ s with solution := solution', calls := s.calls ++ evaluated val p.bvs, data := ⟨P, O, m, s.data.params, s.data.extra⟩ }, ?_, ?_⟩
  · unfold muCommaIterate
    refine h1.bind (h4.bind (Alg.Reaches.bind (a := ()) ?_ h5))
    unfold applyComma
    exact Alg.Reaches.get_bind (Alg.Reaches.sim_bind e1 (Alg.Reaches.modify _ _))
  · refine ⟨⟨hs.valid.mu_pos, hs.valid.lam_pos, e2, e5, h2.mutation, h2.bits⟩, hs.mutates, ?_, rfl, ?_, hs.last⟩
    · rw [← individuals_fst e2, e4]
      exact g1.map _
    · simp only [hs.calls, h3, hev]

theorem muComma_reaches {env : Env K} {n mu lam : Nat} {val : BV → K} (henv : env.Computes n val)
    (hstop : ∀ calls x, env.stop calls x = none) (q : MutationParams) {s : AlgState K (EaData K Unit)}
    (hs : s.solution.1.length = n) (hv : s.data.Valid n mu lam) (hle : mu ≤ lam) (hcalls : s.calls = [])
    {calls : List (BV × K)} {kept : List BV} {solution : BV × K} (h : CommaGenerations q n mu lam calls kept solution)
    (htrue : TrueCalls n val calls) {k : Nat} (hk : 0 < k) (hlen : calls.length = 1 + k * lam) (fuel : Nat) :
    ∃ u, Alg.Reaches (muCommaMaximize env q k fuel) s () u ∧ CommaAt q n mu lam calls kept solution u := by
  obtain ⟨initial, later, kept₀, solution₀, rfl, hinit, ⟨hk1, hk2, rfl⟩, hgen⟩ := h
  have htrue₁ : TrueCalls n val later := fun c hc => htrue c (List.mem_append_right _ hc)
  obtain ⟨hx, hxv⟩ := htrue solution₀ (by simp)
  obtain ⟨prm, h1, h2, h3⟩ := setMutation_reaches q hv
  have h4 := popRandom_reaches (L := parentsLens K Unit) (s := { s with data := { s.data with params := prm } }) rfl h2.parents hk1 hk2
  have h5 := Alg.Reaches.randomSolution henv hstop hx
    (s := { s with data := { s.data with params := prm, parents := { s.data.parents with bvs := kept₀ } } }) hs
  have hp : Pop.Valid mu n { s.data.parents with bvs := kept₀ } := ⟨hk1, hv.parents.values, hv.parents.perm, hk2⟩
  have hI : Alg.Reaches (muCommaInit env q) s ()
      { s with solution := (solution₀.1, val solution₀.1), calls := s.calls ++ [(solution₀.1, val solution₀.1)],
               data := { s.data with params := prm, parents := { s.data.parents with bvs := kept₀ } } } := h1.bind (h4.bind h5)
  have hsol : (solution₀.1, val solution₀.1) = solution₀ := by rw [← hxv]
  rw [hsol, hcalls, List.nil_append] at hI
  have key : ∀ {later kept solution}, Generations lam (fun kept _ => MutantOfParent q.Count kept) (SurviveComma mu)
      kept₀ solution₀ later kept solution → TrueCalls n val later → ∃ j u, later.length = j * lam ∧
      Iterations (muCommaIterate env) { s with solution := solution₀, calls := [solution₀], data := { s.data with params := prm, parents := { s.data.parents with bvs := kept₀ } }, lastIteration := false } j u ∧
      CommaAt q n mu lam ([solution₀] ++ later) kept solution u := by
    intro later kept solution hgen
    induction hgen with
    | start =>
      intro _
      exact ⟨0, _, by simp, .zero, ⟨⟨h2.mu_pos, h2.lam_pos, hp, h2.offsprings, h2.mutation, h2.bits⟩, h3,
        List.Perm.refl _, rfl, by simp, rfl⟩⟩
    | next _ hsize hbreed hsurvive hsolution ih =>
      intro htrue
      obtain ⟨j, u, d1, d2, d3⟩ := ih (fun c hc => htrue c (List.mem_append_left _ hc))
      obtain ⟨w, d4, d5⟩ := muCommaIterate_reaches henv hstop hle d3 hsize (fun c hc => htrue c (List.mem_append_right _ hc)) hbreed
        hsurvive hsolution
      exact ⟨j + 1, w, by rw [List.length_append, d1, hsize, Nat.succ_mul], .step d2 d3.last d4, by rw [← List.append_assoc]; exact d5⟩
  obtain ⟨j, u, d1, d2, d3⟩ := key hgen htrue₁
  have hj : j = k := by
    rw [List.length_append, hinit, d1] at hlen
    exact Nat.eq_of_mul_eq_mul_right hv.lam_pos (by omega)
  subst hj
  exact ⟨u, algLoop_reaches hk hI d2 fuel, d3⟩

/-- The two-rate (1 + lambda) EA can be in this state after these evaluations. -/
structure TwoRateAt (q : TwoRateParams) (n lam : Nat) (calls : List (BV × K)) (solution : BV × K)
    (t : AlgState K (TwoRateData K)) : Prop where
  valid : t.data.Valid n lam
  bits : solution.1.length = n
  solution : t.solution = solution
  calls : t.calls = calls
  last : t.lastIteration = false

omit [LinearOrder K] in
theorem mapOffspring_reaches {params : StandardParams} {x : BV} {lam n : Nat} (hx : x.length = n) {i : Nat} (hi : i < lam)
    {s : Nbh × Pop K} (h1 : s.1.n = n) (h2 : ∃ r, s.1.Valid (.standardBitMutation r)) (h3 : s.2.Valid lam n) {y : BV}
    (hy : MutantOf (fun d => 1 ≤ d) x y) :
    ∃ m, Sim.Reaches (mapOffspring params x i s) (m, { s.2 with bvs := s.2.bvs.set i y }) ∧ m.n = n ∧
      ∃ r, m.Valid (.standardBitMutation r) := by
  obtain ⟨r, hr⟩ := h2
  have hv : s.1.Valid (.standardBitMutation params) := standard_valid hr
  have hil : i < s.2.bvs.length := by rw [h3.bvs]; exact hi
  obtain ⟨m, g1, g2, g3⟩ := map_reaches hv (x := x) (old := s.2.bvs[i]) (by rw [hx, h1])
    (by rw [h3.bits _ (List.getElem_mem hil), h1]) (y := y) ⟨hy.1, .inl hy.2⟩
  refine ⟨m, ?_, g3.trans h1, params, g2⟩
  unfold mapOffspring
  exact Sim.Reaches.bind (Sim.Reaches.lift (vget_eq hil)) (Sim.Reaches.bind g1
    (Sim.Reaches.bind (Sim.Reaches.lift (vset_eq hil)) (Sim.Reaches.pure _)))

theorem twoRateOffsprings_reaches {q : TwoRateParams} {s : AlgState K (TwoRateData K)} {n lam : Nat}
    (hv : s.data.Valid n lam) (hs : s.solution.1.length = n) {ys : List BV} (hlen : ys.length = lam)
    (hys : ∀ y ∈ ys, MutantOf (fun d => 1 ≤ d) s.solution.1 y) :
    ∃ m p r, Alg.Reaches (twoRateOffsprings q) s () { s with data := ⟨p, m, r, s.data.rate⟩ } ∧
      TwoRateData.Valid n lam ⟨p, m, r, s.data.rate⟩ ∧ p.bvs = ys := by
  have hn : ∀ y ∈ ys, y.length = n := fun y hy => by rw [(hys y hy).1, hs]
  have hbody : ∀ params : StandardParams, ∀ i (hi : i < ys.length) (t : Nbh × Pop K),
      (t.1.n = n ∧ ∃ r, t.1.Valid (.standardBitMutation r)) → t.2.Valid lam n →
      ∃ m, Sim.Reaches (mapOffspring params s.solution.1 i t) (m, { t.2 with bvs := t.2.bvs.set i ys[i] }) ∧
        m.n = n ∧ ∃ r, m.Valid (.standardBitMutation r) :=
    fun params i hi t h1 h2 => mapOffspring_reaches hs (by omega) h1.1 h1.2 h2 (hys _ (List.getElem_mem hi))
  obtain ⟨m, p, h1, h2, h3, h4⟩ := breed_loop (V := fun m => m.n = n ∧ ∃ r, m.Valid (.standardBitMutation r))
    (body := mapOffspring (s.data.params.setMutationRate (q.belowSqrt (s.data.rate / 2))) s.solution.1) hlen hn
    (Nat.zero_le (lam / 2)) (Nat.div_le_self _ _) (fun i hi t _ _ hV ht => hbody _ i hi t hV ht)
    ⟨hv.bits, _, hv.mutation⟩ hv.population (old := s.data.population.bvs) hv.population.bvs (overwritten_zero _ _).symm
  obtain ⟨m', p', g1, g2, g3, g4⟩ := breed_loop (V := fun m => m.n = n ∧ ∃ r, m.Valid (.standardBitMutation r))
    (body := mapOffspring ((s.data.params.setMutationRate (q.belowSqrt (s.data.rate / 2))).setMutationRate
      (q.belowSqrt (s.data.rate * 2))) s.solution.1) hlen hn
    (Nat.div_le_self lam 2) (le_refl _) (fun i hi t _ _ hV ht => hbody _ i hi t hV ht)
    h2 h3 (old := s.data.population.bvs) hv.population.bvs h4
  obtain ⟨g2, r, hr⟩ := g2
  have h5 : p'.bvs = ys := by rw [g4, ← hlen]; exact overwritten_all (by rw [hv.population.bvs, hlen])
  refine ⟨m', p', (s.data.params.setMutationRate (q.belowSqrt (s.data.rate / 2))).setMutationRate
    (q.belowSqrt (s.data.rate * 2)), ?_, ⟨hv.lam_pos, g3, standard_valid hr, g2⟩, h5⟩
  unfold twoRateOffsprings Pop.size
  refine Alg.Reaches.get_bind ?_
  dsimp only
  rw [hv.population.bvs]
  exact Alg.Reaches.sim_bind h1 (Alg.Reaches.sim_bind g1 (Alg.Reaches.modify _ _))

theorem twoRateIterate_reaches {env : Env K} {n lam : Nat} {val : BV → K} (henv : env.Computes n val)
    (hstop : ∀ calls x, env.stop calls x = none) {q : TwoRateParams} {calls : List (BV × K)}
    {solution : BV × K} {s : AlgState K (TwoRateData K)} (hs : TwoRateAt q n lam calls solution s)
    {generation : List (BV × K)} {solution' : BV × K} (hsize : generation.length = lam)
    (htrue : TrueCalls n val generation) (hbreed : ∀ c ∈ generation, MutantOf (fun d => 1 ≤ d) solution.1 c.1)
    (hsolution : Improves solution generation generation solution') :
    ∃ u, Alg.Reaches (twoRateIterate env q) s () u ∧ TwoRateAt q n lam (calls ++ generation) solution' u := by
  have hev := evaluated_true_calls htrue
  obtain ⟨m, p, r, h1, h2, h3⟩ := twoRateOffsprings_reaches (q := q) hs.valid (by rw [hs.solution]; exact hs.bits)
    (ys := generation.map Prod.fst) (by simpa using hsize) (by
      intro y hy
      obtain ⟨c, hc, rfl⟩ := List.mem_map.mp hy
      rw [hs.solution]
      exact hbreed c hc)
  have h4 := popEvaluate_reaches henv hstop (L := twoRateLens K) (s := { s with data := ⟨p, m, r, s.data.rate⟩ }) rfl h2.population
  have hv1 : Pop.Valid lam n { p with values := p.bvs.map val } := h2.population.withValues (by simpa using h2.population.bvs)
  have hind : Pop.individuals { p with values := p.bvs.map val } = generation := by rw [evaluated_individuals, h3, hev]
  obtain ⟨l, g1, g2, g3⟩ := hsolution.order (fun c hc => .inl hc)
  obtain ⟨w, e1, e2, _, _, e5⟩ := pop_sort_reaches hv1 (l := l) (by rw [hind]; exact g1) g2
  have h5 := popUpdateSolution_reaches (L := twoRateLens K)
    (t := { s with calls := s.calls ++ evaluated val p.bvs, data := ⟨w, m, r, s.data.rate⟩ }) (p := w) rfl e2 hs.valid.lam_pos
    (new := solution') (by rw [e5]; simp only [hs.solution]; exact g3)
  obtain ⟨k, _, _, hk, d1, _⟩ := e2.ranked_read hs.valid.lam_pos
  have hbi : w.bestIndex 0 = ok k := by
    unfold Pop.bestIndex
    have : 0 < w.perm.length := by rw [e2.perm_length]; exact hs.valid.lam_pos
    rw [assert_pos (decide_eq_true this), ok_bind, vget_eq this]
    rw [List.getElem?_eq_getElem this] at d1
    exact congrArg ok (Option.some.inj d1)
  refine ⟨{ s with solution := solution', calls := s.calls ++ evaluated val p.bvs, data := ⟨w, m, r, max (s.data.rate / 2) q.rateMin⟩ }, ?_, ?_⟩
  · unfold twoRateIterate
    refine h1.bind (h4.bind (Alg.Reaches.bind (a := ()) ?_ (h5.bind ?_)))
    · unfold popSort
      exact Alg.Reaches.get_bind (Alg.Reaches.sim_bind e1 (Alg.Reaches.modify _ _))
    · unfold twoRateSetRate
      refine Alg.Reaches.get_bind (Alg.Reaches.sim_bind (Sim.Reaches.uniform (a := 0) (b := 1) (by omega)) ?_)
      refine Alg.Reaches.lift_bind hbi (Alg.Reaches.lift_bind (a := max (s.data.rate / 2) q.rateMin) ?_ (Alg.Reaches.modify _ _))
      unfold twoRateUpdate
      exact if_pos (by norm_num)
  · refine ⟨⟨hs.valid.lam_pos, e2, h2.mutation, h2.bits⟩, ?_, rfl, by simp only [hs.calls, h3, hev], hs.last⟩
    rcases hsolution with ⟨rfl, _⟩ | ⟨h, _⟩
    · exact hs.bits
    · exact (htrue _ h).1

theorem twoRate_reaches {env : Env K} {n lam : Nat} {val : BV → K} (henv : env.Computes n val)
    (hstop : ∀ calls x, env.stop calls x = none) (q : TwoRateParams) {s : AlgState K (TwoRateData K)}
    (hs : s.solution.1.length = n) (hv : s.data.Valid n lam) (hcalls : s.calls = [])
    {calls : List (BV × K)} {solution : BV × K}
    (h : HasGenerations 1 (fun initial (_ : Unit) sol => initial = [sol]) lam (fun _ sol => MutantOf (fun d => 1 ≤ d) sol.1)
      SurviveNone calls () solution)
    (htrue : TrueCalls n val calls) {k : Nat} (hk : 0 < k) (hlen : calls.length = 1 + k * lam) (fuel : Nat) :
    ∃ u, Alg.Reaches (twoRateMaximize env q k fuel) s () u ∧ TwoRateAt q n lam calls solution u := by
  obtain ⟨initial, later, _, solution₀, rfl, hinit, rfl, hgen⟩ := h
  have htrue₁ : TrueCalls n val later := fun c hc => htrue c (List.mem_append_right _ hc)
  obtain ⟨hx, hxv⟩ := htrue solution₀ (by simp)
  have h5 := Alg.Reaches.randomSolution henv hstop hx (s := s) hs
  have hI : Alg.Reaches (twoRateInit env q) s ()
      { s with solution := (solution₀.1, val solution₀.1), calls := s.calls ++ [(solution₀.1, val solution₀.1)],
               data := { s.data with rate := q.rateInit, params := s.data.params.setAllowNoMutation q.allowNoMutation } } :=
    h5.bind (Alg.Reaches.modify _ _)
  have hsol : (solution₀.1, val solution₀.1) = solution₀ := by rw [← hxv]
  rw [hsol, hcalls, List.nil_append] at hI
  have key : ∀ {later solution} {kept : Unit}, Generations lam (fun (_ : Unit) sol => MutantOf (fun d => 1 ≤ d) sol.1) SurviveNone
      () solution₀ later kept solution → TrueCalls n val later → ∃ j u, later.length = j * lam ∧
      Iterations (twoRateIterate env q) { s with solution := solution₀, calls := [solution₀], data := { s.data with rate := q.rateInit, params := s.data.params.setAllowNoMutation q.allowNoMutation }, lastIteration := false } j u ∧
      TwoRateAt q n lam ([solution₀] ++ later) solution u := by
    intro later solution kept hgen
    induction hgen with
    | start =>
      intro _
      exact ⟨0, _, by simp, .zero, ⟨⟨hv.lam_pos, hv.population, standard_valid hv.mutation, hv.bits⟩, hx, rfl, by simp, rfl⟩⟩
    | next _ hsize hbreed hsurvive hsolution ih =>
      intro htrue
      obtain ⟨j, u, d1, d2, d3⟩ := ih (fun c hc => htrue c (List.mem_append_left _ hc))
      cases hsurvive
      obtain ⟨w, d4, d5⟩ := twoRateIterate_reaches henv hstop d3 hsize (fun c hc => htrue c (List.mem_append_right _ hc)) hbreed hsolution
      exact ⟨j + 1, w, by rw [List.length_append, d1, hsize, Nat.succ_mul], .step d2 d3.last d4, by rw [← List.append_assoc]; exact d5⟩
  obtain ⟨j, u, d1, d2, d3⟩ := key hgen htrue₁
  have hj : j = k := by
    rw [List.length_append, hinit, d1] at hlen
    exact Nat.eq_of_mul_eq_mul_right hv.lam_pos (by omega)
  subst hj
  exact ⟨u, algLoop_reaches hk hI d2 fuel, d3⟩

end

end Hnco
