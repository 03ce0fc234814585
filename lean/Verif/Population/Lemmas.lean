import Verif.Population.Model
import Mathlib.Data.List.Range
import Mathlib.Order.Basic
import Mathlib.Data.List.Basic
import Mathlib.Data.List.Perm.Basic

/-! # Specification and lemmas on populations -/

namespace Hnco

open Outcome

variable {K : Type}

/-! ## Specification -/

/-- The individuals of a population with their values. -/
def Pop.individuals (p : Pop K) : List (BV × K) := p.bvs.zip p.values

/-- A population of `size` vectors of `n` bits. -/
structure Pop.Valid (size n : Nat) (p : Pop K) : Prop where
  bvs : p.bvs.length = size
  values : p.values.length = size
  perm : p.perm.Perm (List.range size)
  bits : ∀ x ∈ p.bvs, x.length = n

/-- The individual of rank `i` has value `v`. -/
def Pop.RankValue (p : Pop K) (i : Nat) (v : K) : Prop :=
  ∃ k, p.perm[i]? = some k ∧ p.values[k]? = some v

/-- The values are non-increasing with ranks. -/
def Pop.Sorted [LE K] (p : Pop K) : Prop :=
  ∀ i j v w, i ≤ j → p.RankValue i v → p.RankValue j w → w ≤ v

/-! ## Lemmas -/

theorem Sim.Post.lift_bind {α β : Type} {o : Outcome α} {a : α} {f : α → Sim β} {Q : β → Prop} (ho : o = .ok a)
    (h : Sim.Post (f a) Q) : Sim.Post (Sim.lift o >>= f) Q :=
  Sim.Post.bind (P := fun b => b = a) (Sim.Post.lift ⟨a, ho, rfl⟩) (by rintro _ rfl; exact h)

theorem Sim.Post.returns_bind {α β : Type} {o : Outcome α} {P : α → Prop} {f : α → Sim β} {Q : β → Prop}
    (ho : o.Returns P) (h : ∀ a, P a → Sim.Post (f a) Q) : Sim.Post (Sim.lift o >>= f) Q := by
  obtain ⟨a, ho, ha⟩ := ho
  exact Sim.Post.lift_bind ho (h a ha)

theorem readValues_eq {values : List K} : ∀ {is : List Nat}, (∀ i ∈ is, i < values.length) →
    ∃ l, readValues values is = ok l ∧ l.map Prod.fst = is ∧ ∀ a ∈ l, values[a.1]? = some a.2
  | [], _ => ⟨[], rfl, rfl, (by intro a ha; cases ha)⟩
  | i :: is, h => by
    have hi := h i List.mem_cons_self
    obtain ⟨l, h1, h2, h3⟩ := readValues_eq (is := is) (fun j hj => h j (List.mem_cons_of_mem _ hj))
    refine ⟨(i, values[i]) :: l, ?_, ?_, ?_⟩
    · simp only [readValues, vget_eq hi, h1, ok_bind]
    · simp [h2]
    · intro a ha
      rcases List.mem_cons.mp ha with rfl | ha
      · simp [hi]
      · exact h3 a ha

theorem Pop.Valid.perm_lt {size n : Nat} {p : Pop K} (hp : p.Valid size n) {perm : List Nat} (h : perm.Perm p.perm) :
    ∀ i ∈ perm, i < p.values.length := by
  intro i hi
  rw [hp.values]
  simpa using (hp.perm.mem_iff.mp (h.mem_iff.mp hi))

theorem Pop.Valid.perm_length {size n : Nat} {p : Pop K} (hp : p.Valid size n) : p.perm.length = size := by
  simpa using hp.perm.length_eq

theorem better_trans [LinearOrder K] (a b c : Nat × K) (h1 : better b a = false) (h2 : better c b = false) :
    better c a = false := by
  simp only [better, decide_eq_false_iff_not, not_lt] at *
  exact le_trans h2 h1

theorem better_total [LinearOrder K] (a b : Nat × K) : better a b = false ∨ better b a = false := by
  simp only [better, decide_eq_false_iff_not, not_lt]
  exact le_total _ _

/-- Ranks of a population whose permutation comes from a list of indices with their values. -/
theorem rankValue_of {values : List K} {r : List (Nat × K)} (h : ∀ a ∈ r, values[a.1]? = some a.2) {bvs : List BV}
    {i : Nat} {v : K} : (Pop.RankValue ⟨bvs, values, r.map Prod.fst⟩ i v) ↔ ∃ k, r[i]? = some (k, v) := by
  constructor
  · rintro ⟨k, h1, h2⟩
    rw [List.getElem?_map, Option.map_eq_some_iff] at h1
    obtain ⟨⟨k', v'⟩, h3, h4⟩ := h1
    dsimp only at h4
    subst h4
    have := h _ (List.mem_of_getElem? h3)
    dsimp only at this h2
    rw [this] at h2
    cases h2
    exact ⟨k', h3⟩
  · rintro ⟨k, hk⟩
    refine ⟨k, ?_, h _ (List.mem_of_getElem? hk)⟩
    simp [List.getElem?_map, hk]

theorem pairwise_getElem? {α : Type} {R : α → α → Prop} {l : List α} (h : l.Pairwise R) {i j : Nat} {a b : α}
    (hij : i < j) (ha : l[i]? = some a) (hb : l[j]? = some b) : R a b := by
  obtain ⟨hi, rfl⟩ := List.getElem?_eq_some_iff.mp ha
  obtain ⟨hj, rfl⟩ := List.getElem?_eq_some_iff.mp hb
  exact List.pairwise_iff_getElem.mp h i j hi hj hij

/-- The first elements satisfying a predicate which is inherited by earlier elements. -/
theorem takeWhile_iff {α : Type} {R : α → α → Prop} {p : α → Bool} (hR : ∀ a b, R a b → p b = true → p a = true) :
    ∀ {l : List α}, l.Pairwise R → ∀ (i : Nat) e, l[i]? = some e → (i < (l.takeWhile p).length ↔ p e = true)
  | [], _, i, e, he => by simp at he
  | a :: l, h, i, e, he => by
    have hl := List.pairwise_cons.mp h
    rw [List.takeWhile_cons]
    cases ha : p a with
    | true =>
      rw [if_pos rfl]
      cases i with
      | zero =>
        simp only [List.getElem?_cons_zero, Option.some.injEq] at he
        subst he
        simp [ha]
      | succ i =>
        rw [List.getElem?_cons_succ] at he
        rw [List.length_cons, Nat.succ_lt_succ_iff]
        exact takeWhile_iff hR hl.2 i e he
    | false =>
      rw [if_neg (by simp)]
      have hne : p e = false := by
        cases i with
        | zero =>
          simp only [List.getElem?_cons_zero, Option.some.injEq] at he
          subst he
          exact ha
        | succ i =>
          rw [List.getElem?_cons_succ] at he
          cases hpe : p e with
          | false => rfl
          | true =>
            have := hR a e (hl.1 e (List.mem_of_getElem? he)) hpe
            rw [ha] at this
            cases this
      simp [hne]

/-- The individuals of a population in the order of ranks. -/
def Pop.ranked (p : Pop K) : List (BV × K) := p.perm.filterMap (fun k => p.individuals[k]?)

theorem filterMap_range {α : Type} (l : List α) : (List.range l.length).filterMap (fun k => l[k]?) = l := by
  induction l using List.reverseRecOn with
  | nil => rfl
  | append_singleton l a ih =>
    rw [List.length_append, List.length_singleton, List.range_succ, List.filterMap_append]
    congr 1
    · refine (List.filterMap_congr ?_).trans ih
      intro k hk
      rw [List.getElem?_append_left (by simpa using hk)]
    · simp

theorem Pop.Valid.individuals_length {size n : Nat} {p : Pop K} (hp : p.Valid size n) : p.individuals.length = size := by
  simp [Pop.individuals, hp.bvs, hp.values]

theorem Pop.Valid.ranked_perm {size n : Nat} {p : Pop K} (hp : p.Valid size n) : p.ranked.Perm p.individuals := by
  unfold Pop.ranked
  refine (hp.perm.filterMap _).trans ?_
  rw [← hp.individuals_length, filterMap_range]

theorem getElem?_filterMap_total {α β : Type} {f : α → Option β} : ∀ {l : List α}, (∀ a ∈ l, (f a).isSome) →
    ∀ (i : Nat), (l.filterMap f)[i]? = l[i]?.bind f
  | [], _, i => by simp
  | a :: l, h, i => by
    obtain ⟨b, hb⟩ := Option.isSome_iff_exists.mp (h a List.mem_cons_self)
    rw [List.filterMap_cons, hb]
    cases i with
    | zero => simp [hb]
    | succ i =>
      simpa using getElem?_filterMap_total (fun a ha => h a (List.mem_cons_of_mem _ ha)) i

theorem Pop.Valid.ranked_getElem? {size n : Nat} {p : Pop K} (hp : p.Valid size n) (i : Nat) :
    p.ranked[i]? = p.perm[i]?.bind (fun k => p.individuals[k]?) := by
  unfold Pop.ranked
  refine getElem?_filterMap_total ?_ i
  intro k hk
  have : k < p.individuals.length := by rw [hp.individuals_length]; simpa using hp.perm.mem_iff.mp hk
  simp [this]

theorem Pop.Valid.ranked_length {size n : Nat} {p : Pop K} (hp : p.Valid size n) : p.ranked.length = size := by
  rw [hp.ranked_perm.length_eq, hp.individuals_length]

theorem individuals_getElem? {p : Pop K} {k : Nat} {x : BV} {v : K} :
    p.individuals[k]? = some (x, v) ↔ p.bvs[k]? = some x ∧ p.values[k]? = some v := by
  unfold Pop.individuals
  rw [List.getElem?_zip_eq_some]

/-- Reading the individual of a rank. -/
theorem Pop.Valid.ranked_read {size n : Nat} {p : Pop K} (hp : p.Valid size n) {i : Nat} (hi : i < size) :
    ∃ k x v, k < size ∧ p.perm[i]? = some k ∧ p.bvs[k]? = some x ∧ p.values[k]? = some v ∧
      p.ranked[i]? = some (x, v) ∧ p.bestBv i = ok x ∧ p.bestValue i = ok v := by
  have hip : i < p.perm.length := by rw [hp.perm_length]; exact hi
  have hk : p.perm[i] < size := by simpa using hp.perm.mem_iff.mp (List.getElem_mem hip)
  have hb : p.perm[i] < p.bvs.length := by rw [hp.bvs]; exact hk
  have hv : p.perm[i] < p.values.length := by rw [hp.values]; exact hk
  refine ⟨p.perm[i], p.bvs[p.perm[i]], p.values[p.perm[i]], hk, by simp [hip], by simp [hb], by simp [hv], ?_, ?_, ?_⟩
  · rw [hp.ranked_getElem?, List.getElem?_eq_getElem hip, Option.bind_some, individuals_getElem?]
    exact ⟨by simp [hb], by simp [hv]⟩
  · simp [Pop.bestBv, hip, vget_eq hip, vget_eq hb]
  · simp [Pop.bestValue, hip, vget_eq hip, vget_eq hv]

theorem Pop.Valid.rankValue {size n : Nat} {p : Pop K} (hp : p.Valid size n) {i : Nat} {v : K} :
    p.RankValue i v ↔ ∃ x, p.ranked[i]? = some (x, v) := by
  constructor
  · rintro ⟨k, h1, h2⟩
    have hi : i < size := by
      obtain ⟨h, _⟩ := List.getElem?_eq_some_iff.mp h1
      rwa [hp.perm_length] at h
    obtain ⟨k', x, v', _, h3, _, h5, h6, _⟩ := hp.ranked_read hi
    rw [h3] at h1
    cases h1
    rw [h5] at h2
    cases h2
    exact ⟨x, h6⟩
  · rintro ⟨x, h⟩
    have hi : i < size := by
      obtain ⟨h, _⟩ := List.getElem?_eq_some_iff.mp h
      rwa [hp.ranked_length] at h
    obtain ⟨k', x', v', _, h3, _, h5, h6, _⟩ := hp.ranked_read hi
    rw [h6] at h
    cases h
    exact ⟨k', h3, h5⟩

/-! ## Loops of the selections -/

/-- The loop which takes the best individuals of a pool. -/
theorem takeBest_loop {mu size n : Nat} {parents pool : Pop K} (hp : pool.Valid size n) (hmu : mu ≤ size)
    (h1 : parents.bvs.length = mu) (h2 : parents.values.length = mu) (h3 : ∀ x ∈ parents.bvs, x.length = n) :
    (forRange 0 mu takeBest (parents, pool)).Returns (fun r => r.1.individuals = pool.ranked.take mu ∧
      r.1.bvs.length = mu ∧ r.1.values.length = mu ∧ r.1.perm = parents.perm ∧ (∀ x ∈ r.1.bvs, x.length = n) ∧
      r.2.Valid size n) := by
  refine (forRange_returns (I := fun i (s : Pop K × Pop K) => s.1.bvs.length = mu ∧ s.1.values.length = mu ∧
    s.1.perm = parents.perm ∧ (∀ x ∈ s.1.bvs, x.length = n) ∧ s.2.values = pool.values ∧ s.2.perm = pool.perm ∧
    s.2.bvs.length = size ∧ (∀ x ∈ s.2.bvs, x.length = n) ∧
    (∀ (j : Nat) k, i ≤ j → pool.perm[j]? = some k → s.2.bvs[k]? = pool.bvs[k]?) ∧
    (∀ (j : Nat) x v, j < i → pool.ranked[j]? = some (x, v) → s.1.bvs[j]? = some x ∧ s.1.values[j]? = some v))
    (Nat.zero_le _) ⟨h1, h2, rfl, h3, rfl, rfl, hp.bvs, hp.bits, fun _ _ _ _ => rfl, by intros; omega⟩ ?_).mono ?_
  · rintro i ⟨P, Q⟩ _ hi ⟨e1, e2, e3, e4, e5, e6, e7, e8, e9, e10⟩
    dsimp only at e1 e2 e3 e4 e5 e6 e7 e8 e9 e10
    obtain ⟨k, x, v, hk, g1, g2, g3, g4, _, _⟩ := hp.ranked_read (i := i) (by omega)
    have hkp := g1
    have hil : i < Q.perm.length := by rw [e6, hp.perm_length]; omega
    have hgk : vget Q.perm i = ok k := by unfold vget; rw [e6, g1]
    have hgv : vget Q.values k = ok v := by unfold vget; rw [e5, g3]
    have hgx : vget Q.bvs k = ok x := by unfold vget; rw [e9 i k (le_refl _) g1, g2]
    have hbv : Q.bestValue i = ok v := by
      unfold Pop.bestValue
      rw [assert_pos (decide_eq_true hil), ok_bind, hgk, ok_bind, hgv]
    have hbb : Q.bestBv i = ok x := by
      unfold Pop.bestBv
      rw [assert_pos (decide_eq_true hil), ok_bind, hgk, ok_bind, hgx]
    have hb : i < P.bvs.length := by omega
    unfold takeBest
    dsimp only
    rw [hbv, ok_bind, vset_eq (by omega), ok_bind, vget_eq hb, ok_bind, hbb, ok_bind, vset_eq hb, ok_bind]
    unfold Pop.setBestBv
    rw [assert_pos (decide_eq_true hil), ok_bind, hgk, ok_bind, vset_eq (by omega)]
    simp only [ok_bind, returns_ok]
    have hxn : x.length = n := hp.bits x (List.mem_of_getElem? g2)
    refine ⟨by simp [e1], by simp [e2], e3, ?_, e5, e6, by simp [e7], ?_, ?_, ?_⟩
    · intro y hy
      rcases List.mem_or_eq_of_mem_set hy with hy | rfl
      · exact e4 y hy
      · exact hxn
    · intro y hy
      rcases List.mem_or_eq_of_mem_set hy with hy | rfl
      · exact e8 y hy
      · exact e4 _ (List.getElem_mem hb)
    · intro j k' hj hk'
      have hne : k ≠ k' := by
        rintro rfl
        have hnd : pool.perm.Nodup := hp.perm.nodup_iff.mpr List.nodup_range
        obtain ⟨hj', hj''⟩ := List.getElem?_eq_some_iff.mp hk'
        obtain ⟨hi', hi''⟩ := List.getElem?_eq_some_iff.mp g1
        have := (List.Nodup.getElem_inj_iff hnd).mp (hi''.trans hj''.symm)
        omega
      rw [List.getElem?_set_ne hne]
      exact e9 j k' (by omega) hk'
    · intro j y w hj hy
      rcases Nat.lt_or_eq_of_le (Nat.le_of_lt_succ hj) with hlt | rfl
      · rw [List.getElem?_set_ne (by omega), List.getElem?_set_ne (by omega)]
        exact e10 j y w hlt hy
      · rw [g4] at hy
        cases hy
        simp [hb, e2, hi]
  · rintro ⟨P, Q⟩ ⟨e1, e2, e3, e4, e5, e6, e7, e8, _, e10⟩
    dsimp only at e1 e2 e3 e4 e5 e6 e7 e8 e10 ⊢
    refine ⟨?_, e1, e2, e3, e4, ⟨e7, by rw [e5, hp.values], by rw [e6]; exact hp.perm, e8⟩⟩
    apply List.ext_getElem?
    intro j
    rw [List.getElem?_take]
    by_cases hj : j < mu
    · rw [if_pos hj]
      have hjl : j < pool.ranked.length := by rw [hp.ranked_length]; omega
      rw [List.getElem?_eq_getElem hjl]
      exact individuals_getElem?.mpr (e10 j _ _ hj (by simp [hjl]))
    · rw [if_neg hj, List.getElem?_eq_none]
      simp only [Pop.individuals, List.length_zip, e1, e2]
      omega

/-- The loops which fill a pool. -/
theorem fillPool_loop {m n offset : Nat} {source pool : Pop K} (h1 : source.bvs.length = m)
    (h2 : source.values.length = m) (h3 : ∀ x ∈ source.bvs, x.length = n) (h4 : offset + m ≤ pool.bvs.length)
    (h5 : pool.values.length = pool.bvs.length) (h6 : ∀ x ∈ pool.bvs, x.length = n) :
    (forRange 0 m (fillPool offset) (source, pool)).Returns (fun r => r.1.bvs.length = m ∧
      r.1.values = source.values ∧ r.1.perm = source.perm ∧ (∀ x ∈ r.1.bvs, x.length = n) ∧
      r.2.bvs.length = pool.bvs.length ∧ r.2.values.length = pool.values.length ∧ r.2.perm = pool.perm ∧
      (∀ x ∈ r.2.bvs, x.length = n) ∧
      (∀ (j : Nat), r.2.bvs[j]? = if offset ≤ j ∧ j < offset + m then source.bvs[j - offset]? else pool.bvs[j]?) ∧
      ∀ (j : Nat), r.2.values[j]? =
        if offset ≤ j ∧ j < offset + m then source.values[j - offset]? else pool.values[j]?) := by
  refine (forRange_returns (I := fun i (r : Pop K × Pop K) => r.1.bvs.length = m ∧
      r.1.values = source.values ∧ r.1.perm = source.perm ∧ (∀ x ∈ r.1.bvs, x.length = n) ∧
      r.2.bvs.length = pool.bvs.length ∧ r.2.values.length = pool.values.length ∧ r.2.perm = pool.perm ∧
      (∀ x ∈ r.2.bvs, x.length = n) ∧ (∀ (j : Nat), i ≤ j → r.1.bvs[j]? = source.bvs[j]?) ∧
      (∀ (j : Nat), r.2.bvs[j]? = if offset ≤ j ∧ j < offset + i then source.bvs[j - offset]? else pool.bvs[j]?) ∧
      ∀ (j : Nat), r.2.values[j]? =
        if offset ≤ j ∧ j < offset + i then source.values[j - offset]? else pool.values[j]?)
    (Nat.zero_le _) ⟨h1, rfl, rfl, h3, rfl, rfl, rfl, h6, fun _ _ => rfl,
      (by intro j; rw [if_neg (by omega)]), (by intro j; rw [if_neg (by omega)])⟩ ?_).mono ?_
  · rintro i ⟨P, Q⟩ _ hi ⟨e1, e2, e3, e4, e5, e6, e7, e8, e9, e10, e11⟩
    dsimp only at e1 e2 e3 e4 e5 e6 e7 e8 e9 e10 e11
    have hpv : i < P.values.length := by rw [e2]; omega
    have hpb : i < P.bvs.length := by omega
    have hqv : offset + i < Q.values.length := by omega
    have hqb : offset + i < Q.bvs.length := by omega
    unfold fillPool
    simp only [vget_eq hpv, vset_eq hqv, vget_eq hqb, vget_eq hpb, vset_eq hqb, vset_eq hpb, ok_bind, returns_ok]
    refine ⟨by simp [e1], e2, e3, ?_, by simp [e5], by simp [e6], e7, ?_, ?_, ?_, ?_⟩
    · intro y hy
      rcases List.mem_or_eq_of_mem_set hy with hy | rfl
      · exact e4 y hy
      · exact e8 _ (List.getElem_mem hqb)
    · intro y hy
      rcases List.mem_or_eq_of_mem_set hy with hy | rfl
      · exact e8 y hy
      · exact e4 _ (List.getElem_mem hpb)
    · intro j hj
      rw [List.getElem?_set_ne (by omega)]
      exact e9 j (by omega)
    · intro j
      by_cases hj : j = offset + i
      · subst hj
        rw [List.getElem?_set_self hqb, if_pos (by omega), Nat.add_sub_cancel_left, ← e9 i (le_refl _)]
        simp [hpb]
      · rw [List.getElem?_set_ne (by omega), e10 j]
        by_cases hc : offset ≤ j ∧ j < offset + i
        · rw [if_pos hc, if_pos (by omega)]
        · rw [if_neg hc, if_neg (by omega)]
    · intro j
      by_cases hj : j = offset + i
      · subst hj
        rw [List.getElem?_set_self hqv, if_pos (by omega), Nat.add_sub_cancel_left]
        simp only [e2] at hpv ⊢
        simp [hpv]
      · rw [List.getElem?_set_ne (by omega), e11 j]
        by_cases hc : offset ≤ j ∧ j < offset + i
        · rw [if_pos hc, if_pos (by omega)]
        · rw [if_neg hc, if_neg (by omega)]
  · rintro ⟨P, Q⟩ ⟨e1, e2, e3, e4, e5, e6, e7, e8, _, e10, e11⟩
    exact ⟨e1, e2, e3, e4, e5, e6, e7, e8, e10, e11⟩

end Hnco
