import Verif.Multiobjective.Model
import Verif.Population.Lemmas
import Mathlib.Tactic.Linarith

/-! # C55: dominance and Pareto fronts -/

namespace Hnco

open Outcome

/-! ## Specification -/

/-- `a` dominates `b` (minimization): it is nowhere greater and somewhere less. -/
def Dominates (a b : MoValue) : Prop :=
  (∀ (i : Nat) x y, a[i]? = some x → b[i]? = some y → x ≤ y) ∧
    ∃ (i : Nat), ∃ x y, a[i]? = some x ∧ b[i]? = some y ∧ x < y

/-- Individual `i` dominates individual `j`. -/
def Beats (values : List MoValue) (i j : Nat) : Prop :=
  ∃ a b, values[i]? = some a ∧ values[j]? = some b ∧ Dominates a b

/-- The numbering of the Pareto fronts: front 0 consists of the individuals which are not dominated, each individual of front
`k + 1` is dominated by an individual of front `k`, and an individual is in a smaller front than those it dominates. -/
structure IsFronts (values : List MoValue) (fronts : List Nat) : Prop where
  length : fronts.length = values.length
  zero : ∀ i, i < values.length → (fronts[i]? = some 0 ↔ ∀ j, ¬ Beats values j i)
  succ : ∀ (i : Nat) k, fronts[i]? = some (k + 1) → ∃ j : Nat, fronts[j]? = some k ∧ Beats values j i
  lt : ∀ (i j : Nat) k l, fronts[i]? = some k → fronts[j]? = some l → Beats values i j → k < l

/-- All the values have `m` components. -/
def SameSize (m : Nat) (values : List MoValue) : Prop := ∀ v ∈ values, v.length = m

/-! ## Dominance -/

theorem dominatesLoop_iff : ∀ (a b : MoValue) (r : Bool), a.length = b.length →
    (dominatesLoop (a.zip b) r = true ↔ (∀ (i : Nat) x y, a[i]? = some x → b[i]? = some y → x ≤ y) ∧
      (r = true ∨ ∃ (i : Nat), ∃ x y, a[i]? = some x ∧ b[i]? = some y ∧ x < y))
  | [], [], r, _ => by simp [dominatesLoop]
  | [], _ :: _, r, h => by simp at h
  | _ :: _, [], r, h => by simp at h
  | a :: as, b :: bs, r, h => by
    have ih := fun r => dominatesLoop_iff as bs r (by simpa using h)
    have hall : (∀ (i : Nat) x y, (a :: as)[i]? = some x → (b :: bs)[i]? = some y → x ≤ y) ↔
        a ≤ b ∧ ∀ (i : Nat) x y, as[i]? = some x → bs[i]? = some y → x ≤ y := by
      constructor
      · intro h
        exact ⟨h 0 a b rfl rfl, fun i x y hx hy => h (i + 1) x y (by simpa using hx) (by simpa using hy)⟩
      · rintro ⟨h1, h2⟩ i x y hx hy
        cases i with
        | zero =>
          simp only [List.getElem?_cons_zero, Option.some.injEq] at hx hy
          subst hx hy
          exact h1
        | succ i => exact h2 i x y (by simpa using hx) (by simpa using hy)
    have hex : (∃ (i : Nat), ∃ x y, (a :: as)[i]? = some x ∧ (b :: bs)[i]? = some y ∧ x < y) ↔
        a < b ∨ ∃ (i : Nat), ∃ x y, as[i]? = some x ∧ bs[i]? = some y ∧ x < y := by
      constructor
      · rintro ⟨i, x, y, hx, hy, hxy⟩
        cases i with
        | zero =>
          simp only [List.getElem?_cons_zero, Option.some.injEq] at hx hy
          subst hx hy
          exact Or.inl hxy
        | succ i => exact Or.inr ⟨i, x, y, by simpa using hx, by simpa using hy, hxy⟩
      · rintro (h | ⟨i, x, y, hx, hy, hxy⟩)
        · exact ⟨0, a, b, rfl, rfl, h⟩
        · exact ⟨i + 1, x, y, by simpa using hx, by simpa using hy, hxy⟩
    rw [hall, hex, List.zip_cons_cons]
    unfold dominatesLoop
    split
    · rename_i hgt
      have : b < a := by linarith
      simp only [Bool.false_eq_true, false_iff, not_and]
      rintro ⟨h1, _⟩
      exact absurd this (not_lt.mpr h1)
    · rename_i hgt
      have hle : a ≤ b := by linarith
      split
      · rename_i hlt
        have : a < b := by linarith
        rw [ih]
        simp [hle, this]
      · rename_i hlt
        have : ¬ a < b := by
          intro h
          exact hlt (by linarith)
        rw [ih]
        simp [hle, this]

/-- C55: `dominates` computes dominance. -/
theorem dominates_spec {a b : MoValue} (h : a.length = b.length) :
    ∃ r, dominates a b = ok r ∧ (r = true ↔ Dominates a b) := by
  refine ⟨dominatesLoop (a.zip b) false, ?_, ?_⟩
  · unfold dominates
    rw [assert_pos (by simp [h]), ok_bind]
  · rw [dominatesLoop_iff a b false h]
    simp [Dominates]

/-- C55: no value dominates itself. -/
theorem dominance_irrefl (a : MoValue) : ¬ Dominates a a := by
  rintro ⟨_, i, x, y, hx, hy, h⟩
  rw [hx] at hy
  cases hy
  exact lt_irrefl _ h

/-- C55: dominance is transitive, for values of the same size. -/
theorem dominance_trans {a b c : MoValue} (hab : a.length = b.length) (hbc : b.length = c.length) (h1 : Dominates a b)
    (h2 : Dominates b c) : Dominates a c := by
  obtain ⟨h1, i, x, y, hx, hy, hxy⟩ := h1
  obtain ⟨h2, _⟩ := h2
  have mid : ∀ (i : Nat) x z, a[i]? = some x → c[i]? = some z → ∃ y, b[i]? = some y ∧ x ≤ y ∧ y ≤ z := by
    intro i x z hx hz
    have hi : i < b.length := by
      have := (List.getElem?_eq_some_iff.mp hx).1
      omega
    exact ⟨b[i], by simp, h1 i x _ hx (by simp), h2 i _ z (by simp) hz⟩
  refine ⟨?_, ?_⟩
  · intro i x z hx hz
    obtain ⟨y, _, h3, h4⟩ := mid i x z hx hz
    exact h3.trans h4
  · have hi : i < c.length := by
      have := (List.getElem?_eq_some_iff.mp hx).1
      omega
    refine ⟨i, x, c[i], hx, by simp, ?_⟩
    exact lt_of_lt_of_le hxy (h2 i y _ hy (by simp))

/-! ## Individuals -/

section
variable {values : List MoValue} {m : Nat}

theorem beats_irrefl (i : Nat) : ¬ Beats values i i := by
  rintro ⟨a, b, ha, hb, h⟩
  rw [ha] at hb
  cases hb
  exact dominance_irrefl _ h

theorem beats_trans (hm : SameSize m values) {i j k : Nat} (h1 : Beats values i j) (h2 : Beats values j k) :
    Beats values i k := by
  obtain ⟨a, b, ha, hb, h1⟩ := h1
  obtain ⟨b', c, hb', hc, h2⟩ := h2
  rw [hb] at hb'
  cases hb'
  refine ⟨a, c, ha, hc, dominance_trans ?_ ?_ h1 h2⟩
  · rw [hm a (List.mem_of_getElem? ha), hm b (List.mem_of_getElem? hb)]
  · rw [hm b (List.mem_of_getElem? hb), hm c (List.mem_of_getElem? hc)]

theorem beats_lt {i j : Nat} (h : Beats values i j) : i < values.length ∧ j < values.length := by
  obtain ⟨a, b, ha, hb, _⟩ := h
  exact ⟨(List.getElem?_eq_some_iff.mp ha).1, (List.getElem?_eq_some_iff.mp hb).1⟩

theorem dominatesAt_eq (hm : SameSize m values) {i j : Nat} (hi : i < values.length) (hj : j < values.length) :
    ∃ r, dominatesAt values i j = ok r ∧ (r = true ↔ Beats values i j) := by
  obtain ⟨r, e, h⟩ := dominates_spec (a := values[i]) (b := values[j]) (by
    rw [hm _ (List.getElem_mem hi), hm _ (List.getElem_mem hj)])
  refine ⟨r, ?_, ?_⟩
  · unfold dominatesAt
    rw [vget_eq hi, ok_bind, vget_eq hj, ok_bind, e]
  · rw [h]
    constructor
    · intro h
      exact ⟨_, _, by simp, by simp, h⟩
    · rintro ⟨a, b, ha, hb, h⟩
      rw [List.getElem?_eq_getElem hi] at ha
      rw [List.getElem?_eq_getElem hj] at hb
      cases ha
      cases hb
      exact h

theorem isNonDominated_spec (hm : SameSize m values) {i : Nat} (hi : i < values.length) : ∀ (l : List Nat),
    (∀ j ∈ l, j < values.length) →
    ∃ r, isNonDominated values i l = ok r ∧ (r = true ↔ ∀ j ∈ l, ¬ Beats values j i)
  | [], _ => ⟨true, rfl, by simp⟩
  | j :: l, h => by
    obtain ⟨d, e, hd⟩ := dominatesAt_eq hm (h j (by simp)) hi
    unfold isNonDominated
    rw [e, ok_bind]
    cases d with
    | true =>
      refine ⟨false, if_pos rfl, ?_⟩
      simp only [Bool.false_eq_true, List.mem_cons, forall_eq_or_imp, false_iff, not_and]
      intro h'
      exact absurd (hd.mp rfl) h'
    | false =>
      obtain ⟨r, e', hr⟩ := isNonDominated_spec hm hi l (fun k hk => h k (by simp [hk]))
      refine ⟨r, by rw [if_neg (by simp), e'], ?_⟩
      have : ¬ Beats values j i := by
        rw [← hd]
        simp
      rw [hr]
      simp [this]

open Classical in
theorem collectDominated_spec (hm : SameSize m values) {i : Nat} (hi : i < values.length) : ∀ (l : List Nat),
    (∀ j ∈ l, j < values.length) →
    collectDominated values i l = ok (l.filter (fun j => decide (Beats values i j)))
  | [], _ => rfl
  | j :: l, h => by
    obtain ⟨d, e, hd⟩ := dominatesAt_eq hm hi (h j (by simp))
    unfold collectDominated
    rw [e, ok_bind, collectDominated_spec hm hi l (fun k hk => h k (by simp [hk])), ok_bind, List.filter_cons]
    cases d with
    | true => rw [if_pos rfl, if_pos (by simpa using hd.mp rfl)]
    | false =>
      rw [if_neg (by simp), if_neg]
      simp only [decide_eq_true_eq, ← hd]
      simp

/-- Removing distinct elements of the set. -/
theorem removeDominated_spec : ∀ (l : List Nat) (s : FrontState), s.nonDominated.Nodup → l.Nodup → (∀ j ∈ l, j ∈ s.nonDominated) →
    ∃ t, removeDominated l s = ok t ∧ t.nonDominated.Nodup ∧ (∀ j, j ∈ t.nonDominated ↔ j ∈ s.nonDominated ∧ j ∉ l) ∧
      t.nextPool = s.nextPool ++ l
  | [], s, h1, _, _ => ⟨s, rfl, h1, by simp, by simp⟩
  | j :: l, s, h1, h2, h3 => by
    rw [List.nodup_cons] at h2
    obtain ⟨t, e, t1, t2, t3⟩ := removeDominated_spec l ⟨s.nonDominated.erase j, s.nextPool ++ [j]⟩ (h1.erase _) h2.2 (by
      intro k hk
      have hkj : k ≠ j := by
        rintro rfl
        exact h2.1 hk
      exact (List.mem_erase_of_ne hkj).mpr (h3 k (by simp [hk])))
    refine ⟨t, ?_, t1, ?_, by rw [t3]; simp⟩
    · unfold removeDominated
      rw [assert_pos (by simp [List.count_eq_one_of_mem h1 (h3 j (by simp))]), ok_bind, e]
    · intro k
      rw [t2]
      simp only [List.mem_cons, not_or]
      rw [h1.mem_erase_iff]
      tauto

/-! ## One front -/

/-- After the individuals of `done` have been considered. -/
structure PassInv (values : List MoValue) (done : List Nat) (s : FrontState) : Prop where
  perm : (s.nonDominated ++ s.nextPool).Perm done
  anti : ∀ i ∈ s.nonDominated, ∀ j ∈ s.nonDominated, ¬ Beats values i j
  next : ∀ j ∈ s.nextPool, ∃ i ∈ s.nonDominated, Beats values i j

theorem frontStep_post (hm : SameSize m values) {done : List Nat} {i : Nat} (hd : ∀ j ∈ done, j < values.length)
    (hi : i < values.length) (hnd : (done ++ [i]).Nodup) {s : FrontState} (hs : PassInv values done s) :
    Sim.Post (frontStep values i s) (PassInv values (done ++ [i])) := by
  have hmem : ∀ j ∈ s.nonDominated, j ∈ done := fun j hj => hs.perm.subset (by simp [hj])
  have hlt : ∀ j ∈ s.nonDominated, j < values.length := fun j hj => hd j (hmem j hj)
  rw [List.nodup_append] at hnd
  obtain ⟨hnd1, _, hnd2⟩ := hnd
  have hidone : i ∉ done := fun h => hnd2 i h i (by simp) rfl
  have hnds : s.nonDominated.Nodup := (List.nodup_append.mp (hs.perm.nodup_iff.mpr hnd1)).1
  unfold frontStep
  refine (Sim.Post.shuffle _).bind (fun o ho => ?_)
  obtain ⟨b, eb, hb⟩ := isNonDominated_spec hm hi o (fun j hj => hlt j (ho.subset hj))
  refine Sim.Post.lift_bind eb ?_
  cases b with
  | false =>
    rw [if_neg (by simp)]
    have : ∃ j ∈ s.nonDominated, Beats values j i := by
      by_contra h
      push Not at h
      have := hb.mpr (fun j hj => h j (ho.subset hj))
      simp at this
    refine Sim.Post.pure ⟨?_, hs.anti, ?_⟩
    · rw [← List.append_assoc]
      exact hs.perm.append_right _
    · intro j hj
      rcases List.mem_append.mp hj with hj | hj
      · exact hs.next j hj
      · simp only [List.mem_singleton] at hj
        subst hj
        exact this
  | true =>
    rw [if_pos rfl]
    have hno : ∀ j ∈ s.nonDominated, ¬ Beats values j i := fun j hj => hb.mp rfl j (ho.symm.subset hj)
    refine (Sim.Post.shuffle _).bind (fun o' ho' => ?_)
    refine Sim.Post.lift_bind (collectDominated_spec hm hi o' (fun j hj => hlt j (ho'.subset hj))) ?_
    have hfn : (o'.filter (fun j => @decide (Beats values i j) (Classical.propDecidable _))).Nodup :=
      (ho'.nodup_iff.mpr hnds).filter _
    have hfm : ∀ j, j ∈ o'.filter (fun j => @decide (Beats values i j) (Classical.propDecidable _)) ↔
        j ∈ s.nonDominated ∧ Beats values i j := by
      intro j
      rw [List.mem_filter, ho'.mem_iff]
      simp
    generalize o'.filter (fun j => @decide (Beats values i j) (Classical.propDecidable _)) = dom at hfn hfm
    obtain ⟨t, et, t1, t2, t3⟩ := removeDominated_spec dom s hnds hfn (fun j hj => ((hfm j).mp hj).1)
    refine Sim.Post.lift_bind et ?_
    have hit : i ∉ t.nonDominated := fun h => hidone (hmem i ((t2 i).mp h).1)
    refine Sim.Post.lift_bind (assert_pos (by simp [List.count_eq_zero_of_not_mem hit])) (Sim.Post.pure ⟨?_, ?_, ?_⟩)
    · have h1 : (t.nonDominated ++ dom).Perm s.nonDominated := by
        rw [List.perm_ext_iff_of_nodup _ hnds]
        · intro j
          rw [List.mem_append, t2]
          have := hfm j
          by_cases hj : j ∈ dom
          · simp [hj, (this.mp hj).1]
          · simp [hj]
        · rw [List.nodup_append]
          refine ⟨t1, hfn, ?_⟩
          rintro a ha b hb rfl
          exact ((t2 a).mp ha).2 hb
      show ((t.nonDominated ++ [i]) ++ t.nextPool).Perm _
      rw [t3, List.append_assoc]
      refine List.Perm.trans ?_ (hs.perm.append_right [i])
      refine List.Perm.trans (l₂ := t.nonDominated ++ dom ++ s.nextPool ++ [i]) ?_ ((h1.append_right _).append_right _)
      rw [List.append_assoc, List.append_assoc]
      refine List.Perm.append_left _ ?_
      refine List.perm_append_comm.trans ?_
      rw [← List.append_assoc]
      exact List.perm_append_comm.append_right _
    · intro a ha b hb'
      rw [List.mem_append, List.mem_singleton, t2] at ha hb'
      rcases ha with ⟨ha, ha'⟩ | rfl
      · rcases hb' with ⟨hb1, _⟩ | rfl
        · exact hs.anti a ha b hb1
        · exact hno a ha
      · rcases hb' with ⟨hb1, hb2⟩ | rfl
        · intro h
          exact hb2 ((hfm b).mpr ⟨hb1, h⟩)
        · exact beats_irrefl _
    · intro j hj
      have hj' : j ∈ s.nextPool ∨ j ∈ dom := by
        rw [← List.mem_append, ← t3]
        exact hj
      rcases hj' with hj | hj
      · obtain ⟨a, ha, hab⟩ := hs.next j hj
        by_cases had : a ∈ dom
        · exact ⟨i, by simp, beats_trans hm ((hfm a).mp had).2 hab⟩
        · exact ⟨a, by simp [t2, ha, had], hab⟩
      · exact ⟨i, by simp, ((hfm j).mp hj).2⟩

theorem frontPass_post (hm : SameSize m values) : ∀ (l done : List Nat) (s : FrontState), (∀ j ∈ done ++ l, j < values.length) →
    (done ++ l).Nodup → PassInv values done s → Sim.Post (frontPass values l s) (PassInv values (done ++ l))
  | [], done, s, _, _, h => Sim.Post.pure (by simpa using h)
  | i :: l, done, s, h1, h2, h => by
    unfold frontPass
    rw [List.append_cons] at h1 h2
    refine (frontStep_post hm (fun j hj => h1 j (by simp [hj])) (h1 i (by simp)) (List.nodup_append.mp h2).1 h).bind ?_
    intro t ht
    have := frontPass_post hm l (done ++ [i]) t h1 h2 ht
    rwa [List.append_assoc] at this

theorem assignFront_spec (front : Nat) : ∀ (l fronts : List Nat), (∀ i ∈ l, i < fronts.length) →
    ∃ r, assignFront front l fronts = ok r ∧ r.length = fronts.length ∧ (∀ i ∈ l, r[i]? = some front) ∧
      ∀ i, i ∉ l → r[i]? = fronts[i]?
  | [], fronts, _ => ⟨fronts, rfl, rfl, by simp, by simp⟩
  | i :: l, fronts, h => by
    obtain ⟨r, e, h1, h2, h3⟩ := assignFront_spec front l (fronts.set i front) (by
      intro j hj
      simpa using h j (by simp [hj]))
    refine ⟨r, ?_, by simpa using h1, ?_, ?_⟩
    · unfold assignFront
      rw [vset_eq (h i (by simp)), ok_bind, e]
    · intro j hj
      by_cases hjl : j ∈ l
      · exact h2 j hjl
      · have : j = i := by simpa [hjl] using hj
        subst this
        rw [h3 j hjl, List.getElem?_set_self (h j (by simp))]
    · intro j hj
      simp only [List.mem_cons, not_or] at hj
      rw [h3 j hj.2, List.getElem?_set_ne (Ne.symm hj.1)]

/-! ## All fronts -/

/-- After `front` fronts have been assigned; `pool` contains the other individuals. -/
structure LoopInv (values : List MoValue) (pool : List Nat) (front : Nat) (fronts : List Nat) : Prop where
  length : fronts.length = values.length
  nodup : pool.Nodup
  inside : ∀ i ∈ pool, i < values.length
  done : ∀ i, i < values.length → i ∉ pool → ∃ k, k < front ∧ fronts[i]? = some k
  succ : ∀ i k, i < values.length → i ∉ pool → fronts[i]? = some (k + 1) →
    ∃ j, j < values.length ∧ j ∉ pool ∧ fronts[j]? = some k ∧ Beats values j i
  lt : ∀ i j k l, i ∉ pool → j ∉ pool → fronts[i]? = some k → fronts[j]? = some l → Beats values i j → k < l
  sep : ∀ i ∈ pool, ∀ j, j ∉ pool → ¬ Beats values i j
  next : front ≠ 0 → ∀ i ∈ pool, ∃ j, j < values.length ∧ j ∉ pool ∧ fronts[j]? = some (front - 1) ∧ Beats values j i

theorem LoopInv.isFronts {front : Nat} {fronts : List Nat} (h : LoopInv values [] front fronts) :
    IsFronts values fronts := by
  refine ⟨h.length, ?_, ?_, fun i j k l hi hj hij => h.lt i j k l (by simp) (by simp) hi hj hij⟩
  · intro i hi
    obtain ⟨k, _, hk⟩ := h.done i hi (by simp)
    constructor
    · intro h0 j hj
      obtain ⟨l, _, hl⟩ := h.done j (beats_lt hj).1 (by simp)
      have := h.lt j i l 0 (by simp) (by simp) hl h0 hj
      omega
    · intro hno
      cases k with
      | zero => exact hk
      | succ k =>
        obtain ⟨j, _, _, _, hj⟩ := h.succ i k hi (by simp) hk
        exact absurd hj (hno j)
  · intro i k hi
    obtain ⟨j, _, _, h1, h2⟩ := h.succ i k (by
      have := (List.getElem?_eq_some_iff.mp hi).1
      rw [← h.length]
      exact this) (by simp) hi
    exact ⟨j, h1, h2⟩

theorem frontLoop_post (hm : SameSize m values) : ∀ (fuel : Nat) (pool : List Nat) (front : Nat) (fronts : List Nat),
    pool.length ≤ fuel → LoopInv values pool front fronts →
    Sim.Post (frontLoop values fuel pool front fronts) (IsFronts values)
  | 0, pool, front, fronts, h, hinv => by
    have : pool = [] := List.length_eq_zero_iff.mp (by omega)
    subst this
    exact Sim.Post.pure hinv.isFronts
  | fuel + 1, pool, front, fronts, h, hinv => by
    unfold frontLoop
    by_cases hp : pool = []
    · subst hp
      exact Sim.Post.pure hinv.isFronts
    · rw [if_neg (by simpa using hp)]
      have hpass := frontPass_post hm pool [] ⟨[], []⟩ (by simpa using hinv.inside) (by simpa using hinv.nodup)
        ⟨by simp, by simp, by simp⟩
      rw [List.nil_append] at hpass
      refine hpass.bind (fun s hs => ?_)
      refine (Sim.Post.shuffle _).bind (fun o ho => ?_)
      have hsub : ∀ i ∈ s.nonDominated, i ∈ pool := fun i hi => hs.perm.subset (by simp [hi])
      have hsub' : ∀ i ∈ s.nextPool, i ∈ pool := fun i hi => hs.perm.subset (by simp [hi])
      have hall : ∀ i ∈ pool, i ∈ s.nonDominated ∨ i ∈ s.nextPool := fun i hi => by
        simpa using hs.perm.symm.subset hi
      have hnd := List.nodup_append.mp (hs.perm.nodup_iff.mpr hinv.nodup)
      obtain ⟨r, e, r1, r2, r3⟩ := assignFront_spec front o fronts (fun i hi => by
        rw [hinv.length]
        exact hinv.inside i (hsub i (ho.subset hi)))
      refine Sim.Post.lift_bind e ?_
      have r2' : ∀ i ∈ s.nonDominated, r[i]? = some front := fun i hi => r2 i (ho.symm.subset hi)
      have r3' : ∀ i, i ∉ s.nonDominated → r[i]? = fronts[i]? := fun i hi => r3 i (fun h => hi (ho.subset h))
      -- the set is not empty
      have hne : s.nonDominated ≠ [] := by
        intro h0
        cases hn : s.nextPool with
        | nil =>
          have := hs.perm.length_eq
          rw [h0, hn] at this
          simp only [List.append_nil, List.length_nil] at this
          exact hp (List.length_eq_zero_iff.mp this.symm)
        | cons j l =>
          obtain ⟨i, hi, _⟩ := hs.next j (by rw [hn]; simp)
          rw [h0] at hi
          simp at hi
      have hlen := hs.perm.length_eq
      rw [List.length_append] at hlen
      have hpos := List.length_pos_iff.mpr hne
      -- individuals outside of the next pool
      have hcase : ∀ i, i ∉ s.nextPool → i ∈ s.nonDominated ∨ i ∉ pool := by
        intro i hi
        by_cases hip : i ∈ pool
        · rcases hall i hip with h | h
          · exact Or.inl h
          · exact absurd h hi
        · exact Or.inr hip
      have hout : ∀ i, i ∉ pool → i ∉ s.nextPool := fun i hi h => hi (hsub' i h)
      have hnn : ∀ i, i ∈ s.nonDominated → i ∉ s.nextPool := fun i hi h => hnd.2.2 i hi i h rfl
      have hold : ∀ i, i ∉ pool → r[i]? = fronts[i]? := fun i hi => r3' i (fun h => hi (hsub i h))
      refine frontLoop_post hm fuel s.nextPool (front + 1) r (by omega) ⟨by rw [r1, hinv.length], hnd.2.1, ?_, ?_, ?_, ?_, ?_, ?_⟩
      · exact fun i hi => hinv.inside i (hsub' i hi)
      · intro i hi hin
        rcases hcase i hin with h | h
        · exact ⟨front, by omega, r2' i h⟩
        · obtain ⟨k, hk, hk'⟩ := hinv.done i hi h
          exact ⟨k, by omega, by rw [hold i h, hk']⟩
      · intro i k hi hin hk
        rcases hcase i hin with h | h
        · rw [r2' i h] at hk
          have hk' : front = k + 1 := by simpa using hk
          obtain ⟨j, j1, j2, j3, j4⟩ := hinv.next (by omega) i (hsub i h)
          refine ⟨j, j1, hout j j2, ?_, j4⟩
          rw [hold j j2, j3, hk']
          simp
        · rw [hold i h] at hk
          obtain ⟨j, j1, j2, j3, j4⟩ := hinv.succ i k hi h hk
          exact ⟨j, j1, hout j j2, by rw [hold j j2, j3], j4⟩
      · intro i j k l hi hj hk hl hij
        rcases hcase i hi with h1 | h1
        · rcases hcase j hj with h2 | h2
          · exact absurd hij (hs.anti i h1 j h2)
          · exact absurd hij (hinv.sep i (hsub i h1) j h2)
        · rcases hcase j hj with h2 | h2
          · rw [r2' j h2] at hl
            rw [hold i h1] at hk
            obtain ⟨k', hk', hk''⟩ := hinv.done i (beats_lt hij).1 h1
            rw [hk''] at hk
            simp only [Option.some.injEq] at hk hl
            omega
          · rw [hold i h1] at hk
            rw [hold j h2] at hl
            exact hinv.lt i j k l h1 h2 hk hl hij
      · intro i hi j hj hij
        rcases hcase j hj with h | h
        · obtain ⟨a, ha, hai⟩ := hs.next i hi
          exact hs.anti a ha j h (beats_trans hm hai hij)
        · exact hinv.sep i (hsub' i hi) j h hij
      · intro _ i hi
        obtain ⟨j, hj, hij⟩ := hs.next i hi
        exact ⟨j, hinv.inside j (hsub j hj), hnn j hj, by simpa using r2' j hj, hij⟩

end

/-! ## Properties -/

/-- C55: the computation terminates (after at most as many rounds as there are individuals), has no undefined behaviour, and
gives the numbering of the Pareto fronts, whatever the orders in which the set is traversed and the initial contents of the
output. -/
theorem computeFronts_spec {values : List MoValue} {m : Nat} (hm : SameSize m values) {fronts : List Nat}
    (hf : fronts.length = values.length) {fuel : Nat} (hfuel : values.length ≤ fuel) :
    Sim.Post (computeFronts values fuel fronts) (IsFronts values) := by
  unfold computeFronts
  refine (Sim.Post.assert (by simp [hf])).bind (fun _ _ => ?_)
  refine frontLoop_post hm fuel _ 0 fronts (by simpa using hfuel) ⟨hf, List.nodup_range, by simp, ?_, ?_, ?_, ?_, by simp⟩
  · intro i hi h
    simp [hi] at h
  · intro i k hi h
    simp [hi] at h
  · intro i j k l hi _ _ _ hij
    have := (beats_lt hij).1
    simp [this] at hi
  · intro i _ j hj hij
    have := (beats_lt hij).2
    simp [this] at hj

/-- C55: there is only one numbering of the fronts: the result does not depend on the orders in which the set is traversed. -/
theorem fronts_unique {values : List MoValue} {f g : List Nat} (hf : IsFronts values f) (hg : IsFronts values g) : f = g := by
  have key : ∀ {f g : List Nat}, IsFronts values f → IsFronts values g → ∀ k (i : Nat), f[i]? = some k →
      ∃ l, g[i]? = some l ∧ k ≤ l := by
    intro f g hf hg k
    induction k with
    | zero =>
      intro i hi
      have : i < g.length := by
        have := (List.getElem?_eq_some_iff.mp hi).1
        rw [hg.length, ← hf.length]
        exact this
      exact ⟨g[i], by simp, Nat.zero_le _⟩
    | succ k ih =>
      intro i hi
      obtain ⟨j, hj, hji⟩ := hf.succ i k hi
      obtain ⟨l, hl, hkl⟩ := ih j hj
      have : i < g.length := by
        have := (List.getElem?_eq_some_iff.mp hi).1
        rw [hg.length, ← hf.length]
        exact this
      have h := hg.lt j i l g[i] hl (by simp) hji
      exact ⟨g[i], by simp, by omega⟩
  apply List.ext_getElem (by rw [hf.length, hg.length])
  intro i h1 h2
  obtain ⟨l, hl, hle⟩ := key hf hg f[i] i (by simp)
  obtain ⟨k, hk, hke⟩ := key hg hf g[i] i (by simp)
  rw [List.getElem?_eq_getElem h2] at hl
  rw [List.getElem?_eq_getElem h1] at hk
  simp only [Option.some.injEq] at hl hk
  omega

/-- C55: any two runs give the same fronts. -/
theorem computeFronts_deterministic {values : List MoValue} {m : Nat} (hm : SameSize m values) {f g : List Nat}
    (hf : f.length = values.length) (hg : g.length = values.length) {fuel fuel' : Nat} (h1 : values.length ≤ fuel)
    (h2 : values.length ≤ fuel') {ds ds' rest rest' r r' : List Nat} (hr : computeFronts values fuel f ds = .ok r rest)
    (hr' : computeFronts values fuel' g ds' = .ok r' rest') : r = r' :=
  fronts_unique ((computeFronts_spec hm hf h1).elim hr) ((computeFronts_spec hm hg h2).elim hr')

/-- Five individuals in three fronts; the second and the third ones have the same value. -/
example : (match computeFronts [[2, 2], [1, 3], [1, 3], [3, 3], [2, 4]] 5 [9, 9, 9, 9, 9] (List.replicate 40 1) with
    | .ok r _ => some r
    | _ => none) = some [0, 0, 0, 1, 1] := by
  decide +kernel

example : (match computeFronts [[3], [1], [2], [1]] 4 [9, 9, 9, 9] (List.replicate 40 0) with
    | .ok r _ => some r
    | _ => none) = some [2, 0, 1, 0] := by
  decide +kernel

example : SameSize 2 [[2, 2], [1, 3], [1, 3], [3, 3], [2, 4]] := by
  intro v hv
  simp only [List.mem_cons, List.not_mem_nil, or_false] at hv
  rcases hv with rfl | rfl | rfl | rfl | rfl <;> rfl

end Hnco
