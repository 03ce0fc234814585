import Verif.Population.Lemmas
import Verif.Neighborhood.Props

/-! # Properties of the selection for reproduction and of crossover (C48) -/

namespace Hnco

open Outcome

variable {K : Type}

/-! ## Specification -/

/-- The comparison is a strict weak order. -/
structure StrictWeak (compare : K → K → Bool) : Prop where
  asymm : ∀ a b, compare a b = true → compare b a = false
  trans : ∀ a b c, compare a b = false → compare b c = false → compare a c = false

/-- The state between two selections in a population of size `N`. -/
structure Tournament.Valid (N : Nat) (t : Tournament) : Prop where
  perm : t.perm.Perm (List.range N)
  size : 2 ≤ t.size
  stop : t.stop = t.start + t.size
  le : t.stop ≤ N

/-- The individuals taking part in the next round. -/
def Tournament.participants (t : Tournament) : List Nat := (t.perm.drop t.start).take t.size

/-- Individual `k` is not beaten by any of the individuals of the list. -/
def Unbeaten (compare : K → K → Bool) (values : List K) (l : List Nat) (k : Nat) : Prop :=
  ∀ k' ∈ l, ∀ v v', values[k]? = some v → values[k']? = some v' → compare v' v = false

/-! ## Lemmas -/

theorem strictWeak_greater [LinearOrder K] : StrictWeak (fun a b : K => decide (b < a)) :=
  ⟨by intro a b h; simp only [decide_eq_true_eq, decide_eq_false_iff_not, not_lt] at *; exact le_of_lt h,
   by intro a b c h1 h2; simp only [decide_eq_false_iff_not, not_lt] at *; exact le_trans h1 h2⟩

theorem StrictWeak.irrefl {compare : K → K → Bool} (hc : StrictWeak compare) (a : K) : compare a a = false := by
  by_contra h
  have := hc.asymm a a (by simpa using h)
  exact h this

theorem Tournament.Valid.perm_length {N : Nat} {t : Tournament} (ht : t.Valid N) : t.perm.length = N := by
  simpa using ht.perm.length_eq

/-- Reading the participant at a position. -/
theorem Tournament.Valid.read {N : Nat} {t : Tournament} (ht : t.Valid N) {values : List K} (hv : values.length = N)
    {i : Nat} (hi : i < N) : ∃ k v, k < N ∧ t.perm[i]? = some k ∧ values[k]? = some v ∧ vget t.perm i = ok k ∧
      vget values k = ok v := by
  have hip : i < t.perm.length := by rw [ht.perm_length]; exact hi
  have hk : t.perm[i] < N := by simpa using ht.perm.mem_iff.mp (List.getElem_mem hip)
  have hkv : t.perm[i] < values.length := by rw [hv]; exact hk
  exact ⟨t.perm[i], values[t.perm[i]], hk, by simp [hip], by simp [hkv], vget_eq hip, vget_eq hkv⟩

theorem mem_participants {t : Tournament} {k : Nat} : k ∈ t.participants ↔
    ∃ i : Nat, t.start ≤ i ∧ i < t.start + t.size ∧ t.perm[i]? = some k := by
  unfold Tournament.participants
  rw [List.mem_iff_getElem?]
  constructor
  · rintro ⟨j, hj⟩
    rw [List.getElem?_take] at hj
    by_cases hjs : j < t.size
    · rw [if_pos hjs, List.getElem?_drop] at hj
      exact ⟨t.start + j, by omega, by omega, hj⟩
    · rw [if_neg hjs] at hj; cases hj
  · rintro ⟨i, h1, h2, h3⟩
    refine ⟨i - t.start, ?_⟩
    rw [List.getElem?_take, if_pos (by omega), List.getElem?_drop, show t.start + (i - t.start) = i by omega]
    exact h3

/-- The winner of a round. -/
theorem Tournament.round_spec {compare : K → K → Bool} (hc : StrictWeak compare) {N : Nat} {t : Tournament}
    (ht : t.Valid N) {values : List K} (hv : values.length = N) :
    (t.round compare values).Returns (fun w => t.start ≤ w.1 ∧ w.1 < t.stop ∧
      ∃ k, t.perm[w.1]? = some k ∧ values[k]? = some w.2 ∧ Unbeaten compare values t.participants k) := by
  have hle := ht.le
  have hstop := ht.stop
  have hsize := ht.size
  unfold Tournament.round
  obtain ⟨k0, v0, _, e1, e2, e3, e4⟩ := ht.read hv (i := t.start) (by omega)
  rw [e3, ok_bind, e4, ok_bind]
  refine (forRange_returns (I := fun i (w : Nat × K) => t.start ≤ w.1 ∧ w.1 < i ∧
    (∃ k, t.perm[w.1]? = some k ∧ values[k]? = some w.2) ∧
    ∀ (j : Nat) k v, t.start ≤ j → j < i → t.perm[j]? = some k → values[k]? = some v → compare v w.2 = false)
    (by omega) ⟨le_refl _, by omega, ⟨k0, e1, e2⟩, ?_⟩ ?_).mono ?_
  · intro j k v h1 h2 h3 h4
    obtain rfl : j = t.start := by omega
    rw [e1] at h3
    cases h3
    rw [e2] at h4
    cases h4
    exact hc.irrefl _
  · rintro i ⟨w, v⟩ hi1 hi2 ⟨h1, h2, ⟨k, h3, h4⟩, h5⟩
    dsimp only at h1 h2 h3 h4 h5 ⊢
    obtain ⟨k', v', _, f1, f2, f3, f4⟩ := ht.read hv (i := i) (by omega)
    rw [f3, ok_bind, f4, ok_bind]
    cases hcmp : compare v' v with
    | true =>
      rw [if_pos rfl, returns_ok]
      refine ⟨by omega, by omega, ⟨k', f1, f2⟩, ?_⟩
      intro j k'' v'' g1 g2 g3 g4
      rcases Nat.lt_or_eq_of_le (Nat.le_of_lt_succ g2) with hlt | rfl
      · exact hc.trans _ v _ (h5 j k'' v'' g1 hlt g3 g4) (hc.asymm _ _ hcmp)
      · rw [f1] at g3
        cases g3
        rw [f2] at g4
        cases g4
        exact hc.irrefl _
    | false =>
      rw [if_neg (by simp), returns_ok]
      refine ⟨h1, by omega, ⟨k, h3, h4⟩, ?_⟩
      intro j k'' v'' g1 g2 g3 g4
      rcases Nat.lt_or_eq_of_le (Nat.le_of_lt_succ g2) with hlt | rfl
      · exact h5 j k'' v'' g1 hlt g3 g4
      · rw [f1] at g3
        cases g3
        rw [f2] at g4
        cases g4
        exact hcmp
  · rintro ⟨w, v⟩ ⟨h1, h2, ⟨k, h3, h4⟩, h5⟩
    refine ⟨h1, h2, k, h3, h4, ?_⟩
    intro k' hk' u u' hu hu'
    obtain ⟨i, i1, i2, i3⟩ := mem_participants.mp hk'
    dsimp only at h4
    rw [h4] at hu
    cases hu
    exact h5 i k' u' i1 (by omega) i3 hu'

theorem Tournament.init_valid {N : Nat} {t : Tournament} (hp : t.perm.Perm (List.range N)) (h2 : 2 ≤ t.size)
    (hle : t.size ≤ N) : Sim.Post t.init (fun u => u.Valid N ∧ u.start = 0 ∧ u.size = t.size) := by
  unfold Tournament.init
  exact (Sim.Post.shuffle _).bind (fun perm hperm => Sim.Post.pure
    ⟨⟨hperm.trans hp, h2, by simp, hle⟩, rfl, rfl⟩)

/-! ## Properties -/

/-- C48 (proved part): a selection always returns an individual of the population, and keeps a valid state.  If the
round is not the last of its pass, then the individual is a participant of the round which no participant beats, and
the participants of the next round are the next ones in the same shuffled order.  Missing: the last round of a pass,
see `tournament_last_round_any`. -/
theorem tournament_select_partial {compare : K → K → Bool} (hc : StrictWeak compare) {N : Nat} {t : Tournament}
    (ht : t.Valid N) {bvs : List BV} {values : List K} (hb : bvs.length = N) (hv : values.length = N) :
    Sim.Post (t.select compare bvs values) (fun r => bvs[r.1]? = some r.2.1 ∧ r.2.2.Valid N ∧
      r.2.2.size = t.size ∧ (t.stop + t.size ≤ N → r.1 ∈ t.participants ∧
        Unbeaten compare values t.participants r.1 ∧ r.2.2 = { t with start := t.stop, stop := t.stop + t.size })) := by
  have hle := ht.le
  have hstop := ht.stop
  have hsize := ht.size
  unfold Tournament.select
  refine (Sim.Post.assert (by
    rw [Bool.and_eq_true, decide_eq_true_eq, decide_eq_true_eq]; omega)).bind (fun _ _ => ?_)
  refine Sim.Post.returns_bind (Tournament.round_spec hc ht hv) ?_
  rintro ⟨w, v⟩ ⟨w1, w2, k, w3, w4, w5⟩
  dsimp only at w1 w2 w3 w4 w5 ⊢
  unfold Tournament.next
  by_cases hlast : bvs.length < t.stop + t.size
  · rw [if_pos hlast]
    refine (Tournament.init_valid (N := N) (t := { t with start := t.stop, stop := t.stop + t.size }) ht.perm ht.size
      (by dsimp only; omega)).bind ?_
    rintro u ⟨hu, _, hu2⟩
    obtain ⟨k', v', hk', f1, f2, f3, f4⟩ := hu.read hv (i := w) (by omega)
    refine Sim.Post.lift_bind f3 ?_
    have hkb : k' < bvs.length := by omega
    refine Sim.Post.lift_bind (vget_eq hkb) (Sim.Post.pure ⟨by simp [hkb], hu, hu2, ?_⟩)
    intro h
    omega
  · rw [if_neg hlast]
    refine Sim.Post.bind (P := fun u => u = { t with start := t.stop, stop := t.stop + t.size }) (Sim.Post.pure rfl) ?_
    rintro _ rfl
    have hkg : vget t.perm w = ok k := by unfold vget; rw [w3]
    have hkb : k < bvs.length := by
      rw [hb]
      simpa using ht.perm.mem_iff.mp (List.mem_of_getElem? w3)
    refine Sim.Post.lift_bind hkg (Sim.Post.lift_bind (vget_eq hkb) (Sim.Post.pure ?_))
    refine ⟨by simp [hkb], ⟨ht.perm, ht.size, rfl, by dsimp only; omega⟩, rfl, fun _ => ⟨?_, w5, rfl⟩⟩
    exact mem_participants.mpr ⟨w, w1, by omega, w3⟩

/-- C48 (negative part): on the last round of a pass the implementation shuffles the permutation before reading the
winner through it, so that any individual of the population can be returned, whatever the values. -/
theorem tournament_last_round_any {compare : K → K → Bool} (hc : StrictWeak compare) {N : Nat} {t : Tournament}
    (ht : t.Valid N) {bvs : List BV} {values : List K} (hb : bvs.length = N) (hv : values.length = N)
    (hlast : N < t.stop + t.size) {k : Nat} {x : BV} (hk : bvs[k]? = some x) :
    ∃ u, Sim.Reaches (t.select compare bvs values) (k, x, u) := by
  have hle := ht.le
  have hstop := ht.stop
  have hsize := ht.size
  have hkN : k < N := by
    obtain ⟨h, _⟩ := List.getElem?_eq_some_iff.mp hk
    omega
  obtain ⟨⟨w, v⟩, hw, w1, w2, _⟩ := Tournament.round_spec hc ht hv
  dsimp only at w1 w2
  -- a permutation with `k` at position `w`
  obtain ⟨i, hi⟩ := List.mem_iff_getElem?.mp (ht.perm.mem_iff.mpr (List.mem_range.mpr hkN))
  have hwp : w < t.perm.length := by rw [ht.perm_length]; omega
  have hperm : ∃ perm : List Nat, perm.Perm t.perm ∧ perm[w]? = some k := by
    have hmem : k ∈ t.perm := List.mem_of_getElem? hi
    refine ⟨(t.perm.erase k).take w ++ k :: (t.perm.erase k).drop w, ?_, ?_⟩
    · refine List.perm_middle.trans ?_
      rw [List.take_append_drop]
      exact (List.perm_cons_erase hmem).symm
    · have hl : (t.perm.erase k).length = t.perm.length - 1 := List.length_erase_of_mem hmem
      have : ((t.perm.erase k).take w).length = w := by rw [List.length_take]; omega
      rw [List.getElem?_append_right (by omega), this]
      simp
  obtain ⟨perm, hp1, hp2⟩ := hperm
  refine ⟨{ t with perm := perm, start := 0, stop := t.size }, ?_⟩
  unfold Tournament.select
  refine Sim.Reaches.bind (a := ()) (Sim.Reaches.lift (assert_pos (by
    rw [Bool.and_eq_true, decide_eq_true_eq, decide_eq_true_eq]; omega))) ?_
  refine Sim.Reaches.bind (Sim.Reaches.lift hw) ?_
  unfold Tournament.next
  rw [if_pos (by omega)]
  refine Sim.Reaches.bind (a := { t with perm := perm, start := 0, stop := t.size }) ?_ ?_
  · unfold Tournament.init
    exact Sim.Reaches.bind (Sim.Reaches.shuffle hp1) (Sim.Reaches.pure _)
  · refine Sim.Reaches.bind (a := k) (Sim.Reaches.lift ?_) (Sim.Reaches.bind (a := x) (Sim.Reaches.lift ?_)
      (Sim.Reaches.pure _))
    · unfold vget
      rw [hp2]
    · unfold vget
      rw [hk]

/-- Consecutive selections: the indices of the selected individuals. -/
def Tournament.selects (compare : K → K → Bool) (bvs : List BV) (values : List K) :
    Nat → Tournament → Sim (List Nat × Tournament)
  | 0, t => pure ([], t)
  | m + 1, t => do
    let r ← t.select compare bvs values
    let s ← Tournament.selects compare bvs values m r.2.2
    pure (r.1 :: s.1, s.2)

/-- The individuals of round `j` of a pass over the permutation. -/
def roundOf (perm : List Nat) (size j : Nat) : List Nat := (perm.drop (j * size)).take size

theorem roundOf_disjoint {perm : List Nat} (h : perm.Nodup) {size j j' k : Nat} (hj : j ≠ j')
    (h1 : k ∈ roundOf perm size j) : k ∉ roundOf perm size j' := by
  have aux : ∀ {j k}, k ∈ roundOf perm size j → ∃ i : Nat, j * size ≤ i ∧ i < (j + 1) * size ∧ perm[i]? = some k := by
    intro j k hk
    obtain ⟨i, h1, h2, h3⟩ := (mem_participants (t := ⟨perm, j * size, 0, size⟩)).mp hk
    exact ⟨i, h1, by rw [Nat.add_mul]; dsimp only at h2; omega, h3⟩
  intro h2
  obtain ⟨i, a1, a2, a3⟩ := aux h1
  obtain ⟨i', b1, b2, b3⟩ := aux h2
  obtain ⟨hi, hi'⟩ := List.getElem?_eq_some_iff.mp a3
  obtain ⟨hl, hl'⟩ := List.getElem?_eq_some_iff.mp b3
  have hii := (List.Nodup.getElem_inj_iff h).mp (hi'.trans hl'.symm)
  subst hii
  rcases Nat.lt_or_gt_of_ne hj with hlt | hlt
  · have := Nat.mul_le_mul_right size (show j + 1 ≤ j' from hlt)
    omega
  · have := Nat.mul_le_mul_right size (show j' + 1 ≤ j from hlt)
    omega

theorem selects_spec {compare : K → K → Bool} (hc : StrictWeak compare) {N : Nat} {bvs : List BV} {values : List K}
    (hb : bvs.length = N) (hv : values.length = N) : ∀ (m : Nat) (t : Tournament), t.Valid N →
      t.stop + m * t.size ≤ N → Sim.Post (Tournament.selects compare bvs values m t) (fun r => r.1.length = m ∧
        ∀ (j : Nat) k, r.1[j]? = some k → k ∈ (t.perm.drop (t.start + j * t.size)).take t.size ∧
          Unbeaten compare values ((t.perm.drop (t.start + j * t.size)).take t.size) k)
  | 0, t, _, _ => Sim.Post.pure ⟨rfl, (by intro j k h; simp at h)⟩
  | m + 1, t, ht, hm => by
    rw [Nat.add_mul, Nat.one_mul] at hm
    unfold Tournament.selects
    refine (tournament_select_partial hc ht hb hv).bind ?_
    rintro ⟨k, x, u⟩ ⟨_, hu, _, h⟩
    obtain ⟨h1, h2, h3⟩ := h (by omega)
    dsimp only at h1 h2 h3 hu ⊢
    subst h3
    refine (selects_spec hc hb hv m _ hu (by dsimp only; omega)).bind ?_
    rintro ⟨l, w⟩ ⟨g1, g2⟩
    dsimp only at g1 g2 ⊢
    refine Sim.Post.pure ⟨by simp [g1], ?_⟩
    intro j k' hk'
    cases j with
    | zero =>
      simp only [List.getElem?_cons_zero, Option.some.injEq] at hk'
      subst hk'
      rw [Nat.zero_mul, Nat.add_zero]
      exact ⟨h1, h2⟩
    | succ j =>
      rw [List.getElem?_cons_succ] at hk'
      have := g2 j k' hk'
      rwa [ht.stop, Nat.add_assoc, Nat.add_comm t.size, ← Nat.succ_mul] at this

/-- C48 (proved part): starting a pass and selecting `m` times, where the last of these rounds is not the last round of
the pass, gives winners of rounds over disjoint sets of individuals; in particular no individual is selected twice. -/
theorem tournament_pass_partial {compare : K → K → Bool} (hc : StrictWeak compare) {N : Nat} {t : Tournament}
    (hp : t.perm.Perm (List.range N)) (hsize : 2 ≤ t.size) {bvs : List BV} {values : List K} (hb : bvs.length = N)
    (hv : values.length = N) {m : Nat} (hm : (m + 1) * t.size ≤ N) :
    Sim.Post (do let u ← t.init; Tournament.selects compare bvs values m u) (fun r => r.1.length = m ∧ r.1.Nodup ∧
      ∃ perm : List Nat, perm.Perm (List.range N) ∧ ∀ (j : Nat) k, r.1[j]? = some k →
        k ∈ roundOf perm t.size j ∧ Unbeaten compare values (roundOf perm t.size j) k) := by
  rw [Nat.add_mul, Nat.one_mul] at hm
  refine (Tournament.init_valid hp hsize (by omega)).bind ?_
  rintro u ⟨hu, hu0, hus⟩
  refine (selects_spec hc hb hv m u hu (by rw [hu.stop, hu0, hus]; omega)).mono ?_
  rintro ⟨l, w⟩ ⟨g1, g2⟩
  dsimp only at g1 g2 ⊢
  have hround : ∀ j, (u.perm.drop (u.start + j * u.size)).take u.size = roundOf u.perm t.size j := by
    intro j
    rw [hu0, hus, Nat.zero_add]
    rfl
  refine ⟨g1, ?_, u.perm, hu.perm, ?_⟩
  · rw [List.nodup_iff_getElem?_ne_getElem?]
    intro i j hij hj heq
    obtain ⟨k, hk⟩ : ∃ k, l[j]? = some k := ⟨l[j], by simp⟩
    have h1 := (g2 j k hk).1
    have h2 := (g2 i k (heq.trans hk)).1
    rw [hround] at h1 h2
    exact roundOf_disjoint (hu.perm.nodup_iff.mpr List.nodup_range) (Nat.ne_of_lt hij) h2 h1
  · intro j k hk
    have := g2 j k hk
    rwa [hround] at this

/-- Tournaments of size 2 in a population of 5: the first round is not the last of the pass, the second one is. -/
def exampleTournament : Tournament := ⟨[0, 1, 2, 3, 4], 0, 2, 2⟩

example : exampleTournament.Valid 5 := ⟨List.Perm.refl _, by decide, rfl, by decide⟩

/-- The second round opposes individuals 2 and 3, of values 7 and 9, and can return individual 0 of value 1. -/
example : ∃ u, Sim.Reaches (Tournament.select (fun a b : Int => decide (b < a)) (List.replicate 5 [true])
    [1, 3, 7, 9, 5] { exampleTournament with start := 2, stop := 4 }) (0, [true], u) :=
  tournament_last_round_any strictWeak_greater (N := 5) ⟨List.Perm.refl _, by decide, rfl, by decide⟩ rfl rfl
    (by decide) rfl

/-! ## Crossover -/

/-- Each bit of the offspring comes from one of the parents. -/
def Mixes (x y z : BV) : Prop :=
  z.length = x.length ∧ ∀ i : Nat, i < x.length → z[i]? = x[i]? ∨ z[i]? = y[i]?

theorem recombine_loop {first : Bool → Bool} {x y z : BV} (hx : z.length = x.length) (hy : z.length = y.length) :
    Sim.Post (Sim.forRange 0 z.length (fun i (z : BV) => do
      let b ← Sim.bernoulli
      Sim.lift (recombineBit (first b) x y i z)) z) (Mixes x y) := by
  refine (Sim.Post.forRange (fun i (t : BV) => t.length = z.length ∧ ∀ j : Nat, j < i → t[j]? = x[j]? ∨ t[j]? = y[j]?)
    (Nat.zero_le _) ⟨rfl, (by intro j hj; omega)⟩ ?_).mono ?_
  · rintro i t _ hi ⟨h1, h2⟩
    refine Sim.Post.bernoulli.bind (fun b _ => Sim.Post.lift ?_)
    have hxi : i < x.length := by omega
    have hyi : i < y.length := by omega
    have hti : i < t.length := by omega
    have key : ∀ c : Bool, (x[i]? = some c ∨ y[i]? = some c) → (vset t i c).Returns (fun t' =>
        t'.length = z.length ∧ ∀ j : Nat, j < i + 1 → t'[j]? = x[j]? ∨ t'[j]? = y[j]?) := by
      intro c hcc
      rw [vset_eq hti, returns_ok]
      refine ⟨by simp [h1], fun j hj => ?_⟩
      rcases Nat.lt_or_eq_of_le (Nat.le_of_lt_succ hj) with hlt | rfl
      · rw [List.getElem?_set_ne (by omega)]
        exact h2 j hlt
      · rw [List.getElem?_set_self hti]
        rcases hcc with h | h
        · exact Or.inl h.symm
        · exact Or.inr h.symm
    unfold recombineBit
    cases first b with
    | true =>
      rw [if_pos rfl, vget_eq hxi, ok_bind]
      exact key _ (Or.inl (by simp [hxi]))
    | false =>
      rw [if_neg (by simp), vget_eq hyi, ok_bind]
      exact key _ (Or.inr (by simp [hyi]))
  · rintro t ⟨h1, h2⟩
    exact ⟨by omega, fun i hi => h2 i (by omega)⟩

theorem uniformRecombine_mixes {x y z : BV} (hx : z.length = x.length) (hy : z.length = y.length) :
    Sim.Post (uniformRecombine x y z) (Mixes x y) := by
  unfold uniformRecombine
  refine (Sim.Post.assert (by simp [hx])).bind (fun _ _ => (Sim.Post.assert (by simp [hy])).bind (fun _ _ => ?_))
  exact recombine_loop (first := fun b => b) hx hy

theorem biasedRecombine_mixes {x y z : BV} (hx : z.length = x.length) (hy : z.length = y.length) :
    Sim.Post (biasedRecombine x y z) (Mixes x y) := by
  unfold biasedRecombine
  refine (Sim.Post.assert (by simp [hx])).bind (fun _ _ => (Sim.Post.assert (by simp [hy])).bind (fun _ _ => ?_))
  exact recombine_loop (first := fun b => !b) hx hy

theorem recombine_loop_onto {first : Bool → Bool} (hf : ∀ c, ∃ b, first b = c) {x y z t : BV}
    (hx : z.length = x.length) (ht : Mixes x y t) :
    Sim.Reaches (Sim.forRange 0 z.length (fun i (z : BV) => do
      let b ← Sim.bernoulli
      Sim.lift (recombineBit (first b) x y i z)) z) t := by
  obtain ⟨htl, htm⟩ := ht
  have := Sim.Reaches.forRange (body := fun i (z : BV) => do
      let b ← Sim.bernoulli
      Sim.lift (recombineBit (first b) x y i z)) (fun i => t.take i ++ z.drop i) (Nat.zero_le z.length)
    (s := z) (by simp) ?_
  · rwa [List.drop_length, List.append_nil, List.take_of_length_le (by omega)] at this
  · intro i _ hi
    have hit : i < t.length := by omega
    have hlen : i < (t.take i ++ z.drop i).length := by simp; omega
    have hset : (t.take i ++ z.drop i).set i t[i] = t.take (i + 1) ++ z.drop (i + 1) := by
      apply List.ext_getElem?
      intro j
      rcases Nat.lt_trichotomy j i with h | rfl | h
      · rw [List.getElem?_set_ne (by omega), List.getElem?_append_left (by simp; omega),
          List.getElem?_append_left (by simp; omega), List.getElem?_take, List.getElem?_take, if_pos h, if_pos (by omega)]
      · rw [List.getElem?_set_self hlen, List.getElem?_append_left (by simp; omega), List.getElem?_take,
          if_pos (by omega)]
        simp
      · rw [List.getElem?_set_ne (by omega), List.getElem?_append_right (by simp; omega),
          List.getElem?_append_right (by simp; omega), List.getElem?_drop, List.getElem?_drop, List.length_take,
          List.length_take]
        congr 1
        omega
    have hpick : ∃ c, vget (if c = true then x else y) i = ok t[i] := by
      rcases htm i (by omega) with h | h
      · refine ⟨true, ?_⟩
        unfold vget
        rw [if_pos rfl, ← h, List.getElem?_eq_getElem hit]
      · refine ⟨false, ?_⟩
        unfold vget
        rw [if_neg (by simp), ← h, List.getElem?_eq_getElem hit]
    obtain ⟨c, hc⟩ := hpick
    obtain ⟨b, hb⟩ := hf c
    refine Sim.Reaches.bind (Sim.Reaches.bernoulli b) (Sim.Reaches.lift ?_)
    unfold recombineBit
    rw [hb, hc, ok_bind, vset_eq hlen, hset]

/-- C64: uniform crossover returns a vector each of whose bits comes from one of the parents, and every such vector is
possible. -/
theorem uniform_crossover_mixes {x y z : BV} (hx : z.length = x.length) (hy : z.length = y.length) :
    Sim.Post (uniformRecombine x y z) (Mixes x y) ∧ ∀ t, Mixes x y t → Sim.Reaches (uniformRecombine x y z) t :=
  ⟨uniformRecombine_mixes hx hy, fun _ ht =>
    Sim.Reaches.bind (a := ()) (Sim.Reaches.lift (assert_pos (by simp [hx])))
      (Sim.Reaches.bind (a := ()) (Sim.Reaches.lift (assert_pos (by simp [hy])))
        (recombine_loop_onto (first := fun b => b) (fun c => ⟨c, rfl⟩) hx ht))⟩

/-- C64: the same for biased crossover. -/
theorem biased_crossover_mixes {x y z : BV} (hx : z.length = x.length) (hy : z.length = y.length) :
    Sim.Post (biasedRecombine x y z) (Mixes x y) ∧ ∀ t, Mixes x y t → Sim.Reaches (biasedRecombine x y z) t :=
  ⟨biasedRecombine_mixes hx hy, fun _ ht =>
    Sim.Reaches.bind (a := ()) (Sim.Reaches.lift (assert_pos (by simp [hx])))
      (Sim.Reaches.bind (a := ()) (Sim.Reaches.lift (assert_pos (by simp [hy])))
        (recombine_loop_onto (first := fun b => !b) (fun c => ⟨!c, Bool.not_not c⟩) hx ht))⟩

/-- C64: with each parent, the offspring keeps the bits on which the parents agree. -/
theorem mixes_agreement {x y z : BV} (h : Mixes x y z) {i : Nat} {b : Bool} (hx : x[i]? = some b)
    (hy : y[i]? = some b) : z[i]? = some b := by
  obtain ⟨hi, _⟩ := List.getElem?_eq_some_iff.mp hx
  rcases h.2 i hi with e | e
  · rw [e, hx]
  · rw [e, hy]

example : Mixes [true, false, true] [false, false, false] [true, false, false] :=
  ⟨rfl, by intro i hi; match i, hi with | 0, _ => exact Or.inl rfl | 1, _ => exact Or.inl rfl | 2, _ => exact Or.inr rfl⟩
end Hnco
