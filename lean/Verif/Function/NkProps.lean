import Verif.Function.NkLandscape
import Verif.Neighborhood.Props
import Mathlib.Data.Nat.Bitwise
import Mathlib.Order.Interval.Finset.Nat

/-!
# NK landscapes (C70)
-/

namespace Hnco

open Outcome

variable {K : Type}

/-! ## Specification -/

/-- The row of site `i`: `k` other sites in decreasing order, then `i`. -/
def NkRow (n k i : Nat) (row : List Nat) : Prop :=
  ∃ l, row = l ++ [i] ∧ l.length = k ∧ l.Pairwise (· > ·) ∧ ∀ j ∈ l, j < n ∧ j ≠ i

/-- An NK landscape on `n` sites with `k` neighbours per site. -/
structure NkValid (n k : Nat) (f : Nk K) : Prop where
  sites : f.neighbors.length = n
  tables : f.partials.length = n
  row : ∀ (i : Nat) row, f.neighbors[i]? = some row → NkRow n k i row
  table : ∀ p ∈ f.partials, p.length = 2 ^ (k + 1)

/-- The contribution of a site with the given neighbours and partial function: the entry whose binary digits are the bits
of the neighbours. -/
def NkTerm (x : BV) (row : List Nat) (table : List K) (v : K) : Prop :=
  ∃ index : Nat, table[index]? = some v ∧
    ∀ m, m < row.length → ∃ j b, row[m]? = some j ∧ x[j]? = some b ∧ index.testBit m = b

/-! ## Sampling of the neighbours -/

theorem nkNeighbor_post {n k i j : Nat} {s : NkPick} (hj : j < n)
    (h : s.row.length = k + 1 ∧ (∃ l, s.row.drop s.a = l ++ [i] ∧ l.Pairwise (· > ·) ∧ ∀ m ∈ l, m < j ∧ m ≠ i) ∧ s.a ≤ k ∧
      (s.a = 0 ∨ (s.b = n - 1 - (if i < j then j - 1 else j) ∧ s.a ≤ s.b))) :
    Sim.Post (nkNeighbor i j s) (fun s => s.row.length = k + 1 ∧
      (∃ l, s.row.drop s.a = l ++ [i] ∧ l.Pairwise (· > ·) ∧ ∀ m ∈ l, m < j + 1 ∧ m ≠ i) ∧ s.a ≤ k ∧
      (s.a = 0 ∨ (s.b = n - 1 - (if i < j + 1 then j + 1 - 1 else j + 1) ∧ s.a ≤ s.b))) := by
  obtain ⟨hrow, ⟨l, hl, hsort, hmem⟩, hak, hab⟩ := h
  have hmem' : ∀ m ∈ l, m < j + 1 ∧ m ≠ i := fun m hm => ⟨by have := (hmem m hm).1; omega, (hmem m hm).2⟩
  unfold nkNeighbor
  by_cases ha : s.a = 0
  · rw [if_pos ha]
    exact Sim.Post.pure ⟨hrow, ⟨l, hl, hsort, hmem'⟩, hak, .inl ha⟩
  · rw [if_neg ha]
    obtain ⟨hb, hle⟩ := hab.resolve_left ha
    by_cases hji : j = i
    · rw [if_pos hji]
      refine Sim.Post.pure ⟨hrow, ⟨l, hl, hsort, hmem'⟩, hak, .inr ⟨?_, hle⟩⟩
      rw [hb]
      split <;> split <;> omega
    · rw [if_neg hji]
      refine (Sim.Post.assert (decide_eq_true hle)).bind (fun _ _ => Sim.Post.uniform.bind ?_)
      rintro u ⟨hu0, hu1⟩
      have hbpos : (0 : Rat) < (s.b : Rat) := by exact_mod_cast (show 0 < s.b by omega)
      have hb' : s.b - 1 = n - 1 - (if i < j + 1 then j + 1 - 1 else j + 1) := by
        rw [hb]
        split <;> split <;> omega
      by_cases hu : u < (s.a : Rat) / (s.b : Rat)
      · rw [if_pos hu]
        refine (Sim.Post.lift (P := fun row => row = s.row.set (s.a - 1) j)
          ⟨_, vset_eq (by rw [hrow]; omega), rfl⟩).bind ?_
        rintro row rfl
        refine Sim.Post.pure ⟨by simpa using hrow, ⟨j :: l, ?_, ?_, ?_⟩, by simp only; omega, ?_⟩
        · simp only
          have hlt : s.a - 1 < (s.row.set (s.a - 1) j).length := by rw [List.length_set, hrow]; omega
          rw [List.drop_eq_getElem_cons hlt, List.getElem_set_self, show s.a - 1 + 1 = s.a by omega,
            List.drop_set_of_lt (by omega), hl, List.cons_append]
        · exact List.pairwise_cons.mpr ⟨fun m hm => (hmem m hm).1, hsort⟩
        · intro m hm
          rcases List.mem_cons.mp hm with rfl | hm
          · exact ⟨by omega, hji⟩
          · exact hmem' m hm
        · simp only
          right
          exact ⟨hb', by omega⟩
      · rw [if_neg hu]
        have hne : s.a ≠ s.b := by
          intro he
          rw [he, div_self (ne_of_gt hbpos)] at hu
          exact hu hu1
        exact Sim.Post.pure ⟨hrow, ⟨l, hl, hsort, hmem'⟩, hak, .inr ⟨hb', by simp only; omega⟩⟩

theorem nkSite_post {n k i : Nat} {neighbors : List (List Nat)} {row : List Nat} (hi : i < n) (hk : k < n)
    (hrow : neighbors[i]? = some row) (hlen : row.length = k + 1) :
    Sim.Post (nkSite n i neighbors) (fun r => ∃ row, NkRow n k i row ∧ r = neighbors.set i row) := by
  unfold nkSite
  obtain ⟨hin, hget⟩ := List.getElem?_eq_some_iff.mp hrow
  refine (Sim.Post.lift (P := fun r => r = row) ⟨_, vget_eq hin, hget⟩).bind ?_
  intro r hr
  rw [hr]
  refine (Sim.Post.assert (decide_eq_true (by omega))).bind (fun _ _ => ?_)
  refine (Sim.Post.lift (P := fun r => r = row.set (row.length - 1) i) ⟨_, vset_eq (by omega), rfl⟩).bind ?_
  rintro _ rfl
  refine (Sim.Post.forRange (fun j (s : NkPick) => s.row.length = k + 1 ∧
      (∃ l, s.row.drop s.a = l ++ [i] ∧ l.Pairwise (· > ·) ∧ ∀ m ∈ l, m < j ∧ m ≠ i) ∧ s.a ≤ k ∧
      (s.a = 0 ∨ (s.b = n - 1 - (if i < j then j - 1 else j) ∧ s.a ≤ s.b))) (Nat.zero_le n) ?_ ?_).bind ?_
  · refine ⟨by simpa using hlen, ⟨[], ?_, List.Pairwise.nil, by simp⟩, ?_, .inr ⟨?_, ?_⟩⟩
    · simp only [List.length_set, hlen, Nat.add_sub_cancel]
      have hlt : k < (row.set k i).length := by rw [List.length_set]; omega
      rw [List.drop_eq_getElem_cons hlt, List.getElem_set_self, List.drop_eq_nil_of_le (by rw [List.length_set]; omega)]
      rfl
    · simp only [List.length_set, hlen]; omega
    · simp
    · simp only [List.length_set, hlen]; omega
  · intro j s _ hj hI
    exact nkNeighbor_post hj hI
  · rintro s ⟨h1, ⟨l, h2, h3, h4⟩, h5, h6⟩
    have h0 : s.a = 0 := by
      rcases h6 with h6 | ⟨h6, h7⟩
      · exact h6
      · rw [if_pos hi] at h6
        omega
    refine (Sim.Post.assert (decide_eq_true h0)).bind (fun _ _ => Sim.Post.lift ?_)
    rw [h0, List.drop_zero] at h2
    refine ⟨_, vset_eq hin, s.row, ⟨l, h2, ?_, h3, h4⟩, rfl⟩
    have := congrArg List.length h2
    simp only [List.length_append, List.length_singleton, h1] at this
    omega

/-- Rows and tables have the sizes of an NK landscape. -/
def NkSized (n k : Nat) (f : Nk K) : Prop :=
  f.neighbors.length = n ∧ f.partials.length = n ∧ (∀ row ∈ f.neighbors, row.length = k + 1) ∧
    ∀ p ∈ f.partials, p.length = 2 ^ (k + 1)

theorem nkRow_length {n k i : Nat} {row : List Nat} (h : NkRow n k i row) : row.length = k + 1 := by
  obtain ⟨l, rfl, h, _⟩ := h
  simp [h]

theorem NkValid.sized {n k : Nat} {f : Nk K} (h : NkValid n k f) : NkSized n k f := by
  refine ⟨h.sites, h.tables, ?_, h.table⟩
  intro row hr
  obtain ⟨i, hi, rfl⟩ := List.getElem_of_mem hr
  exact nkRow_length (h.row i _ (List.getElem?_eq_getElem hi))

theorem nkSites_post {n k : Nat} {neighbors : List (List Nat)} (hk : k < n) (hn : neighbors.length = n)
    (hrow : ∀ row ∈ neighbors, row.length = k + 1) :
    Sim.Post (Sim.forRange 0 n (nkSite n) neighbors) (fun r => r.length = n ∧
      ∀ (i : Nat) row, r[i]? = some row → NkRow n k i row) := by
  refine (Sim.Post.forRange (fun j (r : List (List Nat)) => r.length = n ∧ (∀ row ∈ r, row.length = k + 1) ∧
    ∀ (i : Nat) row, i < j → r[i]? = some row → NkRow n k i row) (Nat.zero_le n)
    ⟨hn, hrow, by intro i row h; omega⟩ ?_).mono ?_
  · rintro j r _ hj ⟨h1, h2, h3⟩
    have hget : r[j]? = some (r[j]'(by omega)) := List.getElem?_eq_getElem (by omega)
    refine (nkSite_post hj hk hget (h2 _ (List.getElem_mem _))).mono ?_
    rintro _ ⟨row, hr, rfl⟩
    refine ⟨by simpa using h1, ?_, ?_⟩
    · intro row' hr'
      rcases List.mem_or_eq_of_mem_set hr' with h | rfl
      · exact h2 _ h
      · exact nkRow_length hr
    · intro i row' hij hg
      rw [List.getElem?_set] at hg
      by_cases he : j = i
      · subst he
        simp only [h1, hj, if_true, Option.some.injEq] at hg
        exact hg ▸ hr
      · simp only [he, if_false] at hg
        exact h3 i row' (by omega) hg
  · rintro r ⟨h1, _, h3⟩
    refine ⟨h1, fun i row hg => h3 i row ?_ hg⟩
    obtain ⟨h, _⟩ := List.getElem?_eq_some_iff.mp hg
    omega

theorem vresize_nil {α : Type} (n : Nat) (x : α) : vresize ([] : List α) n x = List.replicate n x := by
  simp [vresize]

theorem vresize_self {α : Type} {l : List α} {n : Nat} (x : α) (h : l.length = n) : vresize l n x = l := by
  simp [vresize, ← h]

theorem nkStructure_post [Zero K] {n k : Nat} {n' k' : Int} {f : Nk K} (hk : k < n) (hn' : n' = n) (hk' : 0 < k') (hk30 : k' + 1 ≤ 30)
    (hf : NkSized n k ⟨vresize f.neighbors n (List.replicate (k' + 1).toNat 0),
      vresize f.partials n (List.replicate (2 ^ (k' + 1).toNat) 0)⟩) :
    Sim.Post (nkStructure n' k' f) (NkValid n k) := by
  subst hn'
  unfold nkStructure
  refine (Sim.Post.assert (decide_eq_true (by omega))).bind (fun _ _ => ?_)
  refine (Sim.Post.assert (decide_eq_true hk')).bind (fun _ _ => ?_)
  refine (Sim.Post.assert (decide_eq_true hk30)).bind (fun _ _ => ?_)
  simp only [Int.toNat_natCast]
  obtain ⟨h1, h2, h3, h4⟩ := hf
  simp only at h1 h2 h3 h4
  rw [h2]
  refine (nkSites_post hk h1 h3).bind ?_
  rintro r ⟨hr1, hr2⟩
  exact Sim.Post.pure ⟨hr1, h2, hr2, h4⟩

theorem nkFill_post {generator : Sim K} {P : K → Prop} (hg : Sim.Post generator P) (row : List K) :
    Sim.Post (nkFill generator row) (fun r => r.length = row.length ∧ ∀ v ∈ r, P v) := by
  unfold nkFill
  refine (Sim.Post.forRange (fun j (r : List K) => r.length = row.length ∧ ∀ (i : Nat) v, i < j → r[i]? = some v → P v)
    (Nat.zero_le _) ⟨rfl, by intro i v h; omega⟩ ?_).mono ?_
  · rintro j r _ hj ⟨h1, h2⟩
    refine hg.bind (fun v hv => Sim.Post.lift ⟨_, vset_eq (by omega), by simpa using h1, ?_⟩)
    intro i w hi hw
    rw [List.getElem?_set] at hw
    by_cases he : j = i
    · subst he
      simp only [h1, hj, if_true, Option.some.injEq] at hw
      exact hw ▸ hv
    · simp only [he, if_false] at hw
      exact h2 i w (by omega) hw
  · rintro r ⟨h1, h2⟩
    refine ⟨h1, fun v hv => ?_⟩
    obtain ⟨i, hi, rfl⟩ := List.getElem_of_mem hv
    exact h2 i _ (by omega) (List.getElem?_eq_getElem hi)

theorem nkGenerate_sized [Zero K] {generator : Sim K} {P : K → Prop} (hg : Sim.Post generator P) {n k : Nat} {k' : Int} {f : Nk K}
    (hk : k < n) (hk' : 0 < k') (hk30 : k' + 1 ≤ 30)
    (hf : NkSized n k ⟨vresize f.neighbors n (List.replicate (k' + 1).toNat 0),
      vresize f.partials n (List.replicate (2 ^ (k' + 1).toNat) 0)⟩) :
    Sim.Post (nkGenerate generator n k' f) (fun f => NkValid n k f ∧ ∀ p ∈ f.partials, ∀ v ∈ p, P v) := by
  unfold nkGenerate
  refine (Sim.Post.assert (decide_eq_true (by omega))).bind (fun _ _ => ?_)
  refine (Sim.Post.assert (decide_eq_true hk')).bind (fun _ _ => ?_)
  refine (nkStructure_post hk rfl hk' hk30 hf).bind ?_
  intro f hf
  refine (Sim.Post.forRange (fun j (r : List (List K)) => r.length = n ∧ (∀ p ∈ r, p.length = 2 ^ (k + 1)) ∧
    ∀ (i : Nat) p, i < j → r[i]? = some p → ∀ v ∈ p, P v) (Nat.zero_le _)
    ⟨hf.tables, hf.table, by intro i p h; omega⟩ ?_).bind ?_
  · rintro j r _ hj ⟨h1, h2, h3⟩
    rw [hf.tables] at hj
    refine (Sim.Post.lift (P := fun row => row = r[j]'(by omega)) ⟨_, vget_eq (by omega), rfl⟩).bind ?_
    rintro _ rfl
    refine (nkFill_post hg _).bind ?_
    rintro row ⟨hr1, hr2⟩
    refine Sim.Post.lift ⟨_, vset_eq (by omega), by simpa using h1, ?_, ?_⟩
    · intro p hp
      rcases List.mem_or_eq_of_mem_set hp with h | rfl
      · exact h2 _ h
      · rw [hr1]; exact h2 _ (List.getElem_mem _)
    · intro i p hi hp
      rw [List.getElem?_set] at hp
      by_cases he : j = i
      · subst he
        simp only [h1, hj, if_true, Option.some.injEq] at hp
        exact hp ▸ hr2
      · simp only [he, if_false] at hp
        exact h3 i p (by omega) hp
  · rintro r ⟨h1, h2, h3⟩
    refine Sim.Post.pure ⟨⟨hf.sites, h1, hf.row, h2⟩, ?_⟩
    intro p hp
    obtain ⟨i, hi, rfl⟩ := List.getElem_of_mem hp
    exact h3 i _ (by simp only at hi; rw [hf.tables]; omega) (List.getElem?_eq_getElem hi)

/-- C70: with `0 < k < n` (and `k ≤ 29`) a new instance is always generated: each site has `k` distinct neighbours, all of
them other sites, then itself, its partial function has `2 ^ (k + 1)` entries, and all of these come from the generator. -/
theorem nkGenerate_valid [Zero K] {generator : Sim K} {P : K → Prop} (hg : Sim.Post generator P) {n k : Nat}
    (hk : 0 < k) (hkn : k < n) (hk30 : k ≤ 29) :
    Sim.Post (nkGenerate generator n k nkNew) (fun f => NkValid n k f ∧ ∀ p ∈ f.partials, ∀ v ∈ p, P v) := by
  refine nkGenerate_sized hg hkn (by omega) (by omega) ?_
  simp only [nkNew, vresize_nil]
  refine ⟨by simp, by simp, ?_, ?_⟩
  · intro row hr
    rw [List.eq_of_mem_replicate hr, List.length_replicate]
    omega
  · intro p hp
    rw [List.eq_of_mem_replicate hp, List.length_replicate]
    congr 1

example : Sim.Post (Sim.uniform : Sim Rat) (fun u => 0 ≤ u ∧ u < 1) := Sim.Post.uniform

/-- C70 (negative part): generating again an instance on the same number of sites keeps the number of neighbours, whatever
is asked for. -/
theorem nkGenerate_again_keeps [Zero K] {generator : Sim K} {P : K → Prop} (hg : Sim.Post generator P) {n k k' : Nat} {f : Nk K}
    (hf : NkValid n k f) (hkn : k < n) (hk' : 0 < k') (hk30 : k' ≤ 29) :
    Sim.Post (nkGenerate generator n k' f) (fun f => NkValid n k f ∧ ∀ p ∈ f.partials, ∀ v ∈ p, P v) := by
  refine nkGenerate_sized hg hkn (by omega) (by omega) ?_
  rw [vresize_self _ hf.sites, vresize_self _ hf.tables]
  exact hf.sized

example : NkValid 3 1 (⟨[[2, 0], [0, 1], [0, 2]], [[1, 2, 3, 4], [5, 6, 7, 8], [9, 10, 11, 12]]⟩ : Nk Rat) := by
  refine ⟨rfl, rfl, ?_, by simp⟩
  intro i row h
  match i, h with
  | 0, h => cases h; exact ⟨[2], rfl, rfl, by simp, by simp⟩
  | 1, h => cases h; exact ⟨[0], rfl, rfl, by simp, by simp⟩
  | 2, h => cases h; exact ⟨[0], rfl, rfl, by simp, by simp⟩
  | i + 3, h => simp at h

theorem sim_lift_ok_bind {α β : Type} (a : α) (f : α → Sim β) : (Sim.lift (ok a) >>= f) = f a := rfl

/-- C70 (negative part): asking for as many neighbours as there are sites, or more, fails on an assertion whatever is drawn. -/
theorem nkGenerate_too_many [Zero K] (generator : Sim K) {n k : Nat} (hn : 0 < n) (hkn : n ≤ k) (hk30 : k ≤ 29) (ds : List Nat) :
    nkGenerate generator n k nkNew ds = .ub := by
  have hloop : ∀ row : List Nat, row.length = k + 1 →
      Sim.forRange 0 n (nkNeighbor 0) ⟨k, n - 1, row⟩ ds = if n = 1 then .ok ⟨k, n - 1, row⟩ ds else .ub := by
    intro row hrow
    have hk0 : ¬ k = 0 := by omega
    have h0 : nkNeighbor 0 0 ⟨k, n - 1, row⟩ = pure ⟨k, n - 1, row⟩ := by
      unfold nkNeighbor
      simp only [if_neg hk0, if_true]
    by_cases h1 : n = 1
    · subst h1
      change Sim.bind (nkNeighbor 0 0 ⟨k, 0, row⟩) _ ds = _
      rw [h0]
      rfl
    · obtain ⟨m, rfl⟩ : ∃ m, n = m + 2 := ⟨n - 2, by omega⟩
      rw [if_neg h1]
      change Sim.bind (nkNeighbor 0 0 ⟨k, m + 2 - 1, row⟩) _ ds = _
      rw [h0]
      change Sim.bind (nkNeighbor 0 1 ⟨k, m + 2 - 1, row⟩) _ ds = _
      have h2 : nkNeighbor 0 1 ⟨k, m + 2 - 1, row⟩ ds = .ub := by
        unfold nkNeighbor
        simp only [if_neg hk0, Nat.one_ne_zero, if_false]
        rw [assert_neg (decide_eq_false (by omega))]
        rfl
      simp only [Sim.bind, h2]
  have hsite : ∀ nb : List (List Nat), nb[0]? = some (List.replicate (k + 1) 0) → nkSite n 0 nb ds = .ub := by
    intro nb hnb
    obtain ⟨hin, hget⟩ := List.getElem?_eq_some_iff.mp hnb
    unfold nkSite
    rw [vget_eq hin, hget, sim_lift_ok_bind, assert_pos (by simp), sim_lift_ok_bind, vset_eq (by simp), sim_lift_ok_bind]
    change Sim.bind (Sim.forRange 0 n (nkNeighbor 0) ⟨_, _, _⟩) _ ds = _
    simp only [List.length_set, List.length_replicate, Nat.add_sub_cancel]
    unfold Sim.bind
    rw [hloop _ (by simp)]
    by_cases h1 : n = 1
    · rw [if_pos h1]
      change Sim.bind (Sim.lift (assert (decide (k = 0)))) _ ds = _
      rw [assert_neg (decide_eq_false (by omega))]
      rfl
    · rw [if_neg h1]
  unfold nkGenerate nkStructure
  rw [assert_pos (decide_eq_true (by omega : (n : Int) > 0)), assert_pos (decide_eq_true (by omega : (k : Int) > 0)),
    assert_pos (decide_eq_true (by omega : (k : Int) + 1 ≤ 30))]
  simp only [nkNew, vresize_nil, List.length_replicate, Int.toNat_natCast, Int.toNat_natCast_add_one]
  obtain ⟨m, rfl⟩ : ∃ m, n = m + 1 := ⟨n - 1, by omega⟩
  have hs := hsite (List.replicate (m + 1) (List.replicate (k + 1) 0)) (by simp)
  change Sim.bind (Sim.bind (Sim.bind (nkSite (m + 1) 0 _) _) _) _ ds = _
  simp only [Sim.bind, hs]

/-! ## Every instance can be generated -/

/-- Some result with a given property is reached. -/
def Sim.ReachesSome {α : Type} (m : Sim α) (P : α → Prop) : Prop := ∃ a, P a ∧ Sim.Reaches m a

theorem Sim.ReachesSome.forLoop {σ : Type} {body : Nat → σ → Sim σ} (I : Nat → σ → Prop) :
    ∀ n i s, I i s → (∀ j t, i ≤ j → j < i + n → I j t → Sim.ReachesSome (body j t) (I (j + 1))) →
      Sim.ReachesSome (Sim.forLoop n i body s) (I (i + n))
  | 0, i, s, h, _ => ⟨s, h, Sim.Reaches.pure _⟩
  | n + 1, i, s, h, hb => by
    obtain ⟨t, ht, hr⟩ := hb i s (le_refl _) (by omega) h
    obtain ⟨u, hu, hr2⟩ := Sim.ReachesSome.forLoop I n (i + 1) t ht (fun j t h1 h2 => hb j t (by omega) (by omega))
    exact ⟨u, by rwa [show i + 1 + n = i + (n + 1) by omega] at hu, Sim.Reaches.bind hr hr2⟩

theorem Sim.ReachesSome.forRange {σ : Type} {body : Nat → σ → Sim σ} (I : Nat → σ → Prop) {a b : Nat} {s : σ} (hab : a ≤ b)
    (h0 : I a s) (hb : ∀ j t, a ≤ j → j < b → I j t → Sim.ReachesSome (body j t) (I (j + 1))) :
    Sim.ReachesSome (Sim.forRange a b body s) (I b) := by
  have := Sim.ReachesSome.forLoop I (b - a) a s h0 (fun j t h1 h2 => hb j t h1 (by omega))
  rwa [show a + (b - a) = b by omega] at this

theorem filter_lt_succ_desc {l : List Nat} (hl : l.Pairwise (· > ·)) (j : Nat) :
    l.filter (· < j + 1) = if j ∈ l then j :: l.filter (· < j) else l.filter (· < j) := by
  induction l with
  | nil => simp
  | cons x t ih =>
    obtain ⟨hx, ht⟩ := List.pairwise_cons.mp hl
    rcases Nat.lt_trichotomy x j with h | h | h
    · have hj : j ∉ x :: t := by
        intro hm
        rcases List.mem_cons.mp hm with rfl | hm
        · omega
        · have := hx _ hm; omega
      have hj' : j ∉ t := fun hm => hj (List.mem_cons_of_mem _ hm)
      rw [if_neg hj, List.filter_cons_of_pos (by simp; omega), List.filter_cons_of_pos (by simp; omega), ih ht, if_neg hj']
    · subst h
      rw [if_pos List.mem_cons_self, List.filter_cons_of_pos (by simp), List.filter_cons_of_neg (by simp)]
      congr 1
      refine List.filter_congr (fun m hm => ?_)
      have := hx m hm
      simp; omega
    · rw [List.filter_cons_of_neg (by simp; omega), List.filter_cons_of_neg (by simp; omega), ih ht]
      have : (j ∈ x :: t) ↔ j ∈ t := by simp; omega
      simp only [this]

theorem nkRemaining_le {n i j : Nat} {l : List Nat} (hl : l.Pairwise (· > ·)) (hm : ∀ m ∈ l, m < n ∧ m ≠ i) (hi : i < n) (hj : j ≤ n) :
    l.length ≤ (l.filter (· < j)).length + (n - 1 - (if i < j then j - 1 else j)) := by
  have hnd : l.Nodup := hl.imp (fun h => by omega)
  have h1 : (l.filter (fun m => !decide (m < j))).length ≤ ((Finset.Ico j n).erase i).card := by
    rw [← List.toFinset_card_of_nodup (hnd.filter _)]
    refine Finset.card_le_card (fun m h => ?_)
    simp only [List.mem_toFinset, List.mem_filter, Bool.not_eq_true', decide_eq_false_iff_not] at h
    have := hm m h.1
    simp only [Finset.mem_erase, Finset.mem_Ico]
    omega
  have h2 := List.length_eq_length_filter_add (l := l) (fun m => decide (m < j))
  rw [h2]
  refine Nat.add_le_add_left (h1.trans ?_) _
  by_cases h : i < j
  · rw [if_pos h, Finset.erase_eq_of_notMem (by simp; omega), Nat.card_Ico]
    omega
  · rw [if_neg h, Finset.card_erase_of_mem (by simp; omega), Nat.card_Ico]
    omega

/-- Invariant of the inner loop on its way to the neighbours `l`. -/
def NkToward (n k i : Nat) (l : List Nat) (j : Nat) (s : NkPick) : Prop :=
  s.row.length = k + 1 ∧ s.row.drop s.a = l.filter (· < j) ++ [i] ∧ s.a + (l.filter (· < j)).length = k ∧
    (s.a = 0 ∨ s.b = n - 1 - (if i < j then j - 1 else j))

theorem nkNeighbor_reaches {n k i j : Nat} {l : List Nat} (hl : l.Pairwise (· > ·)) (hk : l.length = k)
    (hm : ∀ m ∈ l, m < n ∧ m ≠ i) (hi : i < n) (hj : j < n) {s : NkPick} (hs : NkToward n k i l j s) :
    Sim.ReachesSome (nkNeighbor i j s) (NkToward n k i l (j + 1)) := by
  obtain ⟨h1, h2, h3, h4⟩ := hs
  have hsucc := filter_lt_succ_desc hl j
  have hle := nkRemaining_le hl hm hi (j := j + 1) hj
  have hle0 := nkRemaining_le hl hm hi (j := j) hj.le
  unfold nkNeighbor
  by_cases ha : s.a = 0
  · rw [if_pos ha]
    have hall : l.filter (· < j + 1) = l.filter (· < j) := by
      have hlen : (l.filter (· < j + 1)).length ≤ k := hk ▸ List.length_filter_le _ _
      rw [hsucc] at hlen ⊢
      split at hlen
      · simp only [List.length_cons] at hlen; omega
      · rename_i h; rw [if_neg h]
    exact ⟨s, ⟨h1, by rw [hall, h2], by rw [hall, h3], .inl ha⟩, Sim.Reaches.pure _⟩
  rw [if_neg ha]
  have hb := h4.resolve_left ha
  by_cases hji : j = i
  · rw [if_pos hji]
    have hn : j ∉ l := fun h => (hm j h).2 hji
    rw [if_neg hn] at hsucc
    refine ⟨s, ⟨h1, by rw [hsucc, h2], by rw [hsucc, h3], .inr ?_⟩, Sim.Reaches.pure _⟩
    rw [hb]
    split <;> split <;> omega
  rw [if_neg hji]
  have hab : s.a ≤ s.b := by omega
  have hb' : s.b - 1 = n - 1 - (if i < j + 1 then j + 1 - 1 else j + 1) := by
    rw [hb]
    split <;> split <;> omega
  have hbpos : (0 : Rat) < (s.b : Rat) := by exact_mod_cast (show 0 < s.b by omega)
  have hapos : (0 : Rat) < (s.a : Rat) := by exact_mod_cast (show 0 < s.a by omega)
  by_cases hjl : j ∈ l
  · rw [if_pos hjl] at hsucc
    refine ⟨⟨s.a - 1, s.b - 1, s.row.set (s.a - 1) j⟩, ⟨by simpa using h1, ?_, ?_, .inr hb'⟩, ?_⟩
    · simp only
      have hlt : s.a - 1 < (s.row.set (s.a - 1) j).length := by rw [List.length_set, h1]; omega
      rw [List.drop_eq_getElem_cons hlt, List.getElem_set_self, show s.a - 1 + 1 = s.a by omega,
        List.drop_set_of_lt (by omega), h2, hsucc, List.cons_append]
    · simp only [hsucc, List.length_cons]; omega
    · refine Sim.Reaches.bind (a := ()) (Sim.Reaches.lift (assert_pos (decide_eq_true hab))) ?_
      refine Sim.Reaches.bind (Sim.Reaches.uniform (a := 0) (b := 1) (by omega)) ?_
      rw [if_pos (by simpa using div_pos hapos hbpos)]
      exact Sim.Reaches.bind (Sim.Reaches.lift (vset_eq (by omega))) (Sim.Reaches.pure _)
  · rw [if_neg hjl] at hsucc
    refine ⟨⟨s.a, s.b - 1, s.row⟩, ⟨h1, by rw [hsucc]; exact h2, by rw [hsucc]; exact h3, .inr hb'⟩, ?_⟩
    have hlt : s.a < s.b := by
      rw [hsucc, ← hb'] at hle
      omega
    refine Sim.Reaches.bind (a := ()) (Sim.Reaches.lift (assert_pos (decide_eq_true hab))) ?_
    refine Sim.Reaches.bind (Sim.Reaches.uniform hlt) ?_
    rw [if_neg (lt_irrefl _)]
    exact Sim.Reaches.pure _

theorem nkSite_reaches {n k i : Nat} {neighbors : List (List Nat)} {row target : List Nat} (hi : i < n)
    (hrow : neighbors[i]? = some row) (hlen : row.length = k + 1) (ht : NkRow n k i target) :
    Sim.Reaches (nkSite n i neighbors) (neighbors.set i target) := by
  obtain ⟨l, rfl, hk, hl, hm⟩ := ht
  obtain ⟨hin, hget⟩ := List.getElem?_eq_some_iff.mp hrow
  unfold nkSite
  refine Sim.Reaches.bind (Sim.Reaches.lift (vget_eq hin)) ?_
  rw [hget]
  refine Sim.Reaches.bind (a := ()) (Sim.Reaches.lift (assert_pos (decide_eq_true (by omega)))) ?_
  refine Sim.Reaches.bind (Sim.Reaches.lift (vset_eq (by omega))) ?_
  have h0 : NkToward n k i l 0 ⟨(row.set (row.length - 1) i).length - 1, n - 1, row.set (row.length - 1) i⟩ := by
    refine ⟨by simpa using hlen, ?_, ?_, .inr (by simp)⟩
    · simp only [List.length_set, hlen, Nat.add_sub_cancel]
      have hlt : k < (row.set k i).length := by rw [List.length_set]; omega
      rw [List.drop_eq_getElem_cons hlt, List.getElem_set_self, List.drop_eq_nil_of_le (by rw [List.length_set]; omega)]
      simp
    · simp [hlen]
  obtain ⟨s, ⟨_, h2, h3, _⟩, hr⟩ := Sim.ReachesSome.forRange (NkToward n k i l) (Nat.zero_le n) h0
    (fun j t _ hj ht => nkNeighbor_reaches hl hk hm hi hj ht)
  have hall : l.filter (· < n) = l := List.filter_eq_self.mpr (fun m h => decide_eq_true (hm m h).1)
  rw [hall] at h2 h3
  have ha : s.a = 0 := by omega
  rw [ha, List.drop_zero] at h2
  refine Sim.Reaches.bind hr ?_
  refine Sim.Reaches.bind (a := ()) (Sim.Reaches.lift (assert_pos (decide_eq_true ha))) ?_
  rw [h2]
  exact Sim.Reaches.lift (vset_eq hin)

/-- The list whose first `j` elements are those of `new`. -/
def overwritten {α : Type} (old new : List α) (j : Nat) : List α := new.take j ++ old.drop j

theorem overwritten_succ {α : Type} {old new : List α} (h : old.length = new.length) {j : Nat} (hj : j < new.length) :
    (overwritten old new j).set j new[j] = overwritten old new (j + 1) := by
  unfold overwritten
  have hl : (new.take j).length = j := by rw [List.length_take]; omega
  rw [List.set_append_right _ _ (by omega), hl, Nat.sub_self, List.drop_eq_getElem_cons (by omega), List.set_cons_zero,
    List.take_succ_eq_append_getElem hj, List.append_assoc, List.singleton_append]

theorem overwritten_length {α : Type} {old new : List α} (h : old.length = new.length) {j : Nat} (hj : j ≤ new.length) :
    (overwritten old new j).length = new.length := by
  simp only [overwritten, List.length_append, List.length_take, List.length_drop]
  omega

theorem overwritten_getElem? {α : Type} {old new : List α} (h : old.length = new.length) {j : Nat} (hj : j < new.length) :
    (overwritten old new j)[j]? = some (old[j]'(h ▸ hj)) := by
  unfold overwritten
  have hl : (new.take j).length = j := by rw [List.length_take]; omega
  rw [List.getElem?_append_right (by omega), hl, Nat.sub_self, List.getElem?_drop, Nat.add_zero, List.getElem?_eq_getElem]

theorem nkFill_reaches {generator : Sim K} {row new : List K} (h : row.length = new.length)
    (hg : ∀ v ∈ new, Sim.Reaches generator v) : Sim.Reaches (nkFill generator row) new := by
  unfold nkFill
  have := Sim.Reaches.forRange (body := fun j row => do
    let v ← generator
    Sim.lift (vset row j v)) (overwritten row new) (Nat.zero_le row.length) (s := row) (by simp [overwritten]) ?_
  · rwa [show overwritten row new row.length = new by
      unfold overwritten
      rw [List.drop_eq_nil_of_le (le_refl _), List.append_nil, h, List.take_length]] at this
  · intro j _ hj
    refine Sim.Reaches.bind (hg _ (List.getElem_mem (h ▸ hj))) (Sim.Reaches.lift ?_)
    rw [vset_eq (by rw [overwritten_length h (by omega)]; omega), overwritten_succ h (by omega)]

/-- C70: any NK landscape whose entries can be drawn can be generated. -/
theorem nkGenerate_onto [Zero K] {generator : Sim K} {n k : Nat} {f : Nk K} (hk : 0 < k) (hkn : k < n) (hk30 : k ≤ 29)
    (hf : NkValid n k f) (hg : ∀ p ∈ f.partials, ∀ v ∈ p, Sim.Reaches generator v) :
    Sim.Reaches (nkGenerate generator n k nkNew) f := by
  have hk1 : ((k : Int) + 1).toNat = k + 1 := by omega
  have hs : Sim.Reaches (nkStructure n k (nkNew : Nk K))
      ⟨f.neighbors, List.replicate n (List.replicate (2 ^ (k + 1)) 0)⟩ := by
    unfold nkStructure
    refine Sim.Reaches.bind (a := ()) (Sim.Reaches.lift (assert_pos (decide_eq_true (by omega)))) ?_
    refine Sim.Reaches.bind (a := ()) (Sim.Reaches.lift (assert_pos (decide_eq_true (by omega)))) ?_
    refine Sim.Reaches.bind (a := ()) (Sim.Reaches.lift (assert_pos (decide_eq_true (by omega)))) ?_
    simp only [nkNew, vresize_nil, Int.toNat_natCast, hk1]
    rw [List.length_replicate]
    refine Sim.Reaches.bind ?_ (Sim.Reaches.pure _)
    have hlen : (List.replicate n (List.replicate (k + 1) 0)).length = f.neighbors.length := by
      rw [List.length_replicate, hf.sites]
    have := Sim.Reaches.forRange (body := nkSite n) (overwritten (List.replicate n (List.replicate (k + 1) 0)) f.neighbors)
      (Nat.zero_le n) (s := List.replicate n (List.replicate (k + 1) 0)) (by simp [overwritten]) ?_
    · simpa [overwritten, ← hf.sites] using this
    · intro j _ hj
      have hj' : j < f.neighbors.length := by rw [hf.sites]; exact hj
      rw [← overwritten_succ hlen hj']
      refine nkSite_reaches (k := k) hj (overwritten_getElem? hlen hj') (by simp) ?_
      exact hf.row j _ (List.getElem?_eq_getElem hj')
  unfold nkGenerate
  refine Sim.Reaches.bind (a := ()) (Sim.Reaches.lift (assert_pos (decide_eq_true (by omega)))) ?_
  refine Sim.Reaches.bind (a := ()) (Sim.Reaches.lift (assert_pos (decide_eq_true (by omega)))) ?_
  refine Sim.Reaches.bind hs ?_
  simp only [List.length_replicate]
  refine Sim.Reaches.bind ?_ (Sim.Reaches.pure _)
  have hlen : (List.replicate n (List.replicate (2 ^ (k + 1)) (0 : K))).length = f.partials.length := by
    rw [List.length_replicate, hf.tables]
  have := Sim.Reaches.forRange (body := fun i partials => do
      let row ← Sim.lift (vget partials i)
      let row ← nkFill generator row
      Sim.lift (vset partials i row)) (overwritten (List.replicate n (List.replicate (2 ^ (k + 1)) (0 : K))) f.partials)
    (Nat.zero_le n) (s := List.replicate n (List.replicate (2 ^ (k + 1)) 0)) (by simp [overwritten]) ?_
  · simpa [overwritten, ← hf.tables] using this
  · intro j _ hj
    have hj' : j < f.partials.length := by rw [hf.tables]; exact hj
    have hlj : j < (overwritten (List.replicate n (List.replicate (2 ^ (k + 1)) (0 : K))) f.partials j).length := by
      rw [overwritten_length hlen hj'.le]; exact hj'
    refine Sim.Reaches.bind (Sim.Reaches.lift (vget_eq hlj)) ?_
    have hget := overwritten_getElem? hlen hj'
    rw [List.getElem?_eq_getElem hlj, List.getElem_replicate] at hget
    rw [Option.some.inj hget]
    refine Sim.Reaches.bind (nkFill_reaches (new := f.partials[j]) ?_ (hg _ (List.getElem_mem hj'))) ?_
    · rw [List.length_replicate, hf.table _ (List.getElem_mem hj')]
    · refine Sim.Reaches.lift ?_
      rw [vset_eq hlj, overwritten_succ hlen hj']

/-! ## Evaluation -/

theorem nkIndex_spec {row : List Nat} {x : BV} (h : ∀ j ∈ row, j < x.length) :
    (nkIndex row x).Returns (fun s => s.1 < 2 ^ row.length ∧ ∀ m, m < row.length → ∃ j b, row[m]? = some j ∧ x[j]? = some b ∧
      s.1.testBit m = b) := by
  unfold nkIndex
  refine (forRange_returns (I := fun t (s : Nat × Nat) => s.1 < 2 ^ t ∧ s.2 = 2 ^ t ∧
    ∀ m, m < t → ∃ j b, row[m]? = some j ∧ x[j]? = some b ∧ s.1.testBit m = b) (Nat.zero_le _) ?_ ?_).mono ?_
  · exact ⟨by simp, by simp, by intro m h; omega⟩
  · rintro t ⟨v, w⟩ _ ht ⟨h1, h2, h3⟩
    simp only at h1 h2
    subst h2
    have hb := h _ (List.getElem_mem ht)
    rw [vget_eq ht, ok_bind, vget_eq hb, ok_bind]
    refine returns_ok.mpr ⟨?_, by rw [pow_succ], ?_⟩
    · simp only [pow_succ]
      split <;> omega
    · intro m hm
      rcases Nat.lt_or_ge m t with hmt | hmt
      · obtain ⟨j, b, h4, h5, h6⟩ := h3 m hmt
        refine ⟨j, b, h4, h5, ?_⟩
        rw [← h6]
        split
        · simp only
          rw [Nat.add_comm, Nat.testBit_two_pow_add_gt hmt]
        · rfl
      · obtain rfl : m = t := by omega
        refine ⟨row[m], x[row[m]], List.getElem?_eq_getElem ht, List.getElem?_eq_getElem hb, ?_⟩
        split
        · rename_i hx
          rw [hx]
          simp only
          rw [Nat.add_comm, Nat.testBit_two_pow_add_eq, Nat.testBit_lt_two_pow h1]
          rfl
        · rename_i hx
          rw [Bool.eq_false_iff.mpr hx]
          exact Nat.testBit_lt_two_pow h1
  · rintro s ⟨h1, _, h3⟩
    exact ⟨h1, h3⟩

/-- C70: the value of a bit vector is the mean over the sites of the entry of the partial function which is selected by the
bits of the neighbours of the site; nothing is read out of bounds. -/
theorem nkEval_spec [Field K] {n k : Nat} {f : Nk K} (hf : NkValid n k f) (hn : 0 < n) {x : BV} (hx : x.length = n) :
    ∃ terms : List K, nkEval f x = ok (terms.sum / n) ∧ terms.length = n ∧
      ∀ i, i < n → ∃ row table v, f.neighbors[i]? = some row ∧ f.partials[i]? = some table ∧ terms[i]? = some v ∧
        NkTerm x row table v := by
  have hrow : ∀ i, i < n → ∃ row table v, f.neighbors[i]? = some row ∧ f.partials[i]? = some table ∧ NkTerm x row table v ∧
      ∀ r : K, (do
        let row ← vget f.neighbors i
        let s ← nkIndex row x
        let partials ← vget f.partials i
        assert (decide (s.1 < partials.length))
        let v ← vget partials s.1
        ok (r + v) : Outcome K) = ok (r + v) := by
    intro i hi
    have h1 : i < f.neighbors.length := by rw [hf.sites]; exact hi
    have h2 : i < f.partials.length := by rw [hf.tables]; exact hi
    have hr := hf.row i _ (List.getElem?_eq_getElem h1)
    have hlen := nkRow_length hr
    have htab := hf.table _ (List.getElem_mem h2)
    obtain ⟨s, hs, hs1, hs2⟩ := nkIndex_spec (row := f.neighbors[i]) (x := x) (by
      obtain ⟨l, he, _, _, hm⟩ := hr
      intro j hj
      rw [he] at hj
      rcases List.mem_append.mp hj with hj | hj
      · rw [hx]; exact (hm j hj).1
      · rw [List.mem_singleton.mp hj, hx]; exact hi)
    rw [hlen, ← htab] at hs1
    refine ⟨_, _, f.partials[i][s.1], List.getElem?_eq_getElem h1, List.getElem?_eq_getElem h2,
      ⟨s.1, List.getElem?_eq_getElem hs1, hs2⟩, ?_⟩
    intro r
    rw [vget_eq h1, ok_bind, hs, ok_bind, vget_eq h2, ok_bind, assert_pos (decide_eq_true hs1), ok_bind, vget_eq hs1, ok_bind]
  have hloop : (forRange 0 n (fun i (result : K) => do
        let row ← vget f.neighbors i
        let s ← nkIndex row x
        let partials ← vget f.partials i
        assert (decide (s.1 < partials.length))
        let v ← vget partials s.1
        ok (result + v)) 0).Returns (fun r => ∃ terms : List K, r = terms.sum ∧ terms.length = n ∧
      ∀ i, i < n → ∃ row table v, f.neighbors[i]? = some row ∧ f.partials[i]? = some table ∧ terms[i]? = some v ∧
        NkTerm x row table v) := by
    refine forRange_returns (I := fun t (r : K) => ∃ terms : List K, r = terms.sum ∧ terms.length = t ∧
      ∀ i, i < t → ∃ row table v, f.neighbors[i]? = some row ∧ f.partials[i]? = some table ∧ terms[i]? = some v ∧
        NkTerm x row table v) (Nat.zero_le _) ⟨[], rfl, rfl, by intro i h; omega⟩ ?_
    rintro t r _ ht ⟨terms, rfl, h2, h3⟩
    obtain ⟨row, table, v, g1, g2, g3, g4⟩ := hrow t ht
    rw [g4]
    refine returns_ok.mpr ⟨terms ++ [v], by simp, by simp [h2], ?_⟩
    intro i hi
    rcases Nat.lt_or_ge i t with h | h
    · rw [List.getElem?_append_left (by omega)]
      exact h3 i h
    · obtain rfl : i = t := by omega
      exact ⟨row, table, v, g1, g2, by rw [List.getElem?_append_right (by omega), h2]; simp, g3⟩
  obtain ⟨r, hr, terms, rfl, h2, h3⟩ := hloop
  refine ⟨terms, ?_, h2, h3⟩
  unfold nkEval
  rw [hf.tables, hr, ok_bind, assert_pos (decide_eq_true (by omega)), ok_bind]

/-- C70: the entry selected by the bits of the neighbours is unique, hence the value in `nkEval_spec` is determined. -/
theorem nkTerm_unique {x : BV} {row : List Nat} {table : List K} {v w : K} (ht : table.length = 2 ^ row.length)
    (hv : NkTerm x row table v) (hw : NkTerm x row table w) : v = w := by
  obtain ⟨a, ha, ha'⟩ := hv
  obtain ⟨b, hb, hb'⟩ := hw
  have hal := (List.getElem?_eq_some_iff.mp ha).1
  have hbl := (List.getElem?_eq_some_iff.mp hb).1
  rw [ht] at hal hbl
  have : a = b := by
    refine Nat.eq_of_testBit_eq (fun m => ?_)
    rcases Nat.lt_or_ge m row.length with h | h
    · obtain ⟨j, c, h1, h2, h3⟩ := ha' m h
      obtain ⟨j', c', h1', h2', h3'⟩ := hb' m h
      rw [h1] at h1'
      cases h1'
      rw [h2] at h2'
      cases h2'
      rw [h3, h3']
    · have hp := Nat.pow_le_pow_right (n := 2) (by omega) h
      rw [Nat.testBit_lt_two_pow (lt_of_lt_of_le hal hp), Nat.testBit_lt_two_pow (lt_of_lt_of_le hbl hp)]
  subst this
  rw [ha] at hb
  exact Option.some.inj hb

/-- The instance of the examples. -/
def nkSmall : Nk Rat := ⟨[[2, 0], [0, 1], [0, 2]], [[1, 2, 3, 4], [5, 6, 7, 8], [9, 10, 11, 12]]⟩

example : nkEval nkSmall [true, false, false] = ok (19 / 3) := by decide +kernel

example : NkTerm [true, false, false] [0, 1] [(5 : Rat), 6, 7, 8] 6 :=
  ⟨1, rfl, by
    intro m hm
    match m, hm with
    | 0, _ => exact ⟨0, true, rfl, rfl, rfl⟩
    | 1, _ => exact ⟨1, false, rfl, rfl, rfl⟩⟩

end Hnco
