import Verif.Random
import Mathlib.Data.List.Sort

/-!
# Sorting

`std::sort` leaves the order of equivalent elements unspecified: the model gives any sorted rearrangement,
chosen by a draw.  If there is none, the comparison is not a strict weak order, and the behaviour is undefined.
-/

namespace Hnco

namespace Sim

/-- The rearrangements of `l` in which no element is less than an element before it. -/
def sorted {α : Type u} (lt : α → α → Bool) (l : List α) : List (List α) :=
  l.permutations'.filter (fun r => decide (r.Pairwise (fun a b => lt b a = false)))

/-- `std::sort(l.begin(), l.end(), lt)`. -/
def sort {α : Type u} (lt : α → α → Bool) (l : List α) : Sim (List α) := fun ds =>
  match ds with
  | [] => .out
  | d :: ds =>
    match (sorted lt l)[d % (sorted lt l).length]? with
    | some r => .ok r ds
    | none => .ub

theorem mem_sorted {α : Type u} {lt : α → α → Bool} {l r : List α} :
    r ∈ sorted lt l ↔ r.Perm l ∧ r.Pairwise (fun a b => lt b a = false) := by
  unfold sorted
  rw [List.mem_filter, List.mem_permutations', decide_eq_true_eq]

/-- Every sorted rearrangement is the outcome of some draw. -/
theorem sort_onto {α : Type u} {lt : α → α → Bool} {l r : List α} (h : r.Perm l)
    (hs : r.Pairwise (fun a b => lt b a = false)) : ∃ d, sort lt l [d] = .ok r [] := by
  obtain ⟨i, hi, hr⟩ := List.getElem_of_mem (mem_sorted.mpr ⟨h, hs⟩)
  refine ⟨i, ?_⟩
  unfold sort
  simp only [Nat.mod_eq_of_lt hi, List.getElem?_eq_getElem hi, hr]

/-- Sorting with a comparison whose negation is transitive and total. -/
theorem Post.sort {α : Type u} {lt : α → α → Bool} (l : List α)
    (htrans : ∀ a b c, lt b a = false → lt c b = false → lt c a = false)
    (htotal : ∀ a b, lt a b = false ∨ lt b a = false) :
    Post (sort lt l) (fun r => r.Perm l ∧ r.Pairwise (fun a b => lt b a = false)) := by
  intro ds
  cases ds with
  | nil => trivial
  | cons d ds =>
    have hne : (l.mergeSort (fun a b => !lt b a)) ∈ sorted lt l := by
      rw [mem_sorted]
      refine ⟨List.mergeSort_perm _ _, ?_⟩
      refine (List.pairwise_mergeSort ?_ ?_ l).imp ?_
      · intro a b c h1 h2
        simp only [Bool.not_eq_true'] at h1 h2 ⊢
        exact htrans a b c h1 h2
      · intro a b
        rcases htotal a b with h | h <;> simp [h]
      · intro a b h
        simpa using h
    have hlt : d % (sorted lt l).length < (sorted lt l).length :=
      Nat.mod_lt _ (List.length_pos_of_mem hne)
    unfold Sim.sort
    simp only [List.getElem?_eq_getElem hlt]
    exact mem_sorted.mp (List.getElem_mem hlt)

/-! ## Partial sorting -/

/-- The rearrangements of `l` whose first `k` elements are sorted and in which no later element is less than one of
them. -/
def partiallySorted {α : Type u} (lt : α → α → Bool) (k : Nat) (l : List α) : List (List α) :=
  l.permutations'.filter (fun r => decide ((r.take k).Pairwise (fun a b => lt b a = false)) &&
    decide (∀ a ∈ r.take k, ∀ b ∈ r.drop k, lt b a = false))

/-- `std::partial_sort(l.begin(), l.begin() + k, l.end(), lt)`: the order of the elements after the first `k` is
unspecified. -/
def partialSort {α : Type u} (lt : α → α → Bool) (k : Nat) (l : List α) : Sim (List α) := fun ds =>
  if l.length < k then .ub else
    match ds with
    | [] => .out
    | d :: ds =>
      match (partiallySorted lt k l)[d % (partiallySorted lt k l).length]? with
      | some r => .ok r ds
      | none => .ub

theorem mem_partiallySorted {α : Type u} {lt : α → α → Bool} {k : Nat} {l r : List α} :
    r ∈ partiallySorted lt k l ↔ r.Perm l ∧ (r.take k).Pairwise (fun a b => lt b a = false) ∧
      ∀ a ∈ r.take k, ∀ b ∈ r.drop k, lt b a = false := by
  unfold partiallySorted
  rw [List.mem_filter, List.mem_permutations', Bool.and_eq_true, decide_eq_true_eq, decide_eq_true_eq]

/-- Partial sorting with a comparison whose negation is transitive and total. -/
theorem Post.partialSort {α : Type u} {lt : α → α → Bool} {k : Nat} (l : List α) (hk : k ≤ l.length)
    (htrans : ∀ a b c, lt b a = false → lt c b = false → lt c a = false)
    (htotal : ∀ a b, lt a b = false ∨ lt b a = false) :
    Post (partialSort lt k l) (fun r => r.Perm l ∧ (r.take k).Pairwise (fun a b => lt b a = false) ∧
      ∀ a ∈ r.take k, ∀ b ∈ r.drop k, lt b a = false) := by
  intro ds
  unfold Sim.partialSort
  rw [if_neg (Nat.not_lt.mpr hk)]
  cases ds with
  | nil => trivial
  | cons d ds =>
    have hne : (l.mergeSort (fun a b => !lt b a)) ∈ partiallySorted lt k l := by
      rw [mem_partiallySorted]
      have hs : (l.mergeSort (fun a b => !lt b a)).Pairwise (fun a b => lt b a = false) := by
        refine (List.pairwise_mergeSort ?_ ?_ l).imp ?_
        · intro a b c h1 h2
          simp only [Bool.not_eq_true'] at h1 h2 ⊢
          exact htrans a b c h1 h2
        · intro a b
          rcases htotal a b with h | h <;> simp [h]
        · intro a b h
          simpa using h
      rw [← List.take_append_drop k (l.mergeSort _), List.pairwise_append] at hs
      exact ⟨List.mergeSort_perm _ _, hs.1, hs.2.2⟩
    have hlt : d % (partiallySorted lt k l).length < (partiallySorted lt k l).length :=
      Nat.mod_lt _ (List.length_pos_of_mem hne)
    simp only [List.getElem?_eq_getElem hlt]
    exact mem_partiallySorted.mp (List.getElem_mem hlt)

/-! ## Possible results -/

/-- Some draws give the result `a`, whatever is drawn later. -/
def Reaches {α : Type u} (m : Sim α) (a : α) : Prop := ∃ ds : List Nat, ∀ rest, m (ds ++ rest) = .ok a rest

theorem Reaches.pure {α : Type u} (a : α) : Reaches (pure a : Sim α) a := ⟨[], fun _ => rfl⟩

theorem Reaches.bind {α β : Type u} {m : Sim α} {f : α → Sim β} {a : α} {b : β} (h : Reaches m a)
    (hf : Reaches (f a) b) : Reaches (m >>= f) b := by
  obtain ⟨ds, hds⟩ := h
  obtain ⟨es, hes⟩ := hf
  refine ⟨ds ++ es, fun rest => ?_⟩
  change Sim.bind m f (ds ++ es ++ rest) = _
  unfold Sim.bind
  rw [List.append_assoc, hds]
  exact hes rest

theorem Reaches.lift {α : Type u} {o : Outcome α} {a : α} (h : o = .ok a) : Reaches (Sim.lift o) a :=
  ⟨[], fun _ => by rw [h]; rfl⟩

theorem Reaches.draw (d : Nat) : Reaches Sim.draw d := ⟨[d], fun _ => rfl⟩

theorem Reaches.bernoulli (b : Bool) : Reaches Sim.bernoulli b :=
  ⟨[b.toNat], fun _ => by cases b <;> rfl⟩

theorem Reaches.uniformInt {lo hi k : Nat} (h1 : lo ≤ k) (h2 : k ≤ hi) : Reaches (Sim.uniformInt lo hi) k := by
  unfold Sim.uniformInt
  refine Reaches.bind (a := ()) (Reaches.lift (Outcome.assert_pos (decide_eq_true (by omega)))) ?_
  refine Reaches.bind (Reaches.draw (k - lo)) ?_
  rw [Nat.mod_eq_of_lt (by omega), show lo + (k - lo) = k by omega]
  exact Reaches.pure k

theorem Reaches.shuffle {α : Type u} {l r : List α} (h : r.Perm l) : Reaches (Sim.shuffle l) r := by
  obtain ⟨i, hi, hr⟩ := List.getElem_of_mem (List.mem_permutations'.mpr h)
  refine ⟨[i], fun rest => ?_⟩
  simp only [Sim.shuffle, List.cons_append, List.nil_append, Nat.mod_eq_of_lt hi, List.getElem?_eq_getElem hi, hr,
    Option.getD_some]

theorem Reaches.sort {α : Type u} {lt : α → α → Bool} {l r : List α} (h : r.Perm l)
    (hs : r.Pairwise (fun a b => lt b a = false)) : Reaches (Sim.sort lt l) r := by
  obtain ⟨i, hi, hr⟩ := List.getElem_of_mem (mem_sorted.mpr ⟨h, hs⟩)
  refine ⟨[i], fun rest => ?_⟩
  unfold Sim.sort
  simp only [List.cons_append, List.nil_append, Nat.mod_eq_of_lt hi, List.getElem?_eq_getElem hi, hr]

theorem Reaches.partialSort {α : Type u} {lt : α → α → Bool} {k : Nat} {l r : List α} (hk : k ≤ l.length)
    (h : r.Perm l) (hs : (r.take k).Pairwise (fun a b => lt b a = false))
    (hd : ∀ a ∈ r.take k, ∀ b ∈ r.drop k, lt b a = false) : Reaches (Sim.partialSort lt k l) r := by
  obtain ⟨i, hi, hr⟩ := List.getElem_of_mem (mem_partiallySorted.mpr ⟨h, hs, hd⟩)
  refine ⟨[i], fun rest => ?_⟩
  unfold Sim.partialSort
  simp only [if_neg (Nat.not_lt.mpr hk), List.cons_append, List.nil_append, Nat.mod_eq_of_lt hi,
    List.getElem?_eq_getElem hi, hr]

end Sim

end Hnco
