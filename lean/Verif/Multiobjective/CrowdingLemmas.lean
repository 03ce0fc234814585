import Verif.Multiobjective.Nsga2
import Verif.Multiobjective.ParetoProps
import Mathlib.Algebra.BigOperators.Group.Finset.Basic
import Mathlib.Algebra.Order.Monoid.WithTop

/-! # Crowding distances: specification and lemmas -/

namespace Hnco

open Outcome

/-! ## Specification -/

/-- `g` is the gap around position `p` of the arrangement `l` of a front along objective `k`: infinite at both ends, otherwise the
difference between the next and the previous individuals. -/
def IsGap (values : List MoValue) (k : Nat) (l : List Nat) (p : Nat) (g : WithTop Rat) : Prop :=
  if p = 0 ∨ p + 1 = l.length then g = ⊤
  else ∃ i j a b, l[p - 1]? = some i ∧ l[p + 1]? = some j ∧ objective values i k = some a ∧ objective values j k = some b ∧
    g = ((b - a : Rat) : WithTop Rat)

/-- `l` arranges the members of a front by increasing values of objective `k`. -/
def IsArrangement (values : List MoValue) (k : Nat) (members l : List Nat) : Prop :=
  l.Perm members ∧ l.Pairwise (fun i j => ∀ a b, objective values i k = some a → objective values j k = some b → a ≤ b)

/-- The distance of each member of a front is the sum over the `m` objectives of the gaps around this member, in some arrangement of
the front along each objective. -/
def IsCrowding (m : Nat) (values : List MoValue) (members : List Nat) (crowding : List (WithTop Rat)) : Prop :=
  ∃ (σ : Nat → List Nat) (g : Nat → Nat → WithTop Rat),
    (∀ k, k < m → IsArrangement values k members (σ k) ∧
      ∀ (p i : Nat), (σ k)[p]? = some i → IsGap values k (σ k) p (g k i)) ∧
    ∀ i ∈ members, crowding[i]? = some (∑ k ∈ Finset.range m, g k i)

theorem IsCrowding.perm {m : Nat} {values : List MoValue} {l l' : List Nat} {c : List (WithTop Rat)} (h : IsCrowding m values l c)
    (hl : l.Perm l') : IsCrowding m values l' c := by
  obtain ⟨σ, g, h1, h2⟩ := h
  refine ⟨σ, g, fun k hk => ⟨⟨(h1 k hk).1.1.trans hl, (h1 k hk).1.2⟩, (h1 k hk).2⟩, fun i hi => h2 i (hl.symm.subset hi)⟩

theorem IsCrowding.congr {m : Nat} {values : List MoValue} {l : List Nat} {c c' : List (WithTop Rat)} (h : IsCrowding m values l c)
    (hc : ∀ i ∈ l, c'[i]? = c[i]?) : IsCrowding m values l c' := by
  obtain ⟨σ, g, h1, h2⟩ := h
  exact ⟨σ, g, h1, fun i hi => by rw [hc i hi, h2 i hi]⟩

/-! ## Sorting -/

/-- Sorting with a comparison which, on the elements of the list, compares keys. -/
theorem Sim.Post.sortOn {α β : Type} [LinearOrder β] {lt : α → α → Bool} (l : List α) (key : α → β)
    (h : ∀ a ∈ l, ∀ b ∈ l, lt a b = decide (key a < key b)) :
    Sim.Post (Sim.sort lt l) (fun r => r.Perm l ∧ r.Pairwise (fun a b => key a ≤ key b)) := by
  have conv : ∀ r : List α, r.Perm l → (r.Pairwise (fun a b => lt b a = false) ↔ r.Pairwise (fun a b => key a ≤ key b)) := by
    intro r hr
    refine List.Pairwise.iff_of_mem ?_
    intro a b ha hb
    rw [h b (hr.subset hb) a (hr.subset ha)]
    simp
  intro ds
  cases ds with
  | nil => trivial
  | cons d ds =>
    have hne : (l.mergeSort (fun a b => decide (key a ≤ key b))) ∈ Sim.sorted lt l := by
      rw [Sim.mem_sorted]
      refine ⟨List.mergeSort_perm _ _, ?_⟩
      rw [conv _ (List.mergeSort_perm _ _)]
      refine (List.pairwise_mergeSort ?_ ?_ l).imp ?_
      · intro a b c h1 h2
        simp only [decide_eq_true_eq] at h1 h2 ⊢
        exact h1.trans h2
      · intro a b
        rcases le_total (key a) (key b) with h | h <;> simp [h]
      · intro a b h
        simpa using h
    have hlt : d % (Sim.sorted lt l).length < (Sim.sorted lt l).length := Nat.mod_lt _ (List.length_pos_of_mem hne)
    unfold Sim.sort
    simp only [List.getElem?_eq_getElem hlt]
    have := Sim.mem_sorted.mp (List.getElem_mem hlt)
    exact ⟨this.1, (conv _ this.1).mp this.2⟩

theorem sortSlice_post {β : Type} [LinearOrder β] {valid : Nat → Bool} {lt : Nat → Nat → Bool} {A B C : List Nat} (key : Nat → β)
    (hv : ∀ i ∈ B, valid i = true) (h : ∀ a ∈ B, ∀ b ∈ B, lt a b = decide (key a < key b)) {start stop : Nat}
    (h1 : start = A.length) (h2 : stop = A.length + B.length) :
    Sim.Post (sortSlice valid lt start stop (A ++ B ++ C))
      (fun r => ∃ B', r = A ++ B' ++ C ∧ B'.Perm B ∧ B'.Pairwise (fun a b => key a ≤ key b)) := by
  subst h1 h2
  have e : ((A ++ B ++ C).drop A.length).take (A.length + B.length - A.length) = B := by
    rw [List.append_assoc, List.drop_left, Nat.add_sub_cancel_left, List.take_left]
  unfold sortSlice
  rw [e]
  refine (Sim.Post.assert (List.all_eq_true.mpr hv)).bind (fun _ _ => ?_)
  refine (Sim.Post.sortOn B key h).bind (fun r hr => Sim.Post.pure ⟨r, ?_, hr⟩)
  rw [← List.length_append, List.drop_left]
  congr 2
  rw [List.append_assoc, List.take_left]

/-! ## Splitting a list sorted by front -/

theorem split_sorted {F : Nat → Nat} (φ : Nat) : ∀ {l : List Nat}, l.Pairwise (fun a b => F a ≤ F b) →
    l = l.filter (fun i => decide (F i < φ)) ++ l.filter (fun i => decide (F i = φ)) ++ l.filter (fun i => decide (φ < F i))
  | [], _ => rfl
  | a :: l, h => by
    rw [List.pairwise_cons] at h
    have ih := split_sorted φ h.2
    rcases Nat.lt_trichotomy (F a) φ with h1 | h1 | h1
    · rw [List.filter_cons_of_pos (by simpa using h1), List.filter_cons_of_neg (by simp; omega),
        List.filter_cons_of_neg (by simp; omega), List.cons_append, List.cons_append, ← ih]
    · have e : l.filter (fun i => decide (F i < φ)) = [] := by
        rw [List.filter_eq_nil_iff]
        intro b hb
        have := h.1 b hb
        simp
        omega
      rw [e, List.nil_append] at ih
      rw [List.filter_cons_of_neg (by simp; omega), List.filter_cons_of_pos (by simpa using h1),
        List.filter_cons_of_neg (by simp; omega), e, List.nil_append, List.cons_append, ← ih]
    · have e : l.filter (fun i => decide (F i < φ)) = [] := by
        rw [List.filter_eq_nil_iff]
        intro b hb
        have := h.1 b hb
        simp
        omega
      have e' : l.filter (fun i => decide (F i = φ)) = [] := by
        rw [List.filter_eq_nil_iff]
        intro b hb
        have := h.1 b hb
        simp
        omega
      rw [e, e', List.nil_append, List.nil_append] at ih
      rw [List.filter_cons_of_neg (by simp; omega), List.filter_cons_of_neg (by simp; omega),
        List.filter_cons_of_pos (by simpa using h1), e, e', List.nil_append, List.nil_append, ← ih]

theorem takeWhile_split {p : Nat → Bool} {B C : List Nat} (hB : ∀ i ∈ B, p i = true) (hC : ∀ i ∈ C, p i = false) :
    (B ++ C).takeWhile p = B := by
  rw [List.takeWhile_append_of_pos hB]
  cases C with
  | nil => simp
  | cons c C => rw [List.takeWhile_cons_of_neg (by simp [hC c (by simp)])]; simp

/-- The positions of a front in a permutation sorted by front. -/
theorem findStop_eq {fronts : List Nat} {φ : Nat} {A B C : List Nat} (hB : ∀ i ∈ B, fronts[i]? = some φ)
    (hC : ∀ i ∈ C, fronts[i]? ≠ some φ) (hne : B ≠ []) : findStop fronts φ A.length (A ++ B ++ C) = A.length + B.length := by
  obtain ⟨b, B, rfl⟩ := List.exists_cons_of_ne_nil hne
  unfold findStop
  have e : (A ++ b :: B ++ C).drop (A.length + 1) = B ++ C := by
    rw [List.append_assoc, ← List.drop_drop, List.drop_left]
    rfl
  rw [e, takeWhile_split]
  · simp only [List.length_cons]
    omega
  · intro i hi
    simp [hB i (by simp [hi])]
  · intro i hi
    simpa using hC i hi

theorem findStart_eq {fronts : List Nat} {φ : Nat} {A B C : List Nat} (hA : ∀ i ∈ A, fronts[i]? ≠ some φ)
    (hB : ∀ i ∈ B, fronts[i]? = some φ) (hne : B ≠ []) : findStart fronts φ (A ++ B ++ C) = A.length := by
  obtain ⟨b, B, rfl⟩ := List.exists_cons_of_ne_nil hne
  unfold findStart
  rw [List.append_assoc, List.takeWhile_append_of_pos, List.cons_append, List.takeWhile_cons_of_neg]
  · simp
  · simp [hB b (by simp)]
  · intro i hi
    simpa using hA i hi

/-! ## Distances along an objective -/

section
variable {values : List MoValue} {k : Nat}

theorem readObjective_eq {i : Nat} {a : Rat} (h : objective values i k = some a) : readObjective values i k = ok a := by
  unfold objective at h
  obtain ⟨v, hv, hk⟩ := Option.bind_eq_some_iff.mp h
  unfold readObjective
  rw [show vget values i = ok v by unfold vget; rw [hv], ok_bind]
  unfold vget
  rw [hk]

theorem vget_slice {A B C : List Nat} {p : Nat} (hp : p < B.length) : vget (A ++ B ++ C) (A.length + p) = ok B[p] := by
  have : (A ++ B ++ C)[A.length + p]? = some B[p] := by
    rw [List.append_assoc, List.getElem?_append_right (by omega), Nat.add_sub_cancel_left, List.getElem?_append_left hp]
    simp
  unfold vget
  rw [this]

/-- The gap at a position, as a number. -/
def gapAt (V : Nat → Rat) (B : List Nat) (p : Nat) : WithTop Rat :=
  if p = 0 ∨ p + 1 = B.length then ⊤
  else match B[p - 1]?, B[p + 1]? with
    | some i, some j => ((V j - V i : Rat) : WithTop Rat)
    | _, _ => ⊤

theorem gapAt_isGap {V : Nat → Rat} {B : List Nat} (hV : ∀ x ∈ B, objective values x k = some (V x)) {p : Nat} (hp : p < B.length) :
    IsGap values k B p (gapAt V B p) := by
  unfold IsGap gapAt
  split
  · rfl
  · have h1 : p - 1 < B.length := by omega
    have h2 : p + 1 < B.length := by omega
    refine ⟨B[p - 1], B[p + 1], V B[p - 1], V B[p + 1], by simp, by simp, hV _ (List.getElem_mem h1), hV _ (List.getElem_mem h2), ?_⟩
    rw [List.getElem?_eq_getElem h1, List.getElem?_eq_getElem h2]

theorem crowdSorted_spec {V : Nat → Rat} {A B C : List Nat} (hB : B.Nodup) (hne : B ≠ [])
    (hV : ∀ x ∈ B, objective values x k = some (V x)) (hs : B.Pairwise (fun a b => V a ≤ V b))
    {crowding : List (WithTop Rat)} {c : Nat → WithTop Rat} (hc : ∀ x ∈ B, crowding[x]? = some (c x)) {start stop : Nat}
    (h1 : start = A.length) (h2 : stop = A.length + B.length) :
    (crowdSorted values k start stop (A ++ B ++ C) crowding).Returns (fun r => r.length = crowding.length ∧
      (∀ x, x ∉ B → r[x]? = crowding[x]?) ∧ ∀ (p x : Nat), B[p]? = some x → r[x]? = some (c x + gapAt V B p)) := by
  subst h1 h2
  have hpos : 0 < B.length := List.length_pos_iff.mpr hne
  have hlt : ∀ x ∈ B, x < crowding.length := fun x hx => (List.getElem?_eq_some_iff.mp (hc x hx)).1
  have hinj : ∀ {p q : Nat} (hp : p < B.length) (hq : q < B.length), B[p] = B[q] → p = q := fun hp hq h =>
    (List.Nodup.getElem_inj_iff hB).mp h
  unfold crowdSorted
  rw [show vget (A ++ B ++ C) A.length = ok B[0] from vget_slice (p := 0) hpos, ok_bind, vset_eq (hlt _ (List.getElem_mem _)), ok_bind,
    show A.length + B.length - 1 = A.length + (B.length - 1) by omega, vget_slice (p := B.length - 1) (by omega), ok_bind,
    vset_eq (by rw [List.length_set]; exact hlt _ (List.getElem_mem _)), ok_bind]
  -- the state after the two assignments
  have hstart : ∀ (p x : Nat), B[p]? = some x → ((crowding.set B[0] ⊤).set B[B.length - 1] ⊤)[x]? =
      some (if p = 0 ∨ p + 1 = B.length then ⊤ else c x) := by
    intro p x hx
    obtain ⟨hp, rfl⟩ := List.getElem?_eq_some_iff.mp hx
    have hl := hlt _ (List.getElem_mem hp)
    by_cases hlast : p + 1 = B.length
    · rw [if_pos (Or.inr hlast)]
      have : B[B.length - 1] = B[p] := by congr 1; omega
      rw [this, List.getElem?_set_self (by simpa using hl)]
    · rw [List.getElem?_set_ne (fun h => hlast (by have := hinj (by omega) hp h; omega))]
      by_cases h0 : p = 0
      · subst h0
        rw [if_pos (Or.inl rfl), List.getElem?_set_self hl]
      · rw [if_neg (by tauto), List.getElem?_set_ne (fun h => h0 (hinj (by omega) hp h).symm), hc _ (List.getElem_mem hp)]
  have hout : ∀ x, x ∉ B → ((crowding.set B[0] ⊤).set B[B.length - 1] ⊤)[x]? = crowding[x]? := by
    intro x hx
    rw [List.getElem?_set_ne (fun h => hx (by rw [← h]; exact List.getElem_mem _)),
      List.getElem?_set_ne (fun h => hx (by rw [← h]; exact List.getElem_mem _))]
  have hlen : ((crowding.set B[0] ⊤).set B[B.length - 1] ⊤).length = crowding.length := by simp
  generalize (crowding.set B[0] ⊤).set B[B.length - 1] ⊤ = d at hstart hout hlen
  by_cases h3 : A.length + B.length - A.length ≥ 3
  · rw [if_pos h3]
    refine (forRange_returns (fun iter (r : List (WithTop Rat)) => r.length = crowding.length ∧
      (∀ x, x ∉ B → r[x]? = crowding[x]?) ∧ ∀ (p x : Nat), B[p]? = some x → r[x]? =
        some (if p = 0 ∨ p + 1 = B.length then ⊤ else if A.length + p < iter then c x + gapAt V B p else c x)) (by omega)
      ⟨hlen, hout, ?_⟩ ?_).mono ?_
    · intro p x hx
      rw [hstart p x hx]
      split
      · rfl
      · rw [if_neg (by omega)]
    · rintro iter r hi1 hi2 ⟨r1, r2, r3⟩
      obtain ⟨p, rfl⟩ : ∃ p, iter = A.length + p := ⟨iter - A.length, by omega⟩
      have hp0 : p ≠ 0 := by omega
      have hp1 : p + 1 < B.length := by omega
      unfold crowdInterior
      rw [show A.length + p + 1 = A.length + (p + 1) by omega, vget_slice hp1, ok_bind,
        show A.length + p - 1 = A.length + (p - 1) by omega, vget_slice (by omega), ok_bind,
        readObjective_eq (hV _ (List.getElem_mem hp1)), ok_bind,
        readObjective_eq (hV _ (List.getElem_mem (show p - 1 < B.length by omega))), ok_bind,
        assert_pos, ok_bind, vget_slice (by omega), ok_bind]
      · have hx : B[p]? = some B[p] := by simp
        have hr := r3 p B[p] hx
        rw [if_neg (by omega), if_neg (by omega)] at hr
        have hl : B[p] < r.length := (List.getElem?_eq_some_iff.mp hr).1
        rw [show vget r B[p] = ok (c B[p]) by unfold vget; rw [hr], ok_bind, vset_eq hl]
        refine returns_ok.mpr ⟨by simpa using r1, ?_, ?_⟩
        · intro x hx
          rw [List.getElem?_set_ne (fun h => hx (by rw [← h]; exact List.getElem_mem _))]
          exact r2 x hx
        · intro q x hq
          obtain ⟨hq', rfl⟩ := List.getElem?_eq_some_iff.mp hq
          by_cases hqp : q = p
          · subst hqp
            rw [List.getElem?_set_self hl, if_neg (by omega), if_pos (by omega)]
            unfold gapAt
            rw [if_neg (by omega), List.getElem?_eq_getElem hp1, List.getElem?_eq_getElem (show q - 1 < B.length by omega)]
          · rw [List.getElem?_set_ne (fun h => hqp (hinj (by omega) hq' h).symm), r3 q _ hq]
            split
            · rfl
            · by_cases hlt' : A.length + q < A.length + p
              · rw [if_pos hlt', if_pos (by omega)]
              · rw [if_neg hlt', if_neg (by omega)]
      · have := List.pairwise_iff_getElem.mp hs (p - 1) (p + 1) (by omega) hp1 (by omega)
        simpa using this
    · rintro r ⟨r1, r2, r3⟩
      refine ⟨r1, r2, ?_⟩
      intro p x hx
      have hp : p < B.length := (List.getElem?_eq_some_iff.mp hx).1
      rw [r3 p x hx]
      by_cases he : p = 0 ∨ p + 1 = B.length
      · rw [if_pos he]
        unfold gapAt
        rw [if_pos he]
        simp
      · rw [if_neg he, if_pos (by omega)]
  · rw [if_neg h3]
    refine returns_ok.mpr ⟨hlen, hout, ?_⟩
    intro p x hx
    have hp : p < B.length := (List.getElem?_eq_some_iff.mp hx).1
    have he : p = 0 ∨ p + 1 = B.length := by omega
    rw [hstart p x hx, if_pos he]
    unfold gapAt
    rw [if_pos he]
    simp

end

/-! ## Distances of a front -/

theorem crowdObjectives_post {values : List MoValue} {m : Nat} {A B C : List Nat} (hB : B.Nodup) (hne : B ≠ [])
    (hV : ∀ x ∈ B, ∀ k, k < m → (objective values x k).isSome) {crowding : List (WithTop Rat)}
    (hc : ∀ x ∈ B, crowding[x]? = some 0) {start stop : Nat} (h1 : start = A.length) (h2 : stop = A.length + B.length) :
    Sim.Post (Sim.forRange 0 m (crowdObjective values start stop) (A ++ B ++ C, crowding)) (fun r =>
      ∃ B', r.1 = A ++ B' ++ C ∧ B'.Perm B ∧ r.2.length = crowding.length ∧ (∀ x, x ∉ B → r.2[x]? = crowding[x]?) ∧
        IsCrowding m values B r.2) := by
  have key : ∀ k, k < m → ∃ V : Nat → Rat, ∀ x ∈ B, objective values x k = some (V x) := by
    intro k hk
    refine ⟨fun x => (objective values x k).getD 0, fun x hx => ?_⟩
    obtain ⟨v, hv⟩ := Option.isSome_iff_exists.mp (hV x hx k hk)
    simp only [hv, Option.getD_some]
  refine (Sim.Post.forRange (I := fun j (r : List Nat × List (WithTop Rat)) =>
      (∃ B', r.1 = A ++ B' ++ C ∧ B'.Perm B) ∧ r.2.length = crowding.length ∧ (∀ x, x ∉ B → r.2[x]? = crowding[x]?) ∧
        IsCrowding j values B r.2) (Nat.zero_le _) ⟨⟨B, rfl, List.Perm.refl _⟩, rfl, fun _ _ => rfl, ?_⟩ ?_).mono ?_
  · exact ⟨fun _ => [], fun _ _ => 0, fun k hk => by omega, fun i hi => by simpa using hc i hi⟩
  · rintro j ⟨perm, d⟩ _ hj ⟨⟨B1, e1, p1⟩, d1, d2, σ, g, g1, g2⟩
    simp only at e1 d1 d2 g2
    subst e1
    obtain ⟨V, hV'⟩ := key j hj
    unfold crowdObjective
    have hV1 : ∀ x ∈ B1, objective values x j = some (V x) := fun x hx => hV' x (p1.subset hx)
    refine (sortSlice_post (B := B1) V ?_ ?_ h1 (by rw [h2, p1.length_eq])).bind ?_
    · intro i hi
      rw [hV1 i hi]
      rfl
    · intro a ha b hb
      unfold objectiveLess
      rw [hV1 a ha, hV1 b hb]
    · rintro _ ⟨B2, rfl, p2, s2⟩
      have p12 := p2.trans p1
      obtain ⟨r, e, r1, r2, r3⟩ := crowdSorted_spec (values := values) (k := j) (V := V) (A := A) (B := B2) (C := C)
        (p12.nodup_iff.mpr hB) (by
          rintro rfl
          exact hne (List.Perm.nil_eq p12).symm) (fun x hx => hV1 x (p2.subset hx)) s2 (crowding := d)
        (c := fun x => ∑ k ∈ Finset.range j, g k x) (fun x hx => g2 x (p12.subset hx)) (start := start) (stop := stop) h1
        (by rw [h2, p12.length_eq])
      refine Sim.Post.lift_bind e (Sim.Post.pure ⟨⟨B2, rfl, p12⟩, r1.trans d1, ?_, ?_⟩)
      · intro x hx
        rw [r2 x (fun h => hx (p12.subset h))]
        exact d2 x hx
      · refine ⟨fun k => if k = j then B2 else σ k,
          fun k x => if k = j then gapAt V B2 (B2.idxOf x) else g k x, ?_, ?_⟩
        · intro k hk
          by_cases hkj : k = j
          · subst hkj
            simp only [if_pos]
            refine ⟨⟨p12, ?_⟩, ?_⟩
            · refine s2.imp_of_mem ?_
              intro a b ha hb hab x y hx hy
              rw [hV1 a (p2.subset ha)] at hx
              rw [hV1 b (p2.subset hb)] at hy
              cases hx
              cases hy
              exact hab
            · intro p i hp
              obtain ⟨hp', rfl⟩ := List.getElem?_eq_some_iff.mp hp
              rw [(p12.nodup_iff.mpr hB).idxOf_getElem]
              exact gapAt_isGap (fun x hx => hV1 x (p2.subset hx)) hp'
          · simp only [if_neg hkj]
            exact g1 k (by omega)
        · intro i hi
          have hi2 : i ∈ B2 := p12.symm.subset hi
          have hidx : B2.idxOf i < B2.length := List.idxOf_lt_length_of_mem hi2
          rw [r3 (B2.idxOf i) i (by rw [List.getElem?_eq_getElem hidx, List.getElem_idxOf hidx]), Finset.sum_range_succ]
          simp only [if_true]
          congr 2
          refine Finset.sum_congr rfl (fun k hk => ?_)
          rw [if_neg]
          have := Finset.mem_range.mp hk
          omega
  · rintro r ⟨⟨B', e, p⟩, h3, h4, h5⟩
    exact ⟨B', e, p, h3, h4, h5⟩

end Hnco
