import Verif.App.FfgenSpec
import Verif.Function.NkProps
import Verif.Algorithm.AlgLemmas
import Verif.Walsh.BmProps

/-!
# Lemmas on the instance generators
-/

namespace Hnco

open Outcome

variable {K : Type} {α β : Type}

theorem Sim.Exactly.pure (a : α) : Sim.Exactly (pure a) (fun b => b = a) :=
  ⟨Sim.Post.pure rfl, fun b h => h ▸ Sim.Reaches.pure b⟩

theorem Sim.Exactly.congr {m : Sim α} {P Q : α → Prop} (h : Sim.Exactly m P) (hpq : ∀ a, P a ↔ Q a) : Sim.Exactly m Q :=
  ⟨h.1.mono fun a => (hpq a).mp, fun a ha => h.2 a ((hpq a).mpr ha)⟩

theorem Sim.Exactly.map {m : Sim α} {P : α → Prop} (h : Sim.Exactly m P) (f : α → β) :
    Sim.Exactly (do let a ← m; Pure.pure (f a)) (fun b => ∃ a, b = f a ∧ P a) :=
  ⟨h.1.bind fun a ha => Sim.Post.pure ⟨a, rfl, ha⟩, fun b ⟨a, hb, ha⟩ => hb ▸ (h.2 a ha).bind (Sim.Reaches.pure _)⟩

theorem Sim.Exactly.assert {m : Sim α} {P : α → Prop} {b : Bool} (hb : b = true) (h : Sim.Exactly m P) :
    Sim.Exactly (do Sim.lift (assert b); m) P :=
  ⟨(Sim.Post.assert hb).bind fun _ _ => h.1,
    fun a ha => Sim.Reaches.bind (a := ()) (Sim.Reaches.lift (assert_pos hb)) (h.2 a ha)⟩

theorem Sim.Exactly.lift_bind {γ : Type} {o : Outcome γ} {c : γ} {m : γ → Sim α} {P : α → Prop} (ho : o = ok c)
    (h : Sim.Exactly (m c) P) : Sim.Exactly (do let x ← Sim.lift o; m x) P :=
  ⟨(Sim.Post.lift (P := fun x => x = c) ⟨c, ho, rfl⟩).bind fun x hx => hx ▸ h.1,
    fun a ha => (Sim.Reaches.lift ho).bind (h.2 a ha)⟩

theorem nkFill_exactly {generator : Sim K} {P : K → Prop} (h : Sim.Exactly generator P) (row : List K) :
    Sim.Exactly (nkFill generator row) (fun r => r.length = row.length ∧ ∀ v ∈ r, P v) :=
  ⟨nkFill_post h.1 row, fun r hr => nkFill_reaches hr.1.symm fun v hv => h.2 v (hr.2 v hv)⟩

theorem vectorGenerate_exactly [Zero K] {generator : Sim K} {P : K → Prop} (h : Sim.Exactly generator P) {n : Nat} (hn : 0 < n) :
    Sim.Exactly (vectorGenerate generator n) (fun r => r.length = n ∧ ∀ v ∈ r, P v) := by
  unfold vectorGenerate
  refine Sim.Exactly.assert (decide_eq_true hn) ?_
  rw [vresize_nil]
  exact (nkFill_exactly h _).congr fun r => by rw [List.length_replicate]

/-! ## Deterministic loops -/

theorem Sim.forLoop_pure {σ : Type} {body : Nat → σ → Sim σ} (f : Nat → σ) :
    ∀ n i, (∀ j, i ≤ j → j < i + n → body j (f j) = Pure.pure (f (j + 1))) →
      Sim.forLoop n i body (f i) = Pure.pure (f (i + n))
  | 0, i, _ => rfl
  | n + 1, i, h => by
    have h1 := Sim.forLoop_pure f n (i + 1) (fun j h1 h2 => h j (by omega) (by omega))
    have h0 := h i (le_refl _) (by omega)
    unfold Sim.forLoop
    rw [h0, show i + (n + 1) = i + 1 + n by omega, ← h1]
    rfl

theorem stdGenerate_pure {σ : Type} (out : σ → K) (next : σ → σ) (f : Nat → σ) (hf : ∀ i, f (i + 1) = next (f i)) (l : List K) :
    stdGenerate (fun s => Pure.pure (out s, next s)) (f 0) l = Pure.pure ((List.range l.length).map fun i => out (f i)) := by
  unfold stdGenerate
  let new := (List.range l.length).map fun i => out (f i)
  have hl : l.length = new.length := by simp [new]
  have h := Sim.forLoop_pure (body := fun i (r : List K × σ) => do
      let v ← (Pure.pure (out r.2, next r.2) : Sim (K × σ))
      let l ← Sim.lift (vset r.1 i v.1)
      Pure.pure (l, v.2)) (fun i => (overwritten l new i, f i)) l.length 0 ?_
  · rw [Nat.zero_add] at h
    have h0 : overwritten l new 0 = l := by simp [overwritten]
    have h1 : overwritten l new l.length = new := by
      unfold overwritten
      rw [List.drop_eq_nil_of_le (le_refl _), List.append_nil, hl, List.take_length]
    rw [h0, h1] at h
    unfold Sim.forRange
    rw [Nat.sub_zero, h]
    rfl
  · intro j _ hj
    have hj' : j < new.length := by omega
    have hv : new[j] = out (f j) := by simp [new]
    change Sim.bind (Sim.lift (vset (overwritten l new j) j (out (f j)))) _ = _
    rw [vset_eq (by rw [overwritten_length hl (by omega)]; exact hj'), ← hv, overwritten_succ hl hj', hf]
    rfl

theorem forLoop_unit (generator : Sim K) : ∀ n i (l : List K), (do
      let r ← Sim.forLoop n i (fun i (r : List K × Unit) => do
        let v ← (do
          let v ← generator
          Pure.pure (v, r.2) : Sim (K × Unit))
        let l ← Sim.lift (vset r.1 i v.1)
        Pure.pure (l, v.2)) (l, ())
      Pure.pure r.1 : Sim (List K)) = Sim.forLoop n i (fun j row => do
        let v ← generator
        Sim.lift (vset row j v)) l
  | 0, i, l => rfl
  | n + 1, i, l => by
    have ih := forLoop_unit generator n (i + 1)
    funext ds
    conv => rhs; unfold Sim.forLoop
    conv => lhs; unfold Sim.forLoop
    have hb : ∀ {α β : Type} (m : Sim α) (f : α → Sim β) ds, (m >>= f) ds = Sim.bind m f ds := fun _ _ _ => rfl
    have hp : ∀ {α : Type} (a : α) ds, (Pure.pure a : Sim α) ds = .ok a ds := fun _ _ => rfl
    simp only [hb, hp, Sim.bind]
    cases hg : generator ds with
    | ok v rest =>
      simp only
      by_cases hi : i < l.length
      · have hs := congrFun (ih (l.set i v)) rest
        simp only [hb, hp, Sim.bind] at hs
        simp only [vset_eq hi, Sim.lift]
        exact hs
      · simp only [vset_ub (Nat.le_of_not_lt hi), Sim.lift]
    | throw e => rfl
    | ub => rfl
    | out => rfl

theorem stdGenerate_unit (generator : Sim K) (l : List K) :
    stdGenerate (fun u : Unit => do
      let v ← generator
      Pure.pure (v, u)) () l = nkFill generator l := by
  unfold stdGenerate nkFill Sim.forRange
  exact forLoop_unit generator _ _ l

/-! ## Grids -/

theorem gridSet_row {A : List (List α)} {i j : Nat} {r : List α} (hi : i < A.length) (hj : j < r.length) (v : α) :
    gridSet (A.set i r) i j v = ok (A.set i (r.set j v)) := by
  unfold gridSet
  rw [vget_eq (by simpa using hi), ok_bind, List.getElem_set_self, vset_eq hj, ok_bind, vset_eq (by simpa using hi),
    List.set_set]

/-- The grid whose row `i` is being replaced, up to column `j`. -/
def gridAt (Z T : List (List α)) (i j : Nat) : List (List α) :=
  (overwritten Z T i).set i (overwritten (Z[i]?.getD []) (T[i]?.getD []) j)

section GridAt

variable {Z T : List (List α)} (hs : Z.map List.length = T.map List.length)
include hs

theorem gridAt_lengths : Z.length = T.length := by
  have := congrArg List.length hs
  simpa using this

theorem gridAt_row (i : Nat) : (Z[i]?.getD []).length = (T[i]?.getD []).length := by
  have h := congrArg (fun l : List Nat => l[i]?) hs
  simp only [List.getElem?_map] at h
  cases hz : Z[i]? <;> cases ht : T[i]? <;> simp_all

theorem gridAt_start {i : Nat} (hi : i < T.length) : gridAt Z T i 0 = overwritten Z T i := by
  have hl := gridAt_lengths hs
  unfold gridAt
  apply List.ext_getElem?
  intro k
  rw [List.getElem?_set]
  by_cases hk : i = k
  · subst hk
    rw [if_pos rfl, if_pos (by rw [overwritten_length hl (by omega)]; exact hi), overwritten_getElem? hl hi,
      List.getElem?_eq_getElem (by omega : i < Z.length)]
    simp [overwritten]
  · rw [if_neg hk]

theorem gridAt_end {i : Nat} (hi : i < T.length) : gridAt Z T i (T[i]).length = overwritten Z T (i + 1) := by
  have hl := gridAt_lengths hs
  have hr := gridAt_row hs i
  rw [← overwritten_succ hl hi]
  unfold gridAt
  congr 1
  rw [List.getElem?_eq_getElem hi, Option.getD_some] at hr ⊢
  unfold overwritten
  rw [List.take_length, List.drop_eq_nil_of_le (by omega), List.append_nil]

theorem gridAt_set {i j : Nat} (hi : i < T.length) (hj : j < (T[i]).length) :
    gridSet (gridAt Z T i j) i j (T[i][j]) = ok (gridAt Z T i (j + 1)) := by
  have hl := gridAt_lengths hs
  have hr := gridAt_row hs i
  have ht : T[i]?.getD [] = T[i] := by rw [List.getElem?_eq_getElem hi]; rfl
  unfold gridAt
  rw [gridSet_row (by rw [overwritten_length hl (by omega)]; exact hi)
    (by rw [overwritten_length hr (by rw [ht]; omega), ht]; exact hj)]
  have hj' : j < (T[i]?.getD []).length := by rw [ht]; exact hj
  have := overwritten_succ hr hj'
  rw [← this]
  simp only [ht]

end GridAt

/-- The rows of `g` have the given sizes, and the entries of the first `i` rows satisfy `P`. -/
def RowsFilled (P : α → Prop) (shape : List Nat) (i : Nat) (g : List (List α)) : Prop :=
  g.map List.length = shape ∧ ∀ (a : Nat) row, a < i → g[a]? = some row → ∀ v ∈ row, P v

/-- Row `i` of `A` has been replaced by a row whose first `j` elements satisfy `P`. -/
def RowFilled (P : α → Prop) (A : List (List α)) (i len j : Nat) (g : List (List α)) : Prop :=
  ∃ r, g = A.set i r ∧ r.length = len ∧ ∀ (b : Nat) v, b < j → r[b]? = some v → P v

theorem RowsFilled.zero {P : α → Prop} {shape : List Nat} {g : List (List α)} (h : g.map List.length = shape) :
    RowsFilled P shape 0 g := ⟨h, fun a row ha => by omega⟩

theorem RowsFilled.start {P : α → Prop} {shape : List Nat} {i : Nat} {A : List (List α)} (h : RowsFilled P shape i A)
    (hi : i < shape.length) : RowFilled P A i shape[i] 0 A := by
  have hl : A.length = shape.length := by rw [← h.1, List.length_map]
  refine ⟨A[i]'(by omega), (List.set_getElem_self (by omega)).symm, ?_, fun b v hb => by omega⟩
  simp only [← h.1, List.getElem_map]

theorem RowFilled.step {P : α → Prop} {A g : List (List α)} {i len j : Nat} (h : RowFilled P A i len j g) (hi : i < A.length)
    (hj : j < len) {v : α} (hv : P v) : ∃ g', gridSet g i j v = ok g' ∧ RowFilled P A i len (j + 1) g' := by
  obtain ⟨r, rfl, hr, hp⟩ := h
  refine ⟨_, gridSet_row hi (by omega) v, r.set j v, rfl, by simpa using hr, ?_⟩
  intro b w hb hw
  rw [List.getElem?_set] at hw
  by_cases he : j = b
  · subst he
    simp only [hr, hj, if_true, Option.some.injEq] at hw
    exact hw ▸ hv
  · simp only [he, if_false] at hw
    exact hp b w (by omega) hw

theorem RowFilled.finish {P : α → Prop} {shape : List Nat} {i : Nat} {A g : List (List α)} (h : RowsFilled P shape i A)
    (hi : i < shape.length) (hr : RowFilled P A i shape[i] shape[i] g) : RowsFilled P shape (i + 1) g := by
  have hl : A.length = shape.length := by rw [← h.1, List.length_map]
  obtain ⟨r, rfl, hlen, hp⟩ := hr
  refine ⟨?_, ?_⟩
  · rw [List.map_set, h.1, hlen, List.set_getElem_self]
  · intro a row ha hrow v hv
    rw [List.getElem?_set] at hrow
    by_cases he : i = a
    · subst he
      simp only [hl, hi, if_true, Option.some.injEq] at hrow
      subst hrow
      obtain ⟨b, hb, rfl⟩ := List.getElem_of_mem hv
      exact hp b _ (by omega) (List.getElem?_eq_getElem hb)
    · simp only [he, if_false] at hrow
      exact h.2 a row (by omega) hrow v hv

theorem RowsFilled.all {P : α → Prop} {shape : List Nat} {g : List (List α)} (h : RowsFilled P shape shape.length g) :
    g.map List.length = shape ∧ ∀ row ∈ g, ∀ v ∈ row, P v := by
  refine ⟨h.1, fun row hrow => ?_⟩
  obtain ⟨a, ha, rfl⟩ := List.getElem_of_mem hrow
  exact h.2 a _ (by rw [← h.1, List.length_map]; exact ha) (List.getElem?_eq_getElem ha)

theorem shape_grid {g : List (List K)} {rows columns : Nat} :
    g.map List.length = List.replicate rows columns ↔ GridShape g rows columns := by
  unfold GridShape
  constructor
  · intro h
    have hl := congrArg List.length h
    simp only [List.length_map, List.length_replicate] at hl
    refine ⟨hl, fun row hr => ?_⟩
    exact List.eq_of_mem_replicate (h ▸ List.mem_map_of_mem hr)
  · rintro ⟨h1, h2⟩
    refine List.eq_replicate_iff.mpr ⟨by simpa using h1, ?_⟩
    intro b hb
    obtain ⟨row, hr, rfl⟩ := List.mem_map.mp hb
    exact h2 row hr

/-! ## The generators -/

theorem walsh2Resize_eq [Zero K] {n : Nat} (hn : 0 < n) :
    walsh2Resize (K := K) n = ok (List.replicate n 0, (List.range n).map fun i => List.replicate i 0) := by
  unfold walsh2Resize
  simp only [vresize_nil, List.length_replicate]
  rw [assert_pos (decide_eq_true hn), ok_bind]
  let T : List (List K) := (List.range n).map fun i => List.replicate i 0
  have hl : (List.replicate n ([] : List K)).length = T.length := by simp [T]
  obtain ⟨q, hq, hI⟩ := forRange_returns (a := 1) (b := n) (s := List.replicate n ([] : List K))
    (body := fun i (quadratic : List (List K)) => do
      let row ← vget quadratic i
      vset quadratic i (vresize row i 0)) (I := fun i q => q = overwritten (List.replicate n []) T i) (by omega) (by
      have hT : 0 < T.length := by simpa [T] using hn
      have h1 := overwritten_succ hl hT
      rw [← h1]
      have : T[0] = [] := by simp [T]
      rw [this]
      simp only [overwritten, List.take_zero, List.drop_zero, List.nil_append]
      refine (List.set_getElem_self (as := List.replicate n ([] : List K)) (i := 0) (by simpa using hn)).symm.trans ?_
      simp) (by
      rintro i q hi1 hi2 rfl
      have hT : i < T.length := by simpa [T] using hi2
      have hg := overwritten_getElem? hl hT
      have hlen := overwritten_length hl (j := i) (by omega)
      have hrow : vget (overwritten (List.replicate n []) T i) i = ok [] := by
        rw [vget_eq (by omega)]
        rw [List.getElem?_eq_getElem (by omega)] at hg
        simp only [Option.some.injEq] at hg
        rw [hg]; simp
      refine ⟨_, ?_, rfl⟩
      rw [hrow, ok_bind, vresize_nil, vset_eq (by omega), ← overwritten_succ hl hT]
      simp [T])
  rw [hq, ok_bind, hI]
  have : overwritten (List.replicate n []) T n = T := by
    unfold overwritten
    rw [List.drop_eq_nil_of_le (by simp), List.append_nil, List.take_of_length_le (by simp [T])]
  rw [this]
  rfl

theorem triangle_shape {T : List (List K)} {n : Nat} (z : K) (h : T.map List.length = List.range n) :
    ((List.range n).map fun i => List.replicate i z).map List.length = T.map List.length := by
  rw [h, List.map_map]
  apply List.ext_getElem <;> simp

theorem walsh2Generate_exactly [Zero K] {linearGen quadraticGen : Sim K} {P Q : K → Prop} (hP : Sim.Exactly linearGen P)
    (hQ : Sim.Exactly quadraticGen Q) {n : Nat} (hn : 0 < n) :
    Sim.Exactly (walsh2Generate linearGen quadraticGen n) (fun f => (f.1.length = n ∧ ∀ v ∈ f.1, P v) ∧
      f.2.map List.length = List.range n ∧ ∀ row ∈ f.2, ∀ v ∈ row, Q v) := by
  unfold walsh2Generate
  refine Sim.Exactly.assert (decide_eq_true hn) (Sim.Exactly.lift_bind (walsh2Resize_eq hn) ?_)
  have hlin := nkFill_exactly hP (List.replicate n 0)
  simp only [List.length_replicate] at hlin
  simp only [List.length_map, List.length_range]
  constructor
  · refine hlin.1.bind fun linear hl => ?_
    have := Sim.Post.forRange (body := fun i quadratic => Sim.forRange 0 i (fun j quadratic => do
        let v ← quadraticGen
        Sim.lift (gridSet quadratic i j v)) quadratic) (fun i => RowsFilled Q (List.range n) i) (a := 1) (b := n)
      (s := (List.range n).map fun i => List.replicate i 0) (by omega) ?_ ?_
    · refine this.bind fun g hg => Sim.Post.pure ⟨hl, ?_⟩
      exact RowsFilled.all (by rwa [List.length_range])
    · refine ⟨by apply List.ext_getElem <;> simp, ?_⟩
      intro a row ha hrow v hv
      obtain rfl : a = 0 := by omega
      rw [List.getElem?_map, List.getElem?_range hn] at hrow
      simp only [Option.map_some, List.replicate_zero, Option.some.injEq] at hrow
      subst hrow
      simp at hv
    · intro i A _ hi hA
      have hi' : i < (List.range n).length := by simpa using hi
      have hAl : i < A.length := by
        have := congrArg List.length hA.1
        simp only [List.length_map, List.length_range] at this
        omega
      have hs : (List.range n)[i] = i := by simp
      refine (Sim.Post.forRange (fun j => RowFilled Q A i i j) (Nat.zero_le _) ?_ ?_).mono ?_
      · have := hA.start hi'
        rwa [hs] at this
      · intro j g _ hj hg
        refine hQ.1.bind fun v hv => ?_
        obtain ⟨g', h1, h2⟩ := hg.step hAl hj hv
        exact Sim.Post.lift ⟨g', h1, h2⟩
      · intro g hg
        exact RowFilled.finish hA hi' (by rwa [hs])
  · rintro ⟨linear, T⟩ ⟨hl, hT, hv⟩
    have hs := triangle_shape 0 hT
    have hTl : T.length = n := by
      have := congrArg List.length hT
      simpa using this
    have hrow : ∀ i (hi : i < T.length), (T[i]).length = i := by
      intro i hi
      have := congrArg (fun l : List Nat => l[i]?) hT
      simp only [List.getElem?_map, List.getElem?_eq_getElem hi, Option.map_some] at this
      rw [List.getElem?_range (by omega)] at this
      simpa using this
    refine (hlin.2 linear hl).bind ?_
    have := Sim.Reaches.forRange (body := fun i quadratic => Sim.forRange 0 i (fun j quadratic => do
        let v ← quadraticGen
        Sim.lift (gridSet quadratic i j v)) quadratic)
      (overwritten ((List.range n).map fun i => List.replicate i (0 : K)) T) (a := 1) (b := n) (by omega)
      (s := (List.range n).map fun i => List.replicate i 0) ?_ ?_
    · refine this.bind ?_
      have h1 : overwritten ((List.range n).map fun i => List.replicate i (0 : K)) T n = T := by
        unfold overwritten
        rw [List.drop_eq_nil_of_le (by simp), List.append_nil, List.take_of_length_le (by omega)]
      rw [h1]
      exact Sim.Reaches.pure _
    · have h0 : 0 < T.length := by omega
      have e0 := gridAt_end hs h0
      rw [hrow 0 h0, gridAt_start hs h0] at e0
      rw [Nat.zero_add] at e0
      rw [← e0]
      simp [overwritten]
    · intro i hi1 hi2
      have hi : i < T.length := by omega
      have hstart := gridAt_start hs hi
      have hend := gridAt_end hs hi
      rw [hrow i hi] at hend
      rw [← hend]
      refine Sim.Reaches.forRange (gridAt _ T i) (Nat.zero_le _) hstart ?_
      intro j _ hj
      have hj' : j < (T[i]).length := by rw [hrow i hi]; exact hj
      refine (hQ.2 _ (hv _ (List.getElem_mem hi) _ (List.getElem_mem hj'))).bind (Sim.Reaches.lift ?_)
      exact gridAt_set hs hi hj'

theorem walsh2Fill_eq [Zero K] {n : Nat} (hn : 0 < n) (v : Nat → Nat → K)
    (inner : Nat → Nat → List (List K) → Outcome (List (List K))) (hb : ∀ i j g, j < i → inner i j g = gridSet g i j (v i j)) :
    forRange 1 n (fun i g => forRange 0 i (inner i) g) ((List.range n).map fun i => List.replicate i 0) =
      ok ((List.range n).map fun i => (List.range i).map (v i)) := by
  let T : List (List K) := (List.range n).map fun i => (List.range i).map (v i)
  have hT : T.map List.length = List.range n := by apply List.ext_getElem <;> simp [T]
  have hs := triangle_shape 0 hT
  have hTl : T.length = n := by simp [T]
  have hrow : ∀ i (hi : i < T.length), (T[i]).length = i := by
    intro i hi
    simp [T]
  obtain ⟨q, hq, hI⟩ := forRange_returns (a := 1) (b := n) (s := (List.range n).map fun i => List.replicate i (0 : K))
    (body := fun i g => forRange 0 i (inner i) g) (I := fun i q => q = overwritten ((List.range n).map fun i => List.replicate i (0 : K)) T i) (by omega) (by
      have h0 : 0 < T.length := by omega
      have e0 := gridAt_end hs h0
      rw [hrow 0 h0, gridAt_start hs h0] at e0
      rw [Nat.zero_add] at e0
      rw [← e0]
      simp [overwritten]) (by
      rintro i q hi1 hi2 rfl
      have hi : i < T.length := by omega
      obtain ⟨g, hg, hgI⟩ := forRange_returns (a := 0) (b := i)
        (s := overwritten ((List.range n).map fun i => List.replicate i (0 : K)) T i)
        (body := inner i) (I := fun j g => g = gridAt ((List.range n).map fun i => List.replicate i (0 : K)) T i j)
        (Nat.zero_le _) (gridAt_start hs hi).symm (by
          rintro j g _ hj rfl
          have hj' : j < (T[i]).length := by rw [hrow i hi]; exact hj
          have := gridAt_set hs hi hj'
          rw [show T[i][j] = v i j by simp [T]] at this
          exact ⟨_, (hb i j _ hj).trans this, rfl⟩)
      refine ⟨g, hg, ?_⟩
      have hend := gridAt_end hs hi
      rw [hrow i hi] at hend
      rw [hgI, hend])
  rw [hq, hI]
  congr 1
  unfold overwritten
  rw [List.drop_eq_nil_of_le (by simp), List.append_nil, List.take_of_length_le (by omega)]

theorem vset_filled {P : K → Prop} {n j : Nat} {l : List K} {v : K} (h : l.length = n) (hp : ∀ (i : Nat) v, i < j → l[i]? = some v → P v)
    (hj : j < n) (hv : P v) : ∃ l', vset l j v = ok l' ∧ l'.length = n ∧ ∀ (i : Nat) v, i < j + 1 → l'[i]? = some v → P v := by
  refine ⟨_, vset_eq (by omega), by simpa using h, ?_⟩
  intro i w hi hw
  rw [List.getElem?_set] at hw
  by_cases he : j = i
  · subst he
    simp only [h, hj, if_true, Option.some.injEq] at hw
    exact hw ▸ hv
  · simp only [he, if_false] at hw
    exact hp i w (by omega) hw

theorem filled_all {P : K → Prop} {n : Nat} {l : List K} (h : l.length = n) (hp : ∀ (i : Nat) v, i < n → l[i]? = some v → P v) :
    ∀ v ∈ l, P v := by
  intro v hv
  obtain ⟨i, hi, rfl⟩ := List.getElem_of_mem hv
  exact hp i _ (by omega) (List.getElem?_eq_getElem hi)

theorem ising1Generate_exactly [Zero K] {couplingGen fieldGen : Sim K} {C F : K → Prop} (hC : Sim.Exactly couplingGen C)
    (hF : Sim.Exactly fieldGen F) {n : Nat} (hn : 0 < n) :
    Sim.Exactly (ising1Generate couplingGen fieldGen n) (IsIsing1 n C F false) := by
  unfold ising1Generate
  refine Sim.Exactly.assert (decide_eq_true hn) ?_
  simp only [vresize_nil, List.length_replicate]
  constructor
  · refine (Sim.Post.forRange (fun j (m : Ising1 K) => (m.coupling.length = n ∧ ∀ (i : Nat) v, i < j → m.coupling[i]? = some v → C v) ∧
      (m.field.length = n ∧ ∀ (i : Nat) v, i < j → m.field[i]? = some v → F v) ∧ m.periodic = false) (Nat.zero_le _) ?_ ?_).mono ?_
    · exact ⟨⟨by simp, by intro i v h; omega⟩, ⟨by simp, by intro i v h; omega⟩, rfl⟩
    · rintro j m _ hj ⟨⟨h1, h2⟩, ⟨h3, h4⟩, h5⟩
      refine hC.1.bind fun v hv => ?_
      obtain ⟨c, hc, hc'⟩ := vset_filled h1 h2 hj hv
      refine (Sim.Post.lift (P := fun l => l = c) ⟨c, hc, rfl⟩).bind fun _ h => h ▸ ?_
      refine hF.1.bind fun w hw => ?_
      obtain ⟨f, hf, hf'⟩ := vset_filled h3 h4 hj hw
      refine (Sim.Post.lift (P := fun l => l = f) ⟨f, hf, rfl⟩).bind fun _ h => h ▸ ?_
      exact Sim.Post.pure ⟨hc', hf', h5⟩
    · rintro m ⟨⟨h1, h2⟩, ⟨h3, h4⟩, h5⟩
      exact ⟨h1, h3, filled_all h1 h2, filled_all h3 h4, h5⟩
  · rintro ⟨coupling, field, periodic⟩ ⟨h1, h2, h3, h4, h5⟩
    simp only at h1 h2 h3 h4 h5
    subst h5
    have hl1 : (List.replicate n (0 : K)).length = coupling.length := by simp [h1]
    have hl2 : (List.replicate n (0 : K)).length = field.length := by simp [h2]
    have := Sim.Reaches.forRange (body := fun i (m : Ising1 K) => do
        let v ← couplingGen
        let coupling ← Sim.lift (vset m.coupling i v)
        let v ← fieldGen
        let field ← Sim.lift (vset m.field i v)
        Pure.pure (⟨coupling, field, m.periodic⟩ : Ising1 K))
      (fun j => (⟨overwritten (List.replicate n 0) coupling j, overwritten (List.replicate n 0) field j, false⟩ : Ising1 K))
      (Nat.zero_le n) (s := ⟨List.replicate n 0, List.replicate n 0, false⟩) (by simp [overwritten]) ?_
    · have e : ∀ l : List K, l.length = n → overwritten (List.replicate n 0) l n = l := by
        intro l h
        unfold overwritten
        rw [List.drop_eq_nil_of_le (by simp), List.append_nil, List.take_of_length_le (by omega)]
      rwa [e _ h1, e _ h2] at this
    · intro j _ hj
      refine (hC.2 _ (h3 _ (List.getElem_mem (n := j) (by omega)))).bind ?_
      refine Sim.Reaches.bind (Sim.Reaches.lift ?_) ((hF.2 _ (h4 _ (List.getElem_mem (n := j) (by omega)))).bind
        (Sim.Reaches.bind (Sim.Reaches.lift ?_) (Sim.Reaches.pure _)))
      · rw [vset_eq (by rw [overwritten_length hl1 (by omega)]; omega), overwritten_succ hl1 (by omega)]
      · rw [vset_eq (by rw [overwritten_length hl2 (by omega)]; omega), overwritten_succ hl2 (by omega)]

theorem ising2Generate_exactly [Ring K] {couplingGen fieldGen : Sim K} {C F : K → Prop} (hC : Sim.Exactly couplingGen C)
    (hF : Sim.Exactly fieldGen F) {rows columns : Nat} (hr : 0 < rows) (hc : 0 < columns) :
    Sim.Exactly (ising2Generate couplingGen fieldGen rows columns) (IsIsing2 rows columns C F false) := by
  unfold ising2Generate
  refine Sim.Exactly.assert (decide_eq_true hr) (Sim.Exactly.assert (decide_eq_true hc) ?_)
  have hz : (List.replicate rows (List.replicate columns (0 : K))).map List.length = List.replicate rows columns := by simp
  constructor
  · refine (Sim.Post.forRange (fun i (m : Ising2 K) => RowsFilled C (List.replicate rows columns) i m.right ∧
      RowsFilled C (List.replicate rows columns) i m.below ∧ RowsFilled F (List.replicate rows columns) i m.field ∧
      m.periodic = false) (Nat.zero_le _) ⟨.zero hz, .zero hz, .zero hz, rfl⟩ ?_).mono ?_
    · rintro i ⟨A, B, D, p⟩ _ hi ⟨hA, hB, hD, hp⟩
      simp only at hA hB hD hp
      have hi' : i < (List.replicate rows columns).length := by simpa using hi
      have hs : (List.replicate rows columns)[i] = columns := by simp
      have hlen : ∀ {P : K → Prop} {g : List (List K)}, RowsFilled P (List.replicate rows columns) i g → i < g.length := by
        intro P g hg
        have := congrArg List.length hg.1
        simp only [List.length_map, List.length_replicate] at this
        omega
      refine (Sim.Post.forRange (fun j (m : Ising2 K) => RowFilled C A i columns j m.right ∧ RowFilled C B i columns j m.below ∧
        RowFilled F D i columns j m.field ∧ m.periodic = false) (Nat.zero_le _) ?_ ?_).mono ?_
      · have h1 := hA.start hi'
        have h2 := hB.start hi'
        have h3 := hD.start hi'
        rw [hs] at h1 h2 h3
        exact ⟨h1, h2, h3, hp⟩
      · rintro j m _ hj ⟨h1, h2, h3, h4⟩
        unfold ising2Site
        refine hC.1.bind fun v hv => ?_
        obtain ⟨r, e1, r1⟩ := h1.step (hlen hA) hj hv
        refine (Sim.Post.lift (P := fun l => l = r) ⟨r, e1, rfl⟩).bind fun _ h => h ▸ ?_
        refine hC.1.bind fun v hv => ?_
        obtain ⟨b, e2, r2⟩ := h2.step (hlen hB) hj hv
        refine (Sim.Post.lift (P := fun l => l = b) ⟨b, e2, rfl⟩).bind fun _ h => h ▸ ?_
        refine hF.1.bind fun v hv => ?_
        obtain ⟨f, e3, r3⟩ := h3.step (hlen hD) hj hv
        refine (Sim.Post.lift (P := fun l => l = f) ⟨f, e3, rfl⟩).bind fun _ h => h ▸ ?_
        exact Sim.Post.pure ⟨r1, r2, r3, h4⟩
      · rintro m ⟨h1, h2, h3, h4⟩
        exact ⟨RowFilled.finish hA hi' (by rwa [hs]), RowFilled.finish hB hi' (by rwa [hs]),
          RowFilled.finish hD hi' (by rwa [hs]), h4⟩
    · rintro m ⟨h1, h2, h3, h4⟩
      have g1 := RowsFilled.all (g := m.right) (by rwa [List.length_replicate] : RowsFilled C _ (List.replicate rows columns).length _)
      have g2 := RowsFilled.all (g := m.below) (by rwa [List.length_replicate] : RowsFilled C _ (List.replicate rows columns).length _)
      have g3 := RowsFilled.all (g := m.field) (by rwa [List.length_replicate] : RowsFilled F _ (List.replicate rows columns).length _)
      exact ⟨shape_grid.mp g1.1, shape_grid.mp g2.1, shape_grid.mp g3.1, g1.2, g2.2, g3.2, h4⟩
  · rintro ⟨right, below, field, periodic⟩ ⟨s1, s2, s3, v1, v2, v3, h5⟩
    simp only at s1 s2 s3 v1 v2 v3 h5
    subst h5
    have key : ∀ {T : List (List K)}, GridShape T rows columns →
        (List.replicate rows (List.replicate columns (0 : K))).map List.length = T.map List.length := by
      intro T hT
      rw [hz, shape_grid.mpr hT]
    have hrow : ∀ {T : List (List K)} (_ : GridShape T rows columns) {i : Nat} (hi : i < T.length), (T[i]).length = columns :=
      fun hT _ hi => hT.2 _ (List.getElem_mem hi)
    have hfull : ∀ {T : List (List K)}, GridShape T rows columns →
        overwritten (List.replicate rows (List.replicate columns (0 : K))) T rows = T := by
      intro T hT
      unfold overwritten
      rw [List.drop_eq_nil_of_le (by simp), List.append_nil, List.take_of_length_le (by rw [hT.1])]
    let Z : List (List K) := List.replicate rows (List.replicate columns 0)
    have := Sim.Reaches.forRange (body := fun i m => Sim.forRange 0 columns (fun j m => ising2Site couplingGen fieldGen i j m) m)
      (fun i => (⟨overwritten Z right i, overwritten Z below i, overwritten Z field i, false⟩ : Ising2 K))
      (Nat.zero_le rows) (s := ⟨Z, Z, Z, false⟩) (by simp [overwritten]) ?_
    · rwa [hfull s1, hfull s2, hfull s3] at this
    · intro i _ hi
      have i1 : i < right.length := by rw [s1.1]; exact hi
      have i2 : i < below.length := by rw [s2.1]; exact hi
      have i3 : i < field.length := by rw [s3.1]; exact hi
      have e1 := gridAt_end (key s1) i1
      have e2 := gridAt_end (key s2) i2
      have e3 := gridAt_end (key s3) i3
      rw [hrow s1 i1] at e1
      rw [hrow s2 i2] at e2
      rw [hrow s3 i3] at e3
      simp only [Z]
      rw [← e1, ← e2, ← e3]
      refine Sim.Reaches.forRange (fun j => (⟨gridAt Z right i j, gridAt Z below i j, gridAt Z field i j, false⟩ : Ising2 K))
        (Nat.zero_le _) (by simp only [Z]; rw [gridAt_start (key s1) i1, gridAt_start (key s2) i2, gridAt_start (key s3) i3]) ?_
      intro j _ hj
      have j1 : j < (right[i]).length := by rw [hrow s1 i1]; exact hj
      have j2 : j < (below[i]).length := by rw [hrow s2 i2]; exact hj
      have j3 : j < (field[i]).length := by rw [hrow s3 i3]; exact hj
      unfold ising2Site
      refine (hC.2 _ (v1 _ (List.getElem_mem i1) _ (List.getElem_mem j1))).bind ?_
      refine Sim.Reaches.bind (Sim.Reaches.lift (gridAt_set (key s1) i1 j1)) ?_
      refine (hC.2 _ (v2 _ (List.getElem_mem i2) _ (List.getElem_mem j2))).bind ?_
      refine Sim.Reaches.bind (Sim.Reaches.lift (gridAt_set (key s2) i2 j2)) ?_
      refine (hF.2 _ (v3 _ (List.getElem_mem i3) _ (List.getElem_mem j3))).bind ?_
      exact Sim.Reaches.bind (Sim.Reaches.lift (gridAt_set (key s3) i3 j3)) (Sim.Reaches.pure _)

theorem walshGenerate_exactly [Zero K] {generator : Sim K} {P : K → Prop} (h : Sim.Exactly generator P) {n k : Nat} (hn : 0 < n)
    (hk : 0 < k) : Sim.Exactly (walshGenerate generator n k) (fun terms => terms.length = k ∧
      ∀ t ∈ terms, t.feature.length = n ∧ P t.coefficient) := by
  unfold walshGenerate
  refine Sim.Exactly.assert (decide_eq_true hn) (Sim.Exactly.assert (decide_eq_true hk) ?_)
  simp only [vresize_nil, List.length_replicate]
  constructor
  · refine (Sim.Post.forRange (fun j (l : List (WalshTerm K)) => l.length = k ∧
      ∀ (i : Nat) t, i < j → l[i]? = some t → t.feature.length = n ∧ P t.coefficient) (Nat.zero_le _)
      ⟨by simp, by intro i v h; omega⟩ ?_).mono ?_
    · rintro j l _ hj ⟨h1, h2⟩
      refine (bvRandomBits_post n).bind fun bv hbv => h.1.bind fun c hc => ?_
      obtain ⟨l', e, hl'⟩ := vset_filled (P := fun t : WalshTerm K => t.feature.length = n ∧ P t.coefficient)
        (v := ⟨bv, c⟩) h1 h2 hj ⟨hbv, hc⟩
      exact Sim.Post.lift ⟨l', e, hl'⟩
    · rintro l ⟨h1, h2⟩
      exact ⟨h1, filled_all h1 h2⟩
  · rintro terms ⟨h1, h2⟩
    have hl : (List.replicate k (⟨[], 0⟩ : WalshTerm K)).length = terms.length := by simp [h1]
    have := Sim.Reaches.forRange (body := fun i terms => do
        let bv ← bvRandomBits n
        let coefficient ← generator
        Sim.lift (vset terms i (⟨bv, coefficient⟩ : WalshTerm K))) (overwritten (List.replicate k ⟨[], 0⟩) terms)
      (Nat.zero_le k) (s := List.replicate k ⟨[], 0⟩) (by simp [overwritten]) ?_
    · rwa [show overwritten (List.replicate k (⟨[], 0⟩ : WalshTerm K)) terms k = terms by
        unfold overwritten
        rw [List.drop_eq_nil_of_le (by simp), List.append_nil, List.take_of_length_le (by omega)]] at this
    · intro j _ hj
      obtain ⟨hf, hp⟩ := h2 _ (List.getElem_mem (n := j) (by omega))
      have hb := bvRandomBits_any (terms[j]'(by omega)).feature
      rw [hf] at hb
      refine hb.bind ((h.2 _ hp).bind (Sim.Reaches.lift ?_))
      rw [vset_eq (by rw [overwritten_length hl (by omega)]; omega)]
      exact congrArg ok (overwritten_succ hl (by omega))

end Hnco
