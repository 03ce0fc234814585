import Verif.Multiobjective.Parsed
import Verif.Multiobjective.CrowdingLemmas
import Verif.Representation.AdapterProps
import Verif.App.SplitProps
import Verif.App.MakeAdapterProps

/-! # C76: multiobjective parsed functions -/

namespace Hnco

open Outcome

/-! ## Specification -/

/-- The variables are exactly those of the sub expressions, each of them once, in alphabetical order. -/
structure IsVariables {K : Type} (parser : List Char → Option (ParsedExpr K)) (expressions names : List (List Char)) : Prop where
  sorted : names.Pairwise (· < ·)
  mem : ∀ name, name ∈ names ↔ ∃ e ∈ expressions, ∃ p, parser e = some p ∧ name ∈ p.names

/-- `σ` gives to each variable the value decoded by its representation from its own slice of the bit vector: the slices follow
each other in the order of the variables. -/
def AssignsFrom {D : Type} (names : List (List Char)) (reps : List (Rep D)) (bv : BV) (σ : List Char → D) : Prop :=
  ∀ (j : Nat) (name : List Char) (rep : Rep D), names[j]? = some name → reps[j]? = some rep →
    rep.unpack (sliceOf bv (((reps.take j).map Rep.size).sum) rep.size) 0 = ok (σ name)

/-- There is one objective for each sub expression: its converted value, its variables having the values given by `σ`. -/
def IsObjectives {D K : Type} (parser : List Char → Option (ParsedExpr D)) (converter : D → K) (σ : List Char → D)
    (expressions : List (List Char)) (value : List K) : Prop :=
  List.Forall₂ (fun e y => ∃ p, parser e = some p ∧ y = converter (p.eval (p.names.map σ))) expressions value

/-- The states of an adapter after any number of evaluations. -/
inductive MoAdapter.After {D K : Type} (evaluate : MoAdapter D → BV → List K → Outcome (MoAdapter D × List K)) :
    MoAdapter D → MoAdapter D → Prop
  | refl (a : MoAdapter D) : After evaluate a a
  | step {a b c : MoAdapter D} {bv : BV} {value result : List K} : After evaluate a b → evaluate b bv value = ok (c, result) →
    After evaluate a c

/-! ## Parsing -/

section
variable {K : Type}

theorem moParsers_eq {parser : List Char → Option (ParsedExpr K)} : ∀ {es : List (List Char)} {ps : List (ParsedExpr K)},
    List.Forall₂ (fun e p => parser e = some p) es ps → moParsers parser es = ok ps
  | _, _, .nil => rfl
  | _, _, .cons h t => by simp only [moParsers, h]; rw [moParsers_eq t, ok_bind]

theorem moIndexOf_not_mem {name : List Char} : ∀ (names : List (List Char)) (i : Nat) (map : List Char → Option Nat),
    name ∉ names → moIndexOf names i map name = map name
  | [], _, _, _ => rfl
  | a :: names, i, map, h => by
    rw [moIndexOf, moIndexOf_not_mem names _ _ (fun hm => h (List.mem_cons_of_mem _ hm))]
    exact if_neg (fun e : name = a => h (e ▸ List.mem_cons_self))

theorem moIndexOf_eq : ∀ (names : List (List Char)) (i : Nat) (map : List Char → Option Nat), names.Nodup →
    ∀ (j : Nat) (name : List Char), names[j]? = some name → moIndexOf names i map name = some (i + j)
  | [], _, _, _, j, name, h => by simp at h
  | a :: names, i, map, hd, 0, name, h => by
    obtain rfl : a = name := by simpa using h
    rw [moIndexOf, moIndexOf_not_mem _ _ _ (List.nodup_cons.mp hd).1]
    simp
  | a :: names, i, map, hd, j + 1, name, h => by
    rw [moIndexOf, moIndexOf_eq names (i + 1) _ (List.nodup_cons.mp hd).2 j name (by simpa using h)]
    congr 1
    omega

/-- The indices point to the names. -/
def PointTo (ordered : List (List Char)) (is : List Nat) (names : List (List Char)) : Prop :=
  List.Forall₂ (fun i name => ordered[i]? = some name) is names

theorem moLookup_eq {ordered : List (List Char)} (hd : ordered.Nodup) : ∀ {names : List (List Char)},
    (∀ name ∈ names, name ∈ ordered) → ∃ is, moLookup (moIndexOf ordered 0 (fun _ => none)) names = ok is ∧
      PointTo ordered is names
  | [], _ => ⟨[], rfl, .nil⟩
  | name :: names, h => by
    obtain ⟨j, hj, hname⟩ := List.mem_iff_getElem.mp (h name List.mem_cons_self)
    obtain ⟨is, h1, h2⟩ := moLookup_eq hd (fun n hn => h n (List.mem_cons_of_mem _ hn))
    have hj' : ordered[j]? = some name := by rw [List.getElem?_eq_getElem hj, hname]
    have := moIndexOf_eq ordered 0 (fun _ => none) hd j name hj'
    rw [Nat.zero_add] at this
    refine ⟨j :: is, ?_, .cons hj' h2⟩
    simp only [moLookup, this]
    rw [h1, ok_bind]

theorem moIndices_eq {ordered : List (List Char)} (hd : ordered.Nodup) : ∀ {ps : List (ParsedExpr K)},
    (∀ p ∈ ps, ∀ name ∈ p.names, name ∈ ordered) → ∃ is, moIndices (moIndexOf ordered 0 (fun _ => none)) ps = ok is ∧
      List.Forall₂ (fun l (p : ParsedExpr K) => PointTo ordered l p.names) is ps
  | [], _ => ⟨[], rfl, .nil⟩
  | p :: ps, h => by
    obtain ⟨l, h1, h2⟩ := moLookup_eq hd (h p List.mem_cons_self)
    obtain ⟨is, h3, h4⟩ := moIndices_eq hd (fun q hq => h q (List.mem_cons_of_mem _ hq))
    exact ⟨l :: is, by simp only [moIndices]; rw [h1, ok_bind, h3, ok_bind], .cons h2 h4⟩

/-- The state of a parsed function, at any time. -/
structure MoParsed.Ready (parser : List Char → Option (ParsedExpr K)) (expressions : List (List Char)) (f : MoParsed K) : Prop where
  parsers : List.Forall₂ (fun e p => parser e = some p) expressions f.parsers
  names : IsVariables parser expressions f.orderedNames
  indices : List.Forall₂ (fun l (p : ParsedExpr K) => PointTo f.orderedNames l p.names) f.indices f.parsers
  store : List.Forall₂ (fun (vars : List K) (p : ParsedExpr K) => vars.length = p.names.length) f.store f.parsers

theorem store_replicate (zero : K) : ∀ (ps : List (ParsedExpr K)),
    List.Forall₂ (fun (vars : List K) (p : ParsedExpr K) => vars.length = p.names.length)
      (ps.map (fun p => List.replicate p.names.length zero)) ps
  | [] => .nil
  | _ :: ps => .cons (by simp) (store_replicate zero ps)

theorem moParse_ready (zero : K) {parser : List Char → Option (ParsedExpr K)} {es : List (List Char)}
    (h : ∀ e ∈ es, ∃ p, parser e = some p) : Sim.Post (moParse zero parser es) (MoParsed.Ready parser es) := by
  obtain ⟨ps, hps⟩ : ∃ ps, List.Forall₂ (fun e p => parser e = some p) es ps := by
    clear zero
    induction es with
    | nil => exact ⟨[], .nil⟩
    | cons e es ih =>
      obtain ⟨p, hp⟩ := h e List.mem_cons_self
      obtain ⟨ps, h1⟩ := ih (fun e he => h e (List.mem_cons_of_mem _ he))
      exact ⟨p :: ps, .cons hp h1⟩
  have hmem : ∀ p, p ∈ ps ↔ ∃ e ∈ es, parser e = some p := by
    intro p
    clear h
    induction hps with
    | nil => simp
    | cons h t ih => simp [ih, h, eq_comm]
  unfold moParse
  rw [moParsers_eq hps]
  refine Sim.Post.lift_bind rfl ?_
  refine (Sim.Post.shuffle _).bind (fun traversal ht => ?_)
  refine (Sim.Post.sortOn traversal id (lt := fun a b => decide (a < b)) (fun _ _ _ _ => decide_eq_decide.mpr Iff.rfl)).bind (fun ordered ho => ?_)
  have hnd : ordered.Nodup := (ho.1.trans ht).nodup_iff.mpr (List.nodup_dedup _)
  have hin : ∀ name, name ∈ ordered ↔ ∃ p ∈ ps, name ∈ p.names := by
    intro name
    rw [(ho.1.trans ht).mem_iff, List.mem_dedup, List.mem_flatMap]
  obtain ⟨is, h1, h2⟩ := moIndices_eq (ps := ps) hnd (fun p hp name hn => (hin name).mpr ⟨p, hp, hn⟩)
  refine Sim.Post.lift_bind h1 ?_
  refine Sim.Post.pure ⟨hps, ⟨?_, ?_⟩, h2, store_replicate zero ps⟩
  · exact (ho.2.and hnd).imp (fun h => lt_of_le_of_ne h.1 h.2)
  · intro name
    rw [hin]
    constructor
    · rintro ⟨p, hp, hn⟩
      obtain ⟨e, he, h⟩ := (hmem p).mp hp
      exact ⟨e, he, p, h, hn⟩
    · rintro ⟨e, he, p, h, hn⟩
      exact ⟨p, (hmem p).mpr ⟨e, he, h⟩, hn⟩

/-! ## Evaluation -/

theorem moFill_eq {ordered names : List (List Char)} {lut : List Nat} (h : PointTo ordered lut names) (σ : List Char → K)
    {vars : List K} (hl : vars.length = names.length) : moFill lut (ordered.map σ) vars = ok (names.map σ) := by
  have hll : lut.length = names.length := h.length_eq
  have key : (moFill lut (ordered.map σ) vars).Returns (fun r => r.length = names.length ∧
      ∀ (j : Nat) (name : List Char), j < vars.length → names[j]? = some name → r[j]? = some (σ name)) := by
    unfold moFill
    refine forRange_returns (I := fun k (r : List K) => r.length = names.length ∧
      ∀ (j : Nat) (name : List Char), j < k → names[j]? = some name → r[j]? = some (σ name)) (Nat.zero_le _)
      ⟨hl, by intro j _ hj; omega⟩ ?_
    rintro k r _ hk ⟨h1, h2⟩
    have hk' : k < lut.length := by omega
    have hn : ordered[lut[k]]? = some (names[k]'(by omega)) := (List.forall₂_iff_get.mp h).2 k hk' (by omega)
    obtain ⟨hlt, he⟩ := List.getElem?_eq_some_iff.mp hn
    rw [vget_eq hk', ok_bind, assert_pos (by simpa using hlt), ok_bind, vget_eq (by simpa using hlt), ok_bind,
      vset_eq (by omega), returns_ok]
    refine ⟨by simpa using h1, ?_⟩
    intro j name hj hname
    rw [List.getElem?_set]
    by_cases hjk : k = j
    · subst hjk
      rw [if_pos rfl, if_pos (by omega), List.getElem_map, he]
      rw [List.getElem?_eq_getElem (by omega)] at hname
      rw [Option.some.inj hname]
    · rw [if_neg hjk]
      exact h2 j name (by omega) hname
  obtain ⟨r, hr, h1, h2⟩ := key
  rw [hr]
  congr 1
  apply List.ext_getElem?
  intro j
  rw [List.getElem?_map]
  cases hn : names[j]? with
  | none =>
    rw [Option.map_none]
    rw [List.getElem?_eq_none_iff] at hn ⊢
    omega
  | some name =>
    obtain ⟨hlt, _⟩ := List.getElem?_eq_some_iff.mp hn
    exact h2 j name (by omega) hn

theorem moParsedEvaluate_eq {parser : List Char → Option (ParsedExpr K)} {es : List (List Char)} {f : MoParsed K}
    (hf : f.Ready parser es) (σ : List Char → K) {values : List K} (hv : values.length = es.length) :
    ∃ g, moParsedEvaluate f (f.orderedNames.map σ) values = ok (g, f.parsers.map (fun p => p.eval (p.names.map σ))) ∧
      g.Ready parser es ∧ g.orderedNames = f.orderedNames ∧ g.parsers = f.parsers := by
  have hpl : f.parsers.length = es.length := hf.parsers.length_eq.symm
  have hil : f.indices.length = f.parsers.length := hf.indices.length_eq
  have key : (forRange 0 values.length (moEvaluateOne f (f.orderedNames.map σ)) (f.store, values)).Returns (fun st =>
      (List.Forall₂ (fun (vars : List K) (p : ParsedExpr K) => vars.length = p.names.length) st.1 f.parsers ∧
        st.2.length = values.length) ∧
      ∀ (i : Nat) (p : ParsedExpr K), i < values.length → f.parsers[i]? = some p → st.2[i]? = some (p.eval (p.names.map σ))) := by
    refine forRange_returns (I := fun k (st : List (List K) × List K) =>
      (List.Forall₂ (fun (vars : List K) (p : ParsedExpr K) => vars.length = p.names.length) st.1 f.parsers ∧
        st.2.length = values.length) ∧
      ∀ (i : Nat) (p : ParsedExpr K), i < k → f.parsers[i]? = some p → st.2[i]? = some (p.eval (p.names.map σ)))
      (Nat.zero_le _) ⟨⟨hf.store, rfl⟩, by intro i _ hi; omega⟩ ?_
    rintro k ⟨store, vals⟩ _ hk ⟨⟨h1, h2⟩, h3⟩
    simp only at h1 h2 h3
    have hkp : k < f.parsers.length := by omega
    have hks : k < store.length := by rw [h1.length_eq]; exact hkp
    have hki : k < f.indices.length := by omega
    have hlen := (List.forall₂_iff_get.mp h1).2 k hks hkp
    have hpt := (List.forall₂_iff_get.mp hf.indices).2 k hki hkp
    simp only [List.get_eq_getElem] at hlen hpt
    unfold moEvaluateOne
    simp only
    rw [vget_eq hks, ok_bind, vget_eq hki, ok_bind, moFill_eq hpt σ hlen, ok_bind, vset_eq hks, ok_bind, vget_eq hkp,
      ok_bind, vset_eq (by omega), ok_bind, returns_ok]
    refine ⟨⟨?_, by simpa using h2⟩, ?_⟩
    · rw [List.forall₂_iff_get]
      refine ⟨by simpa using h1.length_eq, ?_⟩
      intro i hi1 hi2
      simp only [List.get_eq_getElem, List.getElem_set]
      split
      · rename_i e
        subst e
        simp
      · exact (List.forall₂_iff_get.mp h1).2 i (by simpa using hi1) hi2
    · intro i p hi hp
      simp only
      rw [List.getElem?_set]
      by_cases hik : k = i
      · subst hik
        rw [if_pos rfl, if_pos (by omega)]
        rw [List.getElem?_eq_getElem hkp] at hp
        rw [Option.some.inj hp]
      · rw [if_neg hik]
        exact h3 i p (by omega) hp
  obtain ⟨⟨store, vals⟩, hst, ⟨h1, h2⟩, h3⟩ := key
  simp only at h1 h2 h3
  have hvals : vals = f.parsers.map (fun p => p.eval (p.names.map σ)) := by
    apply List.ext_getElem?
    intro i
    rw [List.getElem?_map]
    cases hp : f.parsers[i]? with
    | none =>
      rw [Option.map_none]
      rw [List.getElem?_eq_none_iff] at hp ⊢
      omega
    | some p =>
      obtain ⟨hlt, _⟩ := List.getElem?_eq_some_iff.mp hp
      exact h3 i p (by omega) hp
  refine ⟨{ f with store := store }, ?_, ⟨hf.parsers, hf.names, hf.indices, h1⟩, rfl, rfl⟩
  unfold moParsedEvaluate
  rw [assert_pos (by simp), ok_bind, assert_pos (by simp; omega), ok_bind, hst, ok_bind]
  simp only [hvals]

end

/-! ## Adapters -/

section
variable {D K : Type}

/-- The state of an adapter, at any time. -/
structure MoAdapter.Ready (parser : List Char → Option (ParsedExpr D)) (expressions names : List (List Char)) (reps : List (Rep D))
    (a : MoAdapter D) : Prop where
  function : a.function.Ready parser expressions
  ordered : a.function.orderedNames = names
  representations : a.reps = reps
  store : a.store.length = reps.length
  size : names.length = reps.length
  codomain : a.codomain.length = expressions.length

theorem nodup_of_sorted {names : List (List Char)} (h : names.Pairwise (· < ·)) : names.Nodup :=
  h.imp (fun h => ne_of_lt h)

/-- The values of the variables as an assignment. -/
theorem exists_assignment {names : List (List Char)} (hd : names.Nodup) {reps : List (Rep D)} (hl : names.length = reps.length)
    {bv : BV} {values : List D} (h : DecodedFrom reps bv 0 values) (hD : Nonempty D) :
    ∃ σ : List Char → D, names.map σ = values ∧ AssignsFrom names reps bv σ := by
  obtain ⟨h1, h2⟩ := h
  obtain ⟨d⟩ := hD
  refine ⟨fun name => (values[names.idxOf name]?).getD d, ?_, ?_⟩
  · apply List.ext_getElem?
    intro j
    rw [List.getElem?_map]
    cases hn : names[j]? with
    | none =>
      rw [Option.map_none]
      rw [List.getElem?_eq_none_iff] at hn
      exact (List.getElem?_eq_none_iff.mpr (by omega)).symm
    | some name =>
      obtain ⟨hlt, he⟩ := List.getElem?_eq_some_iff.mp hn
      rw [Option.map_some, ← he, hd.idxOf_getElem j hlt, List.getElem?_eq_getElem (by omega)]
      rfl
  · intro j name rep hn hr
    obtain ⟨hlt, he⟩ := List.getElem?_eq_some_iff.mp hn
    obtain ⟨v, hv1, hv2⟩ := h2 j rep hr
    rw [← he]
    simp only
    rw [hd.idxOf_getElem j hlt, hv1, Option.getD_some, ← hv2]
    simp [sliceStart, List.map_take]

theorem convertLoop_eq (converter : D → K) {ys : List D} {value : List K} (h : value.length = ys.length) :
    forRange 0 ys.length (fun i (value : List K) => do
      let y ← vget ys i
      vset value i (converter y)) value = ok (ys.map converter) := by
  have key : (forRange 0 ys.length (fun i (value : List K) => do
      let y ← vget ys i
      vset value i (converter y)) value).Returns (fun r => r.length = ys.length ∧
        ∀ (i : Nat) (y : D), i < ys.length → ys[i]? = some y → r[i]? = some (converter y)) := by
    refine forRange_returns (I := fun k (r : List K) => r.length = ys.length ∧
        ∀ (i : Nat) (y : D), i < k → ys[i]? = some y → r[i]? = some (converter y)) (Nat.zero_le _)
        ⟨h, by intro i _ hi; omega⟩ ?_
    rintro k r _ hk ⟨h1, h2⟩
    rw [vget_eq hk, ok_bind, vset_eq (by omega), returns_ok]
    refine ⟨by simpa using h1, ?_⟩
    intro i y hi hy
    rw [List.getElem?_set]
    by_cases hik : k = i
    · subst hik
      rw [if_pos rfl, if_pos (by omega)]
      rw [List.getElem?_eq_getElem hk] at hy
      rw [Option.some.inj hy]
    · rw [if_neg hik]
      exact h2 i y (by omega) hy
  obtain ⟨r, hr, h1, h2⟩ := key
  rw [hr]
  congr 1
  apply List.ext_getElem?
  intro i
  rw [List.getElem?_map]
  cases hy : ys[i]? with
  | none =>
    rw [Option.map_none]
    rw [List.getElem?_eq_none_iff] at hy ⊢
    omega
  | some y =>
    obtain ⟨hlt, _⟩ := List.getElem?_eq_some_iff.mp hy
    exact h2 i y hlt hy

theorem convertInPlace_eq (converter : D → D) (ys : List D) :
    forRange 0 ys.length (fun i (value : List D) => do
      let y ← vget value i
      vset value i (converter y)) ys = ok (ys.map converter) := by
  have key : (forRange 0 ys.length (fun i (value : List D) => do
      let y ← vget value i
      vset value i (converter y)) ys).Returns (fun r => r = (ys.take ys.length).map converter ++ ys.drop ys.length) := by
    refine forRange_returns (I := fun k (r : List D) => r = (ys.take k).map converter ++ ys.drop k) (Nat.zero_le _)
        (by simp) ?_
    rintro k r _ hk rfl
    have hlen : ((ys.take k).map converter).length = k := by simp; omega
    have hlt : k < ((ys.take k).map converter ++ ys.drop k).length := by simp; omega
    have hget : ((ys.take k).map converter ++ ys.drop k)[k] = ys[k] := by
      rw [List.getElem_append_right (by omega), List.getElem_drop]
      congr 1
      omega
    rw [vget_eq hlt, ok_bind, vset_eq hlt, returns_ok, hget, List.set_append_right _ _ (by omega), hlen, Nat.sub_self,
      List.drop_eq_getElem_cons hk, List.set_cons_zero, List.take_succ_eq_append_getElem hk, List.map_append,
      List.append_assoc]
    rfl
  obtain ⟨r, hr, h1⟩ := key
  rw [hr, h1]
  simp

theorem objectives_of_map {parser : List Char → Option (ParsedExpr D)} (converter : D → K) (σ : List Char → D) :
    ∀ {es : List (List Char)} {ps : List (ParsedExpr D)}, List.Forall₂ (fun e p => parser e = some p) es ps →
      IsObjectives parser converter σ es ((ps.map (fun p => p.eval (p.names.map σ))).map converter)
  | _, _, .nil => .nil
  | _, _, .cons h t => .cons ⟨_, h, rfl⟩ (objectives_of_map converter σ t)

theorem moAdapter_unpack {parser : List Char → Option (ParsedExpr D)} {es names : List (List Char)} {reps : List (Rep D)}
    {a : MoAdapter D} (ha : a.Ready parser es names reps) (hreps : ∀ rep ∈ reps, rep.Decodes) (hD : Nonempty D)
    {bv : BV} (hbv : bv.length = (reps.map Rep.size).sum) :
    ∃ σ : List Char → D, AssignsFrom names reps bv σ ∧ multivariateSize a.reps = ok bv.length ∧
      multivariateUnpack a.reps a.store bv = ok (names.map σ) := by
  obtain ⟨hsz, _, h⟩ := multivariateEvaluate_spec (fun l => ok l) (fun l => ok l) (ha.representations ▸ hreps) (vars := a.store)
    (by rw [ha.representations]; exact ha.store) bv
  obtain ⟨values, h1, h2, _⟩ := h (by rw [ha.representations]; exact hbv)
  rw [ha.representations] at h1 hsz h2
  have hnd := nodup_of_sorted ha.function.names.sorted
  rw [ha.ordered] at hnd
  obtain ⟨σ, h3, h4⟩ := exists_assignment hnd ha.size h1 hD
  exact ⟨σ, h4, by rw [ha.representations, hsz, hbv], by rw [ha.representations, h2, h3]⟩

theorem moAdapterEvaluate_ready {parser : List Char → Option (ParsedExpr D)} {es names : List (List Char)} {reps : List (Rep D)}
    {a : MoAdapter D} (ha : a.Ready parser es names reps) (hreps : ∀ rep ∈ reps, rep.Decodes) (hD : Nonempty D)
    (converter : D → K) {bv : BV} (hbv : bv.length = (reps.map Rep.size).sum) {value : List K} (hv : value.length = es.length) :
    ∃ b result σ, moAdapterEvaluate converter a bv value = ok (b, result) ∧ b.Ready parser es names reps ∧
      AssignsFrom names reps bv σ ∧ IsObjectives parser converter σ es result := by
  obtain ⟨σ, h1, h2, h3⟩ := moAdapter_unpack ha hreps hD hbv
  obtain ⟨g, h4, h5, h6, h7⟩ := moParsedEvaluate_eq ha.function σ ha.codomain
  have hpl : a.function.parsers.length = es.length := ha.function.parsers.length_eq.symm
  rw [ha.ordered] at h4 h6
  refine ⟨⟨g, a.reps, names.map σ, a.function.parsers.map (fun p => p.eval (p.names.map σ))⟩,
    (a.function.parsers.map (fun p => p.eval (p.names.map σ))).map converter, σ, ?_,
    ⟨h5, h6, ha.representations, by simp [ha.size], ha.size, by simp [hpl]⟩, h1, objectives_of_map converter σ ha.function.parsers⟩
  have hc := convertLoop_eq converter (ys := a.function.parsers.map (fun p => p.eval (p.names.map σ))) (value := value)
    (by simp [hpl, hv])
  rw [List.length_map] at hc
  unfold moAdapterEvaluate
  rw [h2, ok_bind, assert_pos (by simp), ok_bind, assert_pos (by simp; omega), ok_bind, h3, ok_bind, h4, ok_bind]
  simp only
  rw [hc, ok_bind]

theorem moMixedEvaluate_ready {parser : List Char → Option (ParsedExpr D)} {es names : List (List Char)} {reps : List (Rep D)}
    {a : MoAdapter D} (ha : a.Ready parser es names reps) (hreps : ∀ rep ∈ reps, rep.Decodes) (hD : Nonempty D)
    (converter : D → D) {bv : BV} (hbv : bv.length = (reps.map Rep.size).sum) {value : List D} (hv : value.length = es.length) :
    ∃ b result σ, moMixedEvaluate converter a bv value = ok (b, result) ∧ b.Ready parser es names reps ∧
      AssignsFrom names reps bv σ ∧ IsObjectives parser converter σ es result := by
  obtain ⟨σ, h1, h2, h3⟩ := moAdapter_unpack ha hreps hD hbv
  obtain ⟨g, h4, h5, h6, h7⟩ := moParsedEvaluate_eq ha.function σ hv
  have hpl : a.function.parsers.length = es.length := ha.function.parsers.length_eq.symm
  rw [ha.ordered] at h4 h6
  refine ⟨⟨g, a.reps, names.map σ, a.codomain⟩,
    (a.function.parsers.map (fun p => p.eval (p.names.map σ))).map converter, σ, ?_,
    ⟨h5, h6, ha.representations, by simp [ha.size], ha.size, ha.codomain⟩, h1, objectives_of_map converter σ ha.function.parsers⟩
  have hc := convertInPlace_eq converter (a.function.parsers.map (fun p => p.eval (p.names.map σ)))
  unfold moMixedEvaluate
  rw [h2, ok_bind, assert_pos (by simp), ok_bind, assert_pos (by simp; omega), ok_bind, h3, ok_bind, h4, ok_bind]
  simp only
  rw [hc, ok_bind]

theorem moAdapterEvaluate_sizes {parser : List Char → Option (ParsedExpr D)} {es names : List (List Char)} {reps : List (Rep D)}
    {a : MoAdapter D} (ha : a.Ready parser es names reps) (converter : D → K) {bv : BV} {value : List K}
    (h : bv.length ≠ (reps.map Rep.size).sum ∨ value.length ≠ es.length) : moAdapterEvaluate converter a bv value = ub := by
  have hpl : a.function.parsers.length = es.length := ha.function.parsers.length_eq.symm
  unfold moAdapterEvaluate
  rw [ha.representations, multivariateSize_eq, ok_bind]
  by_cases hb : bv.length = (reps.map Rep.size).sum
  · rw [assert_pos (by simpa using hb.symm), ok_bind, assert_neg (by simp; omega)]
    rfl
  · rw [assert_neg (by simp; omega)]
    rfl

theorem moMixedEvaluate_sizes {parser : List Char → Option (ParsedExpr D)} {es names : List (List Char)} {reps : List (Rep D)}
    {a : MoAdapter D} (ha : a.Ready parser es names reps) (converter : D → D) {bv : BV} {value : List D}
    (h : bv.length ≠ (reps.map Rep.size).sum ∨ value.length ≠ es.length) : moMixedEvaluate converter a bv value = ub := by
  have hpl : a.function.parsers.length = es.length := ha.function.parsers.length_eq.symm
  unfold moMixedEvaluate
  rw [ha.representations, multivariateSize_eq, ok_bind]
  by_cases hb : bv.length = (reps.map Rep.size).sum
  · rw [assert_pos (by simpa using hb.symm), ok_bind, assert_neg (by simp; omega)]
    rfl
  · rw [assert_neg (by simp; omega)]
    rfl

theorem moAdapterNew_ready (zero : D) {parser : List Char → Option (ParsedExpr D)} {es : List (List Char)} {f : MoParsed D}
    (hf : f.Ready parser es) {reps : List (Rep D)} (hl : reps.length = f.orderedNames.length) :
    ∃ a, moAdapterNew zero f reps = ok a ∧ a.Ready parser es f.orderedNames reps := by
  refine ⟨⟨f, reps, List.replicate reps.length zero, List.replicate f.parsers.length zero⟩, ?_,
    ⟨hf, rfl, rfl, List.length_replicate, hl.symm, ?_⟩⟩
  · unfold moAdapterNew
    rw [assert_pos (by simpa using hl.symm), ok_bind]
  · simp [hf.parsers.length_eq]

/-! ## Theorems -/

/-- An evaluation of an adapter made of a function with sub expressions `es` and variables `names`: on a bit vector of the size of
the adapter and a value with one component by sub expression, it gives the objectives, the variables being decoded from the bit
vector; with any other sizes, it is an error. -/
def EvaluatesTo (parser : List Char → Option (ParsedExpr D)) (converter : D → K) (es names : List (List Char)) (reps : List (Rep D))
    (evaluate : BV → List K → Outcome (MoAdapter D × List K)) : Prop :=
  ∀ (bv : BV) (value : List K),
    (bv.length = (reps.map Rep.size).sum ∧ value.length = es.length → ∃ b result σ, evaluate bv value = ok (b, result) ∧
      AssignsFrom names reps bv σ ∧ IsObjectives parser converter σ es result) ∧
    (¬ (bv.length = (reps.map Rep.size).sum ∧ value.length = es.length) → evaluate bv value = ub)

/-- C76: an expression is cut at its double colons, from left to right; if one of the sub expressions is rejected by the parser,
parsing is a runtime error. -/
theorem moParsed_expressions {expression : List Char} (hl : expression.length < 4294967296) :
    ∃ es, moExpressions expression = some es ∧ Splits "::".toList expression es ∧
      ∀ (zero : D) (parser : List Char → Option (ParsedExpr D)) (ds : List Nat), (∃ e ∈ es, parser e = none) →
        moParse zero parser es ds = .throw .runtimeError := by
  obtain ⟨es, h1, h2⟩ := splitString_splits (s := expression) (d := "::".toList) (by decide) hl (Nat.lt_succ_self _)
  refine ⟨es, h1, h2, ?_⟩
  intro zero parser ds he
  have : moParsers parser es = .throw .runtimeError := by
    clear h1 h2
    obtain ⟨e, hm, hn⟩ := he
    induction es with
    | nil => simp at hm
    | cons x es ih =>
      simp only [moParsers]
      cases hx : parser x with
      | none => rfl
      | some p =>
        simp only
        rw [ih ?_]
        · rfl
        · rcases List.mem_cons.mp hm with h | h
          · rw [h, hx] at hn
            cases hn
          · exact h
  unfold moParse
  rw [this]
  rfl

/-- C76: if the parser accepts the sub expressions, then the variables of the function are those of the sub expressions, without
repetition and in alphabetical order; and the adapter, however it has been used before, evaluates each sub expression at its own
variables, wherever they are among the variables of the function. -/
theorem moAdapter_objectives (zero : D) {parser : List Char → Option (ParsedExpr D)} {es : List (List Char)}
    (hp : ∀ e ∈ es, ∃ p, parser e = some p) (converter : D → K) :
    Sim.Post (moParse zero parser es) (fun f => IsVariables parser es f.orderedNames ∧
      ∀ reps : List (Rep D), (∀ rep ∈ reps, rep.Decodes) → reps.length = f.orderedNames.length →
        ∃ a, moAdapterNew zero f reps = ok a ∧ ∀ b, MoAdapter.After (moAdapterEvaluate converter) a b →
          EvaluatesTo parser converter es f.orderedNames reps (moAdapterEvaluate converter b)) := by
  refine (moParse_ready zero hp).mono (fun f hf => ⟨hf.names, ?_⟩)
  intro reps hreps hl
  obtain ⟨a, h1, h2⟩ := moAdapterNew_ready zero hf hl
  refine ⟨a, h1, ?_⟩
  have hready : ∀ b, MoAdapter.After (moAdapterEvaluate converter) a b → b.Ready parser es f.orderedNames reps := by
    intro b hb
    induction hb with
    | refl => exact h2
    | @step b c bv value result hb he ih =>
      by_cases hs : bv.length = (reps.map Rep.size).sum ∧ value.length = es.length
      · obtain ⟨b', r', σ, h3, h4, _⟩ := moAdapterEvaluate_ready ih hreps ⟨zero⟩ converter hs.1 hs.2
        rw [h3] at he
        cases he
        exact h4
      · rw [moAdapterEvaluate_sizes ih converter (by omega)] at he
        cases he
  intro b hb bv value
  refine ⟨fun hs => ?_, fun hs => moAdapterEvaluate_sizes (hready b hb) converter (by omega)⟩
  obtain ⟨b', r', σ, h3, _, h5, h6⟩ := moAdapterEvaluate_ready (hready b hb) hreps ⟨zero⟩ converter hs.1 hs.2
  exact ⟨b', r', σ, h3, h5, h6⟩

/-- C76: the same for the adapter with mixed representations. -/
theorem moMixed_objectives (zero : D) {parser : List Char → Option (ParsedExpr D)} {es : List (List Char)}
    (hp : ∀ e ∈ es, ∃ p, parser e = some p) (converter : D → D) :
    Sim.Post (moParse zero parser es) (fun f => IsVariables parser es f.orderedNames ∧
      ∀ reps : List (Rep D), (∀ rep ∈ reps, rep.Decodes) → reps.length = f.orderedNames.length →
        ∃ a, moAdapterNew zero f reps = ok a ∧ ∀ b, MoAdapter.After (moMixedEvaluate converter) a b →
          EvaluatesTo parser converter es f.orderedNames reps (moMixedEvaluate converter b)) := by
  refine (moParse_ready zero hp).mono (fun f hf => ⟨hf.names, ?_⟩)
  intro reps hreps hl
  obtain ⟨a, h1, h2⟩ := moAdapterNew_ready zero hf hl
  refine ⟨a, h1, ?_⟩
  have hready : ∀ b, MoAdapter.After (moMixedEvaluate converter) a b → b.Ready parser es f.orderedNames reps := by
    intro b hb
    induction hb with
    | refl => exact h2
    | @step b c bv value result hb he ih =>
      by_cases hs : bv.length = (reps.map Rep.size).sum ∧ value.length = es.length
      · obtain ⟨b', r', σ, h3, h4, _⟩ := moMixedEvaluate_ready ih hreps ⟨zero⟩ converter hs.1 hs.2
        rw [h3] at he
        cases he
        exact h4
      · rw [moMixedEvaluate_sizes ih converter (by omega)] at he
        cases he
  intro b hb bv value
  refine ⟨fun hs => ?_, fun hs => moMixedEvaluate_sizes (hready b hb) converter (by omega)⟩
  obtain ⟨b', r', σ, h3, _, h5, h6⟩ := moMixedEvaluate_ready (hready b hb) hreps ⟨zero⟩ converter hs.1 hs.2
  exact ⟨b', r', σ, h3, h5, h6⟩

end

/-! ## Examples -/

/-- A parser which knows two expressions. -/
def toyParser (e : List Char) : Option (ParsedExpr Int) :=
  if e = "z - x".toList then some ⟨["x".toList, "z".toList], fun v => v[1]?.getD 0 - v[0]?.getD 0⟩
  else if e = "y * x".toList then some ⟨["x".toList, "y".toList], fun v => v[1]?.getD 0 * v[0]?.getD 0⟩
  else none

example : moExpressions "z - x::y * x".toList = some ["z - x".toList, "y * x".toList] := by decide +kernel

example : ∀ e ∈ ["z - x".toList, "y * x".toList], ∃ p, toyParser e = some p := by
  intro e he
  rcases List.mem_cons.mp he with rfl | he
  · exact ⟨_, rfl⟩
  · rcases List.mem_cons.mp he with rfl | he
    · exact ⟨_, rfl⟩
    · cases he

/-- One bit for each variable: its values are 10 and 11 for `x`, 20 and 21 for `y`, 30 and 31 for `z`. -/
def toyRep (base : Int) : Rep Int := ⟨1, fun bv start => do let b ← vget bv start; ok (if b then base + 1 else base)⟩

example : (match moParse 0 toyParser ["z - x".toList, "y * x".toList] [0, 0] with
    | .ok f _ => (match moAdapterNew 0 f [toyRep 10, toyRep 20, toyRep 30] with
      | .ok a => (match moAdapterEvaluate (fun z : Int => z) a [true, false, true] [0, 0] with
        | .ok r => some (f.orderedNames, r.2)
        | _ => none)
      | _ => none)
    | _ => none) = some (["x".toList, "y".toList, "z".toList], [20, 220]) := by decide +kernel

end Hnco
