import Verif.Representation.Adapter
import Verif.Representation.ValueProps
import Verif.Representation.CategoricalProps
import Verif.Representation.PermutationProps

/-!
# C39: adapters split the bit vector into consecutive disjoint slices
-/

namespace Hnco

open Outcome

/-! ## Specification -/

/-- The position of slice `i`, when the slices have the given sizes and the first one is at `base`. -/
def sliceStart (base : Nat) (sizes : List Nat) (i : Nat) : Nat := base + (sizes.take i).sum

/-- The consecutive slices of the given sizes, from `base`. -/
def slicesOf (bv : BV) (base : Nat) (sizes : List Nat) : List BV :=
  (List.range sizes.length).map (fun i => sliceOf bv (sliceStart base sizes i) (sizes[i]?.getD 0))

/-- Variable `i` is decoded by representation `i` from slice `i` alone, for every `i`. -/
def DecodedFrom {D : Type} (reps : List (Rep D)) (bv : BV) (base : Nat) (values : List D) : Prop :=
  values.length = reps.length ∧ ∀ (i : Nat) (rep : Rep D), reps[i]? = some rep → ∃ v, values[i]? = some v ∧
    rep.unpack (sliceOf bv (sliceStart base (reps.map Rep.size) i) rep.size) 0 = ok v

/-- A representation that decodes every slice, and looks at its slice only. -/
def Rep.Decodes {D : Type} (rep : Rep D) : Prop :=
  ∀ (bv : BV) (start : Nat), start + rep.size ≤ bv.length →
    ∃ v, rep.unpack bv start = ok v ∧ rep.unpack (sliceOf bv start rep.size) 0 = ok v

/-! ## Slices -/

theorem sliceOf_append (bv : BV) (start a b : Nat) :
    sliceOf bv start a ++ sliceOf bv (start + a) b = sliceOf bv start (a + b) := by
  unfold sliceOf
  rw [← List.drop_drop, List.take_add]

theorem sliceOf_self {bv : BV} {n : Nat} (h : bv.length = n) : sliceOf bv 0 n = bv := by
  unfold sliceOf; rw [List.drop_zero, ← h, List.take_length]

theorem sliceOf_sliceOf (bv : BV) (start size : Nat) : sliceOf (sliceOf bv start size) 0 size = sliceOf bv start size := by
  unfold sliceOf
  rw [List.drop_zero, List.take_take, Nat.min_self]

theorem sliceOf_fits {bv : BV} {start size : Nat} (hb : start + size ≤ bv.length) :
    0 + size ≤ (sliceOf bv start size).length := by
  rw [sliceOf_length hb]; omega

theorem sliceStart_cons (base s : Nat) (sizes : List Nat) (i : Nat) :
    sliceStart base (s :: sizes) (i + 1) = sliceStart (base + s) sizes i := by
  unfold sliceStart
  rw [List.take_succ_cons, List.sum_cons]
  omega

theorem slicesOf_cons (bv : BV) (base s : Nat) (sizes : List Nat) :
    slicesOf bv base (s :: sizes) = sliceOf bv base s :: slicesOf bv (base + s) sizes := by
  unfold slicesOf
  rw [List.length_cons, List.range_succ_eq_map, List.map_cons, List.map_map]
  congr 1
  apply List.map_congr_left
  intro i _
  simp only [Function.comp, Nat.succ_eq_add_one, sliceStart_cons, List.getElem?_cons_succ]

theorem slicesOf_flatten (bv : BV) : ∀ (sizes : List Nat) (base : Nat),
    (slicesOf bv base sizes).flatten = sliceOf bv base sizes.sum
  | [], base => by simp [slicesOf, sliceOf]
  | s :: sizes, base => by
    rw [slicesOf_cons, List.flatten_cons, slicesOf_flatten bv sizes, List.sum_cons, sliceOf_append]

/-- C39: consecutive slices whose sizes add up to the length cover the bit vector: it is their concatenation, so
that each bit belongs to exactly one slice. -/
theorem slices_cover {bv : BV} {sizes : List Nat} (h : bv.length = sizes.sum) :
    (slicesOf bv 0 sizes).flatten = bv ∧ (slicesOf bv 0 sizes).length = sizes.length := by
  refine ⟨?_, by simp [slicesOf]⟩
  rw [slicesOf_flatten, sliceOf_self h]

/-! ## Unpacking loops -/

theorem take_sum_add_le (sizes : List Nat) (i : Nat) (s : Nat) (h : sizes[i]? = some s) :
    (sizes.take i).sum + s ≤ sizes.sum := by
  obtain ⟨hi, rfl⟩ := List.getElem?_eq_some_iff.mp h
  have h1 := List.sum_take_add_sum_drop sizes (i + 1)
  rw [List.take_succ_eq_append_getElem hi, List.sum_append, List.sum_singleton] at h1
  omega

theorem unpackLoop_spec {D : Type} {reps : List (Rep D)} (hreps : ∀ rep ∈ reps, rep.Decodes) {vars : List D}
    (hvars : vars.length = reps.length) {bv : BV} {start : Nat}
    (hb : start + (reps.map Rep.size).sum ≤ bv.length) :
    ∃ values, unpackLoop reps vars bv start = ok (values, start + (reps.map Rep.size).sum) ∧
      DecodedFrom reps bv start values := by
  have key : (unpackLoop reps vars bv start).Returns (fun st => st.2 = start + (reps.map Rep.size).sum ∧
      DecodedFrom reps bv start st.1) := by
    unfold unpackLoop
    refine (forRange_returns (I := fun k (st : List D × Nat) => st.2 = sliceStart start (reps.map Rep.size) k ∧
      st.1.length = reps.length ∧ ∀ (i : Nat) (rep : Rep D), i < k → reps[i]? = some rep → ∃ v, st.1[i]? = some v ∧
        rep.unpack (sliceOf bv (sliceStart start (reps.map Rep.size) i) rep.size) 0 = ok v) (Nat.zero_le _)
      ⟨by simp [sliceStart], hvars, by intro i _ hi; omega⟩ ?_).mono ?_
    · rintro k ⟨l, s⟩ _ hk ⟨h1, h2, h3⟩
      simp only at h1 h2 h3
      have hk' : k < reps.length := by omega
      have hsz : (reps.map Rep.size)[k]? = some (reps[k]).size := by
        rw [List.getElem?_map, List.getElem?_eq_getElem hk', Option.map_some]
      have hle := take_sum_add_le _ _ _ hsz
      obtain ⟨v, hv1, hv2⟩ := hreps _ (List.getElem_mem hk') bv s (by unfold sliceStart at h1; omega)
      simp only
      rw [vget_eq hk', ok_bind, hv1, ok_bind, vset_eq (by omega), ok_bind, returns_ok]
      refine ⟨?_, by simpa using h2, ?_⟩
      · simp only
        rw [h1]
        unfold sliceStart
        rw [List.take_add_one, hsz, Option.toList_some, List.sum_append, List.sum_singleton]
        omega
      · intro i rep hi hrep
        rw [List.getElem?_set]
        by_cases hik : k = i
        · subst hik
          rw [List.getElem?_eq_getElem hk'] at hrep
          obtain rfl := Option.some.inj hrep
          exact ⟨v, by rw [if_pos rfl, if_pos (by omega)], by rw [← h1]; exact hv2⟩
        · rw [if_neg hik]
          exact h3 i rep (by omega) hrep
    · rintro ⟨l, s⟩ ⟨h1, h2, h3⟩
      simp only at h1 h2 h3 ⊢
      refine ⟨?_, h2, ?_⟩
      · rw [h1]; unfold sliceStart
        rw [List.take_of_length_le (by simp; omega)]
      · intro i rep hrep
        obtain ⟨hi, _⟩ := List.getElem?_eq_some_iff.mp hrep
        exact h3 i rep (by omega) hrep
  obtain ⟨⟨values, s⟩, hst, h1, h2⟩ := key
  simp only at h1 h2
  exact ⟨values, by rw [hst, h1], h2⟩

theorem forEach_add {α : Type} (f : α → Nat) : ∀ (l : List α) (s : Nat),
    forEach l (fun a t => ok (t + f a)) s = ok (s + (l.map f).sum)
  | [], s => by simp [forEach]
  | a :: l, s => by
    simp only [forEach, ok_bind]
    rw [forEach_add f l, List.map_cons, List.sum_cons]
    congr 1
    omega

/-! ## Multivariate adapters -/

/-- C39: on a bit vector of the size of the function, a multivariate adapter evaluates the function at variables
decoded each from its own slice; on any other size, evaluation is an error. -/
theorem multivariateEvaluate_spec {D C K : Type} (f : List D → Outcome C) (converter : C → Outcome K)
    {reps : List (Rep D)} (hreps : ∀ rep ∈ reps, rep.Decodes) {vars : List D} (hvars : vars.length = reps.length)
    (bv : BV) :
    multivariateSize reps = ok (reps.map Rep.size).sum ∧
    (bv.length ≠ (reps.map Rep.size).sum → multivariateEvaluate f converter reps vars bv = ub) ∧
    (bv.length = (reps.map Rep.size).sum → ∃ values, DecodedFrom reps bv 0 values ∧
      multivariateUnpack reps vars bv = ok values ∧
      multivariateEvaluate f converter reps vars bv = (f values >>= converter)) := by
  have hsize : multivariateSize reps = ok (reps.map Rep.size).sum := by
    unfold multivariateSize
    rw [forEach_add Rep.size reps 0, Nat.zero_add]
  refine ⟨hsize, ?_, ?_⟩
  · intro h
    unfold multivariateEvaluate
    rw [hsize, ok_bind, assert_neg (by simpa using h)]
    rfl
  · intro h
    obtain ⟨values, h1, h2⟩ := unpackLoop_spec hreps hvars (bv := bv) (start := 0) (by omega)
    have h3 : multivariateUnpack reps vars bv = ok values := by
      unfold multivariateUnpack; rw [h1, ok_bind]
    refine ⟨values, h2, h3, ?_⟩
    unfold multivariateEvaluate
    rw [hsize, ok_bind, assert_pos (by simpa using h), ok_bind, h3, ok_bind]

/-- C39: changing bits of one slice changes no other variable. -/
theorem multivariate_independent {D : Type} {reps : List (Rep D)} {x y : BV} {u v : List D}
    (hx : DecodedFrom reps x 0 u) (hy : DecodedFrom reps y 0 v) {i j : Nat} (hij : i ≠ j) {rep : Rep D}
    (hi : reps[i]? = some rep) (hxy : ∀ k : Nat, (k < sliceStart 0 (reps.map Rep.size) i ∨
      sliceStart 0 (reps.map Rep.size) i + rep.size ≤ k) → x[k]? = y[k]?) : u[j]? = v[j]? := by
  by_cases hj : j < reps.length
  · obtain ⟨a, ha1, ha2⟩ := hx.2 j _ (List.getElem?_eq_getElem hj)
    obtain ⟨b, hb1, hb2⟩ := hy.2 j _ (List.getElem?_eq_getElem hj)
    have hslice : sliceOf x (sliceStart 0 (reps.map Rep.size) j) (reps[j]).size =
        sliceOf y (sliceStart 0 (reps.map Rep.size) j) (reps[j]).size := by
      apply List.ext_getElem?
      intro k
      unfold sliceOf
      by_cases hk : k < (reps[j]).size
      · rw [List.getElem?_take_of_lt hk, List.getElem?_take_of_lt hk, List.getElem?_drop, List.getElem?_drop]
        apply hxy
        have hsi : (reps.map Rep.size)[i]? = some rep.size := by rw [List.getElem?_map, hi]; rfl
        have hsj : (reps.map Rep.size)[j]? = some (reps[j]).size := by
          rw [List.getElem?_map, List.getElem?_eq_getElem hj]; rfl
        have hmono : ∀ (a b : Nat) (s : Nat), (reps.map Rep.size)[a]? = some s → a < b →
            ((reps.map Rep.size).take a).sum + s ≤ ((reps.map Rep.size).take b).sum := by
          intro a b s hs hab
          have := take_sum_add_le ((reps.map Rep.size).take b) a s (by rw [List.getElem?_take_of_lt hab]; exact hs)
          rwa [List.take_take, Nat.min_eq_left (by omega)] at this
        unfold sliceStart
        rcases Nat.lt_or_gt_of_ne hij with h | h
        · right
          have := hmono i j _ hsi h
          omega
        · left
          have := hmono j i _ hsj h
          omega
      · rw [List.getElem?_take_eq_none (by omega), List.getElem?_take_eq_none (by omega)]
    rw [hslice, hb2] at ha2
    rw [ha1, hb1, Outcome.ok.inj ha2]
  · rw [List.getElem?_eq_none (by rw [hx.1]; omega), List.getElem?_eq_none (by rw [hy.1]; omega)]

/-! ## Representations look at their slices only -/

/-- C39: every dyadic integer representation looks at its slice only. -/
theorem dyadic_decodes {w : Nat} (hw : w ≤ 64) {ceilLog2 : Nat → Nat} {r : DyadicInteger}
    (hr : r.Constructed w ceilLog2) : r.rep.Decodes := by
  intro bv start hb
  have h := hr.wellFormed
  refine ⟨_, dyadicUnpack_wellFormed hw h hb, ?_⟩
  show dyadicUnpack r (sliceOf bv start r.size) 0 = _
  rw [dyadicUnpack_wellFormed hw h (sliceOf_fits hb), sliceOf_sliceOf]

/-- C39: every value set representation looks at its slice only. -/
theorem valueSet_decodes {α : Type} [LinearOrder α] {ceilLog2 : Nat → Nat} {values : List α} {r : ValueSet α}
    (hn : values.length < 2 ^ 31) (hr : valueSetNew ceilLog2 values = ok r) : r.rep.Decodes := by
  intro bv start hb
  obtain ⟨h1, h2⟩ := valueSetUnpack_eq hn hr hb
  obtain ⟨h3, h4⟩ := valueSetUnpack_eq hn hr (bv := sliceOf bv start r.index.size) (start := 0)
    (sliceOf_fits hb)
  refine ⟨_, h2, ?_⟩
  show valueSetUnpack r (sliceOf bv start r.index.size) 0 = _
  rw [h4]
  simp only [sliceOf_sliceOf]

section
variable {K : Type} [Field K] [LinearOrder K] [IsStrictOrderedRing K]

/-- C39: every float representation looks at its slice only. -/
theorem float_decodes {lower upper : K} {size : Int} {r : DyadicFloat K}
    (hr : floatWithSize lower upper size = ok r) : r.rep.Decodes := by
  intro bv start hb
  obtain ⟨_, hu⟩ := floatUnpack_spec.2 r hr
  refine ⟨_, hu bv start hb, ?_⟩
  show floatUnpack r (sliceOf bv start r.lengths.length) 0 = _
  rw [hu _ 0 (sliceOf_fits hb), sliceOf_sliceOf]

/-- C39: every complex representation looks at its slice only. -/
theorem complex_decodes {a b c d : K} {n m : Int} {re im : DyadicFloat K} (hre : floatWithSize a b n = ok re)
    (him : floatWithSize c d m = ok im) : (complexRep re im).Decodes := by
  intro bv start hb
  have hb : start + (re.lengths.length + im.lengths.length) ≤ bv.length := hb
  obtain ⟨x, y, h1, h2, h3, _⟩ := complexUnpack_spec hre him hb
  refine ⟨_, h1, ?_⟩
  obtain ⟨x', y', h1', h2', h3', _⟩ := complexUnpack_spec hre him
    (bv := sliceOf bv start (re.lengths.length + im.lengths.length)) (start := 0) (sliceOf_fits hb)
  have e1 : sliceOf (sliceOf bv start (re.lengths.length + im.lengths.length)) 0 re.lengths.length =
      sliceOf bv start re.lengths.length := by
    unfold sliceOf
    rw [List.drop_zero, List.take_take, Nat.min_eq_left (by omega)]
  have e2 : sliceOf (sliceOf bv start (re.lengths.length + im.lengths.length)) (0 + re.lengths.length)
      im.lengths.length = sliceOf bv (start + re.lengths.length) im.lengths.length := by
    unfold sliceOf
    rw [Nat.zero_add, ← List.drop_drop, List.take_add, List.drop_left' (by simp; omega), List.take_take, Nat.min_self]
  rw [e1, h2] at h2'
  rw [e2, h3] at h3'
  show complexUnpack re im (sliceOf bv start (re.lengths.length + im.lengths.length)) 0 = _
  rw [h1', Outcome.ok.inj h2', Outcome.ok.inj h3']

end

/-- C39: every linear categorical representation looks at its slice only. -/
theorem linearCategorical_decodes {n : Nat} (hn : 2 ≤ n) (h : n ≤ 2 ^ 30) {r : LinearCategorical}
    (hr : linearCategoricalNew n = ok r) : r.rep.Decodes := by
  intro bv start hb
  refine ⟨_, linearCategoricalUnpack_eq hn h hr hb, ?_⟩
  show linearCategoricalUnpack r (sliceOf bv start r.ncols) 0 = _
  rw [linearCategoricalUnpack_eq hn h hr (sliceOf_fits hb), sliceOf_sliceOf]

/-- C39: every integer categorical representation looks at its slice only. -/
theorem integerCategorical_decodes {n : Nat} (hn : 2 ≤ n) (h : n < 2 ^ 31) {r : IntegerCategorical}
    (hr : integerCategoricalNew n = ok r) : r.rep.Decodes := by
  intro bv start hb
  obtain ⟨c, h1, _, h3⟩ := integerCategoricalUnpack_spec hn h hr hb
  obtain ⟨c', h1', _, h3'⟩ := integerCategoricalUnpack_spec hn h hr (bv := sliceOf bv start r.size) (start := 0)
    (sliceOf_fits hb)
  refine ⟨c, h1, ?_⟩
  rw [sliceOf_sliceOf] at h3'
  show integerCategoricalUnpack r (sliceOf bv start r.size) 0 = _
  rw [h1', h3', h3]

/-- C39: converting the result does not change what is looked at, so that representations of several types can be
mixed. -/
theorem map_decodes {D E : Type} {r : Rep D} (convert : D → E) (h : r.Decodes) : (r.map convert).Decodes := by
  intro bv start hb
  obtain ⟨v, h1, h2⟩ := h bv start hb
  refine ⟨convert v, ?_, ?_⟩
  · show (do let v ← r.unpack bv start; ok (convert v)) = _
    rw [h1, ok_bind]
  · show (do let v ← r.unpack (sliceOf bv start r.size) 0; ok (convert v)) = _
    rw [h2, ok_bind]

/-- C39: a permutation representation looks at its slice only. -/
theorem permutationUnpack_local {r : PermutationRep} (h0 : 0 < r.elementSize) (h64 : r.elementSize ≤ 64) {bv : BV}
    {start : Nat} (hb : start + r.size ≤ bv.length) :
    permutationUnpack r bv start = permutationUnpack r (sliceOf bv start r.size) 0 := by
  have hk : permutationKeys r bv start = permutationKeys r (sliceOf bv start r.size) 0 := by
    rw [permutationKeys_eq h0 h64 hb, permutationKeys_eq h0 h64 (by
      rw [sliceOf_length hb, Nat.zero_add]; exact le_refl _)]
    congr 1
    apply List.map_congr_left
    intro i hi
    have hi := List.mem_range.mp hi
    unfold elementKey elementCode
    congr 3
    have hle : (i + 1) * r.elementSize ≤ r.count * r.elementSize := Nat.mul_le_mul_right _ hi
    rw [Nat.add_mul, one_mul] at hle
    unfold sliceOf PermutationRep.size
    apply List.ext_getElem?
    intro k
    by_cases hk : k < r.elementSize
    · rw [List.getElem?_take_of_lt hk, List.getElem?_take_of_lt hk, List.getElem?_drop, List.getElem?_drop,
        List.getElem?_take_of_lt (by omega), List.getElem?_drop]
      congr 1
      omega
    · rw [List.getElem?_take_eq_none (by omega), List.getElem?_take_eq_none (by omega)]
  unfold permutationUnpack
  rw [hk]

/-! ## Universal adapter -/

/-- The sizes of all the slices: one for the booleans, then one for each variable. -/
def UniversalReps.sizes {K : Type} [Field K] (r : UniversalReps K) : List Nat :=
  [r.numBooleans] ++ r.integers.map (·.rep.size) ++ r.floats.map (·.rep.size) ++
    r.complexes.map (fun p => (complexRep p.1 p.2).size) ++ r.categoricals.map (·.rep.size) ++
    r.permutations.map PermutationRep.size

/-- The representations are the results of constructors. -/
structure UniversalReps.Constructed {K : Type} [Field K] [LinearOrder K] (ceilLog2 : Nat → Nat)
    (r : UniversalReps K) : Prop where
  integers : ∀ rep ∈ r.integers, rep.Constructed 32 ceilLog2
  floats : ∀ rep ∈ r.floats, ∃ lower upper size, floatWithSize lower upper size = ok rep
  complexes : ∀ rep ∈ r.complexes, (∃ lower upper size, floatWithSize lower upper size = ok rep.1) ∧
    ∃ lower upper size, floatWithSize lower upper size = ok rep.2
  categoricals : ∀ rep ∈ r.categoricals, ∃ n, 2 ≤ n ∧ n ≤ 2 ^ 30 ∧ linearCategoricalNew n = ok rep
  permutations : ∀ rep ∈ r.permutations, rep.elementSize ≤ 64 ∧
    ∃ n additional, permutationRepNew ceilLog2 n additional = ok rep

/-- The vectors of variables have the sizes set by the constructor of the adapter. -/
structure UniversalVars.Matches {K : Type} (vars : UniversalVars K) (r : UniversalReps K) : Prop where
  booleans : vars.booleans.length = r.numBooleans
  integers : vars.integers.length = r.integers.length
  floats : vars.floats.length = r.floats.length
  complexes : vars.complexes.length = r.complexes.length
  categoricals : vars.categoricals.length = r.categoricals.length
  permutations : vars.permutations.map List.length = r.permutations.map PermutationRep.count

/-- C39: the slices of a group of variables are slices of the whole list of slices. -/
theorem sliceStart_append (base : Nat) (before sizes after : List Nat) (i : Nat) (hi : i ≤ sizes.length) :
    sliceStart base (before ++ sizes ++ after) (before.length + i) = sliceStart (base + before.sum) sizes i := by
  unfold sliceStart
  rw [List.append_assoc, List.take_length_add_append, List.take_append_of_le_length hi, List.sum_append]
  omega

section
variable {K : Type} [Field K] [LinearOrder K] [IsStrictOrderedRing K]

theorem universal_bvSize (r : UniversalReps K) : r.bvSize = ok r.sizes.sum := by
  unfold UniversalReps.bvSize UniversalReps.sizes
  simp only [forEach_add (fun rep : DyadicInteger => rep.rep.size), ok_bind,
    forEach_add (fun rep : DyadicFloat K => rep.rep.size),
    forEach_add (fun p : DyadicFloat K × DyadicFloat K => (complexRep p.1 p.2).size),
    forEach_add (fun rep : LinearCategorical => rep.rep.size), forEach_add PermutationRep.size, List.sum_append,
    List.sum_singleton]

theorem copy_booleans {vars bv : BV} {n : Nat} (hv : vars.length = n) (hb : n ≤ bv.length) :
    (forRange 0 vars.length (fun i (booleans : BV) => do
      let b ← vget bv i
      vset booleans i b) vars).Returns (fun x => x = sliceOf bv 0 n) := by
  refine (forRange_returns (I := fun s (x : BV) => x.length = n ∧ ∀ i : Nat, i < s → x[i]? = bv[i]?) (Nat.zero_le _)
    ⟨hv, by intro i hi; omega⟩ ?_).mono ?_
  · rintro j x _ hj ⟨hl, hx⟩
    rw [vget_eq (by omega), ok_bind, vset_eq (by omega), returns_ok]
    refine ⟨by simpa using hl, ?_⟩
    intro i hi
    rw [List.getElem?_set]
    by_cases hij : j = i
    · subst hij
      rw [if_pos rfl, if_pos (by omega), List.getElem?_eq_getElem (by omega)]
    · rw [if_neg hij]; exact hx i (by omega)
  · rintro x ⟨hl, hx⟩
    apply List.ext_getElem?
    intro i
    unfold sliceOf
    by_cases hi : i < n
    · rw [hx i (by omega), List.getElem?_take_of_lt hi, List.drop_zero]
    · rw [List.getElem?_eq_none (by omega), List.getElem?_eq_none (by simp; omega)]

/-- C39: the universal adapter reads the booleans from the first slice, and decodes each variable from its own
slice; the slices of integers come first, then floats, complex numbers, categories and permutations.  They are
consecutive and cover the bit vector (`slices_cover`).  Each permutation is a possible decoding of its slice. -/
theorem universalUnpack_spec {ceilLog2 : Nat → Nat} {r : UniversalReps K} (hr : r.Constructed ceilLog2)
    {vars : UniversalVars K} (hv : vars.Matches r) {bv : BV} (hb : bv.length = r.sizes.sum) :
    Sim.Post (universalUnpack r vars bv) (fun out =>
      out.booleans = sliceOf bv 0 r.numBooleans ∧
      DecodedFrom (r.integers.map DyadicInteger.rep) bv (sliceStart 0 r.sizes 1) out.integers ∧
      DecodedFrom (r.floats.map DyadicFloat.rep) bv (sliceStart 0 r.sizes (1 + r.integers.length)) out.floats ∧
      DecodedFrom (r.complexes.map (fun p => complexRep p.1 p.2)) bv
        (sliceStart 0 r.sizes (1 + r.integers.length + r.floats.length)) out.complexes ∧
      DecodedFrom (r.categoricals.map LinearCategorical.rep) bv
        (sliceStart 0 r.sizes (1 + r.integers.length + r.floats.length + r.complexes.length)) out.categoricals ∧
      out.permutations.length = r.permutations.length ∧
      ∀ (i : Nat) (rep : PermutationRep), r.permutations[i]? = some rep → ∃ p, out.permutations[i]? = some p ∧
        Sim.Reaches (permutationUnpack rep (sliceOf bv (sliceStart
          (sliceStart 0 r.sizes (1 + r.integers.length + r.floats.length + r.complexes.length + r.categoricals.length))
          (r.permutations.map PermutationRep.size) i) rep.size) 0) p) := by
  have hsum : r.sizes.sum = r.numBooleans + (r.integers.map (·.rep.size)).sum + (r.floats.map (·.rep.size)).sum +
      (r.complexes.map (fun p => (complexRep p.1 p.2).size)).sum + (r.categoricals.map (·.rep.size)).sum +
      (r.permutations.map PermutationRep.size).sum := by
    unfold UniversalReps.sizes
    simp only [List.sum_append, List.sum_singleton]
  have e1 : sliceStart 0 r.sizes 1 = r.numBooleans := by
    have := sliceStart_append 0 [r.numBooleans] (r.integers.map (·.rep.size) ++ r.floats.map (·.rep.size) ++
      r.complexes.map (fun p => (complexRep p.1 p.2).size) ++ r.categoricals.map (·.rep.size) ++
      r.permutations.map PermutationRep.size) [] 0 (Nat.zero_le _)
    rw [show r.sizes = [r.numBooleans] ++ (r.integers.map (·.rep.size) ++ r.floats.map (·.rep.size) ++
      r.complexes.map (fun p => (complexRep p.1 p.2).size) ++ r.categoricals.map (·.rep.size) ++
      r.permutations.map PermutationRep.size) ++ [] by simp [UniversalReps.sizes]]
    simpa [sliceStart] using this
  have e2 : sliceStart 0 r.sizes (1 + r.integers.length) = r.numBooleans + (r.integers.map (·.rep.size)).sum := by
    unfold sliceStart UniversalReps.sizes
    simp only [List.append_assoc]
    rw [← List.append_assoc [r.numBooleans], List.take_left' (by simp; omega), List.sum_append]
    simp
  have e3 : sliceStart 0 r.sizes (1 + r.integers.length + r.floats.length) =
      r.numBooleans + (r.integers.map (·.rep.size)).sum + (r.floats.map (·.rep.size)).sum := by
    unfold sliceStart UniversalReps.sizes
    simp only [List.append_assoc]
    rw [← List.append_assoc [r.numBooleans], ← List.append_assoc ([r.numBooleans] ++ _),
      List.take_left' (by simp; omega), List.sum_append, List.sum_append]
    simp
  have e4 : sliceStart 0 r.sizes (1 + r.integers.length + r.floats.length + r.complexes.length) =
      r.numBooleans + (r.integers.map (·.rep.size)).sum + (r.floats.map (·.rep.size)).sum +
        (r.complexes.map (fun p => (complexRep p.1 p.2).size)).sum := by
    unfold sliceStart UniversalReps.sizes
    rw [List.append_assoc, List.take_left' (by simp; omega), List.sum_append, List.sum_append, List.sum_append]
    simp
  have e5 : sliceStart 0 r.sizes (1 + r.integers.length + r.floats.length + r.complexes.length +
      r.categoricals.length) = r.numBooleans + (r.integers.map (·.rep.size)).sum + (r.floats.map (·.rep.size)).sum +
        (r.complexes.map (fun p => (complexRep p.1 p.2).size)).sum + (r.categoricals.map (·.rep.size)).sum := by
    unfold sliceStart UniversalReps.sizes
    rw [List.take_left' (by simp; omega), List.sum_append, List.sum_append, List.sum_append, List.sum_append]
    simp
  rw [e1, e2, e3, e4, e5]
  have m1 : (r.integers.map DyadicInteger.rep).map Rep.size = r.integers.map (·.rep.size) := by
    rw [List.map_map]; rfl
  have m2 : (r.floats.map DyadicFloat.rep).map Rep.size = r.floats.map (·.rep.size) := by
    rw [List.map_map]; rfl
  have m3 : (r.complexes.map (fun p => complexRep p.1 p.2)).map Rep.size =
      r.complexes.map (fun p => (complexRep p.1 p.2).size) := by rw [List.map_map]; rfl
  have m4 : (r.categoricals.map LinearCategorical.rep).map Rep.size = r.categoricals.map (·.rep.size) := by
    rw [List.map_map]; rfl
  unfold universalUnpack
  refine Sim.Post.bind (Sim.Post.lift ⟨_, universal_bvSize r, rfl⟩) ?_
  intro size hsize
  refine Sim.Post.bind (Sim.Post.assert (by rw [← hsize]; simpa using hb)) ?_
  intro _ _
  refine Sim.Post.bind (Sim.Post.lift (copy_booleans hv.booleans (by omega))) ?_
  intro booleans hbool
  simp only
  rw [hv.booleans]
  obtain ⟨v1, l1, d1⟩ := unpackLoop_spec (reps := r.integers.map DyadicInteger.rep) (vars := vars.integers) (bv := bv)
    (start := r.numBooleans) (by
      intro rep hrep
      obtain ⟨q, hq, rfl⟩ := List.mem_map.mp hrep
      exact dyadic_decodes (by decide) (hr.integers q hq)) (by rw [hv.integers, List.length_map]) (by rw [m1]; omega)
  rw [m1] at l1
  refine Sim.Post.bind (Sim.Post.lift ⟨_, l1, rfl⟩) ?_
  intro p1 hp1
  subst hp1
  simp only
  obtain ⟨v2, l2, d2⟩ := unpackLoop_spec (reps := r.floats.map DyadicFloat.rep) (vars := vars.floats) (bv := bv)
    (start := r.numBooleans + (r.integers.map (·.rep.size)).sum) (by
      intro rep hrep
      obtain ⟨q, hq, rfl⟩ := List.mem_map.mp hrep
      obtain ⟨_, _, _, h⟩ := hr.floats q hq
      exact float_decodes h) (by rw [hv.floats, List.length_map]) (by rw [m2]; omega)
  rw [m2] at l2
  refine Sim.Post.bind (Sim.Post.lift ⟨_, l2, rfl⟩) ?_
  intro p2 hp2
  subst hp2
  simp only
  obtain ⟨v3, l3, d3⟩ := unpackLoop_spec (reps := r.complexes.map (fun p => complexRep p.1 p.2))
    (vars := vars.complexes) (bv := bv)
    (start := r.numBooleans + (r.integers.map (·.rep.size)).sum + (r.floats.map (·.rep.size)).sum) (by
      intro rep hrep
      obtain ⟨q, hq, rfl⟩ := List.mem_map.mp hrep
      obtain ⟨⟨_, _, _, h⟩, _, _, _, h'⟩ := hr.complexes q hq
      exact complex_decodes h h') (by rw [hv.complexes, List.length_map]) (by rw [m3]; omega)
  rw [m3] at l3
  refine Sim.Post.bind (Sim.Post.lift ⟨_, l3, rfl⟩) ?_
  intro p3 hp3
  subst hp3
  simp only
  obtain ⟨v4, l4, d4⟩ := unpackLoop_spec (reps := r.categoricals.map LinearCategorical.rep)
    (vars := vars.categoricals) (bv := bv)
    (start := r.numBooleans + (r.integers.map (·.rep.size)).sum + (r.floats.map (·.rep.size)).sum +
        (r.complexes.map (fun p => (complexRep p.1 p.2).size)).sum) (by
      intro rep hrep
      obtain ⟨q, hq, rfl⟩ := List.mem_map.mp hrep
      obtain ⟨_, h1, h2, h⟩ := hr.categoricals q hq
      exact linearCategorical_decodes h1 h2 h) (by rw [hv.categoricals, List.length_map]) (by rw [m4]; omega)
  rw [m4] at l4
  refine Sim.Post.bind (Sim.Post.lift ⟨_, l4, rfl⟩) ?_
  intro p4 hp4
  subst hp4
  simp only
  have hplen : vars.permutations.length = r.permutations.length := by
    have := congrArg List.length hv.permutations
    simpa using this
  generalize hbase : r.numBooleans + (r.integers.map (·.rep.size)).sum + (r.floats.map (·.rep.size)).sum +
        (r.complexes.map (fun p => (complexRep p.1 p.2).size)).sum + (r.categoricals.map (·.rep.size)).sum = base
  refine Sim.Post.bind (Sim.Post.forRange (fun k (st : List (List Nat) × Nat) =>
    st.2 = sliceStart base (r.permutations.map PermutationRep.size) k ∧
    st.1.length = r.permutations.length ∧
    (∀ i : Nat, k ≤ i → st.1[i]? = vars.permutations[i]?) ∧
    ∀ (i : Nat) (rep : PermutationRep), i < k → r.permutations[i]? = some rep → ∃ p, st.1[i]? = some p ∧
      Sim.Reaches (permutationUnpack rep (sliceOf bv (sliceStart base (r.permutations.map PermutationRep.size) i)
        rep.size) 0) p) (Nat.zero_le _)
    ⟨by simp [sliceStart], hplen, fun _ _ => rfl, by intro i _ hi; omega⟩ ?_) ?_
  · rintro k ⟨l, s⟩ _ hk ⟨h1, h2, h3, h4⟩
    simp only at h1 h2 h3 h4
    have hk' : k < r.permutations.length := by omega
    have hsz : (r.permutations.map PermutationRep.size)[k]? = some (r.permutations[k]).size := by
      rw [List.getElem?_map, List.getElem?_eq_getElem hk', Option.map_some]
    have hle := take_sum_add_le _ _ _ hsz
    obtain ⟨h64, n, additional, hnew⟩ := hr.permutations _ (List.getElem_mem hk')
    obtain ⟨_, _, _, h0⟩ := permutationRepNew_eq_ok hnew
    have hfit : s + (r.permutations[k]).size ≤ bv.length := by unfold sliceStart at h1; omega
    simp only
    refine Sim.Post.bind (Sim.Post.lift ⟨_, vget_eq hk', rfl⟩) ?_
    intro rep hrep
    subst hrep
    have hold : l[k]'(by omega) = vars.permutations[k] := by
      have := h3 k (le_refl _)
      rw [List.getElem?_eq_getElem (by omega), List.getElem?_eq_getElem hk] at this
      exact Option.some.inj this
    refine Sim.Post.bind (Sim.Post.lift ⟨_, vget_eq (show k < l.length by omega), rfl⟩) ?_
    intro old ho
    have hcount : old.length = (r.permutations[k]).count := by
      have := congrArg (fun t => t[k]?) hv.permutations
      simp only [List.getElem?_map, List.getElem?_eq_getElem hk, List.getElem?_eq_getElem hk', Option.map_some] at this
      rw [← ho, hold]
      exact Option.some.inj this
    refine Sim.Post.bind (Sim.Post.assert (by simpa using hcount)) ?_
    intro _ _
    rw [permutationUnpack_local h0 h64 hfit]
    refine Sim.Post.bind (permutationUnpack_valid hnew h64 (sliceOf_fits hfit)) ?_
    rintro p ⟨hp1, hp2⟩
    have hreach := permutationUnpack_ties hnew h64 (sliceOf_fits hfit) hp1 hp2
    refine Sim.Post.bind (Sim.Post.lift ⟨_, vset_eq (show k < l.length by omega), rfl⟩) ?_
    intro perms hperms
    subst hperms
    refine Sim.Post.pure ⟨?_, by simpa using h2, ?_, ?_⟩
    · simp only
      rw [h1]
      unfold sliceStart
      rw [List.take_add_one, hsz, Option.toList_some, List.sum_append, List.sum_singleton]
      omega
    · intro i hi
      rw [List.getElem?_set, if_neg (by omega)]
      exact h3 i (by omega)
    · intro i rep hi hrep
      rw [List.getElem?_set]
      by_cases hik : k = i
      · subst hik
        rw [List.getElem?_eq_getElem hk'] at hrep
        obtain rfl := Option.some.inj hrep
        exact ⟨p, by rw [if_pos rfl, if_pos (by omega)], by rw [← h1]; exact hreach⟩
      · rw [if_neg hik]
        exact h4 i rep (by omega) hrep
  · rintro ⟨l, s⟩ ⟨_, h2, _, h4⟩
    simp only at h2 h4
    refine Sim.Post.pure ⟨hbool, d1, d2, d3, d4, h2, ?_⟩
    intro i rep hrep
    obtain ⟨hi, _⟩ := List.getElem?_eq_some_iff.mp hrep
    exact h4 i rep (by omega) hrep

end

/-! ## Other adapters -/

/-- C39: the permutation adapter evaluates the function at a permutation, decoded from the whole bit vector. -/
theorem permutationAdapterEvaluate_spec {K : Type} (f : List Nat → Outcome K) {ceilLog2 : Nat → Nat}
    {n additional : Nat} {r : PermutationRep} (hr : permutationRepNew ceilLog2 n additional = ok r)
    (h64 : r.elementSize ≤ 64) (hf : ∀ p, p.Perm (List.range n) → ∃ v, f p = ok v) {bv : BV}
    (hb : bv.length = r.size) :
    Sim.Post (permutationAdapterEvaluate f r bv) (fun v => ∃ p, p.Perm (List.range n) ∧
      Sim.Reaches (permutationUnpack r bv 0) p ∧ f p = ok v) := by
  unfold permutationAdapterEvaluate
  refine Sim.Post.bind (Sim.Post.assert (by simpa using hb)) ?_
  intro _ _
  refine Sim.Post.bind (permutationUnpack_valid hr h64 (by omega)) ?_
  rintro p ⟨hp1, hp2⟩
  obtain ⟨v, hv⟩ := hf p hp1
  refine Sim.Post.lift ⟨v, hv, p, hp1, ?_, hv⟩
  exact permutationUnpack_ties hr h64 (by omega) hp1 hp2

/-- C39: the permutation adapter refuses a representation with another number of elements. -/
theorem permutationAdapterNew_spec (n : Nat) (r : PermutationRep) :
    permutationAdapterNew n r = if r.count = n then ok () else .throw .runtimeError := by
  unfold permutationAdapterNew
  by_cases h : r.count = n
  · rw [if_neg (by simpa using h), if_pos h]
  · rw [if_pos h, if_neg h]

/-- C39: the multiobjective adapter evaluates to the sum of the objectives. -/
theorem multiobjectiveAdapterEvaluate_spec {K : Type} [AddCommMonoid K] (f : BV → Outcome (List K)) {bv : BV}
    {value : List K} (h : f bv = ok value) : multiobjectiveAdapterEvaluate f bv = ok value.sum := by
  have key : ∀ (l : List K) (s : K), forEach l (fun v result => ok (result + v)) s = ok (s + l.sum) := by
    intro l
    induction l with
    | nil => intro s; simp [forEach]
    | cons a l ih =>
      intro s
      simp only [forEach, ok_bind]
      rw [ih, List.sum_cons, add_assoc]
  unfold multiobjectiveAdapterEvaluate
  rw [h, ok_bind, key, zero_add]

/-! ## Examples -/

/-- Two variables, of four and two bits. -/
example : multivariateUnpack [exampleDyadic.rep, { exampleDyadic with size := 2 }.rep] [0, 0]
    [true, true, false, true, false, true] = ok [5, 5] := by decide +kernel

example : ∃ r : UniversalReps Rat, r.Constructed (Nat.clog 2) ∧ r.sizes = [2, 4, 3, 3, 9] ∧
    UniversalVars.Matches ⟨[false, false], [0], [0], [], [0], [[0, 0, 0]]⟩ r :=
  ⟨{ numBooleans := 2, integers := [exampleDyadic], floats := [⟨[1 / 2, 1 / 4, 1 / 8], -1, 4⟩], complexes := []
     categoricals := [{ count := 3, nrows := 2, ncols := 3, matrix := [[true, false, true], [false, true, true]] }]
     permutations := [{ count := 3, elementSize := 3 }] },
    { integers := by intro rep h; rw [List.mem_singleton] at h; rw [h]; exact exampleDyadic_constructed
      floats := by
        intro rep h; rw [List.mem_singleton] at h; rw [h]
        exact ⟨-1, 3, 3, by decide +kernel⟩
      complexes := by intro rep h; cases h
      categoricals := by
        intro rep h; rw [List.mem_singleton] at h; rw [h]
        exact ⟨3, by decide, by decide, by decide +kernel⟩
      permutations := by
        intro rep h; rw [List.mem_singleton] at h; rw [h]
        exact ⟨by decide, 3, 1, by decide +kernel⟩ },
    by decide +kernel, ⟨rfl, rfl, rfl, rfl, rfl, rfl⟩⟩

end Hnco
