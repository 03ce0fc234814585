import Verif.Serialization.Model
import Verif.App.ModifierProps

/-!
# Properties of archives (C79)
-/

namespace Hnco

open Outcome

variable {K α β : Type}

/-! ## Specification -/

/-- Reading what has been written gives the object back, and leaves what comes after. -/
def RoundTrip (save : α → List (Tok K)) (load : Reader K α) (x : α) : Prop :=
  ∀ rest, load (save x ++ rest) = ok (x, rest)

/-- The map is total on vectors of its input size, and its answer on surjectivity is the truth. -/
def MapSound (m : MapObj) : Prop :=
  ∃ g, MapSpec.Computes m.map m.inputSize m.outputSize g ∧
    ∃ b, m.isSurjective = ok b ∧ (b = true ↔ MapSpec.Surjective m.inputSize m.outputSize g)

/-! ## Lemmas -/

theorem readMany_flatMap {item : Reader K β} {w : α → List (Tok K)} {g : α → β} :
    ∀ {l : List α}, (∀ a ∈ l, ∀ rest, item (w a ++ rest) = ok (g a, rest)) →
      ∀ rest, readMany item l.length (l.flatMap w ++ rest) = ok (l.map g, rest)
  | [], _, rest => rfl
  | a :: l, h, rest => by
    have ih := readMany_flatMap (l := l) (fun b hb => h b (List.mem_cons_of_mem _ hb)) rest
    simp only [List.length_cons, readMany, List.flatMap_cons, List.append_assoc, h a List.mem_cons_self, ok_bind, ih,
      List.map_cons]

theorem readVector_write {item : Reader K β} {w : α → List (Tok K)} {g : α → β} {l : List α}
    (h : ∀ a ∈ l, ∀ rest, item (w a ++ rest) = ok (g a, rest)) (rest : List (Tok K)) :
    readVector item (writeVector w l ++ rest) = ok (l.map g, rest) := by
  simp only [readVector, writeVector, List.cons_append, readInt, ok_bind]
  rw [if_neg (by omega), Int.toNat_natCast]
  exact readMany_flatMap h rest

theorem roundTrip_vector {item : Reader K α} {w : α → List (Tok K)} {l : List α} (h : ∀ a ∈ l, RoundTrip w item a) :
    RoundTrip (writeVector w) (readVector item) l := fun rest => by
  rw [readVector_write (g := id) h rest, List.map_id]

/-- The byte of a bit. -/
def bitByte (b : Bool) : Int := if b then 1 else 0

theorem readBitByte_write (b : Bool) (rest : List (Tok K)) : readBitByte (writeBit b ++ rest) = ok (bitByte b, rest) := by
  cases b <;> rfl

theorem readBytes_write (v : BV) (rest : List (Tok K)) :
    readVector readBitByte (writeVector writeBit v ++ rest) = ok (v.map bitByte, rest) :=
  readVector_write (fun b _ => readBitByte_write b) rest

theorem bytesValid_bits (v : BV) : bytesValid (v.map bitByte) = true := by
  simp only [bytesValid, List.all_map, List.all_eq_true, Function.comp]
  intro b _
  cases b <;> rfl

theorem bytesBv_bits (v : BV) : bytesBv (v.map bitByte) = v := by
  simp only [bytesBv, List.map_map]
  conv => rhs; rw [← List.map_id v]
  refine List.map_congr_left fun b _ => ?_
  cases b <;> rfl

theorem matrix_bytes (M : BM) : (M.map (fun r => r.map bitByte)).map bytesBv = M := by
  rw [List.map_map]
  conv => rhs; rw [← List.map_id M]
  exact List.map_congr_left fun r _ => bytesBv_bits r

theorem readMatrix_write (M : BM) (rest : List (Tok K)) :
    readVector (readVector readBitByte) (writeVector (writeVector writeBit) M ++ rest) =
      ok (M.map (fun r => r.map bitByte), rest) :=
  readVector_write (fun v _ => readBytes_write v) rest

theorem matrixValid_bits {M : BM} (h : bmIsValid M = ok true) : matrixValid (M.map (fun r => r.map bitByte)) = ok true := by
  simp only [matrixValid, matrix_bytes, h, ok_bind, Bool.true_and, List.all_map]
  congr 1
  rw [List.all_eq_true]
  exact fun v _ => bytesValid_bits v

/-! ## C79: saving, then loading -/

/-- C79: saving a map and loading it gives the same map, for translations, permutations, linear maps, affine maps and
sequences of transvections, as long as the map is valid. -/
theorem maps_roundTrip :
    (∀ v : BV, RoundTrip (K := K) saveTranslation loadTranslation v) ∧
    (∀ p : List Int, p.Perm ((List.range p.length).map Int.ofNat) → RoundTrip (K := K) savePermutation loadPermutation p) ∧
    (∀ (M : BM) (n m : Nat), 0 < n → 0 < m → F2.HasShape n m M → RoundTrip (K := K) saveLinear loadLinear M) ∧
    (∀ (M : BM) (v : BV) (n m : Nat), 0 < n → 0 < m → F2.HasShape n m M → v.length = n →
      RoundTrip (K := K) saveAffine loadAffine (M, v)) ∧
    (∀ f : TsAffine, (∀ t ∈ f.ts, t.row < f.bv.length ∧ t.col < f.bv.length ∧ t.row ≠ t.col) →
      RoundTrip (K := K) saveTsAffine loadTsAffine f) := by
  refine ⟨?_, ?_, ?_, ?_, ?_⟩
  · intro v rest
    simp only [loadTranslation, saveTranslation, readBytes_write, ok_bind, bytesValid_bits, assert_true, bytesBv_bits]
  · intro p hp rest
    obtain ⟨b, e, h⟩ := permIsValid_correct p
    have hr : RoundTrip (K := K) (writeVector writeInt) (readVector readInt) p := roundTrip_vector fun _ _ _ => rfl
    simp only [loadPermutation, savePermutation, hr rest, ok_bind, e, h.mpr hp, assert_true]
  · intro M n m hn hm hM rest
    simp only [loadLinear, saveLinear, readMatrix_write, ok_bind, matrixValid_bits (BM.Valid.isValid hM hn hm), assert_true,
      matrix_bytes]
  · intro M v n m hn hm hM hv rest
    simp only [loadAffine, saveAffine, saveLinear, saveTranslation, List.append_assoc, readMatrix_write, readBytes_write, ok_bind,
      matrixValid_bits (BM.Valid.isValid hM hn hm), assert_true, matrix_bytes, bytesValid_bits, bytesBv_bits,
      List.length_map, hM.1, hv, decide_true]
  · intro f hf rest
    have ht : ∀ t ∈ f.ts, RoundTrip (K := K) saveTransvection loadTransvection t := by
      intro t h r
      have hv : tvIsValid t = true := by simpa [tvIsValid] using (hf t h).2.2
      simp only [loadTransvection, saveTransvection, writeInt, List.cons_append, List.nil_append, readInt, ok_bind,
        Int.toNat_natCast]
      rw [assert_pos (by simp), assert_pos (by simp), assert_pos hv]
      rfl
    have hts : tsIsValidN f.ts f.bv.length = true := by
      simp only [tsIsValidN, List.all_eq_true]
      intro t h
      obtain ⟨h1, h2, h3⟩ := hf t h
      simp [tvIsValidN, tvIsValid, h1, h2, h3]
    simp only [loadTsAffine, saveTsAffine, List.append_assoc, readBytes_write, ok_bind, roundTrip_vector ht rest,
      bytesValid_bits, assert_true, List.length_map, hts, bytesBv_bits]

/-- C79: saving a function and loading it gives the same function, whatever its parameters: linear functions, Walsh expansions of
degree 1 and products (vectors of reals), partitions (vectors of integers), NK landscapes, the Ising models, Walsh expansions
and Walsh expansions of degree 2. -/
theorem functions_roundTrip :
    (∀ f : List K, RoundTrip saveReals loadReals f) ∧
    (∀ f : List Int, RoundTrip (K := K) saveInts loadInts f) ∧
    (∀ f : Nk K, RoundTrip saveNk loadNk f) ∧
    (∀ f : Ising1 K, RoundTrip saveIsing1 loadIsing1 f) ∧
    (∀ f : Ising2 K, RoundTrip saveIsing2 loadIsing2 f) ∧
    (∀ f : List (WalshTerm K), RoundTrip saveWalsh loadWalsh f) ∧
    (∀ f : List K × List (List K), RoundTrip saveWalsh2 loadWalsh2 f) := by
  have hR : ∀ l : List K, RoundTrip saveReals loadReals l := fun l => roundTrip_vector fun _ _ _ => rfl
  have hRR : ∀ l : List (List K), RoundTrip (writeVector saveReals) (readVector loadReals) l :=
    fun l => roundTrip_vector fun a _ => hR a
  have hB : ∀ b : Bool, RoundTrip (K := K) writeBit readBool b := fun b rest => by cases b <;> rfl
  refine ⟨hR, fun l => roundTrip_vector fun _ _ _ => rfl, ?_, ?_, ?_, ?_, ?_⟩
  · intro f rest
    have hI : ∀ i : Nat, RoundTrip (K := K) (fun i : Nat => writeInt (i : Int)) readIndex i := fun i rest => by
      simp only [readIndex, writeInt, List.cons_append, List.nil_append, readInt, ok_bind, Int.toNat_natCast]
      rw [assert_pos (by simp)]; rfl
    have h1 : RoundTrip (K := K) (writeVector (writeVector (fun i : Nat => writeInt (i : Int))))
        (readVector (readVector readIndex)) f.neighbors := roundTrip_vector fun a _ => roundTrip_vector fun i _ => hI i
    have h2 : RoundTrip (writeVector (writeVector writeReal)) (readVector (readVector readReal)) f.partials := hRR _
    simp only [loadNk, saveNk, List.append_assoc, h1 _, h2 rest, ok_bind]
  · intro f rest
    simp only [loadIsing1, saveIsing1, List.append_assoc, hR _ _, hB _ rest, ok_bind]
  · intro f rest
    simp only [loadIsing2, saveIsing2, List.append_assoc, hRR _ _, hB _ rest, ok_bind]
  · intro f
    refine roundTrip_vector fun t _ rest => ?_
    have h1 : RoundTrip (K := K) (writeVector writeBit) (readVector readBool) t.feature := roundTrip_vector fun b _ => hB b
    simp only [loadWalshTerm, saveWalshTerm, List.append_assoc, h1 _, writeReal, List.cons_append, List.nil_append, readReal,
      ok_bind]
  · intro f rest
    simp only [loadWalsh2, saveWalsh2, List.append_assoc, hR _ _, hRR _ rest, ok_bind]

/-! ## C79: any file -/

theorem translationObj_sound (v : BV) : MapSound (translationObj v) :=
  ⟨_, (translationMap_correct v _ rfl).1, true, rfl, fun _ =>
    surjective_of_undoes (translationMap_correct v _ rfl).2
      (fun x hx => ((translationMap_correct v _ rfl).1 x x hx hx).2), fun _ => rfl⟩

theorem loadPermutation_any {file rest : List (Tok K)} {p : List Int} (h : loadPermutation file = ok (p, rest)) :
    permIsValid p = ok true := by
  obtain ⟨r, _, h⟩ := bind_eq_ok.mp h
  obtain ⟨v, hv, h⟩ := bind_eq_ok.mp h
  cases v with
  | false => simp at h
  | true =>
    simp only [assert_true, ok_bind] at h
    cases h
    exact hv

theorem matrixValid_shape {raw : List (List Int)} (h : matrixValid raw = ok true) :
    ∃ n m, 0 < n ∧ 0 < m ∧ F2.HasShape n m (raw.map bytesBv) := by
  obtain ⟨v, hv, h⟩ := bind_eq_ok.mp h
  cases v with
  | false => simp at h
  | true => exact BM.Valid.isValid_iff.mp hv

/-- C79: whatever the file, if a map is loaded from it, then the map is total on vectors of its input size, gives vectors of its
output size, and what it says of its surjectivity is the truth. -/
theorem loadMap_sound (kind : Nat) (file : List (Tok K)) (m : MapObj) (h : loadMap kind file = ok m) : MapSound m := by
  unfold loadMap at h
  split at h
  · obtain ⟨r, hr, h⟩ := bind_eq_ok.mp h
    cases h
    exact translationObj_sound _
  · obtain ⟨r, hr, h⟩ := bind_eq_ok.mp h
    cases h
    obtain ⟨f, c, _, _, s, _⟩ := permutationMap_correct r.1 _ rfl (loadPermutation_any hr)
    exact ⟨f, c, true, rfl, fun _ => s, fun _ => rfl⟩
  · obtain ⟨p, hp, h⟩ := bind_eq_ok.mp h
    obtain ⟨v, hv, h⟩ := bind_eq_ok.mp h
    obtain ⟨u, hu, h⟩ := bind_eq_ok.mp h
    cases h
    obtain ⟨f, c, _, _, s, _⟩ := permutationMap_correct p.1 _ rfl (loadPermutation_any hp)
    obtain ⟨g, cg, b, eb, hb⟩ := translationObj_sound v.1
    have hsz : (permutationObj p.1).inputSize = (translationObj v.1).outputSize := by
      cases e : ((permutationObj p.1).inputSize == (translationObj v.1).outputSize) with
      | true => simpa using e
      | false => rw [e] at hu; simp at hu
    cases eb
    have hc := mapComposition_computes (permutationObj p.1) (translationObj v.1) g f (List.replicate v.1.length false) hsz
      (by simp [translationObj]) cg c
    have hs := mapComposition_surjective (permutationObj p.1) (translationObj v.1) g f (List.replicate v.1.length false)
      true true hsz rfl rfl (fun _ => hb.mp rfl) (fun _ => s)
    exact ⟨_, hc, true, hs.1, fun _ => hs.2 rfl, fun _ => rfl⟩
  · obtain ⟨r, hr, h⟩ := bind_eq_ok.mp h
    obtain ⟨cols, hcols, h⟩ := bind_eq_ok.mp h
    cases h
    obtain ⟨raw, _, hr⟩ := bind_eq_ok.mp hr
    obtain ⟨v, hv, hr⟩ := bind_eq_ok.mp hr
    cases v with
    | false => simp at hr
    | true =>
      simp only [assert_true, ok_bind] at hr
      cases hr
      obtain ⟨n, m, hn, hm, hM⟩ := matrixValid_shape hv
      have e := BM.Valid.numColumns hM hn
      simp only at hcols
      rw [e] at hcols
      cases hcols
      simp only [hM.1]
      obtain ⟨b, eb, hb⟩ := linearIsSurjective_ok n cols hn _ hM
      exact ⟨_, linearMap_spec n cols hn hm _ hM, b, eb, hb⟩
  · obtain ⟨r, hr, h⟩ := bind_eq_ok.mp h
    obtain ⟨cols, hcols, h⟩ := bind_eq_ok.mp h
    cases h
    obtain ⟨raw, _, hr⟩ := bind_eq_ok.mp hr
    obtain ⟨s, _, hr⟩ := bind_eq_ok.mp hr
    obtain ⟨v, hv, hr⟩ := bind_eq_ok.mp hr
    cases v with
    | false => simp at hr
    | true =>
      simp only [assert_true, ok_bind] at hr
      obtain ⟨_, _, hr⟩ := bind_eq_ok.mp hr
      obtain ⟨_, hl, hr⟩ := bind_eq_ok.mp hr
      cases hr
      have hl : raw.1.length = s.1.length := by
        by_contra hne
        rw [assert_neg (decide_eq_false hne)] at hl
        cases hl
      obtain ⟨n, m, hn, hm, hM⟩ := matrixValid_shape hv
      have e := BM.Valid.numColumns hM hn
      simp only at hcols
      rw [e] at hcols
      cases hcols
      simp only [hM.1]
      have hlen : (bytesBv s.1).length = n := by
        have := hM.1
        simp only [List.length_map] at this
        simp [bytesBv, ← hl, this]
      obtain ⟨b, eb, _⟩ := linearIsSurjective_ok n cols hn _ hM
      exact ⟨_, affineMap_spec n cols hn hm _ hM _ hlen, b, eb, affine_surjective_iff hn hm hM hlen eb⟩
  · obtain ⟨r, hr, h⟩ := bind_eq_ok.mp h
    cases h
    obtain ⟨raw, _, hr⟩ := bind_eq_ok.mp hr
    obtain ⟨s, _, hr⟩ := bind_eq_ok.mp hr
    obtain ⟨_, _, hr⟩ := bind_eq_ok.mp hr
    obtain ⟨_, hv, hr⟩ := bind_eq_ok.mp hr
    cases hr
    have hts : tsIsValidN s.1 (bytesBv raw.1).length = true := by
      cases e : tsIsValidN s.1 raw.1.length with
      | true => simpa [bytesBv] using e
      | false => rw [e] at hv; simp at hv
    obtain ⟨_, u, _, _, _, _, c, _, _, _, _, sj⟩ := tsAffineInvert_correct ⟨s.1, bytesBv raw.1⟩ _ rfl hts
    exact ⟨u, c, true, rfl, fun _ => sj, fun _ => rfl⟩
  · cases h

/-! ## C79: mapgen, then hnco -/

theorem Sim.bind_congr_post {s : Sim α} {P : α → Prop} {f g : α → Sim β} (hs : Sim.Post s P) (h : ∀ a, P a → f a = g a) :
    (s >>= f) = (s >>= g) := by
  funext ds
  have := hs ds
  change Sim.bind s f ds = Sim.bind s g ds
  unfold Sim.bind
  cases e : s ds with
  | ok a rest => rw [e] at this; simp only [h a this]
  | throw _ => rfl
  | ub => rfl
  | out => rfl

theorem Sim.bind_assoc' {γ : Type} (s : Sim α) (f : α → Sim β) (g : β → Sim γ) :
    ((s >>= f) >>= g) = (s >>= fun a => f a >>= g) := by
  funext ds
  change Sim.bind (Sim.bind s f) g ds = Sim.bind s (fun a => Sim.bind (f a) g) ds
  unfold Sim.bind
  cases s ds <;> rfl

theorem affineRandom_post {rows cols : Nat} {surjective : Bool} (hr : 0 < rows) (hc : 0 < cols)
    (hs : surjective = true → rows ≤ cols) :
    Sim.Post (affineRandom rows cols surjective) (fun r => F2.HasShape rows cols r.1 ∧ r.2.length = rows) := by
  unfold affineRandom
  refine (linearRandom_post hr hc hs).bind (fun M hM => ?_)
  refine (Sim.Post.forRange (fun j (r : List Bool) => r.length = j) (Nat.zero_le _) rfl ?_).bind ?_
  · intro j r _ _ hj
    exact Sim.Post.bernoulli.bind fun b _ => Sim.Post.pure (by simp [hj])
  · intro v hv
    exact (Sim.Post.assert (by simp [hv, hM.1.1])).bind (fun _ _ => Sim.Post.pure ⟨hM.1, hv⟩)

/-- The options of `make_map` for a random map with the sizes given to mapgen. -/
def MapgenOptions.toMap (o : MapgenOptions) : MapOptions := ⟨o.kind, o.inputSize, o.surjective, o.tsLength, o.tsMode, none⟩

/-- C79: loading the file written by mapgen gives, for the same random numbers, the very map that hnco makes when it is asked for a
random map of the same kind and sizes; with transvection sequences, as long as both sizes are the same. -/
theorem mapgen_then_load (o : MapgenOptions) (hn : 0 < o.outputSize) (ho : o.toMap.Feasible o.outputSize)
    (h6 : o.kind = 6 → o.inputSize = o.outputSize) :
    (do
      let file ← mapgen (K := K) o
      Sim.lift (loadMap o.kind file)) = makeRandomMap o.toMap o.outputSize := by
  obtain ⟨r1, r2, r3, r4, r5⟩ := maps_roundTrip (K := K)
  obtain ⟨h1, h6', -, hlin, hts⟩ := ho
  simp only [MapgenOptions.toMap] at h1 h6' hlin hts
  have hcases : o.kind = 1 ∨ o.kind = 2 ∨ o.kind = 3 ∨ o.kind = 4 ∨ o.kind = 5 ∨ o.kind = 6 := by omega
  have hperm : ∀ p : List Int, permIsValid p = ok true → p.Perm ((List.range p.length).map Int.ofNat) := by
    intro p hp
    obtain ⟨b, e, h⟩ := permIsValid_correct p
    rw [hp] at e
    exact h.mp (by simpa using e.symm)
  have hnil : ∀ l : List (Tok K), l = l ++ [] := fun l => (List.append_nil l).symm
  unfold mapgen makeRandomMap loadMap
  rcases hcases with e | e | e | e | e | e <;> simp only [e, MapgenOptions.toMap]
  · rw [Sim.bind_assoc']
    refine Sim.bind_congr_post (translationRandom_post hn) fun v _ => ?_
    have := r1 v []
    rw [List.append_nil] at this
    change Sim.lift (loadTranslation (saveTranslation v) >>= _) = _
    rw [this]; rfl
  · rw [Sim.bind_assoc']
    refine Sim.bind_congr_post (permutationRandom_post hn) fun p hp => ?_
    have := r2 p (hperm p hp.2) []
    rw [List.append_nil] at this
    change Sim.lift (loadPermutation (savePermutation p) >>= _) = _
    rw [this]; rfl
  · rw [Sim.bind_assoc']
    refine Sim.bind_congr_post (permutationRandom_post hn) fun p hp => ?_
    rw [Sim.bind_assoc']
    refine Sim.bind_congr_post (translationRandom_post hn) fun v hv => ?_
    have h2 := r1 v []
    rw [List.append_nil] at h2
    change Sim.lift (loadPermutation (savePermutation p ++ saveTranslation v) >>= _) = _
    rw [r2 p (hperm p hp.2) (saveTranslation v), ok_bind]
    simp only [h2, ok_bind]
    rw [assert_pos (by simp [permutationObj, translationObj, hp.1, hv])]
    rfl
  · obtain ⟨hi, hsu⟩ := hlin (Or.inl e)
    rw [if_neg (by omega), Sim.bind_assoc', Int.toNat_natCast]
    refine Sim.bind_congr_post (linearRandom_post hn (by omega) (fun h => by have := hsu h; omega)) fun M hM => ?_
    have := r3 M _ _ hn (by omega) hM.1 []
    rw [List.append_nil] at this
    change Sim.lift (loadLinear (saveLinear M) >>= _) = _
    rw [this, ok_bind]
    simp only [BM.Valid.numColumns hM.1 hn, ok_bind, hM.1.1]
    rfl
  · obtain ⟨hi, hsu⟩ := hlin (Or.inr e)
    rw [if_neg (by omega), Sim.bind_assoc', Int.toNat_natCast]
    refine Sim.bind_congr_post (affineRandom_post hn (by omega) (fun h => by have := hsu h; omega)) fun f hf => ?_
    have := r4 f.1 f.2 _ _ hn (by omega) hf.1 hf.2 []
    rw [List.append_nil] at this
    change Sim.lift (loadAffine (saveAffine (f.1, f.2)) >>= _) = _
    rw [this, ok_bind]
    simp only [BM.Valid.numColumns hf.1 hn, ok_bind, hf.1.1]
    rfl
  · rw [h6 e, Sim.bind_assoc']
    refine Sim.bind_congr_post (tsAffineRandom_valid [] _ o.tsLength o.tsMode (hts e)) fun f hf => ?_
    have hv : ∀ t ∈ f.ts, t.row < f.bv.length ∧ t.col < f.bv.length ∧ t.row ≠ t.col := by
      intro t ht
      have := List.all_eq_true.mp hf.2 t ht
      rw [hf.1]
      by_cases h1 : t.row = t.col
      · simp [tvIsValidN, tvIsValid, h1] at this
      · by_cases h2 : o.outputSize ≤ t.row
        · simp [tvIsValidN, tvIsValid, h1, h2] at this
        · by_cases h3 : o.outputSize ≤ t.col
          · simp [tvIsValidN, tvIsValid, h1, h2, h3] at this
          · exact ⟨by omega, by omega, h1⟩
    have := r5 f hv []
    rw [List.append_nil] at this
    change Sim.lift (loadTsAffine (saveTsAffine f) >>= _) = _
    rw [this]; rfl

/-- C79 (negative part): mapgen does not use the output size of a transvection sequence: the map which is loaded has the input size
on both sides, whatever output size has been asked for. -/
theorem mapgen_ts_output_ignored (o : MapgenOptions) (hk : o.kind = 6) (hn : 1 < o.inputSize) :
    Sim.Post (do
      let file ← mapgen (K := K) o
      Sim.lift (loadMap o.kind file)) (fun m => m.outputSize = o.inputSize ∧ m.inputSize = o.inputSize) := by
  let o' : MapgenOptions := { o with outputSize := o.inputSize }
  have e : mapgen (K := K) o = mapgen o' := by simp only [mapgen, o', hk]
  have ho : o'.toMap.Feasible o'.outputSize := by
    refine ⟨?_, ?_, rfl, ?_, ?_⟩ <;> simp [MapgenOptions.toMap, o', hk, hn]
  have h := mapgen_then_load (K := K) o' (by simp only [o']; omega) ho (fun _ => rfl)
  rw [e]
  change Sim.Post (do
      let file ← mapgen (K := K) o'
      Sim.lift (loadMap o'.kind file)) _
  rw [h]
  unfold makeRandomMap
  simp only [MapgenOptions.toMap, o', hk]
  exact (tsAffineRandom_valid [] _ o.tsLength o.tsMode hn).bind fun f hf => Sim.Post.pure ⟨hf.1, hf.1⟩

/-- A file with a permutation which is not one, and a file which is too short. -/
example : loadMap (K := Int) 2 [.int 2, .int 1, .int 1] = Outcome.ub ∧
    loadMap (K := Int) 2 [.int 2, .int 1] = Outcome.throw .runtimeError :=
  ⟨rfl, rfl⟩

/-- A file from which an affine map with 1 row and 2 columns is loaded. -/
example : ∃ m, loadMap (K := Int) 5 [.int 1, .int 2, .int 1, .int 0, .int 1, .int 1] = ok m ∧ m.inputSize = 2 ∧
    m.outputSize = 1 :=
  ⟨_, rfl, rfl, rfl⟩

/-- The hypotheses of `mapgen_then_load` hold for a surjective linear map. -/
example : (MapgenOptions.toMap ⟨4, 5, 3, true, 0, .unconstrained⟩).Feasible 3 := by
  refine ⟨?_, ?_, rfl, ?_, ?_⟩ <;> simp [MapgenOptions.toMap]

/-- The hypotheses of `maps_roundTrip` hold for a sequence of two transvections. -/
example : ∀ t ∈ (⟨[⟨0, 1⟩, ⟨2, 0⟩], [true, false, true]⟩ : TsAffine).ts, t.row < 3 ∧ t.col < 3 ∧ t.row ≠ t.col := by decide

end Hnco
