import Verif.App.Modifier
import Verif.Neighborhood.Props
import Verif.Population.Lemmas

/-! # Maps and modifiers of the application (C72) -/

namespace Hnco

open Outcome

variable {K : Type}

/-! ## Specification -/

/-- The number of positions at which two vectors differ. -/
def numDiffering (x y : BV) : Nat := (List.zipWith bne x y).count true

/-- The numbers of bits which may be flipped by prior noise. -/
def PnOptions.Allows (p : PnOptions) (d : Nat) : Prop :=
  (p.kind = 0 ∧ d = 1) ∨
  (p.kind = 1 ∧ (1 ≤ d ∨ (p.allowNoMutation = true ∧ p.rateBelowSqrt = some true))) ∨
  (p.kind = 2 ∧ 1 ≤ d ∧ d ≤ p.radius) ∨
  (p.kind = 3 ∧ d = p.radius)

/-- The vectors which may replace `x` because of prior noise. -/
def ModOptions.Perturbs (o : ModOptions K) (x y : BV) : Prop :=
  (o.priorNoise = none → y = x) ∧
  ∀ p, o.priorNoise = some p → y.length = x.length ∧ p.Allows (numDiffering x y)

/-- What may become of the value `v`: the expression comes first, then the sign, then the noise. -/
def ModOptions.Changes [Neg K] [Add K] (o : ModOptions K) (v w : K) : Prop :=
  ∃ a b, (o.expression = none → a = v) ∧ (∀ e, o.expression = some e → a = e v) ∧
    (o.minimize = false → b = a) ∧ (o.minimize = true → b = -a) ∧
    (o.gaussian = none → w = b) ∧ ∀ normal, o.gaussian = some normal → ∃ d, w = b + normal d

/-- The map suits the function, and computes `g`. -/
def MapFits (f : Fn K) (map : Option MapObj) (g : BV → BV) : Prop :=
  (map = none → g = id) ∧
  ∀ m, map = some m → m.outputSize = f.size ∧ MapSpec.Computes m.map m.inputSize m.outputSize g

/-- The size of the vectors given to the decorated function. -/
def inputSizeOf (f : Fn K) (map : Option MapObj) : Nat :=
  match map with
  | none => f.size
  | some m => m.inputSize

/-! ## Maps -/

theorem translationRandom_post {n : Nat} (hn : 0 < n) : Sim.Post (translationRandom n) (fun v => v.length = n) := by
  unfold translationRandom bvRandomBits
  refine (Sim.Post.assert (by simpa using hn)).bind (fun _ _ => ?_)
  refine (Sim.Post.forRange (fun j (r : List Bool) => r.length = j) (Nat.zero_le _) rfl ?_).mono (fun _ h => h)
  intro j r _ _ hj
  exact Sim.Post.bernoulli.bind fun b _ => Sim.Post.pure (by simp [hj])

theorem permutationRandom_post {n : Nat} (hn : 0 < n) :
    Sim.Post (permutationRandom n) (fun p => p.length = n ∧ permIsValid p = ok true) := by
  unfold permutationRandom
  refine (Sim.Post.assert (by simpa using hn)).bind (fun _ _ => ?_)
  refine (Sim.Post.shuffle _).mono ?_
  intro p hp
  have hl : p.length = n := by simpa using hp.length_eq
  obtain ⟨b, e, h⟩ := permIsValid_correct p
  rw [e, h.mpr (by rw [hl]; exact hp)]
  exact ⟨hl, rfl⟩

theorem linearRandom_post {rows cols : Nat} {surjective : Bool} (hr : 0 < rows) (hc : 0 < cols)
    (hs : surjective = true → rows ≤ cols) :
    Sim.Post (linearRandom rows cols surjective) (fun M => F2.HasShape rows cols M ∧
      (surjective = true → linearIsSurjective M = ok true)) := by
  unfold linearRandom
  refine (Sim.Post.assert (by simpa using hr)).bind (fun _ _ => ?_)
  refine (Sim.Post.assert (by simpa using hc)).bind (fun _ _ => ?_)
  cases surjective with
  | false => exact (bmRandom_post rows cols hr hc).mono (fun M h => ⟨h, fun h => by cases h⟩)
  | true =>
    simp only [if_true]
    rw [if_neg (by have := hs rfl; omega)]
    have hb : Sim.Post (do
        let M ← bmRandom rows cols
        let s ← Sim.lift (linearIsSurjective M)
        return (M, s)) (fun r : BM × Bool => F2.HasShape rows cols r.1 ∧ linearIsSurjective r.1 = ok r.2) := by
      refine (bmRandom_post rows cols hr hc).bind (fun M hM => ?_)
      obtain ⟨b, e, _⟩ := linearIsSurjective_ok rows cols hr M hM
      refine (Sim.Post.lift ⟨b, e, e⟩).bind (fun s hs => Sim.Post.pure ⟨hM, hs⟩)
    refine (Sim.Post.repeatUntil (stop := fun r : BM × Bool => r.2) hb).bind ?_
    rintro ⟨M, s⟩ ⟨⟨h1, h2⟩, h3⟩
    refine Sim.Post.pure ⟨h1, fun _ => ?_⟩
    simp only at h2 h3
    rw [h2, h3]

theorem surjective_of_undoes {n : Nat} {f g : BV → BV} (h : MapSpec.Undoes n f g)
    (hl : ∀ x : BV, x.length = n → (g x).length = n) : MapSpec.Surjective n n f :=
  fun y hy => ⟨g y, hl y hy, h y hy⟩

/-- The function computed by a map of the given kind, with `cols` input bits and `n` output bits: 1 translation, 2 permutation,
3 translation then permutation, 4 linear map, 5 affine map, 6 transvections then translation. -/
inductive MapKind (cols n : Nat) (g : BV → BV) : Nat → Prop
  | translation {v : BV} : v.length = n → (∀ x : BV, x.length = cols → g x = F2.add x v) → MapKind cols n g 1
  | permutation {p : List Int} : p.Perm ((List.range n).map Int.ofNat) →
      (∀ x : BV, x.length = cols → ∀ i j : Nat, p[i]? = some (j : Int) → (g x)[i]? = x[j]?) → MapKind cols n g 2
  | both {v : BV} {p : List Int} : v.length = n → p.Perm ((List.range n).map Int.ofNat) →
      (∀ x : BV, x.length = cols → ∀ i j : Nat, p[i]? = some (j : Int) → (g x)[i]? = (F2.add x v)[j]?) → MapKind cols n g 3
  | linear {M : BM} : F2.HasShape n cols M → (∀ x : BV, x.length = cols → g x = F2.mulVec M x) → MapKind cols n g 4
  | affine {M : BM} {v : BV} : F2.HasShape n cols M → v.length = n →
      (∀ x : BV, x.length = cols → g x = F2.add (F2.mulVec M x) v) → MapKind cols n g 5
  | transvections {ts : List Transvection} {v : BV} : (∀ t ∈ ts, t.row < n ∧ t.col < n ∧ t.row ≠ t.col) → v.length = n →
      (∀ x : BV, x.length = cols → g x = F2.add (tsAct ts x) v) → MapKind cols n g 6

/-- What is required of a map made for a function on `n` bits. -/
structure MapMade (o : MapOptions) (n : Nat) (m : MapObj) : Prop where
  output : m.outputSize = n
  input : m.inputSize = if o.kind = 4 ∨ o.kind = 5 then o.inputSize.toNat else n
  total : ∃ g, MapSpec.Computes m.map m.inputSize m.outputSize g ∧
    ∃ b, m.isSurjective = ok b ∧ (b = true → MapSpec.Surjective m.inputSize m.outputSize g) ∧
      (MapSpec.Surjective m.inputSize m.outputSize g → b = true) ∧
      (o.surjective = true ∨ (o.kind ≠ 4 ∧ o.kind ≠ 5) → b = true) ∧ MapKind m.inputSize m.outputSize g o.kind

/-- The random maps which can be made for a function on `n` bits. -/
def MapOptions.Feasible (o : MapOptions) (n : Nat) : Prop :=
  1 ≤ o.kind ∧ o.kind ≤ 6 ∧ o.loaded = none ∧
  (o.kind = 4 ∨ o.kind = 5 → 0 < o.inputSize ∧ (o.surjective = true → (n : Int) ≤ o.inputSize)) ∧
  (o.kind = 6 → 1 < n)

theorem affine_surjective_iff {n m : Nat} (hn : 0 < n) (hm : 0 < m) {M : BM} (hM : F2.HasShape n m M) {v : BV}
    (hv : v.length = n) {b : Bool} (hb : linearIsSurjective M = ok b) :
    b = true ↔ MapSpec.Surjective m n (fun x => F2.add (F2.mulVec M x) v) := by
  obtain ⟨c, e, h⟩ := affineIsSurjective_correct n m hn hm M hM v hv
  rw [hb] at e
  cases e
  rw [h]
  constructor
  · intro h y hy
    obtain ⟨x, hx, h⟩ := h y hy
    refine ⟨x, hx, ?_⟩
    have := h y hy
    rw [(affineMap_spec n m hn hm M hM v hv x y hx hy).1] at this
    simpa using this
  · intro h y hy
    obtain ⟨x, hx, h⟩ := h y hy
    refine ⟨x, hx, fun o ho => ?_⟩
    rw [(affineMap_spec n m hn hm M hM v hv x o hx ho).1, ← h]

/-- C72: whatever the draws, a random map made for a function on `n` bits is total, maps onto vectors of `n` bits, and
its own test of surjectivity is right; it is surjective whenever this has been asked for, and always unless it is linear or
affine. -/
theorem makeMap_made (o : MapOptions) (n : Nat) (hn : 0 < n) (ho : o.Feasible n) :
    Sim.Post (makeMap o n) (MapMade o n) := by
  obtain ⟨h1, h6, hl, hlin, hts⟩ := ho
  unfold makeMap
  refine (Sim.Post.assert (decide_eq_true (by omega))).bind (fun _ _ => ?_)
  refine (Sim.Post.assert (by simpa using hn)).bind (fun _ _ => ?_)
  rw [hl]
  simp only
  have htr : ∀ v : BV, v.length = n → MapSpec.Surjective n n (fun x => F2.add x v) := fun v hv =>
    surjective_of_undoes (translationMap_correct v n hv).2
      (fun x hx => ((translationMap_correct v n hv).1 x x hx hx).2)
  have hperm : ∀ {p : List Int}, permIsValid p = ok true → p.Perm ((List.range p.length).map Int.ofNat) := by
    intro p hp
    obtain ⟨b, eb, h⟩ := permIsValid_correct p
    rw [hp] at eb
    exact h.mp (by simpa using eb.symm)
  have hcases : o.kind = 1 ∨ o.kind = 2 ∨ o.kind = 3 ∨ o.kind = 4 ∨ o.kind = 5 ∨ o.kind = 6 := by omega
  unfold makeRandomMap
  rcases hcases with e | e | e | e | e | e
  · simp only [e]
    refine (translationRandom_post hn).bind (fun v hv => Sim.Post.pure ?_)
    refine ⟨hv, by rw [if_neg (by omega)]; exact hv, fun x => F2.add x v,
      (translationMap_correct v _ rfl).1, true, rfl, fun _ => ?_, fun _ => rfl, fun _ => rfl, ?_⟩
    rotate_left
    · rw [e]; exact .translation rfl (fun x _ => rfl)
    · change MapSpec.Surjective v.length v.length _; rw [hv]; exact htr v hv
  · simp only [e]
    refine (permutationRandom_post hn).bind (fun p hp => Sim.Post.pure ?_)
    obtain ⟨f, c, q, _, s, _⟩ := permutationMap_correct p _ rfl hp.2
    refine ⟨hp.1, by rw [if_neg (by omega)]; exact hp.1, f, c, true, rfl, fun _ => s, fun _ => rfl, fun _ => rfl, ?_⟩
    rw [e]
    exact .permutation (hperm hp.2) (fun x hx i j => q x i j hx)
  · simp only [e]
    refine (permutationRandom_post hn).bind (fun p hp => (translationRandom_post hn).bind (fun v hv => ?_))
    refine (Sim.Post.assert (by simp [permutationObj, translationObj, hp.1, hv])).bind (fun _ _ => Sim.Post.pure ?_)
    obtain ⟨f, c, q, _, s, _⟩ := permutationMap_correct p _ rfl hp.2
    have hsz : (permutationObj p).inputSize = (translationObj v).outputSize := by
      simp [permutationObj, translationObj, hp.1, hv]
    have hc := mapComposition_computes (permutationObj p) (translationObj v) _ f (List.replicate v.length false) hsz
      (by simp [translationObj]) (translationMap_correct v _ rfl).1 c
    have hs := mapComposition_surjective (permutationObj p) (translationObj v) _ f (List.replicate v.length false)
      true true hsz rfl rfl (fun _ => by rw [hv.symm] at htr; exact htr v rfl) (fun _ => s)
    refine ⟨hp.1, by rw [if_neg (by omega)]; exact hv, _, hc, true, hs.1, fun _ => hs.2 rfl, fun _ => rfl, fun _ => rfl, ?_⟩
    rw [e]
    change MapKind v.length p.length _ 3
    exact .both (by omega) (hperm hp.2) (fun x hx i j => q _ i j (by rw [add_length hx, hx]; omega))
  · simp only [e]
    obtain ⟨hi, hsu⟩ := hlin (Or.inl e)
    rw [if_neg (by omega)]
    have hi' : 0 < o.inputSize.toNat := by omega
    refine (linearRandom_post hn hi' (fun h => by have := hsu h; omega)).bind (fun M hM => Sim.Post.pure ?_)
    obtain ⟨b, eb, hb⟩ := linearIsSurjective_ok n _ hn M hM.1
    refine ⟨rfl, by simp [e, linearObj], _, linearMap_spec n _ hn hi' M hM.1, b, eb, hb.mp, hb.mpr, ?_, ?_⟩
    rotate_left
    · rw [e]; exact .linear hM.1 (fun x _ => rfl)
    rintro (h | h)
    · have := hM.2 h; rw [eb] at this; simpa using this
    · exact absurd e h.1
  · simp only [e]
    obtain ⟨hi, hsu⟩ := hlin (Or.inr e)
    rw [if_neg (by omega)]
    have hi' : 0 < o.inputSize.toNat := by omega
    have hpost : Sim.Post (affineRandom n o.inputSize.toNat o.surjective) (fun r =>
        F2.HasShape n o.inputSize.toNat r.1 ∧ r.2.length = n ∧
          (o.surjective = true → linearIsSurjective r.1 = ok true)) := by
      unfold affineRandom
      refine (linearRandom_post hn hi' (fun h => by have := hsu h; omega)).bind (fun M hM => ?_)
      refine (Sim.Post.forRange (fun j (r : List Bool) => r.length = j) (Nat.zero_le _) rfl ?_).bind ?_
      · intro j r _ _ hj
        exact Sim.Post.bernoulli.bind fun b _ => Sim.Post.pure (by simp [hj])
      · intro v hv
        refine (Sim.Post.assert (by simp [hv, hM.1.1])).bind (fun _ _ => Sim.Post.pure ⟨hM.1, hv, hM.2⟩)
    refine hpost.bind (fun r hr => Sim.Post.pure ?_)
    obtain ⟨b, eb, _⟩ := linearIsSurjective_ok n _ hn r.1 hr.1
    have hb := affine_surjective_iff hn hi' hr.1 hr.2.1 eb
    refine ⟨rfl, by simp [e, affineObj], _, affineMap_spec n _ hn hi' r.1 hr.1 r.2 hr.2.1, b, eb, hb.mp, hb.mpr, ?_, ?_⟩
    rotate_left
    · rw [e]; exact .affine hr.1 hr.2.1 (fun x _ => rfl)
    rintro (h | h)
    · have := hr.2.2 h; rw [eb] at this; simpa using this
    · exact absurd e h.2
  · simp only [e]
    refine (tsAffineRandom_valid [] n o.tsLength o.tsMode (hts e)).bind (fun f hf => Sim.Post.pure ?_)
    have hval : tsIsValidN f.ts f.bv.length = true := by rw [hf.1]; exact hf.2
    obtain ⟨_, u, _, _, _, _, c, _, _, _, _, s⟩ := tsAffineInvert_correct f _ rfl hval
    have c' := tsAffineMap_computes f _ rfl hval
    have heq : ∀ x : BV, x.length = f.bv.length → u x = F2.add (tsAct f.ts x) f.bv := fun x hx => by
      have := (c x f.bv hx rfl).1
      rw [(c' x f.bv hx rfl).1] at this
      exact (Outcome.ok.inj this).symm
    refine ⟨hf.1, by rw [if_neg (by omega)]; exact hf.1, u, c, true, rfl, fun _ => s, fun _ => rfl, fun _ => rfl, ?_⟩
    rw [e]
    refine .transvections (fun t ht => ?_) rfl heq
    have hv := List.all_eq_true.mp hval t ht
    change t.row < f.bv.length ∧ t.col < f.bv.length ∧ t.row ≠ t.col
    simp only [tvIsValidN, tvIsValid, ge_iff_le] at hv
    by_cases c1 : t.row = t.col
    · simp [c1] at hv
    · by_cases c2 : f.bv.length ≤ t.row
      · simp [c1, c2] at hv
      · by_cases c3 : f.bv.length ≤ t.col
        · simp [c1, c2, c3] at hv
        · exact ⟨by omega, by omega, c1⟩

/-- C72: the other options of maps are refused: unknown kinds of maps, input sizes which are not positive, and surjective maps
onto more bits than there are in the input. -/
theorem makeMap_refused (o : MapOptions) (n : Nat) (hn : 0 < n) (hl : o.loaded = none)
    (h : 6 < o.kind ∨ ((o.kind = 4 ∨ o.kind = 5) ∧
      (o.inputSize ≤ 0 ∨ (o.surjective = true ∧ o.inputSize < (n : Int))))) (ds : List Nat) :
    makeMap o n ds = .throw .runtimeError := by
  have hk : 0 < o.kind := by omega
  have e1 : makeMap o n ds = makeRandomMap o n ds := by
    unfold makeMap
    rw [assert_pos (by simpa using hk), assert_pos (by simpa using hn), hl]
    rfl
  rw [e1]
  have hlin : 0 < o.inputSize → o.surjective = true → o.inputSize < (n : Int) →
      ∀ ds, linearRandom n o.inputSize.toNat o.surjective ds = .throw .runtimeError := by
    intro h1 h2 h3 ds
    rw [h2]
    exact linearRandom_refused n o.inputSize.toNat (by omega) (by omega) ds
  unfold makeRandomMap
  rcases h with h | ⟨e | e, h⟩
  · obtain ⟨k, hk⟩ : ∃ k, o.kind = k + 7 := ⟨o.kind - 7, by omega⟩
    simp only [hk]
    rfl
  · simp only [e]
    by_cases h0 : o.inputSize ≤ 0
    · rw [if_pos h0]; rfl
    · rw [if_neg h0]
      obtain ⟨h2, h3⟩ := h.resolve_left h0
      change Sim.bind _ _ ds = _
      unfold Sim.bind
      rw [hlin (by omega) h2 h3 ds]
  · simp only [e]
    by_cases h0 : o.inputSize ≤ 0
    · rw [if_pos h0]; rfl
    · rw [if_neg h0]
      obtain ⟨h2, h3⟩ := h.resolve_left h0
      change Sim.bind (Sim.bind (linearRandom n o.inputSize.toNat o.surjective) _) _ ds = _
      unfold Sim.bind
      rw [hlin (by omega) h2 h3 ds]

/-- C72 (negative part): an affine map given by transvections cannot be made for a function on one bit, since sampling
transvections, even none, asserts that there are at least two bits. -/
theorem makeMap_transvections_one_bit (o : MapOptions) (hk : o.kind = 6) (hl : o.loaded = none) (d : Nat)
    (ds : List Nat) : makeMap o 1 (d :: ds) = .ub := by
  have e1 : makeMap o 1 (d :: ds) = makeRandomMap o 1 (d :: ds) := by
    unfold makeMap
    rw [assert_pos (by simp [hk]), assert_pos (by simp), hl]
    rfl
  rw [e1]
  unfold makeRandomMap
  simp only [hk]
  cases o.tsMode <;> rfl

example : (MapOptions.mk 5 3 true 0 .unconstrained none).Feasible 2 := by
  simp [MapOptions.Feasible]

/-! ## Evaluation -/

theorem numDiffering_flipped {n : Nat} {x y : BV} {l : List Nat} (hx : x.length = n) (hl : l.Pairwise (· < ·))
    (hr : ∀ i ∈ l, i < n) (h : FlippedAt x l y) : numDiffering x y = l.length :=
  count_zipWith_bne x y l (hl.imp (fun h => Nat.ne_of_lt h)) h.1 (by rw [hx]; exact hr) h.2

/-- Two vectors of the same size differ by flips. -/
theorem flipped_exists {x y : BV} (h : y.length = x.length) :
    ∃ l : List Nat, l.Pairwise (· < ·) ∧ (∀ i ∈ l, i < x.length) ∧ FlippedAt x l y := by
  refine ⟨(List.range x.length).filter (fun i => x[i]? != y[i]?), ?_, ?_, h, ?_⟩
  · exact (List.pairwise_lt_range).sublist List.filter_sublist
  · intro i hi
    exact List.mem_range.mp (List.mem_filter.mp hi).1
  · intro i b hb
    have hi : i < x.length := by
      by_contra hc
      rw [List.getElem?_eq_none (by omega)] at hb
      cases hb
    have hiy : i < y.length := by omega
    simp only [List.mem_filter, List.mem_range, hi, true_and, hb, bne_iff_ne, ne_eq]
    rw [List.getElem?_eq_getElem hiy]
    cases b <;> cases y[i] <;> simp

theorem pnSampler_count {p : PnOptions} {k : Sampler} (h : pnSampler p = ok k) (d : Nat) : k.Count d ↔ p.Allows d := by
  unfold pnSampler at h
  unfold PnOptions.Allows
  split at h <;> rename_i e
  · cases h; simp [e, Sampler.Count]
  · simp only [StandardParams.setAllowNoMutation] at h
    cases hr : p.rateBelowSqrt with
    | none =>
      rw [hr] at h; cases h
      simp [e, Sampler.Count]
    | some b =>
      rw [hr] at h; cases h
      cases b <;> simp [e, Sampler.Count, StandardParams.setMutationRate]
  · cases h; simp [e, Sampler.Count]
  · cases h; simp [e, Sampler.Count]
  · cases h

/-- The values which evaluation gives are those allowed by `R`, whatever the state. -/
def NoisyFn.Gives {σ : Type} (g : NoisyFn σ K) (I : σ → Prop) (R : BV → K → Prop) : Prop :=
  ∀ (x : BV) s, x.length = g.size → I s →
    Sim.Post (g.eval x s) (fun r => R x r.1 ∧ I r.2) ∧
    ∀ v, R x v → ∃ t, I t ∧ Sim.Reaches (g.eval x s) (v, t)

theorem NoisyFn.gives_base {f : Fn K} {F : BV → K} (hF : ∀ y : BV, y.length = f.size → f.eval y = ok (F y)) :
    (NoisyFn.base f).Gives (fun _ => True) (fun x v => v = F x) := by
  intro x s hx _
  simp only [NoisyFn.base]
  rw [hF x hx]
  refine ⟨Sim.Post.lift_bind rfl (Sim.Post.pure ⟨rfl, trivial⟩), ?_⟩
  rintro v rfl
  exact ⟨(), trivial, Sim.Reaches.bind (Sim.Reaches.lift rfl) (Sim.Reaches.pure _)⟩

theorem NoisyFn.gives_mapped {σ : Type} {f : NoisyFn σ K} {I : σ → Prop} {R : BV → K → Prop} (hf : f.Gives I R)
    {m : MapObj} {g : BV → BV} (hm : m.outputSize = f.size) (hc : MapSpec.Computes m.map m.inputSize m.outputSize g) :
    (f.mapped m).Gives (fun s => I s.1 ∧ s.2.length = f.size) (fun x v => R (g x) v) := by
  rintro x ⟨s, out⟩ hx ⟨hs, ho⟩
  obtain ⟨e, hl⟩ := hc x out hx (by rw [hm]; exact ho)
  obtain ⟨h1, h2⟩ := hf (g x) s (by omega) hs
  simp only [NoisyFn.mapped]
  rw [e]
  refine ⟨Sim.Post.lift_bind rfl (h1.bind (fun r hr => Sim.Post.pure ⟨hr.1, hr.2, by simp only; omega⟩)), ?_⟩
  intro v hv
  obtain ⟨t, ht, hr⟩ := h2 v hv
  exact ⟨(t, g x), ⟨ht, by simp only; omega⟩,
    Sim.Reaches.bind (Sim.Reaches.lift rfl) (Sim.Reaches.bind hr (Sim.Reaches.pure _))⟩

theorem nbhMap_onto {k : Sampler} {s : Nbh} (hs : s.Valid k) {x out : BV} (hx : x.length = s.n) (ho : out.length = s.n)
    {l : List Nat} (hl : k.Flips s.n l) {y : BV} (hy : FlippedAt x l y) :
    Sim.Reaches (s.map k x out) ({ s with flipped := l }, y) := by
  unfold Nbh.map
  refine Sim.Reaches.bind (a := ()) (Sim.Reaches.lift (assert_pos (by simp [hx, hs.origin]))) ?_
  refine Sim.Reaches.bind (a := ()) (Sim.Reaches.lift (assert_pos (by simp [ho, hs.origin]))) ?_
  rw [copy_ok (show out.length = x.length by omega)]
  refine Sim.Reaches.bind (a := x) (Sim.Reaches.lift rfl) ?_
  refine Sim.Reaches.bind (sampleBits_onto hs hl) ?_
  obtain ⟨z, hz, hz1, hz2⟩ := bvFlipSparse_exact x l hl.1 (by rw [hx]; exact hl.2.1)
  have : z = y := by
    apply List.ext_getElem?
    intro i
    by_cases hi : i < x.length
    · rw [hz2 i _ (List.getElem?_eq_getElem hi), hy.2 i _ (List.getElem?_eq_getElem hi)]
    · rw [List.getElem?_eq_none (by omega), List.getElem?_eq_none (by have := hy.1; omega)]
  rw [← this]
  exact Sim.Reaches.bind (Sim.Reaches.lift hz) (Sim.Reaches.pure _)

theorem NoisyFn.gives_priorNoise {σ : Type} {f : NoisyFn σ K} {I : σ → Prop} {R : BV → K → Prop} (hf : f.Gives I R)
    {k : Sampler} {p : PnOptions} (hp : pnSampler p = ok k) :
    (f.priorNoise k).Gives (fun s => I s.1 ∧ s.2.1.Valid k ∧ s.2.1.n = f.size ∧ s.2.2.length = f.size)
      (fun x v => ∃ y : BV, (y.length = x.length ∧ p.Allows (numDiffering x y)) ∧ R y v) := by
  rintro x ⟨s, nbh, out⟩ hx ⟨hs, hv, hn, ho⟩
  simp only at hv hn ho hs
  simp only [NoisyFn.priorNoise] at hx ⊢
  constructor
  · refine (map_spec hv (by omega : x.length = nbh.n) (by omega : out.length = nbh.n)).bind ?_
    rintro ⟨nbh', y⟩ ⟨h1, h2, h3, h4⟩
    simp only at h1 h2 h3 h4 ⊢
    have hy : y.length = f.size := by have := h4.1; omega
    have hd := numDiffering_flipped (by omega : x.length = nbh.n) h3.1 h3.2.1 h4
    refine ((hf y s hy hs).1).bind (fun r hr => Sim.Post.pure ⟨⟨y, ⟨h4.1, ?_⟩, hr.1⟩, hr.2, h2, ?_, hy⟩)
    · rw [hd]; exact (pnSampler_count hp _).mp h3.2.2
    · rw [h1]; exact hn
  · rintro v ⟨y, ⟨hyl, hya⟩, hr⟩
    obtain ⟨l, l1, l2, l3⟩ := flipped_exists hyl
    have hd := numDiffering_flipped rfl l1 l2 l3
    rw [hd] at hya
    have hfl : k.Flips nbh.n l := ⟨l1, by rw [hn, ← hx]; exact l2, (pnSampler_count hp _).mpr hya⟩
    obtain ⟨t, ht, hrt⟩ := (hf y s (by omega) hs).2 v hr
    refine ⟨(t, { nbh with flipped := l }, y), ⟨ht, ⟨hv.fits, hv.origin, hv.candidate, single_length hfl⟩, hn,
      by simp only; omega⟩, ?_⟩
    exact Sim.Reaches.bind (nbhMap_onto hv (by omega) (by omega) hfl l3) (Sim.Reaches.bind hrt (Sim.Reaches.pure _))

theorem NoisyFn.gives_parsed {σ : Type} {f : NoisyFn σ K} {I : σ → Prop} {R : BV → K → Prop} (hf : f.Gives I R)
    (e : K → K) : (f.parsed e).Gives I (fun x v => ∃ w, R x w ∧ v = e w) := by
  intro x s hx hs
  obtain ⟨h1, h2⟩ := hf x s hx hs
  simp only [NoisyFn.parsed]
  refine ⟨h1.bind (fun r hr => Sim.Post.pure ⟨⟨_, hr.1, rfl⟩, hr.2⟩), ?_⟩
  rintro v ⟨w, hw, rfl⟩
  obtain ⟨t, ht, hr⟩ := h2 w hw
  exact ⟨t, ht, Sim.Reaches.bind hr (Sim.Reaches.pure _)⟩

theorem NoisyFn.gives_opposite {σ : Type} [Neg K] {f : NoisyFn σ K} {I : σ → Prop} {R : BV → K → Prop}
    (hf : f.Gives I R) : f.opposite.Gives I (fun x v => ∃ w, R x w ∧ v = -w) := by
  intro x s hx hs
  obtain ⟨h1, h2⟩ := hf x s hx hs
  simp only [NoisyFn.opposite]
  refine ⟨h1.bind (fun r hr => Sim.Post.pure ⟨⟨_, hr.1, rfl⟩, hr.2⟩), ?_⟩
  rintro v ⟨w, hw, rfl⟩
  obtain ⟨t, ht, hr⟩ := h2 w hw
  exact ⟨t, ht, Sim.Reaches.bind hr (Sim.Reaches.pure _)⟩

theorem NoisyFn.gives_gaussian {σ : Type} [Add K] {f : NoisyFn σ K} {I : σ → Prop} {R : BV → K → Prop}
    (hf : f.Gives I R) (normal : Nat → K) : (f.gaussian normal).Gives I (fun x v => ∃ w d, R x w ∧ v = w + normal d) := by
  intro x s hx hs
  obtain ⟨h1, h2⟩ := hf x s hx hs
  simp only [NoisyFn.gaussian]
  refine ⟨h1.bind (fun r hr => Sim.Post.draw.bind (fun d _ => Sim.Post.pure ⟨⟨_, d, hr.1, rfl⟩, hr.2⟩)), ?_⟩
  rintro v ⟨w, d, hw, rfl⟩
  obtain ⟨t, ht, hr⟩ := h2 w hw
  exact ⟨t, ht, Sim.Reaches.bind hr (Sim.Reaches.bind (Sim.Reaches.draw d) (Sim.Reaches.pure _))⟩

theorem NoisyFn.Gives.congr {σ : Type} {f : NoisyFn σ K} {I : σ → Prop} {R R' : BV → K → Prop} (hf : f.Gives I R)
    (h : ∀ x v, R x v ↔ R' x v) : f.Gives I R' := by
  have : R = R' := by funext x v; exact propext (h x v)
  rwa [← this]

theorem NoisyFn.Gives.evalAll {σ : Type} {f : NoisyFn σ K} {I : σ → Prop} {R : BV → K → Prop} (hf : f.Gives I R) :
    ∀ (xs : List BV) s, (∀ x ∈ xs, x.length = f.size) → I s →
      Sim.Post (f.evalAll xs s) (fun r => List.Forall₂ R xs r.1) ∧
      ∀ vs, List.Forall₂ R xs vs → ∃ t, Sim.Reaches (f.evalAll xs s) (vs, t)
  | [], s, _, hs => by
    refine ⟨Sim.Post.pure List.Forall₂.nil, fun vs hv => ?_⟩
    cases hv
    exact ⟨s, Sim.Reaches.pure _⟩
  | x :: xs, s, hx, hs => by
    obtain ⟨h1, h2⟩ := hf x s (hx x List.mem_cons_self) hs
    have ih := fun t ht => NoisyFn.Gives.evalAll hf xs t (fun y hy => hx y (List.mem_cons_of_mem _ hy)) ht
    refine ⟨h1.bind (fun r hr => (ih r.2 hr.2).1.bind (fun t ht => Sim.Post.pure (List.Forall₂.cons hr.1 ht))), ?_⟩
    intro vs hv
    cases hv with
    | cons hv hvs =>
      obtain ⟨t, ht, hr⟩ := h2 _ hv
      obtain ⟨u, hu⟩ := (ih t ht).2 _ hvs
      exact ⟨u, Sim.Reaches.bind hr (Sim.Reaches.bind hu (Sim.Reaches.pure _))⟩

/-- The stack gives the values allowed by `R`. -/
def NoisyStack.Gives (st : NoisyStack K) (n : Nat) (R : BV → K → Prop) : Prop :=
  st.obj.size = n ∧ ∃ I, I st.init ∧ st.obj.Gives I R

theorem decorateMap_gives {f : Fn K} {F : BV → K} (hF : ∀ y : BV, y.length = f.size → f.eval y = ok (F y))
    {map : Option MapObj} {g : BV → BV} (hm : MapFits f map g) :
    ∃ st, decorateMap f map = ok st ∧ st.Gives (inputSizeOf f map) (fun x v => v = F (g x)) := by
  cases map with
  | none =>
    refine ⟨_, rfl, rfl, fun _ => True, trivial, ?_⟩
    rw [hm.1 rfl]
    exact NoisyFn.gives_base hF
  | some m =>
    obtain ⟨h1, h2⟩ := hm.2 m rfl
    simp only [decorateMap, (functionMapNew_iff f m).1 h1]
    refine ⟨_, rfl, rfl, _, ?_, NoisyFn.gives_mapped (NoisyFn.gives_base hF) h1 h2⟩
    simp [NoisyFn.base]

/-- The neighbourhood of the prior noise can be constructed for `n` bits. -/
def PnOptions.Fits (p : PnOptions) (n : Nat) : Prop :=
  0 < n ∧ p.kind ≤ 3 ∧ (2 ≤ p.kind → 0 < p.radius ∧ p.radius ≤ n)

theorem pnSampler_fits {p : PnOptions} {n : Nat} (h : p.Fits n) : ∃ k, pnSampler p = ok k ∧ k.Fits n := by
  obtain ⟨hn, h1, h2⟩ := h
  have hc : p.kind = 0 ∨ p.kind = 1 ∨ p.kind = 2 ∨ p.kind = 3 := by omega
  unfold pnSampler
  rcases hc with e | e | e | e
  · simp only [e]; exact ⟨_, rfl, hn⟩
  · simp only [e]
    cases p.rateBelowSqrt <;> exact ⟨_, rfl, hn⟩
  · simp only [e]; exact ⟨_, rfl, h2 (by omega)⟩
  · simp only [e]; exact ⟨_, rfl, h2 (by omega)⟩

theorem decoratePrior_gives {st : NoisyStack K} {n : Nat} {R : BV → K → Prop} (hst : st.Gives n R)
    {pn : Option PnOptions} (hp : ∀ p, pn = some p → p.Fits n) :
    ∃ st', decoratePrior pn n st = ok st' ∧ st'.Gives n (fun x v => ∃ y : BV, ((pn = none → y = x) ∧
      ∀ p, pn = some p → y.length = x.length ∧ p.Allows (numDiffering x y)) ∧ R y v) := by
  obtain ⟨hn, I, hI, hg⟩ := hst
  cases pn with
  | none =>
    refine ⟨st, rfl, hn, I, hI, hg.congr (fun x v => ?_)⟩
    constructor
    · intro h; exact ⟨x, ⟨fun _ => rfl, fun p hp => by cases hp⟩, h⟩
    · rintro ⟨y, ⟨h1, _⟩, h2⟩; rw [h1 rfl] at h2; exact h2
  | some p =>
    obtain ⟨k, e, hk⟩ := pnSampler_fits (hp p rfl)
    obtain ⟨nbh, e', h1, h2, _⟩ := (construct_ready k n).1 hk
    unfold decoratePrior
    simp only [e, e']
    refine ⟨_, rfl, hn, _, ?_, (NoisyFn.gives_priorNoise hg e).congr (fun x v => ?_)⟩
    · exact ⟨hI, h2.toValid, by simp only; omega, by simp⟩
    · constructor
      · rintro ⟨y, h, hr⟩
        exact ⟨y, ⟨(by intro h; cases h), (by intro q hq; cases hq; exact h)⟩, hr⟩
      · rintro ⟨y, h, hr⟩
        exact ⟨y, h.2 p rfl, hr⟩

theorem decorateValue_gives [Neg K] [Add K] (o : ModOptions K) {st : NoisyStack K} {n : Nat} {R : BV → K → Prop}
    (hst : st.Gives n R) : (decorateValue o st).Gives n (fun x w => ∃ v, R x v ∧ o.Changes v w) := by
  obtain ⟨hn, I, hI, hg⟩ := hst
  obtain ⟨pn, ex, mi, ga⟩ := o
  have h1 : ∃ st1 : NoisyStack K, (match ex with | none => st | some e => ⟨st.σ, st.obj.parsed e, st.init⟩) = st1 ∧
      st1.Gives n (fun x a => ∃ v, R x v ∧ (ex = none → a = v) ∧ ∀ e, ex = some e → a = e v) := by
    cases ex with
    | none =>
      refine ⟨st, rfl, hn, I, hI, hg.congr (fun x v => ?_)⟩
      constructor
      · intro h; exact ⟨v, h, fun _ => rfl, fun _ h => by cases h⟩
      · rintro ⟨w, h, h1, _⟩; rw [h1 rfl]; exact h
    | some e =>
      refine ⟨_, rfl, hn, I, hI, (NoisyFn.gives_parsed hg e).congr (fun x v => ?_)⟩
      constructor
      · rintro ⟨w, h, h1⟩; exact ⟨w, h, (by intro h; cases h), by intro _ h; cases h; exact h1⟩
      · rintro ⟨w, h, _, h1⟩; exact ⟨w, h, h1 e rfl⟩
  obtain ⟨st1, e1, hn1, I1, hI1, hg1⟩ := h1
  have h2 : ∃ st2 : NoisyStack K, (if mi then ⟨st1.σ, st1.obj.opposite, st1.init⟩ else st1) = st2 ∧
      st2.Gives n (fun x b => ∃ a v, R x v ∧ ((ex = none → a = v) ∧ ∀ e, ex = some e → a = e v) ∧
        (mi = false → b = a) ∧ (mi = true → b = -a)) := by
    cases mi with
    | false =>
      refine ⟨st1, rfl, hn1, I1, hI1, hg1.congr (fun x b => ?_)⟩
      constructor
      · rintro ⟨v, h, h1⟩; exact ⟨b, v, h, h1, fun _ => rfl, fun h => by cases h⟩
      · rintro ⟨a, v, h, h1, h2, _⟩; rw [h2 rfl]; exact ⟨v, h, h1⟩
    | true =>
      refine ⟨_, rfl, hn1, I1, hI1, (NoisyFn.gives_opposite hg1).congr (fun x b => ?_)⟩
      constructor
      · rintro ⟨a, ⟨v, h, h1⟩, h2⟩; exact ⟨a, v, h, h1, (by intro h; cases h), fun _ => h2⟩
      · rintro ⟨a, v, h, h1, _, h2⟩; exact ⟨a, ⟨v, h, h1⟩, h2 rfl⟩
  obtain ⟨st2, e2, hn2, I2, hI2, hg2⟩ := h2
  have e3 : decorateValue ⟨pn, ex, mi, ga⟩ st = match ga with
      | none => st2
      | some normal => ⟨st2.σ, st2.obj.gaussian normal, st2.init⟩ := by
    subst e2 e1
    rfl
  rw [e3]
  cases ga with
  | none =>
    refine ⟨hn2, I2, hI2, hg2.congr (fun x w => ?_)⟩
    constructor
    · rintro ⟨a, v, h, h1, h2, h3⟩
      exact ⟨v, h, a, w, h1.1, h1.2, h2, h3, fun _ => rfl, fun _ h => by cases h⟩
    · rintro ⟨v, h, a, b, h1, h2, h3, h4, h5, _⟩
      rw [h5 rfl]
      exact ⟨a, v, h, ⟨h1, h2⟩, h3, h4⟩
  | some normal =>
    refine ⟨hn2, I2, hI2, (NoisyFn.gives_gaussian hg2 normal).congr (fun x w => ?_)⟩
    constructor
    · rintro ⟨b, d, ⟨a, v, h, h1, h2, h3⟩, h4⟩
      exact ⟨v, h, a, b, h1.1, h1.2, h2, h3, (by intro h; cases h), by intro _ h; cases h; exact ⟨d, h4⟩⟩
    · rintro ⟨v, h, a, b, h1, h2, h3, h4, _, h5⟩
      obtain ⟨d, hd⟩ := h5 normal rfl
      exact ⟨b, d, ⟨a, v, h, ⟨h1, h2⟩, h3, h4⟩, hd⟩

theorem decorate_gives [Neg K] [Add K] (o : ModOptions K) {f : Fn K} {F : BV → K}
    (hF : ∀ y : BV, y.length = f.size → f.eval y = ok (F y)) {map : Option MapObj} {g : BV → BV} (hm : MapFits f map g)
    (hp : ∀ p, o.priorNoise = some p → p.Fits f.size ∧ inputSizeOf f map = f.size) :
    ∃ st, decorate o f map = ok st ∧ st.Gives (inputSizeOf f map)
      (fun x w => ∃ y, o.Perturbs x y ∧ o.Changes (F (g y)) w) := by
  obtain ⟨st, e1, h1⟩ := decorateMap_gives hF hm
  have h2 : ∃ st', decoratePrior o.priorNoise f.size st = ok st' ∧ st'.Gives (inputSizeOf f map)
      (fun x v => ∃ y : BV, o.Perturbs x y ∧ v = F (g y)) := by
    cases hpn : o.priorNoise with
    | none =>
      refine ⟨st, rfl, h1.1, ?_⟩
      obtain ⟨I, hI, hg⟩ := h1.2
      refine ⟨I, hI, hg.congr (fun x v => ?_)⟩
      constructor
      · intro h; exact ⟨x, ⟨fun _ => rfl, fun p hp => by rw [hpn] at hp; cases hp⟩, h⟩
      · rintro ⟨y, h, h2⟩; rw [h2, h.1 hpn]
    | some p =>
      obtain ⟨h3, h4⟩ := hp p hpn
      rw [h4] at h1 ⊢
      obtain ⟨st', e2, h2⟩ := decoratePrior_gives h1 (pn := some p) (fun q hq => by cases hq; exact h3)
      refine ⟨st', e2, ?_⟩
      unfold ModOptions.Perturbs
      rw [hpn]
      exact h2
  obtain ⟨st', e2, h2⟩ := h2
  refine ⟨decorateValue o st', by unfold decorate; simp only [e1, e2], ?_⟩
  obtain ⟨hn, I, hI, hg⟩ := decorateValue_gives o h2
  refine ⟨hn, I, hI, hg.congr (fun x w => ?_)⟩
  constructor
  · rintro ⟨_, ⟨y, h, rfl⟩, h'⟩; exact ⟨y, h, h'⟩
  · rintro ⟨y, h, h'⟩; exact ⟨_, ⟨y, h, rfl⟩, h'⟩

/-- C72: the decorated function is made, takes vectors of the size of the input of the map, and after any history of
evaluations, its value at `x` is the value of the function at the image by the map of a vector `y` which prior noise may put in
place of `x`, changed by the expression, then by the sign, then by the additive noise; and each such value is given for some
draws. -/
theorem decorate_evaluates [Neg K] [Add K] (o : ModOptions K) (f : Fn K) (F : BV → K)
    (hF : ∀ y : BV, y.length = f.size → f.eval y = ok (F y)) (map : Option MapObj) (g : BV → BV) (hm : MapFits f map g)
    (hp : ∀ p, o.priorNoise = some p → p.Fits f.size ∧ inputSizeOf f map = f.size) :
    ∃ st, decorate o f map = ok st ∧ st.obj.size = inputSizeOf f map ∧
      ∀ xs : List BV, (∀ x ∈ xs, x.length = inputSizeOf f map) →
        Sim.Post (st.obj.evalAll xs st.init) (fun r =>
          List.Forall₂ (fun x w => ∃ y, o.Perturbs x y ∧ o.Changes (F (g y)) w) xs r.1) ∧
        ∀ ws, List.Forall₂ (fun x w => ∃ y, o.Perturbs x y ∧ o.Changes (F (g y)) w) xs ws →
          ∃ t, Sim.Reaches (st.obj.evalAll xs st.init) (ws, t) := by
  obtain ⟨st, e, hn, I, hI, hg⟩ := decorate_gives o hF hm hp
  refine ⟨st, e, hn, fun xs hxs => ?_⟩
  exact hg.evalAll xs st.init (by rw [hn]; exact hxs) hI

/-- C72: the maps made for the function are suitable. -/
theorem makeMap_fits (mo : MapOptions) (f : Fn K) (hn : 0 < f.size) (hmo : mo.Feasible f.size) {ds rest : List Nat}
    {m : MapObj} (h : makeMap mo f.size ds = .ok m rest) :
    ∃ g b, MapFits f (some m) g ∧ m.isSurjective = ok b ∧
      (b = true ↔ MapSpec.Surjective m.inputSize f.size g) := by
  obtain ⟨h1, _, g, hc, b, hb, hs, hs', _, _⟩ := (makeMap_made mo f.size hn hmo).elim h
  refine ⟨g, b, ⟨fun h => by (cases h), fun m' hm' => ?_⟩, hb, ?_⟩
  · cases hm'
    exact ⟨h1, hc⟩
  · rw [← h1]
    exact ⟨hs, hs'⟩

theorem bind_ub {α β : Type} {m : Sim α} {ds : List Nat} (h : m ds = .ub) (k : α → Sim β) : Sim.bind m k ds = .ub := by
  unfold Sim.bind
  rw [h]

theorem bind_throw {α β : Type} {m : Sim α} {ds : List Nat} {e : Exn} (h : m ds = .throw e) (k : α → Sim β) :
    Sim.bind m k ds = .throw e := by
  unfold Sim.bind
  rw [h]

/-! ## Known maximum -/

theorem decorateValue_static [Neg K] [Add K] (o : ModOptions K) (st : NoisyStack K) :
    (decorateValue o st).obj.hasMax =
      (if o.expression.isNone && !o.minimize && o.gaussian.isNone then st.obj.hasMax else ok false) ∧
    (decorateValue o st).obj.maximum =
      (if o.expression.isNone && !o.minimize && o.gaussian.isNone then st.obj.maximum else .throw .runtimeError) ∧
    (decorateValue o st).obj.hasInc =
      (if o.gaussian.isSome then false else if o.minimize then true else if o.expression.isSome then false
        else st.obj.hasInc) ∧
    (decorateValue o st).obj.size = st.obj.size := by
  obtain ⟨pn, ex, mi, ga⟩ := o
  cases ex <;> cases mi <;> cases ga <;> exact ⟨rfl, rfl, rfl, rfl⟩

theorem decoratePrior_static {pn : Option PnOptions} {n : Nat} {st st' : NoisyStack K}
    (h : decoratePrior pn n st = ok st') : st'.obj.hasMax = st.obj.hasMax ∧ st'.obj.maximum = st.obj.maximum ∧
      st'.obj.hasInc = (st.obj.hasInc && pn.isNone) ∧ st'.obj.size = st.obj.size := by
  cases pn with
  | none => cases h; exact ⟨rfl, rfl, by simp, rfl⟩
  | some p =>
    simp only [decoratePrior] at h
    cases hk : pnSampler p with
    | ok k =>
      cases hc : k.construct n with
      | ok nbh =>
        simp only [hk, hc] at h
        cases h
        exact ⟨rfl, rfl, by simp [NoisyFn.priorNoise], rfl⟩
      | throw e => simp only [hk, hc] at h; cases h
      | ub => simp only [hk, hc] at h; cases h
    | throw e => simp only [hk] at h; cases h
    | ub => simp only [hk] at h; cases h

theorem decorateMap_static {f : Fn K} {map : Option MapObj} {st : NoisyStack K} (h : decorateMap f map = ok st)
    {b : Bool} (hb : ∀ m, map = some m → m.isSurjective = ok b) (hb' : map = none → b = true) :
    st.obj.hasMax = ok (f.hasMax && b) ∧
      st.obj.maximum = (if f.hasMax && b then f.maximum else if map.isNone then f.maximum else .throw .runtimeError) ∧
      st.obj.hasInc = (f.hasInc && map.isNone) ∧ st.obj.size = inputSizeOf f map := by
  cases map with
  | none =>
    cases h
    rw [hb' rfl]
    simp [NoisyFn.base, inputSizeOf]
  | some m =>
    simp only [decorateMap] at h
    cases hn : functionMapNew f m with
    | ok out =>
      simp only [hn] at h
      cases h
      have := hb m rfl
      refine ⟨?_, ?_, by simp [NoisyFn.mapped], rfl⟩
      · simp only [NoisyFn.mapped, NoisyFn.base, ok_bind]
        cases f.hasMax <;> simp [this]
      · simp only [NoisyFn.mapped, NoisyFn.base, ok_bind]
        cases f.hasMax <;> cases b <;> simp [this]
    | throw e => simp only [hn] at h; cases h
    | ub => simp only [hn] at h; cases h

theorem decorate_split [Neg K] [Add K] {o : ModOptions K} {f : Fn K} {map : Option MapObj} {st : NoisyStack K}
    (h : decorate o f map = ok st) : ∃ s1 s2, decorateMap f map = ok s1 ∧
      decoratePrior o.priorNoise f.size s1 = ok s2 ∧ st = decorateValue o s2 := by
  unfold decorate at h
  cases h1 : decorateMap f map with
  | ok s1 =>
    cases h2 : decoratePrior o.priorNoise f.size s1 with
    | ok s2 =>
      simp only [h1, h2] at h
      exact ⟨s1, s2, rfl, h2, by cases h; rfl⟩
    | throw e => simp only [h1, h2] at h; cases h
    | ub => simp only [h1, h2] at h; cases h
  | throw e => simp only [h1] at h; cases h
  | ub => simp only [h1] at h; cases h

/-- C72: the decorated function has a known maximum exactly when the function has one, the map is none or says it is
surjective, and the values are neither changed by an expression, nor by the sign, nor by additive noise. -/
theorem decorate_hasMax [Neg K] [Add K] (o : ModOptions K) (f : Fn K) (map : Option MapObj) (st : NoisyStack K)
    (h : decorate o f map = ok st) (b : Bool) (hb : ∀ m, map = some m → m.isSurjective = ok b) :
    ∃ c, st.obj.hasMax = ok c ∧ (c = true ↔ f.hasMax = true ∧ (map = none ∨ b = true) ∧ o.expression = none ∧
      o.minimize = false ∧ o.gaussian = none) := by
  obtain ⟨s1, s2, h1, h2, rfl⟩ := decorate_split h
  obtain ⟨e1, _⟩ := decorateValue_static o s2
  obtain ⟨e2, _⟩ := decoratePrior_static h2
  obtain ⟨e3, _⟩ := decorateMap_static h1 (b := map.isNone || b) (by
    intro m hm; subst hm; simpa using hb m rfl) (by rintro rfl; rfl)
  rw [e1, e2, e3]
  refine ⟨(if o.expression.isNone && !o.minimize && o.gaussian.isNone then f.hasMax && (map.isNone || b) else false),
    by split <;> rfl, ?_⟩
  cases f.hasMax <;> cases map <;> cases b <;> cases o.expression <;> cases o.minimize <;> cases o.gaussian <;> simp

theorem changes_none [Neg K] [Add K] {o : ModOptions K} (h1 : o.expression = none) (h2 : o.minimize = false)
    (h3 : o.gaussian = none) (v w : K) : o.Changes v w ↔ w = v := by
  unfold ModOptions.Changes
  rw [h1, h2, h3]
  constructor
  · rintro ⟨a, b, e1, _, e2, _, e3, _⟩; rw [e3 rfl, e2 rfl, e1 rfl]
  · rintro rfl
    exact ⟨w, w, fun _ => rfl, (by intro _ h; cases h), fun _ => rfl, (by intro h; cases h), fun _ => rfl,
      by intro _ h; cases h⟩

/-- Some vector is replaced by `y` for some draws. -/
theorem perturbs_from {o : ModOptions K} {n : Nat} (hp : ∀ p, o.priorNoise = some p → p.Fits n) {y : BV}
    (hy : y.length = n) : ∃ x : BV, x.length = n ∧ o.Perturbs x y := by
  cases e : o.priorNoise with
  | none => exact ⟨y, hy, fun _ => rfl, fun p h => by rw [e] at h; cases h⟩
  | some p =>
    obtain ⟨hn, hk, hr⟩ := hp p e
    obtain ⟨d, hd, had⟩ : ∃ d, d ≤ n ∧ p.Allows d := by
      by_cases h3 : p.kind = 3
      · exact ⟨p.radius, (hr (by omega)).2, Or.inr (Or.inr (Or.inr ⟨h3, rfl⟩))⟩
      · refine ⟨1, hn, ?_⟩
        have : p.kind = 0 ∨ p.kind = 1 ∨ p.kind = 2 := by omega
        rcases this with h | h | h
        · exact Or.inl ⟨h, rfl⟩
        · exact Or.inr (Or.inl ⟨h, Or.inl (le_refl _)⟩)
        · exact Or.inr (Or.inr (Or.inl ⟨h, le_refl _, (hr (by omega)).1⟩))
    have hfl : FlippedAt (y.mapIdx (fun i b => if i < d then !b else b)) (List.range d) y := by
      refine ⟨by simp, fun i b hb => ?_⟩
      rw [List.getElem?_mapIdx] at hb
      cases hyi : y[i]? with
      | none => rw [hyi] at hb; cases hb
      | some c =>
        rw [hyi] at hb
        simp only [Option.map_some, Option.some.injEq] at hb
        rw [← hb]
        by_cases hid : i < d <;> simp [hid]
    refine ⟨y.mapIdx (fun i b => if i < d then !b else b), by simpa using hy, (by intro h; rw [e] at h; cases h), ?_⟩
    intro q hq
    rw [e] at hq
    cases hq
    refine ⟨by simp, ?_⟩
    rw [numDiffering_flipped (n := n) (by simpa using hy) List.pairwise_lt_range
      (fun i hi => by have := List.mem_range.mp hi; omega) hfl, List.length_range]
    exact had

/-- C72: a known maximum of the decorated function is right even with prior noise: no evaluation ever exceeds it, and at some
vector it is obtained for some draws (for all draws, without prior noise). -/
theorem decorate_maximum [LE K] [Neg K] [Add K] (o : ModOptions K) (f : Fn K) (hf : DeclaresMaximum f)
    (map : Option MapObj) (g : BV → BV) (hm : MapFits f map g) (b : Bool)
    (hb : ∀ m, map = some m → m.isSurjective = ok b ∧ (b = true → MapSpec.Surjective m.inputSize f.size g))
    (hp : ∀ p, o.priorNoise = some p → p.Fits f.size ∧ inputSizeOf f map = f.size) (st : NoisyStack K)
    (h : decorate o f map = ok st) (hk : st.obj.hasMax = ok true) :
    ∃ M, f.maximum = ok M ∧ st.obj.maximum = ok M ∧
      (∀ xs : List BV, (∀ x ∈ xs, x.length = st.obj.size) →
        Sim.Post (st.obj.evalAll xs st.init) (fun r => r.1.length = xs.length ∧ ∀ v ∈ r.1, v ≤ M)) ∧
      ∃ x : BV, x.length = st.obj.size ∧ (∃ t, Sim.Reaches (st.obj.evalAll [x] st.init) ([M], t)) ∧
        (o.priorNoise = none → Sim.Post (st.obj.evalAll [x] st.init) (fun r => r.1 = [M])) := by
  obtain ⟨hmax, M, hM, htot, z, hz, hzM⟩ := hf
  have hF : ∃ F : BV → K, ∀ y : BV, y.length = f.size → f.eval y = ok (F y) ∧ F y ≤ M := by
    classical
    refine ⟨fun y => if hy : y.length = f.size then (htot y hy).choose else M, fun y hy => ?_⟩
    simp only [dif_pos hy]
    exact (htot y hy).choose_spec
  obtain ⟨F, hF⟩ := hF
  obtain ⟨st', e, hn, hev⟩ := decorate_evaluates o f F (fun y hy => (hF y hy).1) map g hm hp
  rw [h] at e
  cases e
  obtain ⟨c, hc, hc'⟩ := decorate_hasMax o f map st h b (fun m e => (hb m e).1)
  rw [hk] at hc
  cases hc
  obtain ⟨_, hs, h1, h2, h3⟩ := hc'.mp rfl
  have hst : st.obj.maximum = ok M := by
    obtain ⟨s1, s2, g1, g2, rfl⟩ := decorate_split h
    obtain ⟨_, e1, _⟩ := decorateValue_static o s2
    obtain ⟨_, e2, _⟩ := decoratePrior_static g2
    obtain ⟨_, e3, _⟩ := decorateMap_static g1 (b := true) (by
      intro m hm; rw [(hb m hm).1]
      rcases hs with hs | hs
      · rw [hs] at hm; cases hm
      · rw [hs]) (fun _ => rfl)
    rw [e1, e2, e3]
    simp [h1, h2, h3, hmax, hM]
  have hlen : ∀ x y : BV, x.length = st.obj.size → o.Perturbs x y → (g y).length = f.size := by
    intro x y hx hxy
    have hy : y.length = inputSizeOf f map := by
      cases e : o.priorNoise with
      | none => rw [hxy.1 e, hx, hn]
      | some p => rw [(hxy.2 p e).1, hx, hn]
    cases map with
    | none => rw [hm.1 rfl]; exact hy
    | some m =>
      obtain ⟨hmo, hmc⟩ := hm.2 m rfl
      rw [← hmo]
      exact (hmc y (List.replicate m.outputSize false) hy (by simp)).2
  refine ⟨M, hM, hst, fun xs hxs => ?_, ?_⟩
  · refine (hev xs (by rw [← hn]; exact hxs)).1.mono (fun r hr => ⟨hr.length_eq.symm, ?_⟩)
    intro v hv
    obtain ⟨i, hi, rfl⟩ := List.getElem_of_mem hv
    obtain ⟨y, hy, hw⟩ := (List.forall₂_iff_get.mp hr).2 i (by rw [hr.length_eq]; exact hi) hi
    rw [changes_none h1 h2 h3] at hw
    simp only [List.get_eq_getElem] at hw hy
    rw [hw]
    exact (hF _ (hlen _ y (hxs _ (List.getElem_mem _)) hy)).2
  · obtain ⟨y, hy, hgy⟩ : ∃ y : BV, y.length = inputSizeOf f map ∧ g y = z := by
      cases map with
      | none => exact ⟨z, hz, by rw [hm.1 rfl]; rfl⟩
      | some m =>
        have hb1 : b = true := by simpa using hs
        exact (hb m rfl).2 hb1 z hz
    have hFz : F z = M := by
      have := (hF z hz).1
      rw [hzM] at this
      exact (Outcome.ok.inj this).symm
    obtain ⟨x, hx, hxy⟩ := perturbs_from (o := o) (n := inputSizeOf f map)
      (fun p hpp => by rw [(hp p hpp).2]; exact (hp p hpp).1) hy
    have hx' : ∀ u ∈ [x], u.length = inputSizeOf f map := by
      intro u hu; rw [List.mem_singleton.mp hu]; exact hx
    refine ⟨x, by rw [hn]; exact hx, ?_, fun hpn => ?_⟩
    · refine (hev [x] hx').2 [M] (List.Forall₂.cons ⟨y, hxy, ?_⟩ List.Forall₂.nil)
      rw [changes_none h1 h2 h3, hgy, hFz]
    · refine (hev [x] hx').1.mono (fun r hr => ?_)
      generalize r.1 = ws at hr
      cases hr with
      | cons hw ht =>
        cases ht
        obtain ⟨y', hy', hw⟩ := hw
        rw [changes_none h1 h2 h3, hy'.1 hpn, ← hxy.1 hpn, hgy, hFz] at hw
        rw [hw]

/-! ## Incremental evaluation -/

/-- C72: the decorated function says it provides incremental evaluation exactly if values are negated last, or if there is no
modifier at all and the function provides it. -/
theorem decorate_hasInc [Neg K] [Add K] (o : ModOptions K) (f : Fn K) (map : Option MapObj) (st : NoisyStack K)
    (h : decorate o f map = ok st) (hb : ∀ m, map = some m → ∃ b, m.isSurjective = ok b) :
    st.obj.hasInc = true ↔ o.gaussian = none ∧ (o.minimize = true ∨
      (f.hasInc = true ∧ map = none ∧ o.priorNoise = none ∧ o.expression = none)) := by
  obtain ⟨s1, s2, h1, h2, rfl⟩ := decorate_split h
  obtain ⟨_, _, e1, _⟩ := decorateValue_static o s2
  obtain ⟨_, _, e2, _⟩ := decoratePrior_static h2
  have e3 : s1.obj.hasInc = (f.hasInc && map.isNone) := by
    cases map with
    | none => exact (decorateMap_static h1 (b := true) (fun m hm => by cases hm) (fun _ => rfl)).2.2.1
    | some m =>
      obtain ⟨b, hb⟩ := hb m rfl
      exact (decorateMap_static h1 (b := b) (fun m' hm => by cases hm; exact hb) (fun h => by cases h)).2.2.1
  rw [e1, e2, e3]
  cases f.hasInc <;> cases map <;> cases o.expression <;> cases o.minimize <;> cases o.gaussian <;>
    cases o.priorNoise <;> simp

/-- C72: without any other modifier, incremental evaluation of the opposite function is exact if the one of the function
is. -/
theorem decorate_minimize_incremental [InvolutiveNeg K] [Add K] (o : ModOptions K) (f : Fn K) (hf : IncrementalExact f)
    (h1 : o.priorNoise = none) (h2 : o.expression = none) (h3 : o.gaussian = none) (h4 : o.minimize = true)
    (x y : BV) (flips : List Nat) (hx : x.length = f.size) (hy : y.length = f.size) (hfl : flips.Pairwise (· < ·))
    (hin : ∀ i ∈ flips, i < f.size)
    (hxy : ∀ (i : Nat) (b : Bool), x[i]? = some b → y[i]? = some (if i ∈ flips then !b else b)) :
    ∃ st, decorate o f none = ok st ∧ st.obj.hasInc = true ∧
      ∀ v ds t rest, st.obj.eval x st.init ds = .ok (v, t) rest → ∀ ds',
        st.obj.evalInc x v flips t ds' = st.obj.eval y t ds' ∧ ∃ w u, st.obj.eval y t ds' = .ok (w, u) ds' := by
  obtain ⟨pn, ex, mi, ga⟩ := o
  cases h1; cases h2; cases h3; cases h4
  refine ⟨_, rfl, rfl, ?_⟩
  intro v ds t rest hev ds'
  have hev' : (Sim.bind (Sim.bind (Sim.lift (f.eval x)) fun v => pure (v, ())) fun r => pure (-r.1, r.2)) ds =
      .ok (v, t) rest := hev
  have hcase : ∃ u, f.eval x = ok u ∧ v = -u := by
    cases hu : f.eval x with
    | ok u =>
      rw [hu] at hev'
      have : Res.ok (-u, ()) ds = .ok (v, t) rest := hev'
      cases this
      exact ⟨u, rfl, rfl⟩
    | throw e => rw [hu] at hev'; cases hev'
    | ub => rw [hu] at hev'; cases hev'
  obtain ⟨u, hu, rfl⟩ := hcase
  obtain ⟨w, hw1, hw2⟩ := hf.2 x y u flips hx hy hfl hin hxy hu
  have e1 : (Sim.bind (Sim.bind (Sim.lift (f.evalInc x (- -u) flips)) fun v => pure (v, ())) fun r =>
      pure (-r.1, r.2)) ds' = .ok (-w, ()) ds' := by
    rw [neg_neg, hw1]
    rfl
  have e2 : (Sim.bind (Sim.bind (Sim.lift (f.eval y)) fun v => pure (v, ())) fun r => pure (-r.1, r.2)) ds' =
      .ok (-w, ()) ds' := by
    rw [hw2]
    rfl
  exact ⟨e1.trans e2.symm, _, _, e2⟩

/-- C72 (negative part): minimization together with a map, prior noise or an expression gives a function which says it provides
incremental evaluation, but which throws whenever it is asked for it. -/
theorem decorate_incremental_throws [Neg K] [Add K] (o : ModOptions K) (f : Fn K) (map : Option MapObj) (st : NoisyStack K)
    (h : decorate o f map = ok st) (hg : o.gaussian = none) (hmin : o.minimize = true)
    (hmod : map ≠ none ∨ o.priorNoise ≠ none ∨ o.expression ≠ none) :
    st.obj.hasInc = true ∧ ∀ x v flips s ds, st.obj.evalInc x v flips s ds = .throw .runtimeError := by
  obtain ⟨s1, s2, h1, h2, rfl⟩ := decorate_split h
  obtain ⟨pn, ex, mi, ga⟩ := o
  simp only at hg hmin hmod h2
  subst hg hmin
  cases ex with
  | some e => exact ⟨rfl, fun _ _ _ _ _ => rfl⟩
  | none =>
    refine ⟨rfl, ?_⟩
    have hs2 : ∀ x v flips s ds, s2.obj.evalInc x v flips s ds = .throw .runtimeError := by
      cases pn with
      | some p =>
        simp only [decoratePrior] at h2
        cases hk : pnSampler p with
        | ok k =>
          cases hc : k.construct f.size with
          | ok nbh => simp only [hk, hc] at h2; cases h2; exact fun _ _ _ _ _ => rfl
          | throw e => simp only [hk, hc] at h2; cases h2
          | ub => simp only [hk, hc] at h2; cases h2
        | throw e => simp only [hk] at h2; cases h2
        | ub => simp only [hk] at h2; cases h2
      | none =>
        cases h2
        cases map with
        | none => simp at hmod
        | some m =>
          simp only [decorateMap] at h1
          cases hn : functionMapNew f m with
          | ok out => simp only [hn] at h1; cases h1; exact fun _ _ _ _ _ => rfl
          | throw e => simp only [hn] at h1; cases h1
          | ub => simp only [hn] at h1; cases h1
    intro x v flips s ds
    exact bind_throw (hs2 x (-v) flips s ds) _

/-! ## Prior noise and maps -/

/-- C72 (negative part): the neighbourhood of the prior noise is made for the size the function has before the composition with
a map; if the map changes the size then every evaluation of the decorated function fails an assertion. -/
theorem decorate_prior_size [Neg K] [Add K] (o : ModOptions K) (f : Fn K) (m : MapObj) (p : PnOptions)
    (hp : o.priorNoise = some p) (hsize : m.inputSize ≠ f.size) (st : NoisyStack K) (h : decorate o f (some m) = ok st)
    (x : BV) (hx : x.length = st.obj.size) (ds : List Nat) : st.obj.eval x st.init ds = .ub := by
  obtain ⟨s1, s2, h1, h2, rfl⟩ := decorate_split h
  rw [(decorateValue_static o s2).2.2.2, (decoratePrior_static h2).2.2.2] at hx
  have hs1 : s1.obj.size = m.inputSize := by
    simp only [decorateMap] at h1
    cases hn : functionMapNew f m with
    | ok out => simp only [hn] at h1; cases h1; rfl
    | throw e => simp only [hn] at h1; cases h1
    | ub => simp only [hn] at h1; cases h1
  have hs2 : ∀ ds, s2.obj.eval x s2.init ds = .ub := by
    intro ds
    rw [hp] at h2
    simp only [decoratePrior] at h2
    cases hk : pnSampler p with
    | ok k =>
      cases hc : k.construct f.size with
      | ok nbh =>
        simp only [hk, hc] at h2
        cases h2
        have hfit : k.Fits f.size := by
          by_contra hf
          rw [(construct_ready k f.size).2 hf] at hc
          cases hc
        obtain ⟨nbh', e', hn1, hn2, _⟩ := (construct_ready k f.size).1 hfit
        rw [hc] at e'
        cases e'
        have hne : (x.length == nbh.origin.length) = false := by
          have := hn2.origin
          simp only [beq_eq_false_iff_ne]
          omega
        simp only [NoisyFn.priorNoise, Nbh.map]
        rw [assert_neg hne]
        rfl
      | throw e => simp only [hk, hc] at h2; cases h2
      | ub => simp only [hk, hc] at h2; cases h2
    | throw e => simp only [hk] at h2; cases h2
    | ub => simp only [hk] at h2; cases h2
  have a0 := hs2 ds
  obtain ⟨pn, ex, mi, ga⟩ := o
  cases ex <;> cases mi <;> cases ga
  · exact a0
  · exact bind_ub a0 _
  · exact bind_ub a0 _
  · exact bind_ub (bind_ub a0 _) _
  · exact bind_ub a0 _
  · exact bind_ub (bind_ub a0 _) _
  · exact bind_ub (bind_ub a0 _) _
  · exact bind_ub (bind_ub (bind_ub a0 _) _) _

/-! ## Examples -/

/-- The number of ones of two bits. -/
def twoOnes : Fn Int := ⟨2, true, ok 2, fun x => ok (x.count true : Int), false, fun _ _ _ => ub⟩

example : DeclaresMaximum twoOnes ∧ (PnOptions.mk 2 false none 1).Fits twoOnes.size ∧
    MapFits twoOnes (some (linearObj [[true, true, false], [false, true, true]] 2 3))
      (F2.mulVec [[true, true, false], [false, true, true]]) := by
  refine ⟨⟨rfl, 2, rfl, fun x hx => ⟨_, rfl, ?_⟩, [true, true], rfl, rfl⟩, by simp [PnOptions.Fits, twoOnes], ?_⟩
  · have := List.count_le_length (a := true) (l := x)
    have hx : x.length = 2 := hx
    omega
  · exact ⟨fun h => by (cases h), fun m hm => by
      cases hm
      exact ⟨rfl, linearMap_spec 2 3 (by decide) (by decide) _ (by simp [F2.HasShape])⟩⟩

/-- A case which meets the hypotheses of `decorate_prior_size`. -/
example : ∃ st, decorate (K := Int) ⟨some ⟨0, false, none, 0⟩, none, true, none⟩ twoOnes
    (some (linearObj [[true, true, false], [false, true, true]] 2 3)) = ok st := ⟨_, rfl⟩

end Hnco
