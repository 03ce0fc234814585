import Verif.Tests.IteratorModel
import Verif.Tests.SearchProps
import Verif.Algorithm.CalmInstances
import Verif.Algorithm.HillClimbingProps
import Verif.Function.ComplementProps
import Verif.Function.MaximalityProps
import Verif.Iterator.NeighborhoodProps
import Verif.Neighborhood.Props

/-! # The project's test programs on iterators, neighbourhoods and hill climbing never fail (C99) -/

namespace Hnco.Tests

open Outcome

/-! ## Iterators -/

theorem countAll_within {σ : Type} {hasNext : σ → Outcome Bool} {next : σ → Outcome (BV × σ)} {check : BV → Outcome Bool}
    {it : σ} {l : List BV} (h : Enumerates hasNext next it l) :
    ∀ (fuel count : Nat), l.length < fuel → (∀ y ∈ l, check y = ok true) →
      Sim.Within 0 (countAll hasNext next check fuel it count) (fun r => r = (true, count + l.length)) := by
  induction h with
  | done h =>
    intro fuel count hf _
    obtain ⟨fuel, rfl⟩ : ∃ k, fuel = k + 1 := ⟨fuel - 1, by simp at hf; omega⟩
    unfold countAll
    refine Sim.Within.bind (c := 0) (d := 0) (Sim.Within.lift ⟨_, h, rfl⟩) fun b hb => ?_
    subst hb
    exact Sim.Within.pure rfl
  | @step it it' y l h hnext _ ih =>
    intro fuel count hf hc
    obtain ⟨fuel, rfl⟩ : ∃ k, fuel = k + 1 := ⟨fuel - 1, by simp at hf; omega⟩
    unfold countAll
    refine Sim.Within.bind (c := 0) (d := 0) (Sim.Within.lift ⟨_, h, rfl⟩) fun b hb => ?_
    subst hb
    simp only [if_true]
    refine Sim.Within.bind (c := 0) (d := 0) (Sim.Within.lift ⟨_, hnext, rfl⟩) fun r hr => ?_
    subst hr
    refine Sim.Within.bind (c := 0) (d := 0) (Sim.Within.lift ⟨_, hc y (by simp), rfl⟩) fun b hb => ?_
    subst hb
    simp only [if_true]
    refine (ih fuel (count + 1) (by simp at hf; omega) (fun z hz => hc z (by simp [hz]))).mono (le_refl _) fun r hr => ?_
    rw [hr]
    simp only [List.length_cons, Prod.mk.injEq, true_and]
    omega

/-- C99: the test of the iterator over the hypercube ends with the status 0, for sizes such that the number of vectors is an
`int`. -/
theorem hypercubeTest_ends (runs size fuel : Nat) (hs : size ≤ 30) (hf : 2 ^ size < fuel) : Ends (hypercubeTest runs size fuel) := by
  refine ends_every_of ?_ runs
  refine uniformInt_bind_within (Nat.zero_le _) fun n _ hn => ⟨0, ?_⟩
  by_cases h0 : n = 0
  · subst h0
    refine Sim.Within.bind (c := 0) (d := 0) (countAll_within hypercubeIterator_dimension_zero.1 fuel 0
      (lt_of_le_of_lt (Nat.zero_le _) hf) (by simp)) fun r hr => ?_
    subst hr
    exact Sim.Within.pure rfl
  · obtain ⟨l, henum, hfull⟩ := hypercubeIterator_enumerates (HypercubeIterator.new n)
      (by simp [HypercubeIterator.new]; omega)
    have hlen : (HypercubeIterator.new n).current.length = n := by simp [HypercubeIterator.new]
    rw [hlen] at hfull
    have hl : l.length = 2 ^ n := by
      have := congrArg List.length hfull.2
      simpa using this
    change Enumerates _ _ (HypercubeIterator.new n) l at henum
    have hle : 2 ^ n ≤ 2 ^ size := Nat.pow_le_pow_right (by norm_num) hn
    refine Sim.Within.bind (c := 0) (d := 0) (countAll_within henum fuel 0 (by omega) (by simp)) fun r hr => ?_
    subst hr
    rw [if_neg h0]
    refine Sim.Within.bind (c := 0) (d := 0) (Sim.Within.lift ⟨2 ^ n, by unfold shiftOne; rw [if_pos (by omega)], rfl⟩) fun m hm => ?_
    subst hm
    exact Sim.Within.pure (by simp [hl])

/-- With its largest size the program ends, whatever is drawn; a run which draws the sizes 0 and 2. -/
example : Ends (hypercubeTest 100 20 (2 ^ 20 + 1)) ∧ exitStatus (hypercubeTest 2 3 9) [0, 2] = .ok 0 [] :=
  ⟨hypercubeTest_ends _ _ _ (by norm_num) (by norm_num), by decide +kernel⟩

/-- C99: the test of the iterator over single bit flips ends with the status 0. -/
theorem singleBitFlipTest_ends (runs size fuel : Nat) (hf : size < fuel) : Ends (singleBitFlipTest runs size fuel) := by
  refine ends_every_of ?_ runs
  refine uniformInt_bind_within (Nat.zero_le _) fun n _ hn => ⟨n + 0, (bvRandomBits_within n).bind fun bv hbv => ?_⟩
  obtain ⟨it, l, hset, henum, hl, _, _, hmem⟩ := singleBitFlipIterator_enumerates (SingleBitFlipIterator.new n) bv
    (by simpa [SingleBitFlipIterator.new] using hbv)
  have hinit : it.init = it := by
    have : it = { SingleBitFlipIterator.new n with current := bv } := by
      unfold SingleBitFlipIterator.setOrigin at hset
      rw [assert_pos (by simp [SingleBitFlipIterator.new, hbv]), ok_bind] at hset
      exact (Outcome.ok.inj hset).symm
    rw [this]; rfl
  rw [hinit] at henum
  refine Sim.Within.bind (c := 0) (d := 0) (Sim.Within.lift ⟨_, hset, rfl⟩) fun a ha => ?_
  subst ha
  refine Sim.Within.bind (c := 0) (d := 0) (countAll_within henum fuel 0 (by omega) ?_) fun r hr => ?_
  · intro y hy
    have hd := (hmem y).mp hy
    rw [← bvHammingDistance_symm _ _ (hammingDistance_length hd), hd]
    rfl
  · subst hr
    exact Sim.Within.pure (by simp [hl, hbv])

example : Ends (singleBitFlipTest 100 100 101) ∧ exitStatus (singleBitFlipTest 2 3 4) [0, 3, 1, 0, 1] = .ok 0 [] :=
  ⟨singleBitFlipTest_ends _ _ _ (by norm_num), by decide +kernel⟩

/-- C99: the test of the iterator over Hamming spheres ends with the status 0. -/
theorem hammingSphereIteratorTest_ends (runs radiusBound delta fuel : Nat) (hr : 1 ≤ radiusBound)
    (hf : 2 ^ (radiusBound + delta) < fuel) : Ends (hammingSphereIteratorTest runs radiusBound delta fuel) := by
  refine ends_every_of ?_ runs
  refine uniformInt_bind_within hr fun r hr1 hr2 => uniformInt_bind_within (Nat.zero_le _) fun d _ hd =>
    ⟨(r + d) + 0, (bvRandomBits_within (r + d)).bind fun bv hbv => ?_⟩
  obtain ⟨it, hnew, hn1, hn2, hn3, _⟩ := hammingSphereIterator_new (r + d) r (Nat.le_add_right _ _)
  have hinit0 : it.initialState = true := by
    unfold HammingSphereIterator.new at hnew
    rw [assert_pos (by simp), ok_bind] at hnew
    rw [← Outcome.ok.inj hnew]
  obtain ⟨it', l, hset, henum, hnd, hmem⟩ := hammingSphereIterator_enumerates it bv (by omega) hn3 (by omega) (by omega)
  rw [hn2] at hmem
  have hinit : it'.init = it' := by
    unfold HammingSphereIterator.setOrigin at hset
    rw [assert_pos (by simp [hn1, hbv]), ok_bind] at hset
    rw [← Outcome.ok.inj hset]
    simp [HammingSphereIterator.init, hinit0]
  rw [hinit] at henum
  have hl : l.length = (r + d).choose r := by rw [hammingSphere_count hnd hmem, hbv]
  refine Sim.Within.bind (c := 0) (d := 0) (Sim.Within.lift ⟨_, hnew, rfl⟩) fun a ha => ?_
  subst ha
  refine Sim.Within.bind (c := 0) (d := 0) (Sim.Within.lift ⟨_, hset, rfl⟩) fun a ha => ?_
  subst ha
  have hle : (r + d).choose r ≤ 2 ^ (radiusBound + delta) :=
    le_trans (Nat.choose_le_two_pow _ _) (Nat.pow_le_pow_right (by norm_num) (by omega))
  refine Sim.Within.bind (c := 0) (d := 0) (countAll_within henum fuel 0 (by omega) ?_) fun c hc => ?_
  · intro y hy
    have hd := (hmem y).mp hy
    rw [← bvHammingDistance_symm _ _ (hammingDistance_length hd), hd, ok_bind]
    simp
  · subst hc
    simp only [if_true]
    rw [if_neg]
    · exact Sim.Within.pure rfl
    · rintro ⟨rfl, h⟩
      apply h
      rw [Nat.zero_add, hl, Nat.choose_two_right]

example : Ends (hammingSphereIteratorTest 1000 5 5 (2 ^ 10 + 1)) ∧
    exitStatus (hammingSphereIteratorTest 1 2 1 9) [1, 1, 0, 1, 1] = .ok 0 [] :=
  ⟨hammingSphereIteratorTest_ends _ _ _ _ (by norm_num) (by norm_num), by decide +kernel⟩

/-! ## Sampling -/

/-- C99: the test of the neighbourhood which samples a Hamming sphere never fails. -/
theorem hammingSphereTest_succeeds (runs size : Nat) (hs : 1 ≤ size) : Succeeds (hammingSphereTest runs size) := by
  refine succeeds_every ?_ runs
  refine (Sim.Post.repeatUntil (P := fun p : Nat × Nat => 1 ≤ p.2) ?_).bind fun p hp => ?_
  · refine (Sim.Post.uniformInt hs).bind fun n _ => (Sim.Post.uniformInt hs).bind fun r hr => Sim.Post.pure hr.1
  · have hle : p.2 ≤ p.1 := by simpa using hp.2
    refine (Sim.Post.assert (by simpa using hle)).bind fun _ _ => (bvRandomBits_post p.1).bind fun bv hbv => ?_
    obtain ⟨s, hc, _, _, hset⟩ := (construct_ready (.hammingSphere p.2) p.1).1 ⟨hp.1, hle⟩
    refine (Sim.Post.lift ⟨_, hc, rfl⟩).bind fun s' hs' => ?_
    subst hs'
    obtain ⟨hready, ho⟩ := hset bv hbv
    refine (propose_spec hready).bind fun t ht => ?_
    have hd := ht.distance
    rw [← ht.origin] at hd
    refine (Sim.Post.lift ⟨_, hd, rfl⟩).bind fun d hd => ?_
    subst hd
    refine Sim.Post.pure ?_
    have hc : t.flipped.length = p.2 := ht.flips.2.2
    simp [hc]

set_option maxRecDepth 100000 in
example : exitStatus (hammingSphereTest 1 3) [1, 0, 1, 0, 0, 1] = .ok 0 [] := by decide +kernel

/-! ## Hill climbing -/

section
variable {K ι : Type} [LinearOrder K]

theorem scanBetter_within {N : NbhIter ι} {f : Fn K} {val : BV → K} {value : K} {it : ι} {l : List BV}
    (h : Enumerates N.hasNext N.next it l) : ∀ fuel, l.length < fuel → (∀ y ∈ l, f.eval y = ok (val y) ∧ val y ≤ value) →
      Sim.Within 0 (scanBetter N f value fuel it) (fun b => b = true) := by
  induction h with
  | done h =>
    intro fuel hf _
    obtain ⟨fuel, rfl⟩ : ∃ k, fuel = k + 1 := ⟨fuel - 1, by simp at hf; omega⟩
    unfold scanBetter
    refine Sim.Within.bind (c := 0) (d := 0) (Sim.Within.lift ⟨_, h, rfl⟩) fun b hb => ?_
    subst hb
    exact Sim.Within.pure rfl
  | @step it it' y l h hnext _ ih =>
    intro fuel hf hc
    obtain ⟨fuel, rfl⟩ : ∃ k, fuel = k + 1 := ⟨fuel - 1, by simp at hf; omega⟩
    unfold scanBetter
    refine Sim.Within.bind (c := 0) (d := 0) (Sim.Within.lift ⟨_, h, rfl⟩) fun b hb => ?_
    subst hb
    simp only [if_true]
    refine Sim.Within.bind (c := 0) (d := 0) (Sim.Within.lift ⟨_, hnext, rfl⟩) fun r hr => ?_
    subst hr
    refine Sim.Within.bind (c := 0) (d := 0) (Sim.Within.lift ⟨_, (hc y (by simp)).1, rfl⟩) fun v hv => ?_
    subst hv
    rw [if_neg (not_lt.mpr (hc y (by simp)).2)]
    exact ih fuel (by simp at hf; omega) fun z hz => hc z (by simp [hz])

/-- The test of local maximality accepts a local maximum, whatever the state of the iterator. -/
theorem isLocallyMaximal_within {n : Nat} {f : Fn K} {val : BV → K} (hf : ∀ y : BV, y.length = n → f.eval y = ok (val y)) {bv : BV}
    (hb : bv.length = n) {it : SingleBitFlipIterator} (hit : it.current.length = n) {fuel : Nat} (hfuel : n < fuel)
    (hmax : LocalMax n val (fun x y => bvHammingDistance x y = ok 1) bv) :
    Sim.Within 0 (isLocallyMaximal singleBitFlipIter f bv it fuel) (fun b => b = true) := by
  unfold isLocallyMaximal
  obtain ⟨it', l, hset, henum, hl, _, _, hmem⟩ := singleBitFlipIterator_enumerates it bv (by omega)
  refine Sim.Within.bind (c := 0) (d := 0) (Sim.Within.lift ⟨_, hf bv hb, rfl⟩) fun v hv => ?_
  subst hv
  refine Sim.Within.bind (c := 0) (d := 0) (Sim.Within.lift ⟨_, hset, rfl⟩) fun a ha => ?_
  subst ha
  refine scanBetter_within (val := val) henum fuel (by omega) fun y hy => ?_
  have hd := (hmem y).mp hy
  have hyl : y.length = n := (hammingDistance_length hd).symm.trans hb
  exact ⟨hf y hyl, hmax y hyl hd⟩

/-- The function without its incremental evaluation, which hill climbing does not use. -/
def Env.plain (env : Env K) : Env K := { env with fn := { env.fn with evalInc := fun _ _ _ => ub } }

theorem firstAscentScan_plain (env : Env K) (N : NbhIter ι) :
    ∀ fuel, firstAscentScan env N fuel = firstAscentScan (Env.plain env) N fuel
  | 0 => rfl
  | fuel + 1 => by
    unfold firstAscentScan
    rw [firstAscentScan_plain env N fuel]
    rfl

theorem steepestScan_plain (env : Env K) (N : NbhIter ι) :
    ∀ fuel best index, steepestScan env N fuel best index = steepestScan (Env.plain env) N fuel best index
  | 0, _, _ => rfl
  | fuel + 1, best, index => by
    unfold steepestScan
    have h := fun best index => steepestScan_plain env N fuel best index
    simp only [h]
    rfl

theorem firstAscentMaximize_plain (env : Env K) (N : NbhIter ι) (p : StartParams) (scanFuel : Nat) (k : Int) (fuel : Nat) :
    firstAscentMaximize env N p scanFuel k fuel = firstAscentMaximize (Env.plain env) N p scanFuel k fuel := by
  unfold firstAscentMaximize firstAscentIterate
  rw [firstAscentScan_plain]
  rfl

theorem steepestMaximize_plain (env : Env K) (N : NbhIter ι) (p : StartParams) (scanFuel : Nat) (k : Int) (fuel : Nat) :
    steepestMaximize env N p scanFuel k fuel = steepestMaximize (Env.plain env) N p scanFuel k fuel := by
  unfold steepestMaximize steepestIterate
  simp only [steepestScan_plain env]
  rfl

/-- If only the function can interrupt the algorithm, and it does not, then there is no exception. -/
theorem within_calm {σ α : Type} {c : Nat} {f : Fn K} (hf : ∀ x e, f.eval x ≠ Outcome.throw e)
    {m : Env K → Alg (AlgState K σ) α} (hplain : m ⟨f, fun _ _ => none⟩ = m (Env.plain ⟨f, fun _ _ => none⟩))
    [hcalm : ∀ env, Alg.Calm env (m env)] {s : AlgState K σ} {Q : α → AlgState K σ → Prop} {E : AlgState K σ → Prop}
    (h : Alg.Within c (m ⟨f, fun _ _ => none⟩) s Q E) : Alg.Within c (m ⟨f, fun _ _ => none⟩) s Q (fun _ => False) := by
  intro ds hds
  obtain ⟨⟨r, t⟩, rest, h1, h2, h3⟩ := h ds hds
  refine ⟨(r, t), rest, h1, h2, ?_⟩
  cases r with
  | ok a => exact h3
  | error e =>
    rw [hplain] at h1
    rcases (hcalm _).out s ds e t rest h1 with ⟨x, hx⟩ | ⟨x, hx⟩ | ⟨x, v, l, hx⟩
    · cases hx
    · exact hf x e hx
    · cases hx

theorem firstAscentThen_within [Zero K] {n : Nat} (hn : 0 < n) {f : Fn K} {val : BV → K}
    (hf : ∀ x : BV, x.length = n → f.eval x = ok (val x)) (hthrow : ∀ x e, f.eval x ≠ Outcome.throw e) {fuel : Nat}
    (hfuel : 2 ^ n < fuel) {check : BV → SingleBitFlipIterator → Sim Bool}
    (hcheck : ∀ bv it, bv.length = n → it.current.length = n → LocalMax n val (fun x y => bvHammingDistance x y = ok 1) bv →
      Sim.Within 0 (check bv it) (fun b => b = true)) :
    Sim.Within n (firstAscentThen n f fuel check) (fun b => b = true) := by
  unfold firstAscentThen
  have hw := within_calm (m := fun env => firstAscentMaximize env singleBitFlipIter (newStart n) fuel 0 fuel) hthrow
    (firstAscentMaximize_plain _ _ _ _ _ _)
    (firstAscent_stops_at_local_maximum (env := ⟨f, fun _ _ => none⟩) (val := val) hf (singleBitFlipIter_explores n)
      (p := newStart n) (by simp [newStart]) (s := newState n ⟨SingleBitFlipIterator.new n, []⟩) (by simp [newState])
      (by simp [newState, SingleBitFlipIterator.new]) rfl 0 hfuel hfuel)
  refine (Sim.Within.bind (c := 0) (d := n) (Sim.Within.lift (P := fun _ => True) ⟨(), by simp [algorithmNew, hn.ne'], trivial⟩)
    fun _ _ => ?_).mono (by omega) fun _ h => h
  refine Sim.Within.bind (c := n) (d := 0) hw ?_
  rintro ⟨r, t⟩ h
  cases r with
  | error _ => exact h.elim
  | ok u =>
    obtain ⟨h1, h2, h3, h4, h5⟩ := h
    exact hcheck _ _ (h1 _ h2.1).1 h5 (h3 (h4 (Or.inl (le_refl _))))

theorem steepestAscentThen_within [Zero K] {n : Nat} (hn : 0 < n) {f : Fn K} {val : BV → K}
    (hf : ∀ x : BV, x.length = n → f.eval x = ok (val x)) (hthrow : ∀ x e, f.eval x ≠ Outcome.throw e) {fuel : Nat}
    (hfuel : 2 ^ n < fuel) {check : BV → SingleBitFlipIterator → Sim Bool}
    (hcheck : ∀ bv it, bv.length = n → it.current.length = n → LocalMax n val (fun x y => bvHammingDistance x y = ok 1) bv →
      Sim.Within 0 (check bv it) (fun b => b = true)) :
    Sim.Within (n + max (0 : Int).toNat fuel) (steepestAscentThen n f fuel check) (fun b => b = true) := by
  unfold steepestAscentThen
  have hne : ∀ x : BV, x.length = n → ∃ y : BV, y.length = n ∧ bvHammingDistance x y = ok 1 := by
    intro x hx
    obtain ⟨y, h1, h2⟩ := exists_at_distance (r := 1) x (by omega)
    exact ⟨y, h1.trans hx, h2⟩
  have hw := within_calm (m := fun env => steepestMaximize env singleBitFlipIter (newStart n) fuel 0 fuel) hthrow
    (steepestMaximize_plain _ _ _ _ _ _)
    (steepestAscent_stops_at_local_maximum (env := ⟨f, fun _ _ => none⟩) (val := val) hf (singleBitFlipIter_explores n) hne
      (p := newStart n) (by simp [newStart])
      (s := newState n ⟨SingleBitFlipIterator.new n, List.replicate n (List.replicate n false)⟩) (by simp [newState])
      (by simp [newState, SingleBitFlipIterator.new]) (by simp [newState]; omega) rfl 0 hfuel hfuel)
  refine (Sim.Within.bind (c := 0) (Sim.Within.lift (P := fun _ => True) ⟨(), by simp [algorithmNew, hn.ne'], trivial⟩)
    fun _ _ => ?_).mono (le_of_eq (Nat.zero_add _)) fun _ h => h
  refine Sim.Within.bind (d := 0) hw ?_
  rintro ⟨r, t⟩ h
  cases r with
  | error _ => exact h.elim
  | ok u =>
    obtain ⟨h1, h2, h3, h4, h5⟩ := h
    exact hcheck _ _ (h1 _ h2.1).1 h5 (h3 (h4 (Or.inl (le_refl _))))

end

/-- A vector none of whose neighbours has more ones has ones only. -/
theorem oneMax_local {n : Nat} {x : BV} (hx : x.length = n)
    (h : LocalMax n (fun y => (y.count true : Int)) (fun x y => bvHammingDistance x y = ok 1) x) : x.count true = n := by
  by_contra hne
  have hex : ∃ i, ∃ hi : i < x.length, x[i] = false := by
    by_contra hno
    refine hne ?_
    rw [← hx]
    refine List.count_eq_length.mpr fun b hb => ?_
    obtain ⟨i, hi, rfl⟩ := List.getElem_of_mem hb
    by_contra hb'
    exact hno ⟨i, hi, Bool.eq_false_iff.mpr fun h => hb' h.symm⟩
  obtain ⟨i, hi, hb⟩ := hex
  have hd := bvFlipSparse_distance x [i] (by simp) (by simpa using hi)
  have hfl : bvFlipSparse x [i] = ok (x.set i true) := by
    have hv : sbvIsValid [i] x.length = true := (sbvIsValid_iff _ _).mpr ⟨by simp, by simpa using hi⟩
    simp [bvFlipSparse, hv, flipLoop, bvFlip_ok hi, hb]
  rw [hfl, ok_bind] at hd
  have := h (x.set i true) (by simpa using hx) hd
  have hc : (x.set i true).count true = x.count true + 1 := by
    rw [List.count_set hi]
    simp [hb]
  simp only [hc] at this
  push_cast at this
  omega

theorem oneMax_global_within {n : Nat} {x : BV} {it : SingleBitFlipIterator} (hx : x.length = n) (_ : it.current.length = n)
    (h : LocalMax n (fun y => (y.count true : Int)) (fun x y => bvHammingDistance x y = ok 1) x) :
    Sim.Within 0 (Sim.lift (globalTest (oneMax n) x)) (fun b => b = true) := by
  refine Sim.Within.lift ⟨true, ?_, rfl⟩
  have := oneMax_local hx h
  simp [globalTest, oneMax, bvHammingWeight_eq, this]

/-- C99: the test of first ascent hill climbing on `OneMax` ends with the status 0. -/
theorem firstAscentTest_ends (runs size fuel : Nat) (hs : 1 ≤ size) (hf : 2 ^ size < fuel) :
    Ends (firstAscentTest runs size fuel) := by
  refine ends_every_of ?_ runs
  refine uniformInt_bind_within hs fun n h1 h2 => ⟨_, firstAscentThen_within h1 (fun x _ => oneMax_value n x) ?_
    (lt_of_le_of_lt (Nat.pow_le_pow_right (by norm_num) h2) hf) fun _ _ => oneMax_global_within⟩
  intro x e h
  rw [oneMax_value] at h
  cases h

example : Ends (firstAscentTest 1000 100 (2 ^ 100 + 1)) := firstAscentTest_ends _ _ _ (by norm_num) (by norm_num)

set_option maxRecDepth 100000 in
example : exitStatus (firstAscentTest 1 3 20) [2, 0, 1, 0] = .ok 0 [] := by decide +kernel

/-- C99: the test of steepest ascent hill climbing on `OneMax` ends with the status 0. -/
theorem steepestAscentTest_ends (runs size fuel : Nat) (hs : 1 ≤ size) (hf : 2 ^ size < fuel) :
    Ends (steepestAscentTest runs size fuel) := by
  refine ends_every_of ?_ runs
  refine uniformInt_bind_within hs fun n h1 h2 => ⟨_, steepestAscentThen_within h1 (fun x _ => oneMax_value n x) ?_
    (lt_of_le_of_lt (Nat.pow_le_pow_right (by norm_num) h2) hf) fun _ _ => oneMax_global_within⟩
  intro x e h
  rw [oneMax_value] at h
  cases h

example : Ends (steepestAscentTest 1000 100 (2 ^ 100 + 1)) := steepestAscentTest_ends _ _ _ (by norm_num) (by norm_num)

set_option maxRecDepth 100000 in
example : exitStatus (steepestAscentTest 1 3 20) [2, 0, 1, 0, 0, 0] = .ok 0 [] := by decide +kernel

/-- The value of `Labs` at a vector. -/
def labsValue (x : BV) : Rat :=
  -((∑ k ∈ Finset.Ico 1 x.length, (∑ i ∈ Finset.range (x.length - k), pm x i * pm x (i + k)) ^ 2 : Int) : Rat)

theorem labsFn_value {n : Nat} {x : BV} (hx : x.length = n) : (labsFn n).eval x = ok (labsValue x) := by
  simp only [labsFn, Fn.ofEval, labsEval]
  rw [assert_pos (by simpa using hx), ok_bind, labs_autocorrelation _ _ (by simpa using hx)]
  rfl

theorem labsFn_throw (n : Nat) (x : BV) (e : Exn) : (labsFn n).eval x ≠ Outcome.throw e := by
  by_cases hx : x.length = n
  · rw [labsFn_value hx]
    intro h
    cases h
  · simp only [labsFn, Fn.ofEval, labsEval]
    rw [assert_neg (by simpa using hx)]
    intro h
    cases h

/-- C99: the test of first ascent hill climbing on `Labs`, which asks whether the vector found is a local maximum, ends with the
status 0. -/
theorem firstAscentLocalTest_ends (runs size fuel : Nat) (hs : 1 ≤ size) (hf : 2 ^ size < fuel) :
    Ends (firstAscentLocalTest runs size fuel) := by
  refine ends_every_of ?_ runs
  refine uniformInt_bind_within hs fun n h1 h2 => ?_
  have h3 : 2 ^ n < fuel := lt_of_le_of_lt (Nat.pow_le_pow_right (by norm_num) h2) hf
  exact ⟨_, firstAscentThen_within h1 (fun x hx => labsFn_value hx) (labsFn_throw n) h3 fun bv it hb hit hmax =>
    isLocallyMaximal_within (fun x hx => labsFn_value hx) hb hit (lt_trans Nat.lt_two_pow_self h3) hmax⟩

example : Ends (firstAscentLocalTest 1000 100 (2 ^ 100 + 1)) := firstAscentLocalTest_ends _ _ _ (by norm_num) (by norm_num)

set_option maxRecDepth 100000 in
example : exitStatus (firstAscentLocalTest 1 3 20) [2, 0, 1, 0] = .ok 0 [] := by decide +kernel

/-- C99: the test of steepest ascent hill climbing on `Labs`, which asks whether the vector found is a local maximum, ends with
the status 0. -/
theorem steepestAscentLocalTest_ends (runs size fuel : Nat) (hs : 1 ≤ size) (hf : 2 ^ size < fuel) :
    Ends (steepestAscentLocalTest runs size fuel) := by
  refine ends_every_of ?_ runs
  refine uniformInt_bind_within hs fun n h1 h2 => ?_
  have h3 : 2 ^ n < fuel := lt_of_le_of_lt (Nat.pow_le_pow_right (by norm_num) h2) hf
  exact ⟨_, steepestAscentThen_within h1 (fun x hx => labsFn_value hx) (labsFn_throw n) h3 fun bv it hb hit hmax =>
    isLocallyMaximal_within (fun x hx => labsFn_value hx) hb hit (lt_trans Nat.lt_two_pow_self h3) hmax⟩

example : Ends (steepestAscentLocalTest 1000 100 (2 ^ 100 + 1)) := steepestAscentLocalTest_ends _ _ _ (by norm_num) (by norm_num)

set_option maxRecDepth 100000 in
example : exitStatus (steepestAscentLocalTest 1 3 20) [2, 0, 1, 0, 0] = .ok 0 [] := by decide +kernel

end Hnco.Tests
