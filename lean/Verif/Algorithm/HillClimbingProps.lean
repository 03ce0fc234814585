import Verif.Algorithm.Total
import Verif.Algorithm.LocalSearchProps
import Verif.Iterator.NeighborhoodProps
import Verif.Function.WalshProps

/-! # Properties of hill climbing -/

namespace Hnco

open Outcome

variable {K σ ι : Type}

/-! ## Specification -/

/-- What hill climbing needs of an iterator: after `init`, it enumerates the neighbours of the current vector, each
once; and the vector it gives is the new current vector.  `V` holds of the states of the iterator, `cur` is the current
vector and `near x y` says that `y` is a neighbour of `x`. -/
structure NbhIter.Explores (N : NbhIter ι) (n : Nat) (V : ι → Prop) (cur : ι → BV) (near : BV → BV → Prop) : Prop where
  size : ∀ it, V it → (cur it).length = n
  setOrigin : ∀ it x, V it → x.length = n → (N.setOrigin it x).Returns (fun it' => V it' ∧ cur it' = x)
  init : ∀ it, V it → V (N.init it)
  next : ∀ it it' y, V it → N.next it = ok (y, it') → V it' ∧ cur it' = y
  enum : ∀ it, V it → ∃ l, Enumerates N.hasNext N.next (N.init it) l ∧ l.Nodup ∧
    ∀ y, y ∈ l ↔ y.length = n ∧ near (cur it) y

/-- No neighbour of `x` is better than `x`. -/
def LocalMax [LinearOrder K] (n : Nat) (val : BV → K) (near : BV → BV → Prop) (x : BV) : Prop :=
  ∀ y : BV, y.length = n → near x y → val y ≤ val x

/-- The number of vectors which are better than a value. -/
def betterCount [LinearOrder K] (n : Nat) (val : BV → K) (v : K) : Nat :=
  ((allBV n).filter (fun x => decide (v < val x))).length

/-! ## Iterators -/

theorem hammingDistance_length {x y : BV} {d : Nat} (h : bvHammingDistance x y = ok d) : x.length = y.length := by
  unfold bvHammingDistance at h
  by_contra hne
  rw [assert_neg (by simpa using hne)] at h
  cases h

theorem vset_length {α : Type} {l m : List α} {i : Nat} {a : α} (h : vset l i a = ok m) : m.length = l.length := by
  by_cases hi : i < l.length
  · rw [vset_eq hi] at h
    cases h
    exact List.length_set
  · rw [vset_ub (by omega)] at h
    cases h

theorem flip_length {x y : BV} {i : Nat} (h : bvFlip x i = ok y) : y.length = x.length := by
  unfold bvFlip at h
  obtain ⟨b, _, h⟩ := bind_eq_ok.mp h
  exact vset_length h

theorem flipLoop_length : ∀ (l : List Nat) (x y : BV), flipLoop x l = ok y → y.length = x.length
  | [], x, y, h => by cases h; rfl
  | i :: l, x, y, h => by
    unfold flipLoop at h
    obtain ⟨z, hz, h⟩ := bind_eq_ok.mp h
    exact (flipLoop_length l z y h).trans (flip_length hz)

theorem flipSparse_length {x : BV} {l : List Nat} {y : BV} (h : bvFlipSparse x l = ok y) : y.length = x.length := by
  unfold bvFlipSparse at h
  obtain ⟨_, _, h⟩ := bind_eq_ok.mp h
  exact flipLoop_length l x y h

theorem nextIndexes_length {n r : Nat} {b c : List Nat} (h : HammingSphereIterator.nextIndexes n r b = ok c) :
    c.length = b.length := by
  unfold HammingSphereIterator.nextIndexes at h
  obtain ⟨u, _, h⟩ := bind_eq_ok.mp h
  split at h
  · exact vset_length h
  · obtain ⟨j, _, h⟩ := bind_eq_ok.mp h
    cases j with
    | none => cases h; rfl
    | some j =>
      obtain ⟨v, hv, h⟩ := bind_eq_ok.mp h
      obtain ⟨d, hd, h⟩ := bind_eq_ok.mp h
      cases h
      have h1 := vset_length hd
      have h2 : j < d.length := by
        by_contra hj
        rw [h1] at hj
        rw [vget_ub (by omega)] at hv
        cases hv
      simp only [HammingSphereIterator.iotaFrom, List.length_append, List.length_take, List.length_range']
      omega

/-- The single bit flip iterator explores the vectors at distance one. -/
theorem singleBitFlipIter_explores (n : Nat) : singleBitFlipIter.Explores n (fun it => it.current.length = n)
    (fun it => it.current) (fun x y => bvHammingDistance x y = ok 1) := by
  refine ⟨fun it h => h, ?_, fun it h => h, ?_, ?_⟩
  · intro it x h hx
    refine ⟨{ it with current := x }, ?_, hx, rfl⟩
    change SingleBitFlipIterator.setOrigin it x = _
    simp [SingleBitFlipIterator.setOrigin, hx, h]
  · intro it it' y h hn
    change SingleBitFlipIterator.next it = ok (y, it') at hn
    unfold SingleBitFlipIterator.next at hn
    obtain ⟨b, hb, hn⟩ := bind_eq_ok.mp hn
    obtain ⟨_, _, hn⟩ := bind_eq_ok.mp hn
    split at hn
    · obtain ⟨c, hc, hn⟩ := bind_eq_ok.mp hn
      cases hn
      exact ⟨(flip_length hc).trans h, rfl⟩
    · obtain ⟨_, _, hn⟩ := bind_eq_ok.mp hn
      obtain ⟨c, hc, hn⟩ := bind_eq_ok.mp hn
      obtain ⟨_, _, hn⟩ := bind_eq_ok.mp hn
      obtain ⟨d, hd, hn⟩ := bind_eq_ok.mp hn
      cases hn
      exact ⟨(flip_length hd).trans ((flip_length hc).trans h), rfl⟩
  · intro it h
    obtain ⟨it', l, h1, h2, _, _, h3, h4⟩ := singleBitFlipIterator_enumerates it it.current rfl
    have : it' = it := by
      simp [SingleBitFlipIterator.setOrigin] at h1
      exact h1.symm
    subst this
    refine ⟨l, h2, h3, fun y => ?_⟩
    rw [h4]
    exact ⟨fun hd => ⟨(hammingDistance_length hd).symm.trans h, hd⟩, fun hd => hd.2⟩

/-- The Hamming sphere iterator explores the vectors at a given distance. -/
theorem hammingSphereIter_explores {n r : Nat} (hr : 1 ≤ r) (hrn : r ≤ n) : hammingSphereIter.Explores n
    (fun it => it.current.length = n ∧ it.radius = r ∧ it.bitIndexes.length = r)
    (fun it => it.current) (fun x y => bvHammingDistance x y = ok r) := by
  refine ⟨fun it h => h.1, ?_, fun it h => h, ?_, ?_⟩
  · rintro it x ⟨h1, h2, h3⟩ hx
    refine ⟨{ it with current := x }, ?_, ⟨hx, h2, h3⟩, rfl⟩
    change HammingSphereIterator.setOrigin it x = _
    simp [HammingSphereIterator.setOrigin, hx, h1]
  · rintro it it' y ⟨h1, h2, h3⟩ hn
    change HammingSphereIterator.next it = ok (y, it') at hn
    unfold HammingSphereIterator.next at hn
    obtain ⟨b, hb, hn⟩ := bind_eq_ok.mp hn
    obtain ⟨_, _, hn⟩ := bind_eq_ok.mp hn
    split at hn
    · obtain ⟨c, hc, hn⟩ := bind_eq_ok.mp hn
      cases hn
      exact ⟨⟨(flipSparse_length hc).trans h1, h2, by simp [h3]⟩, rfl⟩
    · obtain ⟨c, hc, hn⟩ := bind_eq_ok.mp hn
      obtain ⟨d, hd, hn⟩ := bind_eq_ok.mp hn
      obtain ⟨e, he, hn⟩ := bind_eq_ok.mp hn
      cases hn
      exact ⟨⟨(flipSparse_length he).trans ((flipSparse_length hc).trans h1), h2, (nextIndexes_length hd).trans h3⟩,
        rfl⟩
  · rintro it ⟨h1, h2, h3⟩
    obtain ⟨it', l, h4, h5, h6, h7⟩ := hammingSphereIterator_enumerates it it.current rfl (h3.trans h2.symm)
      (by omega) (by omega)
    have : it' = it := by
      simp [HammingSphereIterator.setOrigin] at h4
      exact h4.symm
    subst this
    refine ⟨l, h5, h6, fun y => ?_⟩
    rw [h7, h2]
    exact ⟨fun hd => ⟨(hammingDistance_length hd).symm.trans h1, hd⟩, fun hd => hd.2⟩

/-! ## The measure -/

theorem betterCount_lt [LinearOrder K] {n : Nat} {val : BV → K} {v : K} {x : BV} (hx : x.length = n)
    (hv : v < val x) : betterCount n val (val x) < betterCount n val v := by
  unfold betterCount
  have hsub : ((allBV n).filter (fun y => decide (val x < val y))).Sublist
      ((allBV n).filter (fun y => decide (v < val y))) := by
    refine List.monotone_filter_right _ ?_
    intro y hy
    simp only [decide_eq_true_eq] at hy ⊢
    exact lt_trans hv hy
  refine lt_of_le_of_ne hsub.length_le ?_
  intro heq
  have heq := hsub.eq_of_length heq
  have hm : x ∈ (allBV n).filter (fun y => decide (v < val y)) := by
    rw [List.mem_filter]
    exact ⟨mem_allBV.mpr hx, by simpa using hv⟩
  rw [← heq, List.mem_filter] at hm
  simp at hm

theorem betterCount_bound [LinearOrder K] {n : Nat} {val : BV → K} {x : BV} (hx : x.length = n) :
    betterCount n val (val x) < 2 ^ n := by
  unfold betterCount
  rw [← allBV_length n]
  refine lt_of_le_of_ne (List.length_filter_le _ _) ?_
  intro heq
  have := (List.filter_sublist (p := fun y => decide (val x < val y)) (l := allBV n)).eq_of_length heq
  have hm := mem_allBV.mpr hx
  rw [← this, List.mem_filter] at hm
  simp at hm

theorem nodup_length_le {n : Nat} {l : List BV} (h : l.Nodup) (hl : ∀ y ∈ l, y.length = n) : l.length ≤ 2 ^ n := by
  rw [← allBV_length n]
  exact (List.subperm_of_subset h (fun y hy => mem_allBV.mpr (hl y hy))).length_le

/-! ## First ascent -/

/-- Between two iterations of hill climbing. -/
structure ClimbInv [LinearOrder K] (n : Nat) (val : BV → K) (V : ι → Prop) (cur : ι → BV) (near : BV → BV → Prop)
    (s : AlgState K (ClimbData ι)) : Prop where
  true_calls : TrueCalls n val s.calls
  best : BestOf s.calls s.solution
  valid : V s.data.it
  current : s.lastIteration = false → cur s.data.it = s.solution.1
  local_max : s.lastIteration = true → LocalMax n val near s.solution.1

theorem climbInit_within [LinearOrder K] {env : Env K} {n : Nat} {val : BV → K} (henv : env.Computes n val)
    {N : NbhIter ι} {V : ι → Prop} {cur : ι → BV} {near : BV → BV → Prop} (hN : N.Explores n V cur near)
    {p : StartParams} (hp : p.startingPoint.length = n) {s : AlgState K (ClimbData ι)} (hs : s.solution.1.length = n)
    (hV : V s.data.it) (hcalls : s.calls = []) {E : AlgState K (ClimbData ι) → Prop}
    (hE : ∀ x, E { s with solution := (x, s.solution.2) }) :
    Alg.Within n (climbInit env N p) s
      (fun _ t => ClimbInv n val V cur near { t with lastIteration := false } ∧
        t.data.candidates = s.data.candidates) E := by
  have hinit : Alg.Within n (initSolution env p) s (fun _ t => ∃ x : BV, x.length = n ∧
      t = { s with solution := (x, val x), calls := s.calls ++ [(x, val x)] }) E := by
    unfold initSolution
    split
    · unfold randomSolution
      refine Alg.Within.get_bind ?_
      rw [hs]
      refine Alg.Within.sim_bind (d := 0) (bvRandomBits_within n) (fun x hx => Alg.Within.modify_bind ?_)
      exact evaluate_within henv hx (Alg.Within.modify ⟨x, hx, rfl⟩) (hE x)
    · unfold setSolutionEval
      exact evaluate_within henv hp (Alg.Within.modify ⟨_, hp, rfl⟩) (hE s.solution.1)
  unfold climbInit
  refine Alg.Within.bind (d := 0) hinit ?_
  rintro _ _ ⟨x, hx, rfl⟩
  refine Alg.Within.get_bind (Alg.Within.returns_bind (hN.setOrigin _ x hV hx) ?_)
  rintro it ⟨h1, h2⟩
  refine Alg.Within.modify ⟨⟨?_, ?_, h1, fun _ => h2, by intro h; cases h⟩, rfl⟩
  · simp only [hcalls]; exact TrueCalls.nil.snoc hx
  · simp only [hcalls]; exact BestOf.single _

theorem firstAscentScan_within [LinearOrder K] {env : Env K} {n : Nat} {val : BV → K} (henv : env.Computes n val)
    {N : NbhIter ι} {V : ι → Prop} {cur : ι → BV} {near : BV → BV → Prop} (hN : N.Explores n V cur near) :
    ∀ (fuel : Nat) (l : List BV) (s : AlgState K (ClimbData ι)), l.length < fuel →
      Enumerates N.hasNext N.next s.data.it l → (∀ y ∈ l, y.length = n) → V s.data.it →
      TrueCalls n val s.calls → BestOf s.calls s.solution → s.lastIteration = false →
      Alg.Within 0 (firstAscentScan env N fuel) s
        (fun _ t => TrueCalls n val t.calls ∧ BestOf t.calls t.solution ∧
          (V t.data.it ∧ t.data.candidates = s.data.candidates) ∧
          ((t.lastIteration = false ∧ cur t.data.it = t.solution.1 ∧ t.solution.1 ∈ l ∧
              s.solution.2 < t.solution.2) ∨
            (t.lastIteration = true ∧ t.solution = s.solution ∧ ∀ y ∈ l, val y ≤ s.solution.2)))
        (fun t => TrueCalls n val t.calls ∧ BestOf t.calls t.solution)
  | 0, l, s, hf, _, _, _, _, _, _ => by omega
  | fuel + 1, l, s, hf, hl, hlen, hV, htc, hbest, hlast => by
    unfold firstAscentScan
    refine Alg.Within.get_bind ?_
    cases hl with
    | done h =>
      refine Alg.Within.lift_bind h ?_
      refine Alg.Within.modify ⟨htc, hbest, ⟨hV, rfl⟩, Or.inr ⟨rfl, rfl, by intro y hy; cases hy⟩⟩
    | @step _ it' y l h1 h2 h3 =>
      obtain ⟨hV', hcur⟩ := hN.next _ _ _ hV h2
      have hy := hlen y (List.mem_cons_self ..)
      refine Alg.Within.lift_bind h1 (Alg.Within.lift_bind h2 (Alg.Within.modify_bind ?_))
      refine evaluate_within henv hy (Alg.Within.get_bind ?_) ⟨htc, hbest⟩
      split
      · rename_i hlt
        exact Alg.Within.modify ⟨htc.snoc hy, hbest.snoc_right (le_of_lt hlt), ⟨hV', rfl⟩,
          Or.inl ⟨hlast, hcur, List.mem_cons_self .., hlt⟩⟩
      · rename_i hlt
        have hle : val y ≤ s.solution.2 := not_lt.mp hlt
        refine (firstAscentScan_within henv hN fuel l
          { s with data := { s.data with it := it' }, calls := s.calls ++ [(y, val y)] }
          (by simp at hf; omega) h3 (fun z hz => hlen z (List.mem_cons_of_mem _ hz)) hV' (htc.snoc hy)
          (hbest.snoc_left hle) hlast).mono (le_refl _) ?_ (fun _ h => h)
        rintro _ t ⟨h4, h5, h6, h7⟩
        refine ⟨h4, h5, h6, ?_⟩
        rcases h7 with ⟨h7, h8, h9, h10⟩ | ⟨h7, h8, h9⟩
        · exact Or.inl ⟨h7, h8, List.mem_cons_of_mem _ h9, h10⟩
        · refine Or.inr ⟨h7, h8, ?_⟩
          intro z hz
          rcases List.mem_cons.mp hz with rfl | hz
          · exact hle
          · exact h9 z hz

/-- C49: an iteration of first ascent hill climbing either moves to a better neighbour, or declares the end if there
is none. -/
theorem firstAscentIterate_spec [LinearOrder K] {env : Env K} {n : Nat} {val : BV → K} (henv : env.Computes n val)
    {N : NbhIter ι} {V : ι → Prop} {cur : ι → BV} {near : BV → BV → Prop} (hN : N.Explores n V cur near)
    {scanFuel : Nat} (hscan : 2 ^ n < scanFuel) {s : AlgState K (ClimbData ι)} (hs : ClimbInv n val V cur near s)
    (hlast : s.lastIteration = false) :
    Alg.Within 0 (firstAscentIterate env N scanFuel) s
      (fun _ t => ClimbInv n val V cur near t ∧ t.data.candidates = s.data.candidates ∧
        ((t.lastIteration = false ∧ near s.solution.1 t.solution.1 ∧ s.solution.2 < t.solution.2) ∨
          (t.lastIteration = true ∧ t.solution = s.solution)))
      (fun t => TrueCalls n val t.calls ∧ BestOf t.calls t.solution) := by
  obtain ⟨htc, hbest, hV, hcur, _⟩ := hs
  obtain ⟨l, h1, h2, h3⟩ := hN.enum _ hV
  have hlen : ∀ y ∈ l, y.length = n := fun y hy => ((h3 y).mp hy).1
  rw [hcur hlast] at h3
  unfold firstAscentIterate
  refine Alg.Within.modify_bind ?_
  refine (firstAscentScan_within henv hN scanFuel l
    { s with data := { s.data with it := N.init s.data.it } } (lt_of_le_of_lt (nodup_length_le h2 hlen) hscan) h1 hlen
    (hN.init _ hV) htc hbest hlast).mono (le_refl _) ?_ (fun _ h => h)
  rintro _ t ⟨h4, h5, h6, h7⟩
  rcases h7 with ⟨h7, h8, h9, h10⟩ | ⟨h7, h8, h9⟩
  · exact ⟨⟨h4, h5, h6.1, fun _ => h8, by rw [h7]; intro h; cases h⟩, h6.2, Or.inl ⟨h7, ((h3 _).mp h9).2, h10⟩⟩
  · simp only at h8 h9
    refine ⟨⟨h4, h5, h6.1, (by rw [h7]; intro h; cases h), ?_⟩, h6.2, Or.inr ⟨h7, h8⟩⟩
    intro _ y hy hnear
    have hv : t.solution.2 = val t.solution.1 := (h4 _ h5.1).2
    rw [← hv, h8]
    rw [h8] at hnear
    exact h9 y ((h3 y).mpr ⟨hy, hnear⟩)

/-- The loop of hill climbing. -/
theorem climbLoop_within [LinearOrder K] {env : Env K} {n : Nat} {val : BV → K} (henv : env.Computes n val)
    {N : NbhIter ι} {V : ι → Prop} {cur : ι → BV} {near : BV → BV → Prop} (hN : N.Explores n V cur near)
    {p : StartParams} (hp : p.startingPoint.length = n) {s : AlgState K (ClimbData ι)} (hs : s.solution.1.length = n)
    (hV : V s.data.it) (hcalls : s.calls = []) {E : AlgState K (ClimbData ι) → Prop}
    (hE : ∀ x, E { s with solution := (x, s.solution.2) })
    {iterate : Alg (AlgState K (ClimbData ι)) Unit} {c : Nat}
    (hit : ∀ t, ClimbInv n val V cur near t → t.data.candidates.length = s.data.candidates.length →
      t.lastIteration = false → Alg.Within c iterate t
        (fun _ u => ClimbInv n val V cur near u ∧ u.data.candidates.length = s.data.candidates.length ∧
          ((u.lastIteration = false ∧ near t.solution.1 u.solution.1 ∧ t.solution.2 < u.solution.2) ∨
            (u.lastIteration = true ∧ u.solution = t.solution))) E)
    (numIterations : Int) {fuel : Nat} (hfuel : 2 ^ n < fuel) :
    Alg.Within (n + (max numIterations.toNat fuel) * c) (algLoop (climbInit env N p) iterate numIterations fuel) s
      (fun _ t => TrueCalls n val t.calls ∧ BestOf t.calls t.solution ∧
        (t.lastIteration = true → LocalMax n val near t.solution.1) ∧
        (numIterations ≤ 0 ∨ 2 ^ n ≤ numIterations → t.lastIteration = true) ∧ V t.data.it) E := by
  unfold algLoop
  refine (climbInit_within henv hN hp hs hV hcalls hE).bind (fun _ t ht => ?_)
  refine Alg.Within.modify_bind ?_
  have hstep : ∀ t : AlgState K (ClimbData ι), (ClimbInv n val V cur near t ∧
      t.data.candidates.length = s.data.candidates.length) → t.lastIteration = false →
      Alg.Within c iterate t (fun _ u => (ClimbInv n val V cur near u ∧
        u.data.candidates.length = s.data.candidates.length) ∧
        (u.lastIteration = true ∨ betterCount n val u.solution.2 < betterCount n val t.solution.2)) E := by
    rintro t ⟨h1, h2⟩ h3
    refine (hit t h1 h2 h3).mono (le_refl _) ?_ (fun _ h => h)
    rintro _ u ⟨h4, h5, h6⟩
    refine ⟨⟨h4, h5⟩, ?_⟩
    rcases h6 with ⟨_, _, h6⟩ | ⟨h6, _⟩
    · right
      obtain ⟨h7, h8⟩ := h4.true_calls _ h4.best.1
      rw [h8] at h6 ⊢
      exact betterCount_lt h7 h6
    · exact Or.inl h6
  have ht' : ClimbInv n val V cur near { t with lastIteration := false } ∧
      ({ t with lastIteration := false } : AlgState K (ClimbData ι)).data.candidates.length =
        s.data.candidates.length := ⟨ht.1, congrArg List.length ht.2⟩
  have hμ : betterCount n val ({ t with lastIteration := false } : AlgState K (ClimbData ι)).solution.2 < 2 ^ n := by
    obtain ⟨h7, h8⟩ := ht.1.true_calls _ ht.1.best.1
    rw [h8]
    exact betterCount_bound h7
  split
  · rename_i hpos
    refine (boundedLoop_within _ E (fun t => betterCount n val t.solution.2) hstep numIterations.toNat _ ht').mono
      (Nat.mul_le_mul_right _ (le_max_left _ _)) ?_ (fun _ h => h)
    rintro _ u ⟨⟨h1, _⟩, h2⟩
    refine ⟨h1.true_calls, h1.best, h1.local_max, ?_, h1.valid⟩
    rintro (h | h)
    · omega
    · refine h2 (Or.inr (lt_of_lt_of_le hμ ?_))
      have : ((2 ^ n : Nat) : Int) ≤ numIterations := by push_cast; exact h
      omega
  · obtain ⟨k, rfl⟩ : ∃ k, fuel = k + 1 := ⟨fuel - 1, by omega⟩
    refine (unboundedLoop_within _ E (fun t => betterCount n val t.solution.2) hstep k _ ht'
      (Or.inr (lt_of_lt_of_le hμ (by omega)))).mono
      (Nat.mul_le_mul_right _ (le_trans (Nat.le_succ k) (le_max_right _ _))) ?_ (fun _ h => h)
    rintro _ u ⟨⟨h1, _⟩, h2⟩
    exact ⟨h1.true_calls, h1.best, h1.local_max, fun _ => h2, h1.valid⟩

/-- C49: first ascent hill climbing ends, for every function, starting point and exploration order: without a limit to
the number of iterations, or with a limit of at least `2 ^ n`, it stops by itself; when it stops by itself no
neighbour of the solution is better; and in any case, also if it is interrupted, the solution is an evaluated vector
with its value, at least as good as all evaluated vectors; the iterator can be used again.  (The fuels only have to be large enough; the draws are
those of the random initialization.) -/
theorem firstAscent_stops_at_local_maximum [LinearOrder K] {env : Env K} {n : Nat} {val : BV → K}
    (henv : env.Computes n val) {N : NbhIter ι} {V : ι → Prop} {cur : ι → BV} {near : BV → BV → Prop}
    (hN : N.Explores n V cur near) {p : StartParams} (hp : p.startingPoint.length = n)
    {s : AlgState K (ClimbData ι)} (hs : s.solution.1.length = n) (hV : V s.data.it) (hcalls : s.calls = [])
    (numIterations : Int) {fuel scanFuel : Nat} (hfuel : 2 ^ n < fuel) (hscan : 2 ^ n < scanFuel) :
    Alg.Within n (firstAscentMaximize env N p scanFuel numIterations fuel) s
      (fun _ t => TrueCalls n val t.calls ∧ BestOf t.calls t.solution ∧
        (t.lastIteration = true → LocalMax n val near t.solution.1) ∧
        (numIterations ≤ 0 ∨ 2 ^ n ≤ numIterations → t.lastIteration = true) ∧ V t.data.it)
      (fun t => TrueCalls n val t.calls ∧ (t.calls = [] ∨ BestOf t.calls t.solution)) := by
  refine (climbLoop_within (c := 0) henv hN hp hs hV hcalls (fun x => ⟨by simp only [hcalls]; exact TrueCalls.nil,
    Or.inl hcalls⟩) ?_ numIterations hfuel).mono (by simp) (fun _ _ h => h) (fun _ h => h)
  intro t h1 h2 h3
  refine (firstAscentIterate_spec henv hN hscan h1 h3).mono (le_refl _) ?_ (fun _ h => ⟨h.1, Or.inr h.2⟩)
  rintro _ u ⟨h4, h5, h6⟩
  exact ⟨h4, by rw [h5]; exact h2, h6⟩

/-! ## Steepest ascent -/

/-- During the scan of the neighbours of `x`, the solution being `sol`: the first `index` candidates are evaluated
neighbours with the greatest value so far. -/
structure ScanInv [LinearOrder K] (n : Nat) (val : BV → K) (V : ι → Prop) (P : BV → Prop) (sol : BV × K) (m : Nat)
    (best : K) (index : Nat) (s : AlgState K (ClimbData ι)) : Prop where
  true_calls : TrueCalls n val s.calls
  solution : s.solution = sol
  sol_mem : sol ∈ s.calls
  calls : ∀ c ∈ s.calls, c.2 ≤ sol.2 ∨ c.2 ≤ best
  valid : V s.data.it
  last : s.lastIteration = false
  size : s.data.candidates.length = m
  range : 1 ≤ index ∧ index ≤ m
  candidates : ∀ (j : Nat), j < index → ∃ y, s.data.candidates[j]? = some y ∧ P y ∧ val y = best ∧ (y, best) ∈ s.calls

/-- The new candidate is strictly better. -/
theorem ScanInv.restart [LinearOrder K] {n : Nat} {val : BV → K} {V : ι → Prop} {P : BV → Prop} {sol : BV × K}
    {m : Nat} {s : AlgState K (ClimbData ι)} (htc : TrueCalls n val s.calls) (hsol : s.solution = sol)
    (hmem : sol ∈ s.calls) {y : BV} (hcalls : ∀ c ∈ s.calls, c.2 ≤ sol.2 ∨ c.2 ≤ val y) {it : ι} (hV : V it) (hlast : s.lastIteration = false)
    (hsize : s.data.candidates.length = m) (hm : 1 ≤ m) (hy : y.length = n) (hP : P y) :
    ScanInv n val V P sol m (val y) 1 { s with
      calls := s.calls ++ [(y, val y)], data := ⟨it, s.data.candidates.set 0 y⟩ } := by
  refine ⟨htc.snoc hy, hsol, List.mem_append_left _ hmem, ?_, hV, hlast, by simp [hsize], ⟨le_refl _, hm⟩, ?_⟩
  · intro c hc
    rcases List.mem_append.mp hc with hc | hc
    · exact hcalls c hc
    · rw [List.mem_singleton.mp hc]; exact Or.inr (le_refl _)
  · intro j hj
    have : j = 0 := by omega
    subst this
    exact ⟨y, (by rw [List.getElem?_set_self (by omega)]), hP, rfl, by simp⟩

theorem steepestScan_within [LinearOrder K] {env : Env K} {n : Nat} {val : BV → K} (henv : env.Computes n val)
    {N : NbhIter ι} {V : ι → Prop} {cur : ι → BV} {near : BV → BV → Prop} (hN : N.Explores n V cur near)
    {P : BV → Prop} {sol : BV × K} {m : Nat} :
    ∀ (fuel : Nat) (l : List BV) (best : K) (index : Nat) (s : AlgState K (ClimbData ι)), l.length < fuel →
      Enumerates N.hasNext N.next s.data.it l → (∀ y ∈ l, y.length = n ∧ P y) →
      ScanInv n val V P sol m best index s →
      Alg.Within 0 (steepestScan env N fuel best index) s
        (fun r t => ScanInv n val V P sol m r.1 r.2 t ∧ best ≤ r.1 ∧ ∀ y ∈ l, val y ≤ r.1)
        (fun t => TrueCalls n val t.calls ∧ t.solution ∈ t.calls)
  | 0, l, _, _, s, hf, _, _, _ => by omega
  | fuel + 1, l, best, index, s, hf, hl, hlen, hs => by
    unfold steepestScan
    refine Alg.Within.get_bind ?_
    cases hl with
    | done h =>
      exact Alg.Within.lift_bind h (Alg.Within.pure ⟨hs, le_refl _, by intro y hy; cases hy⟩)
    | @step _ it' y l h1 h2 h3 =>
      obtain ⟨hV', hcur⟩ := hN.next _ _ _ hs.valid h2
      obtain ⟨hy, hP⟩ := hlen y (List.mem_cons_self ..)
      have hlen' : ∀ z ∈ l, z.length = n ∧ P z := fun z hz => hlen z (List.mem_cons_of_mem _ hz)
      have hf' : l.length < fuel := by simp at hf; omega
      have hm : 1 ≤ m := le_trans hs.range.1 hs.range.2
      have hall : ∀ b' (r : K), b' ≤ r → val y ≤ b' → (∀ z ∈ l, val z ≤ r) → ∀ z ∈ y :: l, val z ≤ r := by
        intro b' r h4 h5 h6 z hz
        rcases List.mem_cons.mp hz with rfl | hz
        · exact le_trans h5 h4
        · exact h6 z hz
      refine Alg.Within.lift_bind h1 (Alg.Within.lift_bind h2 (Alg.Within.modify_bind ?_))
      refine evaluate_within henv hy (Alg.Within.get_bind ?_)
        ⟨hs.true_calls, by simp only [hs.solution]; exact hs.sol_mem⟩
      split
      · rename_i hlt
        refine Alg.Within.lift_bind (vset_eq (by simp only [hs.size]; omega)) (Alg.Within.modify_bind ?_)
        refine (steepestScan_within henv hN fuel l (val y) 1 _ hf' h3 hlen'
          (ScanInv.restart hs.true_calls hs.solution hs.sol_mem
            (fun c hc => (hs.calls c hc).imp id (fun h => le_trans h (le_of_lt hlt))) hV' hs.last hs.size hm hy
            hP)).mono (le_refl _) ?_ (fun _ h => h)
        rintro ⟨b, i⟩ t ⟨h4, h5, h6⟩
        exact ⟨h4, le_trans (le_of_lt hlt) h5, hall _ _ h5 (le_refl _) h6⟩
      · rename_i hlt
        have hle : val y ≤ best := not_lt.mp hlt
        have hcalls : ∀ c ∈ s.calls ++ [(y, val y)], c.2 ≤ sol.2 ∨ c.2 ≤ best := by
          intro c hc
          rcases List.mem_append.mp hc with hc | hc
          · exact hs.calls c hc
          · rw [List.mem_singleton.mp hc]; exact Or.inr hle
        split
        · rename_i heq
          obtain ⟨heq, hidx⟩ := heq
          have hidx : index < s.data.candidates.length := hidx
          refine Alg.Within.lift_bind (vset_eq hidx) (Alg.Within.modify_bind ?_)
          refine (steepestScan_within (P := P) (sol := sol) (m := m) henv hN fuel l best (index + 1) _ hf' h3 hlen' ?_).mono (le_refl _) ?_
            (fun _ h => h)
          · refine ⟨hs.true_calls.snoc hy, hs.solution, List.mem_append_left _ hs.sol_mem, hcalls, hV', hs.last,
              by simp [hs.size], ⟨by omega, by rw [hs.size] at hidx; omega⟩, ?_⟩
            intro j hj
            by_cases hji : j = index
            · subst hji
              exact ⟨y, by simp [hidx], hP, heq, by simp [heq]⟩
            · obtain ⟨z, h4, h5, h6, h7⟩ := hs.candidates j (by omega)
              exact ⟨z, by simp only [List.getElem?_set, if_neg (Ne.symm hji)]; exact h4, h5, h6,
                List.mem_append_left _ h7⟩
          · rintro ⟨b, i⟩ t ⟨h4, h5, h6⟩
            exact ⟨h4, h5, hall _ _ h5 hle h6⟩
        · refine (steepestScan_within (P := P) (sol := sol) (m := m) henv hN fuel l best index _ hf' h3 hlen' ?_).mono (le_refl _) ?_
            (fun _ h => h)
          · refine ⟨hs.true_calls.snoc hy, hs.solution, List.mem_append_left _ hs.sol_mem, hcalls, hV', hs.last,
              hs.size, hs.range, ?_⟩
            intro j hj
            obtain ⟨z, h4, h5, h6, h7⟩ := hs.candidates j hj
            exact ⟨z, h4, h5, h6, List.mem_append_left _ h7⟩
          · rintro ⟨b, i⟩ t ⟨h4, h5, h6⟩
            exact ⟨h4, h5, hall _ _ h5 hle h6⟩

/-- C49: an iteration of steepest ascent hill climbing either moves to a best neighbour, which is better than the
solution, or declares the end if no neighbour is better. -/
theorem steepestIterate_spec [LinearOrder K] {env : Env K} {n : Nat} {val : BV → K} (henv : env.Computes n val)
    {N : NbhIter ι} {V : ι → Prop} {cur : ι → BV} {near : BV → BV → Prop} (hN : N.Explores n V cur near)
    (hne : ∀ x : BV, x.length = n → ∃ y : BV, y.length = n ∧ near x y)
    {scanFuel : Nat} (hscan : 2 ^ n < scanFuel) {s : AlgState K (ClimbData ι)} (hs : ClimbInv n val V cur near s)
    (hm : 1 ≤ s.data.candidates.length) (hlast : s.lastIteration = false) :
    Alg.Within 1 (steepestIterate env N scanFuel) s
      (fun _ t => ClimbInv n val V cur near t ∧ t.data.candidates.length = s.data.candidates.length ∧
        ((t.lastIteration = false ∧ near s.solution.1 t.solution.1 ∧ s.solution.2 < t.solution.2 ∧
            ∀ y : BV, y.length = n → near s.solution.1 y → val y ≤ t.solution.2) ∨
          (t.lastIteration = true ∧ t.solution = s.solution)))
      (fun t => TrueCalls n val t.calls ∧ t.solution ∈ t.calls) := by
  obtain ⟨htc, hbest, hV, hcur, _⟩ := hs
  obtain ⟨l, h1, h2, h3⟩ := hN.enum _ hV
  rw [hcur hlast] at h3
  have hlen : ∀ y ∈ l, y.length = n ∧ near s.solution.1 y := fun y hy => (h3 y).mp hy
  have hll := nodup_length_le h2 (fun y hy => (hlen y hy).1)
  have hVi := hN.init _ hV
  have hsl : s.solution.1.length = n := (htc _ hbest.1).1
  unfold steepestIterate
  refine Alg.Within.modify_bind (Alg.Within.get_bind ?_)
  cases h1 with
  | done h =>
    obtain ⟨y, hy⟩ := hne _ hsl
    exact absurd ((h3 y).mpr hy) List.not_mem_nil
  | @step _ it' y l h4 h5 h6 =>
    obtain ⟨hV', _⟩ := hN.next _ _ _ hVi h5
    obtain ⟨hy, hnear⟩ := hlen y (List.mem_cons_self ..)
    refine Alg.Within.lift_bind h4 (Alg.Within.assert_bind rfl (Alg.Within.lift_bind h5
      (Alg.Within.modify_bind ?_)))
    refine evaluate_within henv hy (Alg.Within.get_bind ?_) ⟨htc, hbest.1⟩
    refine Alg.Within.lift_bind (vset_eq (by simp only; omega)) (Alg.Within.modify_bind ?_)
    have hscan0 := ScanInv.restart (P := near s.solution.1) (sol := s.solution) (m := s.data.candidates.length)
      (it := it') (s := { s with data := ⟨N.init s.data.it, s.data.candidates⟩ }) htc rfl
      hbest.1 (fun c hc => Or.inl (hbest.2 c hc)) hV' hlast rfl hm hy hnear
    refine Alg.Within.bind (c := 0) (d := 1) (steepestScan_within henv hN scanFuel l (val y) 1 _
      (by simp at hll; omega) h6 (fun z hz => hlen z (List.mem_cons_of_mem _ hz)) hscan0) ?_
    rintro ⟨best, index⟩ t ⟨ht, h7, h8⟩
    simp only at ht h7 h8
    have hall : ∀ z : BV, z.length = n → near s.solution.1 z → val z ≤ best := by
      intro z hz hnz
      rcases List.mem_cons.mp ((h3 z).mpr ⟨hz, hnz⟩) with rfl | hz
      · exact h7
      · exact h8 z hz
    refine Alg.Within.get_bind (Alg.Within.assert_bind (by simpa using ht.range.1)
      (Alg.Within.assert_bind (by simp only [ht.size]; simpa using ht.range.2) ?_))
    split
    · rename_i hlt
      simp only [ht.solution] at hlt
      refine Alg.Within.sim_bind (c := 1) (d := 0) (Sim.Within.uniformInt (Nat.zero_le _)) ?_
      rintro i ⟨_, hi⟩
      obtain ⟨z, h9, h10, h11, h12⟩ := ht.candidates i (by have := ht.range.1; omega)
      obtain ⟨hil, hz⟩ := List.getElem?_eq_some_iff.mp h9
      refine Alg.Within.lift_bind (a := z) (by rw [vget_eq hil, hz]) (Alg.Within.modify_bind ?_)
      have hzl : z.length = n := (ht.true_calls _ h12).1
      refine Alg.Within.returns_bind (hN.setOrigin _ z ht.valid hzl) ?_
      rintro it ⟨h13, h14⟩
      refine Alg.Within.modify ⟨⟨ht.true_calls, ⟨h12, ?_⟩, h13, fun _ => h14, ?_⟩, ht.size, Or.inl ⟨ht.last, h10, hlt,
        hall⟩⟩
      · intro c hc
        rcases ht.calls c hc with h | h
        · exact le_trans h (le_of_lt hlt)
        · exact h
      · intro h
        simp only [ht.last] at h
        cases h
    · rename_i hlt
      simp only [ht.solution, not_lt] at hlt
      refine Alg.Within.modify ⟨⟨ht.true_calls, ⟨?_, ?_⟩, ht.valid, (by intro h; cases h), ?_⟩, ht.size,
        Or.inr ⟨rfl, ht.solution⟩⟩
      · simp only [ht.solution]; exact ht.sol_mem
      · intro c hc
        simp only [ht.solution]
        rcases ht.calls c hc with h | h
        · exact h
        · exact le_trans h hlt
      · intro _ z hz hnz
        simp only [ht.solution] at hnz ⊢
        rw [← (htc _ hbest.1).2]
        exact le_trans (hall z hz hnz) hlt

/-- C49: steepest ascent hill climbing ends, for every function, starting point and draws: without a limit to the
number of iterations, or with a limit of at least `2 ^ n`, it stops by itself; when it stops by itself no neighbour of
the solution is better; the solution is an evaluated vector with its value, at least as good as all evaluated vectors.
If it is interrupted then the solution is an evaluated vector with its value. -/
theorem steepestAscent_stops_at_local_maximum [LinearOrder K] {env : Env K} {n : Nat} {val : BV → K}
    (henv : env.Computes n val) {N : NbhIter ι} {V : ι → Prop} {cur : ι → BV} {near : BV → BV → Prop}
    (hN : N.Explores n V cur near) (hne : ∀ x : BV, x.length = n → ∃ y : BV, y.length = n ∧ near x y)
    {p : StartParams} (hp : p.startingPoint.length = n)
    {s : AlgState K (ClimbData ι)} (hs : s.solution.1.length = n) (hV : V s.data.it)
    (hm : 1 ≤ s.data.candidates.length) (hcalls : s.calls = [])
    (numIterations : Int) {fuel scanFuel : Nat} (hfuel : 2 ^ n < fuel) (hscan : 2 ^ n < scanFuel) :
    Alg.Within (n + max numIterations.toNat fuel) (steepestMaximize env N p scanFuel numIterations fuel) s
      (fun _ t => TrueCalls n val t.calls ∧ BestOf t.calls t.solution ∧
        (t.lastIteration = true → LocalMax n val near t.solution.1) ∧
        (numIterations ≤ 0 ∨ 2 ^ n ≤ numIterations → t.lastIteration = true) ∧ V t.data.it)
      (fun t => TrueCalls n val t.calls ∧ (t.calls = [] ∨ t.solution ∈ t.calls)) := by
  refine (climbLoop_within (c := 1) henv hN hp hs hV hcalls (fun x => ⟨by simp only [hcalls]; exact TrueCalls.nil,
    Or.inl hcalls⟩) ?_ numIterations hfuel).mono (by simp) (fun _ _ h => h) (fun _ h => h)
  intro t h1 h2 h3
  refine (steepestIterate_spec henv hN hne hscan h1 (by omega) h3).mono (le_refl _) ?_
    (fun _ h => ⟨h.1, Or.inr h.2⟩)
  rintro _ u ⟨h4, h5, h6⟩
  refine ⟨h4, h5.trans h2, ?_⟩
  rcases h6 with ⟨h6, h7, h8, _⟩ | h6
  · exact Or.inl ⟨h6, h7, h8⟩
  · exact Or.inr h6

/-- Every non empty vector has a vector at any distance up to its size. -/
theorem exists_at_distance {r : Nat} (x : BV) (hr : r ≤ x.length) :
    ∃ y : BV, y.length = x.length ∧ bvHammingDistance x y = ok r := by
  have hlt : ∀ i ∈ List.range r, i < x.length := fun i hi => by have := List.mem_range.mp hi; omega
  obtain ⟨y, hy, hy1, _⟩ := bvFlipSparse_exact x (List.range r) List.pairwise_lt_range hlt
  refine ⟨y, hy1, ?_⟩
  have := bvFlipSparse_distance x (List.range r) List.pairwise_lt_range hlt
  rw [hy, ok_bind, List.length_range] at this
  exact this

/-- C49: with the single bit flip iterator in any state, first ascent hill climbing without limit stops, at a vector no
vector at distance one of which is better. -/
theorem firstAscent_singleBitFlip [LinearOrder K] {env : Env K} {n : Nat} {val : BV → K}
    (henv : env.Computes n val) {p : StartParams} (hp : p.startingPoint.length = n)
    {s : AlgState K (ClimbData SingleBitFlipIterator)} (hs : s.solution.1.length = n)
    (hV : s.data.it.current.length = n) (hcalls : s.calls = []) :
    Alg.Within n (firstAscentMaximize env singleBitFlipIter p (2 ^ n + 1) 0 (2 ^ n + 1)) s
      (fun _ t => t.solution.2 = val t.solution.1 ∧
        ∀ y, bvHammingDistance t.solution.1 y = ok 1 → val y ≤ val t.solution.1)
      (fun t => t.calls = [] ∨ t.solution.2 = val t.solution.1) := by
  refine (firstAscent_stops_at_local_maximum henv (singleBitFlipIter_explores n) hp hs hV hcalls 0
    (Nat.lt_succ_self _) (Nat.lt_succ_self _)).mono (le_refl _) ?_ ?_
  · rintro _ t ⟨h1, h2, h3, h4, _⟩
    obtain ⟨h5, h6⟩ := h1 _ h2.1
    exact ⟨h6, fun y hy => h3 (h4 (Or.inl (le_refl _))) y ((hammingDistance_length hy).symm.trans h5) hy⟩
  · rintro t ⟨h1, h2⟩
    exact h2.imp id (fun h => (h1 _ h.1).2)

/-- C49: with the Hamming sphere iterator of radius `1 <= r <= n` in any state, steepest ascent hill climbing without
limit stops, at a vector no vector at distance `r` of which is better. -/
theorem steepestAscent_hammingSphere [LinearOrder K] {env : Env K} {n r : Nat} {val : BV → K}
    (henv : env.Computes n val) (hr : 1 ≤ r) (hrn : r ≤ n) {p : StartParams} (hp : p.startingPoint.length = n)
    {s : AlgState K (ClimbData HammingSphereIterator)} (hs : s.solution.1.length = n)
    (hV : s.data.it.current.length = n ∧ s.data.it.radius = r ∧ s.data.it.bitIndexes.length = r)
    (hm : s.data.candidates.length = n) (hcalls : s.calls = []) :
    Alg.Within (n + (2 ^ n + 1)) (steepestMaximize env hammingSphereIter p (2 ^ n + 1) 0 (2 ^ n + 1)) s
      (fun _ t => t.solution.2 = val t.solution.1 ∧
        ∀ y, bvHammingDistance t.solution.1 y = ok r → val y ≤ val t.solution.1)
      (fun t => t.calls = [] ∨ t.solution.2 = val t.solution.1) := by
  refine (steepestAscent_stops_at_local_maximum henv (hammingSphereIter_explores hr hrn) ?_ hp hs hV (by omega) hcalls 0
    (Nat.lt_succ_self _) (Nat.lt_succ_self _)).mono (by simp) ?_ ?_
  · intro x hx
    obtain ⟨y, h1, h2⟩ := exists_at_distance (r := r) x (by omega)
    exact ⟨y, h1.trans hx, h2⟩
  · rintro _ t ⟨h1, h2, h3, h4, _⟩
    obtain ⟨h5, h6⟩ := h1 _ h2.1
    exact ⟨h6, fun y hy => h3 (h4 (Or.inl (le_refl _))) y ((hammingDistance_length hy).symm.trans h5) hy⟩
  · rintro t ⟨h1, h2⟩
    exact h2.imp id (fun h => (h1 _ h).2)

/-! ## Examples -/

/-- The number of ones, without interruption. -/
def exampleClimbEnv : Env Int := { exampleEnv with stop := fun _ _ => none }

/-- First ascent on three bits: a run on given draws. -/
example : (match firstAscentMaximize exampleClimbEnv singleBitFlipIter ⟨true, [false, false, false]⟩ 9 0 9
    ⟨([false, false, false], 0), false, [], ⟨⟨[false, true, false], 7, false⟩, []⟩⟩ [0, 1, 0] with
  | .ok r _ => some (r.2.solution, r.2.calls.length, r.2.lastIteration)
  | _ => none) = some (([true, true, true], 3), 8, true) := by decide +kernel

/-- The hypotheses are met. -/
example : Alg.Within 3 (firstAscentMaximize exampleClimbEnv singleBitFlipIter ⟨true, [false, false, false]⟩
    (2 ^ 3 + 1) 0 (2 ^ 3 + 1))
    ⟨([false, false, false], 0), false, [], ⟨⟨[false, true, false], 7, false⟩, []⟩⟩
    (fun _ t => t.solution.2 = Int.ofNat (t.solution.1.count true) ∧
      ∀ y : BV, bvHammingDistance t.solution.1 y = ok 1 → Int.ofNat (y.count true) ≤ Int.ofNat (t.solution.1.count true))
    (fun t => t.calls = [] ∨ t.solution.2 = Int.ofNat (t.solution.1.count true)) :=
  firstAscent_singleBitFlip (n := 3) (env := exampleClimbEnv) (val := fun x => Int.ofNat (x.count true))
    (p := ⟨true, [false, false, false]⟩)
    (s := ⟨([false, false, false], 0), false, [], ⟨⟨[false, true, false], 7, false⟩, []⟩⟩)
    (fun _ _ => rfl) rfl rfl rfl rfl

/-- C49 (negative part): if steepest ascent hill climbing is interrupted then it reports the solution of the last
complete iteration, although it has evaluated better vectors. -/
theorem steepestAscent_interrupted_not_best :
    (match steepestMaximize exampleEnv singleBitFlipIter ⟨true, [false, false, false]⟩ 9 0 9
      ⟨([false, false, false], 0), false, [], ⟨⟨[false, true, false], 7, false⟩, [[], [], []]⟩⟩ [0, 0, 0, 1] with
    | .ok (.error .lastEvaluation, t) _ => some (t.solution, t.calls.getLast?)
    | _ => none) = some (([false, true, false], 1), some ([true, true, false], 2)) := by decide +kernel

/-- Steepest ascent with radius two stops at a vector of even weight. -/
example : (match steepestMaximize exampleClimbEnv hammingSphereIter ⟨true, [false, false, false]⟩ 9 0 9
    ⟨([false, false, false], 0), false, [], ⟨⟨[false, true, false], 2, [0, 0], false⟩, [[], [], []]⟩⟩
    [0, 0, 0, 5, 0] with
  | .ok r _ => some (r.2.solution, r.2.calls.length, r.2.lastIteration)
  | _ => none) = some (([false, true, true], 2), 7, true) := by decide +kernel

end Hnco
