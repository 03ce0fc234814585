import Verif.Walsh.HeaProps
import Verif.Neighborhood.Props

/-! # C50, C67: the Boltzmann machine PBIL -/

namespace Hnco

open Outcome

variable {K : Type}

/-! ## Specification -/

/-- Parameters with which the algorithm is defined. -/
structure BmParams.Sound (q : BmParams) (size : Nat) : Prop where
  sel : 1 ≤ q.selectionSize ∧ q.selectionSize ≤ size
  known : q.sampling ≠ .unknown
  synchronous : q.sampling = .synchronous → q.full = true

/-- The invariant. -/
structure BmInv (q : BmParams) (n size : Nat) (s : AlgState K (BmData K)) : Prop where
  parameters : ∃ F G, s.data.parameters.Is q.full n F G
  symm : q.full = true → s.data.parameters.Symm n
  population : s.data.population.Valid size n
  state : s.data.state.length = n
  pv : s.data.pv.length = n
  all : s.data.all.Shape q.full n
  best : s.data.best.Shape q.full n
  worst : s.data.worst.Shape q.full n

/-- The individuals with which the best ones are compared: the worst ones, from the last, or all of them. -/
def bmOthers (q : BmParams) (size sel : Nat) (x : Nat → BV) (bvs : List BV) : List BV :=
  if q.negativePositive then (List.range sel).map (fun k => x (size - 1 - k)) else bvs

/-! ## Averages -/

theorem bestMoment_spec [LinearOrder K] {full : Bool} {p : Pop K} {size n sel : Nat} (hp : p.Valid size n)
    (h1 : 1 ≤ sel) (h2 : sel ≤ size) {x : Nat → BV} (hx : ∀ k, k < size → p.bestBv k = ok (x k)) {m : Moment}
    (hm : m.Shape full n) : (bestMoment full (sel : Int) p m).Returns (fun r => r.IsMean full n ((List.range sel).map x)) := by
  unfold bestMoment
  refine (addBest_spec hp h2 hx hm).bind (fun m1 hm1 => ?_)
  exact (Moment.average_mean (selected_ne_nil h1 x) (by simp) hm1).mono (fun r h => h.1)

theorem worstMoment_spec [LinearOrder K] {full : Bool} {p : Pop K} {size n sel : Nat} (hp : p.Valid size n)
    (h1 : 1 ≤ sel) (h2 : sel ≤ size) {x : Nat → BV} (hx : ∀ k, k < size → p.bestBv k = ok (x k)) {m : Moment}
    (hm : m.Shape full n) : (worstMoment full (sel : Int) p m).Returns
      (fun r => r.IsMean full n ((List.range sel).map (fun k => x (size - 1 - k)))) := by
  unfold worstMoment
  rw [Int.toNat_natCast]
  refine (forRange_returns (fun k (r : Moment) => r.Is full n
    (sumFirst ((List.range k).map (fun k => x (size - 1 - k)))) (sumSecond ((List.range k).map (fun k => x (size - 1 - k)))))
    (Nat.zero_le _) ?_ ?_).bind (fun m1 hm1 => ?_)
  · exact (Moment.init_is hm).1.congr (fun i _ => by simp [sumFirst]) (fun i j _ _ => by simp [sumSecond])
  · intro k r _ hk hr
    have hw : p.worstBv k = ok (x (size - 1 - k)) := by
      unfold Pop.worstBv
      rw [hp.bvs, assert_pos (decide_eq_true (by omega)), ok_bind, hx _ (by omega)]
    rw [hw, ok_bind]
    refine (Moment.add_spec hr (bestBv_length hp (by omega) (hx (size - 1 - k) (by omega)))).mono ?_
    intro u hu
    exact hu.congr (fun i _ => by simp [sumFirst, List.range_succ]) (fun i j _ _ => by simp [sumSecond, List.range_succ])
  · exact (Moment.average_mean (selected_ne_nil h1 _) (by simp) hm1).mono (fun r h => h.1)

theorem allMoment_spec [LinearOrder K] {full : Bool} {p : Pop K} {size n : Nat} (hp : p.Valid size n)
    (h1 : 1 ≤ size) {m : Moment} (hm : m.Shape full n) :
    (allMoment full p m).Returns (fun r => r.IsMean full n p.bvs) := by
  unfold allMoment
  have hsz : p.size = p.bvs.length := rfl
  refine (forRange_returns (fun k (r : Moment) => r.Is full n
    (sumFirst (p.bvs.take k)) (sumSecond (p.bvs.take k))) (Nat.zero_le _) ?_ ?_).bind (fun m1 hm1 => ?_)
  · exact (Moment.init_is hm).1.congr (fun i _ => by simp [sumFirst]) (fun i j _ _ => by simp [sumSecond])
  · intro k r _ hk hr
    rw [hsz] at hk
    rw [vget_eq hk, ok_bind]
    refine (Moment.add_spec hr (hp.bits _ (List.getElem_mem hk))).mono ?_
    intro u hu
    have htake : p.bvs.take (k + 1) = p.bvs.take k ++ [p.bvs[k]] := by
      rw [List.take_add_one, List.getElem?_eq_getElem hk, Option.toList_some]
    rw [htake]
    exact hu.congr (fun i _ => by unfold sumFirst; rw [List.map_append, List.sum_append]; simp only [List.map_cons, List.map_nil, List.sum_singleton])
      (fun i j _ _ => by unfold sumSecond; rw [List.map_append, List.sum_append]; simp only [List.map_cons, List.map_nil, List.sum_singleton])
  · rw [hsz, List.take_length] at hm1
    refine (Moment.average_mean (List.length_pos_iff.mp (by rw [hp.bvs]; omega)) (by rw [hsz]) hm1).mono (fun r h => h.1)

/-! ## Learning -/

/-- C67: each parameter moves by the learning rate times the difference between its mean over the best individuals and its
mean over the worst individuals (or over all individuals); full parameters stay symmetric. -/
theorem bmLearn_spec [LinearOrder K] {q : BmParams} {n size sel : Nat} (hq : q.Sound size) (hsel : q.selectionSize = sel)
    {s : AlgState K (BmData K)} (hinv : BmInv q n size s) {F : Nat → Rat} {G : Nat → Nat → Rat}
    (ht : s.data.parameters.Is q.full n F G) {x : Nat → BV}
    (hx : ∀ k, k < size → s.data.population.bestBv k = ok (x k)) {E : AlgState K (BmData K) → Prop} :
    Alg.Holds (bmLearn q) s (fun _ t => BmInv q n size t ∧
      t.data.parameters.Is q.full n
        (fun i => F i + q.rate * (meanOver ((List.range sel).map x) (fun y => signAt y i) -
          meanOver (bmOthers q size sel x s.data.population.bvs) (fun y => signAt y i)))
        (fun i j => G i j + q.rate * (meanOver ((List.range sel).map x) (fun y => signAt y i * signAt y j) -
          meanOver (bmOthers q size sel x s.data.population.bvs) (fun y => signAt y i * signAt y j))) ∧
      ∃ data, t = { s with data := data }) E := by
  obtain ⟨⟨s1, s2⟩, _, _⟩ := hq
  have hsel1 : 1 ≤ sel := by omega
  have hsel2 : sel ≤ size := by omega
  unfold bmLearn
  rw [hsel]
  refine Alg.Holds.get_bind (Alg.Holds.returns_bind (bestMoment_spec hinv.population hsel1 hsel2 hx hinv.best) ?_)
  intro b hb
  unfold bmOthers
  split
  · refine Alg.Holds.returns_bind (worstMoment_spec hinv.population hsel1 hsel2 hx hinv.worst) ?_
    intro w hw
    refine Alg.Holds.returns_bind (Moment.updateBetween_spec ht hb hw q.rate) ?_
    rintro m ⟨hm, hsym⟩
    exact Alg.Holds.modify ⟨⟨⟨_, _, hm⟩, hsym, hinv.population, hinv.state, hinv.pv, hinv.all, hb.shape, hw.shape⟩, hm, _, rfl⟩
  · refine Alg.Holds.returns_bind (allMoment_spec hinv.population (by omega) hinv.all) ?_
    intro w hw
    refine Alg.Holds.returns_bind (Moment.updateBetween_spec ht hb hw q.rate) ?_
    rintro m ⟨hm, hsym⟩
    exact Alg.Holds.modify ⟨⟨⟨_, _, hm⟩, hsym, hinv.population, hinv.state, hinv.pv, hw.shape, hb.shape, hinv.worst⟩, hm, _, rfl⟩

/-! ## Sampling -/

/-- The state of the sampler has the right size. -/
def GibbsState.Of (n : Nat) (g : GibbsState) : Prop := g.1.length = n ∧ g.2.length = n

theorem bmChain_post {q : BmParams} {n : Nat} (hn : 0 < n) (hk : q.sampling ≠ .unknown)
    (hsy : q.sampling = .synchronous → q.full = true) {m : Moment} {F : Nat → Rat} {G : Nat → Nat → Rat}
    (h : m.Is q.full n F G) (hsym : q.full = true → m.Symm n) (logistic : Rat → Rat) {g : GibbsState} (hg : g.Of n) :
    Sim.Post (bmChain logistic q m g) (fun r => r.Of n) := by
  unfold bmChain
  cases hs : q.sampling with
  | unknown => exact absurd hs hk
  | asynchronous =>
    refine Sim.Post.forRange (I := fun _ (g : GibbsState) => g.Of n) (Nat.zero_le _) hg ?_
    intro _ r _ _ hr
    refine (Sim.Post.uniformInt (by omega)).bind (fun i hi => ?_)
    refine (gibbsUpdate_spec h hr.1 (by have := hr.1; omega) logistic).bind (fun y hy => Sim.Post.pure ⟨hy.1, hr.2⟩)
  | asynchronousFullScan =>
    refine Sim.Post.forRange (I := fun _ (g : GibbsState) => g.Of n) (Nat.zero_le _) hg ?_
    intro _ r _ _ hr
    refine (Sim.Post.shuffle _).bind (fun perm hperm => ?_)
    refine Sim.Post.forRange (I := fun _ (g : GibbsState) => g.Of n) (Nat.zero_le _) hr ?_
    intro k u _ hk hu
    refine Sim.Post.lift_bind (vget_eq hk) ?_
    have hmem : perm[k] < n := by
      have := hperm.mem_iff.mp (List.getElem_mem hk)
      unfold permIdentity at this
      rw [List.mem_range, hr.1] at this
      exact this
    exact (gibbsUpdate_spec h hu.1 hmem logistic).bind (fun y hy => Sim.Post.pure ⟨hy.1, hu.2⟩)
  | synchronous =>
    have hfull := hsy hs
    rw [hfull] at h
    refine Sim.Post.forRange (I := fun _ (g : GibbsState) => g.Of n) (Nat.zero_le _) hg ?_
    intro _ r _ _ hr
    exact (gibbsUpdateSync_spec h (hsym hfull) hr.1 hr.2 logistic).mono (fun u hu => ⟨hu.1, hu.2.1⟩)

theorem bmReset_post {n : Nat} (b : Bool) {g : GibbsState} (hg : g.Of n) : Sim.Post (bmReset b g) (fun r => r.Of n) := by
  unfold bmReset
  split
  · unfold gibbsInit
    exact (bvRandomBits_post _).bind (fun x hx => Sim.Post.pure ⟨by rw [hx, hg.1], hg.2⟩)
  · exact Sim.Post.pure hg

theorem bmSample_post {q : BmParams} {n size : Nat} (hn : 0 < n) (hq : q.Sound size) {m : Moment} {F : Nat → Rat}
    {G : Nat → Nat → Rat} (h : m.Is q.full n F G) (hsym : q.full = true → m.Symm n) (logistic : Rat → Rat)
    [LinearOrder K] {g : GibbsState} {p : Pop K} (hg : g.Of n) (hp : p.Valid size n) :
    Sim.Post (bmSample logistic q m (g, p)) (fun r => r.1.Of n ∧ r.2.Valid size n) := by
  unfold bmSample
  refine Sim.Post.forRange (I := fun _ (r : GibbsState × Pop K) => r.1.Of n ∧ r.2.Valid size n)
    (Nat.zero_le _) ⟨hg, hp⟩ ?_
  rintro i ⟨g, w⟩ _ hi ⟨h1, h2⟩
  have hiw : i < w.bvs.length := by rw [h2.bvs, ← hp.bvs]; exact hi
  refine (bmReset_post _ h1).bind (fun g1 hg1 => ?_)
  refine (bmChain_post hn hq.known hq.synchronous h hsym logistic hg1).bind (fun g2 hg2 => ?_)
  exact Sim.Post.lift_bind (vset_eq hiw) (Sim.Post.pure ⟨hg2, h2.setBv i hg2.1⟩)

/-! ## Resetting the chain -/

theorem bvRandomBits_any (x : BV) : Sim.Reaches (bvRandomBits x.length) x := by
  unfold bvRandomBits
  have h := Sim.Reaches.forRange (body := fun (_ : Nat) (x : BV) => do
    let b ← Sim.bernoulli
    pure (x ++ [b])) (fun i => x.take i) (Nat.zero_le x.length) (s := []) (by simp) ?_
  · simpa using h
  · intro i _ hi
    refine Sim.Reaches.bind (Sim.Reaches.bernoulli x[i]) ?_
    rw [List.take_succ_eq_append_getElem hi]
    exact Sim.Reaches.pure _

/-- C67: if the chain is reset for each bit vector then what is sampled does not depend on its state. -/
theorem bm_reset_forgets {q : BmParams} (hr : q.reset = .bitVector) (logistic : Rat → Rat) (m : Moment) {x y : BV}
    (hxy : x.length = y.length) (pv : List Rat) {p : Pop K} (hp : 0 < p.size) :
    bmSample logistic q m ((x, pv), p) = bmSample logistic q m ((y, pv), p) := by
  obtain ⟨k, hk⟩ : ∃ k, p.size = k + 1 := ⟨p.size - 1, by omega⟩
  have e : gibbsInit (x, pv) = gibbsInit (y, pv) := by unfold gibbsInit; simp only [hxy]
  unfold bmSample bmReset
  simp only [hr, beq_self_eq_true, if_true]
  simp only [hk, Sim.forRange, Nat.sub_zero, Sim.forLoop, e]

/-- C67: the mode of reset shows when the chain makes no step: if it is reset for each bit vector then any population can be
sampled; otherwise all the individuals are the state of the chain. -/
theorem bm_reset_modes {q : BmParams} (hs : q.sampling = .asynchronous) (h0 : q.numSteps ≤ 0) (logistic : Rat → Rat) (m : Moment)
    {x : BV} (pv : List Rat) {p : Pop K} :
    (q.reset = .bitVector → ∀ bvs : List BV, bvs.length = p.bvs.length → (∀ y ∈ bvs, y.length = x.length) →
      ∃ g, Sim.Reaches (bmSample logistic q m ((x, pv), p)) (g, { p with bvs := bvs })) ∧
    (q.reset ≠ .bitVector → Sim.Post (bmSample logistic q m ((x, pv), p))
      (fun r => r = ((x, pv), { p with bvs := List.replicate p.bvs.length x }))) := by
  have hchain : ∀ g : GibbsState, bmChain logistic q m g = pure g := by
    intro g
    unfold bmChain
    rw [hs]
    simp only
    unfold bmAsynchronous
    rw [show q.numSteps.toNat = 0 by omega]
    rfl
  refine ⟨?_, ?_⟩
  · intro hr bvs hl hn
    unfold bmSample bmReset
    simp only [hr, beq_self_eq_true, if_true, hchain]
    refine ⟨(if 0 < p.bvs.length then (bvs[p.bvs.length - 1]?).getD [] else x, pv), ?_⟩
    have key := Sim.Reaches.forRange (body := fun i (s : GibbsState × Pop K) => do
      let g ← gibbsInit s.1
      let g ← (pure g : Sim GibbsState)
      let bvs ← Sim.lift (vset s.2.bvs i g.1)
      pure (g, { s.2 with bvs := bvs })) (fun i => ((if 0 < i then (bvs[i - 1]?).getD [] else x, pv),
        { p with bvs := bvs.take i ++ p.bvs.drop i })) (Nat.zero_le p.bvs.length) (s := ((x, pv), p)) (by simp) ?_
    · have e : bvs.take p.bvs.length ++ p.bvs.drop p.bvs.length = bvs := by
        rw [List.drop_length, List.append_nil, ← hl, List.take_length]
      rw [e] at key
      exact key
    · intro i _ hi
      have hib : i < bvs.length := by omega
      have hlen : (if 0 < i then (bvs[i - 1]?).getD [] else x).length = (bvs[i]).length := by
        rw [hn _ (List.getElem_mem hib)]
        split
        · rw [List.getElem?_eq_getElem (by omega), Option.getD_some]
          exact hn _ (List.getElem_mem _)
        · rfl
      have hset : (bvs.take i ++ p.bvs.drop i).set i bvs[i] = bvs.take (i + 1) ++ p.bvs.drop (i + 1) := by
        have ht : (bvs.take i).length = i := by simp; omega
        rw [List.set_append_right _ _ (by omega), ht, Nat.sub_self, List.drop_eq_getElem_cons hi, List.set_cons_zero,
          List.take_succ_eq_append_getElem hib, List.append_assoc]
        rfl
      refine Sim.Reaches.bind (a := (bvs[i], pv)) ?_ ?_
      · unfold gibbsInit
        simp only [hlen]
        exact Sim.Reaches.bind (bvRandomBits_any _) (Sim.Reaches.pure _)
      · refine Sim.Reaches.bind (Sim.Reaches.pure _) ?_
        refine Sim.Reaches.bind (Sim.Reaches.lift (vset_eq (by simp; omega))) ?_
        simp only [hset]
        have e : (if 0 < i + 1 then (bvs[i + 1 - 1]?).getD [] else x) = bvs[i] := by
          rw [if_pos (by omega), Nat.add_sub_cancel, List.getElem?_eq_getElem hib, Option.getD_some]
        rw [e]
        exact Sim.Reaches.pure _
  · intro hr
    unfold bmSample bmReset
    have hf : (q.reset == ResetMode.bitVector) = false := by simpa using hr
    simp only [hf, hchain]
    refine (Sim.Post.forRange (I := fun i (r : GibbsState × Pop K) =>
      r = ((x, pv), { p with bvs := List.replicate i x ++ p.bvs.drop i })) (Nat.zero_le _) (by simp) ?_).mono ?_
    · rintro i r _ hi rfl
      have hi : i < p.bvs.length := hi
      refine Sim.Post.bind (P := fun g => g = (x, pv)) (Sim.Post.pure rfl) ?_
      rintro _ rfl
      refine Sim.Post.bind (P := fun g => g = (x, pv)) (Sim.Post.pure rfl) ?_
      rintro _ rfl
      refine Sim.Post.lift_bind (vset_eq (by simp; omega)) ?_
      refine Sim.Post.pure ?_
      have hset : (List.replicate i x ++ p.bvs.drop i).set i x = List.replicate (i + 1) x ++ p.bvs.drop (i + 1) := by
        rw [List.set_append_right _ _ (by simp), List.length_replicate, Nat.sub_self, List.drop_eq_getElem_cons hi,
          List.set_cons_zero, List.replicate_succ', List.append_assoc]
        rfl
      simp only [hset]
    · rintro r rfl
      simp [Pop.size]

/-- C67 (negative part): synchronous sampling with triangular parameters is undefined, unless there is a single bit or no
cycle. -/
theorem bm_synchronous_undefined {q : BmParams} (hs : q.sampling = .synchronous) (hc : 1 ≤ q.numCycles) {n : Nat}
    (hn : 2 ≤ n) {m : Moment} (h : m.Shape false n) (logistic : Rat → Rat) {g : GibbsState} (hg : g.Of n) (ds : List Nat) :
    bmChain logistic q m g ds = .ub := by
  unfold bmChain
  rw [hs]
  show bmSynchronous logistic q.numCycles m g ds = .ub
  unfold bmSynchronous
  obtain ⟨k, hk⟩ : ∃ k, q.numCycles.toNat = k + 1 := ⟨q.numCycles.toNat - 1, by omega⟩
  rw [hk]
  show Sim.bind (gibbsUpdateSync logistic m g.1 g.2) _ ds = .ub
  unfold Sim.bind
  rw [gibbsSync_triangular h hn hg.1 hg.2 logistic ds]

/-! ## The algorithm -/

/-- C50, C67: after any number of iterations of the Boltzmann machine PBIL, the solution is a best evaluated vector; when it
is interrupted, only vectors of the generation under evaluation can be better than the solution; full parameters are
symmetric in both cases. -/
theorem bm_best [LinearOrder K] {env : Env K} {n size : Nat} {val : BV → K} (henv : env.Computes n val)
    {q : BmParams} (hq : q.Sound size) (logistic : Rat → Rat) {s : AlgState K (BmData K)} (hs : s.solution.1.length = n)
    (hcalls : s.calls = []) [Zero K] (hd : bmNew q.full n size = ok s.data) (numIterations : Int) (fuel : Nat) :
    Alg.Holds (bmMaximize env logistic q numIterations fuel) s
      (fun _ t => (q.full = true → t.data.parameters.Symm n) ∧ TrueCalls n val t.calls ∧ BestOf t.calls t.solution)
      (fun t => (TrueCalls n val t.calls ∧ BestExceptLast size t) ∧ (q.full = true → t.data.parameters.Symm n)) := by
  unfold bmNew at hd
  obtain ⟨p, hp, hd⟩ := bind_eq_ok.mp hd
  obtain ⟨parameters, e1, hd⟩ := bind_eq_ok.mp hd
  obtain ⟨all, e2, hd⟩ := bind_eq_ok.mp hd
  obtain ⟨best, e3, hd⟩ := bind_eq_ok.mp hd
  obtain ⟨worst, e4, hd⟩ := bind_eq_ok.mp hd
  obtain ⟨hsize, hn, hp'⟩ := popNew_valid hp
  rw [Int.toNat_natCast, Int.toNat_natCast] at hp'
  have hn : 0 < n := by omega
  have hsize : 0 < size := by omega
  have hnew : ∀ m : Moment, Moment.new q.full n = ok m → m.Shape q.full n ∧ (q.full = true → m.Symm n) := by
    intro m hm
    obtain ⟨m', e, h, h'⟩ := Moment.new_spec (full := q.full) hn
    rw [hm] at e
    cases e
    exact ⟨h.shape, h'⟩
  have hd' := Outcome.ok.inj hd
  refine (algLoop_best_and (BmInv q n size) (fun t => q.full = true → t.data.parameters.Symm n)
    (fun _ _ h => ⟨h.parameters, h.symm, h.population, h.state, h.pv, h.all, h.best, h.worst⟩) ?_ ?_
    numIterations fuel).mono (fun _ t h => ⟨h.1.symm, h.2⟩) (fun _ h => h)
  · intro t ht htc htb
    unfold bmIterate
    obtain ⟨F, G, hFG⟩ := ht.parameters
    refine Alg.Holds.get_bind ?_
    refine Alg.Holds.sim_bind (bmReset_post (n := n) _ ⟨ht.state, ht.pv⟩) (fun g hg => ?_)
    refine Alg.Holds.sim_bind (bmSample_post hn hq hFG ht.symm logistic hg ht.population) ?_
    rintro ⟨g', w⟩ ⟨hg', hw⟩
    refine Alg.Holds.modify_bind ?_
    refine generation_bind (p := w) henv rfl hw hsize ?_ ?_
    · intro k values hk _
      refine ⟨⟨htc.append (evaluated_true (fun x hx => hw.bits x (List.mem_of_mem_take hx))),
        BestExceptLast.of_best htb rfl rfl ?_⟩, ht.symm⟩
      simp [evaluated]
      omega
    · intro w' u hw' _ _ _ hud hst
      have hud' : u.data = { t.data with state := g'.1, pv := g'.2, population := w' } := hud
      obtain ⟨x, hx⟩ := hw'.reads
      have hsel : q.selectionSize = (q.selectionSize.toNat : Int) := by
        have := hq.sel.1
        omega
      have hinv : BmInv q n size u := by
        constructor <;> rw [hud']
        · exact ⟨F, G, hFG⟩
        · exact ht.symm
        · exact hw'
        · exact hg'.1
        · exact hg'.2
        · exact ht.all
        · exact ht.best
        · exact ht.worst
      refine (bmLearn_spec hq hsel hinv (F := F) (G := G) (x := x) (by rw [hud']; exact hFG) (by rw [hud']; exact hx)).mono
        ?_ (fun _ h => h)
      rintro _ _ ⟨v1, _, data, rfl⟩
      exact ⟨v1, _, evaluated_true hw.bits, hst⟩
  · unfold bmInit
    refine Alg.Holds.bind (P := fun _ t => ∃ x : BV, x.length = n ∧
      t = { s with solution := (x, val x), calls := s.calls ++ [(x, val x)] })
      (randomSolution_holds henv hs (fun x hx => ⟨x, hx, rfl⟩) (fun x hx => ⟨⟨?_, ?_⟩, ?_⟩)) ?_
    · simp only [hcalls]; exact TrueCalls.nil
    · exact ⟨[], [], by simp [hcalls], hsize, Or.inl rfl⟩
    · show q.full = true → s.data.parameters.Symm n
      rw [← hd']
      exact (hnew _ e1).2
    · rintro _ _ ⟨x, hx, rfl⟩
      simp only [hcalls, List.nil_append]
      refine Alg.Holds.modify_bind (Alg.Holds.get_bind ?_)
      dsimp only
      rw [← hd']
      refine Alg.Holds.sim_bind (bmReset_post (n := n) true (g := (List.replicate (n : Int).toNat false,
        List.replicate (n : Int).toNat 0)) ⟨by simp, by simp⟩) (fun g hg => ?_)
      refine Alg.Holds.modify ⟨⟨⟨fun _ => 0, fun _ _ => 0, ?_⟩, ?_, hp', hg.1, hg.2, ?_, ?_, ?_⟩,
        TrueCalls.nil.snoc hx, BestOf.single _⟩
      · exact (Moment.init_is (hnew _ e1).1).1
      · exact (Moment.init_is (hnew _ e1).1).2
      · exact (hnew _ e2).1
      · exact (hnew _ e3).1
      · exact (hnew _ e4).1

/-! ## Examples -/

/-- A rational function with the values of a threshold. -/
def exampleLogistic (x : Rat) : Rat := if x < 0 then 0 else if x = 0 then 1 / 2 else 1

example : (BmParams.mk true 1 (1 / 2) 2 1 false .synchronous .noReset).Sound 2 :=
  ⟨by decide, by decide, fun _ => rfl⟩

/-- A chain without steps, reset for each bit vector: the population can become any two bit vectors. -/
example (p : Pop Int) (hp : p.bvs = [[true, true], [true, true]]) :
    ∃ g, Sim.Reaches (bmSample exampleLogistic ⟨true, 1, 1 / 2, 0, 1, false, .asynchronous, .bitVector⟩
      ⟨[0, 0], [[0, 0], [0, 0]]⟩ (([false, true], [0, 0]), p)) (g, { p with bvs := [[true, false], [false, false]] }) :=
  (bm_reset_modes rfl (by decide) _ _ _).1 rfl _ (by rw [hp]; rfl) (by simp)

/-- Two iterations with full moments and synchronous sampling. -/
example : (match (bmNew true 3 2 : Outcome (BmData Int)) with
    | .ok d =>
      match bmMaximize exampleEnv exampleLogistic ⟨true, 1, 1 / 2, 2, 1, true, .synchronous, .noReset⟩ 2 10 (exampleStart d)
        [0, 1, 0, 0, 0, 0, 1, 1, 1, 0, 1, 1, 1, 0, 1, 1, 3, 0, 1, 0, 1, 0, 1, 1, 2, 3, 0, 0, 0, 0, 0, 0, 0, 0] with
      | .ok r _ => some (r.2.solution, r.2.calls.length, r.2.data.parameters)
      | _ => none
    | _ => none) = some (([true, false, true], 2), 5, ⟨[-1, 1, -1], [[0, 0, 0], [0, 0, 0], [0, 0, 0]]⟩) := by
  decide +kernel

end Hnco
