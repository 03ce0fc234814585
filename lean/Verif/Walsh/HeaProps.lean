import Verif.Walsh.HerdingProps

/-! # C50, C67: the herding evolutionary algorithm -/

namespace Hnco

open Outcome

variable {K : Type}

/-! ## Specification -/

/-- Bounding of an entry, if enabled. -/
def heaClip (q : HeaParams) (x : Rat) : Rat := if q.boundMoment then max (q.margin - 1) (min (1 - q.margin) x) else x

/-- The largest absolute value of an entry of the target moment. -/
def heaLimit (q : HeaParams) : Rat := if q.boundMoment then 1 - q.margin else 1

/-- Parameters with which the algorithm is defined. -/
structure HeaParams.Sound (q : HeaParams) (size : Nat) : Prop where
  sel : 1 ≤ q.selectionSize ∧ q.selectionSize ≤ size
  rate : 0 ≤ q.rate ∧ q.rate ≤ 1
  margin : q.boundMoment = true → 0 ≤ q.margin ∧ q.margin < 1

/-- The invariant. -/
structure HeaInv (q : HeaParams) (n size : Nat) (s : AlgState K (HeaData K)) : Prop where
  target : ∃ F G, s.data.target.Is q.full n F G
  range : s.data.target.InRange n (-heaLimit q) (heaLimit q)
  selection : s.data.selection.Shape q.full n
  population : s.data.population.Valid size n
  herding : ∃ ys, s.data.herding.After q.full n ys

/-! ## Sums over the individuals -/

theorem addBest_spec [LinearOrder K] {full : Bool} {p : Pop K} {size n sel : Nat} (hp : p.Valid size n)
    (h2 : sel ≤ size) {x : Nat → BV} (hx : ∀ k, k < size → p.bestBv k = ok (x k)) {m : Moment} (hm : m.Shape full n) :
    (addBest (sel : Int) p m).Returns (fun r => r.Is full n (sumFirst ((List.range sel).map x))
      (sumSecond ((List.range sel).map x))) := by
  unfold addBest
  rw [Int.toNat_natCast]
  refine forRange_returns (fun k (r : Moment) => r.Is full n (sumFirst ((List.range k).map x))
    (sumSecond ((List.range k).map x))) (Nat.zero_le _) ?_ ?_
  · exact (Moment.init_is hm).1.congr (fun i _ => by simp [sumFirst]) (fun i j _ _ => by simp [sumSecond])
  · intro k r _ hk hr
    rw [hx k (by omega), ok_bind]
    refine (Moment.add_spec hr (bestBv_length hp (by omega) (hx k (by omega)))).mono ?_
    intro u hu
    exact hu.congr (fun i _ => by simp [sumFirst, List.range_succ]) (fun i j _ _ => by simp [sumSecond, List.range_succ])

theorem selected_ne_nil {sel : Nat} (h : 1 ≤ sel) (x : Nat → BV) : (List.range sel).map x ≠ [] := by
  intro e
  have := congrArg List.length e
  simp at this
  omega

/-! ## Learning -/

/-- C67: the target moment moves by the learning rate towards the mean moment of the `sel` best individuals, and its entries
are then clamped. -/
theorem heaLearn_spec [LinearOrder K] {q : HeaParams} {n size sel : Nat} (hq : q.Sound size) (hsel : q.selectionSize = sel)
    {s : AlgState K (HeaData K)} {F : Nat → Rat} {G : Nat → Nat → Rat} (ht : s.data.target.Is q.full n F G)
    (hr : s.data.target.InRange n (-heaLimit q) (heaLimit q)) (hs : s.data.selection.Shape q.full n)
    (hp : s.data.population.Valid size n) {x : Nat → BV}
    (hx : ∀ k, k < size → s.data.population.bestBv k = ok (x k)) {E : AlgState K (HeaData K) → Prop} :
    Alg.Holds (heaLearn q) s (fun _ t =>
      (t.data.target.Is q.full n
        (fun i => heaClip q ((1 - q.rate) * F i + q.rate * meanOver ((List.range sel).map x) (fun y => signAt y i)))
        (fun i j => heaClip q ((1 - q.rate) * G i j +
          q.rate * meanOver ((List.range sel).map x) (fun y => signAt y i * signAt y j))) ∧
      t.data.target.InRange n (-heaLimit q) (heaLimit q)) ∧ t.data.selection.Shape q.full n ∧
      ∃ target selection, t = { s with data := { s.data with
        target := target, selection := selection, iteration := s.data.iteration + 1 } }) E := by
  obtain ⟨⟨s1, s2⟩, ⟨r1, r2⟩, hmar⟩ := hq
  have hsel1 : 1 ≤ sel := by omega
  have hsel2 : sel ≤ size := by omega
  unfold heaLearn
  rw [hsel]
  refine Alg.Holds.get_bind (Alg.Holds.returns_bind (addBest_spec hp hsel2 hx hs) ?_)
  intro m1 hm1
  have hne := selected_ne_nil hsel1 x
  have havg : (heaAverage q m1).Returns (fun r => r.IsMean q.full n ((List.range sel).map x)) := by
    unfold heaAverage
    split
    · refine (Moment.average_mean hne (by simp [hsel]) hm1).mono (fun r h => h.1)
    · obtain rfl : sel = 1 := by omega
      exact returns_ok.mpr (hm1.congr (fun i _ => by simp [sumFirst, meanOver]) (fun i j _ _ => by simp [sumSecond, meanOver]))
  refine Alg.Holds.returns_bind havg ?_
  intro m2 hm2
  have hlim : heaLimit q ≤ 1 := by
    unfold heaLimit
    split
    · rename_i hb
      linarith [(hmar hb).1]
    · exact le_refl _
  have hrange : s.data.target.InRange n (-1) 1 := by
    refine ht.inRange.mpr ?_
    obtain ⟨a, b⟩ := ht.inRange.mp hr
    exact ⟨fun i hi => ⟨by linarith [(a i hi).1], by linarith [(a i hi).2]⟩,
      fun i j hi hj => ⟨by linarith [(b i j hi hj).1], by linarith [(b i j hi hj).2]⟩⟩
  refine Alg.Holds.returns_bind (moment_update ht hm2 hrange (hm2.inRange hne) r1 r2) ?_
  rintro m3 ⟨hm3, hr3, _⟩
  have hbound : (heaBound q m3).Returns (fun r => r.Is q.full n
      (fun i => heaClip q ((1 - q.rate) * F i + q.rate * meanOver ((List.range sel).map x) (fun y => signAt y i)))
      (fun i j => heaClip q ((1 - q.rate) * G i j +
        q.rate * meanOver ((List.range sel).map x) (fun y => signAt y i * signAt y j))) ∧
      r.InRange n (-heaLimit q) (heaLimit q)) := by
    unfold heaBound heaClip heaLimit
    cases hb : q.boundMoment with
    | true =>
      simp only [if_true]
      obtain ⟨g0, g1⟩ := hmar hb
      refine (moment_bound hm3 g0 g1).mono ?_
      rintro r ⟨k1, k2, _⟩
      exact ⟨k1, by rw [neg_sub]; exact k2⟩
    | false =>
      simp only [Bool.false_eq_true, if_false]
      exact returns_ok.mpr ⟨hm3, hr3⟩
  refine Alg.Holds.returns_bind hbound ?_
  intro m4 hm4
  exact Alg.Holds.modify ⟨hm4, hm2.shape, m4, m2, rfl⟩

/-- C67 (negative part): with a single bit and the default parameters, the bounding of the target moment is undefined. -/
theorem hea_single_undefined (full : Bool) (m : Moment) : heaBound (heaDefault full 1) m = ub := by
  have : heaBound (heaDefault full 1) m = m.bound full 1 := by
    unfold heaBound heaDefault
    simp
  rw [this]
  exact moment_bound_one full m

/-- The default parameters are sound if there are at least two bits. -/
theorem heaDefault_sound (full : Bool) {n size : Nat} (hn : 2 ≤ n) (hsize : 1 ≤ size) : (heaDefault full n).Sound size := by
  obtain ⟨h1, h2⟩ := pv_margins hn
  refine ⟨⟨le_refl _, ?_⟩, ⟨?_, ?_⟩, fun _ => ⟨le_of_lt h1, ?_⟩⟩
  · show (1 : Int) ≤ size
    omega
  · show (0 : Rat) ≤ 1 / 10000
    norm_num
  · show (1 / 10000 : Rat) ≤ 1
    norm_num
  · show 1 / (n : Rat) < 1
    linarith

/-! ## The algorithm -/

theorem heaSample_post {q : HeaParams} {n size : Nat} {target : Moment} {F : Nat → Rat} {G : Nat → Nat → Rat}
    [LinearOrder K] (ht : target.Is q.full n F G) {h : Herding} {p : Pop K} (hh : ∃ ys, h.After q.full n ys)
    (hp : p.Valid size n) : Sim.Post (heaSample q target (h, p)) (fun r => (∃ ys, r.1.After q.full n ys) ∧ r.2.Valid size n) := by
  unfold heaSample
  refine Sim.Post.forRange (I := fun _ (r : Herding × Pop K) => (∃ ys, r.1.After q.full n ys) ∧ r.2.Valid size n)
    (Nat.zero_le _) ⟨hh, hp⟩ ?_
  rintro i ⟨h, w⟩ _ hi ⟨⟨ys, h1⟩, h2⟩
  have hiw : i < w.bvs.length := by rw [h2.bvs, ← hp.bvs]; exact hi
  refine Sim.Post.lift_bind (vget_eq hiw) ?_
  refine (herding_sample ht h1 (h2.bits _ (List.getElem_mem hiw))).bind ?_
  rintro r ⟨r1, r2, _⟩
  refine Sim.Post.lift_bind (vset_eq hiw) (Sim.Post.pure ⟨⟨_, r2⟩, h2.setBv i r1⟩)

/-- C50, C67: after any number of iterations of the herding evolutionary algorithm, the solution is a best evaluated
vector and the target moment is within the limits; when it is interrupted, only vectors of the generation under evaluation
can be better than the solution. -/
theorem hea_best [LinearOrder K] {env : Env K} {n size : Nat} {val : BV → K} (henv : env.Computes n val)
    {q : HeaParams} (hq : q.Sound size) {s : AlgState K (HeaData K)} (hs : s.solution.1.length = n) (hcalls : s.calls = [])
    [Zero K] (hd : heaNew q.full n size = ok s.data) (numIterations : Int) (fuel : Nat) :
    Alg.Holds (heaMaximize env q numIterations fuel) s
      (fun _ t => t.data.target.InRange n (-heaLimit q) (heaLimit q) ∧ TrueCalls n val t.calls ∧ BestOf t.calls t.solution)
      (fun t => (TrueCalls n val t.calls ∧ BestExceptLast size t) ∧
        t.data.target.InRange n (-heaLimit q) (heaLimit q)) := by
  unfold heaNew at hd
  obtain ⟨target, e1, hd⟩ := bind_eq_ok.mp hd
  obtain ⟨selection, e2, hd⟩ := bind_eq_ok.mp hd
  obtain ⟨p, hp, hd⟩ := bind_eq_ok.mp hd
  obtain ⟨herding, e4, hd⟩ := bind_eq_ok.mp hd
  obtain ⟨hsize, hn, hp'⟩ := popNew_valid hp
  rw [Int.toNat_natCast, Int.toNat_natCast] at hp'
  have hn : 0 < n := by omega
  have hsize : 0 < size := by omega
  have hlim : 0 ≤ heaLimit q := by
    unfold heaLimit
    split
    · rename_i hb
      linarith [(hq.margin hb).2]
    · norm_num
  have hnew : ∀ m : Moment, Moment.new q.full n = ok m → m.Is q.full n (fun _ => 0) (fun _ _ => 0) := by
    intro m hm
    obtain ⟨m', e, h, _⟩ := Moment.new_spec (full := q.full) hn
    rw [hm] at e
    cases e
    exact h
  have hzero : ∀ m : Moment, m.Is q.full n (fun _ => 0) (fun _ _ => 0) → m.InRange n (-heaLimit q) (heaLimit q) :=
    fun m hm => hm.inRange.mpr ⟨fun _ _ => ⟨by linarith, hlim⟩, fun _ _ _ _ => ⟨by linarith, hlim⟩⟩
  unfold Herding.new at e4
  obtain ⟨delta, e5, e4⟩ := bind_eq_ok.mp e4
  obtain ⟨count, e6, e4⟩ := bind_eq_ok.mp e4
  cases e4
  have hd' := Outcome.ok.inj hd
  refine (algLoop_best_and (HeaInv q n size) (fun t => t.data.target.InRange n (-heaLimit q) (heaLimit q))
    (fun _ _ h => ⟨h.target, h.range, h.selection, h.population, h.herding⟩) ?_ ?_
    numIterations fuel).mono (fun _ t h => ⟨h.1.range, h.2⟩) (fun _ h => h)
  · intro t ht htc htb
    unfold heaIterate
    have hreset : ∃ ys, (heaReset q t.data).herding.After q.full n ys := by
      unfold heaReset
      obtain ⟨ys, hys⟩ := ht.herding
      split
      · exact ⟨[], Herding.init_after hys.delta hys.count.shape (by rw [hys.perm.length_eq, List.length_range])⟩
      · exact ⟨ys, hys⟩
    have htar : (heaReset q t.data).target = t.data.target ∧ (heaReset q t.data).population = t.data.population ∧
        (heaReset q t.data).selection = t.data.selection := by
      unfold heaReset
      split <;> exact ⟨rfl, rfl, rfl⟩
    refine Alg.Holds.modify_bind (Alg.Holds.get_bind ?_)
    obtain ⟨F, G, hFG⟩ := ht.target
    dsimp only
    rw [htar.1, htar.2.1]
    refine Alg.Holds.sim_bind (heaSample_post hFG hreset ht.population) ?_
    rintro ⟨h, w⟩ ⟨hh, hw⟩
    refine Alg.Holds.modify_bind ?_
    refine generation_bind (p := w) henv rfl hw hsize ?_ ?_
    · intro k values hk _
      refine ⟨⟨htc.append (evaluated_true (fun x hx => hw.bits x (List.mem_of_mem_take hx))),
        BestExceptLast.of_best htb rfl rfl ?_⟩, ?_⟩
      · simp [evaluated]
        omega
      · show (heaReset q t.data).target.InRange n (-heaLimit q) (heaLimit q)
        rw [htar.1]
        exact ht.range
    · intro w' u hw' _ _ _ hud hst
      have hud' : u.data = { heaReset q t.data with herding := h, population := w' } := hud
      obtain ⟨x, hx⟩ := hw'.reads
      have hsel : q.selectionSize = (q.selectionSize.toNat : Int) := by
        have := hq.sel.1
        omega
      refine (heaLearn_spec hq hsel (F := F) (G := G) (x := x) (by rw [hud']; exact htar.1 ▸ hFG)
        (by rw [hud']; exact htar.1 ▸ ht.range) (by rw [hud']; exact htar.2.2 ▸ ht.selection) (by rw [hud']; exact hw')
        (by rw [hud']; exact hx)).mono ?_ (fun _ h => h)
      rintro _ v ⟨⟨v1, v2⟩, v3, target', selection', rfl⟩
      refine ⟨⟨⟨_, _, v1⟩, v2, v3, ?_, ?_⟩, _, evaluated_true hw.bits, hst⟩
      · show u.data.population.Valid size n
        rw [hud']; exact hw'
      · show ∃ ys, u.data.herding.After q.full n ys
        rw [hud']; exact hh
  · unfold heaInit
    refine Alg.Holds.bind (P := fun _ t => ∃ x : BV, x.length = n ∧
      t = { s with solution := (x, val x), calls := s.calls ++ [(x, val x)] })
      (randomSolution_holds henv hs (fun x hx => ⟨x, hx, rfl⟩) (fun x hx => ⟨⟨?_, ?_⟩, ?_⟩)) ?_
    · simp only [hcalls]; exact TrueCalls.nil
    · exact ⟨[], [], by simp [hcalls], hsize, Or.inl rfl⟩
    · show s.data.target.InRange n _ _
      rw [← hd']
      exact hzero _ (hnew _ e1)
    · rintro _ _ ⟨x, hx, rfl⟩
      simp only [hcalls, List.nil_append]
      refine Alg.Holds.modify ⟨⟨⟨fun _ => 0, fun _ _ => 0, ?_⟩, ?_, ?_, ?_, [], ?_⟩, TrueCalls.nil.snoc hx, BestOf.single _⟩
      · show s.data.target.init.Is _ _ _ _
        rw [← hd']
        exact (Moment.init_is (hnew _ e1).shape).1
      · show s.data.target.init.InRange _ _ _
        rw [← hd']
        exact hzero _ (Moment.init_is (hnew _ e1).shape).1
      · show s.data.selection.Shape _ _
        rw [← hd']
        exact (hnew _ e2).shape
      · show s.data.population.Valid _ _
        rw [← hd']
        exact hp'
      · show s.data.herding.init.After _ _ _
        rw [← hd']
        exact Herding.init_after (hnew _ e5).shape (hnew _ e6).shape (by simp)

/-! ## Examples -/

/-- Two iterations with triangular moments, rate 1/2 and margin 1/3. -/
example : (match (heaNew false 3 2 : Outcome (HeaData Int)) with
    | .ok d =>
      match heaMaximize exampleEnv ⟨false, 1 / 3, 1, 0, 1 / 2, true, false⟩ 2 10 (exampleStart d) [0, 1, 0, 0, 0, 0, 0] with
      | .ok r _ => some (r.2.solution, r.2.calls.length, r.2.data.target)
      | _ => none
    | _ => none) = some (([true, true, true], 3), 5, ⟨[-2 / 3, -2 / 3, -2 / 3], [[], [2 / 3], [2 / 3, 2 / 3]]⟩) := by
  decide +kernel

example : (heaDefault true 3).Sound 2 := heaDefault_sound true (by omega) (by omega)

end Hnco
