import Verif.Multiobjective.Application
import Verif.Multiobjective.Nsga2Props
import Verif.Representation.AdapterProps
import Verif.Function.Spec

/-! # C77: scalarization and the multiobjective application -/

namespace Hnco

open Outcome

/-! ## Specification -/

/-- No bit vector of size `n` has objectives which dominate those of `x`. -/
def ParetoOptimal (n : Nat) (f : BV → Outcome MoValue) (x : BV) : Prop :=
  ∀ (y : BV) (v w : MoValue), y.length = n → f x = ok v → f y = ok w → ¬ Dominates w v

/-- `x` is a maximum of a function. -/
def Maximizes (n : Nat) (eval : BV → Outcome Rat) (x : BV) : Prop :=
  ∃ m, IsMaximum n eval m ∧ x.length = n ∧ eval x = ok m

/-- All the values of a vector function of size `n` have `m` components. -/
def HasObjectives {D : Type} (n m : Nat) (f : BV → Outcome (List D)) : Prop :=
  ∀ x : BV, x.length = n → ∃ v, f x = ok v ∧ v.length = m

/-! ## Sums -/

theorem sum_le_of_le : ∀ {a b : MoValue}, a.length = b.length →
    (∀ (i : Nat) x y, a[i]? = some x → b[i]? = some y → x ≤ y) → a.sum ≤ b.sum
  | [], [], _, _ => le_refl _
  | x :: a, y :: b, hl, h => by
    have h1 := h 0 x y rfl rfl
    have h2 := sum_le_of_le (a := a) (b := b) (by simpa using hl) (fun i => h (i + 1))
    rw [List.sum_cons, List.sum_cons]
    exact add_le_add h1 h2

theorem sum_lt_of_dominates : ∀ {a b : MoValue}, a.length = b.length → Dominates a b → a.sum < b.sum
  | [], [], _, ⟨_, i, x, y, h, _⟩ => by simp at h
  | x :: a, y :: b, hl, ⟨h, i, u, v, hu, hv, huv⟩ => by
    have hl' : a.length = b.length := by simpa using hl
    rw [List.sum_cons, List.sum_cons]
    cases i with
    | zero =>
      obtain rfl : x = u := by simpa using hu
      obtain rfl : y = v := by simpa using hv
      exact add_lt_add_of_lt_of_le huv (sum_le_of_le hl' (fun i => h (i + 1)))
    | succ i =>
      exact add_lt_add_of_le_of_lt (h 0 x y rfl rfl)
        (sum_lt_of_dominates hl' ⟨fun i => h (i + 1), i, u, v, by simpa using hu, by simpa using hv, huv⟩)

theorem sumFunction_eval {n : Nat} {f : BV → Outcome MoValue} {x : BV} {v : MoValue} (h : f x = ok v) :
    (sumFunction n f).eval x = ok v.sum := multiobjectiveAdapterEvaluate_spec f h

/-- C77: if the objectives of a bit vector dominate those of another one, then the function which adds the objectives is less at
the former. -/
theorem sum_monotone {n m : Nat} {f : BV → Outcome MoValue} (hf : HasObjectives n m f) {x y : BV} (hx : x.length = n)
    (hy : y.length = n) {v w : MoValue} (hv : f x = ok v) (hw : f y = ok w) (hd : Dominates v w) :
    ∃ a b, (sumFunction n f).eval x = ok a ∧ (sumFunction n f).eval y = ok b ∧ a < b := by
  obtain ⟨v', e1, l1⟩ := hf x hx
  obtain ⟨w', e2, l2⟩ := hf y hy
  rw [hv] at e1
  rw [hw] at e2
  cases e1
  cases e2
  exact ⟨_, _, sumFunction_eval hv, sumFunction_eval hw, sum_lt_of_dominates (by omega) hd⟩

/-- C77: a maximum of the *opposite* of the sum of the objectives is a Pareto optimum. -/
theorem opposite_sum_pareto {n m : Nat} {f : BV → Outcome MoValue} (hf : HasObjectives n m f) {x : BV}
    (hx : Maximizes n (opposite (sumFunction n f)).eval x) : ParetoOptimal n f x := by
  obtain ⟨M, ⟨hM, _⟩, hl, he⟩ := hx
  intro y v w hy hv hw hd
  obtain ⟨a, b, ha, hb, hab⟩ := sum_monotone hf hy hl hw hv hd
  obtain ⟨u, hu, hle⟩ := hM y hy
  simp only [opposite] at hu he
  rw [ha] at hu
  rw [hb] at he
  have e1 : -a = u := Outcome.ok.inj hu
  have e2 : -b = M := Outcome.ok.inj he
  rw [← e1, ← e2] at hle
  linarith

/-- C77: a maximum of the sum of the objectives dominates no bit vector. -/
theorem sum_maximum_dominates_nothing {n m : Nat} {f : BV → Outcome MoValue} (hf : HasObjectives n m f) {x : BV}
    (hx : Maximizes n (sumFunction n f).eval x) :
    ∀ (y : BV) (v w : MoValue), y.length = n → f x = ok v → f y = ok w → ¬ Dominates v w := by
  obtain ⟨M, ⟨hM, _⟩, hl, he⟩ := hx
  intro y v w hy hv hw hd
  obtain ⟨a, b, ha, hb, hab⟩ := sum_monotone hf hl hy hv hw hd
  obtain ⟨u, hu, hle⟩ := hM y hy
  rw [hb] at hu
  rw [ha] at he
  cases hu
  cases he
  linarith

/-- Two objectives, equal to the number of ones. -/
def countTwice (x : BV) : Outcome MoValue := ok [((x.filter id).length : Rat), ((x.filter id).length : Rat)]

/-- C77 (negative part): the application `hnco` maximizes the sum of the objectives which `hnco-mo` minimizes: the maximum can be
dominated by all the other bit vectors. -/
theorem sum_maximum_dominated (n : Nat) (hn : 0 < n) :
    HasObjectives n 2 countTwice ∧ Maximizes n (sumFunction n countTwice).eval (List.replicate n true) ∧
      ∀ (y : BV) (v w : MoValue), y.length = n → y ≠ List.replicate n true → countTwice (List.replicate n true) = ok v →
        countTwice y = ok w → Dominates w v := by
  have hcount : ∀ y : BV, y.length = n → (y.filter id).length ≤ n := fun y hy => hy ▸ List.length_filter_le _ _
  have hone : ((List.replicate n true).filter id).length = n := by simp
  refine ⟨fun x _ => ⟨_, rfl, rfl⟩, ⟨(n : Rat) + n, ⟨?_, List.replicate n true, by simp, ?_⟩, by simp, ?_⟩, ?_⟩
  · intro y hy
    refine ⟨_, sumFunction_eval rfl, ?_⟩
    have : ((y.filter id).length : Rat) ≤ n := by exact_mod_cast hcount y hy
    simp only [List.sum_cons, List.sum_nil]
    linarith
  · rw [sumFunction_eval rfl, hone]
    simp
  · rw [sumFunction_eval rfl, hone]
    simp
  · intro y v w hy hne hv hw
    cases hv
    cases hw
    have hlt : (y.filter id).length < n := by
      rcases Nat.lt_or_ge (y.filter id).length n with h | h
      · exact h
      · exfalso
        apply hne
        have h1 : (y.filter id).length = y.length := by
          have := hcount y hy
          omega
        rw [List.length_filter_eq_length_iff] at h1
        exact List.eq_replicate_iff.mpr ⟨hy, h1⟩
    have hlt' : ((y.filter id).length : Rat) < n := by exact_mod_cast hlt
    rw [hone]
    refine ⟨?_, 0, _, _, rfl, rfl, hlt'⟩
    intro i a b ha hb
    match i, ha, hb with
    | 0, ha, hb => cases ha; cases hb; exact hlt'.le
    | 1, ha, hb => cases ha; cases hb; exact hlt'.le

/-! ## Systems of equations -/

theorem sum_map_neg {D : Type} (c : D → Rat) (ys : List D) : (ys.map (fun y => -c y)).sum = -(ys.map c).sum := by
  induction ys with
  | nil => simp
  | cons y ys ih =>
    simp only [List.map_cons, List.sum_cons, ih]
    ring

theorem sum_zero_iff {D : Type} {c : D → Rat} (hc : ∀ y, 0 ≤ c y) : ∀ ys : List D,
    0 ≤ (ys.map c).sum ∧ ((ys.map c).sum = 0 ↔ ∀ y ∈ ys, c y = 0)
  | [] => by simp
  | y :: ys => by
    obtain ⟨h1, h2⟩ := sum_zero_iff hc ys
    have h3 := hc y
    simp only [List.map_cons, List.sum_cons, List.forall_mem_cons]
    refine ⟨add_nonneg h3 h1, ?_⟩
    constructor
    · intro h
      have e : c y = 0 := by linarith
      exact ⟨e, h2.mp (by linarith)⟩
    · rintro ⟨e, h⟩
      rw [e, h2.mpr h, add_zero]

/-- What the functions 530 to 534 of both applications have in common: `c` is the absolute value or the squared magnitude. -/
theorem equations_spec {D : Type} {c : D → Rat} (hc : ∀ y, 0 ≤ c y) {n m : Nat} {e : BV → Outcome (List D)}
    (he : HasObjectives n m e) {x : BV} :
    (∀ ys, e x = ok ys → ∃ s, (sumFunction n (converted (fun y => -c y) e)).eval x = ok s ∧ s ≤ 0 ∧ (s = 0 ↔ ∀ y ∈ ys, c y = 0)) ∧
    (Maximizes n (sumFunction n (converted (fun y => -c y) e)).eval x → ParetoOptimal n (converted c e) x) := by
  refine ⟨?_, ?_⟩
  · intro ys hys
    have h : converted (fun y => -c y) e x = ok (ys.map (fun y => -c y)) := by unfold converted; rw [hys, ok_bind]
    refine ⟨_, sumFunction_eval h, ?_⟩
    rw [sum_map_neg]
    obtain ⟨h1, h2⟩ := sum_zero_iff hc ys
    refine ⟨by linarith, ?_⟩
    rw [neg_eq_zero]
    exact h2
  · rintro ⟨M, ⟨hM, _⟩, hl, hv⟩ y v w hy hx hw hd
    obtain ⟨ys, hys, l1⟩ := he x hl
    obtain ⟨zs, hzs, l2⟩ := he y hy
    have e1 : v = ys.map c := by
      unfold converted at hx
      rw [hys, ok_bind] at hx
      exact (Outcome.ok.inj hx).symm
    have e2 : w = zs.map c := by
      unfold converted at hw
      rw [hzs, ok_bind] at hw
      exact (Outcome.ok.inj hw).symm
    have h1 : converted (fun y => -c y) e x = ok (ys.map (fun y => -c y)) := by unfold converted; rw [hys, ok_bind]
    have h2 : converted (fun y => -c y) e y = ok (zs.map (fun y => -c y)) := by unfold converted; rw [hzs, ok_bind]
    obtain ⟨u, hu, hle⟩ := hM y hy
    rw [sumFunction_eval h2, sum_map_neg] at hu
    rw [sumFunction_eval h1, sum_map_neg] at hv
    have e3 := Outcome.ok.inj hu
    have e4 := Outcome.ok.inj hv
    subst e1 e2
    have := sum_lt_of_dominates (by simp [l1, l2]) hd
    rw [← e3, ← e4] at hle
    linarith

/-- C77: with opposite absolute values, the function of `hnco` is at most zero, is zero exactly where all the expressions vanish,
and its maxima are Pareto optima of the function of `hnco-mo`, which has the absolute values as objectives. -/
theorem absolute_equations {n m : Nat} {e : BV → Outcome (List Rat)} (he : HasObjectives n m e) {x : BV} :
    (∀ ys, e x = ok ys → ∃ s, (sumFunction n (converted oppositeAbsoluteValue e)).eval x = ok s ∧ s ≤ 0 ∧ (s = 0 ↔ ∀ y ∈ ys, y = 0)) ∧
    (Maximizes n (sumFunction n (converted oppositeAbsoluteValue e)).eval x → ParetoOptimal n (converted absoluteValue e) x) := by
  have h := equations_spec (c := absoluteValue) (fun y => abs_nonneg y) he (x := x)
  refine ⟨fun ys hys => ?_, h.2⟩
  obtain ⟨s, h1, h2, h3⟩ := h.1 ys hys
  refine ⟨s, h1, h2, h3.trans ?_⟩
  simp only [absoluteValue, abs_eq_zero]

/-- C77: the same with squared magnitudes of complex numbers. -/
theorem complex_equations {n m : Nat} {e : BV → Outcome (List (Rat × Rat))} (he : HasObjectives n m e) {x : BV} :
    (∀ ys, e x = ok ys →
      ∃ s, (sumFunction n (converted oppositeSquaredMagnitude e)).eval x = ok s ∧ s ≤ 0 ∧ (s = 0 ↔ ∀ y ∈ ys, y = (0, 0))) ∧
    (Maximizes n (sumFunction n (converted oppositeSquaredMagnitude e)).eval x → ParetoOptimal n (converted squaredMagnitude e) x) := by
  have h := equations_spec (c := squaredMagnitude) (fun y => add_nonneg (mul_self_nonneg _) (mul_self_nonneg _)) he (x := x)
  refine ⟨fun ys hys => ?_, h.2⟩
  obtain ⟨s, h1, h2, h3⟩ := h.1 ys hys
  refine ⟨s, h1, h2, h3.trans ?_⟩
  refine forall_congr' (fun y => imp_congr_right (fun _ => ?_))
  unfold squaredMagnitude
  rw [mul_self_add_mul_self_eq_zero, Prod.ext_iff]

/-! ## Application -/

theorem moPrint_all {solutions : MoPop} {size n m : Nat} (hs : solutions.Valid size n m) {fronts : List Nat}
    (hl : fronts.length = size) :
    ∃ out, forRange 0 solutions.bvs.length (moPrint fronts solutions) [] = ok out ∧
      ((∀ i, i < size → fronts[i]? = some 0) → out = solutions.bvs.zip solutions.values) := by
  have key : (forRange 0 solutions.bvs.length (moPrint fronts solutions) []).Returns (fun out =>
      (∀ i, i < solutions.bvs.length → fronts[i]? = some 0) → out = (solutions.bvs.zip solutions.values).take solutions.bvs.length) := by
    refine forRange_returns (I := fun k (out : List (BV × MoValue)) => (∀ i, i < k → fronts[i]? = some 0) →
      out = (solutions.bvs.zip solutions.values).take k) (Nat.zero_le _) (by simp) ?_
    intro k out _ hk h
    have hk1 : k < fronts.length := by rw [hl, ← hs.bvs]; exact hk
    have hk2 : k < solutions.values.length := by rw [hs.values, ← hs.bvs]; exact hk
    unfold moPrint
    rw [vget_eq hk1, ok_bind]
    by_cases h0 : fronts[k] = 0
    · rw [if_pos h0, vget_eq hk2, ok_bind, vget_eq hk, ok_bind, returns_ok]
      intro hall
      rw [h (fun i hi => hall i (by omega)), List.take_succ_eq_append_getElem (by simp; omega), List.getElem_zip]
    · rw [if_neg h0, returns_ok]
      intro hall
      have := hall k (by omega)
      rw [List.getElem?_eq_getElem hk1] at this
      exact absurd (Option.some.inj this) h0
  obtain ⟨out, h1, h2⟩ := key
  refine ⟨out, h1, fun hall => ?_⟩
  rw [h2 (fun i hi => hall i (by rw [← hs.bvs]; exact hi)), List.take_of_length_le (by simp)]

/-- C77: the application prints at least one individual; the individuals it prints are the members of the final population which
no member of this population dominates, with their objectives, and no other ones. -/
theorem moRun_spec {f : BV → Outcome MoValue} {val : BV → MoValue} {n m : Nat} (hn : 0 < n) (hm : 0 < m) (hf : MoComputes n m f val)
    {o : MoOptions} (ha : o.algorithm = 100) (ht1 : 2 ≤ o.tournamentSize) (ht2 : o.tournamentSize < o.eaMu) {fuel : Nat}
    (hfuel : 2 * o.eaMu ≤ fuel) :
    Sim.Post (moRun o f n m fuel) (fun r => r.1 ≠ [] ∧ r.2.parents.Valid o.eaMu.toNat n m ∧
      (∀ x v, (x, v) ∈ r.1 ↔ ∃ i : Nat, r.2.parents.At i x v ∧ ∀ j, ¬ Beats r.2.parents.values j i) ∧
      (∀ x v, (x, v) ∈ r.1 → x.length = n ∧ f x = ok v) ∧
      ∀ x v y w, (x, v) ∈ r.1 → (y, w) ∈ r.1 → ¬ Dominates w v) := by
  obtain ⟨size, hsize⟩ := Int.eq_ofNat_of_zero_le (a := o.eaMu) (by omega)
  obtain ⟨s, h1, h2, h3⟩ := nsga2New_valid (size := size) (n := n) (m := m) (by omega) hn hm ⟨false, false⟩
  unfold moRun
  refine Sim.Post.lift_bind (a := (s, ⟨o.tournamentSize, o.belowSqrt, o.allowNoMutation⟩)) ?_ ?_
  · unfold moMakeAlgorithm
    rw [if_pos ha, hsize]
    change (nsga2New n m size _ >>= _) = _
    rw [h1, ok_bind]
  · refine (nsga2_run hf (q := ⟨o.tournamentSize, o.belowSqrt, o.allowNoMutation⟩) ht1 (by simp only; omega) (by omega) h2 h3
      o.numIterations).bind ?_
    rintro t ⟨g1, g2, g3, g4, g5⟩
    have hcov := paretoSet_covers g1.objectives (by rw [g1.bvs, g1.values]) g5
    obtain ⟨kept, hk1, hk2, hk3, hk4, hk5⟩ := g5
    have hat : ∀ j, j < kept.length → ∃ x v, t.solutions.At j x v := fun j hj =>
      ⟨t.solutions.bvs[j]'(by omega), t.solutions.values[j]'(by omega), by simp, by simp⟩
    have hval : t.solutions.Valid kept.length n m := by
      refine ⟨hk3, hk4, ?_, ?_⟩
      · intro x hx
        obtain ⟨j, hj⟩ := List.mem_iff_getElem?.mp hx
        have hjl : j < kept.length := by rw [← hk3]; exact (List.getElem?_eq_some_iff.mp hj).1
        obtain ⟨x', v, hxv⟩ := hat j hjl
        rw [hxv.1] at hj
        cases hj
        have := (hk5 j kept[j] (by simp) x v).mp hxv
        exact g1.bits x (List.mem_of_getElem? this.1)
      · intro v hv
        obtain ⟨j, hj⟩ := List.mem_iff_getElem?.mp hv
        have hjl : j < kept.length := by rw [← hk4]; exact (List.getElem?_eq_some_iff.mp hj).1
        obtain ⟨x, v', hxv⟩ := hat j hjl
        rw [hxv.2] at hj
        cases hj
        have := (hk5 j kept[j] (by simp) x v).mp hxv
        exact g1.objectives v (List.mem_of_getElem? this.2)
    have hle : kept.length ≤ size := by
      have hsub : kept ⊆ List.range size := fun i hi => by
        rw [List.mem_range, ← g1.values]
        exact ((hk2 i).mp hi).1
      have hnd : kept.Nodup := hk1.imp (fun h => Nat.ne_of_lt h)
      simpa using (hnd.subperm hsub).length_le
    have hnone : ∀ i j, ¬ Beats t.solutions.values j i := by
      rintro i j ⟨a, b, h4, h5, hd⟩
      have hj : j < kept.length := by rw [← hk4]; exact (List.getElem?_eq_some_iff.mp h4).1
      have hi : i < kept.length := by rw [← hk4]; exact (List.getElem?_eq_some_iff.mp h5).1
      obtain ⟨x, v, hxv⟩ := hat j hj
      obtain ⟨y, w, hyw⟩ := hat i hi
      rw [hxv.2] at h4
      rw [hyw.2] at h5
      cases h4
      cases h5
      exact hcov.1 i kept[j] y _ x _ hyw ((hk5 j kept[j] (by simp) x _).mp hxv) hd
    refine Sim.Post.bind (P := fun out => out = t.solutions.bvs.zip t.solutions.values) ?_ ?_
    · unfold moManageSolutions
      refine (computeFronts_spec hval.objectives (by simp [hk3, hk4]) (by rw [hk4]; omega)).bind (fun fronts hfr => ?_)
      obtain ⟨out, e1, e2⟩ := moPrint_all hval (fronts := fronts) (by rw [hfr.length, hk4])
      exact Sim.Post.lift ⟨out, e1, e2 (fun i hi => (hfr.zero i (by omega)).mpr (hnone i))⟩
    · rintro out rfl
      refine Sim.Post.pure ?_
      have hmem : ∀ x v, (x, v) ∈ t.solutions.bvs.zip t.solutions.values ↔ ∃ j, t.solutions.At j x v := by
        intro x v
        rw [List.mem_iff_getElem?]
        refine exists_congr (fun j => ?_)
        rw [List.getElem?_zip_eq_some]
        exact Iff.rfl
      have hmem' : ∀ x v, (x, v) ∈ t.solutions.bvs.zip t.solutions.values ↔
          ∃ i : Nat, t.parents.At i x v ∧ ∀ j, ¬ Beats t.parents.values j i := by
        intro x v
        rw [hmem]
        constructor
        · rintro ⟨j, hj⟩
          have hjl : j < kept.length := by rw [← hk3]; exact (List.getElem?_eq_some_iff.mp hj.1).1
          exact ⟨kept[j], (hk5 j kept[j] (by simp) x v).mp hj, ((hk2 _).mp (List.getElem_mem hjl)).2⟩
        · rintro ⟨i, hi, hb⟩
          have hik : i ∈ kept := (hk2 i).mpr ⟨(List.getElem?_eq_some_iff.mp hi.2).1, hb⟩
          obtain ⟨j, hj⟩ := List.mem_iff_getElem?.mp hik
          exact ⟨j, (hk5 j i hj x v).mpr hi⟩
      have hts : o.eaMu.toNat = size := by omega
      refine ⟨?_, by rw [hts]; exact g1, hmem', ?_, ?_⟩
      · intro h
        have h : t.solutions.bvs.zip t.solutions.values = [] := h
        have : (t.solutions.bvs.zip t.solutions.values).length = 0 := by rw [h]; rfl
        rw [List.length_zip, hk3, hk4, Nat.min_self, ← hk3] at this
        exact g4 (List.length_eq_zero_iff.mp this)
      · intro x v hx
        obtain ⟨i, hi, _⟩ := (hmem' x v).mp hx
        have hxl := g1.bits x (List.mem_of_getElem? hi.1)
        exact ⟨hxl, by rw [(hf x hxl).1, g2 i x v hi.1 hi.2]⟩
      · intro x v y w hx hy hd
        obtain ⟨j, hj⟩ := (hmem x v).mp hx
        obtain ⟨i, hi, _⟩ := (hmem' y w).mp hy
        exact hcov.1 j i x v y w hj hi hd

/-- C77 (negative part): the application has a single algorithm, and throws if the tournament is not smaller than the population. -/
theorem moRun_options {f : BV → Outcome MoValue} {n m : Nat} (hn : 0 < n) (hm : 0 < m) {o : MoOptions} {fuel : Nat} (ds : List Nat) :
    (o.algorithm ≠ 100 → moRun o f n m fuel ds = .throw .runtimeError) ∧
    (o.algorithm = 100 → 2 ≤ o.eaMu → (o.tournamentSize < 2 ∨ o.eaMu ≤ o.tournamentSize) →
      moRun o f n m fuel ds = .throw .runtimeError) := by
  refine ⟨fun h => ?_, fun h h1 h2 => ?_⟩
  · unfold moRun moMakeAlgorithm
    rw [if_neg h]
    rfl
  · obtain ⟨size, hsize⟩ := Int.eq_ofNat_of_zero_le (a := o.eaMu) (by omega)
    obtain ⟨s, e1, e2, e3⟩ := nsga2New_valid (size := size) (n := n) (m := m) (by omega) hn hm ⟨false, false⟩
    have e : moMakeAlgorithm o n m = ok (s, ⟨o.tournamentSize, o.belowSqrt, o.allowNoMutation⟩) := by
      unfold moMakeAlgorithm
      rw [if_pos h, hsize]
      change (nsga2New n m size _ >>= _) = _
      rw [e1, ok_bind]
    have ht := nsga2_tournament_size (f := f) (m := m) (fuel := fuel) (s := s)
      (q := ⟨o.tournamentSize, o.belowSqrt, o.allowNoMutation⟩) o.numIterations (by rw [e2.parents.bvs]; simp only; omega) ds
    unfold moRun
    rw [e]
    change Sim.bind (nsga2Minimize f m ⟨o.tournamentSize, o.belowSqrt, o.allowNoMutation⟩ o.numIterations fuel s) _ ds = _
    unfold Sim.bind
    rw [ht]

/-! ## Examples -/

example : HasObjectives 3 2 countTwice := fun _ _ => ⟨_, rfl, rfl⟩

/-- The null vector is a Pareto optimum, as it maximizes the opposite of the sum. -/
example : ParetoOptimal 2 countTwice [false, false] := by
  refine opposite_sum_pareto (m := 2) (fun _ _ => ⟨_, rfl, rfl⟩) ⟨0, ⟨?_, [false, false], rfl, by decide +kernel⟩, rfl, by decide +kernel⟩
  intro x _
  refine ⟨-([((x.filter id).length : Rat), ((x.filter id).length : Rat)].sum), ?_, ?_⟩
  · simp only [opposite]
    rw [sumFunction_eval rfl]
    rfl
  simp only [List.sum_cons, List.sum_nil]
  have : (0 : Rat) ≤ ((x.filter id).length : Rat) := Nat.cast_nonneg _
  linarith

/-- The hypotheses of `moRun_spec` are met with three individuals. -/
example : Sim.Post (moRun ⟨100, 3, 2, 10, true, true⟩ exampleObjectives 2 2 6) (fun r => r.1 ≠ []) :=
  (moRun_spec (val := fun x => if x.any id then [1, 1] else [0, 0]) (by decide) (by decide)
    (fun x _ => ⟨rfl, by simp only; split <;> rfl⟩) rfl (by decide) (by decide) (by decide)).mono (fun _ h => h.1)

end Hnco
