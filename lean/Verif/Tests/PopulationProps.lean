import Verif.Algorithm.ParallelProps
import Verif.Multiobjective.Nsga2Props
import Verif.Tests.MomentProps
import Verif.Tests.PopulationModel
import Verif.Tests.SearchProps
import Verif.Tests.SerializeProps

/-!
# The test programs on populations end with success (C102)

`Ends check` (see `Verif.Tests.Ends`) says that there is a number of draws with which the program always ends, and its exit status is 0.
-/

namespace Hnco.Tests

open Outcome

/-! ## Pareto fronts -/

section
variable {values : List MoValue} {m : Nat}

/-- An individual is dominated by an individual of each of the fronts which come before its own. -/
theorem fronts_below (hm : SameSize m values) {fronts : List Nat} (h : IsFronts values fronts) {p : Nat} :
    ∀ (d b : Nat), fronts[b]? = some (p + d + 1) → ∃ i : Nat, fronts[i]? = some p ∧ Beats values i b
  | 0, b, hb => h.succ b p hb
  | d + 1, b, hb => by
    obtain ⟨j, hj, hjb⟩ := h.succ b (p + d + 1) hb
    obtain ⟨i, hi, hij⟩ := fronts_below hm h d j hj
    exact ⟨i, hi, beats_trans hm hij hjb⟩

theorem findDominating_eq (hm : SameSize m values) {fronts : List Nat} (hl : fronts.length = values.length) {p b i : Nat}
    (hi : fronts[i]? = some p) (hib : Beats values i b) : ∀ (count j : Nat), j + count = values.length → j ≤ i →
    findDominating values fronts p b count j = ok true
  | 0, j, h1, h2 => by have := (beats_lt hib).1; omega
  | count + 1, j, h1, h2 => by
    unfold findDominating
    rw [vget_eq (show j < fronts.length by omega), ok_bind]
    by_cases hji : j = i
    · subst hji
      obtain ⟨r, e, hr⟩ := dominatesAt_eq hm (beats_lt hib).1 (beats_lt hib).2
      rw [if_pos (by rw [List.getElem?_eq_getElem (by omega)] at hi; exact Option.some.inj hi), e, ok_bind, if_pos (hr.mpr hib)]
    · have ih := findDominating_eq hm hl hi hib count (j + 1) (by omega) (by omega)
      split
      · obtain ⟨r, e, -⟩ := dominatesAt_eq hm (show j < values.length by omega) (beats_lt hib).2
        rw [e, ok_bind]
        cases r with
        | true => rfl
        | false => exact ih
      · exact ih

theorem comparePair_eq (hm : SameSize m values) {fronts : List Nat} (h : IsFronts values fronts) {a b : Nat} (ha : a < values.length)
    (hb : b < values.length) : comparePair values fronts a b = ok true := by
  unfold comparePair
  split
  · rfl
  · have ha' : a < fronts.length := by rw [h.length]; exact ha
    have hb' : b < fronts.length := by rw [h.length]; exact hb
    have ea : fronts[a]? = some fronts[a] := List.getElem?_eq_getElem ha'
    have eb : fronts[b]? = some fronts[b] := List.getElem?_eq_getElem hb'
    rw [vget_eq ha', ok_bind, vget_eq hb', ok_bind]
    generalize fronts[a] = pa at ea ⊢
    generalize fronts[b] = pb at eb ⊢
    split
    · rename_i hp
      subst hp
      obtain ⟨r, e, hr⟩ := dominatesAt_eq hm ha hb
      have : r = false := by
        rw [← Bool.not_eq_true, hr]
        intro hd
        exact Nat.lt_irrefl _ (h.lt a b _ _ ea eb hd)
      subst this
      obtain ⟨r, e', hr⟩ := dominatesAt_eq hm hb ha
      have : r = false := by
        rw [← Bool.not_eq_true, hr]
        intro hd
        exact Nat.lt_irrefl _ (h.lt b a _ _ eb ea hd)
      subst this
      rw [e, ok_bind, if_neg (by simp), e', ok_bind, if_neg (by simp)]
    · rename_i hne
      split
      · rename_i hlt
        obtain ⟨i, h1, h2⟩ := fronts_below hm h (p := pa) (pb - pa - 1) b (by rw [eb]; congr 1; omega)
        exact findDominating_eq hm h.length h1 h2 _ 0 (by omega) (Nat.zero_le _)
      · have hlt : pb < pa := by omega
        rw [assert_pos (by simpa using hlt), ok_bind]
        obtain ⟨i, h1, h2⟩ := fronts_below hm h (p := pb) (pa - pb - 1) a (by rw [ea]; congr 1; omega)
        exact findDominating_eq hm h.length h1 h2 _ 0 (by omega) (Nat.zero_le _)

theorem nkFill_length {K : Type} {P : K → Prop} {g : Sim K} (hg : Sim.Post g P) (l : List K) :
    Sim.Post (nkFill g l) (fun r => r.length = l.length) := by
  refine (Sim.Post.forRange (fun _ (r : List K) => r.length = l.length) (Nat.zero_le _) rfl ?_).mono fun _ h => h
  intro j r _ hj hr
  refine hg.bind fun v _ => Sim.Post.lift ?_
  rw [vset_eq (by omega)]
  exact returns_ok.mpr (by simpa using hr)

theorem drawValues_post (bound : Nat) (hm : SameSize m values) : Sim.Post (drawValues bound values) (fun r =>
    r.length = values.length ∧ SameSize m r) := by
  refine (Sim.Post.forRange (fun _ (r : List MoValue) => r.length = values.length ∧ SameSize m r) (Nat.zero_le _) ⟨rfl, hm⟩ ?_).mono
    fun _ h => h
  rintro j r _ hj ⟨h1, h2⟩
  refine (Sim.Post.lift (P := fun v : MoValue => v.length = m) ⟨_, vget_eq (by omega), h2 _ (List.getElem_mem _)⟩).bind fun v hv => ?_
  refine (nkFill_length ((Sim.Post.uniformInt (Nat.zero_le _)).bind fun d _ => Sim.Post.pure (P := fun _ => True) trivial) v).bind
    fun w hw => Sim.Post.lift ?_
  rw [vset_eq (by omega)]
  refine returns_ok.mpr ⟨by simpa using h1, fun x hx => ?_⟩
  rcases List.mem_or_eq_of_mem_set hx with hx | rfl
  · exact h2 x hx
  · rw [hw, hv]

theorem drawValues_uses (bound : Nat) (hm : SameSize m values) : ∃ c, Sim.Uses c (drawValues bound values) := by
  refine ⟨_, Sim.Uses.forLoopP (c := 0 + ((m - 0) * (1 + 0 + 0) + 0)) (SameSize m) (fun j t ht => ?_) (fun j t ht => ?_) _ _ _ hm⟩
  · refine Sim.Uses.lift.bindP (P := fun v : MoValue => v.length = m) (Sim.PostOk.lift fun v hv => ht v (vget_mem hv)) fun v hv => ?_
    have := nkFill_uses (g := do
      let d ← Sim.uniformInt 0 (2 * bound)
      pure ((d : Rat) - bound)) (Sim.Uses.bind Sim.Uses.uniformInt fun _ => Sim.Uses.pure) v
    rw [hv] at this
    exact this.bind fun _ => Sim.Uses.lift
  · refine Sim.PostOk.bind (P := fun v : MoValue => v.length = m) (Sim.PostOk.lift fun v hv => ht v (vget_mem hv)) fun v hv => ?_
    refine (nkFill_length ((Sim.Post.uniformInt (Nat.zero_le _)).bind fun d _ => Sim.Post.pure (P := fun _ => True) trivial)
      v).toOk.bind fun w hw => Sim.PostOk.lift fun t' e x hx => ?_
    rcases vset_mem e hx with h | rfl
    · exact ht x h
    · rw [hw, hv]

theorem frontPass_uses (values : List MoValue) : ∀ (l : List Nat) (s : FrontState), Sim.Uses (l.length * 2) (frontPass values l s)
  | [], _ => by rw [List.length_nil, Nat.zero_mul]; exact Sim.Uses.pure
  | i :: l, s => by
    rw [List.length_cons, Nat.succ_mul, Nat.add_comm]
    refine Sim.Uses.bind ?_ fun t => frontPass_uses values l t
    unfold frontStep
    refine Sim.Uses.mono (c := 1 + (0 + (1 + (0 + (0 + (0 + 0)))))) ?_ (by omega)
    refine Sim.Uses.shuffle.bind fun o => Sim.Uses.lift.bind fun b => Sim.Uses.ite ?_ (Sim.Uses.pure.mono (Nat.zero_le _))
    exact Sim.Uses.shuffle.bind fun _ => Sim.Uses.lift.bind fun _ => Sim.Uses.lift.bind fun _ => Sim.Uses.lift.bind fun _ =>
      Sim.Uses.pure

theorem frontLoop_uses (hm : SameSize m values) {N : Nat} : ∀ (fuel : Nat) (pool : List Nat) (front : Nat) (fronts : List Nat),
    pool.length ≤ N → (∀ j ∈ pool, j < values.length) → pool.Nodup →
    Sim.Uses (fuel * (N * 2 + 1)) (frontLoop values fuel pool front fronts)
  | 0, pool, front, fronts, _, _, _ => by
    rw [Nat.zero_mul]
    exact Sim.Uses.ite Sim.Uses.pure Sim.Uses.lift
  | fuel + 1, pool, front, fronts, h1, h2, h3 => by
    refine Sim.Uses.ite (Sim.Uses.pure.mono (Nat.zero_le _)) ?_
    have hpass := frontPass_post hm pool [] ⟨[], []⟩ (by simpa using h2) (by simpa using h3) ⟨by simp, by simp, by simp⟩
    rw [List.nil_append] at hpass
    refine Sim.Uses.mono ((frontPass_uses values pool ⟨[], []⟩).bindP hpass.toOk fun s hs => Sim.Uses.shuffle.bind fun o =>
      Sim.Uses.lift.bind fun f => frontLoop_uses hm (N := N) fuel s.nextPool (front + 1) f ?_ ?_ ?_) ?_
    · have := hs.perm.length_eq
      rw [List.length_append] at this
      omega
    · exact fun j hj => h2 j (hs.perm.subset (by simp [hj]))
    · exact (List.nodup_append.mp (hs.perm.nodup_iff.mpr h3)).2.1
    · rw [Nat.succ_mul]
      omega

theorem computeFronts_uses (hm : SameSize m values) (fuel : Nat) (fronts : List Nat) :
    Sim.Uses (0 + fuel * (values.length * 2 + 1)) (computeFronts values fuel fronts) :=
  Sim.Uses.lift.bind fun _ => frontLoop_uses hm fuel _ 0 fronts (by simp) (by simp) List.nodup_range

end

/-- C102: the test of the computation of Pareto fronts ends with the status 0. -/
theorem paretoTest_ends (runs inner pop dim objectives bound : Nat) (hp : 1 ≤ pop) (hd : 1 ≤ dim) (ho : 2 ≤ objectives) :
    Ends (paretoTest runs inner pop dim objectives bound) := by
  refine (succeeds_every ((Sim.Post.uniformInt hp).bind fun size hsize => (Sim.Post.uniformInt hd).bind fun n hn =>
    (Sim.Post.uniformInt ho).bind fun m hm => (Sim.Post.lift (moPopNew_eq (by omega) (by omega) (by omega))).bind fun p hpop =>
    (drawValues_post bound hpop.objectives).bind fun values hv => (computeFronts_spec hv.2 (by simp [hv.1, hpop.values])
      (by rw [hv.1, hpop.values])).bind fun fronts hf => every_post ((Sim.Post.uniformInt (Nat.zero_le _)).bind fun a ha =>
        (Sim.Post.uniformInt (Nat.zero_le _)).bind fun b hb => Sim.Post.lift ⟨_, comparePair_eq hv.2 hf ?_ ?_, rfl⟩) inner) runs).ends
    (every_bounded (Sim.Uses.uniformInt_bind fun size h1 _ => Sim.Uses.uniformInt_bind fun n h2 _ => Sim.Uses.uniformInt_bind
      fun m h3 _ => ?_) runs)
  · have h1 := hv.1
    have h2 := hpop.values
    omega
  · have h1 := hv.1
    have h2 := hpop.values
    omega
  · obtain ⟨p, e, hpop⟩ := moPopNew_eq (size := size) (n := n) (m := m) (by omega) (by omega) (by omega)
    obtain ⟨c, hc⟩ := drawValues_uses bound hpop.objectives
    refine ⟨0 + (c + (0 + size * (size * 2 + 1) + inner * (1 + (1 + 0)))), Sim.Uses.bindP (P := fun q => q = p) Sim.Uses.lift (Sim.PostOk.lift fun q hq => ?_) fun q hq => ?_⟩
    · rw [e] at hq
      exact (Outcome.ok.inj hq).symm
    · subst hq
      refine hc.bindP (drawValues_post bound hpop.objectives).toOk fun values hv => ?_
      have := computeFronts_uses hv.2 size (List.replicate size 0)
      rw [hv.1, hpop.values] at this
      exact this.bind fun fronts => every_uses (Sim.Uses.uniformInt.bind fun _ => Sim.Uses.uniformInt.bind fun _ => Sim.Uses.lift) inner

/-- The program, and a short run of it with two individuals, of which the second dominates the first. -/
example : Ends (paretoTest 100 100 100 100 10 10) ∧ exitStatus (paretoTest 1 1 2 2 2 2)
    [1, 1, 0, 3, 4, 1, 2, 0, 0, 0, 0, 0, 0, 0, 0, 0, 1] = .ok 0 [] :=
  ⟨paretoTest_ends _ _ _ _ _ _ (by norm_num) (by norm_num) (by norm_num), by decide +kernel⟩

/-! ## Parallel evaluation -/

theorem randomBvs_within {n : Nat} : ∀ l : List BV, (∀ x ∈ l, x.length = n) →
    Sim.Within (l.length * n) (randomBvs l) (fun r => r.length = l.length ∧ ∀ x ∈ r, x.length = n)
  | [], _ => by
    rw [List.length_nil, Nat.zero_mul]
    exact Sim.Within.pure ⟨rfl, by simp⟩
  | x :: l, h => by
    rw [List.length_cons, Nat.succ_mul, Nat.add_comm]
    unfold randomBvs
    rw [h x (by simp)]
    refine (bvRandomBits_within n).bind fun y hy => ?_
    refine Sim.Within.bind (d := 0) (randomBvs_within l fun z hz => h z (by simp [hz])) fun r hr => Sim.Within.pure ⟨by simp [hr.1], ?_⟩
    intro z hz
    rcases List.mem_cons.mp hz with rfl | hz
    · exact hy
    · exact hr.2 z hz

/-- All the threads have the same function, and the stream of numbers is then the same for all numbers of threads. -/
theorem makeFunctions_run {n : Nat} (hn : 0 < n) {start : List Nat} (hs : n ≤ start.length) : ∃ (f : Fn Int) (g : BV → Int)
    (rest : List Nat), (∀ x : BV, x.length = n → f.eval x = ok (g x)) ∧ start.length ≤ rest.length + n ∧
    ∀ (k : Nat) (ds : List Nat), makeFunctions start n (k + 1) ds = .ok (List.replicate (k + 1) f) rest := by
  obtain ⟨bv, rest, e, h1, hbv⟩ := ((translationRandom_uses n).within (translationRandom_post hn)) start (by omega)
  have hnew := (functionMapNew_iff (oneMax n) (translationObj bv)).1 (by exact hbv)
  obtain ⟨hc, -⟩ := translationMap_correct bv n hbv
  refine ⟨mappedFn (oneMax n) (translationObj bv) (List.replicate n false), fun x => ((F2.add x bv).count true : Int), rest, ?_,
    by omega, ?_⟩
  · intro x hx
    obtain ⟨e, -⟩ := hc x (List.replicate n false) hx (by simp)
    simp only [mappedFn, Fn.ofEval, functionMapEvaluate, translationObj, e, ok_bind, oneMax_value]
    rfl
  · intro k
    have step : ∀ (j : Nat) (ds : List Nat), makeFunctions start n (j + 1) ds = Sim.bind (makeFunctions start n j) (fun fns =>
        pure (mappedFn (oneMax n) (translationObj bv) (List.replicate n false) :: fns)) rest := by
      intro j ds
      have hnew' : functionMapNew (oneMax n) (translationObj bv) = ok (List.replicate n false) := hnew
      rw [makeFunctions]
      show Sim.bind (resetGenerator start) _ ds = _
      unfold Sim.bind resetGenerator
      show Sim.bind (translationRandom n) _ start = _
      unfold Sim.bind
      rw [e]
      show Sim.bind (Sim.lift (functionMapNew (oneMax n) (translationObj bv))) _ rest = _
      rw [hnew']
      rfl
    induction k with
    | zero => intro ds; rw [step]; rfl
    | succ k ih => intro ds; rw [step]; unfold Sim.bind; rw [ih]; rfl

theorem evaluateLoop_base {f : Fn Int} {g : BV → Int} {bvs : List BV} (hf : ∀ x ∈ bvs, f.eval x = ok (g x)) : ∀ (is : List Nat)
    (s : List (Call Int)) (vals : List Int), vals.length = bvs.length → (∀ i ∈ is, i < bvs.length) →
    (evaluateLoop (FnObj.base f) bvs is (s, vals)).1 = ok ()
  | [], _, _, _, _ => rfl
  | i :: is, s, vals, hv, hi => by
    have hil := hi i (by simp)
    have e : vget bvs i = ok bvs[i] := vget_eq hil
    have e2 : f.eval bvs[i] = ok (g bvs[i]) := hf _ (List.getElem_mem _)
    simp only [evaluateLoop, evaluateOne, Act.bind_def, Act.lift_def, Act.inner_def, e, FnObj.base, Act.modify_def, e2,
      setValue_eq _ _ _ _ (show i < vals.length by omega)]
    exact evaluateLoop_base hf is _ _ (by simpa using hv) fun j hj => hi j (by simp [hj])

/-- The part of a run which comes after the functions have been made. -/
theorem parallelRun_ends {start : List Nat} {size n threads : Nat} (h1 : 1 ≤ size) (h2 : 1 ≤ n) (h3 : 1 ≤ threads)
    {schedule : List (Nat × Nat)} (hsch : IsSchedule schedule threads size) (hs : n + size * n ≤ start.length) (ds : List Nat) :
    ∃ rest, parallelRun start size n threads schedule ds = .ok true rest ∧ start.length ≤ rest.length + (n + size * n) := by
  obtain ⟨f, g, rest, hf, hrest, hmake⟩ := makeFunctions_run h2 (show n ≤ start.length by omega)
  obtain ⟨k, rfl⟩ : ∃ k, threads = k + 1 := ⟨threads - 1, by omega⟩
  unfold parallelRun
  show ∃ r, Sim.bind (makeFunctions start n (k + 1)) _ ds = _ ∧ _
  unfold Sim.bind
  rw [hmake]
  refine Exists.imp (fun r h => ⟨h.1, by omega⟩) (?_ : ∃ r, _ = _ ∧ rest.length ≤ r.length + size * n)
  suffices h : Sim.Within (size * n) (do
      let population ← Sim.lift (Pop.new size n)
      Sim.lift (assert (population.bvs.length == size))
      let population ← population.random
      let first ← Sim.lift (vget (List.replicate (k + 1) f) 0)
      let sequential := populationEvaluate (FnObj.base first) population.bvs ([], population.values)
      Sim.lift sequential.1
      let parallel := populationEvaluateParallel ((List.replicate (k + 1) f).map FnObj.base) population.bvs schedule
        ((List.replicate (k + 1) f).map (fun _ => []), population.values)
      Sim.lift parallel.1
      Sim.lift (allFrom (fun j => do
        let a ← vget sequential.2.2 j
        let b ← vget parallel.2.2 j
        ok (!decide (a ≠ b))) size 0)) (fun b => b = true) by
    obtain ⟨b, r, e, hr, rfl⟩ := h rest (by omega)
    exact ⟨r, e, hr⟩
  have hpop : (Pop.new size n : Outcome (Pop Int)) = ok ⟨List.replicate size (List.replicate n false), List.replicate size 0,
      permIdentity size⟩ := by
    unfold Pop.new
    rw [if_neg (by omega), if_neg (by omega)]
    rfl
  refine Sim.Within.mono (c := 0 + (0 + (size * n + (0 + (0 + (0 + 0)))))) ?_ (by omega) (fun _ h => h)
  refine Sim.Within.bind (Sim.Within.lift (P := fun p => p = (⟨List.replicate size (List.replicate n false), List.replicate size 0,
      permIdentity size⟩ : Pop Int)) ⟨_, hpop, rfl⟩) fun p hp => ?_
  subst hp
  refine Sim.Within.bind (Sim.Within.lift (P := fun _ => True) ⟨(), assert_pos (by simp), trivial⟩) fun _ _ => ?_
  have hr := randomBvs_within (n := n) (List.replicate size (List.replicate n false)) (fun x hx => by
    rw [List.eq_of_mem_replicate hx, List.length_replicate])
  rw [List.length_replicate] at hr
  refine Sim.Within.bind (P := fun p : Pop Int => p.bvs.length = size ∧ (∀ x ∈ p.bvs, x.length = n) ∧ p.values.length = size)
    (Sim.Within.bind (d := 0) hr fun r hr => Sim.Within.pure ⟨by simpa using hr.1, hr.2, by simp⟩) fun p hp => ?_
  refine Sim.Within.bind (Sim.Within.lift (P := fun h => h = f) ⟨f, rfl, rfl⟩) fun h hh => ?_
  subst hh
  have hcorrect := parallel_evaluation_correct h g p.bvs (fun x hx => hf x (hp.2.1 x hx)) .base (List.replicate k (FnObj.base h)) (by
    intro o ho x hx t
    rw [List.eq_of_mem_replicate ho]
    exact hf x (hp.2.1 x hx)) schedule (show IsSchedule schedule
      ((List.replicate k (FnObj.base h)).length + 1) p.bvs.length by rw [List.length_replicate, hp.1]; exact hsch) []
    (List.replicate k []) (show (List.replicate k ([] : List (Call Int))).length = (List.replicate k (FnObj.base h)).length by simp) p.values
    (by rw [hp.1, hp.2.2])
  have hseq : (populationEvaluate (FnObj.base h) p.bvs ([], p.values)).1 = ok () := by
    unfold populationEvaluate
    simp only [Act.bind_def, Act.get_def, Act.lift_def]
    rw [assert_pos (by simp [hp.1, hp.2.2])]
    exact evaluateLoop_base (fun x hx => hf x (hp.2.1 x hx)) _ _ _ (by rw [hp.1, hp.2.2]) (by simp)
  have e1 : (List.replicate (k + 1) h).map FnObj.base = FnObj.base h :: List.replicate k (FnObj.base h) := by
    rw [List.map_replicate]
    rfl
  have e2 : (List.replicate (k + 1) h).map (fun _ => ([] : List (Call Int))) = ([] : List (Call Int)) :: List.replicate k [] := by
    rw [List.map_replicate]
    rfl
  rw [e1, e2]
  obtain ⟨c1, c2, c3, -⟩ := hcorrect
  have c1 : (populationEvaluateParallel (FnObj.base h :: List.replicate k (FnObj.base h)) p.bvs schedule
    (([] : List (Call Int)) :: List.replicate k [], p.values)).2.2 = p.bvs.map g := c1
  refine Sim.Within.bind (Sim.Within.lift (P := fun _ => True) ⟨(), hseq, trivial⟩) fun _ _ => ?_
  refine Sim.Within.bind (Sim.Within.lift (P := fun _ => True) ⟨(), c2.trans hseq, trivial⟩) fun _ _ => ?_
  refine Sim.Within.lift ⟨true, allFrom_eq size 0 fun j _ hj => ?_, rfl⟩
  have c3 := c3 hseq
  change (populationEvaluate (FnObj.base h) p.bvs ([], p.values)).2.2 = _ at c3
  rw [c3]
  rw [c1]
  rw [vget_eq (by rw [List.length_map]; omega), ok_bind, ok_bind]
  simp

/-- C102: the test of parallel evaluation ends with the status 0, whatever the schedules: for a stream of numbers which is long
enough. -/
theorem parallelTest_ends (schedule : Nat → Nat → Nat → List (Nat × Nat)) (runs pop dim threads : Nat) (hp : 1 ≤ pop) (hd : 1 ≤ dim)
    (ht : 1 ≤ threads) (hsch : ∀ i k size, 1 ≤ k → IsSchedule (schedule i k size) k size) :
    ∃ c, ∀ start : List Nat, c ≤ start.length → ∃ rest, exitStatus (parallelTest start schedule runs pop dim threads) start = .ok 0 rest := by
  refine ⟨3 + (dim + pop * dim), fun start hs => ?_⟩
  have key : ∀ (runs i : Nat) (ds : List Nat), 3 ≤ ds.length → ∃ rest, everyAt (fun i => do
      let size ← Sim.uniformInt 1 pop
      let n ← Sim.uniformInt 1 dim
      let k ← Sim.uniformInt 1 threads
      parallelRun start size n k (schedule i k size)) runs i ds = .ok true rest := by
    intro runs
    induction runs with
    | zero => exact fun i ds _ => ⟨ds, rfl⟩
    | succ runs ih =>
      intro i ds hds
      obtain ⟨size, r1, e1, l1, s1⟩ := (Sim.Uses.uniformInt (lo := 1) (hi := pop)).within (Sim.Post.uniformInt hp) ds (by omega)
      obtain ⟨n, r2, e2, l2, s2⟩ := (Sim.Uses.uniformInt (lo := 1) (hi := dim)).within (Sim.Post.uniformInt hd) r1 (by omega)
      obtain ⟨k, r3, e3, l3, s3⟩ := (Sim.Uses.uniformInt (lo := 1) (hi := threads)).within (Sim.Post.uniformInt ht) r2 (by omega)
      have hle : n + size * n ≤ dim + pop * dim := Nat.add_le_add s2.2 (Nat.mul_le_mul s1.2 s2.2)
      obtain ⟨rest, e4, l4⟩ := parallelRun_ends (start := start) s1.1 s2.1 s3.1 (hsch i k size s3.1) (by omega) r3
      obtain ⟨rest', e5⟩ := ih (i + 1) rest (by omega)
      refine ⟨rest', ?_⟩
      unfold everyAt
      show Sim.bind (Sim.bind (Sim.uniformInt 1 pop) fun size => Sim.bind (Sim.uniformInt 1 dim) fun n =>
        Sim.bind (Sim.uniformInt 1 threads) fun k => parallelRun start size n k (schedule i k size)) _ ds = _
      have : (Sim.bind (Sim.uniformInt 1 pop) fun size => Sim.bind (Sim.uniformInt 1 dim) fun n =>
        Sim.bind (Sim.uniformInt 1 threads) fun k => parallelRun start size n k (schedule i k size)) ds = .ok true rest := by
        simp only [Sim.bind, e1, e2, e3, e4]
      rw [Sim.bind, this]
      exact e5
  obtain ⟨rest, e⟩ := key runs 0 start (by omega)
  refine ⟨rest, ?_⟩
  show Sim.bind (parallelTest start schedule runs pop dim threads) _ start = _
  unfold Sim.bind parallelTest
  rw [e]
  rfl

/-- A round robin schedule of the threads. -/
def roundRobin (_ k size : Nat) : List (Nat × Nat) := (List.range size).map fun i => (i % k, i)

theorem roundRobin_isSchedule (i k size : Nat) (hk : 1 ≤ k) : IsSchedule (roundRobin i k size) k size := by
  refine ⟨?_, fun p hp => ?_⟩
  · simp [roundRobin, Function.comp_def]
  · obtain ⟨j, -, rfl⟩ := List.mem_map.mp hp
    exact Nat.mod_lt _ hk

/-- The program, with that schedule, and a run with two individuals and two threads. -/
example : (∃ c, ∀ start : List Nat, c ≤ start.length → ∃ rest,
      exitStatus (parallelTest start roundRobin 10 100 100 100) start = .ok 0 rest) ∧
    exitStatus (parallelTest [1, 1, 1, 0, 1, 1] roundRobin 1 2 2 2) [1, 1, 1, 0, 1, 1] = .ok 0 [] :=
  ⟨parallelTest_ends roundRobin _ _ _ _ (by norm_num) (by norm_num) (by norm_num) roundRobin_isSchedule, by decide +kernel⟩

end Hnco.Tests
