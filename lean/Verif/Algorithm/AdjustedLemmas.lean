import Verif.Algorithm.AdjustedSpec
import Verif.Algorithm.PathReach

/-!
# The self-adjusting (1+1) EA and its mutation rates
-/

namespace Hnco

open Outcome

variable {K : Type}

/-- The rule of the algorithm. -/
def SelfAdjustingParams.rule (q : SelfAdjustingParams) : RateRule := ⟨q.rateInit, q.rateMin, q.rateMax, q.coefficient, q.strength⟩

/-- A rate for which rejection sampling is used. -/
def SelfAdjustingParams.low (q : SelfAdjustingParams) (rate : Rat) : Prop := q.belowSqrt rate = true

/-- The algorithm is at `pos` after these evaluations, and the mutation operator is in accordance with the rates. -/
structure AdjustedAt [LinearOrder K] (n : Nat) (val : BV → K) (q : SelfAdjustingParams) (start : BV × K) (later : List (BV × K))
    (pos : BV × K) (rates : List Rat) (t : AlgState K SelfAdjustingData) : Prop where
  ready : t.data.mutation.Ready (.standardBitMutation t.data.params)
  size : t.data.mutation.n = n
  pos : (t.data.mutation.origin, t.solution.2) = pos
  value : t.solution.2 = val t.data.mutation.origin
  calls : t.calls = start :: later
  rate : ∃ others, rates = t.data.rate :: others
  rejection : t.data.params.rejection = true ↔ ∃ r ∈ rates, q.low r
  allowed : t.data.params.allowNoMutation = q.allowNoMutation

theorem setMutationRate_rejection (p : StandardParams) (low : Bool) :
    (p.setMutationRate low).rejection = true ↔ (low = true ∨ p.rejection = true) := by
  unfold StandardParams.setMutationRate
  cases low <;> simp

theorem AdjustedAt.count [LinearOrder K] {n : Nat} {val : BV → K} {q : SelfAdjustingParams} {start pos : BV × K}
    {later : List (BV × K)} {rates : List Rat} {t : AlgState K SelfAdjustingData} (h : AdjustedAt n val q start later pos rates t)
    (d : Nat) : (Sampler.standardBitMutation t.data.params).Count d ↔
      (1 ≤ d ∨ (q.allowNoMutation = true ∧ ∃ r ∈ rates, q.low r)) := by
  show (1 ≤ d ∨ (t.data.params.rejection = true ∧ t.data.params.allowNoMutation = true)) ↔ _
  rw [h.rejection, h.allowed, and_comm]

theorem Alg.get_bind_eq {S β : Type} (f : S → Alg S β) (s : S) : (Alg.get >>= f) s = f s s := rfl

theorem Alg.lift_bind_eq {S α β : Type} {o : Outcome α} {a : α} (h : o = ok a) (f : α → Alg S β) (s : S) :
    (Alg.lift o >>= f) s = f a s := by
  subst h
  rfl

/-- One decision, whichever way it goes. -/
theorem selfAdjustingDecide_eq [LinearOrder K] {n : Nat} {val : BV → K} {q : SelfAdjustingParams} {start pos : BV × K}
    {later : List (BV × K)} {rates : List Rat} {s : AlgState K SelfAdjustingData} (hs : AdjustedAt n val q start later pos rates s)
    (hpath : AdjustedPath q.low q.allowNoMutation q.rule start later pos rates) {t : Nbh}
    (ht : s.data.mutation.Proposed (.standardBitMutation s.data.params) t) :
    ∃ u pos' rates', selfAdjustingDecide q (val t.candidate)
      { s with data := { s.data with mutation := t }, calls := s.calls ++ [(t.candidate, val t.candidate)] } = pure (.ok (), u) ∧
      AdjustedAt n val q start (later ++ [(t.candidate, val t.candidate)]) pos' rates' u ∧
      AdjustedPath q.low q.allowNoMutation q.rule start (later ++ [(t.candidate, val t.candidate)]) pos' rates' ∧
      pos' = (if pos.2 ≤ val t.candidate then (t.candidate, val t.candidate) else pos) ∧
      rates' = (if pos.2 ≤ val t.candidate then min (s.data.rate * q.coefficient) q.rateMax
        else max (s.data.rate / q.strength) q.rateMin) :: rates ∧
      u.lastIteration = s.lastIteration := by
  have hv : s.solution.2 = pos.2 := by rw [← hs.pos]
  have ho : s.data.mutation.origin = pos.1 := by rw [← hs.pos]
  obtain ⟨others, hrates⟩ := hs.rate
  have hd := (hs.count _).mp (proposed_differing hs.ready ht)
  rw [ho] at hd
  by_cases hc : pos.2 ≤ val t.candidate
  · obtain ⟨b, hb, hb1, hb2, hb3, _⟩ := keep_spec hs.ready ht
    refine ⟨{ s with
      solution := (s.solution.1, val t.candidate)
      calls := s.calls ++ [(t.candidate, val t.candidate)]
      data := ⟨b, s.data.params.setMutationRate (q.belowSqrt (min (s.data.rate * q.coefficient) q.rateMax)),
        min (s.data.rate * q.coefficient) q.rateMax⟩ }, (t.candidate, val t.candidate),
      min (s.data.rate * q.coefficient) q.rateMax :: rates, ?_, ?_, ?_, by rw [if_pos hc], by rw [if_pos hc], rfl⟩
    · funext ds
      show selfAdjustingDecide q (val t.candidate) _ ds = _
      unfold selfAdjustingDecide
      rw [Alg.get_bind_eq]
      rw [if_pos (by simpa only [hv] using hc)]
      rw [Alg.lift_bind_eq hb]
      rfl
    · refine ⟨standard_ready hb1, hb2.trans hs.size, by simp only [hb3], by simp only [hb3], by simp [hs.calls], ⟨_, rfl⟩, ?_,
        (setMutationRate_allow _ _).trans hs.allowed⟩
      rw [setMutationRate_rejection, hs.rejection, List.exists_mem_cons_iff]
      rfl
    · subst hrates
      exact hpath.success hd hc
  · obtain ⟨b, hb, hb1, hb2, hb3, _⟩ := forget_spec hs.ready ht
    refine ⟨{ s with
      calls := s.calls ++ [(t.candidate, val t.candidate)]
      data := ⟨b, s.data.params.setMutationRate (q.belowSqrt (max (s.data.rate / q.strength) q.rateMin)),
        max (s.data.rate / q.strength) q.rateMin⟩ }, pos,
      max (s.data.rate / q.strength) q.rateMin :: rates, ?_, ?_, ?_, by rw [if_neg hc], by rw [if_neg hc], rfl⟩
    · funext ds
      show selfAdjustingDecide q (val t.candidate) _ ds = _
      unfold selfAdjustingDecide
      rw [Alg.get_bind_eq]
      rw [if_neg (by simpa only [hv] using hc)]
      rw [Alg.lift_bind_eq hb]
      rfl
    · refine ⟨standard_ready hb1, hb2.trans hs.size, by simp only [hb3]; exact hs.pos, by simp only [hb3]; exact hs.value,
        by simp [hs.calls], ⟨_, rfl⟩, ?_, (setMutationRate_allow _ _).trans hs.allowed⟩
      rw [setMutationRate_rejection, hs.rejection, List.exists_mem_cons_iff]
      rfl
    · subst hrates
      exact hpath.failure hd (not_le.mp hc)

/-! ## Paths which are taken -/

/-- The path and the rates of a state. -/
def AdjustedState [LinearOrder K] (n : Nat) (val : BV → K) (q : SelfAdjustingParams) (t : AlgState K SelfAdjustingData) : Prop :=
  ∃ start later pos rates, AdjustedAt n val q start later pos rates t ∧
    AdjustedPath q.low q.allowNoMutation q.rule start later pos rates

theorem AdjustedState.run [LinearOrder K] {n : Nat} {val : BV → K} {q : SelfAdjustingParams} {t : AlgState K SelfAdjustingData}
    (h : AdjustedState n val q t) :
    AdjustedRun q.low q.allowNoMutation q.rule t.calls (t.data.mutation.origin, t.solution.2) := by
  obtain ⟨start, later, pos, rates, h1, h2⟩ := h
  exact ⟨start, later, rates, h1.calls, by rw [h1.pos]; exact h2⟩

theorem selfAdjustingInit_adjusted [LinearOrder K] {env : Env K} {n : Nat} {val : BV → K} (henv : env.Computes n val)
    {q : SelfAdjustingParams} {s : AlgState K SelfAdjustingData} (hs : s.solution.1.length = n) (hcalls : s.calls = [])
    (hnbh : s.data.mutation.Valid (.standardBitMutation s.data.params)) (hn : s.data.mutation.n = n)
    (hr : s.data.params.rejection = false) :
    Alg.Holds (selfAdjustingInit env q) s (fun _ t => AdjustedState n val q t) (fun t => t.calls = []) := by
  unfold selfAdjustingInit
  refine Alg.Holds.modify_bind ?_
  refine Alg.Holds.bind (P := fun _ t => ∃ x : BV, x.length = n ∧ t = { s with
    solution := (x, val x), calls := [(x, val x)], data := { s.data with
      rate := q.rateInit
      params := (s.data.params.setMutationRate (q.belowSqrt q.rateInit)).setAllowNoMutation q.allowNoMutation } })
    (randomSolution_holds henv (by exact hs) (fun x hx => ⟨x, hx, by simp [hcalls]⟩) (fun x hx => hcalls)) ?_
  rintro _ _ ⟨x, hx, rfl⟩
  refine Alg.Holds.modify ⟨(x, val x), [], (x, val x), [q.rateInit], ⟨setOrigin_ready (standard_valid hnbh) (by rw [hn]; exact hx), hn,
    rfl, rfl, rfl, ⟨[], rfl⟩, ?_, rfl⟩, .start⟩
  show (s.data.params.setMutationRate (q.belowSqrt q.rateInit)).rejection = true ↔ _
  rw [setMutationRate_rejection, hr]
  simp [SelfAdjustingParams.low]

theorem selfAdjustingIterate_adjusted [LinearOrder K] {env : Env K} {n : Nat} {val : BV → K} (henv : env.Computes n val)
    {q : SelfAdjustingParams}
    (hinc : q.incremental = true → env.fn.hasInc = true → env.fn.size = n ∧ IncrementalExact env.fn)
    (s : AlgState K SelfAdjustingData) (hs : AdjustedState n val q s) :
    Alg.Holds (selfAdjustingIterate env q) s (fun _ t => AdjustedState n val q t)
      (fun t => AdjustedRun q.low q.allowNoMutation q.rule t.calls (t.data.mutation.origin, t.solution.2)) := by
  obtain ⟨start, later, pos, rates, h1, h2⟩ := hs
  have hlen : ∀ t : Nbh, s.data.mutation.Proposed (.standardBitMutation s.data.params) t → t.candidate.length = n := by
    intro t ht
    rw [ht.candidate.1, h1.ready.origin, h1.size]
  have hE : ∀ t : Nbh, s.data.mutation.Proposed (.standardBitMutation s.data.params) t →
      AdjustedRun q.low q.allowNoMutation q.rule s.calls (t.origin, s.solution.2) := by
    intro t ht
    rw [ht.origin]
    exact AdjustedState.run ⟨start, later, pos, rates, h1, h2⟩
  have hdec : ∀ t : Nbh, s.data.mutation.Proposed (.standardBitMutation s.data.params) t →
      Alg.Holds (selfAdjustingDecide q (val t.candidate))
        { s with data := { s.data with mutation := t }, calls := s.calls ++ [(t.candidate, val t.candidate)] }
        (fun _ t => AdjustedState n val q t)
        (fun t => AdjustedRun q.low q.allowNoMutation q.rule t.calls (t.data.mutation.origin, t.solution.2)) := by
    intro t ht
    obtain ⟨u, pos', rates', g1, g2, g3, _⟩ := selfAdjustingDecide_eq h1 h2 ht
    intro ds
    rw [g1]
    exact ⟨_, _, _, _, g2, g3⟩
  have hprop : Alg.Holds selfAdjustingPropose s (fun _ u => ∃ t, s.data.mutation.Proposed (.standardBitMutation s.data.params) t ∧
      u = { s with data := { s.data with mutation := t } })
      (fun t => AdjustedRun q.low q.allowNoMutation q.rule t.calls (t.data.mutation.origin, t.solution.2)) := by
    unfold selfAdjustingPropose
    exact Alg.Holds.get_bind (Alg.Holds.sim_bind (propose_spec h1.ready) (fun t ht => Alg.Holds.modify ⟨t, ht, rfl⟩))
  unfold selfAdjustingIterate
  split
  · rename_i h
    simp only [Bool.and_eq_true] at h
    obtain ⟨hsz, hex⟩ := hinc h.1 h.2
    unfold selfAdjustingIterateIncremental
    refine hprop.bind ?_
    rintro _ _ ⟨t, ht, rfl⟩
    refine Alg.Holds.get_bind ?_
    dsimp only
    rw [h1.value, evaluateIncrementally_proposed henv hsz hex h1.ready h1.size ht]
    exact evaluate_bind henv (hlen t ht) (hdec t ht) (hE t ht)
  · unfold selfAdjustingIterateFull
    refine hprop.bind ?_
    rintro _ _ ⟨t, ht, rfl⟩
    exact Alg.Holds.get_bind (evaluate_bind henv (hlen t ht) (hdec t ht) (hE t ht))

theorem selfAdjustingMaximize_adjusted [LinearOrder K] {env : Env K} {n : Nat} {val : BV → K} (henv : env.Computes n val)
    {q : SelfAdjustingParams}
    (hinc : q.incremental = true → env.fn.hasInc = true → env.fn.size = n ∧ IncrementalExact env.fn)
    {s : AlgState K SelfAdjustingData} (hs : s.solution.1.length = n)
    (hnbh : s.data.mutation.Valid (.standardBitMutation s.data.params)) (hn : s.data.mutation.n = n)
    (hr : s.data.params.rejection = false) (hcalls : s.calls = []) (numIterations : Int) (fuel : Nat) :
    Alg.Holds (selfAdjustingMaximize env q numIterations fuel) s
      (fun _ t => AdjustedRun q.low q.allowNoMutation q.rule t.calls (t.data.mutation.origin, t.solution.2))
      (fun t => t.calls = [] ∨ AdjustedRun q.low q.allowNoMutation q.rule t.calls (t.data.mutation.origin, t.solution.2)) :=
  (algLoop_holds (AdjustedState n val q) _
    (fun s hs _ => (selfAdjustingIterate_adjusted henv hinc s hs).mono (fun _ _ h => h) (fun _ h => .inr h))
    ((selfAdjustingInit_adjusted henv hs hcalls hnbh hn hr).mono
      (fun _ _ ⟨a, b, c, d, e, f⟩ => ⟨a, b, c, d, ⟨e.1, e.2, e.3, e.4, e.5, e.6, e.7, e.8⟩, f⟩) (fun _ h => .inl h)) numIterations fuel).mono
    (fun _ _ h => h.run) (fun _ h => h)

/-! ## Paths which are possible -/

theorem selfAdjustingIterate_reaches [LinearOrder K] {env : Env K} {n : Nat} {val : BV → K} (henv : env.Computes n val)
    (hstop : ∀ calls x, env.stop calls x = none) {q : SelfAdjustingParams}
    (hinc : q.incremental = true → env.fn.hasInc = true → env.fn.size = n ∧ IncrementalExact env.fn)
    {start pos : BV × K} {later : List (BV × K)} {rates : List Rat} {s : AlgState K SelfAdjustingData}
    (hs : AdjustedAt n val q start later pos rates s) (hpath : AdjustedPath q.low q.allowNoMutation q.rule start later pos rates)
    {y : BV} (hy : y.length = n) (hd : 1 ≤ differingBits pos.1 y ∨ (q.allowNoMutation = true ∧ ∃ r ∈ rates, q.low r)) :
    ∃ u rates', Alg.Reaches (selfAdjustingIterate env q) s () u ∧
      AdjustedAt n val q start (later ++ [(y, val y)]) (if pos.2 ≤ val y then (y, val y) else pos) rates' u ∧
      rates' = (if pos.2 ≤ val y then min (s.data.rate * q.coefficient) q.rateMax
        else max (s.data.rate / q.strength) q.rateMin) :: rates ∧
      u.lastIteration = s.lastIteration := by
  have ho : s.data.mutation.origin = pos.1 := by rw [← hs.pos]
  obtain ⟨t, h1, h2, rfl⟩ := propose_reaches hs.ready (y := y) (by rw [hs.size]; exact hy) (by rw [ho]; exact (hs.count _).mpr hd)
  obtain ⟨u, pos', rates', g1, g2, _, rfl, g5, g6⟩ := selfAdjustingDecide_eq hs hpath h2
  have h3 : Alg.Reaches (selfAdjustingDecide q (val t.candidate))
      { s with data := { s.data with mutation := t }, calls := s.calls ++ [(t.candidate, val t.candidate)] } () u := by
    unfold Alg.Reaches
    rw [g1]
    exact Sim.Reaches.pure _
  have hprop : Alg.Reaches selfAdjustingPropose s () { s with data := { s.data with mutation := t } } := by
    unfold selfAdjustingPropose
    exact Alg.Reaches.get_bind (Alg.Reaches.sim_bind h1 (Alg.Reaches.modify _ _))
  refine ⟨u, rates', ?_, g2, g5, g6⟩
  unfold selfAdjustingIterate
  split
  · rename_i h
    simp only [Bool.and_eq_true] at h
    obtain ⟨hsz, hex⟩ := hinc h.1 h.2
    unfold selfAdjustingIterateIncremental
    refine hprop.bind (Alg.Reaches.get_bind ?_)
    dsimp only
    rw [hs.value, evaluateIncrementally_proposed henv hsz hex hs.ready hs.size h2]
    exact Alg.Reaches.evaluate_bind henv hstop hy h3
  · unfold selfAdjustingIterateFull
    exact hprop.bind (Alg.Reaches.get_bind (Alg.Reaches.evaluate_bind henv hstop hy h3))

theorem selfAdjustingMaximize_reaches [LinearOrder K] {env : Env K} {n : Nat} {val : BV → K} (henv : env.Computes n val)
    (hstop : ∀ calls x, env.stop calls x = none) {q : SelfAdjustingParams}
    (hinc : q.incremental = true → env.fn.hasInc = true → env.fn.size = n ∧ IncrementalExact env.fn)
    {start pos : BV × K} {later : List (BV × K)} {rates : List Rat}
    (hpath : AdjustedPath q.low q.allowNoMutation q.rule start later pos rates)
    {s : AlgState K SelfAdjustingData} (hs : s.solution.1.length = n)
    (hnbh : s.data.mutation.Valid (.standardBitMutation s.data.params)) (hn : s.data.mutation.n = n)
    (hr : s.data.params.rejection = false) (hcalls : s.calls = []) (htrue : TrueCalls n val (start :: later))
    (hk : 0 < later.length) (fuel : Nat) :
    ∃ u, Alg.Reaches (selfAdjustingMaximize env q later.length fuel) s () u ∧ AdjustedAt n val q start later pos rates u := by
  obtain ⟨hx, hv⟩ := htrue start (by simp)
  obtain ⟨x, v⟩ := start
  dsimp only at hx hv
  subst hv
  have hinit : Alg.Reaches (selfAdjustingInit env q) s () { s with
      solution := (x, val x), calls := s.calls ++ [(x, val x)], data := ⟨s.data.mutation.setOrigin x,
        (s.data.params.setMutationRate (q.belowSqrt q.rateInit)).setAllowNoMutation q.allowNoMutation, q.rateInit⟩ } := by
    unfold selfAdjustingInit
    exact Alg.Reaches.modify_bind ((Alg.Reaches.randomSolution henv hstop hx (by exact hs)).bind (Alg.Reaches.modify _ _))
  have key : ∀ {later pos rates}, AdjustedPath q.low q.allowNoMutation q.rule (x, val x) later pos rates → TrueCalls n val later →
      ∃ u, Iterations (selfAdjustingIterate env q) { s with
        solution := (x, val x), calls := s.calls ++ [(x, val x)], data := ⟨s.data.mutation.setOrigin x,
          (s.data.params.setMutationRate (q.belowSqrt q.rateInit)).setAllowNoMutation q.allowNoMutation, q.rateInit⟩,
        lastIteration := false } later.length u ∧ AdjustedAt n val q (x, val x) later pos rates u ∧ u.lastIteration = false := by
    intro later pos rates hpath
    induction hpath with
    | start =>
      intro _
      refine ⟨_, .zero, ⟨setOrigin_ready (standard_valid hnbh) (by rw [hn]; exact hx), hn, rfl, rfl, by simp [hcalls], ⟨[], rfl⟩, ?_,
        rfl⟩, rfl⟩
      show (s.data.params.setMutationRate (q.belowSqrt q.rateInit)).rejection = true ↔ _
      rw [setMutationRate_rejection, hr]
      simp [SelfAdjustingParams.low, SelfAdjustingParams.rule]
    | @success later pos c rate rates h hd hv ih =>
      intro htrue
      obtain ⟨u, h1, h2, h3⟩ := ih (fun c hc => htrue c (List.mem_append_left _ hc))
      obtain ⟨hy, hc⟩ := htrue c (by simp)
      obtain ⟨y, v⟩ := c
      dsimp only at hy hc hv hd
      subst hc
      obtain ⟨w, rates', g1, g2, g3, g4⟩ := selfAdjustingIterate_reaches henv hstop hinc h2 h hy hd
      rw [if_pos hv] at g2 g3
      obtain ⟨others, ho⟩ := h2.rate
      have : u.data.rate = rate := by
        rw [List.cons.injEq] at ho
        exact ho.1.symm
      rw [this] at g3
      subst g3
      rw [List.length_append]
      exact ⟨w, .step h1 h3 g1, g2, g4.trans h3⟩
    | @failure later pos c rate rates h hd hv ih =>
      intro htrue
      obtain ⟨u, h1, h2, h3⟩ := ih (fun c hc => htrue c (List.mem_append_left _ hc))
      obtain ⟨hy, hc⟩ := htrue c (by simp)
      obtain ⟨y, v⟩ := c
      dsimp only at hy hc hv hd
      subst hc
      obtain ⟨w, rates', g1, g2, g3, g4⟩ := selfAdjustingIterate_reaches henv hstop hinc h2 h hy hd
      rw [if_neg (not_le.mpr hv)] at g2 g3
      obtain ⟨others, ho⟩ := h2.rate
      have : u.data.rate = rate := by
        rw [List.cons.injEq] at ho
        exact ho.1.symm
      rw [this] at g3
      subst g3
      rw [List.length_append]
      exact ⟨w, .step h1 h3 g1, g2, g4.trans h3⟩
  obtain ⟨u, h1, h2, _⟩ := key hpath (fun c hc => htrue c (List.mem_cons_of_mem _ hc))
  exact ⟨u, algLoop_reaches hk hinit h1 fuel, h2⟩

end Hnco
