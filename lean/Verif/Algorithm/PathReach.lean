import Verif.Algorithm.PathLemmas
import Verif.Walsh.BmProps

/-! # Search paths which local search can take -/

namespace Hnco

open Outcome

variable {K σ : Type}

/-! ## Runs for some draws -/

/-- For some draws, the computation returns `a` in state `t`. -/
def Alg.Reaches {S α : Type} (m : Alg S α) (s : S) (a : α) (t : S) : Prop := Sim.Reaches (m s) (.ok a, t)

section
variable {S α β : Type}

theorem Alg.Reaches.pure (a : α) (s : S) : Alg.Reaches (pure a : Alg S α) s a s := Sim.Reaches.pure _

theorem Alg.Reaches.bind {m : Alg S α} {f : α → Alg S β} {s t u : S} {a : α} {b : β} (h : Alg.Reaches m s a t)
    (hf : Alg.Reaches (f a) t b u) : Alg.Reaches (m >>= f) s b u := by
  unfold Alg.Reaches at *
  exact Sim.Reaches.bind h hf

theorem Alg.Reaches.get (s : S) : Alg.Reaches (Alg.get : Alg S S) s s s := Sim.Reaches.pure _

theorem Alg.Reaches.get_bind {f : S → Alg S β} {s u : S} {b : β} (h : Alg.Reaches (f s) s b u) :
    Alg.Reaches (Alg.get >>= f) s b u := (Alg.Reaches.get s).bind h

theorem Alg.Reaches.modify (f : S → S) (s : S) : Alg.Reaches (Alg.modify f) s () (f s) := Sim.Reaches.pure _

theorem Alg.Reaches.modify_bind {g : S → S} {f : Unit → Alg S β} {s u : S} {b : β} (h : Alg.Reaches (f ()) (g s) b u) :
    Alg.Reaches (Alg.modify g >>= f) s b u := (Alg.Reaches.modify g s).bind h

theorem Alg.Reaches.lift {o : Outcome α} {a : α} (h : o = ok a) (s : S) : Alg.Reaches (Alg.lift o) s a s := by
  subst h
  exact Sim.Reaches.pure _

theorem Alg.Reaches.lift_bind {o : Outcome α} {a : α} {f : α → Alg S β} {s u : S} {b : β} (h : o = ok a)
    (hf : Alg.Reaches (f a) s b u) : Alg.Reaches (Alg.lift o >>= f) s b u := (Alg.Reaches.lift h s).bind hf

theorem Alg.Reaches.sim {m : Sim α} {a : α} (h : Sim.Reaches m a) (s : S) : Alg.Reaches (Alg.sim m) s a s := by
  obtain ⟨ds, h⟩ := h
  refine ⟨ds, fun rest => ?_⟩
  unfold Alg.sim
  rw [h rest]

theorem Alg.Reaches.sim_bind {m : Sim α} {a : α} {f : α → Alg S β} {s u : S} {b : β} (h : Sim.Reaches m a)
    (hf : Alg.Reaches (f a) s b u) : Alg.Reaches (Alg.sim m >>= f) s b u := (Alg.Reaches.sim h s).bind hf

end

theorem Alg.Reaches.evaluate {env : Env K} {n : Nat} {val : BV → K} (henv : env.Computes n val)
    (hstop : ∀ calls x, env.stop calls x = none) {x : BV} (hx : x.length = n) (s : AlgState K σ) :
    Alg.Reaches (evaluate env x) s (val x) { s with calls := s.calls ++ [(x, val x)] } := by
  unfold Alg.Reaches Hnco.evaluate
  rw [hstop, henv x hx]
  exact Sim.Reaches.pure _

theorem Alg.Reaches.evaluate_bind {α : Type} {env : Env K} {n : Nat} {val : BV → K} (henv : env.Computes n val)
    (hstop : ∀ calls x, env.stop calls x = none) {x : BV} (hx : x.length = n) {f : K → Alg (AlgState K σ) α}
    {s u : AlgState K σ} {a : α} (h : Alg.Reaches (f (val x)) { s with calls := s.calls ++ [(x, val x)] } a u) :
    Alg.Reaches (Hnco.evaluate env x >>= f) s a u := (Alg.Reaches.evaluate henv hstop hx s).bind h

theorem Alg.Reaches.randomSolution {env : Env K} {n : Nat} {val : BV → K} (henv : env.Computes n val)
    (hstop : ∀ calls x, env.stop calls x = none) {x : BV} (hx : x.length = n) {s : AlgState K σ} (hs : s.solution.1.length = n) :
    Alg.Reaches (Hnco.randomSolution env) s () { s with solution := (x, val x), calls := s.calls ++ [(x, val x)] } := by
  unfold Hnco.randomSolution
  refine Alg.Reaches.get_bind (Alg.Reaches.sim_bind (a := x) (by rw [hs, ← hx]; exact bvRandomBits_any x) ?_)
  exact Alg.Reaches.modify_bind (Alg.Reaches.evaluate_bind henv hstop hx (Alg.Reaches.modify _ _))

/-- A number of iterations none of which starts after the last one, for some draws. -/
inductive Iterations (iterate : Alg (AlgState K σ) Unit) (s : AlgState K σ) : Nat → AlgState K σ → Prop where
  | zero : Iterations iterate s 0 s
  | step {j : Nat} {t u : AlgState K σ} (h : Iterations iterate s j t) (hl : t.lastIteration = false)
    (hi : Alg.Reaches iterate t () u) : Iterations iterate s (j + 1) u

theorem Iterations.reaches {iterate : Alg (AlgState K σ) Unit} {s t : AlgState K σ} {j : Nat} (h : Iterations iterate s j t) :
    ∀ {m : Nat} {u : AlgState K σ}, Alg.Reaches (boundedLoop iterate m) t () u → Alg.Reaches (boundedLoop iterate (m + j)) s () u := by
  induction h with
  | zero => exact fun h => h
  | @step j t v h hl hi ih =>
    intro m u hu
    rw [show m + (j + 1) = (m + 1) + j by omega]
    refine ih ?_
    unfold boundedLoop
    refine Alg.Reaches.get_bind ?_
    rw [if_neg (by rw [hl]; decide)]
    exact hi.bind hu

theorem algLoop_reaches {init iterate : Alg (AlgState K σ) Unit} {s t u : AlgState K σ} {k : Nat} (hk : 0 < k)
    (hinit : Alg.Reaches init s () t) (h : Iterations iterate { t with lastIteration := false } k u) (fuel : Nat) :
    Alg.Reaches (algLoop init iterate k fuel) s () u := by
  unfold algLoop
  refine hinit.bind (Alg.Reaches.modify_bind ?_)
  rw [if_pos (by omega), Int.toNat_natCast]
  have := h.reaches (m := 0) (u := u) (by unfold boundedLoop; exact Alg.Reaches.pure _ _)
  rwa [Nat.zero_add] at this

theorem propose_reaches {k : Sampler} {s : Nbh} (hs : s.Ready k) {y : BV} (hy : y.length = s.n)
    (hd : k.Count (differingBits s.origin y)) :
    ∃ t, Sim.Reaches (s.propose k) t ∧ s.Proposed k t ∧ t.candidate = y := by
  have hl : k.Flips s.n ((List.range s.origin.length).filter (fun i => s.origin[i]? != y[i]?)) := by
    refine ⟨List.Pairwise.filter _ List.pairwise_lt_range, ?_, hd⟩
    intro i hi
    rw [← hs.origin]
    exact List.mem_range.mp (List.mem_filter.mp hi).1
  have h := propose_onto hs hl (flipped_of_differing (by rw [hy, hs.origin]))
  refine ⟨_, h, ?_, rfl⟩
  obtain ⟨ds, hds⟩ := h
  have := propose_spec hs (ds ++ [])
  rw [hds []] at this
  exact this

/-! ## Random local search -/

/-- Random local search is at `pos` after these evaluations. -/
structure RlsAt (n : Nat) (val : BV → K) (p : RlsParams K) (start : BV × K) (later : List (BV × K)) (pos : BV × K)
    (t : AlgState K RlsData) : Prop where
  ready : t.data.nbh.Ready p.sampler
  size : t.data.nbh.n = n
  pos : (t.data.nbh.origin, t.solution.2) = pos
  value : t.solution.2 = val t.data.nbh.origin
  calls : t.calls = start :: later
  last : t.lastIteration = false
  failures : t.data.numFailures ≤ later.length

theorem rlsDecide_reaches {val : BV → K} {p : RlsParams K} {n : Nat} {start pos : BV × K} {later : List (BV × K)}
    {s : AlgState K RlsData} (hs : RlsAt n val p start later pos s) {t : Nbh} (ht : s.data.nbh.Proposed p.sampler t)
    (hpat : p.patience ≤ 0 ∨ ((later.length + 1 : Nat) : Int) < p.patience) :
    ∃ u, Alg.Reaches (rlsDecide p (val t.candidate))
      { s with data := ⟨t, s.data.numFailures⟩, calls := s.calls ++ [(t.candidate, val t.candidate)] } () u ∧
      RlsAt n val p start (later ++ [(t.candidate, val t.candidate)])
        (if p.compare (val t.candidate) pos.2 then (t.candidate, val t.candidate) else pos) u := by
  have hv : s.solution.2 = pos.2 := by rw [← hs.pos]
  have hsplit : ∃ u, Alg.Reaches (rlsAccept p (val t.candidate))
      { s with data := ⟨t, s.data.numFailures⟩, calls := s.calls ++ [(t.candidate, val t.candidate)] } () u ∧
      RlsAt n val p start (later ++ [(t.candidate, val t.candidate)])
        (if p.compare (val t.candidate) pos.2 then (t.candidate, val t.candidate) else pos) u := by
    unfold rlsAccept
    by_cases hc : p.compare (val t.candidate) pos.2 = true
    · obtain ⟨b, hb, hb1, hb2, hb3, _⟩ := keep_spec hs.ready ht
      refine ⟨{ s with solution := (s.solution.1, val t.candidate), data := ⟨b, 0⟩,
                       calls := s.calls ++ [(t.candidate, val t.candidate)] }, Alg.Reaches.get_bind ?_, ?_⟩
      · rw [if_pos (by simp only [hv]; exact hc)]
        exact Alg.Reaches.lift_bind hb (Alg.Reaches.modify _ _)
      · rw [if_pos hc]
        exact ⟨hb1, hb2.trans hs.size, by simp only [hb3], by simp only [hb3], by simp [hs.calls], hs.last, Nat.zero_le _⟩
    · obtain ⟨b, hb, hb1, hb2, hb3, _⟩ := forget_spec hs.ready ht
      refine ⟨{ s with data := ⟨b, s.data.numFailures + 1⟩,
                       calls := s.calls ++ [(t.candidate, val t.candidate)] }, Alg.Reaches.get_bind ?_, ?_⟩
      · rw [if_neg (by simp only [hv]; exact hc)]
        exact Alg.Reaches.lift_bind hb (Alg.Reaches.modify _ _)
      · rw [if_neg hc]
        refine ⟨hb1, hb2.trans hs.size, by simp only [hb3]; exact hs.pos, by simp only [hb3]; exact hs.value,
          by simp [hs.calls], hs.last, ?_⟩
        have := hs.failures
        simp only [List.length_append, List.length_cons, List.length_nil]
        omega
  obtain ⟨u, h1, h2⟩ := hsplit
  refine ⟨u, ?_, h2⟩
  unfold rlsDecide
  refine h1.bind ?_
  have hf := h2.failures
  simp only [List.length_append, List.length_cons, List.length_nil] at hf
  have := Alg.Reaches.modify (fun s => if 0 < p.patience ∧ (s.data.numFailures : Int) = p.patience then
      { s with solution := (s.data.nbh.origin, s.solution.2), lastIteration := true }
    else s) u
  rwa [if_neg (by omega)] at this

theorem rlsIterate_reaches {env : Env K} {n : Nat} {val : BV → K} (henv : env.Computes n val)
    (hstop : ∀ calls x, env.stop calls x = none) {p : RlsParams K}
    (hinc : p.incremental = true → env.fn.hasInc = true → env.fn.size = n ∧ IncrementalExact env.fn)
    {start pos : BV × K} {later : List (BV × K)} {s : AlgState K RlsData} (hs : RlsAt n val p start later pos s) {y : BV}
    (hy : y.length = n) (hd : p.sampler.Count (differingBits pos.1 y))
    (hpat : p.patience ≤ 0 ∨ ((later.length + 1 : Nat) : Int) < p.patience) :
    ∃ u, Alg.Reaches (rlsIterate env p) s () u ∧
      RlsAt n val p start (later ++ [(y, val y)]) (if p.compare (val y) pos.2 then (y, val y) else pos) u := by
  have ho : s.data.nbh.origin = pos.1 := by rw [← hs.pos]
  obtain ⟨t, h1, h2, rfl⟩ := propose_reaches hs.ready (y := y) (by rw [hs.size]; exact hy) (by rw [ho]; exact hd)
  obtain ⟨u, h3, h4⟩ := rlsDecide_reaches hs h2 hpat
  refine ⟨u, ?_, h4⟩
  unfold rlsIterate
  split
  · rename_i h
    simp only [Bool.and_eq_true] at h
    obtain ⟨hsz, hex⟩ := hinc h.1 h.2
    unfold rlsIterateIncremental
    refine Alg.Reaches.get_bind (Alg.Reaches.sim_bind h1 (Alg.Reaches.modify_bind ?_))
    rw [hs.value, evaluateIncrementally_proposed henv hsz hex hs.ready hs.size h2]
    exact Alg.Reaches.evaluate_bind henv hstop hy h3
  · unfold rlsIterateFull
    refine Alg.Reaches.get_bind (Alg.Reaches.sim_bind h1 (Alg.Reaches.modify_bind ?_))
    exact Alg.Reaches.evaluate_bind henv hstop hy h3

theorem rlsIterations_reach {env : Env K} {n : Nat} {val : BV → K} (henv : env.Computes n val)
    (hstop : ∀ calls x, env.stop calls x = none) {p : RlsParams K}
    (hinc : p.incremental = true → env.fn.hasInc = true → env.fn.size = n ∧ IncrementalExact env.fn)
    {start pos : BV × K} {later : List (BV × K)} (hpath : SearchPath p.sampler.Count p.accepts start later pos)
    {s : AlgState K RlsData} (hs : RlsAt n val p start [] start s) (htrue : TrueCalls n val later)
    (hpat : p.patience ≤ 0 ∨ (later.length : Int) < p.patience) :
    ∃ u, Iterations (rlsIterate env p) s later.length u ∧ RlsAt n val p start later pos u := by
  have step : ∀ {later : List (BV × K)} {pos c : BV × K} {m : Bool}, p.sampler.Count (differingBits pos.1 c.1) →
      p.accepts c.2 pos.2 m → TrueCalls n val (later ++ [c]) →
      (p.patience ≤ 0 ∨ ((later ++ [c]).length : Int) < p.patience) →
      (∃ u, Iterations (rlsIterate env p) s later.length u ∧ RlsAt n val p start later pos u) →
      ∃ u, Iterations (rlsIterate env p) s (later ++ [c]).length u ∧ RlsAt n val p start (later ++ [c]) (if m then c else pos) u := by
    rintro later pos ⟨y, v⟩ m hd ha htrue hpat ⟨u, h1, h2⟩
    obtain ⟨hy, hv⟩ := htrue (y, v) (by simp)
    dsimp only at hy hv
    subst hv
    rw [List.length_append] at hpat ⊢
    obtain ⟨w, h3, h4⟩ := rlsIterate_reaches henv hstop hinc h2 hy hd hpat
    refine ⟨w, .step h1 h2.last h3, ?_⟩
    unfold RlsParams.accepts at ha
    rwa [ha] at h4
  induction hpath with
  | start => exact ⟨s, .zero, hs⟩
  | move h hd ha ih =>
    refine step hd ha htrue hpat (ih (fun c hc => htrue c (List.mem_append_left _ hc)) ?_)
    rw [List.length_append] at hpat
    omega
  | stay h hd ha ih =>
    refine step hd ha htrue hpat (ih (fun c hc => htrue c (List.mem_append_left _ hc)) ?_)
    rw [List.length_append] at hpat
    omega

theorem rlsMaximize_reaches {env : Env K} {n : Nat} {val : BV → K} (henv : env.Computes n val)
    (hstop : ∀ calls x, env.stop calls x = none) {p : RlsParams K} (hr : p.randomInitialization = true)
    (hinc : p.incremental = true → env.fn.hasInc = true → env.fn.size = n ∧ IncrementalExact env.fn)
    {start pos : BV × K} {later : List (BV × K)} (hpath : SearchPath p.sampler.Count p.accepts start later pos)
    {s : AlgState K RlsData} (hs : s.solution.1.length = n) (hnbh : s.data.nbh.Valid p.sampler) (hn : s.data.nbh.n = n)
    (hcalls : s.calls = []) (htrue : TrueCalls n val (start :: later))
    (hpat : p.patience ≤ 0 ∨ (later.length : Int) < p.patience) (hk : 0 < later.length) (fuel : Nat) :
    ∃ u, Alg.Reaches (rlsMaximize env p later.length fuel) s () u ∧ RlsAt n val p start later pos u := by
  obtain ⟨hx, hv⟩ := htrue start (by simp)
  obtain ⟨x, v⟩ := start
  dsimp only at hx hv
  subst hv
  have hinit : Alg.Reaches (rlsInit env p) s () { s with
      solution := (x, val x), calls := s.calls ++ [(x, val x)], data := ⟨s.data.nbh.setOrigin x, 0⟩ } := by
    unfold rlsInit initSolution
    rw [if_pos hr]
    exact (Alg.Reaches.randomSolution henv hstop hx hs).bind (Alg.Reaches.modify _ _)
  obtain ⟨u, h1, h2⟩ := rlsIterations_reach henv hstop hinc hpath
    (s := { s with solution := (x, val x), calls := s.calls ++ [(x, val x)], data := ⟨s.data.nbh.setOrigin x, 0⟩,
                   lastIteration := false })
    ⟨setOrigin_ready hnbh (by rw [hn]; exact hx), hn, rfl, rfl, by simp [hcalls], rfl, Nat.zero_le _⟩
    (fun c hc => htrue c (List.mem_cons_of_mem _ hc)) hpat
  exact ⟨u, algLoop_reaches hk hinit h1 fuel, h2⟩

/-! ## Random walk -/

/-- A random walk is at `pos` after these evaluations. -/
structure WalkAt (n : Nat) (val : BV → K) (k : Sampler) (start : BV × K) (later : List (BV × K)) (pos : BV × K)
    (t : AlgState K (WalkData K)) : Prop where
  ready : t.data.nbh.Ready k
  size : t.data.nbh.n = n
  pos : (t.data.nbh.origin, val t.data.nbh.origin) = pos
  calls : t.calls = start :: later
  last : t.lastIteration = false

theorem walkIterate_reaches [LinearOrder K] {env : Env K} {n : Nat} {val : BV → K} (henv : env.Computes n val)
    (hstop : ∀ calls x, env.stop calls x = none) {k : Sampler} {start pos : BV × K} {later : List (BV × K)}
    {s : AlgState K (WalkData K)} (hs : WalkAt n val k start later pos s) {y : BV}
    (hy : y.length = n) (hd : k.Count (differingBits pos.1 y)) :
    ∃ u, Alg.Reaches (walkIterate env k false) s () u ∧ WalkAt n val k start (later ++ [(y, val y)]) (y, val y) u := by
  have ho : s.data.nbh.origin = pos.1 := by rw [← hs.pos]
  obtain ⟨t, h1, h2, rfl⟩ := propose_reaches hs.ready (y := y) (by rw [hs.size]; exact hy) (by rw [ho]; exact hd)
  obtain ⟨b, hb, hb1, hb2, hb3, hb4⟩ := keep_spec hs.ready h2
  have hend : ∀ w : AlgState K (WalkData K), WalkAt n val k start (later ++ [(t.candidate, val t.candidate)])
      (t.candidate, val t.candidate) w → ∃ u, Alg.Reaches (updateSolution b.candidate (val t.candidate)) w () u ∧
      WalkAt n val k start (later ++ [(t.candidate, val t.candidate)]) (t.candidate, val t.candidate) u := by
    intro w hw
    refine ⟨_, Alg.Reaches.modify _ _, ?_⟩
    split
    · exact ⟨hw.ready, hw.size, hw.pos, hw.calls, hw.last⟩
    · exact hw
  obtain ⟨u, h3, h4⟩ := hend { s with data := ⟨b, some (val t.candidate)⟩, calls := s.calls ++ [(t.candidate, val t.candidate)] }
    ⟨hb1, hb2.trans hs.size, by simp only [hb3], by simp [hs.calls], hs.last⟩
  refine ⟨u, ?_, h4⟩
  unfold walkIterate
  rw [if_neg (by simp)]
  unfold walkIterateFull
  refine Alg.Reaches.get_bind (Alg.Reaches.sim_bind h1 (Alg.Reaches.modify_bind ?_))
  refine Alg.Reaches.evaluate_bind henv hstop hy (Alg.Reaches.modify_bind (Alg.Reaches.lift_bind hb (Alg.Reaches.modify_bind ?_)))
  exact h3

theorem walkMaximize_reaches [LinearOrder K] {env : Env K} {n : Nat} {val : BV → K} (henv : env.Computes n val)
    (hstop : ∀ calls x, env.stop calls x = none) {p : StartParams} (hr : p.randomInitialization = true) {k : Sampler}
    {start pos : BV × K} {later : List (BV × K)} (hpath : SearchPath k.Count acceptAll start later pos)
    {s : AlgState K (WalkData K)} (hs : s.solution.1.length = n) (hnbh : s.data.nbh.Valid k) (hn : s.data.nbh.n = n)
    (hcalls : s.calls = []) (htrue : TrueCalls n val (start :: later)) (hk : 0 < later.length) (fuel : Nat) :
    ∃ u, Alg.Reaches (walkMaximize env p k false later.length fuel) s () u ∧ WalkAt n val k start later pos u := by
  obtain ⟨hx, hv⟩ := htrue start (by simp)
  obtain ⟨x, v⟩ := start
  dsimp only at hx hv
  subst hv
  have hinit : Alg.Reaches (walkInit env p) s () { s with
      solution := (x, val x), calls := s.calls ++ [(x, val x)], data := ⟨s.data.nbh.setOrigin x, s.data.value⟩ } := by
    unfold walkInit initSolution
    rw [if_pos hr]
    exact (Alg.Reaches.randomSolution henv hstop hx hs).bind (Alg.Reaches.modify _ _)
  have key : ∀ later pos, SearchPath k.Count acceptAll (x, val x) later pos → TrueCalls n val later →
      ∃ u, Iterations (walkIterate env k false) { s with
        solution := (x, val x), calls := s.calls ++ [(x, val x)], data := ⟨s.data.nbh.setOrigin x, s.data.value⟩,
        lastIteration := false } later.length u ∧ WalkAt n val k (x, val x) later pos u := by
    intro later pos hpath
    induction hpath with
    | start =>
      intro _
      exact ⟨_, .zero, setOrigin_ready hnbh (by rw [hn]; exact hx), hn, rfl, by simp [hcalls], rfl⟩
    | @move later pos c h hd ha ih =>
      intro htrue
      obtain ⟨hy, hv⟩ := htrue c (by simp)
      obtain ⟨y, v⟩ := c
      dsimp only at hy hv
      subst hv
      obtain ⟨u, h1, h2⟩ := ih (fun c hc => htrue c (List.mem_append_left _ hc))
      obtain ⟨w, h3, h4⟩ := walkIterate_reaches henv hstop h2 hy hd
      rw [List.length_append]
      exact ⟨w, .step h1 h2.last h3, h4⟩
    | stay h hd ha ih => cases ha
  obtain ⟨u, h1, h2⟩ := key later pos hpath (fun c hc => htrue c (List.mem_cons_of_mem _ hc))
  exact ⟨u, algLoop_reaches hk hinit h1 fuel, h2⟩

end Hnco
