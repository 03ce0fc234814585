import Verif.Algorithm.AlgLemmas
import Verif.Algorithm.LocalSearch
import Verif.Neighborhood.Props
import Verif.Function.Spec

/-! # Properties of random search, random local search, random walk, simulated annealing and restart -/

namespace Hnco

open Outcome

variable {K σ : Type}

/-! ## Helper lemmas -/

theorem initSolution_holds {env : Env K} {n : Nat} {val : BV → K} (henv : env.Computes n val) {p : StartParams}
    (hp : p.startingPoint.length = n) {s : AlgState K σ} (hs : s.solution.1.length = n)
    {Q : Unit → AlgState K σ → Prop} {E : AlgState K σ → Prop}
    (hQ : ∀ x : BV, x.length = n → Q () { s with solution := (x, val x), calls := s.calls ++ [(x, val x)] })
    (hE : ∀ x : BV, x.length = n → E { s with solution := (x, s.solution.2) }) :
    Alg.Holds (initSolution env p) s Q E := by
  unfold initSolution
  split
  · exact randomSolution_holds henv hs hQ hE
  · exact setSolutionEval_holds henv hp (hQ _ hp) (hE s.solution.1 hs)

/-- With an exact function, incremental evaluation at the right value is evaluation at the new vector. -/
theorem evaluateIncrementally_eq {env : Env K} {n : Nat} {val : BV → K} (henv : env.Computes n val)
    (hsize : env.fn.size = n) (hinc : IncrementalExact env.fn) {x y : BV} {flips : List Nat} (hx : x.length = n)
    (hf : flips.Pairwise (· < ·)) (hlt : ∀ i ∈ flips, i < n) (hy : FlippedAt x flips y)
    (hflip : bvFlipSparse x flips = ok y) :
    (evaluateIncrementally env x (val x) flips : Alg (AlgState K σ) K) = evaluate env y := by
  have hyl : y.length = n := hy.1.trans hx
  obtain ⟨w, hw1, hw2⟩ := hinc.2 x y (val x) flips (hx.trans hsize.symm) (hyl.trans hsize.symm) hf
    (by rw [hsize]; exact hlt) hy.2 (henv x hx)
  funext s ds
  unfold evaluateIncrementally evaluate
  rw [hflip]
  change (match env.stop s.calls y with
    | some e => Alg.lift (.throw e)
    | none => _ : Alg (AlgState K σ) K) s ds = _
  cases env.stop s.calls y with
  | some e => rfl
  | none =>
    rw [hw1]
    simp only [hw2]
    rfl

/-- Incremental evaluation of a candidate that was proposed. -/
theorem evaluateIncrementally_proposed {env : Env K} {n : Nat} {val : BV → K} (henv : env.Computes n val)
    (hsize : env.fn.size = n) (hinc : IncrementalExact env.fn) {k : Sampler} {b t : Nbh} (hb : b.Ready k)
    (hbn : b.n = n) (ht : b.Proposed k t) :
    (evaluateIncrementally env t.origin (val b.origin) t.flipped : Alg (AlgState K σ) K) =
      evaluate env t.candidate := by
  rw [ht.origin]
  refine evaluateIncrementally_eq henv hsize hinc (hb.origin.trans hbn) ht.flips.1 ?_ ht.candidate
    (proposed_flip hb ht).1
  rw [← hbn]
  exact ht.flips.2.1

theorem setOrigin_ready {k : Sampler} {b : Nbh} (hb : b.Valid k) {x : BV} (hx : x.length = b.n) :
    (b.setOrigin x).Ready k :=
  ⟨⟨hb.fits, hx, hx, hb.single⟩, rfl⟩

theorem proposed_valid {k : Sampler} {s t : Nbh} (hs : s.Ready k) (ht : s.Proposed k t) : t.Valid k :=
  ⟨by rw [ht.size]; exact hs.fits, by rw [ht.origin, ht.size]; exact hs.origin,
    by rw [ht.candidate.1, hs.origin, ht.size], single_length ht.flips⟩

theorem BestOf.snoc_left [LinearOrder K] {l : List (BV × K)} {s c : BV × K} (h : BestOf l s) (hc : c.2 ≤ s.2) :
    BestOf (l ++ [c]) s := by
  refine ⟨List.mem_append_left _ h.1, ?_⟩
  intro d hd
  rcases List.mem_append.mp hd with hd | hd
  · exact h.2 d hd
  · rw [List.mem_singleton.mp hd]; exact hc

theorem BestOf.snoc_right [LinearOrder K] {l : List (BV × K)} {s c : BV × K} (h : BestOf l s) (hc : s.2 ≤ c.2) :
    BestOf (l ++ [c]) c := by
  refine ⟨List.mem_append_right _ (List.mem_singleton.mpr rfl), ?_⟩
  intro d hd
  rcases List.mem_append.mp hd with hd | hd
  · exact le_trans (h.2 d hd) hc
  · rw [List.mem_singleton.mp hd]

theorem BestOf.single [LinearOrder K] (s : BV × K) : BestOf [s] s := (FirstBestOf.single s).best

/-! ## Random local search -/

/-- Between two iterations of random local search. -/
structure RlsInv [LinearOrder K] (n : Nat) (val : BV → K) (p : RlsParams K) (s : AlgState K RlsData) : Prop where
  ready : s.data.nbh.Ready p.sampler
  size : s.data.nbh.n = n
  true_calls : TrueCalls n val s.calls
  best : BestOf s.calls (s.data.nbh.origin, s.solution.2)
  value : s.solution.2 = val s.data.nbh.origin
  failures : ∃ before after, s.calls = before ++ after ∧ after.length = s.data.numFailures ∧
    ∀ c ∈ after, p.compare c.2 s.solution.2 = false
  last : s.lastIteration = true → s.solution.1 = s.data.nbh.origin ∧ 0 < p.patience ∧
    (s.data.numFailures : Int) = p.patience

/-- When an evaluation is interrupted. -/
structure RlsStop [LinearOrder K] (n : Nat) (val : BV → K) (p : RlsParams K) (s : AlgState K RlsData) : Prop where
  true_calls : TrueCalls n val s.calls
  best : s.calls = [] ∨ BestOf s.calls (s.data.nbh.origin, s.solution.2)

theorem rlsInit_holds [LinearOrder K] {env : Env K} {n : Nat} {val : BV → K} (henv : env.Computes n val)
    {p : RlsParams K} (hp : p.startingPoint.length = n) {s : AlgState K RlsData} (hs : s.solution.1.length = n)
    (hnbh : s.data.nbh.Valid p.sampler) (hn : s.data.nbh.n = n) (hcalls : s.calls = []) :
    Alg.Holds (rlsInit env p) s (fun _ t => RlsInv n val p { t with lastIteration := false }) (RlsStop n val p) := by
  unfold rlsInit
  refine Alg.Holds.bind (P := fun _ t => ∃ x : BV, x.length = n ∧
    t = { s with solution := (x, val x), calls := s.calls ++ [(x, val x)] })
    (initSolution_holds henv hp hs (fun x hx => ⟨x, hx, rfl⟩) (fun x hx => ⟨?_, Or.inl hcalls⟩)) ?_
  · simp only [hcalls]; exact TrueCalls.nil
  · rintro _ _ ⟨x, hx, rfl⟩
    refine Alg.Holds.modify ⟨?_, ?_, ?_, ?_, ?_, ?_, ?_⟩
    · exact setOrigin_ready hnbh (by rw [hn]; exact hx)
    · exact hn
    · simp only [hcalls]; exact TrueCalls.nil.snoc hx
    · simp only [hcalls]; exact BestOf.single _
    · rfl
    · exact ⟨_, [], (List.append_nil _).symm, rfl, by intro c hc; cases hc⟩
    · intro h; cases h

theorem rlsDecide_holds [LinearOrder K] {n : Nat} {val : BV → K} {p : RlsParams K}
    (hcomp1 : ∀ a b, p.compare a b = true → b ≤ a) (hcomp2 : ∀ a b, p.compare a b = false → a ≤ b)
    {s : AlgState K RlsData} (hs : RlsInv n val p s) (hl : s.lastIteration = false) {t : Nbh}
    (ht : s.data.nbh.Proposed p.sampler t) {E : AlgState K RlsData → Prop} :
    Alg.Holds (rlsDecide p (val t.candidate))
      { s with data := ⟨t, s.data.numFailures⟩, calls := s.calls ++ [(t.candidate, val t.candidate)] }
      (fun _ => RlsInv n val p) E := by
  obtain ⟨hready, hsize, htc, hbest, hvalue, ⟨before, after, hf1, hf2, hf3⟩, _⟩ := hs
  have hlen : t.candidate.length = n := by rw [ht.candidate.1, hready.origin, hsize]
  have key : ∀ u : AlgState K RlsData,
      (RlsInv n val p { u with lastIteration := false } ∧ u.lastIteration = false) → RlsInv n val p
        (if 0 < p.patience ∧ (u.data.numFailures : Int) = p.patience then
          { u with solution := (u.data.nbh.origin, u.solution.2), lastIteration := true } else u) := by
    rintro u ⟨h1, hul⟩
    split
    · rename_i hc
      exact ⟨h1.ready, h1.size, h1.true_calls, h1.best, h1.value, h1.failures, fun _ => ⟨rfl, hc⟩⟩
    · exact ⟨h1.ready, h1.size, h1.true_calls, h1.best, h1.value, h1.failures,
        fun h => by rw [hul] at h; cases h⟩
  unfold rlsDecide
  refine Alg.Holds.bind (P := fun _ u => RlsInv n val p { u with lastIteration := false } ∧
    u.lastIteration = false) ?_ (fun _ u hu => Alg.Holds.modify (key u hu))
  unfold rlsAccept
  refine Alg.Holds.get_bind ?_
  split
  · rename_i hc
    refine Alg.Holds.returns_bind (keep_spec hready ht) ?_
    rintro b ⟨hb1, hb2, hb3, _⟩
    refine Alg.Holds.modify ⟨⟨hb1, hb2.trans hsize, htc.snoc hlen, ?_, ?_, ?_, ?_⟩, hl⟩
    · simp only [hb3]; exact hbest.snoc_right (hcomp1 _ _ hc)
    · simp only [hb3]
    · exact ⟨_, [], (List.append_nil _).symm, rfl, by intro c hc; cases hc⟩
    · intro h; cases h
  · rename_i hc
    simp only [Bool.not_eq_true] at hc
    refine Alg.Holds.returns_bind (forget_spec hready ht) ?_
    rintro b ⟨hb1, hb2, hb3, _⟩
    refine Alg.Holds.modify ⟨⟨hb1, hb2.trans hsize, htc.snoc hlen, ?_, ?_, ?_, ?_⟩, hl⟩
    · simp only [hb3]; exact hbest.snoc_left (hcomp2 _ _ hc)
    · simp only [hb3]; exact hvalue
    · refine ⟨before, after ++ [(t.candidate, val t.candidate)], ?_, ?_, ?_⟩
      · simp [hf1]
      · simp [hf2]
      · intro c hcc
        rcases List.mem_append.mp hcc with hcc | hcc
        · exact hf3 c hcc
        · rw [List.mem_singleton.mp hcc]; exact hc
    · intro h; cases h

theorem rlsIterate_holds [LinearOrder K] {env : Env K} {n : Nat} {val : BV → K} (henv : env.Computes n val)
    {p : RlsParams K} (hcomp1 : ∀ a b, p.compare a b = true → b ≤ a) (hcomp2 : ∀ a b, p.compare a b = false → a ≤ b)
    (hinc : p.incremental = true → env.fn.hasInc = true → env.fn.size = n ∧ IncrementalExact env.fn)
    (s : AlgState K RlsData) (hs : RlsInv n val p s) (hl : s.lastIteration = false) :
    Alg.Holds (rlsIterate env p) s (fun _ => RlsInv n val p) (RlsStop n val p) := by
  have hE : ∀ t : Nbh, s.data.nbh.Proposed p.sampler t →
      RlsStop n val p { s with data := ⟨t, s.data.numFailures⟩ } := by
    intro t ht
    refine ⟨hs.true_calls, Or.inr ?_⟩
    simp only [ht.origin]
    exact hs.best
  have hlen : ∀ t : Nbh, s.data.nbh.Proposed p.sampler t → t.candidate.length = n := by
    intro t ht
    rw [ht.candidate.1, hs.ready.origin, hs.size]
  unfold rlsIterate
  split
  · rename_i h
    simp only [Bool.and_eq_true] at h
    obtain ⟨hsz, hex⟩ := hinc h.1 h.2
    unfold rlsIterateIncremental
    refine Alg.Holds.get_bind (Alg.Holds.sim_bind (propose_spec hs.ready) (fun t ht => Alg.Holds.modify_bind ?_))
    rw [hs.value, evaluateIncrementally_proposed henv hsz hex hs.ready hs.size ht]
    exact evaluate_bind henv (hlen t ht) (rlsDecide_holds hcomp1 hcomp2 hs hl ht) (hE t ht)
  · unfold rlsIterateFull
    refine Alg.Holds.get_bind (Alg.Holds.sim_bind (propose_spec hs.ready) (fun t ht => Alg.Holds.modify_bind ?_))
    exact evaluate_bind henv (hlen t ht) (rlsDecide_holds hcomp1 hcomp2 hs hl ht) (hE t ht)

theorem rlsMaximize_holds [LinearOrder K] {env : Env K} {n : Nat} {val : BV → K} (henv : env.Computes n val)
    {p : RlsParams K} (hcomp1 : ∀ a b, p.compare a b = true → b ≤ a) (hcomp2 : ∀ a b, p.compare a b = false → a ≤ b)
    (hinc : p.incremental = true → env.fn.hasInc = true → env.fn.size = n ∧ IncrementalExact env.fn)
    (hp : p.startingPoint.length = n) {s : AlgState K RlsData} (hs : s.solution.1.length = n)
    (hnbh : s.data.nbh.Valid p.sampler) (hn : s.data.nbh.n = n) (hcalls : s.calls = [])
    (numIterations : Int) (fuel : Nat) :
    Alg.Holds (rlsMaximize env p numIterations fuel) s (fun _ => RlsInv n val p) (RlsStop n val p) :=
  algLoop_holds _ _ (rlsIterate_holds henv hcomp1 hcomp2 hinc) (rlsInit_holds henv hp hs hnbh hn hcalls) _ _

/-- C49: random local search, run to its end or interrupted by the exhaustion of the budget, then finalized, reports a
vector it has evaluated together with the value of this vector, and no vector it has evaluated is better; whatever
the function, the neighbourhood, the draws, the number of iterations and the patience.  The comparison is any
comparison between `>` and `>=`.  The neighbourhood can be in any state left by an earlier run.  If incremental
evaluation is used, then it is supposed to be exact.  (If the very first evaluation is interrupted then nothing has
been evaluated.) -/
theorem randomLocalSearch_best [LinearOrder K] {env : Env K} {n : Nat} {val : BV → K} (henv : env.Computes n val)
    {p : RlsParams K} (hcomp1 : ∀ a b, p.compare a b = true → b ≤ a) (hcomp2 : ∀ a b, p.compare a b = false → a ≤ b)
    (hinc : p.incremental = true → env.fn.hasInc = true → env.fn.size = n ∧ IncrementalExact env.fn)
    (hp : p.startingPoint.length = n) {s : AlgState K RlsData} (hs : s.solution.1.length = n)
    (hnbh : s.data.nbh.Valid p.sampler) (hn : s.data.nbh.n = n) (hcalls : s.calls = [])
    (numIterations : Int) (fuel : Nat) :
    Alg.Holds (maximizeAndFinalize (rlsMaximize env p numIterations fuel) rlsFinalize) s
      (fun _ t => TrueCalls n val t.calls ∧ (t.calls = [] ∨ BestOf t.calls t.solution))
      (fun t => TrueCalls n val t.calls) := by
  refine (maximizeAndFinalize_holds (Q := RlsInv n val p) (E := RlsStop n val p)
    (F := fun t => TrueCalls n val t.calls ∧ (t.calls = [] ∨ BestOf t.calls t.solution))
    (rlsMaximize_holds henv hcomp1 hcomp2 hinc hp hs hnbh hn hcalls numIterations fuel) ?_ ?_).mono
      (fun _ _ h => h) (fun _ h => h.true_calls)
  · intro t ht
    exact Alg.Holds.modify ⟨ht.true_calls, Or.inr ht.best⟩
  · intro t ht
    exact Alg.Holds.modify ⟨ht.true_calls, ht.best⟩

/-- C49: when random local search stops by itself, the solution is consistent without `finalize`, and the last
`patience` evaluated vectors have all been rejected. -/
theorem randomLocalSearch_patience [LinearOrder K] {env : Env K} {n : Nat} {val : BV → K} (henv : env.Computes n val)
    {p : RlsParams K} (hcomp1 : ∀ a b, p.compare a b = true → b ≤ a) (hcomp2 : ∀ a b, p.compare a b = false → a ≤ b)
    (hinc : p.incremental = true → env.fn.hasInc = true → env.fn.size = n ∧ IncrementalExact env.fn)
    (hp : p.startingPoint.length = n) {s : AlgState K RlsData} (hs : s.solution.1.length = n)
    (hnbh : s.data.nbh.Valid p.sampler) (hn : s.data.nbh.n = n) (hcalls : s.calls = [])
    (numIterations : Int) (fuel : Nat) :
    Alg.Holds (rlsMaximize env p numIterations fuel) s
      (fun _ t => t.lastIteration = true → BestOf t.calls t.solution ∧ ∃ before after, t.calls = before ++ after ∧
        (after.length : Int) = p.patience ∧ ∀ c ∈ after, p.compare c.2 t.solution.2 = false)
      (fun _ => True) := by
  refine (rlsMaximize_holds henv hcomp1 hcomp2 hinc hp hs hnbh hn hcalls numIterations fuel).mono ?_
    (fun _ _ => trivial)
  intro _ t ht hl
  obtain ⟨h1, h2, h3⟩ := ht.last hl
  obtain ⟨before, after, h4, h5, h6⟩ := ht.failures
  refine ⟨?_, before, after, h4, by rw [h5]; exact h3, h6⟩
  have := ht.best
  rwa [← h1] at this

/-- C49: the value of the solution never decreases from one iteration to the next, also if the iteration is
interrupted. -/
theorem randomLocalSearch_monotone [LinearOrder K] {env : Env K} {n : Nat} {val : BV → K} (henv : env.Computes n val)
    {p : RlsParams K} (hcomp : ∀ a b, p.compare a b = true → b ≤ a)
    (hinc : p.incremental = true → env.fn.hasInc = true → env.fn.size = n ∧ IncrementalExact env.fn)
    {s : AlgState K RlsData} (hready : s.data.nbh.Ready p.sampler) (hn : s.data.nbh.n = n)
    (hvalue : s.solution.2 = val s.data.nbh.origin) :
    Alg.Holds (rlsIterate env p) s
      (fun _ t => s.solution.2 ≤ t.solution.2 ∧ t.solution.2 = val t.data.nbh.origin ∧ t.data.nbh.Ready p.sampler)
      (fun t => t.solution = s.solution ∧ t.data.nbh.origin = s.data.nbh.origin) := by
  have hlen : ∀ t : Nbh, s.data.nbh.Proposed p.sampler t → t.candidate.length = n := by
    intro t ht
    rw [ht.candidate.1, hready.origin, hn]
  have hdec : ∀ t : Nbh, s.data.nbh.Proposed p.sampler t → ∀ calls, Alg.Holds (rlsDecide p (val t.candidate))
      { s with data := ⟨t, s.data.numFailures⟩, calls := calls }
      (fun _ t => s.solution.2 ≤ t.solution.2 ∧ t.solution.2 = val t.data.nbh.origin ∧ t.data.nbh.Ready p.sampler)
      (fun t => t.solution = s.solution ∧ t.data.nbh.origin = s.data.nbh.origin) := by
    intro t ht calls
    unfold rlsDecide
    refine Alg.Holds.bind (P := fun _ u => s.solution.2 ≤ u.solution.2 ∧
      u.solution.2 = val u.data.nbh.origin ∧ u.data.nbh.Ready p.sampler) ?_ (fun _ u hu => Alg.Holds.modify ?_)
    · unfold rlsAccept
      refine Alg.Holds.get_bind ?_
      split
      · rename_i hc
        refine Alg.Holds.returns_bind (keep_spec hready ht) ?_
        rintro b ⟨hb1, hb2, hb3, _⟩
        exact Alg.Holds.modify ⟨hcomp _ _ hc, by simp only [hb3], hb1⟩
      · refine Alg.Holds.returns_bind (forget_spec hready ht) ?_
        rintro b ⟨hb1, hb2, hb3, _⟩
        exact Alg.Holds.modify ⟨le_refl _, by simp only [hb3]; exact hvalue, hb1⟩
    · split
      · exact hu
      · exact hu
  unfold rlsIterate
  split
  · rename_i h
    simp only [Bool.and_eq_true] at h
    obtain ⟨hsz, hex⟩ := hinc h.1 h.2
    unfold rlsIterateIncremental
    refine Alg.Holds.get_bind (Alg.Holds.sim_bind (propose_spec hready) (fun t ht => Alg.Holds.modify_bind ?_))
    rw [hvalue, evaluateIncrementally_proposed henv hsz hex hready hn ht]
    exact evaluate_bind henv (hlen t ht) (by rw [← hvalue]; exact hdec t ht _) ⟨rfl, ht.origin⟩
  · unfold rlsIterateFull
    refine Alg.Holds.get_bind (Alg.Holds.sim_bind (propose_spec hready) (fun t ht => Alg.Holds.modify_bind ?_))
    exact evaluate_bind henv (hlen t ht) (hdec t ht _) ⟨rfl, ht.origin⟩

/-- C49: the (1+1) evolutionary algorithm, run to its end or interrupted by the exhaustion of the budget, then
finalized, reports a vector it has evaluated with its value, and no vector it has evaluated is better. -/
theorem onePlusOneEa_best [LinearOrder K] {env : Env K} {n : Nat} {val : BV → K} (henv : env.Computes n val)
    (q : OnePlusOneParams) (old : StandardParams) {start : StartParams}
    (hinc : q.incremental = true → env.fn.hasInc = true → env.fn.size = n ∧ IncrementalExact env.fn)
    (hp : start.startingPoint.length = n) {s : AlgState K RlsData} (hs : s.solution.1.length = n)
    (hnbh : s.data.nbh.Valid (.standardBitMutation old)) (hn : s.data.nbh.n = n) (hcalls : s.calls = [])
    (fuel : Nat) :
    Alg.Holds (maximizeAndFinalize (onePlusOneMaximize env q old start fuel) rlsFinalize) s
      (fun _ t => TrueCalls n val t.calls ∧ (t.calls = [] ∨ BestOf t.calls t.solution))
      (fun t => TrueCalls n val t.calls) := by
  refine randomLocalSearch_best (p := onePlusOneParams q old start) henv ?_ ?_ hinc hp hs ?_ hn hcalls _ _
  · intro a b h; exact of_decide_eq_true h
  · intro a b h; exact le_of_lt (not_le.mp (of_decide_eq_false h))
  · exact ⟨hnbh.fits, hnbh.origin, hnbh.candidate, by intro h; cases h⟩

/-! ## The best evaluated vector -/

/-- C50: random search reports the first best of all evaluated vectors, after any number of iterations, also if it is
interrupted. -/
theorem randomSearch_best [LinearOrder K] {env : Env K} {n : Nat} {val : BV → K} (henv : env.Computes n val)
    {s : AlgState K BV} (hs : s.solution.1.length = n) (hd : s.data.length = n) (hcalls : s.calls = [])
    (numIterations : Int) (fuel : Nat) :
    Alg.Holds (randomSearchMaximize env numIterations fuel) s
      (fun _ t => TrueCalls n val t.calls ∧ FirstBestOf t.calls t.solution)
      (fun t => TrueCalls n val t.calls ∧ (t.calls = [] ∨ FirstBestOf t.calls t.solution)) := by
  refine (algLoop_holds (fun t => t.data.length = n ∧ TrueCalls n val t.calls ∧ FirstBestOf t.calls t.solution)
    (fun t => TrueCalls n val t.calls ∧ (t.calls = [] ∨ FirstBestOf t.calls t.solution)) ?_ ?_ _ _).mono
    (fun _ _ h => h.2) (fun _ h => h)
  · rintro t ⟨h1, h2, h3⟩ _
    unfold randomSearchIterate
    refine Alg.Holds.get_bind (Alg.Holds.sim_bind (bvRandomBits_post _) (fun x hx => Alg.Holds.modify_bind ?_))
    rw [h1] at hx
    unfold updateSolutionEval
    refine evaluate_bind henv hx ?_ ⟨h2, Or.inr h3⟩
    refine Alg.Holds.modify ?_
    have := h3.update (x, val x)
    dsimp only at this ⊢
    split
    · rename_i hlt; rw [if_pos hlt] at this; exact ⟨hx, h2.snoc hx, this⟩
    · rename_i hlt; rw [if_neg hlt] at this; exact ⟨hx, h2.snoc hx, this⟩
  · unfold randomSearchInit
    refine randomSolution_holds henv hs (fun x hx => ?_) (fun x hx => ?_)
    · simp only [hcalls]
      exact ⟨hd, TrueCalls.nil.snoc hx, FirstBestOf.single _⟩
    · simp only [hcalls]
      exact ⟨TrueCalls.nil, Or.inl trivial⟩

/-- The update with a new call. -/
theorem updateSolution_holds [LinearOrder K] {n : Nat} {val : BV → K} {s : AlgState K σ} {x : BV}
    {l : List (BV × K)} {b : BV × K} (hl : s.calls = l ++ [(x, val x)]) (hb : s.solution = b) (hx : x.length = n) (h1 : TrueCalls n val l)
    (h2 : FirstBestOf l b) {Q : Unit → AlgState K σ → Prop} {E : AlgState K σ → Prop}
    (hQ : ∀ sol, TrueCalls n val s.calls → FirstBestOf s.calls sol → val x ≤ sol.2 → s.solution.2 ≤ sol.2 →
      Q () { s with solution := sol }) :
    Alg.Holds (updateSolution x (val x)) s Q E := by
  subst hb
  unfold updateSolution
  refine Alg.Holds.modify ?_
  have h3 := h2.update (x, val x)
  have h4 : TrueCalls n val s.calls := by rw [hl]; exact h1.snoc hx
  rw [← hl] at h3
  split
  · rename_i hlt
    rw [if_pos hlt] at h3
    exact hQ _ h4 h3 (le_refl _) (le_of_lt hlt)
  · rename_i hlt
    rw [if_neg hlt] at h3
    exact hQ s.solution h4 h3 (not_lt.mp hlt) (le_refl _)

/-! ## Random walk -/

/-- Between two iterations of a random walk. -/
structure WalkInv [LinearOrder K] (n : Nat) (val : BV → K) (k : Sampler) (s : AlgState K (WalkData K)) : Prop where
  ready : s.data.nbh.Ready k
  size : s.data.nbh.n = n
  true_calls : TrueCalls n val s.calls
  best : FirstBestOf s.calls s.solution

theorem walkInit_holds [LinearOrder K] {env : Env K} {n : Nat} {val : BV → K} (henv : env.Computes n val)
    {p : StartParams} (hp : p.startingPoint.length = n) {k : Sampler} {s : AlgState K (WalkData K)}
    (hs : s.solution.1.length = n) (hnbh : s.data.nbh.Valid k) (hn : s.data.nbh.n = n) (hcalls : s.calls = []) :
    Alg.Holds (walkInit env p) s (fun _ t => WalkInv n val k t ∧ t.data.value = s.data.value ∧
      t.calls = [(t.data.nbh.origin, val t.data.nbh.origin)])
      (fun t => TrueCalls n val t.calls ∧ (t.calls = [] ∨ FirstBestOf t.calls t.solution)) := by
  unfold walkInit
  refine Alg.Holds.bind (P := fun _ t => ∃ x : BV, x.length = n ∧
    t = { s with solution := (x, val x), calls := s.calls ++ [(x, val x)] })
    (initSolution_holds henv hp hs (fun x hx => ⟨x, hx, rfl⟩) (fun x hx => ⟨?_, Or.inl hcalls⟩)) ?_
  · simp only [hcalls]; exact TrueCalls.nil
  · rintro _ _ ⟨x, hx, rfl⟩
    refine Alg.Holds.modify ⟨⟨?_, ?_, ?_, ?_⟩, rfl, ?_⟩
    · exact setOrigin_ready hnbh (by rw [hn]; exact hx)
    · exact hn
    · simp only [hcalls]; exact TrueCalls.nil.snoc hx
    · simp only [hcalls]; exact FirstBestOf.single _
    · simp only [hcalls]; rfl

theorem walkIterateFull_holds [LinearOrder K] {env : Env K} {n : Nat} {val : BV → K} (henv : env.Computes n val)
    {k : Sampler} {s : AlgState K (WalkData K)} (hs : WalkInv n val k s) :
    Alg.Holds (walkIterateFull env k) s (fun _ t => WalkInv n val k t ∧ t.data.value = some (val t.data.nbh.origin))
      (fun t => TrueCalls n val t.calls ∧ (t.calls = [] ∨ FirstBestOf t.calls t.solution)) := by
  obtain ⟨hready, hsize, htc, hbest⟩ := hs
  unfold walkIterateFull
  refine Alg.Holds.get_bind (Alg.Holds.sim_bind (propose_spec hready) (fun t ht => Alg.Holds.modify_bind ?_))
  have hlen : t.candidate.length = n := by rw [ht.candidate.1, hready.origin, hsize]
  refine evaluate_bind henv hlen ?_ ⟨htc, Or.inr hbest⟩
  refine Alg.Holds.modify_bind (Alg.Holds.returns_bind (keep_spec hready ht) ?_)
  rintro b ⟨hb1, hb2, hb3, hb4⟩
  refine Alg.Holds.modify_bind ?_
  rw [hb4]
  refine updateSolution_holds (by rfl) (by rfl) hlen htc hbest (fun sol h1 h2 _ _ => ?_)
  exact ⟨⟨hb1, hb2.trans hsize, h1, h2⟩, by simp only [hb3]⟩

/-- C50: a random walk with full evaluation reports the first best of all evaluated vectors, after any number of
iterations, also if it is interrupted. -/
theorem randomWalk_best [LinearOrder K] {env : Env K} {n : Nat} {val : BV → K} (henv : env.Computes n val)
    {p : StartParams} (hp : p.startingPoint.length = n) {k : Sampler} {s : AlgState K (WalkData K)}
    (hs : s.solution.1.length = n) (hnbh : s.data.nbh.Valid k) (hn : s.data.nbh.n = n) (hcalls : s.calls = [])
    (numIterations : Int) (fuel : Nat) :
    Alg.Holds (walkMaximize env p k false numIterations fuel) s
      (fun _ t => TrueCalls n val t.calls ∧ FirstBestOf t.calls t.solution)
      (fun t => TrueCalls n val t.calls ∧ (t.calls = [] ∨ FirstBestOf t.calls t.solution)) := by
  refine (algLoop_holds (WalkInv n val k) _ ?_ ?_ _ _).mono (fun _ _ h => ⟨h.true_calls, h.best⟩) (fun _ h => h)
  · intro t ht _
    unfold walkIterate
    rw [if_neg (by simp)]
    exact (walkIterateFull_holds henv ht).mono (fun _ _ h => h.1) (fun _ h => h)
  · exact (walkInit_holds henv hp hs hnbh hn hcalls).mono
      (fun _ _ h => ⟨h.1.ready, h.1.size, h.1.true_calls, h.1.best⟩) (fun _ h => h)

/-- C54 (negative part): `_value` is never initialised, so that the first iteration with incremental evaluation reads
an indeterminate value: whatever the function, the neighbourhood and the parameters, an iteration either has undefined
behaviour or runs out of draws (or the draws make the proposal fail). -/
theorem randomWalk_incremental_reads_uninitialized [LinearOrder K] {env : Env K} {k : Sampler}
    {s : AlgState K (WalkData K)} (hready : s.data.nbh.Ready k) (hvalue : s.data.value = none)
    (hprov : env.fn.hasInc = true) (ds : List Nat) :
    walkIterate env k true s ds = .ub ∨ s.data.nbh.propose k ds = .out := by
  have hp := propose_spec hready ds
  unfold walkIterate
  rw [hprov]
  simp only [Bool.and_self, if_true]
  cases e : s.data.nbh.propose k ds with
  | ok t rest =>
    left
    unfold walkIterateIncremental
    change (Alg.sim (s.data.nbh.propose k) >>= _ : Alg (AlgState K (WalkData K)) Unit) s ds = _
    rw [Alg.bind_apply]
    simp only [Alg.sim, e, hvalue]
    rfl
  | throw e' => rw [e] at hp; exact hp.elim
  | ub => rw [e] at hp; exact hp.elim
  | out => right; rfl

/-- C54: from a state in which `_value` is the value of the current vector, iterations with incremental and with full
evaluation are the same: same draws, same calls, same exceptions, same states. -/
theorem randomWalk_incremental_eq_full_partial [LinearOrder K] {env : Env K} {n : Nat} {val : BV → K}
    (henv : env.Computes n val) (hsize : env.fn.size = n) (hinc : IncrementalExact env.fn) {k : Sampler}
    {s : AlgState K (WalkData K)} (hready : s.data.nbh.Ready k) (hn : s.data.nbh.n = n)
    (hvalue : s.data.value = some (val s.data.nbh.origin)) (ds : List Nat) :
    walkIterateIncremental env k s ds = walkIterateFull env k s ds := by
  have hp := propose_spec hready ds
  unfold walkIterateIncremental walkIterateFull
  change (Alg.sim (s.data.nbh.propose k) >>= _ : Alg (AlgState K (WalkData K)) Unit) s ds =
    (Alg.sim (s.data.nbh.propose k) >>= _ : Alg (AlgState K (WalkData K)) Unit) s ds
  rw [Alg.bind_apply, Alg.bind_apply]
  simp only [Alg.sim]
  cases e : s.data.nbh.propose k ds with
  | ok t rest =>
    rw [e] at hp
    simp only [hvalue]
    have := evaluateIncrementally_proposed (σ := WalkData K) henv hsize hinc hready hn hp
    change ((evaluateIncrementally env t.origin (val s.data.nbh.origin) t.flipped : Alg (AlgState K (WalkData K)) K)
      >>= _) _ rest = _
    rw [this]
    rfl
  | throw e' => rfl
  | ub => rfl
  | out => rfl

/-- C54: hence, if `_value` were initialised, random walks with incremental and with full evaluation would be the same,
for any number of iterations. -/
theorem randomWalk_loop_incremental_eq_full_partial [LinearOrder K] {env : Env K} {n : Nat} {val : BV → K}
    (henv : env.Computes n val) (hsize : env.fn.size = n) (hinc : IncrementalExact env.fn) {k : Sampler} :
    ∀ (m : Nat) (s : AlgState K (WalkData K)) (ds : List Nat), WalkInv n val k s →
      s.data.value = some (val s.data.nbh.origin) →
      boundedLoop (walkIterate env k true) m s ds = boundedLoop (walkIterate env k false) m s ds
  | 0, _, _, _, _ => rfl
  | m + 1, s, ds, hs, hv => by
    have e1 : walkIterate env k true = walkIterateIncremental env k := by
      unfold walkIterate; rw [hinc.1]; rfl
    have e2 : walkIterate env k false = walkIterateFull env k := rfl
    change (if s.lastIteration = true then (pure () : Alg (AlgState K (WalkData K)) Unit) else
      (walkIterate env k true >>= fun _ => boundedLoop (walkIterate env k true) m)) s ds =
      (if s.lastIteration = true then (pure () : Alg (AlgState K (WalkData K)) Unit) else
      (walkIterate env k false >>= fun _ => boundedLoop (walkIterate env k false) m)) s ds
    by_cases hl : s.lastIteration = true
    · rw [if_pos hl, if_pos hl]
    · rw [if_neg hl, if_neg hl, Alg.bind_apply, Alg.bind_apply]
      have h1 := randomWalk_incremental_eq_full_partial henv hsize hinc hs.ready hs.size hv ds
      have h2 := walkIterateFull_holds henv hs ds
      rw [e1, e2, h1]
      cases e : walkIterateFull env k s ds with
      | ok r rest =>
        obtain ⟨r, t⟩ := r
        rw [e] at h2
        cases r with
        | ok a =>
          have := randomWalk_loop_incremental_eq_full_partial henv hsize hinc m t rest h2.1 h2.2
          rw [e1, e2] at this
          exact this
        | error e' => rfl
      | throw e' => rfl
      | ub => rfl
      | out => rfl

/-! ## Simulated annealing -/

/-- Between two iterations of simulated annealing. -/
structure AnnealingInv [LinearOrder K] (n : Nat) (val : BV → K) (k : Sampler) (s : AlgState K (AnnealingData K)) :
    Prop where
  ready : s.data.nbh.Ready k
  size : s.data.nbh.n = n
  true_calls : TrueCalls n val s.calls
  best : FirstBestOf s.calls s.solution
  value : s.data.currentValue = val s.data.nbh.origin
  current : s.data.currentValue ≤ s.solution.2

theorem annealingInitBeta_holds [LinearOrder K] {env : Env K} {n : Nat} {val : BV → K} (henv : env.Computes n val)
    {k : Sampler} {s : AlgState K (AnnealingData K)} (hnbh : s.data.nbh.Valid k) (hn : s.data.nbh.n = n)
    (hlen : s.solution.1.length = n)
    (htc : TrueCalls n val s.calls) (hbest : FirstBestOf s.calls s.solution) (numTrials : Nat) :
    Alg.Holds (annealingInitBeta env k numTrials) s
      (fun _ (t : AlgState K (AnnealingData K)) => t.data.nbh.Valid k ∧ t.data.nbh.n = n ∧ TrueCalls n val t.calls ∧ FirstBestOf t.calls t.solution)
      (fun t => TrueCalls n val t.calls ∧ (t.calls = [] ∨ FirstBestOf t.calls t.solution)) := by
  unfold annealingInitBeta
  refine Alg.Holds.get_bind (Alg.Holds.forRange (fun _ (t : AlgState K (AnnealingData K)) => t.data.nbh.Valid k ∧ t.data.nbh.n = n ∧
    TrueCalls n val t.calls ∧ FirstBestOf t.calls t.solution) (Nat.zero_le _) ⟨hnbh, hn, htc, hbest⟩ ?_)
  rintro j t _ _ ⟨h1, h2, h3, h4⟩
  rw [hlen]
  refine Alg.Holds.sim_bind (bvRandomBits_post n) (fun x hx => ?_)
  refine evaluate_bind henv hx ?_ ⟨h3, Or.inr h4⟩
  refine Alg.Holds.bind (P := fun _ (u : AlgState K (AnnealingData K)) => u.data = t.data ∧ TrueCalls n val u.calls ∧ FirstBestOf u.calls u.solution)
    (updateSolution_holds (by rfl) (by rfl) hx h3 h4 (fun sol h5 h6 _ _ => ⟨rfl, h5, h6⟩)) ?_
  rintro _ u ⟨hu, h5, h6⟩
  refine Alg.Holds.modify_bind (Alg.Holds.get_bind ?_)
  have hr : (u.data.nbh.setOrigin x).Ready k := by
    rw [hu]; exact setOrigin_ready h1 (by rw [h2]; exact hx)
  refine Alg.Holds.sim_bind (propose_spec hr) (fun b hb => Alg.Holds.modify_bind ?_)
  have hbl : b.candidate.length = n := by rw [hb.candidate.1]; exact hx
  refine evaluate_bind henv hbl ?_ ⟨h5, Or.inr h6⟩
  refine Alg.Holds.bind (P := fun _ (u : AlgState K (AnnealingData K)) => TrueCalls n val u.calls ∧ FirstBestOf u.calls u.solution)
    (updateSolution_holds (by rfl) (by rfl) hbl h5 h6 (fun sol h7 h8 _ _ => ⟨h7, h8⟩)) ?_
  rintro _ w ⟨h7, h8⟩
  refine Alg.Holds.returns_bind (forget_spec hr hb) ?_
  rintro c ⟨hc1, hc2, _, _⟩
  refine Alg.Holds.modify ⟨hc1.toValid, ?_, h7, h8⟩
  rw [hc2]
  change u.data.nbh.n = n
  rw [hu, h2]

/-- C50: simulated annealing reports the first best of all evaluated vectors, including those of the initialization
of the temperature, after any number of iterations, also if it is interrupted; whatever the acceptance of worse
candidates. -/
theorem simulatedAnnealing_best [LinearOrder K] {env : Env K} {n : Nat} {val : BV → K} (henv : env.Computes n val)
    {p : StartParams} (hp : p.startingPoint.length = n) {k : Sampler} {s : AlgState K (AnnealingData K)}
    (hs : s.solution.1.length = n) (hnbh : s.data.nbh.Valid k) (hn : s.data.nbh.n = n) (hcalls : s.calls = [])
    (numTrials numTransitions : Nat) (numIterations : Int) (fuel : Nat) :
    Alg.Holds (annealingMaximize env p k numTrials numTransitions numIterations fuel) s
      (fun _ t => TrueCalls n val t.calls ∧ FirstBestOf t.calls t.solution)
      (fun t => TrueCalls n val t.calls ∧ (t.calls = [] ∨ FirstBestOf t.calls t.solution)) := by
  refine (algLoop_holds (AnnealingInv n val k) _ ?_ ?_ _ _).mono (fun _ _ h => ⟨h.true_calls, h.best⟩) (fun _ h => h)
  · rintro t ⟨h1, h2, h3, h4, h5, h6⟩ _
    unfold annealingIterate
    refine Alg.Holds.get_bind (Alg.Holds.sim_bind (propose_spec h1) (fun b hb => Alg.Holds.modify_bind ?_))
    have hbl : b.candidate.length = n := by rw [hb.candidate.1, h1.origin, h2]
    refine evaluate_bind henv hbl ?_ ⟨h3, Or.inr h4⟩
    refine Alg.Holds.bind (P := fun _ => AnnealingInv n val k) ?_ ?_
    · unfold annealingAccept
      refine Alg.Holds.get_bind ?_
      split
      · rename_i hle
        refine Alg.Holds.returns_bind (keep_spec h1 hb) ?_
        rintro c ⟨hc1, hc2, hc3, hc4⟩
        refine Alg.Holds.modify_bind ?_
        rw [hc3]
        refine updateSolution_holds (by rfl) (by rfl) hbl h3 h4 (fun sol h7 h8 h9 h10 => ?_)
        exact ⟨hc1, hc2.trans h2, h7, h8, by simp only [hc3], h9⟩
      · rename_i hle
        have hlt : val b.candidate ≤ t.solution.2 := le_trans (le_of_lt (not_le.mp hle)) h6
        refine Alg.Holds.sim_bind Sim.Post.bernoulli (fun a _ => ?_)
        split
        · refine Alg.Holds.returns_bind (keep_spec h1 hb) ?_
          rintro c ⟨hc1, hc2, hc3, hc4⟩
          exact Alg.Holds.modify ⟨hc1, hc2.trans h2, h3.snoc hbl, h4.skip hlt, by simp only [hc3], hlt⟩
        · refine Alg.Holds.returns_bind (forget_spec h1 hb) ?_
          rintro c ⟨hc1, hc2, hc3, hc4⟩
          exact Alg.Holds.modify ⟨hc1, hc2.trans h2, h3.snoc hbl, h4.skip hlt, by simp only [hc3]; exact h5, h6⟩
    · rintro _ u hu
      refine Alg.Holds.modify ?_
      split
      · exact ⟨hu.ready, hu.size, hu.true_calls, hu.best, hu.value, hu.current⟩
      · exact hu
  · unfold annealingInit
    refine Alg.Holds.bind (P := fun _ t => ∃ x : BV, x.length = n ∧
      t = { s with solution := (x, val x), calls := s.calls ++ [(x, val x)] })
      (initSolution_holds henv hp hs (fun x hx => ⟨x, hx, rfl⟩) (fun x hx => ⟨?_, Or.inl hcalls⟩)) ?_
    · simp only [hcalls]; exact TrueCalls.nil
    · rintro _ _ ⟨x, hx, rfl⟩
      refine (annealingInitBeta_holds (s := { s with solution := (x, val x), calls := s.calls ++ [(x, val x)] })
        henv hnbh hn hx ?_ ?_ numTrials).bind ?_
      · simp only [hcalls]; exact TrueCalls.nil.snoc hx
      · simp only [hcalls]; exact FirstBestOf.single _
      · rintro _ t ⟨h1, h2, h3, h4⟩
        obtain ⟨h5, h6⟩ := h3 _ h4.best.1
        refine Alg.Holds.modify ⟨?_, h2, h3, h4, h6, le_refl _⟩
        exact setOrigin_ready h1 (by rw [h2]; exact h5)

/-! ## Restart -/

/-- C62: whatever the wrapped algorithm does at each run, the restart decorator returns the first of the best
solutions of the runs, whatever its solution before; if a run is interrupted, this holds for the runs completed
before. -/
theorem restart_best {τ : Type} [LinearOrder K] {run : Alg τ (BV × K)}
    (hrun : ∀ t, Alg.Holds run t (fun _ _ => True) (fun _ => True)) {s : AlgState K (RestartData K τ)}
    (hs : s.data.results = []) (numIterations : Int) (fuel : Nat) :
    Alg.Holds (restartMaximize run numIterations fuel) s
      (fun _ t => FirstBestOf t.data.results t.solution ∧ (t.data.results.length : Int) = numIterations)
      (fun t => (t.data.results = [] ∧ t.solution = s.solution) ∨ FirstBestOf t.data.results t.solution) := by
  have key : ∀ m : Nat, Alg.Holds (Alg.forRange 0 m (fun i => restartIterate run (i == 0))) s
      (fun _ t => t.data.results.length = m ∧ ((t.data.results = [] ∧ t.solution = s.solution) ∨
        FirstBestOf t.data.results t.solution))
      (fun t => (t.data.results = [] ∧ t.solution = s.solution) ∨ FirstBestOf t.data.results t.solution) := by
    intro m
    refine Alg.Holds.forRange (fun i (t : AlgState K (RestartData K τ)) => t.data.results.length = i ∧ ((t.data.results = [] ∧
      t.solution = s.solution) ∨ FirstBestOf t.data.results t.solution)) (Nat.zero_le _)
      ⟨by rw [hs]; rfl, Or.inl ⟨hs, rfl⟩⟩ ?_
    rintro i t _ _ ⟨h1, h2⟩
    refine Sim.Post.bind (hrun t.data.inner) ?_
    rintro ⟨r, u⟩ _
    cases r with
    | error e => exact Sim.Post.pure h2
    | ok res =>
      cases i with
      | zero =>
        have : t.data.results = [] := List.length_eq_zero_iff.mp h1
        refine Sim.Post.pure ⟨?_, Or.inr ?_⟩
        · simp [this]
        · simp only [this]; exact FirstBestOf.single _
      | succ i =>
        have hne : FirstBestOf t.data.results t.solution := by
          rcases h2 with h2 | h2
          · rw [h2.1] at h1; cases h1
          · exact h2
        have h3 := hne.update res
        refine Sim.Post.pure ?_
        simp only
        split
        · rename_i hlt
          rw [if_pos hlt] at h3
          exact ⟨by simp [h1], Or.inr h3⟩
        · rename_i hlt
          rw [if_neg hlt] at h3
          exact ⟨by simp [h1], Or.inr h3⟩
  unfold restartMaximize
  split
  · rename_i hpos
    refine (key _).mono ?_ (fun _ h => h)
    rintro _ t ⟨h1, h2⟩
    refine ⟨?_, by omega⟩
    rcases h2 with h2 | h2
    · rw [h2.1] at h1
      simp at h1
      omega
    · exact h2
  · refine (key _).bind (fun _ _ _ => fun _ => trivial)

/-! ## Examples -/

/-- The number of ones, with incremental evaluation, and a budget of five evaluations. -/
def exampleEnv : Env Int where
  fn := { Fn.ofEval 3 (fun x => ok (Int.ofNat (x.count true))) with
    hasInc := true
    evalInc := fun x v flips => do
      let y ← bvFlipSparse x flips
      return v + (Int.ofNat (y.count true) - Int.ofNat (x.count true)) }
  stop := fun calls _ => if calls.length < 5 then none else some .lastEvaluation

theorem exampleEnv_computes : exampleEnv.Computes 3 (fun x => Int.ofNat (x.count true)) := fun _ _ => rfl

theorem exampleEnv_exact : IncrementalExact exampleEnv.fn := by
  refine ⟨rfl, ?_⟩
  intro x y v flips hx hy hf hlt hflip hv
  have hv' : Int.ofNat (x.count true) = v := Outcome.ok.inj hv
  obtain ⟨z, hz, hz1, hz2⟩ := bvFlipSparse_exact x flips hf (by rw [hx]; exact hlt)
  have : z = y := by
    apply List.ext_getElem?
    intro i
    by_cases hi : i < x.length
    · rw [hz2 i _ (List.getElem?_eq_getElem hi), hflip i _ (List.getElem?_eq_getElem hi)]
    · rw [List.getElem?_eq_none (by omega), List.getElem?_eq_none (by omega)]
  subst this
  refine ⟨v + (Int.ofNat (z.count true) - Int.ofNat (x.count true)), ?_, ?_⟩
  · simp only [exampleEnv, hz]; rfl
  · change ok (Int.ofNat (z.count true)) = _
    rw [← hv']
    congr 1
    omega

/-- Random local search with single bit flips and incremental evaluation on this function. -/
def exampleRls : RlsParams Int :=
  { randomInitialization := true, startingPoint := [false, false, false], sampler := .singleBitFlip,
    compare := fun a b => decide (b ≤ a), patience := 2, incremental := true }

def exampleRlsState : AlgState Int RlsData :=
  ⟨([false, false, false], 0), false, [], ⟨⟨3, [false, false, false], [false, false, false], [0]⟩, 0⟩⟩

example : Alg.Holds (maximizeAndFinalize (rlsMaximize exampleEnv exampleRls 0 10) rlsFinalize) exampleRlsState
    (fun _ t => TrueCalls 3 (fun x => Int.ofNat (x.count true)) t.calls ∧
      (t.calls = [] ∨ BestOf t.calls t.solution))
    (fun t => TrueCalls 3 (fun x => Int.ofNat (x.count true)) t.calls) :=
  randomLocalSearch_best (p := exampleRls) (s := exampleRlsState) exampleEnv_computes (fun a b h => by simpa [exampleRls] using h)
    (fun a b h => by simp [exampleRls] at h; omega) (fun _ _ => ⟨rfl, exampleEnv_exact⟩) rfl rfl
    ⟨Nat.succ_pos 2, rfl, rfl, fun _ => rfl⟩ rfl rfl 0 10

/-- An interrupted run, in which the vector in `_solution` is corrected by `finalize`. -/
example : (match maximizeAndFinalize (rlsMaximize exampleEnv exampleRls 0 10) rlsFinalize exampleRlsState
    [1, 0, 0, 1, 2, 2, 2, 1, 2] with
  | .ok r _ => some (r.2.solution, r.2.calls.length)
  | _ => none) = some (([true, true, true], 3), 5) := by decide +kernel

/-- The first iteration of an incremental random walk. -/
example : (match walkMaximize exampleEnv ⟨true, [false, false, false]⟩ .singleBitFlip true 1 10
    ⟨([false, false, false], 0), false, [], ⟨⟨3, [false, false, false], [false, false, false], [0]⟩, none⟩⟩
    [1, 0, 0, 1] with
  | .ub => true
  | _ => false) = true := by decide +kernel

end Hnco
