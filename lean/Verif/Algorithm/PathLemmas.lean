import Verif.Algorithm.PathSpec
import Verif.Algorithm.LocalSearchProps
import Verif.Algorithm.RateProps

/-! # Lemmas on the search paths of local search -/

namespace Hnco

open Outcome

variable {K σ : Type}

/-! ## Differing bits -/

theorem filter_mem_range {l : List Nat} {n : Nat} (h : l.Pairwise (· < ·)) (hlt : ∀ i ∈ l, i < n) :
    (List.range n).filter (fun i => decide (i ∈ l)) = l := by
  have h1 : ((List.range n).filter (fun i => decide (i ∈ l))).Pairwise (· < ·) := List.Pairwise.filter _ List.pairwise_lt_range
  have h2 : ((List.range n).filter (fun i => decide (i ∈ l))).Perm l := by
    refine (List.perm_ext_iff_of_nodup (h1.imp (fun h => Nat.ne_of_lt h)) (h.imp (fun h => Nat.ne_of_lt h))).mpr ?_
    intro i
    rw [List.mem_filter, List.mem_range, decide_eq_true_eq]
    exact ⟨fun h => h.2, fun hi => ⟨hlt i hi, hi⟩⟩
  exact h2.eq_of_pairwise (le := (· < ·)) (fun a b _ _ h3 h4 => absurd h3 (Nat.lt_asymm h4)) h1 h

theorem differing_of_flipped {x y : BV} {l : List Nat} (h : FlippedAt x l y) (hl : l.Pairwise (· < ·))
    (hlt : ∀ i ∈ l, i < x.length) : differingBits x y = l.length := by
  unfold differingBits
  rw [← filter_mem_range hl hlt]
  congr 1
  apply List.filter_congr
  intro i hi
  rw [List.mem_range] at hi
  have h1 : x[i]? = some x[i] := List.getElem?_eq_getElem hi
  rw [h.2 i _ h1, h1]
  by_cases hm : i ∈ l
  · rw [if_pos hm, decide_eq_true hm]; cases x[i] <;> rfl
  · rw [if_neg hm, decide_eq_false hm]; cases x[i] <;> rfl

theorem flipped_of_differing {x y : BV} (h : y.length = x.length) :
    FlippedAt x ((List.range x.length).filter (fun i => x[i]? != y[i]?)) y := by
  refine ⟨h, ?_⟩
  intro i b hb
  have hi : i < x.length := by
    by_contra hc
    rw [List.getElem?_eq_none (by omega)] at hb
    cases hb
  have hy : y[i]? = some (y[i]'(by omega)) := List.getElem?_eq_getElem (by omega)
  have hmem : i ∈ (List.range x.length).filter (fun i => x[i]? != y[i]?) ↔ y[i]'(by omega) ≠ b := by
    rw [List.mem_filter, List.mem_range, hy, hb]
    rw [bne_iff_ne, ne_eq, Option.some.injEq]
    exact ⟨fun h e => h.2 e.symm, fun h => ⟨hi, fun e => h e.symm⟩⟩
  by_cases hc : y[i]'(by omega) = b
  · rw [if_neg (fun h => hmem.mp h hc), hy, hc]
  · rw [if_pos (hmem.mpr hc), hy]
    revert hc
    cases y[i]'(by omega) <;> cases b <;> simp

/-! ## Paths -/

theorem HasPath.first [LinearOrder K] {step : Nat → Prop} {accept : K → K → Bool → Prop} (c : BV × K) :
    HasPath step accept 1 [c] c := ⟨[c], [], c, by simp, rfl, FirstBestOf.single c, .start⟩

theorem HasPath.move [LinearOrder K] {step : Nat → Prop} {accept : K → K → Bool → Prop} {first : Nat} {calls : List (BV × K)}
    {pos c : BV × K} (h : HasPath step accept first calls pos) (hd : step (differingBits pos.1 c.1))
    (ha : accept c.2 pos.2 true) : HasPath step accept first (calls ++ [c]) c := by
  obtain ⟨trials, later, start, rfl, h1, h2, h3⟩ := h
  exact ⟨trials, later ++ [c], start, by simp, h1, h2, h3.move hd ha⟩

theorem HasPath.stay [LinearOrder K] {step : Nat → Prop} {accept : K → K → Bool → Prop} {first : Nat} {calls : List (BV × K)}
    {pos c : BV × K} (h : HasPath step accept first calls pos) (hd : step (differingBits pos.1 c.1))
    (ha : accept c.2 pos.2 false) : HasPath step accept first (calls ++ [c]) pos := by
  obtain ⟨trials, later, start, rfl, h1, h2, h3⟩ := h
  exact ⟨trials, later ++ [c], start, by simp, h1, h2, h3.stay hd ha⟩

theorem proposed_differing {k : Sampler} {s t : Nbh} (hs : s.Ready k) (ht : s.Proposed k t) :
    k.Count (differingBits s.origin t.candidate) := by
  rw [differing_of_flipped ht.candidate ht.flips.1 (by rw [hs.origin]; exact ht.flips.2.1)]
  exact ht.flips.2.2

theorem Alg.Holds.and {S α : Type} {m : Alg S α} {s : S} {P Q : α → S → Prop} {E F : S → Prop} (h : Alg.Holds m s P E)
    (h' : Alg.Holds m s Q F) : Alg.Holds m s (fun a t => P a t ∧ Q a t) (fun t => E t ∧ F t) := by
  intro ds
  have h1 := h ds
  have h2 := h' ds
  revert h1 h2
  cases m s ds with
  | ok r rest => obtain ⟨r, t⟩ := r; cases r <;> exact fun h1 h2 => ⟨h1, h2⟩
  | throw e => exact fun h1 _ => h1
  | ub => exact fun h1 _ => h1
  | out => exact fun h1 _ => h1

/-! ## Random local search -/

/-- The comparison of random local search as an acceptance. -/
def RlsParams.accepts (p : RlsParams K) (new old : K) (moves : Bool) : Prop := p.compare new old = moves

/-- The path of random local search. -/
def RlsPath [LinearOrder K] (p : RlsParams K) (t : AlgState K RlsData) : Prop :=
  HasPath p.sampler.Count p.accepts 1 t.calls (t.data.nbh.origin, t.solution.2)

theorem rlsInit_path [LinearOrder K] {env : Env K} {n : Nat} {val : BV → K} (henv : env.Computes n val)
    {p : RlsParams K} (hp : p.startingPoint.length = n) {s : AlgState K RlsData} (hs : s.solution.1.length = n)
    (hcalls : s.calls = []) :
    Alg.Holds (rlsInit env p) s (fun _ t => RlsPath p t) (fun t => t.calls = []) := by
  unfold rlsInit
  refine Alg.Holds.bind (P := fun _ t => ∃ x : BV, x.length = n ∧
    t = { s with solution := (x, val x), calls := s.calls ++ [(x, val x)] })
    (initSolution_holds henv hp hs (fun x hx => ⟨x, hx, rfl⟩) (fun x hx => hcalls)) ?_
  rintro _ _ ⟨x, hx, rfl⟩
  refine Alg.Holds.modify ?_
  unfold RlsPath
  simp only [hcalls]
  exact HasPath.first _

theorem rlsDecide_path [LinearOrder K] {val : BV → K} {p : RlsParams K} {s : AlgState K RlsData}
    (hready : s.data.nbh.Ready p.sampler) (hs : RlsPath p s) {t : Nbh}
    (ht : s.data.nbh.Proposed p.sampler t) {E : AlgState K RlsData → Prop} :
    Alg.Holds (rlsDecide p (val t.candidate))
      { s with data := ⟨t, s.data.numFailures⟩, calls := s.calls ++ [(t.candidate, val t.candidate)] }
      (fun _ => RlsPath p) E := by
  unfold rlsDecide
  refine Alg.Holds.bind (P := fun _ => RlsPath p) ?_ (fun _ u hu => Alg.Holds.modify ?_)
  · unfold rlsAccept
    refine Alg.Holds.get_bind ?_
    split
    · rename_i hc
      refine Alg.Holds.returns_bind (keep_spec hready ht) ?_
      rintro b ⟨hb1, hb2, hb3, _⟩
      refine Alg.Holds.modify ?_
      unfold RlsPath
      simp only [hb3]
      exact HasPath.move hs (proposed_differing hready ht) hc
    · rename_i hc
      refine Alg.Holds.returns_bind (forget_spec hready ht) ?_
      rintro b ⟨hb1, hb2, hb3, _⟩
      refine Alg.Holds.modify ?_
      unfold RlsPath
      simp only [hb3]
      exact HasPath.stay hs (proposed_differing hready ht) (by unfold RlsParams.accepts; simpa using hc)
  · split
    · exact hu
    · exact hu

theorem rlsIterate_path [LinearOrder K] {env : Env K} {n : Nat} {val : BV → K} (henv : env.Computes n val)
    {p : RlsParams K}
    (hinc : p.incremental = true → env.fn.hasInc = true → env.fn.size = n ∧ IncrementalExact env.fn)
    (s : AlgState K RlsData) (hs : RlsInv n val p s) (hpath : RlsPath p s) :
    Alg.Holds (rlsIterate env p) s (fun _ => RlsPath p) (RlsPath p) := by
  have hE : ∀ t : Nbh, s.data.nbh.Proposed p.sampler t → RlsPath p { s with data := ⟨t, s.data.numFailures⟩ } := by
    intro t ht
    unfold RlsPath
    simp only [ht.origin]
    exact hpath
  have hlen : ∀ t : Nbh, s.data.nbh.Proposed p.sampler t → t.candidate.length = n := by
    intro t ht
    rw [ht.candidate.1, hs.ready.origin, hs.size]
  unfold rlsIterate
  split
  · rename_i h
    simp only [Bool.and_eq_true] at h
    obtain ⟨hsz, hex⟩ := hinc h.1 h.2
    unfold rlsIterateIncremental
    refine Alg.Holds.get_bind (Alg.Holds.sim_bind (propose_spec hs.ready) (fun t ht => Alg.Holds.modify_bind ?_))
    rw [hs.value, evaluateIncrementally_proposed henv hsz hex hs.ready hs.size ht]
    exact evaluate_bind henv (hlen t ht) (rlsDecide_path hs.ready hpath ht) (hE t ht)
  · unfold rlsIterateFull
    refine Alg.Holds.get_bind (Alg.Holds.sim_bind (propose_spec hs.ready) (fun t ht => Alg.Holds.modify_bind ?_))
    exact evaluate_bind henv (hlen t ht) (rlsDecide_path hs.ready hpath ht) (hE t ht)

theorem rlsMaximize_path [LinearOrder K] {env : Env K} {n : Nat} {val : BV → K} (henv : env.Computes n val)
    {p : RlsParams K} (hcomp1 : ∀ a b, p.compare a b = true → b ≤ a) (hcomp2 : ∀ a b, p.compare a b = false → a ≤ b)
    (hinc : p.incremental = true → env.fn.hasInc = true → env.fn.size = n ∧ IncrementalExact env.fn)
    (hp : p.startingPoint.length = n) {s : AlgState K RlsData} (hs : s.solution.1.length = n)
    (hnbh : s.data.nbh.Valid p.sampler) (hn : s.data.nbh.n = n) (hcalls : s.calls = [])
    (numIterations : Int) (fuel : Nat) :
    Alg.Holds (rlsMaximize env p numIterations fuel) s (fun _ => RlsPath p) (fun t => t.calls = [] ∨ RlsPath p t) :=
  (algLoop_holds (fun t => RlsInv n val p t ∧ RlsPath p t) (fun t => t.calls = [] ∨ RlsPath p t)
    (fun s hs hl => ((rlsIterate_holds henv hcomp1 hcomp2 hinc s hs.1 hl).and (rlsIterate_path henv hinc s hs.1 hs.2)).mono
      (fun _ _ h => h) (fun _ h => .inr h.2))
    (((rlsInit_holds henv hp hs hnbh hn hcalls).and (rlsInit_path henv hp hs hcalls)).mono (fun _ _ h => h)
      (fun _ h => .inl h.2)) numIterations fuel).mono (fun _ _ h => h.2) (fun _ h => h)

/-! ## Self-adjusting (1+1) EA -/

/-- The path of the self-adjusting (1+1) EA. -/
def SelfAdjustingPath [LinearOrder K] (q : SelfAdjustingParams) (t : AlgState K SelfAdjustingData) : Prop :=
  HasPath (fun d => 1 ≤ d ∨ q.allowNoMutation = true) acceptNotWorse 1 t.calls (t.data.mutation.origin, t.solution.2)

/-- The option of the mutation operator is that of the algorithm. -/
def SelfAdjustingOption (q : SelfAdjustingParams) (t : AlgState K SelfAdjustingData) : Prop :=
  t.data.params.allowNoMutation = q.allowNoMutation

theorem selfAdjustingInit_path [LinearOrder K] {env : Env K} {n : Nat} {val : BV → K} (henv : env.Computes n val)
    {q : SelfAdjustingParams} {s : AlgState K SelfAdjustingData} (hs : s.solution.1.length = n) (hcalls : s.calls = []) :
    Alg.Holds (selfAdjustingInit env q) s (fun _ t => SelfAdjustingPath q t ∧ SelfAdjustingOption q t)
      (fun t => t.calls = []) := by
  unfold selfAdjustingInit
  refine Alg.Holds.modify_bind ?_
  refine Alg.Holds.bind (P := fun _ t => ∃ x : BV, x.length = n ∧ t.solution = (x, val x) ∧ t.calls = [(x, val x)] ∧
    SelfAdjustingOption q t)
    (randomSolution_holds henv (by exact hs) (fun x hx => ⟨x, hx, rfl, by simp [hcalls], rfl⟩) (fun x hx => hcalls)) ?_
  rintro _ t ⟨x, hx, h1, h2, h3⟩
  refine Alg.Holds.modify ⟨?_, h3⟩
  unfold SelfAdjustingPath Nbh.setOrigin
  simp only [h1, h2]
  exact HasPath.first _

theorem setMutationRate_allow (p : StandardParams) (low : Bool) : (p.setMutationRate low).allowNoMutation = p.allowNoMutation := by
  unfold StandardParams.setMutationRate
  split <;> rfl

theorem selfAdjustingDecide_path [LinearOrder K] {val : BV → K} {q : SelfAdjustingParams} {s : AlgState K SelfAdjustingData}
    (hready : s.data.mutation.Ready (.standardBitMutation s.data.params)) (hs : SelfAdjustingPath q s)
    (ho : SelfAdjustingOption q s) {t : Nbh} (ht : s.data.mutation.Proposed (.standardBitMutation s.data.params) t)
    {E : AlgState K SelfAdjustingData → Prop} :
    Alg.Holds (selfAdjustingDecide q (val t.candidate))
      { s with
        data := { s.data with mutation := t }
        calls := s.calls ++ [(t.candidate, val t.candidate)] }
      (fun _ t => SelfAdjustingPath q t ∧ SelfAdjustingOption q t) E := by
  have hd : 1 ≤ differingBits s.data.mutation.origin t.candidate ∨ q.allowNoMutation = true := by
    rcases proposed_differing hready ht with h | h
    · exact .inl h
    · exact .inr (by rw [← ho]; exact h.2)
  unfold selfAdjustingDecide
  refine Alg.Holds.get_bind ?_
  split
  · rename_i hc
    refine Alg.Holds.returns_bind (keep_spec hready ht) ?_
    rintro b ⟨hb1, hb2, hb3, _⟩
    refine Alg.Holds.modify ⟨?_, (setMutationRate_allow _ _).trans ho⟩
    unfold SelfAdjustingPath
    simp only [hb3]
    exact HasPath.move hs hd (by unfold acceptNotWorse; simpa using hc)
  · rename_i hc
    refine Alg.Holds.returns_bind (forget_spec hready ht) ?_
    rintro b ⟨hb1, hb2, hb3, _⟩
    refine Alg.Holds.modify ⟨?_, (setMutationRate_allow _ _).trans ho⟩
    unfold SelfAdjustingPath
    simp only [hb3]
    exact HasPath.stay hs hd (by unfold acceptNotWorse; simpa using hc)

theorem selfAdjustingIterate_path [LinearOrder K] {env : Env K} {n : Nat} {val : BV → K} (henv : env.Computes n val)
    {q : SelfAdjustingParams}
    (hinc : q.incremental = true → env.fn.hasInc = true → env.fn.size = n ∧ IncrementalExact env.fn)
    (s : AlgState K SelfAdjustingData) (hs : SelfAdjustingInv n val q s) (hpath : SelfAdjustingPath q s)
    (ho : SelfAdjustingOption q s) :
    Alg.Holds (selfAdjustingIterate env q) s (fun _ t => SelfAdjustingPath q t ∧ SelfAdjustingOption q t)
      (SelfAdjustingPath q) := by
  have hE : ∀ t : Nbh, s.data.mutation.Proposed (.standardBitMutation s.data.params) t →
      SelfAdjustingPath q { s with data := { s.data with mutation := t } } := by
    intro t ht
    unfold SelfAdjustingPath
    simp only [ht.origin]
    exact hpath
  have hlen : ∀ t : Nbh, s.data.mutation.Proposed (.standardBitMutation s.data.params) t → t.candidate.length = n := by
    intro t ht
    rw [ht.candidate.1, hs.ready.origin, hs.size]
  have hprop : Alg.Holds selfAdjustingPropose s (fun _ u => ∃ t, s.data.mutation.Proposed (.standardBitMutation s.data.params) t ∧
      u = { s with data := { s.data with mutation := t } }) (SelfAdjustingPath q) := by
    unfold selfAdjustingPropose
    exact Alg.Holds.get_bind (Alg.Holds.sim_bind (propose_spec hs.ready) (fun t ht => Alg.Holds.modify ⟨t, ht, rfl⟩))
  unfold selfAdjustingIterate
  split
  · rename_i h
    simp only [Bool.and_eq_true] at h
    obtain ⟨hsz, hex⟩ := hinc h.1 h.2
    unfold selfAdjustingIterateIncremental
    refine hprop.bind ?_
    rintro _ _ ⟨t, ht, rfl⟩
    refine Alg.Holds.get_bind ?_
    dsimp only
    rw [hs.value, evaluateIncrementally_proposed henv hsz hex hs.ready hs.size ht]
    exact evaluate_bind henv (hlen t ht) (selfAdjustingDecide_path hs.ready hpath ho ht) (hE t ht)
  · unfold selfAdjustingIterateFull
    refine hprop.bind ?_
    rintro _ _ ⟨t, ht, rfl⟩
    exact Alg.Holds.get_bind (evaluate_bind henv (hlen t ht) (selfAdjustingDecide_path hs.ready hpath ho ht) (hE t ht))

theorem selfAdjustingMaximize_path [LinearOrder K] {env : Env K} {n : Nat} {val : BV → K} (henv : env.Computes n val)
    {q : SelfAdjustingParams}
    (hinc : q.incremental = true → env.fn.hasInc = true → env.fn.size = n ∧ IncrementalExact env.fn)
    {s : AlgState K SelfAdjustingData} (hs : s.solution.1.length = n)
    (hnbh : s.data.mutation.Valid (.standardBitMutation s.data.params)) (hn : s.data.mutation.n = n)
    (hcalls : s.calls = []) (numIterations : Int) (fuel : Nat) :
    Alg.Holds (selfAdjustingMaximize env q numIterations fuel) s (fun _ => SelfAdjustingPath q)
      (fun t => t.calls = [] ∨ SelfAdjustingPath q t) :=
  (algLoop_holds (fun t => SelfAdjustingInv n val q t ∧ SelfAdjustingPath q t ∧ SelfAdjustingOption q t)
    (fun t => t.calls = [] ∨ SelfAdjustingPath q t)
    (fun s hs _ => ((selfAdjustingIterate_holds henv hinc s hs.1).and
      (selfAdjustingIterate_path henv hinc s hs.1 hs.2.1 hs.2.2)).mono (fun _ _ h => h) (fun _ h => .inr h.2))
    (((selfAdjustingInit_holds henv hs hnbh hn hcalls).and (selfAdjustingInit_path henv hs hcalls)).mono (fun _ _ h => h)
      (fun _ h => .inl h.2)) numIterations fuel).mono (fun _ _ h => h.2.1) (fun _ h => h)

/-! ## Random walk -/

/-- The path of a random walk. -/
def WalkPath [LinearOrder K] (val : BV → K) (k : Sampler) (t : AlgState K (WalkData K)) : Prop :=
  HasPath k.Count acceptAll 1 t.calls (t.data.nbh.origin, val t.data.nbh.origin)

theorem walkInit_path [LinearOrder K] {env : Env K} {n : Nat} {val : BV → K} (henv : env.Computes n val)
    {p : StartParams} (hp : p.startingPoint.length = n) {k : Sampler} {s : AlgState K (WalkData K)}
    (hs : s.solution.1.length = n) (hcalls : s.calls = []) :
    Alg.Holds (walkInit env p) s (fun _ t => WalkPath val k t) (fun t => t.calls = []) := by
  unfold walkInit
  refine Alg.Holds.bind (P := fun _ t => ∃ x : BV, x.length = n ∧
    t = { s with solution := (x, val x), calls := s.calls ++ [(x, val x)] })
    (initSolution_holds henv hp hs (fun x hx => ⟨x, hx, rfl⟩) (fun x hx => hcalls)) ?_
  rintro _ _ ⟨x, hx, rfl⟩
  refine Alg.Holds.modify ?_
  unfold WalkPath
  simp only [hcalls]
  exact HasPath.first _

theorem walkIterate_path [LinearOrder K] {env : Env K} {n : Nat} {val : BV → K} (henv : env.Computes n val)
    {k : Sampler} {s : AlgState K (WalkData K)} (hs : WalkInv n val k s) (hpath : WalkPath val k s) :
    Alg.Holds (walkIterate env k false) s (fun _ t => WalkPath val k t)
      (fun t => HasPath k.Count acceptAll 1 t.calls (s.data.nbh.origin, val s.data.nbh.origin)) := by
  obtain ⟨hready, hsize, htc, hbest⟩ := hs
  unfold walkIterate
  rw [if_neg (by simp)]
  unfold walkIterateFull
  refine Alg.Holds.get_bind (Alg.Holds.sim_bind (propose_spec hready) (fun t ht => Alg.Holds.modify_bind ?_))
  have hlen : t.candidate.length = n := by rw [ht.candidate.1, hready.origin, hsize]
  refine evaluate_bind henv hlen ?_ hpath
  refine Alg.Holds.modify_bind (Alg.Holds.returns_bind (keep_spec hready ht) ?_)
  rintro b ⟨hb1, hb2, hb3, hb4⟩
  refine Alg.Holds.modify_bind ?_
  have hnew : HasPath k.Count acceptAll 1 (s.calls ++ [(t.candidate, val t.candidate)]) (b.origin, val b.origin) := by
    rw [hb3]
    exact HasPath.move hpath (proposed_differing hready ht) rfl
  unfold updateSolution
  refine Alg.Holds.modify ?_
  split <;> exact hnew

theorem walkMaximize_path [LinearOrder K] {env : Env K} {n : Nat} {val : BV → K} (henv : env.Computes n val)
    {p : StartParams} (hp : p.startingPoint.length = n) {k : Sampler} {s : AlgState K (WalkData K)}
    (hs : s.solution.1.length = n) (hnbh : s.data.nbh.Valid k) (hn : s.data.nbh.n = n) (hcalls : s.calls = [])
    (numIterations : Int) (fuel : Nat) :
    Alg.Holds (walkMaximize env p k false numIterations fuel) s
      (fun _ t => FirstBestOf t.calls t.solution ∧ ∃ pos, HasPath k.Count acceptAll 1 t.calls pos)
      (fun t => t.calls = [] ∨ (FirstBestOf t.calls t.solution ∧ ∃ pos, HasPath k.Count acceptAll 1 t.calls pos)) := by
  refine (algLoop_holds (fun t => WalkInv n val k t ∧ WalkPath val k t) (fun t => t.calls = [] ∨
    (FirstBestOf t.calls t.solution ∧ ∃ pos, HasPath k.Count acceptAll 1 t.calls pos)) ?_ ?_ _ _).mono
    (fun _ t h => ⟨h.1.best, _, h.2⟩) (fun _ h => h)
  · rintro t ⟨ht, hp⟩ _
    refine (Alg.Holds.and (P := fun _ t => WalkInv n val k t) (E := fun t => t.calls = [] ∨ FirstBestOf t.calls t.solution) ?_
      (walkIterate_path henv ht hp)).mono (fun _ _ h => h) (fun t h => h.1.imp_right (fun h1 => ⟨h1, _, h.2⟩))
    unfold walkIterate
    rw [if_neg (by simp)]
    exact (walkIterateFull_holds henv ht).mono (fun _ _ h => h.1) (fun _ h => h.2)
  · refine ((walkInit_holds henv hp hs hnbh hn hcalls).and (walkInit_path (k := k) henv hp hs hcalls)).mono
      (fun _ _ h => ⟨⟨h.1.1.ready, h.1.1.size, h.1.1.true_calls, h.1.1.best⟩, h.2⟩) (fun _ h => .inl h.2)

/-! ## Simulated annealing -/

/-- The path of simulated annealing. -/
def AnnealingPath [LinearOrder K] (k : Sampler) (first : Nat) (t : AlgState K (AnnealingData K)) : Prop :=
  HasPath k.Count acceptPossibly first t.calls (t.data.nbh.origin, t.data.currentValue)

theorem annealingInitBeta_path [LinearOrder K] {env : Env K} {n : Nat} {val : BV → K} (henv : env.Computes n val)
    {k : Sampler} {s : AlgState K (AnnealingData K)} (hnbh : s.data.nbh.Valid k) (hn : s.data.nbh.n = n)
    (hlen : s.solution.1.length = n) (numTrials : Nat) :
    Alg.Holds (annealingInitBeta env k numTrials) s
      (fun _ (t : AlgState K (AnnealingData K)) => t.calls.length = s.calls.length + 2 * numTrials)
      (fun t => t.calls.length < s.calls.length + 2 * numTrials) := by
  unfold annealingInitBeta
  refine Alg.Holds.get_bind ((Alg.Holds.forRange (fun j (t : AlgState K (AnnealingData K)) => t.data.nbh.Valid k ∧ t.data.nbh.n = n ∧
    t.calls.length = s.calls.length + 2 * j) (Nat.zero_le _) ⟨hnbh, hn, rfl⟩ ?_).mono (fun _ _ h => h.2.2) (fun _ h => h))
  rintro j t _ hj ⟨h1, h2, h3⟩
  rw [hlen]
  refine Alg.Holds.sim_bind (bvRandomBits_post n) (fun x hx => ?_)
  refine evaluate_bind henv hx ?_ (by omega)
  refine Alg.Holds.bind (P := fun _ (u : AlgState K (AnnealingData K)) => u.data = t.data ∧
    u.calls.length = s.calls.length + 2 * j + 1) ?_ ?_
  · unfold updateSolution
    refine Alg.Holds.modify ?_
    split <;> exact ⟨rfl, by simp [h3]⟩
  rintro _ u ⟨hu, h5⟩
  refine Alg.Holds.modify_bind (Alg.Holds.get_bind ?_)
  have hr : (u.data.nbh.setOrigin x).Ready k := by
    rw [hu]; exact setOrigin_ready h1 (by rw [h2]; exact hx)
  refine Alg.Holds.sim_bind (propose_spec hr) (fun b hb => Alg.Holds.modify_bind ?_)
  have hbl : b.candidate.length = n := by rw [hb.candidate.1]; exact hx
  refine evaluate_bind henv hbl ?_ (by dsimp only; omega)
  refine Alg.Holds.bind (P := fun _ (w : AlgState K (AnnealingData K)) => w.calls.length = s.calls.length + 2 * j + 2) ?_ ?_
  · unfold updateSolution
    refine Alg.Holds.modify ?_
    split <;> simp [h5]
  rintro _ w h7
  refine Alg.Holds.returns_bind (forget_spec hr hb) ?_
  rintro c ⟨hc1, hc2, _, _⟩
  refine Alg.Holds.modify ⟨hc1.toValid, ?_, by dsimp only; omega⟩
  rw [hc2]
  change u.data.nbh.n = n
  rw [hu, h2]

theorem annealingMaximize_path [LinearOrder K] {env : Env K} {n : Nat} {val : BV → K} (henv : env.Computes n val)
    {p : StartParams} (hp : p.startingPoint.length = n) {k : Sampler} {s : AlgState K (AnnealingData K)}
    (hs : s.solution.1.length = n) (hnbh : s.data.nbh.Valid k) (hn : s.data.nbh.n = n) (hcalls : s.calls = [])
    (numTrials numTransitions : Nat) (numIterations : Int) (fuel : Nat) :
    Alg.Holds (annealingMaximize env p k numTrials numTransitions numIterations fuel) s
      (fun _ t => ∃ pos, HasPath k.Count acceptPossibly (1 + 2 * numTrials) t.calls pos)
      (fun t => t.calls.length < 1 + 2 * numTrials ∨ ∃ pos, HasPath k.Count acceptPossibly (1 + 2 * numTrials) t.calls pos) := by
  refine (algLoop_holds (fun t => AnnealingInv n val k t ∧ AnnealingPath k (1 + 2 * numTrials) t) (fun t =>
    t.calls.length < 1 + 2 * numTrials ∨ ∃ pos, HasPath k.Count acceptPossibly (1 + 2 * numTrials) t.calls pos) ?_ ?_ _ _).mono
    (fun _ t h => ⟨_, h.2⟩) (fun _ h => h)
  · rintro t ⟨⟨h1, h2, h3, h4, h5, h6⟩, hp⟩ _
    unfold annealingIterate
    refine Alg.Holds.get_bind (Alg.Holds.sim_bind (propose_spec h1) (fun b hb => Alg.Holds.modify_bind ?_))
    have hbl : b.candidate.length = n := by rw [hb.candidate.1, h1.origin, h2]
    have hd := proposed_differing h1 hb
    refine evaluate_bind henv hbl ?_ (Or.inr ⟨_, hp⟩)
    refine Alg.Holds.bind (P := fun _ t => AnnealingInv n val k t ∧ AnnealingPath k (1 + 2 * numTrials) t) ?_ ?_
    · unfold annealingAccept
      refine Alg.Holds.get_bind ?_
      split
      · rename_i hle
        refine Alg.Holds.returns_bind (keep_spec h1 hb) ?_
        rintro c ⟨hc1, hc2, hc3, hc4⟩
        refine Alg.Holds.modify_bind ?_
        rw [hc3]
        refine updateSolution_holds (by rfl) (by rfl) hbl h3 h4 (fun sol h7 h8 h9 h10 => ?_)
        refine ⟨⟨hc1, hc2.trans h2, h7, h8, by simp only [hc3], h9⟩, ?_⟩
        unfold AnnealingPath
        simp only [hc3]
        exact HasPath.move hp hd (fun _ => rfl)
      · rename_i hle
        have hlt : val b.candidate ≤ t.solution.2 := le_trans (le_of_lt (not_le.mp hle)) h6
        refine Alg.Holds.sim_bind Sim.Post.bernoulli (fun a _ => ?_)
        split
        · refine Alg.Holds.returns_bind (keep_spec h1 hb) ?_
          rintro c ⟨hc1, hc2, hc3, hc4⟩
          refine Alg.Holds.modify ⟨⟨hc1, hc2.trans h2, h3.snoc hbl, h4.skip hlt, by simp only [hc3], hlt⟩, ?_⟩
          unfold AnnealingPath
          simp only [hc3]
          exact HasPath.move hp hd (fun _ => rfl)
        · refine Alg.Holds.returns_bind (forget_spec h1 hb) ?_
          rintro c ⟨hc1, hc2, hc3, hc4⟩
          refine Alg.Holds.modify ⟨⟨hc1, hc2.trans h2, h3.snoc hbl, h4.skip hlt, by simp only [hc3]; exact h5, h6⟩, ?_⟩
          unfold AnnealingPath
          simp only [hc3]
          exact HasPath.stay hp hd (fun h => absurd h hle)
    · rintro _ u ⟨hu, hup⟩
      refine Alg.Holds.modify ?_
      split
      · exact ⟨⟨hu.ready, hu.size, hu.true_calls, hu.best, hu.value, hu.current⟩, hup⟩
      · exact ⟨hu, hup⟩
  · unfold annealingInit
    refine Alg.Holds.bind (P := fun _ t => ∃ x : BV, x.length = n ∧
      t = { s with solution := (x, val x), calls := s.calls ++ [(x, val x)] })
      (initSolution_holds henv hp hs (fun x hx => ⟨x, hx, rfl⟩) (fun x hx => Or.inl (by simp [hcalls]))) ?_
    rintro _ _ ⟨x, hx, rfl⟩
    refine Alg.Holds.bind (P := fun _ (t : AlgState K (AnnealingData K)) => (t.data.nbh.Valid k ∧ t.data.nbh.n = n ∧
      TrueCalls n val t.calls ∧ FirstBestOf t.calls t.solution) ∧ t.calls.length = 1 + 2 * numTrials) ?_ ?_
    · refine ((annealingInitBeta_holds (s := { s with solution := (x, val x), calls := s.calls ++ [(x, val x)] })
        henv hnbh hn hx ?_ ?_ numTrials).and (annealingInitBeta_path
        (s := { s with solution := (x, val x), calls := s.calls ++ [(x, val x)] }) henv hnbh hn hx numTrials)).mono
        (fun _ _ h => ⟨h.1, by rw [h.2]; simp [hcalls]⟩) (fun _ h => Or.inl (lt_of_lt_of_eq h.2 (by simp [hcalls])))
      · simp only [hcalls]; exact TrueCalls.nil.snoc hx
      · simp only [hcalls]; exact FirstBestOf.single _
    · rintro _ t ⟨⟨h1, h2, h3, h4⟩, h7⟩
      obtain ⟨h5, h6⟩ := h3 _ h4.best.1
      refine Alg.Holds.modify ⟨⟨?_, h2, h3, h4, h6, le_refl _⟩, ?_⟩
      · exact setOrigin_ready h1 (by rw [h2]; exact h5)
      · exact ⟨t.calls, [], t.solution, by simp, h7, h4, .start⟩

end Hnco
