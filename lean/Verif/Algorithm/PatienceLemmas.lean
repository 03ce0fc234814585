import Verif.Algorithm.PathLemmas

/-! # Lemmas on the patience of random local search -/

namespace Hnco

open Outcome

variable {K : Type}

theorem replay_snoc (accepts : K → K → Bool) (start : BV × K) (later : List (BV × K)) (c : BV × K) :
    replay accepts start (later ++ [c]) = if accepts c.2 (replay accepts start later).1.2 then (c, 0)
      else ((replay accepts start later).1, (replay accepts start later).2 + 1) := by
  unfold replay
  rw [List.foldl_append, List.foldl_cons, List.foldl_nil]

/-- The rejections so far, which have not reached the patience before the last evaluation. -/
structure Patient (p : RlsParams K) (start : BV × K) (later : List (BV × K)) (s : AlgState K RlsData) : Prop where
  calls : s.calls = start :: later
  replay : replay p.compare start later = ((s.data.nbh.origin, s.solution.2), s.data.numFailures)
  before : 0 < p.patience → ∀ j < later.length, (rejectedInARow p.compare start (later.take j) : Int) < p.patience
  last : 0 < p.patience → (s.data.numFailures : Int) ≤ p.patience ∧ (s.lastIteration = true ↔ (s.data.numFailures : Int) = p.patience)

/-- The same when a vector could not be evaluated. -/
structure PatientStop (p : RlsParams K) (start : BV × K) (later : List (BV × K)) (s : AlgState K RlsData) : Prop where
  calls : s.calls = start :: later
  before : 0 < p.patience → ∀ j < later.length, (rejectedInARow p.compare start (later.take j) : Int) < p.patience

theorem rlsInit_patience {env : Env K} {n : Nat} {val : BV → K} (henv : env.Computes n val)
    {p : RlsParams K} (hp : p.startingPoint.length = n) {s : AlgState K RlsData} (hs : s.solution.1.length = n)
    (hcalls : s.calls = []) :
    Alg.Holds (rlsInit env p) s (fun _ t => ∃ start, Patient p start [] { t with lastIteration := false })
      (fun t => t.calls = []) := by
  unfold rlsInit
  refine Alg.Holds.bind (P := fun _ t => ∃ x : BV, x.length = n ∧
    t = { s with solution := (x, val x), calls := s.calls ++ [(x, val x)] })
    (initSolution_holds henv hp hs (fun x hx => ⟨x, hx, rfl⟩) (fun x hx => hcalls)) ?_
  rintro _ _ ⟨x, hx, rfl⟩
  refine Alg.Holds.modify ⟨(x, val x), ⟨by simp [hcalls], rfl, fun _ j hj => absurd hj (by simp), fun h => ?_⟩⟩
  simp only [Nat.cast_zero]
  exact ⟨le_of_lt h, ⟨fun h' => (by cases h'), fun h' => absurd h' (by omega)⟩⟩

theorem rlsDecide_patience {val : BV → K} {p : RlsParams K} {s : AlgState K RlsData} {start : BV × K} {later : List (BV × K)}
    (hready : s.data.nbh.Ready p.sampler) (hl : s.lastIteration = false) (hs : Patient p start later s) {t : Nbh}
    (ht : s.data.nbh.Proposed p.sampler t) {E : AlgState K RlsData → Prop} :
    Alg.Holds (rlsDecide p (val t.candidate))
      { s with data := ⟨t, s.data.numFailures⟩, calls := s.calls ++ [(t.candidate, val t.candidate)] }
      (fun _ => Patient p start (later ++ [(t.candidate, val t.candidate)])) E := by
  have hb : 0 < p.patience → ∀ j < (later ++ [(t.candidate, val t.candidate)]).length,
      (rejectedInARow p.compare start ((later ++ [(t.candidate, val t.candidate)]).take j) : Int) < p.patience := by
    intro hp j hj
    rw [List.length_append, List.length_singleton] at hj
    rw [List.take_append_of_le_length (by omega)]
    by_cases h : j < later.length
    · exact hs.before hp j h
    · rw [List.take_of_length_le (by omega)]
      unfold rejectedInARow
      rw [hs.replay]
      obtain ⟨h1, h2⟩ := hs.last hp
      rw [hl] at h2
      have : ¬ (s.data.numFailures : Int) = p.patience := fun h => by cases h2.mpr h
      show (s.data.numFailures : Int) < p.patience
      omega
  have hlt : 0 < p.patience → (s.data.numFailures : Int) < p.patience := by
    intro hp
    obtain ⟨h1, h2⟩ := hs.last hp
    rw [hl] at h2
    have : ¬ (s.data.numFailures : Int) = p.patience := fun h => by cases h2.mpr h
    omega
  unfold rlsDecide
  refine Alg.Holds.bind (P := fun _ u => u.lastIteration = false ∧
    u.calls = start :: (later ++ [(t.candidate, val t.candidate)]) ∧
    replay p.compare start (later ++ [(t.candidate, val t.candidate)]) = ((u.data.nbh.origin, u.solution.2), u.data.numFailures) ∧
    (0 < p.patience → (u.data.numFailures : Int) ≤ p.patience)) ?_ ?_
  · unfold rlsAccept
    refine Alg.Holds.get_bind ?_
    split
    · rename_i hc
      refine Alg.Holds.returns_bind (keep_spec hready ht) ?_
      rintro b ⟨hb1, hb2, hb3, _⟩
      refine Alg.Holds.modify ⟨hl, by simp [hs.calls], ?_, fun h => by simp only [Nat.cast_zero]; exact le_of_lt h⟩
      rw [replay_snoc, hs.replay, if_pos hc]
      simp only [hb3]
    · rename_i hc
      refine Alg.Holds.returns_bind (forget_spec hready ht) ?_
      rintro b ⟨hb1, hb2, hb3, _⟩
      refine Alg.Holds.modify ⟨hl, by simp [hs.calls], ?_, fun h => ?_⟩
      · rw [replay_snoc, hs.replay, if_neg hc]
        simp only [hb3]
      · have := hlt h
        push_cast
        omega
  · rintro _ u ⟨h1, h2, h3, h4⟩
    refine Alg.Holds.modify ?_
    split
    · rename_i hc
      exact ⟨h2, h3, hb, fun h => ⟨h4 h, ⟨fun _ => hc.2, fun _ => rfl⟩⟩⟩
    · rename_i hc
      refine ⟨h2, h3, hb, fun h => ⟨h4 h, ⟨fun h' => ?_, fun h' => absurd ⟨h, h'⟩ hc⟩⟩⟩
      rw [h1] at h'; cases h'

theorem rlsIterate_patience [LinearOrder K] {env : Env K} {n : Nat} {val : BV → K} (henv : env.Computes n val) {p : RlsParams K}
    (hinc : p.incremental = true → env.fn.hasInc = true → env.fn.size = n ∧ IncrementalExact env.fn)
    {s : AlgState K RlsData} (hinv : RlsInv n val p s) (hl : s.lastIteration = false) {start : BV × K} {later : List (BV × K)}
    (hs : Patient p start later s) :
    Alg.Holds (rlsIterate env p) s (fun _ t => ∃ c, Patient p start (later ++ [c]) t) (PatientStop p start later) := by
  have hlen : ∀ t : Nbh, s.data.nbh.Proposed p.sampler t → t.candidate.length = n := by
    intro t ht
    rw [ht.candidate.1, hinv.ready.origin, hinv.size]
  have hE : ∀ t : Nbh, PatientStop p start later { s with data := ⟨t, s.data.numFailures⟩ } := fun t => ⟨hs.calls, hs.before⟩
  have hd : ∀ t, s.data.nbh.Proposed p.sampler t → Alg.Holds (rlsDecide p (val t.candidate))
      { s with data := ⟨t, s.data.numFailures⟩, calls := s.calls ++ [(t.candidate, val t.candidate)] }
      (fun _ t => ∃ c, Patient p start (later ++ [c]) t) (PatientStop p start later) :=
    fun t ht => (rlsDecide_patience hinv.ready hl hs ht).mono (fun _ _ h => ⟨_, h⟩) (fun _ h => h)
  unfold rlsIterate
  split
  · rename_i h
    simp only [Bool.and_eq_true] at h
    obtain ⟨hsz, hex⟩ := hinc h.1 h.2
    unfold rlsIterateIncremental
    refine Alg.Holds.get_bind (Alg.Holds.sim_bind (propose_spec hinv.ready) (fun t ht => Alg.Holds.modify_bind ?_))
    rw [hinv.value, evaluateIncrementally_proposed henv hsz hex hinv.ready hinv.size ht]
    exact evaluate_bind henv (hlen t ht) (hd t ht) (hE t)
  · unfold rlsIterateFull
    refine Alg.Holds.get_bind (Alg.Holds.sim_bind (propose_spec hinv.ready) (fun t ht => Alg.Holds.modify_bind ?_))
    exact evaluate_bind henv (hlen t ht) (hd t ht) (hE t)

theorem rlsMaximize_patience [LinearOrder K] {env : Env K} {n : Nat} {val : BV → K} (henv : env.Computes n val)
    {p : RlsParams K} (hcomp1 : ∀ a b, p.compare a b = true → b ≤ a) (hcomp2 : ∀ a b, p.compare a b = false → a ≤ b)
    (hinc : p.incremental = true → env.fn.hasInc = true → env.fn.size = n ∧ IncrementalExact env.fn)
    (hp : p.startingPoint.length = n) {s : AlgState K RlsData} (hs : s.solution.1.length = n)
    (hnbh : s.data.nbh.Valid p.sampler) (hn : s.data.nbh.n = n) (hcalls : s.calls = []) (numIterations : Int) (fuel : Nat) :
    Alg.Holds (rlsMaximize env p numIterations fuel) s
      (fun _ t => ∃ start later, Patient p start later t ∧
        (t.lastIteration = true ∨ (0 < numIterations ∧ later.length = numIterations.toNat)))
      (fun t => t.calls = [] ∨ ∃ start later, PatientStop p start later t) := by
  have step : ∀ (s : AlgState K RlsData) start later, RlsInv n val p s ∧ Patient p start later s → s.lastIteration = false →
      Alg.Holds (rlsIterate env p) s (fun _ t => RlsInv n val p t ∧ ∃ c, Patient p start (later ++ [c]) t)
        (fun t => t.calls = [] ∨ ∃ start later, PatientStop p start later t) := fun s start later hs hl =>
    ((rlsIterate_holds henv hcomp1 hcomp2 hinc s hs.1 hl).and (rlsIterate_patience henv hinc hs.1 hl hs.2)).mono
      (fun _ _ h => h) (fun _ h => .inr ⟨_, _, h.2⟩)
  have bounded : ∀ (k : Nat) (s : AlgState K RlsData) start later, RlsInv n val p s → Patient p start later s →
      Alg.Holds (boundedLoop (rlsIterate env p) k) s (fun _ t => ∃ start' later', Patient p start' later' t ∧
        (t.lastIteration = true ∨ later'.length = later.length + k))
        (fun t => t.calls = [] ∨ ∃ start later, PatientStop p start later t) := by
    intro k
    induction k with
    | zero => exact fun s start later _ h => Alg.Holds.pure ⟨_, _, h, .inr rfl⟩
    | succ k ih =>
      intro s start later h1 h2
      unfold boundedLoop
      refine Alg.Holds.get_bind ?_
      split
      · exact Alg.Holds.pure ⟨_, _, h2, .inl (by assumption)⟩
      · rename_i hl
        refine (step s start later ⟨h1, h2⟩ (by simpa using hl)).bind ?_
        rintro _ t ⟨h3, c, h4⟩
        refine (ih t start (later ++ [c]) h3 h4).mono ?_ (fun _ h => h)
        rintro _ u ⟨a, b, h5, h6⟩
        refine ⟨a, b, h5, h6.imp_right (fun h => ?_)⟩
        rw [h, List.length_append, List.length_singleton]
        omega
  unfold rlsMaximize algLoop
  refine Alg.Holds.bind (P := fun _ (t : AlgState K RlsData) => RlsInv n val p { t with lastIteration := false } ∧
    ∃ start later, Patient p start later { t with lastIteration := false } ∧ later.length = 0) ?_ ?_
  · refine ((rlsInit_holds henv hp hs hnbh hn hcalls).and (rlsInit_patience henv hp hs hcalls)).mono ?_ (fun _ h => .inl h.2)
    rintro _ t ⟨h1, start, h2⟩
    exact ⟨h1, start, [], h2, rfl⟩
  · rintro _ t ⟨h1, start, later, h2, h3⟩
    refine Alg.Holds.modify_bind ?_
    split
    · rename_i hk
      refine (bounded _ _ start later h1 h2).mono ?_ (fun _ h => h)
      rintro _ u ⟨a, b, h4, h5⟩
      exact ⟨a, b, h4, h5.imp_right (fun h => ⟨hk, by omega⟩)⟩
    · refine (unboundedLoop_holds (fun t => RlsInv n val p t ∧ ∃ start later, Patient p start later t) _ ?_ _ _
        ⟨h1, start, later, h2⟩).mono ?_ (fun _ h => h)
      · rintro s ⟨h4, a, b, h5⟩ hl
        exact (step s a b ⟨h4, h5⟩ hl).mono (fun _ _ h => ⟨h.1, _, _, h.2.choose_spec⟩) (fun _ h => h)
      · rintro _ u ⟨⟨_, a, b, h5⟩, h6⟩
        exact ⟨a, b, h5, .inl h6⟩

end Hnco
