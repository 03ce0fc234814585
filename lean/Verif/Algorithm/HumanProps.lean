import Verif.Algorithm.Human
import Verif.Algorithm.AlgLemmas
import Verif.BitVector.Lemmas

/-! # C78: the human algorithm -/

namespace Hnco

open Outcome

variable {K : Type}

/-! ## Specification -/

/-- The bit vectors of size `n` given by the words which come before `quit`: short words are ignored, long ones are cut, and any
character but zero is a one. -/
def humanVectors (n : Nat) (words : List (List Char)) : List BV :=
  ((words.takeWhile (fun w => decide (w ≠ "quit".toList))).filter (fun w => decide (n ≤ w.length))).map
    (fun w => (w.take n).map (fun c => decide (c ≠ '0')))

/-- The evaluations of a list of vectors. -/
def evaluations (val : BV → K) (xs : List BV) : List (BV × K) := xs.map (fun x => (x, val x))

/-! ## Lemmas -/

theorem humanVectors_nil (n : Nat) : humanVectors n [] = [] := rfl

theorem humanVectors_quit (n : Nat) (ws : List (List Char)) : humanVectors n ("quit".toList :: ws) = [] := by
  simp [humanVectors]

theorem humanVectors_short {n : Nat} {w : List Char} (hq : w ≠ "quit".toList) (h : w.length < n) (ws : List (List Char)) :
    humanVectors n (w :: ws) = humanVectors n ws := by
  unfold humanVectors
  rw [List.takeWhile_cons_of_pos (by simpa using hq), List.filter_cons_of_neg (by simpa using h)]

theorem humanVectors_long {n : Nat} {w : List Char} (hq : w ≠ "quit".toList) (h : n ≤ w.length) (ws : List (List Char)) :
    humanVectors n (w :: ws) = (w.take n).map (fun c => decide (c ≠ '0')) :: humanVectors n ws := by
  unfold humanVectors
  rw [List.takeWhile_cons_of_pos (by simpa using hq), List.filter_cons_of_pos (by simpa using h)]
  rfl

theorem humanVectors_length {n : Nat} {ws : List (List Char)} {x : BV} (h : x ∈ humanVectors n ws) : x.length = n := by
  unfold humanVectors at h
  obtain ⟨w, hw, rfl⟩ := List.mem_map.mp h
  have := (List.mem_filter.mp hw).2
  simp only [decide_eq_true_eq] at this
  simp [this]

/-- One turn of the loop which reads a vector. -/
theorem humanParse_step (n fuel : Nat) (s : AlgState K HumanData) (ds : List Nat) {w : List Char} {ws : List (List Char)}
    (h0 : s.data.input.headD [] = w) (h1 : s.data.input.tail = ws) :
    humanParse n (fuel + 1) s ds =
      if w = "quit".toList then .ok (.error .lastEvaluation, { s with data := ⟨s.data.candidate, ws⟩ }) ds
      else if w.length < n then humanParse n fuel { s with data := ⟨w.map (fun c => c != '0'), ws⟩ } ds
      else .ok (.ok (), { s with data := ⟨(w.take n).map (fun c => decide (c ≠ '0')), ws⟩ }) ds := by
  conv => lhs; unfold humanParse
  have hget : ∀ (t : AlgState K HumanData), (Alg.get : Alg (AlgState K HumanData) _) t ds = .ok (.ok t, t) ds := fun _ => rfl
  have hmod : ∀ (g : AlgState K HumanData → AlgState K HumanData) t, Alg.modify g t ds = .ok (.ok (), g t) ds := fun _ _ => rfl
  have hlift : ∀ (y : BV) (t : AlgState K HumanData), Alg.lift (ok y) t ds = .ok (.ok y, t) ds := fun _ _ => rfl
  simp only [Alg.bind_apply, hget, hmod, h0, h1]
  by_cases hq : w = "quit".toList
  · simp only [hq, if_true]; rfl
  · simp only [if_neg hq, Alg.bind_apply, bvFromString_ok, hlift, hmod, List.length_map]
    by_cases hl : w.length < n
    · simp only [if_pos hl]
    · have e : (fun c : Char => c != '0') = (fun c => decide (c ≠ '0')) := by
        funext c; by_cases h : c = '0' <;> simp [h]
      by_cases hg : n < w.length
      · simp only [if_neg hl, if_pos hg, hmod, e, List.map_take]
      · simp only [if_neg hl, if_neg hg, e, List.take_of_length_le (show w.length ≤ n by omega)]
        rfl

/-- Reading a vector. -/
theorem humanParse_run {n : Nat} (hn : 0 < n) : ∀ (fuel : Nat) (s : AlgState K HumanData) (ds : List Nat),
    (∀ x xs, humanVectors n s.data.input = x :: xs → s.data.input.length < fuel →
      ∃ rest, humanParse n fuel s ds = .ok (.ok (), { s with data := ⟨x, rest⟩ }) ds ∧ humanVectors n rest = xs ∧
        rest.length < s.data.input.length ∧ ("quit".toList ∈ rest ↔ "quit".toList ∈ s.data.input)) ∧
    (humanVectors n s.data.input = [] → "quit".toList ∈ s.data.input → s.data.input.length < fuel →
      ∃ d, humanParse n fuel s ds = .ok (.error .lastEvaluation, { s with data := d }) ds) ∧
    (humanVectors n s.data.input = [] → "quit".toList ∉ s.data.input → humanParse n fuel s ds = .out) := by
  intro fuel
  induction fuel with
  | zero => intro s ds; exact ⟨fun _ _ _ h => absurd h (by omega), fun _ _ h => absurd h (by omega), fun _ _ => rfl⟩
  | succ fuel ih =>
    intro s ds
    cases hi : s.data.input with
    | nil =>
      refine ⟨fun x xs h => by simp [humanVectors] at h, fun _ h => by simp at h, fun _ _ => ?_⟩
      rw [humanParse_step n fuel s ds (w := []) (ws := []) (by rw [hi]; rfl) (by rw [hi]; rfl), if_neg (by decide),
        if_pos (by simpa using hn)]
      exact (ih _ ds).2.2 rfl (by simp)
    | cons w ws =>
      have step := humanParse_step n fuel s ds (w := w) (ws := ws) (by rw [hi]; rfl) (by rw [hi]; rfl)
      by_cases hq : w = "quit".toList
      · subst hq
        rw [if_pos rfl] at step
        refine ⟨(by intro x xs h; rw [humanVectors_quit] at h; cases h), fun _ _ _ => ⟨_, step⟩, fun _ h => ?_⟩
        exact absurd List.mem_cons_self h
      · rw [if_neg hq] at step
        have hmem : ("quit".toList ∈ w :: ws ↔ "quit".toList ∈ ws) := by
          rw [List.mem_cons]
          exact ⟨fun h => h.resolve_left (fun e => hq e.symm), Or.inr⟩
        by_cases hl : w.length < n
        · rw [if_pos hl] at step
          rw [humanVectors_short hq hl, step, hmem]
          obtain ⟨i1, i2, i3⟩ := ih { s with data := ⟨w.map (fun c => c != '0'), ws⟩ } ds
          refine ⟨fun x xs h hf => ?_, fun h1 h2 hf => ?_, i3⟩
          · obtain ⟨rest, e, e1, e2, e3⟩ := i1 x xs h (by simp at hf ⊢; omega)
            exact ⟨rest, e, e1, by simp at e2 ⊢; omega, e3⟩
          · obtain ⟨d, e⟩ := i2 h1 h2 (by simp at hf ⊢; omega)
            exact ⟨d, e⟩
        · rw [if_neg hl] at step
          rw [humanVectors_long hq (by omega), step]
          refine ⟨?_, (by intro h; cases h), (by intro h; cases h)⟩
          intro x xs h _
          obtain ⟨rfl, rfl⟩ := List.cons.inj h
          exact ⟨ws, rfl, rfl, by simp, hmem.symm⟩

theorem evaluate_run {σ : Type} {env : Env K} {n : Nat} {val : BV → K} (henv : env.Computes n val)
    (hstop : ∀ c x, env.stop c x = none) {x : BV} (hx : x.length = n) (s : AlgState K σ) (ds : List Nat) :
    evaluate env x s ds = .ok (.ok (val x), { s with calls := s.calls ++ [(x, val x)] }) ds := by
  unfold evaluate
  rw [hstop]
  simp only [henv x hx]
  rfl

section
variable [LinearOrder K] {env : Env K} {n : Nat} {val : BV → K}

/-- An iteration. -/
theorem humanIterate_run (hn : 0 < n) (henv : env.Computes n val) (hstop : ∀ c x, env.stop c x = none) (fuel : Nat)
    (s : AlgState K HumanData) (ds : List Nat) :
    (∀ x xs, humanVectors n s.data.input = x :: xs → s.data.input.length < fuel →
      ∃ rest, humanIterate env n fuel s ds = .ok (.ok (), { s with
          data := ⟨x, rest⟩, calls := s.calls ++ [(x, val x)],
          solution := if s.solution.2 < val x then (x, val x) else s.solution }) ds ∧ humanVectors n rest = xs ∧
        rest.length < s.data.input.length ∧ ("quit".toList ∈ rest ↔ "quit".toList ∈ s.data.input)) ∧
    (humanVectors n s.data.input = [] → "quit".toList ∈ s.data.input → s.data.input.length < fuel →
      ∃ d, humanIterate env n fuel s ds = .ok (.error .lastEvaluation, { s with data := d }) ds) ∧
    (humanVectors n s.data.input = [] → "quit".toList ∉ s.data.input → humanIterate env n fuel s ds = .out) := by
  obtain ⟨p1, p2, p3⟩ := humanParse_run hn fuel s ds
  unfold humanIterate
  refine ⟨fun x xs h hf => ?_, fun h1 h2 hf => ?_, fun h1 h2 => ?_⟩
  · obtain ⟨rest, e, e1, e2, e3⟩ := p1 x xs h hf
    refine ⟨rest, ?_, e1, e2, e3⟩
    have hx : x.length = n := humanVectors_length (by rw [h]; exact List.mem_cons_self)
    simp only [Alg.bind_apply, e, Alg.get, pure, evaluate_run henv hstop hx, updateSolution, Alg.modify]
    by_cases hv : s.solution.2 < val x
    · simp only [if_pos hv]
    · simp only [if_neg hv]
  · obtain ⟨d, e⟩ := p2 h1 h2 hf
    exact ⟨d, by simp only [Alg.bind_apply, e]⟩
  · simp only [Alg.bind_apply, p3 h1 h2]

omit [LinearOrder K] in
/-- The initialization. -/
theorem humanInit_run (hn : 0 < n) (henv : env.Computes n val) (hstop : ∀ c x, env.stop c x = none) (fuel : Nat)
    (s : AlgState K HumanData) (ds : List Nat) :
    (∀ x xs, humanVectors n s.data.input = x :: xs → s.data.input.length < fuel →
      ∃ rest, humanInit env n fuel s ds = .ok (.ok (), { s with
          data := ⟨x, rest⟩, calls := s.calls ++ [(x, val x)], solution := (x, val x) }) ds ∧ humanVectors n rest = xs ∧
        rest.length < s.data.input.length ∧ ("quit".toList ∈ rest ↔ "quit".toList ∈ s.data.input)) ∧
    (humanVectors n s.data.input = [] → "quit".toList ∈ s.data.input → s.data.input.length < fuel →
      ∃ d, humanInit env n fuel s ds = .ok (.error .lastEvaluation, { s with data := d }) ds) ∧
    (humanVectors n s.data.input = [] → "quit".toList ∉ s.data.input → humanInit env n fuel s ds = .out) := by
  obtain ⟨p1, p2, p3⟩ := humanParse_run hn fuel s ds
  unfold humanInit
  refine ⟨fun x xs h hf => ?_, fun h1 h2 hf => ?_, fun h1 h2 => ?_⟩
  · obtain ⟨rest, e, e1, e2, e3⟩ := p1 x xs h hf
    refine ⟨rest, ?_, e1, e2, e3⟩
    have hx : x.length = n := humanVectors_length (by rw [h]; exact List.mem_cons_self)
    simp only [Alg.bind_apply, e, Alg.get, pure, evaluate_run henv hstop hx, setSolution, Alg.modify]
  · obtain ⟨d, e⟩ := p2 h1 h2 hf
    exact ⟨d, by simp only [Alg.bind_apply, e]⟩
  · simp only [Alg.bind_apply, p3 h1 h2]

/-- At most `k` more iterations. -/
theorem humanBounded_run (hn : 0 < n) (henv : env.Computes n val) (hstop : ∀ c x, env.stop c x = none) (fuel : Nat)
    (ds : List Nat) : ∀ (k : Nat) (s : AlgState K HumanData), s.lastIteration = false → FirstBestOf s.calls s.solution →
    (k ≤ (humanVectors n s.data.input).length → s.data.input.length < fuel →
      ∃ t, boundedLoop (humanIterate env n fuel) k s ds = .ok (.ok (), t) ds ∧
        t.calls = s.calls ++ evaluations val ((humanVectors n s.data.input).take k) ∧ FirstBestOf t.calls t.solution) ∧
    ((humanVectors n s.data.input).length < k → "quit".toList ∈ s.data.input → s.data.input.length < fuel →
      ∃ t, boundedLoop (humanIterate env n fuel) k s ds = .ok (.error .lastEvaluation, t) ds ∧
        t.calls = s.calls ++ evaluations val (humanVectors n s.data.input) ∧ FirstBestOf t.calls t.solution) ∧
    ((humanVectors n s.data.input).length < k → "quit".toList ∉ s.data.input → s.data.input.length < fuel →
      boundedLoop (humanIterate env n fuel) k s ds = .out) := by
  intro k
  induction k with
  | zero =>
    intro s _ hb
    exact ⟨fun _ _ => ⟨s, rfl, by simp [evaluations], hb⟩, fun h => absurd h (by omega), fun h => absurd h (by omega)⟩
  | succ k ih =>
    intro s hl hb
    obtain ⟨p1, p2, p3⟩ := humanIterate_run hn henv hstop fuel s ds
    have unfolded : boundedLoop (humanIterate env n fuel) (k + 1) s ds =
        (humanIterate env n fuel >>= fun _ => boundedLoop (humanIterate env n fuel) k) s ds := by
      conv => lhs; unfold boundedLoop
      have hget : (Alg.get : Alg (AlgState K HumanData) _) s ds = .ok (.ok s, s) ds := rfl
      rw [Alg.bind_apply, hget]
      simp only [hl]
      rfl
    rw [unfolded]
    cases hv : humanVectors n s.data.input with
    | nil =>
      refine ⟨fun h => by simp at h, fun _ h2 hf => ?_, fun _ h2 _ => ?_⟩
      · obtain ⟨d, e⟩ := p2 hv h2 hf
        refine ⟨{ s with data := d }, by simp only [Alg.bind_apply, e], by simp [evaluations], hb⟩
      · simp only [Alg.bind_apply, p3 hv h2]
    | cons x xs =>
      have next : s.data.input.length < fuel → ∃ u : AlgState K HumanData, u.lastIteration = false ∧
          FirstBestOf u.calls u.solution ∧ u.calls = s.calls ++ [(x, val x)] ∧ humanVectors n u.data.input = xs ∧
          u.data.input.length < fuel ∧ ("quit".toList ∈ u.data.input ↔ "quit".toList ∈ s.data.input) ∧
          (humanIterate env n fuel >>= fun _ => boundedLoop (humanIterate env n fuel) k) s ds =
            boundedLoop (humanIterate env n fuel) k u ds := by
        intro hf
        obtain ⟨rest, e, e1, e2, e3⟩ := p1 x xs hv hf
        refine ⟨{ s with
          data := ⟨x, rest⟩, calls := s.calls ++ [(x, val x)],
          solution := if s.solution.2 < val x then (x, val x) else s.solution }, ?_, ?_, ?_, ?_, ?_, ?_,
          by simp only [Alg.bind_apply, e]⟩
        · exact hl
        · exact hb.update (x, val x)
        · rfl
        · exact e1
        · exact Nat.lt_trans e2 hf
        · exact e3
      refine ⟨fun h hf => ?_, fun h h2 hf => ?_, fun h h2 hf => ?_⟩
      all_goals
        obtain ⟨u, u1, u2, u3, u4, u5, u6, u7⟩ := next hf
        obtain ⟨i1, i2, i3⟩ := ih u u1 u2
        rw [u4] at i1 i2 i3
        simp only [List.length_cons] at h
        rw [u7]
      · obtain ⟨t, t1, t2, t3⟩ := i1 (by omega) u5
        exact ⟨t, t1, by rw [t2, u3]; simp [evaluations], t3⟩
      · obtain ⟨t, t1, t2, t3⟩ := i2 (by omega) (u6.mpr h2) u5
        exact ⟨t, t1, by rw [t2, u3]; simp [evaluations], t3⟩
      · exact i3 (by omega) (fun hq => h2 (u6.mp hq)) u5

/-- Iterations without limit. -/
theorem humanUnbounded_run (hn : 0 < n) (henv : env.Computes n val) (hstop : ∀ c x, env.stop c x = none) (fuel : Nat)
    (ds : List Nat) : ∀ (k : Nat) (s : AlgState K HumanData), s.lastIteration = false → FirstBestOf s.calls s.solution →
    s.data.input.length < fuel → (humanVectors n s.data.input).length < k →
    ("quit".toList ∈ s.data.input →
      ∃ t, unboundedLoop (humanIterate env n fuel) k s ds = .ok (.error .lastEvaluation, t) ds ∧
        t.calls = s.calls ++ evaluations val (humanVectors n s.data.input) ∧ FirstBestOf t.calls t.solution) ∧
    ("quit".toList ∉ s.data.input → unboundedLoop (humanIterate env n fuel) k s ds = .out) := by
  intro k
  induction k with
  | zero => intro s _ _ _ h; exact absurd h (by omega)
  | succ k ih =>
    intro s hl hb hf h
    obtain ⟨p1, p2, p3⟩ := humanIterate_run hn henv hstop fuel s ds
    have unfolded : unboundedLoop (humanIterate env n fuel) (k + 1) s ds =
        (humanIterate env n fuel >>= fun _ => unboundedLoop (humanIterate env n fuel) k) s ds := by
      conv => lhs; unfold unboundedLoop
      have hget : (Alg.get : Alg (AlgState K HumanData) _) s ds = .ok (.ok s, s) ds := rfl
      rw [Alg.bind_apply, hget]
      simp only [hl]
      rfl
    rw [unfolded]
    cases hv : humanVectors n s.data.input with
    | nil =>
      refine ⟨fun h2 => ?_, fun h2 => ?_⟩
      · obtain ⟨d, e⟩ := p2 hv h2 hf
        exact ⟨{ s with data := d }, by simp only [Alg.bind_apply, e], by simp [evaluations], hb⟩
      · simp only [Alg.bind_apply, p3 hv h2]
    | cons x xs =>
      obtain ⟨rest, e, e1, e2, e3⟩ := p1 x xs hv hf
      rw [hv] at h
      simp only [List.length_cons] at h
      simp only [Alg.bind_apply, e]
      obtain ⟨i1, i2⟩ := ih { s with
          data := ⟨x, rest⟩, calls := s.calls ++ [(x, val x)],
          solution := if s.solution.2 < val x then (x, val x) else s.solution } hl (hb.update (x, val x))
          (Nat.lt_trans e2 hf) (by simp only [e1]; omega)
      refine ⟨fun h2 => ?_, fun h2 => i2 (fun hq => h2 (e3.mp hq))⟩
      obtain ⟨t, t1, t2, t3⟩ := i1 (e3.mpr h2)
      exact ⟨t, t1, by rw [t2]; simp [evaluations, e1], t3⟩

theorem humanVectors_le (n : Nat) (ws : List (List Char)) : (humanVectors n ws).length ≤ ws.length := by
  unfold humanVectors
  rw [List.length_map]
  exact Nat.le_trans (List.length_filter_le _ _) (List.takeWhile_sublist _).length_le

/-- After the initialization. -/
theorem humanMaximize_init (hn : 0 < n) (henv : env.Computes n val) (hstop : ∀ c x, env.stop c x = none) {fuel : Nat}
    (numIterations : Int) {s : AlgState K HumanData} (hs : s.calls = []) (hf : s.data.input.length < fuel) (ds : List Nat)
    {x : BV} {xs : List BV} (hv : humanVectors n s.data.input = x :: xs) :
    ∃ u : AlgState K HumanData, u.lastIteration = false ∧ FirstBestOf u.calls u.solution ∧ u.calls = [(x, val x)] ∧
      humanVectors n u.data.input = xs ∧ u.data.input.length < fuel ∧
      ("quit".toList ∈ u.data.input ↔ "quit".toList ∈ s.data.input) ∧
      humanMaximize env n numIterations fuel s ds = (if numIterations > 0 then
        boundedLoop (humanIterate env n fuel) numIterations.toNat else unboundedLoop (humanIterate env n fuel) fuel) u ds := by
  obtain ⟨rest, e, e1, e2, e3⟩ := (humanInit_run hn henv hstop fuel s ds).1 x xs hv hf
  refine ⟨{ s with data := ⟨x, rest⟩, calls := s.calls ++ [(x, val x)], solution := (x, val x), lastIteration := false },
    rfl, ?_, by simp [hs], e1, Nat.lt_trans e2 hf, e3, ?_⟩
  · simp only [hs, List.nil_append]
    exact FirstBestOf.single _
  · unfold humanMaximize algLoop
    simp only [Alg.bind_apply, e, Alg.modify, pure]

/-- What holds at any point of a run on the words `ws`: the first vectors have been evaluated, and the solution is the first best
of them. -/
def HumanSeen (n : Nat) (val : BV → K) (ws : List (List Char)) (start : BV × K) (s : AlgState K HumanData) : Prop :=
  ∃ k, s.calls = evaluations val ((humanVectors n ws).take k) ∧
    (s.calls ≠ [] → FirstBestOf s.calls s.solution) ∧ (s.calls = [] → s.solution = start)

/-- The invariant: also, the other vectors are in the input. -/
def HumanInv (n fuel : Nat) (val : BV → K) (ws : List (List Char)) (s : AlgState K HumanData) : Prop :=
  s.data.input.length < fuel ∧ FirstBestOf s.calls s.solution ∧
    ∃ done, humanVectors n ws = done ++ humanVectors n s.data.input ∧ s.calls = evaluations val done

theorem HumanInv.seen {fuel : Nat} {ws : List (List Char)} {start : BV × K} {s : AlgState K HumanData}
    (h : HumanInv n fuel val ws s) : HumanSeen n val ws start s := by
  obtain ⟨_, hb, done, h1, h2⟩ := h
  refine ⟨done.length, by rw [h1, h2, List.take_left], fun _ => hb, fun hc => ?_⟩
  rw [hc] at hb
  exact absurd hb.best.1 (by simp)

/-- Reading a vector changes only the input; an exception leaves the rest unchanged. -/
theorem humanParse_holds (hn : 0 < n) {fuel : Nat} {s : AlgState K HumanData} (hf : s.data.input.length < fuel)
    {Q : Unit → AlgState K HumanData → Prop} {E : AlgState K HumanData → Prop}
    (hQ : ∀ x rest, x.length = n → humanVectors n s.data.input = x :: humanVectors n rest → rest.length < fuel →
      Q () { s with data := ⟨x, rest⟩ }) (hE : ∀ d, E { s with data := d }) : Alg.Holds (humanParse n fuel) s Q E := by
  intro ds
  obtain ⟨p1, p2, p3⟩ := humanParse_run hn fuel s ds
  cases hv : humanVectors n s.data.input with
  | nil =>
    by_cases hq : "quit".toList ∈ s.data.input
    · obtain ⟨d, e⟩ := p2 hv hq hf
      rw [e]; exact hE d
    · rw [p3 hv hq]; trivial
  | cons x xs =>
    obtain ⟨rest, e, rfl, e2, _⟩ := p1 x xs hv hf
    rw [e]
    exact hQ x rest (humanVectors_length (by rw [hv]; exact List.mem_cons_self)) hv (Nat.lt_trans e2 hf)

/-! ## Properties -/

/-- C78: if the function is not interrupted, the vectors which are evaluated are those of the words before `quit`, in this order,
up to the number of iterations plus one; the solution is the first best of them.  The exception which ends a run when `quit` is
read is the one which the application catches.  If `quit` comes before any vector, the solution is not changed. -/
theorem human_run (hn : 0 < n) (henv : env.Computes n val) (hstop : ∀ c x, env.stop c x = none) {fuel : Nat}
    (numIterations : Int) {s : AlgState K HumanData} (hs : s.calls = []) (hf : s.data.input.length < fuel) (ds : List Nat) :
    (0 < numIterations → numIterations.toNat < (humanVectors n s.data.input).length →
      ∃ t, humanMaximize env n numIterations fuel s ds = .ok (.ok (), t) ds ∧
        t.calls = evaluations val ((humanVectors n s.data.input).take (numIterations.toNat + 1)) ∧
        FirstBestOf t.calls t.solution) ∧
    (numIterations ≤ 0 ∨ (humanVectors n s.data.input).length ≤ numIterations.toNat → "quit".toList ∈ s.data.input →
      ∃ t, humanMaximize env n numIterations fuel s ds = .ok (.error .lastEvaluation, t) ds ∧
        t.calls = evaluations val (humanVectors n s.data.input) ∧
        (humanVectors n s.data.input ≠ [] → FirstBestOf t.calls t.solution) ∧
        (humanVectors n s.data.input = [] → t.solution = s.solution)) := by
  cases hv : humanVectors n s.data.input with
  | nil =>
    refine ⟨fun _ h => by simp at h, fun _ hq => ?_⟩
    obtain ⟨d, e⟩ := (humanInit_run hn henv hstop fuel s ds).2.1 hv hq hf
    refine ⟨{ s with data := d }, ?_, by simp [hs, evaluations], fun h => absurd rfl h, fun _ => rfl⟩
    unfold humanMaximize algLoop
    simp only [Alg.bind_apply, e]
  | cons x xs =>
    obtain ⟨u, u1, u2, u3, u4, u5, u6, u7⟩ := humanMaximize_init hn henv hstop numIterations hs hf ds hv
    refine ⟨fun h0 hlen => ?_, fun hlen hq => ?_⟩
    · rw [u7, if_pos h0]
      obtain ⟨t, t1, t2, t3⟩ := (humanBounded_run hn henv hstop fuel ds numIterations.toNat u u1 u2).1
        (by rw [u4]; simpa [Nat.lt_succ_iff] using hlen) u5
      exact ⟨t, t1, by rw [t2, u3, u4]; simp [evaluations], t3⟩
    · have hne : x :: xs ≠ [] := by simp
      by_cases h0 : numIterations > 0
      · rw [u7, if_pos h0]
        have hlen := hlen.resolve_left (by omega)
        obtain ⟨t, t1, t2, t3⟩ := (humanBounded_run hn henv hstop fuel ds numIterations.toNat u u1 u2).2.1
          (by rw [u4]; simp only [List.length_cons] at hlen; omega) (u6.mpr hq) u5
        exact ⟨t, t1, by rw [t2, u3, u4]; simp [evaluations], fun _ => t3, fun h => absurd h hne⟩
      · rw [u7, if_neg h0]
        obtain ⟨t, t1, t2, t3⟩ := (humanUnbounded_run hn henv hstop fuel ds fuel u u1 u2 u5
          (Nat.lt_of_le_of_lt (humanVectors_le _ _) u5)).1 (u6.mpr hq)
        exact ⟨t, t1, by rw [t2, u3, u4]; simp [evaluations], fun _ => t3, fun h => absurd h hne⟩

/-- C78: whenever and however calls of the function are interrupted, the vectors evaluated so far are the first ones of the
input, the solution is the first best of them, and the state is so also after an exception. -/
theorem human_interrupted (hn : 0 < n) (henv : env.Computes n val) {fuel : Nat} (numIterations : Int)
    {s : AlgState K HumanData} (hs : s.calls = []) (hf : s.data.input.length < fuel) :
    Alg.Holds (humanMaximize env n numIterations fuel) s (fun _ => HumanSeen n val s.data.input s.solution)
      (HumanSeen n val s.data.input s.solution) := by
  unfold humanMaximize
  refine (algLoop_holds (HumanInv n fuel val s.data.input) (HumanSeen n val s.data.input s.solution) ?_ ?_ numIterations
    fuel).mono (fun _ _ h => h.seen) (fun _ h => h)
  · intro t ht _
    have seen := ht.seen (start := s.solution)
    obtain ⟨h1, hb, done, h2, h3⟩ := ht
    unfold humanIterate
    refine (humanParse_holds hn h1 (Q := fun _ u => ∃ x rest, x.length = n ∧
      humanVectors n t.data.input = x :: humanVectors n rest ∧ rest.length < fuel ∧ u = { t with data := ⟨x, rest⟩ })
      (fun x rest e1 e2 e3 => ⟨x, rest, e1, e2, e3, rfl⟩) (fun _ => seen)).bind ?_
    rintro _ _ ⟨x, rest, e1, e2, e3, rfl⟩
    refine Alg.Holds.get_bind (evaluate_bind henv e1 (Alg.Holds.modify ?_) seen)
    have goal : HumanInv n fuel val s.data.input { t with
        data := ⟨x, rest⟩, calls := t.calls ++ [(x, val x)],
        solution := if t.solution.2 < val x then (x, val x) else t.solution } :=
      ⟨e3, hb.update (x, val x), done ++ [x], by rw [h2, e2]; simp, by simp [h3, evaluations]⟩
    by_cases hv : t.solution.2 < val x
    · simp only [if_pos hv] at goal ⊢; exact goal
    · simp only [if_neg hv] at goal ⊢; exact goal
  · have seen : ∀ d, HumanSeen n val s.data.input s.solution { s with data := d } :=
      fun _ => ⟨0, by simp [hs, evaluations], fun h => absurd hs h, fun _ => rfl⟩
    unfold humanInit
    refine (humanParse_holds hn hf (Q := fun _ u => ∃ x rest, x.length = n ∧
      humanVectors n s.data.input = x :: humanVectors n rest ∧ rest.length < fuel ∧ u = { s with data := ⟨x, rest⟩ })
      (fun x rest e1 e2 e3 => ⟨x, rest, e1, e2, e3, rfl⟩) seen).bind ?_
    rintro _ _ ⟨x, rest, e1, e2, e3, rfl⟩
    refine Alg.Holds.get_bind (evaluate_bind henv e1 (Alg.Holds.modify ?_) (seen _))
    exact ⟨e3, by simp only [hs, List.nil_append]; exact FirstBestOf.single _, [x], by rw [e2]; rfl, by simp [hs, evaluations]⟩

/-- C78 (negative part): if the input ends without `quit` before the number of iterations is reached then the run never ends,
however long it is observed: at the end of the input an empty vector is read again and again. -/
theorem human_endless (hn : 0 < n) (henv : env.Computes n val) (hstop : ∀ c x, env.stop c x = none) {fuel : Nat}
    (numIterations : Int) {s : AlgState K HumanData} (hs : s.calls = []) (hf : s.data.input.length < fuel) (ds : List Nat)
    (hlen : numIterations ≤ 0 ∨ (humanVectors n s.data.input).length ≤ numIterations.toNat)
    (hq : "quit".toList ∉ s.data.input) : humanMaximize env n numIterations fuel s ds = .out := by
  cases hv : humanVectors n s.data.input with
  | nil =>
    have e := (humanInit_run hn henv hstop fuel s ds).2.2 hv hq
    unfold humanMaximize algLoop
    simp only [Alg.bind_apply, e]
  | cons x xs =>
    obtain ⟨u, u1, u2, u3, u4, u5, u6, u7⟩ := humanMaximize_init hn henv hstop numIterations hs hf ds hv
    have hq' : "quit".toList ∉ u.data.input := fun h => hq (u6.mp h)
    by_cases h0 : numIterations > 0
    · rw [u7, if_pos h0]
      have hlen := hlen.resolve_left (by omega)
      rw [hv] at hlen
      exact (humanBounded_run hn henv hstop fuel ds numIterations.toNat u u1 u2).2.2 (by rw [u4]; simp only [List.length_cons] at hlen; omega) hq' u5
    · rw [u7, if_neg h0]
      exact (humanUnbounded_run hn henv hstop fuel ds fuel u u1 u2 u5
        (Nat.lt_of_le_of_lt (humanVectors_le _ _) u5)).2 hq'

end

/-! ## Examples -/

/-- The number of ones. -/
def humanExampleEnv : Env Nat := ⟨Fn.ofEval 3 (fun x => ok (x.count true)), fun _ _ => none⟩

def humanExampleStart : AlgState Nat HumanData :=
  ⟨([false, false, false], 0), false, [], ⟨[false, false, false], ["01", "0100", "1x0", "110", "quit", "111"].map String.toList⟩⟩

example : humanExampleEnv.Computes 3 (fun x => x.count true) := fun _ _ => rfl

example : humanVectors 3 humanExampleStart.data.input = [[false, true, false], [true, true, false], [true, true, false]] := by
  decide +kernel

/-- Two vectors with one iteration; all of them without limit, until `quit`. -/
example : (match humanMaximize humanExampleEnv 3 1 7 humanExampleStart [] with
    | .ok (.ok _, t) _ => some (t.solution, t.calls.length)
    | _ => none) = some (([true, true, false], 2), 2) := by decide +kernel

example : (match humanMaximize humanExampleEnv 3 0 7 humanExampleStart [] with
    | .ok (.error .lastEvaluation, t) _ => some (t.solution, t.calls.length)
    | _ => none) = some (([true, true, false], 2), 3) := by decide +kernel

/-- Three vectors are not enough for three iterations. -/
example : humanMaximize humanExampleEnv 3 3 100
    { humanExampleStart with data := ⟨[], ["010", "110", "111"].map String.toList⟩ } [] = .out :=
  human_endless (n := 3) (val := fun x => x.count true) (by decide) (fun _ _ => rfl) (fun _ _ => rfl) 3 rfl (by decide) []
    (.inr (by decide +kernel)) (by decide +kernel)

end Hnco
