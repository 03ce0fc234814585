import Verif.Algorithm.Alg
import Mathlib.Order.Defs.LinearOrder

/-! # Specification and lemmas for search algorithms -/

namespace Hnco

open Outcome

variable {K σ : Type}

/-! ## Specification -/

/-- The function has value `val x` at each vector of size `n`, whenever it is not interrupted. -/
def Env.Computes (env : Env K) (n : Nat) (val : BV → K) : Prop :=
  ∀ x : BV, x.length = n → env.fn.eval x = ok (val x)

/-- All evaluated vectors have size `n`, and their values are those of the function. -/
def TrueCalls (n : Nat) (val : BV → K) (calls : List (BV × K)) : Prop :=
  ∀ c ∈ calls, c.1.length = n ∧ c.2 = val c.1

/-- The solution is an element of the list with greatest value. -/
def BestOf [LinearOrder K] (l : List (BV × K)) (s : BV × K) : Prop :=
  s ∈ l ∧ ∀ c ∈ l, c.2 ≤ s.2

/-- The solution is the first element of the list with greatest value. -/
def FirstBestOf [LinearOrder K] (l : List (BV × K)) (s : BV × K) : Prop :=
  ∃ before after, l = before ++ s :: after ∧ (∀ c ∈ before, c.2 < s.2) ∧ ∀ c ∈ after, c.2 ≤ s.2

/-! ## Lemmas -/

theorem FirstBestOf.best [LinearOrder K] {l : List (BV × K)} {s : BV × K} (h : FirstBestOf l s) : BestOf l s := by
  obtain ⟨before, after, rfl, h1, h2⟩ := h
  refine ⟨by simp, ?_⟩
  intro c hc
  rcases List.mem_append.mp hc with hc | hc
  · exact le_of_lt (h1 c hc)
  · rcases List.mem_cons.mp hc with rfl | hc
    · exact le_refl _
    · exact h2 c hc

theorem FirstBestOf.single [LinearOrder K] (s : BV × K) : FirstBestOf [s] s :=
  ⟨[], [], rfl, (by intro c hc; cases hc), (by intro c hc; cases hc)⟩

/-- The strict update keeps the first best. -/
theorem FirstBestOf.update [LinearOrder K] {l : List (BV × K)} {s : BV × K} (h : FirstBestOf l s) (c : BV × K) :
    FirstBestOf (l ++ [c]) (if s.2 < c.2 then c else s) := by
  by_cases hc : s.2 < c.2
  · rw [if_pos hc]
    refine ⟨l, [], rfl, ?_, by intro c hc; cases hc⟩
    intro d hd
    exact lt_of_le_of_lt (h.best.2 d hd) hc
  · rw [if_neg hc]
    obtain ⟨before, after, rfl, h1, h2⟩ := h
    refine ⟨before, after ++ [c], by simp, h1, ?_⟩
    intro d hd
    rcases List.mem_append.mp hd with hd | hd
    · exact h2 d hd
    · rw [List.mem_singleton.mp hd]; exact not_lt.mp hc

/-- An element which is not better changes nothing. -/
theorem FirstBestOf.skip [LinearOrder K] {l : List (BV × K)} {s : BV × K} (h : FirstBestOf l s) {c : BV × K}
    (hc : c.2 ≤ s.2) : FirstBestOf (l ++ [c]) s := by
  have := h.update c
  rwa [if_neg (not_lt.mpr hc)] at this

/-- The first best is unique. -/
theorem FirstBestOf.unique [LinearOrder K] {l : List (BV × K)} {s t : BV × K} (hs : FirstBestOf l s)
    (ht : FirstBestOf l t) : s = t := by
  have hst : s.2 = t.2 := le_antisymm (ht.best.2 s hs.best.1) (hs.best.2 t ht.best.1)
  obtain ⟨b1, a1, e1, h1, _⟩ := hs
  obtain ⟨b2, a2, e2, h2, _⟩ := ht
  rcases Nat.lt_trichotomy b1.length b2.length with h | h | h
  · exfalso
    have : s ∈ b2 := by
      have hg : l[b1.length]? = some s := by rw [e1]; simp
      rw [e2, List.getElem?_append_left h] at hg
      exact List.mem_of_getElem? hg
    exact absurd hst (ne_of_lt (h2 s this))
  · have h3 : l[b1.length]? = some s := by rw [e1]; simp
    have h4 : l[b2.length]? = some t := by rw [e2]; simp
    rw [h, h4] at h3
    exact (Option.some.inj h3).symm
  · exfalso
    have : t ∈ b1 := by
      have hg : l[b2.length]? = some t := by rw [e2]; simp
      rw [e1, List.getElem?_append_left h] at hg
      exact List.mem_of_getElem? hg
    exact absurd hst.symm (ne_of_lt (h1 t this))

theorem TrueCalls.snoc {n : Nat} {val : BV → K} {calls : List (BV × K)} (h : TrueCalls n val calls) {x : BV}
    (hx : x.length = n) : TrueCalls n val (calls ++ [(x, val x)]) := by
  intro c hc
  rcases List.mem_append.mp hc with hc | hc
  · exact h c hc
  · rw [List.mem_singleton.mp hc]; exact ⟨hx, rfl⟩

theorem TrueCalls.nil {n : Nat} {val : BV → K} : TrueCalls n val [] := by intro c hc; cases hc

theorem evaluate_holds {env : Env K} {n : Nat} {val : BV → K} (henv : env.Computes n val) {x : BV}
    (hx : x.length = n) {s : AlgState K σ} {Q : K → AlgState K σ → Prop} {E : AlgState K σ → Prop}
    (hQ : Q (val x) { s with calls := s.calls ++ [(x, val x)] }) (hE : E s) :
    Alg.Holds (evaluate env x) s Q E := by
  unfold Alg.Holds evaluate
  cases env.stop s.calls x with
  | some e => exact Sim.Post.pure hE
  | none =>
    simp only [henv x hx]
    exact Sim.Post.pure hQ

theorem evaluate_bind {α : Type} {env : Env K} {n : Nat} {val : BV → K} (henv : env.Computes n val) {x : BV}
    (hx : x.length = n) {s : AlgState K σ} {f : K → Alg (AlgState K σ) α} {Q : α → AlgState K σ → Prop}
    {E : AlgState K σ → Prop}
    (hQ : Alg.Holds (f (val x)) { s with calls := s.calls ++ [(x, val x)] } Q E) (hE : E s) :
    Alg.Holds (evaluate env x >>= f) s Q E :=
  Alg.Holds.bind (P := fun v t => v = val x ∧ t = { s with calls := s.calls ++ [(x, val x)] })
    (evaluate_holds henv hx ⟨rfl, rfl⟩ hE) (by rintro _ _ ⟨rfl, rfl⟩; exact hQ)

theorem bvRandomBits_post (n : Nat) : Sim.Post (bvRandomBits n) (fun x => x.length = n) := by
  unfold bvRandomBits
  refine Sim.Post.forRange (fun i (x : BV) => x.length = i) (Nat.zero_le _) rfl ?_
  intro i x _ _ hx
  exact Sim.Post.bernoulli.bind (fun b _ => Sim.Post.pure (by simp [hx]))

theorem randomSolution_holds {env : Env K} {n : Nat} {val : BV → K} (henv : env.Computes n val)
    {s : AlgState K σ} (hs : s.solution.1.length = n) {Q : Unit → AlgState K σ → Prop} {E : AlgState K σ → Prop}
    (hQ : ∀ x : BV, x.length = n →
      Q () { s with solution := (x, val x), calls := s.calls ++ [(x, val x)] })
    (hE : ∀ x : BV, x.length = n → E { s with solution := (x, s.solution.2) }) :
    Alg.Holds (randomSolution env) s Q E := by
  unfold randomSolution
  refine Alg.Holds.get_bind (Alg.Holds.sim_bind (bvRandomBits_post _) (fun x hx => Alg.Holds.modify_bind ?_))
  rw [hs] at hx
  exact evaluate_bind henv hx (Alg.Holds.modify (hQ x hx)) (hE x hx)

theorem setSolutionEval_holds {env : Env K} {n : Nat} {val : BV → K} (henv : env.Computes n val)
    {s : AlgState K σ} {x : BV} (hx : x.length = n) {Q : Unit → AlgState K σ → Prop} {E : AlgState K σ → Prop}
    (hQ : Q () { s with solution := (x, val x), calls := s.calls ++ [(x, val x)] }) (hE : E s) :
    Alg.Holds (setSolutionEval env x) s Q E := by
  unfold setSolutionEval
  exact evaluate_bind henv hx (Alg.Holds.modify hQ) hE

/-- The invariant rule for the loop: `I` holds before each iteration, `E` when an exception is thrown. -/
theorem boundedLoop_holds {iterate : Alg (AlgState K σ) Unit} (I E : AlgState K σ → Prop)
    (h : ∀ s, I s → s.lastIteration = false → Alg.Holds iterate s (fun _ => I) E) :
    ∀ k s, I s → Alg.Holds (boundedLoop iterate k) s (fun _ => I) E
  | 0, _, hs => Alg.Holds.pure hs
  | k + 1, s, hs => by
    unfold boundedLoop
    refine Alg.Holds.get_bind ?_
    split
    · exact Alg.Holds.pure hs
    · rename_i hl
      exact (h _ hs (by simpa using hl)).bind (fun _ t ht => boundedLoop_holds I E h k t ht)

theorem unboundedLoop_holds {iterate : Alg (AlgState K σ) Unit} (I E : AlgState K σ → Prop)
    (h : ∀ s, I s → s.lastIteration = false → Alg.Holds iterate s (fun _ => I) E) :
    ∀ k s, I s → Alg.Holds (unboundedLoop iterate k) s (fun _ t => I t ∧ t.lastIteration = true) E
  | 0, _, _ => fun _ => trivial
  | k + 1, s, hs => by
    unfold unboundedLoop
    refine Alg.Holds.get_bind ?_
    split
    · exact Alg.Holds.pure ⟨hs, by assumption⟩
    · rename_i hl
      exact (h _ hs (by simpa using hl)).bind (fun _ t ht => unboundedLoop_holds I E h k t ht)

theorem algLoop_holds {init iterate : Alg (AlgState K σ) Unit} (I E : AlgState K σ → Prop)
    (h : ∀ s, I s → s.lastIteration = false → Alg.Holds iterate s (fun _ => I) E) {s : AlgState K σ}
    (h0 : Alg.Holds init s (fun _ t => I { t with lastIteration := false }) E) (numIterations : Int) (fuel : Nat) :
    Alg.Holds (algLoop init iterate numIterations fuel) s (fun _ => I) E := by
  unfold algLoop
  refine h0.bind (fun _ t ht => ?_)
  refine Alg.Holds.modify_bind ?_
  split
  · exact boundedLoop_holds I E h _ _ ht
  · exact (unboundedLoop_holds I E h _ _ ht).mono (fun _ _ h => h.1) (fun _ h => h)

/-- If the loop is over after `k` iterations, then leaving out the bound changes nothing. -/
theorem unboundedLoop_eq {iterate : Alg (AlgState K σ) Unit} :
    ∀ k s ds, (match boundedLoop iterate k s ds with
      | .ok (.ok _, t) _ => t.lastIteration = true
      | _ => True) → unboundedLoop iterate (k + 1) s ds = boundedLoop iterate k s ds
  | 0, s, ds, h => by
    have h : s.lastIteration = true := h
    change (if s.lastIteration = true then (pure () : Alg (AlgState K σ) Unit) else _) s ds = _
    rw [if_pos h]
    rfl
  | k + 1, s, ds, h => by
    change (if s.lastIteration = true then (pure () : Alg (AlgState K σ) Unit) else
      (iterate >>= fun _ => unboundedLoop iterate (k + 1))) s ds =
      (if s.lastIteration = true then (pure () : Alg (AlgState K σ) Unit) else
      (iterate >>= fun _ => boundedLoop iterate k)) s ds
    change (match (if s.lastIteration = true then (pure () : Alg (AlgState K σ) Unit) else
      (iterate >>= fun _ => boundedLoop iterate k)) s ds with
      | .ok (.ok _, t) _ => t.lastIteration = true
      | _ => True) at h
    by_cases hl : s.lastIteration = true
    · rw [if_pos hl, if_pos hl]
    · rw [if_neg hl] at h ⊢
      rw [if_neg hl]
      rw [Alg.bind_apply] at h ⊢
      rw [Alg.bind_apply]
      cases e : iterate s ds with
      | ok r rest =>
        obtain ⟨r, t⟩ := r
        rw [e] at h
        cases r with
        | ok a => exact unboundedLoop_eq k t rest h
        | error e' => rfl
      | throw e' => rfl
      | ub => rfl
      | out => rfl

theorem maximizeAndFinalize_holds {S : Type} {maximize finalize : Alg S Unit} {s : S} {Q E F : S → Prop}
    (h : Alg.Holds maximize s (fun _ => Q) E) (h1 : ∀ t, Q t → Alg.Holds finalize t (fun _ => F) E)
    (h2 : ∀ t, E t → Alg.Holds finalize t (fun _ => F) E) :
    Alg.Holds (maximizeAndFinalize maximize finalize) s (fun _ => F) E := by
  unfold Alg.Holds maximizeAndFinalize
  refine Sim.Post.bind h ?_
  rintro ⟨r, t⟩ hr
  cases r with
  | ok a => exact h1 t hr
  | error e =>
    cases e with
    | lastEvaluation => exact h2 t hr
    | targetReached => exact Sim.Post.pure hr
    | runtimeError => exact Sim.Post.pure hr

end Hnco
