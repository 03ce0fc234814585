import Verif.Examples.Model
import Verif.App.FactoryGenerationProps
import Verif.App.HncoRunLemmas
import Verif.App.AlgorithmFactoryMoreProps
import Verif.App.MainMapLemmas

/-!
# Lemmas about the example programs
-/

namespace Hnco.Examples

open Outcome

variable {K : Type}

theorem run_def (m : MadeAlgorithm K) (env : Env K) (fuel : Nat) :
    m.run env fuel = Sim.bind (m.maximize env fuel m.start) fun r =>
      match r.1 with
      | .ok _ => Sim.bind (m.finalize r.2) fun f => pure ⟨f.1, f.2.solution, f.2.calls⟩
      | .error .lastEvaluation => Sim.bind (m.finalize r.2) fun f =>
        pure ⟨f.1.bind (fun _ => .error .lastEvaluation), f.2.solution, f.2.calls⟩
      | .error e => pure ⟨.error e, r.2.solution, r.2.calls⟩ := rfl

/-- From a run in the application to the end of a program which does not catch anything. -/
theorem finish_post {m : MadeAlgorithm K} {env : Env K} {fuel : Nat} {P : RunResult K → Prop} (h : Sim.Post (m.run env fuel) P)
    (hf : ∀ s, ∃ u, m.finalize s = pure (.ok (), u)) (hok : ∀ ds r rest, m.run env fuel ds = .ok r rest → r.ending = .ok ()) :
    Sim.Post (Sim.bind (m.maximize env fuel m.start) fun r =>
      match r.1 with
      | .ok _ => Sim.bind (m.finalize r.2) (showSolution [])
      | .error e => Sim.lift (.throw e)) (fun s => P ⟨.ok (), s.solution, s.calls⟩) := by
  intro ds
  have h1 := h ds
  have h2 := hok ds
  rw [run_def] at h1 h2
  unfold Sim.bind at h1 h2 ⊢
  cases hr : m.maximize env fuel m.start ds with
  | throw e => rw [hr] at h1; exact h1.elim
  | ub => rw [hr] at h1; exact h1.elim
  | out => trivial
  | ok a rest =>
    rw [hr] at h1 h2
    obtain ⟨a, t⟩ := a
    obtain ⟨u, hu⟩ := hf t
    cases a with
    | ok a =>
      dsimp only at h1 ⊢
      rw [hu] at h1 ⊢
      exact h1
    | error e =>
      exfalso
      cases e with
      | lastEvaluation =>
        dsimp only at h2
        rw [hu] at h2
        have := h2 _ _ rfl
        cases this
      | targetReached => have := h2 _ _ rfl; cases this
      | runtimeError => have := h2 _ _ rfl; cases this

/-- The same for a program which does not call `finalize`, where the algorithm has nothing to do in it. -/
theorem show_post {m : MadeAlgorithm K} {env : Env K} {fuel : Nat} {P : RunResult K → Prop} (h : Sim.Post (m.run env fuel) P)
    (hf : ∀ s, m.finalize s = pure (.ok (), s)) {caught : List Exn} {Q : Shown K → Prop}
    (hok : ∀ ds r rest, m.run env fuel ds = .ok r rest → P r →
      (∀ e, r.ending = .error e → e ∈ caught) ∧ Q ⟨r.solution, r.calls⟩) :
    Sim.Post (Sim.bind (m.maximize env fuel m.start) (showSolution caught)) Q := by
  intro ds
  have h1 := h ds
  have h2 := hok ds
  rw [run_def] at h1 h2
  unfold Sim.bind at h1 h2 ⊢
  cases hr : m.maximize env fuel m.start ds with
  | throw e => rw [hr] at h1; exact h1.elim
  | ub => rw [hr] at h1; exact h1.elim
  | out => trivial
  | ok a rest =>
    rw [hr] at h1 h2
    obtain ⟨a, t⟩ := a
    cases a with
    | ok a =>
      dsimp only at h1 h2 ⊢
      rw [hf] at h1 h2
      exact (h2 _ _ rfl h1).2
    | error e =>
      have key : (e ∈ caught) ∧ Q ⟨t.solution, t.calls⟩ := by
        cases e with
        | lastEvaluation =>
          dsimp only at h1 h2
          rw [hf] at h1 h2
          obtain ⟨q1, q2⟩ := h2 _ _ rfl h1
          exact ⟨q1 _ rfl, q2⟩
        | targetReached => obtain ⟨q1, q2⟩ := h2 _ _ rfl h1; exact ⟨q1 _ rfl, q2⟩
        | runtimeError => obtain ⟨q1, q2⟩ := h2 _ _ rfl h1; exact ⟨q1 _ rfl, q2⟩
      dsimp only [showSolution]
      rw [if_pos key.1]
      exact key.2

/-- The number of ones. -/
theorem countOnes_eq {n : Nat} {x : BV} (hx : x.length = n) : countOnes n x = ok (x.count true : Int) := by
  have h := forRange_returns (b := n) (body := fun i (result : Int) => do
    let b ← vget x i
    ok (if b then result + 1 else result)) (I := fun s (r : Int) => r = ((x.take s).count true : Nat)) (Nat.zero_le n) (s := 0)
    (by simp) (by
      rintro j r _ hj rfl
      rw [vget_eq (by omega), ok_bind, returns_ok]
      have hj' : j < x.length := by omega
      rw [List.take_add_one, List.count_append, List.getElem?_eq_getElem hj']
      cases x[j] <;> simp)
  obtain ⟨r, h1, h2⟩ := h
  unfold countOnes
  rw [h1, h2, ← hx, List.take_length]

theorem directEnv_computes {f : Fn K} {n : Nat} {g : BV → K} (h : ∀ x : BV, x.length = n → f.eval x = ok (g x)) :
    (directEnv f).Computes n g := h

theorem controlledEnv_computes {σ : Type} {f : Fn K} {obj : FnObj σ K} {init : σ} {n : Nat} {g : BV → K}
    (h : ∀ x : BV, x.length = n → f.eval x = ok (g x)) : (controlledEnv f obj init).Computes n g := h

/-- The state of the budget after evaluations. -/
theorem budget_state (f : Fn Int) (hf : ∀ x, ∃ v, f.eval x = ok v) (budget : Nat) (xs : List BV) :
    ((xs.foldl (fun s x => ((onBudget budget (FnObj.base f)).evaluate x s).2) (([], 0) : List (Call Int) × Nat))).2 =
      min xs.length budget := by
  induction xs using List.reverseRecOn with
  | nil => simp
  | append_singleton xs x ih =>
    obtain ⟨v, hv⟩ := hf x
    rw [List.foldl_append, List.foldl_cons, List.foldl_nil, List.length_append, List.length_singleton]
    generalize xs.foldl (fun s x => ((onBudget budget (FnObj.base f)).evaluate x s).2) (([], 0) : List (Call Int) × Nat) = s at *
    obtain ⟨l, c⟩ := s
    simp only at ih
    subst ih
    by_cases h : ((min xs.length budget : Nat) : Int) = budget
    · simp only [onBudget, budgetCheck, Act.bind_def, Act.get_def, h, if_true, Act.raise_def]
      omega
    · simp only [onBudget, budgetCheck, Act.bind_def, Act.get_def, h, if_false, Act.pure_def, callCounter, FnObj.base, Act.inner_def,
        Act.modify_def, Act.lift_def, hv, countCall]
      omega

theorem budget_stop (f : Fn Int) (hf : ∀ x, ∃ v, f.eval x = ok v) (budget : Nat) (calls : List (BV × Int)) (x : BV) :
    (controlledEnv f (onBudget budget (FnObj.base f)) ([], 0)).stop calls x =
      if budget ≤ calls.length then some .lastEvaluation else none := by
  have h := budget_state f hf budget (calls.map Prod.fst)
  obtain ⟨v, hv⟩ := hf x
  simp only [controlledEnv]
  generalize (calls.map Prod.fst).foldl (fun s x => ((onBudget budget (FnObj.base f)).evaluate x s).2)
    (([], 0) : List (Call Int) × Nat) = s at *
  obtain ⟨l, c⟩ := s
  simp only [List.length_map] at h
  subst h
  by_cases h : budget ≤ calls.length
  · have h' : ((min calls.length budget : Nat) : Int) = budget := by omega
    simp only [onBudget, budgetCheck, Act.bind_def, Act.get_def, h', if_true, Act.raise_def, h]
  · have h' : ¬ ((min calls.length budget : Nat) : Int) = budget := by omega
    simp only [onBudget, budgetCheck, Act.bind_def, Act.get_def, h', if_false, Act.pure_def, callCounter, FnObj.base, Act.inner_def,
        Act.modify_def, Act.lift_def, hv, countCall, h]

/-- The budget is not exceeded. -/
theorem budget_extends {f : Fn Int} (hf : ∀ x, ∃ v, f.eval x = ok v) {budget : Nat} {calls : List (BV × Int)}
    (h : (controlledEnv f (onBudget budget (FnObj.base f)) ([], 0)).Extends [] calls) : calls.length ≤ budget := by
  induction h with
  | refl => simp
  | snoc _ hs _ ih =>
    rw [budget_stop f hf] at hs
    split at hs
    · cases hs
    · simp; omega

/-- A controller which stops on a target interrupts the evaluations which reach it. -/
theorem target_evaluate {f : Fn Int} {target : Int} {x : BV} {v : Int} (hv : f.eval x = ok v)
    (s : List (Call Int) × Option (BV × Int)) :
    ((stopOnTarget target (FnObj.base f)).evaluate x s) =
      if target ≤ v then (.throw .targetReached, (s.1 ++ [.full x], some (x, v))) else (ok v, (s.1 ++ [.full x], s.2)) := by
  by_cases h : target ≤ v
  · simp only [stopOnTarget, FnObj.base, Act.bind_def, Act.inner_def, Act.modify_def, Act.lift_def, hv, targetCheck, if_pos h,
      Act.raise_def]
  · simp only [stopOnTarget, FnObj.base, Act.bind_def, Act.inner_def, Act.modify_def, Act.lift_def, hv, targetCheck, if_neg h,
      Act.pure_def]

/-- After whole generations of the (mu + lambda) EA, the solution is the best of all. -/
theorem plus_best [LinearOrder K] {mu lam : Nat} {breed : List (BV × K) → BV × K → BV → Prop}
    {survive : List (BV × K) → List (BV × K) → List (BV × K) → List (BV × K) → Prop}
    {calls kept : List (BV × K)} {sol : BV × K} (h : HasGenerations mu StartsWithAll lam breed survive calls kept sol) :
    BestOf calls sol ∧ ∃ j, calls.length = mu + lam * j := by
  obtain ⟨initial, later, kept₀, sol₀, rfl, hlen, ⟨rfl, h1⟩, h2⟩ := h
  subst hlen
  induction h2 with
  | start => exact ⟨by simpa using h1, 0, by simp⟩
  | @next later gen chosen kept kept' sol sol' _ hsize _ _ hi ih =>
    obtain ⟨⟨b1, b2⟩, j, hj⟩ := ih
    refine ⟨?_, j + 1, ?_⟩
    · rw [← List.append_assoc]
      rcases hi with ⟨rfl, hle⟩ | ⟨hmem, _, hlt, hle⟩
      · refine ⟨List.mem_append_left _ b1, fun c hc => ?_⟩
        rcases List.mem_append.mp hc with hc | hc
        · exact b2 c hc
        · exact hle c hc
      · refine ⟨List.mem_append_right _ hmem, fun c hc => ?_⟩
        rcases List.mem_append.mp hc with hc | hc
        · exact (b2 c hc).trans hlt.le
        · exact hle c hc
    · rw [← List.append_assoc, List.length_append, hj, hsize]
      ring

end Hnco.Examples
