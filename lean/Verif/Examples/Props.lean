import Verif.Examples.Lemmas

/-!
# The example programs print what they should (C105)
-/

namespace Hnco.Examples

open Outcome

/-! ## Specification -/

/-- As many vectors of `n` bits as `count` have been evaluated, the values are their numbers of ones, and the vector which is printed
is one of them with the greatest number of ones. -/
structure PrintsBest (n count : Nat) (s : Shown Int) : Prop where
  evaluations : s.calls.length = count
  values : ∀ c ∈ s.calls, c.1.length = n ∧ c.2 = (c.1.count true : Int)
  printed : s.solution ∈ s.calls
  best : ∀ c ∈ s.calls, c.1.count true ≤ s.solution.1.count true

theorem PrintsBest.of_values {n count : Nat} {s : Shown Int} (h1 : s.calls.length = count)
    (h2 : ∀ c ∈ s.calls, c.1.length = n ∧ c.2 = (c.1.count true : Int)) (h3 : s.solution ∈ s.calls)
    (h4 : ∀ c ∈ s.calls, c.2 ≤ s.solution.2) : PrintsBest n count s := by
  refine ⟨h1, h2, h3, fun c hc => ?_⟩
  have := h4 c hc
  rw [(h2 c hc).2, (h2 _ h3).2] at this
  exact_mod_cast this

/-! ## Programs without controllers -/

theorem direct_ends {lib : AlgLib} {o : AlgOptions} {n : Nat} {m : MadeAlgorithm Int} {f : Fn Int} (hq : NoRefusal o)
    (h30 : o.algorithm ≠ 30) (h : makeAlgorithm lib o n = .own (ok m)) (hf : ∀ x e, f.eval x ≠ .throw e) {fuel : Nat}
    {ds rest : List Nat} {r : RunResult Int} (hr : m.run (directEnv f) fuel ds = .ok r rest) : r.ending = .ok () := by
  cases he : r.ending with
  | ok a => rfl
  | error e =>
    exfalso
    rcases makeAlgorithm_interrupted hq h30 h hr he with ⟨x, hx⟩ | ⟨x, hx⟩ | ⟨x, v, l, hx⟩
    · cases hx
    · exact hf x e hx
    · cases hx

theorem runOk_best {n : Nat} {k : Int} (hk : 0 < k) {r : RunResult Int}
    (h : RunOk n (fun x => (x.count true : Int)) k (.sequential 1) r) (he : r.ending = .ok ()) :
    PrintsBest n (1 + k.toNat) ⟨r.solution, r.calls⟩ := by
  obtain ⟨c1, c2⟩ := h.cost hk
  have c3 := c2 he rfl
  simp only [Plan.sequential, mul_one] at c1 c3
  exact .of_values (Nat.le_antisymm c1 c3) h.values (h.finished he).1 (h.finished he).2

/-- C105: the algorithms of the programs mutate with rate `1 / n`. -/
theorem examples_rate (n : Nat) (k mu lam : Int) :
    madeRate (eaOptions k) n = 1 / (n : Rat) ∧ madeRate (plusOptions mu lam) n = 1 / (n : Rat) := ⟨rfl, rfl⟩

/-- C105: the program `basic` evaluates one vector and then one per iteration, and prints one of them with the greatest number of
ones, with its value.  Its behaviour is defined, and no exception is raised. -/
theorem basic_prints {n : Nat} (hn : 0 < n) {k : Int} (hk : 0 < k) (fuel : Nat) :
    Sim.Post (basic n k fuel) (PrintsBest n (1 + k.toNat)) := by
  obtain ⟨s, e, _⟩ := (construct_ready (.standardBitMutation newStandard) n).1 hn
  unfold basic
  obtain ⟨m, hm, hrun⟩ := makeOnePlusOneEa_ok (K := Int) (o := eaOptions k) hn
    ⟨directEnv_computes (f := oneMax n) (n := n) (fun x _ => oneMax_value n x), by intro h; cases h⟩
  rw [hm, sim_bind_ok]
  have hmade : makeAlgorithm (K := Int) exampleAlgLib (eaOptions k) n = .own (ok m) := by rw [← hm]; rfl
  have hfin : ∀ s, ∃ u, m.finalize s = pure (.ok (), u) := by
    unfold makeOnePlusOneEa at hm
    simp only [e, algorithmNew_pos hn, ok_bind, Outcome.made, Outcome.ok.injEq] at hm
    subst hm
    exact fun s => ⟨_, rfl⟩
  have hend : ∀ ds r rest, m.run (directEnv (oneMax n)) fuel ds = .ok r rest → r.ending = .ok () :=
    fun ds r rest hr => direct_ends ⟨by simp [eaOptions], by simp [eaOptions], by simp [eaOptions], by simp [eaOptions]⟩ (by simp [eaOptions]) hmade
      (fun x e h => by rw [oneMax_value] at h; cases h) hr
  exact (finish_post (hrun fuel) hfin hend).mono fun s hs => runOk_best hk hs rfl

/-- C105: the program `custom` evaluates one vector and then one per iteration, and prints one of them with the greatest number of
ones, with its value.  Its behaviour is defined, and no exception is raised. -/
theorem custom_prints {n : Nat} (hn : 0 < n) {k : Int} (hk : 0 < k) (fuel : Nat) :
    Sim.Post (custom n k fuel) (PrintsBest n (1 + k.toNat)) := by
  unfold custom
  have hmy : myAlgorithm (K := Int) k n = makeRandomSearch { algorithm := 10, numIterations := k } n := rfl
  obtain ⟨m, hm, hrun⟩ := makeRandomSearch_ok (K := Int) (o := { algorithm := 10, numIterations := k }) hn
    (directEnv_computes (f := myFunction n) (n := n) (fun x hx => countOnes_eq hx))
  rw [hmy, hm, sim_bind_ok]
  have hmade : makeAlgorithm (K := Int) exampleAlgLib { algorithm := 10, numIterations := k } n = .own (ok m) := by rw [← hm]; rfl
  have hfin : ∀ s, m.finalize s = pure (.ok (), s) := by
    unfold makeRandomSearch at hm
    simp only [algorithmNew_pos hn, Outcome.made, Outcome.ok.injEq] at hm
    subst hm
    exact fun s => rfl
  refine show_post (hrun fuel) hfin fun ds r rest hr hP => ?_
  have hend : r.ending = .ok () := direct_ends ⟨by simp, by simp, by simp, by simp⟩ (by simp) hmade
    (fun x e h => by
      have : Outcome.Calm (countOnes n x) := by unfold countOnes; infer_instance
      exact this.out e h) hr
  exact ⟨fun e he => (by rw [hend] at he; cases he), runOk_best hk hP hend⟩

/-! ## Programs with controllers -/

theorem post_and {α : Type} {m : Sim α} {P Q : α → Prop} (h1 : Sim.Post m P) (h2 : Sim.Post m Q) :
    Sim.Post m (fun a => P a ∧ Q a) := by
  intro ds
  have h1 := h1 ds
  have h2 := h2 ds
  cases hr : m ds <;> rw [hr] at h1 h2
  · exact ⟨h1, h2⟩
  · exact h1
  · exact h1
  · trivial

theorem onBudgetFunction_run {n : Nat} (hn : 0 < n) {budget : Nat} {mu lam : Int} (hmu : 1 ≤ mu) (hlam : 1 ≤ lam) (fuel : Nat) :
    Sim.Post (onBudgetFunction n budget mu lam fuel) (fun s => s.calls.length = budget ∧
      (∀ c ∈ s.calls, c.1.length = n ∧ c.2 = (c.1.count true : Int)) ∧
      ((budget : Int) < mu ∨ ∃ done late, s.calls = done ++ late ∧ (late.length : Int) < lam ∧ BestOf done s.solution ∧
        ∃ j : Nat, (done.length : Int) = mu + lam * j)) := by
  unfold onBudgetFunction
  set o := plusOptions mu lam with ho
  set env := controlledEnv (oneMax n) (onBudget (budget : Int) (FnObj.base (oneMax n))) ([], 0) with henv
  have hf : ∀ x, ∃ v, (oneMax n).eval x = ok v := fun x => ⟨_, oneMax_value n x⟩
  have hcomp : env.Computes n (fun x => (x.count true : Int)) := controlledEnv_computes (fun x _ => oneMax_value n x)
  obtain ⟨m, hmade, hgen⟩ := makeAlgorithm_mu_plus_lambda_generations (K := Int) (o := o) (lib := exampleAlgLib) rfl hn hmu hlam hcomp
  have hm : makeMuPlusLambda (K := Int) o n = ok m := FactoryResult.own.inj hmade
  obtain ⟨m', hm', hrun⟩ := makeMuPlusLambda_ok (K := Int) (o := o) hn hmu hlam hcomp
  rw [hm] at hm'
  cases hm'
  rw [hm, sim_bind_ok]
  have hfin : ∀ s, m.finalize s = pure (.ok (), s) := by
    obtain ⟨p, q, b, pool, hd, -, -⟩ := muPlus_made (K := Int) (o := o) hn hmu hlam
    unfold makeMuPlusLambda at hm
    rw [algorithmNew_pos hn, ok_bind, hd] at hm
    simp only [Outcome.made, Outcome.ok.injEq] at hm
    subst hm
    exact fun s => rfl
  refine show_post (post_and (hrun fuel) (hgen fuel)) hfin ?_
  rintro ds r rest hr ⟨h1, h2⟩
  have hle : r.calls.length ≤ budget := budget_extends hf ((makeAlgorithm_steady (by simp [ho, plusOptions]) hmade).extends hr)
  have hend : r.ending = .error .lastEvaluation ∧ budget ≤ r.calls.length := by
    cases he : r.ending with
    | ok a => exact (h1.endless le_rfl rfl he).elim
    | error e =>
      rcases makeAlgorithm_interrupted (by constructor <;> simp [ho, plusOptions]) (by simp [ho, plusOptions]) hmade hr he with
        ⟨x, hx⟩ | ⟨x, hx⟩ | ⟨x, v, l, hx⟩
      · rw [henv, budget_stop _ hf] at hx
        split at hx
        · cases hx
          exact ⟨rfl, by assumption⟩
        · cases hx
      · exfalso
        change (oneMax n).eval x = _ at hx
        rw [oneMax_value] at hx
        cases hx
      · cases hx
  refine ⟨fun e he => (by rw [hend.1] at he; cases he; simp), Nat.le_antisymm hle hend.2, h1.values, ?_⟩
  have hmu' : ((o.eaMu.toNat : Nat) : Int) = mu := Int.toNat_of_nonneg (by show 0 ≤ mu; omega)
  have hlam' : ((o.eaLambda.toNat : Nat) : Int) = lam := Int.toNat_of_nonneg (by show 0 ≤ lam; omega)
  rcases h2 with ⟨kept, hg⟩ | ⟨_, hlt | ⟨done, late, kept, h3, hg, h4, _⟩⟩
  · obtain ⟨b1, j, b2⟩ := plus_best hg
    exact .inr ⟨r.calls, [], by simp, by simp; omega, b1, j, by rw [b2]; push_cast; rw [hmu', hlam']⟩
  · left; omega
  · obtain ⟨b1, j, b2⟩ := plus_best hg
    exact .inr ⟨done, late, h3, by omega, b1, j, by rw [b2]; push_cast; rw [hmu', hlam']⟩

/-- C105: the program `on-budget-function` uses up its budget; if it is the size of a population of parents and of whole populations
of offsprings, then the program prints a vector with the greatest number of ones among those which have been evaluated, with its
value.  Its behaviour is defined, and the only exception is caught. -/
theorem onBudgetFunction_prints {n : Nat} (hn : 0 < n) {mu lam j : Nat} (hmu : 1 ≤ mu) (hlam : 1 ≤ lam) (fuel : Nat) :
    Sim.Post (onBudgetFunction n (mu + lam * j : Nat) mu lam fuel) (PrintsBest n (mu + lam * j)) := by
  refine (onBudgetFunction_run hn (by omega) (by omega) fuel).mono fun s ⟨h1, h2, h3⟩ => ?_
  rcases h3 with h3 | ⟨done, late, g1, g2, g3, i, g4⟩
  · exfalso
    push_cast at h3
    have : (0 : Int) ≤ lam * j := by positivity
    omega
  · have hlen : done.length + late.length = mu + lam * j := by rw [← List.length_append, ← g1, h1]
    have hdone : done.length = mu + lam * i := by exact_mod_cast g4
    have hlate : late.length < lam := by exact_mod_cast g2
    have : late = [] := by
      rw [← List.length_eq_zero_iff]
      have h5 : lam * i + late.length = lam * j := by omega
      have h6 : late.length = 0 := by
        have := congrArg (· % lam) h5
        simp only [Nat.mul_add_mod, Nat.mul_mod_right] at this
        rwa [Nat.mod_eq_of_lt hlate] at this
      exact h6
    subst this
    rw [List.append_nil] at g1
    subst g1
    exact .of_values h1 h2 g3.1 g3.2

/-- C105: in general, up to the offsprings of the last generation. -/
theorem onBudgetFunction_late {n : Nat} (hn : 0 < n) {budget : Nat} {mu lam : Int} (hmu : 1 ≤ mu) (hlam : 1 ≤ lam)
    (hbudget : mu ≤ budget) (fuel : Nat) :
    Sim.Post (onBudgetFunction n budget mu lam fuel) (fun s => s.calls.length = budget ∧ ∃ done late, s.calls = done ++ late ∧
      (late.length : Int) < lam ∧ PrintsBest n done.length ⟨s.solution, done⟩) := by
  refine (onBudgetFunction_run hn hmu hlam fuel).mono fun s ⟨h1, h2, h3⟩ => ⟨h1, ?_⟩
  rcases h3 with h3 | ⟨done, late, g1, g2, g3, i, g4⟩
  · omega
  · exact ⟨done, late, g1, g2, .of_values rfl (fun c hc => h2 c (by rw [g1]; exact List.mem_append_left _ hc)) g3.1 g3.2⟩

/-- C105: the program `stop-on-maximum` prints the vector with ones only.  `last` is the vector whose evaluation has been
interrupted. -/
theorem stopOnMaximum_prints {n : Nat} (hn : 0 < n) (last : List (BV × Int) → BV)
    (hlast : ∀ calls, (∃ x, x.length = n ∧ (stoppingFunction n n).stop calls x ≠ none) →
      (last calls).length = n ∧ (stoppingFunction n n).stop calls (last calls) ≠ none) (fuel : Nat) :
    Sim.Post (stopOnMaximum last n fuel) (fun x => x = some (List.replicate n true)) := by
  have hf : ∀ x, (oneMax n).eval x = ok (x.count true : Int) := oneMax_value n
  have hstop : ∀ calls x e, (stoppingFunction n n).stop calls x = some e ↔ e = .targetReached ∧ n ≤ x.count true := by
    intro calls x e
    simp only [stoppingFunction, controlledEnv, target_evaluate (hf x)]
    by_cases h : (n : Int) ≤ (x.count true : Nat)
    · rw [if_pos h]
      have : n ≤ x.count true := by exact_mod_cast h
      simp [this, eq_comm]
    · rw [if_neg h]
      have : ¬ n ≤ x.count true := by exact_mod_cast h
      simp [this]
  have hcomp : (stoppingFunction n n).Computes n (fun x => (x.count true : Int)) := controlledEnv_computes (fun x _ => hf x)
  obtain ⟨s, e, _⟩ := (construct_ready (.standardBitMutation newStandard) n).1 hn
  unfold stopOnMaximum
  obtain ⟨m, hm, hrun⟩ := makeOnePlusOneEa_ok (K := Int) (o := eaOptions 0) hn ⟨hcomp, by intro h; cases h⟩
  rw [show (oneMax n).maximum = ok (n : Int) from rfl, sim_bind_ok, hm, sim_bind_ok]
  have hmade : makeAlgorithm (K := Int) exampleAlgLib (eaOptions 0) n = .own (ok m) := by rw [← hm]; rfl
  have hfin : ∀ s, ∃ u, m.finalize s = pure (.ok (), u) ∧ u.calls = s.calls := by
    unfold makeOnePlusOneEa at hm
    simp only [e, algorithmNew_pos hn, ok_bind, Outcome.made, Outcome.ok.injEq] at hm
    subst hm
    exact fun s => ⟨_, rfl, rfl⟩
  have hraise : ∀ ds r rest e, m.run (stoppingFunction n n) fuel ds = .ok r rest → r.ending = .error e →
      ∃ x, (stoppingFunction n n).stop r.calls x = some e := by
    intro ds r rest e hr he
    rcases makeAlgorithm_interrupted (by constructor <;> simp [eaOptions]) (by simp [eaOptions]) hmade hr he with
      hx | ⟨x, hx⟩ | ⟨x, v, l, hx⟩
    · exact hx
    · change (oneMax n).eval x = _ at hx
      rw [hf] at hx
      cases hx
    · cases hx
  intro ds
  have h1 := hrun fuel ds
  have h2 := hraise ds
  rw [run_def] at h1 h2
  unfold Sim.bind at h1 h2 ⊢
  cases hr : m.maximize (stoppingFunction n n) fuel m.start ds with
  | throw e => rw [hr] at h1; exact h1.elim
  | ub => rw [hr] at h1; exact h1.elim
  | out => trivial
  | ok a rest =>
    rw [hr] at h1 h2
    obtain ⟨a, t⟩ := a
    obtain ⟨u, hu, hu'⟩ := hfin t
    dsimp only at h1 h2 ⊢
    cases a with
    | ok a =>
      exfalso
      dsimp only at h1
      rw [hu] at h1
      exact h1.endless le_rfl rfl rfl
    | error e =>
      cases e with
      | lastEvaluation =>
        exfalso
        dsimp only at h2
        rw [hu] at h2
        obtain ⟨x, hx⟩ := h2 _ _ _ rfl rfl
        rw [hstop] at hx
        cases hx.1
      | runtimeError =>
        exfalso
        obtain ⟨x, hx⟩ := h2 _ _ _ rfl rfl
        rw [hstop] at hx
        cases hx.1
      | targetReached =>
        obtain ⟨x, hx⟩ := h2 _ _ _ rfl rfl
        have hrep : (stoppingFunction n n).stop t.calls (List.replicate n true) = some .targetReached := by
          rw [hstop]
          simp
        obtain ⟨l1, l2⟩ := hlast t.calls ⟨List.replicate n true, by simp, by rw [hrep]; simp⟩
        obtain ⟨e, he⟩ := Option.ne_none_iff_exists'.mp l2
        obtain ⟨-, l3⟩ := (hstop _ _ _).mp he
        have hall : last t.calls = List.replicate n true := by
          rw [← l1]
          rw [← l1] at l3
          exact List.eq_replicate_of_mem fun b hb => by
            have := (List.count_eq_length (a := true) (l := last t.calls)).mp (Nat.le_antisymm List.count_le_length l3)
            exact (this b hb).symm
        dsimp only
        rw [target_evaluate (hf _), if_pos (by exact_mod_cast l3)]
        exact congrArg some hall

/-! ## Examples -/

/-- What is printed, and the evaluations. -/
def shown (m : Sim (Shown Int)) (ds : List Nat) : Option ((BV × Int) × List (BV × Int)) :=
  match m ds with
  | .ok s _ => some (s.solution, s.calls)
  | _ => none

/-- C105 (negative part): with populations of two offsprings and a budget of two evaluations, the program `on-budget-function` may
print a vector which is not the best one, since the second one has not been considered when the budget is used up. -/
theorem onBudgetFunction_misses : shown (onBudgetFunction 3 2 1 2 20)
    [0, 1, 0, 0, 0, 0, 1, 0, 0, 0, 1, 1, 0, 1, 0, 1, 1, 0, 1, 0] =
      some (([false, true, false], 1), [([false, true, false], 1), ([true, true, false], 2)]) := by
  decide +kernel

-- The programs as they are.
example (fuel : Nat) : Sim.Post (basic 50 100 fuel) (PrintsBest 50 101) := basic_prints (by decide) (by decide) fuel
example (fuel : Nat) : Sim.Post (custom 50 100 fuel) (PrintsBest 50 101) := custom_prints (by decide) (by decide) fuel
example (fuel : Nat) : Sim.Post (onBudgetFunction 50 1000 10 1 fuel) (PrintsBest 50 1000) :=
  onBudgetFunction_prints (n := 50) (mu := 10) (lam := 1) (j := 990) (by decide) (by decide) (by decide) fuel

-- Runs of the programs on vectors of three bits.
example : shown (basic 3 2 10) (List.range 60) = some (([true, true, true], 3),
    [([false, true, false], 1), ([true, false, true], 2), ([true, true, true], 3)]) := by decide +kernel
example : shown (custom 3 2 10) [0, 1, 1, 0, 0, 0, 1, 0, 1] = some (([false, true, true], 2),
    [([false, true, true], 2), ([false, false, false], 0), ([true, false, true], 2)]) := by decide +kernel
example : shown (onBudgetFunction 3 2 1 1 20) [0, 1, 0, 0, 0, 0, 1, 0, 0, 0, 1, 1, 0, 1, 0, 1, 1, 0, 1, 0] = some
    (([true, true, false], 2), [([false, true, false], 1), ([true, true, false], 2)]) := by decide +kernel
example : (match stopOnMaximum (fun _ => [true, true]) 2 50 (List.range 60) with
    | .ok s _ => s
    | _ => none) = some [true, true] := by decide +kernel

end Hnco.Examples
