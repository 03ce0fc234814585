import Verif.App.FactoryGenerationSpec
import Verif.App.FactoryPathProps
import Verif.Algorithm.GenerationReach

/-!
# The population searches made by the factory

C88: the evolutionary algorithms made by the factory breed and select as the options say.
-/

namespace Hnco

open Outcome

section
variable {K : Type}

/-! ## Lemmas -/

theorem count_made (o : AlgOptions) (n : Nat) : (madeMutation o n).Count = MutationStep o n := by
  have hr : madeRate o n = o.eaMutationRate.getD (1 / (n : Rat)) := by
    unfold madeRate
    cases o.eaMutationRate <;> rfl
  funext d
  apply propext
  constructor
  · rintro (h | ⟨h1, h2⟩)
    · exact .mutation h
    · rcases Nat.eq_zero_or_pos d with rfl | hd
      · exact .noMutation (by rw [← hr]; exact lowRate_iff.mp h1) h2
      · exact .mutation hd
  · rintro (hd | ⟨hl, ha⟩)
    · exact .inl hd
    · exact .inr ⟨by show belowInvSqrt n (madeRate o n) = true; rw [hr]; exact lowRate_iff.mpr hl, ha⟩

/-- From properties of `maximize` to a property of a run. -/
theorem run_generations [LinearOrder K] {P σ : Type} {start : AlgState K σ} {maximize : Env K → Nat → Alg (AlgState K σ) Unit}
    {env : Env K} {fuel : Nat} {first : Nat} {startOk : List (BV × K) → P → BV × K → Prop} {size : Nat}
    {breed : P → BV × K → BV → Prop} {survive : P → List (BV × K) → List (BV × K) → P → Prop}
    (h : Alg.Holds (maximize env fuel) start
      (fun _ t => ∃ kept, HasGenerations first startOk size breed survive t.calls kept t.solution)
      (fun t => t.calls.length < first ∨ HasUnfinished first startOk size breed survive t.calls t.solution)) :
    Sim.Post (MadeAlgorithm.run ⟨σ, start, maximize, noFinalize⟩ env fuel)
      (GenerationsOk first startOk size breed survive) :=
  run_holds (m := ⟨σ, start, maximize, noFinalize⟩) (f := fun s => s) (fun _ => rfl) h (fun _ h => .inl h)
    (fun _ h => .inr ⟨by simp, h⟩) (fun _ _ h _ => .inr ⟨by simp, h⟩)

theorem run_all_draws {m : MadeAlgorithm K} {env : Env K} {fuel : Nat} {r : RunResult K} (h : Sim.Reaches (m.run env fuel) r) :
    ∃ ds, m.run env fuel ds = .ok r [] := by
  obtain ⟨ds, hds⟩ := h
  refine ⟨ds, ?_⟩
  have := hds []
  rwa [List.append_nil] at this

end

section
variable {K : Type} [LinearOrder K] [Zero K] {env : Env K} {n : Nat} {val : BV → K} {o : AlgOptions} {lib : AlgLib}

omit [LinearOrder K] in
theorem muPlus_made (hn : 0 < n) (hmu : 1 ≤ o.eaMu) (hlam : 1 ≤ o.eaLambda) :
    ∃ p q b, ∃ pool : Pop K, muPlusNew n o.eaMu o.eaLambda newStandard = ok ⟨p, q, b, newStandard, pool⟩ ∧
      EaData.Valid n o.eaMu.toNat o.eaLambda.toNat ⟨p, q, b, newStandard, pool⟩ ∧
      pool.Valid (o.eaMu.toNat + o.eaLambda.toNat) n := by
  obtain ⟨p, hp⟩ := popNew_ok (K := K) hmu hn
  obtain ⟨q, hq⟩ := popNew_ok (K := K) hlam hn
  obtain ⟨b, hb⟩ := nbhNew_ok hn
  have hpv := (popNew_valid hp).2.2
  have hqv := (popNew_valid hq).2.2
  rw [Int.toNat_natCast] at hpv hqv
  obtain ⟨pool, hpool, _⟩ := plusNew_valid (by omega) (by omega) hn hpv hqv
  have hd : muPlusNew n o.eaMu o.eaLambda newStandard = ok ⟨p, q, b, newStandard, pool⟩ := by
    unfold muPlusNew
    rw [hp, ok_bind, hq, ok_bind, hpool, ok_bind, Int.toNat_natCast, hb]
    rfl
  obtain ⟨v1, v2⟩ := muPlusNew_valid hd
  rw [Int.toNat_natCast] at v1 v2
  exact ⟨p, q, b, pool, hd, v1, v2⟩

omit [LinearOrder K] in
theorem muComma_made (hn : 0 < n) (hmu : 1 ≤ o.eaMu) (hle : o.eaMu ≤ o.eaLambda) :
    ∃ p q b, muCommaNew (K := K) n o.eaMu o.eaLambda newStandard = ok ⟨p, q, b, newStandard, ()⟩ ∧
      EaData.Valid n o.eaMu.toNat o.eaLambda.toNat (⟨p, q, b, newStandard, ()⟩ : EaData K Unit) := by
  obtain ⟨p, hp⟩ := popNew_ok (K := K) hmu hn
  obtain ⟨q, hq⟩ := popNew_ok (K := K) (show 1 ≤ o.eaLambda by omega) hn
  obtain ⟨b, hb⟩ := nbhNew_ok hn
  have hpv := (popNew_valid hp).2.2
  have hqv := (popNew_valid hq).2.2
  have hc : commaNew p q = ok () := by
    unfold commaNew Pop.size
    rw [hpv.bvs, hqv.bvs, if_pos (by omega)]
  have hd : muCommaNew n o.eaMu o.eaLambda newStandard = ok ⟨p, q, b, newStandard, ()⟩ := by
    unfold muCommaNew
    rw [hp, ok_bind, hq, ok_bind, hc, ok_bind, Int.toNat_natCast, hb]
    rfl
  have v1 := (muCommaNew_valid hd).1
  rw [Int.toNat_natCast] at v1
  exact ⟨p, q, b, hd, v1⟩

omit [LinearOrder K] in
theorem twoRate_made (hn : 0 < n) (hlam : 1 ≤ o.eaLambda) :
    ∃ p b, twoRateNew (K := K) n o.eaLambda newStandard = ok ⟨p, b, newStandard, 0⟩ ∧
      TwoRateData.Valid n o.eaLambda.toNat (⟨p, b, newStandard, 0⟩ : TwoRateData K) := by
  obtain ⟨p, hp⟩ := popNew_ok (K := K) hlam hn
  obtain ⟨b, hb⟩ := nbhNew_ok hn
  have hpv := (popNew_valid hp).2.2
  rw [Int.toNat_natCast] at hpv
  obtain ⟨b1, b2⟩ := nbhNew_valid (p := newStandard) hb
  refine ⟨p, b, ?_, ⟨by omega, hpv, b1, b2⟩⟩
  unfold twoRateNew
  rw [hp, ok_bind, Int.toNat_natCast, hb]
  rfl

/-! ## Generations which are made -/

/-- C88: the (mu + lambda) EA evaluates `ea_mu` vectors and then generations of `ea_lambda` mutants of its parents; after each
one it keeps best ones of the parents and the mutants, and its solution is replaced only by a better one. -/
theorem makeAlgorithm_mu_plus_lambda_generations (h : o.algorithm = 310) (hn : 0 < n) (hmu : 1 ≤ o.eaMu) (hlam : 1 ≤ o.eaLambda)
    (henv : env.Computes n val) :
    ∃ m : MadeAlgorithm K, makeAlgorithm lib o n = .own (ok m) ∧ ∀ fuel, Sim.Post (m.run env fuel)
      (GenerationsOk o.eaMu.toNat StartsWithAll o.eaLambda.toNat
        (fun kept _ => MutantOfParent (MutationStep o n) (kept.map Prod.fst)) (SurvivePlus o.eaMu.toNat)) := by
  obtain ⟨p, q, b, pool, hd, v1, v2⟩ := muPlus_made (K := K) hn hmu hlam
  unfold makeAlgorithm
  simp only [h]
  unfold makeMuPlusLambda
  rw [algorithmNew_pos hn, ok_bind, hd]
  refine ⟨_, rfl, fun fuel => run_generations ?_⟩
  rw [← count_made]
  exact muPlus_generations (s := newState n _) henv _ v1 v2 rfl rfl o.numIterations fuel

/-- C88: the (mu, lambda) EA evaluates one vector and then generations of `ea_lambda` mutants of its parents, the first of which
are not evaluated; after each generation it keeps best ones of the mutants only. -/
theorem makeAlgorithm_mu_comma_lambda_generations (h : o.algorithm = 320) (hn : 0 < n) (hmu : 1 ≤ o.eaMu)
    (hle : o.eaMu ≤ o.eaLambda) (henv : env.Computes n val) :
    ∃ m : MadeAlgorithm K, makeAlgorithm lib o n = .own (ok m) ∧ ∀ fuel, Sim.Post (m.run env fuel)
      (GenerationsOk 1 (StartsUnevaluated n o.eaMu.toNat) o.eaLambda.toNat
        (fun kept _ => MutantOfParent (MutationStep o n) kept) (SurviveComma o.eaMu.toNat)) := by
  obtain ⟨p, q, b, hd, v1⟩ := muComma_made (K := K) hn hmu hle
  unfold makeAlgorithm
  simp only [h]
  unfold makeMuCommaLambda
  rw [algorithmNew_pos hn, ok_bind, hd]
  refine ⟨_, rfl, fun fuel => run_generations ?_⟩
  rw [← count_made]
  exact muComma_generations (s := newState n _) henv _ (by simp [newState]) v1 (by omega) rfl rfl o.numIterations fuel

/-- C88: the two-rate (1 + lambda) EA evaluates one vector and then generations of `ea_lambda` mutants of its solution; a mutant
equal to the solution is possible only if that is allowed. -/
theorem makeAlgorithm_two_rate_generations (h : o.algorithm = 330) (hn : 8 ≤ n) (hlam : 1 ≤ o.eaLambda)
    (hrate : 2 / (n : Rat) ≤ o.eaMutationRate.getD (2 / (n : Rat)) ∧ o.eaMutationRate.getD (2 / (n : Rat)) ≤ 1 / 4)
    (henv : env.Computes n val) :
    ∃ m : MadeAlgorithm K, makeAlgorithm lib o n = .own (ok m) ∧ ∀ fuel, Sim.Post (m.run env fuel)
      (GenerationsOk 1 (fun initial (_ : Unit) solution => initial = [solution]) o.eaLambda.toNat
        (fun _ solution => MutantOf (fun d => 1 ≤ d ∨ o.eaAllowNoMutation = true) solution.1) SurviveNone) := by
  obtain ⟨p, b, hd, v⟩ := twoRate_made (K := K) (show 0 < n by omega) hlam
  have hq : (madeTwoRateParams o n).Sound := by
    have h0 : (0 : Rat) ≤ 2 / (n : Rat) := by positivity
    refine ⟨h0, ?_, ?_⟩
    all_goals
      unfold madeTwoRateParams
      cases h : o.eaMutationRate with
      | none => simpa [h] using hrate.2
      | some r => rw [h] at hrate; first | exact hrate.1 | exact hrate.2
  unfold makeAlgorithm
  simp only [h]
  unfold makeTwoRate
  rw [algorithmNew_pos (by omega), ok_bind, hd]
  refine ⟨_, rfl, fun fuel => run_generations ?_⟩
  exact (twoRate_generations (s := newState n ⟨p, b, newStandard, 0⟩) henv hq (by simp [newState]) v rfl o.numIterations fuel).mono
    (fun _ _ h => ⟨(), h⟩) (fun _ h => h)

/-- C88: the genetic algorithm evaluates `ea_mu` vectors and then generations of as many mutants of its parents or of mixtures of
two of them; each generation replaces the parents. -/
theorem makeAlgorithm_genetic_generations (h : o.algorithm = 400) (hn : 0 < n)
    (hsize : 2 ≤ o.eaTournamentSize ∧ o.eaTournamentSize < o.eaMu) (henv : env.Computes n val) :
    ∃ m : MadeAlgorithm K, makeAlgorithm lib o n = .own (ok m) ∧ ∀ fuel, Sim.Post (m.run env fuel)
      (GenerationsOk o.eaMu.toNat StartsWithAll o.eaMu.toNat
        (fun kept _ => MutantOfMixture (MutationStep o n) (kept.map Prod.fst)) SurviveAll) := by
  obtain ⟨p, hp⟩ := popNew_ok (K := K) (show 1 ≤ o.eaMu by omega) hn
  obtain ⟨b, hb⟩ := nbhNew_ok hn
  have hc : commaNew p p = ok () := by
    unfold commaNew
    rw [if_pos (le_refl _)]
  have hd : gaNew n o.eaMu newStandard = ok ⟨p, p, b, newStandard, ⟨permIdentity p.size, 0, 0, 2⟩⟩ := by
    unfold gaNew
    rw [hp, ok_bind, ok_bind, hc, ok_bind, Int.toNat_natCast, hb]
    rfl
  obtain ⟨v1, v2⟩ := gaNew_valid hd
  rw [Int.toNat_natCast] at v1
  unfold makeAlgorithm
  simp only [h]
  unfold makeGeneticAlgorithm
  rw [algorithmNew_pos hn, ok_bind, hd]
  refine ⟨_, rfl, fun fuel => run_generations ?_⟩
  rw [← count_made]
  exact ga_generations (s := newState n _) henv ⟨madeMutation o n, o.eaTournamentSize⟩ ⟨hsize.1, by simpa using by omega⟩ v1 v2 rfl
    rfl o.numIterations fuel

/-! ## Generations which are possible -/

/-- C88: the (mu + lambda) EA can make all generations of mutants, with any choice among equally good ones. -/
theorem makeAlgorithm_mu_plus_lambda_any_generations (h : o.algorithm = 310) (hn : 0 < n) (hmu : 1 ≤ o.eaMu)
    (hlam : 1 ≤ o.eaLambda) (henv : env.Computes n val) (hstop : ∀ calls x, env.stop calls x = none)
    {calls kept : List (BV × K)} {solution : BV × K} (hgen : MuPlusLambdaRun o n calls kept solution)
    (htrue : ∀ c ∈ calls, c.1.length = n ∧ c.2 = val c.1) (hk : 0 < o.numIterations)
    (hlen : (calls.length : Int) = o.eaMu + o.numIterations * o.eaLambda) :
    ∃ m : MadeAlgorithm K, makeAlgorithm lib o n = .own (ok m) ∧ ∀ fuel, ∃ ds, m.run env fuel ds = .ok ⟨.ok (), solution, calls⟩ [] := by
  obtain ⟨p, q, b, pool, hd, v1, v2⟩ := muPlus_made (K := K) hn hmu hlam
  obtain ⟨k, hk'⟩ := Int.eq_ofNat_of_zero_le hk.le
  obtain ⟨mu, hmu'⟩ := Int.eq_ofNat_of_zero_le (show 0 ≤ o.eaMu by omega)
  obtain ⟨lam, hlam'⟩ := Int.eq_ofNat_of_zero_le (show 0 ≤ o.eaLambda by omega)
  unfold makeAlgorithm
  simp only [h]
  unfold makeMuPlusLambda
  rw [algorithmNew_pos hn, ok_bind, hd]
  refine ⟨_, rfl, fun fuel => run_all_draws ?_⟩
  unfold MuPlusLambdaRun at hgen
  rw [← count_made] at hgen
  obtain ⟨u, h1, h2⟩ := muPlus_reaches (s := newState n ⟨p, q, b, newStandard, pool⟩) henv hstop (madeMutation o n) v1 v2 rfl hgen
    htrue (k := k) (by omega) (by rw [hmu', hlam']; rw [hk', hmu', hlam'] at hlen; simp only [Int.toNat_natCast]; exact_mod_cast hlen) fuel
  rw [← hk'] at h1
  have := run_reaches (maximize := fun env => muPlusMaximize env (madeMutation o n) o.numIterations) (finalize := noFinalize)
    (f := fun s => s) (fun _ => rfl) h1
  rw [h2.solution, h2.calls] at this
  exact this

/-- C88: the (mu, lambda) EA can make all generations of mutants, with any choice among equally good ones. -/
theorem makeAlgorithm_mu_comma_lambda_any_generations (h : o.algorithm = 320) (hn : 0 < n) (hmu : 1 ≤ o.eaMu)
    (hle : o.eaMu ≤ o.eaLambda) (henv : env.Computes n val) (hstop : ∀ calls x, env.stop calls x = none)
    {calls : List (BV × K)} {kept : List BV} {solution : BV × K} (hgen : MuCommaLambdaRun o n calls kept solution)
    (htrue : ∀ c ∈ calls, c.1.length = n ∧ c.2 = val c.1) (hk : 0 < o.numIterations)
    (hlen : (calls.length : Int) = 1 + o.numIterations * o.eaLambda) :
    ∃ m : MadeAlgorithm K, makeAlgorithm lib o n = .own (ok m) ∧ ∀ fuel, ∃ ds, m.run env fuel ds = .ok ⟨.ok (), solution, calls⟩ [] := by
  obtain ⟨p, q, b, hd, v1⟩ := muComma_made (K := K) hn hmu hle
  obtain ⟨k, hk'⟩ := Int.eq_ofNat_of_zero_le hk.le
  obtain ⟨lam, hlam'⟩ := Int.eq_ofNat_of_zero_le (show 0 ≤ o.eaLambda by omega)
  unfold makeAlgorithm
  simp only [h]
  unfold makeMuCommaLambda
  rw [algorithmNew_pos hn, ok_bind, hd]
  refine ⟨_, rfl, fun fuel => run_all_draws ?_⟩
  unfold MuCommaLambdaRun at hgen
  rw [← count_made] at hgen
  obtain ⟨u, h1, h2⟩ := muComma_reaches (s := newState n ⟨p, q, b, newStandard, ()⟩) henv hstop (madeMutation o n)
    (by simp [newState]) v1 (by omega) rfl hgen
    htrue (k := k) (by omega) (by rw [hlam']; rw [hk', hlam'] at hlen; simp only [Int.toNat_natCast]; exact_mod_cast hlen) fuel
  rw [← hk'] at h1
  have := run_reaches (maximize := fun env => muCommaMaximize env (madeMutation o n) o.numIterations) (finalize := noFinalize)
    (f := fun s => s) (fun _ => rfl) h1
  rw [h2.solution, h2.calls] at this
  exact this

/-- C88: the two-rate (1 + lambda) EA can make all generations of mutants which differ from the solution, with any choice among
the best ones. -/
theorem makeAlgorithm_two_rate_any_generations (h : o.algorithm = 330) (hn : 0 < n) (hlam : 1 ≤ o.eaLambda)
    (henv : env.Computes n val) (hstop : ∀ calls x, env.stop calls x = none)
    {calls : List (BV × K)} {solution : BV × K}
    (hgen : HasGenerations 1 (fun initial (_ : Unit) solution => initial = [solution]) o.eaLambda.toNat
      (fun _ solution => MutantOf (fun d => 1 ≤ d) solution.1) SurviveNone calls () solution)
    (htrue : ∀ c ∈ calls, c.1.length = n ∧ c.2 = val c.1) (hk : 0 < o.numIterations)
    (hlen : (calls.length : Int) = 1 + o.numIterations * o.eaLambda) :
    ∃ m : MadeAlgorithm K, makeAlgorithm lib o n = .own (ok m) ∧ ∀ fuel, ∃ ds, m.run env fuel ds = .ok ⟨.ok (), solution, calls⟩ [] := by
  obtain ⟨p, b, hd, v⟩ := twoRate_made (K := K) hn hlam
  obtain ⟨k, hk'⟩ := Int.eq_ofNat_of_zero_le hk.le
  obtain ⟨lam, hlam'⟩ := Int.eq_ofNat_of_zero_le (show 0 ≤ o.eaLambda by omega)
  unfold makeAlgorithm
  simp only [h]
  unfold makeTwoRate
  rw [algorithmNew_pos hn, ok_bind, hd]
  refine ⟨_, rfl, fun fuel => run_all_draws ?_⟩
  obtain ⟨u, h1, h2⟩ := twoRate_reaches (s := newState n ⟨p, b, newStandard, 0⟩) henv hstop (madeTwoRateParams o n)
    (by simp [newState]) v rfl hgen
    htrue (k := k) (by omega) (by rw [hlam']; rw [hk', hlam'] at hlen; simp only [Int.toNat_natCast]; exact_mod_cast hlen) fuel
  rw [← hk'] at h1
  have := run_reaches (maximize := fun env => twoRateMaximize env (madeTwoRateParams o n) o.numIterations) (finalize := noFinalize)
    (f := fun s => s) (fun _ => rfl) h1
  rw [h2.solution, h2.calls] at this
  exact this

end

/-! ## Examples -/

-- A generation of a (1 + 2) EA: the better mutant replaces the parent.
example : ∃ m : MadeAlgorithm Int, makeAlgorithm exampleAlgLib { algorithm := 310, eaMu := 1, eaLambda := 2, numIterations := 1 } 3 =
    .own (ok m) ∧ ∀ fuel, ∃ ds, m.run exampleFreeEnv fuel ds = .ok ⟨.ok (), ([true, true, true], 3),
      [([true, false, false], 1), ([true, false, true], 2), ([true, true, true], 3)]⟩ [] := by
  refine makeAlgorithm_mu_plus_lambda_any_generations (kept := [([true, true, true], 3)]) rfl (by decide) (by decide) (by decide)
    (val := fun x => Int.ofNat (x.count true)) (fun _ _ => rfl) (fun _ _ => rfl) ?_ (by decide) (by decide) (by decide)
  refine ⟨[([true, false, false], 1)], [([true, false, true], 2), ([true, true, true], 3)], [([true, false, false], 1)], ([true, false, false], 1),
    rfl, rfl, ⟨rfl, by simp, by simp⟩, ?_⟩
  refine Generations.next (later := []) (generation := [([true, false, true], 2), ([true, true, true], 3)])
    (chosen := [([true, true, true], 3)]) .start rfl ?_ ?_ ?_
  · intro c hc
    refine ⟨[true, false, false], by simp, ?_, .mutation ?_⟩
    · revert c; decide
    · revert c; decide
  · refine ⟨rfl, rfl, [([true, false, false], 1), ([true, false, true], 2)], ?_, by decide⟩
    decide
  · exact .inr ⟨by simp, by simp, by decide, by decide⟩

-- A run of the genetic algorithm meets the hypotheses.
example : ∃ m : MadeAlgorithm Int, makeAlgorithm exampleAlgLib { algorithm := 400, eaMu := 4, eaTournamentSize := 2 } 3 =
    .own (ok m) ∧ ∀ fuel, Sim.Post (m.run exampleFreeEnv fuel) (GenerationsOk 4 StartsWithAll 4
      (fun kept _ => MutantOfMixture (MutationStep { algorithm := 400, eaMu := 4, eaTournamentSize := 2 } 3) (kept.map Prod.fst)) SurviveAll) :=
  makeAlgorithm_genetic_generations rfl (by decide) (by decide) (val := fun x => Int.ofNat (x.count true)) (fun _ _ => rfl)

-- A vector which is not reported is not a generation of the (1, 1) EA without a mutation.
example : ¬ MutantOfParent (MutationStep { eaAllowNoMutation := false } 3) [[true, false, true]] [true, false, true] := by
  rintro ⟨x, hx, _, h⟩
  simp only [List.mem_singleton] at hx
  subst hx
  generalize hd : differingBits [true, false, true] [true, false, true] = d at h
  have : d = 0 := by rw [← hd]; decide
  subst this
  rcases h with h | ⟨_, h⟩
  · omega
  · cases h

end Hnco
