import Verif.Algorithm.AdjustedLemmas
import Verif.App.FactoryGenerationProps

/-!
# The self-adjusting (1+1) EA made by the factory

C89: its mutation rates and its path follow the options.
-/

namespace Hnco

open Outcome

/-- How the options determine the adjustment of the rate, for vectors of `n` bits: the initial rate is `1 / n` and the minimum
`1 / n ^ 2` unless they are given; the factor after a success is a power of the divisor after a failure. -/
def adjustmentOf (lib : AlgLib) (o : AlgOptions) (n : Nat) : RateRule where
  initial := o.eaMutationRate.getD (1 / (n : Rat))
  minimum := o.eaMutationRateMin.getD (1 / (n : Rat) ^ 2)
  maximum := o.eaMutationRateMax
  factor := lib.pow o.eaUpdateStrength o.eaSuccessRatio
  divisor := o.eaUpdateStrength

theorem rule_made (lib : AlgLib) (o : AlgOptions) (n : Nat) : (madeSelfAdjustingParams lib o n).rule = adjustmentOf lib o n := by
  unfold SelfAdjustingParams.rule madeSelfAdjustingParams adjustmentOf
  rw [sq]
  cases o.eaMutationRate <;> cases o.eaMutationRateMin <;> rfl

theorem low_made (lib : AlgLib) (o : AlgOptions) (n : Nat) : (madeSelfAdjustingParams lib o n).low = LowRate n := by
  funext rate
  exact propext lowRate_iff

section
variable {K : Type} [LinearOrder K] [Zero K] {env : Env K} {n : Nat} {val : BV → K} {o : AlgOptions} {lib : AlgLib}

/-- C89: the self-adjusting (1+1) EA looks at mutants of its position and moves to those which are at least as good; its rate is
multiplied and divided as the options say; a mutant equal to its parent is possible only if that is allowed and a rate until then
has been below the inverse of the square root of the number of bits.  It reports its position. -/
theorem makeAlgorithm_self_adjusting_rates (h : o.algorithm = 301) (hn : 0 < n) (henv : env.Computes n val)
    (hinc : o.incrementalEvaluation = true → env.fn.hasInc = true → env.fn.size = n ∧ IncrementalExact env.fn) :
    ∃ m : MadeAlgorithm K, makeAlgorithm lib o n = .own (ok m) ∧ ∀ fuel, Sim.Post (m.run env fuel) (fun r =>
      (r.ending ≠ .ok () ∧ r.calls = []) ∨
      ∃ pos, AdjustedRun (LowRate n) o.eaAllowNoMutation (adjustmentOf lib o n) r.calls pos ∧
        (r.ending = .ok () ∨ r.ending = .error .lastEvaluation → r.solution = pos)) := by
  obtain ⟨s, e⟩ := nbhNew_ok hn
  obtain ⟨e1, e2⟩ := nbhNew_valid (p := newStandard) e
  unfold makeAlgorithm
  simp only [h]
  unfold makeSelfAdjusting
  simp only [e, algorithmNew_pos hn]
  have key := fun fuel => selfAdjustingMaximize_adjusted (q := madeSelfAdjustingParams lib o n) (s := newState n ⟨s, newStandard, 0⟩)
    henv hinc (by simp [newState]) e1 e2 rfl rfl o.numIterations fuel
  rw [rule_made, low_made] at key
  refine ⟨_, rfl, fun fuel => run_holds
    (f := fun (s : AlgState K SelfAdjustingData) => { s with solution := (s.data.mutation.origin, s.solution.2) }) (fun _ => rfl)
    (key fuel) ?_ ?_ ?_⟩
  · exact fun t h => .inr ⟨_, h, fun _ => rfl⟩
  · rintro t (h | h)
    · exact .inl ⟨by simp, h⟩
    · exact .inr ⟨_, h, fun _ => rfl⟩
  · rintro t e (h | h) he
    · exact .inl ⟨by simp, h⟩
    · refine .inr ⟨_, h, fun h' => ?_⟩
      simp at h'
      exact absurd h' he

/-- C89: the self-adjusting (1+1) EA can take every such path. -/
theorem makeAlgorithm_self_adjusting_any_path (h : o.algorithm = 301) (hn : 0 < n) (henv : env.Computes n val)
    (hinc : o.incrementalEvaluation = true → env.fn.hasInc = true → env.fn.size = n ∧ IncrementalExact env.fn)
    (hstop : ∀ calls x, env.stop calls x = none) {start pos : BV × K} {later : List (BV × K)} {rates : List Rat}
    (hpath : AdjustedPath (LowRate n) o.eaAllowNoMutation (adjustmentOf lib o n) start later pos rates)
    (htrue : ∀ c ∈ start :: later, c.1.length = n ∧ c.2 = val c.1) (hk : o.numIterations = later.length) (hpos : 0 < later.length) :
    ∃ m : MadeAlgorithm K, makeAlgorithm lib o n = .own (ok m) ∧ ∀ fuel, ∃ ds, m.run env fuel ds = .ok ⟨.ok (), pos, start :: later⟩ [] := by
  obtain ⟨s, e⟩ := nbhNew_ok hn
  obtain ⟨e1, e2⟩ := nbhNew_valid (p := newStandard) e
  unfold makeAlgorithm
  simp only [h]
  unfold makeSelfAdjusting
  simp only [e, algorithmNew_pos hn]
  refine ⟨_, rfl, fun fuel => run_all_draws ?_⟩
  rw [← rule_made, ← low_made lib o n] at hpath
  obtain ⟨u, h1, h2⟩ := selfAdjustingMaximize_reaches (q := madeSelfAdjustingParams lib o n) (s := newState n ⟨s, newStandard, 0⟩)
    henv hstop hinc hpath (by simp [newState]) e1 e2 rfl rfl htrue hpos fuel
  rw [← hk] at h1
  have := run_reaches (maximize := fun env => selfAdjustingMaximize env (madeSelfAdjustingParams lib o n) o.numIterations)
    (finalize := selfAdjustingFinalize) (f := fun s => { s with solution := (s.data.mutation.origin, s.solution.2) }) (fun _ => rfl) h1
  rw [h2.calls] at this
  rw [← h2.pos]
  exact this

end

/-! ## Former rates -/

theorem AdjustedPath.nil_inv {K : Type} [LinearOrder K] {low : Rat → Prop} {allowed : Bool} {rule : RateRule} {start pos : BV × K}
    {rates : List Rat} (h : AdjustedPath low allowed rule start [] pos rates) : pos = start ∧ rates = [rule.initial] := by
  generalize hl : ([] : List (BV × K)) = later at h
  cases h with
  | start => exact ⟨rfl, rfl⟩
  | success => simp at hl
  | failure => simp at hl

theorem AdjustedPath.snoc_inv {K : Type} [LinearOrder K] {low : Rat → Prop} {allowed : Bool} {rule : RateRule} {start pos c : BV × K}
    {later : List (BV × K)} {rates : List Rat} (h : AdjustedPath low allowed rule start (later ++ [c]) pos rates) :
    ∃ pos' rate rates', AdjustedPath low allowed rule start later pos' (rate :: rates') ∧
      (1 ≤ differingBits pos'.1 c.1 ∨ (allowed = true ∧ ∃ r ∈ rate :: rates', low r)) ∧
      (pos'.2 ≤ c.2 → pos = c ∧ rates = min (rate * rule.factor) rule.maximum :: rate :: rates') := by
  generalize hl : later ++ [c] = l at h
  cases h with
  | start => simp at hl
  | success h hd hv =>
    obtain ⟨rfl, hc⟩ := List.append_inj' hl rfl
    cases hc
    exact ⟨_, _, _, h, hd, fun _ => ⟨rfl, rfl⟩⟩
  | failure h hd hv =>
    obtain ⟨rfl, hc⟩ := List.append_inj' hl rfl
    cases hc
    exact ⟨_, _, _, h, hd, fun hv' => absurd hv (not_lt.mpr hv')⟩

/-- Options under which the rate is 1 / 3 at first and 1 after a success, for vectors of 3 bits. -/
def exampleAdjusting : AlgOptions :=
  { algorithm := 301, eaUpdateStrength := 3, eaMutationRateMax := 1, eaAllowNoMutation := true, numIterations := 2 }

/-- C89 (negative part): `set_mutation_rate` does not take back a former choice of rejection sampling; a mutant equal to its
parent is possible at a rate for which it would be impossible if it was the first one. -/
theorem self_adjusting_former_rate :
    (∃ m : MadeAlgorithm Int, makeAlgorithm exampleAlgLib exampleAdjusting 3 = .own (ok m) ∧ ∀ fuel, ∃ ds,
      m.run exampleFreeEnv fuel ds = .ok ⟨.ok (), ([true, true, false], 2),
        [([true, false, false], 1), ([true, true, false], 2), ([true, true, false], 2)]⟩ []) ∧
    (∀ pos rates, AdjustedPath (LowRate 3) true (adjustmentOf exampleAlgLib exampleAdjusting 3) ([true, false, false], (1 : Int))
      [([true, true, false], 2)] pos rates → ∃ r rs, rates = r :: rs ∧ ¬ LowRate 3 r) ∧
    (∀ m : MadeAlgorithm Int, makeAlgorithm exampleAlgLib { exampleAdjusting with eaMutationRate := some 1 } 3 = .own (ok m) →
      ∀ fuel ds rest, m.run exampleFreeEnv fuel ds ≠ .ok ⟨.ok (), ([true, true, false], 2),
        [([true, false, false], 1), ([true, true, false], 2), ([true, true, false], 2)]⟩ rest) := by
  have hrule : adjustmentOf exampleAlgLib exampleAdjusting 3 = ⟨1 / 3, 1 / 9, 1, 3, 3⟩ := by
    unfold adjustmentOf exampleAdjusting exampleAlgLib
    norm_num
  refine ⟨?_, ?_, ?_⟩
  · refine makeAlgorithm_self_adjusting_any_path (rates := [1, 1, 1 / 3]) rfl (by decide) (val := fun x => Int.ofNat (x.count true))
      (fun _ _ => rfl) (fun h => by cases h) (fun _ _ => rfl) ?_ (by decide) rfl (by decide)
    rw [hrule]
    have h1 : AdjustedPath (K := Int) (LowRate 3) true ⟨1 / 3, 1 / 9, 1, 3, 3⟩ ([true, false, false], 1)
        ([] ++ [([true, true, false], 2)]) ([true, true, false], 2) [min (1 / 3 * 3) 1, 1 / 3] :=
      AdjustedPath.start.success (.inl (by decide)) (by decide)
    have h2 := h1.success (c := ([true, true, false], 2)) (.inr ⟨rfl, 1 / 3, by simp, .inr (by norm_num)⟩) (le_refl _)
    norm_num at h2
    norm_num
    exact h2
  · intro pos rates h
    rw [hrule] at h
    obtain ⟨pos', rate, rates', h1, _, h2⟩ := AdjustedPath.snoc_inv (later := []) h
    obtain ⟨rfl, h3⟩ := h1.nil_inv
    cases h3
    obtain ⟨_, rfl⟩ := h2 (by decide)
    refine ⟨_, _, rfl, ?_⟩
    rintro (h | h) <;> norm_num at h
  · intro m hm fuel ds rest hrun
    obtain ⟨m', hm', hpost⟩ := makeAlgorithm_self_adjusting_rates (K := Int) (lib := exampleAlgLib) (n := 3)
      (o := { exampleAdjusting with eaMutationRate := some 1 }) rfl (by decide) (env := exampleFreeEnv)
      (val := fun x => Int.ofNat (x.count true)) (fun _ _ => rfl) (fun h => by cases h)
    rw [hm] at hm'
    cases hm'
    have := hpost fuel ds
    rw [hrun] at this
    rcases this with ⟨h, _⟩ | ⟨pos, ⟨start, later, rates, hcalls, hpath⟩, _⟩
    · exact h rfl
    · have hrule' : adjustmentOf exampleAlgLib { exampleAdjusting with eaMutationRate := some 1 } 3 = ⟨1, 1 / 9, 1, 3, 3⟩ := by
        unfold adjustmentOf exampleAdjusting exampleAlgLib
        norm_num
      rw [hrule'] at hpath
      cases hcalls
      obtain ⟨pos', rate, rates', h1, hd, _⟩ := AdjustedPath.snoc_inv (later := [([true, true, false], 2)]) hpath
      obtain ⟨pos'', rate', rates'', h2, _, h3⟩ := AdjustedPath.snoc_inv (later := []) h1
      obtain ⟨rfl, h4⟩ := h2.nil_inv
      cases h4
      obtain ⟨rfl, h5⟩ := h3 (by decide)
      cases h5
      rcases hd with h | ⟨_, r, hr, h⟩
      · exact absurd h (by decide)
      · have hr1 : r = 1 := by
          simp only [List.mem_cons, List.not_mem_nil, or_false] at hr
          rcases hr with rfl | rfl
          · norm_num
          · rfl
        subst hr1
        rcases h with h | h <;> norm_num at h

end Hnco
