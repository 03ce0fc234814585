import Verif.Algorithm.CalmInstances
import Verif.Algorithm.LocalSearchProps
import Verif.Tests.EaModel
import Verif.Tests.SearchProps

/-!
# The test program on the (1+1) evolutionary algorithm only ends with success (C103)
-/

namespace Hnco.Tests

open Outcome

/-- Without a number of iterations and without patience, random local search is over only when the function interrupts it. -/
theorem rls_interrupted {K : Type} [LinearOrder K] {env : Env K} {n : Nat} {val : BV → K} (henv : env.Computes n val)
    {p : RlsParams K} (hcomp1 : ∀ a b, p.compare a b = true → b ≤ a) (hcomp2 : ∀ a b, p.compare a b = false → a ≤ b)
    (hinc : p.incremental = true → env.fn.hasInc = true → env.fn.size = n ∧ IncrementalExact env.fn)
    (hp : p.startingPoint.length = n) (hpat : p.patience = 0) {s : AlgState K RlsData} (hs : s.solution.1.length = n)
    (hnbh : s.data.nbh.Valid p.sampler) (hn : s.data.nbh.n = n) (hcalls : s.calls = []) (fuel : Nat) :
    Alg.Holds (rlsMaximize env p 0 fuel) s (fun _ _ => False) (RlsStop n val p) := by
  unfold rlsMaximize algLoop
  refine (rlsInit_holds henv hp hs hnbh hn hcalls).bind fun _ t ht => Alg.Holds.modify_bind ?_
  rw [if_neg (by decide)]
  refine (unboundedLoop_holds _ _ (rlsIterate_holds henv hcomp1 hcomp2 hinc) fuel _ ht).mono (fun _ u hu => ?_) fun _ h => h
  have := (hu.1.last hu.2).2.1
  omega

theorem stopOnTarget_base (f : Fn Int) (maximum : Int) (x : BV) {v : Int} (hv : f.eval x = ok v) :
    (stopOnTarget maximum (FnObj.base f)).evaluate x ([], none) = if maximum ≤ v then (.throw .targetReached, ([.full x], some (x, v)))
      else (ok v, ([.full x], none)) := by
  by_cases h : maximum ≤ v
  · simp only [stopOnTarget, FnObj.base, Act.bind_def, Act.inner_def, Act.modify_def, Act.lift_def, hv, targetCheck, if_pos h,
      Act.raise_def, List.nil_append]
  · simp only [stopOnTarget, FnObj.base, Act.bind_def, Act.inner_def, Act.modify_def, Act.lift_def, hv, targetCheck, if_neg h,
      Act.pure_def, List.nil_append]

section
variable {n : Nat} {f : Fn Int} {g : BV → Int} {maximum : Int}

theorem stoppingEnv_stop (h1 : ∀ x : BV, x.length = n → f.eval x = ok (g x)) (h2 : ∀ x : BV, x.length ≠ n → f.eval x = ub)
    {calls : List (BV × Int)} {x : BV} {e : Exn} (h : (stoppingEnv f maximum).stop calls x = some e) :
    x.length = n ∧ e = .targetReached ∧ maximum ≤ g x := by
  by_cases hx : x.length = n
  · simp only [stoppingEnv, stopOnTarget_base f maximum x (h1 x hx)] at h
    split at h
    · rename_i e' he
      split at he
      · cases he
        exact ⟨hx, (Option.some.inj h).symm, by assumption⟩
      · cases he
    · cases h
  · simp only [stoppingEnv, stopOnTarget, FnObj.base, Act.bind_def, Act.inner_def, Act.modify_def, Act.lift_def, h2 x hx] at h
    cases h

theorem stoppingEnv_computes (h1 : ∀ x : BV, x.length = n → f.eval x = ok (g x)) : (stoppingEnv f maximum).Computes n g := h1

theorem runEa_post (hn : 0 < n) (h1 : ∀ x : BV, x.length = n → f.eval x = ok (g x)) (h2 : ∀ x : BV, x.length ≠ n → f.eval x = ub)
    (fuel : Nat) : Sim.Post (runEa (stoppingEnv f maximum) n fuel) (fun r => r.1 = .error .targetReached ∧
      ∃ x, (stoppingEnv f maximum).stop r.2.calls x ≠ none) := by
  unfold runEa
  obtain ⟨nbh, e, e1, e2, -⟩ := (construct_ready (.standardBitMutation newStandard) n).1 hn
  refine (Sim.Post.lift (P := fun s => s = nbh) ⟨nbh, ?_, rfl⟩).bind fun s hs => ?_
  · unfold algorithmNew
    rw [if_neg (by omega), ok_bind, e]
  subst hs
  have hcalm : Alg.Calm (stoppingEnv f maximum) (rlsMaximize (stoppingEnv f maximum) (onePlusOneParams
    ⟨0, belowInvSqrt n (1 / (n : Rat)), false, false⟩ newStandard (newStart n)) 0 fuel : Alg (AlgState Int RlsData) Unit) :=
    inferInstance
  have hpost : Alg.Holds (onePlusOneMaximize (stoppingEnv f maximum) ⟨0, belowInvSqrt n (1 / (n : Rat)), false, false⟩ newStandard
    (newStart n) fuel) (newState n ⟨s, 0⟩) (fun _ _ => False) _ := rls_interrupted (p := onePlusOneParams ⟨0, belowInvSqrt n (1 / (n : Rat)), false, false⟩ newStandard (newStart n))
    (stoppingEnv_computes (maximum := maximum) h1) (fun a b h => of_decide_eq_true h)
    (fun a b h => le_of_lt (not_le.mp (of_decide_eq_false h))) (by intro h; cases h) (by simp [onePlusOneParams, newStart]) rfl
    (s := newState n ⟨s, 0⟩) (by simp [newState]) ⟨e2.fits, e2.origin, e2.candidate, by intro h; cases h⟩ e1 rfl fuel
  intro ds
  have hp := hpost ds
  cases hr : onePlusOneMaximize (stoppingEnv f maximum) ⟨0, belowInvSqrt n (1 / (n : Rat)), false, false⟩ newStandard (newStart n) fuel
      (newState n ⟨s, 0⟩) ds with
  | ok r rest =>
    rw [hr] at hp
    simp only [hr]
    obtain ⟨r, t⟩ := r
    cases r with
    | ok a => exact hp.elim
    | error e =>
      have hraise : ∃ x, (stoppingEnv f maximum).stop t.calls x = some e := by
        rcases hcalm.out _ ds e t rest hr with h | ⟨x, h⟩ | ⟨x, v, l, h⟩
        · exact h
        · by_cases hx : x.length = n
          · cases (h1 x hx).symm.trans h
          · cases (h2 x hx).symm.trans h
        · cases h
      obtain ⟨x, hx⟩ := hraise
      obtain ⟨-, rfl, -⟩ := stoppingEnv_stop h1 h2 hx
      exact ⟨rfl, x, by rw [hx]; simp⟩
  | throw e => rw [hr] at hp; exact hp.elim
  | ub => rw [hr] at hp; exact hp.elim
  | out => simp only [hr]

end

/-- C103: the test of the (1+1) evolutionary algorithm never returns another status than 0: the algorithm is interrupted only when
the function reaches its maximum, at a vector with this value.  `last` is the vector whose evaluation has been interrupted. -/
theorem onePlusOneEaTest_succeeds (last : Env Int → List (BV × Int) → BV)
    (hlast : ∀ (env : Env Int) calls, (∃ x, env.stop calls x ≠ none) → env.stop calls (last env calls) ≠ none) (runs dim fuel : Nat)
    (hd : 1 ≤ dim) : Succeeds (onePlusOneEaTest last runs dim fuel) := by
  refine succeeds_every ((Sim.Post.uniformInt hd).bind fun n hn => (translationRandom_post (by omega)).bind fun bv hbv => ?_) runs
  have hnew := (functionMapNew_iff (oneMax n) (translationObj bv)).1 (by exact hbv)
  have hmax : functionMapMaximum (oneMax n) (translationObj bv) = ok (n : Int) :=
    (functionMapMaximum_cases (oneMax n) (translationObj bv) true rfl).2
  obtain ⟨hc, -⟩ := translationMap_correct bv n hbv
  refine (Sim.Post.lift ⟨_, hnew, rfl⟩).bind fun output ho => ?_
  have hol : output.length = n := by rw [← ho]; simp [oneMax]
  refine (Sim.Post.lift ⟨_, hmax, rfl⟩).bind fun m hm => ?_
  subst hm
  have h1 : ∀ x : BV, x.length = n → (mappedFn (oneMax n) (translationObj bv) output).eval x = ok ((F2.add x bv).count true : Int) := by
    intro x hx
    obtain ⟨e, -⟩ := hc x output hx hol
    simp only [mappedFn, Fn.ofEval, functionMapEvaluate, translationObj, e, ok_bind, oneMax_value]
    rfl
  have h2 : ∀ x : BV, x.length ≠ n → (mappedFn (oneMax n) (translationObj bv) output).eval x = ub := by
    intro x hx
    simp only [mappedFn, Fn.ofEval, functionMapEvaluate, translationObj, translationMap]
    rw [assert_neg (by simpa [hbv] using hx)]
    rfl
  refine (runEa_post (maximum := (n : Int)) (by omega) h1 h2 fuel).bind fun r hr => ?_
  obtain ⟨r, t⟩ := r
  obtain ⟨rfl, hstop⟩ := hr
  obtain ⟨e, he⟩ := Option.ne_none_iff_exists'.mp (hlast (stoppingEnv (mappedFn (oneMax n) (translationObj bv) output) n) t.calls hstop)
  obtain ⟨g1, -, g2⟩ := stoppingEnv_stop h1 h2 he
  simp only
  rw [stopOnTarget_base _ _ _ (h1 _ g1), if_pos g2]
  refine (Sim.Post.lift ⟨_, h1 _ g1, rfl⟩).bind fun v hv => (Sim.Post.lift ⟨_, hmax, rfl⟩).bind fun m hm => Sim.Post.pure ?_
  subst hv hm
  have hle : (F2.add (last (stoppingEnv (mappedFn (oneMax n) (translationObj bv) output) n) t.calls) bv).count true ≤ n := by
    refine List.count_le_length.trans (le_of_eq ?_)
    exact (hc _ output g1 hol).2
  simp
  omega

/-- There is such a function, and a run of the program with one bit: the algorithm starts with the other vector and finds the
maximum. -/
example : (∃ last : Env Int → List (BV × Int) → BV, ∀ (env : Env Int) calls, (∃ x, env.stop calls x ≠ none) →
      env.stop calls (last env calls) ≠ none) ∧
    exitStatus (onePlusOneEaTest (fun _ _ => [true]) 1 1 2) [0, 0, 0, 1] = .ok 0 [] := by
  classical
  refine ⟨⟨fun (env : Env Int) calls => if h : ∃ x, env.stop calls x ≠ none then h.choose else [], fun env calls h => ?_⟩, by decide +kernel⟩
  simp only [dif_pos h]
  exact h.choose_spec

end Hnco.Tests
