import Verif.Tests.SearchModel
import Verif.Tests.Ends
import Verif.App.AlgorithmFactoryMore
import Verif.App.ModifierProps
import Verif.App.FfgenProps
import Verif.Function.FactorizationProps
import Verif.Function.LongPathProps
import Verif.Function.MaxSatProps
import Verif.Function.MaximumProps
import Verif.Function.PeaksProps
import Verif.Function.TheoryProps

/-! # The project's test programs on complete search never fail (C98) -/

namespace Hnco.Tests

open Outcome

variable {K : Type} [LinearOrder K]

theorem evaluate_never {σ α : Type} {c : Nat} {env : Env K} {n : Nat} {val : BV → K} (henv : env.Computes n val)
    (hstop : ∀ calls x, env.stop calls x = none)
    {x : BV} (hx : x.length = n) {s : AlgState K σ} {f : K → Alg (AlgState K σ) α} {Q : α → AlgState K σ → Prop}
    {E : AlgState K σ → Prop}
    (hQ : Alg.Within c (f (val x)) { s with calls := s.calls ++ [(x, val x)] } Q E) :
    Alg.Within c (evaluate env x >>= f) s Q E := by
  have : Alg.Within 0 (evaluate env x) s
      (fun v t => v = val x ∧ t = { s with calls := s.calls ++ [(x, val x)] }) E := by
    unfold Alg.Within evaluate
    simp only [hstop, henv x hx]
    exact Sim.Within.pure ⟨rfl, rfl⟩
  have h := this.bind (d := c) (f := f) (Q := Q) (by rintro _ _ ⟨rfl, rfl⟩; exact hQ)
  rwa [Nat.zero_add] at h

theorem completeLoop_never {env : Env K} {n : Nat} {val : BV → K} (henv : env.Computes n val)
    (hstop : ∀ calls x, env.stop calls x = none) {it : HypercubeIterator}
    {l : List BV} (h : Enumerates HypercubeIterator.hasNext HypercubeIterator.next it l) :
    ∀ (fuel : Nat) (s : AlgState K Unit), l.length < fuel → (∀ x ∈ l, x.length = n) → BestOf s.calls s.solution →
      Alg.Within 0 (completeLoop env fuel it) s
        (fun _ t => t.calls = s.calls ++ l.map (fun x => (x, val x)) ∧ BestOf t.calls t.solution)
        (fun _ => False) := by
  induction h with
  | done h =>
    intro fuel s hf _ hs
    obtain ⟨fuel, rfl⟩ : ∃ k, fuel = k + 1 := ⟨fuel - 1, by simp at hf; omega⟩
    unfold completeLoop
    refine Alg.Within.lift_bind h ?_
    simp only [Bool.false_eq_true, if_false]
    exact Alg.Within.pure ⟨by simp, hs⟩
  | @step it it' x l h hnext henum ih =>
    intro fuel s hf hl hs
    obtain ⟨fuel, rfl⟩ : ∃ k, fuel = k + 1 := ⟨fuel - 1, by simp at hf; omega⟩
    unfold completeLoop
    refine Alg.Within.lift_bind h ?_
    simp only [if_true]
    refine Alg.Within.lift_bind hnext ?_
    refine (Alg.Within.bind (c := 0) (d := 0) (P := fun _ t => t.calls = s.calls ++ [(x, val x)] ∧ BestOf t.calls t.solution)
      ?_ ?_)
    · unfold updateSolutionEval
      refine evaluate_never henv hstop (hl x (by simp)) ?_
      unfold updateSolution
      refine Alg.Within.modify ?_
      have := hs.append_update (c := (x, val x))
      split
      · rename_i hlt
        rw [if_pos hlt] at this
        exact ⟨rfl, this⟩
      · rename_i hlt
        rw [if_neg hlt] at this
        exact ⟨rfl, this⟩
    · rintro _ t ⟨ht, hb⟩
      refine (ih fuel t (by simp at hf; omega) (fun y hy => hl y (by simp [hy])) hb).mono (le_refl _) ?_ ?_
      · rintro _ u ⟨hu, hbu⟩
        exact ⟨by rw [hu, ht]; simp, hbu⟩
      · exact fun _ h => h

theorem completeMaximize_never [Zero K] {env : Env K} {n : Nat} {val : BV → K} (henv : env.Computes n val)
    (hstop : ∀ calls x, env.stop calls x = none) (hn : 0 < n) {fuel : Nat} (hf : 2 ^ n ≤ fuel) :
    ∃ l, IsFullEnumeration n l ∧ Alg.Within 0 (completeMaximize env fuel) (newState n ())
        (fun _ t => t.calls = l.map (fun x => (x, val x)) ∧ BestOf t.calls t.solution) (fun _ => False) := by
  obtain ⟨l, henum, hfull⟩ := hypercubeIterator_enumerates (HypercubeIterator.new n) (by simpa [HypercubeIterator.new] using hn)
  have hlen : (HypercubeIterator.new n).current.length = n := by simp [HypercubeIterator.new]
  rw [hlen] at hfull
  refine ⟨l, hfull, ?_⟩
  have hl : l.length = 2 ^ n := by
    have := congrArg List.length hfull.2
    simpa using this
  change Enumerates _ _ (HypercubeIterator.new n) l at henum
  unfold completeMaximize
  refine Alg.Within.get_bind ?_
  have hs : (newState (K := K) n ()).solution.1.length = n := by simp [newState]
  rw [hs]
  cases henum with
  | done h =>
    have := Nat.two_pow_pos n
    simp only [List.length_nil] at hl
    omega
  | @step _ it' x l h hnext henum =>
    refine Alg.Within.lift_bind h ?_
    simp only [if_true]
    refine Alg.Within.lift_bind hnext ?_
    refine (Alg.Within.bind (c := 0) (d := 0) (P := fun _ t => t.calls = [(x, val x)] ∧ BestOf t.calls t.solution) ?_ ?_)
    · unfold setSolutionEval
      refine evaluate_never henv hstop (hfull.1 x (by simp)) ?_
      exact Alg.Within.modify ⟨rfl, by simp [newState], by simp [newState]⟩
    · rintro _ t ⟨ht, hb⟩
      refine (completeLoop_never henv hstop henum fuel t (by simp at hl; omega) (fun y hy => hfull.1 y (by simp [hy])) hb).mono
        (le_refl _) ?_ ?_
      · rintro _ u ⟨hu, hbu⟩
        exact ⟨by rw [hu, ht]; simp, hbu⟩
      · exact fun _ h => h

/-- Whatever function has a maximum, complete search finds it. -/
theorem searchFinds_within [Zero K] {n : Nat} {f : Fn K} {M : K} (hn : 0 < n) (hmax : IsMaximum n f.eval M)
    {expected : Outcome K} (he : expected = ok M) : Sim.Within 0 (searchFinds n f expected) (fun b => b = true) := by
  unfold searchFinds
  subst he
  have hval : ∃ val : BV → K, ∀ x : BV, x.length = n → f.eval x = ok (val x) := by
    refine ⟨fun x => if h : x.length = n then (hmax.1 x h).choose else M, fun x hx => ?_⟩
    simp only [hx, dif_pos]
    exact (hmax.1 x hx).choose_spec.1
  obtain ⟨val, hval⟩ := hval
  obtain ⟨l, hfull, hw⟩ := completeMaximize_never (env := ⟨f, fun _ _ => none⟩) (val := val) hval (fun _ _ => rfl) hn
    (le_refl (2 ^ n))
  refine Sim.Within.bind (c := 0) (d := 0) (Sim.Within.lift (P := fun _ => True) ⟨(), by simp [algorithmNew, hn.ne'], trivial⟩)
    fun _ _ => ?_
  refine Sim.Within.bind (c := 0) (d := 0) hw ?_
  rintro ⟨a, t⟩ h
  cases a with
  | error _ => exact h.elim
  | ok u =>
  obtain ⟨hc, hb⟩ := h
  simp only at hc hb
  refine Sim.Within.bind (c := 0) (d := 0) (Sim.Within.lift ⟨_, rfl, rfl⟩) fun m hm => ?_
  subst hm
  refine Sim.Within.pure ?_
  rw [beq_iff_eq]
  obtain ⟨y, hy, hyM⟩ := hmax.2
  have hmem : ∀ x : BV, x ∈ l ↔ x.length = n := hfull.exactly_once.2
  rw [hc] at hb
  obtain ⟨hb1, hb2⟩ := hb
  obtain ⟨z, hz, hzs⟩ := List.mem_map.mp hb1
  obtain ⟨v, hv, hvM⟩ := hmax.1 z ((hmem z).mp hz)
  rw [hval z ((hmem z).mp hz)] at hv
  have hle := hb2 (y, val y) (List.mem_map.mpr ⟨y, (hmem y).mpr hy, rfl⟩)
  rw [hval y hy] at hyM
  cases hyM
  cases hv
  rw [← hzs] at hle ⊢
  exact le_antisymm hvM hle

theorem translatedSearch_within [Zero K] {n : Nat} {f : Fn K} {M : K} (hn : 0 < n) (hs : f.size = n)
    (hmax : IsMaximum n f.eval M) {expected : MapObj → Outcome K} (he : ∀ v : BV, v.length = n → expected (translationObj v) = ok M) :
    Sim.Within n (translatedSearch n f expected) (fun b => b = true) := by
  unfold translatedSearch
  refine ((translationRandom_uses n).within (translationRandom_post hn)).mono (Nat.zero_add n).le (fun _ h => h) |>.bind (d := 0) fun v hv => ?_
  have hnew := (functionMapNew_iff f (translationObj v)).1 (by rw [hs]; exact hv)
  refine Sim.Within.bind (c := 0) (d := 0) (Sim.Within.lift ⟨_, hnew, rfl⟩) fun output ho => ?_
  have hol : output.length = n := by rw [← ho]; simp [hs]
  refine searchFinds_within hn ?_ (he v hv)
  obtain ⟨hc, hu⟩ := translationMap_correct v n hv
  have heval : ∀ x : BV, x.length = n →
      (mappedFn f (translationObj v) output).eval x = f.eval (F2.add x v) ∧ (F2.add x v).length = n := by
    intro x hx
    obtain ⟨e, hl⟩ := hc x output hx hol
    refine ⟨?_, hl⟩
    simp only [mappedFn, Fn.ofEval, functionMapEvaluate, translationObj, e, ok_bind]
    cases f.eval (F2.add x v) <;> rfl
  refine ⟨fun x hx => ?_, ?_⟩
  · obtain ⟨e, hl⟩ := heval x hx
    rw [e]
    exact hmax.1 _ hl
  · obtain ⟨y, hy, hyM⟩ := hmax.2
    have hl := (heval y hy).2
    refine ⟨F2.add y v, hl, ?_⟩
    have e : F2.add (F2.add y v) v = y := hu y hy
    rw [(heval _ hl).1, e]
    exact hyM

theorem declared_within [Zero K] {n : Nat} {f : Fn K} (hn : 0 < n) (hs : f.size = n) (h : DeclaresMaximum f) :
    Sim.Within n (translatedSearch n f (functionMapMaximum f)) (fun b => b = true) := by
  obtain ⟨hhas, M, hM, hmax⟩ := h
  rw [hs] at hmax
  refine translatedSearch_within hn hs hmax fun v _ => ?_
  rw [(functionMapMaximum_cases f (translationObj v) true rfl).2, hhas]
  exact hM

theorem ends_every {body : Sim Bool} {c : Nat} (h : Sim.Within c body (fun b => b = true)) (runs : Nat) :
    Ends (every runs body) := by
  have hp : Sim.Within (runs * c) (every runs body) (fun b => b = true) := by
    induction runs with
    | zero => exact Sim.Within.pure rfl
    | succ runs ih =>
      rw [Nat.succ_mul, Nat.add_comm]
      refine h.bind fun b hb => ?_
      subst hb
      exact ih
  exact Ends.of_within hp

theorem ends_every_of {body : Sim Bool} (h : ∃ c, Sim.Within c body (fun b => b = true)) (runs : Nat) : Ends (every runs body) :=
  h.elim fun _ h => ends_every h runs

/-- The number drawn is bounded, so that the number of draws of what comes next is, too. -/
theorem uniformInt_bind_within {β : Type} {lo hi : Nat} (hle : lo ≤ hi) {f : Nat → Sim β} {Q : β → Prop}
    (h : ∀ n, lo ≤ n → n ≤ hi → ∃ c, Sim.Within c (f n) Q) : ∃ c, Sim.Within c (Sim.uniformInt lo hi >>= f) Q := by
  have hb : ∀ k, ∃ c, ∀ n, lo ≤ n → n ≤ hi → n < k → Sim.Within c (f n) Q := by
    intro k
    induction k with
    | zero => exact ⟨0, fun n _ _ hn => by omega⟩
    | succ k ih =>
      obtain ⟨c, hc⟩ := ih
      by_cases hk : lo ≤ k ∧ k ≤ hi
      · obtain ⟨d, hd⟩ := h k hk.1 hk.2
        refine ⟨c + d, fun n h1 h2 h3 => ?_⟩
        by_cases e : n = k
        · subst e; exact hd.mono (by omega) fun _ h => h
        · exact (hc n h1 h2 (by omega)).mono (by omega) fun _ h => h
      · exact ⟨c, fun n h1 h2 h3 => hc n h1 h2 (by
          by_contra hn
          exact hk ⟨by omega, by omega⟩)⟩
  obtain ⟨c, hc⟩ := hb (hi + 1)
  exact ⟨1 + c, (Sim.Within.uniformInt hle).bind fun n hn => hc n hn.1 hn.2 (by omega)⟩

theorem lift_bind_within {α β : Type} {o : Outcome α} {a : α} (h : o = ok a) {f : α → Sim β} {Q : β → Prop}
    (hf : ∃ c, Sim.Within c (f a) Q) : ∃ c, Sim.Within c (Sim.lift o >>= f) Q := by
  obtain ⟨c, hf⟩ := hf
  refine ⟨0 + c, Sim.Within.bind (Sim.Within.lift ⟨_, h, rfl⟩) fun b hb => ?_⟩
  subst hb
  exact hf

/-- C98: the test of complete search on `OneMax` ends with the status 0. -/
theorem searchOneMax_ends (runs n : Nat) (hn : 0 < n) : Ends (searchOneMax runs n) :=
  ends_every (declared_within hn rfl (oneMax_maximum n)) runs

example : exitStatus (searchOneMax 1 2) [1, 0] = .ok 0 [] := by decide +kernel

/-- C98: the test of complete search on `LeadingOnes` ends with the status 0. -/
theorem searchLeadingOnes_ends (runs n : Nat) (hn : 0 < n) : Ends (searchLeadingOnes runs n) :=
  ends_every (declared_within hn rfl (leadingOnes_maximum n)) runs

example : exitStatus (searchLeadingOnes 1 2) [1, 0] = .ok 0 [] := by decide +kernel

/-- C98: the test of complete search on `Needle` ends with the status 0. -/
theorem searchNeedle_ends (runs n : Nat) (hn : 0 < n) : Ends (searchNeedle runs n) :=
  ends_every (declared_within hn rfl (needle_maximum n)) runs

example : exitStatus (searchNeedle 1 2) [1, 0] = .ok 0 [] := by decide +kernel

/-- C98: the test of complete search on `Ridge` ends with the status 0. -/
theorem searchRidge_ends (runs n : Nat) (hn : 0 < n) : Ends (searchRidge runs n) :=
  ends_every (declared_within hn rfl (ridge_maximum n)) runs

example : exitStatus (searchRidge 1 2) [1, 0] = .ok 0 [] := by decide +kernel

/-- C98: the test of complete search on `Plateau` ends with the status 0. -/
theorem searchPlateau_ends (runs n : Nat) (hn : 0 < n) : Ends (searchPlateau runs n) :=
  ends_every (declared_within hn rfl (plateau_maximum n)) runs

example : exitStatus (searchPlateau 1 2) [1, 0] = .ok 0 [] := by decide +kernel

/-- C98: the test of complete search on `Hiff` ends with the status 0, for powers of two for which the maximum is an `int`. -/
theorem searchHiff_ends (runs d : Nat) (hd : (d + 1) * 2 ^ d < 2 ^ 31) : Ends (searchHiff runs (2 ^ d)) := by
  have hn : 0 < 2 ^ d := Nat.two_pow_pos d
  have h31 : 2 ^ d < 2 ^ 31 := lt_of_le_of_lt (Nat.le_mul_of_pos_left _ (Nat.succ_pos d)) hd
  refine ends_every_of ?_ runs
  refine lift_bind_within (((hiffNew_spec (2 ^ d) hn h31).1 d).mpr rfl) ?_
  exact ⟨_, declared_within hn rfl (hiff_maximum d hd)⟩

example : (4 + 1) * 2 ^ 4 < 2 ^ 31 ∧ exitStatus (searchHiff 1 2) [1, 0] = .ok 0 [] := by decide +kernel

/-- C98: the test of complete search on `Jump` ends with the status 0. -/
theorem searchJump_ends (runs n : Nat) (gap : Int) (hn : 0 < n) (hg : 1 ≤ gap) : Ends (searchJump runs n gap) := by
  have h : jumpNew n gap = ok () := by
    unfold jumpNew
    rw [assert_pos (by simpa using hn), ok_bind, if_neg (by omega)]
    rfl
  refine ends_every_of ?_ runs
  refine lift_bind_within h ?_
  exact ⟨_, declared_within hn rfl (jump_maximum n gap h)⟩

example : exitStatus (searchJump 1 3 2) [1, 0, 0] = .ok 0 [] := by decide +kernel

/-- C98: the test of complete search on `DeceptiveJump` ends with the status 0. -/
theorem searchDeceptiveJump_ends (runs n : Nat) (gap : Int) (hn : 0 < n) (hg : 1 ≤ gap) :
    Ends (searchDeceptiveJump runs n gap) := by
  have h : jumpNew n gap = ok () := by
    unfold jumpNew
    rw [assert_pos (by simpa using hn), ok_bind, if_neg (by omega)]
    rfl
  refine ends_every_of ?_ runs
  refine lift_bind_within h ?_
  exact ⟨_, declared_within hn rfl (deceptiveJump_maximum n gap h)⟩

example : exitStatus (searchDeceptiveJump 1 3 2) [1, 0, 0] = .ok 0 [] := by decide +kernel

/-- C98: the test of complete search on `Trap` ends with the status 0, if the number of traps divides the size. -/
theorem searchTrap_ends (runs n m : Nat) (hn : 0 < n) (hm : 0 < m) (hd : m ∣ n) : Ends (searchTrap runs n m) := by
  have h : trapNew n m = ok (n / m) := by
    unfold trapNew
    rw [assert_pos (by simpa using hm), ok_bind, if_neg (by simp [Nat.mod_eq_zero_of_dvd hd])]
    rfl
  refine ends_every_of ?_ runs
  refine lift_bind_within h ?_
  exact ⟨_, declared_within hn rfl (trap_maximum n m _ h)⟩

example : exitStatus (searchTrap 1 4 2) [1, 0, 0, 1] = .ok 0 [] := by decide +kernel

/-- C98: the test of complete search on `FourPeaks` ends with the status 0, if the constructor takes the threshold. -/
theorem searchFourPeaks_ends (runs n : Nat) (t m : Int) (hn : 0 < n) (ht : -1 ≤ t) (h : peaksNew n t = ok m) :
    Ends (searchFourPeaks runs n t) := by
  refine ends_every_of ?_ runs
  refine lift_bind_within h ?_
  exact ⟨_, declared_within hn rfl (fourPeaks_maximum n t _ ht h)⟩

example : peaksNew 20 5 = ok 34 ∧ exitStatus (searchFourPeaks 1 4 1) [1, 0, 0, 1] = .ok 0 [] := by decide +kernel

/-- C98: the test of complete search on `SixPeaks` ends with the status 0, if the constructor takes the threshold. -/
theorem searchSixPeaks_ends (runs n : Nat) (t m : Int) (hn : 0 < n) (ht : -1 ≤ t) (h : peaksNew n t = ok m) :
    Ends (searchSixPeaks runs n t) := by
  refine ends_every_of ?_ runs
  refine lift_bind_within h ?_
  exact ⟨_, declared_within hn rfl (sixPeaks_maximum n t _ ht h)⟩

example : exitStatus (searchSixPeaks 1 4 1) [1, 0, 0, 1] = .ok 0 [] := by decide +kernel

/-- C98: the test of complete search on `LongPath` ends with the status 0, if the length of the longest path is less than `2 ^ 53`. -/
theorem searchLongPath_ends (runs prefixBound divisorBound : Nat) (hp : 2 ≤ prefixBound) (hd : 2 ≤ divisorBound)
    (hb : prefixBound * 2 ^ divisorBound ≤ 2 ^ 53) : Ends (searchLongPath runs prefixBound divisorBound) := by
  refine ends_every_of ?_ runs
  refine uniformInt_bind_within hp fun k lk uk => ?_
  have hk : _ ∧ _ := ⟨lk, uk⟩
  refine uniformInt_bind_within hd fun d ld ud => ?_
  have hd : _ ∧ _ := ⟨ld, ud⟩
  have hn : 0 < d * k := Nat.mul_pos (by omega) (by omega)
  have h : longPathNew (d * k) k = ok () := by
    unfold longPathNew
    rw [assert_pos (by simpa using hn), ok_bind, assert_pos (by simpa using (by omega : 0 < k)), ok_bind, if_neg (by simp),
      if_neg (by omega)]
    rfl
  refine lift_bind_within h ?_
  refine ⟨_, declared_within hn rfl (longPath_maximum (d * k) k h ?_).1⟩
  rw [Nat.mul_div_cancel _ (by omega)]
  exact le_trans (Nat.mul_le_mul hk.2 (Nat.pow_le_pow_right (by norm_num) hd.2)) hb

example : 4 * 2 ^ 5 ≤ 2 ^ 53 ∧ exitStatus (searchLongPath 1 2 2) [0, 0, 1, 0, 0, 1] = .ok 0 [] := by decide +kernel

theorem drawCoefficient_post (bound : Nat) : Sim.Post (drawCoefficient bound) (fun _ => True) :=
  (Sim.Post.uniformInt (Nat.zero_le _)).bind fun _ _ => Sim.Post.pure trivial

theorem drawCoefficient_uses (bound : Nat) : Sim.Uses (1 + 0) (drawCoefficient bound) :=
  Sim.Uses.bind Sim.Uses.uniformInt fun _ => Sim.Uses.pure

omit [LinearOrder K] in
theorem stdGenerate_post {σ : Type} {call : σ → Sim (K × σ)} (hc : ∀ s, Sim.Post (call s) (fun _ => True)) (s : σ) (l : List K) :
    Sim.Post (stdGenerate call s l) (fun r => r.length = l.length) := by
  unfold stdGenerate
  refine (Sim.Post.forRange (fun _ (r : List K × σ) => r.1.length = l.length) (Nat.zero_le _) rfl ?_).bind
    fun r hr => Sim.Post.pure hr
  intro j r _ hj hr
  refine (hc r.2).bind fun v _ => ?_
  refine (Sim.Post.lift ⟨_, vset_eq (by rw [hr]; exact hj), rfl⟩).bind fun l' hl' => Sim.Post.pure ?_
  subst hl'
  simpa using hr

/-- C98: the test of complete search on linear functions ends with the status 0. -/
theorem searchLinear_ends (runs size bound : Nat) (hs : 1 ≤ size) : Ends (searchLinear runs size bound) := by
  refine ends_every_of ?_ runs
  refine uniformInt_bind_within hs fun n ln un => ?_
  have hn : _ ∧ _ := ⟨ln, un⟩
  refine ⟨_, Sim.Within.bind (P := fun w : List Int => w.length = n) (Sim.Uses.within (Sim.Uses.bind Sim.Uses.lift fun _ =>
    Sim.Uses.bind (Sim.Uses.forRange fun _ _ => Sim.Uses.bind (Sim.Uses.bind (drawCoefficient_uses bound) fun _ => Sim.Uses.pure)
      fun _ => Sim.Uses.bind Sim.Uses.lift fun _ => Sim.Uses.pure) fun _ => Sim.Uses.pure) ?_)
    fun w hw => declared_within hn.1 hw (linear_maximum w)⟩
  · unfold linearGenerate
    refine (Sim.Post.assert (decide_eq_true hn.1)).bind fun _ _ => ?_
    refine (stdGenerate_post (fun u => (drawCoefficient_post bound).bind fun _ _ => Sim.Post.pure trivial) () _).mono fun r hr => ?_
    rw [hr, vresize_nil, List.length_replicate]

example : exitStatus (searchLinear 1 2 100) [1, 7, 150, 0, 1] = .ok 0 [] := by decide +kernel

/-- C98: the test of complete search on Walsh expansions of degree 1 ends with the status 0. -/
theorem searchWalsh1_ends (runs size bound : Nat) (hs : 1 ≤ size) : Ends (searchWalsh1 runs size bound) := by
  refine ends_every_of ?_ runs
  refine uniformInt_bind_within hs fun n ln un => ?_
  have hn : _ ∧ _ := ⟨ln, un⟩
  refine ⟨_, Sim.Within.bind (P := fun w : List Int => w.length = n) (Sim.Uses.within (Sim.Uses.bind Sim.Uses.lift fun _ =>
    Sim.Uses.forRange fun _ _ => Sim.Uses.bind (drawCoefficient_uses bound) fun _ => Sim.Uses.lift) ?_)
    fun w hw => declared_within hn.1 hw (walsh1_maximum w)⟩
  · unfold vectorGenerate
    refine (Sim.Post.assert (decide_eq_true hn.1)).bind fun _ _ => ?_
    refine (nkFill_post (drawCoefficient_post bound) _).mono fun r hr => ?_
    rw [hr.1, vresize_nil, List.length_replicate]

example : exitStatus (searchWalsh1 1 2 100) [1, 7, 150, 0, 1] = .ok 0 [] := by decide +kernel

/-- C98: the test of complete search on factorization ends with the status 0, whatever numbers the object was left with. -/
theorem searchFactorization_ends (first second runs aBound bBound : Nat) (ha : 2 ≤ aBound) (hb : 2 ≤ bBound) :
    Ends (searchFactorization first second runs aBound bBound) := by
  refine ends_every_of ?_ runs
  refine uniformInt_bind_within ha fun a la ua => ?_
  have ha : _ ∧ _ := ⟨la, ua⟩
  refine uniformInt_bind_within hb fun b lb ub => ?_
  have hb : _ ∧ _ := ⟨lb, ub⟩
  have h4 : 4 ≤ a * b := Nat.mul_le_mul ha.1 hb.1
  have hsize : firstFactorSize (a * b) + secondFactorSize (a * b) = factorizationSize (a * b) := by
    rw [firstFactorSize_eq]; rfl
  have hn : 0 < firstFactorSize (a * b) + secondFactorSize (a * b) := by
    rw [hsize]
    unfold factorizationSize sizeInBase2
    omega
  refine ⟨_, translatedSearch_within (M := 0) hn rfl ⟨fun x hx => ?_, ?_⟩ fun _ _ => rfl⟩
  · obtain ⟨v, h1, h2, -⟩ := factorization_zero (a * b) first second x (hx.trans hsize) (.inl (by omega))
    exact ⟨v, h1, h2⟩
  · obtain ⟨x, hx, h⟩ := (factorization_reaches_zero (a * b) first second (.inl (by omega))).mpr
      (.inl ⟨a, b, ha.1, hb.1, rfl⟩)
    exact ⟨x, hx.trans hsize.symm, h⟩

example : exitStatus (searchFactorization 5 7 1 2 2) [0, 0, 1, 0, 0, 1] = .ok 0 [] := by decide +kernel

theorem randomLiterals_uses (x : BV) (clause : List Int) :
    Sim.Uses ((x.length - 0) * (0 + (1 + (0 + 0)))) (randomLiterals x clause) := by
  refine Sim.Uses.forRange fun j st => Sim.Uses.bind Sim.Uses.lift fun b => ?_
  exact Sim.Uses.ite (Sim.Uses.bind Sim.Uses.bernoulli fun _ => Sim.Uses.bind Sim.Uses.lift fun _ => Sim.Uses.pure)
    (Sim.Uses.pure.mono (Nat.zero_le _))

theorem repairClause_uses (satisfied : Bool) (clause : List Int) : Sim.Uses (1 + (0 + 0)) (repairClause satisfied clause) :=
  Sim.Uses.ite (Sim.Uses.pure.mono (Nat.zero_le _))
    (Sim.Uses.bind Sim.Uses.uniformInt fun _ => Sim.Uses.bind Sim.Uses.lift fun _ => Sim.Uses.lift)

theorem maxSatRandomPlanted_uses {D : Type} [LT D] [DecidableLT D] (ratio : Nat → Nat → D) (uniform : Nat → Nat → D)
    (hu : ∀ d n j, 0 < n → uniform d j < ratio n n) (solution : BV) (k c : Nat) {n : Nat} (hn : solution.length = n)
    (hk : k ≤ n) :
    Sim.Uses (0 + (0 + (0 + ((c - 0) * ((1 + 0) + (0 + ((n - 0) * (0 + (1 + (0 + 0))) +
      (0 + (0 + ((1 + (0 + 0)) + (0 + 0))))))) + (0 + (0 + 0))))))
      (maxSatRandomPlanted ratio uniform solution k c) := by
  unfold maxSatRandomPlanted
  refine Sim.Uses.bind Sim.Uses.lift fun _ => Sim.Uses.bind Sim.Uses.lift fun _ => Sim.Uses.bind Sim.Uses.lift fun _ =>
    Sim.Uses.bind (Sim.Uses.forLoopP (fun st : List (List Int) × BV => st.2.length = n) ?_ ?_ _ _ _ (by simpa using hn))
      fun _ => Sim.Uses.bind Sim.Uses.lift fun _ => Sim.Uses.bind Sim.Uses.lift fun _ => Sim.Uses.pure
  · intro j st hst
    refine Sim.Uses.bindP (Sim.Uses.bind Sim.Uses.draw fun _ => Sim.Uses.lift)
      (Post_bvRandomSim ratio uniform hu st.2 k (by omega)).toOk fun x hx => Sim.Uses.bind Sim.Uses.lift fun clause => ?_
    have hx' : x.length = n := hx.1.trans hst
    rw [← hx']
    exact Sim.Uses.bind (randomLiterals_uses x clause) fun r => Sim.Uses.bind Sim.Uses.lift fun _ =>
      Sim.Uses.bind Sim.Uses.lift fun _ => Sim.Uses.bind (repairClause_uses _ _) fun _ =>
      Sim.Uses.bind Sim.Uses.lift fun _ => Sim.Uses.pure
  · intro j st hst
    refine (Post_bvRandomSim ratio uniform hu st.2 k (by omega)).toOk.bind fun x hx => ?_
    refine (Sim.PostOk.trivial _).bind fun _ _ => (Sim.PostOk.trivial _).bind fun _ _ => (Sim.PostOk.trivial _).bind fun _ _ =>
      (Sim.PostOk.trivial _).bind fun _ _ => (Sim.PostOk.trivial _).bind fun _ _ => (Sim.PostOk.trivial _).bind fun _ _ =>
      Sim.PostOk.pure (hx.1.trans hst)

/-- C98: the test of complete search on planted instances of `MaxSat` ends with the status 0. -/
theorem searchMaxSat_ends {D : Type} [LT D] [DecidableLT D] (ratio : Nat → Nat → D) (uniform : Nat → Nat → D)
    (hu : ∀ d n j, 0 < n → uniform d j < ratio n n) (runs size clauses : Nat) (hs : 1 ≤ size) (hc : 1 ≤ clauses) :
    Ends (searchMaxSat ratio uniform runs size clauses) := by
  refine ends_every_of ?_ runs
  refine uniformInt_bind_within hs fun n ln un => ?_
  have hn : _ ∧ _ := ⟨ln, un⟩
  refine uniformInt_bind_within hn.1 fun k lk uk => ?_
  have hk : _ ∧ _ := ⟨lk, uk⟩
  refine uniformInt_bind_within hc fun c lc uc => ?_
  have hc : _ ∧ _ := ⟨lc, uc⟩
  refine ⟨_, (bvRandomBits_within n).bind fun solution hsol => ((maxSatRandomPlanted_uses ratio uniform hu solution k c hsol (by omega)).within
    (maxSatRandomPlanted_instance ratio uniform hu solution k c hk.1 hc.1 (by omega))).bind (d := 0) fun expression he => ?_⟩
  obtain ⟨h1, -, h3⟩ := he
  refine searchFinds_within (M := (c : Int)) hn.1 ⟨fun x hx => ?_, solution, hsol, ?_⟩ rfl
  · have h := maxSat_value expression x (by rw [hx, ← hsol]; exact h1.2.1)
    refine ⟨_, by simp only [Fn.ofEval, h, ok_bind]; rfl, ?_⟩
    rw [← h1.1]
    exact_mod_cast List.countP_le_length
  · simp only [Fn.ofEval, h3, ok_bind]
    rfl

example : (∀ d n j : Nat, 0 < n → (fun _ _ => 0 : Nat → Nat → Nat) d j < (fun k n => if k = n then 1 else 0 : Nat → Nat → Nat) n n) ∧
    exitStatus (searchMaxSat (D := Nat) (fun k n => if k = n then 1 else 0) (fun _ _ => 0) 1 2 2)
      [1, 1, 1, 1, 0, 0, 0, 0, 0, 0, 0] = .ok 0 [] := by
  refine ⟨by simp, by decide +kernel⟩

end Hnco.Tests
