import Verif.App.HncoRun
import Verif.App.ApplicationProps
import Verif.App.FactorySteady

/-!
# Lemmas about runs of the application with algorithms made by the factory
-/

namespace Hnco

open Outcome

variable {K : Type}

theorem FnStack.after_snoc (st : FnStack K) (xs : List BV) (x : BV) :
    st.after (xs ++ [x]) = (st.obj.evaluate x (st.after xs)).2 := by
  unfold FnStack.after
  rw [List.foldl_append]
  rfl

section
variable [LinearOrder K] {fn : Fn K} {g : BV → K} {o : AppOptions K} {v : K} {st : FnStack K}

/-- What is known about the evaluations of an algorithm. -/
theorem extends_spec {n : Nat} (hn : fn.size = n) (hf : ∀ x, x.length = n → fn.eval x = ok (g x)) {seen : List BV → List BV}
    {stop : List BV → BV → Option Exn} {R : List BV → st.σ → Prop} (hR0 : R [] st.init)
    (hR2 : ∀ h s x, R h s → x.length = n →
      match stop h x with
      | none => ∃ s', st.obj.evaluate x s = (ok (g x), s') ∧ R (h ++ [x]) s'
      | some e => ∃ s', st.obj.evaluate x s = (.throw e, s') ∧ (e = .lastEvaluation ∧ Tracked g (seen h) (st.tracker s') ∨
          e = .targetReached ∧ Tracked g (seen (h ++ [x])) (st.tracker s') ∧
            ∃ tr, st.trigger = some tr ∧ tr s' = some (x, g x)))
    {calls : List (BV × K)} (h : (st.env fn).Extends [] calls) :
    R (calls.map Prod.fst) (st.after (calls.map Prod.fst)) ∧ Uninterrupted stop (calls.map Prod.fst) ∧
      ∀ c ∈ calls, c.1.length = n ∧ c.2 = g c.1 := by
  subst hn
  induction h with
  | refl => exact ⟨hR0, .nil, by simp⟩
  | @snoc l x w _ hstop hval ih =>
    obtain ⟨h1, h2, h3⟩ := ih
    have hx : x.length = fn.size ∧ w = g x := by
      rcases hval with hval | ⟨y, u, l, hval⟩
      · change (if x.length = fn.size then fn.eval x else ub) = ok w at hval
        split at hval
        · rename_i hx
          rw [hf x hx] at hval
          exact ⟨hx, (Outcome.ok.inj hval).symm⟩
        · cases hval
      · cases hval
    have hstep := hR2 _ _ x h1 hx.1
    have hnone : stop (l.map Prod.fst) x = none := by
      cases hs : stop (l.map Prod.fst) x with
      | none => rfl
      | some e =>
        rw [hs] at hstep
        obtain ⟨s', hs', _⟩ := hstep
        change (if x.length = fn.size then _ else none) = none at hstop
        rw [if_pos hx.1, hs'] at hstop
        cases hstop
    rw [hnone] at hstep
    obtain ⟨s', hs', hR'⟩ := hstep
    rw [List.map_append]
    refine ⟨?_, .snoc h2 hnone, ?_⟩
    · change R _ (st.after (l.map Prod.fst ++ [x]))
      rw [FnStack.after_snoc, hs']
      exact hR'
    · intro c hc
      rcases List.mem_append.mp hc with hc | hc
      · exact h3 c hc
      · rw [List.mem_singleton.mp hc]; exact hx

/-- The vectors whose evaluation is interrupted. -/
theorem env_stop {calls : List (BV × K)} {x : BV} {e : Exn} (h : (st.env fn).stop calls x = some e) :
    x.length = fn.size ∧ (st.obj.evaluate x (st.after (calls.map Prod.fst))).1 = .throw e := by
  change (if x.length = fn.size then _ else none) = _ at h
  split at h
  · rename_i hx
    refine ⟨hx, ?_⟩
    cases he : (st.obj.evaluate x (st.after (calls.map Prod.fst))).1 with
    | ok w => rw [he] at h; cases h
    | throw e' => rw [he] at h; cases h; rfl
    | ub => rw [he] at h; cases h
  · cases h

theorem env_raises {calls : List (BV × K)} {e : Exn} (hf : ∀ x, x.length = fn.size → fn.eval x = ok (g x))
    (h : (st.env fn).Raises calls e) : ∃ x, (st.env fn).stop calls x = some e := by
  rcases h with h | ⟨x, h⟩ | ⟨x, w, l, h⟩
  · exact h
  · change (if x.length = fn.size then fn.eval x else ub) = _ at h
    split at h
    · rename_i hx
      rw [hf x hx] at h; cases h
    · cases h
  · cases h

/-- The report of a run, for any algorithm which goes on only with evaluations which are not interrupted.  `h` are the vectors
which have been evaluated, `xs` those which have reached the function. -/
theorem appConclude_report (hf : ∀ x, x.length = fn.size → fn.eval x = ok (g x)) (hst : makeController o fn v = ok st)
    {r : RunResult K} (hext : (st.env fn).Extends [] r.calls) {last : BV}
    (hlast : ∀ e, r.ending = .error e → (st.env fn).stop r.calls last = some e) :
    ∃ res xs h, appConclude o st r last = ok res ∧ AppReported o (appGoal o fn) g xs res ∧
      xs = (if o.cache then firsts h else h) ∧ (∀ y ∈ h, y.length = fn.size) ∧
      (o.budget > 0 → (xs.length : Int) ≤ o.budget) ∧
      (o.budget > 0 → o.cache = true → o.cacheBudget = true → (h.length : Int) ≤ o.budget) ∧
      ((∀ t, appGoal o fn = some t → ∀ x ∈ h, g x < t) → h = r.calls.map Prod.fst ∧ res.solution = r.solution.1 ∧
        (∀ e, r.ending = .error e → e = .lastEvaluation ∧ appExhausted o h last)) ∧
      (h = r.calls.map Prod.fst ∨ (h = r.calls.map Prod.fst ++ [last] ∧ last ∉ r.calls.map Prod.fst)) := by
  obtain ⟨R, hR0, hR1, hR2⟩ := makeController_good hf hst
  obtain ⟨h1, hu, hc⟩ := extends_spec rfl hf hR0 hR2 hext
  have hlen : ∀ y ∈ r.calls.map Prod.fst, y.length = fn.size := by
    intro y hy
    obtain ⟨c, hc', rfl⟩ := List.mem_map.mp hy
    exact (hc c hc').1
  generalize hh : r.calls.map Prod.fst = h at h1 hu hlen
  have hbelow : ∀ t, appGoal o fn = some t → ∀ y ∈ h, g y < t := by
    intro t hg y hy
    rw [hg] at hu
    exact uninterrupted_below hu y hy
  have hnot : ∀ tracker, Tracked g (appSeen o h) tracker → appConclude o st r last = ok (appFinish o tracker r.solution.1 false) →
      (∀ e, r.ending = .error e → e = .lastEvaluation ∧ appExhausted o h last) →
      ∃ res xs h', appConclude o st r last = ok res ∧ AppReported o (appGoal o fn) g xs res ∧
      xs = (if o.cache then firsts h' else h') ∧ (∀ y ∈ h', y.length = fn.size) ∧
      (o.budget > 0 → (xs.length : Int) ≤ o.budget) ∧
      (o.budget > 0 → o.cache = true → o.cacheBudget = true → (h'.length : Int) ≤ o.budget) ∧
      ((∀ t, appGoal o fn = some t → ∀ x ∈ h', g x < t) → h' = h ∧ res.solution = r.solution.1 ∧
        (∀ e, r.ending = .error e → e = .lastEvaluation ∧ appExhausted o h' last)) ∧
      (h' = h ∨ (h' = h ++ [last] ∧ last ∉ h)) := by
    intro tracker ht hr he
    refine ⟨_, appSeen o h, h, hr, appReported_finish hst ht ?_ (by simp), rfl, hlen, fun hb => (uninterrupted_budget hb hu).1,
      fun hb => (uninterrupted_budget hb hu).2, fun _ => ⟨rfl, rfl, he⟩, .inl rfl⟩
    intro _ t hg y hy
    exact hbelow t hg y (mem_appSeen.mp hy)
  cases he : r.ending with
  | ok u =>
    simp only [he] at hnot
    refine hnot _ (hR1 _ _ h1) ?_ (fun e h => by cases h)
    unfold appConclude
    simp only [he, hh]
  | error e =>
    obtain ⟨hx, hstop⟩ := env_stop (hlast e he)
    rw [hh] at hstop
    have hstep := hR2 h _ last h1 hx
    cases hs : appStop o (appGoal o fn) g h last with
    | none =>
      rw [hs] at hstep
      obtain ⟨s', hs', _⟩ := hstep
      rw [hs'] at hstop
      cases hstop
    | some e' =>
      rw [hs] at hstep
      obtain ⟨s', hs', hcase⟩ := hstep
      have hee : e' = e := by rw [hs'] at hstop; exact Outcome.throw.inj hstop
      subst hee
      rcases hcase with ⟨rfl, ht⟩ | ⟨rfl, ht, tr, htr, htx⟩
      · have hex : appExhausted o h last := by
          by_contra hn
          unfold appStop at hs
          rw [if_neg hn] at hs
          split at hs
          · cases hs
          · split at hs <;> cases hs
        simp only [he] at hnot
        refine hnot _ ht ?_ (fun e h => by cases h; exact ⟨rfl, hex⟩)
        unfold appConclude
        simp only [he, hh, hs']
      · have hxs : ¬ appExhausted o h last := by
          intro hx
          simp [appStop, hx] at hs
        obtain ⟨t, hg, htx'⟩ : ∃ t, appGoal o fn = some t ∧ t ≤ g last := by
          unfold appStop at hs
          rw [if_neg hxs] at hs
          cases hg : appGoal o fn with
          | none => simp [hg] at hs
          | some t =>
            refine ⟨t, rfl, ?_⟩
            by_contra hn
            simp [hg, hn] at hs
        have hnew : last ∉ h := fun hm => absurd (hbelow t hg last hm) (not_lt.mpr htx')
        have hseen : appSeen o (h ++ [last]) = appSeen o h ++ [last] := by
          unfold appSeen
          split
          · exact firsts_snoc_new hnew
          · rfl
        have hu' : Uninterrupted (appStop o none g) (h ++ [last]) := by
          refine .snoc (uninterrupted_no_goal hu) ?_
          simp [appStop, hxs]
        refine ⟨appFinish o (st.tracker s') last true, appSeen o (h ++ [last]), h ++ [last], ?_,
          appReported_finish hst ht (by simp) ?_, rfl, ?_, fun hb => (uninterrupted_budget hb hu').1,
          fun hb => (uninterrupted_budget hb hu').2, ?_, .inr ⟨rfl, hnew⟩⟩
        · unfold appConclude
          simp only [he, hh, hs', htr, htx]
        · intro _
          exact ⟨t, hg, htx', _, hseen, fun y hy => hbelow t hg y (mem_appSeen.mp hy)⟩
        · intro y hy
          rcases List.mem_append.mp hy with hy | hy
          · exact hlen y hy
          · rw [List.mem_singleton.mp hy]; exact hx
        · intro hall
          exact absurd (hall t hg last (by simp)) (not_lt.mpr htx')

end

/-! ## Restart -/

section
variable {env : Env K} {τ : Type}

/-- The wrapped algorithm adds only evaluations which are not stopped. -/
def InnerSteady {σ : Type} (env : Env K) {α : Type} (m : Alg (AlgState K (RestartData K (AlgState K σ))) α) : Prop :=
  ∀ s ds a t rest, m s ds = .ok (a, t) rest → env.Extends s.data.inner.calls t.data.inner.calls

theorem innerSteady_bind {σ α β : Type} {m : Alg (AlgState K (RestartData K (AlgState K σ))) α}
    {f : α → Alg (AlgState K (RestartData K (AlgState K σ))) β} (h : InnerSteady env m) (hf : ∀ a, InnerSteady env (f a)) :
    InnerSteady env (m >>= f) := by
  intro s ds b t rest he
  rw [Alg.bind_apply] at he
  cases hm : m s ds with
  | ok r rest' =>
    obtain ⟨r, u⟩ := r
    rw [hm] at he
    have h1 := h _ _ _ _ _ hm
    cases r with
    | ok a => exact h1.trans (hf a _ _ _ _ _ he)
    | error x => cases he; exact h1
  | throw x => rw [hm] at he; cases he
  | ub => rw [hm] at he; cases he
  | out => rw [hm] at he; cases he

theorem innerSteady_forLoop {σ : Type} {body : Nat → Alg (AlgState K (RestartData K (AlgState K σ))) Unit}
    (h : ∀ i, InnerSteady env (body i)) : ∀ n i, InnerSteady env (Alg.forLoop n i body)
  | 0, _ => by intro s ds a t rest he; cases he; exact .refl
  | n + 1, i => innerSteady_bind (h i) (fun _ => innerSteady_forLoop h n (i + 1))

variable [LinearOrder K]

theorem innerSteady_iterate {σ : Type} {run : Alg (AlgState K σ) (BV × K)} [hrun : Alg.Steady env run] (first : Bool) :
    InnerSteady env (restartIterate run first) := by
  intro s ds a t rest he
  unfold restartIterate at he
  change Sim.bind _ _ ds = _ at he
  unfold Sim.bind at he
  cases hm : run s.data.inner ds with
  | ok r rest' =>
    obtain ⟨r, u⟩ := r
    rw [hm] at he
    have h1 := hrun.out _ _ _ _ _ hm
    cases r with
    | ok res =>
      cases first
      · change Res.ok _ _ = _ at he
        simp only [Res.ok.injEq, Prod.mk.injEq] at he
        obtain ⟨⟨_, rfl⟩, _⟩ := he
        split <;> exact h1
      · cases he; exact h1
    | error x => cases he; exact h1
  | throw x => rw [hm] at he; cases he
  | ub => rw [hm] at he; cases he
  | out => rw [hm] at he; cases he

theorem restart_extends [Zero K] {m : MadeAlgorithm K} {n : Nat} (hm : m.Steady n env) {fuel : Nat} {ds : List Nat} {r : RunResult K}
    {rest : List Nat} (hr : m.restart.run env fuel ds = .ok r rest) : env.Extends [] r.calls := by
  have hmax : InnerSteady env (restartMaximize (m.once env fuel) 0 fuel) := by
    have : Alg.Steady env (m.once env fuel) := by
      obtain ⟨f, hf, hcalls⟩ := hm.finalize
      have h1 := hm.maximize fuel
      have h2 : Alg.Steady env m.finalize := ⟨by
        intro s ds a t rest h
        rw [hf] at h
        cases h
        rw [hcalls]
        exact .refl⟩
      unfold MadeAlgorithm.once
      infer_instance
    unfold restartMaximize
    rw [if_neg (by omega)]
    refine innerSteady_bind (innerSteady_forLoop (fun i => innerSteady_iterate _) _ _) (fun _ => ?_)
    intro s ds a t rest h
    cases h
  unfold MadeAlgorithm.run at hr
  change Sim.bind (Sim.bind _ _) _ ds = _ at hr
  unfold Sim.bind at hr
  cases hx : restartMaximize (m.once env fuel) 0 fuel m.restart.start ds with
  | ok a rest' =>
    obtain ⟨x, t⟩ := a
    have h1 := hmax _ _ _ _ _ hx
    change env.Extends m.start.calls _ at h1
    rw [hm.start] at h1
    rw [hx] at hr
    cases x with
    | ok u => cases hr; exact h1
    | error x => cases x <;> (cases hr; exact h1)
  | throw x => rw [hx] at hr; cases hr
  | ub => rw [hx] at hr; cases hr
  | out => rw [hx] at hr; cases hr

/-- If no run of the wrapped algorithm returns, then a run with restart leaves the solution as constructed. -/
theorem restart_untouched [Zero K] {m : MadeAlgorithm K} {n : Nat} (hm : m.Steady n env) {fuel : Nat}
    (hend : ∀ ds r rest, m.run env fuel ds = .ok r rest → r.ending ≠ .ok ()) {ds : List Nat} {r : RunResult K}
    {rest : List Nat} (hr : m.restart.run env fuel ds = .ok r rest) :
    r.solution = (List.replicate n false, 0) ∧ ∃ e, r.ending = .error e := by
  obtain ⟨f, hf, _⟩ := hm.finalize
  have hmax : ∀ ds u t rest, m.maximize env fuel m.start ds ≠ .ok (.ok u, t) rest := by
    intro ds u t rest h
    refine hend ds ⟨.ok (), (f t).solution, (f t).calls⟩ rest ?_ rfl
    unfold MadeAlgorithm.run
    change Sim.bind _ _ ds = _
    unfold Sim.bind
    rw [h]
    simp only [hf]
    rfl
  have honce : ∀ ds u t rest, m.once env fuel m.start ds ≠ .ok (.ok u, t) rest := by
    intro ds u t rest h
    unfold MadeAlgorithm.once at h
    rw [Alg.bind_apply] at h
    cases hx : m.maximize env fuel m.start ds with
    | ok a rest' =>
      obtain ⟨a, t'⟩ := a
      cases a with
      | ok w => exact hmax _ _ _ _ hx
      | error e => rw [hx] at h; cases h
    | throw x => rw [hx] at h; cases h
    | ub => rw [hx] at h; cases h
    | out => rw [hx] at h; cases h
  have hmax' : ∀ ds a t rest, restartMaximize (m.once env fuel) 0 fuel m.restart.start ds = .ok (a, t) rest →
      t.solution = m.restart.start.solution ∧ ∃ e, a = .error e := by
    intro ds a t rest h
    unfold restartMaximize at h
    rw [if_neg (by omega)] at h
    cases fuel with
    | zero => cases h
    | succ fuel =>
      have hfirst : ∀ ds b t rest, restartIterate (m.once env (fuel + 1)) true m.restart.start ds = .ok (b, t) rest →
          t.solution = m.restart.start.solution ∧ ∃ e, b = .error e := by
        intro ds b t rest h
        unfold restartIterate at h
        change Sim.bind _ _ ds = _ at h
        unfold Sim.bind at h
        have hs : m.restart.start.data.inner = m.start := rfl
        rw [hs] at h
        cases hx : m.once env (fuel + 1) m.start ds with
        | ok a rest' =>
          obtain ⟨a, t'⟩ := a
          rw [hx] at h
          cases a with
          | ok w => exact (honce _ _ _ _ hx).elim
          | error e => cases h; exact ⟨rfl, e, rfl⟩
        | throw x =>
          rw [hx] at h; cases h
        | ub =>
          rw [hx] at h; cases h
        | out =>
          rw [hx] at h; cases h
      erw [Alg.bind_apply] at h
      have hloop : ∀ ds b t rest, Alg.forRange 0 (fuel + 1) (fun i => restartIterate (m.once env (fuel + 1)) (i == 0))
          m.restart.start ds = .ok (b, t) rest → t.solution = m.restart.start.solution ∧ ∃ e, b = .error e := by
        intro ds b t rest h
        change (restartIterate (m.once env (fuel + 1)) true >>= fun _ => _) m.restart.start ds = _ at h
        erw [Alg.bind_apply] at h
        cases hx : restartIterate (m.once env (fuel + 1)) true m.restart.start ds with
        | ok a rest' =>
          obtain ⟨a, t'⟩ := a
          obtain ⟨h1, e, rfl⟩ := hfirst _ _ _ _ hx
          rw [hx] at h
          cases h
          exact ⟨h1, e, rfl⟩
        | throw x => rw [hx] at h; cases h
        | ub => rw [hx] at h; cases h
        | out => rw [hx] at h; cases h
      cases hx : Alg.forRange 0 (fuel + 1) (fun i => restartIterate (m.once env (fuel + 1)) (i == 0)) m.restart.start ds with
      | ok a rest' =>
        obtain ⟨a, t'⟩ := a
        obtain ⟨h1, e, rfl⟩ := hloop _ _ _ _ hx
        rw [hx] at h
        cases h
        exact ⟨h1, e, rfl⟩
      | throw x => rw [hx] at h; cases h
      | ub => rw [hx] at h; cases h
      | out => rw [hx] at h; cases h
  unfold MadeAlgorithm.run at hr
  change Sim.bind (Sim.bind _ _) _ ds = _ at hr
  unfold Sim.bind at hr
  have hsol : m.restart.start.solution = (List.replicate n false, 0) := by
    change (List.replicate m.start.solution.1.length false, (0 : K)) = _
    rw [hm.solution]
  cases hx : restartMaximize (m.once env fuel) 0 fuel m.restart.start ds with
  | ok a rest' =>
    obtain ⟨x, t⟩ := a
    obtain ⟨h1, e, rfl⟩ := hmax' _ _ _ _ hx
    rw [hx] at hr
    rw [hsol] at h1
    cases e <;> (cases hr; exact ⟨h1, _, rfl⟩)
  | throw x => rw [hx] at hr; cases hr
  | ub => rw [hx] at hr; cases hr
  | out => rw [hx] at hr; cases hr

/-- The solution does not get worse than `p`. -/
def KeepsSolution {σ α : Type} (p : BV × K) (m : Alg (AlgState K σ) α) : Prop :=
  ∀ s ds a t rest, m s ds = .ok (a, t) rest → s.solution = p ∨ p.2 < s.solution.2 → t.solution = p ∨ p.2 < t.solution.2

theorem keepsSolution_bind {σ α β : Type} {p : BV × K} {m : Alg (AlgState K σ) α} {f : α → Alg (AlgState K σ) β}
    (h : KeepsSolution p m) (hf : ∀ a, KeepsSolution p (f a)) : KeepsSolution p (m >>= f) := by
  intro s ds b t rest he hs
  rw [Alg.bind_apply] at he
  cases hm : m s ds with
  | ok r rest' =>
    obtain ⟨r, u⟩ := r
    rw [hm] at he
    have h1 := h _ _ _ _ _ hm hs
    cases r with
    | ok a => exact hf a _ _ _ _ _ he h1
    | error x => cases he; exact h1
  | throw x => rw [hm] at he; cases he
  | ub => rw [hm] at he; cases he
  | out => rw [hm] at he; cases he

theorem keepsSolution_forLoop {σ : Type} {p : BV × K} {body : Nat → Alg (AlgState K σ) Unit} (i₀ : Nat)
    (h : ∀ i, i₀ ≤ i → KeepsSolution p (body i)) : ∀ n i, i₀ ≤ i → KeepsSolution p (Alg.forLoop n i body)
  | 0, _, _ => by intro s ds a t rest he hs; cases he; exact hs
  | n + 1, i, hi => keepsSolution_bind (h i hi) (fun _ => keepsSolution_forLoop i₀ h n (i + 1) (by omega))

theorem keepsSolution_iterate {p : BV × K} {run : Alg τ (BV × K)} : KeepsSolution p (restartIterate run false) := by
  intro s ds a t rest he hs
  unfold restartIterate at he
  change Sim.bind _ _ ds = _ at he
  unfold Sim.bind at he
  cases hm : run s.data.inner ds with
  | ok r rest' =>
    obtain ⟨r, u⟩ := r
    rw [hm] at he
    cases r with
    | ok res =>
      change Res.ok _ _ = _ at he
      simp only [Res.ok.injEq, Prod.mk.injEq] at he
      obtain ⟨⟨_, rfl⟩, _⟩ := he
      split
      · rename_i hlt
        right
        rcases hs with hs | hs
        · rw [← hs]; exact hlt
        · exact hs.trans hlt
      · exact hs
    | error x => cases he; exact hs
  | throw x => rw [hm] at he; cases he
  | ub => rw [hm] at he; cases he
  | out => rw [hm] at he; cases he

/-- If the wrapped algorithm returns, then the solution with restart is at least as good as its solution. -/
theorem restart_first [Zero K] {m : MadeAlgorithm K} {n : Nat} (hm : m.Steady n env) {fuel : Nat} {ds : List Nat}
    {r₁ : RunResult K} {rest₁ : List Nat} (h₁ : m.run env fuel ds = .ok r₁ rest₁) (hend : r₁.ending = .ok ()) {r : RunResult K}
    {rest : List Nat} (hr : m.restart.run env fuel ds = .ok r rest) :
    r.solution = r₁.solution ∨ r₁.solution.2 < r.solution.2 := by
  obtain ⟨f, hf, _⟩ := hm.finalize
  obtain ⟨u, t₁, rest', hmax, hsol₁⟩ : ∃ u t rest', m.maximize env fuel m.start ds = .ok (.ok u, t) rest' ∧
      r₁.solution = (f t).solution := by
    unfold MadeAlgorithm.run at h₁
    change Sim.bind _ _ ds = _ at h₁
    unfold Sim.bind at h₁
    cases hx : m.maximize env fuel m.start ds with
    | ok a rest' =>
      obtain ⟨a, t⟩ := a
      rw [hx] at h₁
      cases a with
      | ok w =>
        simp only [hf] at h₁
        cases h₁
        exact ⟨w, t, _, rfl, rfl⟩
      | error e =>
        cases e
        · simp only [hf] at h₁
          cases h₁
          cases hend
        · cases h₁
          cases hend
        · cases h₁
          cases hend
    | throw x => rw [hx] at h₁; cases h₁
    | ub => rw [hx] at h₁; cases h₁
    | out => rw [hx] at h₁; cases h₁
  have honce : m.once env fuel m.start ds = .ok (.ok (f t₁).solution, f t₁) rest' := by
    unfold MadeAlgorithm.once
    rw [Alg.bind_apply, hmax]
    simp only
    rw [Alg.bind_apply, hf]
    rfl
  have hmax' : ∀ a t rest, restartMaximize (m.once env fuel) 0 fuel m.restart.start ds = .ok (a, t) rest →
      t.solution = r₁.solution ∨ r₁.solution.2 < t.solution.2 := by
    intro a t rest h
    unfold restartMaximize at h
    rw [if_neg (by omega)] at h
    cases fuel with
    | zero => cases h
    | succ fuel =>
      have hs : m.restart.start.data.inner = m.start := rfl
      have hfirst : ∃ t', restartIterate (m.once env (fuel + 1)) true m.restart.start ds = .ok (.ok (), t') rest' ∧
          t'.solution = r₁.solution := by
        unfold restartIterate
        refine ⟨{ m.restart.start with solution := (f t₁).solution, data := ⟨f t₁, [] ++ [(f t₁).solution]⟩ }, ?_, hsol₁.symm⟩
        change Sim.bind _ _ ds = _
        unfold Sim.bind
        rw [hs, honce]
        rfl
      obtain ⟨t', hfirst, hsol'⟩ := hfirst
      erw [Alg.bind_apply] at h
      have hkeep : KeepsSolution r₁.solution (Alg.forLoop fuel 1 (fun i => restartIterate (m.once env (fuel + 1)) (i == 0))) :=
        keepsSolution_forLoop 1 (fun i hi => by
          have : (i == 0) = false := by simp; omega
          rw [this]
          exact keepsSolution_iterate) _ _ le_rfl
      have hloop : ∀ b t rest, Alg.forRange 0 (fuel + 1) (fun i => restartIterate (m.once env (fuel + 1)) (i == 0))
          m.restart.start ds = .ok (b, t) rest → t.solution = r₁.solution ∨ r₁.solution.2 < t.solution.2 := by
        intro b t rest h
        change (restartIterate (m.once env (fuel + 1)) true >>= fun _ => Alg.forLoop fuel 1 _) m.restart.start ds = _ at h
        erw [Alg.bind_apply] at h
        rw [hfirst] at h
        exact hkeep _ _ _ _ _ h (.inl hsol')
      cases hx : Alg.forRange 0 (fuel + 1) (fun i => restartIterate (m.once env (fuel + 1)) (i == 0)) m.restart.start ds with
      | ok a rest' =>
        obtain ⟨a, t'⟩ := a
        have h1 := hloop _ _ _ hx
        rw [hx] at h
        cases a with
        | ok w => cases h
        | error e => cases h; exact h1
      | throw x => rw [hx] at h; cases h
      | ub => rw [hx] at h; cases h
      | out => rw [hx] at h; cases h
  unfold MadeAlgorithm.run at hr
  change Sim.bind (Sim.bind _ _) _ ds = _ at hr
  unfold Sim.bind at hr
  cases hx : restartMaximize (m.once env fuel) 0 fuel m.restart.start ds with
  | ok a rest' =>
    obtain ⟨x, t⟩ := a
    have h1 := hmax' _ _ _ hx
    rw [hx] at hr
    cases x with
    | ok u => cases hr; exact h1
    | error e => cases e <;> (cases hr; exact h1)
  | throw x => rw [hx] at hr; cases hr
  | ub => rw [hx] at hr; cases hr
  | out => rw [hx] at hr; cases hr

end

end Hnco
