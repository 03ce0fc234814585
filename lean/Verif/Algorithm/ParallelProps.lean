import Verif.Function.ControllerProps
import Verif.Algorithm.Population

/-! # Parallel evaluation of populations (C57), and its interaction with the cache (C63) -/

namespace Hnco

open Outcome

/-! ### Vocabulary -/

/-- A stack of controllers, other than caches, on top of a function. -/
inductive Stack (K : Type) where
  | base
  | counter (inner : Stack K)
  | budget (B : Int) (inner : Stack K)
  | target (t : K) (inner : Stack K)
  | tracker (record : Bool) (inner : Stack K)

namespace Stack

variable {K : Type}

/-- The state of the stack: the calls that reached the function, and the data of the controllers. -/
def State : Stack K → Type
  | base => List (Call K)
  | counter inner => inner.State × Nat
  | budget _ inner => inner.State × Nat
  | target _ inner => inner.State × Option (BV × K)
  | tracker _ inner => (inner.State × Nat) × Event K

/-- The function object at the top of the stack. -/
def obj [LinearOrder K] (f : Fn K) : (st : Stack K) → FnObj st.State K
  | base => FnObj.base f
  | counter inner => callCounter (obj f inner)
  | budget B inner => onBudget B (obj f inner)
  | target t inner => stopOnTarget t (obj f inner)
  | tracker record inner => progressTracker record (obj f inner)

/-- The controllers hold the same data: counters, triggers and recorded events are equal (the ghost list
of calls that reached the function is disregarded). -/
def Same : (st : Stack K) → st.State → st.State → Prop
  | base, _, _ => True
  | counter inner, s, t => inner.Same s.1 t.1 ∧ s.2 = t.2
  | budget _ inner, s, t => inner.Same s.1 t.1 ∧ s.2 = t.2
  | target _ inner, s, t => inner.Same s.1 t.1 ∧ s.2 = t.2
  | tracker _ inner, s, t => inner.Same s.1.1 t.1.1 ∧ s.1.2 = t.1.2 ∧ s.2 = t.2

theorem Same.refl : (st : Stack K) → (s : st.State) → st.Same s s
  | base, _ => True.intro
  | counter inner, s => ⟨Same.refl inner s.1, rfl⟩
  | budget _ inner, s => ⟨Same.refl inner s.1, rfl⟩
  | target _ inner, s => ⟨Same.refl inner s.1, rfl⟩
  | tracker _ inner, s => ⟨Same.refl inner s.1.1, rfl, rfl⟩

theorem Same.trans : (st : Stack K) → {s t u : st.State} → st.Same s t → st.Same t u → st.Same s u
  | base, _, _, _, _, _ => True.intro
  | counter inner, _, _, _, h, k => ⟨Same.trans inner h.1 k.1, h.2.trans k.2⟩
  | budget _ inner, _, _, _, h, k => ⟨Same.trans inner h.1 k.1, h.2.trans k.2⟩
  | target _ inner, _, _, _, h, k => ⟨Same.trans inner h.1 k.1, h.2.trans k.2⟩
  | tracker _ inner, _, _, _, h, k =>
    ⟨Same.trans inner h.1 k.1, h.2.1.trans k.2.1, h.2.2.trans k.2.2⟩

theorem Same.symm : (st : Stack K) → {s t : st.State} → st.Same s t → st.Same t s
  | base, _, _, _ => True.intro
  | counter inner, _, _, h => ⟨Same.symm inner h.1, h.2.symm⟩
  | budget _ inner, _, _, h => ⟨Same.symm inner h.1, h.2.symm⟩
  | target _ inner, _, _, h => ⟨Same.symm inner h.1, h.2.symm⟩
  | tracker _ inner, _, _, h => ⟨Same.symm inner h.1, h.2.1.symm, h.2.2.symm⟩

/-- Both calls return, the first one `v`, or both throw the same exception. -/
def Alike (a : Outcome K) (b : Outcome Unit) (v : K) : Prop :=
  (a = ok v ∧ b = ok ()) ∨ ∃ e, a = .throw e ∧ b = .throw e

/-- Calls of `evaluate` and of `update` on stacks in the same state. -/
theorem evaluate_update [LinearOrder K] (f : Fn K) (g : BV → K) (x : BV) (hx : f.eval x = ok (g x)) :
    (st : Stack K) → (s t : st.State) → st.Same s t →
      Alike ((st.obj f).evaluate x s).1 ((st.obj f).update x (g x) t).1 (g x) ∧
      st.Same ((st.obj f).evaluate x s).2 ((st.obj f).update x (g x) t).2
  | base, s, t, _ => by
    exact ⟨Or.inl ⟨hx, rfl⟩, True.intro⟩
  | counter inner, s, t, h => by
    obtain ⟨h1, h2⟩ := evaluate_update f g x hx inner s.1 t.1 h.1
    obtain ⟨s, n⟩ := s
    obtain ⟨t, m⟩ := t
    obtain ⟨_, rfl⟩ : inner.Same s t ∧ n = m := h
    simp only [obj, callCounter, Act.bind_def, Act.inner_def, countCall] at h1 h2 ⊢
    rcases h1 with ⟨e1, e2⟩ | ⟨e, e1, e2⟩
    · simp only [e1, e2]
      exact ⟨Or.inl ⟨rfl, rfl⟩, h2, rfl⟩
    · simp only [e1, e2]
      exact ⟨Or.inr ⟨e, rfl, rfl⟩, h2, rfl⟩
  | budget B inner, s, t, h => by
    obtain ⟨h1, h2⟩ := evaluate_update f g x hx inner s.1 t.1 h.1
    obtain ⟨s, n⟩ := s
    obtain ⟨t, m⟩ := t
    obtain ⟨hs, rfl⟩ : inner.Same s t ∧ n = m := h
    simp only [obj, onBudget, budgetCheck, callCounter, Act.bind_def, Act.inner_def, countCall,
      Act.get_def] at h1 h2 ⊢
    by_cases hB : (n : Int) = B
    · simp only [hB, if_true, Act.raise_def]
      exact ⟨Or.inr ⟨_, rfl, rfl⟩, hs, rfl⟩
    · simp only [hB, if_false, Act.pure_def]
      rcases h1 with ⟨e1, e2⟩ | ⟨e, e1, e2⟩
      · simp only [e1, e2]
        exact ⟨Or.inl ⟨rfl, rfl⟩, h2, rfl⟩
      · simp only [e1, e2]
        exact ⟨Or.inr ⟨e, rfl, rfl⟩, h2, rfl⟩
  | target tgt inner, s, t, h => by
    obtain ⟨h1, h2⟩ := evaluate_update f g x hx inner s.1 t.1 h.1
    obtain ⟨s, n⟩ := s
    obtain ⟨t, m⟩ := t
    obtain ⟨hs, rfl⟩ : inner.Same s t ∧ n = m := h
    simp only [obj, stopOnTarget, targetCheck, Act.bind_def, Act.inner_def] at h1 h2 ⊢
    rcases h1 with ⟨e1, e2⟩ | ⟨e, e1, e2⟩
    · simp only [e1, e2]
      by_cases hB : tgt ≤ g x
      · simp only [hB, if_true, Act.bind_def, Act.modify_def, Act.raise_def]
        exact ⟨Or.inr ⟨_, rfl, rfl⟩, h2, rfl⟩
      · simp only [hB, if_false, Act.pure_def]
        exact ⟨Or.inl ⟨rfl, rfl⟩, h2, rfl⟩
    · simp only [e1, e2]
      exact ⟨Or.inr ⟨e, rfl, rfl⟩, h2, rfl⟩
  | tracker record inner, s, t, h => by
    obtain ⟨h1, h2⟩ := evaluate_update f g x hx inner s.1.1 t.1.1 h.1
    obtain ⟨⟨s, n⟩, ev⟩ := s
    obtain ⟨⟨t, m⟩, ev'⟩ := t
    obtain ⟨hs, rfl, rfl⟩ : inner.Same s t ∧ n = m ∧ ev = ev' := h
    simp only [obj, progressTracker, callCounter, Act.bind_def, Act.inner_def, countCall] at h1 h2 ⊢
    rcases h1 with ⟨e1, e2⟩ | ⟨e, e1, e2⟩
    · simp only [e1, e2, Act.modify_def, Act.pure_def,
        updateImprovement_eq _ _ _ _ _ (Nat.succ_le_succ (Nat.zero_le n))]
      exact ⟨Or.inl ⟨rfl, rfl⟩, h2, rfl, rfl⟩
    · simp only [e1, e2]
      exact ⟨Or.inr ⟨e, rfl, rfl⟩, h2, rfl, rfl⟩

/-- Safe evaluation returns the value and changes no controller. -/
theorem evaluateSafely_eq [LinearOrder K] (f : Fn K) (g : BV → K) (x : BV) (hx : f.eval x = ok (g x)) :
    (st : Stack K) → (s : st.State) →
      ((st.obj f).evaluateSafely x s).1 = ok (g x) ∧
      st.Same s ((st.obj f).evaluateSafely x s).2
  | base, s => by
    exact ⟨hx, True.intro⟩
  | counter inner, s => by
    obtain ⟨h1, h2⟩ := evaluateSafely_eq f g x hx inner s.1
    exact ⟨h1, h2, rfl⟩
  | budget B inner, s => by
    obtain ⟨h1, h2⟩ := evaluateSafely_eq f g x hx inner s.1
    exact ⟨h1, h2, rfl⟩
  | target t inner, s => by
    obtain ⟨h1, h2⟩ := evaluateSafely_eq f g x hx inner s.1
    exact ⟨h1, h2, rfl⟩
  | tracker record inner, s => by
    obtain ⟨h1, h2⟩ := evaluateSafely_eq f g x hx inner s.1.1
    exact ⟨h1, h2, rfl, rfl⟩

end Stack

/-- An arbitrary schedule of the parallel loop: every index is processed exactly once, by one of the
threads. -/
def IsSchedule (schedule : List (Nat × Nat)) (threads size : Nat) : Prop :=
  (schedule.map Prod.snd).Perm (List.range size) ∧ ∀ p ∈ schedule, p.1 < threads

/-! ### Helper lemmas -/

variable {σ K : Type}

theorem setValue_eq (s : σ) (vals : List K) (i : Nat) (v : K) (hi : i < vals.length) :
    setValue i v (s, vals) = (ok (), (s, vals.set i v)) := by
  simp [setValue, Act.bind_def, vset_eq hi]

/-- The parallel loop, for an invariant `P` of the state of the first object. -/
theorem parallelLoop_eq (fns : List (FnObj σ K)) (bvs : List BV) (g : BV → K) (P : σ → Prop)
    (hsafe : ∀ f ∈ fns, ∀ x ∈ bvs, ∀ t, (f.evaluateSafely x t).1 = ok (g x))
    (hP : ∀ f, fns[0]? = some f → ∀ x ∈ bvs, ∀ t, P t → P (f.evaluateSafely x t).2)
    (schedule : List (Nat × Nat)) (hk : ∀ p ∈ schedule, p.1 < fns.length ∧ p.2 < bvs.length)
    (states : List σ) (hs : states.length = fns.length) (hP0 : ∀ t, states[0]? = some t → P t)
    (vals : List K) (hv : vals.length = bvs.length) :
    ∃ states' vals', parallelLoop fns bvs schedule (states, vals) = (ok (), (states', vals')) ∧
      states'.length = fns.length ∧ (∀ t, states'[0]? = some t → P t) ∧ vals'.length = bvs.length ∧
      ∀ (i : Nat) (x : BV), bvs[i]? = some x →
        vals'[i]? = if i ∈ schedule.map Prod.snd then some (g x) else vals[i]? := by
  induction schedule generalizing states vals with
  | nil => exact ⟨states, vals, rfl, hs, hP0, hv, by simp⟩
  | cons p rest ih =>
    obtain ⟨k, i⟩ := p
    obtain ⟨hkl, hil⟩ := hk (k, i) (by simp)
    simp only at hkl hil
    have e1 : vget fns k = ok fns[k] := vget_eq hkl
    have e2 : vget bvs i = ok bvs[i] := vget_eq hil
    have e3 : vget states k = ok (states[k]'(by omega)) := vget_eq _
    have e4 : (fns[k].evaluateSafely bvs[i] (states[k]'(by omega))).1 = ok (g bvs[i]) :=
      hsafe _ (List.getElem_mem _) _ (List.getElem_mem _) _
    have e5 : vset states k (fns[k].evaluateSafely bvs[i] (states[k]'(by omega))).2
        = ok (states.set k (fns[k].evaluateSafely bvs[i] (states[k]'(by omega))).2) :=
      vset_eq (by omega)
    have hstep : evaluateSafelyOne fns bvs k i (states, vals)
        = (ok (), (states.set k (fns[k].evaluateSafely bvs[i] (states[k]'(by omega))).2,
            vals.set i (g bvs[i]))) := by
      simp only [evaluateSafelyOne, Act.bind_def, Act.lift_def, hkl, decide_true, assert_true, e1, e2,
        Act.get_def, e3, e5, Act.modify_def, e4]
      exact setValue_eq _ _ _ _ (by omega)
    obtain ⟨states', vals', h1, h2, h3, h4, h5⟩ := ih (fun q hq => hk q (by simp [hq]))
      (states.set k (fns[k].evaluateSafely bvs[i] (states[k]'(by omega))).2) (by simp [hs])
      (by
        intro t ht
        by_cases hk0 : k = 0
        · subst hk0
          rw [List.getElem?_set_self (by omega)] at ht
          simp only [Option.some.injEq] at ht
          rw [← ht]
          exact hP _ (List.getElem?_eq_getElem hkl) _ (List.getElem_mem _) _
            (hP0 _ (List.getElem?_eq_getElem (by omega)))
        · rw [List.getElem?_set_ne hk0] at ht
          exact hP0 t ht)
      (vals.set i (g bvs[i])) (by simp [hv])
    refine ⟨states', vals', ?_, h2, h3, h4, ?_⟩
    · simp only [parallelLoop, Act.bind_def, hstep]
      exact h1
    · intro j x hj
      rw [h5 j x hj]
      by_cases hmem : j ∈ rest.map Prod.snd
      · simp only [hmem, if_true, List.map_cons, List.mem_cons, or_true]
      · by_cases hji : j = i
        · subst hji
          rw [List.getElem?_eq_getElem hil, Option.some.injEq] at hj
          subst hj
          rw [if_neg hmem, List.getElem?_set_self (by omega)]
          simp
        · rw [if_neg hmem, List.getElem?_set_ne (fun h => hji h.symm)]
          simp only [List.map_cons, List.mem_cons, hji, hmem, or_self, if_false]

/-- Sequential evaluation and updates, over the same indices. -/
theorem evaluateLoop_updateLoop [LinearOrder K] (f : Fn K) (g : BV → K) (bvs : List BV)
    (hf : ∀ x ∈ bvs, f.eval x = ok (g x)) (st : Stack K) (is : List Nat)
    (his : ∀ i ∈ is, i < bvs.length) (s t : st.State) (h : st.Same s t) (vals : List K)
    (hv : vals.length = bvs.length) :
    (evaluateLoop (st.obj f) bvs is (s, vals)).1
        = (updateLoop (st.obj f) bvs (bvs.map g) is t).1 ∧
    st.Same (updateLoop (st.obj f) bvs (bvs.map g) is t).2
      (evaluateLoop (st.obj f) bvs is (s, vals)).2.1 ∧
    ((evaluateLoop (st.obj f) bvs is (s, vals)).1 = ok () →
      (evaluateLoop (st.obj f) bvs is (s, vals)).2.2.length = bvs.length ∧
      ∀ (i : Nat) (x : BV), bvs[i]? = some x →
        (evaluateLoop (st.obj f) bvs is (s, vals)).2.2[i]?
          = if i ∈ is then some (g x) else vals[i]?) := by
  induction is generalizing s t vals with
  | nil => exact ⟨rfl, (Stack.Same.symm st h), fun _ => ⟨hv, by simp [evaluateLoop]⟩⟩
  | cons i is ih =>
    have hi := his i (by simp)
    have e1 : vget bvs i = ok bvs[i] := vget_eq hi
    have e2 : vget (bvs.map g) i = ok (g bvs[i]) := by
      rw [vget_eq (by simpa using hi)]; simp
    obtain ⟨h1, h2⟩ := Stack.evaluate_update f g bvs[i] (hf _ (List.getElem_mem _)) st s t h
    simp only [evaluateLoop, evaluateOne, updateLoop, Act.bind_def, Act.lift_def, Act.inner_def, e1, e2]
    rcases hb : (st.obj f).update bvs[i] (g bvs[i]) t with ⟨b, t'⟩
    rcases ha : (st.obj f).evaluate bvs[i] s with ⟨a, s'⟩
    rw [hb, ha] at h1 h2
    simp only at h1 h2
    rcases h1 with ⟨rfl, rfl⟩ | ⟨e, rfl, rfl⟩
    · simp only [setValue_eq _ _ _ _ (show i < vals.length by omega)]
      obtain ⟨k1, k2, k3⟩ := ih (fun j hj => his j (by simp [hj])) s' t' h2 (vals.set i (g bvs[i]))
        (by simp [hv])
      refine ⟨k1, k2, fun hok => ?_⟩
      obtain ⟨k4, k5⟩ := k3 hok
      refine ⟨k4, ?_⟩
      intro j x hj
      rw [k5 j x hj]
      by_cases hmem : j ∈ is
      · simp [hmem]
      · by_cases hji : j = i
        · subst hji
          rw [List.getElem?_eq_getElem hi, Option.some.injEq] at hj
          subst hj
          rw [if_neg hmem, List.getElem?_set_self (by omega)]
          simp
        · rw [if_neg hmem, List.getElem?_set_ne (fun h => hji h.symm)]
          simp [hji, hmem]
    · refine ⟨rfl, Stack.Same.symm st h2, ?_⟩
      intro hok
      cases hok

/-! ### C57 -/

/-- C57: for every function of the bit vector, every stack of controllers on top of the first function
object, every number of threads and every schedule, parallel evaluation stores the values of the
function; it returns or throws as sequential evaluation does; and it leaves the controllers in the state
in which sequential evaluation leaves them. -/
theorem parallel_evaluation_correct [LinearOrder K] (f : Fn K) (g : BV → K) (bvs : List BV)
    (hf : ∀ x ∈ bvs, f.eval x = ok (g x)) (st : Stack K) (others : List (FnObj st.State K))
    (hothers : ∀ o ∈ others, ∀ x ∈ bvs, ∀ t, (o.evaluateSafely x t).1 = ok (g x))
    (schedule : List (Nat × Nat)) (hsch : IsSchedule schedule (others.length + 1) bvs.length)
    (s : st.State) (states : List st.State) (hst : states.length = others.length) (vals : List K)
    (hv : vals.length = bvs.length) :
    let par := populationEvaluateParallel (st.obj f :: others) bvs schedule (s :: states, vals)
    let seq := populationEvaluate (st.obj f) bvs (s, vals)
    par.2.2 = bvs.map g ∧ par.1 = seq.1 ∧ (seq.1 = ok () → seq.2.2 = bvs.map g) ∧
      ∃ s', par.2.1[0]? = some s' ∧ st.Same s' seq.2.1 := by
  obtain ⟨hperm, hthreads⟩ := hsch
  have hidx : ∀ p ∈ schedule, p.1 < (st.obj f :: others).length ∧ p.2 < bvs.length := by
    intro p hp
    refine ⟨by simpa using hthreads p hp, ?_⟩
    have : p.2 ∈ List.range bvs.length := hperm.subset (List.mem_map_of_mem hp)
    simpa using this
  obtain ⟨states', vals', h1, h2, h3, h4, h5⟩ := parallelLoop_eq (st.obj f :: others) bvs g
    (fun t => st.Same s t)
    (by
      intro o ho x hx t
      rcases List.mem_cons.mp ho with rfl | ho
      · exact (Stack.evaluateSafely_eq f g x (hf x hx) st t).1
      · exact hothers o ho x hx t)
    (by
      intro o ho x hx t ht
      simp only [List.getElem?_cons_zero, Option.some.injEq] at ho
      subst ho
      exact Stack.Same.trans st ht (Stack.evaluateSafely_eq f g x (hf x hx) st t).2)
    schedule hidx (s :: states) (by simp [hst])
    (by
      intro t ht
      simp only [List.getElem?_cons_zero, Option.some.injEq] at ht
      subst ht
      exact Stack.Same.refl st s)
    vals hv
  have hvals : vals' = bvs.map g := by
    apply List.ext_getElem?
    intro i
    by_cases hi : i < bvs.length
    · have hx : bvs[i]? = some bvs[i] := List.getElem?_eq_getElem hi
      rw [h5 i _ hx, if_pos (hperm.mem_iff.mpr (by simpa using hi))]
      simp [hx]
    · rw [List.getElem?_eq_none (by omega), List.getElem?_eq_none (by simp; omega)]
  subst hvals
  cases states' with
  | nil => simp at h2
  | cons t0 ts =>
    have ht0 : st.Same s t0 := h3 t0 rfl
    obtain ⟨k1, k2, k3⟩ := evaluateLoop_updateLoop f g bvs hf st (List.range bvs.length)
      (by simp) s t0 ht0 vals hv
    have hlen : (bvs.length == vals.length) = true := by simp [hv]
    simp only [populationEvaluateParallel, populationEvaluate, Act.bind_def, Act.get_def, Act.lift_def,
      hlen, assert_true, List.isEmpty_cons, Bool.not_false, h1, vget, List.getElem?_cons_zero, onFirst]
    refine ⟨trivial, k1.symm, ?_, ?_⟩
    · intro hok
      obtain ⟨k4, k5⟩ := k3 hok
      apply List.ext_getElem?
      intro i
      by_cases hi : i < bvs.length
      · have hx : bvs[i]? = some bvs[i] := List.getElem?_eq_getElem hi
        rw [k5 i _ hx, if_pos (by simpa using hi)]
        simp [hx]
      · rw [List.getElem?_eq_none (by omega), List.getElem?_eq_none (by simp; omega)]
    · exact ⟨_, rfl, k2⟩

/-- A case that meets the hypotheses: three individuals, two threads, the schedule of which starts with
the last individual. -/
example : IsSchedule [(1, 2), (0, 0), (1, 1)] 2 3 := by
  constructor
  · decide
  · decide

/-- C57: the order of individuals matters to the controllers only through the updates: two schedules give
the same result. -/
theorem parallel_schedule_irrelevant [LinearOrder K] (f : Fn K) (g : BV → K) (bvs : List BV)
    (hf : ∀ x ∈ bvs, f.eval x = ok (g x)) (st : Stack K) (others others' : List (FnObj st.State K))
    (ho : ∀ o ∈ others, ∀ x ∈ bvs, ∀ t, (o.evaluateSafely x t).1 = ok (g x))
    (ho' : ∀ o ∈ others', ∀ x ∈ bvs, ∀ t, (o.evaluateSafely x t).1 = ok (g x))
    (schedule schedule' : List (Nat × Nat))
    (hsch : IsSchedule schedule (others.length + 1) bvs.length)
    (hsch' : IsSchedule schedule' (others'.length + 1) bvs.length)
    (s : st.State) (states states' : List st.State) (hst : states.length = others.length)
    (hst' : states'.length = others'.length) (vals : List K) (hv : vals.length = bvs.length) :
    let par := populationEvaluateParallel (st.obj f :: others) bvs schedule (s :: states, vals)
    let par' := populationEvaluateParallel (st.obj f :: others') bvs schedule' (s :: states', vals)
    par.1 = par'.1 ∧ par.2.2 = par'.2.2 ∧
      ∃ t t', par.2.1[0]? = some t ∧ par'.2.1[0]? = some t' ∧ st.Same t t' := by
  obtain ⟨a1, a2, -, t, a3, a4⟩ := parallel_evaluation_correct f g bvs hf st others ho schedule hsch s
    states hst vals hv
  obtain ⟨b1, b2, -, t', b3, b4⟩ := parallel_evaluation_correct f g bvs hf st others' ho' schedule' hsch'
    s states' hst' vals hv
  exact ⟨a2.trans b2.symm, a1.trans b1.symm, t, t', a3, b3, Stack.Same.trans st a4 (Stack.Same.symm st b4)⟩

/-! ### C63 -/

/-- C63: a cache does not forward updates: whatever lies below it (budget, tracker, target), a history of
updates returns normally and leaves it in the same state. -/
theorem cached_update_lost (f : FnObj σ K) (upds : List (BV × K)) (s : σ) (c : CacheState K) :
    (cached f).runAll (upds.map (fun p => .upd p.1 p.2)) (s, c) = (upds.map (fun p => ok p.2), (s, c)) := by
  induction upds with
  | nil => rfl
  | cons p upds ih =>
    have h : (cached f).call (.upd p.1 p.2) (s, c) = (ok p.2, (s, c)) := rfl
    rw [List.map_cons, runAll_cons, h]
    simp only [ih, List.map_cons]

/-- C63: consequently, with a cache above the budget, parallel evaluation of any number of vectors never
exhausts the budget and never reaches the tracker, whereas sequential evaluation does. -/
theorem cached_budget_ignored :
    ∃ (bvs : List BV) (f : Fn Nat),
      let o := cached (onBudget 1 (progressTracker true (FnObj.base f)))
      let s := ((trackerNew [] 2 0, 0), cacheNew 2)
      let vals := bvs.map (fun _ => 0)
      let seq := populationEvaluate o bvs (s, vals)
      let par := populationEvaluateParallel [o] bvs
        ((List.range bvs.length).map (fun i => (0, i))) ([s], vals)
      seq.1 = .throw .lastEvaluation ∧ seq.2.1.1.2 = 1 ∧ seq.2.1.1.1.2.numEvaluations = 1 ∧
      par.1 = ok () ∧ par.2.1.map (fun s => (s.1.2, s.1.1.2.numEvaluations)) = [(0, 0)] := by
  refine ⟨[[true, false], [true, true], [false, false]], Fn.ofEval 2 (fun x => ok (x.count true)), ?_⟩
  decide

end Hnco
