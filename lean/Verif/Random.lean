import Verif.Base
import Mathlib.Data.List.Permutation


/-!
# Computations that draw random numbers

A computation consumes a finite list of raw draws, which are arbitrary natural numbers; each
distribution maps a raw draw onto its whole range, so that quantifying over lists of raw draws is
quantifying over all outcomes of the generator (`lib/hnco/random.hh`).  Probabilities are not
modelled.  A rejection loop may use up any number of draws; a run whose list of draws is too short
gives `out` ("no result yet"), and specifications only speak about the runs that do end.
-/

namespace Hnco

/-- Result of a run. -/
inductive Res (α : Type u) where
  /-- normal return, with the unused draws -/
  | ok (a : α) (rest : List Nat)
  /-- a C++ exception -/
  | throw (e : Exn)
  /-- undefined behaviour or failed assertion -/
  | ub
  /-- the list of draws is used up -/
  | out
  deriving DecidableEq, Repr

/-- A computation drawing random numbers. -/
def Sim (α : Type u) := List Nat → Res α

namespace Sim

/-- Sequencing. -/
protected def bind {α : Type u} {β : Type v} (m : Sim α) (f : α → Sim β) : Sim β := fun ds =>
  match m ds with
  | .ok a rest => f a rest
  | .throw e => .throw e
  | .ub => .ub
  | .out => .out

instance : Monad Sim where
  pure a := fun ds => .ok a ds
  bind := Sim.bind

/-- A computation without draws. -/
def lift {α : Type u} (o : Outcome α) : Sim α := fun ds =>
  match o with
  | .ok a => .ok a ds
  | .throw e => .throw e
  | .ub => .ub

instance : MonadLift Outcome Sim where
  monadLift := Sim.lift

/-- A raw draw. -/
def draw : Sim Nat := fun ds =>
  match ds with
  | [] => .out
  | d :: ds => .ok d ds

/-- `std::uniform_int_distribution<int>(lo, hi)`: any value between `lo` and `hi`; an empty range is
undefined. -/
def uniformInt (lo hi : Nat) : Sim Nat := do
  lift (Outcome.assert (decide (lo ≤ hi)))
  let d ← draw
  return lo + d % (hi - lo + 1)

/-- `Generator::bernoulli()` (`lib/hnco/random.hh`): any bit. -/
def bernoulli : Sim Bool := do
  let d ← draw
  return d % 2 == 1

/-- `std::shuffle`: any rearrangement. -/
def shuffle {α : Type u} (l : List α) : Sim (List α) := fun ds =>
  match ds with
  | [] => .out
  | d :: ds => .ok ((l.permutations'[d % l.permutations'.length]?).getD l) ds

/-- Fuel-bounded iteration used by `repeatUntil`. -/
def repeatGo {α : Type u} (body : Sim α) (stop : α → Bool) : Nat → Sim α
  | 0 => fun _ => .out
  | k + 1 => do
    let a ← body
    if stop a then return a else repeatGo body stop k

/-- `do body while (!stop)`: the fuel is the number of draws left, so that a loop that consumes at
least one draw per iteration is cut only when the draws are used up. -/
def repeatUntil {α : Type u} (body : Sim α) (stop : α → Bool) : Sim α :=
  fun ds => repeatGo body stop (ds.length + 1) ds

/-- `n` iterations of a loop body, the counter starting at `i`. -/
def forLoop {σ : Type u} : Nat → Nat → (Nat → σ → Sim σ) → σ → Sim σ
  | 0, _, _, s => pure s
  | n + 1, i, body, s => do
    let s ← body i s
    forLoop n (i + 1) body s

/-- `for (i = a; i < b; i++) body`. -/
def forRange {σ : Type u} (a b : Nat) (body : Nat → σ → Sim σ) (s : σ) : Sim σ :=
  forLoop (b - a) a body s

/-- Every value of the range of a uniform distribution is the outcome of some draw. -/
theorem uniformInt_onto {lo hi i : Nat} (h1 : lo ≤ i) (h2 : i ≤ hi) :
    ∃ d, uniformInt lo hi [d] = .ok i [] := by
  refine ⟨i - lo, ?_⟩
  have hle : lo ≤ hi := Nat.le_trans h1 h2
  have hmod : lo + (i - lo) % (hi - lo + 1) = i := by rw [Nat.mod_eq_of_lt (by omega)]; omega
  change Sim.bind (lift (Outcome.assert (decide (lo ≤ hi)))) _ _ = _
  rw [Outcome.assert_pos (decide_eq_true hle)]
  change Res.ok (lo + (i - lo) % (hi - lo + 1)) [] = _
  rw [hmod]

/-- Every rearrangement is the outcome of some shuffle. -/
theorem shuffle_onto {α : Type u} {l r : List α} (h : r.Perm l) : ∃ d, shuffle l [d] = .ok r [] := by
  obtain ⟨i, hi, hr⟩ := List.getElem_of_mem (List.mem_permutations'.mpr h)
  refine ⟨i, ?_⟩
  simp only [shuffle, Nat.mod_eq_of_lt hi, List.getElem?_eq_getElem hi, hr, Option.getD_some]

/-- Whatever the draws, a run that ends returns normally with a result satisfying `P`: no exception,
no undefined behaviour. -/
def Post {α : Type u} (m : Sim α) (P : α → Prop) : Prop :=
  ∀ ds, match m ds with
    | .ok a _ => P a
    | .throw _ => False
    | .ub => False
    | .out => True

theorem Post.elim {α : Type u} {m : Sim α} {P : α → Prop} (h : Post m P) {ds rest : List Nat} {a : α}
    (hr : m ds = .ok a rest) : P a := by
  have := h ds
  rw [hr] at this
  exact this

theorem Post.pure {α : Type u} {a : α} {P : α → Prop} (h : P a) : Post (pure a : Sim α) P :=
  fun _ => h

theorem Post.bind {α β : Type u} {m : Sim α} {f : α → Sim β} {P : α → Prop} {Q : β → Prop}
    (h : Post m P) (hf : ∀ a, P a → Post (f a) Q) : Post (m >>= f) Q := by
  intro ds
  have hm := h ds
  change match Sim.bind m f ds with | .ok a _ => Q a | .throw _ => False | .ub => False | .out => True
  unfold Sim.bind
  cases hr : m ds with
  | ok a rest => rw [hr] at hm; exact hf a hm rest
  | throw e => rw [hr] at hm; exact hm
  | ub => rw [hr] at hm; exact hm
  | out => trivial

theorem Post.mono {α : Type u} {m : Sim α} {P Q : α → Prop} (h : Post m P)
    (hpq : ∀ a, P a → Q a) : Post m Q := by
  intro ds
  have hm := h ds
  cases hr : m ds with
  | ok a rest => rw [hr] at hm; exact hpq a hm
  | throw e => rw [hr] at hm; exact hm
  | ub => rw [hr] at hm; exact hm
  | out => trivial

theorem Post.lift {α : Type u} {o : Outcome α} {P : α → Prop} (h : o.Returns P) :
    Post (Sim.lift o) P := by
  obtain ⟨a, rfl, ha⟩ := h
  exact fun _ => ha

theorem Post.liftM {α : Type u} {o : Outcome α} {P : α → Prop} (h : o.Returns P) :
    Post (liftM o : Sim α) P := Post.lift h

theorem Post.assert {b : Bool} (h : b = true) : Post (Sim.lift (Outcome.assert b)) (fun _ => True) :=
  Post.lift ⟨(), Outcome.assert_pos h, trivial⟩

theorem Post.draw : Post draw (fun _ => True) := by
  intro ds
  cases ds <;> trivial

theorem Post.uniformInt {lo hi : Nat} (h : lo ≤ hi) :
    Post (uniformInt lo hi) (fun i => lo ≤ i ∧ i ≤ hi) := by
  refine (Post.assert (decide_eq_true h)).bind (fun _ _ => Post.draw.bind (fun d _ => Post.pure ?_))
  have := Nat.mod_lt d (show 0 < hi - lo + 1 by omega)
  omega

theorem Post.bernoulli : Post bernoulli (fun _ => True) :=
  Post.draw.bind (fun _ _ => Post.pure trivial)

theorem Post.shuffle {α : Type u} (l : List α) : Post (shuffle l) (fun r => r.Perm l) := by
  intro ds
  cases ds with
  | nil => trivial
  | cons d ds =>
    change ((l.permutations'[d % l.permutations'.length]?).getD l).Perm l
    cases h : l.permutations'[d % l.permutations'.length]? with
    | none => exact List.Perm.refl _
    | some r => exact List.mem_permutations'.mp (List.mem_of_getElem? h)

theorem Post.repeatGo {α : Type u} {body : Sim α} {stop : α → Bool} {P : α → Prop}
    (h : Post body P) (k : Nat) : Post (repeatGo body stop k) (fun a => P a ∧ stop a = true) := by
  induction k with
  | zero => intro ds; trivial
  | succ k ih =>
    refine h.bind ?_
    intro a ha
    cases hs : stop a with
    | true => exact Post.pure ⟨ha, hs⟩
    | false => exact ih

theorem Post.repeatUntil {α : Type u} {body : Sim α} {stop : α → Bool} {P : α → Prop}
    (h : Post body P) : Post (repeatUntil body stop) (fun a => P a ∧ stop a = true) :=
  fun ds => Post.repeatGo h (ds.length + 1) ds

theorem Post.forLoop {σ : Type u} {body : Nat → σ → Sim σ} (I : Nat → σ → Prop) :
    ∀ (n i : Nat) (s : σ), I i s →
      (∀ j t, i ≤ j → j < i + n → I j t → Post (body j t) (I (j + 1))) →
      Post (forLoop n i body s) (I (i + n)) := by
  intro n
  induction n with
  | zero => intro i s h0 _; exact Post.pure (by simpa using h0)
  | succ n ih =>
    intro i s h0 hs
    refine (hs i s (Nat.le_refl _) (by omega) h0).bind ?_
    intro t ht
    have := ih (i + 1) t ht (fun j u h1 h2 hj => hs j u (by omega) (by omega) hj)
    rwa [show i + 1 + n = i + (n + 1) by omega] at this

/-- Invariant rule for counted loops. -/
theorem Post.forRange {σ : Type u} {body : Nat → σ → Sim σ} (I : Nat → σ → Prop)
    {a b : Nat} {s : σ} (hab : a ≤ b) (h0 : I a s)
    (hs : ∀ j t, a ≤ j → j < b → I j t → Post (body j t) (I (j + 1))) :
    Post (forRange a b body s) (I b) := by
  have := Post.forLoop I (b - a) a s h0 (fun j t h1 h2 hj => hs j t h1 (by omega) hj)
  rwa [show a + (b - a) = b by omega] at this

/-! ### Specifications of normal returns only -/

/-- Whatever the draws, if the run returns normally then its result satisfies `P`. -/
def PostOk {α : Type u} (m : Sim α) (P : α → Prop) : Prop :=
  ∀ ds a rest, m ds = .ok a rest → P a

theorem Post.toOk {α : Type u} {m : Sim α} {P : α → Prop} (h : Post m P) : PostOk m P :=
  fun _ _ _ hr => h.elim hr

theorem PostOk.trivial {α : Type u} (m : Sim α) : PostOk m (fun _ => True) :=
  fun _ _ _ _ => True.intro

theorem PostOk.pure {α : Type u} {a : α} {P : α → Prop} (h : P a) : PostOk (pure a : Sim α) P := by
  intro ds b rest e
  cases e
  exact h

theorem PostOk.bind {α β : Type u} {m : Sim α} {f : α → Sim β} {P : α → Prop} {Q : β → Prop}
    (h : PostOk m P) (hf : ∀ a, P a → PostOk (f a) Q) : PostOk (m >>= f) Q := by
  intro ds b rest e
  change Sim.bind m f ds = _ at e
  unfold Sim.bind at e
  cases hr : m ds with
  | ok a r => rw [hr] at e; exact hf a (h ds a r hr) r b rest e
  | throw x => rw [hr] at e; cases e
  | ub => rw [hr] at e; cases e
  | out => rw [hr] at e; cases e

theorem PostOk.mono {α : Type u} {m : Sim α} {P Q : α → Prop} (h : PostOk m P)
    (hpq : ∀ a, P a → Q a) : PostOk m Q := fun ds a rest e => hpq a (h ds a rest e)

theorem PostOk.lift {α : Type u} {o : Outcome α} {P : α → Prop} (h : ∀ a, o = .ok a → P a) :
    PostOk (Sim.lift o) P := by
  intro ds a rest e
  unfold Sim.lift at e
  cases o with
  | ok b => cases e; exact h _ rfl
  | throw x => cases e
  | ub => cases e

theorem PostOk.assert {b : Bool} : PostOk (Sim.lift (Outcome.assert b)) (fun _ => b = true) := by
  apply PostOk.lift
  intro a e
  cases b
  · cases e
  · rfl

theorem PostOk.forLoop {σ : Type u} {body : Nat → σ → Sim σ} (I : Nat → σ → Prop) :
    ∀ (n i : Nat) (s : σ), I i s →
      (∀ j t, i ≤ j → j < i + n → I j t → PostOk (body j t) (I (j + 1))) →
      PostOk (forLoop n i body s) (I (i + n)) := by
  intro n
  induction n with
  | zero => intro i s h0 _; exact PostOk.pure (by simpa using h0)
  | succ n ih =>
    intro i s h0 hs
    refine (hs i s (Nat.le_refl _) (by omega) h0).bind ?_
    intro t ht
    have := ih (i + 1) t ht (fun j u h1 h2 hj => hs j u (by omega) (by omega) hj)
    rwa [show i + 1 + n = i + (n + 1) by omega] at this

theorem PostOk.forRange {σ : Type u} {body : Nat → σ → Sim σ} (I : Nat → σ → Prop)
    {a b : Nat} {s : σ} (hab : a ≤ b) (h0 : I a s)
    (hs : ∀ j t, a ≤ j → j < b → I j t → PostOk (body j t) (I (j + 1))) :
    PostOk (forRange a b body s) (I b) := by
  have := PostOk.forLoop I (b - a) a s h0 (fun j t h1 h2 hj => hs j t h1 (by omega) hj)
  rwa [show a + (b - a) = b by omega] at this

end Sim

end Hnco
