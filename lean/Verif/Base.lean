/-!
# Outcomes of C++ computations

The code under study is C++.  A call can return, throw an exception, or run into undefined
behaviour (an out of range access, a division by zero, a read of an uninitialised variable) or a
failed `assert`.  The model keeps these three outcomes apart, so that a theorem of the form
`f x = .ok y` also says that no undefined behaviour occurs.
-/

namespace Hnco

/-- Exceptions thrown by the modelled code (`lib/hnco/exception.hh:33-44` and
`std::runtime_error`). -/
inductive Exn where
  /-- `hnco::exception::LastEvaluation` -/
  | lastEvaluation
  /-- `hnco::exception::TargetReached` -/
  | targetReached
  /-- `std::runtime_error`, `std::invalid_argument`, ... (the text of the message is not modelled) -/
  | runtimeError
  deriving DecidableEq, Repr

/-- Outcome of a C++ computation. -/
inductive Outcome (α : Type u) where
  /-- normal return -/
  | ok (a : α)
  /-- a C++ exception -/
  | throw (e : Exn)
  /-- undefined behaviour, or a failed `assert` (the two are not distinguished: with `NDEBUG` a
  violated precondition is unchecked) -/
  | ub
  deriving DecidableEq, Repr

namespace Outcome

/-- Sequencing. -/
@[inline] protected def bind {α : Type u} {β : Type v} (m : Outcome α) (f : α → Outcome β) :
    Outcome β :=
  match m with
  | ok a => f a
  | throw e => throw e
  | ub => ub

instance : Monad Outcome where
  pure := ok
  bind := Outcome.bind

@[simp] theorem pure_eq {α : Type u} (a : α) : (pure a : Outcome α) = ok a := rfl
@[simp] theorem ok_bind {α β : Type u} (a : α) (f : α → Outcome β) : (ok a >>= f) = f a := rfl
@[simp] theorem throw_bind {α β : Type u} (e : Exn) (f : α → Outcome β) :
    ((throw e : Outcome α) >>= f) = throw e := rfl
@[simp] theorem ub_bind {α β : Type u} (f : α → Outcome β) :
    ((ub : Outcome α) >>= f) = ub := rfl

theorem bind_eq_ok {α β : Type u} {m : Outcome α} {f : α → Outcome β} {b : β} :
    (m >>= f) = ok b ↔ ∃ a, m = ok a ∧ f a = ok b := by
  cases m <;> simp

instance : LawfulMonad Outcome := LawfulMonad.mk' _
  (id_map := by intro α x; cases x <;> rfl)
  (pure_bind := by intros; rfl)
  (bind_assoc := by intro α β γ x f g; cases x <;> rfl)
  (bind_pure_comp := by intro α β f x; cases x <;> rfl)

/-- `assert(b)`. -/
def assert (b : Bool) : Outcome Unit := if b then ok () else ub

@[simp] theorem assert_true : assert true = ok () := rfl
@[simp] theorem assert_false : assert false = ub := rfl

theorem assert_pos {b : Bool} (h : b = true) : assert b = ok () := by simp [h]
theorem assert_neg {b : Bool} (h : b = false) : assert b = ub := by simp [h]

/-- The outcome is a normal return satisfying `P`. -/
def Returns {α : Type u} (m : Outcome α) (P : α → Prop) : Prop := ∃ a, m = ok a ∧ P a

theorem Returns.bind {α β : Type u} {m : Outcome α} {f : α → Outcome β} {P : α → Prop}
    {Q : β → Prop} (h : m.Returns P) (hf : ∀ a, P a → (f a).Returns Q) : (m >>= f).Returns Q := by
  obtain ⟨a, rfl, ha⟩ := h
  exact hf a ha

theorem Returns.mono {α : Type u} {m : Outcome α} {P Q : α → Prop}
    (h : m.Returns P) (hpq : ∀ a, P a → Q a) : m.Returns Q := by
  obtain ⟨a, rfl, ha⟩ := h
  exact ⟨a, rfl, hpq a ha⟩

@[simp] theorem returns_ok {α : Type u} {a : α} {P : α → Prop} : (ok a).Returns P ↔ P a := by
  constructor
  · rintro ⟨b, hb, hp⟩; cases hb; exact hp
  · intro h; exact ⟨a, rfl, h⟩

end Outcome

open Outcome

/-- `v[i]` on a `std::vector`, reading. -/
def vget {α : Type u} (l : List α) (i : Nat) : Outcome α :=
  match l[i]? with
  | some a => ok a
  | none => ub

/-- `v[i] = a` on a `std::vector`. -/
def vset {α : Type u} (l : List α) (i : Nat) (a : α) : Outcome (List α) :=
  if i < l.length then ok (l.set i a) else ub

theorem vget_eq {α : Type u} {l : List α} {i : Nat} (h : i < l.length) : vget l i = ok l[i] := by
  simp [vget, h]

theorem vget_ub {α : Type u} {l : List α} {i : Nat} (h : l.length ≤ i) : vget l i = ub := by
  simp [vget, h]

theorem vset_eq {α : Type u} {l : List α} {i : Nat} {a : α} (h : i < l.length) :
    vset l i a = ok (l.set i a) := by
  simp [vset, h]

theorem vset_ub {α : Type u} {l : List α} {i : Nat} {a : α} (h : l.length ≤ i) :
    vset l i a = ub := by
  simp [vset, Nat.not_lt.mpr h]

/-- `n` iterations of a loop body with loop counter starting at `i`. -/
def forLoop {σ : Type u} : Nat → Nat → (Nat → σ → Outcome σ) → σ → Outcome σ
  | 0, _, _, s => ok s
  | n + 1, i, body, s => body i s >>= forLoop n (i + 1) body

/-- `for (i = a; i < b; i++) body`. -/
def forRange {σ : Type u} (a b : Nat) (body : Nat → σ → Outcome σ) (s : σ) : Outcome σ :=
  forLoop (b - a) a body s

theorem forLoop_returns {σ : Type u} {body : Nat → σ → Outcome σ} (I : Nat → σ → Prop) :
    ∀ (n i : Nat) (s : σ), I i s →
      (∀ j t, i ≤ j → j < i + n → I j t → (body j t).Returns (I (j + 1))) →
      (forLoop n i body s).Returns (I (i + n)) := by
  intro n
  induction n with
  | zero => intro i s h0 _; exact ⟨s, rfl, by simpa using h0⟩
  | succ n ih =>
    intro i s h0 hs
    refine Returns.bind (hs i s (Nat.le_refl _) (by omega) h0) ?_
    intro t ht
    have := ih (i + 1) t ht (fun j u h1 h2 hj => hs j u (by omega) (by omega) hj)
    rwa [show i + 1 + n = i + (n + 1) by omega] at this

/-- Invariant rule for counted loops. -/
theorem forRange_returns {σ : Type u} {body : Nat → σ → Outcome σ} (I : Nat → σ → Prop)
    {a b : Nat} {s : σ} (hab : a ≤ b) (h0 : I a s)
    (hs : ∀ j t, a ≤ j → j < b → I j t → (body j t).Returns (I (j + 1))) :
    (forRange a b body s).Returns (I b) := by
  have := forLoop_returns I (b - a) a s h0 (fun j t h1 h2 hj => hs j t h1 (by omega) hj)
  rwa [show a + (b - a) = b by omega] at this

theorem forRange_empty {σ : Type u} {body : Nat → σ → Outcome σ} {a b : Nat} {s : σ}
    (h : b ≤ a) : forRange a b body s = ok s := by
  simp [forRange, Nat.sub_eq_zero_of_le h, forLoop]

theorem forRange_step {σ : Type u} {body : Nat → σ → Outcome σ} {a b : Nat} {s : σ}
    (h : a < b) : forRange a b body s = body a s >>= forRange (a + 1) b body := by
  unfold forRange
  rw [show b - a = (b - (a + 1)) + 1 by omega]
  rfl

/-- `for (auto a : l) body`. -/
def forEach {α : Type u} {σ : Type v} : List α → (α → σ → Outcome σ) → σ → Outcome σ
  | [], _, s => ok s
  | a :: l, body, s => body a s >>= forEach l body

/-- `while (cond) body`, as a big step relation: `WhileTo cond body s r` says that the loop started in
state `s` terminates with outcome `r`. -/
inductive WhileTo {σ : Type u} (cond : σ → Outcome Bool) (body : σ → Outcome σ) :
    σ → Outcome σ → Prop
  | done {s : σ} : cond s = ok false → WhileTo cond body s (ok s)
  | step {s s' : σ} {r : Outcome σ} : cond s = ok true → body s = ok s' →
      WhileTo cond body s' r → WhileTo cond body s r
  | condThrow {s : σ} {e : Exn} : cond s = throw e → WhileTo cond body s (throw e)
  | condUb {s : σ} : cond s = ub → WhileTo cond body s ub
  | bodyThrow {s : σ} {e : Exn} : cond s = ok true → body s = throw e →
      WhileTo cond body s (throw e)
  | bodyUb {s : σ} : cond s = ok true → body s = ub → WhileTo cond body s ub

/-- A loop has at most one outcome. -/
theorem WhileTo.deterministic {σ : Type u} {cond : σ → Outcome Bool} {body : σ → Outcome σ}
    {s : σ} {r r' : Outcome σ} (h : WhileTo cond body s r) (h' : WhileTo cond body s r') :
    r = r' := by
  induction h with
  | done hc => cases h' <;> simp_all
  | step hc hb _ ih =>
    cases h' with
    | step hc' hb' h'' => exact ih (by rw [hb] at hb'; cases hb'; exact h'')
    | _ => simp_all
  | condThrow hc => cases h' <;> simp_all
  | condUb hc => cases h' <;> simp_all
  | bodyThrow hc hb => cases h' <;> simp_all
  | bodyUb hc hb => cases h' <;> simp_all

/-- Exhausting an iterator: `Enumerates hasNext next s l` says that repeatedly calling `next` while
`hasNext` answers true, starting from state `s`, yields exactly the list `l` without exception or
undefined behaviour. -/
inductive Enumerates {σ : Type u} {α : Type v} (hasNext : σ → Outcome Bool)
    (next : σ → Outcome (α × σ)) : σ → List α → Prop
  | done {s : σ} : hasNext s = ok false → Enumerates hasNext next s []
  | step {s s' : σ} {a : α} {l : List α} : hasNext s = ok true → next s = ok (a, s') →
      Enumerates hasNext next s' l → Enumerates hasNext next s (a :: l)

/-- An iterator enumerates at most one list. -/
theorem Enumerates.deterministic {σ : Type u} {α : Type v} {hasNext : σ → Outcome Bool}
    {next : σ → Outcome (α × σ)} {s : σ} {l l' : List α}
    (h : Enumerates hasNext next s l) (h' : Enumerates hasNext next s l') : l = l' := by
  induction h generalizing l' with
  | done hc => cases h' <;> simp_all
  | step hc hb _ ih =>
    cases h' with
    | done => simp_all
    | step hc' hb' h'' =>
      rw [hb] at hb'
      simp only [Outcome.ok.injEq, Prod.mk.injEq] at hb'
      obtain ⟨rfl, rfl⟩ := hb'
      rw [ih h'']

/-- A bit vector (`lib/hnco/bit-vector.hh:47,94`: `std::vector<std::uint8_t>`).
Simplification: only components 0 and 1 are modelled (`bv_is_valid`, `bit-vector.hh:103`). -/
abbrev BV := List Bool

end Hnco
