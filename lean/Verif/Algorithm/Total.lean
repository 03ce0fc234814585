import Verif.Algorithm.AlgLemmas

/-!
# Runs that end

`Sim.Within c m P`: given at least `c` draws, the computation ends, uses at most `c` of them, and its result satisfies
`P`.  Likewise `Alg.Within` for algorithms.
-/

namespace Hnco

open Outcome

/-- Given at least `c` draws the computation returns, uses at most `c` draws, and its result satisfies `P`. -/
def Sim.Within {α : Type} (c : Nat) (m : Sim α) (P : α → Prop) : Prop :=
  ∀ ds : List Nat, c ≤ ds.length → ∃ a rest, m ds = .ok a rest ∧ ds.length ≤ rest.length + c ∧ P a

namespace Sim

variable {α β : Type}

theorem Within.pure {c : Nat} {a : α} {P : α → Prop} (h : P a) : Within c (pure a : Sim α) P :=
  fun ds _ => ⟨a, ds, rfl, by omega, h⟩

theorem Within.bind {c d : Nat} {m : Sim α} {f : α → Sim β} {P : α → Prop} {Q : β → Prop}
    (h : Within c m P) (hf : ∀ a, P a → Within d (f a) Q) : Within (c + d) (m >>= f) Q := by
  intro ds hds
  obtain ⟨a, rest, h1, h2, h3⟩ := h ds (by omega)
  obtain ⟨b, rest', h4, h5, h6⟩ := hf a h3 rest (by omega)
  refine ⟨b, rest', ?_, by omega, h6⟩
  change Sim.bind m f ds = _
  unfold Sim.bind
  rw [h1]
  exact h4

theorem Within.mono {c d : Nat} {m : Sim α} {P Q : α → Prop} (h : Within c m P) (hcd : c ≤ d) (hPQ : ∀ a, P a → Q a) :
    Within d m Q := by
  intro ds hds
  obtain ⟨a, rest, h1, h2, h3⟩ := h ds (by omega)
  exact ⟨a, rest, h1, by omega, hPQ a h3⟩

theorem Within.lift {c : Nat} {o : Outcome α} {P : α → Prop} (h : o.Returns P) : Within c (Sim.lift o) P := by
  obtain ⟨a, rfl, ha⟩ := h
  exact fun ds _ => ⟨a, ds, rfl, by omega, ha⟩

theorem Within.draw : Within 1 Sim.draw (fun _ => True) := by
  intro ds hds
  cases ds with
  | nil => simp at hds
  | cons d ds => exact ⟨d, ds, rfl, by simp, trivial⟩

theorem Within.uniformInt {lo hi : Nat} (h : lo ≤ hi) : Within 1 (Sim.uniformInt lo hi) (fun i => lo ≤ i ∧ i ≤ hi) := by
  unfold Sim.uniformInt
  refine (Within.bind (c := 0) (d := 1) (Within.lift ⟨(), assert_pos (decide_eq_true h), trivial⟩)
    (fun _ (_ : True) => ?_))
  refine Within.bind (c := 1) (d := 0) Within.draw (fun d _ => Within.pure ⟨by omega, ?_⟩)
  have := Nat.mod_lt d (show hi - lo + 1 > 0 by omega)
  omega

theorem Within.bernoulli : Within 1 Sim.bernoulli (fun _ => True) := by
  unfold Sim.bernoulli
  exact Within.bind (c := 1) (d := 0) Within.draw (fun d _ => Within.pure trivial)

theorem Within.forLoop {σ : Type} {c : Nat} {body : Nat → σ → Sim σ} (I : Nat → σ → Prop) :
    ∀ (n i : Nat) (s : σ), I i s →
      (∀ j t, i ≤ j → j < i + n → I j t → Within c (body j t) (I (j + 1))) →
      Within (n * c) (Sim.forLoop n i body s) (I (i + n)) := by
  intro n
  induction n with
  | zero => intro i s h0 _; exact Within.pure h0
  | succ n ih =>
    intro i s h0 hs
    have h := (hs i s (Nat.le_refl _) (by omega) h0).bind (fun t ht =>
      ih (i + 1) t ht (fun j u h1 h2 hj => hs j u (by omega) (by omega) hj))
    rw [show i + 1 + n = i + (n + 1) by omega] at h
    rw [show (n + 1) * c = c + n * c by rw [Nat.succ_mul, Nat.add_comm]]
    exact h

theorem Within.forRange {σ : Type} {c : Nat} {body : Nat → σ → Sim σ} (I : Nat → σ → Prop) {a b : Nat} {s : σ}
    (hab : a ≤ b) (h0 : I a s)
    (hs : ∀ j t, a ≤ j → j < b → I j t → Within c (body j t) (I (j + 1))) :
    Within ((b - a) * c) (Sim.forRange a b body s) (I b) := by
  have := Within.forLoop I (b - a) a s h0 (fun j t h1 h2 hj => hs j t h1 (by omega) hj)
  rwa [show a + (b - a) = b by omega] at this

end Sim

namespace Alg

variable {S α β : Type}

/-- Given at least `c` draws, the run ends without undefined behaviour and uses at most `c` draws; its result and state
satisfy `Q` if it returns normally, and its state satisfies `E` if it throws. -/
def Within (c : Nat) (m : Alg S α) (s : S) (Q : α → S → Prop) (E : S → Prop) : Prop :=
  Sim.Within c (m s) (fun r => match r.1 with
    | .ok a => Q a r.2
    | .error _ => E r.2)

theorem Within.pure {c : Nat} {a : α} {s : S} {Q : α → S → Prop} {E : S → Prop} (h : Q a s) :
    Within c (pure a : Alg S α) s Q E := Sim.Within.pure h

theorem Within.bind {c d : Nat} {m : Alg S α} {f : α → Alg S β} {s : S} {P : α → S → Prop} {Q : β → S → Prop}
    {E : S → Prop} (h : Within c m s P E) (hf : ∀ a t, P a t → Within d (f a) t Q E) :
    Within (c + d) (m >>= f) s Q E := by
  refine Sim.Within.bind h ?_
  rintro ⟨r, t⟩ hr
  cases r with
  | ok a => exact hf a t hr
  | error e => exact Sim.Within.pure hr

theorem Within.mono {c d : Nat} {m : Alg S α} {s : S} {P Q : α → S → Prop} {E F : S → Prop} (h : Within c m s P E)
    (hcd : c ≤ d) (h1 : ∀ a t, P a t → Q a t) (h2 : ∀ t, E t → F t) : Within d m s Q F := by
  refine Sim.Within.mono h hcd ?_
  rintro ⟨r, t⟩ hr
  cases r with
  | ok a => exact h1 a t hr
  | error e => exact h2 t hr

theorem Within.get_bind {c : Nat} {f : S → Alg S β} {s : S} {Q : β → S → Prop} {E : S → Prop}
    (h : Within c (f s) s Q E) : Within c (Alg.get >>= f) s Q E := by
  have := Within.bind (c := 0) (d := c) (m := (Alg.get : Alg S S)) (f := f) (s := s) (Q := Q) (E := E)
    (P := fun a t => a = s ∧ t = s) (Sim.Within.pure ⟨rfl, rfl⟩) (by rintro _ _ ⟨rfl, rfl⟩; exact h)
  rwa [Nat.zero_add] at this

theorem Within.modify {c : Nat} {f : S → S} {s : S} {Q : Unit → S → Prop} {E : S → Prop} (h : Q () (f s)) :
    Within c (modify f) s Q E := Sim.Within.pure h

theorem Within.modify_bind {c : Nat} {g : S → S} {f : Unit → Alg S β} {s : S} {Q : β → S → Prop} {E : S → Prop}
    (h : Within c (f ()) (g s) Q E) : Within c (Alg.modify g >>= f) s Q E := by
  have := Within.bind (c := 0) (d := c) (m := Alg.modify g) (f := f) (s := s) (Q := Q) (E := E)
    (P := fun _ t => t = g s) (Within.modify rfl) (by rintro _ _ rfl; exact h)
  rwa [Nat.zero_add] at this

theorem Within.lift_bind {c : Nat} {o : Outcome α} {a : α} {f : α → Alg S β} {s : S} {Q : β → S → Prop}
    {E : S → Prop} (ho : o = .ok a) (h : Within c (f a) s Q E) : Within c (Alg.lift o >>= f) s Q E := by
  subst ho
  have := Within.bind (c := 0) (d := c) (m := (Alg.lift (.ok a) : Alg S α)) (f := f) (s := s) (Q := Q) (E := E)
    (P := fun b t => b = a ∧ t = s) (Sim.Within.pure ⟨rfl, rfl⟩) (by rintro _ _ ⟨rfl, rfl⟩; exact h)
  rwa [Nat.zero_add] at this

theorem Within.returns_bind {c : Nat} {o : Outcome α} {P : α → Prop} {f : α → Alg S β} {s : S} {Q : β → S → Prop}
    {E : S → Prop} (ho : o.Returns P) (h : ∀ a, P a → Within c (f a) s Q E) :
    Within c (Alg.lift o >>= f) s Q E := by
  obtain ⟨a, ho, ha⟩ := ho
  exact Within.lift_bind ho (h a ha)

theorem Within.assert_bind {c : Nat} {b : Bool} {f : Unit → Alg S β} {s : S} {Q : β → S → Prop} {E : S → Prop}
    (hb : b = true) (h : Within c (f ()) s Q E) : Within c (Alg.lift (Outcome.assert b) >>= f) s Q E :=
  Within.lift_bind (Outcome.assert_pos hb) h

theorem Within.sim_bind {c d : Nat} {m : Sim α} {P : α → Prop} {f : α → Alg S β} {s : S} {Q : β → S → Prop}
    {E : S → Prop} (hm : Sim.Within c m P) (h : ∀ a, P a → Within d (f a) s Q E) :
    Within (c + d) (Alg.sim m >>= f) s Q E := by
  refine Within.bind (P := fun a t => P a ∧ t = s) ?_ (by rintro a _ ⟨ha, rfl⟩; exact h a ha)
  intro ds hds
  obtain ⟨a, rest, h1, h2, h3⟩ := hm ds hds
  refine ⟨(.ok a, s), rest, ?_, h2, h3, rfl⟩
  unfold Alg.sim
  rw [h1]

end Alg

variable {K σ : Type}

theorem evaluate_within {α : Type} {c : Nat} {env : Env K} {n : Nat} {val : BV → K} (henv : env.Computes n val)
    {x : BV} (hx : x.length = n) {s : AlgState K σ} {f : K → Alg (AlgState K σ) α} {Q : α → AlgState K σ → Prop}
    {E : AlgState K σ → Prop}
    (hQ : Alg.Within c (f (val x)) { s with calls := s.calls ++ [(x, val x)] } Q E) (hE : E s) :
    Alg.Within c (evaluate env x >>= f) s Q E := by
  have : Alg.Within 0 (evaluate env x) s
      (fun v t => v = val x ∧ t = { s with calls := s.calls ++ [(x, val x)] }) E := by
    unfold Alg.Within evaluate
    cases env.stop s.calls x with
    | some e => exact Sim.Within.pure hE
    | none => simp only [henv x hx]; exact Sim.Within.pure ⟨rfl, rfl⟩
  have h := this.bind (d := c) (f := f) (Q := Q) (by rintro _ _ ⟨rfl, rfl⟩; exact hQ)
  rwa [Nat.zero_add] at h

theorem bvRandomBits_within (n : Nat) : Sim.Within n (bvRandomBits n) (fun x => x.length = n) := by
  unfold bvRandomBits
  have := Sim.Within.forRange (c := 1) (body := fun (_ : Nat) (x : BV) => do
    let b ← Sim.bernoulli
    pure (x ++ [b])) (fun i (x : BV) => x.length = i) (Nat.zero_le n) (s := []) rfl
    (fun i x _ _ hx => Sim.Within.bernoulli.bind (c := 1) (d := 0) (fun b _ => Sim.Within.pure (by simp [hx])))
  rwa [Nat.sub_zero, Nat.mul_one] at this

/-- A loop with a decreasing measure ends. -/
theorem boundedLoop_within {c : Nat} {iterate : Alg (AlgState K σ) Unit} (I E : AlgState K σ → Prop)
    (μ : AlgState K σ → Nat)
    (h : ∀ s, I s → s.lastIteration = false →
      Alg.Within c iterate s (fun _ t => I t ∧ (t.lastIteration = true ∨ μ t < μ s)) E) :
    ∀ k s, I s → Alg.Within (k * c) (boundedLoop iterate k) s (fun _ t => I t ∧
      (s.lastIteration = true ∨ μ s < k → t.lastIteration = true)) E
  | 0, s, hs => by
    refine Alg.Within.pure ⟨hs, ?_⟩
    rintro (h | h)
    · exact h
    · omega
  | k + 1, s, hs => by
    unfold boundedLoop
    refine Alg.Within.get_bind ?_
    split
    · rename_i hl
      exact Alg.Within.pure ⟨hs, fun _ => hl⟩
    · rename_i hl
      rw [Nat.succ_mul, Nat.add_comm]
      refine (h _ hs (by simpa using hl)).bind (fun _ t ht => ?_)
      refine (boundedLoop_within I E μ h k t ht.1).mono (le_refl _) ?_ (fun _ h => h)
      rintro _ u ⟨h1, h2⟩
      refine ⟨h1, fun h3 => h2 ?_⟩
      rcases ht.2 with h4 | h4
      · exact Or.inl h4
      · rcases h3 with h3 | h3
        · exact absurd h3 hl
        · exact Or.inr (by omega)

theorem unboundedLoop_within {c : Nat} {iterate : Alg (AlgState K σ) Unit} (I E : AlgState K σ → Prop)
    (μ : AlgState K σ → Nat)
    (h : ∀ s, I s → s.lastIteration = false →
      Alg.Within c iterate s (fun _ t => I t ∧ (t.lastIteration = true ∨ μ t < μ s)) E) :
    ∀ k s, I s → (s.lastIteration = true ∨ μ s < k) → Alg.Within (k * c) (unboundedLoop iterate (k + 1)) s
      (fun _ t => I t ∧ t.lastIteration = true) E
  | k, s, hs, hk => by
    unfold unboundedLoop
    refine Alg.Within.get_bind ?_
    split
    · rename_i hl
      exact Alg.Within.pure ⟨hs, hl⟩
    · rename_i hl
      cases k with
      | zero =>
        rcases hk with hk | hk
        · exact absurd hk hl
        · omega
      | succ k =>
        rw [Nat.succ_mul, Nat.add_comm]
        refine (h _ hs (by simpa using hl)).bind (fun _ t ht => ?_)
        refine unboundedLoop_within I E μ h k t ht.1 ?_
        rcases ht.2 with h4 | h4
        · exact Or.inl h4
        · rcases hk with h3 | h3
          · exact absurd h3 hl
          · exact Or.inr (by omega)

end Hnco
