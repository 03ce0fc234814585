import Verif.Prob.PopulationLemmas
import Verif.Prob.SearchLemmas

/-!
# Pairs of runs

Two laws are paired by a relation if they are the two sides of a law on pairs which always satisfy the relation.  To compare two runs
it is enough to pair their steps.
-/

namespace Hnco.Prob

open Outcome
open scoped ENNReal

variable {α β γ δ S T : Type}

/-- `d` and `e` are the sides of a law on pairs which satisfy `R`. -/
def Paired (R : α → β → Prop) (d : Dist α) (e : Dist β) : Prop :=
  ∃ c : Dist (α × β), (c >>= fun p => (pure p.1 : Dist α)) = d ∧ (c >>= fun p => (pure p.2 : Dist β)) = e ∧ ∀ p, c p ≠ 0 → R p.1 p.2

theorem Paired.pure {R : α → β → Prop} {a : α} {b : β} (h : R a b) : Paired R (Pure.pure a) (Pure.pure b) :=
  ⟨Pure.pure (a, b), Dist.pure_bind' _ _, Dist.pure_bind' _ _, fun p hp => by rw [pure_support hp]; exact h⟩

theorem never_bind (k : α → Dist β) : ((Dist.never : Dist α) >>= k) = Dist.never := by
  ext b
  rw [Dist.bind_apply]
  simp [Dist.never_apply]

theorem Paired.never {R : α → β → Prop} : Paired R Dist.never Dist.never :=
  ⟨Dist.never, never_bind _, never_bind _, fun _ hp => absurd rfl hp⟩

theorem Paired.mono {R R' : α → β → Prop} {d : Dist α} {e : Dist β} (h : Paired R d e) (hR : ∀ a b, R a b → R' a b) : Paired R' d e := by
  obtain ⟨c, h1, h2, h3⟩ := h
  exact ⟨c, h1, h2, fun p hp => hR _ _ (h3 p hp)⟩

/-- The law of pairs of next states. -/
theorem Paired.bind {R : α → β → Prop} {Q : γ → δ → Prop} {d : Dist α} {e : Dist β} (h : Paired R d e) {k : α → Dist γ} {l : β → Dist δ}
    (hk : ∀ a b, R a b → Paired Q (k a) (l b)) : Paired Q (d >>= k) (e >>= l) := by
  classical
  obtain ⟨c, h1, h2, h3⟩ := h
  let next : α × β → Dist (γ × δ) := fun p => if hp : R p.1 p.2 then (hk p.1 p.2 hp).choose else Dist.never
  have hn : ∀ p, R p.1 p.2 → (next p >>= fun q => (Pure.pure q.1 : Dist γ)) = k p.1 ∧ (next p >>= fun q => (Pure.pure q.2 : Dist δ)) = l p.2 ∧
      ∀ q, next p q ≠ 0 → Q q.1 q.2 := by
    intro p hp
    have := (hk p.1 p.2 hp).choose_spec
    simp only [next, dif_pos hp]
    exact this
  refine ⟨c >>= next, ?_, ?_, fun q hq => ?_⟩
  · rw [Dist.bind_assoc', Dist.bind_congr_support (g := fun p => k p.1) (fun p hp => (hn p (h3 p hp)).1), ← h1, Dist.bind_assoc']
    simp only [Dist.pure_bind']
  · rw [Dist.bind_assoc', Dist.bind_congr_support (g := fun p => l p.2) (fun p hp => (hn p (h3 p hp)).2.1), ← h2, Dist.bind_assoc']
    simp only [Dist.pure_bind']
  · obtain ⟨p, hp, hq⟩ := bind_support hq
    exact (hn p (h3 p hp)).2.2 q hq

theorem Paired.lift {R : α → β → Prop} {o : Outcome α} {o' : Outcome β} (h : ∃ a b, o = ok a ∧ o' = ok b ∧ R a b) :
    Paired R (Dist.lift o) (Dist.lift o') := by
  obtain ⟨a, b, rfl, rfl, h⟩ := h
  rw [Dist.lift_ok, Dist.lift_ok]
  exact Paired.pure h

/-- A law and its image. -/
theorem Paired.of_image {R : α → β → Prop} {d : Dist α} {φ : α → β} (h : ∀ a, d a ≠ 0 → R a (φ a)) :
    Paired R d (d >>= fun a => (Pure.pure (φ a) : Dist β)) := by
  refine ⟨d >>= fun a => (Pure.pure (a, φ a) : Dist (α × β)), ?_, ?_, fun p hp => ?_⟩
  · rw [Dist.bind_assoc']
    simp only [Dist.pure_bind']
    exact Dist.bind_pure' d
  · rw [Dist.bind_assoc']
    simp only [Dist.pure_bind']
  · obtain ⟨a, ha, hp⟩ := bind_support hp
    rw [pure_support hp]
    exact h a ha

theorem Paired.same {R : α → α → Prop} {d : Dist α} (h : ∀ a, d a ≠ 0 → R a a) : Paired R d d := by
  have := Paired.of_image (R := R) (d := d) (φ := fun a => a) h
  rwa [Dist.bind_pure'] at this

/-- Laws which correspond to each other by a bijection. -/
theorem Paired.of_bijection {R : α → β → Prop} {d : Dist α} {e : Dist β} {φ : α → β} {ψ : β → α} (h1 : ∀ a, d a ≠ 0 → e (φ a) = d a ∧ ψ (φ a) = a)
    (h2 : ∀ b, e b ≠ 0 → d (ψ b) ≠ 0 ∧ φ (ψ b) = b) (h : ∀ a, d a ≠ 0 → R a (φ a)) : Paired R d e := by
  classical
  have he : e = (d >>= fun a => (Pure.pure (φ a) : Dist β)) := by
    ext b
    rw [Dist.bind_apply]
    by_cases hb : e b = 0
    · rw [hb]
      symm
      rw [ENNReal.tsum_eq_zero]
      intro a
      by_cases ha : d a = 0
      · rw [ha, zero_mul]
      · rw [Dist.pure_apply, if_neg, mul_zero]
        rintro rfl
        exact ha ((h1 a ha).1.symm.trans hb)
    · obtain ⟨hd, hb'⟩ := h2 b hb
      rw [tsum_eq_single (ψ b)]
      · rw [Dist.pure_apply, hb', if_pos rfl, mul_one, ← (h1 _ hd).1, hb']
      · intro a ha
        by_cases hda : d a = 0
        · rw [hda, zero_mul]
        · rw [Dist.pure_apply, if_neg, mul_zero]
          rintro rfl
          exact ha (h1 a hda).2.symm
  rw [he]
  exact Paired.of_image h

/-- If one side is determined by the other. -/
theorem Paired.eq_image {d : Dist α} {e : Dist β} {φ : α → β} (h : Paired (fun a b => b = φ a) d e) :
    e = (d >>= fun a => (Pure.pure (φ a) : Dist β)) := by
  obtain ⟨c, h1, h2, h3⟩ := h
  rw [← h1, ← h2, Dist.bind_assoc']
  simp only [Dist.pure_bind']
  exact Dist.bind_congr_support (fun p hp => by rw [h3 p hp])

theorem Paired.ite {R : α → β → Prop} {p q : Prop} [Decidable p] [Decidable q] {d d' : Dist α} {e e' : Dist β} (hpq : p ↔ q)
    (h1 : p → Paired R d e) (h2 : ¬ p → Paired R d' e') : Paired R (if p then d else d') (if q then e else e') := by
  by_cases hp : p
  · rw [if_pos hp, if_pos (hpq.mp hp)]
    exact h1 hp
  · rw [if_neg hp, if_neg (fun h => hp (hpq.mpr h))]
    exact h2 hp

/-! ## Loops -/

theorem Paired.forLoop {R : ℕ → S → T → Prop} {body : ℕ → S → Dist S} {body' : ℕ → T → Dist T} : ∀ (m i : ℕ) (s : S) (t : T), R i s t →
    (∀ j s t, i ≤ j → j < i + m → R j s t → Paired (R (j + 1)) (body j s) (body' j t)) → Paired (R (i + m)) (Dist.forLoop m i body s) (Dist.forLoop m i body' t)
  | 0, _, _, _, h, _ => Paired.pure h
  | m + 1, i, s, t, h, hb => by
    refine (hb i s t (le_refl i) (by omega) h).bind (fun s t h => ?_)
    have := Paired.forLoop m (i + 1) s t h (fun j s t h1 h2 h => hb j s t (by omega) (by omega) h)
    rwa [show i + 1 + m = i + (m + 1) by omega] at this

theorem Paired.forRange (R : ℕ → S → T → Prop) {body : ℕ → S → Dist S} {body' : ℕ → T → Dist T} {m : ℕ} {s : S} {t : T} (h : R 0 s t)
    (hb : ∀ j s t, j < m → R j s t → Paired (R (j + 1)) (body j s) (body' j t)) : Paired (R m) (Dist.forRange 0 m body s) (Dist.forRange 0 m body' t) := by
  have := Paired.forLoop (R := R) (m - 0) 0 s t h (fun j s t _ h2 h => hb j s t (by omega) h)
  rwa [show 0 + (m - 0) = m by omega] at this

theorem Paired.boundedLoop {R : S → T → Prop} {last : S → Bool} {last' : T → Bool} {it : S → Dist S} {it' : T → Dist T}
    (hl : ∀ s t, R s t → last s = last' t) (hi : ∀ s t, R s t → last s = false → Paired R (it s) (it' t)) :
    ∀ (k : ℕ) (s : S) (t : T), R s t → Paired R (Prob.boundedLoop last it k s) (Prob.boundedLoop last' it' k t)
  | 0, _, _, h => Paired.pure h
  | k + 1, s, t, h => by
    refine Paired.ite (by rw [hl s t h]) (fun _ => Paired.pure h) (fun hn => ?_)
    exact (hi s t h (by simpa using hn)).bind (fun s t h => Paired.boundedLoop hl hi k s t h)

theorem indefiniteGo_mono {last : S → Bool} {it : S → Dist S} : ∀ (k : ℕ) (s u : S), indefiniteGo last it k s u ≤ indefiniteGo last it (k + 1) s u
  | 0, _, _ => zero_le
  | k + 1, s, u => by
    change (if last s = true then pure s else it s >>= indefiniteGo last it k : Dist S) u ≤
      (if last s = true then pure s else it s >>= indefiniteGo last it (k + 1) : Dist S) u
    split
    · exact le_refl _
    · rw [Dist.bind_apply, Dist.bind_apply]
      exact ENNReal.tsum_le_tsum (fun a => mul_le_mul_right (indefiniteGo_mono k a u) _)

theorem indefiniteLoop_bind {last : S → Bool} {it : S → Dist S} (s : S) (h : S → Dist γ) (y : γ) :
    (indefiniteLoop last it s >>= h) y = ⨆ k, (indefiniteGo last it k s >>= h) y := by
  simp only [Dist.bind_apply]
  have h1 : ∀ u, (indefiniteLoop last it s) u * h u y = ⨆ k, indefiniteGo last it k s u * h u y := by
    intro u
    change (⨆ k, indefiniteGo last it k s u) * _ = _
    rw [ENNReal.iSup_mul]
  simp only [h1]
  rw [ENNReal.tsum_eq_iSup_sum]
  simp only [ENNReal.tsum_eq_iSup_sum]
  rw [iSup_comm]
  refine iSup_congr (fun F => ?_)
  rw [ENNReal.finsetSum_iSup_of_monotone]
  intro u
  exact monotone_nat_of_le_succ (fun k => mul_le_mul_left (indefiniteGo_mono k s u) _)

theorem Paired.indefiniteLoop {R : S → T → Prop} {last : S → Bool} {last' : T → Bool} {it : S → Dist S} {it' : T → Dist T}
    (hl : ∀ s t, R s t → last s = last' t) (hi : ∀ s t, R s t → last s = false → Paired R (it s) (it' t)) (s : S) (t : T) (h : R s t) :
    Paired R (Prob.indefiniteLoop last it s) (Prob.indefiniteLoop last' it' t) := by
  classical
  let next : S × T → Dist (S × T) := fun p => if hp : R p.1 p.2 ∧ last p.1 = false then (hi p.1 p.2 hp.1 hp.2).choose else Dist.never
  have hn : ∀ p, R p.1 p.2 → last p.1 = false → (next p >>= fun q => (Pure.pure q.1 : Dist S)) = it p.1 ∧
      (next p >>= fun q => (Pure.pure q.2 : Dist T)) = it' p.2 ∧ ∀ q, next p q ≠ 0 → R q.1 q.2 := by
    intro p hp hlast
    have := (hi p.1 p.2 hp hlast).choose_spec
    simp only [next, dif_pos (And.intro hp hlast)]
    exact this
  have hgo : ∀ (k : ℕ) (p : S × T), R p.1 p.2 →
      (indefiniteGo (fun p : S × T => last p.1) next k p >>= fun q => (Pure.pure q.1 : Dist S)) = indefiniteGo last it k p.1 ∧
      (indefiniteGo (fun p : S × T => last p.1) next k p >>= fun q => (Pure.pure q.2 : Dist T)) = indefiniteGo last' it' k p.2 ∧
      ∀ q, indefiniteGo (fun p : S × T => last p.1) next k p q ≠ 0 → R q.1 q.2 := by
    intro k
    induction k with
    | zero => exact fun p _ => ⟨never_bind _, never_bind _, fun _ hq => absurd rfl hq⟩
    | succ k ih =>
      intro p hp
      unfold indefiniteGo
      cases hlast : last p.1 with
      | true =>
        rw [← hl _ _ hp, hlast]
        simp only [if_true]
        exact ⟨Dist.pure_bind' _ _, Dist.pure_bind' _ _, fun q hq => by rw [pure_support hq]; exact hp⟩
      | false =>
        rw [← hl _ _ hp, hlast]
        simp only [Bool.false_eq_true, if_false]
        obtain ⟨h1, h2, h3⟩ := hn p hp hlast
        refine ⟨?_, ?_, fun q hq => ?_⟩
        · rw [Dist.bind_assoc', Dist.bind_congr_support (g := fun q => indefiniteGo last it k q.1) (fun q hq => (ih q (h3 q hq)).1), ← h1, Dist.bind_assoc']
          simp only [Dist.pure_bind']
        · rw [Dist.bind_assoc', Dist.bind_congr_support (g := fun q => indefiniteGo last' it' k q.2) (fun q hq => (ih q (h3 q hq)).2.1), ← h2,
            Dist.bind_assoc']
          simp only [Dist.pure_bind']
        · obtain ⟨r, hr, hq⟩ := bind_support hq
          exact (ih r (h3 r hr)).2.2 q hq
  refine ⟨Prob.indefiniteLoop (fun p : S × T => last p.1) next (s, t), ?_, ?_, fun q hq => ?_⟩
  · ext u
    rw [indefiniteLoop_bind]
    exact iSup_congr (fun k => by rw [(hgo k (s, t) h).1])
  · ext u
    rw [indefiniteLoop_bind]
    exact iSup_congr (fun k => by rw [(hgo k (s, t) h).2.1])
  · have hk : ∃ k, indefiniteGo (fun p : S × T => last p.1) next k (s, t) q ≠ 0 := by
      by_contra hno
      simp only [not_exists, not_not] at hno
      exact hq (by change (⨆ k, indefiniteGo (fun p : S × T => last p.1) next k (s, t) q) = 0; simp [hno])
    obtain ⟨k, hk⟩ := hk
    exact (hgo k (s, t) h).2.2 q hk

/-- Runs of iterative algorithms. -/
theorem Paired.loop {R : S → T → Prop} {init : Dist S} {init' : Dist T} {last : S → Bool} {last' : T → Bool} {it : S → Dist S} {it' : T → Dist T}
    (h : Paired R init init') (hl : ∀ s t, R s t → last s = last' t) (hi : ∀ s t, R s t → last s = false → Paired R (it s) (it' t)) (num : ℤ) :
    Paired R (Prob.loop init last it num) (Prob.loop init' last' it' num) :=
  h.bind (fun s t h => Paired.ite Iff.rfl (fun _ => Paired.boundedLoop hl hi _ s t h) (fun _ => Paired.indefiniteLoop hl hi s t h))

end Hnco.Prob
