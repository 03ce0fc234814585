import Verif.Prob.OrderPopLemmas

/-!
# Lemmas about selections in populations of which only the values differ
-/

namespace Hnco.Prob

open Outcome
open scoped ENNReal

theorem lift_forLoop {σ : Type} {body : ℕ → σ → Outcome σ} : ∀ (m i : ℕ) (s : σ),
    Dist.lift (forLoop m i body s) = Dist.forLoop m i (fun i s => Dist.lift (body i s)) s
  | 0, _, _ => Dist.lift_ok _
  | m + 1, i, s => by
    unfold forLoop Dist.forLoop
    rw [lift_then]
    exact Dist.bind_congr_support (fun a _ => lift_forLoop m (i + 1) a)

theorem lift_forRange {σ : Type} {body : ℕ → σ → Outcome σ} (a b : ℕ) (s : σ) :
    Dist.lift (forRange a b body s) = Dist.forRange a b (fun i s => Dist.lift (body i s)) s := lift_forLoop _ _ _

variable {K L : Type} {g : K → L}

/-- The size of a population. -/
def Sized (m : ℕ) (p : Pop K) : Prop := p.bvs.length = m ∧ p.values.length = m

/-- Evaluation of the first `i` members of populations of size `m`. -/
def Upto (g : K → L) (m i : ℕ) (p : Pop K) (p' : Pop L) : Prop := EvaluatedTo g i p p' ∧ Sized m p

theorem Upto.eq {m : ℕ} {p : Pop K} {p' : Pop L} (h : Upto g m m p p') : p' = popBy g p := h.1.eq (by rw [h.2.2])

theorem upto_by {m i : ℕ} {p : Pop K} (h : Sized m p) : Upto g m i p (popBy g p) :=
  ⟨⟨sameVectors_by g p, fun j _ => by change (p.values.map g)[j]? = _; rw [List.getElem?_map]⟩, h⟩

theorem upto_zero {m : ℕ} {p : Pop K} {p' : Pop L} (h : SameVectors p p') (hs : Sized m p) : Upto g m 0 p p' :=
  ⟨⟨h, fun j hj => absurd hj (Nat.not_lt_zero j)⟩, hs⟩

/-- Writing the next value and a vector. -/
theorem upto_write {m i k : ℕ} {p : Pop K} {p' : Pop L} (h : Upto g m i p p') (v : K) (y : BV) :
    Upto g m (i + 1) { p with bvs := p.bvs.set k y, values := p.values.set i v }
      { p' with bvs := p.bvs.set k y, values := p'.values.set i (g v) } := by
  refine ⟨⟨⟨rfl, h.1.perm, by simpa using h.1.values⟩, fun j hj => ?_⟩, ⟨by simpa using h.2.1, by simpa using h.2.2⟩⟩
  dsimp only
  rw [List.getElem?_set, List.getElem?_set, h.1.values]
  by_cases hj' : i = j
  · subst hj'
    by_cases hi : i < p.values.length
    · simp [hi]
    · simp [hi]
  · rw [if_neg hj', if_neg hj']
    exact h.1.done j (by omega)

theorem Paired.vset {α β : Type} {l : List α} {l' : List β} (hl : l'.length = l.length) (i : ℕ) (a : α) (b : β) :
    Paired (fun r r' => r = l.set i a ∧ r' = l'.set i b) (Dist.lift (vset l i a)) (Dist.lift (vset l' i b)) := by
  unfold Hnco.vset
  rw [hl]
  by_cases hi : i < l.length
  · rw [if_pos hi, if_pos hi, Dist.lift_ok, Dist.lift_ok]
    exact Paired.pure ⟨rfl, rfl⟩
  · rw [if_neg hi, if_neg hi]
    exact Paired.never

theorem setBestBv_order {m i : ℕ} {x : BV} {p : Pop K} (h : Sized m p) :
    Paired (fun q q' => q' = popBy g q ∧ Sized m q) (Dist.lift (Pop.setBestBv i x p)) (Dist.lift (Pop.setBestBv i x (popBy g p))) := by
  unfold Pop.setBestBv
  simp only [lift_then]
  refine (Paired.refl (Dist.lift (assert (decide (i < p.perm.length))))).bind (fun _ _ _ => ?_)
  refine (Paired.refl (Dist.lift (vget p.perm i))).bind (fun k k' hk => ?_)
  subst hk
  refine (Paired.vset (l := p.bvs) (l' := p.bvs) rfl k' x x).bind (fun b b' hb => ?_)
  obtain ⟨rfl, rfl⟩ := hb
  rw [Dist.lift_ok, Dist.lift_ok]
  exact Paired.pure ⟨rfl, by simpa using h.1, h.2⟩

theorem bestValue_order (p : Pop K) (i : ℕ) : Paired (fun v w => w = g v) (Dist.lift (p.bestValue i)) (Dist.lift ((popBy g p).bestValue i)) := by
  rw [bestValue_by]
  exact Paired.lift_map _ _

/-- Selection of the best ones. -/
theorem takeBest_order {m l i : ℕ} {s : Pop K × Pop K} {s' : Pop L × Pop L} (h : Upto g m i s.1 s'.1) (ho : s'.2 = popBy g s.2) (hl : Sized l s.2) :
    Paired (fun r r' => Upto g m (i + 1) r.1 r'.1 ∧ r'.2 = popBy g r.2 ∧ Sized l r.2) (Dist.lift (takeBest i s)) (Dist.lift (takeBest i s')) := by
  unfold takeBest
  simp only [lift_then]
  rw [ho]
  refine (bestValue_order s.2 i).bind (fun v w hv => ?_)
  subst hv
  refine (Paired.vset h.1.values i v (g v)).bind (fun b b' hb => ?_)
  obtain ⟨rfl, rfl⟩ := hb
  rw [h.1.bvs]
  refine (Paired.refl _).bind (fun x x' hx => ?_)
  subst hx
  refine (Paired.refl (Dist.lift (s.2.bestBv i))).bind (fun y y' hy => ?_)
  subst hy
  refine (Paired.vset rfl i y' y').bind (fun b b' hb => ?_)
  obtain ⟨rfl, rfl⟩ := hb
  refine (setBestBv_order hl).bind (fun q q' hq => ?_)
  rw [Dist.lift_ok, Dist.lift_ok]
  exact Paired.pure ⟨upto_write h v y', hq.1, hq.2⟩

theorem takeBestLoop_order {m l : ℕ} {a o : Pop K} {a' : Pop L} (h : SameVectors a a') (ha : Sized m a) (hl : Sized l o) :
    Paired (fun r r' => (r'.1 = popBy g r.1 ∧ Sized m r.1) ∧ r'.2 = popBy g r.2 ∧ Sized l r.2)
      (Dist.lift (forRange 0 m takeBest (a, o))) (Dist.lift (forRange 0 m takeBest (a', popBy g o))) := by
  rw [lift_forRange, lift_forRange]
  refine (Paired.forRange (fun i r r' => Upto g m i r.1 r'.1 ∧ r'.2 = popBy g r.2 ∧ Sized l r.2) ⟨upto_zero h ha, rfl, hl⟩
    (fun j r r' _ hr => takeBest_order hr.1 hr.2.1 hr.2.2)).mono (fun r r' hr => ⟨⟨hr.1.eq, hr.1.2⟩, hr.2⟩)

/-- Filling the pool. -/
theorem fillPool_order {m l i off : ℕ} {s : Pop K × Pop K} {s' : Pop L × Pop L} (h : Upto g m (off + i) s.2 s'.2) (ho : s'.1 = popBy g s.1)
    (hl : Sized l s.1) :
    Paired (fun r r' => Upto g m (off + (i + 1)) r.2 r'.2 ∧ r'.1 = popBy g r.1 ∧ Sized l r.1)
      (Dist.lift (fillPool off i s)) (Dist.lift (fillPool off i s')) := by
  unfold fillPool
  simp only [lift_then]
  rw [ho]
  refine Paired.bind (R := fun v w => w = g v) ?_ (fun v w hv => ?_)
  · change Paired _ _ (Dist.lift (vget (s.1.values.map g) i))
    rw [vget_transformed]
    exact Paired.lift_map _ _
  subst hv
  refine (Paired.vset h.1.values (off + i) v (g v)).bind (fun b b' hb => ?_)
  obtain ⟨rfl, rfl⟩ := hb
  rw [h.1.bvs]
  refine (Paired.refl _).bind (fun x x' hx => ?_)
  subst hx
  refine (Paired.refl (Dist.lift (vget s.1.bvs i))).bind (fun y y' hy => ?_)
  subst hy
  refine (Paired.vset rfl (off + i) y' y').bind (fun b b' hb => ?_)
  obtain ⟨rfl, rfl⟩ := hb
  refine (Paired.vset (l := s.1.bvs) (l' := s.1.bvs) rfl i x' x').bind (fun b b' hb => ?_)
  obtain ⟨rfl, rfl⟩ := hb
  rw [Dist.lift_ok, Dist.lift_ok]
  exact Paired.pure ⟨upto_write h v y', rfl, by simpa using hl.1, hl.2⟩

theorem fillLoop_order {m l off : ℕ} {p e : Pop K} {e' : Pop L} (h : Upto g m off e e') (hl : Sized l p) :
    Paired (fun r r' => Upto g m (off + l) r.2 r'.2 ∧ r'.1 = popBy g r.1 ∧ Sized l r.1)
      (Dist.lift (forRange 0 l (fillPool off) (p, e))) (Dist.lift (forRange 0 l (fillPool off) (popBy g p, e'))) := by
  rw [lift_forRange, lift_forRange]
  exact Paired.forRange (fun i (r : Pop K × Pop K) (r' : Pop L × Pop L) => Upto g m (off + i) r.2 r'.2 ∧ r'.1 = popBy g r.1 ∧ Sized l r.1) ⟨h, rfl, hl⟩
    (fun j r r' _ hr => fillPool_order hr.1 hr.2.1 hr.2.2)

/-- Related and evaluated. -/
def Strong (g : K → L) (m : ℕ) (p : Pop K) (p' : Pop L) : Prop := p' = popBy g p ∧ Sized m p

/-- Related, maybe not evaluated. -/
def Rough (m : ℕ) (p : Pop K) (p' : Pop L) : Prop := SameVectors p p' ∧ Sized m p

theorem Strong.rough {m : ℕ} {p : Pop K} {p' : Pop L} (h : Strong g m p p') : Rough m p p' := ⟨h.1 ▸ sameVectors_by g p, h.2⟩

theorem comma_order {c : Choices K} {c' : Choices L} (hc : ChoosesAlike g c c') {mu lam : ℕ} {a o : Pop K} {a' o' : Pop L} (ha : Rough mu a a')
    (ho : Strong g lam o o') :
    Paired (fun r r' => Strong g mu r.1 r'.1 ∧ Strong g lam r.2 r'.2) (c.comma a o) (c'.comma a' o') := by
  obtain ⟨law, law', h1, h2, h3⟩ := hc.comma
  obtain ⟨rfl, hs⟩ := ho
  have hz : a'.size = a.size := congrArg List.length ha.1.bvs
  rw [h2, h3, hz]
  change Paired _ _ (law' a.size (o.values.map g) o.perm >>= _)
  rw [h1]
  refine (Paired.refl _).bind (fun perm perm' hp => ?_)
  subst hp
  have hm : a.size = mu := ha.2.1
  rw [hm]
  refine (takeBestLoop_order (g := g) (o := { o with perm := perm' }) ha.1 ha.2 hs).bind (fun r r' hr => ?_)
  obtain ⟨⟨e1, e2⟩, e3, e4⟩ := hr
  rw [e1, e3]
  exact Paired.pure ⟨⟨rfl, e2⟩, rfl, e4⟩

theorem plus_order {c : Choices K} {c' : Choices L} (hc : ChoosesAlike g c c') {mu lam : ℕ} {a o e : Pop K} {a' o' e' : Pop L}
    (ha : Strong g mu a a') (ho : Strong g lam o o') (he : Rough (mu + lam) e e') :
    Paired (fun r r' => Strong g mu r.1 r'.1 ∧ Strong g lam r.2.1 r'.2.1 ∧ Strong g (mu + lam) r.2.2 r'.2.2) (c.plus a o e) (c'.plus a' o' e') := by
  obtain ⟨law, law', h1, h2, h3⟩ := hc.plus
  obtain ⟨rfl, hs⟩ := ho
  obtain ⟨rfl, hm⟩ := ha
  rw [h2, h3]
  have z1 : a.size = mu := hm.1
  have z2 : (popBy g a).size = mu := hm.1
  have z3 : o.size = lam := hs.1
  have z4 : (popBy g o).size = lam := hs.1
  rw [z1, z2, z3, z4]
  refine (fillLoop_order (upto_zero he.1 he.2) hm).bind (fun r r' hr => ?_)
  obtain ⟨u1, u2, u3⟩ := hr
  have y1 : r.1.size = mu := u3.1
  have y2 : r'.1.size = mu := by rw [u2]; exact u3.1
  rw [y1, y2]
  rw [Nat.zero_add] at u1
  refine (fillLoop_order u1 hs).bind (fun t t' ht => ?_)
  obtain ⟨v1, v2, v3⟩ := ht
  have v4 := v1.eq
  rw [v4]
  change Paired _ _ (law' mu (t.2.values.map g) t.2.perm >>= _)
  rw [h1]
  refine (Paired.refl _).bind (fun perm perm' hp => ?_)
  subst hp
  refine (takeBestLoop_order (g := g) (o := { t.2 with perm := perm' }) (a := r.1) (a' := r'.1) (u2 ▸ sameVectors_by g r.1) u3 v1.2).bind
    (fun q q' hq => ?_)
  obtain ⟨⟨e1, e2⟩, e3, e4⟩ := hq
  rw [e1, e3, v2]
  exact Paired.pure ⟨⟨rfl, e2⟩, ⟨rfl, v3⟩, rfl, e4⟩

/-! ## Construction -/

theorem popNew_rough [Zero K] [Zero L] (size n : ℤ) :
    Paired (fun p p' => Rough size.toNat p p') (Dist.lift (Pop.new (K := K) size n)) (Dist.lift (Pop.new (K := L) size n)) := by
  unfold Pop.new
  split
  · exact Paired.never
  · split
    · exact Paired.never
    · rw [Dist.lift_ok, Dist.lift_ok]
      exact Paired.pure ⟨⟨rfl, rfl, by simp⟩, by simp, by simp⟩

theorem Rough.size {m : ℕ} {p : Pop K} {p' : Pop L} (h : Rough m p p') : p.size = m ∧ p'.size = m :=
  ⟨h.2.1, by rw [← h.2.1]; exact congrArg List.length h.1.bvs⟩

/-- Related data of evolutionary algorithms. -/
structure EaDataSame {τ τ' : Type} (R : τ → τ' → Prop) (mu lam : ℕ) (d : EaData K τ) (d' : EaData L τ') : Prop where
  parents : Rough mu d.parents d'.parents
  offsprings : Rough lam d.offsprings d'.offsprings
  extra : R d.extra d'.extra

theorem muPlusNew_order [Zero K] [Zero L] (n mu lam : ℤ) (q : StandardParams) :
    Paired (EaDataSame (Rough (mu.toNat + lam.toNat)) mu.toNat lam.toNat) (Dist.lift (muPlusNew (K := K) n mu lam q))
      (Dist.lift (muPlusNew (K := L) n mu lam q)) := by
  unfold muPlusNew plusNew
  simp only [lift_then, Dist.bind_assoc']
  refine (popNew_rough mu n).bind (fun p p' hp => ?_)
  refine (popNew_rough lam n).bind (fun o o' ho => ?_)
  rw [hp.size.1, hp.size.2, ho.size.1, ho.size.2]
  have b1 : p'.bvSize = p.bvSize := by unfold Pop.bvSize; rw [hp.1.bvs]
  have b2 : o'.bvSize = o.bvSize := by unfold Pop.bvSize; rw [ho.1.bvs]
  rw [b1, b2]
  refine (Paired.refl _).bind (fun k k' hk => ?_)
  subst hk
  refine (popNew_rough _ _).bind (fun e e' he => ?_)
  refine (Paired.refl _).bind (fun j j' hj => ?_)
  subst hj
  by_cases hjk : j' = k'
  · rw [if_pos hjk, if_pos hjk, Dist.lift_ok, Dist.lift_ok, Dist.pure_bind', Dist.pure_bind']
    refine (Paired.refl _).bind (fun nb nb' hnb => ?_)
    rw [Dist.lift_ok, Dist.lift_ok]
    exact Paired.pure ⟨hp, ho, he⟩
  · rw [if_neg hjk, if_neg hjk]
    change Paired _ (Dist.never >>= _) (Dist.never >>= _)
    rw [never_bind, never_bind]
    exact Paired.never

theorem commaNew_same {mu lam : ℕ} {p o : Pop K} {p' o' : Pop L} (hp : Rough mu p p') (ho : Rough lam o o') : commaNew p' o' = commaNew p o := by
  unfold commaNew
  rw [hp.size.1, hp.size.2, ho.size.1, ho.size.2]

theorem muCommaNew_order [Zero K] [Zero L] (n mu lam : ℤ) (q : StandardParams) :
    Paired (EaDataSame Eq mu.toNat lam.toNat) (Dist.lift (muCommaNew (K := K) n mu lam q)) (Dist.lift (muCommaNew (K := L) n mu lam q)) := by
  unfold muCommaNew
  simp only [lift_then]
  refine (popNew_rough mu n).bind (fun p p' hp => ?_)
  refine (popNew_rough lam n).bind (fun o o' ho => ?_)
  rw [commaNew_same hp ho]
  refine (Paired.refl _).bind (fun _ _ _ => ?_)
  refine (Paired.refl _).bind (fun nb nb' hnb => ?_)
  rw [Dist.lift_ok, Dist.lift_ok]
  exact Paired.pure ⟨hp, ho, rfl⟩

theorem gaNew_order [Zero K] [Zero L] (n mu : ℤ) (q : StandardParams) :
    Paired (EaDataSame Eq mu.toNat mu.toNat) (Dist.lift (gaNew (K := K) n mu q)) (Dist.lift (gaNew (K := L) n mu q)) := by
  unfold gaNew
  simp only [lift_then]
  refine (popNew_rough mu n).bind (fun p p' hp => ?_)
  refine (popNew_rough mu n).bind (fun o o' ho => ?_)
  rw [commaNew_same hp ho]
  refine (Paired.refl _).bind (fun _ _ _ => ?_)
  refine (Paired.refl _).bind (fun nb nb' hnb => ?_)
  rw [Dist.lift_ok, Dist.lift_ok, hp.size.1, hp.size.2]
  exact Paired.pure ⟨hp, ho, rfl⟩

/-! ## Iterations -/

/-- Related states. -/
structure EaSame {τ τ' : Type} (P : Pop K → Pop L → Prop) (R : τ → τ' → Prop) (g : K → L) (lam : ℕ) (s : EaState K τ) (s' : EaState L τ') : Prop where
  solution : s'.solution = Sol g s.solution
  parents : P s.parents s'.parents
  offsprings : Rough lam s.offsprings s'.offsprings
  extra : R s.extra s'.extra

theorem rough_write {m : ℕ} {p : Pop K} {p' : Pop L} (h : Rough m p p') (i : ℕ) (y : BV) :
    Paired (fun b b' => Rough m { p with bvs := b } { p' with bvs := b' }) (Dist.lift (vset p.bvs i y)) (Dist.lift (vset p'.bvs i y)) := by
  rw [h.1.bvs]
  refine (Paired.vset rfl i y y).mono (fun b b' hb => ?_)
  obtain ⟨rfl, rfl⟩ := hb
  exact ⟨⟨rfl, h.1.perm, h.1.values⟩, by simpa using h.2.1, h.2.2⟩

theorem popRandom_order {m : ℕ} {p : Pop K} {p' : Pop L} (h : Rough m p p') : Paired (Rough m) (popRandom p) (popRandom p') := by
  unfold popRandom
  rw [h.size.1, h.size.2]
  refine Paired.forRange (fun _ => Rough m) h (fun j q q' _ hq => ?_)
  refine Paired.bind (R := fun x x' => x' = x) (by rw [hq.1.bvs]; exact Paired.refl _) (fun x x' hx => ?_)
  subst hx
  refine (Paired.refl _).bind (fun y y' hy => ?_)
  subst hy
  exact (rough_write hq j y').bind (fun b b' hb => Paired.pure hb)

theorem makeOffsprings_order (d : Dist (List ℕ)) {mu lam : ℕ} {p o : Pop K} {p' o' : Pop L} (hp : Rough mu p p') (ho : Rough lam o o') :
    Paired (Rough lam) (Dist.forRange 0 o.size (makeOffspring d p) o) (Dist.forRange 0 o'.size (makeOffspring d p') o') := by
  rw [ho.size.1, ho.size.2]
  refine Paired.forRange (fun _ => Rough lam) ho (fun j q q' _ hq => ?_)
  unfold makeOffspring
  rw [hp.size.1, hp.size.2, hp.1.bvs]
  refine (Paired.refl _).bind (fun k k' hk => ?_)
  subst hk
  refine (Paired.refl _).bind (fun x x' hx => ?_)
  subst hx
  refine (Paired.refl _).bind (fun y y' hy => ?_)
  subst hy
  exact (rough_write hq j y').bind (fun b b' hb => Paired.pure hb)

set_option linter.unusedSectionVars false

variable [LinearOrder K] [LinearOrder L] {f : Fn K} {f' : Fn L}

theorem evaluate_sized {m : ℕ} {p q : Pop K} (hp : Sized m p) (hq : popEvaluate f p = ok q) : Sized m q := by
  unfold popEvaluate at hq
  have ha : (p.bvs.length == p.values.length) = true := by rw [hp.1, hp.2]; exact beq_self_eq_true m
  rw [ha] at hq
  change forRange 0 p.bvs.length _ p = ok q at hq
  have hr : ∀ (k i : ℕ) (p q : Pop K), Sized m p → forLoop k i (fun i (p : Pop K) => do
      let x ← vget p.bvs i
      let v ← f.eval x
      let values ← vset p.values i v
      ok { p with values := values }) p = ok q → Sized m q := by
    intro k
    induction k with
    | zero => intro i p q hp h; cases h; exact hp
    | succ k ih =>
      intro i p q hp h
      unfold forLoop at h
      cases hx : vget p.bvs i with
      | ok x =>
        cases hv : f.eval x with
        | ok v =>
          simp only [hx, ok_bind, hv] at h
          cases hs : vset p.values i v with
          | ok l =>
            simp only [hs, ok_bind] at h
            have hl : l.length = p.values.length := by
              unfold vset at hs
              split at hs
              · cases hs
                simp
              · cases hs
            exact ih (i + 1) { p with values := l } q ⟨hp.1, hl.trans hp.2⟩ h
          | _ => simp only [hs] at h; cases h
        | _ => simp only [hx, ok_bind, hv] at h; cases h
      | _ => simp only [hx] at h; cases h
  exact hr _ 0 p q hp hq

theorem evaluate_order (h : Transformed g f f') {m : ℕ} {p : Pop K} {p' : Pop L} (hp : Rough m p p') :
    Paired (Strong g m) (Dist.lift (popEvaluate f p)) (Dist.lift (popEvaluate f' p')) := by
  have e := (popEvaluate_order h hp.1).eq_image
  rw [e]
  refine Paired.of_image (fun q hq => ⟨rfl, evaluate_sized hp.2 (lift_support hq)⟩)

theorem ChoosesAlike.sortsAlike {c : Choices K} {c' : Choices L} (hc : ChoosesAlike g c c') : SortsAlike g c c' := by
  obtain ⟨law, law', h1, h2, h3⟩ := hc.sort
  intro p
  rw [h2, h3]
  change (law' (p.values.map g) p.perm >>= _) = _
  rw [h1, Dist.bind_assoc']
  refine Dist.bind_congr_support (fun perm _ => ?_)
  rw [Dist.pure_bind']
  rfl

theorem sort_strong {c : Choices K} {c' : Choices L} (hc : ChoosesAlike g c c') {m : ℕ} {p : Pop K} {p' : Pop L} (hp : Strong g m p p') :
    Paired (Strong g m) (c.sort p) (c'.sort p') := by
  rw [hp.1, hc.sortsAlike]
  refine Paired.of_image (fun q hq => ⟨rfl, ?_⟩)
  obtain ⟨law, _, _, h2, _⟩ := hc.sort
  rw [h2] at hq
  obtain ⟨perm, _, hq⟩ := bind_support hq
  rw [pure_support hq]
  exact hp.2

theorem parentsInit_order {τ τ' : Type} {R : τ → τ' → Prop} {R' : τ → τ' → Prop} (h : Transformed g f f') {c : Choices K} {c' : Choices L}
    (hc : ChoosesAlike g c c') {mu lam : ℕ} {d : EaData K τ} {d' : EaData L τ'} (hd : EaDataSame R mu lam d d') {e : τ} {e' : τ'} (he : R' e e') :
    Paired (EaSame (Strong g mu) R' g lam) (parentsInit f c d e) (parentsInit f' c' d' e') := by
  unfold parentsInit
  refine (popRandom_order hd.parents).bind (fun p p' hp => ?_)
  refine (evaluate_order h hp).bind (fun p p' hp => ?_)
  refine (sort_strong hc hp).bind (fun p p' hp => ?_)
  refine Paired.bind (R := fun r r' => r' = Sol g r) ?_ (fun r r' hr => Paired.pure ⟨hr, hp, hd.offsprings, he⟩)
  unfold popSetSolution
  simp only [lift_then]
  rw [hp.1, bestBv_by]
  refine (Paired.refl _).bind (fun x x' hx => ?_)
  subst hx
  refine (bestValue_order p 0).bind (fun v w hv => ?_)
  subst hv
  rw [Dist.lift_ok, Dist.lift_ok]
  exact Paired.pure rfl

theorem muPlusIterate_order (h : Transformed g f f') {c : Choices K} {c' : Choices L} (hc : ChoosesAlike g c c') (d : Dist (List ℕ)) {mu lam : ℕ}
    {s : EaState K (Pop K)} {s' : EaState L (Pop L)} (hs : EaSame (Strong g mu) (Rough (mu + lam)) g lam s s') :
    Paired (EaSame (Strong g mu) (Rough (mu + lam)) g lam) (muPlusIterate f c d s) (muPlusIterate f' c' d s') := by
  unfold muPlusIterate
  refine (makeOffsprings_order d hs.parents.rough hs.offsprings).bind (fun o o' ho => ?_)
  refine (evaluate_order h ho).bind (fun o o' ho => ?_)
  refine (plus_order hc hs.parents ho hs.extra).bind (fun r r' hr => ?_)
  rw [hs.solution, hr.1.1]
  refine (popUpdate_order h _ _).bind (fun t t' ht => ?_)
  exact Paired.pure ⟨ht, ⟨rfl, hr.1.2⟩, hr.2.1.rough, hr.2.2.rough⟩

theorem muCommaIterate_order (h : Transformed g f f') {c : Choices K} {c' : Choices L} (hc : ChoosesAlike g c c') (d : Dist (List ℕ)) {mu lam : ℕ}
    {s : EaState K Unit} {s' : EaState L Unit} (hs : EaSame (Rough mu) Eq g lam s s') :
    Paired (EaSame (Rough mu) Eq g lam) (muCommaIterate f c d s) (muCommaIterate f' c' d s') := by
  unfold muCommaIterate
  refine (makeOffsprings_order d hs.parents hs.offsprings).bind (fun o o' ho => ?_)
  refine (evaluate_order h ho).bind (fun o o' ho => ?_)
  refine (comma_order hc hs.parents ho).bind (fun r r' hr => ?_)
  rw [hs.solution, hr.1.1]
  refine (popUpdate_order h _ _).bind (fun t t' ht => ?_)
  exact Paired.pure ⟨ht, Strong.rough ⟨rfl, hr.1.2⟩, hr.2.rough, rfl⟩

theorem gaOffspring_order {c : Choices K} {c' : Choices L} (hc : ChoosesAlike g c c') (q : GaLaw) (n : ℕ) (p : Pop K) (i : ℕ) {lam : ℕ}
    {s : Tournament × Pop K} {s' : Tournament × Pop L} (hs : s'.1 = s.1 ∧ Rough lam s.2 s'.2) :
    Paired (fun s s' => s'.1 = s.1 ∧ Rough lam s.2 s'.2) (gaOffspring c q n p i s) (gaOffspring c' q n (popBy g p) i s') := by
  unfold gaOffspring
  refine Paired.bind (R := fun x x' => x' = x) (by rw [hs.2.1.bvs]; exact Paired.refl _) (fun x x' hx => ?_)
  subst hx
  have he : gaReproduce c' q.crossover (popBy g p) s'.1 x' = gaReproduce c q.crossover p s.1 x' := by
    unfold gaReproduce
    simp only [hc.select, hs.1]
  rw [he]
  refine (Paired.refl _).bind (fun r r' hr => ?_)
  subst hr
  refine (Paired.refl _).bind (fun y y' hy => ?_)
  subst hy
  exact (rough_write hs.2 i y').bind (fun b b' hb => Paired.pure ⟨rfl, hb⟩)

theorem gaIterate_order (h : Transformed g f f') {c : Choices K} {c' : Choices L} (hc : ChoosesAlike g c c') (q : GaLaw) (n : ℕ) {mu lam : ℕ}
    {s : EaState K Tournament} {s' : EaState L Tournament} (hs : EaSame (Strong g mu) Eq g lam s s') :
    Paired (EaSame (Strong g mu) Eq g lam) (gaIterate f c q n s) (gaIterate f' c' q n s') := by
  unfold gaIterate
  rw [hs.offsprings.size.1, hs.offsprings.size.2, hs.parents.1]
  refine Paired.bind (Paired.forRange (fun _ (r : Tournament × Pop K) (r' : Tournament × Pop L) => r'.1 = r.1 ∧ Rough lam r.2 r'.2)
    ⟨hs.extra.symm, hs.offsprings⟩ (fun j r r' _ hr => gaOffspring_order hc q n s.parents j hr)) (fun o o' ho => ?_)
  refine (evaluate_order h ho.2).bind (fun p p' hp => ?_)
  refine (comma_order hc (Strong.rough (g := g) ⟨rfl, hs.parents.2⟩) hp).bind (fun r r' hr => ?_)
  rw [hs.solution, hr.1.1]
  refine (popUpdate_order h _ _).bind (fun t t' ht => ?_)
  exact Paired.pure ⟨ht, ⟨rfl, hr.1.2⟩, hr.2.rough, ho.1.symm⟩

end Hnco.Prob
