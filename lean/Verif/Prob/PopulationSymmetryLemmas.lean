import Verif.Prob.BlindSpec
import Verif.Prob.VectorSymmetryProps
import Verif.Prob.EvolutionProps

/-!
# Populations and the symmetries of the hypercube
-/

namespace Hnco.Prob

open Outcome
open scoped ENNReal

variable {K : Type} [LinearOrder K] {n size : ℕ} {σ : Symmetry n} {f g : Fn K} {val val' : BV → K}

/-- Populations whose vectors correspond to each other. -/
structure PopR (n : ℕ) (σ : Symmetry n) (size : ℕ) (p p' : Pop K) : Prop where
  valid : p.Valid size n
  bvs : p'.bvs = p.bvs.map σ.act
  values : p'.values = p.values
  perm : p'.perm = p.perm

/-- Populations whose first `j` vectors correspond to each other. -/
structure RoughR (n : ℕ) (σ : Symmetry n) (size : ℕ) (j : ℕ) (p p' : Pop K) : Prop where
  valid : p.Valid size n
  valid' : p'.Valid size n
  bvs : ∀ i < j, p'.bvs[i]? = p.bvs[i]?.map σ.act
  values : p'.values = p.values
  perm : p'.perm = p.perm

theorem PopR.valid' {p p' : Pop K} (h : PopR n σ size p p') : p'.Valid size n :=
  ⟨by rw [h.bvs, List.length_map, h.valid.bvs], by rw [h.values, h.valid.values], by rw [h.perm]; exact h.valid.perm, by
    intro x hx
    rw [h.bvs, List.mem_map] at hx
    obtain ⟨y, _, rfl⟩ := hx
    exact σ.act_length y⟩

theorem PopR.rough {p p' : Pop K} (h : PopR n σ size p p') : RoughR n σ size 0 p p' :=
  ⟨h.valid, h.valid', fun i hi => absurd hi (Nat.not_lt_zero i), h.values, h.perm⟩

theorem RoughR.done {p p' : Pop K} (h : RoughR n σ size size p p') : PopR n σ size p p' := by
  refine ⟨h.valid, ?_, h.values, h.perm⟩
  apply List.ext_getElem?
  intro i
  rw [List.getElem?_map]
  by_cases hi : i < size
  · exact h.bvs i hi
  · rw [List.getElem?_eq_none (by rw [h.valid'.bvs]; omega), List.getElem?_eq_none (by rw [h.valid.bvs]; omega)]
    rfl

theorem RoughR.step {p p' : Pop K} {j : ℕ} (h : RoughR n σ size j p p') (hj : j < size) {y : BV} (hy : y.length = n) :
    RoughR n σ size (j + 1) { p with bvs := p.bvs.set j y } { p' with bvs := p'.bvs.set j (σ.act y) } := by
  refine ⟨h.valid.setBv j hy, h.valid'.setBv j (σ.act_length y), fun i hi => ?_, h.values, h.perm⟩
  dsimp only
  by_cases hij : i = j
  · subst hij
    rw [List.getElem?_set_self (by rw [h.valid'.bvs]; exact hj), List.getElem?_set_self (by rw [h.valid.bvs]; exact hj)]
    rfl
  · rw [List.getElem?_set_ne (Ne.symm hij), List.getElem?_set_ne (Ne.symm hij)]
    exact h.bvs i (by omega)

/-! ## Sampling, evaluation -/

theorem popSample_paired {sampler sampler' : BV → Dist BV}
    (hs : ∀ x x' : BV, x.length = n → x'.length = n → Paired (fun a b => a.length = n ∧ b = σ.act a) (sampler x) (sampler' x')) {p p' : Pop K}
    (hp : RoughR n σ size 0 p p') : Paired (PopR n σ size) (popSample sampler p) (popSample sampler' p') := by
  unfold popSample
  rw [show p.size = size from hp.valid.bvs, show p'.size = size from hp.valid'.bvs]
  refine (Paired.forRange (fun j p p' => RoughR n σ size j p p') hp (fun j p p' hj h => ?_)).mono (fun p p' h => h.done)
  have h1 : j < p.bvs.length := by rw [h.valid.bvs]; exact hj
  have h2 : j < p'.bvs.length := by rw [h.valid'.bvs]; exact hj
  rw [vget_eq h1, vget_eq h2, Dist.lift_ok, Dist.lift_ok, Dist.pure_bind', Dist.pure_bind']
  refine (hs _ _ (h.valid.bits _ (List.getElem_mem h1)) (h.valid'.bits _ (List.getElem_mem h2))).bind (fun y y' hy => ?_)
  obtain ⟨hy, rfl⟩ := hy
  rw [vset_eq h1, vset_eq h2, Dist.lift_ok, Dist.lift_ok, Dist.pure_bind', Dist.pure_bind']
  exact Paired.pure (h.step hj hy)

theorem popEvaluate_eq {f : Fn K} {val : BV → K} (hf : Evaluates f n val) {p : Pop K} (hp : p.Valid size n) :
    popEvaluate f p = ok { p with values := p.bvs.map val } := by
  unfold popEvaluate
  rw [assert_pos (by rw [hp.bvs, hp.values]; exact beq_self_eq_true _), ok_bind]
  obtain ⟨q, h1, h2, h3, h4, h5⟩ := forRange_returns (fun j (q : Pop K) => q.bvs = p.bvs ∧ q.perm = p.perm ∧ q.values.length = size ∧
      ∀ i < j, q.values[i]? = p.bvs[i]?.map val) (Nat.zero_le p.bvs.length) (body := fun i (p : Pop K) => (do
      let x ← vget p.bvs i
      let v ← f.eval x
      let values ← vset p.values i v
      ok { p with values := values })) (s := p) ⟨rfl, rfl, hp.values, fun i hi => absurd hi (Nat.not_lt_zero i)⟩ (by
    intro j q _ hj ⟨e1, e2, e3, e4⟩
    have hjq : j < q.bvs.length := by rw [e1]; exact hj
    have hx : (q.bvs[j]).length = n := hp.bits _ (by rw [← e1]; exact List.getElem_mem hjq)
    rw [vget_eq hjq, ok_bind, hf.eval _ hx, ok_bind, vset_eq (by rw [e3, ← hp.bvs]; exact hj), ok_bind]
    refine returns_ok.mpr ⟨e1, e2, by simpa using e3, fun i hi => ?_⟩
    dsimp only
    by_cases hij : i = j
    · subst hij
      rw [List.getElem?_set_self (by rw [e3, ← hp.bvs]; exact hj), ← e1, List.getElem?_eq_getElem hjq]
      rfl
    · rw [List.getElem?_set_ne (Ne.symm hij)]
      exact e4 i (by omega))
  rw [h1]
  congr 1
  have hv : q.values = p.bvs.map val := by
    apply List.ext_getElem?
    intro i
    rw [List.getElem?_map]
    by_cases hi : i < p.bvs.length
    · exact h5 i hi
    · rw [List.getElem?_eq_none (by rw [h4, ← hp.bvs]; omega), List.getElem?_eq_none (by omega)]
      rfl
  cases q
  simp_all

theorem popEvaluate_related (h : Relabeled σ f g val val') {p p' : Pop K} (hp : PopR n σ size p p') :
    ∃ q q', popEvaluate f p = ok q ∧ popEvaluate g p' = ok q' ∧ PopR n σ size q q' := by
  refine ⟨_, _, popEvaluate_eq h.left hp.valid, popEvaluate_eq h.right hp.valid', ⟨hp.valid.bvs, by simp [hp.valid.bvs], hp.valid.perm, hp.valid.bits⟩,
    hp.bvs, ?_, hp.perm⟩
  rw [hp.bvs, List.map_map]
  exact List.map_congr_left (fun x hx => h.same x (hp.valid.bits x hx))

/-! ## Reading -/

theorem PopR.ranked {p p' : Pop K} (h : PopR n σ size p p') : p'.ranked = p.ranked.map (fun r => (σ.act r.1, r.2)) := by
  have hi : p'.individuals = p.individuals.map (fun r => (σ.act r.1, r.2)) := by
    unfold Pop.individuals
    rw [h.bvs, h.values, List.zip_map_left]
    rfl
  unfold Pop.ranked
  rw [hi, h.perm, List.map_filterMap]
  congr 1
  funext k
  rw [List.getElem?_map]

theorem PopR.read {p p' : Pop K} (h : PopR n σ size p p') {i : ℕ} (hi : i < size) :
    ∃ x v, x.length = n ∧ p.bestBv i = ok x ∧ p.bestValue i = ok v ∧ p'.bestBv i = ok (σ.act x) ∧ p'.bestValue i = ok v := by
  obtain ⟨_, x, v, _, _, h1, _, h2, h3, h4⟩ := h.valid.ranked_read hi
  obtain ⟨_, x', v', _, _, _, _, h2', h3', h4'⟩ := h.valid'.ranked_read hi
  rw [h.ranked, List.getElem?_map, h2] at h2'
  simp only [Option.map_some, Option.some.injEq, Prod.mk.injEq] at h2'
  obtain ⟨rfl, rfl⟩ := h2'
  exact ⟨x, v, h.valid.bits x (List.mem_of_getElem? h1), h3, h4, h3', h4'⟩

theorem popUpdateSolution_related {p p' : Pop K} (h : PopR n σ size p p') (h0 : 0 < size) {s s' : BV × K} (hs : SolR n σ s s') :
    ∃ t t', popUpdateSolution s p = ok t ∧ popUpdateSolution s' p' = ok t' ∧ SolR n σ t t' := by
  obtain ⟨x, v, hx, h1, h2, h3, h4⟩ := h.read h0
  refine ⟨updateSolution s x v, updateSolution s' (σ.act x) v, ?_, ?_, updateSolution_related hs hx v⟩
  · simp only [popUpdateSolution, h1, h2, ok_bind]
  · simp only [popUpdateSolution, h3, h4, ok_bind]

theorem popSetSolution_related {p p' : Pop K} (h : PopR n σ size p p') (h0 : 0 < size) :
    ∃ t t', popSetSolution p = ok t ∧ popSetSolution p' = ok t' ∧ SolR n σ t t' := by
  obtain ⟨x, v, hx, h1, h2, h3, h4⟩ := h.read h0
  refine ⟨(x, v), (σ.act x, v), ?_, ?_, hx, rfl⟩
  · simp only [popSetSolution, h1, h2, ok_bind]
  · simp only [popSetSolution, h3, h4, ok_bind]

/-! ## Sorting and selection -/

theorem PopR.permute {p p' : Pop K} (h : PopR n σ size p p') {perm : List ℕ} (hp : perm.Perm p.perm) :
    PopR n σ size { p with perm := perm } { p' with perm := perm } :=
  ⟨⟨h.valid.bvs, h.valid.values, hp.trans h.valid.perm, h.valid.bits⟩, h.bvs, h.values, rfl⟩

theorem sort_paired {c : Choices K} (hc : Blind c) {p p' : Pop K} (h : PopR n σ size p p') : Paired (PopR n σ size) (c.sort p) (c.sort p') := by
  obtain ⟨law, h1, h2⟩ := hc.sort
  rw [h2, h2, h.values, h.perm]
  refine (Paired.same (R := fun a b => a = b ∧ a.Perm p.perm) (fun a ha => ⟨rfl, h1 _ _ _ ha⟩)).bind (fun a b hab => ?_)
  obtain ⟨rfl, hab⟩ := hab
  have hq := h.permute hab
  rw [h.values] at hq
  exact Paired.pure hq

omit [LinearOrder K] in
theorem takeBest_keeps {i : ℕ} {s t : Pop K × Pop K} (h : takeBest i s = ok t) : t.2.perm = s.2.perm ∧ t.2.values = s.2.values := by
  unfold takeBest at h
  obtain ⟨v, _, h⟩ := bind_eq_ok.mp h
  obtain ⟨values, _, h⟩ := bind_eq_ok.mp h
  obtain ⟨x, _, h⟩ := bind_eq_ok.mp h
  obtain ⟨y, _, h⟩ := bind_eq_ok.mp h
  obtain ⟨bvs, _, h⟩ := bind_eq_ok.mp h
  obtain ⟨pool, h1, h⟩ := bind_eq_ok.mp h
  injection h with h
  subst h
  unfold Pop.setBestBv at h1
  obtain ⟨_, _, h1⟩ := bind_eq_ok.mp h1
  obtain ⟨_, _, h1⟩ := bind_eq_ok.mp h1
  obtain ⟨_, _, h1⟩ := bind_eq_ok.mp h1
  injection h1 with h1
  subst h1
  exact ⟨rfl, rfl⟩

omit [LinearOrder K] in
theorem takeBest_loop_keeps : ∀ (m i : ℕ) {s t : Pop K × Pop K}, forLoop m i takeBest s = ok t → t.2.perm = s.2.perm ∧ t.2.values = s.2.values
  | 0, _, _, _, h => by injection h with h; subst h; exact ⟨rfl, rfl⟩
  | m + 1, i, s, t, h => by
    obtain ⟨u, h1, h2⟩ := bind_eq_ok.mp h
    obtain ⟨a1, a2⟩ := takeBest_keeps h1
    obtain ⟨b1, b2⟩ := takeBest_loop_keeps m (i + 1) h2
    exact ⟨b1.trans a1, b2.trans a2⟩

/-- Taking the best individuals: what the parents contained does not matter. -/
theorem takeBest_related {mu : ℕ} {a a' p p' : Pop K} (ha : RoughR n σ mu 0 a a') (hp : PopR n σ size p p') (hmu : mu ≤ size) :
    ∃ r r', forRange 0 mu takeBest (a, p) = ok r ∧ forRange 0 mu takeBest (a', p') = ok r' ∧
      PopR n σ mu { r.1 with perm := permIdentity r.1.perm.length } { r'.1 with perm := permIdentity r'.1.perm.length } ∧
      RoughR n σ size 0 r.2 r'.2 := by
  obtain ⟨r, e, h1, h2, h3, h4, h5, h6⟩ := takeBest_loop hp.valid hmu ha.valid.bvs ha.valid.values ha.valid.bits
  obtain ⟨r', e', h1', h2', h3', h4', h5', h6'⟩ := takeBest_loop hp.valid' hmu ha.valid'.bvs ha.valid'.values ha.valid'.bits
  have hl : r.1.perm.length = mu := by rw [h4, ha.valid.perm_length]
  have hl' : r'.1.perm.length = mu := by rw [h4', ha.valid'.perm_length]
  have hi : r'.1.individuals = r.1.individuals.map (fun r => (σ.act r.1, r.2)) := by
    rw [h1', h1, hp.ranked, List.map_take]
  have hb : r'.1.bvs = r.1.bvs.map σ.act := by
    have e1 : r.1.individuals.map Prod.fst = r.1.bvs := List.map_fst_zip (by omega)
    have e2 : r'.1.individuals.map Prod.fst = r'.1.bvs := List.map_fst_zip (by omega)
    rw [← e2, hi, ← e1, List.map_map, List.map_map]
    rfl
  have hv : r'.1.values = r.1.values := by
    have e1 : r.1.individuals.map Prod.snd = r.1.values := List.map_snd_zip (by omega)
    have e2 : r'.1.individuals.map Prod.snd = r'.1.values := List.map_snd_zip (by omega)
    rw [← e2, hi, ← e1, List.map_map]
    rfl
  obtain ⟨k1, k2⟩ := takeBest_loop_keeps _ _ e
  obtain ⟨k1', k2'⟩ := takeBest_loop_keeps _ _ e'
  refine ⟨r, r', e, e', ⟨⟨h2, h3, ?_, h5⟩, hb, hv, ?_⟩, ⟨h6, h6', fun i hi => absurd hi (Nat.not_lt_zero i), ?_, ?_⟩⟩
  · dsimp only
    rw [hl]
    exact List.Perm.refl _
  · dsimp only
    rw [hl, hl']
  · rw [k2, k2']
    exact hp.values
  · rw [k1, k1']
    exact hp.perm

theorem comma_paired {mu lam : ℕ} {c : Choices K} (hc : Blind c) (hle : mu ≤ lam) {a a' p p' : Pop K} (ha : RoughR n σ mu 0 a a')
    (hp : PopR n σ lam p p') :
    Paired (fun r r' : Pop K × Pop K => PopR n σ mu r.1 r'.1 ∧ RoughR n σ lam 0 r.2 r'.2) (c.comma a p) (c.comma a' p') := by
  obtain ⟨law, h1, h2⟩ := hc.comma
  rw [h2, h2, show a.size = mu from ha.valid.bvs, show a'.size = mu from ha.valid'.bvs, hp.values, hp.perm]
  refine (Paired.same (R := fun a b => a = b ∧ a.Perm p.perm) (fun a ha => ⟨rfl, h1 _ _ _ _ ha⟩)).bind (fun q q' hq => ?_)
  obtain ⟨rfl, hq⟩ := hq
  obtain ⟨r, r', e, e', h3, h4⟩ := takeBest_related ha (hp.permute hq) hle
  rw [hp.values] at e'
  rw [e, e', Dist.lift_ok, Dist.lift_ok, Dist.pure_bind', Dist.pure_bind']
  exact Paired.pure ⟨h3, h4⟩

theorem plus_paired {mu lam : ℕ} {c : Choices K} (hc : Blind c) {a a' p p' e e' : Pop K} (ha : PopR n σ mu a a')
    (hp : PopR n σ lam p p') (he : RoughR n σ (mu + lam) 0 e e') :
    Paired (fun r r' : Pop K × Pop K × Pop K => PopR n σ mu r.1 r'.1 ∧ RoughR n σ lam 0 r.2.1 r'.2.1 ∧ RoughR n σ (mu + lam) 0 r.2.2 r'.2.2)
      (c.plus a p e) (c.plus a' p' e') := by
  obtain ⟨law, h1, h2⟩ := hc.plus
  rw [h2, h2, show a.size = mu from ha.valid.bvs, show a'.size = mu from ha.valid'.bvs, show p.size = lam from hp.valid.bvs,
    show p'.size = lam from hp.valid'.bvs]
  obtain ⟨⟨P, Q⟩, x0, a1, a2, a3, a4, a5, a6, a7, a8, a9, a10⟩ := fillPool_loop (offset := 0) ha.valid.bvs ha.valid.values ha.valid.bits
    (by rw [he.valid.bvs]; omega) (by rw [he.valid.bvs, he.valid.values]) he.valid.bits
  obtain ⟨⟨P', Q'⟩, x0', a1', a2', a3', a4', a5', a6', a7', a8', a9', a10'⟩ := fillPool_loop (offset := 0) ha.valid'.bvs ha.valid'.values ha.valid'.bits
    (by rw [he.valid'.bvs]; omega) (by rw [he.valid'.bvs, he.valid'.values]) he.valid'.bits
  dsimp only at a1 a2 a3 a4 a5 a6 a7 a8 a9 a10 a1' a2' a3' a4' a5' a6' a7' a8' a9' a10'
  have hPs : P.size = mu := a1
  have hPs' : P'.size = mu := a1'
  rw [x0, x0', Dist.lift_ok, Dist.lift_ok, Dist.pure_bind', Dist.pure_bind']
  simp only [hPs, hPs']
  obtain ⟨⟨T, U⟩, y0, b1, b2, b3, b4, b5, b6, b7, b8, b9, b10⟩ := fillPool_loop (offset := mu) (pool := Q) hp.valid.bvs hp.valid.values hp.valid.bits
    (by rw [a5, he.valid.bvs]) (by rw [a6, a5, he.valid.bvs, he.valid.values]) a8
  obtain ⟨⟨T', U'⟩, y0', b1', b2', b3', b4', b5', b6', b7', b8', b9', b10'⟩ := fillPool_loop (offset := mu) (pool := Q') hp.valid'.bvs hp.valid'.values
    hp.valid'.bits (by rw [a5', he.valid'.bvs]) (by rw [a6', a5', he.valid'.bvs, he.valid'.values]) a8'
  dsimp only at b1 b2 b3 b4 b5 b6 b7 b8 b9 b10 b1' b2' b3' b4' b5' b6' b7' b8' b9' b10'
  rw [y0, y0', Dist.lift_ok, Dist.lift_ok, Dist.pure_bind', Dist.pure_bind']
  have hU : U.Valid (mu + lam) n := ⟨by rw [b5, a5, he.valid.bvs], by rw [b6, a6, he.valid.values], by rw [b7, a7]; exact he.valid.perm, b8⟩
  have hU' : U'.Valid (mu + lam) n :=
    ⟨by rw [b5', a5', he.valid'.bvs], by rw [b6', a6', he.valid'.values], by rw [b7', a7']; exact he.valid'.perm, b8'⟩
  have hpool : PopR n σ (mu + lam) U U' := by
    refine RoughR.done ⟨hU, hU', fun i hi => ?_, ?_, by rw [b7, b7', a7, a7', he.perm]⟩
    · rw [b9, b9', a9, a9']
      by_cases hc : mu ≤ i ∧ i < mu + lam
      · rw [if_pos hc, if_pos hc, hp.bvs, List.getElem?_map]
      · rw [if_neg hc, if_neg hc, if_pos (by omega), if_pos (by omega), ha.bvs, List.getElem?_map]
    · apply List.ext_getElem?
      intro i
      rw [b10, b10', a10, a10', hp.values, ha.values, he.values]
  have hrest : RoughR n σ mu 0 P P' :=
    ⟨⟨a1, by rw [a2, ha.valid.values], by rw [a3]; exact ha.valid.perm, a4⟩, ⟨a1', by rw [a2', ha.valid'.values], by rw [a3']; exact ha.valid'.perm, a4'⟩,
      fun i hi => absurd hi (Nat.not_lt_zero i), by rw [a2, a2', ha.values], by rw [a3, a3', ha.perm]⟩
  have hT : RoughR n σ lam 0 T T' :=
    ⟨⟨b1, by rw [b2, hp.valid.values], by rw [b3]; exact hp.valid.perm, b4⟩, ⟨b1', by rw [b2', hp.valid'.values], by rw [b3']; exact hp.valid'.perm, b4'⟩,
      fun i hi => absurd hi (Nat.not_lt_zero i), by rw [b2, b2', hp.values], by rw [b3, b3', hp.perm]⟩
  rw [hpool.values, hpool.perm]
  refine (Paired.same (R := fun a b => a = b ∧ a.Perm U.perm) (fun a ha => ⟨rfl, h1 _ _ _ _ ha⟩)).bind (fun q q' hq => ?_)
  obtain ⟨rfl, hq⟩ := hq
  obtain ⟨r, r', e, e', h3, h4⟩ := takeBest_related hrest (hpool.permute hq) (by omega)
  rw [hpool.values] at e'
  dsimp only
  rw [e, e', Dist.lift_ok, Dist.lift_ok, Dist.pure_bind', Dist.pure_bind']
  exact Paired.pure ⟨h3, hT, h4⟩

theorem select_paired {mu : ℕ} {c : Choices K} (hc : Blind c) {p p' : Pop K} (hp : PopR n σ mu p p') (t : Tournament) :
    Paired (fun r r' : ℕ × BV × Tournament => r.2.1.length = n ∧ r'.2.1 = σ.act r.2.1 ∧ r'.2.2 = r.2.2) (c.select p t) (c.select p' t) := by
  obtain ⟨law, h1⟩ := hc.select
  rw [h1 p t (by rw [hp.valid.values, hp.valid.bvs]), h1 p' t (by rw [hp.valid'.values, hp.valid'.bvs]), hp.values]
  refine (Paired.same (R := fun a b => a = b) (fun a _ => rfl)).bind (fun r r' hr => ?_)
  subst hr
  by_cases hr : r.1 < p.bvs.length
  · have hr' : r.1 < p'.bvs.length := by rw [hp.bvs, List.length_map]; exact hr
    rw [vget_eq hr, vget_eq hr', Dist.lift_ok, Dist.lift_ok, Dist.pure_bind', Dist.pure_bind']
    refine Paired.pure ⟨hp.valid.bits _ (List.getElem_mem hr), ?_, rfl⟩
    simp [hp.bvs]
  · have e1 : vget p.bvs r.1 = ub := by
      unfold vget
      rw [List.getElem?_eq_none (by omega)]
    have e2 : vget p'.bvs r.1 = ub := by
      unfold vget
      rw [List.getElem?_eq_none (by rw [hp.bvs, List.length_map]; omega)]
    rw [e1, e2]
    change Paired _ ((Dist.never : Dist BV) >>= fun x => pure (r.1, x, r.2)) ((Dist.never : Dist BV) >>= fun x => pure (r.1, x, r.2))
    rw [never_bind]
    exact Paired.never

/-! ## Mutation and crossover -/

theorem mutate_paired {d : Dist (List ℕ)} (hd : Fair d n) {x : BV} (hx : x.length = n) :
    Paired (fun a b => a.length = n ∧ b = σ.act a) (mutate d x) (mutate d (σ.act x)) := by
  refine (hd.paired (σ := σ)).bind (fun l l' hl => ?_)
  obtain ⟨hl, rfl⟩ := hl
  obtain ⟨y, hy⟩ := flip_ok hx hl
  obtain ⟨h1, h2⟩ := σ.flip hx hl hy
  exact Paired.lift ⟨y, σ.act y, hy, h2, h1, rfl⟩

/-- Independent bits whose laws correspond to each other. -/
theorem bits_paired {c c' : ℕ → Dist Bool} (h : ∀ i < n, ∀ b, (c' i).mass (xor b (σ.exchange i)) = (c (σ.source i)).mass b) :
    Paired (fun a b => a.length = n ∧ b = σ.act a) (bitsLaw ((List.range n).map c)) (bitsLaw ((List.range n).map c')) := by
  have hp : ∀ (c : ℕ → Dist Bool) (y : BV), bitsLaw ((List.range n).map c) y =
      if y.length = n then ∏ i ∈ Finset.range n, (c i).mass (y.getD i false) else 0 := by
    intro c y
    rw [bitsLaw_apply, List.length_map, List.length_range]
    refine ite_congr rfl (fun hy => ?_) (fun _ => rfl)
    have : List.zipWith (fun (c : Dist Bool) b => c.mass b) ((List.range n).map c) y = (List.range n).map (fun i => (c i).mass (y.getD i false)) := by
      apply List.ext_getElem
      · simp [hy]
      · intro i h1 h2
        have hi : i < y.length := by simp at h2; omega
        rw [List.getElem_zipWith, List.getElem_map, List.getElem_map, List.getElem_range, List.getD_eq_getElem _ _ hi]
    rw [this]
    rfl
  have hl : ∀ (c : ℕ → Dist Bool) {y : BV}, bitsLaw ((List.range n).map c) y ≠ 0 → y.length = n := by
    intro c y hy
    rw [hp] at hy
    by_contra h'
    exact hy (if_neg h')
  have he : ∀ {y : BV}, y.length = n → bitsLaw ((List.range n).map c') (σ.act y) = bitsLaw ((List.range n).map c) y := by
    intro y hy
    rw [hp, hp, if_pos (σ.act_length y), if_pos hy]
    refine Finset.prod_nbij' σ.source σ.dest ?_ ?_ ?_ ?_ ?_
    · exact fun i hi => Finset.mem_range.mpr (σ.source_lt i (Finset.mem_range.mp hi))
    · exact fun i hi => Finset.mem_range.mpr (σ.dest_lt i (Finset.mem_range.mp hi))
    · exact fun i hi => σ.dest_source i (Finset.mem_range.mp hi)
    · exact fun i hi => σ.source_dest i (Finset.mem_range.mp hi)
    · intro i hi
      rw [σ.act_get _ (Finset.mem_range.mp hi), h i (Finset.mem_range.mp hi)]
  refine Paired.of_bijection (φ := σ.act) (ψ := σ.unact) (fun a ha => ⟨he (hl c ha), σ.unact_act (hl c ha)⟩)
    (fun b hb => ⟨?_, σ.act_unact (hl c' hb)⟩) (fun a ha => ⟨hl c ha, rfl⟩)
  rw [← he (σ.unact_length b), σ.act_unact (hl c' hb)]
  exact hb

/-- Crossover takes each bit from one of the parents. -/
theorem uniformCrossover_eq {x y z : BV} (hx : x.length = n) (hy : y.length = n) (hz : z.length = n) :
    uniformCrossover x y z = bitsLaw ((List.range n).map (fun i => (Dist.bernoulli >>= fun b => pure (if b then x.getD i false else y.getD i false)))) := by
  subst hz
  unfold uniformCrossover
  rw [Dist.assert_bind (by simp [hx]), Dist.assert_bind (by simp [hy])]
  refine bits_range _ (fun j w hj hw => ?_)
  rw [Dist.bind_assoc']
  congr 1
  funext b
  rw [Dist.pure_bind']
  cases b
  · simp only [Bool.false_eq_true, if_false]
    rw [vget_eq (by omega), Dist.lift_ok, Dist.pure_bind', vset_eq (by omega), Dist.lift_ok, List.getD_eq_getElem _ _ (by omega)]
  · simp only [if_true]
    rw [vget_eq (by omega), Dist.lift_ok, Dist.pure_bind', vset_eq (by omega), Dist.lift_ok, List.getD_eq_getElem _ _ (by omega)]

theorem uniformCrossover_paired {x y z z' : BV} (hx : x.length = n) (hy : y.length = n) (hz : z.length = n) (hz' : z'.length = n) :
    Paired (fun a b => a.length = n ∧ b = σ.act a) (uniformCrossover x y z) (uniformCrossover (σ.act x) (σ.act y) z') := by
  rw [uniformCrossover_eq hx hy hz, uniformCrossover_eq (σ.act_length x) (σ.act_length y) hz']
  refine bits_paired (fun i hi b => ?_)
  change (Dist.bernoulli >>= fun b => pure (if b then (σ.act x).getD i false else (σ.act y).getD i false) : Dist Bool) (xor b (σ.exchange i)) =
    (Dist.bernoulli >>= fun b => pure (if b then x.getD (σ.source i) false else y.getD (σ.source i) false) : Dist Bool) b
  unfold Dist.bernoulli
  rw [Dist.coin_bind, Dist.coin_bind]
  simp only [if_true, Bool.false_eq_true, if_false, σ.act_get _ hi, Dist.pure_apply]
  have : ∀ u v w : Bool, (xor u w = xor v w) ↔ (u = v) := by decide
  simp only [this]
  congr!

end Hnco.Prob
