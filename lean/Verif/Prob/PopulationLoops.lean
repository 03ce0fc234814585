import Verif.Prob.PopulationLemmas

/-!
# Lemmas about the generations of algorithms with populations, with probabilities
-/

namespace Hnco.Prob

open Outcome
open scoped ENNReal
open Classical

variable {K σ : Type}

/-! ## Loops which make vectors -/

section
variable {get : σ → List BV} {I : σ → Prop} {found : BV → Prop} {body : ℕ → σ → Dist σ} {m : ℕ}

/-- One of the first `j` vectors has been found. -/
def FoundBefore (get : σ → List BV) (found : BV → Prop) (j : ℕ) (s : σ) : Prop := ∃ i < j, ∃ y, (get s)[i]? = some y ∧ found y

theorem breed_step {j : ℕ} {s : σ} (h : Sure (body j s) (fun s' => I s' ∧ ∀ i < j, (get s')[i]? = (get s)[i]?)) :
    (body j s).expect (missing (FoundBefore get found (j + 1)))
      = (body j s).expect (missing (fun s' => ∃ y, (get s')[j]? = some y ∧ found y)) * missing (FoundBefore get found j) s := by
  rw [mul_comm, ← Dist.expect_mul_left]
  refine Dist.expect_congr (fun s' hs' => ?_)
  obtain ⟨-, h2⟩ := h.holds s' hs'
  have hold : FoundBefore get found j s' ↔ FoundBefore get found j s := by
    constructor
    · rintro ⟨i, hi, y, hy, hf⟩
      exact ⟨i, hi, y, (h2 i hi) ▸ hy, hf⟩
    · rintro ⟨i, hi, y, hy, hf⟩
      exact ⟨i, hi, y, (h2 i hi).trans hy, hf⟩
  have hsucc : FoundBefore get found (j + 1) s' ↔ FoundBefore get found j s' ∨ ∃ y, (get s')[j]? = some y ∧ found y := by
    constructor
    · rintro ⟨i, hi, y, hy, hf⟩
      rcases Nat.lt_succ_iff_lt_or_eq.mp hi with h | rfl
      · exact .inl ⟨i, h, y, hy, hf⟩
      · exact .inr ⟨y, hy, hf⟩
    · rintro (⟨i, hi, y, hy, hf⟩ | ⟨y, hy, hf⟩)
      · exact ⟨i, by omega, y, hy, hf⟩
      · exact ⟨j, by omega, y, hy, hf⟩
  unfold missing
  by_cases h1 : FoundBefore get found j s
  · rw [if_pos (hsucc.mpr (.inl (hold.mpr h1))), if_pos h1, zero_mul]
  · rw [if_neg h1, one_mul]
    refine if_congr ?_ rfl rfl
    rw [hsucc, or_iff_right (fun h => h1 (hold.mp h))]

theorem foundBefore_all {s : σ} (h : (get s).length = m) : FoundBefore get found m s ↔ ∃ y ∈ get s, found y := by
  constructor
  · rintro ⟨i, _, y, hy, hf⟩
    exact ⟨y, List.mem_of_getElem? hy, hf⟩
  · rintro ⟨y, hy, hf⟩
    obtain ⟨i, hi, rfl⟩ := List.mem_iff_getElem.mp hy
    exact ⟨i, by omega, _, List.getElem?_eq_getElem hi, hf⟩

theorem missing_foundBefore_zero (s : σ) : missing (FoundBefore get found 0) s = 1 := by
  unfold missing
  rw [if_neg]
  rintro ⟨i, hi, _⟩
  omega

theorem breed_sure {s : σ} (hs : I s)
    (hb : ∀ j s, j < m → I s → Sure (body j s) (fun s' => I s' ∧ ∀ i < j, (get s')[i]? = (get s)[i]?)) :
    Sure (Dist.forRange 0 m body s) I :=
  Sure.forRange (fun _ => I) hs (fun j s hj h => (hb j s hj h).mono (fun _ h => h.1))

theorem breed_le {r : ℝ≥0∞} {s : σ} (hs : I s) (hlen : ∀ s, I s → (get s).length = m)
    (hb : ∀ j s, j < m → I s → Sure (body j s) (fun s' => I s' ∧ ∀ i < j, (get s')[i]? = (get s)[i]?))
    (hr : ∀ j s, j < m → I s → (body j s).expect (missing (fun s' => ∃ y, (get s')[j]? = some y ∧ found y)) ≤ r) :
    (Dist.forRange 0 m body s).expect (missing (fun s' => ∃ y ∈ get s', found y)) ≤ r ^ m := by
  have h := forRange_le (body := body) I (fun j => missing (FoundBefore get found j)) (r := r) (m := m) hs (fun j s hj h =>
    ⟨(hb j s hj h).mono (fun _ h => h.1), by rw [breed_step (hb j s hj h)]; exact mul_le_mul_left (hr j s hj h) _⟩)
  rw [missing_foundBefore_zero, mul_one] at h
  refine le_trans (le_of_eq (Dist.expect_congr (fun s' hs' => ?_))) h
  unfold missing
  exact if_congr (foundBefore_all (hlen s' ((breed_sure hs hb).holds s' hs'))).symm rfl rfl

theorem breed_eq {r : ℝ≥0∞} {s : σ} (hs : I s) (hlen : ∀ s, I s → (get s).length = m)
    (hb : ∀ j s, j < m → I s → Sure (body j s) (fun s' => I s' ∧ ∀ i < j, (get s')[i]? = (get s)[i]?))
    (hr : ∀ j s, j < m → I s → (body j s).expect (missing (fun s' => ∃ y, (get s')[j]? = some y ∧ found y)) = r) :
    (Dist.forRange 0 m body s).expect (missing (fun s' => ∃ y ∈ get s', found y)) = r ^ m := by
  have h := forRange_eq (body := body) I (fun j => missing (FoundBefore get found j)) (r := r) (m := m) hs (fun j s hj h =>
    ⟨(hb j s hj h).mono (fun _ h => h.1), by rw [breed_step (hb j s hj h), hr j s hj h]⟩)
  rw [missing_foundBefore_zero, mul_one] at h
  refine Eq.trans (Dist.expect_congr (fun s' hs' => ?_)) h
  unfold missing
  exact if_congr (foundBefore_all (hlen s' ((breed_sure hs hb).holds s' hs'))).symm rfl rfl

end

/-! ## Sampling of a population -/

section
variable {size n : ℕ} {p : Pop K} {sampler : BV → Dist BV} {found : BV → Prop}

/-- Body of the loop which samples a population. -/
noncomputable def sampleBody (sampler : BV → Dist BV) (i : ℕ) (p : Pop K) : Dist (Pop K) := do
  let x ← Dist.lift (vget p.bvs i)
  let y ← sampler x
  let bvs ← Dist.lift (vset p.bvs i y)
  pure { p with bvs := bvs }

theorem sampleBody_eq {i : ℕ} (hi : i < p.bvs.length) :
    sampleBody sampler i p = (sampler p.bvs[i] >>= fun y => pure { p with bvs := p.bvs.set i y }) := by
  unfold sampleBody
  rw [vget_eq hi, Dist.lift_ok, Dist.pure_bind']
  congr 1
  funext y
  rw [vset_eq hi, Dist.lift_ok, Dist.pure_bind']

theorem sampleBody_sure (hp : p.Valid size n) (hsam : ∀ x : BV, x.length = n → Sure (sampler x) (fun y => y.length = n)) {i : ℕ}
    (hi : i < size) : Sure (sampleBody sampler i p) (fun q => q.Valid size n ∧ ∀ j < i, q.bvs[j]? = p.bvs[j]?) := by
  have hi' : i < p.bvs.length := by rw [hp.bvs]; exact hi
  rw [sampleBody_eq hi']
  refine (hsam _ (hp.bits _ (List.getElem_mem hi'))).bind (fun y hy => Sure.pure ⟨hp.setBv i hy, fun j hj => ?_⟩)
  dsimp only
  rw [List.getElem?_set_ne (by omega)]

theorem sampleBody_expect (hp : p.Valid size n) {i : ℕ} (hi : i < size) :
    ∃ x : BV, x.length = n ∧ (sampleBody sampler i p).expect (missing (fun q => ∃ y, q.bvs[i]? = some y ∧ found y))
      = (sampler x).expect (missing found) := by
  have hi' : i < p.bvs.length := by rw [hp.bvs]; exact hi
  refine ⟨p.bvs[i], hp.bits _ (List.getElem_mem hi'), ?_⟩
  rw [sampleBody_eq hi', Dist.expect_bind]
  refine Dist.expect_congr (fun y _ => ?_)
  rw [Dist.expect_pure]
  unfold missing
  refine if_congr ?_ rfl rfl
  dsimp only
  rw [List.getElem?_set_self hi']
  simp

theorem popSample_sure (hp : p.Valid size n) (hsam : ∀ x : BV, x.length = n → Sure (sampler x) (fun y => y.length = n)) :
    Sure (popSample sampler p) (fun q => q.Valid size n) := by
  unfold popSample Pop.size
  rw [hp.bvs]
  exact breed_sure (body := sampleBody sampler) (get := Pop.bvs) hp (fun j p hj hp => sampleBody_sure hp hsam hj)

theorem popSample_le (hp : p.Valid size n) (hsam : ∀ x : BV, x.length = n → Sure (sampler x) (fun y => y.length = n)) {r : ℝ≥0∞}
    (hr : ∀ x : BV, x.length = n → (sampler x).expect (missing found) ≤ r) :
    (popSample sampler p).expect (missing (fun q => ∃ y ∈ q.bvs, found y)) ≤ r ^ size := by
  unfold popSample Pop.size
  rw [hp.bvs]
  refine breed_le (body := sampleBody sampler) (get := Pop.bvs) (I := Pop.Valid size n) hp (fun p hp => hp.bvs)
    (fun j p hj hp => sampleBody_sure hp hsam hj) (fun j p hj hp => ?_)
  obtain ⟨x, hx, e⟩ := sampleBody_expect (sampler := sampler) (found := found) hp hj
  rw [e]
  exact hr x hx

theorem popSample_eq (hp : p.Valid size n) (hsam : ∀ x : BV, x.length = n → Sure (sampler x) (fun y => y.length = n)) {r : ℝ≥0∞}
    (hr : ∀ x : BV, x.length = n → (sampler x).expect (missing found) = r) :
    (popSample sampler p).expect (missing (fun q => ∃ y ∈ q.bvs, found y)) = r ^ size := by
  unfold popSample Pop.size
  rw [hp.bvs]
  refine breed_eq (body := sampleBody sampler) (get := Pop.bvs) (I := Pop.Valid size n) hp (fun p hp => hp.bvs)
    (fun j p hj hp => sampleBody_sure hp hsam hj) (fun j p hj hp => ?_)
  obtain ⟨x, hx, e⟩ := sampleBody_expect (sampler := sampler) (found := found) hp hj
  rw [e]
  exact hr x hx

theorem popRandom_sample (p : Pop K) : popRandom p = popSample bvRandomBits p := rfl

end

/-! ## Uniform vectors -/

theorem randomBits_sure (n : ℕ) : ∀ x : BV, x.length = n → Sure (bvRandomBits x) (fun y => y.length = n) := by
  intro x hx
  refine ⟨bvRandomBits_total x, fun y hy => ?_⟩
  rw [bvRandomBits_law, hx] at hy
  by_contra h
  exact hy (if_neg h)

theorem expect_missing_prob {α : Type} {d : Dist α} (h : d.total = 1) (P : α → Prop) : d.expect (missing P) = 1 - d.prob P :=
  (Dist.one_sub_prob h P).symm

theorem one_sub_mass {α : Type} {d : Dist α} (h : d.total = 1) {P : α → Prop} {a : α} (ha : P a) {c : ℝ≥0∞} (hc : c ≤ d a) :
    d.expect (missing P) ≤ 1 - c := by
  rw [expect_missing_prob h]
  refine tsub_le_tsub_left (hc.trans ?_) 1
  unfold Dist.prob
  refine le_trans ?_ (ENNReal.le_tsum a)
  rw [if_pos ha]

variable {n : ℕ} {val : BV → K}

/-- The maxima. -/
noncomputable def numMax [LE K] (n : ℕ) (val : BV → K) : ℕ := {x : BV | IsMax n val x}.ncard

theorem randomBits_eq [LinearOrder K] (x : BV) (hx : x.length = n) :
    (bvRandomBits x).expect (missing (IsMax n val)) = 1 - numMax n val * ((2 : ℝ≥0∞) ^ n)⁻¹ := by
  rw [expect_missing_prob (bvRandomBits_total x), uniform_prob x (fun y hy => hy.1.trans hx.symm), hx]
  rfl

theorem randomBits_le [LinearOrder K] (x : BV) (hx : x.length = n) :
    (bvRandomBits x).expect (missing (IsMax n val)) ≤ 1 - ((2 : ℝ≥0∞) ^ n)⁻¹ := by
  obtain ⟨y, hy⟩ := max_exists n val
  refine one_sub_mass (bvRandomBits_total x) hy (le_of_eq ?_)
  rw [bvRandomBits_law, hx, if_pos hy.1]

/-! ## Evaluation and the solution -/

/-- A vector with its value. -/
def Good (n : ℕ) (val : BV → K) (s : BV × K) : Prop := s.1.length = n ∧ s.2 = val s.1

variable [LinearOrder K] {f : Fn K}

omit [LinearOrder K] in
theorem randomSolution_sure (hf : Evaluates f n val) : Sure (randomSolution f (List.replicate n false)) (Good n val) := by
  unfold randomSolution
  refine (randomBits_sure n _ (by simp)).bind (fun x hx => ?_)
  rw [hf.eval x hx, Dist.lift_ok, Dist.pure_bind']
  exact Sure.pure ⟨hx, rfl⟩

omit [LinearOrder K] in
theorem randomSolution_expect (hf : Evaluates f n val) (found : BV → Prop) :
    (randomSolution f (List.replicate n false)).expect (missing (fun s => found s.1))
      = (bvRandomBits (List.replicate n false)).expect (missing found) := by
  unfold randomSolution
  rw [Dist.expect_bind]
  refine Dist.expect_congr (fun x hx => ?_)
  have hlen := (randomBits_sure n _ (by simp)).holds x hx
  rw [hf.eval x hlen, Dist.lift_ok, Dist.pure_bind', Dist.expect_pure]
  rfl

omit [LinearOrder K] in
theorem popEvaluate_returns (hf : Evaluates f n val) {size : ℕ} {p : Pop K} (hp : p.Valid size n) :
    (popEvaluate f p).Returns (fun q => q.Valid size n ∧ q.bvs = p.bvs ∧ q.individuals = evaluated val p.bvs) := by
  unfold popEvaluate
  rw [assert_pos (by rw [hp.bvs, hp.values]; exact beq_self_eq_true _), ok_bind]
  have h := forRange_returns (body := fun i (p : Pop K) => (do
      let x ← vget p.bvs i
      let v ← f.eval x
      let values ← vset p.values i v
      ok { p with values := values } : Outcome (Pop K))) (fun j (q : Pop K) => q.bvs = p.bvs ∧ q.perm = p.perm ∧
    q.values.length = size ∧ ∀ i < j, q.values[i]? = (p.bvs.map val)[i]?) (a := 0) (b := p.bvs.length) (s := p) (Nat.zero_le _)
    ⟨rfl, rfl, hp.values, fun i hi => by omega⟩ (by
      rintro j q _ hj ⟨h1, h2, h3, h4⟩
      have hjq : j < q.bvs.length := by rw [h1]; exact hj
      have hjs : j < size := by rw [← hp.bvs]; exact hj
      rw [vget_eq hjq, ok_bind, hf.eval _ (hp.bits _ (h1 ▸ List.getElem_mem hjq)), ok_bind, vset_eq (by omega), ok_bind]
      refine returns_ok.mpr ⟨h1, h2, by simpa using h3, fun i hi => ?_⟩
      dsimp only
      rcases Nat.lt_succ_iff_lt_or_eq.mp hi with h | rfl
      · rw [List.getElem?_set_ne (by omega)]
        exact h4 i h
      · rw [List.getElem?_set_self (by omega), List.getElem?_map, List.getElem?_eq_getElem hj]
        simp only [Option.map_some, h1])
  refine h.mono (fun q hq => ?_)
  obtain ⟨h1, h2, h3, h4⟩ := hq
  have hvals : q.values = p.bvs.map val := by
    apply List.ext_getElem?
    intro i
    by_cases hi : i < p.bvs.length
    · exact h4 i hi
    · rw [List.getElem?_eq_none (by rw [h3, ← hp.bvs]; omega), List.getElem?_eq_none (by simp; omega)]
  refine ⟨⟨by rw [h1, hp.bvs], h3, by rw [h2]; exact hp.perm, by rw [h1]; exact hp.bits⟩, h1, ?_⟩
  rw [← evaluated_individuals val p]
  unfold Pop.individuals
  rw [h1, hvals]

omit [LinearOrder K] in
theorem evaluated_good {bvs : List BV} (h : ∀ x ∈ bvs, x.length = n) : ∀ c ∈ evaluated val bvs, Good n val c := by
  intro c hc
  obtain ⟨x, hx, rfl⟩ := List.mem_map.mp hc
  exact ⟨h x hx, rfl⟩

omit [LinearOrder K] in
theorem evaluated_found {bvs : List BV} {found : BV → Prop} : (∃ c ∈ evaluated val bvs, found c.1) ↔ ∃ y ∈ bvs, found y := by
  constructor
  · rintro ⟨c, hc, h⟩
    obtain ⟨x, hx, rfl⟩ := List.mem_map.mp hc
    exact ⟨x, hx, h⟩
  · rintro ⟨y, hy, h⟩
    exact ⟨(y, val y), List.mem_map.mpr ⟨y, hy, rfl⟩, h⟩

theorem isMax_of_le {x y : BV} (hx : x.length = n) (hy : IsMax n val y) (h : val y ≤ val x) : IsMax n val x :=
  ⟨hx, fun z hz => (hy.2 z hz).trans h⟩

theorem top_found {pool : List (BV × K)} {x : BV} {v : K} (hpool : ∀ c ∈ pool, Good n val c) (hx : (x, v) ∈ pool)
    (htop : ∀ c ∈ pool, c.2 ≤ v) : IsMax n val x ↔ ∃ c ∈ pool, IsMax n val c.1 := by
  have hg : Good n val (x, v) := hpool _ hx
  constructor
  · exact fun h => ⟨_, hx, h⟩
  · rintro ⟨c, hc, hm⟩
    refine isMax_of_le hg.1 hm ?_
    rw [← (hpool c hc).2, ← hg.2]
    exact htop c hc

theorem update_found {pool : List (BV × K)} {x : BV} {v : K} {s : BV × K} (hpool : ∀ c ∈ pool, Good n val c) (hx : (x, v) ∈ pool)
    (htop : ∀ c ∈ pool, c.2 ≤ v) (hs : Good n val s) :
    Good n val (updateSolution s x v) ∧ (IsMax n val (updateSolution s x v).1 ↔ IsMax n val s.1 ∨ ∃ c ∈ pool, IsMax n val c.1) := by
  have hg : Good n val (x, v) := hpool _ hx
  have hv : v = val x := hg.2
  have hsv := hs.2
  rw [← top_found hpool hx htop]
  unfold updateSolution
  by_cases h : s.2 < v
  · rw [if_pos h]
    refine ⟨hg, ⟨.inr, fun e => e.elim (fun hm => isMax_of_le hg.1 hm ?_) id⟩⟩
    rw [← hsv, ← hv]
    exact h.le
  · rw [if_neg h]
    refine ⟨hs, ⟨.inl, fun e => e.elim id (fun hm => isMax_of_le hs.1 hm ?_)⟩⟩
    rw [← hsv, ← hv]
    exact not_lt.mp h

/-- The step from the vectors to the solution, when the best one is offered to it. -/
theorem expect_after {α β : Type} {d : Dist α} {rest : α → Dist β} {P : α → Prop} {found : β → Prop} {hit : α → Prop} {old : Prop}
    (hd : Sure d P) (hrest : ∀ a, P a → Sure (rest a) (fun b => found b ↔ old ∨ hit a)) :
    (d >>= rest).expect (missing found) = missing (fun _ : Unit => old) () * d.expect (missing hit) := by
  rw [Dist.expect_bind, ← Dist.expect_mul_left]
  refine Dist.expect_congr (fun a ha => ?_)
  have h := hrest a (hd.holds a ha)
  have : (rest a).expect (missing found) = (rest a).expect (fun _ => if old ∨ hit a then 0 else 1) :=
    Dist.expect_congr (fun b hb => if_congr (h.holds b hb) rfl rfl)
  rw [this, Dist.expect_const, h.total, one_mul]
  unfold missing
  by_cases h1 : old <;> by_cases h2 : hit a <;> simp [h1, h2]

end Hnco.Prob
