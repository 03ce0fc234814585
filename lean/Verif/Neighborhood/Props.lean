import Verif.Neighborhood.Model
import Verif.BitVector.Props
import Mathlib.Tactic.Linarith
import Mathlib.Tactic.Positivity
import Mathlib.Algebra.Order.Field.Basic

/-! # Random neighbourhoods (C10) -/

namespace Hnco

open Outcome

/-! ## Specification -/

/-- `y` is `x` with the bits of `l` flipped. -/
def FlippedAt (x : BV) (l : List Nat) (y : BV) : Prop :=
  y.length = x.length ∧ ∀ (i : Nat) b, x[i]? = some b → y[i]? = some (if i ∈ l then !b else b)

/-- The sizes for which the constructor returns. -/
def Sampler.Fits (n : Nat) : Sampler → Prop
  | .singleBitFlip => 0 < n
  | .standardBitMutation _ => 0 < n
  | .hammingBall r => 0 < r ∧ r ≤ n
  | .hammingSphere r => 0 < r ∧ r ≤ n

/-- The number of bits a neighbourhood may flip. -/
def Sampler.Count : Sampler → Nat → Prop
  | .singleBitFlip, c => c = 1
  | .standardBitMutation params, c => 1 ≤ c ∨ (params.rejection = true ∧ params.allowNoMutation = true)
  | .hammingBall r, c => 1 ≤ c ∧ c ≤ r
  | .hammingSphere r, c => c = r

/-- The sets of bits a neighbourhood may flip: distinct bits of the vector, sorted, in the right number. -/
def Sampler.Flips (k : Sampler) (n : Nat) (l : List Nat) : Prop :=
  l.Pairwise (· < ·) ∧ (∀ i ∈ l, i < n) ∧ k.Count l.length

/-- The state of a neighbourhood between two operations. -/
structure Nbh.Valid (k : Sampler) (s : Nbh) : Prop where
  fits : k.Fits s.n
  origin : s.origin.length = s.n
  candidate : s.candidate.length = s.n
  single : k = .singleBitFlip → s.flipped.length = 1

/-- The state of a neighbourhood when a candidate can be proposed. -/
structure Nbh.Ready (k : Sampler) (s : Nbh) : Prop extends Nbh.Valid k s where
  same : s.candidate = s.origin

/-! ## Lemmas on draws -/

theorem Sim.Post.uniform : Sim.Post Sim.uniform (fun u => 0 ≤ u ∧ u < 1) := by
  unfold Sim.uniform
  refine Sim.Post.draw.bind (fun a _ => Sim.Post.draw.bind (fun b _ => Sim.Post.pure ?_))
  have hb : (0 : Rat) < ((b + 1 : Nat) : Rat) := by exact_mod_cast Nat.succ_pos b
  have hlt : ((a % (b + 1) : Nat) : Rat) < ((b + 1 : Nat) : Rat) := by
    exact_mod_cast Nat.mod_lt a (Nat.succ_pos b)
  exact ⟨div_nonneg (by exact_mod_cast Nat.zero_le _) hb.le, (div_lt_one hb).mpr hlt⟩

theorem Sim.Reaches.uniform {a b : Nat} (h : a < b) : Sim.Reaches Sim.uniform ((a : Rat) / (b : Rat)) := by
  unfold Sim.uniform
  refine Sim.Reaches.bind (Sim.Reaches.draw a) (Sim.Reaches.bind (Sim.Reaches.draw (b - 1)) ?_)
  rw [show b - 1 + 1 = b by omega, Nat.mod_eq_of_lt h]
  exact Sim.Reaches.pure _

theorem Sim.Reaches.forLoop {σ : Type} {body : Nat → σ → Sim σ} (f : Nat → σ) :
    ∀ n i, (∀ j, i ≤ j → j < i + n → Sim.Reaches (body j (f j)) (f (j + 1))) →
      Sim.Reaches (Sim.forLoop n i body (f i)) (f (i + n))
  | 0, i, _ => Sim.Reaches.pure _
  | n + 1, i, h => by
    refine Sim.Reaches.bind (h i (le_refl _) (by omega)) ?_
    have := Sim.Reaches.forLoop f n (i + 1) (fun j h1 h2 => h j (by omega) (by omega))
    rwa [show i + 1 + n = i + (n + 1) by omega] at this

theorem Sim.Reaches.forRange {σ : Type} {body : Nat → σ → Sim σ} (f : Nat → σ) {a b : Nat} (hab : a ≤ b) {s : σ}
    (hs : f a = s) (h : ∀ j, a ≤ j → j < b → Sim.Reaches (body j (f j)) (f (j + 1))) :
    Sim.Reaches (Sim.forRange a b body s) (f b) := by
  subst hs
  have := Sim.Reaches.forLoop f (b - a) a (fun j h1 h2 => h j h1 (by omega))
  rwa [show a + (b - a) = b by omega] at this

theorem Sim.Reaches.repeatUntil {α : Type} {body : Sim α} {stop : α → Bool} {a : α} (h : Sim.Reaches body a)
    (hs : stop a = true) : Sim.Reaches (Sim.repeatUntil body stop) a := by
  obtain ⟨ds, hds⟩ := h
  refine ⟨ds, fun rest => ?_⟩
  unfold Sim.repeatUntil
  change Sim.bind body _ (ds ++ rest) = _
  unfold Sim.bind
  rw [hds]
  simp only [hs, if_true]
  rfl

theorem Sim.Post.doWhileGo {σ : Type} {body : σ → Sim σ} {again : σ → Bool} {I Q : σ → Prop}
    (h : ∀ s, I s → Sim.Post (body s) (fun t => (again t = true → I t) ∧ (again t = false → Q t))) :
    ∀ k s, I s → Sim.Post (Sim.doWhileGo body again k s) Q
  | 0, _, _ => fun _ => trivial
  | k + 1, s, hs => by
    refine (h s hs).bind (fun t ht => ?_)
    cases e : again t with
    | true => simpa using Sim.Post.doWhileGo h k t (ht.1 e)
    | false => exact Sim.Post.pure (ht.2 e)

/-- Rule for loops: `I` holds whenever the loop is entered, `Q` when it is left. -/
theorem Sim.Post.doWhile {σ : Type} {body : σ → Sim σ} {again : σ → Bool} {s : σ} (I Q : σ → Prop) (h0 : I s)
    (h : ∀ s, I s → Sim.Post (body s) (fun t => (again t = true → I t) ∧ (again t = false → Q t))) :
    Sim.Post (Sim.doWhile body again s) Q :=
  fun ds => Sim.Post.doWhileGo h (ds.length + 1) s h0 ds

theorem Sim.Reaches.doWhile {σ : Type} {body : σ → Sim σ} {again : σ → Bool} {s t : σ} (h : Sim.Reaches (body s) t)
    (ht : again t = false) : Sim.Reaches (Sim.doWhile body again s) t := by
  obtain ⟨ds, hds⟩ := h
  refine ⟨ds, fun rest => ?_⟩
  unfold Sim.doWhile
  change Sim.bind (body s) _ (ds ++ rest) = _
  unfold Sim.bind
  rw [hds]
  simp only [ht]
  rfl

/-! ## Sampling -/

theorem pairwise_snoc {l : List Nat} {i : Nat} (h : l.Pairwise (· < ·)) (hi : ∀ j ∈ l, j < i) :
    (l ++ [i]).Pairwise (· < ·) := by
  rw [List.pairwise_append]
  exact ⟨h, List.pairwise_singleton _ _, fun a ha b hb => by rw [List.mem_singleton.mp hb]; exact hi a ha⟩

theorem filter_lt_succ {l : List Nat} (h : l.Pairwise (· < ·)) (i : Nat) :
    l.filter (· < i + 1) = l.filter (· < i) ++ if i ∈ l then [i] else [] := by
  induction l with
  | nil => simp
  | cons a l ih =>
    have ha := (List.pairwise_cons.mp h).1
    have ih := ih (List.pairwise_cons.mp h).2
    rcases Nat.lt_trichotomy a i with hlt | heq | hgt
    · rw [List.filter_cons_of_pos (by simp; omega), List.filter_cons_of_pos (by simp; omega), ih, List.cons_append]
      simp only [List.mem_cons, show ¬ i = a by omega, false_or]
    · subst heq
      have h1 : ∀ m, m ≤ a + 1 → l.filter (· < m) = [] := by
        intro m hm
        rw [List.filter_eq_nil_iff]
        intro b hb
        have := ha b hb
        simp; omega
      rw [List.filter_cons_of_pos (by simp), List.filter_cons_of_neg (by simp), h1 _ (le_refl _), h1 _ (by omega)]
      simp
    · have h1 : ∀ m, m ≤ i + 1 → (a :: l).filter (· < m) = [] := by
        intro m hm
        rw [List.filter_eq_nil_iff]
        intro b hb
        rcases List.mem_cons.mp hb with rfl | hb
        · simp; omega
        · have := ha b hb
          simp; omega
      have h2 : i ∉ a :: l := by
        intro hi
        rcases List.mem_cons.mp hi with rfl | hi
        · omega
        · have := ha i hi; omega
      rw [h1 _ (le_refl _), h1 _ (by omega), if_neg h2]
      rfl

theorem filter_lt_all {l : List Nat} {n : Nat} (h : ∀ i ∈ l, i < n) : l.filter (· < n) = l := by
  rw [List.filter_eq_self]
  intro a ha
  simpa using h a ha

/-- Elements of a sorted list from `i` on. -/
theorem filter_lt_length {l : List Nat} {n : Nat} (h : l.Pairwise (· < ·)) (hn : ∀ i ∈ l, i < n) :
    ∀ i, i ≤ n → l.length ≤ (l.filter (· < i)).length + (n - i) := by
  intro i hi
  induction hi using Nat.decreasingInduction with
  | self => rw [filter_lt_all hn]; omega
  | of_succ k hk ih =>
    have := congrArg List.length (filter_lt_succ h k)
    rw [List.length_append] at this
    split at this <;> simp at this <;> omega

theorem bernoulliTrials_post {k : Nat} {s : Nbh} (hk : k ≤ s.candidate.length) :
    Sim.Post (bernoulliTrials k s) (fun l => l.Pairwise (· < ·) ∧ (∀ i ∈ l, i < s.candidate.length) ∧
      l.length = k) := by
  unfold bernoulliTrials
  refine Sim.Post.bind (Sim.Post.forRange (fun i (st : List Nat × Nat × Nat) =>
    st.1.Pairwise (· < ·) ∧ (∀ j ∈ st.1, j < i) ∧ st.1.length + st.2.1 = k ∧ st.2.2 = s.candidate.length - i ∧
    st.2.1 ≤ st.2.2) (Nat.zero_le _)
    ⟨List.Pairwise.nil, (by intro j hj; cases hj), by simp, rfl, hk⟩ ?_) ?_
  · rintro i ⟨l, kk, nn⟩ _ hi ⟨h1, h2, h3, h4, h5⟩
    simp only at h1 h2 h3 h4 h5
    have hnn : (0 : Rat) < (nn : Rat) := by exact_mod_cast (show 0 < nn by omega)
    refine Sim.Post.uniform.bind ?_
    rintro u ⟨hu0, hu1⟩
    by_cases hu : u < (kk : Rat) / (nn : Rat)
    · simp only [if_pos hu]
      have hkk : 0 < kk := by
        rcases Nat.eq_zero_or_pos kk with h0 | h0
        · rw [h0, Nat.cast_zero, zero_div] at hu
          exact absurd hu (not_lt.mpr hu0)
        · exact h0
      refine Sim.Post.pure ⟨pairwise_snoc h1 h2, ?_, ?_, ?_, ?_⟩
      · intro j hj
        rcases List.mem_append.mp hj with hj | hj
        · have := h2 j hj; omega
        · rw [List.mem_singleton.mp hj]; omega
      · simp only [List.length_append, List.length_singleton]; omega
      · simp only; omega
      · simp only; omega
    · simp only [if_neg hu]
      have hne : kk ≠ nn := by
        intro h
        rw [h, div_self (ne_of_gt hnn)] at hu
        exact hu hu1
      exact Sim.Post.pure ⟨h1, fun j hj => by have := h2 j hj; omega, h3, by simp only; omega, by simp only; omega⟩
  · rintro ⟨l, kk, nn⟩ ⟨h1, h2, h3, h4, h5⟩
    simp only at h1 h2 h3 h4 h5
    refine (Sim.Post.assert (by simp only [beq_iff_eq]; omega)).bind (fun _ _ => Sim.Post.pure ⟨h1, h2, ?_⟩)
    simp only; omega

theorem bernoulliTrials_onto {s : Nbh} {l : List Nat} (hl : l.Pairwise (· < ·))
    (hn : ∀ i ∈ l, i < s.candidate.length) : Sim.Reaches (bernoulliTrials l.length s) l := by
  unfold bernoulliTrials
  refine Sim.Reaches.bind (Sim.Reaches.forRange (fun i => (l.filter (· < i), l.length - (l.filter (· < i)).length,
    s.candidate.length - i)) (Nat.zero_le _) (by simp) ?_) ?_
  · intro i _ hi
    simp only
    have hlen := filter_lt_length hl hn (i + 1) (by omega)
    have hstep := filter_lt_succ hl i
    have hlen' := List.length_filter_le (· < i) l
    have hlen2 := List.length_filter_le (· < i + 1) l
    by_cases hm : i ∈ l
    · rw [if_pos hm] at hstep
      rw [hstep, List.length_append, List.length_singleton] at hlen hlen2
      have hpos : (0 : Rat) < ((l.length - (l.filter (· < i)).length : Nat) : Rat) / ((s.candidate.length - i : Nat) : Rat) := by
        apply div_pos
        · exact_mod_cast (show 0 < l.length - (l.filter (· < i)).length by omega)
        · exact_mod_cast (show 0 < s.candidate.length - i by omega)
      refine Sim.Reaches.bind (Sim.Reaches.uniform (a := 0) (b := 1) (by omega)) ?_
      rw [if_pos (by simpa using hpos), hstep, List.length_append, List.length_singleton,
        show l.length - ((l.filter (· < i)).length + 1) = l.length - (l.filter (· < i)).length - 1 by omega,
        show s.candidate.length - (i + 1) = s.candidate.length - i - 1 by omega]
      exact Sim.Reaches.pure _
    · rw [if_neg hm, List.append_nil] at hstep
      rw [hstep] at hlen
      refine Sim.Reaches.bind (Sim.Reaches.uniform (a := l.length - (l.filter (· < i)).length)
        (b := s.candidate.length - i) (by omega)) ?_
      rw [if_neg (lt_irrefl _), hstep, show s.candidate.length - (i + 1) = s.candidate.length - i - 1 by omega]
      exact Sim.Reaches.pure _
  · simp only [filter_lt_all hn]
    exact Sim.Reaches.bind (a := ()) (Sim.Reaches.lift (assert_pos (by simp))) (Sim.Reaches.pure _)

theorem sorted_nodup {l : List Nat} (h : l.Pairwise (fun a b => decide (b < a) = false)) (hn : l.Nodup) :
    l.Pairwise (· < ·) := by
  refine (h.and hn).imp ?_
  rintro a b ⟨h1, h2⟩
  simp only [decide_eq_false_iff_not, not_lt] at h1
  omega

theorem rejectionSampling_post {k : Nat} {s : Nbh} (hn : 0 < s.n) :
    Sim.Post (rejectionSampling k s) (fun l => l.Pairwise (· < ·) ∧ (∀ i ∈ l, i < s.n) ∧ l.length = k) := by
  unfold rejectionSampling
  refine Sim.Post.bind (Sim.Post.forRange (fun i (l : List Nat) => l.Nodup ∧ (∀ j ∈ l, j < s.n) ∧ l.length = i)
    (Nat.zero_le _) ⟨List.nodup_nil, (by intro j hj; cases hj), rfl⟩ ?_) ?_
  · rintro i l _ _ ⟨h1, h2, h3⟩
    refine (Sim.Post.repeatUntil (Sim.Post.uniformInt (Nat.zero_le _))).bind ?_
    rintro j ⟨⟨_, hj⟩, hc⟩
    have hj' : j ∉ l := by simpa using hc
    refine Sim.Post.pure ⟨?_, ?_, by simp [h3]⟩
    · rw [List.nodup_append]
      exact ⟨h1, List.nodup_singleton _, fun a ha b hb => by
        rw [List.mem_singleton.mp hb]; rintro rfl; exact hj' ha⟩
    · intro a ha
      rcases List.mem_append.mp ha with ha | ha
      · exact h2 a ha
      · rw [List.mem_singleton.mp ha]; omega
  · rintro l ⟨h1, h2, h3⟩
    refine (Sim.Post.sort l ?_ ?_).mono ?_
    · intro a b c hab hbc
      simp only [decide_eq_false_iff_not, not_lt] at hab hbc ⊢
      omega
    · intro a b
      simp only [decide_eq_false_iff_not, not_lt]
      omega
    · rintro r ⟨hr, hs⟩
      exact ⟨sorted_nodup hs (hr.nodup_iff.mpr h1), fun i hi => h2 i (hr.mem_iff.mp hi), by rw [hr.length_eq, h3]⟩

theorem rejectionSampling_onto {s : Nbh} {l : List Nat} (hl : l.Pairwise (· < ·)) (hn : ∀ i ∈ l, i < s.n) :
    Sim.Reaches (rejectionSampling l.length s) l := by
  unfold rejectionSampling
  refine Sim.Reaches.bind (Sim.Reaches.forRange (fun i => l.take i) (Nat.zero_le _) (by simp) ?_) ?_
  · intro i _ hi
    have hmem := hn l[i] (List.getElem_mem hi)
    refine Sim.Reaches.bind (Sim.Reaches.repeatUntil (Sim.Reaches.uniformInt (Nat.zero_le _)
      (show l[i] ≤ s.n - 1 by omega)) ?_) ?_
    · simp only [Bool.not_eq_true', List.contains_eq_mem, decide_eq_false_iff_not]
      intro hmem'
      obtain ⟨j, hj, hj'⟩ := List.getElem_of_mem hmem'
      rw [List.getElem_take] at hj'
      rw [List.length_take] at hj
      have := List.pairwise_iff_getElem.mp hl j i (by omega) hi (by omega)
      omega
    · rw [List.take_add_one, List.getElem?_eq_getElem hi]
      exact Sim.Reaches.pure _
  · rw [List.take_length]
    refine Sim.Reaches.sort (List.Perm.refl _) (hl.imp ?_)
    intro a b h
    simp only [decide_eq_false_iff_not, not_lt]
    omega

theorem bernoulliProcess_post (s : Nbh) :
    Sim.Post (bernoulliProcess s) (fun l => l.Pairwise (· < ·) ∧ (∀ i ∈ l, i < s.candidate.length) ∧
      1 ≤ l.length) := by
  unfold bernoulliProcess
  refine Sim.Post.bind (Sim.Post.doWhile (fun (st : List Nat × Bool) => st = ([], true))
    (fun st => st.1.Pairwise (· < ·) ∧ (∀ i ∈ st.1, i < s.candidate.length) ∧ 1 ≤ st.1.length) rfl ?_)
    (fun st h => Sim.Post.pure h)
  rintro _ rfl
  refine (Sim.Post.forRange (fun i (st : List Nat × Bool) => st.1.Pairwise (· < ·) ∧
    (∀ j ∈ st.1, j < i) ∧ (st = ([], true) ∨ st.2 = false ∧ 1 ≤ st.1.length)) (Nat.zero_le _)
    ⟨List.Pairwise.nil, (by intro i hi; cases hi), Or.inl rfl⟩ ?_).mono ?_
  · rintro i ⟨l, again⟩ _ _ ⟨h1, h2, h3⟩
    simp only at h1 h2
    refine Sim.Post.bernoulli.bind (fun b _ => ?_)
    cases b with
    | true =>
      refine Sim.Post.pure ⟨pairwise_snoc h1 h2, ?_, Or.inr ⟨rfl, by simp⟩⟩
      intro j hj
      rcases List.mem_append.mp hj with hj | hj
      · have := h2 j hj; omega
      · rw [List.mem_singleton.mp hj]; omega
    | false => exact Sim.Post.pure ⟨h1, fun j hj => by have := h2 j hj; omega, h3⟩
  · rintro st ⟨h1, h2, h3⟩
    rcases h3 with rfl | ⟨ha, h⟩
    · exact ⟨fun _ => rfl, fun h => by cases h⟩
    · exact ⟨fun h => (by rw [h] at ha; cases ha), fun _ => ⟨h1, h2, h⟩⟩

theorem bernoulliProcess_onto {s : Nbh} {l : List Nat} (hl : l.Pairwise (· < ·))
    (hn : ∀ i ∈ l, i < s.candidate.length) (hne : 1 ≤ l.length) : Sim.Reaches (bernoulliProcess s) l := by
  unfold bernoulliProcess
  refine Sim.Reaches.bind (a := (l, false)) (Sim.Reaches.doWhile ?_ rfl) (Sim.Reaches.pure _)
  have h := Sim.Reaches.forRange (body := fun i (st : List Nat × Bool) => do
      let b ← Sim.bernoulli
      if b then pure (st.1 ++ [i], false) else pure st)
    (fun i => (l.filter (· < i), (l.filter (· < i)).isEmpty)) (Nat.zero_le s.candidate.length) (s := ([], true)) (by simp) ?_
  · simp only [filter_lt_all hn] at h
    rwa [show l.isEmpty = false by cases l <;> simp_all] at h
  · intro i _ _
    refine Sim.Reaches.bind (Sim.Reaches.bernoulli (decide (i ∈ l))) ?_
    have hstep := filter_lt_succ hl i
    by_cases hm : i ∈ l
    · rw [if_pos hm] at hstep
      rw [hstep, if_pos (by simpa using hm)]
      rw [show (l.filter (· < i) ++ [i]).isEmpty = false by cases l.filter (· < i) <;> rfl]
      exact Sim.Reaches.pure _
    · rw [if_neg hm, List.append_nil] at hstep
      rw [hstep, if_neg (by simpa using hm)]
      exact Sim.Reaches.pure _

/-- C10: whatever the draws, the bits sampled are distinct, sorted, bits of the vector, and in the right number: one
for a single bit flip, at least one for standard bit mutation (unless it rejects and no mutation is allowed), between
one and the radius for the Hamming ball, the radius for the Hamming sphere. -/
theorem sampleBits_flips {k : Sampler} {s : Nbh} (hs : s.Valid k) : Sim.Post (k.sampleBits s) (k.Flips s.n) := by
  obtain ⟨hf, _, hc, h1⟩ := hs
  cases k with
  | singleBitFlip =>
    have hf : 0 < s.n := hf
    have h1 := h1 rfl
    refine (Sim.Post.assert (by simpa using h1)).bind (fun _ _ => ?_)
    refine (Sim.Post.uniformInt (Nat.zero_le _)).bind ?_
    rintro j ⟨_, hj⟩
    refine Sim.Post.lift ⟨_, vset_eq (by omega), ?_⟩
    obtain ⟨a, ha⟩ := List.length_eq_one_iff.mp h1
    rw [ha]
    refine ⟨List.pairwise_singleton _ _, ?_, rfl⟩
    intro i hi
    rw [List.mem_singleton.mp hi]
    omega
  | standardBitMutation params =>
    have hf : 0 < s.n := hf
    unfold Sampler.sampleBits
    by_cases hr : params.rejection = true
    · simp only [if_pos hr]
      by_cases ha : params.allowNoMutation = true
      · simp only [if_pos ha]
        refine (Sim.Post.uniformInt (Nat.zero_le _)).bind (fun j _ => ?_)
        exact (rejectionSampling_post hf).mono (fun l h => ⟨h.1, h.2.1, Or.inr ⟨hr, ha⟩⟩)
      · simp only [if_neg ha]
        refine (Sim.Post.repeatUntil (Sim.Post.uniformInt (Nat.zero_le _))).bind ?_
        rintro j ⟨_, hj⟩
        have hj : j ≠ 0 := by simpa using hj
        exact (rejectionSampling_post hf).mono (fun l h => ⟨h.1, h.2.1, Or.inl (by rw [h.2.2]; omega)⟩)
    · simp only [if_neg hr]
      refine (bernoulliProcess_post s).mono (fun l h => ⟨h.1, ?_, Or.inl h.2.2⟩)
      rw [← hc]; exact h.2.1
  | hammingBall r =>
    obtain ⟨hr, hrn⟩ : 0 < r ∧ r ≤ s.n := hf
    unfold Sampler.sampleBits
    refine (Sim.Post.uniformInt hr).bind ?_
    rintro j ⟨hj1, hj2⟩
    refine (Sim.Post.assert (by rw [decide_eq_true_eq]; omega)).bind (fun _ _ => ?_)
    refine (Sim.Post.assert (by rw [decide_eq_true_eq]; omega)).bind (fun _ _ => ?_)
    split
    · exact (rejectionSampling_post (by omega)).mono
        (fun l h => ⟨h.1, h.2.1, by rw [h.2.2]; exact hj1, by rw [h.2.2]; exact hj2⟩)
    · refine (bernoulliTrials_post (by omega)).mono (fun l h => ⟨h.1, ?_, by rw [h.2.2]; exact hj1, by rw [h.2.2]; exact hj2⟩)
      rw [← hc]; exact h.2.1
  | hammingSphere r =>
    obtain ⟨hr, hrn⟩ : 0 < r ∧ r ≤ s.n := hf
    simp only [Sampler.sampleBits]
    split
    · exact (rejectionSampling_post (by omega)).mono (fun l h => h)
    · refine (bernoulliTrials_post (by omega)).mono (fun l h => ⟨h.1, ?_, h.2.2⟩)
      rw [← hc]; exact h.2.1

/-- C10: each such set of bits is sampled for some draws. -/
theorem sampleBits_onto {k : Sampler} {s : Nbh} (hs : s.Valid k) {l : List Nat} (hl : k.Flips s.n l) :
    Sim.Reaches (k.sampleBits s) l := by
  obtain ⟨hf, _, hc, h1⟩ := hs
  obtain ⟨hl1, hl2, hl3⟩ := hl
  have hlen : l.length ≤ s.n := by
    have := filter_lt_length hl1 hl2 0 (Nat.zero_le _)
    simpa using this
  have hl2' : ∀ i ∈ l, i < s.candidate.length := by rw [hc]; exact hl2
  cases k with
  | singleBitFlip =>
    have h1 := h1 rfl
    obtain ⟨i, rfl⟩ := List.length_eq_one_iff.mp (show l.length = 1 from hl3)
    have hi := hl2 i (List.mem_singleton.mpr rfl)
    refine Sim.Reaches.bind (a := ()) (Sim.Reaches.lift (assert_pos (by simpa using h1))) ?_
    refine Sim.Reaches.bind (Sim.Reaches.uniformInt (Nat.zero_le i) (by omega)) ?_
    obtain ⟨a, ha⟩ := List.length_eq_one_iff.mp h1
    rw [ha]
    exact Sim.Reaches.lift (vset_eq (by simp))
  | standardBitMutation params =>
    unfold Sampler.sampleBits
    by_cases hr : params.rejection = true
    · simp only [if_pos hr]
      by_cases ha : params.allowNoMutation = true
      · simp only [if_pos ha]
        exact Sim.Reaches.bind (Sim.Reaches.uniformInt (Nat.zero_le l.length) hlen) (rejectionSampling_onto hl1 hl2)
      · simp only [if_neg ha]
        refine Sim.Reaches.bind (Sim.Reaches.repeatUntil (Sim.Reaches.uniformInt (Nat.zero_le l.length) hlen) ?_)
          (rejectionSampling_onto hl1 hl2)
        rcases hl3 with h | h
        · simp only [bne_iff_ne]; omega
        · exact absurd h.2 ha
    · simp only [if_neg hr]
      refine bernoulliProcess_onto hl1 hl2' ?_
      rcases hl3 with h | h
      · exact h
      · exact absurd h.1 hr
  | hammingBall r =>
    obtain ⟨h3, h4⟩ : 1 ≤ l.length ∧ l.length ≤ r := hl3
    unfold Sampler.sampleBits
    refine Sim.Reaches.bind (Sim.Reaches.uniformInt h3 h4) ?_
    refine Sim.Reaches.bind (a := ()) (Sim.Reaches.lift (assert_pos (by rw [decide_eq_true_eq]; omega))) ?_
    refine Sim.Reaches.bind (a := ()) (Sim.Reaches.lift (assert_pos (by rw [decide_eq_true_eq]; omega))) ?_
    split
    · exact rejectionSampling_onto hl1 hl2
    · exact bernoulliTrials_onto hl1 hl2'
  | hammingSphere r =>
    obtain rfl : l.length = r := hl3
    simp only [Sampler.sampleBits]
    split
    · exact rejectionSampling_onto hl1 hl2
    · exact bernoulliTrials_onto hl1 hl2'

/-! ## Operations -/

/-- C10: the constructor returns exactly for the sizes that fit, and after setting an origin of this size the
neighbourhood is ready. -/
theorem construct_ready (k : Sampler) (n : Nat) :
    (k.Fits n → (k.construct n).Returns (fun s => s.n = n ∧ s.Ready k ∧
      ∀ x : BV, x.length = n → (s.setOrigin x).Ready k ∧ (s.setOrigin x).origin = x)) ∧
    (¬ k.Fits n → k.construct n = ub) := by
  constructor
  · intro hf
    have hn : 0 < n := by
      cases k <;> simp only [Sampler.Fits] at hf <;> omega
    have key : ∀ s : Nbh, s.n = n → s.origin = List.replicate n false → s.candidate = List.replicate n false →
        (k = .singleBitFlip → s.flipped.length = 1) →
        s.n = n ∧ s.Ready k ∧ ∀ x : BV, x.length = n → (s.setOrigin x).Ready k ∧ (s.setOrigin x).origin = x := by
      intro s h1 h2 h3 h4
      subst h1
      exact ⟨rfl, ⟨⟨hf, by simp [h2], by simp [h3], h4⟩, by rw [h2, h3]⟩,
        fun x hx => ⟨⟨⟨hf, hx, hx, h4⟩, rfl⟩, rfl⟩⟩
    unfold Sampler.construct Nbh.new
    rw [assert_pos (by simpa using hn), ok_bind, ok_bind]
    cases k with
    | singleBitFlip => exact ⟨_, rfl, key _ rfl rfl rfl (fun _ => rfl)⟩
    | standardBitMutation params => exact ⟨_, rfl, key _ rfl rfl rfl (fun h => by cases h)⟩
    | hammingBall r =>
      simp only [assert_pos (show decide (r > 0) = true by simpa using hf.1),
        assert_pos (show decide (r ≤ n) = true by simpa using hf.2), ok_bind]
      exact ⟨_, rfl, key _ rfl rfl rfl (fun h => by cases h)⟩
    | hammingSphere r =>
      simp only [assert_pos (show decide (r > 0) = true by simpa using hf.1),
        assert_pos (show decide (r ≤ n) = true by simpa using hf.2), ok_bind]
      exact ⟨_, rfl, key _ rfl rfl rfl (fun h => by cases h)⟩
  · intro hf
    unfold Sampler.construct Nbh.new
    by_cases hn : 0 < n
    · rw [assert_pos (by simpa using hn), ok_bind, ok_bind]
      cases k with
      | singleBitFlip => exact absurd hn hf
      | standardBitMutation params => exact absurd hn hf
      | hammingBall r =>
        simp only
        by_cases hr : 0 < r
        · rw [assert_pos (by simpa using hr), ok_bind, assert_neg (by
            simp only [decide_eq_false_iff_not]; intro h; exact hf ⟨hr, h⟩)]
          rfl
        · rw [assert_neg (by simpa using hr)]; rfl
      | hammingSphere r =>
        simp only
        by_cases hr : 0 < r
        · rw [assert_pos (by simpa using hr), ok_bind, assert_neg (by
            simp only [decide_eq_false_iff_not]; intro h; exact hf ⟨hr, h⟩)]
          rfl
        · rw [assert_neg (by simpa using hr)]; rfl
    · rw [assert_neg (by simpa using hn)]; rfl

theorem flips_valid {k : Sampler} {n : Nat} {l : List Nat} (h : k.Flips n l) : sbvIsValid l n = true :=
  (sbvIsValid_iff _ _).mpr ⟨h.1.imp (fun h => Nat.le_of_lt h), h.2.1⟩

theorem single_length {k : Sampler} {n : Nat} {l : List Nat} (h : k.Flips n l) : k = .singleBitFlip → l.length = 1 := by
  rintro rfl
  exact h.2.2

/-- The state after proposing a candidate from `s`. -/
structure Nbh.Proposed (k : Sampler) (s t : Nbh) : Prop where
  size : t.n = s.n
  origin : t.origin = s.origin
  flips : k.Flips s.n t.flipped
  candidate : FlippedAt s.origin t.flipped t.candidate
  distance : bvHammingDistance s.origin t.candidate = ok t.flipped.length

/-- C10: after proposing, the candidate differs from the origin exactly at the flipped bits, so that its Hamming
distance to the origin is their number. -/
theorem propose_spec {k : Sampler} {s : Nbh} (hs : s.Ready k) : Sim.Post (s.propose k) (s.Proposed k) := by
  unfold Nbh.propose
  refine (Sim.Post.assert (by simpa using hs.same)).bind (fun _ _ => ?_)
  refine (sampleBits_flips hs.toValid).bind (fun l hl => ?_)
  have hlt : ∀ i ∈ l, i < s.origin.length := by rw [hs.origin]; exact hl.2.1
  rw [hs.same]
  obtain ⟨y, hy, hy1, hy2⟩ := bvFlipSparse_exact s.origin l hl.1 hlt
  refine (Sim.Post.lift ⟨y, hy, rfl⟩).bind ?_
  rintro _ rfl
  refine Sim.Post.pure ⟨rfl, rfl, hl, ⟨hy1, hy2⟩, ?_⟩
  have := bvFlipSparse_distance s.origin l hl.1 hlt
  rwa [hy, ok_bind] at this

/-- C10: each vector which differs from the origin at a set of bits the neighbourhood may flip is proposed for
some draws. -/
theorem propose_onto {k : Sampler} {s : Nbh} (hs : s.Ready k) {l : List Nat} (hl : k.Flips s.n l) {y : BV}
    (hy : FlippedAt s.origin l y) : Sim.Reaches (s.propose k) { s with candidate := y, flipped := l } := by
  unfold Nbh.propose
  refine Sim.Reaches.bind (a := ()) (Sim.Reaches.lift (assert_pos (by simpa using hs.same))) ?_
  refine Sim.Reaches.bind (sampleBits_onto hs.toValid hl) ?_
  have hlt : ∀ i ∈ l, i < s.origin.length := by rw [hs.origin]; exact hl.2.1
  rw [hs.same]
  obtain ⟨z, hz, hz1, hz2⟩ := bvFlipSparse_exact s.origin l hl.1 hlt
  have : z = y := by
    apply List.ext_getElem?
    intro i
    by_cases hi : i < s.origin.length
    · rw [hz2 i _ (List.getElem?_eq_getElem hi), hy.2 i _ (List.getElem?_eq_getElem hi)]
    · rw [List.getElem?_eq_none (by omega), List.getElem?_eq_none (by have := hy.1; omega)]
  rw [← this]
  exact Sim.Reaches.bind (Sim.Reaches.lift hz) (Sim.Reaches.pure _)

/-- What proposing from `s` and keeping or forgetting gives. -/
theorem proposed_flip {k : Sampler} {s t : Nbh} (hs : s.Ready k) (ht : s.Proposed k t) :
    bvFlipSparse s.origin t.flipped = ok t.candidate ∧ bvFlipSparse t.candidate t.flipped = ok s.origin := by
  have hlt : ∀ i ∈ t.flipped, i < s.origin.length := by rw [hs.origin]; exact ht.flips.2.1
  obtain ⟨z, hz, hz1, hz2⟩ := bvFlipSparse_exact s.origin t.flipped ht.flips.1 hlt
  have : z = t.candidate := by
    apply List.ext_getElem?
    intro i
    by_cases hi : i < s.origin.length
    · rw [hz2 i _ (List.getElem?_eq_getElem hi), ht.candidate.2 i _ (List.getElem?_eq_getElem hi)]
    · rw [List.getElem?_eq_none (by omega), List.getElem?_eq_none (by have := ht.candidate.1; omega)]
  subst this
  refine ⟨hz, ?_⟩
  have := bvFlipSparse_twice s.origin t.flipped (by rw [hs.origin]; exact flips_valid ht.flips)
  rwa [hz, ok_bind] at this

/-- C10: after keeping, origin and candidate coincide with the proposed candidate. -/
theorem keep_spec {k : Sampler} {s t : Nbh} (hs : s.Ready k) (ht : s.Proposed k t) :
    t.keep.Returns (fun u => u.Ready k ∧ u.n = s.n ∧ u.origin = t.candidate ∧ u.candidate = t.candidate) := by
  obtain ⟨h1, _⟩ := proposed_flip hs ht
  unfold Nbh.keep
  rw [ht.origin, h1, ok_bind, assert_pos (by simp), ok_bind, returns_ok]
  have hlen : t.candidate.length = t.n := by rw [ht.candidate.1, hs.origin, ht.size]
  refine ⟨⟨⟨?_, hlen, hlen, single_length ht.flips⟩, rfl⟩, ht.size, rfl, rfl⟩
  have := hs.fits
  rwa [← ht.size] at this

/-- C10: after forgetting, origin and candidate coincide with the old origin. -/
theorem forget_spec {k : Sampler} {s t : Nbh} (hs : s.Ready k) (ht : s.Proposed k t) :
    t.forget.Returns (fun u => u.Ready k ∧ u.n = s.n ∧ u.origin = s.origin ∧ u.candidate = s.origin) := by
  obtain ⟨_, h2⟩ := proposed_flip hs ht
  unfold Nbh.forget
  rw [h2, ok_bind, ht.origin, assert_pos (by simp), ok_bind, returns_ok]
  have hlen : s.origin.length = t.n := by rw [hs.origin, ht.size]
  refine ⟨⟨⟨?_, hlen, hlen, single_length ht.flips⟩, rfl⟩, ht.size, rfl, rfl⟩
  have := hs.fits
  rwa [← ht.size] at this

/-- What a client does with a neighbourhood. -/
inductive Nbh.Op where
  | setOrigin (x : BV)
  | proposeKeep
  | proposeForget

/-- One operation of a client. -/
def Nbh.step (k : Sampler) (s : Nbh) : Nbh.Op → Sim Nbh
  | .setOrigin x => pure (s.setOrigin x)
  | .proposeKeep => do
    let t ← s.propose k
    Sim.lift t.keep
  | .proposeForget => do
    let t ← s.propose k
    Sim.lift t.forget

/-- A sequence of operations of a client. -/
def Nbh.run (k : Sampler) : List Nbh.Op → Nbh → Sim Nbh
  | [], s => pure s
  | op :: ops, s => do
    let t ← s.step k op
    Nbh.run k ops t

/-- The origins reached from `x` by a sequence of operations. -/
inductive Moves (k : Sampler) (n : Nat) : List Nbh.Op → BV → BV → Prop where
  | nil (x) : Moves k n [] x x
  | setOrigin {ops x y z} : Moves k n ops y z → Moves k n (.setOrigin y :: ops) x z
  | keep {ops x y z l} : k.Flips n l → FlippedAt x l y → Moves k n ops y z → Moves k n (.proposeKeep :: ops) x z
  | forget {ops x z} : Moves k n ops x z → Moves k n (.proposeForget :: ops) x z

/-- C10: for all sequences of operations and all draws no assertion fails; at the end origin and candidate coincide,
and the origin was reached by flipping bits of kept candidates only. -/
theorem run_spec {k : Sampler} : ∀ (ops : List Nbh.Op) (s : Nbh), s.Ready k →
    (∀ x, Nbh.Op.setOrigin x ∈ ops → x.length = s.n) →
    Sim.Post (Nbh.run k ops s) (fun t => t.Ready k ∧ t.n = s.n ∧ t.candidate = t.origin ∧
      Moves k s.n ops s.origin t.origin)
  | [], s, hs, _ => Sim.Post.pure ⟨hs, rfl, hs.same, Moves.nil _⟩
  | op :: ops, s, hs, hx => by
    unfold Nbh.run
    cases op with
    | setOrigin x =>
      have hxl := hx x (List.mem_cons_self ..)
      refine (Sim.Post.pure (P := fun t => t = s.setOrigin x) rfl).bind ?_
      rintro _ rfl
      refine (run_spec ops (s.setOrigin x) ⟨⟨hs.fits, hxl, hxl, hs.single⟩, rfl⟩
        (fun y hy => hx y (List.mem_cons_of_mem _ hy))).mono ?_
      rintro t ⟨h1, h2, h3, h4⟩
      exact ⟨h1, h2, h3, Moves.setOrigin h4⟩
    | proposeKeep =>
      unfold Nbh.step
      refine Sim.Post.bind (P := fun u => u.Ready k ∧ u.n = s.n ∧ ∃ l, k.Flips s.n l ∧ FlippedAt s.origin l u.origin)
        ((propose_spec hs).bind (fun t ht => Sim.Post.lift ((keep_spec hs ht).mono ?_))) ?_
      · rintro u ⟨h1, h2, h3, h4⟩
        exact ⟨h1, h2, t.flipped, ht.flips, by rw [h3]; exact ht.candidate⟩
      · rintro u ⟨h1, h2, l, h3, h4⟩
        refine (run_spec ops u h1 (fun y hy => by rw [h2]; exact hx y (List.mem_cons_of_mem _ hy))).mono ?_
        rintro t ⟨g1, g2, g3, g4⟩
        rw [h2] at g4
        exact ⟨g1, by omega, g3, Moves.keep h3 h4 g4⟩
    | proposeForget =>
      unfold Nbh.step
      refine Sim.Post.bind (P := fun u => u.Ready k ∧ u.n = s.n ∧ u.origin = s.origin)
        ((propose_spec hs).bind (fun t ht => Sim.Post.lift ((forget_spec hs ht).mono ?_))) ?_
      · rintro u ⟨h1, h2, h3, h4⟩
        exact ⟨h1, h2, h3⟩
      · rintro u ⟨h1, h2, h3⟩
        refine (run_spec ops u h1 (fun y hy => by rw [h2]; exact hx y (List.mem_cons_of_mem _ hy))).mono ?_
        rintro t ⟨g1, g2, g3, g4⟩
        rw [h2, h3] at g4
        exact ⟨g1, by omega, g3, Moves.forget g4⟩

/-- C10: mutation in place flips a set of bits of the neighbourhood, and leaves origin and candidate. -/
theorem mutate_spec {k : Sampler} {s : Nbh} (hs : s.Valid k) {bv : BV} (hb : bv.length = s.n) :
    Sim.Post (s.mutate k bv) (fun r => r.1 = { s with flipped := r.1.flipped } ∧ r.1.Valid k ∧
      k.Flips s.n r.1.flipped ∧ FlippedAt bv r.1.flipped r.2) := by
  unfold Nbh.mutate
  refine (Sim.Post.assert (by simp only [beq_iff_eq]; rw [hb, hs.origin])).bind (fun _ _ => ?_)
  refine (sampleBits_flips hs).bind (fun l hl => ?_)
  obtain ⟨y, hy, hy1, hy2⟩ := bvFlipSparse_exact bv l hl.1 (by rw [hb]; exact hl.2.1)
  refine (Sim.Post.lift ⟨y, hy, rfl⟩).bind ?_
  rintro _ rfl
  exact Sim.Post.pure ⟨rfl, ⟨hs.fits, hs.origin, hs.candidate, single_length hl⟩, hl, hy1, hy2⟩

theorem copy_ok {α : Type} {x y : List α} (h : y.length = x.length) :
    forRange 0 x.length (fun i d => do
      let a ← vget x i
      vset d i a) y = ok x := by
  cases x with
  | nil => rw [List.length_eq_zero_iff.mp h]; rfl
  | cons a x =>
    rw [forRange_write (fun i => (a :: x)[i]?.getD a) y h]
    · congr 1
      apply List.ext_getElem
      · simp
      · intro i h1 h2
        rw [List.getElem_ofFn, List.getElem?_eq_getElem h2, Option.getD_some]
    · intro i t hi ht hti
      rw [vget_eq hi, ok_bind, vset_eq (by omega), List.getElem?_eq_getElem hi, Option.getD_some]

/-- C10: the mutation operator writes to its output the input with a set of bits of the neighbourhood flipped. -/
theorem map_spec {k : Sampler} {s : Nbh} (hs : s.Valid k) {input output : BV} (hb : input.length = s.n)
    (ho : output.length = s.n) :
    Sim.Post (s.map k input output) (fun r => r.1 = { s with flipped := r.1.flipped } ∧ r.1.Valid k ∧
      k.Flips s.n r.1.flipped ∧ FlippedAt input r.1.flipped r.2) := by
  unfold Nbh.map
  refine (Sim.Post.assert (by simp only [beq_iff_eq]; rw [hb, hs.origin])).bind (fun _ _ => ?_)
  refine (Sim.Post.assert (by simp only [beq_iff_eq]; rw [ho, hs.origin])).bind (fun _ _ => ?_)
  rw [copy_ok (show output.length = input.length by omega)]
  refine (Sim.Post.lift ⟨input, rfl, rfl⟩).bind ?_
  rintro _ rfl
  refine (sampleBits_flips hs).bind (fun l hl => ?_)
  obtain ⟨y, hy, hy1, hy2⟩ := bvFlipSparse_exact input l hl.1 (by rw [hb]; exact hl.2.1)
  refine (Sim.Post.lift ⟨y, hy, rfl⟩).bind ?_
  rintro _ rfl
  exact Sim.Post.pure ⟨rfl, ⟨hs.fits, hs.origin, hs.candidate, single_length hl⟩, hl, hy1, hy2⟩

/-! ## Observations -/

/-- C10 (negative part): without rejection sampling, standard bit mutation flips at least one bit even if no
mutation is allowed. -/
theorem standardBitMutation_ignores_option {params : StandardParams} (hr : params.rejection = false) {s : Nbh}
    (hs : s.Valid (.standardBitMutation params)) :
    Sim.Post ((Sampler.standardBitMutation (params.setAllowNoMutation true)).sampleBits s) (fun l => l ≠ []) := by
  refine (sampleBits_flips (k := .standardBitMutation (params.setAllowNoMutation true))
    ⟨hs.fits, hs.origin, hs.candidate, fun h => by cases h⟩).mono ?_
  rintro l ⟨_, _, h⟩ rfl
  rcases h with h | h
  · simp at h
  · rw [show (params.setAllowNoMutation true).rejection = params.rejection from rfl, hr] at h
    cases h.1

/-- C10 (negative part): once the rate has been below the threshold, rejection sampling remains in use for all
rates. -/
theorem setMutationRate_sticky (params : StandardParams) (rates : List Bool) :
    ((rates.foldl (fun p r => p.setMutationRate r) (params.setMutationRate true)).rejection) = true := by
  have : ∀ (rates : List Bool) (p : StandardParams), p.rejection = true →
      (rates.foldl (fun p r => p.setMutationRate r) p).rejection = true := by
    intro rates
    induction rates with
    | nil => intro p h; exact h
    | cons r rates ih =>
      intro p h
      refine ih _ ?_
      cases r
      · exact h
      · rfl
  exact this rates _ rfl

/-! ## Examples -/

example : ∃ s, (Sampler.hammingSphere 2).construct 5 = ok s ∧ s.Ready (.hammingSphere 2) ∧
    (Sampler.hammingSphere 2).Flips s.n [1, 4] := by
  obtain ⟨s, h1, h2, h3, _⟩ := (construct_ready (.hammingSphere 2) 5).1 ⟨by decide, by decide⟩
  exact ⟨s, h1, h3, by rw [h2]; exact ⟨by decide, by decide, rfl⟩⟩

/-- The draws `0, 3`, after which the bits are sorted, flip bits 0 and 3. -/
example : Nbh.propose (.hammingSphere 2) ⟨5, [true, true, false, false, true], [true, true, false, false, true], []⟩
    [3, 0, 0] = .ok ⟨5, [true, true, false, false, true], [false, true, false, true, true], [0, 3]⟩ [] := by
  decide +kernel

/-- Single bit flip: propose and keep bit 1, then propose and forget bit 0. -/
example : Nbh.run .singleBitFlip [.setOrigin [false, false, true], .proposeKeep, .proposeForget]
    ⟨3, [false, false, false], [false, false, false], [0]⟩ [1, 0] =
    .ok ⟨3, [false, true, true], [false, true, true], [0]⟩ [] := by decide +kernel

end Hnco
