import Verif.Algorithm.Mimic
import Verif.Algorithm.ProbabilityVectorProps
import Verif.Map.Props

/-! # C60, C50, C51: MIMIC -/

namespace Hnco

open Outcome

variable {K : Type}

/-! ## Specification -/

/-- Number of bit vectors whose bit `first` is `a` and bit `second` is `b`. -/
def countBits (xs : List BV) (first second : Nat) (a b : Bool) : Nat :=
  xs.countP (fun x => x[first]? == some a && x[second]? == some b)

/-- A term of the conditional entropy. -/
def entropyTerm (log : Rat → Rat) (nab na : Nat) : Rat := if nab = 0 then 0 else nab * log ((na : Rat) / nab)

/-- Conditional entropy of the bit `second` given the bit `first` in the sample `xs` (times the size of the sample). -/
def sampleEntropy (log : Rat → Rat) (xs : List BV) (first second : Nat) : Rat :=
  ∑ a : Bool, ∑ b : Bool, entropyTerm log (countBits xs first second a b)
    (countBits xs first second a false + countBits xs first second a true)

/-- Frequency in the sample `xs` of the value 1 of the bit `second` when the bit `first` is `a`; 1/2 if it never is. -/
def condProb (xs : List BV) (first second : Nat) (a : Bool) : Rat :=
  if countBits xs first second a false + countBits xs first second a true = 0 then 1 / 2
  else (countBits xs first second a true : Rat) /
    ((countBits xs first second a false + countBits xs first second a true : Nat) : Rat)

/-- Frequency of the value 1 of a bit. -/
def bitMean (xs : List BV) (i : Nat) : Rat := (xs.map (fun x => bitValue x i)).sum / xs.length

/-- `order` is a chain of the sample `xs`: it contains every component once, its first component is one with the smallest
`min(p, 1 - p)`, and each other component is one which minimizes the conditional entropy given the component before it,
among those which are not in the chain yet. -/
structure IsChain (log : Rat → Rat) (n : Nat) (xs : List BV) (order : List Nat) : Prop where
  perm : order.Perm (List.range n)
  root : ∀ r, order[0]? = some r → ∀ v, v < n →
    min (bitMean xs r) (1 - bitMean xs r) ≤ min (bitMean xs v) (1 - bitMean xs v)
  next : ∀ (k : Nat) a b, order[k]? = some a → order[k + 1]? = some b → ∀ v, v < n → v ∉ order.take (k + 1) →
    sampleEntropy log xs a b ≤ sampleEntropy log xs a v

/-- The probabilities of a chain, `clip` being applied to them. -/
structure ChainProbs (clip : Rat → Rat) (n : Nat) (xs : List BV) (c : Chain) : Prop where
  off_length : c.off.length = n
  on_length : c.on.length = n
  root : ∀ r, c.permutation[0]? = some r →
    c.off[0]? = some (clip (bitMean xs r)) ∧ c.on[0]? = some (clip (bitMean xs r))
  next : ∀ (k : Nat) a b, c.permutation[k]? = some a → c.permutation[k + 1]? = some b →
    c.off[k + 1]? = some (clip (condProb xs a b false)) ∧ c.on[k + 1]? = some (clip (condProb xs a b true))

/-- What the assertions ask of a chain before sampling. -/
structure Chain.Ready (n : Nat) (c : Chain) : Prop where
  perm : c.permutation.Perm (List.range n)
  off : PvBounded n c.off
  on : PvBounded n c.on
  entropies : c.entropies.length = n

/-- A sample `y` of the chain: each bit of `y` is determined by a number in `[0, 1)` and the previous bit of the chain. -/
def IsChainSample (c : Chain) (us : Nat → Rat) (y : BV) : Prop :=
  (∀ r p, c.permutation[0]? = some r → c.on[0]? = some p → y[r]? = some (decide (us 0 < p))) ∧
  ∀ (k : Nat) a b g p, c.permutation[k]? = some a → c.permutation[k + 1]? = some b → y[a]? = some g →
    (if g then c.on else c.off)[k + 1]? = some p → y[b]? = some (decide (us (k + 1) < p))

/-! ## Auxiliary functions -/

theorem minElement_spec {l : List Rat} {i : Nat} (hi : i < l.length) :
    (minElement l i).Returns (fun r => i ≤ r ∧ r < l.length ∧ ∀ (k : Nat) a b, i ≤ k → l[k]? = some a → l[r]? = some b →
      b ≤ a) := by
  unfold minElement
  rw [if_neg (by omega)]
  refine (forRange_returns (fun j (r : Nat) => i ≤ r ∧ r < l.length ∧ ∀ (k : Nat) a b, i ≤ k → k < j → l[k]? = some a →
    l[r]? = some b → b ≤ a) (by omega) ⟨le_refl _, hi, ?_⟩ ?_).mono ?_
  · intro k a b h1 h2 h3 h4
    obtain rfl : k = i := by omega
    rw [h3] at h4
    cases h4
    exact le_refl _
  · rintro j r h1 h2 ⟨g1, g2, g3⟩
    rw [vget_eq h2, ok_bind, vget_eq g2, ok_bind]
    refine returns_ok.mpr ?_
    have old : ∀ (k : Nat) a, i ≤ k → k < j → l[k]? = some a → l[r] ≤ a := fun k a k1 k2 k3 =>
      g3 k a _ k1 k2 k3 (List.getElem?_eq_getElem g2)
    split
    · rename_i hlt
      refine ⟨by omega, h2, ?_⟩
      intro k a b k1 k2 k3 k4
      rw [List.getElem?_eq_getElem h2] at k4
      cases k4
      rcases Nat.lt_or_ge k j with h | h
      · exact le_trans (le_of_lt hlt) (old k a k1 h k3)
      · obtain rfl : k = j := by omega
        rw [List.getElem?_eq_getElem h2] at k3
        cases k3
        exact le_refl _
    · rename_i hlt
      refine ⟨g1, g2, ?_⟩
      intro k a b k1 k2 k3 k4
      rw [List.getElem?_eq_getElem g2] at k4
      cases k4
      rcases Nat.lt_or_ge k j with h | h
      · exact old k a k1 h k3
      · obtain rfl : k = j := by omega
        rw [List.getElem?_eq_getElem h2] at k3
        cases k3
        exact not_lt.mp hlt
  · rintro r ⟨h1, h2, h3⟩
    exact ⟨h1, h2, fun k a b k1 k2 k3 => h3 k a b k1 (List.getElem?_eq_some_iff.mp k2).1 k2 k3⟩

theorem swapAt_eq {α : Type} {l : List α} {i j : Nat} (hi : i < l.length) (hj : j < l.length) :
    swapAt l i j = ok ((l.set i l[j]).set j l[i]) := by
  unfold swapAt
  rw [vget_eq hi, ok_bind, vget_eq hj, ok_bind, vset_eq hi, ok_bind, vset_eq (by simpa using hj)]

theorem permCheck_eq {p : List Nat} {n : Nat} (h : p.Perm (List.range n)) : permCheck p = ok () := by
  unfold permCheck
  obtain ⟨b, e, hb⟩ := permIsValid_correct (p.map Int.ofNat)
  have hl : p.length = n := by rw [h.length_eq, List.length_range]
  rw [e, ok_bind, hb.mpr (by rw [List.length_map, hl]; exact h.map _), assert_pos rfl]

theorem bitRandom_post (p : Rat) : Sim.Post (bitRandom p) (fun b => ∃ u : Rat, (0 ≤ u ∧ u < 1) ∧ b = decide (u < p)) := by
  unfold bitRandom
  exact Sim.Post.uniform.bind (fun u hu => Sim.Post.pure ⟨u, hu, rfl⟩)

/-! ## Sampling -/

/-- C60: sampling is defined, and each bit of the result is drawn once, with the probability given by the previous bit of
the chain; the former content of the vector has no influence. -/
theorem mimicSample_spec {n : Nat} (hn : 0 < n) {c : Chain} (hc : c.Ready n) {x : BV} (hx : x.length = n) :
    Sim.Post (mimicSample c x) (fun y => y.length = n ∧ ∃ us : Nat → Rat, (∀ i, 0 ≤ us i ∧ us i < 1) ∧
      IsChainSample c us y) := by
  have hpl : c.permutation.length = n := by rw [hc.perm.length_eq, List.length_range]
  have hnd : c.permutation.Nodup := hc.perm.nodup_iff.mpr List.nodup_range
  have hlt : ∀ (i : Nat) (hi : i < c.permutation.length), c.permutation[i] < n := fun i hi =>
    List.mem_range.mp (hc.perm.mem_iff.mp (List.getElem_mem hi))
  have hon := hc.on.1
  have hoff := hc.off.1
  unfold mimicSample
  refine (Sim.Post.assert (by simp [hx, hpl])).bind (fun _ _ => ?_)
  refine (Sim.Post.assert (by simp [hx, hoff])).bind (fun _ _ => ?_)
  refine (Sim.Post.assert (by simp [hx, hon])).bind (fun _ _ => ?_)
  refine Sim.Post.lift_bind (permCheck_eq hc.perm) ?_
  refine Sim.Post.lift_bind (vget_eq (by omega)) (Sim.Post.lift_bind (vget_eq (by omega)) ?_)
  refine (bitRandom_post _).bind ?_
  rintro b ⟨u, hu, rfl⟩
  refine Sim.Post.lift_bind (vset_eq (by rw [hx]; exact hlt 0 (by omega))) ?_
  refine (Sim.Post.forRange (I := fun j (y : BV) => y.length = n ∧ ∃ us : Nat → Rat, (∀ i, 0 ≤ us i ∧ us i < 1) ∧
    (∀ r p, c.permutation[0]? = some r → c.on[0]? = some p → y[r]? = some (decide (us 0 < p))) ∧
    ∀ (k : Nat) a b g p, k + 1 < j → c.permutation[k]? = some a → c.permutation[k + 1]? = some b → y[a]? = some g →
      (if g then c.on else c.off)[k + 1]? = some p → y[b]? = some (decide (us (k + 1) < p)))
    (by simp; omega) ⟨by simpa using hx, fun _ => u, fun _ => hu, ?_, ?_⟩ ?_).mono ?_
  · intro r p h1 h2
    rw [List.getElem?_eq_getElem (by omega)] at h1 h2
    cases h1
    cases h2
    exact List.getElem?_set_self (by rw [hx]; exact hlt 0 (by omega))
  · intro k _ _ _ _ hk
    omega
  · rintro i y h1 h2 ⟨hy, us, hus, s1, s2⟩
    have hin : i < n := by simpa [hx] using h2
    refine Sim.Post.lift_bind (vget_eq (by omega)) ?_
    have hprev := hlt (i - 1) (by omega)
    refine Sim.Post.lift_bind (vget_eq (by omega)) ?_
    have hlen : i < (if y[c.permutation[i - 1]] = true then c.on else c.off).length := by split <;> omega
    refine Sim.Post.lift_bind (vget_eq hlen) ?_
    refine Sim.Post.lift_bind (vget_eq (by omega)) ?_
    refine (bitRandom_post _).bind ?_
    rintro b ⟨v, hv, rfl⟩
    have hcur := hlt i (by omega)
    have hne : ∀ (k : Nat) a, k ≠ i → c.permutation[k]? = some a → c.permutation[i] ≠ a := by
      intro k a hk ha e
      have : c.permutation[i]? = c.permutation[k]? := by rw [ha, List.getElem?_eq_getElem (by omega), e]
      exact hk ((List.getElem?_inj (i := i) (j := k) (by omega) hnd).mp this).symm
    refine Sim.Post.lift ⟨_, vset_eq (by omega), by simpa using hy, fun k => if k = i then v else us k, ?_, ?_, ?_⟩
    · intro k
      dsimp only
      split
      · exact hv
      · exact hus k
    · intro r p k1 k2
      rw [List.getElem?_set_ne (hne 0 r (by omega) k1)]
      have e0 : (if (0 : Nat) = i then v else us 0) = us 0 := if_neg (by omega)
      simp only [e0]
      exact s1 r p k1 k2
    · intro k a b' g p k0 k1 k2 k3 k4
      rw [List.getElem?_set_ne (hne k a (by omega) k1)] at k3
      by_cases hk : k + 1 = i
      · subst hk
        simp only [Nat.add_sub_cancel] at hlen ⊢
        rw [List.getElem?_eq_getElem (by omega)] at k2
        cases k2
        rw [List.getElem?_set_self (by omega), if_pos trivial]
        have hpk : c.permutation[k] < y.length := by rw [hy]; exact hlt k (by omega)
        have e1 : c.permutation[k] = a := by
          rw [List.getElem?_eq_getElem (by omega)] at k1
          exact Option.some.inj k1
        subst e1
        have e2 : y[c.permutation[k]] = g := by
          rw [List.getElem?_eq_getElem (by omega)] at k3
          exact Option.some.inj k3
        subst e2
        rw [List.getElem?_eq_getElem hlen] at k4
        rw [Option.some.inj k4]
      · rw [List.getElem?_set_ne (hne (k + 1) b' (by omega) k2)]
        simp only [if_neg hk]
        exact s2 k a b' g p (by omega) k1 k2 k3 k4
  · rintro y ⟨hy, us, hus, s1, s2⟩
    refine ⟨hy, us, hus, s1, ?_⟩
    intro k a b g p k1 k2 k3 k4
    refine s2 k a b g p ?_ k1 k2 k3 k4
    have := (List.getElem?_eq_some_iff.mp k2).1
    simp [hx]
    omega

theorem bitRandom_any {p : Rat} (h0 : 0 < p) (h1 : p < 1) (b : Bool) : Sim.Reaches (bitRandom p) b := by
  have hu : ∃ u : Rat, Sim.Reaches Sim.uniform u ∧ decide (u < p) = b := by
    cases b
    · refine ⟨p, ?_, by simp⟩
      have hnum : 0 ≤ p.num := Rat.num_nonneg.mpr (le_of_lt h0)
      have hlt : p.num.toNat < p.den := by
        have := Rat.num_lt_denom_iff.mpr h1
        omega
      have := Sim.Reaches.uniform hlt
      rwa [show ((p.num.toNat : Nat) : Rat) = ((p.num : Int) : Rat) by
        exact_mod_cast Int.toNat_of_nonneg hnum, Rat.num_div_den] at this
    · refine ⟨0, ?_, decide_eq_true h0⟩
      have := Sim.Reaches.uniform (a := 0) (b := 1) (by decide)
      simpa using this
  obtain ⟨u, e1, e2⟩ := hu
  unfold bitRandom
  exact Sim.Reaches.bind e1 (by rw [e2]; exact Sim.Reaches.pure b)

/-- The vector `x` in which the components of `order` have been copied from `y`. -/
def overwrite (order : List Nat) (x y : BV) : BV := x.mapIdx (fun i b => if i ∈ order then y[i]?.getD b else b)

theorem overwrite_set {order : List Nat} {x y : BV} (h : x.length = y.length) {k : Nat} (hk : k < y.length) :
    (overwrite order x y).set k y[k] = overwrite (order ++ [k]) x y := by
  unfold overwrite
  refine List.ext_getElem? (fun i => ?_)
  by_cases hik : k = i
  · subst hik
    rw [List.getElem?_set_self (by simp; omega), List.getElem?_mapIdx, List.getElem?_eq_getElem (show k < x.length by omega)]
    simp [List.getElem?_eq_getElem hk]
  · rw [List.getElem?_set_ne hik, List.getElem?_mapIdx, List.getElem?_mapIdx]
    have : ∀ b : Bool, (if i ∈ order ++ [k] then y[i]?.getD b else b) = (if i ∈ order then y[i]?.getD b else b) := by
      intro b
      simp [Ne.symm hik]
    simp only [this]

/-- C60, C51: with at least two components, the model can give any bit vector. -/
theorem mimicSample_any {n : Nat} (hn : 2 ≤ n) {c : Chain} (hc : c.Ready n) {x y : BV} (hx : x.length = n)
    (hy : y.length = n) : Sim.Reaches (mimicSample c x) y := by
  have hpl : c.permutation.length = n := by rw [hc.perm.length_eq, List.length_range]
  have hlt : ∀ (i : Nat) (hi : i < c.permutation.length), c.permutation[i] < n := fun i hi =>
    List.mem_range.mp (hc.perm.mem_iff.mp (List.getElem_mem hi))
  have hon := hc.on.1
  have hoff := hc.off.1
  obtain ⟨hm, _⟩ := pv_margins hn
  have hany : ∀ (pv : List Rat), PvBounded n pv → ∀ (i : Nat) (hi : i < pv.length) (b : Bool),
      Sim.Reaches (bitRandom pv[i]) b := by
    intro pv hpv i hi b
    obtain ⟨g1, g2⟩ := hpv.2 _ (List.getElem_mem hi)
    exact bitRandom_any (lt_of_lt_of_le hm g1) (by linarith) b
  have hset : ∀ (j : Nat) (hj : j < c.permutation.length), (overwrite (c.permutation.take j) x y).set c.permutation[j]
      (y[c.permutation[j]]'(by rw [hy]; exact hlt j hj)) = overwrite (c.permutation.take (j + 1)) x y := by
    intro j hj
    rw [overwrite_set (by omega), List.take_succ_eq_append_getElem hj]
  have hol : ∀ j, (overwrite (c.permutation.take j) x y).length = n := fun j => by simp [overwrite, hx]
  have h0 : overwrite (c.permutation.take 0) x y = x := by
    unfold overwrite
    rw [List.take_zero]
    exact (mapIdx_map (f := id) (fun i a _ => by simp)).trans (by simp)
  have hall : overwrite (c.permutation.take n) x y = y := by
    unfold overwrite
    rw [List.take_of_length_le (by omega)]
    refine List.ext_getElem (by simp; omega) (fun i h1 h2 => ?_)
    rw [List.getElem_mapIdx, if_pos (hc.perm.mem_iff.mpr (List.mem_range.mpr (by omega))), List.getElem?_eq_getElem h2]
    rfl
  unfold mimicSample
  refine Sim.Reaches.bind (a := ()) (Sim.Reaches.lift (assert_pos (by simp [hx, hpl]))) ?_
  refine Sim.Reaches.bind (a := ()) (Sim.Reaches.lift (assert_pos (by simp [hx, hoff]))) ?_
  refine Sim.Reaches.bind (a := ()) (Sim.Reaches.lift (assert_pos (by simp [hx, hon]))) ?_
  refine Sim.Reaches.bind (a := ()) (Sim.Reaches.lift (permCheck_eq hc.perm)) ?_
  have hk0 := hlt 0 (by omega)
  refine Sim.Reaches.bind (Sim.Reaches.lift (vget_eq (by omega))) (Sim.Reaches.bind (Sim.Reaches.lift (vget_eq (by omega))) ?_)
  refine Sim.Reaches.bind (hany c.on hc.on 0 (by omega) (y[c.permutation[0]]'(by omega))) ?_
  refine Sim.Reaches.bind (Sim.Reaches.lift (vset_eq (by omega))) ?_
  have hs0 := hset 0 (by omega)
  rw [h0] at hs0
  rw [hs0]
  have key := Sim.Reaches.forRange (body := fun i (bv : BV) => do
    let previous ← Sim.lift (vget c.permutation (i - 1))
    let given ← Sim.lift (vget bv previous)
    let p ← Sim.lift (vget (if given then c.on else c.off) i)
    let k ← Sim.lift (vget c.permutation i)
    let b ← bitRandom p
    Sim.lift (vset bv k b)) (fun j => overwrite (c.permutation.take j) x y) (a := 1) (b := n) (by omega)
    (s := overwrite (c.permutation.take (0 + 1)) x y) rfl ?_
  · rw [hall] at key
    rw [hol]
    exact key
  · intro j h1 h2
    have hp1 := hlt (j - 1) (by omega)
    have hp2 := hlt j (by omega)
    refine Sim.Reaches.bind (Sim.Reaches.lift (vget_eq (by omega))) ?_
    refine Sim.Reaches.bind (Sim.Reaches.lift (vget_eq (by rw [hol]; omega))) ?_
    refine Sim.Reaches.bind (Sim.Reaches.lift (vget_eq (by split <;> omega))) ?_
    refine Sim.Reaches.bind (Sim.Reaches.lift (vget_eq (by omega))) ?_
    refine Sim.Reaches.bind (hany _ (by split; exact hc.on; exact hc.off) j _ (y[c.permutation[j]]'(by omega))) ?_
    exact Sim.Reaches.lift (by rw [vset_eq (by rw [hol]; omega), hset])

/-! ## Contingency tables -/

theorem rowEntropy_eq (log : Rat → Rat) (r : Nat × Nat) (e : Rat) :
    rowEntropy log r e = e + (entropyTerm log r.1 (r.1 + r.2) + entropyTerm log r.2 (r.1 + r.2)) := by
  unfold rowEntropy entropyTerm
  by_cases h1 : r.1 = 0 <;> by_cases h2 : r.2 = 0
  · simp [h1, h2]
  · simp [h1, h2]
  · simp [h1, h2]
  · simp [h1, h2]
    ring

theorem entropyTerm_nonneg {log : Rat → Rat} (hlog : ∀ x, 1 ≤ x → 0 ≤ log x) {a b : Nat} (h : a ≤ b) :
    0 ≤ entropyTerm log a b := by
  unfold entropyTerm
  split
  · exact le_refl _
  · rename_i ha
    have ha' : (0 : Rat) < a := by exact_mod_cast Nat.pos_of_ne_zero ha
    refine mul_nonneg (le_of_lt ha') (hlog _ ?_)
    rw [le_div_iff₀ ha', one_mul]
    exact_mod_cast h

/-- The table of a sample. -/
def tableOf (xs : List BV) (first second : Nat) : Table :=
  ((countBits xs first second false false, countBits xs first second false true),
    (countBits xs first second true false, countBits xs first second true true))

theorem tableOf_entropy (log : Rat → Rat) (xs : List BV) (first second : Nat) :
    rowEntropy log (tableOf xs first second).2 (rowEntropy log (tableOf xs first second).1 0) =
      sampleEntropy log xs first second := by
  rw [rowEntropy_eq, rowEntropy_eq]
  unfold sampleEntropy tableOf
  simp only [Fintype.sum_bool]
  ring

theorem sampleEntropy_nonneg {log : Rat → Rat} (hlog : ∀ x, 1 ≤ x → 0 ≤ log x) (xs : List BV) (first second : Nat) :
    0 ≤ sampleEntropy log xs first second := by
  unfold sampleEntropy
  refine Finset.sum_nonneg (fun a _ => Finset.sum_nonneg (fun b _ => entropyTerm_nonneg hlog ?_))
  cases b <;> omega

theorem tableOf_snoc {xs : List BV} {x : BV} {first second : Nat} (h1 : first < x.length) (h2 : second < x.length) :
    tableOf (xs ++ [x]) first second = (tableOf xs first second).count x[first] x[second] := by
  unfold tableOf countBits
  simp only [List.countP_append, List.countP_singleton, List.getElem?_eq_getElem h1, List.getElem?_eq_getElem h2]
  cases x[first] <;> cases x[second] <;> simp [Table.count]

theorem tableOf_total {n : Nat} {xs : List BV} (hxs : ∀ x ∈ xs, x.length = n) {first second : Nat} (h1 : first < n)
    (h2 : second < n) : countBits xs first second false false + countBits xs first second false true +
      (countBits xs first second true false + countBits xs first second true true) = xs.length := by
  unfold countBits
  induction xs with
  | nil => rfl
  | cons x xs ih =>
    have hx := hxs x List.mem_cons_self
    have ih := ih (fun y hy => hxs y (List.mem_cons_of_mem _ hy))
    have g1 : first < x.length := by omega
    have g2 : second < x.length := by omega
    simp only [List.countP_cons, List.getElem?_eq_getElem g1, List.getElem?_eq_getElem g2, List.length_cons]
    cases x[first] <;> cases x[second] <;> simp <;> omega

theorem mimicTable_spec [LinearOrder K] {p : Pop K} {size n sel : Nat} (hp : p.Valid size n) (h2 : sel ≤ size)
    {x : Nat → BV} (hx : ∀ k, k < size → p.bestBv k = ok (x k)) {first second : Nat} (hf : first < n) (hs : second < n) :
    mimicTable (sel : Int) p first second = ok (tableOf ((List.range sel).map x) first second) := by
  unfold mimicTable
  rw [Int.toNat_natCast]
  obtain ⟨t, e, rfl⟩ := forRange_returns (body := fun k (t : Table) => do
    let bv ← p.bestBv k
    let a ← vget bv first
    let b ← vget bv second
    ok (t.count a b)) (s := ((0, 0), (0, 0))) (fun k (t : Table) => t = tableOf ((List.range k).map x) first second)
    (Nat.zero_le sel) rfl (by
      rintro k t _ hk rfl
      have hl := bestBv_length hp (by omega) (hx k (by omega))
      rw [hx k (by omega), ok_bind, vget_eq (by omega), ok_bind, vget_eq (by omega), ok_bind]
      refine returns_ok.mpr ?_
      rw [List.range_succ, List.map_append, List.map_singleton, tableOf_snoc])
  exact e

/-! ## The model update -/

theorem bitMean_selected {sel : Nat} (x : Nat → BV) (i : Nat) :
    bitMean ((List.range sel).map x) i = (∑ k ∈ Finset.range sel, bitValue (x k) i) / (sel : Rat) := by
  unfold bitMean
  rw [List.map_map, List.length_map, List.length_range]
  congr 1

theorem condEntropyStep {log : Rat → Rat} (hlog : ∀ x, 1 ≤ x → 0 ≤ log x) {n sel : Nat} {xs : List BV}
    (hxs : ∀ x ∈ xs, x.length = n) (hsel : xs.length = sel) {first second : Nat} (hf : first < n) (hs : second < n)
    {c : Chain} {j : Nat} (h1 : j < c.off.length) (h2 : j < c.on.length) (h3 : j < c.entropies.length) :
    conditionalEntropy log (sel : Int) (tableOf xs first second) j c =
      ok ⟨c.permutation, c.off.set j (condProb xs first second false), c.on.set j (condProb xs first second true),
        c.entropies.set j (sampleEntropy log xs first second)⟩ := by
  unfold conditionalEntropy
  rw [tableOf_entropy, assert_pos (decide_eq_true h3), ok_bind, vset_eq h1, ok_bind, vset_eq h2, ok_bind,
    assert_pos (decide_eq_true (by
      show ((_ : Nat) : Int) = sel
      rw [← hsel]
      exact_mod_cast tableOf_total hxs hf hs)), ok_bind,
    assert_pos (decide_eq_true (sampleEntropy_nonneg hlog xs first second)), ok_bind, vset_eq h3, ok_bind]
  rfl

/-- Lengths. -/
structure Chain.Sized (n : Nat) (c : Chain) : Prop where
  perm : c.permutation.Perm (List.range n)
  off : c.off.length = n
  on : c.on.length = n
  entropies : c.entropies.length = n

theorem Chain.Sized.length {n : Nat} {c : Chain} (h : c.Sized n) : c.permutation.length = n := by
  rw [h.perm.length_eq, List.length_range]

theorem mimicCandidates_spec [LinearOrder K] {log : Rat → Rat} (hlog : ∀ x, 1 ≤ x → 0 ≤ log x) {p : Pop K}
    {size n sel : Nat} (hp : p.Valid size n) (h2 : sel ≤ size) {x : Nat → BV}
    (hx : ∀ k, k < size → p.bestBv k = ok (x k)) {c : Chain} (hc : c.Sized n) {i first : Nat} (hi : 1 ≤ i) (hin : i < n)
    (hfirst : c.permutation[i - 1]? = some first) :
    (mimicCandidates log (sel : Int) p first i c).Returns (fun r => r.permutation = c.permutation ∧ r.Sized n ∧
      (∀ k : Nat, k < i → r.off[k]? = c.off[k]? ∧ r.on[k]? = c.on[k]?) ∧
      ∀ (j v : Nat), i ≤ j → c.permutation[j]? = some v →
        r.off[j]? = some (condProb ((List.range sel).map x) first v false) ∧
        r.on[j]? = some (condProb ((List.range sel).map x) first v true) ∧
        r.entropies[j]? = some (sampleEntropy log ((List.range sel).map x) first v)) := by
  have hpl := hc.length
  have hlt : ∀ (k v : Nat), c.permutation[k]? = some v → v < n := fun k v h =>
    List.mem_range.mp (hc.perm.mem_iff.mp (List.mem_of_getElem? h))
  have hf : first < n := hlt _ _ hfirst
  have hxs : ∀ y ∈ (List.range sel).map x, y.length = n := by
    intro y hy
    obtain ⟨k, hk, rfl⟩ := List.mem_map.mp hy
    exact bestBv_length hp (by have := List.mem_range.mp hk; omega) (hx k (by have := List.mem_range.mp hk; omega))
  unfold mimicCandidates
  refine (forRange_returns (fun m (r : Chain) => r.permutation = c.permutation ∧ r.Sized n ∧
      (∀ k : Nat, k < i → r.off[k]? = c.off[k]? ∧ r.on[k]? = c.on[k]?) ∧
      ∀ (j v : Nat), i ≤ j → j < m → c.permutation[j]? = some v →
        r.off[j]? = some (condProb ((List.range sel).map x) first v false) ∧
        r.on[j]? = some (condProb ((List.range sel).map x) first v true) ∧
        r.entropies[j]? = some (sampleEntropy log ((List.range sel).map x) first v))
    (by omega) ⟨rfl, hc, fun _ _ => ⟨rfl, rfl⟩, fun _ _ h1 h2 => by omega⟩ ?_).mono ?_
  · rintro j r h1 hj ⟨e, hr, g1, g2⟩
    rw [e, vget_eq hj, ok_bind]
    have hsec : c.permutation[j]? = some c.permutation[j] := List.getElem?_eq_getElem hj
    have hne : c.permutation[j] ≠ first := by
      intro e
      have : c.permutation[j]? = c.permutation[i - 1]? := by rw [hfirst, hsec, e]
      have := (List.getElem?_inj (j := i - 1) hj (hc.perm.nodup_iff.mpr List.nodup_range)).mp this
      omega
    rw [assert_pos (by simpa using hne), ok_bind, mimicTable_spec hp h2 hx hf (hlt _ _ hsec), ok_bind,
      condEntropyStep hlog hxs (by simp) hf (hlt _ _ hsec) (by rw [hr.off]; omega) (by rw [hr.on]; omega)
        (by rw [hr.entropies]; omega)]
    refine returns_ok.mpr ⟨e, ⟨hr.perm, by simpa using hr.off, by simpa using hr.on, by simpa using hr.entropies⟩, ?_, ?_⟩
    · intro k hk
      simp only
      rw [List.getElem?_set_ne (by omega), List.getElem?_set_ne (by omega)]
      exact g1 k hk
    · intro k v k1 k2 k3
      simp only
      by_cases hkj : k = j
      · subst hkj
        rw [hsec] at k3
        cases k3
        exact ⟨List.getElem?_set_self (by rw [hr.off]; omega), List.getElem?_set_self (by rw [hr.on]; omega),
          List.getElem?_set_self (by rw [hr.entropies]; omega)⟩
      · rw [List.getElem?_set_ne (by omega), List.getElem?_set_ne (by omega), List.getElem?_set_ne (by omega)]
        exact g2 k v k1 (by omega) k3
  · rintro r ⟨e, hr, g1, g2⟩
    exact ⟨e, hr, g1, fun j v h1 h2 => g2 j v h1 (List.getElem?_eq_some_iff.mp h2).1 h2⟩

/-- The chain is right up to the position `m`. -/
structure ChainUpTo (log : Rat → Rat) (n : Nat) (xs : List BV) (m : Nat) (c : Chain) : Prop where
  sized : c.Sized n
  root : ∀ r, c.permutation[0]? = some r → (∀ v, v < n →
    min (bitMean xs r) (1 - bitMean xs r) ≤ min (bitMean xs v) (1 - bitMean xs v)) ∧
    c.off[0]? = some (bitMean xs r) ∧ c.on[0]? = some (bitMean xs r)
  next : ∀ (k : Nat) a b, k + 1 < m → c.permutation[k]? = some a → c.permutation[k + 1]? = some b →
    (∀ v, v < n → v ∉ c.permutation.take (k + 1) → sampleEntropy log xs a b ≤ sampleEntropy log xs a v) ∧
    c.off[k + 1]? = some (condProb xs a b false) ∧ c.on[k + 1]? = some (condProb xs a b true)

theorem mimicChoose_spec {n i child : Nat} {c : Chain} (hc : c.Sized n) (h1 : i ≤ child) (h2 : child < n) :
    (mimicChoose i child c).Returns (fun r => r.Sized n ∧
      (∀ k : Nat, k < i → r.permutation[k]? = c.permutation[k]? ∧ r.off[k]? = c.off[k]? ∧ r.on[k]? = c.on[k]?) ∧
      r.permutation[i]? = c.permutation[child]? ∧ r.off[i]? = c.off[child]? ∧ r.on[i]? = c.on[child]?) := by
  have hpl := hc.length
  unfold mimicChoose
  split
  · rename_i e
    subst e
    exact returns_ok.mpr ⟨hc, fun _ _ => ⟨rfl, rfl, rfl⟩, rfl, rfl, rfl⟩
  · have hi : i < c.permutation.length := by omega
    have hch : child < c.permutation.length := by omega
    have o1 : child < c.off.length := by rw [hc.off]; omega
    have o2 : i < c.off.length := by rw [hc.off]; omega
    have o3 : child < c.on.length := by rw [hc.on]; omega
    have o4 : i < c.on.length := by rw [hc.on]; omega
    rw [swapAt_eq hi hch, ok_bind, vget_eq o1, ok_bind, vset_eq o2, ok_bind, vget_eq o3, ok_bind, vset_eq o4, ok_bind]
    refine returns_ok.mpr ⟨⟨(List.set_set_perm hi hch).trans hc.perm, by simpa using hc.off, by simpa using hc.on,
      hc.entropies⟩, ?_, ?_⟩
    · intro k hk
      simp only
      rw [List.getElem?_set_ne (by omega), List.getElem?_set_ne (by omega), List.getElem?_set_ne (by omega),
        List.getElem?_set_ne (by omega)]
      exact ⟨rfl, rfl, rfl⟩
    · simp only
      rw [List.getElem?_set_ne (by omega), List.getElem?_set_self hi, List.getElem?_set_self o2, List.getElem?_set_self o4,
        List.getElem?_eq_getElem hch, List.getElem?_eq_getElem o1, List.getElem?_eq_getElem o3]
      exact ⟨rfl, rfl, rfl⟩

theorem take_eq_of_prefix {α : Type} {l r : List α} {i : Nat} (hl : i ≤ l.length) (hr : i ≤ r.length)
    (h : ∀ k : Nat, k < i → r[k]? = l[k]?) : r.take i = l.take i := by
  refine List.ext_getElem? (fun k => ?_)
  rcases Nat.lt_or_ge k i with hk | hk
  · rw [List.getElem?_take_of_lt hk, List.getElem?_take_of_lt hk, h k hk]
  · rw [List.getElem?_eq_none (by simp; omega), List.getElem?_eq_none (by simp; omega)]

theorem mimicLinks_spec [LinearOrder K] {log : Rat → Rat} (hlog : ∀ x, 1 ≤ x → 0 ≤ log x) {p : Pop K}
    {size n sel : Nat} (hn : 0 < n) (hp : p.Valid size n) (h2 : sel ≤ size) {x : Nat → BV}
    (hx : ∀ k, k < size → p.bestBv k = ok (x k)) {c : Chain} (hc : ChainUpTo log n ((List.range sel).map x) 1 c) :
    (mimicLinks log (sel : Int) p c).Returns (fun r => ChainUpTo log n ((List.range sel).map x) n r) := by
  unfold mimicLinks
  rw [hc.sized.length]
  refine forRange_returns (fun m (r : Chain) => ChainUpTo log n ((List.range sel).map x) m r) (by omega) hc ?_
  intro i r hi1 hin hr
  have hpl := hr.sized.length
  have hprev : r.permutation[i - 1]? = some r.permutation[i - 1] := List.getElem?_eq_getElem (by omega)
  rw [vget_eq (by omega), ok_bind]
  refine (mimicCandidates_spec hlog hp h2 hx hr.sized hi1 hin hprev).bind ?_
  rintro t ⟨e, ht, t1, t2⟩
  refine (minElement_spec (by rw [ht.entropies]; exact hin)).bind ?_
  rintro child ⟨c1, c2, c3⟩
  rw [ht.entropies] at c2
  have htl := ht.length
  rw [assert_pos (decide_eq_true (by omega)), ok_bind]
  refine (mimicChoose_spec ht c1 c2).bind ?_
  rintro u ⟨hu, u1, u2, u3, u4⟩
  rw [permCheck_eq hu.perm, ok_bind]
  have hul := hu.length
  have hpre : ∀ k : Nat, k < i → u.permutation[k]? = r.permutation[k]? := fun k hk => by rw [(u1 k hk).1, e]
  have htake : ∀ k, k ≤ i → u.permutation.take k = r.permutation.take k := fun k hk =>
    take_eq_of_prefix (by omega) (by omega) (fun j hj => hpre j (by omega))
  refine returns_ok.mpr ⟨hu, ?_, ?_⟩
  · intro v hv
    rw [hpre 0 (by omega)] at hv
    obtain ⟨g1, g2, g3⟩ := hr.root v hv
    exact ⟨g1, by rw [(u1 0 (by omega)).2.1, (t1 0 (by omega)).1, g2], by rw [(u1 0 (by omega)).2.2, (t1 0 (by omega)).2, g3]⟩
  · intro k a b hk ha hb
    rw [hpre k (by omega)] at ha
    rw [htake (k + 1) (by omega)]
    by_cases hki : k + 1 = i
    · subst hki
      simp only [Nat.add_sub_cancel] at hprev t2
      rw [ha] at hprev
      have ea := Option.some.inj hprev
      rw [← ea] at t2
      rw [u2, e] at hb
      obtain ⟨w1, w2, w3⟩ := t2 child b c1 hb
      refine ⟨?_, by rw [u3, w1], by rw [u4, w2]⟩
      intro v hv hnot
      have hmem : v ∈ r.permutation := hr.sized.perm.mem_iff.mpr (List.mem_range.mpr hv)
      obtain ⟨j, hj, rfl⟩ := List.getElem_of_mem hmem
      have hji : k + 1 ≤ j := by
        by_contra hlt
        refine hnot ?_
        rw [List.mem_take_iff_getElem]
        exact ⟨j, by omega, rfl⟩
      exact c3 j _ _ hji (t2 j _ hji (List.getElem?_eq_getElem hj)).2.2 w3
    · rw [hpre (k + 1) (by omega)] at hb
      obtain ⟨g1, g2, g3⟩ := hr.next k a b (by omega) ha hb
      exact ⟨g1, by rw [(u1 (k + 1) (by omega)).2.1, (t1 (k + 1) (by omega)).1, g2],
        by rw [(u1 (k + 1) (by omega)).2.2, (t1 (k + 1) (by omega)).2, g3]⟩

theorem mimicRoot_spec {log : Rat → Rat} {n : Nat} (hn : 0 < n) {xs : List BV} {mean : List Rat} (hl : mean.length = n)
    (hunit : PvUnit mean) (hm : ∀ i, i < n → mean[i]? = some (bitMean xs i)) {c : Chain}
    (hpl : c.permutation.length = n) (hoff : c.off.length = n) (hon : c.on.length = n) (hent : c.entropies.length = n) :
    (mimicRoot mean c).Returns (fun r => ChainUpTo log n xs 1 r) := by
  unfold mimicRoot
  rw [assert_pos (decide_eq_true (by omega)), ok_bind]
  dsimp only
  rw [List.drop_of_length_le (by omega), List.append_nil, assert_pos (by
    rw [List.all_eq_true]
    intro v hv
    obtain ⟨w, hw, rfl⟩ := List.mem_map.mp hv
    obtain ⟨w1, w2⟩ := hunit w hw
    exact decide_eq_true (le_min w1 (by linarith))), ok_bind]
  refine (minElement_spec (by simp; omega)).bind ?_
  rintro root ⟨_, r1, r2⟩
  rw [List.length_map, hl] at r1
  have hidl : (permIdentity c.permutation.length).length = n := by simp [permIdentity, hpl]
  rw [assert_pos (decide_eq_true (by omega)), ok_bind, swapAt_eq (by omega) (by omega), ok_bind, vget_eq (by omega), ok_bind,
    vset_eq (by omega), ok_bind, vset_eq (by omega), ok_bind]
  have hroot : mean[root] = bitMean xs root := by
    have := hm root r1
    rw [List.getElem?_eq_getElem (by omega)] at this
    exact Option.some.inj this
  refine returns_ok.mpr ⟨⟨?_, by simpa using hoff, by simpa using hon, by simpa using hl⟩, ?_, ?_⟩
  · refine (List.set_set_perm (by omega) (by omega)).trans ?_
    unfold permIdentity
    rw [hpl]
  · intro r hr
    have hr' : r = root := by
      simp only at hr
      by_cases h0 : root = 0
      · subst h0
        rw [List.getElem?_set_self (by simp; omega)] at hr
        have := Option.some.inj hr
        rw [← this]
        simp [permIdentity]
      · rw [List.getElem?_set_ne h0, List.getElem?_set_self (by omega)] at hr
        have := Option.some.inj hr
        rw [← this]
        simp [permIdentity]
    subst hr'
    refine ⟨?_, ?_, ?_⟩
    · intro v hv
      exact r2 v _ _ (Nat.zero_le _) (by rw [List.getElem?_map, hm v hv]; rfl) (by rw [List.getElem?_map, hm r r1]; rfl)
    · simp only
      rw [List.getElem?_set_self (by omega), hroot]
    · simp only
      rw [List.getElem?_set_self (by omega), hroot]
  · intro k _ _ hk
    omega

/-- The clamp of the probabilities. -/
def mimicClip (n : Nat) (p : Rat) : Rat := max (1 / (n : Rat)) (min (1 - 1 / (n : Rat)) p)

/-- The invariant. -/
structure MimicInv (n size : Nat) (s : AlgState K (MimicData K)) : Prop where
  population : s.data.population.Valid size n
  chain : s.data.chain.Ready n
  mean : s.data.mean.length = n
  margins : s.data.lower = 1 / (n : Rat) ∧ s.data.upper = 1 - 1 / (n : Rat)

/-- C60: the update of the model gives a chain of the selected individuals: the ordering is a permutation which starts with
a component with the smallest `min(p, 1 - p)`, and goes on with the smallest conditional entropies; the probabilities are
the (conditional) frequencies in the selected individuals, clamped by the margins. -/
theorem mimicUpdate_spec [LinearOrder K] {log : Rat → Rat} (hlog : ∀ x, 1 ≤ x → 0 ≤ log x) {n size sel : Nat}
    (hn : 2 ≤ n) (h1 : 1 ≤ sel) (h2 : sel ≤ size) {s : AlgState K (MimicData K)} (hs : MimicInv n size s) {x : Nat → BV}
    (hx : ∀ k, k < size → s.data.population.bestBv k = ok (x k)) {E : AlgState K (MimicData K) → Prop} :
    Alg.Holds (mimicUpdate log (sel : Int)) s (fun _ t =>
      (IsChain log n ((List.range sel).map x) t.data.chain.permutation ∧
        ChainProbs (mimicClip n) n ((List.range sel).map x) t.data.chain) ∧ MimicInv n size t ∧
      ∃ data, t = { s with data := data }) E := by
  unfold mimicUpdate
  obtain ⟨mean, em, m1, m2⟩ := selectionMean_spec hs.population h1 h2 hx hs.mean
  obtain ⟨mean', em', _, m3⟩ := selectionMean_unit hs.population h1 h2 hs.mean
  rw [em] at em'
  cases em'
  refine Alg.Holds.get_bind (Alg.Holds.lift_bind em ?_)
  have hpl : s.data.chain.permutation.length = n := by rw [hs.chain.perm.length_eq, List.length_range]
  refine Alg.Holds.returns_bind (mimicRoot_spec (log := log) (xs := (List.range sel).map x) (by omega) m1 m3 ?_ hpl
    hs.chain.off.1 hs.chain.on.1 hs.chain.entropies) (fun c hc => ?_)
  · intro i hi
    rw [m2 i hi, bitMean_selected]
  refine Alg.Holds.returns_bind (mimicLinks_spec hlog (by omega) hs.population h2 hx hc) (fun c' hc' => ?_)
  have hlast : ∀ (k b : Nat), c'.permutation[k + 1]? = some b → k + 1 < n := by
    intro k b hb
    rw [← hc'.sized.length]
    exact (List.getElem?_eq_some_iff.mp hb).1
  rw [hs.margins.1, hs.margins.2]
  refine Alg.Holds.lift_bind pvBound_eq (Alg.Holds.lift_bind pvBound_eq (Alg.Holds.modify ⟨⟨?_, ?_⟩, ?_, _, rfl⟩))
  · exact ⟨hc'.sized.perm, fun r hr => (hc'.root r hr).1, fun k a b ha hb => (hc'.next k a b
      (hlast k b hb) ha hb).1⟩
  · refine ⟨by simp [hc'.sized.off], by simp [hc'.sized.on], ?_, ?_⟩
    · intro r hr
      obtain ⟨_, g2, g3⟩ := hc'.root r hr
      simp only [List.getElem?_map, g2, g3, Option.map_some]
      exact ⟨rfl, rfl⟩
    · intro k a b ha hb
      obtain ⟨_, g2, g3⟩ := hc'.next k a b
        (hlast k b hb) ha hb
      simp only [List.getElem?_map, g2, g3, Option.map_some]
      exact ⟨rfl, rfl⟩
  · have hb : ∀ pv : List Rat, pv.length = n →
        PvBounded n (pv.map (fun p => max (1 / (n : Rat)) (min (1 - 1 / (n : Rat)) p))) := by
      intro pv hl
      obtain ⟨r, e, hr⟩ := pvBound_bounded hn hl
      rw [pvBound_eq] at e
      cases e
      exact hr
    exact ⟨hs.population, ⟨hc'.sized.perm, hb _ hc'.sized.off, hb _ hc'.sized.on, hc'.sized.entropies⟩, m1, hs.margins⟩

/-! ## The algorithm -/

/-- C50, C51, C60: after any number of iterations of MIMIC, the solution is a best evaluated vector, the ordering is a
permutation and all probabilities are within the margins; when it is interrupted, only vectors of the generation under
evaluation can be better than the solution. -/
theorem mimic_best [LinearOrder K] {env : Env K} {n size sel : Nat} {val : BV → K} (henv : env.Computes n val)
    {log : Rat → Rat} (hlog : ∀ x, 1 ≤ x → 0 ≤ log x) (hn : 2 ≤ n) (h1 : 1 ≤ sel) (h2 : sel < size)
    {s : AlgState K (MimicData K)} (hs : s.solution.1.length = n) (hcalls : s.calls = []) [Zero K]
    (hd : mimicNew n size = ok s.data) (numIterations : Int) (fuel : Nat) :
    Alg.Holds (mimicMaximize env log (sel : Int) numIterations fuel) s
      (fun _ t => t.data.chain.Ready n ∧ TrueCalls n val t.calls ∧ BestOf t.calls t.solution)
      (fun t => TrueCalls n val t.calls ∧ BestExceptLast size t) := by
  unfold mimicNew at hd
  obtain ⟨p, hp, hd⟩ := bind_eq_ok.mp hd
  obtain ⟨_, _, hp'⟩ := popNew_valid hp
  rw [Int.toNat_natCast, Int.toNat_natCast] at hp'
  dsimp only at hd
  rw [if_pos (by omega)] at hd
  have hd' := Outcome.ok.inj hd
  refine (algLoop_best (MimicInv n size) (fun _ _ h => ⟨h.population, h.chain, h.mean, h.margins⟩) ?_ ?_
    numIterations fuel).mono (fun _ t h => ⟨h.1.chain, h.2⟩) (fun _ h => h)
  · intro t ht htc htb
    unfold mimicIterate
    refine Alg.Holds.get_bind (Alg.Holds.sim_bind (Pop.sample_valid ht.population (fun x hx =>
      (mimicSample_spec (by omega) ht.chain hx).mono (fun y hy => hy.1))) (fun w hw => Alg.Holds.modify_bind ?_))
    refine generation_bind (p := w) henv rfl hw (by omega) ?_ ?_
    · intro k values hk _
      refine ⟨htc.append (evaluated_true (fun x hx => hw.bits x (List.mem_of_mem_take hx))),
        BestExceptLast.of_best htb rfl rfl ?_⟩
      simp [evaluated]
      omega
    · intro w' u hw' _ _ _ hud hst
      have hud' : u.data = { t.data with population := w' } := hud
      obtain ⟨x, hx⟩ := hw'.reads
      have hinv : MimicInv n size u := by
        constructor <;> rw [hud']
        · exact hw'
        · exact ht.chain
        · exact ht.mean
        · exact ht.margins
      refine (mimicUpdate_spec hlog hn h1 (by omega) hinv (x := x) (by rw [hud']; exact hx)).mono ?_ (fun _ h => h)
      rintro _ _ ⟨_, v1, data, rfl⟩
      exact ⟨v1, _, evaluated_true hw.bits, hst⟩
  · unfold mimicInit
    refine Alg.Holds.assert_bind (decide_eq_true (by omega)) (Alg.Holds.get_bind ?_)
    have hsz : s.data.population.size = size := by rw [← hd']; exact hp'.bvs
    refine Alg.Holds.assert_bind (decide_eq_true (by omega)) ?_
    refine Alg.Holds.bind (P := fun _ t => ∃ x : BV, x.length = n ∧
      t = { s with solution := (x, val x), calls := s.calls ++ [(x, val x)] })
      (randomSolution_holds henv hs (fun x hx => ⟨x, hx, rfl⟩) (fun x hx => ⟨?_, ?_⟩)) ?_
    · simp only [hcalls]; exact TrueCalls.nil
    · exact ⟨[], [], by simp [hcalls], (show 0 < size by omega), Or.inl rfl⟩
    · rintro _ _ ⟨x, hx, rfl⟩
      simp only [hcalls, List.nil_append]
      refine Alg.Holds.get_bind ?_
      refine Alg.Holds.sim_bind (Sim.Post.shuffle _) (fun perm hperm => ?_)
      simp only [← hd', permIdentity, List.length_replicate, Int.toNat_natCast] at hperm
      refine Alg.Holds.modify ⟨⟨?_, ⟨?_, ?_, ?_, ?_⟩, ?_, ?_⟩, TrueCalls.nil.snoc hx, BestOf.single _⟩
      · simp only [← hd']; exact hp'
      · exact hperm
      · simp only [← hd', pvUniform, List.length_replicate, Int.toNat_natCast]; exact uniform_bounded hn
      · simp only [← hd', pvUniform, List.length_replicate, Int.toNat_natCast]; exact uniform_bounded hn
      · simp [← hd']
      · simp [← hd']
      · simp [← hd']

/-! ## Examples -/

/-- A function which is not negative on the numbers above 1, in place of the logarithm. -/
def exampleLog (x : Rat) : Rat := 1 - 1 / x

theorem exampleLog_nonneg (x : Rat) (h : 1 ≤ x) : 0 ≤ exampleLog x := by
  unfold exampleLog
  have : 1 / x ≤ 1 := by
    rw [div_le_one (by linarith)]
    exact h
  linarith

/-- One iteration: the first two components of the chain are 0 and 2. -/
example : (match (mimicNew 3 4 : Outcome (MimicData Int)) with
    | .ok d =>
      match mimicMaximize exampleEnv exampleLog 2 1 10 (exampleStart d)
        [0, 1, 0, 0, 0, 0, 1, 1, 1, 0, 1, 1, 1, 0, 1, 1, 3, 0, 1, 0, 1, 0, 1, 1, 2, 3, 0, 0, 0, 0] with
      | .ok r _ => some (r.2.solution, r.2.calls.length, r.2.data.chain.permutation, r.2.data.chain.off,
        r.2.data.chain.on)
      | _ => none
    | _ => none) = some (([true, true, true], 3), 5, [0, 2, 1], [2 / 3, 1 / 2, 1 / 2], [2 / 3, 2 / 3, 1 / 2]) := by
  decide +kernel

end Hnco
