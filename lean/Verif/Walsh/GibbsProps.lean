import Verif.Walsh.MomentProps
import Verif.Algorithm.ProbabilityVectorProps
import Mathlib.Analysis.Complex.Exponential

/-! # C59: Gibbs samplers -/

namespace Hnco

open Outcome

/-! ## Specification -/

/-- Minus the energy of the Boltzmann machine with parameters `F` and `G` at `x`: the probability of `x` is proportional to
its exponential. -/
def goodness (n : Nat) (F : Nat → Rat) (G : Nat → Nat → Rat) (x : BV) : Rat :=
  ∑ i ∈ Finset.range n, (F i * signAt x i + ∑ j ∈ Finset.range i, G i j * (signAt x i * signAt x j))

/-- `logistic` (`lib/hnco/util.hh:97-105`), over the reals. -/
noncomputable def logisticReal (x : ℝ) : ℝ :=
  if x > 0 then 1 / (1 + Real.exp (-x)) else Real.exp x / (1 + Real.exp x)

/-! ## Asynchronous updates -/

theorem signedStep {state : BV} {j : Nat} (hj : j < state.length) {delta v : Rat} :
    (if state[j] then delta - v else delta + v) = delta + v * signAt state j := by
  rw [signAt_eq hj]
  cases state[j] <;> simp [sub_eq_add_neg]

theorem gibbsDelta_eq {full : Bool} {n : Nat} {m : Moment} {F : Nat → Rat} {G : Nat → Nat → Rat} (h : m.Is full n F G)
    {state : BV} (hs : state.length = n) {i : Nat} (hi : i < n) :
    gibbsDelta m state i = ok ((F i + ∑ j ∈ Finset.Ico 0 i, G i j * signAt state j +
      ∑ j ∈ Finset.Ico (i + 1) n, G j i * signAt state j) * -2) := by
  unfold gibbsDelta
  rw [show vget m.first i = ok (F i) by unfold vget; rw [h.first i hi], ok_bind,
    forRange_sum_Ico 0 i _ (fun j => G i j * signAt state j), ok_bind,
    forRange_sum_Ico (i + 1) state.length _ (fun j => G j i * signAt state j), ok_bind, hs]
  · intro j h1 h2 r
    rw [vget_eq h2, ok_bind, Moment.read_eq (h.second j i (by omega) (by omega)), ok_bind, signedStep h2]
  · intro j h1 h2 r
    have hj : j < state.length := by omega
    rw [vget_eq hj, ok_bind, Moment.read_eq (h.second i j hi h2), ok_bind, signedStep hj]

theorem signAt_set_self {x : BV} {i : Nat} (hi : i < x.length) (b : Bool) :
    signAt (x.set i b) i = if b then -1 else 1 := by
  unfold signAt
  rw [List.getElem?_set_self hi]
  cases b <;> simp

theorem signAt_set_ne {x : BV} {i j : Nat} (h : j ≠ i) (b : Bool) : signAt (x.set i b) j = signAt x j := by
  unfold signAt
  rw [List.getElem?_set_ne (Ne.symm h)]

theorem goodness_difference {n : Nat} (F : Nat → Rat) (G : Nat → Nat → Rat) {x : BV} (hx : x.length = n) {i : Nat}
    (hi : i < n) : goodness n F G (x.set i true) - goodness n F G (x.set i false) =
      (F i + ∑ j ∈ Finset.Ico 0 i, G i j * signAt x j + ∑ j ∈ Finset.Ico (i + 1) n, G j i * signAt x j) * -2 := by
  unfold goodness
  rw [← Finset.sum_sub_distrib, Finset.range_eq_Ico, ← Finset.sum_Ico_consecutive _ (Nat.zero_le i) (le_of_lt hi),
    Finset.sum_eq_sum_Ico_succ_bot hi]
  have h1 : ∀ k ∈ Finset.Ico 0 i, (F k * signAt (x.set i true) k + ∑ j ∈ Finset.range k, G k j *
      (signAt (x.set i true) k * signAt (x.set i true) j) - (F k * signAt (x.set i false) k + ∑ j ∈ Finset.range k,
      G k j * (signAt (x.set i false) k * signAt (x.set i false) j))) = 0 := by
    intro k hk
    have hk' : k < i := (Finset.mem_Ico.mp hk).2
    rw [signAt_set_ne (by omega), signAt_set_ne (by omega), sub_eq_zero]
    congr 1
    refine Finset.sum_congr rfl (fun j hj => ?_)
    have : j < k := Finset.mem_range.mp hj
    rw [signAt_set_ne (by omega), signAt_set_ne (by omega)]
  have h2 : (F i * signAt (x.set i true) i + ∑ j ∈ Finset.range i, G i j *
      (signAt (x.set i true) i * signAt (x.set i true) j) - (F i * signAt (x.set i false) i + ∑ j ∈ Finset.range i,
      G i j * (signAt (x.set i false) i * signAt (x.set i false) j))) =
      (F i + ∑ j ∈ Finset.Ico 0 i, G i j * signAt x j) * -2 := by
    rw [signAt_set_self (by omega), signAt_set_self (by omega), if_pos rfl, if_neg (by simp), ← Finset.range_eq_Ico]
    have e1 : ∑ j ∈ Finset.range i, G i j * (-1 * signAt (x.set i true) j) = - ∑ j ∈ Finset.range i, G i j * signAt x j := by
      rw [← Finset.sum_neg_distrib]
      refine Finset.sum_congr rfl (fun j hj => ?_)
      have : j < i := Finset.mem_range.mp hj
      rw [signAt_set_ne (by omega)]
      ring
    have e2 : ∑ j ∈ Finset.range i, G i j * (1 * signAt (x.set i false) j) = ∑ j ∈ Finset.range i, G i j * signAt x j := by
      refine Finset.sum_congr rfl (fun j hj => ?_)
      have : j < i := Finset.mem_range.mp hj
      rw [signAt_set_ne (by omega)]
      ring
    rw [e1, e2]
    ring
  have h3 : ∀ k ∈ Finset.Ico (i + 1) n, (F k * signAt (x.set i true) k + ∑ j ∈ Finset.range k, G k j *
      (signAt (x.set i true) k * signAt (x.set i true) j) - (F k * signAt (x.set i false) k + ∑ j ∈ Finset.range k,
      G k j * (signAt (x.set i false) k * signAt (x.set i false) j))) = G k i * signAt x k * -2 := by
    intro k hk
    have hk' : i + 1 ≤ k := (Finset.mem_Ico.mp hk).1
    rw [signAt_set_ne (by omega), signAt_set_ne (by omega), add_sub_add_left_eq_sub, ← Finset.sum_sub_distrib,
      Finset.sum_eq_single i]
    · rw [signAt_set_self (by omega), signAt_set_self (by omega), if_pos rfl, if_neg (by simp)]
      ring
    · intro j _ hj
      rw [signAt_set_ne hj, signAt_set_ne hj, sub_self]
    · intro hni
      exact absurd (Finset.mem_range.mpr (by omega)) hni
  rw [Finset.sum_eq_zero h1, h2, Finset.sum_congr rfl h3, ← Finset.sum_mul]
  ring

/-- C59: in an asynchronous update only stored entries are read, for both kinds of moments, and the argument of the
logistic function is the difference of minus the energies with the bit 1 and with the bit 0. -/
theorem gibbsDelta_energy {full : Bool} {n : Nat} {m : Moment} {F : Nat → Rat} {G : Nat → Nat → Rat}
    (h : m.Is full n F G) {state : BV} (hs : state.length = n) {i : Nat} (hi : i < n) :
    gibbsDelta m state i = ok (goodness n F G (state.set i true) - goodness n F G (state.set i false)) := by
  rw [gibbsDelta_eq h hs hi, goodness_difference F G hs hi]

theorem logistic_difference (a b : ℝ) : logisticReal (a - b) = Real.exp a / (Real.exp a + Real.exp b) := by
  have ha := Real.exp_pos a
  have hb := Real.exp_pos b
  unfold logisticReal
  split
  · rw [neg_sub, Real.exp_sub]
    field_simp
  · rw [Real.exp_sub]
    field_simp
    ring

/-- C59: the logistic function of `delta` is the conditional probability that the bit is 1 given the other bits, if the
probability of a bit vector is proportional to the exponential of minus its energy. -/
theorem gibbs_conditional {full : Bool} {n : Nat} {m : Moment} {F : Nat → Rat} {G : Nat → Nat → Rat}
    (h : m.Is full n F G) {state : BV} (hs : state.length = n) {i : Nat} (hi : i < n) :
    ∃ delta : Rat, gibbsDelta m state i = ok delta ∧ logisticReal delta =
      Real.exp (goodness n F G (state.set i true)) /
        (Real.exp (goodness n F G (state.set i true)) + Real.exp (goodness n F G (state.set i false))) := by
  refine ⟨_, gibbsDelta_energy h hs hi, ?_⟩
  rw [Rat.cast_sub, logistic_difference]

/-- C59: a triangular and a full moment with the same entries below the diagonal give the same asynchronous update. -/
theorem gibbsUpdate_same {n : Nat} {mt mf : Moment} {F : Nat → Rat} {G : Nat → Nat → Rat} (ht : mt.Is false n F G)
    (hf : mf.Is true n F G) {state : BV} (hs : state.length = n) {i : Nat} (hi : i < n) (logistic : Rat → Rat) :
    gibbsUpdate logistic mt state i = gibbsUpdate logistic mf state i := by
  unfold gibbsUpdate
  rw [gibbsDelta_eq ht hs hi, gibbsDelta_eq hf hs hi]

/-- C59: an asynchronous update is always defined and changes no other bit; the new bit is 1 if and only if the uniform
draw is below the logistic function of `delta`. -/
theorem gibbsUpdate_spec {full : Bool} {n : Nat} {m : Moment} {F : Nat → Rat} {G : Nat → Nat → Rat} (h : m.Is full n F G)
    {state : BV} (hs : state.length = n) {i : Nat} (hi : i < n) (logistic : Rat → Rat) :
    Sim.Post (gibbsUpdate logistic m state i) (fun y => y.length = n ∧ ∃ u : Rat, 0 ≤ u ∧ u < 1 ∧
      y = state.set i (decide (u < logistic (goodness n F G (state.set i true) - goodness n F G (state.set i false))))) := by
  unfold gibbsUpdate
  refine (Sim.Post.assert (decide_eq_true (by omega))).bind (fun _ _ => ?_)
  refine Sim.Post.lift_bind (gibbsDelta_energy h hs hi) ?_
  refine Sim.Post.uniform.bind (fun u hu => ?_)
  exact Sim.Post.lift ⟨_, vset_eq (by omega), by simpa using hs, u, hu.1, hu.2, rfl⟩

/-! ## Synchronous updates -/

/-- C59 (negative part): with at least two bits, the synchronous update of the triangular sampler is undefined: it reads
an entry above the diagonal, which is not stored. -/
theorem gibbsSync_triangular {n : Nat} {m : Moment} (h : m.Shape false n) (hn : 2 ≤ n) {state : BV}
    (hs : state.length = n) {pv : List Rat} (hpv : pv.length = n) (logistic : Rat → Rat) (ds : List Nat) :
    gibbsUpdateSync logistic m state pv ds = .ub := by
  have hd : gibbsSyncDelta m state 0 = ub := by
    unfold gibbsSyncDelta
    rw [vget_eq (by rw [h.first]; omega), ok_bind, forRange_step (by omega), if_pos rfl, ok_bind,
      forRange_step (by omega), if_neg (by omega), vget_eq (by omega), ok_bind,
      Moment.read_ub (h.not_stored (by simp))]
    rfl
  have : forRange 0 pv.length (fun i pv => do
      let delta ← gibbsSyncDelta m state i
      vset pv i (logistic delta)) pv = ub := by
    rw [forRange_step (by omega), hd]
    rfl
  unfold gibbsUpdateSync
  rw [this]
  rfl

/-- C59: for a symmetric full moment, the synchronous update uses for each bit the argument which the asynchronous update
would use. -/
theorem gibbsSync_full {n : Nat} {m : Moment} {F : Nat → Rat} {G : Nat → Nat → Rat} (h : m.Is true n F G)
    (hsym : m.Symm n) {state : BV} (hs : state.length = n) {i : Nat} (hi : i < n) :
    gibbsSyncDelta m state i = gibbsDelta m state i := by
  rw [gibbsDelta_eq h hs hi]
  unfold gibbsSyncDelta
  rw [show vget m.first i = ok (F i) by unfold vget; rw [h.first i hi], ok_bind,
    forRange_sum_Ico 0 state.length _ (fun j => if j = i then 0 else if j < i then G i j * signAt state j else
      G j i * signAt state j), ok_bind, hs]
  · congr 2
    rw [add_assoc]
    congr 1
    rw [← Finset.sum_Ico_consecutive _ (Nat.zero_le i) (le_of_lt hi), Finset.sum_eq_sum_Ico_succ_bot hi, if_pos rfl, zero_add]
    congr 1
    · refine Finset.sum_congr rfl (fun j hj => ?_)
      have : j < i := (Finset.mem_Ico.mp hj).2
      rw [if_neg (by omega), if_pos this]
    · refine Finset.sum_congr rfl (fun j hj => ?_)
      have : i + 1 ≤ j := (Finset.mem_Ico.mp hj).1
      rw [if_neg (by omega), if_neg (by omega)]
  · intro j _ hj r
    by_cases hji : j = i
    · rw [if_pos hji, if_pos hji, add_zero]
    · rw [if_neg hji, if_neg hji, vget_eq hj, ok_bind]
      by_cases hlt : j < i
      · rw [if_pos hlt, Moment.read_eq (h.second i j hi hlt), ok_bind, signedStep hj]
      · rw [if_neg hlt, Moment.read_eq (v := G j i), ok_bind, signedStep hj]
        rw [hsym j i (by omega) (by omega)]
        exact h.second j i (by omega) (by omega)

/-- C59: the synchronous update with a symmetric full moment is always defined, and its probability vector contains the
logistic function of the difference of minus the energies. -/
theorem gibbsUpdateSync_spec {n : Nat} {m : Moment} {F : Nat → Rat} {G : Nat → Nat → Rat} (h : m.Is true n F G)
    (hsym : m.Symm n) {state : BV} (hs : state.length = n) {pv : List Rat} (hpv : pv.length = n) (logistic : Rat → Rat) :
    Sim.Post (gibbsUpdateSync logistic m state pv) (fun r => r.1.length = n ∧ r.2.length = n ∧ ∀ i, i < n →
      r.2[i]? = some (logistic (goodness n F G (state.set i true) - goodness n F G (state.set i false)))) := by
  unfold gibbsUpdateSync
  have := forRange_mapIdx (l := pv) (body := fun i pv => do
    let delta ← gibbsSyncDelta m state i
    vset pv i (logistic delta))
    (fun i _ => logistic (goodness n F G (state.set i true) - goodness n F G (state.set i false))) (by
      intro i r hi hr
      rw [gibbsSync_full h hsym hs (by omega), gibbsDelta_energy h hs (by omega), ok_bind, vset_eq hi])
  refine Sim.Post.lift_bind this ?_
  refine (pvSample_post (n := n) (by simpa using hpv) hs).bind (fun x hx => Sim.Post.pure ⟨hx, by simpa using hpv, ?_⟩)
  intro i hi
  rw [List.getElem?_mapIdx, List.getElem?_eq_getElem (by omega)]
  rfl

/-! ## Examples -/

/-- A triangular moment of size 3. -/
def exampleTriangular : Moment := ⟨[1, -2, 3], [[], [5], [-7, 11]]⟩

/-- The full moment with the same entries. -/
def exampleFull : Moment := ⟨[1, -2, 3], [[0, 5, -7], [5, 0, 11], [-7, 11, 0]]⟩

example : exampleTriangular.Shape false 3 := by
  refine ⟨rfl, rfl, ?_⟩
  intro i row h
  match i, h with
  | 0, h => cases h; rfl
  | 1, h => cases h; rfl
  | 2, h => cases h; rfl

example : gibbsDelta exampleTriangular [true, false, true] 1 = ok 36 := by decide +kernel

example : gibbsDelta exampleFull [true, false, true] 1 = ok 36 := by decide +kernel

example : gibbsSyncDelta exampleFull [true, false, true] 1 = ok 36 := by decide +kernel

example : gibbsSyncDelta exampleTriangular [true, false, true] 1 = ub := by decide +kernel

end Hnco
