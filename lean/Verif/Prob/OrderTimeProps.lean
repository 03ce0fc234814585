import Verif.Prob.OrderSpec
import Verif.Prob.OrderTimeSpec
import Verif.Prob.TimeProps

/-!
# Functions which order vectors alike are found as fast
-/

namespace Hnco.Prob

open Outcome
open scoped ENNReal

variable {K L : Type} [LinearOrder K] [LinearOrder L] {f : Fn K} {f' : Fn L} {n : ℕ} {val : BV → K} {val' : BV → L} {p : RlsParams K} {p' : RlsParams L}

theorem move_order (h : SameOrder n val val') (hd : Samples p n) {x : BV} (hx : x.length = n) : move p.sampleBits val' x = move p.sampleBits val x := by
  unfold move
  refine Dist.bind_congr_support (fun y hy => ?_)
  have hy' : y.length = n := by
    rw [mutate_apply (fun l hl => by rw [hx]; exact hd.support l hl)] at hy
    by_contra hn
    exact hy (if_neg (by rw [hx]; exact hn))
  simp only [h x y hx hy']

theorem steps_order (h : SameOrder n val val') (hd : Samples p n) (t : ℕ) : ∀ x : BV, x.length = n →
    Dist.steps (move p.sampleBits val') t x = Dist.steps (move p.sampleBits val) t x := by
  induction t with
  | zero => intro x _; rfl
  | succ t ih =>
    intro x hx
    change (move p.sampleBits val' x >>= Dist.steps _ t) = (move p.sampleBits val x >>= Dist.steps _ t)
    rw [move_order h hd hx]
    exact Dist.bind_congr_support (fun y hy => ih y (move_support hd.support hx hy).1)

/-- C127: a search which accepts vectors which are not worse, and never gives up, finds vectors at each time with the same probability, hence
in the same expected time, on two functions which order the vectors of size `n` alike, with full or incremental evaluation for both. -/
theorem search_sameOrder (hf : Evaluates f n val) (hf' : Evaluates f' n val') (h : SameOrder n val val') (hp : Elitist p) (hp' : Elitist p')
    (hd : Samples p n) (hs : Starts p n) (hb : p'.sampleBits = p.sampleBits) (hst : p'.toStartParams = p.toStartParams) (found : List Bool → Prop) :
    (∀ t, missProb (rlsAfter p' f' n t) found = missProb (rlsAfter p f n t) found) ∧
    expectedTime (rlsAfter p' f' n) found = expectedTime (rlsAfter p f n) found := by
  classical
  have hm : ∀ t, missProb (rlsAfter p' f' n t) found = missProb (rlsAfter p f n t) found := by
    intro t
    have hd' : Samples p' n := ⟨fun l hl => hd.sorted l (hb ▸ hl), by rw [hb]; exact hd.total⟩
    have hs' : Starts p' n := fun hr => by
      rw [hst] at hr ⊢
      exact hs hr
    have hstart : startLaw p' n = startLaw p n := by
      unfold startLaw
      rw [hst]
    rw [missProb_after hf' hp' hd' hs', missProb_after hf hp hd hs, hstart, hb]
    refine Dist.expect_congr (fun x hx => ?_)
    rw [steps_order h hd t x (startLaw_support hs hx)]
  refine ⟨hm, ?_⟩
  unfold expectedTime
  simp only [hm]

/-- C127: the (1+1) evolutionary algorithm takes the same expected time on two functions which order vectors alike. -/
theorem ea_sameOrder (hf : Evaluates f n val) (hf' : Evaluates f' n val') (h : SameOrder n val val') (hn : 0 < n) {q : EaParams}
    (h0 : q.mutationRate ≠ 0) (h1 : q.mutationRate ≤ 1) (found : List Bool → Prop) :
    expectedTime (rlsAfter (eaSearch q n) f' n) found = expectedTime (rlsAfter (eaSearch q n) f n) found :=
  (search_sameOrder hf hf' h (eaSearch_elitist q) (eaSearch_elitist q) (eaSearch_samples hn h1 h0) (eaSearch_starts q) rfl rfl found).2

/-- C127: on a function which orders vectors by their numbers of ones, the expected number of iterations of the (1+1) evolutionary algorithm
with rate `1 / n` is at most `e n (1 + 1/2 + ... + 1/n)`. -/
theorem ea_countsOnes (hf : Evaluates f n val) (h : SameOrder n (fun x => (ones x : ℤ)) val) (hn : 0 < n) {q : EaParams}
    (hq : q.mutationRate = (n : ℝ≥0∞)⁻¹) :
    expectedTime (rlsAfter (eaSearch q n) f n) (fun x => x = List.replicate n true) ≤ ENNReal.ofReal (Real.exp 1) * n * harmonicNumber n := by
  rw [ea_sameOrder (oneMax_evaluates n) hf h hn (by rw [hq]; exact ENNReal.inv_ne_zero.mpr (ENNReal.natCast_ne_top _))
    (by rw [hq]; exact ENNReal.inv_le_one.mpr (by exact_mod_cast hn))]
  exact ea_oneMax hn hq

/-- C127: on a function which orders vectors by their numbers of ones, the expected number of iterations of random local search with single
bit flips, from a given starting point with `d` zeros, is exactly `n (1 + 1/2 + ... + 1/d)`. -/
theorem rls_countsOnes (hf : Evaluates f n val) (h : SameOrder n (fun x => (ones x : ℤ)) val) (hn : 0 < n) (hp : Elitist p)
    (hb : p.sampleBits = singleBitFlip n) (hr : p.randomInitialization = false) (hl : p.startingPoint.length = n) :
    expectedTime (rlsAfter p f n) (fun x => x = List.replicate n true) = n * harmonicNumber (p.startingPoint.count false) := by
  have hp1 : Elitist (⟨p.toStartParams, p.sampleBits, fun a b => decide (b ≤ a), 0, false⟩ : RlsParams ℤ) := ⟨fun _ _ => rfl, le_refl _⟩
  rw [(search_sameOrder (oneMax_evaluates n) hf h hp1 hp (singleBitFlip_samples hn hb) (fun _ => hl) rfl rfl _).2]
  exact rls_oneMax hn hp1 hb hr hl

/-- C127: on a function which orders vectors by their numbers of leading ones, the expected number of iterations of the (1+1) evolutionary
algorithm with rate `1 / n` is at most `e n^2`. -/
theorem ea_leads (hf : Evaluates f n val) (h : SameOrder n (fun x => (leadingOnesLoop x : ℤ)) val) (hn : 0 < n) {q : EaParams}
    (hq : q.mutationRate = (n : ℝ≥0∞)⁻¹) :
    expectedTime (rlsAfter (eaSearch q n) f n) (fun x => x = List.replicate n true) ≤ ENNReal.ofReal (Real.exp 1) * (n : ℝ≥0∞) ^ 2 := by
  rw [ea_sameOrder (leadingOnes_evaluates n) hf h hn (by rw [hq]; exact ENNReal.inv_ne_zero.mpr (ENNReal.natCast_ne_top _))
    (by rw [hq]; exact ENNReal.inv_le_one.mpr (by exact_mod_cast hn))]
  exact ea_leadingOnes hn hq

/-! ## Examples -/

/-- The square of the number of ones. -/
example {q : EaParams} (hq : q.mutationRate = ((7 : ℕ) : ℝ≥0∞)⁻¹) :
    expectedTime (rlsAfter (eaSearch q 7) (⟨7, false, ub, fun x => ok (ones x ^ 2), false, fun _ v _ => ok v⟩ : Fn ℕ) 7)
      (fun x => x = List.replicate 7 true) ≤ ENNReal.ofReal (Real.exp 1) * (7 : ℕ) * harmonicNumber 7 :=
  ea_countsOnes (val := fun x => ones x ^ 2) ⟨rfl, fun _ _ => rfl, fun h => by cases h⟩ (fun x y _ _ => by
    dsimp only
    rw [Nat.pow_le_pow_iff_left (by decide)]
    exact_mod_cast Iff.rfl) (by decide) hq

/-- The square of the number of ones, by local search. -/
example : expectedTime (rlsAfter (⟨⟨false, List.replicate 7 false⟩, singleBitFlip 7, fun a b => decide (b ≤ a), 0, false⟩ : RlsParams ℕ)
      (⟨7, false, ub, fun x => ok (ones x ^ 2), false, fun _ v _ => ok v⟩ : Fn ℕ) 7) (fun x => x = List.replicate 7 true) =
    (7 : ℕ) * harmonicNumber 7 :=
  rls_countsOnes (val := fun x => ones x ^ 2) (n := 7) ⟨rfl, fun _ _ => rfl, fun h => by cases h⟩ (fun x y _ _ => by
    dsimp only
    rw [Nat.pow_le_pow_iff_left (by decide)]
    exact_mod_cast Iff.rfl) (by decide) ⟨fun _ _ => rfl, le_refl _⟩ rfl rfl rfl

/-- The square of the number of leading ones. -/
example {q : EaParams} (hq : q.mutationRate = ((7 : ℕ) : ℝ≥0∞)⁻¹) :
    expectedTime (rlsAfter (eaSearch q 7) (⟨7, false, ub, fun x => ok (leadingOnesLoop x ^ 2), false, fun _ v _ => ok v⟩ : Fn ℕ) 7)
      (fun x => x = List.replicate 7 true) ≤ ENNReal.ofReal (Real.exp 1) * ((7 : ℕ) : ℝ≥0∞) ^ 2 :=
  ea_leads (val := fun x => leadingOnesLoop x ^ 2) ⟨rfl, fun _ _ => rfl, fun h => by cases h⟩ (fun x y _ _ => by
    dsimp only
    rw [Nat.pow_le_pow_iff_left (by decide)]
    exact_mod_cast Iff.rfl) (by decide) hq

end Hnco.Prob
