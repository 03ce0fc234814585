import Verif.Function.Maximality
import Verif.Function.Spec
import Verif.Algorithm.HillClimbingProps
import Verif.Function.TheoryProps

/-!
# C75: tests of local and global maximality
-/

namespace Hnco

open Outcome

variable {K ι : Type} [LinearOrder K]

theorem localTest_loop {N : NbhIter ι} {f : Fn K} {val : BV → K} {value : K} {it : ι} {l : List BV}
    (h : Enumerates N.hasNext N.next it l) (hf : ∀ y ∈ l, f.eval y = ok (val y)) :
    ∃ s, WhileTo (localTestCond N) (localTestBody N f value) (it, false) (ok s) ∧
      (s.2 = true ↔ ∃ y ∈ l, value < val y) := by
  induction h with
  | @done s hn => exact ⟨(s, false), .done (by simpa [localTestCond] using hn), by simp⟩
  | @step s s' a l hn hx _ ih =>
    have hb : localTestBody N f value (s, false) = ok (s', decide (value < val a)) := by
      simp only [localTestBody, hx, ok_bind, hf a (List.mem_cons_self ..)]
    have hc : localTestCond N (s, false) = ok true := by simpa [localTestCond] using hn
    by_cases hlt : value < val a
    · refine ⟨(s', true), .step hc hb (by rw [decide_eq_true hlt]; exact .done rfl), ?_⟩
      simp only [true_iff]
      exact ⟨a, List.mem_cons_self .., hlt⟩
    · obtain ⟨t, h1, h2⟩ := ih (fun y hy => hf y (List.mem_cons_of_mem _ hy))
      refine ⟨t, .step hc hb (by rw [decide_eq_false hlt]; exact h1), h2.trans ?_⟩
      constructor
      · rintro ⟨y, hy, h⟩; exact ⟨y, List.mem_cons_of_mem _ hy, h⟩
      · rintro ⟨y, hy, h⟩
        rcases List.mem_cons.mp hy with rfl | hy
        · exact absurd h hlt
        · exact ⟨y, hy, h⟩

theorem localTest_spec {N : NbhIter ι} {n : Nat} {V : ι → Prop} {cur : ι → BV} {near : BV → BV → Prop}
    (hN : N.Explores n V cur near) {f : Fn K} {val : BV → K} (hf : ∀ y : BV, y.length = n → f.eval y = ok (val y)) {bv : BV}
    (hb : bv.length = n) {it : ι} (hit : V it) :
    ∃ b, (∀ r, LocalTest N f bv it r ↔ r = ok b) ∧ (b = true ↔ ∀ y : BV, y.length = n → near bv y → val y ≤ val bv) := by
  obtain ⟨it', h1, h2, h3⟩ := hN.setOrigin it bv hit hb
  obtain ⟨l, h4, _, h5⟩ := hN.enum it' h2
  obtain ⟨s, h6, h7⟩ := localTest_loop (value := val bv) (val := val) h4 (fun y hy => hf y ((h5 y).mp hy).1)
  refine ⟨!s.2, fun r => ?_, ?_⟩
  · constructor
    · rintro ⟨value, hv, it'', hi, t, ht, rfl⟩
      rw [hf bv hb] at hv
      cases hv
      rw [h1] at hi
      cases hi
      cases WhileTo.deterministic ht h6
      rfl
    · rintro rfl
      exact ⟨_, hf bv hb, it', h1, s, h6, rfl⟩
  · rw [Bool.not_eq_true', ← Bool.not_eq_true, h7, h3] at *
    constructor
    · intro h y hy hn
      by_contra hcon
      exact h ⟨y, (h5 y).mpr ⟨hy, by rw [h3]; exact hn⟩, not_le.mp hcon⟩
    · rintro h ⟨y, hy, hlt⟩
      have := (h5 y).mp hy
      rw [h3] at this
      exact absurd hlt (not_lt.mpr (h y this.1 this.2))

/-- C75: with the iterator of single bit flips in any state, the test of local maximality ends, without error, and it tells whether
no vector at distance 1 has a greater value. -/
theorem localTest_singleBitFlip {f : Fn K} {val : BV → K} (hf : ∀ y : BV, y.length = f.size → f.eval y = ok (val y)) {bv : BV}
    (hb : bv.length = f.size) {it : SingleBitFlipIterator} (hit : it.current.length = f.size) :
    ∃ b, (∀ r, LocalTest singleBitFlipIter f bv it r ↔ r = ok b) ∧
      (b = true ↔ ∀ y : BV, bvHammingDistance bv y = ok 1 → val y ≤ val bv) := by
  obtain ⟨b, h1, h2⟩ := localTest_spec (singleBitFlipIter_explores f.size) hf hb hit
  refine ⟨b, h1, h2.trans ⟨fun h y hy => h y ?_ hy, fun h y _ hy => h y hy⟩⟩
  rw [← hammingDistance_length hy, hb]

/-- C75: the same for the iterator of a Hamming sphere. -/
theorem localTest_hammingSphere {f : Fn K} {val : BV → K} (hf : ∀ y : BV, y.length = f.size → f.eval y = ok (val y)) {bv : BV}
    (hb : bv.length = f.size) {r : Nat} (hr : 1 ≤ r) (hrn : r ≤ f.size) {it : HammingSphereIterator}
    (hit : it.current.length = f.size ∧ it.radius = r ∧ it.bitIndexes.length = r) :
    ∃ b, (∀ o, LocalTest hammingSphereIter f bv it o ↔ o = ok b) ∧
      (b = true ↔ ∀ y : BV, bvHammingDistance bv y = ok r → val y ≤ val bv) := by
  obtain ⟨b, h1, h2⟩ := localTest_spec (hammingSphereIter_explores hr hrn) hf hb hit
  refine ⟨b, h1, h2.trans ⟨fun h y hy => h y ?_ hy, fun h y _ hy => h y hy⟩⟩
  rw [← hammingDistance_length hy, hb]

/-- C75: for a function which declares its maximum, the test of global maximality tells whether no vector has a greater value. -/
theorem globalTest_spec [DecidableEq K] {f : Fn K} (hm : DeclaresMaximum f) {bv : BV} (hb : bv.length = f.size) :
    ∃ v b, f.eval bv = ok v ∧ globalTest f bv = ok b ∧
      (b = true ↔ ∀ (y : BV) (w : K), y.length = f.size → f.eval y = ok w → w ≤ v) := by
  obtain ⟨h1, m, h2, h3, x, hx, h4⟩ := hm
  obtain ⟨v, hv, hle⟩ := h3 bv hb
  refine ⟨v, decide (v = m), hv, ?_, ?_⟩
  · unfold globalTest
    rw [h1, assert_pos rfl, ok_bind, hv, ok_bind, h2, ok_bind]
  · rw [decide_eq_true_eq]
    constructor
    · rintro rfl y w hy hw
      obtain ⟨w', hw', h⟩ := h3 y hy
      rw [hw] at hw'
      cases hw'
      exact h
    · intro h
      exact le_antisymm hle (h x m hx h4)

omit [LinearOrder K] in
/-- C75: without a declared maximum the test of global maximality fails on an assertion. -/
theorem globalTest_unknown [DecidableEq K] {f : Fn K} (hm : f.hasMax = false) (bv : BV) : globalTest f bv = ub := by
  unfold globalTest
  rw [hm]
  rfl

/-! ## Examples -/

/-- A function with a local maximum at 00 which is not global. -/
def valley : Fn Int :=
  { size := 2, hasMax := true, maximum := ok 5, eval := fun x => ok (if x = [true, true] then 5 else if x = [false, false] then 2 else 0),
    hasInc := false, evalInc := fun _ _ _ => .throw .runtimeError }

example : LocalTest singleBitFlipIter valley [false, false] ⟨[true, false], 1, false⟩ (ok true) ∧
    LocalTest singleBitFlipIter valley [true, false] ⟨[true, false], 1, false⟩ (ok false) ∧
    globalTest valley [false, false] = ok false := by
  have hf : ∀ y : BV, y.length = valley.size → valley.eval y =
    ok ((fun x => if x = [true, true] then 5 else if x = [false, false] then 2 else 0) y) := fun y _ => rfl
  obtain ⟨b, h1, h2⟩ := localTest_singleBitFlip hf (bv := [false, false]) rfl (it := ⟨[true, false], 1, false⟩) rfl
  obtain ⟨c, h3, h4⟩ := localTest_singleBitFlip hf (bv := [true, false]) rfl (it := ⟨[true, false], 1, false⟩) rfl
  refine ⟨(h1 _).mpr ?_, (h3 _).mpr ?_, by decide⟩
  · have : b = true := h2.mpr (by
      intro y hy
      have hl := hammingDistance_length hy
      by_cases h : y = [true, true]
      · subst h; exact absurd hy (by decide)
      · simp only [h, if_false]
        split <;> simp)
    rw [this]
  · have : c ≠ true := by
      intro hc
      have := h4.mp hc [true, true] (by decide)
      exact absurd this (by decide)
    simp only [ne_eq, Bool.not_eq_true] at this
    rw [this]

theorem valley_maximum : DeclaresMaximum valley := by
  refine ⟨rfl, 5, rfl, fun x _ => ⟨_, rfl, ?_⟩, [true, true], rfl, by decide⟩
  split
  · simp
  · split <;> simp

/-- The hypotheses of `globalTest_spec` are met, with both answers. -/
example : DeclaresMaximum valley ∧ globalTest valley [true, true] = ok true ∧ globalTest valley [true, false] = ok false :=
  ⟨valley_maximum, by decide, by decide⟩

/-- On the sphere of radius 2, 00 is not a local maximum. -/
example : LocalTest hammingSphereIter valley [false, false] ⟨[true, false], 2, [0, 0], true⟩ (ok false) := by
  have hf : ∀ y : BV, y.length = valley.size → valley.eval y =
    ok ((fun x => if x = [true, true] then 5 else if x = [false, false] then 2 else 0) y) := fun y _ => rfl
  obtain ⟨c, h3, h4⟩ := localTest_hammingSphere hf (bv := [false, false]) rfl (r := 2) (by decide) (by decide)
    (it := ⟨[true, false], 2, [0, 0], true⟩) ⟨rfl, rfl, rfl⟩
  have : c ≠ true := by
    intro hc
    have := h4.mp hc [true, true] (by decide)
    exact absurd this (by decide)
  simp only [ne_eq, Bool.not_eq_true] at this
  exact (h3 _).mpr (by rw [this])

end Hnco
