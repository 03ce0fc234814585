import Verif.Walsh.Lemmas
import Verif.Function.QuboProps

/-! # C58: Walsh moments -/

namespace Hnco

open Outcome

/-! ## Specification -/

/-- Mean of `f` over a list of bit vectors. -/
def meanOver (xs : List BV) (f : BV → Rat) : Rat := (xs.map f).sum / (xs.length : Rat)

/-- The moment of the bit vectors `xs`: the first moment is the mean of `(-1)^x_i`, the second moment, stored below the
diagonal, the mean of `(-1)^x_i (-1)^x_j`. -/
def Moment.IsMean (full : Bool) (n : Nat) (m : Moment) (xs : List BV) : Prop :=
  m.Is full n (fun i => meanOver xs (fun x => signAt x i)) (fun i j => meanOver xs (fun x => signAt x i * signAt x j))

/-- All entries are in `[lo, hi]`. -/
def Moment.InRange (n : Nat) (m : Moment) (lo hi : Rat) : Prop :=
  (∀ (i : Nat) a, i < n → m.first[i]? = some a → lo ≤ a ∧ a ≤ hi) ∧
    ∀ (i j : Nat) v, i < n → j < i → m.entry i j = some v → lo ≤ v ∧ v ≤ hi

theorem Moment.Is.inRange {full : Bool} {n : Nat} {m : Moment} {F : Nat → Rat} {G : Nat → Nat → Rat}
    (h : m.Is full n F G) {lo hi : Rat} : m.InRange n lo hi ↔ EntriesIn n F G lo hi := by
  constructor
  · rintro ⟨h1, h2⟩
    exact ⟨fun i hi => h1 i _ hi (h.first i hi), fun i j hi hj => h2 i j _ hi hj (h.second i j hi hj)⟩
  · rintro ⟨h1, h2⟩
    refine ⟨fun i a hi ha => ?_, fun i j v hi hj hv => ?_⟩
    · rw [h.first i hi] at ha
      cases ha
      exact h1 i hi
    · rw [h.second i j hi hj] at hv
      cases hv
      exact h2 i j hi hj

/-! ## Sums of bit vectors -/

theorem Moment.Is.congr {full : Bool} {n : Nat} {m : Moment} {F F' : Nat → Rat} {G G' : Nat → Nat → Rat}
    (h : m.Is full n F G) (hF : ∀ i, i < n → F i = F' i) (hG : ∀ i j, i < n → j < i → G i j = G' i j) :
    m.Is full n F' G' :=
  ⟨h.shape, fun i hi => by rw [← hF i hi]; exact h.first i hi,
    fun i j hi hj => by rw [← hG i j hi hj]; exact h.second i j hi hj⟩

theorem addAll_spec {full : Bool} {n : Nat} : ∀ (xs : List BV) (m : Moment) (F : Nat → Rat) (G : Nat → Nat → Rat),
    m.Is full n F G → (∀ x ∈ xs, x.length = n) →
    (forEach xs (fun x r => r.add x) m).Returns (fun r => r.Is full n
      (fun i => F i + (xs.map (fun x => signAt x i)).sum)
      (fun i j => G i j + (xs.map (fun x => signAt x i * signAt x j)).sum))
  | [], m, F, G, h, _ => returns_ok.mpr (h.congr (fun i _ => by simp) (fun i j _ _ => by simp))
  | x :: xs, m, F, G, h, hx => by
    unfold forEach
    refine Returns.bind (Moment.add_spec h (hx x (by simp))) ?_
    intro r hr
    refine (addAll_spec xs r _ _ hr (fun y hy => hx y (by simp [hy]))).mono ?_
    intro u hu
    exact hu.congr (fun i _ => by simp [add_assoc]) (fun i j _ _ => by simp [add_assoc])

theorem sum_signs {xs : List BV} (f : BV → Rat) (hf : ∀ x, f x = 1 ∨ f x = -1) :
    -(xs.length : Rat) ≤ (xs.map f).sum ∧ (xs.map f).sum ≤ xs.length := by
  induction xs with
  | nil => simp
  | cons x xs ih =>
    simp only [List.map_cons, List.sum_cons, List.length_cons, Nat.cast_add, Nat.cast_one]
    rcases hf x with h | h <;> rw [h] <;> constructor <;> linarith [ih.1, ih.2]

theorem meanOver_unit {xs : List BV} (hxs : xs ≠ []) (f : BV → Rat) (hf : ∀ x, f x = 1 ∨ f x = -1) :
    -1 ≤ meanOver xs f ∧ meanOver xs f ≤ 1 := by
  obtain ⟨h1, h2⟩ := sum_signs (xs := xs) f hf
  have h0 : (0 : Rat) < xs.length := by
    have := List.length_pos_iff.mpr hxs
    exact_mod_cast this
  unfold meanOver
  constructor
  · rw [le_div_iff₀ h0]; linarith
  · rw [div_le_iff₀ h0]; linarith

theorem signAt_mul (x : BV) (i j : Nat) : signAt x i * signAt x j = 1 ∨ signAt x i * signAt x j = -1 := by
  rcases signAt_sq x i with h | h <;> rcases signAt_sq x j with h' | h' <;> rw [h, h'] <;> norm_num

theorem Moment.IsMean.inRange {full : Bool} {n : Nat} {m : Moment} {xs : List BV} (h : m.IsMean full n xs)
    (hxs : xs ≠ []) : m.InRange n (-1) 1 :=
  (Moment.Is.inRange h).mpr ⟨fun i _ => meanOver_unit hxs _ (fun x => signAt_sq x i),
    fun i j _ _ => meanOver_unit hxs _ (fun x => signAt_mul x i j)⟩

/-- The average of a moment which contains sums over bit vectors. -/
theorem Moment.average_mean {full : Bool} {n : Nat} {m : Moment} {xs : List BV} (hxs : xs ≠ []) {count : Int}
    (hc : count = xs.length)
    (h : m.Is full n (fun i => (xs.map (fun x => signAt x i)).sum)
      (fun i j => (xs.map (fun x => signAt x i * signAt x j)).sum)) :
    (m.average full count).Returns (fun r => r.IsMean full n xs ∧ (full = true → r.Symm n)) := by
  have hpos := List.length_pos_iff.mpr hxs
  subst hc
  refine Returns.mono (Moment.average_spec h (by omega)
    ⟨fun i _ => ?_, fun i j _ _ => ?_⟩) ?_
  · exact_mod_cast meanOver_unit hxs _ (fun x => signAt_sq x i)
  · exact_mod_cast meanOver_unit hxs _ (fun x => signAt_mul x i j)
  · rintro r ⟨h1, h2⟩
    exact ⟨h1.congr (fun i _ => by simp [meanOver]) (fun i j _ _ => by simp [meanOver]), h2⟩

/-- C58: after `init`, adding any bit vectors and averaging, without undefined behaviour or failed assertion, the moments
are the means of the products of signs, they are in `[-1, 1]`, and the full matrix is symmetric. -/
theorem moment_average {full : Bool} {n : Nat} {m : Moment} (hm : m.Shape full n) {xs : List BV} (hxs : xs ≠ [])
    (hlen : ∀ x ∈ xs, x.length = n) :
    (do let r ← forEach xs (fun x (r : Moment) => r.add x) m.init
        r.average full xs.length).Returns
      (fun r => r.IsMean full n xs ∧ r.InRange n (-1) 1 ∧ (full = true → r.Symm n)) := by
  refine Returns.bind (addAll_spec xs m.init _ _ (Moment.init_is hm).1 hlen) ?_
  intro r hr
  refine (Moment.average_mean hxs rfl (hr.congr (fun i _ => by simp) (fun i j _ _ => by simp))).mono ?_
  rintro u ⟨h1, h2⟩
  exact ⟨h1, h1.inRange hxs, h2⟩

/-- The hypotheses of `moment_average` are met by a new moment, and the result is not trivial. -/
example : (match (do
    let m ← Moment.new true 3
    let r ← forEach [[true, false, true], [true, true, false], [true, false, false], [false, true, true]]
      (fun x (r : Moment) => r.add x) m.init
    r.average true 4) with
    | .ok r => some r
    | _ => none) = some ⟨[-1/2, 0, 0], [[0, -1/2, -1/2], [-1/2, 0, 0], [-1/2, 0, 0]]⟩ := by decide +kernel

example : (match (do
    let m ← Moment.new false 3
    let r ← forEach [[true, false, true], [true, true, false], [true, false, false], [false, true, true]]
      (fun x (r : Moment) => r.add x) m.init
    r.average false 4) with
    | .ok r => some r
    | _ => none) = some ⟨[-1/2, 0, 0], [[], [-1/2], [-1/2, 0]]⟩ := by decide +kernel

/-- C58: a convex update of moments in `[-1, 1]` is the convex combination of the entries, stays in `[-1, 1]` (so that the
assertions pass), and gives a symmetric full matrix. -/
theorem moment_update {full : Bool} {n : Nat} {m m2 : Moment} {F F2 : Nat → Rat} {G G2 : Nat → Nat → Rat}
    (h : m.Is full n F G) (h2 : m2.Is full n F2 G2) (hr : m.InRange n (-1) 1) (hr2 : m2.InRange n (-1) 1) {rate : Rat}
    (h0 : 0 ≤ rate) (h1 : rate ≤ 1) :
    (m.update full m2 rate).Returns (fun r => r.Is full n (fun i => (1 - rate) * F i + rate * F2 i)
      (fun i j => (1 - rate) * G i j + rate * G2 i j) ∧ r.InRange n (-1) 1 ∧ (full = true → r.Symm n)) := by
  have a := h.inRange.mp hr
  have b := h2.inRange.mp hr2
  have hin : EntriesIn n (fun i => F i + rate * (F2 i - F i)) (fun i j => G i j + rate * (G2 i j - G i j)) (-1) 1 := by
    refine ⟨fun i hi => ?_, fun i j hi hj => ?_⟩
    · obtain ⟨a1, a2⟩ := a.1 i hi
      obtain ⟨b1, b2⟩ := b.1 i hi
      constructor <;> nlinarith
    · obtain ⟨a1, a2⟩ := a.2 i j hi hj
      obtain ⟨b1, b2⟩ := b.2 i j hi hj
      constructor <;> nlinarith
  refine (Moment.update_spec h h2 hin).mono ?_
  rintro r ⟨h1, h2⟩
  exact ⟨h1.congr (fun i _ => by ring) (fun i j _ _ => by ring), h1.inRange.mpr hin, h2⟩

example : (match (do
    let m ← (Moment.mk [1, -1] [[0, 1], [1, 0]]).update true ⟨[0, 1/2], [[7, 9], [-1, 7]]⟩ (1/4)
    (ok m : Outcome Moment)) with
    | .ok r => some r
    | _ => none) = some ⟨[3/4, -5/8], [[0, 1/2], [1/2, 0]]⟩ := by decide +kernel

/-- C58 (negative part): a rate above 1 can take the moments out of range; the assertion then fails. -/
theorem moment_update_undefined (full : Bool) : ∃ m m2 : Moment, m.Shape full 1 ∧ m2.Shape full 1 ∧
    m.InRange 1 (-1) 1 ∧ m2.InRange 1 (-1) 1 ∧ m.update full m2 2 = ub := by
  have hs : ∀ a : Rat, (Moment.mk [a] [if full then [0] else []]).Is full 1 (fun _ => a) (fun _ _ => 0) := by
    intro a
    refine ⟨⟨rfl, rfl, ?_⟩, ?_, ?_⟩
    · intro i row h
      match i, h with
      | 0, h => cases h; cases full <;> rfl
    · intro i hi
      obtain rfl : i = 0 := by omega
      rfl
    · intro i j hi hj
      omega
  refine ⟨⟨[1], [if full then [0] else []]⟩, ⟨[-1], [if full then [0] else []]⟩, (hs 1).shape, (hs (-1)).shape,
    (hs 1).inRange.mpr ⟨fun _ _ => by norm_num, fun i j h1 h2 => by omega⟩,
    (hs (-1)).inRange.mpr ⟨fun _ _ => by norm_num, fun i j h1 h2 => by omega⟩, ?_⟩
  cases full <;> decide +kernel

/-- C58: bounding with a margin below 1 replaces each entry by the nearest number in `[margin - 1, 1 - margin]`. -/
theorem moment_bound {full : Bool} {n : Nat} {m : Moment} {F : Nat → Rat} {G : Nat → Nat → Rat} (h : m.Is full n F G)
    {margin : Rat} (h0 : 0 ≤ margin) (h1 : margin < 1) :
    (m.bound full margin).Returns (fun r => r.Is full n (fun i => max (margin - 1) (min (1 - margin) (F i)))
        (fun i j => max (margin - 1) (min (1 - margin) (G i j))) ∧
      r.InRange n (margin - 1) (1 - margin) ∧ (full = true → r.Symm n)) := by
  refine (Moment.bound_spec h h0 h1).mono ?_
  rintro r ⟨g1, g2⟩
  have key : ∀ x : Rat, margin - 1 ≤ max (margin - 1) (min (1 - margin) x) ∧
      max (margin - 1) (min (1 - margin) x) ≤ 1 - margin :=
    fun x => ⟨le_max_left _ _, max_le (by linarith) (min_le_left _ _)⟩
  exact ⟨g1, g1.inRange.mpr ⟨fun i _ => key _, fun i j _ _ => key _⟩, g2⟩

/-- C58 (negative part): the margin 1 is allowed by the first assertion of `bound` and refused by the second. -/
theorem moment_bound_one (full : Bool) (m : Moment) : m.bound full 1 = ub := by
  unfold Moment.bound
  rw [assert_pos (by decide +kernel), ok_bind, assert_neg (by decide +kernel)]
  rfl

example : (match (Moment.mk [1, -3/4] [[], [1/8]]).bound false (1/2) with
    | .ok r => some r
    | _ => none) = some ⟨[1/2, -1/2], [[], [1/8]]⟩ := by decide +kernel

/-! ## Norms -/

theorem fold_sum {full : Bool} {n : Nat} {m : Moment} {F : Nat → Rat} {G : Nat → Nat → Rat} (h : m.Is full n F G)
    (t : Rat → Rat) : m.fold (fun r x => r + t x) =
      ok (∑ i ∈ Finset.range n, (t (F i) + ∑ j ∈ Finset.range i, t (G i j))) := by
  unfold Moment.fold
  rw [h.shape.first, forRange_sum_Ico 0 n _ (fun i => t (F i) + ∑ j ∈ Finset.range i, t (G i j)), zero_add,
    Finset.range_eq_Ico]
  intro i _ hi r
  unfold vget
  rw [h.first i hi, ok_bind, forRange_sum_Ico 0 i _ (fun j => t (G i j)), Finset.range_eq_Ico, add_assoc]
  intro j _ hj r
  rw [Moment.read_eq (h.second i j hi hj), ok_bind]

/-- C58: `norm_1` is the sum of the absolute values of the first moment and of the second moment below the diagonal. -/
theorem moment_norm1 {full : Bool} {n : Nat} {m : Moment} {F : Nat → Rat} {G : Nat → Nat → Rat} (h : m.Is full n F G) :
    m.norm1 = ok (∑ i ∈ Finset.range n, (|F i| + ∑ j ∈ Finset.range i, |G i j|)) := fold_sum h (fun x => |x|)

/-- C58: `norm_2` is the square root of the sum of the squares of the first moment and of the second moment below the
diagonal. -/
theorem moment_norm2 {full : Bool} {n : Nat} {m : Moment} {F : Nat → Rat} {G : Nat → Nat → Rat} (h : m.Is full n F G) :
    m.norm2Squared = ok (∑ i ∈ Finset.range n, (F i ^ 2 + ∑ j ∈ Finset.range i, G i j ^ 2)) := by
  have := fold_sum h (fun x => x * x)
  simp only [← pow_two] at this
  unfold Moment.norm2Squared
  simp only [← pow_two]
  exact this

/-- C58: `distance` is the 2-norm of the difference. -/
theorem moment_distance {full : Bool} {n : Nat} {m m2 : Moment} {F F2 : Nat → Rat} {G G2 : Nat → Nat → Rat}
    (h : m.Is full n F G) (h2 : m2.Is full n F2 G2) :
    m.distanceSquared m2 =
      ok (∑ i ∈ Finset.range n, ((F i - F2 i) ^ 2 + ∑ j ∈ Finset.range i, (G i j - G2 i j) ^ 2)) := by
  unfold Moment.distanceSquared
  rw [assert_pos (by simp [h.shape.first, h2.shape.first]), ok_bind, h.shape.first,
    forRange_sum_Ico 0 n _ (fun i => (F i - F2 i) ^ 2 + ∑ j ∈ Finset.range i, (G i j - G2 i j) ^ 2), zero_add,
    Finset.range_eq_Ico]
  intro i _ hi r
  unfold vget
  rw [h.first i hi, ok_bind, h2.first i hi, ok_bind, forRange_sum_Ico 0 i _ (fun j => (G i j - G2 i j) ^ 2),
    Finset.range_eq_Ico, add_assoc, pow_two]
  intro j _ hj r
  rw [Moment.read_eq (h.second i j hi hj), ok_bind, Moment.read_eq (h2.second i j hi hj), ok_bind, pow_two]

/-- The number is an entry of the moment (on or below the diagonal). -/
def IsEntry (n : Nat) (F : Nat → Rat) (G : Nat → Nat → Rat) (x : Rat) : Prop :=
  (∃ i, i < n ∧ x = F i) ∨ ∃ i j, i < n ∧ j < i ∧ x = G i j

/-- C58: what `norm_infinite` computes is the largest of 0 and the entries. -/
theorem moment_normInfinite_max {full : Bool} {n : Nat} {m : Moment} {F : Nat → Rat} {G : Nat → Nat → Rat}
    (h : m.Is full n F G) : m.normInfinite.Returns (fun r => 0 ≤ r ∧ (∀ x, IsEntry n F G x → x ≤ r) ∧
      (r = 0 ∨ IsEntry n F G r)) := by
  unfold Moment.normInfinite Moment.fold
  rw [h.shape.first]
  refine (forRange_returns (fun k r => 0 ≤ r ∧ (∀ x, IsEntry k F G x → x ≤ r) ∧ (r = 0 ∨ IsEntry n F G r))
    (Nat.zero_le n) ⟨le_refl _, ?_, Or.inl rfl⟩ ?_)
  · rintro x (⟨i, hi, _⟩ | ⟨i, j, hi, _⟩) <;> omega
  · rintro i r _ hi ⟨h1, h2, h3⟩
    have hfi := h.first i hi
    unfold vget
    rw [hfi, ok_bind]
    refine (forRange_returns (fun j r' => max r (F i) ≤ r' ∧ (∀ j', j' < j → G i j' ≤ r') ∧ (r' = 0 ∨ IsEntry n F G r'))
      (Nat.zero_le i) ⟨le_refl _, fun j' hj' => absurd hj' (Nat.not_lt_zero _), ?_⟩ ?_).mono ?_
    · rcases le_total r (F i) with hle | hle
      · rw [max_eq_right hle]
        exact Or.inr (Or.inl ⟨i, hi, rfl⟩)
      · rw [max_eq_left hle]
        exact h3
    · rintro j r' _ hj ⟨k1, k2, k3⟩
      rw [Moment.read_eq (h.second i j hi hj), ok_bind]
      refine returns_ok.mpr ⟨le_trans k1 (le_max_left _ _), fun j' hj' => ?_, ?_⟩
      · by_cases hjj : j' = j
        · subst hjj; exact le_max_right _ _
        · exact le_trans (k2 j' (by omega)) (le_max_left _ _)
      · show max r' (G i j) = 0 ∨ IsEntry n F G (max r' (G i j))
        rcases le_total r' (G i j) with hle | hle
        · rw [max_eq_right hle]
          exact Or.inr (Or.inr ⟨i, j, hi, hj, rfl⟩)
        · rw [max_eq_left hle]
          exact k3
    · rintro r' ⟨k1, k2, k3⟩
      refine ⟨le_trans h1 (le_trans (le_max_left _ _) k1), ?_, k3⟩
      rintro x (⟨a, ha, rfl⟩ | ⟨a, b, ha, hb, rfl⟩)
      · by_cases hai : a = i
        · subst hai; exact le_trans (le_max_right _ _) k1
        · exact le_trans (h2 _ (Or.inl ⟨a, by omega, rfl⟩)) (le_trans (le_max_left _ _) k1)
      · by_cases hai : a = i
        · subst hai; exact k2 b hb
        · exact le_trans (h2 _ (Or.inr ⟨a, b, by omega, hb, rfl⟩)) (le_trans (le_max_left _ _) k1)

/-- C58 (negative part): `norm_infinite` ignores negative entries: it is 0 if no entry is positive. -/
theorem moment_normInfinite_negative {full : Bool} {n : Nat} {m : Moment} {F : Nat → Rat} {G : Nat → Nat → Rat}
    (h : m.Is full n F G) (hneg : ∀ x, IsEntry n F G x → x ≤ 0) : m.normInfinite = ok 0 := by
  obtain ⟨r, e, h1, _, h3⟩ := moment_normInfinite_max h
  rw [e]
  rcases h3 with h3 | h3
  · rw [h3]
  · rw [le_antisymm (hneg r h3) h1]

/-- C58: `norm_infinite` is the infinite norm if no entry is negative. -/
theorem moment_normInfinite {full : Bool} {n : Nat} {m : Moment} {F : Nat → Rat} {G : Nat → Nat → Rat}
    (h : m.Is full n F G) (hn : 0 < n) (hpos : ∀ x, IsEntry n F G x → 0 ≤ x) :
    m.normInfinite.Returns (fun r => (∀ x, IsEntry n F G x → |x| ≤ r) ∧ ∃ x, IsEntry n F G x ∧ |x| = r) := by
  refine (moment_normInfinite_max h).mono ?_
  rintro r ⟨h1, h2, h3⟩
  refine ⟨fun x hx => by rw [abs_of_nonneg (hpos x hx)]; exact h2 x hx, ?_⟩
  rcases h3 with h3 | h3
  · have he : IsEntry n F G (F 0) := Or.inl ⟨0, hn, rfl⟩
    refine ⟨F 0, he, ?_⟩
    have := h2 _ he
    have := hpos _ he
    rw [abs_of_nonneg this]
    linarith
  · exact ⟨r, h3, abs_of_nonneg h1⟩

/-- The two norms differ. -/
example : (Moment.mk [-1, -1/2] [[], [-1]]).normInfinite = ok 0 := by decide +kernel

example : (Moment.mk [-1, 1/2] [[], [1/4]]).normInfinite = ok (1/2) := by decide +kernel

end Hnco
