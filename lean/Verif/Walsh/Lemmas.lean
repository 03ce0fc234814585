import Verif.Walsh.Model
import Verif.Algorithm.RateProps
import Mathlib.Algebra.Order.Field.Rat
import Mathlib.Algebra.BigOperators.Intervals
import Mathlib.Tactic.Linarith

/-! # Moments as functions of the indices -/

namespace Hnco

open Outcome

/-- `second_moment[i][j]`, if stored. -/
def Moment.entry (m : Moment) (i j : Nat) : Option Rat := m.second[i]?.bind (fun row => row[j]?)

/-- Sizes of the members of a moment for bit vectors of size `n`. -/
structure Moment.Shape (full : Bool) (n : Nat) (m : Moment) : Prop where
  first : m.first.length = n
  second : m.second.length = n
  rows : ∀ (i : Nat) row, m.second[i]? = some row → row.length = if full then n else i

/-- The moment has the sizes for `n` bits, its first moment is `F`, and its second moment is `G` below the diagonal. -/
structure Moment.Is (full : Bool) (n : Nat) (m : Moment) (F : Nat → Rat) (G : Nat → Nat → Rat) : Prop where
  shape : m.Shape full n
  first : ∀ i, i < n → m.first[i]? = some (F i)
  second : ∀ i j, i < n → j < i → m.entry i j = some (G i j)

/-- The second moment is symmetric. -/
def Moment.Symm (n : Nat) (m : Moment) : Prop := ∀ i j, i < n → j < i → m.entry j i = m.entry i j

theorem Moment.read_eq {m : Moment} {i j : Nat} {v : Rat} (h : m.entry i j = some v) : m.read i j = ok v := by
  unfold Moment.entry at h
  unfold Moment.read vget
  cases hr : m.second[i]? with
  | none => rw [hr] at h; cases h
  | some row =>
    rw [hr] at h
    have h : row[j]? = some v := h
    rw [ok_bind, h]

theorem Moment.read_ub {m : Moment} {i j : Nat} (h : m.entry i j = none) : m.read i j = ub := by
  unfold Moment.entry at h
  unfold Moment.read vget
  cases hr : m.second[i]? with
  | none => rfl
  | some row =>
    rw [hr] at h
    have h : row[j]? = none := h
    rw [ok_bind, h]

theorem Moment.Shape.stored {full : Bool} {n : Nat} {m : Moment} (h : m.Shape full n) {i j : Nat} (hi : i < n)
    (hj : j < if full then n else i) : ∃ v, m.entry i j = some v := by
  have hi' : i < m.second.length := by rw [h.second]; exact hi
  have hr := h.rows i _ (List.getElem?_eq_getElem hi')
  refine ⟨(m.second[i])[j]'(by rw [hr]; exact hj), ?_⟩
  unfold Moment.entry
  rw [List.getElem?_eq_getElem hi']
  exact List.getElem?_eq_getElem _

theorem Moment.Shape.not_stored {full : Bool} {n : Nat} {m : Moment} (h : m.Shape full n) {i j : Nat}
    (hj : (if full then n else i) ≤ j) : m.entry i j = none := by
  unfold Moment.entry
  cases hr : m.second[i]? with
  | none => rfl
  | some row => exact List.getElem?_eq_none (by rw [h.rows i row hr]; exact hj)

theorem Moment.write_spec {full : Bool} {n : Nat} {m : Moment} (h : m.Shape full n) {i j : Nat} (hi : i < n)
    (hj : j < if full then n else i) (x : Rat) :
    (m.write i j x).Returns (fun r => r.Shape full n ∧ r.first = m.first ∧ r.entry i j = some x ∧
      ∀ a b, (a, b) ≠ (i, j) → r.entry a b = m.entry a b) := by
  have hi' : i < m.second.length := by rw [h.second]; exact hi
  have hr := h.rows i _ (List.getElem?_eq_getElem hi')
  have hj' : j < m.second[i].length := by rw [hr]; exact hj
  unfold Moment.write
  rw [vget_eq hi', ok_bind, vset_eq hj', ok_bind, vset_eq hi', ok_bind]
  refine returns_ok.mpr ⟨⟨h.first, by simpa using h.second, ?_⟩, rfl, ?_, ?_⟩
  · intro a row ha
    by_cases hai : i = a
    · subst hai
      dsimp only at ha
      rw [List.getElem?_set_self hi'] at ha
      cases ha
      rw [List.length_set]
      exact hr
    · dsimp only at ha
      rw [List.getElem?_set_ne hai] at ha
      exact h.rows a row ha
  · unfold Moment.entry
    dsimp only
    rw [List.getElem?_set_self hi']
    exact List.getElem?_set_self hj'
  · intro a b hab
    unfold Moment.entry
    dsimp only
    by_cases hai : i = a
    · subst hai
      rw [List.getElem?_set_self hi', List.getElem?_eq_getElem hi']
      exact List.getElem?_set_ne (by rintro rfl; exact hab rfl)
    · rw [List.getElem?_set_ne hai]

/-- Every moment with the right sizes is given by functions of the indices. -/
theorem Moment.Shape.is {full : Bool} {n : Nat} {m : Moment} (h : m.Shape full n) : ∃ F G, m.Is full n F G := by
  have h1 : ∀ i, ∃ a, i < n → m.first[i]? = some a := by
    intro i
    by_cases hi : i < n
    · exact ⟨_, fun _ => List.getElem?_eq_getElem (by rw [h.first]; exact hi)⟩
    · exact ⟨0, fun h => absurd h hi⟩
  have h2 : ∀ i j, ∃ a, i < n → j < i → m.entry i j = some a := by
    intro i j
    by_cases hi : i < n ∧ j < i
    · obtain ⟨v, hv⟩ := h.stored (j := j) hi.1 (by split <;> omega)
      exact ⟨v, fun _ _ => hv⟩
    · exact ⟨0, fun h1 h2 => absurd ⟨h1, h2⟩ hi⟩
  exact ⟨fun i => (h1 i).choose, fun i j => (h2 i j).choose, h, fun i hi => (h1 i).choose_spec hi,
    fun i j hi hj => (h2 i j).choose_spec hi hj⟩

/-- The double loop changes every entry of the first moment and of the second moment below the diagonal once. -/
theorem Moment.sweep_spec {full mirror : Bool} (hmir : mirror = true → full = true) {n : Nat} {m : Moment}
    {F F' : Nat → Rat} {G G' : Nat → Nat → Rat} (h : m.Is full n F G) {f : Nat → Rat → Outcome Rat}
    {g : Nat → Nat → Rat → Outcome Rat} (hf : ∀ i, i < n → f i (F i) = ok (F' i))
    (hg : ∀ i j, i < n → j < i → g i j (G i j) = ok (G' i j)) :
    (m.sweep mirror f g).Returns (fun r => r.Is full n F' G' ∧ (mirror = true → r.Symm n)) := by
  unfold Moment.sweep
  rw [h.shape.first]
  refine Returns.mono (forRange_returns (fun i (r : Moment) => r.Shape full n ∧
    (∀ a, a < n → r.first[a]? = some (if a < i then F' a else F a)) ∧
    (∀ a b, a < n → b < a → r.entry a b = some (if a < i then G' a b else G a b)) ∧
    (mirror = true → ∀ a b, a < i → b < a → r.entry b a = r.entry a b)) (Nat.zero_le n) ?_ ?_) ?_
  · refine ⟨h.shape, fun a ha => ?_, fun a b ha hb => ?_, fun _ a b ha => absurd ha (Nat.not_lt_zero _)⟩
    · rw [if_neg (Nat.not_lt_zero _)]; exact h.first a ha
    · rw [if_neg (Nat.not_lt_zero _)]; exact h.second a b ha hb
  · rintro i r _ hi ⟨h1, h2, h3, h4⟩
    have hri : i < r.first.length := by rw [h1.first]; exact hi
    have hvi := h2 i hi
    rw [if_neg (Nat.lt_irrefl i), List.getElem?_eq_getElem hri] at hvi
    rw [vget_eq hri, ok_bind, Option.some.inj hvi, hf i hi, ok_bind, vset_eq hri, ok_bind]
    refine Returns.mono (forRange_returns (fun j (u : Moment) => u.Shape full n ∧
      u.first = r.first.set i (F' i) ∧
      (∀ a b, a < n → b < a → u.entry a b = some (if a < i ∨ (a = i ∧ b < j) then G' a b else G a b)) ∧
      (mirror = true → ∀ a b, (a < i ∨ (a = i ∧ b < j)) → b < a → u.entry b a = u.entry a b)) (Nat.zero_le i) ?_ ?_) ?_
    · refine ⟨⟨by simpa using h1.first, h1.second, h1.rows⟩, rfl, fun a b ha hb => ?_, fun hm a b ha hb => ?_⟩
      · have := h3 a b ha hb
        simp only [Nat.not_lt_zero, and_false, or_false]
        exact this
      · exact h4 hm a b (by omega) hb
    · rintro j u _ hj ⟨k1, k2, k3, k4⟩
      have he := k3 i j hi hj
      rw [if_neg (by omega)] at he
      rw [Moment.read_eq he, ok_bind, hg i j hi hj, ok_bind]
      refine Returns.bind (Moment.write_spec k1 (i := i) (j := j) hi (by split <;> omega) (G' i j)) ?_
      rintro w ⟨w1, w2, w3, w4⟩
      have hw : ∀ a b, a < n → b < a → w.entry a b = some (if a < i ∨ (a = i ∧ b < j + 1) then G' a b else G a b) := by
        intro a b ha hb
        by_cases hab : (a, b) = (i, j)
        · obtain ⟨rfl, rfl⟩ := Prod.mk.inj hab
          rw [w3, if_pos (by omega)]
        · rw [w4 a b hab, k3 a b ha hb]
          have : ¬ (a = i ∧ b = j) := by
            rintro ⟨rfl, rfl⟩; exact hab rfl
          by_cases hc : a < i ∨ (a = i ∧ b < j)
          · rw [if_pos hc, if_pos (by omega)]
          · rw [if_neg hc, if_neg (by omega)]
      split
      · rename_i hm
        refine Returns.mono (Moment.write_spec w1 (i := j) (j := i) (by omega) (by rw [if_pos (hmir hm)]; exact hi)
          (G' i j)) ?_
        rintro z ⟨z1, z2, z3, z4⟩
        refine ⟨z1, by rw [z2, w2, k2], fun a b ha hb => ?_, fun _ a b hab hb => ?_⟩
        · rw [z4 a b (by intro e; obtain ⟨rfl, rfl⟩ := Prod.mk.inj e; omega)]
          exact hw a b ha hb
        · rw [z4 a b (by intro e; obtain ⟨rfl, rfl⟩ := Prod.mk.inj e; omega)]
          by_cases hbj : a = i ∧ b = j
          · obtain ⟨rfl, rfl⟩ := hbj
            rw [z3, w3]
          · rw [z4 b a (by intro e; obtain ⟨rfl, rfl⟩ := Prod.mk.inj e; exact hbj ⟨rfl, rfl⟩),
              w4 b a (by intro e; obtain ⟨rfl, rfl⟩ := Prod.mk.inj e; omega),
              w4 a b (by intro e; obtain ⟨rfl, rfl⟩ := Prod.mk.inj e; exact hbj ⟨rfl, rfl⟩)]
            exact k4 hm a b (by omega) hb
      · rename_i hm
        exact returns_ok.mpr ⟨w1, by rw [w2, k2], hw, fun hm' => absurd hm' hm⟩
    · rintro u ⟨u1, u2, u3, u4⟩
      refine ⟨u1, fun a ha => ?_, fun a b ha hb => ?_, fun hm a b ha hb => u4 hm a b (by omega) hb⟩
      · rw [u2]
        by_cases hai : i = a
        · subst hai
          rw [List.getElem?_set_self hri, if_pos (by omega)]
        · rw [List.getElem?_set_ne hai, h2 a ha]
          by_cases hc : a < i
          · rw [if_pos hc, if_pos (by omega)]
          · rw [if_neg hc, if_neg (by omega)]
      · rw [u3 a b ha hb]
        by_cases hc : a < i + 1
        · rw [if_pos (by omega), if_pos hc]
        · rw [if_neg (by omega), if_neg hc]
  · rintro r ⟨h1, h2, h3, h4⟩
    refine ⟨⟨h1, fun i hi => by rw [h2 i hi, if_pos hi], fun i j hi hj => by rw [h3 i j hi hj, if_pos hi]⟩,
      fun hm i j hi hj => h4 hm i j hi hj⟩

theorem Moment.init_is {full : Bool} {n : Nat} {m : Moment} (h : m.Shape full n) :
    m.init.Is full n (fun _ => 0) (fun _ _ => 0) ∧ (full = true → m.init.Symm n) := by
  have he : ∀ i j, i < n → (j < if full then n else i) → m.init.entry i j = some 0 := by
    intro i j hi hj
    have hi' : i < m.second.length := by rw [h.second]; exact hi
    have hr := h.rows i _ (List.getElem?_eq_getElem hi')
    unfold Moment.entry Moment.init
    dsimp only
    rw [List.getElem?_map, List.getElem?_eq_getElem hi']
    show (List.replicate m.second[i].length (0 : Rat))[j]? = some 0
    rw [List.getElem?_replicate, if_pos (by rw [hr]; exact hj)]
  refine ⟨⟨⟨by simp [Moment.init, h.first], by simp [Moment.init, h.second], ?_⟩, ?_, ?_⟩, ?_⟩
  · intro i row hrow
    unfold Moment.init at hrow
    dsimp only at hrow
    rw [List.getElem?_map] at hrow
    cases hr : m.second[i]? with
    | none => rw [hr] at hrow; cases hrow
    | some row' =>
      rw [hr] at hrow
      cases hrow
      rw [List.length_replicate]
      exact h.rows i row' hr
  · intro i hi
    unfold Moment.init
    dsimp only
    rw [List.getElem?_replicate, if_pos (by rw [h.first]; exact hi)]
  · intro i j hi hj
    exact he i j hi (by split <;> omega)
  · rintro rfl i j hi hj
    rw [he j i (by omega) (by simpa using hi), he i j hi (by simp; omega)]

theorem Moment.new_spec {full : Bool} {n : Nat} (hn : 0 < n) :
    (Moment.new full (n : Int)).Returns (fun m => m.Is full n (fun _ => 0) (fun _ _ => 0) ∧ (full = true → m.Symm n)) := by
  unfold Moment.new
  rw [assert_pos (decide_eq_true (by omega)), ok_bind, Int.toNat_natCast]
  have hrow : ∀ (i : Nat), i < n → ((List.range n).map (fun i => List.replicate (if full then n else i) (0 : Rat)))[i]? =
      some (List.replicate (if full then n else i) 0) := by
    intro i hi
    rw [List.getElem?_map, List.getElem?_range hi]
    rfl
  have he : ∀ i j, i < n → (j < if full then n else i) → (⟨List.replicate n 0,
      (List.range n).map (fun i => List.replicate (if full then n else i) 0)⟩ : Moment).entry i j = some 0 := by
    intro i j hi hj
    unfold Moment.entry
    dsimp only
    rw [hrow i hi]
    show (List.replicate (if full then n else i) (0 : Rat))[j]? = some 0
    rw [List.getElem?_replicate, if_pos hj]
  refine returns_ok.mpr ⟨⟨⟨by simp, by simp, ?_⟩, ?_, ?_⟩, ?_⟩
  · intro i row hr
    have hi : i < n := by
      have := (List.getElem?_eq_some_iff.mp hr).1
      simpa using this
    rw [hrow i hi] at hr
    cases hr
    exact List.length_replicate
  · intro i hi
    dsimp only
    rw [List.getElem?_replicate, if_pos hi]
  · intro i j hi hj
    exact he i j hi (by split <;> omega)
  · rintro rfl i j hi hj
    rw [he j i (by omega) (by simpa using hi), he i j hi (by simp; omega)]

/-- `(-1)^x_i`, the value at `x` of the Walsh function of the bit `i`. -/
def signAt (x : BV) (i : Nat) : Rat := if x[i]? = some true then -1 else 1

theorem signAt_eq {x : BV} {i : Nat} (hi : i < x.length) : signAt x i = if x[i] then -1 else 1 := by
  unfold signAt
  rw [List.getElem?_eq_getElem hi]
  cases x[i] <;> simp

theorem signAt_sq (x : BV) (i : Nat) : signAt x i = 1 ∨ signAt x i = -1 := by
  unfold signAt
  split <;> simp

theorem Moment.add_spec {full : Bool} {n : Nat} {m : Moment} {F : Nat → Rat} {G : Nat → Nat → Rat}
    (h : m.Is full n F G) {x : BV} (hx : x.length = n) :
    (m.add x).Returns (fun r => r.Is full n (fun i => F i + signAt x i)
      (fun i j => G i j + signAt x i * signAt x j)) := by
  unfold Moment.add
  rw [assert_pos (by simp [hx, h.shape.first]), ok_bind]
  refine (Moment.sweep_spec (by simp) h ?_ ?_).mono (fun r hr => hr.1)
  · intro i hi
    have hi' : i < x.length := by omega
    rw [vget_eq hi', ok_bind, signAt_eq hi']
    cases x[i] <;> simp [sub_eq_add_neg]
  · intro i j hi hj
    have hi' : i < x.length := by omega
    have hj' : j < x.length := by omega
    rw [vget_eq hi', ok_bind, vget_eq hj', ok_bind, signAt_eq hi', signAt_eq hj']
    cases x[i] <;> cases x[j] <;> simp [sub_eq_add_neg]

theorem checkUnit_eq {x : Rat} (h : -1 ≤ x ∧ x ≤ 1) : checkUnit x = ok x := by
  unfold checkUnit
  rw [assert_pos (decide_eq_true h), ok_bind]

/-- The check for symmetry passes for a symmetric full matrix. -/
theorem matrixIsSymmetric_eq {n : Nat} {m : Moment} (h : m.Shape true n) (hs : m.Symm n) :
    matrixIsSymmetric m = ok true := by
  unfold matrixIsSymmetric
  rw [h.second]
  obtain ⟨b, e, hb⟩ := forRange_returns (s := true) (body := fun i (r : Bool) =>
    forRange 0 i (fun j (r : Bool) => do
      let a ← m.read i j
      let b ← m.read j i
      ok (r && decide (a = b))) r) (fun _ (r : Bool) => r = true) (Nat.zero_le n) rfl (by
    rintro i r _ hi rfl
    refine forRange_returns (fun _ (r : Bool) => r = true) (Nat.zero_le i) rfl ?_
    rintro j r _ hj rfl
    obtain ⟨v, hv⟩ := h.stored (i := i) (j := j) hi (by rw [if_pos rfl]; omega)
    rw [Moment.read_eq hv, ok_bind, Moment.read_eq (by rw [hs i j hi hj]; exact hv), ok_bind]
    exact returns_ok.mpr (by simp))
  rw [e, hb]

theorem checkSymmetric_eq {full : Bool} {n : Nat} {m : Moment} (h : m.Shape full n) (hs : full = true → m.Symm n) :
    checkSymmetric full m = ok m := by
  unfold checkSymmetric
  cases full with
  | false => rfl
  | true => rw [if_pos rfl, matrixIsSymmetric_eq h (hs rfl)]; rfl

/-- All entries are between `lo` and `hi`. -/
def EntriesIn (n : Nat) (F : Nat → Rat) (G : Nat → Nat → Rat) (lo hi : Rat) : Prop :=
  (∀ i, i < n → lo ≤ F i ∧ F i ≤ hi) ∧ ∀ i j, i < n → j < i → lo ≤ G i j ∧ G i j ≤ hi

theorem Moment.average_spec {full : Bool} {n : Nat} {m : Moment} {F : Nat → Rat} {G : Nat → Nat → Rat}
    (h : m.Is full n F G) {count : Int} (hc : count ≠ 0)
    (hr : EntriesIn n (fun i => F i / count) (fun i j => G i j / count) (-1) 1) :
    (m.average full count).Returns (fun r => r.Is full n (fun i => F i / count) (fun i j => G i j / count) ∧
      (full = true → r.Symm n)) := by
  unfold Moment.average
  refine Returns.bind (Moment.sweep_spec (fun h => h) h (F' := fun i => F i / count)
    (G' := fun i j => G i j / count) ?_ ?_) ?_
  · intro i hi
    unfold divideBy
    rw [assert_pos (decide_eq_true hc), ok_bind, checkUnit_eq (hr.1 i hi)]
  · intro i j hi hj
    unfold divideBy
    rw [assert_pos (decide_eq_true hc), ok_bind, checkUnit_eq (hr.2 i j hi hj)]
  · rintro r ⟨h1, h2⟩
    rw [checkSymmetric_eq h1.shape h2]
    exact returns_ok.mpr ⟨h1, h2⟩

theorem Moment.update_spec {full : Bool} {n : Nat} {m m2 : Moment} {F F2 : Nat → Rat} {G G2 : Nat → Nat → Rat}
    (h : m.Is full n F G) (h2 : m2.Is full n F2 G2) {rate : Rat}
    (hr : EntriesIn n (fun i => F i + rate * (F2 i - F i)) (fun i j => G i j + rate * (G2 i j - G i j)) (-1) 1) :
    (m.update full m2 rate).Returns (fun r => r.Is full n (fun i => F i + rate * (F2 i - F i))
      (fun i j => G i j + rate * (G2 i j - G i j)) ∧ (full = true → r.Symm n)) := by
  unfold Moment.update
  rw [assert_pos (by simp [h2.shape.first, h.shape.first]), ok_bind]
  refine Returns.bind (Moment.sweep_spec (fun h => h) h (F' := fun i => F i + rate * (F2 i - F i))
    (G' := fun i j => G i j + rate * (G2 i j - G i j)) ?_ ?_) ?_
  · intro i hi
    unfold vget
    rw [h2.first i hi, ok_bind, checkUnit_eq (hr.1 i hi)]
  · intro i j hi hj
    rw [Moment.read_eq (h2.second i j hi hj), ok_bind, checkUnit_eq (hr.2 i j hi hj)]
  · rintro r ⟨h1, h2⟩
    rw [checkSymmetric_eq h1.shape h2]
    exact returns_ok.mpr ⟨h1, h2⟩

theorem Moment.updateBetween_spec {full : Bool} {n : Nat} {m m1 m2 : Moment} {F F1 F2 : Nat → Rat}
    {G G1 G2 : Nat → Nat → Rat} (h : m.Is full n F G) (h1 : m1.Is full n F1 G1) (h2 : m2.Is full n F2 G2) (rate : Rat) :
    (m.updateBetween full m1 m2 rate).Returns (fun r => r.Is full n (fun i => F i + rate * (F1 i - F2 i))
      (fun i j => G i j + rate * (G1 i j - G2 i j)) ∧ (full = true → r.Symm n)) := by
  unfold Moment.updateBetween
  rw [assert_pos (by simp [h1.shape.first, h.shape.first]), ok_bind,
    assert_pos (by simp [h2.shape.first, h.shape.first]), ok_bind]
  refine Moment.sweep_spec (fun h => h) h ?_ ?_
  · intro i hi
    unfold vget
    rw [h1.first i hi, ok_bind, h2.first i hi, ok_bind]
  · intro i j hi hj
    rw [Moment.read_eq (h1.second i j hi hj), ok_bind, Moment.read_eq (h2.second i j hi hj), ok_bind]

theorem Moment.scaledDifference_spec {full : Bool} {n : Nat} {m m1 m2 : Moment} {F1 F2 : Nat → Rat}
    {G1 G2 : Nat → Nat → Rat} (h : m.Shape full n) (h1 : m1.Is full n F1 G1) (h2 : m2.Is full n F2 G2) (lambda : Rat) :
    (m.scaledDifference full lambda m1 m2).Returns (fun r => r.Is full n (fun i => lambda * F1 i - F2 i)
      (fun i j => lambda * G1 i j - G2 i j) ∧ (full = true → r.Symm n)) := by
  unfold Moment.scaledDifference
  rw [assert_pos (by simp [h1.shape.first, h.first]), ok_bind, assert_pos (by simp [h2.shape.first, h.first]), ok_bind]
  obtain ⟨F, G, hm⟩ := h.is
  refine Moment.sweep_spec (fun h => h) hm ?_ ?_
  · intro i hi
    unfold vget
    rw [h1.first i hi, ok_bind, h2.first i hi, ok_bind]
  · intro i j hi hj
    rw [Moment.read_eq (h1.second i j hi hj), ok_bind, Moment.read_eq (h2.second i j hi hj), ok_bind]

theorem Moment.bound_spec {full : Bool} {n : Nat} {m : Moment} {F : Nat → Rat} {G : Nat → Nat → Rat}
    (h : m.Is full n F G) {margin : Rat} (h0 : 0 ≤ margin) (h1 : margin < 1) :
    (m.bound full margin).Returns (fun r => r.Is full n (fun i => max (margin - 1) (min (1 - margin) (F i)))
      (fun i j => max (margin - 1) (min (1 - margin) (G i j))) ∧ (full = true → r.Symm n)) := by
  have key : ∀ x : Rat, boundEntry margin x = ok (max (margin - 1) (min (1 - margin) x)) := by
    intro x
    have hlt : margin - 1 < 1 - margin := by linarith
    unfold boundEntry stdClamp
    rw [assert_pos (decide_eq_true (not_lt.mpr (le_of_lt hlt))), ok_bind, ok_bind]
    have : (if x < margin - 1 then margin - 1 else if 1 - margin < x then 1 - margin else x) =
        max (margin - 1) (min (1 - margin) x) := by
      split
      · rw [min_eq_right (by linarith), max_eq_left (by linarith)]
      · split
        · rw [min_eq_left (by linarith), max_eq_right (by linarith)]
        · rw [min_eq_right (by linarith), max_eq_right (by linarith)]
    rw [this]
    refine checkUnit_eq ⟨le_trans (by linarith) (le_max_left _ _), max_le (by linarith) (le_trans (min_le_left _ _) (by linarith))⟩
  unfold Moment.bound
  rw [assert_pos (decide_eq_true ⟨h0, le_of_lt h1⟩), ok_bind, assert_pos (decide_eq_true (by linarith)), ok_bind]
  exact Moment.sweep_spec (fun h => h) h (fun i _ => key _) (fun i j _ _ => key _)

end Hnco
