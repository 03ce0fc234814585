import Verif.BitVector.Lemmas

/-!
# Properties C01 - C05: bit vectors

Specification vocabulary: `List.count true x` is the number of ones of `x`; `x[i]?` is the component
at position `i`, if any.
-/

namespace Hnco

open Outcome

/-! ### C01: bit vectors and machine words -/

/-- C01: bit `i` of the word is component `i` of the vector, and other bits of the word are zero. -/
theorem bvToWord_bits (x : BV) (h : x.length ≤ 64) :
    (bvToWord x).Returns (fun w => ∀ i, w.toNat.testBit i = true ↔ x[i]? = some true) := by
  obtain ⟨m, hm⟩ := toWordLoop_ok x 0 x.length (Nat.zero_le _) (Nat.le_refl _)
  unfold bvToWord
  rw [show decide (x.length ≤ 8 * 8) = true by simpa using h, hm]
  simp only [assert_true, ok_bind, pure_eq, returns_ok]
  intro i
  have hlt : bitsToNat x < 2 ^ 64 :=
    Nat.lt_of_lt_of_le (bitsToNat_lt x) (Nat.pow_le_pow_right (by omega) h)
  simp only [List.drop_zero, Nat.sub_zero, List.take_length, BitVec.toNat_ofNat,
    Nat.mod_eq_of_lt hlt]
  rw [bitsToNat_testBit]
  cases h : x[i]? <;> simp

/-- C01: converting a vector of at most 64 bits to a word and back gives the same vector, whatever
the previous contents of the destination. -/
theorem bvToWord_fromWord (x d : BV) (h : x.length ≤ 64) (hd : d.length = x.length) :
    (bvToWord x >>= bvFromWord d) = ok x := by
  obtain ⟨m, hm⟩ := toWordLoop_ok x 0 x.length (Nat.zero_le _) (Nat.le_refl _)
  unfold bvToWord
  rw [show decide (x.length ≤ 8 * 8) = true by simpa using h, hm]
  simp only [assert_true, ok_bind, pure_eq]
  rw [bvFromWord_ok _ _ (by omega)]
  congr 1
  apply List.ext_getElem
  · simpa using hd
  · intro i h1 h2
    simp only [List.getElem_ofFn, BitVec.getLsbD_ofNat, bitsToNat_testBit]
    simp [h2, show i < 64 by omega]

/-- C01: converting a word smaller than `2^n` to an `n`-bit vector and back gives the same word. -/
theorem bvFromWord_toWord (d : BV) (u : Word) (h : d.length ≤ 64) (hu : u.toNat < 2 ^ d.length) :
    (bvFromWord d u >>= bvToWord) = ok u := by
  rw [bvFromWord_ok _ _ h]
  simp only [ok_bind]
  obtain ⟨w, hw, hbits⟩ := bvToWord_bits (List.ofFn (fun i : Fin d.length => u.getLsbD i))
    (by simpa using h)
  rw [hw]
  congr 1
  apply BitVec.eq_of_toNat_eq
  apply Nat.eq_of_testBit_eq
  intro i
  rw [Bool.eq_iff_iff, hbits i]
  by_cases hi : i < d.length
  · simp [hi, BitVec.getLsbD]
  · rw [List.getElem?_eq_none (by simp; omega)]
    have : u.toNat.testBit i = false :=
      Nat.testBit_lt_two_pow (Nat.lt_of_lt_of_le hu (Nat.pow_le_pow_right (by omega) (by omega)))
    simp [this]

/-- C01: the slice version agrees with the full version on the slice. -/
theorem bvToWordSlice_eq (x : BV) (start stop : Nat) (h1 : start < stop) (h2 : stop ≤ x.length)
    (h3 : stop - start ≤ 64) :
    bvToWordSlice x start stop = bvToWord ((x.drop start).take (stop - start)) ∧
      (bvToWordSlice x start stop).Returns (fun _ => True) := by
  have hlen : ((x.drop start).take (stop - start)).length = stop - start := by
    simp; omega
  obtain ⟨m, hm⟩ := toWordLoop_ok x start stop (by omega) h2
  obtain ⟨m', hm'⟩ := toWordLoop_ok ((x.drop start).take (stop - start)) 0 (stop - start)
    (by omega) (by omega)
  unfold bvToWordSlice bvToWord
  rw [hlen, hm, hm', show decide (start < x.length) = true by simp; omega,
    show decide (start + 1 ≤ stop ∧ stop < x.length + 1) = true by simp; omega,
    show decide (stop - start ≤ 8 * 8) = true by simp; omega]
  simp only [assert_true, ok_bind, pure_eq, List.drop_zero, Nat.sub_zero, returns_ok, and_true]
  rw [List.take_take, Nat.min_self]

/-- C01: outside their contract the conversions are not defined. -/
theorem bvToWord_contract :
    (∀ x : BV, 64 < x.length → bvToWord x = ub ∧ ∀ u, bvFromWord x u = ub) ∧
    (∀ (x : BV) (start stop : Nat),
      ¬ (start < stop ∧ stop ≤ x.length ∧ stop - start ≤ 64) → bvToWordSlice x start stop = ub) := by
  refine ⟨?_, ?_⟩
  · intro x hx
    have : decide (x.length ≤ 8 * 8) = false := by simp; omega
    exact ⟨by simp [bvToWord, this], fun u => by simp [bvFromWord, this]⟩
  · intro x start stop h
    unfold bvToWordSlice
    by_cases h1 : start < x.length
    · by_cases h2 : start + 1 ≤ stop ∧ stop < x.length + 1
      · have h3 : ¬ (stop - start ≤ 8 * 8) := fun h3 => h ⟨by omega, by omega, by omega⟩
        rw [assert_neg (decide_eq_false h3), assert_pos (decide_eq_true h2),
          assert_pos (decide_eq_true h1)]
        rfl
      · rw [assert_neg (decide_eq_false h2), assert_pos (decide_eq_true h1)]
        rfl
    · rw [assert_neg (decide_eq_false h1)]
      rfl

example : (bvToWord [true, false, true, true] >>= bvFromWord [false, false, true, true])
    = ok [true, false, true, true] := bvToWord_fromWord _ _ (by decide) (by decide)

example : (bvFromWord (List.replicate 5 false) 19#64 >>= bvToWord) = ok 19#64 :=
  bvFromWord_toWord _ _ (by decide) (by decide)

example : bvToWordSlice [true, false, true, true, false] 1 4 = bvToWord [false, true, true] :=
  (bvToWordSlice_eq [true, false, true, true, false] 1 4 (by decide) (by decide) (by decide)).1

/-! ### C02: addition, weight, distance -/

/-- C02: addition of vectors of the same size is defined and is the componentwise exclusive or. -/
theorem bvAdd_componentwise (x y : BV) (h : x.length = y.length) :
    (bvAdd x y).Returns (fun z => z.length = x.length ∧
      ∀ (i : Nat) a b, x[i]? = some a → y[i]? = some b → z[i]? = some (a ^^ b)) := by
  rw [bvAdd_ok h]
  refine ⟨_, rfl, by simp [h], ?_⟩
  intro i a b ha hb
  simp [List.getElem?_zipWith, ha, hb]

/-- C02: the three-operand form gives the same result whatever the destination held before. -/
theorem bvAdd3_eq (d x y : BV) (hx : d.length = x.length) (hy : d.length = y.length) :
    bvAdd3 d x y = bvAdd x y := by
  rw [bvAdd3_ok hx hy, bvAdd_ok (by omega)]

/-- C02: addition is commutative. -/
theorem bvAdd_comm (x y : BV) (h : x.length = y.length) : bvAdd x y = bvAdd y x := by
  rw [bvAdd_ok h, bvAdd_ok h.symm, List.zipWith_comm]
  simp [Bool.xor_comm]

/-- C02: addition is associative. -/
theorem bvAdd_assoc (x y z : BV) (h1 : x.length = y.length) (h2 : y.length = z.length) :
    (bvAdd x y >>= fun s => bvAdd s z) = (bvAdd y z >>= fun s => bvAdd x s) := by
  rw [bvAdd_ok h1, bvAdd_ok h2]
  simp only [ok_bind]
  rw [bvAdd_ok (by simp [h1, h2]), bvAdd_ok (by simp [h1, h2])]
  congr 1
  apply List.ext_getElem
  · simp
  · intro i _ _; simp

/-- C02: every vector is its own opposite and the zero vector is neutral. -/
theorem bvAdd_self_zero (x : BV) :
    bvAdd x x = ok (List.replicate x.length false) ∧
      bvAdd x (List.replicate x.length false) = ok x := by
  refine ⟨?_, ?_⟩
  · rw [bvAdd_ok rfl]
    congr 1
    apply List.ext_getElem <;> simp
  · rw [bvAdd_ok (by simp)]
    congr 1
    apply List.ext_getElem <;> simp

/-- C02: adding twice restores the vector. -/
theorem bvAdd_cancel (x y : BV) (h : x.length = y.length) :
    (bvAdd x y >>= fun s => bvAdd s y) = ok x := by
  rw [bvAdd_assoc x y y h rfl, (bvAdd_self_zero y).1]
  simp only [ok_bind]
  rw [← h]
  exact (bvAdd_self_zero x).2

/-- C02: weight is the number of ones, for both overloads. -/
theorem bvHammingWeight_count (x : BV) :
    bvHammingWeight x = x.count true ∧ vbHammingWeight x = x.count true :=
  ⟨bvHammingWeight_eq x, vbHammingWeight_eq x⟩

/-- C02: the zero test holds exactly for the zero vector, the only one of weight 0. -/
theorem bvIsZero_iff (x : BV) :
    (bvIsZero x = true ↔ x = List.replicate x.length false) ∧
      (bvIsZero x = true ↔ bvHammingWeight x = 0) := by
  rw [bvHammingWeight_eq]
  refine ⟨?_, ?_⟩
  · induction x with
    | nil => simp [bvIsZero]
    | cons b t ih => cases b <;> simp_all [bvIsZero, List.replicate_succ]
  · induction x with
    | nil => simp [bvIsZero]
    | cons b t ih => cases b <;> simp_all [bvIsZero]

/-- C02: the distance of two vectors is the weight of their sum. -/
theorem bvHammingDistance_weight (x y : BV) (h : x.length = y.length) :
    bvHammingDistance x y = (bvAdd x y >>= fun z => ok (bvHammingWeight z)) := by
  rw [bvHammingDistance_ok h, bvAdd_ok h]
  simp only [ok_bind, bvHammingWeight_eq]

/-- C02: the distance is zero exactly for equal vectors. -/
theorem bvHammingDistance_eq_zero (x y : BV) (h : x.length = y.length) :
    bvHammingDistance x y = ok 0 ↔ x = y := by
  rw [bvHammingDistance_ok h]
  simp only [Outcome.ok.injEq, List.count_eq_zero]
  constructor
  · intro hz
    apply List.ext_getElem h
    intro i h1 h2
    have hnot : (List.zipWith (fun a b => a != b) x y)[i]'(by simp; omega) ≠ true :=
      fun hc => hz (hc ▸ List.getElem_mem _)
    simpa using hnot
  · rintro rfl hm
    obtain ⟨i, hi, hi'⟩ := List.mem_iff_getElem.mp hm
    simp at hi'

/-- C02: the distance is symmetric. -/
theorem bvHammingDistance_symm (x y : BV) (h : x.length = y.length) :
    bvHammingDistance x y = bvHammingDistance y x := by
  rw [bvHammingDistance_weight x y h, bvHammingDistance_weight y x h.symm, bvAdd_comm x y h]

/-- C02: triangle inequality. -/
theorem bvHammingDistance_triangle (x y z : BV) (a b c : Nat) (hxz : bvHammingDistance x z = ok c)
    (hxy : bvHammingDistance x y = ok a) (hyz : bvHammingDistance y z = ok b) : c ≤ a + b := by
  have hl : ∀ u v d, bvHammingDistance u v = ok d → u.length = v.length := by
    intro u v d hd
    by_cases h : u.length = v.length
    · exact h
    · simp [bvHammingDistance_ub h] at hd
  have h1 := hl _ _ _ hxy
  have h2 := hl _ _ _ hyz
  have h3 := hl _ _ _ hxz
  rw [bvHammingDistance_ok h1] at hxy
  rw [bvHammingDistance_ok h2] at hyz
  rw [bvHammingDistance_ok h3] at hxz
  simp only [Outcome.ok.injEq] at hxy hyz hxz
  subst hxy hyz hxz
  clear hl
  induction x generalizing y z with
  | nil => cases y <;> cases z <;> simp_all
  | cons p x ih =>
    cases y with
    | nil => simp at h1
    | cons q y =>
      cases z with
      | nil => simp at h3
      | cons r z =>
        have := ih y z (by simpa using h1) (by simpa using h2) (by simpa using h3)
        simp only [List.zipWith_cons_cons, List.count_cons]
        cases p <;> cases q <;> cases r <;> simp <;> omega

/-- C02: vectors of different sizes are outside the contract. -/
theorem bvAdd_contract (x y : BV) (h : x.length ≠ y.length) :
    bvAdd x y = ub ∧ bvHammingDistance x y = ub := by
  exact ⟨bvAdd_ub h, bvHammingDistance_ub h⟩

example : bvHammingDistance [true, false, true] [false, false, false] = ok 2 := by decide
example : bvAdd [true, false, true] [true, true, false] = ok [false, true, true] := by decide
example : (bvAdd [true, false, true] [true, true, false] >>= fun s => bvAdd s [true, true, false])
    = ok [true, false, true] := bvAdd_cancel _ _ rfl

/-! ### C03: random vector of given weight -/

/-- C03: for every size, every `k` not larger than it, every previous contents and all draws, the
result has the same size and exactly `k` ones.  The only assumption on the generator and on floating
point division is that a draw is less than `n / n` for positive `n`. -/
theorem bvRandom_weight {K : Type} [LT K] [DecidableLT K] (ratio : Nat → Nat → K)
    (uniform : Nat → K) (hu : ∀ n j, 0 < n → uniform j < ratio n n) (x : BV) (k : Nat)
    (hk : k ≤ x.length) :
    (bvRandom ratio uniform x k).Returns
      (fun y => y.length = x.length ∧ bvHammingWeight y = k) := by
  unfold bvRandom
  rw [show decide (k ≤ x.length) = true by simpa using hk]
  simp only [assert_true, ok_bind]
  refine Returns.bind (forRange_returns
    (fun i s => s.x.length = x.length ∧ s.k ≤ k ∧ s.k ≤ x.length - i ∧
      (0 < s.k → s.n = x.length - i) ∧ (s.x.take i).count true + s.k = k)
    (Nat.zero_le _) ⟨rfl, Nat.le_refl _, by simpa using hk, by simp, by simp⟩ ?_) ?_
  · rintro i s - hi ⟨hl, hk1, hk2, hn, hc⟩
    have key : ∀ b : Bool, ((s.x.set i b).take (i + 1)).count true
        = (s.x.take i).count true + b.toNat := by
      intro b
      have : (s.x.set i b).take (i + 1) = s.x.take i ++ [b] := by
        apply List.ext_getElem?
        intro j
        by_cases h1 : j < i
        · rw [List.getElem?_take_of_lt (by omega), List.getElem?_append_left (by simp; omega),
            List.getElem?_take_of_lt h1, List.getElem?_set_ne (by omega)]
        · by_cases h2 : j = i
          · subst h2
            rw [List.getElem?_take_of_lt (by omega), List.getElem?_append_right (by simp; omega)]
            simp [hl, hi, Nat.min_eq_left (Nat.le_of_lt hi)]
          · rw [List.getElem?_eq_none (by simp; omega), List.getElem?_eq_none (by simp; omega)]
      rw [this]
      cases b <;> simp
    unfold bvRandomBody
    by_cases hpos : 0 < s.k
    · have hn' := hn hpos
      simp only [hpos, if_true]
      rw [show decide (0 < s.n) = true by simp; omega]
      simp only [assert_true, ok_bind]
      by_cases hdraw : uniform s.draw < ratio s.k s.n
      · simp only [hdraw, if_true]
        rw [vset_eq (by omega)]
        simp only [ok_bind, pure_eq, returns_ok]
        refine ⟨by simpa using hl, by omega, by omega, by intro _; omega, ?_⟩
        rw [key]; simp; omega
      · simp only [hdraw, if_false]
        rw [vset_eq (by omega)]
        simp only [ok_bind, pure_eq, returns_ok]
        have hne : s.k ≠ s.n := by
          intro he
          rw [he] at hdraw
          exact hdraw (hu s.n s.draw (by omega))
        refine ⟨by simpa using hl, hk1, by omega, by intro _; omega, ?_⟩
        rw [key]; simpa using hc
    · simp only [hpos, if_false]
      rw [vset_eq (by omega)]
      simp only [ok_bind, pure_eq, returns_ok]
      refine ⟨by simpa using hl, hk1, by omega, by intro h; exact absurd h hpos, ?_⟩
      rw [key]; simpa using hc
  · rintro s ⟨hl, -, hk2, -, hc⟩
    simp only [pure_eq, returns_ok]
    refine ⟨hl, ?_⟩
    rw [bvHammingWeight_eq]
    rw [← hl, List.take_length] at hc
    omega

/-- C03: the previous contents of the vector do not matter. -/
theorem bvRandom_overwrites {K : Type} [LT K] [DecidableLT K] (ratio : Nat → Nat → K)
    (uniform : Nat → K) (x x' : BV) (hx : x.length = x'.length) (k : Nat) :
    bvRandom ratio uniform x k = bvRandom ratio uniform x' k := by
  unfold bvRandom
  rw [hx]
  by_cases hk : ¬ k ≤ x'.length
  · simp [hk]
  rw [show decide (k ≤ x'.length) = true by simpa using hk]
  simp only [assert_true, ok_bind]
  -- two runs in lock step
  have key : ∀ m i (s s' : RandomState), i + m = x'.length → s.x.length = x'.length →
      s'.x.length = x'.length → s.k = s'.k → s.n = s'.n → s.draw = s'.draw →
      s.x.take i = s'.x.take i →
      (forLoop m i (bvRandomBody ratio uniform) s >>= fun t => ok t.x)
        = (forLoop m i (bvRandomBody ratio uniform) s' >>= fun t => ok t.x) := by
    intro m
    induction m with
    | zero =>
      intro i s s' hi h1 h2 _ _ _ ht
      simp only [forLoop, ok_bind]
      rw [← List.take_length (l := s.x), ← List.take_length (l := s'.x), h1, h2,
        show x'.length = i by omega, ht]
    | succ m ih =>
      intro i s s' hi h1 h2 hk hn hd ht
      have hset : ∀ b, (s.x.set i b).take (i + 1) = (s'.x.set i b).take (i + 1) := by
        intro b
        apply List.ext_getElem?
        intro j
        by_cases hj : j < i + 1
        · rw [List.getElem?_take_of_lt hj, List.getElem?_take_of_lt hj]
          by_cases hji : i = j
          · subst hji
            rw [List.getElem?_set_self (by omega), List.getElem?_set_self (by omega)]
          · rw [List.getElem?_set_ne hji, List.getElem?_set_ne hji]
            have := congrArg (fun l => l[j]?) ht
            simpa [List.getElem?_take_of_lt (show j < i by omega)] using this
        · rw [List.getElem?_take_eq_none (by omega), List.getElem?_take_eq_none (by omega)]
      simp only [forLoop, bvRandomBody, hk, hn, hd]
      rw [vset_eq (by omega), vset_eq (by omega), vset_eq (by omega), vset_eq (by omega)]
      by_cases hpos : 0 < s'.k
      · simp only [hpos, if_true]
        by_cases hn0 : 0 < s'.n
        · simp only [hn0, decide_true, assert_true, ok_bind, pure_eq]
          by_cases hdr : uniform s'.draw < ratio s'.k s'.n
          · simp only [hdr, if_true, ok_bind]
            exact ih (i + 1) _ _ (by omega) (by simpa using h1) (by simpa using h2)
              rfl rfl rfl (hset true)
          · simp only [hdr, if_false, ok_bind]
            exact ih (i + 1) _ _ (by omega) (by simpa using h1) (by simpa using h2)
              rfl rfl rfl (hset false)
        · simp [hn0]
      · simp only [hpos, if_false, ok_bind, pure_eq]
        exact ih (i + 1) _ _ (by omega) (by simpa using h1) (by simpa using h2)
          rfl rfl rfl (hset false)
  exact key x'.length 0 _ _ (by omega) hx rfl rfl rfl rfl rfl

example : bvRandom (K := Nat) (fun k n => k * 100 / n) (fun _ => 55) [true, true, true, true] 3
    = ok [true, true, false, true] := by decide
example : bvRandom (K := Nat) (fun k n => k * 100 / n) (fun _ => 99) [true, true, true, true] 2
    = ok [false, false, true, true] := by decide

/-! ### C04: text and `std::vector<bool>` -/

/-- C04: reading back a displayed vector gives the vector. -/
theorem bvFromString_display (x : BV) : bvFromString (bvDisplay x) = ok x := by
  rw [bvFromString_ok, bvDisplay_eq]
  congr 1
  induction x with
  | nil => rfl
  | cons b t ih => cases b <;> simp_all

/-- C04: a text of `n` characters gives `n` bits, zero exactly where the character is `'0'`. -/
theorem bvFromString_spec (s : List Char) :
    (bvFromString s).Returns (fun x => x.length = s.length ∧
      ∀ (i : Nat) c, s[i]? = some c → x[i]? = some (c != '0')) := by
  rw [bvFromString_ok]
  refine ⟨_, rfl, by simp, ?_⟩
  intro i c hc
  simp [hc]

/-- C04: reading from a stream a line holding a displayed vector gives the vector and leaves the rest
of the stream. -/
theorem bvFromStream_display (x : BV) (rest : List Char) :
    bvFromStream (bvDisplay x ++ '\n' :: rest) = ok (x, rest) := by
  have hne : ∀ c ∈ bvDisplay x, (c != '\n') = true := by
    rw [bvDisplay_eq]
    intro c hc
    simp only [List.mem_map] at hc
    obtain ⟨b, -, rfl⟩ := hc
    cases b <;> decide
  have hall : (bvDisplay x ++ '\n' :: rest).takeWhile (fun c => c != '\n') = bvDisplay x := by
    rw [List.takeWhile_append_of_pos hne]
    simp
  have hdrop : (bvDisplay x ++ '\n' :: rest).dropWhile (fun c => c != '\n') = '\n' :: rest := by
    rw [List.dropWhile_append_of_pos hne]
    simp
  unfold bvFromStream
  rw [hall, hdrop, bvFromString_display]
  simp

/-- C04: an exhausted stream gives the empty vector. -/
theorem bvFromStream_empty : bvFromStream [] = ok ([], []) := rfl

/-- C04: conversion to `std::vector<bool>` and back, whatever the destinations held before. -/
theorem vectorBool_roundtrip (x y d : BV) (hy : y.length = x.length) (hd : d.length = x.length) :
    (bvToVectorBool y x >>= bvFromVectorBool d) = ok x ∧
      (bvFromVectorBool y x >>= fun z => bvToVectorBool d z) = ok x := by
  have h1 : bvToVectorBool y x = ok x := by
    simp only [bvToVectorBool, hy, beq_self_eq_true, assert_true, ok_bind]
    exact copyLoop_ok hy
  have h2 : bvFromVectorBool y x = ok x := by
    simp only [bvFromVectorBool, hy, beq_self_eq_true, assert_true, ok_bind]
    exact copyLoop_ok hy
  have h3 : bvToVectorBool d x = ok x := by
    simp only [bvToVectorBool, hd, beq_self_eq_true, assert_true, ok_bind]
    exact copyLoop_ok hd
  have h4 : bvFromVectorBool d x = ok x := by
    simp only [bvFromVectorBool, hd, beq_self_eq_true, assert_true, ok_bind]
    exact copyLoop_ok hd
  simp [h1, h2, h3, h4]

example : bvDisplay [true, false, true] = ['1', '0', '1'] := by decide
example : bvFromString ['1', '0', 'x'] = ok [true, false, true] := by decide
example : bvFromStream ['1', '0', '\n', '1'] = ok ([true, false], ['1']) := by decide
example : bvToVectorBool [true, true, true] [false, true, false] = ok [false, true, false] := by
  decide

/-! ### C05: flipping sets of positions -/

theorem isSorted_iff (l : List Nat) : isSorted l = true ↔ l.Pairwise (· ≤ ·) := by
  induction l with
  | nil => simp [isSorted]
  | cons a t ih =>
    cases t with
    | nil => simp [isSorted]
    | cons b t =>
      simp only [isSorted, Bool.and_eq_true, decide_eq_true_eq, ih]
      constructor
      · rintro ⟨hab, hp⟩
        refine List.pairwise_cons.mpr ⟨?_, hp⟩
        intro c hc
        rcases List.mem_cons.mp hc with rfl | hc
        · exact hab
        · exact Nat.le_trans hab ((List.pairwise_cons.mp hp).1 c hc)
      · intro hp
        have := List.pairwise_cons.mp hp
        exact ⟨this.1 b (by simp), this.2⟩

/-- C05: the validity check accepts exactly the non-decreasing lists of in-range indices. -/
theorem sbvIsValid_iff (l : List Nat) (n : Nat) :
    sbvIsValid l n = true ↔ l.Pairwise (· ≤ ·) ∧ ∀ i ∈ l, i < n := by
  simp [sbvIsValid, isSorted_iff]

/-- C05: flipping distinct sorted in-range positions changes exactly these positions. -/
theorem bvFlipSparse_exact (x : BV) (l : List Nat) (hs : l.Pairwise (· < ·))
    (hr : ∀ i ∈ l, i < x.length) :
    (bvFlipSparse x l).Returns (fun y => y.length = x.length ∧
      ∀ (i : Nat) b, x[i]? = some b → y[i]? = some (if i ∈ l then !b else b)) := by
  have hv : sbvIsValid l x.length = true :=
    (sbvIsValid_iff _ _).mpr ⟨hs.imp (fun h => Nat.le_of_lt h), hr⟩
  have hnd : l.Nodup := hs.imp (fun h => Nat.ne_of_lt h)
  obtain ⟨y, hy, hlen, hget⟩ := flipLoop_ok l x hr
  simp only [bvFlipSparse, hv, assert_true, ok_bind, hy, returns_ok]
  refine ⟨hlen, ?_⟩
  intro i b hb
  obtain ⟨hi, hib⟩ := List.getElem?_eq_some_iff.mp hb
  rw [hget i hi, hib]
  rw [List.Nodup.count hnd]
  by_cases hm : i ∈ l <;> simp [hm]

/-- Number of positions of `l` below `n`, helper for the distance statement. -/
theorem count_zipWith_bne (x y : BV) (l : List Nat) (hnd : l.Nodup) (hlen : y.length = x.length)
    (hr : ∀ i ∈ l, i < x.length)
    (hy : ∀ (i : Nat) b, x[i]? = some b → y[i]? = some (if i ∈ l then !b else b)) :
    (List.zipWith (fun a b => a != b) x y).count true = l.length := by
  have h1 : List.zipWith (fun a b => a != b) x y
      = (List.range x.length).map (fun i => decide (i ∈ l)) := by
    apply List.ext_getElem
    · simp [hlen]
    · intro i h1 h2
      have hi : i < x.length := by simp at h2; exact h2
      have := hy i x[i] (by simp [hi])
      have hyi : y[i]'(by omega) = if i ∈ l then !x[i] else x[i] := by
        rw [List.getElem?_eq_getElem (by omega)] at this
        exact Option.some.inj this
      simp only [List.getElem_zipWith, List.getElem_map, List.getElem_range, hyi]
      by_cases hm : i ∈ l <;> simp [hm]
  rw [h1, List.count, List.countP_map]
  have h2 : List.countP ((fun b => b == true) ∘ fun i => decide (i ∈ l)) (List.range x.length)
      = ((List.range x.length).filter (fun i => decide (i ∈ l))).length := by
    rw [List.countP_eq_length_filter]
    congr 2
    funext i
    simp
  rw [h2]
  apply List.Perm.length_eq
  rw [List.perm_ext_iff_of_nodup (List.nodup_range.filter _) hnd]
  intro a
  simp only [List.mem_filter, List.mem_range, decide_eq_true_eq]
  exact ⟨fun h => h.2, fun h => ⟨hr a h, h⟩⟩

/-- C05: ... hence moves to a Hamming distance equal to the number of positions. -/
theorem bvFlipSparse_distance (x : BV) (l : List Nat) (hs : l.Pairwise (· < ·))
    (hr : ∀ i ∈ l, i < x.length) :
    (bvFlipSparse x l >>= fun y => bvHammingDistance x y) = ok l.length := by
  obtain ⟨y, hy, hlen, hget⟩ := bvFlipSparse_exact x l hs hr
  rw [hy]
  simp only [ok_bind]
  rw [bvHammingDistance_ok hlen.symm,
    count_zipWith_bne x y l (hs.imp (fun h => Nat.ne_of_lt h)) hlen hr hget]

/-- C05: flipping twice restores the vector (even with repeated positions). -/
theorem bvFlipSparse_twice (x : BV) (l : List Nat) (hv : sbvIsValid l x.length = true) :
    (bvFlipSparse x l >>= fun y => bvFlipSparse y l) = ok x := by
  have hr := ((sbvIsValid_iff _ _).mp hv).2
  obtain ⟨y, hy, hlen, hget⟩ := flipLoop_ok l x hr
  obtain ⟨z, hz, hlen', hget'⟩ := flipLoop_ok l y (by rw [hlen]; exact hr)
  unfold bvFlipSparse
  simp only [hv, assert_true, ok_bind, hy, hlen, hz, Outcome.ok.injEq]
  apply List.ext_getElem (by omega)
  intro i h1 h2
  have e1 := hget i h2
  rw [List.getElem?_eq_getElem (by omega)] at e1
  have e2 := hget' i (by omega)
  rw [List.getElem?_eq_getElem (by omega)] at e2
  rw [Option.some.inj e2, Option.some.inj e1]
  cases x[i] <;> cases (List.count i l % 2 == 1) <;> rfl

/-- C05: an out of range position is outside the contract. -/
theorem bvFlip_contract (x : BV) (i : Nat) :
    (x.length ≤ i → bvFlip x i = ub) ∧ (i < x.length → bvFlip x i ≠ ub) :=
  ⟨bvFlip_ub, fun h => by simp [bvFlip_ok h]⟩

/-- C05 (negative part): the validity check accepts a repeated position, which is flipped back. -/
theorem sbvIsValid_repeated :
    sbvIsValid [0, 0] 1 = true ∧ bvFlipSparse [true] [0, 0] = ok [true] := by decide

example : bvFlipSparse [true, false, true, true] [1, 3] = ok [true, true, true, false] := by decide
example : (bvFlipSparse [true, false, true, true] [1, 3] >>=
    fun y => bvHammingDistance [true, false, true, true] y) = ok 2 :=
  bvFlipSparse_distance _ _ (by decide) (by decide)

end Hnco
