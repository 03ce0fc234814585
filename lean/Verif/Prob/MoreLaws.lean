import Verif.Prob.Laws
import Verif.Map.Props

/-!
# The laws of bit vectors of given weight, random matrices, transvections and Boltzmann selection
-/

namespace Hnco.Prob

open Outcome
open scoped ENNReal

/-! ## Bit vectors of given weight -/

/-- The uniform law of the bit vectors of size `m` and weight `k`. -/
noncomputable def weightLaw (m k : ℕ) : Dist BV :=
  ⟨fun y => if y.length = m ∧ y.count true = k then ((m.choose k : ℕ) : ℝ≥0∞)⁻¹ else 0⟩

theorem weightLaw_apply (m k : ℕ) (y : BV) :
    weightLaw m k y = if y.length = m ∧ y.count true = k then ((m.choose k : ℕ) : ℝ≥0∞)⁻¹ else 0 := rfl

theorem weightLaw_zero : weightLaw 0 0 = pure [] := by
  classical
  ext y
  rw [weightLaw_apply, Dist.pure_apply]
  by_cases h : y = []
  · subst h; simp
  · rw [if_neg (by simp [h]), if_neg h]

theorem consBit_law (d : Dist BV) (b b' : Bool) (y : BV) :
    (d >>= fun y => (pure (b :: y) : Dist BV)) (b' :: y) = if b' = b then d y else 0 := by
  classical
  by_cases hb : b' = b
  · subst hb
    rw [if_pos rfl]
    exact Dist.map_apply_inj d (f := fun y => b' :: y) (fun _ _ h => (List.cons.inj h).2) y
  · rw [if_neg hb, Dist.bind_apply, ENNReal.tsum_eq_zero]
    intro y''
    rw [Dist.pure_apply, if_neg (fun e => hb (List.cons.inj e).1), mul_zero]

theorem consBit_nil (d : Dist BV) (b : Bool) : (d >>= fun y => (pure (b :: y) : Dist BV)) [] = 0 := by
  classical
  rw [Dist.bind_apply, ENNReal.tsum_eq_zero]
  intro y
  rw [Dist.pure_apply, if_neg (by simp), mul_zero]

theorem weightLaw_succ (m k : ℕ) (hk : k ≤ m + 1) :
    weightLaw (m + 1) k = (Dist.coin ((k : ℝ≥0∞) / ((m + 1 : ℕ) : ℝ≥0∞)) >>= fun b =>
      if b then (weightLaw m (k - 1) >>= fun y => pure (true :: y))
      else (weightLaw m k >>= fun y => pure (false :: y))) := by
  ext y
  rw [Dist.coin_bind, min_eq_left (ratio_le_one hk), one_sub_ratio hk (Nat.succ_ne_zero m)]
  simp only [if_true, Bool.false_eq_true, if_false]
  cases y with
  | nil => rw [consBit_nil, consBit_nil, weightLaw_apply, if_neg (by simp)]; simp
  | cons b y =>
    rw [consBit_law, consBit_law]
    cases b with
    | true =>
      rw [if_pos rfl, if_neg (by simp), mul_zero, add_zero, weightLaw_apply, weightLaw_apply]
      simp only [List.length_cons, List.count_cons_self]
      cases k with
      | zero => rw [if_neg (by simp), Nat.cast_zero, ENNReal.zero_div, zero_mul]
      | succ k =>
        rw [Nat.add_sub_cancel]
        by_cases h : y.length = m ∧ y.count true = k
        · have hle : k ≤ m := by rw [← h.1, ← h.2]; exact List.count_le_length
          rw [if_pos h, if_pos ⟨by rw [h.1], by rw [h.2]⟩, ratio_inv (Nat.succ_ne_zero k) (Nat.succ_ne_zero m)]
          · exact (Nat.choose_pos hle).ne'
          · exact (Nat.choose_pos (by omega)).ne'
          · exact Nat.add_one_mul_choose_eq m k
        · rw [if_neg h, if_neg (fun h' => h ⟨by omega, by omega⟩), mul_zero]
    | false =>
      rw [if_neg (by simp), if_pos rfl, mul_zero, zero_add, weightLaw_apply, weightLaw_apply]
      have hc : (false :: y).count true = y.count true := by simp
      rw [hc]
      simp only [List.length_cons]
      by_cases h : y.length = m ∧ y.count true = k
      · have hle : k ≤ m := by rw [← h.1, ← h.2]; exact List.count_le_length
        rw [if_pos h, if_pos ⟨by rw [h.1], h.2⟩, ratio_inv (by omega) (Nat.succ_ne_zero m)]
        · exact (Nat.choose_pos hle).ne'
        · exact (Nat.choose_pos (by omega)).ne'
        · rw [mul_comm]
          exact Nat.choose_mul_succ_eq m k
      · rw [if_neg h, if_neg (fun h' => h ⟨by omega, h'.2⟩), mul_zero]

theorem coin_zero {β : Type} (f : Bool → Dist β) : (Dist.coin 0 >>= f) = f false := by
  ext b
  rw [Dist.coin_bind]
  simp

theorem weight_loop : ∀ (m i k m' : ℕ) (x : BV), k ≤ m → x.length = i + m → (k > 0 → m' = m) →
    (Dist.forLoop m i bvRandomBody (x, k, m') >>= fun s => (pure s.1 : Dist BV))
      = (weightLaw m k >>= fun r => pure (x.take i ++ r)) := by
  intro m
  induction m with
  | zero =>
    intro i k m' x hk hx _
    obtain rfl : k = 0 := by omega
    rw [weightLaw_zero, Dist.pure_bind', List.append_nil, List.take_of_length_le (by omega)]
    exact Dist.pure_bind' _ _
  | succ m ih =>
    intro i k m' x hk hx hm
    have hset : ∀ b, vset x i b = ok (x.set i b) := fun b => vset_eq (by omega)
    have hloop : Dist.forLoop (m + 1) i bvRandomBody (x, k, m')
        = (bvRandomBody i (x, k, m') >>= fun s => Dist.forLoop m (i + 1) bvRandomBody s) := rfl
    have htake : ∀ b r, (x.set i b).take (i + 1) ++ r = x.take i ++ b :: r := by
      intro b r
      rw [set_take (by omega), List.append_assoc]
      rfl
    rw [hloop, Dist.bind_assoc', weightLaw_succ m k hk, Dist.bind_assoc']
    by_cases hk0 : k > 0
    · obtain rfl := hm hk0
      have hbody : bvRandomBody i (x, k, m + 1) = (Dist.coin ((k : ℝ≥0∞) / ((m + 1 : ℕ) : ℝ≥0∞)) >>= fun b =>
          if b then (pure (x.set i true, k - 1, m) : Dist (BV × ℕ × ℕ)) else pure (x.set i false, k, m)) := by
        unfold bvRandomBody
        rw [if_pos hk0, Dist.assert_bind (by simp)]
        congr 1
        funext b
        cases b
        · simp only [Bool.false_eq_true, if_false, hset, Dist.lift_ok]
          exact Dist.pure_bind' _ _
        · simp only [if_true, hset, Dist.lift_ok]
          exact Dist.pure_bind' _ _
      rw [hbody, Dist.bind_assoc']
      by_cases hkm : k = m + 1
      · have : (k : ℝ≥0∞) / ((m + 1 : ℕ) : ℝ≥0∞) = 1 := by
          rw [hkm]
          exact ENNReal.div_self (by simp) (ENNReal.natCast_ne_top _)
        rw [this, Dist.coin_one, Dist.coin_one, if_pos rfl, if_pos rfl, Dist.pure_bind',
          ih _ _ _ _ (by omega) (by simp; omega) (by omega), Dist.bind_assoc']
        congr 1
        funext r
        rw [Dist.pure_bind', htake]
      · congr 1
        funext b
        cases b with
        | true =>
          simp only [if_true]
          rw [Dist.pure_bind', ih _ _ _ _ (by omega) (by simp; omega) (by omega), Dist.bind_assoc']
          congr 1
          funext r
          rw [Dist.pure_bind', htake]
        | false =>
          simp only [Bool.false_eq_true, if_false]
          rw [Dist.pure_bind', ih _ _ _ _ (by omega) (by simp; omega) (by omega), Dist.bind_assoc']
          congr 1
          funext r
          rw [Dist.pure_bind', htake]
    · obtain rfl : k = 0 := by omega
      have hbody : bvRandomBody i (x, 0, m') = (pure (x.set i false, 0, m') : Dist (BV × ℕ × ℕ)) := by
        unfold bvRandomBody
        rw [if_neg (by simp)]
        simp only [hset, Dist.lift_ok]
        exact Dist.pure_bind' _ _
      rw [hbody, Nat.cast_zero, ENNReal.zero_div, coin_zero, if_neg (by simp), Dist.pure_bind',
        ih _ _ _ _ (by omega) (by simp; omega) (by omega), Dist.bind_assoc']
      congr 1
      funext r
      rw [Dist.pure_bind', htake]

theorem bvRandom_law {x : BV} {k : ℕ} (hk : k ≤ x.length) : bvRandom x k = weightLaw x.length k := by
  unfold bvRandom
  rw [Dist.assert_bind (by simpa using hk)]
  unfold Dist.forRange
  rw [Nat.sub_zero, weight_loop _ _ _ _ _ hk (by omega) (fun _ => rfl)]
  simp only [List.take_zero, List.nil_append]
  exact Dist.bind_pure' _

/-! ## Sequences of independent values -/

/-- The law of a sequence of independent values with the same law. -/
noncomputable def seqLaw {α : Type} (d : Dist α) (n : ℕ) : Dist (List α) :=
  ⟨fun l => if l.length = n then (l.map d.mass).prod else 0⟩

theorem seqLaw_apply {α : Type} (d : Dist α) (n : ℕ) (l : List α) :
    seqLaw d n l = if l.length = n then (l.map d.mass).prod else 0 := rfl

theorem seq_loop {α : Type} (d : Dist α) : ∀ n,
    Dist.forLoop n 0 (fun _ (l : List α) => d >>= fun a => pure (l ++ [a])) [] = seqLaw d n := by
  classical
  intro n
  induction n with
  | zero =>
    ext l
    change (pure [] : Dist (List α)) l = _
    rw [Dist.pure_apply, seqLaw_apply]
    by_cases h : l = []
    · subst h; simp
    · rw [if_neg h, if_neg (by simpa using h)]
  | succ n ih =>
    rw [Dist.forLoop_last, ih]
    ext l
    rw [Dist.bind_apply, seqLaw_apply]
    rcases List.eq_nil_or_concat l with rfl | ⟨l', a, rfl⟩
    · rw [if_neg (by simp), ENNReal.tsum_eq_zero]
      intro l
      rw [Dist.bind_apply]
      simp [Dist.pure_apply]
    · rw [List.concat_eq_append, tsum_eq_single l']
      · rw [Dist.bind_apply, tsum_eq_single a]
        · rw [Dist.pure_apply, if_pos rfl, mul_one, seqLaw_apply]
          by_cases h : l'.length = n
          · rw [if_pos h, if_pos (by simp [h]), List.map_append, List.prod_append, List.map_singleton,
              List.prod_singleton]
          · rw [if_neg h, if_neg (by simpa using h), zero_mul]
        · intro b hb
          rw [Dist.pure_apply, if_neg, mul_zero]
          intro e
          exact hb (by simpa using e.symm)
      · intro l'' hl''
        rw [Dist.bind_apply]
        have : (∑' b, d b * (pure (l'' ++ [b]) : Dist (List α)) (l' ++ [a])) = 0 := by
          rw [ENNReal.tsum_eq_zero]
          intro b
          rw [Dist.pure_apply, if_neg, mul_zero]
          intro e
          exact hl'' (List.append_inj_left' e.symm rfl)
        rw [this, mul_zero]

theorem bernoulli_apply (b : Bool) : Dist.bernoulli b = 2⁻¹ := by
  change (if b then min (2⁻¹ : ℝ≥0∞) 1 else 1 - 2⁻¹) = _
  have h : (2⁻¹ : ℝ≥0∞) ≤ 1 := ENNReal.inv_le_one.mpr (by norm_num)
  cases b
  · simp only [Bool.false_eq_true, if_false]
    exact ENNReal.one_sub_inv_two
  · simp only [if_true]
    exact min_eq_left h

open Classical in
/-- The law of a random matrix: all matrices are equally likely. -/
theorem bmRandom_law {rows cols : ℕ} (hr : 0 < rows) (hc : 0 < cols) (M : BM) :
    bmRandom rows cols M = if F2.HasShape rows cols M then ((2 : ℝ≥0∞) ^ (rows * cols))⁻¹ else 0 := by
  unfold bmRandom
  rw [Dist.assert_bind (by simpa using hr), Dist.assert_bind (by simpa using hc)]
  have hrow : Dist.forRange 0 cols (fun _ r => do
      let b ← Dist.bernoulli
      pure (r ++ [b])) ([] : List Bool) = seqLaw Dist.bernoulli cols := seq_loop Dist.bernoulli cols
  rw [hrow]
  change (Dist.forLoop (rows - 0) 0 (fun _ (M : BM) => seqLaw Dist.bernoulli cols >>= fun row => pure (M ++ [row])) []) M = _
  rw [Nat.sub_zero, seq_loop, seqLaw_apply]
  have hs : ∀ row : List Bool, (seqLaw Dist.bernoulli cols).mass row
      = if row.length = cols then ((2 : ℝ≥0∞) ^ cols)⁻¹ else 0 := by
    intro row
    change seqLaw Dist.bernoulli cols row = _
    rw [seqLaw_apply]
    by_cases h : row.length = cols
    · rw [if_pos h, if_pos h, List.map_congr_left (g := fun _ => (2⁻¹ : ℝ≥0∞)) (fun b _ => bernoulli_apply b),
        List.map_const', List.prod_replicate, h, ENNReal.inv_pow]
    · rw [if_neg h, if_neg h]
  unfold F2.HasShape
  by_cases h1 : M.length = rows
  · rw [if_pos h1]
    by_cases h2 : ∀ row ∈ M, row.length = cols
    · rw [if_pos ⟨h1, h2⟩, List.map_congr_left (g := fun _ => ((2 : ℝ≥0∞) ^ cols)⁻¹) (fun row hrow => by
        rw [hs, if_pos (h2 row hrow)]), List.map_const', List.prod_replicate, h1, ← ENNReal.inv_pow, ← pow_mul,
        mul_comm rows cols]
    · rw [if_neg (fun e => h2 e.2)]
      push Not at h2
      obtain ⟨row, hm, hl⟩ := h2
      refine List.prod_eq_zero ?_
      rw [List.mem_map]
      exact ⟨row, hm, by rw [hs, if_neg hl]⟩
  · rw [if_neg h1, if_neg (fun e => h1 e.1)]

/-! ## Rejection from a uniform law -/

theorem cond_uniform {α : Type} [DecidableEq α] {d : Dist α} {S : Finset α} (hS : S.Nonempty)
    (hd : ∀ a, d a = if a ∈ S then ((S.card : ℕ) : ℝ≥0∞)⁻¹ else 0) (stop : α → Bool) (a : α) :
    Dist.repeatUntil d stop a
      = if a ∈ S ∧ stop a = true then (((S.filter (fun a => stop a = true)).card : ℕ) : ℝ≥0∞)⁻¹ else 0 := by
  have hc : ((S.card : ℕ) : ℝ≥0∞) ≠ 0 := by exact_mod_cast hS.card_ne_zero
  have ht : d.total = 1 := by
    unfold Dist.total
    rw [tsum_eq_sum (s := S)]
    · rw [Finset.sum_congr rfl (g := fun _ => ((S.card : ℕ) : ℝ≥0∞)⁻¹) (fun b hb => by rw [hd, if_pos hb]),
        Finset.sum_const, nsmul_eq_mul, ENNReal.mul_inv_cancel hc (ENNReal.natCast_ne_top _)]
    · intro b hb
      rw [hd, if_neg hb]
  have hh : (∑' b, if stop b then d b else 0)
      = (((S.filter (fun a => stop a = true)).card : ℕ) : ℝ≥0∞) * ((S.card : ℕ) : ℝ≥0∞)⁻¹ := by
    rw [tsum_eq_sum (s := S.filter (fun a => stop a = true))]
    · rw [Finset.sum_congr rfl (g := fun _ => ((S.card : ℕ) : ℝ≥0∞)⁻¹) (fun b hb => by
        have := Finset.mem_filter.mp hb
        rw [hd, if_pos this.2, if_pos this.1]), Finset.sum_const, nsmul_eq_mul]
    · intro b hb
      rw [Finset.mem_filter] at hb
      by_cases h : stop b = true
      · rw [if_pos h, hd, if_neg (fun e => hb ⟨e, h⟩)]
      · rw [if_neg h]
  rw [Dist.repeatUntil_cond ht, hh, hd]
  by_cases h1 : a ∈ S
  · by_cases h2 : stop a = true
    · rw [if_pos h2, if_pos h1, if_pos ⟨h1, h2⟩, div_eq_mul_inv,
        ENNReal.mul_inv (Or.inr (ENNReal.inv_ne_top.mpr hc)) (Or.inr (by simp)), inv_inv, mul_comm, mul_assoc,
        ENNReal.mul_inv_cancel hc (ENNReal.natCast_ne_top _), mul_one]
    · rw [if_neg h2, if_neg (fun e => h2 e.2)]
  · rw [if_neg (c := a ∈ S) h1, ENNReal.zero_div, ite_self, if_neg (fun e => h1 e.1)]

theorem uniformBelow {n : ℕ} (hn : 0 < n) (i : ℕ) :
    Dist.uniformInt 0 (n - 1) i = if i < n then ((n : ℕ) : ℝ≥0∞)⁻¹ else 0 := by
  change (if 0 ≤ i ∧ i ≤ n - 1 then ((n - 1 - 0 + 1 : ℕ) : ℝ≥0∞)⁻¹ else 0) = _
  rw [show n - 1 - 0 + 1 = n by omega]
  refine if_congr ?_ rfl rfl
  omega

/-- The pairs of indices, as transvections. -/
def allPairs (n : ℕ) : Finset Transvection :=
  (Finset.range n ×ˢ Finset.range n).map ⟨fun p => ⟨p.1, p.2⟩, fun p q h => by
    have h := Transvection.mk.inj h
    exact Prod.ext h.1 h.2⟩

theorem mem_allPairs {n : ℕ} {t : Transvection} : t ∈ allPairs n ↔ t.row < n ∧ t.col < n := by
  unfold allPairs
  rw [Finset.mem_map]
  constructor
  · rintro ⟨p, hp, rfl⟩
    rw [Finset.mem_product, Finset.mem_range, Finset.mem_range] at hp
    exact hp
  · intro h
    exact ⟨(t.row, t.col), by simp [h], rfl⟩

theorem pairs_law {n : ℕ} (hn : 0 < n) (t : Transvection) :
    (do let i ← Dist.uniformInt 0 (n - 1)
        let j ← Dist.uniformInt 0 (n - 1)
        pure ⟨i, j⟩ : Dist Transvection) t = if t ∈ allPairs n then (((allPairs n).card : ℕ) : ℝ≥0∞)⁻¹ else 0 := by
  classical
  rw [Dist.bind_apply, tsum_eq_single t.row]
  · rw [Dist.bind_apply, tsum_eq_single t.col]
    · rw [Dist.pure_apply, if_pos rfl, mul_one, uniformBelow hn, uniformBelow hn, allPairs, Finset.card_map,
        Finset.card_product, Finset.card_range, Nat.cast_mul,
        ENNReal.mul_inv (Or.inr (ENNReal.natCast_ne_top _)) (Or.inl (ENNReal.natCast_ne_top _))]
      have := @mem_allPairs n t
      unfold allPairs at this
      rw [if_congr this rfl rfl]
      by_cases h1 : t.row < n
      · by_cases h2 : t.col < n
        · simp [h1, h2]
        · simp [h1, h2]
      · simp [h1]
    · intro j hj
      rw [Dist.pure_apply, if_neg, mul_zero]
      intro e
      exact hj (by rw [e])
  · intro i hi
    rw [Dist.bind_apply]
    have : (∑' j, Dist.uniformInt 0 (n - 1) j * (pure ⟨i, j⟩ : Dist Transvection) t) = 0 := by
      rw [ENNReal.tsum_eq_zero]
      intro j
      rw [Dist.pure_apply, if_neg, mul_zero]
      rintro rfl
      exact hi rfl
    rw [this, mul_zero]

theorem offDiag_count (n : ℕ) :
    ((allPairs n).filter (fun t => (!(t.row == t.col)) = true)).card = n * (n - 1) := by
  unfold allPairs
  rw [Finset.filter_map, Finset.card_map]
  have : Finset.filter ((fun t : Transvection => (!(t.row == t.col)) = true) ∘
      (⟨fun p => ⟨p.1, p.2⟩, fun p q h => by
        have h := Transvection.mk.inj h
        exact Prod.ext h.1 h.2⟩ : ℕ × ℕ ↪ Transvection)) (Finset.range n ×ˢ Finset.range n)
      = (Finset.range n).offDiag := by
    ext ⟨a, b⟩
    simp only [Finset.mem_filter, Finset.mem_product, Finset.mem_offDiag, Function.comp]
    constructor
    · rintro ⟨⟨h1, h2⟩, h3⟩
      refine ⟨h1, h2, ?_⟩
      have : (!(a == b)) = true := h3
      simpa using this
    · rintro ⟨h1, h2, h3⟩
      refine ⟨⟨h1, h2⟩, ?_⟩
      change (!(a == b)) = true
      simpa using h3
  rw [this, Finset.offDiag_card, Finset.card_range, Nat.mul_sub_one]

end Hnco.Prob
