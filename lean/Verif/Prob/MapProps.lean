import Verif.Prob.SequenceProps
import Verif.Prob.PopulationLemmas
import Verif.Prob.TimeLemmas
import Verif.Map.Props

/-!
# Images of vectors under random maps (C119)
-/

namespace Hnco.Prob

open Outcome
open scoped ENNReal

/-! ## Samplers always end -/

theorem shuffle_sure {α : Type} [DecidableEq α] (l : List α) : Sure (shuffle l) (fun s => s.Perm l) := by
  refine ⟨?_, fun s hs => shuffle_support hs⟩
  unfold Dist.total
  rw [tsum_eq_sum (s := permsF l) (fun s hs => by
    by_contra h
    exact hs (mem_permsF.mpr (shuffle_support h)))]
  have : ∀ s ∈ permsF l, (shuffle l).mass s = (l.permutations.count s : ℝ≥0∞) * ((l.length.factorial : ℕ) : ℝ≥0∞)⁻¹ := fun _ _ => rfl
  rw [Finset.sum_congr rfl this, ← Finset.sum_mul, ← Nat.cast_sum]
  have hc : ∑ s ∈ permsF l, l.permutations.count s = l.permutations.length := by
    convert List.sum_toFinset_count_eq_length l.permutations using 3
    · rfl
    · exact lawful_beq_subsingleton _ _
  rw [hc, List.length_permutations]
  exact ENNReal.mul_inv_cancel (by exact_mod_cast Nat.factorial_ne_zero _) (ENNReal.natCast_ne_top _)

/-- Transvections of `n` bits. -/
def Fits (n : ℕ) (a : Transvection) : Prop := a.row < n ∧ a.col < n ∧ a.row ≠ a.col

theorem tvRandom_sure {n : ℕ} (hn : 1 < n) : Sure (tvRandom n) (Fits n) := by
  refine ⟨?_, fun t ht => ?_⟩
  · classical
    have hsum : (tvRandom n).total = ∑ t ∈ (Finset.range n ×ˢ Finset.range n).filter (fun p => p.1 ≠ p.2), ((n * (n - 1) : ℕ) : ℝ≥0∞)⁻¹ := by
      unfold Dist.total
      have hinj : Function.Injective (fun p : ℕ × ℕ => (⟨p.1, p.2⟩ : Transvection)) := by
        rintro ⟨a, b⟩ ⟨c, d⟩ h
        simp only [Transvection.mk.injEq] at h
        rw [h.1, h.2]
      rw [tsum_eq_sum (s := ((Finset.range n ×ˢ Finset.range n).filter (fun p => p.1 ≠ p.2)).image (fun p => (⟨p.1, p.2⟩ : Transvection)))]
      · rw [Finset.sum_image (fun x _ y _ h => hinj h)]
        refine Finset.sum_congr rfl (fun p hp => ?_)
        rw [Finset.mem_filter, Finset.mem_product, Finset.mem_range, Finset.mem_range] at hp
        rw [tvRandom_law hn, if_pos ⟨hp.1.1, hp.1.2, hp.2⟩]
      · intro t ht
        rw [tvRandom_law hn, if_neg]
        rintro ⟨h1, h2, h3⟩
        apply ht
        rw [Finset.mem_image]
        exact ⟨(t.row, t.col), by simp [h1, h2, h3], rfl⟩
    rw [hsum, Finset.sum_const, nsmul_eq_mul]
    have hcard : ((Finset.range n ×ˢ Finset.range n).filter (fun p => p.1 ≠ p.2)).card = n * (n - 1) := by
      have := Finset.offDiag_card (Finset.range n)
      rw [Finset.card_range] at this
      rw [show (Finset.range n ×ˢ Finset.range n).filter (fun p => p.1 ≠ p.2) = (Finset.range n).offDiag by
        ext p; simp [Finset.mem_offDiag, and_assoc], this, Nat.mul_sub_one]
    rw [hcard]
    exact ENNReal.mul_inv_cancel (by exact_mod_cast Nat.mul_ne_zero (by omega) (by omega)) (ENNReal.natCast_ne_top _)
  · rw [tvRandom_law hn] at ht
    by_contra h
    exact ht (if_neg h)

theorem repeatUntil_sure {α : Type} {body : Dist α} {P : α → Prop} (h : Sure body P) {stop : α → Bool} {a : α} (ha : body a ≠ 0) (hs : stop a = true) :
    Sure (Dist.repeatUntil body stop) (fun a => P a ∧ stop a = true) := by
  refine ⟨?_, fun b hb => ?_⟩
  · have hpos : (∑' b, if stop b then body b else 0) ≠ 0 := by
      intro h0
      have := ENNReal.tsum_eq_zero.mp h0 a
      rw [if_pos hs] at this
      exact ha this
    have hfin : (∑' b, if stop b then body b else 0) ≠ ∞ := by
      have h1 := Dist.hit_add_miss body stop
      rw [h.total] at h1
      intro e
      rw [e] at h1
      simp at h1
    have heq : ∀ r, (Dist.repeatUntil body stop).mass r = (if stop r then body r else 0) * (∑' b, if stop b then body b else 0)⁻¹ := by
      intro r
      rw [Dist.repeatUntil_cond h.total]
      split
      · rw [div_eq_mul_inv]
      · rw [zero_mul]
    unfold Dist.total
    simp only [heq]
    rw [ENNReal.tsum_mul_right, ENNReal.mul_inv_cancel hpos hfin]
  · rw [Dist.repeatUntil_apply] at hb
    by_cases hsb : stop b = true
    · rw [if_pos hsb] at hb
      exact ⟨h.holds b (fun e => hb (by rw [e, zero_mul])), hsb⟩
    · exact absurd (if_neg hsb) hb

theorem uniformInt_between {lo hi : ℕ} (h : lo ≤ hi) : Sure (Dist.uniformInt lo hi) (fun k => lo ≤ k ∧ k ≤ hi) :=
  ⟨Dist.uniformInt_total h, fun k hk => by
    by_contra h'
    exact hk (if_neg h')⟩

theorem other_sure {n c : ℕ} (hn : 1 < n) :
    Sure (Dist.repeatUntil (Dist.uniformInt 0 (n - 1)) (fun i => !(i == c))) (fun i => i < n ∧ i ≠ c) := by
  have hne : ∀ k, k < n → Dist.uniformInt 0 (n - 1) k ≠ 0 := by
    intro k hk
    rw [uniformBelow (by omega), if_pos hk]
    exact ENNReal.inv_ne_zero.mpr (ENNReal.natCast_ne_top _)
  have hd : ∃ k, k < n ∧ k ≠ c := by
    by_cases h : c = 0
    · exact ⟨1, hn, by omega⟩
    · exact ⟨0, by omega, fun e => h e.symm⟩
  obtain ⟨k, h1, h2⟩ := hd
  refine (repeatUntil_sure (uniformInt_between (Nat.zero_le _)) (hne k h1) (by simpa using h2)).mono (fun i hi => ⟨by omega, by simpa using hi.2⟩)

theorem bernoulli_sure : Sure Dist.bernoulli (fun _ => True) := ⟨Dist.coin_total, fun _ _ => trivial⟩

theorem tvRandomNonCommuting_sure {n : ℕ} (hn : 1 < n) {a : Transvection} (ha : Fits n a) : Sure (tvRandomNonCommuting n a) (Fits n) := by
  unfold tvRandomNonCommuting
  rw [Dist.assert_bind (by simpa using hn)]
  refine bernoulli_sure.bind (fun b _ => ?_)
  have key : Sure (if b then do
      let i ← Dist.repeatUntil (Dist.uniformInt 0 (n - 1)) (fun i => !(i == a.col))
      pure ⟨a.col, i⟩
    else do
      let i ← Dist.repeatUntil (Dist.uniformInt 0 (n - 1)) (fun i => !(i == a.row))
      pure ⟨i, a.row⟩ : Dist Transvection) (fun t => Fits n t ∧ tvCommute t a = false) := by
    cases b with
    | true =>
      rw [if_pos rfl]
      refine (other_sure hn).bind (fun i hi => Sure.pure ⟨⟨ha.2.1, hi.1, fun e => hi.2 e.symm⟩, ?_⟩)
      unfold tvCommute
      simp
    | false =>
      rw [if_neg (by simp)]
      refine (other_sure hn).bind (fun i hi => Sure.pure ⟨⟨hi.1, ha.1, hi.2⟩, ?_⟩)
      unfold tvCommute
      simp
  refine key.bind (fun t ht => ?_)
  rw [Dist.assert_bind (by rw [tvIsValidN_iff]; exact ht.1), Dist.assert_bind (by rw [ht.2]; rfl)]
  exact Sure.pure ht.1

theorem nonCommutingLoop_sure {n : ℕ} (hn : 1 < n) : ∀ (k : ℕ) (a : Transvection), Fits n a →
    Sure (nonCommutingLoop n k a) (fun ts => ∀ b ∈ ts, Fits n b)
  | 0, _, _ => Sure.pure (by simp)
  | k + 1, a, ha => (tvRandomNonCommuting_sure hn ha).bind (fun t ht => (nonCommutingLoop_sure hn k t ht).bind (fun ts hts => Sure.pure (by
      simp only [List.mem_cons, forall_eq_or_imp]
      exact ⟨ht, hts⟩)))

theorem tsRandomLoop_sure {n : ℕ} (hn : 1 < n) : ∀ k, Sure (tsRandomLoop n k) (fun ts => ∀ b ∈ ts, Fits n b)
  | 0 => Sure.pure (by simp)
  | k + 1 => (tvRandom_sure hn).bind (fun t ht => (tsRandomLoop_sure hn k).bind (fun ts hts => Sure.pure (by
      simp only [List.mem_cons, forall_eq_or_imp]
      exact ⟨ht, hts⟩)))

theorem variables_fit {n i j : ℕ} {vars : List ℕ} (h : vars.Perm (List.range n)) (hi : i < n) (hj : j < n) (hij : i ≠ j) :
    ∃ r c, vget vars i = ok r ∧ vget vars j = ok c ∧ Fits n ⟨r, c⟩ := by
  have hl : vars.length = n := by simpa using h.length_eq
  have hnd : vars.Nodup := h.nodup_iff.mpr List.nodup_range
  have hlt : ∀ v ∈ vars, v < n := fun v hv => List.mem_range.mp (h.mem_iff.mp hv)
  refine ⟨vars[i], vars[j], vget_eq (by omega), vget_eq (by omega), hlt _ (List.getElem_mem _), hlt _ (List.getElem_mem _), ?_⟩
  intro e
  exact hij ((List.Nodup.getElem_inj_iff hnd).mp e)

theorem commutingSplit_sure {n t : ℕ} (hn : 1 < n) (ht : t ≤ commutingLengthMax n) : Sure (commutingSplit n t) (fun s => s ≤ n) := by
  refine ⟨?_, fun s hs => ?_⟩
  · unfold commutingSplit
    unfold commutingLengthMax at ht
    by_cases he : n % 2 = 0
    · rw [if_pos he]
      exact ((uniformInt_between (Nat.zero_le _)).bind (fun r _ => bernoulli_sure.bind (fun b _ => Sure.pure (P := fun _ => True) trivial))).total
    · rw [if_neg he]
      have hb : 1 ≤ commutingBound n t := by
        unfold commutingBound
        rw [if_neg (by simpa using he)]
        rw [if_neg (by simpa using he)] at ht
        obtain ⟨k, rfl⟩ : ∃ k, n = 2 * k + 1 := ⟨n / 2, by omega⟩
        have hk : (2 * k + 1) / 2 = k := by omega
        rw [hk] at ht ⊢
        have h4 : 4 * t + 1 ≤ (2 * k + 1) * (2 * k + 1) := by nlinarith
        have hs1 : 1 ≤ Nat.sqrt ((2 * k + 1) * (2 * k + 1) - 4 * t) := Nat.le_sqrt.mpr (by omega)
        omega
      exact ((uniformInt_between hb).bind (fun r _ => bernoulli_sure.bind (fun b _ => Sure.pure (P := fun _ => True) trivial))).total
  · rw [commutingSplit_law hn ht] at hs
    by_contra h
    apply hs
    refine if_neg (fun h' => h ?_)
    unfold admissible at h'
    rw [Finset.mem_filter, Finset.mem_range] at h'
    omega

theorem tsSample_sure {n : ℕ} (t : ℕ) (hn : 1 < n) (mode : SamplingMode) : Sure (tsSample [] n t mode) (fun ts => ∀ b ∈ ts, Fits n b) := by
  rcases Nat.eq_zero_or_pos t with rfl | ht
  · have hnil : Sure (pure [] : Dist (List Transvection)) (fun ts => ∀ b ∈ ts, Fits n b) := Sure.pure (by simp)
    cases mode <;> simp only [tsSample, tsRandom, tsRandomCommuting, tsRandomUniqueSource, tsRandomUniqueDestination, tsRandomDisjoint,
      tsRandomNonCommuting] <;> rw [Dist.assert_bind (by simpa using hn)]
    · exact hnil
    all_goals
      rw [if_pos (le_refl 0)]
      exact hnil
  cases mode with
  | unconstrained =>
    simp only [tsSample, tsRandom]
    rw [Dist.assert_bind (by simpa using hn)]
    exact tsRandomLoop_sure hn t
  | commuting =>
    simp only [tsSample, tsRandomCommuting]
    rw [Dist.assert_bind (by simpa using hn), if_neg (by omega)]
    have hm : (if t > commutingLengthMax n then commutingLengthMax n else t) ≤ commutingLengthMax n := by split <;> omega
    generalize (if t > commutingLengthMax n then commutingLengthMax n else t) = m at hm
    refine (shuffle_sure _).bind (fun vars hv => (commutingSplit_sure hn hm).bind (fun s hs => ?_))
    have hl : vars.length = n := by simpa using hv.length_eq
    rw [commutingPairs_eq hl hs, Dist.lift_ok, Dist.pure_bind']
    have hfit : ∀ b ∈ pairsOf (vars.take s) (vars.drop s), Fits n b := by
      intro b hb
      rw [mem_pairsOf] at hb
      have hlt : ∀ v ∈ vars, v < n := fun v hv' => List.mem_range.mp (hv.mem_iff.mp hv')
      refine ⟨hlt _ (List.mem_of_mem_take hb.1), hlt _ (List.mem_of_mem_drop hb.2), fun e => ?_⟩
      rw [e] at hb
      exact (List.disjoint_take_drop (hv.nodup_iff.mpr List.nodup_range) (le_refl s)) hb.1 hb.2
    refine (shuffle_sure _).bind (fun ts hts => ?_)
    split
    · exact Sure.pure (fun b hb => hfit b (hts.mem_iff.mp (List.mem_of_mem_take hb)))
    · exact Sure.pure (fun b hb => hfit b (hts.mem_iff.mp hb))
  | uniqueSource =>
    simp only [tsSample, tsRandomUniqueSource]
    rw [Dist.assert_bind (by simpa using hn), if_neg (by omega)]
    have hm : (if t > n - 1 then n - 1 else t) ≤ n - 1 := by split <;> omega
    generalize (if t > n - 1 then n - 1 else t) = m at hm
    refine (shuffle_sure _).bind (fun vars hv => ?_)
    refine (Sure.forRange (fun j (ts : List Transvection) => ts.length = j ∧ ∀ b ∈ ts, Fits n b) ⟨rfl, by simp⟩ (fun j ts hj hts => ?_)).bind
      (fun ts hts => ?_)
    · rw [vget_eq (show j < vars.length by rw [hv.length_eq, List.length_range]; omega), Dist.lift_ok, Dist.pure_bind']
      refine (uniformInt_between hm).bind (fun k hk => ?_)
      obtain ⟨r, c, h1, h2, h3⟩ := variables_fit hv (show j < n by omega) (show k < n by omega) (by omega)
      rw [vget_eq (show j < vars.length by rw [hv.length_eq, List.length_range]; omega), Outcome.ok.injEq] at h1
      rw [h2, Dist.lift_ok, Dist.pure_bind', h1]
      refine Sure.pure ⟨by simp [hts.1], fun b hb => ?_⟩
      rcases List.mem_append.mp hb with hb | hb
      · exact hts.2 b hb
      · rw [List.mem_singleton.mp hb]
        exact h3
    · rw [Dist.assert_bind (by simp [hts.1])]
      exact (shuffle_sure _).mono (fun s hs b hb => hts.2 b (hs.mem_iff.mp hb))
  | uniqueDestination =>
    simp only [tsSample, tsRandomUniqueDestination]
    rw [Dist.assert_bind (by simpa using hn), if_neg (by omega)]
    have hm : (if t > n - 1 then n - 1 else t) ≤ n - 1 := by split <;> omega
    generalize (if t > n - 1 then n - 1 else t) = m at hm
    refine (shuffle_sure _).bind (fun vars hv => ?_)
    refine (Sure.forRange (fun j (ts : List Transvection) => ts.length = j ∧ ∀ b ∈ ts, Fits n b) ⟨rfl, by simp⟩ (fun j ts hj hts => ?_)).bind
      (fun ts hts => ?_)
    · refine (uniformInt_between hm).bind (fun k hk => ?_)
      obtain ⟨r, c, h1, h2, h3⟩ := variables_fit hv (show k < n by omega) (show j < n by omega) (by omega)
      rw [h1, Dist.lift_ok, Dist.pure_bind', h2, Dist.lift_ok, Dist.pure_bind']
      refine Sure.pure ⟨by simp [hts.1], fun b hb => ?_⟩
      rcases List.mem_append.mp hb with hb | hb
      · exact hts.2 b hb
      · rw [List.mem_singleton.mp hb]
        exact h3
    · rw [Dist.assert_bind (by simp [hts.1])]
      exact (shuffle_sure _).mono (fun s hs b hb => hts.2 b (hs.mem_iff.mp hb))
  | disjoint =>
    have hsure : Sure (tsRandomDisjoint [] n t) (fun _ => True) := by
      simp only [tsRandomDisjoint]
      rw [Dist.assert_bind (by simpa using hn), if_neg (by omega)]
      have hm : 2 * (if 2 * t > n then n / 2 else t) ≤ n := by split <;> omega
      generalize (if 2 * t > n then n / 2 else t) = m at hm
      refine (shuffle_sure _).bind (fun vars hv => ?_)
      rw [Dist.assert_bind (by simpa using hm)]
      obtain ⟨ts, h1, _⟩ := disjointPairs_eq hv hm
      exact Sure.lift ⟨ts, h1, trivial⟩
    refine ⟨hsure.total, fun ts hts b hb => ?_⟩
    simp only [tsSample] at hts
    rw [tsRandomDisjoint_law hn ht] at hts
    have hA : Apart n (min t (n / 2)) ts := by
      by_contra h
      exact hts (if_neg h)
    refine ⟨hA.2.1 _ ?_, hA.2.1 _ ?_, ?_⟩
    · exact List.mem_flatMap.mpr ⟨b, hb, by simp⟩
    · exact List.mem_flatMap.mpr ⟨b, hb, by simp⟩
    · have := (List.nodup_flatMap.mp hA.2.2).1 b hb
      simpa using this
  | nonCommuting =>
    simp only [tsSample, tsRandomNonCommuting]
    rw [Dist.assert_bind (by simpa using hn), if_neg (by omega)]
    refine (tvRandom_sure hn).bind (fun a ha => (nonCommutingLoop_sure hn _ a ha).bind (fun ts hts => Sure.pure ?_))
    simp only [List.mem_cons, forall_eq_or_imp]
    exact ⟨ha, hts⟩

/-! ## Images -/

theorem add_twice : ∀ {v y : BV}, v.length = y.length → F2.add v (F2.add v y) = y
  | [], [], _ => rfl
  | a :: v, b :: y, h => by
    have ih := add_twice (v := v) (y := y) (by simpa using h)
    simp only [F2.add, List.zipWith_cons_cons] at ih ⊢
    rw [ih]
    cases a <;> cases b <;> rfl

theorem add_comm' (v y : BV) : F2.add v y = F2.add y v := by
  unfold F2.add
  exact List.zipWith_comm_of_comm (fun a b => Bool.xor_comm a b)

/-- A uniform vector added to a given one is uniform. -/
theorem add_uniform {n : ℕ} {v : BV} (hv : v.length = n) (y : BV) :
    (bvRandomBits (List.replicate n false) >>= fun bv => (pure (F2.add v bv) : Dist BV)) y =
      if y.length = n then ((2 : ℝ≥0∞) ^ n)⁻¹ else 0 := by
  classical
  have hlaw : ∀ z, bvRandomBits (List.replicate n false) z = if z.length = n then ((2 : ℝ≥0∞) ^ n)⁻¹ else 0 := by
    intro z
    rw [bvRandomBits_law, List.length_replicate]
  rw [Dist.bind_apply]
  by_cases hy : y.length = n
  · have hl : (F2.add v y).length = n := by rw [add_length (by omega), hv]
    rw [if_pos hy, tsum_eq_single (F2.add v y)]
    · rw [hlaw, if_pos hl, Dist.pure_apply, add_twice (by omega), if_pos rfl, mul_one]
    · intro z hz
      rw [hlaw]
      by_cases hzl : z.length = n
      · rw [Dist.pure_apply, if_neg (c := y = _), mul_zero]
        intro e
        apply hz
        rw [e, add_twice (by omega)]
      · rw [if_neg hzl, zero_mul]
  · rw [if_neg hy, ENNReal.tsum_eq_zero]
    intro z
    rw [hlaw]
    by_cases hzl : z.length = n
    · rw [Dist.pure_apply, if_neg (c := y = _), mul_zero]
      intro e
      apply hy
      rw [e, add_length (by omega), hv]
    · rw [if_neg hzl, zero_mul]

/-- What does not depend on a draw. -/
theorem Sure.forget {α β : Type} {d : Dist α} {P : α → Prop} (h : Sure d P) {f : α → Dist β} {e : Dist β} (he : ∀ a, P a → f a = e) : d >>= f = e := by
  rw [Dist.bind_congr_support (g := fun _ => e) (fun a ha => he a (h.holds a ha))]
  ext b
  rw [Dist.bind_apply, ENNReal.tsum_mul_right]
  change d.total * _ = _
  rw [h.total, one_mul]

/-- C119: whatever the sampling mode, a random affine map made of transvections takes any given vector to a uniform one. -/
theorem tsAffineRandom_image {n : ℕ} (t : ℕ) (hn : 1 < n) (mode : SamplingMode) {x out : BV} (hx : x.length = n) (ho : out.length = n) (y : BV) :
    (tsAffineRandom n t mode >>= fun f => Dist.lift (tsAffineMap f x out)) y = if y.length = n then ((2 : ℝ≥0∞) ^ n)⁻¹ else 0 := by
  unfold tsAffineRandom
  rw [Dist.assert_bind (by simpa using (show 0 < n by omega)), Dist.bind_assoc']
  simp only [Dist.bind_assoc', Dist.pure_bind']
  rw [Dist.bind_swap]
  rw [(tsSample_sure t hn mode).forget (e := ⟨fun y => if y.length = n then ((2 : ℝ≥0∞) ^ n)⁻¹ else 0⟩)]
  intro ts hts
  ext y
  change _ = if y.length = n then ((2 : ℝ≥0∞) ^ n)⁻¹ else 0
  rw [← add_uniform (v := tsAct ts x) (n := n) (by simp [hx])]
  refine congrArg (fun d : Dist BV => d y) (Dist.bind_congr_support (fun bv hbv => ?_))
  have hl : bv.length = n := by
    rw [bvRandomBits_law, List.length_replicate] at hbv
    by_contra h
    exact hbv (if_neg h)
  rw [(tsAffineMap_computes ⟨ts, bv⟩ n hl ((tsIsValidN_iff n ts).mpr hts) x out hx ho).1, Dist.lift_ok]

theorem linearRandom_sure {rows cols : ℕ} (hr : 0 < rows) (hc : 0 < cols) {surjective : Bool} (hs : surjective = true → rows ≤ cols) :
    Sure (linearRandom rows cols surjective) (F2.HasShape rows cols) := by
  classical
  cases surjective with
  | false =>
    refine ⟨?_, fun M hM => ?_⟩
    · unfold linearRandom
      rw [Dist.assert_bind (by simpa using hr), Dist.assert_bind (by simpa using hc), if_neg (by simp)]
      exact bmRandom_total hr hc
    · rw [linearRandom_uniform hr hc] at hM
      by_contra h
      exact hM (if_neg h)
  | true =>
    obtain ⟨⟨c, h⟩, ht⟩ := linearRandom_surjective_law hr (hs rfl)
    refine ⟨ht, fun M hM => ?_⟩
    rw [h] at hM
    by_contra h'
    exact hM (if_neg (fun e => h' e.1))

/-- C119: a random affine map takes any given vector to a uniform one, also when it has to be surjective. -/
theorem affineRandom_image {rows cols : ℕ} (hr : 0 < rows) (hc : 0 < cols) {surjective : Bool} (hs : surjective = true → rows ≤ cols) {x out : BV}
    (hx : x.length = cols) (ho : out.length = rows) (y : BV) :
    (affineRandom rows cols surjective >>= fun f => Dist.lift (affineMap f.1 f.2 x out)) y =
      if y.length = rows then ((2 : ℝ≥0∞) ^ rows)⁻¹ else 0 := by
  unfold affineRandom
  rw [Dist.bind_assoc']
  rw [(linearRandom_sure hr hc hs).forget (e := ⟨fun y => if y.length = rows then ((2 : ℝ≥0∞) ^ rows)⁻¹ else 0⟩)]
  intro M hM
  ext y
  change _ = if y.length = rows then ((2 : ℝ≥0∞) ^ rows)⁻¹ else 0
  rw [← add_uniform (v := F2.mulVec M x) (n := rows) (by rw [mulVec_length, hM.1]), Dist.bind_assoc']
  refine congrArg (fun d : Dist BV => d y) (Dist.bind_congr_support (fun bv hbv => ?_))
  have hl : bv.length = rows := by
    rw [bvRandomBits_law, List.length_replicate] at hbv
    by_contra h
    exact hbv (if_neg h)
  rw [Dist.assert_bind (by simp [hM.1, hl]), Dist.pure_bind', (affineMap_spec rows cols hr hc M hM bv hl x out hx ho).1, Dist.lift_ok]

/-- C119: a random translation takes any given vector to a uniform one. -/
theorem translationRandom_image {n : ℕ} (hn : 0 < n) {x out : BV} (hx : x.length = n) (ho : out.length = n) (y : BV) :
    (translationRandom n >>= fun v => Dist.lift (translationMap v x out)) y = if y.length = n then ((2 : ℝ≥0∞) ^ n)⁻¹ else 0 := by
  unfold translationRandom
  rw [Dist.assert_bind (by simpa using hn), ← add_uniform hx]
  refine congrArg (fun d : Dist BV => d y) (Dist.bind_congr_support (fun bv hbv => ?_))
  have hl : bv.length = n := by
    rw [bvRandomBits_law, List.length_replicate] at hbv
    by_contra h
    exact hbv (if_neg h)
  rw [((translationMap_correct bv n hl).1 x out hx ho).1, Dist.lift_ok]

/-! ## Permutations -/

theorem card_pick (g : ℕ → Bool) : ∀ (y : BV) (l : List ℕ), l.Nodup → y.Perm (l.map g) →
    ((permsF l).filter (fun s => s.map g = y)).card = (y.count true).factorial * (y.count false).factorial
  | [], l, hl, h => by
    have : l = [] := by simpa using h.symm.eq_nil
    subst this
    have : (permsF ([] : List ℕ)).filter (fun s => s.map g = []) = {[]} := by
      ext s
      simp [mem_permsF]
    rw [this]
    simp
  | b :: y, l, hl, h => by
    have hset : (permsF l).filter (fun s => s.map g = b :: y) =
        (l.toFinset.filter (fun a => g a = b)).biUnion (fun a => ((permsF (l.erase a)).filter (fun s => s.map g = y)).image (a :: ·)) := by
      ext s
      simp only [Finset.mem_filter, Finset.mem_biUnion, Finset.mem_image, mem_permsF, List.mem_toFinset]
      constructor
      · rintro ⟨hs, he⟩
        cases s with
        | nil => simp at he
        | cons a r =>
          rw [List.map_cons] at he
          obtain ⟨h1, h2⟩ := List.cons.inj he
          have hp := List.cons_perm_iff_perm_erase.mp hs
          exact ⟨a, ⟨hp.1, h1⟩, r, ⟨hp.2, h2⟩, rfl⟩
      · rintro ⟨a, ⟨ha, hg⟩, r, ⟨hr, he⟩, rfl⟩
        exact ⟨List.cons_perm_iff_perm_erase.mpr ⟨ha, hr⟩, by rw [List.map_cons, he, hg]⟩
    rw [hset, Finset.card_biUnion]
    · have hterm : ∀ a ∈ l.toFinset.filter (fun a => g a = b),
          (((permsF (l.erase a)).filter (fun s => s.map g = y)).image (a :: ·)).card = (y.count true).factorial * (y.count false).factorial := by
        intro a ha
        rw [Finset.mem_filter, List.mem_toFinset] at ha
        rw [Finset.card_image_of_injective _ (fun x y h => by simpa using h)]
        apply card_pick g y (l.erase a) (hl.erase a)
        have h1 : (l.map g).Perm (g a :: (l.erase a).map g) := (List.perm_cons_erase ha.1).map g
        rw [ha.2] at h1
        exact (List.perm_cons b).mp (h.trans h1)
      rw [Finset.sum_congr rfl hterm, Finset.sum_const, smul_eq_mul]
      have hcount : (l.toFinset.filter (fun a => g a = b)).card = (b :: y).count b := by
        have hf : l.toFinset.filter (fun a => g a = b) = (l.filter (fun a => g a == b)).toFinset := by
          ext a
          simp
        rw [h.count_eq, hf, List.toFinset_card_of_nodup (hl.filter _), List.count, List.countP_map, List.countP_eq_length_filter]
        rfl
      rw [hcount]
      cases b with
      | true =>
        rw [List.count_cons_self, List.count_cons_of_ne (by simp), Nat.factorial_succ, mul_assoc]
      | false =>
        rw [List.count_cons_self, List.count_cons_of_ne (by simp), Nat.factorial_succ]
        ring
    · intro a _ c _ hac
      rw [Function.onFun, Finset.disjoint_left]
      intro s hs ht
      obtain ⟨r, _, rfl⟩ := Finset.mem_image.mp hs
      obtain ⟨r', _, h⟩ := Finset.mem_image.mp ht
      exact hac (List.cons.inj h).1.symm

/-- C119: a random permutation takes a given vector to each vector with the same number of ones with the same probability. -/
theorem permutationRandom_image {n : ℕ} (hn : 0 < n) {x out : BV} (hx : x.length = n) (ho : out.length = n) (y : BV) :
    (permutationRandom n >>= fun p => Dist.lift (permutationMap (p.map Int.ofNat) x out)) y =
      if y.length = n ∧ y.count true = x.count true then ((n.choose (x.count true) : ℕ) : ℝ≥0∞)⁻¹ else 0 := by
  unfold permutationRandom
  have hsh : permRandom n = shuffle (List.range n) := by
    ext s
    rw [shuffle_apply List.nodup_range, List.length_range]
    rfl
  rw [Dist.assert_bind (by simpa using hn), hsh]
  have hcf : ∀ z : BV, z.count false = z.length - z.count true := by
    intro z
    have : z.count true + z.count false = z.length := by
      induction z with
      | nil => rfl
      | cons b z ih => cases b <;> simp <;> omega
    omega
  rw [shuffle_bind_const List.nodup_range (Q := fun p => p.map (bit x) = y) (c := 1), mul_one, List.length_range]
  · have hmap : (List.range n).map (bit x) = x := by
      rw [← hx]
      exact map_bit_range x
    by_cases h : y.length = n ∧ y.count true = x.count true
    · rw [if_pos h, card_pick (bit x) y (List.range n) List.nodup_range (by
        rw [hmap, List.perm_iff_count]
        intro b
        cases b with
        | true => exact h.2
        | false => rw [hcf, hcf, h.1, h.2, hx]), hcf, h.1, h.2]
      have hle : x.count true ≤ n := by rw [← hx]; exact List.count_le_length
      rw [← Nat.choose_mul_factorial_mul_factorial hle, mul_assoc, Nat.cast_mul (n.choose _), ENNReal.div_eq_inv_mul,
        ENNReal.mul_inv (Or.inl (by exact_mod_cast (Nat.choose_pos hle).ne')) (Or.inl (ENNReal.natCast_ne_top _)), mul_assoc,
        ENNReal.inv_mul_cancel (by exact_mod_cast Nat.mul_ne_zero (Nat.factorial_ne_zero _) (Nat.factorial_ne_zero _)) (ENNReal.natCast_ne_top _),
        mul_one]
    · rw [if_neg h, Finset.filter_false_of_mem, Finset.card_empty, Nat.cast_zero, ENNReal.zero_div]
      intro s hs e
      have hp := (mem_permsF.mp hs).map (bit x)
      rw [hmap, e] at hp
      exact h ⟨by rw [hp.length_eq, hx], hp.count_eq true⟩
  · intro p hp
    have hl : p.length = n := by simpa using hp.length_eq
    have hpp : (p.map Int.ofNat).Perm ((List.range (p.map Int.ofNat).length).map Int.ofNat) := by
      rw [List.length_map, hl]
      exact hp.map _
    have := (permutationMap_computes (p.map Int.ofNat) hpp x out (by rw [List.length_map]; omega) (by rw [List.length_map]; omega)).1
    rw [this, Dist.lift_ok, Dist.pure_apply]
    have hpick : pick (p.map Int.ofNat) x = p.map (bit x) := by
      unfold pick
      rw [List.map_map]
      rfl
    rw [hpick]
    by_cases e : y = p.map (bit x)
    · rw [if_pos e, if_pos e.symm]
    · rw [if_neg e, if_neg (fun h => e h.symm)]

example : (permutationRandom 3 >>= fun p => Dist.lift (permutationMap (p.map Int.ofNat) [true, false, false] [false, false, false])) [false, false, true]
    = ((3 : ℕ) : ℝ≥0∞)⁻¹ := by
  rw [permutationRandom_image (n := 3) (by decide) rfl rfl]
  rfl

example : (tsAffineRandom 4 3 .commuting >>= fun f => Dist.lift (tsAffineMap f [true, false, false, true] [false, false, false, false]))
    [false, true, false, true] = ((2 : ℝ≥0∞) ^ 4)⁻¹ := by
  rw [tsAffineRandom_image (n := 4) 3 (by decide) .commuting rfl rfl]
  rfl

example : (affineRandom 2 3 true >>= fun f => Dist.lift (affineMap f.1 f.2 [true, false, false] [false, false])) [true, true] =
    ((2 : ℝ≥0∞) ^ 2)⁻¹ := by
  rw [affineRandom_image (rows := 2) (cols := 3) (by decide) (by decide) (by decide) rfl rfl]
  rfl

end Hnco.Prob
