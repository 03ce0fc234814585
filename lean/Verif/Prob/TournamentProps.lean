import Verif.Prob.TournamentCount
import Verif.Prob.EvolutionProps

/-!
# Properties of tournament selection, with probabilities (C117)
-/

namespace Hnco.Prob

open Outcome
open scoped ENNReal

variable {K : Type} {N k : ℕ} {bvs : List BV} {values : List K} {t : Tournament}

/-! ## Lemmas -/

theorem select_mid_any {compare : K → K → Bool} (hc : StrictWeak compare) (ht : t.Valid N) (hb : bvs.length = N)
    (hv : values.length = N) (hmid : t.stop + t.size ≤ N) :
    ∃ i x, tournamentSelect compare bvs values t = pure (i, x, { t with start := t.stop, stop := t.stop + t.size }) := by
  obtain ⟨⟨w, v⟩, hw, w1, w2, i, w3, _⟩ := Tournament.round_spec hc ht hv
  dsimp only at w1 w2 w3
  have hlt : i < N := by simpa using ht.perm.mem_iff.mp (List.mem_of_getElem? w3)
  have hg : vget t.perm w = ok i := by unfold vget; rw [w3]
  refine ⟨i, bvs[i], ?_⟩
  unfold tournamentSelect
  rw [Dist.assert_bind (select_assert ht hb), hw, Dist.lift_ok, Dist.pure_bind']
  unfold tournamentNext
  rw [if_neg (by omega), Dist.pure_bind']
  dsimp only
  rw [hg, Dist.lift_ok, Dist.pure_bind', vget_eq (by omega), Dist.lift_ok, Dist.pure_bind']

/-- A selection is a selection in one of the rounds of a random permutation. -/
theorem selected_eq {compare : K → K → Bool} (hc : StrictWeak compare) (hb : bvs.length = N) (hv : values.length = N)
    (hp : t.perm.Perm (List.range N)) (h2 : 2 ≤ t.size) (hN : t.size ≤ N) (m : ℕ) :
    selected compare bvs values t m = permRandom N >>= fun s =>
      tournamentSelect compare bvs values (roundState t.size (m % (N / t.size)) s) >>= fun r => pure r.1 := by
  unfold selected
  rw [tournamentInit_eq hp, ← Dist.bind_assoc', states_law h2 hN]
  · rw [Dist.bind_assoc']
    refine Dist.bind_congr_support (fun s _ => ?_)
    rw [Dist.pure_bind']
  · intro u hu huk hmid
    rw [← huk] at hmid ⊢
    exact select_mid_any hc hu hb hv hmid
  · intro u hu huk hlast
    rw [← huk] at hlast ⊢
    obtain ⟨w, _, e⟩ := select_last hc hu hb hv hlast
    rw [e, Dist.bind_assoc']
    refine Dist.bind_congr_support (fun s _ => ?_)
    rw [Dist.pure_bind']

theorem last_uniform {w : ℕ} (hw : w < N) {i : ℕ} (hi : i < N) :
    (permRandom N >>= fun s => (pure ((s[w]?).getD 0) : Dist ℕ)) i = (N : ℝ≥0∞)⁻¹ := by
  rw [permRandom_map]
  have : (permsOf (List.range N)).filter (fun s => (s[w]?).getD 0 = i) = (permsOf (List.range N)).filter (fun s => s[w]? = some i) := by
    apply Finset.filter_congr
    intro s hs
    have hlen : s.length = N := by simpa using (mem_permsOf.mp hs).length_eq
    rw [List.getElem?_eq_getElem (by omega)]
    simp
  rw [this, card_at hw hi]
  obtain ⟨n, rfl⟩ : ∃ n, N = n + 1 := ⟨N - 1, by omega⟩
  rw [Nat.add_sub_cancel, Nat.factorial_succ, Nat.cast_mul, ENNReal.div_eq_inv_mul,
    ENNReal.mul_inv (Or.inl (by exact_mod_cast Nat.succ_ne_zero n)) (Or.inl (ENNReal.natCast_ne_top _)), mul_assoc,
    ENNReal.inv_mul_cancel (by exact_mod_cast n.factorial_ne_zero) (ENNReal.natCast_ne_top _), mul_one]

/-! ## Properties -/

/-- C117: in the last round of a pass through the permutation, all individuals are selected with the same probability, whatever
their values and whatever happened before: the permutation is shuffled again before the winner is looked up. -/
theorem tournament_last_uniform {compare : K → K → Bool} (hc : StrictWeak compare) (ht : t.Valid N) (hb : bvs.length = N)
    (hv : values.length = N) (hlast : N < t.stop + t.size) {i : ℕ} (hi : i < N) :
    (tournamentSelect compare bvs values t >>= fun r => (pure r.1 : Dist ℕ)) i = (N : ℝ≥0∞)⁻¹ := by
  obtain ⟨w, hw, e⟩ := select_last hc ht hb hv hlast
  rw [e, Dist.bind_assoc', ← last_uniform hw hi]
  congr 2
  funext s
  rw [Dist.pure_bind']

/-- C117: after the initialization, one selection in `N / k` ignores the values. -/
theorem tournament_periodic {compare : K → K → Bool} (hc : StrictWeak compare) (hb : bvs.length = N) (hv : values.length = N)
    (hp : t.perm.Perm (List.range N)) (h2 : 2 ≤ t.size) (hN : t.size ≤ N) {m : ℕ} (hm : (m + 1) % (N / t.size) = 0) {i : ℕ} (hi : i < N) :
    selected compare bvs values t m i = (N : ℝ≥0∞)⁻¹ := by
  have hR : 0 < N / t.size := Nat.div_pos hN (by omega)
  rw [selected_eq hc hb hv hp h2 hN]
  have hlast : m % (N / t.size) + 1 = N / t.size := by
    rcases rounds_cycle hR (m := m) rfl with ⟨_, h⟩ | ⟨h, _⟩
    · omega
    · exact h
  rw [Dist.bind_apply]
  have : ∀ s, permRandom N s * (tournamentSelect compare bvs values (roundState t.size (m % (N / t.size)) s) >>= fun r => (pure r.1 : Dist ℕ)) i =
      permRandom N s * (N : ℝ≥0∞)⁻¹ := by
    intro s
    by_cases hs : permRandom N s = 0
    · rw [hs, zero_mul, zero_mul]
    · rw [tournament_last_uniform hc (roundState_valid (permRandom_support hs) h2 (Nat.mod_lt _ hR)) hb hv
        (round_over (by omega) hlast) hi]
  rw [tsum_congr this, ENNReal.tsum_mul_right]
  change (permRandom N).total * _ = _
  rw [permRandom_total, one_mul]

/-- C117: if the tournaments are larger than half of the population, then selection is always uniform: there is no selection
pressure at all. -/
theorem tournament_no_pressure {compare : K → K → Bool} (hc : StrictWeak compare) (hb : bvs.length = N) (hv : values.length = N)
    (hp : t.perm.Perm (List.range N)) (h2 : 2 ≤ t.size) (hN : t.size ≤ N) (hlarge : N < 2 * t.size) (m : ℕ) {i : ℕ} (hi : i < N) :
    selected compare bvs values t m i = (N : ℝ≥0∞)⁻¹ := by
  refine tournament_periodic hc hb hv hp h2 hN ?_ hi
  have : N / t.size = 1 := by
    refine Nat.div_eq_of_lt_le (by omega) (by omega)
  rw [this, Nat.mod_one]

/-- C117: in all other rounds, an individual is selected with the probability that it wins a tournament between random
individuals. -/
theorem tournament_law [LinearOrder K] (hb : bvs.length = N) (hv : values.length = N)
    (hp : t.perm.Perm (List.range N)) (h2 : 2 ≤ t.size) (hN : t.size ≤ N) {m : ℕ} (hm : (m + 1) % (N / t.size) ≠ 0) {i : ℕ} {v : K}
    (hi : values[i]? = some v) :
    selected (fun a b => decide (b < a)) bvs values t m i = winProb values t.size v := by
  have hR : 0 < N / t.size := Nat.div_pos hN (by omega)
  rw [selected_eq strictWeak_greater hb hv hp h2 hN]
  have hmid : m % (N / t.size) + 1 < N / t.size := by
    rcases rounds_cycle hR (m := m) rfl with ⟨h, _⟩ | ⟨_, h⟩
    · exact h
    · exact absurd h hm
  have hiN : i < N := by
    obtain ⟨h, _⟩ := List.getElem?_eq_some_iff.mp hi
    omega
  have hval : ∀ j, j < N → values[j]? = some ((values[j]?).getD v) := by
    intro j hj
    rw [List.getElem?_eq_getElem (by omega), Option.getD_some]
  have hvi : v = (values[i]?).getD v := by rw [hi, Option.getD_some]
  have hfit := round_fits (by omega) hmid
  have hw := winner_law (val := fun j => (values[j]?).getD v) hv hval (k := t.size) (p := m % (N / t.size) * t.size) (by omega)
    (by rw [Nat.add_mul, one_mul] at hfit; omega) hiN
  rw [← hvi] at hw
  rw [← hw]
  congr 1
  refine Dist.bind_congr_support (fun s hs => ?_)
  obtain ⟨x, e⟩ := select_mid (bvs := bvs) (roundState_valid (permRandom_support hs) h2 (Nat.mod_lt m hR)) hb hval
    (by exact hfit)
  rw [e, Dist.pure_bind']
  rfl

/-- C117: the best individual, if there is only one, is selected in these rounds with probability `k / N`. -/
theorem tournament_best [LinearOrder K] (hb : bvs.length = N) (hv : values.length = N)
    (hp : t.perm.Perm (List.range N)) (h2 : 2 ≤ t.size) (hN : t.size ≤ N) {m : ℕ} (hm : (m + 1) % (N / t.size) ≠ 0) {i : ℕ} {v : K}
    (hi : values[i]? = some v) (hbest : ∀ u ∈ values, u ≤ v) (huniq : values.count v = 1) :
    selected (fun a b => decide (b < a)) bvs values t m i = (t.size : ℝ≥0∞) / (N : ℝ≥0∞) := by
  rw [tournament_law hb hv hp h2 hN hm hi]
  unfold winProb
  have h1 : values.countP (fun u => decide (u ≤ v)) = N := by
    rw [← hv]
    exact List.countP_eq_length.mpr (fun u hu => by simpa using hbest u hu)
  have h3 : values.countP (fun u => decide (u < v)) + values.count v = N := by
    rw [← hv, List.length_eq_countP_add_countP (fun u => decide (u < v)) (l := values), List.count]
    congr 1
    refine List.countP_congr (fun u hu => ?_)
    have := hbest u hu
    simp only [beq_iff_eq, decide_eq_true_eq, not_lt]
    constructor
    · rintro rfl
      exact le_refl _
    · intro h
      exact le_antisymm this h
  obtain ⟨n, rfl⟩ : ∃ n, N = n + 1 := ⟨N - 1, by omega⟩
  obtain ⟨k, hk⟩ : ∃ k, t.size = k + 1 := ⟨t.size - 1, by omega⟩
  have h4 : values.countP (fun u => decide (u < v)) = n := by omega
  rw [h1, h4, huniq, hv, hk, Nat.choose_succ_succ, Nat.add_sub_cancel, one_mul,
    ENNReal.div_eq_div_iff (by exact_mod_cast Nat.succ_ne_zero n) (ENNReal.natCast_ne_top _)
      (by exact_mod_cast (Nat.choose_pos (n := n + 1) (k := k + 1) (by omega)).ne') (ENNReal.natCast_ne_top _)]
  norm_cast
  have := Nat.add_one_mul_choose_eq n k
  rw [← Nat.choose_succ_succ]
  simp only [Nat.succ_eq_add_one] at *
  rw [this]

/-- C117: an individual with less than `k - 1` others which are not better is never selected in these rounds. -/
theorem tournament_worst [LinearOrder K] (hb : bvs.length = N) (hv : values.length = N)
    (hp : t.perm.Perm (List.range N)) (h2 : 2 ≤ t.size) (hN : t.size ≤ N) {m : ℕ} (hm : (m + 1) % (N / t.size) ≠ 0) {i : ℕ} {v : K}
    (hi : values[i]? = some v) (hworst : values.countP (fun u => decide (u ≤ v)) < t.size) :
    selected (fun a b => decide (b < a)) bvs values t m i = 0 := by
  rw [tournament_law hb hv hp h2 hN hm hi]
  unfold winProb
  rw [Nat.choose_eq_zero_of_lt hworst, Nat.zero_sub, Nat.cast_zero, ENNReal.zero_div]

/-- C117: in a whole pass of `N / k` selections, the expected number of selections of the best individual, if there is only one, is
`((N / k - 1) k + 1) / N`; if the winner of the last round were returned, it would be `(N / k) k / N`. -/
theorem tournament_pass [LinearOrder K] (hb : bvs.length = N) (hv : values.length = N)
    (hp : t.perm.Perm (List.range N)) (h2 : 2 ≤ t.size) (hN : t.size ≤ N) {i : ℕ} {v : K}
    (hi : values[i]? = some v) (hbest : ∀ u ∈ values, u ≤ v) (huniq : values.count v = 1) :
    ∑ m ∈ Finset.range (N / t.size), selected (fun a b => decide (b < a)) bvs values t m i =
      (((N / t.size - 1) * t.size + 1 : ℕ) : ℝ≥0∞) / (N : ℝ≥0∞) := by
  have hR : 0 < N / t.size := Nat.div_pos hN (by omega)
  have hiN : i < N := by
    obtain ⟨h, _⟩ := List.getElem?_eq_some_iff.mp hi
    omega
  obtain ⟨R, hR'⟩ : ∃ R, N / t.size = R + 1 := ⟨N / t.size - 1, by omega⟩
  rw [hR', Finset.sum_range_succ, Nat.add_sub_cancel,
    tournament_periodic strictWeak_greater hb hv hp h2 hN (m := R) (by rw [hR', Nat.mod_self]) hiN,
    Finset.sum_congr rfl (g := fun _ => (t.size : ℝ≥0∞) / (N : ℝ≥0∞)), Finset.sum_const, Finset.card_range, nsmul_eq_mul, Nat.cast_add,
    Nat.cast_mul, Nat.cast_one, ENNReal.add_div, one_div, mul_div_assoc]
  intro m hm
  rw [Finset.mem_range] at hm
  refine tournament_best hb hv hp h2 hN ?_ hi hbest huniq
  rw [hR', Nat.mod_eq_of_lt (by omega)]
  omega

theorem permShuffle_total {l : List ℕ} (h : l.Perm (List.range N)) : (permShuffle l).total = 1 := by
  rw [permShuffle_eq h, permRandom_total]

theorem permShuffle_given {l s : List ℕ} (h : permShuffle l s ≠ 0) : Sim.Reaches (Sim.shuffle l) s := by
  refine Sim.Reaches.shuffle ?_
  by_contra h'
  exact h (if_neg h')

theorem tournamentInit_given {t u : Tournament} (h : tournamentInit t u ≠ 0) : Sim.Reaches t.init u := by
  obtain ⟨s, hs, hu⟩ := bind_support h
  rw [pure_support hu]
  exact (permShuffle_given hs).bind (Sim.Reaches.pure _)

theorem tournamentSelect_given {compare : K → K → Bool} {r : ℕ × BV × Tournament} (h : tournamentSelect compare bvs values t r ≠ 0) :
    Sim.Reaches (t.select compare bvs values) r := by
  obtain ⟨_, ha, h⟩ := bind_support h
  obtain ⟨w, hw, h⟩ := bind_support h
  obtain ⟨u, hu, h⟩ := bind_support h
  obtain ⟨i, hi, h⟩ := bind_support h
  obtain ⟨x, hx, h⟩ := bind_support h
  rw [pure_support h]
  refine (Sim.Reaches.lift (lift_support ha)).bind ((Sim.Reaches.lift (lift_support hw)).bind (Sim.Reaches.bind (a := u) ?_
    ((Sim.Reaches.lift (lift_support hi)).bind ((Sim.Reaches.lift (lift_support hx)).bind (Sim.Reaches.pure _)))))
  unfold tournamentNext at hu
  unfold Tournament.next
  by_cases hlast : bvs.length < t.stop + t.size
  · rw [if_pos hlast] at hu ⊢
    exact tournamentInit_given hu
  · rw [if_neg hlast] at hu ⊢
    rw [pure_support hu]
    exact Sim.Reaches.pure _

theorem reaches_draws {α : Type} {m : Sim α} {a : α} (h : Sim.Reaches m a) : ∃ draws rest, m draws = .ok a rest := by
  obtain ⟨d, hd⟩ := h
  exact ⟨d ++ [], [], hd []⟩

/-- C117: these laws of tournaments are among those for which the genetic algorithm has been proved to find the maximum with
probability one. -/
theorem tournament_choices [LinearOrder K] {c : Choices K} (hc : c.Valid) : Choices.Valid { c with
    start := tournamentInit
    select := fun p t => tournamentSelect (fun a b => decide (b < a)) p.bvs p.values t } := by
  refine ⟨hc.sort, hc.comma, hc.plus, ?_, ?_⟩
  · intro t mu ht
    refine ⟨?_, fun u hu => reaches_draws (tournamentInit_given hu)⟩
    change (tournamentInit t).total = 1
    rw [tournamentInit_eq ht, Dist.total_bind]
    simp only [Dist.total_pure, mul_one]
    exact permRandom_total mu
  · intro parents t mu n hp ht
    refine ⟨?_, fun r hr => reaches_draws (tournamentSelect_given hr)⟩
    change (tournamentSelect _ parents.bvs parents.values t).total = 1
    by_cases hlast : mu < t.stop + t.size
    · obtain ⟨w, _, e⟩ := select_last strictWeak_greater ht hp.bvs hp.values hlast
      rw [e, Dist.total_bind]
      simp only [Dist.total_pure, mul_one]
      exact permRandom_total mu
    · obtain ⟨i, x, e⟩ := select_mid_any strictWeak_greater ht hp.bvs hp.values (by omega)
      rw [e, Dist.total_pure]

/-! ## Examples -/

/-- Four individuals in pairs: the best one is selected with probability one half at even selections, and with probability one
quarter at odd ones. -/
example (x y z u : BV) : selected (fun a b : ℤ => decide (b < a)) [x, y, z, u] [3, 8, 5, 5] ⟨[0, 1, 2, 3], 0, 0, 2⟩ 0 1 = 2 / 4 ∧
    selected (fun a b : ℤ => decide (b < a)) [x, y, z, u] [3, 8, 5, 5] ⟨[0, 1, 2, 3], 0, 0, 2⟩ 1 1 = 4⁻¹ ∧
    selected (fun a b : ℤ => decide (b < a)) [x, y, z, u] [3, 8, 5, 5] ⟨[0, 1, 2, 3], 0, 0, 2⟩ 0 0 = 0 := by
  refine ⟨?_, ?_, ?_⟩
  · have := tournament_best (K := ℤ) (N := 4) (bvs := [x, y, z, u]) (values := [3, 8, 5, 5]) (t := ⟨[0, 1, 2, 3], 0, 0, 2⟩) (m := 0) (i := 1)
      rfl rfl (by decide) (by decide) (by decide) (by decide) rfl (by decide) (by decide)
    simpa using this
  · have := tournament_periodic (K := ℤ) (N := 4) (bvs := [x, y, z, u]) (values := [3, 8, 5, 5]) (t := ⟨[0, 1, 2, 3], 0, 0, 2⟩) (m := 1)
      (i := 1) strictWeak_greater rfl rfl (by decide) (by decide) (by decide) (by decide) (by decide)
    simpa using this
  · exact tournament_worst (N := 4) (v := 3) rfl rfl (by decide) (by decide) (by decide) (by decide) rfl (by decide)

/-- Three individuals in pairs: the worst one is selected as often as the best one. -/
example (x y z : BV) (m : ℕ) : selected (fun a b : ℤ => decide (b < a)) [x, y, z] [3, 8, 5] ⟨[0, 1, 2], 0, 0, 2⟩ m 0 =
    selected (fun a b : ℤ => decide (b < a)) [x, y, z] [3, 8, 5] ⟨[0, 1, 2], 0, 0, 2⟩ m 1 := by
  rw [tournament_no_pressure (N := 3) strictWeak_greater rfl rfl (by decide) (by decide) (by decide) (by decide) m (by decide),
    tournament_no_pressure (N := 3) strictWeak_greater rfl rfl (by decide) (by decide) (by decide) (by decide) m (by decide)]

/-- Two individuals of the same value share the probability that one of them wins. -/
example : winProb [3, 8, 5, 5] 2 (5 : ℤ) = 3 / 12 := by
  unfold winProb
  rw [show ([3, 8, 5, 5] : List ℤ).countP (fun u => decide (u ≤ 5)) = 3 by decide,
    show ([3, 8, 5, 5] : List ℤ).countP (fun u => decide (u < 5)) = 1 by decide, show ([3, 8, 5, 5] : List ℤ).count 5 = 2 by decide,
    show ([3, 8, 5, 5] : List ℤ).length = 4 from rfl, show Nat.choose 3 2 = 3 by decide, show Nat.choose 1 2 = 0 by decide,
    show Nat.choose 4 2 = 6 by decide]
  norm_num

end Hnco.Prob
