import Verif.Prob.TournamentLemmas
import Mathlib.Logic.Equiv.Basic

/-!
# How many permutations make an individual win a tournament
-/

namespace Hnco.Prob

open Outcome
open scoped ENNReal

variable {K : Type} [LinearOrder K] {val : ℕ → K} {k p N : ℕ}

theorem winner_slice {s : List ℕ} (hk : 0 < k) (hs : p + k ≤ s.length) : ∃ b r, (s.drop p).take k = b :: r ∧ winner val k p s = fight val b r := by
  unfold winner
  cases h : (s.drop p).take k with
  | nil =>
    have := congrArg List.length h
    simp only [List.length_take, List.length_drop, List.length_nil] at this
    omega
  | cons b r => exact ⟨b, r, rfl, rfl⟩

theorem winner_mem {s : List ℕ} (hk : 0 < k) (hs : p + k ≤ s.length) : winner val k p s ∈ (s.drop p).take k := by
  obtain ⟨b, r, h1, h2⟩ := winner_slice (val := val) hk hs
  rw [h1, h2]
  exact fight_mem val r b

theorem winner_ge {s : List ℕ} (hk : 0 < k) (hs : p + k ≤ s.length) {x : ℕ} (hx : x ∈ (s.drop p).take k) : val x ≤ val (winner val k p s) := by
  obtain ⟨b, r, h1, h2⟩ := winner_slice (val := val) hk hs
  rw [h1] at hx
  rw [h2]
  exact fight_ge val r b x hx

theorem winner_map {s : List ℕ} (hk : 0 < k) (hs : p + k ≤ s.length) {π : ℕ → ℕ} (h : ∀ i, val (π i) = val i) :
    winner val k p (s.map π) = π (winner val k p s) := by
  obtain ⟨b, r, h1, h2⟩ := winner_slice (val := val) hk hs
  obtain ⟨b', r', h3, h4⟩ := winner_slice (val := val) (s := s.map π) hk (by rw [List.length_map]; exact hs)
  rw [← List.map_drop, ← List.map_take, h1, List.map_cons] at h3
  cases h3
  rw [h4, h2, fight_map h]

theorem range_map_swap {i j : ℕ} (hi : i < N) (hj : j < N) : ((List.range N).map (Equiv.swap i j)).Perm (List.range N) := by
  refine (List.perm_ext_iff_of_nodup (List.nodup_range.map (Equiv.swap i j).injective) List.nodup_range).mpr (fun x => ?_)
  rw [List.mem_map]
  constructor
  · rintro ⟨y, hy, rfl⟩
    rw [List.mem_range] at hy ⊢
    rw [Equiv.swap_apply_def]
    split
    · exact hj
    · split
      · exact hi
      · exact hy
  · intro hx
    refine ⟨Equiv.swap i j x, ?_, Equiv.swap_apply_self i j x⟩
    rw [List.mem_range] at hx ⊢
    rw [Equiv.swap_apply_def]
    split
    · exact hj
    · split
      · exact hi
      · exact hx

theorem card_winner_swap (hk : 0 < k) (hp : p + k ≤ N) {i j : ℕ} (hi : i < N) (hj : j < N) (h : val i = val j) :
    ((permsOf (List.range N)).filter (fun s => winner val k p s = i)).card =
      ((permsOf (List.range N)).filter (fun s => winner val k p s = j)).card := by
  have hval : ∀ x, val (Equiv.swap i j x) = val x := by
    intro x
    rw [Equiv.swap_apply_def]
    split
    · next hx => rw [hx, h]
    · split
      · next hx => rw [hx, h]
      · rfl
  refine Finset.card_bij (fun s _ => s.map (Equiv.swap i j)) ?_ ?_ ?_
  · intro s hs
    rw [Finset.mem_filter, mem_permsOf] at hs ⊢
    have hlen : s.length = N := by simpa using hs.1.length_eq
    refine ⟨(hs.1.map _).trans (range_map_swap hi hj), ?_⟩
    rw [winner_map hk (by omega) hval, hs.2, Equiv.swap_apply_left]
  · intro s _ t _ he
    exact (List.map_injective_iff.mpr (Equiv.swap i j).injective) he
  · intro s hs
    rw [Finset.mem_filter, mem_permsOf] at hs
    have hlen : s.length = N := by simpa using hs.1.length_eq
    refine ⟨s.map (Equiv.swap i j), ?_, ?_⟩
    · rw [Finset.mem_filter, mem_permsOf]
      refine ⟨(hs.1.map _).trans (range_map_swap hi hj), ?_⟩
      rw [winner_map hk (by omega) hval, hs.2, Equiv.swap_apply_right]
    · rw [List.map_map]
      convert List.map_id s
      funext x
      exact Equiv.swap_apply_self i j x

/-- The number of permutations which make an individual win, times the number of individuals of its value. -/
theorem card_winner (hk : 0 < k) (hp : p + k ≤ N) {i : ℕ} (hi : i < N) :
    ((Finset.range N).filter (fun j => val j = val i)).card * ((permsOf (List.range N)).filter (fun s => winner val k p s = i)).card =
      (((Finset.range N).filter (fun j => val j ≤ val i)).card.descFactorial k -
        ((Finset.range N).filter (fun j => val j < val i)).card.descFactorial k) * (N - k).factorial := by
  have h1 : ((Finset.range N).filter (fun j => val j = val i)).card * ((permsOf (List.range N)).filter (fun s => winner val k p s = i)).card =
      ((permsOf (List.range N)).filter (fun s => val (winner val k p s) = val i)).card := by
    have hset : (permsOf (List.range N)).filter (fun s => val (winner val k p s) = val i) =
        ((Finset.range N).filter (fun j => val j = val i)).biUnion (fun j => (permsOf (List.range N)).filter (fun s => winner val k p s = j)) := by
      ext s
      simp only [Finset.mem_filter, Finset.mem_biUnion, mem_permsOf, Finset.mem_range]
      constructor
      · rintro ⟨hs, hw⟩
        have hlen : s.length = N := by simpa using hs.length_eq
        refine ⟨winner val k p s, ⟨?_, hw⟩, hs, rfl⟩
        have := List.mem_of_mem_drop (List.mem_of_mem_take (winner_mem (val := val) (s := s) (p := p) hk (by omega)))
        simpa using hs.mem_iff.mp this
      · rintro ⟨j, ⟨_, hj⟩, hs, rfl⟩
        exact ⟨hs, hj⟩
    rw [hset, Finset.card_biUnion]
    · rw [Finset.sum_congr rfl (g := fun _ => ((permsOf (List.range N)).filter (fun s => winner val k p s = i)).card), Finset.sum_const,
        smul_eq_mul]
      intro j hj
      rw [Finset.mem_filter, Finset.mem_range] at hj
      exact card_winner_swap hk hp hj.1 hi hj.2
    · intro a _ b _ hab
      rw [Function.onFun, Finset.disjoint_left]
      intro s hs ht
      rw [Finset.mem_filter] at hs ht
      exact hab (hs.2.symm.trans ht.2)
  have h2 := card_slice ((Finset.range N).filter (fun j => val j ≤ val i)) hp (Finset.filter_subset _ _)
  have h3 := card_slice ((Finset.range N).filter (fun j => val j < val i)) hp (Finset.filter_subset _ _)
  have h4 : (permsOf (List.range N)).filter (fun s => val (winner val k p s) = val i) =
      ((permsOf (List.range N)).filter (fun s => ∀ x ∈ (s.drop p).take k, x ∈ (Finset.range N).filter (fun j => val j ≤ val i))) \
        ((permsOf (List.range N)).filter (fun s => ∀ x ∈ (s.drop p).take k, x ∈ (Finset.range N).filter (fun j => val j < val i))) := by
    ext s
    simp only [Finset.mem_sdiff, Finset.mem_filter, mem_permsOf, Finset.mem_range]
    constructor
    · rintro ⟨hs, hw⟩
      have hlen : s.length = N := by simpa using hs.length_eq
      refine ⟨⟨hs, fun x hx => ⟨?_, ?_⟩⟩, ?_⟩
      · simpa using hs.mem_iff.mp (List.mem_of_mem_drop (List.mem_of_mem_take hx))
      · rw [← hw]
        exact winner_ge hk (by omega) hx
      · rintro ⟨_, h⟩
        have := (h _ (winner_mem (val := val) (s := s) (p := p) hk (by omega))).2
        rw [hw] at this
        exact lt_irrefl _ this
    · rintro ⟨⟨hs, h⟩, hn⟩
      have hlen : s.length = N := by simpa using hs.length_eq
      refine ⟨hs, le_antisymm (h _ (winner_mem hk (by omega))).2 ?_⟩
      by_contra hlt
      refine hn ⟨hs, fun x hx => ⟨(h x hx).1, ?_⟩⟩
      exact lt_of_le_of_lt (winner_ge hk (by omega) hx) (not_le.mp hlt)
  rw [h1, h4, Finset.card_sdiff_of_subset, h2, h3, Nat.sub_mul]
  intro s hs
  rw [Finset.mem_filter] at hs ⊢
  refine ⟨hs.1, fun x hx => ?_⟩
  have := hs.2 x hx
  rw [Finset.mem_filter] at this ⊢
  exact ⟨this.1, le_of_lt this.2⟩

omit [LinearOrder K] in
/-- Counting values of a population. -/
theorem countP_range {values : List K} (hv : values.length = N) (hval : ∀ i, i < N → values[i]? = some (val i)) (q : K → Bool) :
    values.countP q = ((Finset.range N).filter (fun j => q (val j) = true)).card := by
  have h : values = (List.range N).map val := by
    apply List.ext_getElem?
    intro i
    by_cases hi : i < N
    · rw [hval i hi, List.getElem?_map, List.getElem?_range hi]
      rfl
    · rw [List.getElem?_eq_none (by omega), List.getElem?_eq_none (by simp; omega)]
  rw [h, List.countP_map, List.countP_eq_length_filter, ← List.toFinset_card_of_nodup (List.nodup_range.filter _), List.toFinset_filter,
    List.toFinset_range]
  rfl

/-- The law of the winner of a round. -/
theorem winner_law {values : List K} (hv : values.length = N) (hval : ∀ i, i < N → values[i]? = some (val i)) (hk : 0 < k) (hp : p + k ≤ N)
    {i : ℕ} (hi : i < N) :
    (permRandom N >>= fun s => (pure (winner val k p s) : Dist ℕ)) i = winProb values k (val i) := by
  have hc := card_winner (val := val) hk hp hi
  rw [permRandom_map]
  unfold winProb
  rw [countP_range hv hval, countP_range hv hval, List.count, countP_range hv hval, hv]
  simp only [decide_eq_true_eq, beq_iff_eq]
  have hE : 0 < ((Finset.range N).filter (fun j => val j = val i)).card := by
    refine Finset.card_pos.mpr ⟨i, ?_⟩
    rw [Finset.mem_filter, Finset.mem_range]
    exact ⟨hi, rfl⟩
  have hC : 0 < N.choose k := Nat.choose_pos (by omega)
  have hN := Nat.choose_mul_factorial_mul_factorial (show k ≤ N by omega)
  rw [Nat.descFactorial_eq_factorial_mul_choose, Nat.descFactorial_eq_factorial_mul_choose, ← Nat.mul_sub] at hc
  rw [ENNReal.div_eq_div_iff (by exact_mod_cast (Nat.mul_pos hE hC).ne') (ENNReal.natCast_ne_top _)
    (by exact_mod_cast N.factorial_ne_zero) (ENNReal.natCast_ne_top _)]
  norm_cast
  rw [← hN]
  set a := ((Finset.range N).filter (fun j => val j ≤ val i)).card.choose k - ((Finset.range N).filter (fun j => val j < val i)).card.choose k
  set e := ((Finset.range N).filter (fun j => val j = val i)).card
  set c := ((permsOf (List.range N)).filter (fun s => winner val k p s = i)).card
  calc _ = N.choose k * (e * c) := by ring
    _ = N.choose k * (k.factorial * a * (N - k).factorial) := by rw [hc]
    _ = _ := by ring

end Hnco.Prob
