import Verif.BitVector.Lemmas
import Verif.Function.Peaks
import Verif.Function.Spec
import Mathlib.Data.List.Chain
import Mathlib.Tactic.Linarith
import Mathlib.Tactic.Ring

/-!
# The long path function enumerates a path (C32)
-/

namespace Hnco

open Outcome

/-! ## Specification -/

/-- The two vectors have the same size and differ at exactly one position. -/
def Adjacent (x y : BV) : Prop :=
  x.length = y.length ∧ ∃ j : Nat, ∀ i : Nat, x[i]? ≠ y[i]? ↔ i = j

/-! ## Helper lemmas -/

theorem Adjacent.symm {x y : BV} (h : Adjacent x y) : Adjacent y x := by
  obtain ⟨hl, j, hj⟩ := h
  exact ⟨hl.symm, j, fun i => by rw [ne_comm]; exact hj i⟩

theorem Adjacent.append_left {x y : BV} (a : BV) (h : Adjacent x y) : Adjacent (a ++ x) (a ++ y) := by
  obtain ⟨hl, j, hj⟩ := h
  refine ⟨by simp [hl], a.length + j, fun i => ?_⟩
  by_cases hi : i < a.length
  · rw [List.getElem?_append_left hi, List.getElem?_append_left hi]
    simp; omega
  · rw [List.getElem?_append_right (by omega), List.getElem?_append_right (by omega), hj]
    omega

theorem Adjacent.append_right {x y : BV} (a : BV) (h : Adjacent x y) : Adjacent (x ++ a) (y ++ a) := by
  obtain ⟨hl, j, hj⟩ := h
  refine ⟨by simp [hl], j, fun i => ?_⟩
  have hjl : j < x.length := by
    by_contra hc
    have := (hj j).mpr rfl
    rw [List.getElem?_eq_none (by omega), List.getElem?_eq_none (by omega)] at this
    exact this rfl
  by_cases hi : i < x.length
  · rw [List.getElem?_append_left hi, List.getElem?_append_left (by omega), hj]
  · rw [List.getElem?_append_right (by omega), List.getElem?_append_right (by omega), hl]
    simp; omega

/-- The prefix of the bridge with `j` ones. -/
def bridgePre (k j : Nat) : BV := List.replicate (k - j) false ++ List.replicate j true

theorem bridgePre_length {k j : Nat} (h : j ≤ k) : (bridgePre k j).length = k := by
  simp [bridgePre]; omega

theorem bridgePre_get {k j : Nat} (h : j ≤ k) (i : Nat) (hi : i < k) :
    (bridgePre k j)[i]? = some (decide (k - j ≤ i)) := by
  unfold bridgePre
  by_cases hc : i < k - j
  · rw [List.getElem?_append_left (by simpa using hc)]
    simp [hc]
    omega
  · rw [List.getElem?_append_right (by simp; omega)]
    simp only [List.length_replicate, List.getElem?_replicate]
    rw [if_pos (by omega)]
    simp; omega

theorem bridgePre_adjacent {k j : Nat} (h : j < k) : Adjacent (bridgePre k j) (bridgePre k (j + 1)) := by
  refine ⟨by rw [bridgePre_length h.le, bridgePre_length h], k - j - 1, fun i => ?_⟩
  by_cases hi : i < k
  · rw [bridgePre_get h.le i hi, bridgePre_get h i hi]
    simp only [ne_eq, Option.some.injEq, decide_eq_decide]
    omega
  · rw [List.getElem?_eq_none (by rw [bridgePre_length h.le]; omega),
      List.getElem?_eq_none (by rw [bridgePre_length h]; omega)]
    simp; omega

/-- The long path of dimension `m * k`, with its last point. -/
def lpath (k : Nat) : Nat → List BV
  | 0 => [[]]
  | m + 1 =>
    (lpath k m).map (fun y => List.replicate k false ++ y) ++
      ((List.range (k - 1)).map (fun j => bridgePre k (j + 1) ++ (lpath k m).getLast?.getD []) ++
        (lpath k m).reverse.map (fun y => List.replicate k true ++ y))

theorem lpath_length (k m : Nat) (hk : 0 < k) : (lpath k m).length + (k - 1) = k * 2 ^ m := by
  induction m with
  | zero => simp [lpath]; omega
  | succ m ih =>
    simp only [lpath, List.length_append, List.length_map, List.length_range, List.length_reverse]
    rw [pow_succ, ← Nat.mul_assoc, ← ih]
    omega

theorem lpath_ne_nil (k m : Nat) : lpath k m ≠ [] := by
  induction m with
  | zero => simp [lpath]
  | succ m ih => simp [lpath, ih]

theorem lpath_getLast (k m : Nat) : ∃ z, (lpath k m).getLast? = some z ∧ z ∈ lpath k m ∧
    (lpath k m)[(lpath k m).length - 1]? = some z ∧ (lpath k m).getLast?.getD [] = z := by
  have h := lpath_ne_nil k m
  have hg := List.getLast?_eq_some_getLast h
  refine ⟨_, hg, List.getLast_mem h, ?_, by rw [hg]; rfl⟩
  rw [← List.getLast?_eq_getElem?]
  exact hg

theorem lpath_size (k m : Nat) : ∀ x ∈ lpath k m, x.length = m * k := by
  induction m with
  | zero => simp [lpath]
  | succ m ih =>
    intro x hx
    obtain ⟨z, _, hz, _, he⟩ := lpath_getLast k m
    simp only [lpath, List.mem_append, List.mem_map, List.mem_range, List.mem_reverse, he] at hx
    rcases hx with ⟨y, hy, rfl⟩ | ⟨j, hj, rfl⟩ | ⟨y, hy, rfl⟩
    · simp [ih y hy]; ring
    · rw [List.length_append, bridgePre_length (by omega), ih z hz]; ring
    · simp [ih y hy]; ring

theorem lpath_chain (k m : Nat) (hk : 2 ≤ k) : (lpath k m).IsChain Adjacent := by
  induction m with
  | zero => simp [lpath]
  | succ m ih =>
    obtain ⟨z, hz, hzm, _, he⟩ := lpath_getLast k m
    simp only [lpath, he]
    have hb0 : bridgePre k 0 = List.replicate k false := by simp [bridgePre]
    have hbk : bridgePre k k = List.replicate k true := by simp [bridgePre]
    rw [List.isChain_append, List.isChain_append]
    refine ⟨?_, ⟨?_, ?_, ?_⟩, ?_⟩
    · exact List.isChain_map_of_isChain _ (fun a b h => h.append_left _) ih
    · rw [List.isChain_iff_getElem]
      intro i hi
      simp only [List.length_map, List.length_range] at hi
      simp only [List.getElem_map, List.getElem_range]
      exact (bridgePre_adjacent (by omega)).append_right _
    · apply List.isChain_map_of_isChain (R := Adjacent) _ (fun a b h => h.append_left _)
      rw [List.isChain_reverse]
      exact ih.imp (fun a b h => h.symm)
    · intro x hx y hy
      rw [List.getLast?_eq_getElem?] at hx
      simp only [List.length_map, List.length_range, List.getElem?_map, Option.mem_def,
        List.getElem?_range (show k - 1 - 1 < k - 1 by omega), Option.map_some, Option.some.injEq] at hx
      simp only [List.head?_map, List.head?_reverse, hz, Option.map_some, Option.mem_def,
        Option.some.injEq] at hy
      subst hx hy
      rw [show k - 1 - 1 + 1 = k - 1 by omega, ← hbk]
      have := bridgePre_adjacent (show k - 1 < k by omega)
      rw [show k - 1 + 1 = k by omega] at this
      exact this.append_right _
    · intro x hx y hy
      simp only [List.getLast?_map, hz, Option.map_some, Option.mem_def, Option.some.injEq] at hx
      rw [List.head?_append] at hy
      have hr : ((List.range (k - 1)).map (fun j => bridgePre k (j + 1) ++ z)).head? =
          some (bridgePre k 1 ++ z) := by
        rw [List.head?_eq_getElem?]
        simp [List.getElem?_range (show 0 < k - 1 by omega)]
      rw [hr] at hy
      simp only [Option.some_or, Option.mem_def, Option.some.injEq] at hy
      subst hx hy
      rw [← hb0]
      exact (bridgePre_adjacent (show 0 < k by omega)).append_right _

/-! ### The recursion of `compute_index` -/

theorem all_false_pre (l : BV) (k : Nat) (h : l.length = k) :
    l.all (fun b => b == false) = true ↔ l = List.replicate k false := by
  rw [List.eq_replicate_iff]
  simp [h]

theorem all_true_pre (l : BV) (k : Nat) (h : l.length = k) :
    l.all (fun b => b == true) = true ↔ l = List.replicate k true := by
  rw [List.eq_replicate_iff]
  simp [h]

theorem dropWhile_bridge (a : Nat) (l : BV) (hl : ∀ b ∈ l.head?, b = true) :
    (List.replicate a false ++ l).dropWhile (fun b => b != true) = l := by
  induction a with
  | zero =>
    cases l with
    | nil => rfl
    | cons b l =>
      have : b = true := hl b (by simp)
      subst this
      rfl
  | succ a ih => simpa [List.replicate_succ] using ih

theorem findIdx_bridge (a : Nat) (l : BV) :
    (List.replicate a false ++ true :: l).findIdx (fun b => b == true) = a := by
  induction a with
  | zero => simp [List.findIdx_cons]
  | succ a ih =>
    rw [List.replicate_succ, List.cons_append, List.findIdx_cons]
    simpa using ih

theorem isBridge_iff (l : BV) (k : Nat) (hk : 0 < k) (h : l.length = k) :
    ∃ b, isBridge l = ok b ∧ (b = true ↔ ∃ j, 1 ≤ j ∧ j < k ∧ l = bridgePre k j) := by
  cases l with
  | nil => simp at h; omega
  | cons a l =>
    unfold isBridge
    cases a with
    | true =>
      refine ⟨false, rfl, ?_⟩
      simp only [Bool.false_eq_true, false_iff]
      rintro ⟨j, h1, h2, he⟩
      have := congrArg (fun l => l[0]?) he
      simp only [bridgePre_get h2.le 0 hk] at this
      simp at this
      omega
    | false =>
      simp only [bne_self_eq_false, Bool.false_eq_true, if_false]
      -- split the list into zeros and the rest
      obtain ⟨a, r, hr, hd⟩ : ∃ a r, false :: l = List.replicate a false ++ r ∧ ∀ b ∈ r.head?, b = true := by
        have : ∀ l : BV, ∃ a r, l = List.replicate a false ++ r ∧ ∀ b ∈ r.head?, b = true := by
          intro l
          induction l with
          | nil => exact ⟨0, [], by simp⟩
          | cons c l ih =>
            cases c with
            | true => exact ⟨0, true :: l, by simp⟩
            | false =>
              obtain ⟨a, r, h1, h2⟩ := ih
              exact ⟨a + 1, r, by rw [h1]; rfl, h2⟩
        exact this _
      rw [hr, dropWhile_bridge a r hd]
      have ha : 0 < a := by
        by_contra hc
        have : a = 0 := by omega
        subst this
        have := hd false (by rw [show r = false :: l by simpa using hr.symm]; rfl)
        cases this
      have hlen : a + r.length = k := by
        rw [← h, hr]; simp
      cases r with
      | nil =>
        refine ⟨false, rfl, ?_⟩
        simp only [Bool.false_eq_true, false_iff]
        rintro ⟨j, h1, h2, he⟩
        have := congrArg (fun l => l[k - 1]?) he
        simp only [bridgePre_get h2.le (k - 1) (by omega)] at this
        simp at hlen
        simp only [List.append_nil, List.getElem?_replicate] at this
        rw [if_pos (by omega)] at this
        simp at this
        omega
      | cons c r =>
        refine ⟨(c :: r).all (fun b => b == true), rfl, ?_⟩
        rw [all_true_pre (c :: r) (k - a) (by omega)]
        constructor
        · intro he
          refine ⟨k - a, ?_, by omega, ?_⟩
          · simp at hlen; omega
          · rw [he]
            unfold bridgePre
            rw [show k - (k - a) = a by omega]
        · rintro ⟨j, h1, h2, he⟩
          apply List.ext_getElem?
          intro i
          by_cases hi : i < k - a
          · have := congrArg (fun l => l[a + i]?) he
            simp only [bridgePre_get h2.le (a + i) (by omega)] at this
            rw [List.getElem?_append_right (by simp)] at this
            simp only [List.length_replicate, Nat.add_sub_cancel_left] at this
            have h0 := congrArg (fun l => l[a]?) he
            simp only [bridgePre_get h2.le a (by simp at hlen; omega)] at h0
            rw [List.getElem?_append_right (by simp)] at h0
            simp only [List.length_replicate, Nat.sub_self, List.getElem?_cons_zero, Option.some.injEq] at h0
            have hct : c = true := hd c (by simp)
            rw [hct] at h0
            have : k - j ≤ a := by simpa using h0.symm
            rename_i h5
            rw [h5, List.getElem?_replicate, if_pos hi]
            simp; omega
          · rw [List.getElem?_eq_none (by simp at hlen ⊢; omega), List.getElem?_eq_none (by simp; omega)]

/-- One unfolding of `compute_index`. -/
theorem computeIndex_succ (k m fuel : Nat) (hk : 2 ≤ k) (pre rest : BV) (hp : pre.length = k)
    (hr : rest.length = m * k) (v : Int) (hv : computeIndex k fuel rest = ok v) :
    (pre = List.replicate k false → computeIndex k (fuel + 1) (pre ++ rest) = ok v) ∧
    (∀ j, 1 ≤ j → j < k → pre = bridgePre k j → computeIndex k (fuel + 1) (pre ++ rest) =
      ok (if v = k * 2 ^ m - (k - 1) - 1 then (k : Int) * 2 ^ m - (k - 1) + j - 1 else -1)) ∧
    (pre = List.replicate k true → computeIndex k (fuel + 1) (pre ++ rest) =
      ok (if v < 0 then -1 else (k : Int) * 2 ^ m - (k - 1) + (k - 1) + (k * 2 ^ m - (k - 1) - 1) - v)) ∧
    (pre ≠ List.replicate k false → (∀ j, 1 ≤ j → j < k → pre ≠ bridgePre k j) →
      pre ≠ List.replicate k true → computeIndex k (fuel + 1) (pre ++ rest) = ok (-1)) := by
  have hne : pre ++ rest ≠ [] := by
    intro h
    have := congrArg List.length h
    rw [List.length_append, List.length_nil] at this
    omega
  have hlt : ¬ (pre ++ rest).length < k := by simp; omega
  have ht : (pre ++ rest).take k = pre := by rw [← hp]; simp
  have hd : (pre ++ rest).drop k = rest := by rw [← hp]; simp
  have hdiv : rest.length / k = m := by rw [hr]; exact Nat.mul_div_cancel m (by omega)
  have hkey : computeIndex k (fuel + 1) (pre ++ rest) =
      (if pre.all (fun b => b == false) then ok v
      else do
        let bridge ← isBridge pre
        if bridge then
          if v = k * 2 ^ m - (k - 1) - 1 then
            ok ((k : Int) * 2 ^ m - (k - 1) + (k - pre.findIdx (fun b => b == true)) - 1)
          else ok (-1)
        else if pre.all (fun b => b == true) then
          if v < 0 then ok (-1)
          else ok ((k : Int) * 2 ^ m - (k - 1) + (k - 1) + (k * 2 ^ m - (k - 1) - 1) - v)
        else ok (-1)) := by
    simp only [computeIndex, hne, hlt, if_false, ht, hd, hv, hdiv, ok_bind, Outcome.pure_eq]
  obtain ⟨b, hb, hbi⟩ := isBridge_iff pre k (by omega) hp
  have hz := all_false_pre pre k hp
  have ho := all_true_pre pre k hp
  have hbz : ∀ j, 1 ≤ j → j < k → bridgePre k j ≠ List.replicate k false := by
    intro j h1 h2 h
    have := congrArg (fun l => l[k - 1]?) h
    simp only [bridgePre_get h2.le (k - 1) (by omega)] at this
    simp [show 0 < k by omega] at this
    omega
  have hbo : ∀ j, 1 ≤ j → j < k → bridgePre k j ≠ List.replicate k true := by
    intro j h1 h2 h
    have := congrArg (fun l => l[0]?) h
    simp only [bridgePre_get h2.le 0 (by omega)] at this
    simp [show 0 < k by omega] at this
    omega
  rw [hkey, hb, ok_bind]
  refine ⟨?_, ?_, ?_, ?_⟩
  · intro h
    rw [if_pos (hz.mpr h)]
  · intro j h1 h2 h
    have : ¬ pre.all (fun b => b == false) = true := by
      rw [hz, h]; exact hbz j h1 h2
    rw [if_neg this, if_pos (hbi.mpr ⟨j, h1, h2, h⟩)]
    have hf : pre.findIdx (fun b => b == true) = k - j := by
      rw [h]
      unfold bridgePre
      obtain ⟨j', rfl⟩ : ∃ j', j = j' + 1 := ⟨j - 1, by omega⟩
      rw [List.replicate_succ, findIdx_bridge]
    rw [hf]
    have : ((k : Int) - ((k - j : Nat) : Int)) = j := by omega
    rw [this]
    split <;> rfl
  · intro h
    have h1 : ¬ pre.all (fun b => b == false) = true := by
      rw [hz, h]
      intro he
      have := congrArg (fun l => l[0]?) he
      simp [show 0 < k by omega] at this
    have h2 : ¬ b = true := by
      rw [hbi]
      rintro ⟨j, h3, h4, h5⟩
      exact hbo j h3 h4 (h5.symm.trans h)
    rw [if_neg h1, if_neg h2, if_pos (ho.mpr h)]
    split <;> rfl
  · intro h1 h2 h3
    have h4 : ¬ b = true := by
      rw [hbi]
      rintro ⟨j, h4, h5, h6⟩
      exact h2 j h4 h5 h6
    rw [if_neg (fun h => h1 (hz.mp h)), if_neg h4, if_neg (fun h => h3 (ho.mp h))]

/-- `compute_index` gives the position on the path, or -1. -/
theorem computeIndex_spec (k m fuel : Nat) (hk : 2 ≤ k) (hf : m < fuel) :
    (∀ (i : Nat) (x : BV), (lpath k m)[i]? = some x → computeIndex k fuel x = ok (i : Int)) ∧
    (∀ x : BV, x.length = m * k → x ∉ lpath k m → computeIndex k fuel x = ok (-1)) := by
  induction m generalizing fuel with
  | zero =>
    obtain ⟨fuel, rfl⟩ : ∃ f, fuel = f + 1 := ⟨fuel - 1, by omega⟩
    constructor
    · intro i x h
      cases i with
      | zero => simp [lpath] at h; subst h; simp [computeIndex]
      | succ i => simp [lpath] at h
    · intro x hx hm
      simp at hx
      subst hx
      simp [lpath] at hm
  | succ m ih =>
    obtain ⟨fuel, rfl⟩ : ∃ f, fuel = f + 1 := ⟨fuel - 1, by omega⟩
    obtain ⟨ihA, ihB⟩ := ih fuel (by omega)
    obtain ⟨z, hz, hzm, hzi, he⟩ := lpath_getLast k m
    have hL := lpath_length k m (by omega)
    have hLi : (k : Int) * 2 ^ m - (k - 1) = (lpath k m).length := by
      have : ((lpath k m).length : Int) + ((k - 1 : Nat) : Int) = k * 2 ^ m := by exact_mod_cast hL
      omega
    have hLpos : 0 < (lpath k m).length := List.length_pos_of_ne_nil (lpath_ne_nil k m)
    have hsz := lpath_size k m
    constructor
    · intro i x h
      simp only [lpath, he] at h
      by_cases h1 : i < (lpath k m).length
      · rw [List.getElem?_append_left (by simpa using h1), List.getElem?_map,
          List.getElem?_eq_getElem h1] at h
        simp only [Option.map_some, Option.some.injEq] at h
        subst h
        have hv := ihA i _ (List.getElem?_eq_getElem h1)
        exact (computeIndex_succ k m fuel hk _ _ (by simp) (hsz _ (List.getElem_mem h1)) _ hv).1 rfl
      · rw [List.getElem?_append_right (by simp; omega), List.length_map] at h
        by_cases h2 : i - (lpath k m).length < k - 1
        · rw [List.getElem?_append_left (by simpa using h2), List.getElem?_map,
            List.getElem?_range h2] at h
          simp only [Option.map_some, Option.some.injEq] at h
          subst h
          have hv := ihA _ _ hzi
          rw [(computeIndex_succ k m fuel hk _ _ (bridgePre_length (by omega)) (hsz _ hzm) _ hv).2.1
            (i - (lpath k m).length + 1) (by omega) (by omega) rfl]
          rw [hLi, if_pos (by omega)]
          congr 1
          omega
        · rw [List.getElem?_append_right (by simp; omega), List.length_map, List.length_range,
            List.getElem?_map] at h
          by_cases h3 : i - (lpath k m).length - (k - 1) < (lpath k m).length
          · rw [List.getElem?_reverse h3, List.getElem?_eq_getElem (by omega)] at h
            simp only [Option.map_some, Option.some.injEq] at h
            subst h
            have hlt : (lpath k m).length - 1 - (i - (lpath k m).length - (k - 1)) < (lpath k m).length := by
              omega
            have hv := ihA _ _ (List.getElem?_eq_getElem hlt)
            rw [(computeIndex_succ k m fuel hk _ _ (by simp) (hsz _ (List.getElem_mem hlt)) _ hv).2.2.1 rfl,
              hLi, if_neg (by omega)]
            congr 1
            omega
          · rw [List.getElem?_eq_none (by simp; omega)] at h
            simp at h
    · intro x hx hm
      simp only [lpath, he, List.mem_append, List.mem_map, List.mem_range, List.mem_reverse, not_or,
        not_exists, not_and] at hm
      obtain ⟨hm1, hm2, hm3⟩ := hm
      have hxe : x = x.take k ++ x.drop k := (List.take_append_drop k x).symm
      have hlp : (x.take k).length = k := by
        rw [List.length_take, hx, Nat.succ_mul]; omega
      have hlr : (x.drop k).length = m * k := by
        rw [List.length_drop, hx, Nat.succ_mul]; omega
      generalize x.take k = pre at hxe hlp
      generalize x.drop k = rest at hxe hlr
      subst hxe
      -- value on the rest
      have hrest : ∃ v, computeIndex k fuel rest = ok v ∧ ((rest ∉ lpath k m ∧ v = -1) ∨
          ∃ i : Nat, v = i ∧ (lpath k m)[i]? = some rest) := by
        by_cases hr : rest ∈ lpath k m
        · obtain ⟨i, hi, he⟩ := List.mem_iff_getElem.mp hr
          have hg : (lpath k m)[i]? = some rest := by rw [List.getElem?_eq_getElem hi, he]
          exact ⟨i, ihA i rest hg, Or.inr ⟨i, rfl, hg⟩⟩
        · exact ⟨-1, ihB rest hlr hr, Or.inl ⟨hr, rfl⟩⟩
      obtain ⟨v, hv, hcase⟩ := hrest
      obtain ⟨c1, c2, c3, c4⟩ := computeIndex_succ k m fuel hk pre rest hlp hlr v hv
      by_cases p1 : pre = List.replicate k false
      · rw [c1 p1]
        rcases hcase with ⟨_, rfl⟩ | ⟨i, rfl, hi⟩
        · rfl
        · exact absurd (by rw [p1]) (hm1 rest (List.mem_of_getElem? hi))
      · by_cases p2 : ∃ j, 1 ≤ j ∧ j < k ∧ pre = bridgePre k j
        · obtain ⟨j, j1, j2, j3⟩ := p2
          rw [c2 j j1 j2 j3, hLi]
          rw [if_neg]
          rcases hcase with ⟨_, rfl⟩ | ⟨i, rfl, hi⟩
          · omega
          · intro h
            have : i = (lpath k m).length - 1 := by omega
            subst this
            rw [hzi] at hi
            simp only [Option.some.injEq] at hi
            exact hm2 (j - 1) (by omega) (by rw [show j - 1 + 1 = j by omega, hi, j3])
        · by_cases p3 : pre = List.replicate k true
          · rw [c3 p3]
            rcases hcase with ⟨_, rfl⟩ | ⟨i, rfl, hi⟩
            · rfl
            · exact absurd (by rw [p3]) (hm3 rest (List.mem_of_getElem? hi))
          · exact c4 p1 (fun j j1 j2 j3 => p2 ⟨j, j1, j2, j3⟩) p3

/-! ## C32 -/

/-- C32: the constructor accepts exactly sizes that are a multiple of a prefix length at least 2. -/
theorem longPathNew_spec (n k : Nat) (hn : 0 < n) (hk : 0 < k) :
    (longPathNew n k = ok () ↔ k ∣ n ∧ 2 ≤ k) ∧
      (¬ (k ∣ n ∧ 2 ≤ k) → longPathNew n k = .throw .runtimeError) := by
  unfold longPathNew
  rw [assert_pos (by simpa using hn), ok_bind, assert_pos (by simpa using hk), ok_bind,
    Nat.dvd_iff_mod_eq_zero]
  by_cases h : n % k = 0
  · by_cases h2 : k < 2
    · simp [h, h2]
    · simp [h, h2]; omega
  · simp [h]

/-- C32: there is a path of `k 2 ^ (n / k) - k + 1` distinct points such that consecutive points differ at
exactly one position, the values along the path are 1, 2, 3, ..., and the value of any other vector is minus
`n` times the number of ones among its `k` first bits, minus the number of other ones. -/
theorem longPath_path (n k : Nat) (h : longPathNew n k = ok ()) :
    ∃ path : List BV, path.length + k = k * 2 ^ (n / k) + 1 ∧ path.Nodup ∧ (∀ x ∈ path, x.length = n) ∧
      (∀ (i : Nat) (x y : BV), path[i]? = some x → path[i + 1]? = some y → Adjacent x y) ∧
      (∀ (i : Nat) (x : BV), path[i]? = some x → (longPath n k).eval x = ok ((i : Int) + 1)) ∧
      (∀ x : BV, x.length = n → x ∉ path →
        (longPath n k).eval x = ok (-((n : Int) * (x.take k).count true + (x.drop k).count true))) := by
  obtain ⟨hk, m, hnm⟩ : 2 ≤ k ∧ ∃ m, n = m * k := by
    have hn : 0 < n := by
      by_contra hc
      rw [longPathNew, assert_neg (by simpa using hc)] at h
      cases h
    have hk : 0 < k := by
      by_contra hc
      rw [longPathNew, assert_pos (by simpa using hn), ok_bind, assert_neg (by simpa using hc)] at h
      cases h
    obtain ⟨⟨m, hm⟩, h2⟩ := (longPathNew_spec n k hn hk).1.mp h
    exact ⟨h2, m, by rw [hm, Nat.mul_comm]⟩
  have hdiv : n / k = m := by rw [hnm]; exact Nat.mul_div_cancel m (by omega)
  have hmn : m < n + 1 := by
    rw [hnm]
    exact Nat.lt_succ_of_le (Nat.le_mul_of_pos_right m (by omega))
  obtain ⟨hA, hB⟩ := computeIndex_spec k m (n + 1) hk hmn
  have hsz : ∀ x ∈ lpath k m, x.length = n := by rw [hnm]; exact lpath_size k m
  refine ⟨lpath k m, ?_, ?_, hsz, ?_, ?_, ?_⟩
  · rw [hdiv, ← lpath_length k m (by omega)]; omega
  · rw [List.Nodup, List.pairwise_iff_getElem]
    intro i j hi hj hij he
    have h1 := hA i _ (List.getElem?_eq_getElem hi)
    have h2 := hA j _ (List.getElem?_eq_getElem hj)
    rw [he, h2] at h1
    simp only [Outcome.ok.injEq] at h1
    omega
  · intro i x y hx hy
    have hc := List.isChain_iff_getElem.mp (lpath_chain k m hk) i
    have hi : i + 1 < (lpath k m).length := by
      by_contra hcon
      rw [List.getElem?_eq_none (by omega)] at hy
      cases hy
    have := hc hi
    rw [List.getElem?_eq_getElem hi] at hy
    rw [List.getElem?_eq_getElem (by omega)] at hx
    simp only [Option.some.injEq] at hx hy
    rwa [hx, hy] at this
  · intro i x hx
    have hl := hsz x (List.mem_of_getElem? hx)
    simp only [longPath, longPathEval, hl]
    rw [assert_pos (by simp), ok_bind, hA i x hx, ok_bind, if_neg (by omega)]
    rfl
  · intro x hx hm
    simp only [longPath, longPathEval, hx]
    have hkn : ¬ n < k := by
      have hn0 : 0 < n := by
        by_contra hc
        rw [longPathNew, assert_neg (by simpa using hc)] at h
        cases h
      rw [hnm] at hn0 ⊢
      have : 0 < m := Nat.pos_of_mul_pos_right hn0
      exact Nat.not_lt.mpr (Nat.le_mul_of_pos_left k this)
    rw [assert_pos (by simp), ok_bind, hB x (by rw [hx, hnm]) hm, ok_bind, if_pos (by omega), if_neg hkn,
      bvHammingWeight_eq, bvHammingWeight_eq]
    rfl

example : longPathNew 4 2 = ok () ∧
    ([[0,0,0,0], [0,0,0,1], [0,0,1,1], [0,1,1,1], [1,1,1,1], [1,1,0,1], [1,1,0,0]].map
      (fun x => (longPath 4 2).eval (x.map (fun b => b == 1)))) =
      [ok 1, ok 2, ok 3, ok 4, ok 5, ok 6, ok 7] ∧
    (longPath 4 2).eval [true, false, true, true] = ok (-6) := by decide

/-- C32: when the function declares a maximum, it is the maximum of the function, and exactly one vector
reaches it. -/
theorem longPath_maximum (n k : Nat) (h : longPathNew n k = ok ()) (hmax : k * 2 ^ (n / k) ≤ 2 ^ 53) :
    DeclaresMaximum (longPath n k) ∧
      ∃ (m : Int) (z : BV), (longPath n k).maximum = ok m ∧
        ∀ x : BV, x.length = n → ((longPath n k).eval x = ok m ↔ x = z) := by
  obtain ⟨path, h1, h2, h3, _, h5, h6⟩ := longPath_path n k h
  have hpos : 0 < path.length := by
    have hk : 0 < k := by
      by_contra hc
      by_cases hn : 0 < n
      · rw [longPathNew, assert_pos (by simpa using hn), ok_bind, assert_neg (by simpa using hc)] at h
        cases h
      · rw [longPathNew, assert_neg (by simpa using hn)] at h
        cases h
    have : k ≤ k * 2 ^ (n / k) := Nat.le_mul_of_pos_right k (by positivity)
    omega
  have hm : (longPath n k).maximum = ok (path.length : Int) := by
    simp only [longPath]
    rw [if_pos hmax]
    congr 1
    have : (path.length : Int) + k = k * 2 ^ (n / k) + 1 := by exact_mod_cast h1
    omega
  have hz : path[path.length - 1]? = some (path[path.length - 1]'(by omega)) :=
    List.getElem?_eq_getElem (by omega)
  have hzv := h5 _ _ hz
  rw [show ((path.length - 1 : Nat) : Int) + 1 = path.length by omega] at hzv
  have hbound : ∀ x : BV, x.length = n → ∃ v, (longPath n k).eval x = ok v ∧ v ≤ path.length ∧
      (v = path.length → x = path[path.length - 1]'(by omega)) := by
    intro x hx
    by_cases hxp : x ∈ path
    · obtain ⟨i, hi, he⟩ := List.mem_iff_getElem.mp hxp
      refine ⟨_, h5 i x (by rw [List.getElem?_eq_getElem hi, he]), by omega, ?_⟩
      intro hv
      have : i = path.length - 1 := by omega
      subst this
      exact he.symm
    · refine ⟨_, h6 x hx hxp, ?_, ?_⟩
      · have : (0 : Int) ≤ (n : Int) * ((x.take k).count true : Nat) := by positivity
        omega
      · intro hv
        have : (0 : Int) ≤ (n : Int) * ((x.take k).count true : Nat) := by positivity
        omega
  refine ⟨⟨decide_eq_true hmax, path.length, hm, ?_, _, h3 _ (List.mem_of_getElem? hz), hzv⟩,
    path.length, _, hm, fun x hx => ⟨fun hv => ?_, fun e => by rw [e]; exact hzv⟩⟩
  · intro x hx
    obtain ⟨v, a1, a2, _⟩ := hbound x hx
    exact ⟨v, a1, a2⟩
  · obtain ⟨v, a1, _, a3⟩ := hbound x hx
    rw [hv] at a1
    cases a1
    exact a3 rfl

example : longPathNew 12 3 = ok () ∧ 3 * 2 ^ (12 / 3) ≤ 2 ^ 53 := by decide

end Hnco
