import Verif.App.Information
import Verif.App.ApplicationProps
import Verif.App.FactorySpec
import Verif.Function.WalshProps
import Mathlib.Algebra.Order.Field.Rat

/-!
# Information printed by the application (C93)
-/

namespace Hnco

open Outcome

variable {K : Type}

/-! ## Specification -/

/-- The Walsh spectrum of a function: for each feature which is not empty, its weight and the magnitude of its coefficient relative
to the largest one, by decreasing magnitudes, except for the negligible ones. -/
def WalshReport [Field K] [LinearOrder K] (n : Nat) (g : BV → K) (lines : List (Nat × K)) : Prop :=
  ∃ top : BV, top.length = n ∧ true ∈ top ∧ walshCoefficient n g top ≠ 0 ∧
    (∀ u : BV, u.length = n → true ∈ u → |walshCoefficient n g u| ≤ |walshCoefficient n g top|) ∧
    lines.Pairwise (fun a b => b.2 ≤ a.2) ∧
    lines.Perm (((allBV n).filter (fun u => true ∈ u ∧ 1 / 10 ^ 10 < |walshCoefficient n g u| / |walshCoefficient n g top|)).map
      (fun u => (u.count true, |walshCoefficient n g u| / |walshCoefficient n g top|)))

/-! ## Vectors -/

/-- The vectors evaluated by the fast Walsh transform. -/
def walshOrder (n : Nat) : List BV := (allBV (n - 1)).flatMap (fun v => [false :: v, true :: v])

theorem appWalshVectors_eq {n : Nat} (hn : 0 < n) : appWalshVectors n = ok (walshOrder n) := by
  unfold appWalshVectors
  rw [if_neg (by omega)]
  have key : ∀ (l : List BV) (acc : List BV), (∀ v ∈ l, v.length = n - 1) →
      forEach l (fun v acc => do
        let x ← copyBack v (List.replicate n false)
        let x0 ← vset x 0 false
        let x1 ← vset x 0 true
        ok (acc ++ [x0, x1])) acc = ok (acc ++ l.flatMap (fun v => [false :: v, true :: v])) := by
    intro l
    induction l with
    | nil => intro acc _; simp [forEach]
    | cons v l ih =>
      intro acc hl
      have hv := hl v (by simp)
      obtain ⟨k, rfl⟩ : ∃ k, n = k + 1 := ⟨n - 1, by omega⟩
      have hcopy : copyBack v (List.replicate (k + 1) false) = ok (false :: v) := by
        unfold copyBack
        rw [if_pos (by simp; omega)]
        congr 1
        rw [List.length_replicate, hv, List.take_replicate]
        simp
      rw [forEach]
      simp only [hcopy, ok_bind]
      rw [vset_eq (by simp), ok_bind, vset_eq (by simp), ok_bind, ok_bind, ih _ (fun w hw => hl w (by simp [hw]))]
      simp
  obtain ⟨it, h⟩ := extHypercube_loop (n - 1) [] _ (key (allBV (n - 1)) [] (fun v hv => length_of_mem_allBV hv))
  rw [h, ok_bind]
  simp [walshOrder]

theorem walshOrder_mem {n : Nat} (hn : 0 < n) {x : BV} : x ∈ walshOrder n ↔ x.length = n := by
  unfold walshOrder
  simp only [List.mem_flatMap, mem_allBV, List.mem_cons, List.not_mem_nil, or_false]
  constructor
  · rintro ⟨v, hv, rfl | rfl⟩ <;> simp <;> omega
  · intro hx
    cases x with
    | nil => simp at hx; omega
    | cons b v =>
      refine ⟨v, by simp at hx; omega, ?_⟩
      cases b <;> simp

theorem walshOrder_nodup (n : Nat) : (walshOrder n).Nodup := by
  unfold walshOrder
  rw [List.nodup_flatMap]
  refine ⟨fun v _ => by simp, ?_⟩
  refine (allBV_nodup (n - 1)).imp ?_
  intro a b hab
  simp only [Function.onFun, List.disjoint_cons_left, List.disjoint_nil_left, and_true]
  simp [Ne.symm hab, hab]

theorem walshOrder_length {n : Nat} (hn : 0 < n) : (walshOrder n).length = 2 ^ n := by
  have : (walshOrder n).Perm (allBV n) := by
    rw [List.perm_ext_iff_of_nodup (walshOrder_nodup n) (allBV_nodup n)]
    intro x
    rw [walshOrder_mem hn, mem_allBV]
  rw [this.length_eq, allBV_length]

/-! ## Evaluations -/

theorem evaluateAll_ok [LinearOrder K] {st : FnStack K} {n : Nat} {g : BV → K} {seen : List BV → List BV}
    {stop : List BV → BV → Option Exn} (hst : st.Good n g seen stop) {xs : List BV} (hn : ∀ x ∈ xs, x.length = n)
    (hs : ∀ pre x post, xs = pre ++ x :: post → stop pre x = none) :
    st.evaluateAll xs st.init = ok (xs.map (fun x => (x, g x))) := by
  obtain ⟨R, h0, -, hR⟩ := hst
  have key : ∀ (rest done : List BV) (s : st.σ), xs = done ++ rest → R done s →
      st.evaluateAll rest s = ok (rest.map (fun x => (x, g x))) := by
    intro rest
    induction rest with
    | nil => intro _ _ _ _; rfl
    | cons x rest ih =>
      intro done s hx hd
      have := hR done s x hd (hn x (by rw [hx]; simp))
      rw [hs done x rest hx] at this
      obtain ⟨s', h1, h2⟩ := this
      simp only [FnStack.evaluateAll, h1, ih (done ++ [x]) s' (by rw [hx]; simp) h2, ok_bind, List.map_cons]
  exact key xs [] st.init rfl h0

theorem evaluateAll_throw [LinearOrder K] {st : FnStack K} {n : Nat} {g : BV → K} {seen : List BV → List BV}
    {stop : List BV → BV → Option Exn} (hst : st.Good n g seen stop) {xs : List BV} (hn : ∀ x ∈ xs, x.length = n)
    {first : List BV} {y : BV} {after : List BV} {e : Exn} (hx : xs = first ++ y :: after)
    (hs : ∀ pre x post, first = pre ++ x :: post → stop pre x = none) (hy : stop first y = some e) :
    st.evaluateAll xs st.init = Outcome.throw e := by
  obtain ⟨R, h0, -, hR⟩ := hst
  have key : ∀ (rest done : List BV) (s : st.σ), first = done ++ rest → R done s →
      st.evaluateAll (rest ++ y :: after) s = Outcome.throw e := by
    intro rest
    induction rest with
    | nil =>
      intro done s hd hr
      rw [List.append_nil] at hd
      have := hR done s y hr (hn y (by rw [hx]; simp))
      rw [← hd, hy] at this
      obtain ⟨s', h1, -⟩ := this
      simp only [List.nil_append, FnStack.evaluateAll, h1]
    | cons x rest ih =>
      intro done s hd hr
      have := hR done s x hr (hn x (by rw [hx, hd]; simp))
      rw [hs done x rest hd] at this
      obtain ⟨s', h1, h2⟩ := this
      simp only [List.cons_append, FnStack.evaluateAll, h1, ih (done ++ [x]) s' (by rw [hd]; simp) h2]
      rfl
  rw [hx]
  exact key first [] st.init rfl h0

/-- Distinct vectors use the budget in the same way with and without a cache. -/
theorem appExhausted_nodup {o : AppOptions K} {h : List BV} {x : BV} (hnd : (h ++ [x]).Nodup) :
    appExhausted o h x ↔ o.budget > 0 ∧ (h.length : Int) = o.budget := by
  have h1 : firsts h = h := by
    unfold firsts
    rw [List.dedup_eq_self.mpr (by rw [List.nodup_reverse]; exact (List.nodup_append.mp hnd).1), List.reverse_reverse]
  have h2 : x ∉ h := by
    intro hx
    exact (List.nodup_append.mp hnd).2.2 x hx x (by simp) rfl
  unfold appExhausted
  rw [h1]
  simp [h2]

theorem lookup_map {g : BV → K} {x : BV} : ∀ {l : List BV}, x ∈ l → (l.map (fun x => (x, g x))).lookup x = some (g x)
  | [], h => by simp at h
  | y :: l, h => by
    rw [List.map_cons, List.lookup_cons]
    by_cases hxy : x = y
    · subst hxy; simp
    · have : (x == y) = false := by simpa using hxy
      rw [this]
      exact lookup_map (by simpa [hxy] using h)

section
variable [Field K] [LinearOrder K] [IsStrictOrderedRing K] {fn : Fn K} {g : BV → K} {o : AppOptions K} {v : K} {st : FnStack K}

omit [IsStrictOrderedRing K] in
theorem appWalshTerms_ok (hn : 0 < fn.size) (hn' : fn.size < 31) (hf : ∀ x, x.length = fn.size → fn.eval x = ok (g x))
    (hst : makeController o fn v = ok st) (hb : o.budget ≤ 0 ∨ 2 ^ fn.size ≤ o.budget)
    (ht : ∀ t, appGoal o fn = some t → ∀ x, x.length = fn.size → g x < t) :
    appWalshTerms st fn.size = ok (((allBV fn.size).filter (fun u => walshCoefficient fn.size g u ≠ 0)).map
      (fun u => { feature := u, coefficient := walshCoefficient fn.size g u })) := by
  have hall : ∀ x ∈ walshOrder fn.size, x.length = fn.size := fun x hx => (walshOrder_mem hn).mp hx
  have hev := evaluateAll_ok (makeController_good hf hst) hall (by
    intro pre x post hx
    have hnd := walshOrder_nodup fn.size
    rw [hx, show pre ++ x :: post = (pre ++ [x]) ++ post by simp] at hnd
    have hlen := walshOrder_length hn
    rw [hx] at hlen
    simp only [List.length_append, List.length_cons] at hlen
    have hne : ¬ appExhausted o pre x := by
      rw [appExhausted_nodup (List.nodup_append.mp hnd).1]
      rintro ⟨h1, h2⟩
      rcases hb with hb | hb
      · omega
      · have : (pre.length : Int) < 2 ^ fn.size := by exact_mod_cast (by omega : pre.length < 2 ^ fn.size)
        omega
    unfold appStop
    rw [if_neg hne]
    cases hg : appGoal o fn with
    | none => rfl
    | some t =>
      dsimp only
      rw [if_neg (not_le.mpr (ht t hg x (hall x (by rw [hx]; simp))))])
  unfold appWalshTerms
  rw [appWalshVectors_eq hn, ok_bind, hev, ok_bind]
  have hfn : ∀ x : BV, x.length = fn.size → (tableFn fn.size ((walshOrder fn.size).map (fun x => (x, g x)))).eval x = ok (g x) := by
    intro x hx
    simp only [tableFn, Fn.ofEval]
    rw [lookup_map ((walshOrder_mem hn).mpr hx)]
  unfold computeFastWalshTransform
  rw [fastWalshCoefficients_eq (tableFn fn.size ((walshOrder fn.size).map (fun x => (x, g x)))) g hn hn' hfn, ok_bind]
  exact walshTerms_table _ hn' _

/-! ## Coefficients -/

omit [Field K] [LinearOrder K] [IsStrictOrderedRing K] in
theorem walshSign_empty {L : Type} [CommRing L] (x u : BV) (hu : true ∉ u) : walshSign L x u = 1 := by
  unfold walshSign
  have : (List.zipWith (fun a b => a && b) x u).count true = 0 := by
    rw [List.count_eq_zero]
    intro h
    induction x generalizing u with
    | nil => simp at h
    | cons a x ih =>
      cases u with
      | nil => simp at h
      | cons b u =>
        simp only [List.mem_cons, not_or] at hu
        simp only [List.zipWith_cons_cons, List.mem_cons] at h
        rcases h with h | h
        · have : b = false := by
            cases b with
            | false => rfl
            | true => exact absurd rfl hu.1
          simp [this] at h
        · exact ih u hu.2 h
  rw [this, pow_zero]

/-- A function which is not constant has a coefficient which is not zero, besides that of the empty feature. -/
theorem walsh_nonconstant {n : Nat} {g : BV → K} (h : ∃ x y : BV, x.length = n ∧ y.length = n ∧ g x ≠ g y) :
    ∃ u : BV, u.length = n ∧ true ∈ u ∧ walshCoefficient n g u ≠ 0 := by
  by_contra hno
  push_neg at hno
  obtain ⟨x, y, hx, hy, hne⟩ := h
  have h1 := walsh_inversion n g x hx
  have h2 := walsh_inversion n g y hy
  have : (allBV n).map (fun u => walshSign K x u * walshCoefficient n g u) =
      (allBV n).map (fun u => walshSign K y u * walshCoefficient n g u) := by
    apply List.map_congr_left
    intro u hu
    by_cases hm : true ∈ u
    · rw [hno u (mem_allBV.mp hu) hm, mul_zero, mul_zero]
    · rw [walshSign_empty x u hm, walshSign_empty y u hm]
  rw [this, h2] at h1
  exact hne (mul_left_cancel₀ (pow_ne_zero n two_ne_zero) h1).symm

omit [LinearOrder K] [IsStrictOrderedRing K] in
theorem walsh_one (n : Nat) : ∀ u : BV, u.length = n → true ∈ u → walshCoefficient n (fun _ => (1 : K)) u = 0 := by
  induction n with
  | zero =>
    intro u hu hm
    rw [List.eq_nil_of_length_eq_zero hu] at hm
    simp at hm
  | succ n ih =>
    intro u hu hm
    rcases List.eq_nil_or_concat u with h | ⟨w, b, h⟩
    · subst h; simp at hu
    · rw [List.concat_eq_append] at h
      subst h
      have hw : w.length = n := by simpa using hu
      unfold walshCoefficient at ih ⊢
      rw [sum_allBV_succ]
      have hstep : (allBV n).map (fun x => walshSign K (x ++ [false]) (w ++ [b]) * 1 + walshSign K (x ++ [true]) (w ++ [b]) * 1) =
          (allBV n).map (fun x => (if b then 0 else 2) * (walshSign K x w * 1)) := by
        apply List.map_congr_left
        intro x hx
        rw [walshSign_append _ _ _ _ (by rw [length_of_mem_allBV hx, hw]),
          walshSign_append _ _ _ _ (by rw [length_of_mem_allBV hx, hw])]
        cases b
        · simp [bitSign]; ring
        · simp [bitSign]
      rw [hstep, List.sum_map_mul_left]
      cases b
      · rw [ih w hw (by simpa using hm), mul_zero]
      · simp

omit [LinearOrder K] [IsStrictOrderedRing K] in
theorem walsh_constant {n : Nat} {g : BV → K} (h : ∀ x y : BV, x.length = n → y.length = n → g x = g y) {u : BV} (hu : u.length = n)
    (hm : true ∈ u) : walshCoefficient n g u = 0 := by
  have h1 := walsh_one (K := K) n u hu hm
  unfold walshCoefficient at h1 ⊢
  have : (allBV n).map (fun x => walshSign K x u * g x) = (allBV n).map (fun x => (walshSign K x u * 1) * g u) := by
    apply List.map_congr_left
    intro x hx
    rw [h x u (mem_allBV.mp hx) hu, mul_one]
  rw [this, List.sum_map_mul_right, h1, zero_mul]

/-! ## The report -/

omit [Field K] [LinearOrder K] [IsStrictOrderedRing K] in
theorem vbHammingWeight_eq_count (x : List Bool) : vbHammingWeight x = x.count true := by
  have : ∀ (x : List Bool) (a : Nat), x.foldl (fun acc b => if b then acc + 1 else acc) a = a + x.count true := by
    intro x
    induction x with
    | nil => intro a; simp
    | cons b x ih =>
      intro a
      rw [List.foldl_cons, ih]
      cases b <;> simp <;> omega
  simpa [vbHammingWeight] using this x 0

omit [IsStrictOrderedRing K] in
theorem filterMap_terms (c : BV → K) (norm : K) (l : List BV) :
    ((l.filter (fun u => c u ≠ 0)).map (fun u => (⟨u, |c u|⟩ : WalshTerm K))).filterMap (fun t =>
      if t.coefficient / norm > 1 / 10 ^ 10 ∧ vbHammingWeight t.feature > 0 then
        some (vbHammingWeight t.feature, t.coefficient / norm) else none) =
    ((l.filter (fun u => true ∈ u ∧ c u ≠ 0 ∧ 1 / 10 ^ 10 < |c u| / norm)).map (fun u => (u.count true, |c u| / norm))) := by
  induction l with
  | nil => rfl
  | cons u l ih =>
    by_cases h1 : c u = 0
    · rw [List.filter_cons_of_neg (by simp [h1]), List.filter_cons_of_neg (by simp [h1]), ih]
    · rw [List.filter_cons_of_pos (by simp [h1]), List.map_cons, List.filterMap_cons]
      dsimp only
      by_cases h2 : 1 / 10 ^ 10 < |c u| / norm ∧ true ∈ u
      · rw [if_pos ⟨h2.1, by rw [vbHammingWeight_eq_count]; exact List.count_pos_iff.mpr h2.2⟩,
          List.filter_cons_of_pos (by simp only [decide_eq_true_eq]; exact ⟨h2.2, h1, h2.1⟩)]
        dsimp only
        rw [List.map_cons, ih, vbHammingWeight_eq_count]
      · rw [if_neg (by
            rintro ⟨h3, h4⟩
            rw [vbHammingWeight_eq_count] at h4
            exact h2 ⟨h3, List.count_pos_iff.mp h4⟩),
          List.filter_cons_of_neg (by simp only [decide_eq_true_eq]; exact fun h => h2 ⟨h.2.2, h.1⟩)]
        exact ih

/-- The lines for sorted terms. -/
theorem appAmplitudes_report {n : Nat} {g : BV → K} (hne : ∃ u : BV, u.length = n ∧ true ∈ u ∧ walshCoefficient n g u ≠ 0)
    {r : List (WalshTerm K)} (hp : r.Perm (((allBV n).filter (fun u => walshCoefficient n g u ≠ 0)).map
      (fun u => (⟨u, |walshCoefficient n g u|⟩ : WalshTerm K))))
    (hs : r.Pairwise (fun a b => b.coefficient ≤ a.coefficient)) :
    ∃ lines, appAmplitudes r = ok lines ∧ WalshReport n g lines := by
  have hmem : ∀ u : BV, u.length = n → walshCoefficient n g u ≠ 0 → (⟨u, |walshCoefficient n g u|⟩ : WalshTerm K) ∈ r := by
    intro u hu hc
    rw [hp.mem_iff, List.mem_map]
    exact ⟨u, by simp [mem_allBV, hu, hc], rfl⟩
  have hback : ∀ t ∈ r, t.feature.length = n ∧ walshCoefficient n g t.feature ≠ 0 ∧ t.coefficient = |walshCoefficient n g t.feature| := by
    intro t ht
    rw [hp.mem_iff, List.mem_map] at ht
    obtain ⟨u, hu, rfl⟩ := ht
    simp only [List.mem_filter, mem_allBV, decide_eq_true_eq] at hu
    exact ⟨hu.1, hu.2, rfl⟩
  have hnd : (r.map WalshTerm.feature).Nodup := by
    rw [(hp.map WalshTerm.feature).nodup_iff, List.map_map]
    have : WalshTerm.feature ∘ (fun u => (⟨u, |walshCoefficient n g u|⟩ : WalshTerm K)) = id := rfl
    rw [this, List.map_id]
    exact (allBV_nodup n).filter _
  -- the norm is the largest magnitude of a coefficient with a feature which is not empty
  have finish : ∀ top : WalshTerm K, top ∈ r → true ∈ top.feature →
      (∀ t ∈ r, true ∈ t.feature → t.coefficient ≤ top.coefficient) →
      WalshReport n g (r.filterMap (fun t =>
        if t.coefficient / top.coefficient > 1 / 10 ^ 10 ∧ vbHammingWeight t.feature > 0 then
          some (vbHammingWeight t.feature, t.coefficient / top.coefficient) else none)) := by
    intro top htop htrue hmax
    obtain ⟨h1, h2, h3⟩ := hback top htop
    have hpos : 0 < top.coefficient := by rw [h3]; exact abs_pos.mpr h2
    refine ⟨top.feature, h1, htrue, h2, ?_, ?_, ?_⟩
    · intro u hu hm
      by_cases hc : walshCoefficient n g u = 0
      · rw [hc, abs_zero]; exact abs_nonneg _
      · have := hmax _ (hmem u hu hc) hm
        rwa [h3] at this
    · rw [List.pairwise_filterMap]
      refine hs.imp ?_
      intro a b hab x hx y hy
      split_ifs at hx hy
      cases hx
      cases hy
      exact div_le_div_of_nonneg_right hab hpos.le
    · rw [← h3]
      have e := filterMap_terms (walshCoefficient n g) top.coefficient (allBV n)
      have hperm := hp.filterMap (fun t =>
        if t.coefficient / top.coefficient > 1 / 10 ^ 10 ∧ vbHammingWeight t.feature > 0 then
          some (vbHammingWeight t.feature, t.coefficient / top.coefficient) else none)
      rw [e] at hperm
      refine hperm.trans (List.Perm.of_eq ?_)
      congr 1
      apply List.filter_congr
      intro u _
      rw [decide_eq_decide]
      constructor
      · rintro ⟨g1, -, g3⟩; exact ⟨g1, g3⟩
      · rintro ⟨g1, g3⟩
        refine ⟨g1, ?_, g3⟩
        intro hc
        rw [hc, abs_zero, zero_div] at g3
        exact absurd g3 (not_lt.mpr (by positivity))
  obtain ⟨u, hu, hut, huc⟩ := hne
  have humem := hmem u hu huc
  unfold appAmplitudes
  cases r with
  | nil => cases humem
  | cons t0 rest =>
    rw [List.pairwise_cons] at hs
    rw [assert_pos (by simp), ok_bind]
    simp only [vget, List.getElem?_cons_zero, ok_bind]
    by_cases hw : vbHammingWeight t0.feature = 0
    · rw [if_pos hw]
      rw [vbHammingWeight_eq_count, List.count_eq_zero] at hw
      cases rest with
      | nil =>
        rw [List.mem_singleton] at humem
        rw [← humem] at hw
        exact absurd hut hw
      | cons t1 rest =>
        simp only [List.getElem?_cons_succ, List.getElem?_cons_zero, ok_bind]
        refine ⟨_, rfl, finish t1 (by simp) ?_ ?_⟩
        · by_contra hw1
          have e : ∀ w : BV, true ∉ w → w = List.replicate w.length false := by
            intro w hw
            rw [List.eq_replicate_iff]
            exact ⟨rfl, fun b hb => by cases b with
              | false => rfl
              | true => exact absurd hb hw⟩
          have e0 := e _ hw
          have e1 := e _ hw1
          rw [(hback t0 (by simp)).1] at e0
          rw [(hback t1 (by simp)).1, ← e0] at e1
          simp only [List.map_cons, List.nodup_cons, List.mem_cons] at hnd
          exact hnd.1 (Or.inl e1.symm)
        · intro t ht htt
          rcases List.mem_cons.mp ht with rfl | ht
          · exact absurd htt hw
          · rcases List.mem_cons.mp ht with rfl | ht
            · exact le_rfl
            · exact (List.pairwise_cons.mp hs.2).1 t ht
    · rw [if_neg hw]
      simp only [ok_bind]
      refine ⟨_, rfl, finish t0 (by simp) ?_ ?_⟩
      · rw [vbHammingWeight_eq_count] at hw
        exact List.count_pos_iff.mp (Nat.pos_of_ne_zero hw)
      · intro t ht _
        rcases List.mem_cons.mp ht with rfl | ht
        · exact le_rfl
        · exact hs.1 t ht

/-! ## Properties -/

/-- C93: for a function which is not constant, `--fn-walsh-transform` prints its Walsh spectrum, provided that the evaluation of
all vectors is neither stopped by the budget nor by the target. -/
theorem walshTransform_report (hn : 0 < fn.size) (hn' : fn.size < 31) (hf : ∀ x, x.length = fn.size → fn.eval x = ok (g x))
    (hne : ∃ x y : BV, x.length = fn.size ∧ y.length = fn.size ∧ g x ≠ g y)
    (hst : makeController o fn v = ok st) (hb : o.budget ≤ 0 ∨ 2 ^ fn.size ≤ o.budget)
    (ht : ∀ t, appGoal o fn = some t → ∀ x, x.length = fn.size → g x < t) :
    Sim.Post (appWalsh st fn.size) (WalshReport fn.size g) := by
  unfold appWalsh
  rw [appWalshTerms_ok hn hn' hf hst hb ht]
  refine Sim.Post.bind (P := fun l => l = ((allBV fn.size).filter (fun u => walshCoefficient fn.size g u ≠ 0)).map
      (fun u => (⟨u, walshCoefficient fn.size g u⟩ : WalshTerm K))) (fun ds => rfl) ?_
  rintro terms rfl
  rw [List.map_map]
  refine Sim.Post.bind (Sim.Post.sort _ ?_ ?_) ?_
  · intro a b c h1 h2
    simp only [decide_eq_false_iff_not, not_lt] at h1 h2 ⊢
    exact h2.trans h1
  · intro a b
    simp only [decide_eq_false_iff_not, not_lt]
    exact le_total _ _
  · rintro r ⟨h1, h2⟩
    obtain ⟨lines, h3, h4⟩ := appAmplitudes_report (walsh_nonconstant hne) h1
      (h2.imp (fun {a b} h => by simpa using h))
    rw [h3]
    exact fun ds => h4

omit [IsStrictOrderedRing K] in
/-- C93 (negative part): the evaluations of the Walsh transform go through the controllers of the function.  If the budget is less
than `2^n`, or if some vector reaches the target, then nothing is printed and an exception leaves `print_information`. -/
theorem walshTransform_interrupted (hn : 0 < fn.size) (hf : ∀ x, x.length = fn.size → fn.eval x = ok (g x))
    (hst : makeController o fn v = ok st)
    (h : (0 < o.budget ∧ o.budget < 2 ^ fn.size) ∨ ∃ t x, appGoal o fn = some t ∧ x.length = fn.size ∧ t ≤ g x) :
    ∃ e, (e = .lastEvaluation ∨ e = .targetReached) ∧ ∀ ds, appWalsh st fn.size ds = .throw e := by
  have hgood := makeController_good hf hst
  have hall : ∀ x ∈ walshOrder fn.size, x.length = fn.size := fun x hx => (walshOrder_mem hn).mp hx
  -- some evaluation is interrupted
  have hsome : ∃ pre x post, walshOrder fn.size = pre ++ x :: post ∧ appStop o (appGoal o fn) g pre x ≠ none := by
    rcases h with ⟨h1, h2⟩ | ⟨t, x, h1, h2, h3⟩
    · have hlen := walshOrder_length hn
      have hlt : o.budget.toNat < (walshOrder fn.size).length := by
        rw [hlen]
        have h5 : ((2 ^ fn.size : Nat) : Int) = 2 ^ fn.size := by push_cast; rfl
        omega
      refine ⟨(walshOrder fn.size).take o.budget.toNat, (walshOrder fn.size)[o.budget.toNat],
        (walshOrder fn.size).drop (o.budget.toNat + 1), ?_, ?_⟩
      · rw [List.getElem_cons_drop, List.take_append_drop]
      · have hnd := walshOrder_nodup fn.size
        rw [← List.take_append_drop (o.budget.toNat + 1) (walshOrder fn.size), List.take_succ_eq_append_getElem hlt] at hnd
        unfold appStop
        rw [if_pos]
        · simp
        · rw [appExhausted_nodup (List.nodup_append.mp hnd).1]
          refine ⟨h1, ?_⟩
          rw [List.length_take]
          omega
    · obtain ⟨pre, post, hx⟩ := List.append_of_mem ((walshOrder_mem hn).mpr h2)
      refine ⟨pre, x, post, hx, ?_⟩
      unfold appStop
      split_ifs
      · simp
      · rw [h1]
        simp [h3]
  -- the first one
  have hfirst : ∃ pre x post, walshOrder fn.size = pre ++ x :: post ∧ appStop o (appGoal o fn) g pre x ≠ none ∧
      ∀ pre' y post', pre = pre' ++ y :: post' → appStop o (appGoal o fn) g pre' y = none := by
    obtain ⟨pre, x, post, h1, h2⟩ := hsome
    induction hk : pre.length using Nat.strongRecOn generalizing pre x post with
    | _ k ih =>
      by_cases hex : ∃ pre' y post', pre = pre' ++ y :: post' ∧ appStop o (appGoal o fn) g pre' y ≠ none
      · obtain ⟨pre', y, post', h3, h4⟩ := hex
        refine ih pre'.length ?_ pre' y (post' ++ x :: post) ?_ h4 rfl
        · rw [← hk, h3]; simp
        · rw [h1, h3]; simp
      · refine ⟨pre, x, post, h1, h2, ?_⟩
        intro pre' y post' h3
        by_contra h4
        exact hex ⟨pre', y, post', h3, h4⟩
  obtain ⟨pre, x, post, h1, h2, h3⟩ := hfirst
  obtain ⟨e, he⟩ := Option.ne_none_iff_exists'.mp h2
  refine ⟨e, ?_, ?_⟩
  · unfold appStop at he
    split_ifs at he
    · left; simpa using he.symm
    · cases hg : appGoal o fn with
      | none => simp [hg] at he
      | some t =>
        simp only [hg] at he
        split_ifs at he
        right; simpa using he.symm
  · intro ds
    have hev := evaluateAll_throw hgood hall h1 h3 he
    have : appWalshTerms st fn.size = Outcome.throw e := by
      unfold appWalshTerms
      rw [appWalshVectors_eq hn, ok_bind, hev]
      rfl
    unfold appWalsh
    rw [this]
    rfl

/-- C93 (negative part): for a constant function, `--fn-walsh-transform` has no defined behaviour: there is at most one term, and
the second one is read, or the first one of none. -/
theorem walshTransform_constant (hn : 0 < fn.size) (hn' : fn.size < 31) (hf : ∀ x, x.length = fn.size → fn.eval x = ok (g x))
    (hc : ∀ x y : BV, x.length = fn.size → y.length = fn.size → g x = g y)
    (hst : makeController o fn v = ok st) (hb : o.budget ≤ 0 ∨ 2 ^ fn.size ≤ o.budget)
    (ht : ∀ t, appGoal o fn = some t → ∀ x, x.length = fn.size → g x < t) (d : Nat) (ds : List Nat) :
    appWalsh st fn.size (d :: ds) = .ub := by
  have key : ∀ r : List (WalshTerm K), r.Perm (((allBV fn.size).filter (fun u => walshCoefficient fn.size g u ≠ 0)).map
      (fun u => (⟨u, |walshCoefficient fn.size g u|⟩ : WalshTerm K))) → appAmplitudes r = ub := by
    intro r hr
    have hw : ∀ t ∈ r, t.feature = List.replicate fn.size false := by
      intro t htr
      rw [hr.mem_iff, List.mem_map] at htr
      obtain ⟨u, hu, rfl⟩ := htr
      simp only [List.mem_filter, mem_allBV, decide_eq_true_eq] at hu
      rw [List.eq_replicate_iff]
      refine ⟨hu.1, fun b hb => ?_⟩
      cases b with
      | false => rfl
      | true => exact absurd (walsh_constant hc hu.1 hb) hu.2
    have hnd : (r.map WalshTerm.feature).Nodup := by
      rw [(hr.map WalshTerm.feature).nodup_iff, List.map_map]
      have : WalshTerm.feature ∘ (fun u => (⟨u, |walshCoefficient fn.size g u|⟩ : WalshTerm K)) = id := rfl
      rw [this, List.map_id]
      exact (allBV_nodup _).filter _
    match r with
    | [] => rfl
    | [t] =>
      have h0 : vbHammingWeight t.feature = 0 := by
        rw [vbHammingWeight_eq_count, hw t (by simp), List.count_replicate]
        simp
      simp [appAmplitudes, vget, h0]
    | t :: u :: rest =>
      have e1 := hw t (by simp)
      have e2 := hw u (by simp)
      simp [e1, e2] at hnd
  unfold appWalsh
  rw [appWalshTerms_ok hn hn' hf hst hb ht]
  change Sim.bind (Sim.sort _ _) _ (d :: ds) = _
  have hsort := Sim.Post.sort (lt := fun (a b : WalshTerm K) => decide (a.coefficient > b.coefficient))
    ((((allBV fn.size).filter (fun u => walshCoefficient fn.size g u ≠ 0)).map
      (fun u => (⟨u, walshCoefficient fn.size g u⟩ : WalshTerm K))).map (fun t => { t with coefficient := |t.coefficient| })) (by
      intro a b c h1 h2
      simp only [decide_eq_false_iff_not, not_lt] at h1 h2 ⊢
      exact h2.trans h1) (by
      intro a b
      simp only [decide_eq_false_iff_not, not_lt]
      exact le_total _ _) (d :: ds)
  unfold Sim.bind
  revert hsort
  generalize hr : Sim.sort (fun (a b : WalshTerm K) => decide (a.coefficient > b.coefficient))
    ((((allBV fn.size).filter (fun u => walshCoefficient fn.size g u ≠ 0)).map
      (fun u => (⟨u, walshCoefficient fn.size g u⟩ : WalshTerm K))).map (fun t => { t with coefficient := |t.coefficient| }))
      (d :: ds) = r
  intro hsort
  cases r with
  | ok r rest =>
    rw [List.map_map] at hsort
    change Sim.lift (appAmplitudes r) rest = _
    rw [key r hsort.1]
    rfl
  | throw e => exact hsort.elim
  | ub => rfl
  | out =>
    simp only [Sim.sort] at hr
    split at hr <;> cases hr

omit [IsStrictOrderedRing K] in
/-- C93: the answer to `--fn-has-known-maximum` is yes if and only if the function knows its maximum, in which case it is the
value of a best vector; the answer to `--fn-get-bv-size` is the dimension of the search space. -/
theorem information_answers (hs : fn.Sound) (i : InfoOptions) (map : Option MapObj) (ds : List Nat) :
    (i.hasKnownMaximum = true →
      (printInformation i o fn st map ds = .ok (some (.answer true)) ds ∧ fn.hasMax = true ∧
        ∃ m, fn.maximum = .ok m ∧ IsMaximum fn.size fn.eval m) ∨
      (printInformation i o fn st map ds = .ok (some (.answer false)) ds ∧ fn.hasMax = false)) ∧
    (i.hasKnownMaximum = false → i.getMaximum = false → i.getBvSize = true →
      printInformation i o fn st map ds = .ok (some (.size fn.size)) ds) := by
  constructor
  · intro h
    cases hm : fn.hasMax with
    | true =>
      obtain ⟨-, m, h2, h3⟩ := hs.maximum hm
      exact Or.inl ⟨by simp only [printInformation, h, if_true, hm]; rfl, rfl, m, h2, h3⟩
    | false => exact Or.inr ⟨by simp only [printInformation, h, if_true, hm]; rfl, rfl⟩
  · intro h1 h2 h3
    simp only [printInformation, h1, h2, h3, Bool.false_eq_true, if_false, if_true]
    rfl

omit [IsStrictOrderedRing K] in
/-- C93: for a sound function, the other answers are right: `--fn-get-maximum` prints the value of a best vector, or ends with an
exception, and if the answer to `--fn-provides-incremental-evaluation` is yes, then incremental evaluation is exact and is not
hidden by a cache. -/
theorem information_sound (hs : fn.Sound) (i : InfoOptions) (h0 : i.hasKnownMaximum = false) (map : Option MapObj) (ds : List Nat) :
    (i.getMaximum = true → (fn.hasMax = true ∧ ∃ m, printInformation i o fn st map ds = .ok (some (.value m)) ds ∧
        IsMaximum fn.size fn.eval m) ∨
      (fn.hasMax = false ∧ printInformation i o fn st map ds = .throw .runtimeError)) ∧
    (i.getMaximum = false → i.getBvSize = false → i.providesIncremental = true →
      (printInformation i o fn st map ds = .ok (some (.answer true)) ds ∧ IncrementalExact fn ∧ o.cache = false) ∨
      (printInformation i o fn st map ds = .ok (some (.answer false)) ds ∧ (fn.hasInc = false ∨ o.cache = true))) := by
  constructor
  · intro h1
    by_cases hm : fn.hasMax = true
    · obtain ⟨-, m, h2, h3⟩ := hs.maximum hm
      refine Or.inl ⟨hm, m, ?_, h3⟩
      simp only [printInformation, h0, h1, hm, h2, Bool.false_eq_true, if_false, if_true]
      rfl
    · refine Or.inr ⟨by simpa using hm, ?_⟩
      simp only [printInformation, h0, h1, hm, Bool.false_eq_true, if_false, if_true]
      rfl
  · intro h1 h2 h3
    have hc : ((o.budget ≤ 0 ∧ o.cache = true) ∨ (o.budget > 0 ∧ o.cache = true)) ↔ o.cache = true := by
      constructor
      · rintro (h | h) <;> exact h.2
      · intro h
        rcases Int.lt_or_le 0 o.budget with hb | hb
        · exact Or.inr ⟨hb, h⟩
        · exact Or.inl ⟨hb, h⟩
    simp only [printInformation, h0, h1, h2, h3, Bool.false_eq_true, if_false, if_true, appProvidesIncremental, hc]
    by_cases hca : o.cache = true
    · rw [if_pos hca]
      exact Or.inr ⟨rfl, Or.inr hca⟩
    · rw [if_neg hca]
      by_cases hi : fn.hasInc = true
      · rw [hi]
        exact Or.inl ⟨rfl, hs.incremental hi, by simpa using hca⟩
      · rw [show fn.hasInc = false by simpa using hi]
        exact Or.inr ⟨rfl, Or.inl rfl⟩

end

/-! ## Examples -/

/-- A function on three bits: twice the number of ones, and one more if the first two bits are equal. -/
def exampleSpectrum : Fn Rat := Fn.ofEval 3 (fun x => ok (2 * (x.count true : Rat) + if x[0]? = x[1]? then 1 else 0))

/-- Options with a budget, and possibly a target. -/
def exampleInfo (budget : Int) (target : Option Rat) : AppOptions Rat := ⟨budget, false, false, false, target, false, false⟩

example : (match makeController (exampleInfo 8 (some 8)) exampleSpectrum 0 with
    | .ok st => appWalsh st 3 [0]
    | _ => .ub) = .ok [(1, 1), (1, 1), (1, 1), (2, 1 / 2)] [] := by decide +kernel

example : ∃ st, makeController (exampleInfo 8 (some 8)) exampleSpectrum 0 = ok st ∧
    Sim.Post (appWalsh st exampleSpectrum.size) (WalshReport exampleSpectrum.size
      (fun x => 2 * (x.count true : Rat) + if x[0]? = x[1]? then 1 else 0)) := by
  refine ⟨_, rfl, walshTransform_report (o := exampleInfo 8 (some 8)) (v := 0) (by decide) (by decide) (fun _ _ => rfl) ?_ rfl
    (.inr (by decide)) ?_⟩
  · exact ⟨[false, false, false], [true, false, false], rfl, rfl, by decide +kernel⟩
  · intro t ht x hx
    cases ht
    have h1 : x.count true ≤ 3 := by rw [← show x.length = 3 from hx]; exact List.count_le_length
    have h2 : (x.count true : Rat) ≤ 3 := by exact_mod_cast h1
    split_ifs <;> linarith

example : (match makeController (exampleInfo 7 none) exampleSpectrum 0 with
    | .ok st => appWalsh st 3 [0]
    | _ => .ub) = .throw .lastEvaluation := by decide +kernel

example : (match makeController (exampleInfo 0 (some 7)) exampleSpectrum 0 with
    | .ok st => appWalsh st 3 [0]
    | _ => .ub) = .throw .targetReached := by decide +kernel

example : ∃ st, makeController (exampleInfo 0 none) (Fn.ofEval 2 (fun _ => ok 5)) (0 : Rat) = ok st ∧
    ∀ d ds, appWalsh st 2 (d :: ds) = .ub :=
  ⟨_, rfl, fun d ds => walshTransform_constant (fn := Fn.ofEval 2 (fun _ => ok (5 : Rat))) (g := fun _ => 5)
    (o := exampleInfo 0 none) (v := 0) (by decide) (by decide) (fun _ _ => rfl) (fun _ _ _ _ => rfl) rfl (.inl (by decide))
    (fun t ht => by cases ht) d ds⟩

end Hnco
