import Verif.Prob.InstanceLemmas
import Verif.Prob.SearchLemmas
import Verif.Prob.Props

/-! # The laws of random instances (C116) -/

namespace Hnco.Prob

open Outcome
open scoped ENNReal

/-! ## MAX-SAT -/

theorem vset_middle {α : Type} (pre rest : List α) (a b : α) {i : ℕ} (h : pre.length = i) : vset (pre ++ a :: rest) i b = ok (pre ++ b :: rest) := by
  subst h
  rw [vset_eq (by simp)]
  simp

theorem vget_middle {α : Type} (pre rest : List α) (a : α) {i : ℕ} (h : pre.length = i) : (pre ++ a :: rest)[i]? = some a := by
  subst h
  simp

/-- The clauses which are written by the loop are independent. -/
theorem clauses_loop {n k : ℕ} (hk : k ≤ n) (c : ℕ) (g : List ℤ → Dist (List ℤ)) :
    (Dist.forRange 0 c (fun i (st : List (List ℤ) × BV) => (do
      let r ← randomClause k i st.1 st.2
      let clause ← g r.1
      let expression ← Dist.lift (vset st.1 i clause)
      pure (expression, r.2) : Dist (List (List ℤ) × BV))) (List.replicate c (List.replicate k 0), List.replicate n false) >>=
        fun st => (pure st.1 : Dist (List (List ℤ)))) = famLaw (fun _ => clauseLaw n k >>= g) 0 c := by
  refine fill_range (I := fun x => x.length = n)
    (step := fun _ _ => weightLaw n k >>= fun y => signs (positions 0 y) >>= fun l => g l >>= fun c => (pure (c, y) : Dist (List ℤ × BV)))
    (fun i pre rest x hp hx => ?_) (fun i x r hx hr => ?_) (fun i x _ => clause_step hk g) c (by simp)
  · dsimp only
    rw [randomClause_eq hk hx (vget_middle pre rest _ hp), Dist.bind_assoc', Dist.bind_assoc']
    congr 1
    funext y
    rw [Dist.bind_assoc', Dist.bind_assoc']
    congr 1
    funext l
    rw [Dist.pure_bind', Dist.bind_assoc']
    congr 1
    funext cl
    rw [vset_middle pre rest _ _ hp, Dist.lift_ok, Dist.pure_bind', Dist.pure_bind']
  · obtain ⟨y, hy, hr⟩ := bind_support hr
    obtain ⟨l, _, hr⟩ := bind_support hr
    obtain ⟨c, _, hr⟩ := bind_support hr
    rw [pure_support hr]
    rw [weightLaw_apply] at hy
    by_contra h
    exact hy (if_neg (fun h' => h h'.1))

open Classical in
/-- C116: all expressions of `c` clauses of `k` literals over different variables among `n` are equally likely (the literals of a
clause are in the order of the variables): there are `choose n k * 2 ^ k` clauses, and clauses are independent. -/
theorem maxSatRandom_law {n k c : ℕ} (hk : 0 < k) (hc : 0 < c) (hkn : k ≤ n) (E : List (List ℤ)) :
    maxSatRandom n k c E = if E.length = c ∧ ∀ clause ∈ E, IsClause n k clause then ((((n.choose k : ℕ) : ℝ≥0∞) * 2 ^ k)⁻¹) ^ c else 0 := by
  unfold maxSatRandom
  rw [Dist.assert_bind (by simp; omega), Dist.assert_bind (by simpa using hk), Dist.assert_bind (by simpa using hc),
    Dist.assert_bind (by simpa using hkn)]
  have h := clauses_loop hkn c pure
  simp only [Dist.pure_bind'] at h
  rw [h, Dist.bind_pure', famLaw_uniform (P := fun _ l => IsClause n k l) c 0 (fun _ l _ _ => clauseLaw_apply n k l)]
  refine if_congr (and_congr_right (fun _ => ⟨fun h cl hcl => ?_, fun h j cl hcl => h cl (List.mem_of_getElem? hcl)⟩)) rfl rfl
  obtain ⟨j, hj⟩ := List.getElem?_of_mem hcl
  exact h j cl hj

/-! ## Instances with a solution -/

theorem true_set {p : ℤ → Bool} : ∀ {l : List ℤ} {j : ℕ} (h : j < l.length) (a : ℤ),
    (l.set j a).countP p + (if p l[j] then 1 else 0) = l.countP p + (if p a then 1 else 0) := by
  intro l
  induction l with
  | nil => intro j h; simp at h
  | cons b l ih =>
    intro j h a
    cases j with
    | zero =>
      simp only [List.set_cons_zero, List.countP_cons, List.getElem_cons_zero]
      omega
    | succ j =>
      have := ih (j := j) (by simpa using h) a
      simp only [List.set_cons_succ, List.countP_cons, List.getElem_cons_succ]
      omega

/-- Negation of the literal number `j`. -/
def negate (j : ℕ) (l : List ℤ) : List ℤ := l.modify j (fun a => -a)

theorem negate_negate (j : ℕ) (l : List ℤ) : negate j (negate j l) = l := by
  apply List.ext_getElem?
  intro i
  simp only [negate, List.getElem?_modify]
  by_cases h : j = i
  · simp only [h, if_true, Option.map_eq_map, Option.map_map]
    cases l[i]? <;> simp
  · simp [h]

theorem negate_set {j : ℕ} {l : List ℤ} (h : j < l.length) : negate j l = l.set j (-l[j]) := by
  apply List.ext_getElem?
  intro i
  simp only [negate, List.getElem?_modify, List.getElem?_set]
  by_cases hi : j = i
  · subst hi
    simp [h]
  · simp [hi]

theorem negate_abs (j : ℕ) (l : List ℤ) : (negate j l).map Int.natAbs = l.map Int.natAbs := by
  apply List.ext_getElem?
  intro i
  simp only [negate, List.getElem?_map, List.getElem?_modify]
  by_cases h : j = i
  · simp only [h, if_true, Option.map_eq_map, Option.map_map]
    cases l[i]? <;> simp
  · simp [h]

theorem isClause_abs {n k : ℕ} {l : List ℤ} :
    IsClause n k l ↔ (l.map Int.natAbs).length = k ∧ (∀ a ∈ l.map Int.natAbs, a ≠ 0 ∧ a ≤ n) ∧ (l.map Int.natAbs).Pairwise (· < ·) := by
  unfold IsClause IsLiteral
  simp

theorem negate_clause {n k j : ℕ} {l : List ℤ} : IsClause n k (negate j l) ↔ IsClause n k l := by
  rw [isClause_abs, isClause_abs, negate_abs]

theorem satisfied_iff {x : BV} {l : List ℤ} : (∃ lit ∈ l, LitTrue x lit) ↔ 0 < trueLiterals x l := by
  unfold trueLiterals
  rw [List.countP_pos_iff]
  simp

/-- A clause is not satisfied after a negation if and only if this literal is the only true one. -/
theorem negate_unsatisfied {x : BV} {k j : ℕ} {l : List ℤ} (hl : IsClause x.length k l) (hj : j < l.length) :
    ¬ (0 < trueLiterals x (negate j l)) ↔ trueLiterals x l = 1 ∧ LitTrue x l[j] := by
  have h := true_set (p := fun lit => decide (LitTrue x lit)) hj (-l[j])
  have hn := litTrue_neg x l[j] (hl.2.1 _ (List.getElem_mem hj))
  rw [negate_set hj]
  unfold trueLiterals
  by_cases ht : LitTrue x l[j]
  · have h2 : ¬ LitTrue x (-l[j]) := fun h => hn.mp h ht
    simp only [ht, h2, decide_true, decide_false, if_true, Bool.false_eq_true, if_false] at h ⊢
    simp only [and_true]
    omega
  · have h2 : LitTrue x (-l[j]) := hn.mpr ht
    simp only [ht, h2, decide_true, decide_false, if_true, Bool.false_eq_true, if_false] at h ⊢
    simp only [and_false, iff_false, not_not]
    omega

theorem count_positions (p : ℤ → Prop) [DecidablePred p] (l : List ℤ) :
    (∑ j ∈ Finset.range l.length, if l[j]?.any (fun a => decide (p a)) then 1 else 0) = l.countP (fun a => decide (p a)) := by
  induction l using List.reverseRecOn with
  | nil => rfl
  | append_singleton l a ih =>
    rw [List.length_append, List.length_singleton, Finset.sum_range_succ, List.countP_append, ← ih]
    congr 1
    · refine Finset.sum_congr rfl (fun j hj => ?_)
      rw [List.getElem?_append_left (Finset.mem_range.mp hj)]
    · simp [List.countP_cons]

open Classical in
theorem repair_apply {x : BV} {k : ℕ} (hk : 0 < k) {l : List ℤ} (hl : IsClause x.length k l) (c : List ℤ) :
    repairClause x l c = (if 0 < trueLiterals x l ∧ c = l then 1 else 0)
      + ∑ j ∈ Finset.range k, if ¬ 0 < trueLiterals x l ∧ c = negate j l then (k : ℝ≥0∞)⁻¹ else 0 := by
  unfold repairClause
  rw [clauseTest_eq x l hl.2.1, Dist.lift_ok, Dist.pure_bind']
  by_cases hs : 0 < trueLiterals x l
  · rw [if_pos (by simpa using satisfied_iff.mpr hs), Dist.pure_apply, Finset.sum_eq_zero, add_zero]
    · simp only [hs, true_and]
      congr
    · intro j _
      rw [if_neg (fun h => h.1 hs)]
  · rw [if_neg (by simpa using fun h => hs (satisfied_iff.mp h)), if_neg (fun h => hs h.1), zero_add, Dist.bind_apply,
      tsum_eq_sum (s := Finset.range k)]
    · refine Finset.sum_congr rfl (fun j hj => ?_)
      have hj := Finset.mem_range.mp hj
      have hjl : j < l.length := by rw [hl.1]; exact hj
      rw [vget_eq hjl, Dist.lift_ok, Dist.pure_bind', vset_eq hjl, Dist.lift_ok, Dist.pure_apply, ← negate_set hjl, hl.1]
      simp only [hs, not_false_eq_true, true_and]
      have hu : Dist.uniformInt 0 (k - 1) j = (k : ℝ≥0∞)⁻¹ := by
        change (if 0 ≤ j ∧ j ≤ k - 1 then ((k - 1 - 0 + 1 : ℕ) : ℝ≥0∞)⁻¹ else 0) = _
        rw [if_pos ⟨Nat.zero_le _, by omega⟩, show k - 1 - 0 + 1 = k by omega]
      rw [hu]
      split <;> simp
    · intro j hj
      have hj : k ≤ j := by simpa using hj
      have hu : Dist.uniformInt 0 (l.length - 1) j = 0 := by
        change (if 0 ≤ j ∧ j ≤ l.length - 1 then _ else (0 : ℝ≥0∞)) = _
        rw [if_neg (by rw [hl.1]; omega)]
      rw [hu, zero_mul]

/-- How likely a clause is, up to a constant, when a solution is given. -/
noncomputable def plantedWeight (x : BV) (k : ℕ) (clause : List ℤ) : ℝ≥0∞ := if trueLiterals x clause = 1 then 1 + (k : ℝ≥0∞)⁻¹ else 1

open Classical in
theorem planted_apply {x : BV} {k : ℕ} (hk : 0 < k) (c : List ℤ) :
    (clauseLaw x.length k >>= repairClause x) c = if IsClause x.length k c ∧ 0 < trueLiterals x c then
      plantedWeight x k c * (((x.length.choose k : ℕ) : ℝ≥0∞) * 2 ^ k)⁻¹ else 0 := by
  set u : ℝ≥0∞ := (((x.length.choose k : ℕ) : ℝ≥0∞) * 2 ^ k)⁻¹ with hu
  have e : ∀ l, clauseLaw x.length k l * repairClause x l c
      = (if IsClause x.length k l ∧ 0 < trueLiterals x l ∧ c = l then u else 0)
        + ∑ j ∈ Finset.range k, if IsClause x.length k l ∧ ¬ 0 < trueLiterals x l ∧ c = negate j l then u * (k : ℝ≥0∞)⁻¹ else 0 := by
    intro l
    rw [clauseLaw_apply]
    by_cases hl : IsClause x.length k l
    · rw [if_pos hl, repair_apply hk hl, mul_add, Finset.mul_sum]
      simp only [hl, true_and, mul_ite, mul_one, mul_zero]
      rfl
    · simp [hl]
  rw [Dist.bind_apply]
  simp_rw [e]
  rw [ENNReal.tsum_add, Summable.tsum_finsetSum (fun _ _ => ENNReal.summable), tsum_eq_single c]
  · have hj : ∀ j, (∑' l, if IsClause x.length k l ∧ ¬ 0 < trueLiterals x l ∧ c = negate j l then u * (k : ℝ≥0∞)⁻¹ else 0)
        = if IsClause x.length k c ∧ ¬ 0 < trueLiterals x (negate j c) then u * (k : ℝ≥0∞)⁻¹ else 0 := by
      intro j
      rw [tsum_eq_single (negate j c)]
      · rw [negate_clause, negate_negate]
        simp
      · intro l hl
        rw [if_neg]
        rintro ⟨_, _, h⟩
        apply hl
        rw [h, negate_negate]
    simp_rw [hj]
    by_cases hc : IsClause x.length k c
    · simp only [hc, true_and, and_true]
      have hs : (∑ j ∈ Finset.range k, if ¬ 0 < trueLiterals x (negate j c) then u * (k : ℝ≥0∞)⁻¹ else 0)
          = if trueLiterals x c = 1 then u * (k : ℝ≥0∞)⁻¹ else 0 := by
        have h1 : ∀ j ∈ Finset.range k, (if ¬ 0 < trueLiterals x (negate j c) then u * (k : ℝ≥0∞)⁻¹ else 0)
            = if trueLiterals x c = 1 then ((if c[j]?.any (fun a => decide (LitTrue x a)) then 1 else 0 : ℕ) : ℝ≥0∞) * (u * (k : ℝ≥0∞)⁻¹) else 0 := by
          intro j hj
          have hjl : j < c.length := by rw [hc.1]; exact Finset.mem_range.mp hj
          rw [if_congr (negate_unsatisfied hc hjl) rfl rfl, List.getElem?_eq_getElem hjl]
          by_cases h2 : trueLiterals x c = 1
          · by_cases h3 : LitTrue x c[j] <;> simp [h2, h3]
          · simp [h2]
        rw [Finset.sum_congr rfl h1]
        by_cases ht : trueLiterals x c = 1
        · simp only [ht, if_true]
          have := count_positions (LitTrue x) c
          rw [hc.1] at this
          rw [← Finset.sum_mul, ← Nat.cast_sum, this]
          unfold trueLiterals at ht
          rw [ht, Nat.cast_one, one_mul]
        · simp [ht]
      rw [hs]
      unfold plantedWeight
      by_cases ht : trueLiterals x c = 1
      · rw [if_pos (by omega), if_pos ht, if_pos (by omega), if_pos ht, add_mul, one_mul, mul_comm u]
      · rw [if_neg ht, if_neg ht, add_zero, one_mul]
    · simp [hc]
  · intro l hl
    rw [if_neg (fun h => hl h.2.2.symm)]

open Classical in
/-- C116: with a given solution, the clauses of an expression are independent, and all those which the solution satisfies can be
drawn, but those of which only one literal is true are `1 + 1/k` times as likely as the others. -/
theorem maxSatPlanted_law {x : BV} {k c : ℕ} (hk : 0 < k) (hc : 0 < c) (hkn : k ≤ x.length) (E : List (List ℤ)) :
    maxSatPlanted x k c E = if E.length = c ∧ ∀ clause ∈ E, IsClause x.length k clause ∧ ∃ lit ∈ clause, LitTrue x lit then
      (E.map (fun clause => (if trueLiterals x clause = 1 then 1 + (k : ℝ≥0∞)⁻¹ else 1)
        * (((x.length.choose k : ℕ) : ℝ≥0∞) * 2 ^ k)⁻¹)).prod else 0 := by
  unfold maxSatPlanted
  rw [Dist.assert_bind (by simpa using hk), Dist.assert_bind (by simpa using hc), Dist.assert_bind (by simpa using hkn)]
  have h := clauses_loop hkn c (repairClause x)
  have hend : ∀ e : List (List ℤ), famLaw (fun _ => clauseLaw x.length k >>= repairClause x) 0 c e ≠ 0 →
      e.length = c ∧ ∀ cl ∈ e, IsClause x.length k cl ∧ 0 < trueLiterals x cl := by
    intro e he
    rw [famLaw_same] at he
    by_cases hl : e.length = c
    · rw [if_pos hl] at he
      refine ⟨hl, fun cl hcl => ?_⟩
      by_contra hno
      refine he (List.prod_eq_zero (List.mem_map.mpr ⟨cl, hcl, ?_⟩))
      exact (planted_apply hk cl).trans (if_neg hno)
    · exact absurd (if_neg hl) he
  have hfin : ∀ e : List (List ℤ), famLaw (fun _ => clauseLaw x.length k >>= repairClause x) 0 c e ≠ 0 →
      (Dist.lift (maxSatEval e x) >>= fun value => Dist.lift (assert (value == e.length)) >>= fun _ => (pure e : Dist (List (List ℤ)))) = pure e := by
    intro e he
    obtain ⟨_, h2⟩ := hend e he
    rw [maxSat_value e x (fun cl hcl => (h2 cl hcl).1.2.1), Dist.lift_ok, Dist.pure_bind', Dist.assert_bind]
    have : e.countP (fun clause => decide (∃ lit ∈ clause, LitTrue x lit)) = e.length := by
      rw [List.countP_eq_length]
      intro cl hcl
      simpa using satisfied_iff.mpr (h2 cl hcl).2
    rw [this]
    exact beq_self_eq_true _
  have h3 : (Dist.forRange 0 c (fun i (st : List (List ℤ) × BV) => (do
      let r ← randomClause k i st.1 st.2
      let clause ← repairClause x r.1
      let expression ← Dist.lift (vset st.1 i clause)
      pure (expression, r.2) : Dist (List (List ℤ) × BV))) (List.replicate c (List.replicate k 0), List.replicate x.length false) >>=
        fun st => Dist.lift (maxSatEval st.1 x) >>= fun value => Dist.lift (assert (value == st.1.length)) >>= fun _ => (pure st.1 : Dist (List (List ℤ))))
      = famLaw (fun _ => clauseLaw x.length k >>= repairClause x) 0 c := by
    conv_rhs => rw [← Dist.bind_pure' (famLaw _ 0 c)]
    rw [← Dist.bind_congr_support hfin, ← h, Dist.bind_assoc']
    congr 1
    funext st
    rw [Dist.pure_bind']
  rw [h3, famLaw_same]
  by_cases hl : E.length = c
  · rw [if_pos hl]
    by_cases hall : ∀ cl ∈ E, IsClause x.length k cl ∧ ∃ lit ∈ cl, LitTrue x lit
    · rw [if_pos ⟨hl, hall⟩]
      congr 1
      refine List.map_congr_left (fun cl hcl => ?_)
      obtain ⟨h4, h5⟩ := hall cl hcl
      exact (planted_apply hk cl).trans (if_pos ⟨h4, satisfied_iff.mp h5⟩)
    · rw [if_neg (fun h => hall h.2)]
      push Not at hall
      obtain ⟨cl, hcl, hno⟩ := hall
      refine List.prod_eq_zero (List.mem_map.mpr ⟨cl, hcl, ?_⟩)
      refine (planted_apply hk cl).trans (if_neg ?_)
      rintro ⟨h4, h5⟩
      obtain ⟨lit, h6, h7⟩ := satisfied_iff.mpr h5
      exact hno h4 lit h6 h7
  · rw [if_neg hl, if_neg (fun h => hl h.1)]

/-- C116: hence, with at least two literals per clause, the satisfied clauses are not equally likely: an expression made of a
clause with one true literal is `1 + 1/k` times as likely as one made of a clause with more of them. -/
theorem planted_biased {x : BV} {k : ℕ} (hk : 0 < k) {a b : List ℤ} (ha : IsClause x.length k a) (hb : IsClause x.length k b)
    (h1 : trueLiterals x a = 1) (h2 : 1 < trueLiterals x b) :
    maxSatPlanted x k 1 [a] = (1 + (k : ℝ≥0∞)⁻¹) * maxSatPlanted x k 1 [b] ∧ maxSatPlanted x k 1 [b] ≠ 0 := by
  have hkn : k ≤ x.length := by
    have h3 : Ascending 1 x.length (a.map Int.natAbs) := by
      refine ⟨ha.2.2, fun j hj => ?_⟩
      obtain ⟨lit, hl, rfl⟩ := List.mem_map.mp hj
      have h4 := (ha.2.1 lit hl).1
      have h5 := (ha.2.1 lit hl).2
      omega
    have := h3.length_le
    rw [List.length_map, ha.1] at this
    exact this
  rw [maxSatPlanted_law hk Nat.one_pos hkn, maxSatPlanted_law hk Nat.one_pos hkn,
    if_pos ⟨rfl, by simpa using ⟨ha, satisfied_iff.mpr (by omega)⟩⟩, if_pos ⟨rfl, by simpa using ⟨hb, satisfied_iff.mpr (by omega)⟩⟩]
  simp only [List.map_cons, List.map_nil, List.prod_cons, List.prod_nil, mul_one, h1, if_true]
  rw [if_neg (by omega), one_mul]
  refine ⟨rfl, ENNReal.inv_ne_zero.mpr ?_⟩
  finiteness

/-! ## NK landscapes -/

theorem chooseLaw_none (i m : ℕ) : chooseLaw i m 0 = pure [] := by
  classical
  ext r
  rw [chooseLaw_apply, Dist.pure_apply]
  by_cases h : r = []
  · subst h
    rw [if_pos ⟨⟨List.Pairwise.nil, by simp⟩, rfl⟩, if_pos rfl]
    simp
  · rw [if_neg (by simp [h]), if_neg h]

/-- The site number `idx` among those which are not `i`. -/
def skip (i idx : ℕ) : ℕ := if idx < i then idx else idx + 1

theorem nk_done (i : ℕ) : ∀ (m j : ℕ) (s : NkPick), s.a = 0 → Dist.forLoop m j (nkNeighbor i) s = pure s := by
  intro m
  induction m with
  | zero => intro j s _; rfl
  | succ m ih =>
    intro j s hs
    change (nkNeighbor i j s >>= fun s => Dist.forLoop m (j + 1) (nkNeighbor i) s) = _
    unfold nkNeighbor
    rw [if_pos hs, Dist.pure_bind']
    exact ih _ _ hs

theorem nk_loop (i : ℕ) : ∀ (m j a : ℕ) (row : List ℕ), i < j + m → a ≤ (if i < j then m else m - 1) → a ≤ row.length →
    (Dist.forLoop m j (nkNeighbor i) ⟨a, if i < j then m else m - 1, row⟩ >>= fun s => (pure (s.a, s.row) : Dist (ℕ × List ℕ)))
      = (chooseLaw (if i < j then j - 1 else j) (if i < j then m else m - 1) a >>= fun l => pure (0, (l.map (skip i)).reverse ++ row.drop a)) := by
  intro m
  induction m with
  | zero =>
    intro j a row hij ha hr
    rw [if_pos (by omega)] at ha ⊢
    obtain rfl : a = 0 := by omega
    rw [chooseLaw_none, Dist.pure_bind']
    exact Dist.pure_bind' _ _
  | succ m ih =>
    intro j a row hij ha hr
    by_cases h0 : a = 0
    · subst h0
      rw [nk_done i _ _ _ rfl, Dist.pure_bind', chooseLaw_none, Dist.pure_bind']
      rfl
    change ((nkNeighbor i j ⟨a, _, row⟩ >>= fun s => Dist.forLoop m (j + 1) (nkNeighbor i) s) >>= _) = _
    by_cases hji : j = i
    · subst hji
      have hstep : ∀ b, nkNeighbor j j ⟨a, b, row⟩ = pure ⟨a, b, row⟩ := by
        intro b
        unfold nkNeighbor
        rw [if_neg h0, if_pos rfl]
      rw [if_neg (lt_irrefl _), if_neg (lt_irrefl _), Nat.add_sub_cancel, hstep, Dist.pure_bind']
      rw [if_neg (lt_irrefl _), Nat.add_sub_cancel] at ha
      have := ih (j + 1) a row (by omega) (by rw [if_pos (by omega)]; exact ha) hr
      rw [if_pos (by omega), if_pos (by omega), Nat.add_sub_cancel] at this
      exact this
    · set M := if i < j + 1 then m else m - 1 with hM
      have hM1 : (if i < j then m + 1 else m + 1 - 1) = M + 1 := by
        rw [hM]
        by_cases h : i < j
        · rw [if_pos h, if_pos (by omega)]
        · rw [if_neg h, if_neg (by omega)]; omega
      have hidx : (if i < j + 1 then j + 1 - 1 else j + 1) = (if i < j then j - 1 else j) + 1 := by
        by_cases h : i < j
        · rw [if_pos h, if_pos (by omega)]; omega
        · rw [if_neg h, if_neg (by omega)]
      have hskip : skip i (if i < j then j - 1 else j) = j := by
        unfold skip
        by_cases h : i < j
        · rw [if_pos h, if_neg (by omega)]; omega
        · rw [if_neg h, if_pos (by omega)]
      rw [hM1] at ha ⊢
      have hset : ∀ v, vset row (a - 1) v = ok (row.set (a - 1) v) := fun v => vset_eq (by omega)
      have hbody : nkNeighbor i j ⟨a, M + 1, row⟩ = (Dist.coin ((a : ℝ≥0∞) / ((M + 1 : ℕ) : ℝ≥0∞)) >>= fun b =>
          if b then (pure ⟨a - 1, M, row.set (a - 1) j⟩ : Dist NkPick) else pure ⟨a, M, row⟩) := by
        unfold nkNeighbor
        rw [if_neg h0, if_neg hji, Dist.assert_bind (by simpa using ha)]
        congr 1
        funext b
        cases b
        · rfl
        · simp only [if_true]
          rw [hset, Dist.lift_ok, Dist.pure_bind']
          rfl
      rw [hbody, Dist.bind_assoc', Dist.bind_assoc', chooseLaw_succ _ _ _ ha, Dist.bind_assoc']
      have ht : ((pure ⟨a - 1, M, row.set (a - 1) j⟩ : Dist NkPick) >>= fun s => Dist.forLoop m (j + 1) (nkNeighbor i) s >>=
            fun s => (pure (s.a, s.row) : Dist (ℕ × List ℕ)))
          = ((chooseLaw ((if i < j then j - 1 else j) + 1) M (a - 1) >>= fun r => (pure ((if i < j then j - 1 else j) :: r) : Dist (List ℕ))) >>=
            fun l => pure (0, (l.map (skip i)).reverse ++ row.drop a)) := by
        rw [Dist.pure_bind', ih (j + 1) (a - 1) _ (by omega) (by omega) (by rw [List.length_set]; omega), hidx, Dist.bind_assoc']
        congr 1
        funext l
        have hdrop : (row.set (a - 1) j).drop (a - 1) = j :: row.drop a := by
          rw [List.drop_eq_getElem_cons (by rw [List.length_set]; omega), List.getElem_set_self, show a - 1 + 1 = a by omega,
            List.drop_set_of_lt (by omega)]
        rw [Dist.pure_bind', hdrop, List.map_cons, hskip, List.reverse_cons, List.append_assoc, List.singleton_append]
      have hf : a ≤ M → ((pure ⟨a, M, row⟩ : Dist NkPick) >>= fun s => Dist.forLoop m (j + 1) (nkNeighbor i) s >>=
            fun s => (pure (s.a, s.row) : Dist (ℕ × List ℕ)))
          = (chooseLaw ((if i < j then j - 1 else j) + 1) M a >>= fun l => pure (0, (l.map (skip i)).reverse ++ row.drop a)) := by
        intro haM
        rw [Dist.pure_bind', ih (j + 1) a _ (by omega) haM hr, hidx]
      by_cases hkm : a = M + 1
      · have : (a : ℝ≥0∞) / ((M + 1 : ℕ) : ℝ≥0∞) = 1 := by
          rw [hkm]
          exact ENNReal.div_self (by simp) (ENNReal.natCast_ne_top _)
        rw [this, Dist.coin_one, Dist.coin_one, if_pos rfl, if_pos rfl, ht]
      · congr 1
        funext b
        cases b
        · simp only [Bool.false_eq_true, if_false]
          exact hf (by omega)
        · simp only [if_true]
          exact ht

/-- The law of the neighbours of a site. -/
noncomputable def rowLaw (n k i : ℕ) : Dist (List ℕ) :=
  chooseLaw 0 (n - 1) k >>= fun l => pure ((l.map (skip i)).reverse ++ [i])

theorem skip_injective (i : ℕ) : Function.Injective (skip i) := by
  intro a b h
  unfold skip at h
  split at h <;> split at h <;> omega

open Classical in
theorem rowLaw_apply {n k i : ℕ} (hi : i < n) (r : List ℕ) :
    rowLaw n k i r = if IsRow n k i r then (((n - 1).choose k : ℕ) : ℝ≥0∞)⁻¹ else 0 := by
  have hinj : Function.Injective (fun l : List ℕ => (l.map (skip i)).reverse ++ [i]) := by
    intro a b h
    exact (List.map_injective_iff.mpr (skip_injective i)) (List.reverse_injective (List.append_cancel_right h))
  unfold rowLaw
  by_cases h : IsRow n k i r
  · rw [if_pos h]
    obtain ⟨o, rfl, ho, hp, hm⟩ := h
    have hs : ∀ j ∈ o, skip i (if j < i then j else j - 1) = j := by
      intro j hj
      have := hm j hj
      unfold skip
      by_cases hji : j < i
      · rw [if_pos hji, if_pos hji]
      · rw [if_neg hji, if_neg (by omega)]; omega
    have e : o ++ [i] = ((o.reverse.map (fun j => if j < i then j else j - 1)).map (skip i)).reverse ++ [i] := by
      congr 1
      rw [List.map_map, List.map_reverse, List.reverse_reverse]
      conv_lhs => rw [← List.map_id o]
      exact List.map_congr_left (fun j hj => (hs j hj).symm)
    rw [e, Dist.map_apply_inj (chooseLaw 0 (n - 1) k) (f := fun l : List ℕ => (l.map (skip i)).reverse ++ [i]) hinj, chooseLaw_apply,
      if_pos]
    refine ⟨⟨?_, ?_⟩, by simpa using ho⟩
    · rw [List.pairwise_map, List.pairwise_reverse]
      refine hp.imp_of_mem (fun {a b} ha hb hab => ?_)
      have h1 := hm a ha
      have h2 := hm b hb
      split <;> split <;> omega
    · intro j hj
      obtain ⟨a, ha, rfl⟩ := List.mem_map.mp hj
      have h1 := hm a (List.mem_reverse.mp ha)
      split <;> omega
  · rw [if_neg h, Dist.bind_apply, ENNReal.tsum_eq_zero]
    intro l
    rw [Dist.pure_apply]
    by_cases hr : r = (l.map (skip i)).reverse ++ [i]
    · rw [chooseLaw_apply, if_neg, zero_mul]
      rintro ⟨⟨h1, h2⟩, h3⟩
      refine h ⟨(l.map (skip i)).reverse, hr, by simpa using h3, ?_, ?_⟩
      · rw [List.pairwise_reverse, List.pairwise_map]
        refine h1.imp (fun {a b} hab => ?_)
        unfold skip
        split <;> split <;> omega
      · intro j hj
        obtain ⟨a, ha, rfl⟩ := List.mem_map.mp (List.mem_reverse.mp hj)
        have := h2 a ha
        unfold skip
        split <;> omega
    · rw [if_neg hr, mul_zero]

theorem fill_plain {α : Type} {d : ℕ → Dist α} {body : ℕ → List α → Dist (List α)} {a₀ : α} : ∀ (m i : ℕ) (pre : List α), pre.length = i →
    (∀ j pre rest, pre.length = j → i ≤ j → j < i + m → body j (pre ++ a₀ :: rest) = (d j >>= fun a => pure (pre ++ a :: rest))) →
      Dist.forLoop m i body (pre ++ List.replicate m a₀) = (famLaw d i m >>= fun l => pure (pre ++ l)) := by
  intro m
  induction m with
  | zero =>
    intro i pre _ _
    rw [famLaw, Dist.pure_bind']
    rfl
  | succ m ih =>
    intro i pre hp hbody
    have e : Dist.forLoop (m + 1) i body (pre ++ List.replicate (m + 1) a₀)
        = (body i (pre ++ a₀ :: List.replicate m a₀) >>= fun s => Dist.forLoop m (i + 1) body s) := rfl
    rw [e, hbody i pre _ hp (le_refl _) (by omega), famLaw, Dist.bind_assoc', Dist.bind_assoc']
    congr 1
    funext a
    have := ih (i + 1) (pre ++ [a]) (by simp [hp]) (fun j pre rest h1 h2 h3 => hbody j pre rest h1 (by omega) (by omega))
    rw [Dist.pure_bind', show pre ++ a :: List.replicate m a₀ = pre ++ [a] ++ List.replicate m a₀ by simp, this, Dist.bind_assoc']
    congr 1
    funext l
    rw [Dist.pure_bind']
    simp

open Classical in
/-- C116: for each site all sets of `k` other sites are equally likely, independently of the other sites. -/
theorem nkStructure_law {n k : ℕ} (hk : 0 < k) (hkn : k < n) (N : List (List ℕ)) :
    nkStructure n k N = if N.length = n ∧ ∀ i row, N[i]? = some row → IsRow n k i row then ((((n - 1).choose k : ℕ) : ℝ≥0∞)⁻¹) ^ n else 0 := by
  unfold nkStructure
  rw [Dist.assert_bind (by simp; omega), Dist.assert_bind (by simpa using hk)]
  unfold Dist.forRange
  rw [Nat.sub_zero]
  have h := fill_plain (d := rowLaw n k) (body := nkSite n) (a₀ := List.replicate (k + 1) 0) n 0 [] rfl (fun i pre rest hp _ hi => ?_)
  · rw [show List.replicate n (List.replicate (k + 1) 0) = [] ++ List.replicate n (List.replicate (k + 1) 0) from rfl, h]
    simp only [List.nil_append]
    rw [Dist.bind_pure', famLaw_uniform (P := fun i r => IsRow n k i r) n 0 (fun j a _ hj => rowLaw_apply (by omega) a)]
    simp only [Nat.zero_add]
  · obtain ⟨hlt, hget⟩ := List.getElem?_eq_some_iff.mp (vget_middle pre rest (List.replicate (k + 1) 0) hp)
    unfold nkSite
    rw [vget_eq hlt, hget, Dist.lift_ok, Dist.pure_bind', Dist.assert_bind (by simp), List.length_replicate, Nat.add_sub_cancel,
      vset_eq (by simp), Dist.lift_ok, Dist.pure_bind', List.length_set, List.length_replicate, Nat.add_sub_cancel]
    unfold Dist.forRange
    rw [Nat.sub_zero]
    have hl := nk_loop i n 0 k ((List.replicate (k + 1) 0).set k i) (by omega) (by rw [if_neg (by omega)]; omega) (by simp)
    rw [if_neg (by omega), if_neg (by omega)] at hl
    have hdrop : ((List.replicate (k + 1) 0).set k i).drop k = [i] := by
      rw [List.drop_eq_getElem_cons (by simp), List.getElem_set_self, List.drop_eq_nil_of_le (by simp)]
    rw [hdrop] at hl
    have h2 : ∀ d : Dist NkPick, (d >>= fun s => Dist.lift (assert (decide (s.a = 0))) >>= fun _ => Dist.lift (vset (pre ++ List.replicate (k + 1) 0 :: rest) i s.row))
        = ((d >>= fun s => (pure (s.a, s.row) : Dist (ℕ × List ℕ))) >>= fun p => Dist.lift (assert (decide (p.1 = 0))) >>=
          fun _ => Dist.lift (vset (pre ++ List.replicate (k + 1) 0 :: rest) i p.2)) := by
      intro d
      rw [Dist.bind_assoc']
      congr 1
      funext s
      rw [Dist.pure_bind']
    rw [h2, hl, Dist.bind_assoc']
    unfold rowLaw
    rw [Dist.bind_assoc']
    congr 1
    funext l
    rw [Dist.pure_bind', Dist.assert_bind (by simp), vset_middle pre rest _ _ hp, Dist.lift_ok, Dist.pure_bind']

/-! ## Numbers and features -/

/-- C116: the numbers of a partition are independent and uniform between one and the bound. -/
theorem partitionRandom_law {n upperBound : ℕ} (hn : 0 < n) (hu : 0 < upperBound) (numbers : List ℕ) :
    partitionRandom n upperBound numbers
      = if numbers.length = n ∧ ∀ a ∈ numbers, 1 ≤ a ∧ a ≤ upperBound then ((upperBound : ℝ≥0∞)⁻¹) ^ n else 0 := by
  classical
  unfold partitionRandom
  rw [Dist.assert_bind (by simpa using hn), Dist.assert_bind (by simpa using hu)]
  unfold Dist.forRange
  rw [Nat.sub_zero]
  have h := fill_plain (d := fun _ => Dist.uniformInt 1 upperBound) (a₀ := 0) (body := fun i numbers => (do
    let number ← Dist.uniformInt 1 upperBound
    Dist.lift (vset numbers i number) : Dist (List ℕ))) n 0 [] rfl (fun i pre rest hp _ hi => ?_)
  · rw [show List.replicate n 0 = [] ++ List.replicate n 0 from rfl, h]
    simp only [List.nil_append]
    rw [Dist.bind_pure', famLaw_uniform (P := fun _ a => 1 ≤ a ∧ a ≤ upperBound) (u := (upperBound : ℝ≥0∞)⁻¹) n 0 (fun j a _ hj => ?_)]
    · refine if_congr (and_congr_right (fun _ => ⟨fun h a ha => ?_, fun h j a ha => h a (List.mem_of_getElem? ha)⟩)) rfl rfl
      obtain ⟨j, hj⟩ := List.getElem?_of_mem ha
      exact h j a hj
    · change (if 1 ≤ a ∧ a ≤ upperBound then ((upperBound - 1 + 1 : ℕ) : ℝ≥0∞)⁻¹ else 0) = _
      rw [show upperBound - 1 + 1 = upperBound by omega]
      congr
  · congr 1
    funext a
    rw [vset_middle pre rest _ _ hp, Dist.lift_ok]

/-- C116: the features of a Walsh expansion are independent and uniform. -/
theorem walshFeatures_law {n m : ℕ} (hn : 0 < n) (hm : 0 < m) (features : List BV) :
    walshFeatures n m features
      = if features.length = m ∧ ∀ x ∈ features, x.length = n then (((2 : ℝ≥0∞) ^ n)⁻¹) ^ m else 0 := by
  classical
  unfold walshFeatures
  rw [Dist.assert_bind (by simpa using hn), Dist.assert_bind (by simpa using hm)]
  have hlaw : ∀ x : BV, x.length = n → ∀ y, bvRandomBits x y = if y.length = n then ((2 : ℝ≥0∞) ^ n)⁻¹ else 0 := by
    intro x hx y
    rw [bvRandomBits_law, hx]
  have hsame : ∀ x : BV, x.length = n → bvRandomBits x = bvRandomBits (List.replicate n false) := by
    intro x hx
    ext y
    rw [hlaw x hx, hlaw _ (by simp)]
  have h := fill_range (α := BV) (σ := BV) (d := fun _ => bvRandomBits (List.replicate n false)) (a₀ := ([] : BV)) (I := fun x => x.length = n)
    (step := fun _ x => bvRandomBits x >>= fun y => (pure (y, y) : Dist (BV × BV)))
    (body := fun i (st : List BV × BV) => (do
      let bv ← bvRandomBits st.2
      let features ← Dist.lift (vset st.1 i bv)
      pure (features, bv) : Dist (List BV × BV)))
    (fun i pre rest x hp hx => by
      dsimp only
      rw [Dist.bind_assoc']
      congr 1
      funext y
      rw [vset_middle pre rest _ _ hp, Dist.lift_ok, Dist.pure_bind', Dist.pure_bind'])
    (fun i x r hx hr => by
      obtain ⟨y, hy, hr⟩ := bind_support hr
      rw [pure_support hr]
      rw [hlaw x hx] at hy
      by_contra h
      exact hy (if_neg h))
    (fun i x hx => by
      rw [Dist.bind_assoc', hsame x hx]
      conv_rhs => rw [← Dist.bind_pure' (bvRandomBits _)]
      congr 1
      funext y
      rw [Dist.pure_bind']) m (x := List.replicate n false) (by simp)
  rw [h, famLaw_uniform (P := fun _ x => x.length = n) (u := ((2 : ℝ≥0∞) ^ n)⁻¹) m 0 (fun _ x _ _ => by rw [hlaw _ List.length_replicate x]; congr)]
  refine if_congr (and_congr_right (fun _ => ⟨fun h a ha => ?_, fun h j a ha => h a (List.mem_of_getElem? ha)⟩)) rfl rfl
  obtain ⟨j, hj⟩ := List.getElem?_of_mem ha
  exact h j a hj

/-! ## Examples -/

/-- Two clauses of two literals over three variables: one out of `12 ^ 2` expressions. -/
example : maxSatRandom 3 2 2 [[1, -3], [-2, 3]] = ((((Nat.choose 3 2 : ℕ) : ℝ≥0∞) * 2 ^ 2)⁻¹) ^ 2 := by
  rw [maxSatRandom_law (by decide) (by decide) (by decide), if_pos]
  refine ⟨rfl, ?_⟩
  unfold IsClause
  decide

/-- The variables have to be in order. -/
example : maxSatRandom 3 2 1 [[3, -1]] = 0 := by
  rw [maxSatRandom_law (by decide) (by decide) (by decide), if_neg]
  unfold IsClause
  decide

/-- The second clause has two true literals, the first one only one. -/
example : maxSatPlanted [true, false, true] 2 1 [[1, 2]] = (1 + ((2 : ℕ) : ℝ≥0∞)⁻¹) * maxSatPlanted [true, false, true] 2 1 [[1, -2]] :=
  (planted_biased (by decide) (by unfold IsClause; decide) (by unfold IsClause; decide) (by decide) (by decide)).1

/-- A clause which the solution does not satisfy is never drawn. -/
example : maxSatPlanted [true, false, true] 2 1 [[-1, 2]] = 0 := by
  rw [maxSatPlanted_law (by decide) (by decide) (by decide), if_neg]
  rintro ⟨_, h⟩
  obtain ⟨_, h⟩ := h [-1, 2] (by simp)
  revert h
  decide

/-- Four sites with two neighbours each: one out of `3 ^ 4` structures. -/
example : nkStructure 4 2 [[2, 1, 0], [3, 0, 1], [3, 1, 2], [1, 0, 3]] = (((Nat.choose 3 2 : ℕ) : ℝ≥0∞)⁻¹) ^ 4 := by
  rw [nkStructure_law (by decide) (by decide), if_pos]
  refine ⟨rfl, fun i row h => ?_⟩
  match i with
  | 0 => obtain rfl : [2, 1, 0] = row := by simpa using h
         exact ⟨[2, 1], rfl, rfl, by decide, by decide⟩
  | 1 => obtain rfl : [3, 0, 1] = row := by simpa using h
         exact ⟨[3, 0], rfl, rfl, by decide, by decide⟩
  | 2 => obtain rfl : [3, 1, 2] = row := by simpa using h
         exact ⟨[3, 1], rfl, rfl, by decide, by decide⟩
  | 3 => obtain rfl : [1, 0, 3] = row := by simpa using h
         exact ⟨[1, 0], rfl, rfl, by decide, by decide⟩
  | i + 4 => simp at h

example : partitionRandom 3 10 [7, 10, 1] = (((10 : ℕ) : ℝ≥0∞)⁻¹) ^ 3 := by
  rw [partitionRandom_law (by decide) (by decide), if_pos (by decide)]

example : walshFeatures 2 3 [[true, false], [false, false], [true, false]] = (((2 : ℝ≥0∞) ^ 2)⁻¹) ^ 3 := by
  rw [walshFeatures_law (by decide) (by decide), if_pos (by decide)]

end Hnco.Prob
