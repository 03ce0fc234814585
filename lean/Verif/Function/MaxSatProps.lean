import Verif.Function.MaxSat
import Verif.BitVector.Props

/-!
# MAX-SAT: evaluation and random instances (C40)
-/

namespace Hnco

open Outcome

/-! ## Specification -/

/-- A literal over `n` variables. -/
def IsLiteral (n : Nat) (lit : Int) : Prop := lit ≠ 0 ∧ lit.natAbs ≤ n

instance (n : Nat) (lit : Int) : Decidable (IsLiteral n lit) := by unfold IsLiteral; infer_instance

/-- The assignment `x` makes the literal true: a positive literal `i` is variable number `i`, numbered from 1,
a negative literal `-i` its negation. -/
def LitTrue (x : BV) (lit : Int) : Prop :=
  (0 < lit ∧ x[lit.natAbs - 1]? = some true) ∨ (lit < 0 ∧ x[lit.natAbs - 1]? = some false)

instance (x : BV) (lit : Int) : Decidable (LitTrue x lit) := by unfold LitTrue; infer_instance

/-- All literals of the expression are over `n` variables. -/
def IsExpression (n : Nat) (expression : List (List Int)) : Prop :=
  ∀ clause ∈ expression, ∀ lit ∈ clause, IsLiteral n lit

/-- `c` clauses of `k` literals over `n` variables, where each variable appears at most once in a clause. -/
def IsInstance (n k c : Nat) (expression : List (List Int)) : Prop :=
  expression.length = c ∧ IsExpression n expression ∧
  ∀ clause ∈ expression, clause.length = k ∧ (clause.map Int.natAbs).Nodup

/-! ## Evaluation -/

theorem literalTest_eq (x : BV) (lit : Int) (h : IsLiteral x.length lit) :
    literalTest x lit = ok (decide (LitTrue x lit)) := by
  obtain ⟨h0, hn⟩ := h
  unfold literalTest LitTrue
  by_cases hp : 0 < lit
  · have e : (lit - 1).toNat = lit.natAbs - 1 := by omega
    have hlt : lit.natAbs - 1 < x.length := by omega
    rw [if_pos hp, e, vget_eq hlt]
    simp [hp, hlt]
    omega
  · have hneg : lit < 0 := by omega
    have e : (-lit - 1).toNat = lit.natAbs - 1 := by omega
    have hlt : lit.natAbs - 1 < x.length := by omega
    rw [if_neg hp, if_pos hneg, e, vget_eq hlt, ok_bind]
    simp [hneg, hp, hlt]

theorem clauseTest_eq (x : BV) (clause : List Int) (h : ∀ lit ∈ clause, IsLiteral x.length lit) :
    clauseTest x clause = ok (decide (∃ lit ∈ clause, LitTrue x lit)) := by
  induction clause with
  | nil => simp [clauseTest]
  | cons lit clause ih =>
    rw [clauseTest, literalTest_eq x lit (h lit (by simp)), ok_bind]
    by_cases ht : LitTrue x lit
    · simp [ht]
    · simp only [ht, decide_false, Bool.false_eq_true, if_false]
      rw [ih (fun l hl => h l (by simp [hl]))]
      simp [ht]

theorem forEach_count {α : Type} (l : List α) (p : α → Bool) (body : α → Nat → Outcome Nat) (r : Nat)
    (h : ∀ a ∈ l, ∀ r, body a r = ok (if p a then r + 1 else r)) :
    forEach l body r = ok (r + l.countP p) := by
  induction l generalizing r with
  | nil => rfl
  | cons a l ih =>
    rw [forEach, h a (by simp), ok_bind, ih _ (fun b hb => h b (by simp [hb]))]
    rw [List.countP_cons]
    cases p a
    · simp
    · simp; omega

/-- C40: the value is the number of clauses which have a true literal. -/
theorem maxSat_value (expression : List (List Int)) (x : BV) (h : IsExpression x.length expression) :
    maxSatEval expression x = ok (expression.countP (fun clause => ∃ lit ∈ clause, LitTrue x lit)) := by
  unfold maxSatEval
  rw [forEach_count expression (fun clause => decide (∃ lit ∈ clause, LitTrue x lit)), Nat.zero_add]
  intro clause hc r
  rw [clauseTest_eq x clause (h clause hc), ok_bind]
  split <;> rfl

example : IsExpression 3 [[1, -2], [2, 3]] := by
  unfold IsExpression; decide
example : maxSatEval [[1, -2], [2, 3], []] [false, true, false] = ok 1 := by decide

/-- C40: the value of MAX-NAE-3SAT is the number of clauses which have both a true and a false literal. -/
theorem maxNae3Sat_value (expression : List (List Int)) (x : BV) (h : IsExpression x.length expression)
    (h3 : ∀ clause ∈ expression, clause.length = 3) :
    maxNae3SatEval expression x = ok (expression.countP (fun clause =>
      (∃ lit ∈ clause, LitTrue x lit) ∧ (∃ lit ∈ clause, ¬ LitTrue x lit))) := by
  unfold maxNae3SatEval
  rw [forEach_count expression (fun clause => decide ((∃ lit ∈ clause, LitTrue x lit) ∧
    (∃ lit ∈ clause, ¬ LitTrue x lit))), Nat.zero_add]
  intro clause hc r
  rw [forEach_count clause (fun lit => decide (LitTrue x lit)) _ 0 ?_, ok_bind, Nat.zero_add]
  · have e0 : clause.countP (fun lit => decide (LitTrue x lit)) ≠ 0 ↔ ∃ lit ∈ clause, LitTrue x lit := by
      rw [Ne, List.countP_eq_zero]; simp
    have e3 : clause.countP (fun lit => decide (LitTrue x lit)) ≠ 3 ↔ ∃ lit ∈ clause, ¬ LitTrue x lit := by
      rw [← h3 clause hc, Ne, List.countP_eq_length]; simp
    by_cases hh : (∃ lit ∈ clause, LitTrue x lit) ∧ (∃ lit ∈ clause, ¬ LitTrue x lit)
    · rw [if_pos ⟨e0.mpr hh.1, e3.mpr hh.2⟩, if_pos (decide_eq_true hh)]
    · rw [if_neg (fun h => hh ⟨e0.mp h.1, e3.mp h.2⟩), if_neg (by rw [decide_eq_true_eq]; exact hh)]
  · intro lit hl r
    rw [literalTest_eq x lit (h clause hc lit hl), ok_bind]
    split <;> rfl

example : maxNae3SatEval [[1, -2, 3], [1, 2, 3], [-1, -2, 3]] [false, true, false] = ok 2 := by decide

/-- C40: a literal and its opposite have opposite truth values. -/
theorem litTrue_neg (x : BV) (lit : Int) (h : IsLiteral x.length lit) : LitTrue x (-lit) ↔ ¬ LitTrue x lit := by
  obtain ⟨h0, hn⟩ := h
  unfold LitTrue
  rw [Int.natAbs_neg]
  have hlt : lit.natAbs - 1 < x.length := by omega
  rw [List.getElem?_eq_getElem hlt]
  by_cases hp : 0 < lit
  · have h1 : ¬ lit < 0 := by omega
    simp [hp, h1]
  · have h1 : lit < 0 := by omega
    simp [hp, h1]

/-! ## Random instances -/

theorem Post_bvRandomSim {K : Type} [LT K] [DecidableLT K] (ratio : Nat → Nat → K) (uniform : Nat → Nat → K)
    (hu : ∀ d n j, 0 < n → uniform d j < ratio n n) (x : BV) (k : Nat) (hk : k ≤ x.length) :
    Sim.Post (bvRandomSim ratio uniform x k) (fun y => y.length = x.length ∧ bvHammingWeight y = k) :=
  Sim.Post.draw.bind (fun d _ => Sim.Post.lift (bvRandom_weight ratio (uniform d) (hu d) x k hk))

/-- What the loop writing a clause does. -/
theorem Post_randomLiterals (x : BV) (clause : List Int) (h : clause.length = bvHammingWeight x) :
    Sim.Post (randomLiterals x clause) (fun r => r.2 = bvHammingWeight x ∧ r.1.length = clause.length ∧
      (∀ lit ∈ r.1, IsLiteral x.length lit) ∧ (r.1.map Int.natAbs).Pairwise (· < ·)) := by
  rw [bvHammingWeight_eq] at h ⊢
  refine (Sim.Post.forRange (fun j (st : List Int × Nat) => st.1.length = clause.length ∧
    st.2 = (x.take j).count true ∧ (∀ lit ∈ st.1.take st.2, lit ≠ 0 ∧ lit.natAbs ≤ j) ∧
    ((st.1.take st.2).map Int.natAbs).Pairwise (· < ·)) (Nat.zero_le _) (by simp) ?_).mono ?_
  · rintro j ⟨cl, count⟩ - hj ⟨h1, h2, h3, h4⟩
    simp only at h1 h2 h3 h4
    have htake : x.take (j + 1) = x.take j ++ [x[j]] := by simp
    rw [vget_eq hj]
    change Sim.Post (if x[j] then _ else _) _
    cases hb : x[j] with
    | false =>
      simp only [Bool.false_eq_true, if_false]
      refine Sim.Post.pure ⟨h1, ?_, fun lit hl => ⟨(h3 lit hl).1, ?_⟩, h4⟩
      · rw [htake, hb]; simpa using h2
      · have := (h3 lit hl).2; omega
    | true =>
      simp only [if_true]
      refine Sim.Post.bernoulli.bind ?_
      intro positive _
      have hcount : count < cl.length := by
        rw [h1, h, h2]
        have : (x.take (j + 1)).count true ≤ x.count true :=
          (List.take_sublist (j + 1) x).count_le true
        rw [htake, hb] at this
        simp at this
        omega
      generalize hlit : (if positive then (j : Int) + 1 else -((j : Int) + 1)) = lit
      have habs : lit.natAbs = j + 1 := by
        rw [← hlit]; split <;> omega
      have htk : (cl.set count lit).take (count + 1) = cl.take count ++ [lit] := by
        rw [List.take_set, List.take_succ_eq_append_getElem hcount, List.set_append_right _ _ (by simp)]
        simp [Nat.min_eq_left (Nat.le_of_lt hcount)]
      refine (Sim.Post.lift (P := fun cl' => cl' = cl.set count lit) ⟨_, vset_eq hcount, rfl⟩).bind ?_
      rintro _ rfl
      refine Sim.Post.pure ⟨by simpa using h1, ?_, ?_, ?_⟩
      · simp only; rw [htake, hb]; simp [h2]
      · simp only; rw [htk]
        intro l hl
        rcases List.mem_append.mp hl with hl | hl
        · have := h3 l hl; exact ⟨this.1, by omega⟩
        · simp only [List.mem_singleton] at hl
          subst hl
          constructor
          · intro h; rw [h] at habs; simp at habs
          · omega
      · simp only; rw [htk, List.map_append, List.pairwise_append]
        refine ⟨h4, by simp, ?_⟩
        intro a ha b hb'
        obtain ⟨l, hl, rfl⟩ := List.mem_map.mp ha
        simp only [List.map_cons, List.map_nil, List.mem_singleton] at hb'
        have := (h3 l hl).2
        omega
  · rintro ⟨cl, count⟩ ⟨h1, h2, h3, h4⟩
    simp only [List.take_length] at h1 h2 h3 h4 ⊢
    have hall : cl.take count = cl := by rw [List.take_of_length_le]; omega
    rw [hall] at h3 h4
    exact ⟨h2, h1, h3, h4⟩

theorem nodup_of_increasing {l : List Nat} (h : l.Pairwise (· < ·)) : l.Nodup :=
  h.imp (fun hab => Nat.ne_of_lt hab)

/-- Invariant of the loops over clauses: the first `i` clauses are as required. -/
def ClausesUpTo (n k c i : Nat) (good : List Int → Prop) (expression : List (List Int)) : Prop :=
  expression.length = c ∧ (∀ clause ∈ expression, clause.length = k) ∧
  ∀ j clause, j < i → expression[j]? = some clause →
    (∀ lit ∈ clause, IsLiteral n lit) ∧ (clause.map Int.natAbs).Nodup ∧ good clause

theorem ClausesUpTo.set {n k c i : Nat} {good : List Int → Prop} {expression : List (List Int)}
    (h : ClausesUpTo n k c i good expression) (clause : List Int) (hlen : clause.length = k)
    (h1 : ∀ lit ∈ clause, IsLiteral n lit) (h2 : (clause.map Int.natAbs).Nodup) (h3 : good clause) :
    ClausesUpTo n k c (i + 1) good (expression.set i clause) := by
  obtain ⟨k1, k2, k3⟩ := h
  refine ⟨by simpa using k1, ?_, ?_⟩
  · intro cl hcl
    rcases List.mem_or_eq_of_mem_set hcl with hcl | rfl
    · exact k2 cl hcl
    · exact hlen
  · intro j cl hj hcl
    by_cases hji : j = i
    · subst hji
      rw [List.getElem?_set] at hcl
      split at hcl
      · split at hcl
        · simp only [Option.some.injEq] at hcl; subst hcl; exact ⟨h1, h2, h3⟩
        · simp at hcl
      · simp_all
    · rw [List.getElem?_set_ne (Ne.symm hji)] at hcl
      exact k3 j cl (by omega) hcl

theorem ClausesUpTo.isInstance {n k c : Nat} {good : List Int → Prop} {expression : List (List Int)}
    (h : ClausesUpTo n k c c good expression) :
    IsInstance n k c expression ∧ ∀ clause ∈ expression, good clause := by
  obtain ⟨k1, k2, k3⟩ := h
  have hall : ∀ clause ∈ expression,
      (∀ lit ∈ clause, IsLiteral n lit) ∧ (clause.map Int.natAbs).Nodup ∧ good clause := by
    intro clause hc
    obtain ⟨j, hj, rfl⟩ := List.mem_iff_getElem.mp hc
    exact k3 j _ (by omega) (List.getElem?_eq_getElem hj)
  exact ⟨⟨k1, fun cl hcl => (hall cl hcl).1, fun cl hcl => ⟨k2 cl hcl, (hall cl hcl).2.1⟩⟩,
    fun cl hcl => (hall cl hcl).2.2⟩

theorem clausesUpTo_zero (n k c : Nat) (good : List Int → Prop) :
    ClausesUpTo n k c 0 good (List.replicate c (List.replicate k 0)) := by
  refine ⟨by simp, ?_, by omega⟩
  intro cl hcl
  rw [(List.mem_replicate.mp hcl).2]; simp

theorem post_lift_ok {α : Type} {a : α} {o : Outcome α} (h : o = ok a) : Sim.Post (Sim.lift o) (fun b => b = a) :=
  Sim.Post.lift ⟨a, h, rfl⟩

/-- C40: whatever the draws, a random instance has the requested numbers of clauses and of literals per clause,
all literals are over the requested number of variables, and each variable appears at most once in a clause. -/
theorem maxSatRandom_instance {K : Type} [LT K] [DecidableLT K] (ratio : Nat → Nat → K)
    (uniform : Nat → Nat → K) (hu : ∀ d n j, 0 < n → uniform d j < ratio n n) (n k c : Nat)
    (hk : 0 < k) (hc : 0 < c) (hkn : k ≤ n) :
    Sim.Post (maxSatRandom ratio uniform n k c) (IsInstance n k c) := by
  unfold maxSatRandom
  refine (Sim.Post.assert (by simp; omega)).bind (fun _ _ => ?_)
  refine (Sim.Post.assert (by simpa using hk)).bind (fun _ _ => ?_)
  refine (Sim.Post.assert (by simpa using hc)).bind (fun _ _ => ?_)
  refine (Sim.Post.assert (by simpa using hkn)).bind (fun _ _ => ?_)
  refine (Sim.Post.forRange (fun i (st : List (List Int) × BV) => st.2.length = n ∧
    ClausesUpTo n k c i (fun _ => True) st.1) (Nat.zero_le _)
    ⟨by simp, clausesUpTo_zero n k c _⟩ ?_).bind ?_
  · rintro i ⟨expression, x⟩ - hi ⟨h1, h2⟩
    simp only at h1 h2
    refine (Post_bvRandomSim ratio uniform hu x k (by omega)).bind ?_
    rintro y ⟨hy1, hy2⟩
    have hi' : i < expression.length := by rw [h2.1]; exact hi
    refine (post_lift_ok (vget_eq hi')).bind ?_
    rintro _ rfl
    have hlen := h2.2.1 _ (List.getElem_mem hi')
    refine (Post_randomLiterals y _ (by rw [hlen, hy2])).bind ?_
    rintro ⟨cl, count⟩ ⟨r1, r2, r3, r4⟩
    refine (Sim.Post.assert (by simpa using r1)).bind (fun _ _ => ?_)
    refine (post_lift_ok (vset_eq hi')).bind ?_
    rintro _ rfl
    refine Sim.Post.pure ⟨hy1.trans h1, h2.set cl (r2.trans hlen) ?_ (nodup_of_increasing r4) trivial⟩
    rwa [hy1, h1] at r3
  · rintro ⟨expression, x⟩ ⟨h1, h2⟩
    exact Sim.Post.pure h2.isInstance.1

/-- C40: whatever the draws, a random instance with a planted solution has the requested sizes and is
satisfied by this solution. -/
theorem maxSatRandomPlanted_instance {K : Type} [LT K] [DecidableLT K] (ratio : Nat → Nat → K)
    (uniform : Nat → Nat → K) (hu : ∀ d n j, 0 < n → uniform d j < ratio n n) (solution : BV) (k c : Nat)
    (hk : 0 < k) (hc : 0 < c) (hkn : k ≤ solution.length) :
    Sim.Post (maxSatRandomPlanted ratio uniform solution k c) (fun expression =>
      IsInstance solution.length k c expression ∧
      (∀ clause ∈ expression, ∃ lit ∈ clause, LitTrue solution lit) ∧
      maxSatEval expression solution = ok c) := by
  unfold maxSatRandomPlanted
  refine (Sim.Post.assert (by simpa using hk)).bind (fun _ _ => ?_)
  refine (Sim.Post.assert (by simpa using hc)).bind (fun _ _ => ?_)
  refine (Sim.Post.assert (by simpa using hkn)).bind (fun _ _ => ?_)
  refine (Sim.Post.forRange (fun i (st : List (List Int) × BV) => st.2.length = solution.length ∧
    ClausesUpTo solution.length k c i (fun clause => ∃ lit ∈ clause, LitTrue solution lit) st.1)
    (Nat.zero_le _) ⟨by simp, clausesUpTo_zero _ k c _⟩ ?_).bind ?_
  · rintro i ⟨expression, x⟩ - hi ⟨h1, h2⟩
    simp only at h1 h2
    refine (Post_bvRandomSim ratio uniform hu x k (by omega)).bind ?_
    rintro y ⟨hy1, hy2⟩
    have hi' : i < expression.length := by rw [h2.1]; exact hi
    refine (post_lift_ok (vget_eq hi')).bind ?_
    rintro _ rfl
    have hlen := h2.2.1 _ (List.getElem_mem hi')
    refine (Post_randomLiterals y _ (by rw [hlen, hy2])).bind ?_
    rintro ⟨cl, count⟩ ⟨r1, r2, r3, r4⟩
    rw [hy1, h1] at r3
    simp only at r1 r2 r3 r4
    refine (Sim.Post.assert (by simpa using r1)).bind (fun _ _ => ?_)
    refine (post_lift_ok (clauseTest_eq solution cl r3)).bind ?_
    rintro _ rfl
    have hclen : cl.length = k := r2.trans hlen
    have hrep : Sim.Post (repairClause (decide (∃ lit ∈ cl, LitTrue solution lit)) cl) (fun cl' =>
        cl'.length = k ∧ (∀ lit ∈ cl', IsLiteral solution.length lit) ∧ (cl'.map Int.natAbs).Nodup ∧
        ∃ lit ∈ cl', LitTrue solution lit) := by
      unfold repairClause
      by_cases hs : ∃ lit ∈ cl, LitTrue solution lit
      · rw [if_pos (by simpa using hs)]
        exact Sim.Post.pure ⟨hclen, r3, nodup_of_increasing r4, hs⟩
      · rw [if_neg (by simpa using hs)]
        refine (Sim.Post.uniformInt (Nat.zero_le _)).bind ?_
        rintro index ⟨-, hindex⟩
        have hlt : index < cl.length := by omega
        refine (post_lift_ok (vget_eq hlt)).bind ?_
        rintro _ rfl
        refine (post_lift_ok (vset_eq hlt)).mono ?_
        rintro _ rfl
        refine ⟨by simpa using hclen, ?_, ?_, ?_⟩
        · intro lit hl
          rcases List.mem_or_eq_of_mem_set hl with hl | rfl
          · exact r3 lit hl
          · obtain ⟨a, b⟩ := r3 _ (List.getElem_mem hlt)
            exact ⟨by omega, by omega⟩
        · rw [List.map_set, Int.natAbs_neg]
          have : (cl.map Int.natAbs).set index cl[index].natAbs = cl.map Int.natAbs := by
            apply List.ext_getElem?
            intro j
            rw [List.getElem?_set]
            split
            · rename_i hij
              subst hij
              simp [hlt]
            · rfl
          rw [this]
          exact nodup_of_increasing r4
        · refine ⟨-cl[index], List.mem_set hlt _, ?_⟩
          rw [litTrue_neg _ _ (r3 _ (List.getElem_mem hlt))]
          intro ht
          exact hs ⟨_, List.getElem_mem hlt, ht⟩
    refine hrep.bind ?_
    rintro cl' ⟨q1, q2, q3, q4⟩
    refine (post_lift_ok (vset_eq hi')).bind ?_
    rintro _ rfl
    exact Sim.Post.pure ⟨hy1.trans h1, h2.set cl' q1 q2 q3 q4⟩
  · rintro ⟨expression, x⟩ ⟨h1, h2⟩
    obtain ⟨hi, hg⟩ := h2.isInstance
    simp only at hi hg
    have hval : maxSatEval expression solution = ok expression.length := by
      rw [maxSat_value expression solution hi.2.1, List.countP_eq_length.mpr]
      intro cl hcl
      simpa using hg cl hcl
    refine (post_lift_ok hval).bind ?_
    rintro _ rfl
    refine (Sim.Post.assert (by simp)).bind (fun _ _ => ?_)
    exact Sim.Post.pure ⟨hi, hg, by rw [hval, hi.1]⟩

/-- A run of the planted generator: the second clause was `-1 2` and its first literal is negated. -/
example : maxSatRandomPlanted (K := Nat) (fun k n => if k = n then 1 else 0) (fun _ _ => 0) [true, false] 2 2
    [0, 1, 0, 0, 0, 1, 0] = .ok [[1, -2], [1, 2]] [] := by decide +kernel
example : ∀ _ n _ : Nat, 0 < n → 0 < (fun k n => if k = n then 1 else 0 : Nat → Nat → Nat) n n := by simp
example : IsInstance 2 2 2 [[1, -2], [1, 2]] := by unfold IsInstance IsExpression; decide

end Hnco
