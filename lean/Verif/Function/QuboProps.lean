import Verif.TextLemmas
import Verif.Function.Qubo
import Verif.Function.IsingProps

/-!
# QUBO (C35)
-/

namespace Hnco

open Outcome

variable {K : Type} [CommRing K]

/-! ## Specification -/

/-- Bit `i` of a vector, as a number. -/
def bitVal (K : Type) [CommRing K] (x : BV) (i : Nat) : K := if x[i]? = some true then 1 else 0

/-- Empty lines and comments. -/
def IsBlankLine (line : List Char) : Prop := line = [] ∨ line.head? = some 'c'

instance (line : List Char) : Decidable (IsBlankLine line) := by unfold IsBlankLine; infer_instance

/-- The line is `p qubo 0 dimension numDiagonal numOther`, possibly followed by anything. -/
def IsQuboHeader (line : List Char) (dimension numDiagonal numOther : Int) : Prop :=
  line.head? = some 'p' ∧ ∃ r1 r2 r3 r4 r5 r6,
    extractToken line = some (['p'], r1) ∧ extractToken r1 = some (['q', 'u', 'b', 'o'], r2) ∧
    extractInt r2 = some (0, r3) ∧ extractInt r3 = some (dimension, r4) ∧ 0 < dimension ∧
    extractInt r4 = some (numDiagonal, r5) ∧ 0 ≤ numDiagonal ∧
    extractInt r5 = some (numOther, r6) ∧ 0 ≤ numOther

/-- The line is `i j value`, possibly followed by anything, with `0 ≤ i ≤ j < dimension` and a non zero
value. -/
def IsQuboElement (extractFloat : List Char → Option (K × List Char)) (dimension : Int) (line : List Char)
    (e : Nat × Nat × K) : Prop :=
  ∃ r1 r2 r3, extractInt line = some ((e.1 : Int), r1) ∧ extractInt r1 = some ((e.2.1 : Int), r2) ∧
    e.1 ≤ e.2.1 ∧ (e.2.1 : Int) < dimension ∧ extractFloat r2 = some (e.2.2, r3) ∧ e.2.2 ≠ 0

/-- The text is a well formed file with the given dimension and elements: blank lines, one header, then
blank lines and elements, whose numbers are those announced in the header. -/
def IsQuboFile (extractFloat : List Char → Option (K × List Char)) (text : List Char) (dimension : Nat)
    (elements : List (Nat × Nat × K)) : Prop :=
  ∃ before header after, splitLines text = before ++ header :: after ∧ (∀ l ∈ before, IsBlankLine l) ∧
    IsQuboHeader header dimension (elements.filter (fun e => e.1 = e.2.1)).length
      (elements.filter (fun e => ¬ e.1 = e.2.1)).length ∧
    List.Forall₂ (IsQuboElement extractFloat dimension) (after.filter (fun l => ¬ IsBlankLine l)) elements

/-- The matrix holds the opposite of the elements, 0 elsewhere.  If there are several elements at the same
position, the last one counts. -/
def HoldsOpposite (q : List (List K)) (dimension : Nat) (elements : List (Nat × Nat × K)) : Prop :=
  GridShape q dimension dimension ∧
  (∀ l1 i j v l2, elements = l1 ++ (i, j, v) :: l2 → (∀ e ∈ l2, (e.1, e.2.1) ≠ (i, j)) →
    gridEntry q i j = -v) ∧
  (∀ i j, (∀ e ∈ elements, (e.1, e.2.1) ≠ (i, j)) → gridEntry q i j = 0)

/-! ## Evaluation -/

theorem forRange_sum_Ico {L : Type} [AddCommMonoid L] (a b : Nat) (body : Nat → L → Outcome L) (t : Nat → L)
    (r : L) (h : ∀ i, a ≤ i → i < b → ∀ r, body i r = ok (r + t i)) :
    forRange a b body r = ok (r + ∑ i ∈ Finset.Ico a b, t i) := by
  rcases Nat.le_total b a with hab | hab
  · rw [forRange_empty hab, Finset.Ico_eq_empty (by omega)]; simp
  · have := forRange_returns (I := fun k s => s = r + ∑ i ∈ Finset.Ico a k, t i) (body := body) hab
      (s := r) (by simp) (by
        intro j s h1 h2 hs
        refine ⟨_, h j h1 h2 s, ?_⟩
        rw [hs, Finset.sum_Ico_succ_top h1, add_assoc])
    obtain ⟨s, h1, h2⟩ := this
    rw [h1, h2]

theorem bitVal_bitOf (x : BV) (i : Nat) : bitVal K x i = if bitOf x i then 1 else 0 := by
  unfold bitVal bitOf
  rcases h : x[i]? with _ | b
  · simp
  · cases b <;> simp

/-- C35: the value of a QUBO instance is the sum of the elements `q_ij`, `i ≤ j`, times `x_i x_j`. -/
theorem qubo_value (q : List (List K)) (n : Nat) (hq : GridShape q n n) (x : BV) (hx : x.length = n) :
    quboEval q x = ok (∑ i ∈ Finset.range n, ∑ j ∈ Finset.Ico i n,
      gridEntry q i j * bitVal K x i * bitVal K x j) := by
  unfold quboEval
  rw [assert_pos (by simp [hx, hq.1]), ok_bind, hq.1,
    forRange_sum_range n _ (fun i => ∑ j ∈ Finset.Ico i n, gridEntry q i j * bitVal K x i * bitVal K x j),
    zero_add]
  intro i hi r
  unfold quboRow
  rw [vget_bitOf x i (by omega), ok_bind]
  simp only [bitVal_bitOf]
  cases hb : bitOf x i with
  | false => simp
  | true =>
    have hi' : i < q.length := by rw [hq.1]; exact hi
    have hrow : (q[i]'hi').length = n := hq.2 _ (List.getElem_mem hi')
    have he : ∀ j, gridEntry q i j = entry q[i] j := by
      intro j; unfold gridEntry; rw [List.getElem?_eq_getElem hi']; rfl
    simp only [Bool.not_true, Bool.false_eq_true, if_false, if_true, mul_one]
    rw [vget_eq hi', ok_bind, vget_entry _ _ (by omega), ok_bind, hq.1]
    rw [forRange_sum_Ico (i + 1) n _ (fun j => entry q[i] j * if bitOf x j then 1 else 0)]
    · rw [Finset.sum_eq_sum_Ico_succ_bot hi, add_assoc]
      simp [he, hb]
    · intro j h1 h2 r
      rw [vget_bitOf x j (by omega), ok_bind]
      cases bitOf x j with
      | false => simp
      | true =>
        simp only [if_true, mul_one]
        rw [vget_entry _ _ (by omega), ok_bind]

example : quboEval [[1, 2], [50, (4 : Int)]] [true, true] = ok 7 := by decide

/-! ## Loading: helper lemmas -/

theorem orThrow_eq_ok {α : Type} {o : Option α} {a : α} : orThrow o = ok a ↔ o = some a := by
  cases o <;> simp [orThrow]

theorem orThrow_cases {α : Type} (o : Option α) :
    (∃ a, o = some a ∧ orThrow o = ok a) ∨ orThrow o = Outcome.throw .runtimeError := by
  cases o with
  | none => right; rfl
  | some a => left; exact ⟨a, rfl, rfl⟩

theorem quboSpecLine_spec (line : List Char) (hp : line.head? = some 'p') :
    (∃ h, quboSpecLine line = ok h ∧ IsQuboHeader line h.1 h.2.1 h.2.2) ∨
    (quboSpecLine line = Outcome.throw .runtimeError ∧ ∀ d a b, ¬ IsQuboHeader line d a b) := by
  unfold quboSpecLine
  rcases e1 : extractToken line with _ | ⟨t1, r1⟩
  · right
    refine ⟨rfl, ?_⟩
    rintro d a b ⟨-, s1, s2, s3, s4, s5, s6, h1, -⟩
    rw [e1] at h1; cases h1
  simp only [orThrow, ok_bind]
  by_cases c1 : t1 = ['p']
  rotate_left
  · right
    refine ⟨by rw [if_pos c1], ?_⟩
    rintro d a b ⟨-, s1, s2, s3, s4, s5, s6, h1, -⟩
    rw [e1] at h1; cases h1; exact c1 rfl
  rw [if_neg (by simpa using c1)]
  subst c1
  rcases e2 : extractToken r1 with _ | ⟨t2, r2⟩
  · right
    refine ⟨rfl, ?_⟩
    rintro d a b ⟨-, s1, s2, s3, s4, s5, s6, h1, h2, -⟩
    rw [e1] at h1; cases h1; rw [e2] at h2; cases h2
  simp only [ok_bind]
  by_cases c2 : t2 = ['q', 'u', 'b', 'o']
  rotate_left
  · right
    refine ⟨by rw [if_pos c2], ?_⟩
    rintro d a b ⟨-, s1, s2, s3, s4, s5, s6, h1, h2, -⟩
    rw [e1] at h1; cases h1; rw [e2] at h2; cases h2; exact c2 rfl
  rw [if_neg (by simpa using c2)]
  subst c2
  rcases e3 : extractInt r2 with _ | ⟨n, r3⟩
  · right
    refine ⟨rfl, ?_⟩
    rintro d a b ⟨-, s1, s2, s3, s4, s5, s6, h1, h2, h3, -⟩
    rw [e1] at h1; cases h1; rw [e2] at h2; cases h2; rw [e3] at h3; cases h3
  simp only [ok_bind]
  by_cases c3 : n = 0
  rotate_left
  · right
    refine ⟨by rw [if_pos c3], ?_⟩
    rintro d a b ⟨-, s1, s2, s3, s4, s5, s6, h1, h2, h3, -⟩
    rw [e1] at h1; cases h1; rw [e2] at h2; cases h2; rw [e3] at h3; cases h3; exact c3 rfl
  rw [if_neg (by simpa using c3)]
  subst c3
  rcases e4 : extractInt r3 with _ | ⟨dim, r4⟩
  · right
    refine ⟨rfl, ?_⟩
    rintro d a b ⟨-, s1, s2, s3, s4, s5, s6, h1, h2, h3, h4, -⟩
    rw [e1] at h1; cases h1; rw [e2] at h2; cases h2; rw [e3] at h3; cases h3; rw [e4] at h4; cases h4
  simp only [ok_bind]
  by_cases c4 : dim ≤ 0
  · right
    refine ⟨by rw [if_pos c4], ?_⟩
    rintro d a b ⟨-, s1, s2, s3, s4, s5, s6, h1, h2, h3, h4, h5, -⟩
    rw [e1] at h1; cases h1; rw [e2] at h2; cases h2; rw [e3] at h3; cases h3; rw [e4] at h4; cases h4
    omega
  rw [if_neg c4]
  rcases e5 : extractInt r4 with _ | ⟨nd, r5⟩
  · right
    refine ⟨rfl, ?_⟩
    rintro d a b ⟨-, s1, s2, s3, s4, s5, s6, h1, h2, h3, h4, h5, h6, -⟩
    rw [e1] at h1; cases h1; rw [e2] at h2; cases h2; rw [e3] at h3; cases h3; rw [e4] at h4; cases h4
    rw [e5] at h6; cases h6
  simp only [ok_bind]
  by_cases c5 : nd < 0
  · right
    refine ⟨by rw [if_pos c5], ?_⟩
    rintro d a b ⟨-, s1, s2, s3, s4, s5, s6, h1, h2, h3, h4, h5, h6, h7, -⟩
    rw [e1] at h1; cases h1; rw [e2] at h2; cases h2; rw [e3] at h3; cases h3; rw [e4] at h4; cases h4
    rw [e5] at h6; cases h6
    omega
  rw [if_neg c5]
  rcases e6 : extractInt r5 with _ | ⟨no, r6⟩
  · right
    refine ⟨rfl, ?_⟩
    rintro d a b ⟨-, s1, s2, s3, s4, s5, s6, h1, h2, h3, h4, h5, h6, h7, h8, -⟩
    rw [e1] at h1; cases h1; rw [e2] at h2; cases h2; rw [e3] at h3; cases h3; rw [e4] at h4; cases h4
    rw [e5] at h6; cases h6; rw [e6] at h8; cases h8
  simp only [ok_bind]
  by_cases c6 : no < 0
  · right
    refine ⟨by rw [if_pos c6], ?_⟩
    rintro d a b ⟨-, s1, s2, s3, s4, s5, s6, h1, h2, h3, h4, h5, h6, h7, h8, h9⟩
    rw [e1] at h1; cases h1; rw [e2] at h2; cases h2; rw [e3] at h3; cases h3; rw [e4] at h4; cases h4
    rw [e5] at h6; cases h6; rw [e6] at h8; cases h8
    omega
  rw [if_neg c6]
  left
  exact ⟨_, rfl, hp, r1, r2, r3, r4, r5, r6, e1, e2, e3, e4, by simp only; omega, e5, by simp only; omega, e6,
    by simp only; omega⟩

theorem IsQuboHeader.unique {line : List Char} {d d' a a' b b' : Int} (h : IsQuboHeader line d a b)
    (h' : IsQuboHeader line d' a' b') : d = d' ∧ a = a' ∧ b = b' := by
  obtain ⟨-, r1, r2, r3, r4, r5, r6, e1, e2, e3, e4, -, e5, -, e6, -⟩ := h
  obtain ⟨-, s1, s2, s3, s4, s5, s6, h1, h2, h3, h4, -, h5, -, h6, -⟩ := h'
  rw [e1] at h1; cases h1; rw [e2] at h2; cases h2; rw [e3] at h3; cases h3; rw [e4] at h4; cases h4
  rw [e5] at h5; cases h5; rw [e6] at h6; cases h6
  exact ⟨rfl, rfl, rfl⟩

variable [DecidableEq K]

theorem quboElementLine_spec (ef : List Char → Option (K × List Char)) (dim : Int) (line : List Char) :
    (∃ e, quboElementLine ef dim line = ok e ∧ IsQuboElement ef dim line e) ∨
    (quboElementLine ef dim line = Outcome.throw .runtimeError ∧ ∀ e, ¬ IsQuboElement ef dim line e) := by
  unfold quboElementLine
  rcases e1 : extractInt line with _ | ⟨i, r1⟩
  · right
    refine ⟨rfl, ?_⟩
    rintro ⟨a, b, v⟩ ⟨s1, s2, s3, h1, -⟩
    rw [e1] at h1; cases h1
  simp only [orThrow, ok_bind]
  by_cases c1 : i < 0 ∨ ¬ i < dim
  · right
    refine ⟨by rw [if_pos c1], ?_⟩
    rintro ⟨a, b, v⟩ ⟨s1, s2, s3, h1, h2, h3, h4, -⟩
    rw [e1] at h1; cases h1
    simp only at *
    omega
  rw [if_neg c1]
  rcases e2 : extractInt r1 with _ | ⟨j, r2⟩
  · right
    refine ⟨rfl, ?_⟩
    rintro ⟨a, b, v⟩ ⟨s1, s2, s3, h1, h2, -⟩
    rw [e1] at h1; cases h1; rw [e2] at h2; cases h2
  simp only [ok_bind]
  by_cases c2 : j < 0 ∨ ¬ j < dim
  · right
    refine ⟨by rw [if_pos c2], ?_⟩
    rintro ⟨a, b, v⟩ ⟨s1, s2, s3, h1, h2, h3, h4, -⟩
    rw [e1] at h1; cases h1; rw [e2] at h2; cases h2
    simp only at *
    omega
  rw [if_neg c2]
  by_cases c3 : i > j
  · right
    refine ⟨by rw [if_pos c3], ?_⟩
    rintro ⟨a, b, v⟩ ⟨s1, s2, s3, h1, h2, h3, h4, -⟩
    rw [e1] at h1; cases h1; rw [e2] at h2; cases h2
    simp only at *
    omega
  rw [if_neg c3]
  rcases e3 : ef r2 with _ | ⟨v, r3⟩
  · right
    refine ⟨rfl, ?_⟩
    rintro ⟨a, b, v⟩ ⟨s1, s2, s3, h1, h2, h3, h4, h5, -⟩
    rw [e1] at h1; cases h1; rw [e2] at h2; cases h2; rw [e3] at h5; cases h5
  simp only [ok_bind]
  by_cases c4 : v = 0
  · right
    refine ⟨by rw [if_pos c4], ?_⟩
    rintro ⟨a, b, v⟩ ⟨s1, s2, s3, h1, h2, h3, h4, h5, h6⟩
    rw [e1] at h1; cases h1; rw [e2] at h2; cases h2; rw [e3] at h5; cases h5
    exact h6 c4
  rw [if_neg c4]
  left
  refine ⟨_, rfl, r1, r2, r3, ?_, ?_, ?_, ?_, e3, c4⟩
  · rw [e1]; congr 2; simp only; omega
  · rw [e2]; congr 2; simp only; omega
  · simp only; omega
  · simp only; omega

omit [DecidableEq K] in
theorem IsQuboElement.unique {ef : List Char → Option (K × List Char)} {dim : Int} {line : List Char}
    {e e' : Nat × Nat × K} (h : IsQuboElement ef dim line e) (h' : IsQuboElement ef dim line e') : e = e' := by
  obtain ⟨a, b, v⟩ := e
  obtain ⟨a', b', v'⟩ := e'
  obtain ⟨r1, r2, r3, e1, e2, -, -, e3, -⟩ := h
  obtain ⟨s1, s2, s3, h1, h2, -, -, h3, -⟩ := h'
  simp only at *
  rw [e1] at h1; simp only [Option.some.injEq, Prod.mk.injEq] at h1
  obtain ⟨h1, rfl⟩ := h1
  rw [e2] at h2; simp only [Option.some.injEq, Prod.mk.injEq] at h2
  obtain ⟨h2, rfl⟩ := h2
  rw [e3] at h3; simp only [Option.some.injEq, Prod.mk.injEq] at h3
  obtain ⟨h3, rfl⟩ := h3
  have : a = a' := by omega
  have : b = b' := by omega
  simp_all

omit [CommRing K] [DecidableEq K] in
theorem gridSet_shape (q : List (List K)) (n i j : Nat) (a : K) (hq : GridShape q n n) (hi : i < n) (hj : j < n) :
    ∃ q', gridSet q i j a = ok q' ∧ GridShape q' n n ∧
      ∀ i' j' : Nat, (q'[i']?.getD [])[j']? = if i' = i ∧ j' = j then some a else (q[i']?.getD [])[j']? := by
  have hi' : i < q.length := by rw [hq.1]; exact hi
  have hrow : (q[i]'hi').length = n := hq.2 _ (List.getElem_mem hi')
  refine ⟨q.set i ((q[i]'hi').set j a), ?_, ⟨?_, ?_⟩, ?_⟩
  · unfold gridSet
    rw [vget_eq hi', ok_bind, vset_eq (by omega), ok_bind, vset_eq hi']
  · simp [hq.1]
  · intro row hrow'
    rcases List.mem_or_eq_of_mem_set hrow' with h | h
    · exact hq.2 row h
    · rw [h]; simp [hrow]
  · intro i' j'
    by_cases h1 : i' = i
    · subst h1
      rw [List.getElem?_set_self hi']
      simp only [Option.getD_some, true_and]
      by_cases h2 : j' = j
      · subst h2
        rw [List.getElem?_set_self (by omega)]; simp
      · rw [List.getElem?_set_ne (Ne.symm h2), if_neg h2, List.getElem?_eq_getElem hi']; rfl
    · rw [List.getElem?_set_ne (Ne.symm h1), if_neg (fun h => h1 h.1)]

omit [DecidableEq K] in
theorem holds_append (q q' : List (List K)) (n : Nat) (es : List (Nat × Nat × K)) (i j : Nat) (v : K)
    (h : HoldsOpposite q n es) (hs : GridShape q' n n)
    (he : ∀ i' j' : Nat, (q'[i']?.getD [])[j']? = if i' = i ∧ j' = j then some (-v) else (q[i']?.getD [])[j']?) :
    HoldsOpposite q' n (es ++ [(i, j, v)]) := by
  have he' : ∀ i' j', gridEntry q' i' j' = if i' = i ∧ j' = j then -v else gridEntry q i' j' := by
    intro i' j'
    unfold gridEntry entry
    rw [he]
    split <;> rfl
  refine ⟨hs, ?_, ?_⟩
  · intro l1 a b w l2 hsplit hlast
    rw [he']
    rcases List.eq_nil_or_concat l2 with rfl | ⟨l2', e, rfl⟩
    · have := List.append_inj' hsplit rfl
      simp only [List.cons.injEq, Prod.mk.injEq, and_true] at this
      obtain ⟨-, rfl, rfl, rfl⟩ := this
      simp
    · have hsplit' : es ++ [(i, j, v)] = (l1 ++ (a, b, w) :: l2') ++ [e] := by rw [hsplit]; simp
      obtain ⟨h1, h2⟩ := List.append_inj' hsplit' rfl
      simp only [List.cons.injEq, and_true] at h2
      have hne : ¬ (a = i ∧ b = j) := by
        have := hlast e (by simp)
        rw [← h2] at this
        rintro ⟨rfl, rfl⟩
        exact this rfl
      rw [if_neg hne]
      exact h.2.1 l1 a b w l2' h1 (fun e' he'' => hlast e' (by simp [he'']))
  · intro a b hnone
    rw [he']
    have hne : ¬ (a = i ∧ b = j) := by
      have := hnone (i, j, v) (by simp)
      rintro ⟨rfl, rfl⟩
      exact this rfl
    rw [if_neg hne]
    exact h.2.2 a b (fun e' he'' => hnone e' (by simp [he'']))

/-- Lines before the header. -/
theorem quboLines_blank (ef : List Char → Option (K × List Char)) (lines : List (List Char))
    (h : ∀ l ∈ lines, IsBlankLine l) (st : QuboState K) : forEach lines (quboLine ef) st = ok st := by
  induction lines with
  | nil => rfl
  | cons l ls ih =>
    have hb : quboLine ef l st = ok st := by
      rcases h l (by simp) with rfl | hc
      · rfl
      · cases l with
        | nil => rfl
        | cons c t =>
          simp only [List.head?_cons, Option.some.injEq] at hc
          subst hc
          simp [quboLine]
    rw [forEach, hb, ok_bind]
    exact ih (fun l hl => h l (by simp [hl]))

/-- Lines after the header. -/
theorem quboLines_elements (ef : List Char → Option (K × List Char)) (n : Nat) (hn : 0 < n)
    (lines : List (List Char)) :
    ∀ (st : QuboState K) (done : List (Nat × Nat × K)), st.spec = true → st.dimension = n →
      HoldsOpposite st.q n done → st.countDiagonal = (done.filter (fun e => e.1 = e.2.1)).length →
      st.countOther = (done.filter (fun e => ¬ e.1 = e.2.1)).length →
      (∃ st' es, forEach lines (quboLine ef) st = ok st' ∧
        List.Forall₂ (IsQuboElement ef n) (lines.filter (fun l => ¬ IsBlankLine l)) es ∧
        HoldsOpposite st'.q n (done ++ es) ∧
        st'.countDiagonal = ((done ++ es).filter (fun e => e.1 = e.2.1)).length ∧
        st'.countOther = ((done ++ es).filter (fun e => ¬ e.1 = e.2.1)).length ∧
        st'.numDiagonal = st.numDiagonal ∧ st'.numOther = st.numOther) ∨
      (forEach lines (quboLine ef) st = Outcome.throw .runtimeError ∧
        ∀ es, ¬ List.Forall₂ (IsQuboElement ef n) (lines.filter (fun l => ¬ IsBlankLine l)) es) := by
  induction lines with
  | nil =>
    intro st done h1 h2 h3 h4 h5
    left
    exact ⟨st, [], rfl, List.Forall₂.nil, by simpa using h3, by simpa using h4, by simpa using h5, rfl, rfl⟩
  | cons l ls ih =>
    intro st done h1 h2 h3 h4 h5
    by_cases hb : IsBlankLine l
    · have hl : quboLine ef l st = ok st := by
        have := quboLines_blank ef [l] (by simpa using hb) st
        simp only [forEach, bind_eq_ok] at this
        obtain ⟨a, h6, h7⟩ := this
        rw [h6]; simpa using h7
      rw [forEach, hl, ok_bind, List.filter_cons_of_neg (by simpa using hb)]
      exact ih st done h1 h2 h3 h4 h5
    · rw [List.filter_cons_of_pos (by simpa using hb)]
      obtain ⟨c, t, rfl⟩ : ∃ c t, l = c :: t := by
        cases l with
        | nil => exact absurd (Or.inl rfl) hb
        | cons c t => exact ⟨c, t, rfl⟩
      have hc : c ≠ 'c' := by rintro rfl; exact hb (Or.inr rfl)
      by_cases hp : c = 'p'
      · subst hp
        right
        constructor
        · simp [forEach, quboLine, h1]
        · intro es hes
          cases hes with
          | cons he _ =>
            obtain ⟨r1, r2, r3, e1, -⟩ := he
            have : extractInt ('p' :: t) = none := by
              simp [extractInt, skipSpace, isSpace, extractSign]
            rw [this] at e1; cases e1
      · have hline : quboLine ef (c :: t) st = (do
            let e ← quboElementLine ef n (c :: t)
            let q ← gridSet st.q e.1 e.2.1 (-e.2.2)
            if e.1 = e.2.1 then ok { st with q := q, countDiagonal := st.countDiagonal + 1 }
            else ok { st with q := q, countOther := st.countOther + 1 }) := by
          simp only [quboLine, hc, hp, h1, if_false, not_true_eq_false, h2]
          rw [assert_pos (by simpa using hn)]
          rfl
        rcases quboElementLine_spec ef n (c :: t) with ⟨⟨i, j, v⟩, e1, e2⟩ | ⟨e1, e2⟩
        · obtain ⟨r1, r2, r3, e3, e4, e5, e6, e7, e8⟩ := e2
          simp only at e3 e4 e5 e6 e7 e8
          obtain ⟨q', g1, g2, g3⟩ := gridSet_shape st.q n i j (-v) h3.1 (by omega) (by omega)
          have hq' := holds_append st.q q' n done i j v h3 g2 g3
          rw [forEach, hline, e1, ok_bind, g1, ok_bind]
          have hfin : ∀ st1 : QuboState K, st1.spec = true → st1.dimension = n → st1.q = q' →
              st1.countDiagonal = ((done ++ [(i, j, v)]).filter (fun e => e.1 = e.2.1)).length →
              st1.countOther = ((done ++ [(i, j, v)]).filter (fun e => ¬ e.1 = e.2.1)).length →
              st1.numDiagonal = st.numDiagonal → st1.numOther = st.numOther →
              (∃ st' es, forEach ls (quboLine ef) st1 = ok st' ∧
                List.Forall₂ (IsQuboElement ef n) ((c :: t) :: ls.filter (fun l => ¬ IsBlankLine l)) es ∧
                HoldsOpposite st'.q n (done ++ es) ∧
                st'.countDiagonal = ((done ++ es).filter (fun e => e.1 = e.2.1)).length ∧
                st'.countOther = ((done ++ es).filter (fun e => ¬ e.1 = e.2.1)).length ∧
                st'.numDiagonal = st.numDiagonal ∧ st'.numOther = st.numOther) ∨
              (forEach ls (quboLine ef) st1 = Outcome.throw .runtimeError ∧
                ∀ es, ¬ List.Forall₂ (IsQuboElement ef n)
                  ((c :: t) :: ls.filter (fun l => ¬ IsBlankLine l)) es) := by
            intro st1 k1 k2 k3 k4 k5 k6 k7
            rcases ih st1 (done ++ [(i, j, v)]) k1 k2 (by rw [k3]; exact hq') k4 k5 with
              ⟨st', es, m1, m2, m3, m4, m5, m6, m7⟩ | ⟨m1, m2⟩
            · left
              refine ⟨st', (i, j, v) :: es, m1, List.Forall₂.cons ⟨r1, r2, r3, e3, e4, e5, e6, e7, e8⟩ m2, ?_, ?_, ?_,
                m6.trans k6, m7.trans k7⟩
              · simpa using m3
              · simpa using m4
              · simpa using m5
            · right
              refine ⟨m1, ?_⟩
              intro es hes
              cases hes with
              | cons _ hrest => exact m2 _ hrest
          by_cases hij : i = j
          · simp only [hij, if_true, ok_bind]
            subst hij
            exact hfin _ h1 h2 rfl (by simp [h4]) (by simp [h5]) rfl rfl
          · simp only [hij, if_false, ok_bind]
            exact hfin _ h1 h2 rfl (by simp [h4, hij]) (by simp [h5, hij]) rfl rfl
        · right
          refine ⟨by rw [forEach, hline, e1]; rfl, ?_⟩
          intro es hes
          cases hes with
          | cons he _ => exact e2 _ he

omit [DecidableEq K] in
theorem holds_zero (n : Nat) : HoldsOpposite (List.replicate n (List.replicate n (0 : K))) n [] := by
  refine ⟨⟨by simp, ?_⟩, ?_, ?_⟩
  · intro row hrow
    rw [(List.mem_replicate.mp hrow).2]; simp
  · intro l1 i j v l2 h
    simp at h
  · intro i j _
    unfold gridEntry entry
    rw [List.getElem?_replicate]
    split
    · simp only [Option.getD_some]
      rw [List.getElem?_replicate]
      split <;> rfl
    · rfl

/-- Splitting the lines at the first one that is not blank. -/
theorem split_blank (lines : List (List Char)) : (∀ l ∈ lines, IsBlankLine l) ∨
    ∃ before header after, lines = before ++ header :: after ∧ (∀ l ∈ before, IsBlankLine l) ∧
      ¬ IsBlankLine header := by
  induction lines with
  | nil => left; simp
  | cons l ls ih =>
    by_cases hb : IsBlankLine l
    · rcases ih with h | ⟨before, header, after, h1, h2, h3⟩
      · left; simpa using ⟨hb, h⟩
      · right
        exact ⟨l :: before, header, after, by rw [h1]; rfl, by simpa using ⟨hb, h2⟩, h3⟩
    · right
      exact ⟨[], l, ls, rfl, by simp, hb⟩

theorem split_blank_unique {b b' : List (List Char)} {h h' : List Char} {a a' : List (List Char)}
    (he : b ++ h :: a = b' ++ h' :: a') (hb : ∀ l ∈ b, IsBlankLine l) (hb' : ∀ l ∈ b', IsBlankLine l)
    (hh : ¬ IsBlankLine h) (hh' : ¬ IsBlankLine h') : b = b' ∧ h = h' ∧ a = a' := by
  induction b generalizing b' with
  | nil =>
    cases b' with
    | nil => simpa using he
    | cons l t =>
      simp only [List.nil_append, List.cons_append, List.cons.injEq] at he
      exact absurd (hb' l (by simp)) (he.1 ▸ hh)
  | cons l t ih =>
    cases b' with
    | nil =>
      simp only [List.nil_append, List.cons_append, List.cons.injEq] at he
      exact absurd (hb l (by simp)) (he.1.symm ▸ hh')
    | cons l' t' =>
      simp only [List.cons_append, List.cons.injEq] at he
      obtain ⟨h1, h2⟩ := ih he.2 (fun l hl => hb l (by simp [hl])) (fun l hl => hb' l (by simp [hl]))
      exact ⟨by rw [he.1, h1], h2⟩

theorem not_blank_of_header {line : List Char} {d a b : Int} (h : IsQuboHeader line d a b) :
    ¬ IsBlankLine line := by
  have hp := h.1
  rintro (rfl | hc)
  · cases hp
  · rw [hp] at hc
    revert hc
    decide

/-- The outcome of the loader when some line is not blank. -/
theorem quboLoad_cases (ef : List Char → Option (K × List Char)) (q0 : List (List K)) (text : List Char)
    (hne : ¬ ∀ l ∈ splitLines text, IsBlankLine l) :
    (∃ q dim es, quboLoad ef q0 text = ok q ∧ IsQuboFile ef text dim es ∧ HoldsOpposite q dim es) ∨
    (quboLoad ef q0 text = Outcome.throw .runtimeError ∧ ∀ dim es, ¬ IsQuboFile ef text dim es) := by
  rcases split_blank (splitLines text) with h | ⟨before, header, after, h1, h2, h3⟩
  · exact absurd h hne
  obtain ⟨c, t, rfl⟩ : ∃ c t, header = c :: t := by
    cases header with
    | nil => exact absurd (Or.inl rfl) h3
    | cons c t => exact ⟨c, t, rfl⟩
  have hc : c ≠ 'c' := by rintro rfl; exact h3 (Or.inr rfl)
  have happ : ∀ (l1 l2 : List (List Char)) (st : QuboState K), forEach (l1 ++ l2) (quboLine ef) st =
      forEach l1 (quboLine ef) st >>= forEach l2 (quboLine ef) := by
    intro l1
    induction l1 with
    | nil => intro l2 st; rfl
    | cons l ls ih =>
      intro l2 st
      simp only [List.cons_append, forEach, bind_assoc]
      congr 1
      funext st'
      exact ih l2 st'
  have huniq : ∀ dim es, IsQuboFile ef text dim es →
      IsQuboHeader (c :: t) dim (es.filter (fun e => e.1 = e.2.1)).length
        (es.filter (fun e => ¬ e.1 = e.2.1)).length ∧
      List.Forall₂ (IsQuboElement ef dim) (after.filter (fun l => ¬ IsBlankLine l)) es := by
    rintro dim es ⟨b', h', a', k1, k2, k3, k4⟩
    obtain ⟨rfl, rfl, rfl⟩ := split_blank_unique (h1.symm.trans k1) h2 k2 h3 (not_blank_of_header k3)
    exact ⟨k3, k4⟩
  unfold quboLoad
  rw [h1, happ, quboLines_blank ef before h2, ok_bind]
  by_cases hp : c = 'p'
  · subst hp
    have hline : ∀ st : QuboState K, st.spec = false → quboLine ef ('p' :: t) st = (do
        let h ← quboSpecLine ('p' :: t)
        ok { spec := true, dimension := h.1, numDiagonal := h.2.1, numOther := h.2.2,
             countDiagonal := st.countDiagonal, countOther := st.countOther,
             q := List.replicate h.1.toNat (List.replicate h.1.toNat 0) }) := by
      intro st hs
      simp [quboLine, hs]
    rw [forEach, hline _ rfl]
    rcases quboSpecLine_spec ('p' :: t) rfl with ⟨⟨dim, nd, no⟩, e1, e2⟩ | ⟨e1, e2⟩
    · rw [e1, ok_bind, ok_bind]
      have hdim : 0 < dim := by obtain ⟨-, r1, r2, r3, r4, r5, r6, -, -, -, -, h, -⟩ := e2; exact h
      obtain ⟨n, rfl⟩ := Int.eq_ofNat_of_zero_le (le_of_lt hdim)
      have hn : 0 < n := by omega
      rcases quboLines_elements ef n hn after
        { spec := true, dimension := (n : Int), numDiagonal := nd, numOther := no, countDiagonal := 0,
          countOther := 0, q := List.replicate n (List.replicate n 0) } [] rfl rfl (holds_zero n) rfl rfl with
        ⟨st', es, m1, m2, m3, m4, m5, m6, m7⟩ | ⟨m1, m2⟩
      · have m1' := m1
        simp only [Int.toNat_natCast] at m1' ⊢
        rw [m1', ok_bind]
        simp only [List.nil_append] at m3 m4 m5
        simp only at m6 m7
        by_cases ho : st'.countOther ≠ st'.numOther
        · right
          refine ⟨by rw [if_pos ho], ?_⟩
          intro dim es' hfile
          obtain ⟨k1, k2⟩ := huniq dim es' hfile
          obtain ⟨u1, u2, u3⟩ := k1.unique e2
          simp only at u1 u2 u3
          have : dim = n := by simpa using u1
          subst this
          have hes : es' = es := by
            refine List.forall₂_iff_get.mp k2 |> fun ⟨l1, g1⟩ => ?_
            obtain ⟨l2, g2⟩ := List.forall₂_iff_get.mp m2
            apply List.ext_get (l1.symm.trans l2)
            intro i a b
            exact (g1 i (by omega) a).unique (g2 i (by omega) b)
          subst hes
          rw [m5, m7] at ho
          exact ho (by simpa using u3)
        rw [if_neg ho]
        by_cases hd : st'.countDiagonal ≠ st'.numDiagonal
        · right
          refine ⟨by rw [if_pos hd], ?_⟩
          intro dim es' hfile
          obtain ⟨k1, k2⟩ := huniq dim es' hfile
          obtain ⟨u1, u2, u3⟩ := k1.unique e2
          simp only at u1 u2 u3
          have : dim = n := by simpa using u1
          subst this
          have hes : es' = es := by
            refine List.forall₂_iff_get.mp k2 |> fun ⟨l1, g1⟩ => ?_
            obtain ⟨l2, g2⟩ := List.forall₂_iff_get.mp m2
            apply List.ext_get (l1.symm.trans l2)
            intro i a b
            exact (g1 i (by omega) a).unique (g2 i (by omega) b)
          subst hes
          rw [m4, m6] at hd
          exact hd (by simpa using u2)
        rw [if_neg hd]
        left
        refine ⟨st'.q, n, es, rfl, ⟨before, 'p' :: t, after, h1, h2, ?_, m2⟩, m3⟩
        have e2' := e2
        simp only at e2'
        rw [← m4, ← m5]
        rw [not_ne_iff.mp hd, not_ne_iff.mp ho, m6, m7]
        exact e2'
      · right
        have m1' := m1
        simp only [Int.toNat_natCast] at m1' ⊢
        refine ⟨by rw [m1']; rfl, ?_⟩
        intro dim es' hfile
        obtain ⟨k1, k2⟩ := huniq dim es' hfile
        obtain ⟨u1, u2, u3⟩ := k1.unique e2
        have : dim = n := by simpa using u1
        subst this
        exact m2 es' k2
    · right
      refine ⟨by rw [e1]; rfl, ?_⟩
      intro dim es hfile
      exact e2 _ _ _ (huniq dim es hfile).1
  · right
    refine ⟨by simp [forEach, quboLine, hc, hp], ?_⟩
    intro dim es hfile
    have := (huniq dim es hfile).1.1
    simp only [List.head?_cons, Option.some.injEq] at this
    exact hp this

/-! ## Properties of the loader -/

/-- C35: every well formed file is accepted, and the matrix then holds the opposite of each element of the
file at its position, 0 elsewhere. -/
theorem quboLoad_accepts (ef : List Char → Option (K × List Char)) (q0 : List (List K)) (text : List Char)
    (dim : Nat) (es : List (Nat × Nat × K)) (h : IsQuboFile ef text dim es) :
    ∃ q, quboLoad ef q0 text = ok q ∧ HoldsOpposite q dim es := by
  have hne : ¬ ∀ l ∈ splitLines text, IsBlankLine l := by
    obtain ⟨b, hd, a, k1, k2, k3, k4⟩ := h
    intro hall
    exact not_blank_of_header k3 (hall hd (by rw [k1]; simp))
  rcases quboLoad_cases ef q0 text hne with ⟨q, dim', es', h1, h2, h3⟩ | ⟨h1, h2⟩
  · refine ⟨q, h1, ?_⟩
    obtain ⟨b, hd, a, k1, k2, k3, k4⟩ := h
    obtain ⟨b', hd', a', k1', k2', k3', k4'⟩ := h2
    obtain ⟨rfl, rfl, rfl⟩ := split_blank_unique (k1.symm.trans k1') k2 k2' (not_blank_of_header k3)
      (not_blank_of_header k3')
    obtain ⟨u1, -, -⟩ := k3.unique k3'
    have : dim = dim' := by simpa using u1
    subst this
    have hes : es = es' := by
      obtain ⟨l1, g1⟩ := List.forall₂_iff_get.mp k4
      obtain ⟨l2, g2⟩ := List.forall₂_iff_get.mp k4'
      apply List.ext_get (l1.symm.trans l2)
      intro i a b
      exact (g1 i (by omega) a).unique (g2 i (by omega) b)
    rw [hes]
    exact h3
  · exact absurd h (h2 dim es)

/-- C35: every other file with a line that is neither empty nor a comment is rejected with an exception;
there is no undefined behaviour. -/
theorem quboLoad_rejects (ef : List Char → Option (K × List Char)) (q0 : List (List K)) (text : List Char)
    (h : ∀ dim es, ¬ IsQuboFile ef text dim es) (hne : ∃ l ∈ splitLines text, ¬ IsBlankLine l) :
    quboLoad ef q0 text = Outcome.throw .runtimeError := by
  rcases quboLoad_cases ef q0 text (by push Not; exact hne) with ⟨q, dim', es', h1, h2, h3⟩ | ⟨h1, h2⟩
  · exact absurd h2 (h dim' es')
  · exact h1

/-- C35 (negative part): a file made of empty lines and comments only is accepted although it has no header,
and the function keeps its previous matrix. -/
theorem quboLoad_blank (ef : List Char → Option (K × List Char)) (q0 : List (List K)) (text : List Char)
    (h : ∀ l ∈ splitLines text, IsBlankLine l) : quboLoad ef q0 text = ok q0 := by
  unfold quboLoad
  rw [quboLines_blank ef _ h]
  simp

omit [DecidableEq K] in
theorem sum_elements (n : Nat) (es : List (Nat × Nat × K)) (x : BV)
    (h : ∀ e ∈ es, e.1 ≤ e.2.1 ∧ e.2.1 < n) :
    ∑ i ∈ Finset.range n, ∑ j ∈ Finset.Ico i n,
      (es.map (fun e => if (e.1, e.2.1) = (i, j) then e.2.2 else 0)).sum * bitVal K x i * bitVal K x j =
    (es.map (fun e => e.2.2 * bitVal K x e.1 * bitVal K x e.2.1)).sum := by
  induction es with
  | nil => simp
  | cons e es ih =>
    obtain ⟨a, b, v⟩ := e
    have hab := h (a, b, v) (by simp)
    simp only at hab
    simp only [List.map_cons, List.sum_cons, add_mul, Finset.sum_add_distrib]
    rw [ih (fun e he => h e (by simp [he]))]
    congr 1
    rw [Finset.sum_eq_single a]
    · rw [Finset.sum_eq_single b]
      · simp
      · intro j _ hj
        rw [if_neg (by simp [Ne.symm hj])]; simp
      · intro hj
        exact absurd (Finset.mem_Ico.mpr hab) hj
    · intro i _ hi
      apply Finset.sum_eq_zero
      intro j _
      rw [if_neg (by simp [Ne.symm hi])]; simp
    · intro ha
      exact absurd (Finset.mem_range.mpr (by omega)) ha

omit [DecidableEq K] in
theorem sum_at (es : List (Nat × Nat × K)) (hnd : (es.map (fun e => (e.1, e.2.1))).Nodup) (i j : Nat) :
    (∀ v, (i, j, v) ∈ es → (es.map (fun e => if (e.1, e.2.1) = (i, j) then e.2.2 else 0)).sum = v) ∧
    ((∀ e ∈ es, (e.1, e.2.1) ≠ (i, j)) →
      (es.map (fun e => if (e.1, e.2.1) = (i, j) then e.2.2 else 0)).sum = 0) := by
  induction es with
  | nil => simp
  | cons e es ih =>
    obtain ⟨a, b, w⟩ := e
    rw [List.map_cons, List.nodup_cons] at hnd
    obtain ⟨ih1, ih2⟩ := ih hnd.2
    constructor
    · intro v hv
      rcases List.mem_cons.mp hv with hv | hv
      · simp only [Prod.mk.injEq] at hv
        obtain ⟨rfl, rfl, rfl⟩ := hv
        have hz := ih2 (by
          intro e he heq
          apply hnd.1
          simp only
          rw [← heq]
          exact List.mem_map_of_mem (f := fun e : Nat × Nat × K => (e.1, e.2.1)) he)
        simp only [List.map_cons, List.sum_cons, if_true, hz, add_zero]
      · have hne : (a, b) ≠ (i, j) := by
          intro heq
          apply hnd.1
          simp only
          rw [heq]
          exact List.mem_map_of_mem (f := fun e : Nat × Nat × K => (e.1, e.2.1)) hv
        simp only [List.map_cons, List.sum_cons, if_neg hne, ih1 v hv, zero_add]
    · intro hnone
      have hne := hnone (a, b, w) (by simp)
      simp only at hne
      simp only [List.map_cons, List.sum_cons, if_neg hne,
        ih2 (fun e he => hnone e (by simp [he])), zero_add]

/-- C35: for a well formed file with at most one element at each position, the value of a bit vector is minus
the quadratic form: minus the sum of the elements `q_ij` of the file such that `x_i = x_j = 1`. -/
theorem quboLoad_value (ef : List Char → Option (K × List Char)) (q0 : List (List K)) (text : List Char)
    (dim : Nat) (es : List (Nat × Nat × K)) (h : IsQuboFile ef text dim es)
    (hnd : (es.map (fun e => (e.1, e.2.1))).Nodup) (x : BV) (hx : x.length = dim) :
    ∃ q, quboLoad ef q0 text = ok q ∧
      quboEval q x = ok (-(es.map (fun e => e.2.2 * bitVal K x e.1 * bitVal K x e.2.1)).sum) := by
  obtain ⟨q, h1, h2⟩ := quboLoad_accepts ef q0 text dim es h
  refine ⟨q, h1, ?_⟩
  rw [qubo_value q dim h2.1 x hx]
  have hrange : ∀ e ∈ es, e.1 ≤ e.2.1 ∧ e.2.1 < dim := by
    obtain ⟨b, hd, a, k1, k2, k3, k4⟩ := h
    intro e he
    obtain ⟨l1, g1⟩ := List.forall₂_iff_get.mp k4
    obtain ⟨i, hi, rfl⟩ := List.mem_iff_getElem.mp he
    obtain ⟨r1, r2, r3, e1, e2, e3, e4, -⟩ := g1 i (by omega) hi
    simp only [List.get_eq_getElem] at e3 e4
    exact ⟨e3, by exact_mod_cast e4⟩
  rw [← sum_elements dim es x hrange, ← Finset.sum_neg_distrib]
  congr 1
  apply Finset.sum_congr rfl
  intro i _
  rw [← Finset.sum_neg_distrib]
  apply Finset.sum_congr rfl
  intro j _
  have hent : gridEntry q i j = -(es.map (fun e => if (e.1, e.2.1) = (i, j) then e.2.2 else 0)).sum := by
    by_cases hex : ∃ v, (i, j, v) ∈ es
    · obtain ⟨v, hv⟩ := hex
      rw [(sum_at es hnd i j).1 v hv]
      obtain ⟨l1, l2, hl⟩ := List.append_of_mem hv
      refine h2.2.1 l1 i j v l2 hl ?_
      intro e he heq
      rw [hl, List.map_append, List.map_cons, List.nodup_append] at hnd
      have := hnd.2.1
      rw [List.nodup_cons] at this
      apply this.1
      simp only
      rw [← heq]
      exact List.mem_map_of_mem (f := fun e : Nat × Nat × K => (e.1, e.2.1)) he
    · have hnone : ∀ e ∈ es, (e.1, e.2.1) ≠ (i, j) := by
        rintro ⟨a, b, v⟩ he heq
        simp only [Prod.mk.injEq] at heq
        exact hex ⟨v, by rw [← heq.1, ← heq.2]; exact he⟩
      rw [(sum_at es hnd i j).2 hnone, h2.2.2 i j hnone, neg_zero]
  rw [hent]
  ring

/-! ## Written files -/

/-- The text of an instance in the qbsolv format. -/
def quboText (showValue : K → List Char) (dim : Nat) (es : List (Nat × Nat × K)) : List Char :=
  unlines (("p qubo 0 ".toList ++ (showInt dim ++ ' ' :: (showInt (es.filter (fun e => e.1 = e.2.1)).length ++
      ' ' :: showInt (es.filter (fun e => ¬ e.1 = e.2.1)).length))) ::
    es.map (fun e => showInt e.1 ++ ' ' :: (showInt e.2.1 ++ ' ' :: showValue e.2.2)))

omit [CommRing K] [DecidableEq K] in
theorem showInt_head (n : Nat) : ∃ d ds, showInt (n : Int) = d :: ds ∧ d.isDigit = true := by
  have hs : showInt (n : Int) = showNat n := by
    unfold showInt
    rw [if_neg (by omega)]; rfl
  rw [hs]
  rcases h : showNat n with _ | ⟨d, ds⟩
  · exact absurd h (showNat_ne_nil n)
  · exact ⟨d, ds, rfl, showNat_digits n d (by rw [h]; simp)⟩

omit [DecidableEq K] in
/-- C35: the text of an instance is a well formed file for this instance, so that it can be loaded
(`quboLoad_value`). -/
theorem quboText_isQuboFile (ef : List Char → Option (K × List Char)) (showValue : K → List Char)
    (hshow : ∀ v, ef (' ' :: showValue v) = some (v, []) ∧ '\n' ∉ showValue v) (dim : Nat)
    (es : List (Nat × Nat × K)) (h0 : 0 < dim) (hdim : dim ≤ 2147483647) (hlen : es.length ≤ 2147483647)
    (hes : ∀ e ∈ es, e.1 ≤ e.2.1 ∧ e.2.1 < dim ∧ e.2.2 ≠ 0) :
    IsQuboFile ef (quboText showValue dim es) dim es := by
  have hspace : ∀ c : Char, (' ' :: ([] : List Char)).head? = some c → c.isDigit = false := by
    intro c hc; simp at hc; rw [← hc]; decide
  have hsp : ∀ c ∈ [' '], isSpace c = true := by simp [isSpace]
  have hnl : ∀ l ∈ ("p qubo 0 ".toList ++ (showInt dim ++ ' ' ::
        (showInt (es.filter (fun e => e.1 = e.2.1)).length ++
        ' ' :: showInt (es.filter (fun e => ¬ e.1 = e.2.1)).length))) ::
      es.map (fun e => showInt e.1 ++ ' ' :: (showInt e.2.1 ++ ' ' :: showValue e.2.2)), '\n' ∉ l := by
    intro l hl
    rcases List.mem_cons.mp hl with rfl | hl
    · simp [newline_not_mem_showInt]
    · obtain ⟨e, -, rfl⟩ := List.mem_map.mp hl
      simp [newline_not_mem_showInt, (hshow e.2.2).2]
  refine ⟨[], _, _, splitLines_unlines _ hnl, by simp, ⟨rfl, ?_⟩, ?_⟩
  · have hf : ∀ p : Nat × Nat × K → Bool, ((es.filter p).length : Int) ≤ 2147483647 := by
      intro p
      have := List.length_filter_le p es
      omega
    have t1 := extractToken_append ['p'] (" qubo 0 ".toList ++ (showInt dim ++ ' ' ::
        (showInt (es.filter (fun e => e.1 = e.2.1)).length ++
        ' ' :: showInt (es.filter (fun e => ¬ e.1 = e.2.1)).length))) (by simp) (by simp [isSpace])
        (by intro c hc; simp at hc; rw [← hc]; decide) [] (by simp)
    have t2 := extractToken_append "qubo".toList (" 0 ".toList ++ (showInt dim ++ ' ' ::
        (showInt (es.filter (fun e => e.1 = e.2.1)).length ++
        ' ' :: showInt (es.filter (fun e => ¬ e.1 = e.2.1)).length))) (by simp) (by simp [isSpace])
        (by intro c hc; simp at hc; rw [← hc]; decide) [' '] hsp
    have hz : showInt 0 = ['0'] := by
      rw [show showInt 0 = showNat 0 from rfl, showNat]; rfl
    have t3 := extractInt_showInt 0 (by omega) (by omega) (' ' :: (showInt dim ++ ' ' ::
        (showInt (es.filter (fun e => e.1 = e.2.1)).length ++
        ' ' :: showInt (es.filter (fun e => ¬ e.1 = e.2.1)).length)))
        (by intro c hc; simp at hc; rw [← hc]; decide) [' '] hsp
    rw [hz] at t3
    have t4 := extractInt_showInt dim (by omega) (by omega) (' ' ::
        (showInt (es.filter (fun e => e.1 = e.2.1)).length ++
        ' ' :: showInt (es.filter (fun e => ¬ e.1 = e.2.1)).length))
        (by intro c hc; simp at hc; rw [← hc]; decide) [' '] hsp
    have t5 := extractInt_showInt (es.filter (fun e => e.1 = e.2.1)).length (by omega) (hf _)
        (' ' :: showInt (es.filter (fun e => ¬ e.1 = e.2.1)).length)
        (by intro c hc; simp at hc; rw [← hc]; decide) [' '] hsp
    have t6 := extractInt_showInt (es.filter (fun e => ¬ e.1 = e.2.1)).length (by omega) (hf _) []
        (by simp) [' '] hsp
    simp only [List.append_nil] at t6
    exact ⟨_, _, _, _, _, _, t1, t2, t3, t4, by omega, t5, by omega, t6, by omega⟩
  · have hfilter : (es.map (fun e : Nat × Nat × K => showInt e.1 ++ ' ' :: (showInt e.2.1 ++ ' ' :: showValue e.2.2)) ++
        [[]]).filter (fun l => ¬ IsBlankLine l) =
        es.map (fun e => showInt e.1 ++ ' ' :: (showInt e.2.1 ++ ' ' :: showValue e.2.2)) := by
      rw [List.filter_append, List.filter_eq_self.mpr]
      · simp [IsBlankLine]
      · intro l hl
        obtain ⟨e, -, rfl⟩ := List.mem_map.mp hl
        obtain ⟨d, ds, hd, hdig⟩ := showInt_head e.1
        rw [hd]
        have : d ≠ 'c' := by rintro rfl; revert hdig; decide
        simp [IsBlankLine, this]
    refine Eq.mpr (congrArg (fun l => List.Forall₂ (IsQuboElement ef dim) l es) hfilter) ?_
    rw [List.forall₂_map_left_iff, List.forall₂_same]
    intro e he
    obtain ⟨k1, k2, k3⟩ := hes e he
    have t1 := extractInt_showInt e.1 (by omega) (by omega) (' ' :: (showInt e.2.1 ++ ' ' :: showValue e.2.2))
        (by intro c hc; simp at hc; rw [← hc]; decide) [] (by simp)
    have t2 := extractInt_showInt e.2.1 (by omega) (by omega) (' ' :: showValue e.2.2)
        (by intro c hc; simp at hc; rw [← hc]; decide) [' '] hsp
    exact ⟨_, _, _, t1, t2, k1, by omega, (hshow e.2.2).1, k3⟩

example : quboLoad (K := Int) extractInt [] "c test\np qubo 0 2 1 1\n0 0 3\n0 1 -5\n".toList =
    ok [[-3, 5], [0, 0]] := by decide +kernel
example : quboLoad (K := Int) extractInt [] "p qubo 0 2 1 1\n0 0 3\n1 0 -5\n".toList =
    .throw .runtimeError := by decide +kernel
example : quboLoad (K := Int) extractInt [[7]] "c no header\n".toList = ok [[7]] := by decide +kernel
/-- Two elements at the same position are both counted, and the last one is kept. -/
example : quboLoad (K := Int) extractInt [] "p qubo 0 1 2 0\n0 0 3\n0 0 4\n".toList = ok [[-4]] := by
  decide +kernel

end Hnco
