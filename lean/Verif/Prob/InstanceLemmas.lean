import Verif.Prob.Instances
import Verif.Prob.InstanceSpec
import Verif.Prob.MoreLaws
import Verif.Prob.Laws

/-! # Lemmas on the laws of random instances -/

namespace Hnco.Prob

open Outcome
open scoped ENNReal

/-! ## Independent values with different laws -/

/-- The law of `m` independent values, the first one with law `d i`, the next one with law `d (i + 1)`, and so on. -/
noncomputable def famLaw {α : Type} (d : ℕ → Dist α) : ℕ → ℕ → Dist (List α)
  | _, 0 => pure []
  | i, m + 1 => d i >>= fun a => famLaw d (i + 1) m >>= fun l => pure (a :: l)

theorem consLaw_cons {α : Type} (d : Dist α) (e : Dist (List α)) (a : α) (l : List α) :
    (d >>= fun a => e >>= fun l => (pure (a :: l) : Dist (List α))) (a :: l) = d a * e l := by
  classical
  rw [Dist.bind_apply, tsum_eq_single a]
  · congr 1
    exact Dist.map_apply_inj e (f := fun l => a :: l) (fun _ _ h => (List.cons.inj h).2) l
  · intro b hb
    rw [Dist.bind_apply, ENNReal.tsum_eq_zero.mpr, mul_zero]
    intro l'
    rw [Dist.pure_apply, if_neg (fun h => hb (List.cons.inj h).1.symm), mul_zero]

theorem consLaw_nil {α : Type} (d : Dist α) (e : Dist (List α)) :
    (d >>= fun a => e >>= fun l => (pure (a :: l) : Dist (List α))) [] = 0 := by
  classical
  rw [Dist.bind_apply, ENNReal.tsum_eq_zero]
  intro b
  rw [Dist.bind_apply, ENNReal.tsum_eq_zero.mpr, mul_zero]
  intro l'
  rw [Dist.pure_apply, if_neg (by simp), mul_zero]

open Classical in
theorem famLaw_uniform {α : Type} {d : ℕ → Dist α} {P : ℕ → α → Prop} {u : ℝ≥0∞} : ∀ (m i : ℕ)
    (_ : ∀ j a, i ≤ j → j < i + m → d j a = if P j a then u else 0) (l : List α),
    famLaw d i m l = if l.length = m ∧ ∀ j a, l[j]? = some a → P (i + j) a then u ^ m else 0 := by
  intro m
  induction m with
  | zero =>
    intro i _ l
    rw [famLaw, Dist.pure_apply]
    cases l with
    | nil => rw [if_pos rfl, if_pos ⟨rfl, by simp⟩, pow_zero]
    | cons a l => rw [if_neg (by simp), if_neg (by simp)]
  | succ m ih =>
    intro i hd l
    rw [famLaw]
    cases l with
    | nil => rw [consLaw_nil, if_neg (by simp)]
    | cons a l =>
      rw [consLaw_cons, hd i a (le_refl _) (by omega), ih (i + 1) (fun j b h1 h2 => hd j b (by omega) (by omega)) l]
      have key : ((a :: l).length = m + 1 ∧ ∀ j b, (a :: l)[j]? = some b → P (i + j) b)
          ↔ P i a ∧ l.length = m ∧ ∀ j b, l[j]? = some b → P (i + 1 + j) b := by
        constructor
        · rintro ⟨h1, h2⟩
          refine ⟨h2 0 a rfl, by simpa using h1, fun j b hb => ?_⟩
          have := h2 (j + 1) b (by simpa using hb)
          rwa [show i + 1 + j = i + (j + 1) by omega]
        · rintro ⟨h1, h2, h3⟩
          refine ⟨by simpa using h2, fun j b hb => ?_⟩
          cases j with
          | zero => obtain rfl : a = b := by simpa using hb
                    exact h1
          | succ j =>
            have := h3 j b (by simpa using hb)
            rwa [show i + (j + 1) = i + 1 + j by omega]
      by_cases h1 : P i a
      · by_cases h2 : l.length = m ∧ ∀ j b, l[j]? = some b → P (i + 1 + j) b
        · rw [if_pos h1, if_pos h2, if_pos (key.mpr ⟨h1, h2⟩), pow_succ, mul_comm]
        · rw [if_neg h2, mul_zero, if_neg (fun h => h2 (key.mp h).2)]
      · rw [if_neg h1, zero_mul, if_neg (fun h => h1 (key.mp h).1)]

theorem famLaw_same {α : Type} {d : Dist α} : ∀ (m i : ℕ) (l : List α),
    famLaw (fun _ => d) i m l = if l.length = m then (l.map d.mass).prod else 0 := by
  classical
  intro m
  induction m with
  | zero =>
    intro i l
    rw [famLaw, Dist.pure_apply]
    cases l with
    | nil => simp
    | cons a l => simp
  | succ m ih =>
    intro i l
    rw [famLaw]
    cases l with
    | nil => rw [consLaw_nil, if_neg (by simp)]
    | cons a l =>
      rw [consLaw_cons, ih, List.length_cons, List.map_cons, List.prod_cons]
      by_cases h : l.length = m
      · rw [if_pos h, if_pos (by omega)]
      · rw [if_neg h, if_neg (by omega), mul_zero]

/-- A loop which writes independent values one after the other, with a state `x` which has no influence on them. -/
theorem fill_loop {α σ : Type} {d : ℕ → Dist α} {body : ℕ → List α × σ → Dist (List α × σ)} {a₀ : α} {I : σ → Prop}
    {step : ℕ → σ → Dist (α × σ)}
    (hbody : ∀ i pre rest x, pre.length = i → I x → body i (pre ++ a₀ :: rest, x) = (step i x >>= fun r => pure (pre ++ r.1 :: rest, r.2)))
    (hI : ∀ i x r, I x → step i x r ≠ 0 → I r.2)
    (hstep : ∀ i x, I x → (step i x >>= fun r => (pure r.1 : Dist α)) = d i) :
    ∀ (m i : ℕ) (pre : List α) (x : σ), pre.length = i → I x →
      (Dist.forLoop m i body (pre ++ List.replicate m a₀, x) >>= fun st => (pure st.1 : Dist (List α)))
        = (famLaw d i m >>= fun l => pure (pre ++ l)) := by
  intro m
  induction m with
  | zero =>
    intro i pre x _ _
    rw [famLaw, Dist.pure_bind']
    exact Dist.pure_bind' _ _
  | succ m ih =>
    intro i pre x hp hx
    have e : Dist.forLoop (m + 1) i body (pre ++ List.replicate (m + 1) a₀, x)
        = (body i (pre ++ a₀ :: List.replicate m a₀, x) >>= fun s => Dist.forLoop m (i + 1) body s) := rfl
    rw [e, hbody i pre _ x hp hx, Dist.bind_assoc', Dist.bind_assoc', famLaw, Dist.bind_assoc', ← hstep i x hx, Dist.bind_assoc']
    refine Dist.bind_congr_support (fun r hr => ?_)
    have := ih (i + 1) (pre ++ [r.1]) r.2 (by simp [hp]) (hI i x r hx hr)
    rw [Dist.pure_bind', show pre ++ r.1 :: List.replicate m a₀ = pre ++ [r.1] ++ List.replicate m a₀ by simp, this, Dist.pure_bind',
      Dist.bind_assoc']
    congr 1
    funext l
    rw [Dist.pure_bind']
    simp

/-- The same from the beginning. -/
theorem fill_range {α σ : Type} {d : ℕ → Dist α} {body : ℕ → List α × σ → Dist (List α × σ)} {a₀ : α} {I : σ → Prop}
    {step : ℕ → σ → Dist (α × σ)}
    (hbody : ∀ i pre rest x, pre.length = i → I x → body i (pre ++ a₀ :: rest, x) = (step i x >>= fun r => pure (pre ++ r.1 :: rest, r.2)))
    (hI : ∀ i x r, I x → step i x r ≠ 0 → I r.2)
    (hstep : ∀ i x, I x → (step i x >>= fun r => (pure r.1 : Dist α)) = d i) (m : ℕ) {x : σ} (hx : I x) :
    (Dist.forRange 0 m body (List.replicate m a₀, x) >>= fun st => (pure st.1 : Dist (List α))) = famLaw d 0 m := by
  have := fill_loop hbody hI hstep m 0 [] x rfl hx
  unfold Dist.forRange
  rw [Nat.sub_zero, show List.replicate m a₀ = [] ++ List.replicate m a₀ from rfl, this]
  simp only [List.nil_append]
  exact Dist.bind_pure' _

/-! ## The literals of a clause -/

/-- The positions of the ones of a bit vector, counted from `i`. -/
def positions : ℕ → BV → List ℕ
  | _, [] => []
  | i, true :: x => i :: positions (i + 1) x
  | i, false :: x => positions (i + 1) x

theorem positions_length : ∀ (x : BV) (i : ℕ), (positions i x).length = x.count true := by
  intro x
  induction x with
  | nil => intro i; rfl
  | cons b x ih =>
    intro i
    cases b
    · rw [positions, ih]; simp
    · rw [positions, List.length_cons, ih]; simp

/-- The positions of the ones of a vector of given weight are a uniform set. -/
theorem weight_positions : ∀ (m i k : ℕ), k ≤ m →
    (weightLaw m k >>= fun x => (pure (positions i x) : Dist (List ℕ))) = chooseLaw i m k := by
  intro m
  induction m with
  | zero =>
    intro i k hk
    obtain rfl : k = 0 := by omega
    rw [weightLaw_zero, chooseLaw_zero, Dist.pure_bind']
    rfl
  | succ m ih =>
    intro i k hk
    rw [weightLaw_succ m k hk, chooseLaw_succ i m k hk, Dist.bind_assoc']
    have ht : 0 < k → ((weightLaw m (k - 1) >>= fun y => (pure (true :: y) : Dist BV)) >>= fun x => (pure (positions i x) : Dist (List ℕ)))
        = (chooseLaw (i + 1) m (k - 1) >>= fun r => pure (i :: r)) := by
      intro h0
      rw [Dist.bind_assoc', ← ih (i + 1) (k - 1) (by omega), Dist.bind_assoc']
      congr 1
      funext y
      rw [Dist.pure_bind', Dist.pure_bind']
      rfl
    have hf : k ≤ m → ((weightLaw m k >>= fun y => (pure (false :: y) : Dist BV)) >>= fun x => (pure (positions i x) : Dist (List ℕ)))
        = chooseLaw (i + 1) m k := by
      intro h0
      rw [Dist.bind_assoc', ← ih (i + 1) k h0]
      congr 1
      funext y
      rw [Dist.pure_bind']
      rfl
    by_cases hkm : k = m + 1
    · have : (k : ℝ≥0∞) / ((m + 1 : ℕ) : ℝ≥0∞) = 1 := by
        rw [hkm]
        exact ENNReal.div_self (by simp) (ENNReal.natCast_ne_top _)
      rw [this, Dist.coin_one, Dist.coin_one, if_pos rfl, if_pos rfl, ht (by omega)]
    · by_cases h0 : k = 0
      · subst h0
        rw [Nat.cast_zero, ENNReal.zero_div, coin_zero, coin_zero, if_neg (by simp), if_neg (by simp), hf (by omega)]
      · congr 1
        funext b
        cases b
        · simp only [Bool.false_eq_true, if_false]
          exact hf (by omega)
        · simp only [if_true]
          exact ht (by omega)

/-- Literals of random signs over given variables. -/
noncomputable def signs : List ℕ → Dist (List ℤ)
  | [] => pure []
  | p :: ps => Dist.bernoulli >>= fun b => signs ps >>= fun l => pure ((if b then (p : ℤ) + 1 else -((p : ℤ) + 1)) :: l)

open Classical in
theorem signs_apply : ∀ (ps : List ℕ) (l : List ℤ),
    signs ps l = if l.map Int.natAbs = ps.map (· + 1) then ((2 : ℝ≥0∞) ^ ps.length)⁻¹ else 0 := by
  intro ps
  induction ps with
  | nil =>
    intro l
    rw [signs, Dist.pure_apply]
    by_cases h : l = []
    · rw [if_pos h, if_pos (by simp [h])]; simp
    · rw [if_neg h, if_neg (by simpa using h)]
  | cons p ps ih =>
    intro l
    rw [signs]
    have e : (Dist.bernoulli >>= fun b => signs ps >>= fun l => (pure ((if b then (p : ℤ) + 1 else -((p : ℤ) + 1)) :: l) : Dist (List ℤ)))
        = ((Dist.bernoulli >>= fun b => (pure (if b then (p : ℤ) + 1 else -((p : ℤ) + 1)) : Dist ℤ)) >>= fun a => signs ps >>= fun l => pure (a :: l)) := by
      rw [Dist.bind_assoc']
      congr 1
      funext b
      rw [Dist.pure_bind']
    rw [e]
    cases l with
    | nil => rw [consLaw_nil, if_neg (by simp)]
    | cons a l =>
      rw [consLaw_cons, ih]
      have h2 : (2⁻¹ : ℝ≥0∞) ≤ 1 := ENNReal.inv_le_one.mpr (by norm_num)
      have hs : (Dist.bernoulli >>= fun b => (pure (if b then (p : ℤ) + 1 else -((p : ℤ) + 1)) : Dist ℤ)) a
          = if a.natAbs = p + 1 then 2⁻¹ else 0 := by
        unfold Dist.bernoulli
        rw [Dist.coin_bind, min_eq_left h2, ENNReal.one_sub_inv_two]
        simp only [if_true, Bool.false_eq_true, if_false, Dist.pure_apply]
        by_cases h : a.natAbs = p + 1
        · rw [if_pos h]
          rcases Int.natAbs_eq a with ha | ha
          · rw [if_pos (by omega), if_neg (by omega)]; simp
          · rw [if_neg (by omega), if_pos (by omega)]; simp
        · rw [if_neg h, if_neg (by omega), if_neg (by omega)]; simp
      rw [hs]
      simp only [List.map_cons, List.cons.injEq, List.length_cons]
      by_cases h1 : a.natAbs = p + 1
      · by_cases h3 : l.map Int.natAbs = ps.map (· + 1)
        · rw [if_pos h1, if_pos h3, if_pos ⟨h1, h3⟩, pow_succ, ENNReal.mul_inv (Or.inr (by norm_num)) (Or.inr (by norm_num)), mul_comm]
        · rw [if_neg h3, mul_zero, if_neg (fun h => h3 h.2)]
      · rw [if_neg h1, zero_mul, if_neg (fun h => h1 h.1)]

theorem literals_loop (x : BV) : ∀ (m i : ℕ) (pre rest : List ℤ), x.length = i + m → rest.length = (x.drop i).count true →
    Dist.forLoop m i (writeLiteral x) (pre ++ rest, pre.length)
      = (signs (positions i (x.drop i)) >>= fun l => pure (pre ++ l, pre.length + l.length)) := by
  intro m
  induction m with
  | zero =>
    intro i pre rest hx hr
    have hd : x.drop i = [] := List.drop_eq_nil_of_le (by omega)
    rw [hd] at hr ⊢
    obtain rfl : rest = [] := by simpa using hr
    rw [positions, signs, Dist.pure_bind']
    rfl
  | succ m ih =>
    intro i pre rest hx hr
    have hi : i < x.length := by omega
    have hd : x.drop i = x[i] :: x.drop (i + 1) := List.drop_eq_getElem_cons hi
    have e : Dist.forLoop (m + 1) i (writeLiteral x) (pre ++ rest, pre.length)
        = (writeLiteral x i (pre ++ rest, pre.length) >>= fun s => Dist.forLoop m (i + 1) (writeLiteral x) s) := rfl
    rw [e, hd]
    rw [hd] at hr
    unfold writeLiteral
    rw [vget_eq hi, Dist.lift_ok, Dist.pure_bind']
    cases hb : x[i]
    · rw [hb] at hr
      simp only [Bool.false_eq_true, if_false]
      rw [Dist.pure_bind', positions, ← ih (i + 1) pre rest (by omega) (by simpa using hr)]
      rfl
    · rw [hb] at hr
      simp only [if_true]
      obtain ⟨r, rest, rfl⟩ : ∃ r rest', rest = r :: rest' := by
        cases rest with
        | nil => simp at hr
        | cons r rest => exact ⟨r, rest, rfl⟩
      rw [positions, signs, Dist.bind_assoc', Dist.bind_assoc']
      congr 1
      funext b
      have hset : ∀ v, vset (pre ++ r :: rest) pre.length v = ok (pre ++ v :: rest) := by
        intro v
        rw [vset_eq (by simp)]
        simp
      rw [hset, Dist.lift_ok, Dist.pure_bind', Dist.pure_bind']
      have := ih (i + 1) (pre ++ [if b then (i : ℤ) + 1 else -((i : ℤ) + 1)]) rest (by omega) (by simpa using hr)
      rw [List.append_assoc, List.singleton_append, List.length_append, List.length_singleton] at this
      rw [Dist.bind_assoc']
      refine this.trans ?_
      congr 1
      funext l
      rw [Dist.pure_bind', List.length_cons, List.append_assoc, List.singleton_append, add_assoc, add_comm 1]

/-- The law of a random clause. -/
noncomputable def clauseLaw (n k : ℕ) : Dist (List ℤ) := chooseLaw 0 n k >>= signs

theorem randomClause_eq {n k i : ℕ} (hk : k ≤ n) {E : List (List ℤ)} {x : BV} (hx : x.length = n)
    (hi : E[i]? = some (List.replicate k 0)) :
    randomClause k i E x = (weightLaw n k >>= fun y => signs (positions 0 y) >>= fun l => pure (l, y)) := by
  unfold randomClause
  rw [bvRandom_law (by omega), hx]
  refine Dist.bind_congr_support (fun y hy => ?_)
  rw [weightLaw_apply] at hy
  have hy' : y.length = n ∧ y.count true = k := by
    by_contra h
    exact hy (if_neg h)
  obtain ⟨hlt, hget⟩ := List.getElem?_eq_some_iff.mp hi
  rw [vget_eq hlt, hget, Dist.lift_ok, Dist.pure_bind']
  unfold Dist.forRange
  have := literals_loop y y.length 0 [] (List.replicate k 0) (by omega) (by simp [hy'.2])
  rw [Nat.sub_zero]
  simp only [List.nil_append, List.length_nil, List.drop_zero, Nat.zero_add] at this
  rw [this, Dist.bind_assoc']
  refine Dist.bind_congr_support (fun l hl => ?_)
  classical
  rw [signs_apply] at hl
  have hl' : l.length = k := by
    by_cases h : l.map Int.natAbs = (positions 0 y).map (· + 1)
    · have := congrArg List.length h
      simpa [positions_length, hy'.2] using this
    · exact absurd (if_neg h) hl
  rw [Dist.pure_bind', Dist.assert_bind]
  simp [hl', bvHammingWeight_eq, hy'.2]

open Classical in
/-- All clauses are equally likely. -/
theorem clauseLaw_apply (n k : ℕ) (l : List ℤ) :
    clauseLaw n k l = if IsClause n k l then (((n.choose k : ℕ) : ℝ≥0∞) * 2 ^ k)⁻¹ else 0 := by
  unfold clauseLaw
  rw [Dist.bind_apply, tsum_eq_single (l.map (fun a => a.natAbs - 1))]
  · rw [chooseLaw_apply, signs_apply]
    by_cases h : IsClause n k l
    · obtain ⟨h1, h2, h3⟩ := h
      have hm : (l.map (fun a => a.natAbs - 1)).map (· + 1) = l.map Int.natAbs := by
        rw [List.map_map]
        refine List.map_congr_left (fun a ha => ?_)
        have := (h2 a ha).1
        simp only [Function.comp_apply]
        omega
      have ha : Ascending 0 n (l.map (fun a => a.natAbs - 1)) := by
        refine ⟨?_, ?_⟩
        · rw [List.pairwise_map] at h3 ⊢
          refine h3.imp_of_mem (fun {a b} ha hb hab => ?_)
          have := (h2 a ha).1
          omega
        · intro j hj
          obtain ⟨a, ha, rfl⟩ := List.mem_map.mp hj
          have h4 := h2 a ha
          have := h4.1
          have := h4.2
          omega
      rw [if_pos ⟨ha, by simpa using h1⟩, if_pos hm.symm, if_pos ⟨h1, h2, h3⟩, List.length_map, h1,
        ENNReal.mul_inv (Or.inr (by finiteness)) (Or.inr (by positivity))]
    · rw [if_neg h]
      by_cases hA : Ascending 0 n (l.map (fun a => a.natAbs - 1)) ∧ (l.map (fun a => a.natAbs - 1)).length = k
      · rw [if_neg (c := _ = _), mul_zero]
        intro hm
        refine h ⟨by simpa using hA.2, fun a ha => ?_, ?_⟩
        · have h5 : a.natAbs ∈ l.map Int.natAbs := List.mem_map_of_mem ha
          rw [hm, List.mem_map] at h5
          obtain ⟨p, hp, hpa⟩ := h5
          have := hA.1.2 p hp
          exact ⟨by omega, by omega⟩
        · rw [hm, List.pairwise_map]
          exact hA.1.1.imp (fun h => by omega)
      · rw [if_neg hA, zero_mul]
  · intro ps hps
    rw [signs_apply, if_neg (c := _ = _), mul_zero]
    intro h
    apply hps
    have : ps = (ps.map (· + 1)).map (· - 1) := by
      rw [List.map_map]
      simp [Function.comp_def]
    rw [this, ← h, List.map_map]
    rfl

/-- What a random clause is, when the bit vector is forgotten. -/
theorem clause_step {n k : ℕ} (hk : k ≤ n) (g : List ℤ → Dist (List ℤ)) :
    ((weightLaw n k >>= fun y => signs (positions 0 y) >>= fun l => g l >>= fun c => (pure (c, y) : Dist (List ℤ × BV))) >>=
      fun r => (pure r.1 : Dist (List ℤ))) = (clauseLaw n k >>= g) := by
  unfold clauseLaw
  rw [← weight_positions n 0 k hk, Dist.bind_assoc', Dist.bind_assoc', Dist.bind_assoc']
  congr 1
  funext y
  rw [Dist.pure_bind', Dist.bind_assoc']
  congr 1
  funext l
  rw [Dist.bind_assoc']
  conv_rhs => rw [← Dist.bind_pure' (g l)]
  congr 1
  funext c
  rw [Dist.pure_bind']

end Hnco.Prob
