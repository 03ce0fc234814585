import Verif.Base
import Mathlib.Topology.Algebra.InfiniteSum.ENNReal
import Mathlib.Analysis.SpecificLimits.Basic
import Mathlib.Data.Nat.Choose.Sum

/-!
# Computations with probabilities

In `Verif/Random.lean` a computation maps a list of raw draws to a result, and every outcome of the generator is
possible: probabilities do not appear.  Here a computation is the family of the probabilities of its results, so that the
laws of the random samplers can be stated.  The probabilities of a computation which may not end (a rejection loop, say)
have a sum which may be below one; the rest is the probability that it never ends, or that it is undefined.

The laws of the primitive distributions are those of the C++ standard (`[rand.dist]`), for an ideal source of
independent random bits: nothing is said about the Mersenne twister of `lib/hnco/random.cc:28-66`.  Doubles are exact
numbers.
-/

namespace Hnco.Prob

open scoped ENNReal

/-- The probabilities of the results of a computation. -/
structure Dist (α : Type) where
  /-- the probability of a result -/
  mass : α → ℝ≥0∞

namespace Dist

instance (α : Type) : CoeFun (Dist α) (fun _ => α → ℝ≥0∞) := ⟨Dist.mass⟩

variable {α β σ : Type}

open Classical in
/-- The computation which returns `a`. -/
protected noncomputable def pure (a : α) : Dist α := ⟨fun b => if b = a then 1 else 0⟩

/-- Sequencing: the law of total probability. -/
protected noncomputable def bind (d : Dist α) (f : α → Dist β) : Dist β := ⟨fun b => ∑' a, d a * f a b⟩

noncomputable instance : Monad Dist where
  pure := Dist.pure
  bind := Dist.bind

/-- The computation which never returns. -/
noncomputable def never : Dist α := ⟨fun _ => 0⟩

/-- A computation which draws nothing: one of its results is certain, or it does not return normally. -/
noncomputable def lift (o : Outcome α) : Dist α :=
  match o with
  | .ok a => pure a
  | _ => never

/-- The probability that a computation returns. -/
noncomputable def total (d : Dist α) : ℝ≥0∞ := ∑' a, d a

/-- The probability that a computation returns a result with property `P`. -/
noncomputable def prob (d : Dist α) (P : α → Prop) [DecidablePred P] : ℝ≥0∞ := ∑' a, if P a then d a else 0

/-- `std::uniform_int_distribution<int>(lo, hi)`: all values between `lo` and `hi` are equally likely. -/
noncomputable def uniformInt (lo hi : ℕ) : Dist ℕ := ⟨fun i =>
  if lo ≤ i ∧ i ≤ hi then ((hi - lo + 1 : ℕ) : ℝ≥0∞)⁻¹ else 0⟩

/-- `std::bernoulli_distribution(p)`, and the test `Generator::uniform() < p` (`lib/hnco/random.cc:50-54`): true with
probability `p`; a uniform number of `[0, 1)` always is below a `p` greater than one. -/
noncomputable def coin (p : ℝ≥0∞) : Dist Bool := ⟨fun b => if b then min p 1 else 1 - p⟩

/-- `Generator::bernoulli()` (`lib/hnco/random.cc:62-66`): a fair coin. -/
noncomputable def bernoulli : Dist Bool := coin 2⁻¹

/-- `std::binomial_distribution<int>(n, p)`. -/
noncomputable def binomial (n : ℕ) (p : ℝ≥0∞) : Dist ℕ := ⟨fun k =>
  if k ≤ n then (n.choose k : ℝ≥0∞) * p ^ k * (1 - p) ^ (n - k) else 0⟩

/-- `std::discrete_distribution<>` with weights `ws`. -/
noncomputable def discrete (ws : List ℝ≥0∞) : Dist ℕ := ⟨fun i =>
  match ws[i]? with
  | some w => w / ws.sum
  | none => 0⟩

/-- At most `k` iterations of `do body while (!stop)`. -/
noncomputable def repeatGo (body : Dist α) (stop : α → Bool) : ℕ → Dist α
  | 0 => never
  | k + 1 => do
    let a ← body
    if stop a then pure a else repeatGo body stop k

/-- `do body while (!stop)`: the probability of a result is the limit of its probabilities within `k` iterations. -/
noncomputable def repeatUntil (body : Dist α) (stop : α → Bool) : Dist α := ⟨fun a => ⨆ k, repeatGo body stop k a⟩

/-- At most `k` iterations of `do body while (again)` on a state. -/
noncomputable def doWhileGo (body : σ → Dist σ) (again : σ → Bool) : ℕ → σ → Dist σ
  | 0, _ => never
  | k + 1, s => do
    let t ← body s
    if again t then doWhileGo body again k t else pure t

/-- `do body while (again)` on a state. -/
noncomputable def doWhile (body : σ → Dist σ) (again : σ → Bool) (s : σ) : Dist σ := ⟨fun t =>
  ⨆ k, doWhileGo body again k s t⟩

/-- `n` iterations of a loop body, the counter starting at `i`. -/
noncomputable def forLoop : ℕ → ℕ → (ℕ → σ → Dist σ) → σ → Dist σ
  | 0, _, _, s => pure s
  | n + 1, i, body, s => do
    let s ← body i s
    forLoop n (i + 1) body s

/-- `for (i = a; i < b; i++) body`. -/
noncomputable def forRange (a b : ℕ) (body : ℕ → σ → Dist σ) (s : σ) : Dist σ := forLoop (b - a) a body s

/-! ### Laws of sequencing -/

open Classical in
theorem pure_apply (a b : α) : (pure a : Dist α) b = if b = a then 1 else 0 := rfl

theorem bind_apply (d : Dist α) (f : α → Dist β) (b : β) : (d >>= f) b = ∑' a, d a * f a b := rfl

@[ext] protected theorem ext {d e : Dist α} (h : ∀ a, d a = e a) : d = e := by
  cases d; cases e; congr; funext a; exact h a

theorem pure_bind' (a : α) (f : α → Dist β) : (pure a >>= f) = f a := by
  classical
  ext b
  rw [bind_apply, tsum_eq_single a]
  · rw [pure_apply, if_pos rfl, one_mul]
  · intro a' h
    rw [pure_apply, if_neg h, zero_mul]

theorem bind_pure' (d : Dist α) : (d >>= pure) = d := by
  classical
  ext b
  rw [bind_apply, tsum_eq_single b]
  · rw [pure_apply, if_pos rfl, mul_one]
  · intro a' h
    rw [pure_apply, if_neg (Ne.symm h), mul_zero]

theorem bind_assoc' {γ : Type} (d : Dist α) (f : α → Dist β) (g : β → Dist γ) :
    ((d >>= f) >>= g) = (d >>= fun a => f a >>= g) := by
  ext c
  simp only [bind_apply]
  simp_rw [← ENNReal.tsum_mul_right, ← ENNReal.tsum_mul_left]
  rw [ENNReal.tsum_comm]
  simp only [mul_assoc]

instance : LawfulMonad Dist := LawfulMonad.mk' Dist
  (id_map := fun d => bind_pure' d)
  (pure_bind := fun a f => pure_bind' a f)
  (bind_assoc := fun d f g => bind_assoc' d f g)

theorem map_apply_inj (d : Dist α) {f : α → β} (hf : Function.Injective f) (a : α) :
    (d >>= fun a => pure (f a)) (f a) = d a := by
  classical
  rw [bind_apply, tsum_eq_single a]
  · rw [pure_apply, if_pos rfl, mul_one]
  · intro a' h
    rw [pure_apply, if_neg (fun e => h (hf e).symm), mul_zero]

/-- A sequence of a coin and something. -/
theorem coin_bind (p : ℝ≥0∞) (f : Bool → Dist β) (b : β) :
    (coin p >>= f) b = min p 1 * f true b + (1 - p) * f false b := by
  rw [bind_apply, tsum_fintype, Fintype.sum_bool]
  rfl

theorem never_apply (a : α) : (never : Dist α) a = 0 := rfl

theorem bind_never (d : Dist α) : (d >>= fun _ => (never : Dist β)) = never := by
  ext b
  rw [bind_apply]
  simp [never_apply]

theorem total_bind (d : Dist α) (f : α → Dist β) : (d >>= f).total = ∑' a, d a * (f a).total := by
  unfold total
  simp only [bind_apply]
  rw [ENNReal.tsum_comm]
  simp only [ENNReal.tsum_mul_left]

theorem total_pure (a : α) : (pure a : Dist α).total = 1 := by
  classical
  unfold total
  rw [tsum_eq_single a]
  · rw [pure_apply, if_pos rfl]
  · intro b h
    rw [pure_apply, if_neg h]

/-! ### Rejection loops -/

/-- The probability that one iteration does not end the loop. -/
noncomputable def miss (body : Dist α) (stop : α → Bool) : ℝ≥0∞ := ∑' a, if stop a then 0 else body a

theorem repeatGo_apply (body : Dist α) (stop : α → Bool) (k : ℕ) (a : α) :
    repeatGo body stop k a = if stop a then body a * ∑ i ∈ Finset.range k, miss body stop ^ i else 0 := by
  classical
  induction k with
  | zero => simp [repeatGo, never_apply]
  | succ k ih =>
    have hk : repeatGo body stop (k + 1) a
        = (if stop a then body a else 0) + miss body stop * repeatGo body stop k a := by
      rw [repeatGo, bind_apply, miss, ← ENNReal.tsum_mul_right]
      have h1 : (if stop a then body a else 0)
          = ∑' b, body b * (if stop b then (pure b : Dist α) a else 0) := by
        rw [tsum_eq_single a]
        · rw [pure_apply, if_pos rfl]
          split <;> simp
        · intro b h
          rw [pure_apply, if_neg (Ne.symm h)]
          simp
      rw [h1, ← ENNReal.tsum_add]
      refine tsum_congr (fun b => ?_)
      cases stop b <;> simp
    rw [hk, ih]
    split
    · rw [Finset.sum_range_succ', Finset.mul_sum, Finset.mul_sum, mul_add, pow_zero, mul_one, add_comm, Finset.mul_sum]
      congr 1
      refine Finset.sum_congr rfl (fun i _ => ?_)
      rw [pow_succ]
      ring
    · simp

/-- The law of a rejection loop: its results are those of an iteration which is not rejected, and the probability of
each of them is multiplied by the mean number of iterations. -/
theorem repeatUntil_apply (body : Dist α) (stop : α → Bool) (a : α) :
    repeatUntil body stop a = if stop a then body a * (1 - miss body stop)⁻¹ else 0 := by
  change (⨆ k, repeatGo body stop k a) = _
  simp only [repeatGo_apply]
  split
  · rw [← ENNReal.mul_iSup, ← ENNReal.tsum_eq_iSup_nat, ENNReal.tsum_geometric]
  · simp

theorem hit_add_miss (body : Dist α) (stop : α → Bool) :
    (∑' a, if stop a then body a else 0) + miss body stop = body.total := by
  rw [miss, ← ENNReal.tsum_add]
  refine tsum_congr (fun a => ?_)
  split <;> simp

/-- A rejection loop whose body always returns: the conditional law. -/
theorem repeatUntil_cond {body : Dist α} (h1 : body.total = 1) (stop : α → Bool) (a : α) :
    repeatUntil body stop a = if stop a then body a / (∑' b, if stop b then body b else 0) else 0 := by
  rw [repeatUntil_apply]
  have h := hit_add_miss body stop
  rw [h1] at h
  have hm : miss body stop ≠ ∞ := fun e => by rw [e] at h; simp at h
  rw [← h, ENNReal.add_sub_cancel_right hm]
  rfl

end Dist

end Hnco.Prob
