import Verif.Map.Sampling
import Mathlib.Data.ENNReal.Inv
import Mathlib.Data.Finset.Powerset
import Mathlib.Data.Nat.Choose.Basic
import Mathlib.Data.Nat.Factorial.Basic

/-!
# Specification of random transvection sequences, with probabilities (C119)

A transvection `⟨r, c⟩` adds bit `c` of a vector to its bit `r`.
-/

namespace Hnco.Prob

open scoped ENNReal

/-- The rows and columns of a sequence, in order. -/
def endpoints (ts : List Transvection) : List ℕ := ts.flatMap (fun a => [a.row, a.col])

/-- Sequences of `t` transvections of `n` bits with different rows, none of which is a column. -/
def UniqueRows (n t : ℕ) (ts : List Transvection) : Prop :=
  ts.length = t ∧ (ts.map (·.row)).Nodup ∧ (∀ a ∈ ts, a.row < n ∧ a.col < n) ∧ ∀ a ∈ ts, ∀ b ∈ ts, a.row ≠ b.col

/-- Sequences of `t` transvections of `n` bits with different columns, none of which is a row. -/
def UniqueColumns (n t : ℕ) (ts : List Transvection) : Prop :=
  ts.length = t ∧ (ts.map (·.col)).Nodup ∧ (∀ a ∈ ts, a.row < n ∧ a.col < n) ∧ ∀ a ∈ ts, ∀ b ∈ ts, a.row ≠ b.col

/-- Sequences of `t` transvections of `n` bits, no two of which have a bit in common. -/
def Apart (n t : ℕ) (ts : List Transvection) : Prop :=
  ts.length = t ∧ (∀ i ∈ endpoints ts, i < n) ∧ (endpoints ts).Nodup

/-- The sizes `s` such that `s` rows and `n - s` columns make at least `t` transvections. -/
def admissible (n t : ℕ) : Finset ℕ := (Finset.range n).filter (fun s => 0 < s ∧ t ≤ s * (n - s))

/-- The probability that the rows are chosen in a set of `s` bits: all admissible sizes are equally likely, except that one half of
the bits is twice as likely as another size. -/
noncomputable def sizeProb (n t s : ℕ) : ℝ≥0∞ :=
  if s ∈ admissible n t then
    (if 2 * s = n then 2 else 1) / (if n % 2 = 0 then ((admissible n t).card + 1 : ℕ) else (admissible n t).card : ℕ)
  else 0

/-- The proportion of the sets of `s` bits which contain all rows of a sequence and none of its columns. -/
noncomputable def separation (n s : ℕ) (ts : List Transvection) : ℝ≥0∞ :=
  (((Finset.range n).powersetCard s).filter (fun A => ∀ a ∈ ts, a.row ∈ A ∧ a.col ∉ A)).card / (n.choose s : ℕ)

/-- The probability of a transvection after `a`: the one with row and column exchanged is twice as likely as the other ones which do
not commute with `a`. -/
noncomputable def afterProb (n : ℕ) (a b : Transvection) : ℝ≥0∞ :=
  if b.row < n ∧ b.col < n ∧ b.row ≠ b.col ∧ (b.row = a.col ∨ b.col = a.row) then
    (if b.row = a.col ∧ b.col = a.row then 2 else 1) / (2 * (n - 1) : ℕ)
  else 0

/-- The product of the probabilities of the steps of a sequence after `a`. -/
noncomputable def chainProb (n : ℕ) : Transvection → List Transvection → ℝ≥0∞
  | _, [] => 1
  | a, b :: ts => afterProb n a b * chainProb n b ts

end Hnco.Prob
