import Verif.Algorithm.PathSpec

/-!
# Specification of searches by generations

A search with a population makes a generation of vectors from what it has kept of the former ones, evaluates all of them, and
then decides what to keep.
-/

namespace Hnco

variable {K P : Type}

/-- `y` is a mutant of `x`: a vector of the same size, which differs at a number of bits allowed by `step`. -/
def MutantOf (step : Nat → Prop) (x y : BV) : Prop := y.length = x.length ∧ step (differingBits x y)

/-- Each bit of `z` is the bit of `x` or that of `y` at the same position. -/
def MixtureOf (x y z : BV) : Prop := z.length = x.length ∧ z.length = y.length ∧ ∀ i : Nat, z[i]? = x[i]? ∨ z[i]? = y[i]?

/-- A mutant of one of the parents. -/
def MutantOfParent (step : Nat → Prop) (parents : List BV) (y : BV) : Prop := ∃ x ∈ parents, MutantOf step x y

/-- A mutant of one of the parents or of a mixture of two of them. -/
def MutantOfMixture (step : Nat → Prop) (parents : List BV) (y : BV) : Prop :=
  ∃ x, (x ∈ parents ∨ ∃ a ∈ parents, ∃ b ∈ parents, MixtureOf a b x) ∧ MutantOf step x y

/-- `chosen` are best ones of the evaluations `pool`: none of the others is better than any of them. -/
def BestAmong [LE K] (pool chosen : List (BV × K)) : Prop :=
  ∃ others, (chosen ++ others).Perm pool ∧ ∀ a ∈ chosen, ∀ b ∈ others, b.2 ≤ a.2

/-- After a generation, the solution is replaced by a best vector of the generation, one of those which have been chosen, if it is
better, and kept otherwise. -/
def Improves [LinearOrder K] (old : BV × K) (generation chosen : List (BV × K)) (new : BV × K) : Prop :=
  (new = old ∧ ∀ c ∈ generation, c.2 ≤ old.2) ∨
    (new ∈ generation ∧ new ∈ chosen ∧ old.2 < new.2 ∧ ∀ c ∈ generation, c.2 ≤ new.2)

/-- From what is kept at the start and the first solution, the vectors of the list can be evaluated in this order, in whole
generations of the given size, which leads to what is kept and the solution of the last arguments: each vector is bred as `breed`
says from what is kept and the solution; after a generation, evaluations are chosen and something is kept as `survive` says. -/
inductive Generations [LinearOrder K] (size : Nat) (breed : P → BV × K → BV → Prop)
    (survive : P → List (BV × K) → List (BV × K) → P → Prop) (first : P) (start : BV × K) : List (BV × K) → P → BV × K → Prop where
  | start : Generations size breed survive first start [] first start
  | next {later generation chosen : List (BV × K)} {kept kept' : P} {solution solution' : BV × K}
    (h : Generations size breed survive first start later kept solution) (hsize : generation.length = size)
    (hbreed : ∀ c ∈ generation, breed kept solution c.1) (hsurvive : survive kept generation chosen kept')
    (hsolution : Improves solution generation chosen solution') :
    Generations size breed survive first start (later ++ generation) kept' solution'

/-- The evaluations begin with `first` ones, from which what is kept and the solution are as `startOk` says, and those after them
are whole generations. -/
def HasGenerations [LinearOrder K] (first : Nat) (startOk : List (BV × K) → P → BV × K → Prop) (size : Nat)
    (breed : P → BV × K → BV → Prop) (survive : P → List (BV × K) → List (BV × K) → P → Prop) (calls : List (BV × K)) (kept : P)
    (solution : BV × K) : Prop :=
  ∃ initial later kept₀ solution₀, calls = initial ++ later ∧ initial.length = first ∧ startOk initial kept₀ solution₀ ∧
    Generations size breed survive kept₀ solution₀ later kept solution

/-- The same, except that the last generation may be unfinished. -/
def HasUnfinished [LinearOrder K] (first : Nat) (startOk : List (BV × K) → P → BV × K → Prop) (size : Nat)
    (breed : P → BV × K → BV → Prop) (survive : P → List (BV × K) → List (BV × K) → P → Prop) (calls : List (BV × K))
    (solution : BV × K) : Prop :=
  ∃ done unfinished kept, calls = done ++ unfinished ∧ HasGenerations first startOk size breed survive done kept solution ∧
    unfinished.length < size ∧ ∀ c ∈ unfinished, breed kept solution c.1

/-! ## The algorithms -/

/-- The start of a search which keeps its first evaluations, all of them: the solution is a best one. -/
def StartsWithAll [LinearOrder K] (initial kept : List (BV × K)) (solution : BV × K) : Prop :=
  kept = initial ∧ BestOf initial solution

/-- The start of a search with as many vectors as `mu`, of `n` bits, which are not evaluated, and a solution which is. -/
def StartsUnevaluated (n mu : Nat) (initial : List (BV × K)) (kept : List BV) (solution : BV × K) : Prop :=
  kept.length = mu ∧ (∀ x ∈ kept, x.length = n) ∧ initial = [solution]

/-- Plus selection: as many best ones as `mu` of the parents and the generation are chosen, and kept. -/
def SurvivePlus [LE K] (mu : Nat) (kept generation chosen kept' : List (BV × K)) : Prop :=
  kept' = chosen ∧ chosen.length = mu ∧ BestAmong (kept ++ generation) chosen

/-- Comma selection: as many best ones as `mu` of the generation are chosen, and kept. -/
def SurviveComma [LE K] (mu : Nat) (_kept : List BV) (generation chosen : List (BV × K)) (kept' : List BV) : Prop :=
  kept' = chosen.map Prod.fst ∧ chosen.length = mu ∧ BestAmong generation chosen

/-- The whole generation replaces the parents. -/
def SurviveAll (_kept generation chosen kept' : List (BV × K)) : Prop := chosen = generation ∧ kept'.Perm generation

/-- The whole generation is compared with the solution, and then nothing of it is kept. -/
def SurviveNone (_kept : Unit) (generation chosen : List (BV × K)) (_kept' : Unit) : Prop := chosen = generation

end Hnco
