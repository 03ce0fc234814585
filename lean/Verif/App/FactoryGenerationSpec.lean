import Verif.App.FactoryPathSpec
import Verif.Algorithm.GenerationSpec

/-!
# Specification of the population searches made by the factory

How the options of the command line determine the generations.
-/

namespace Hnco

variable {K P : Type}

/-- What is expected of a run which makes generations: if it ends by itself, all generations are whole; if it is interrupted, the
last one may be unfinished, and its evaluations have no influence on the solution which is reported. -/
def GenerationsOk [LinearOrder K] (first : Nat) (startOk : List (BV × K) → P → BV × K → Prop) (size : Nat)
    (breed : P → BV × K → BV → Prop) (survive : P → List (BV × K) → List (BV × K) → P → Prop) (r : RunResult K) : Prop :=
  (∃ kept, HasGenerations first startOk size breed survive r.calls kept r.solution) ∨
  (r.ending ≠ .ok () ∧ (r.calls.length < first ∨ HasUnfinished first startOk size breed survive r.calls r.solution))

/-- The evaluations and the solution of a (mu + lambda) EA with the given options after whole generations. -/
def MuPlusLambdaRun [LinearOrder K] (o : AlgOptions) (n : Nat) (calls kept : List (BV × K)) (solution : BV × K) : Prop :=
  HasGenerations o.eaMu.toNat StartsWithAll o.eaLambda.toNat
    (fun kept _ => MutantOfParent (MutationStep o n) (kept.map Prod.fst)) (SurvivePlus o.eaMu.toNat) calls kept solution

/-- The evaluations and the solution of a (mu, lambda) EA with the given options after whole generations. -/
def MuCommaLambdaRun [LinearOrder K] (o : AlgOptions) (n : Nat) (calls : List (BV × K)) (kept : List BV) (solution : BV × K) :
    Prop :=
  HasGenerations 1 (StartsUnevaluated n o.eaMu.toNat) o.eaLambda.toNat
    (fun kept _ => MutantOfParent (MutationStep o n) kept) (SurviveComma o.eaMu.toNat) calls kept solution

end Hnco
