import Verif.Function.Controller

/-!
# Model of the evaluation of populations

Models `Population::evaluate` and `Population::evaluate_in_parallel`
(`lib/hnco/algorithms/population.cc:42-69`).
-/

namespace Hnco

open Outcome

variable {σ K : Type}

/-- `values[i] = v` on the values of a population. -/
def setValue (i : Nat) (v : K) : Act (σ × List K) Unit := do
  let s ← Act.get
  let values ← Act.lift (vset s.2 i v)
  Act.modify (fun s => (s.1, values))

/-- Body of the loop of `Population::evaluate` (`population.cc:49`). -/
def evaluateOne (f : FnObj σ K) (bvs : List BV) (i : Nat) : Act (σ × List K) Unit := do
  let x ← Act.lift (vget bvs i)
  let v ← Act.inner (f.evaluate x)
  setValue i v

/-- The loop over the given indices (`population.cc:48-49`). -/
def evaluateLoop (f : FnObj σ K) (bvs : List BV) : List Nat → Act (σ × List K) Unit
  | [] => pure ()
  | i :: is => do
    evaluateOne f bvs i
    evaluateLoop f bvs is

/-- `Population::evaluate` (`population.cc:42-50`); the state consists of that of the function and of the
values of the population. -/
def populationEvaluate (f : FnObj σ K) (bvs : List BV) : Act (σ × List K) Unit := do
  let s ← Act.get
  Act.lift (assert (bvs.length == s.2.length))
  evaluateLoop f bvs (List.range bvs.length)

/-- Body of the parallel loop (`population.cc:59-64`) run by thread `k`: the function objects have
separate states, listed in the first component. -/
def evaluateSafelyOne (fns : List (FnObj σ K)) (bvs : List BV) (k i : Nat) :
    Act (List σ × List K) Unit := do
  Act.lift (assert (decide (k < fns.length)))
  let f ← Act.lift (vget fns k)
  let x ← Act.lift (vget bvs i)
  let s ← Act.get
  let t ← Act.lift (vget s.1 k)
  let states ← Act.lift (vset s.1 k (f.evaluateSafely x t).2)
  Act.modify (fun s => (states, s.2))
  let v ← Act.lift (f.evaluateSafely x t).1
  setValue i v

/-- The parallel loop (`population.cc:58-65`), executed in the order given by the list of pairs (thread,
index).  Simplification: the iterations are atomic; this loses no behaviour as long as the function
objects share no state, since each iteration reads and writes the object of its own thread and its own
value only. -/
def parallelLoop (fns : List (FnObj σ K)) (bvs : List BV) : List (Nat × Nat) →
    Act (List σ × List K) Unit
  | [] => pure ()
  | (k, i) :: rest => do
    evaluateSafelyOne fns bvs k i
    parallelLoop fns bvs rest

/-- The loop of updates (`population.cc:67-68`) on the first function, over the given indices; `values`
is fixed. -/
def updateLoop (f : FnObj σ K) (bvs : List BV) (values : List K) : List Nat → Act σ Unit
  | [] => pure ()
  | i :: is => do
    let x ← Act.lift (vget bvs i)
    let v ← Act.lift (vget values i)
    f.update x v
    updateLoop f bvs values is

/-- A call on the first of the function objects. -/
def onFirst {α : Type} (m : Act σ α) : Act (List σ × List K) α := fun s =>
  match s.1 with
  | [] => (ub, s)
  | t :: ts => ((m t).1, ((m t).2 :: ts, s.2))

/-- `Population::evaluate_in_parallel` (`population.cc:52-69`), for the given schedule. -/
def populationEvaluateParallel (fns : List (FnObj σ K)) (bvs : List BV) (schedule : List (Nat × Nat)) :
    Act (List σ × List K) Unit := do
  let s ← Act.get
  Act.lift (assert (bvs.length == s.2.length))
  Act.lift (assert (!fns.isEmpty))
  parallelLoop fns bvs schedule
  let f ← Act.lift (vget fns 0)
  let s ← Act.get
  onFirst (updateLoop f bvs s.2 (List.range bvs.length))

end Hnco
