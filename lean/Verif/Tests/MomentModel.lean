import Verif.Function.Theory
import Verif.Function.Walsh
import Verif.Tests.Model
import Verif.Walsh.Model

/-!
# The project's test programs on Walsh moments, herding and the Walsh transform

As in `Verif.Tests.Model`, the literals of the programs are parameters.  As in `Verif.Walsh.Model`, `double` is `Rat`; the values of
`Plateau` are integers.
-/

namespace Hnco.Tests

open Outcome

/-- A loop over `count` indices from `i` on which is left by `return false` as soon as its body fails
(`test-walsh-moment-add.cc:50-56`). -/
def allFrom (body : Nat → Outcome Bool) : Nat → Nat → Outcome Bool
  | 0, _ => ok true
  | count + 1, i => do
    let b ← body i
    if b then allFrom body count (i + 1) else ok false

/-- The comparisons (`test-walsh-moment-add.cc:50-56`). -/
def sameMoments (n : Nat) (triangular symmetric : Moment) : Outcome Bool := do
  let b ← allFrom (fun i => do
    let a ← vget triangular.first i
    let c ← vget symmetric.first i
    ok (!decide (a ≠ c))) n 0
  if b then
    allFrom (fun i => allFrom (fun j => do
      let a ← triangular.read i j
      let c ← symmetric.read i j
      ok (!decide (a ≠ c))) i 0) n 0
  else ok false

/-- The moments of a random population (`test-walsh-moment-add.cc:40-49`, `test-herding-sample.cc:44-53`). -/
def populationMoments (n size : Nat) : Sim (Moment × Moment) := do
  let triangular ← Sim.lift (Moment.new false n)
  let symmetric ← Sim.lift (Moment.new true n)
  Sim.forRange 0 size (fun _ (m : Moment × Moment) => do
    let bv ← bvRandomBits n
    let t ← Sim.lift (m.1.add bv)
    let s ← Sim.lift (m.2.add bv)
    pure (t, s)) (triangular.init, symmetric.init)

/-- `check` (`test-walsh-moment-add.cc:29-59`). -/
def momentAddTest (runs dim pop : Nat) : Sim Bool :=
  every runs (do
    let n ← Sim.uniformInt 1 dim
    let size ← Sim.uniformInt 1 pop
    let m ← populationMoments n size
    Sim.lift (sameMoments n m.1 m.2))

/-- The loop which samples with both kinds of herding (`test-herding-sample.cc:64-69`). -/
def compareSamples (tm sm : Moment) : Nat → Herding → Herding → BV → BV → Sim Bool
  | 0, _, _, _, _ => pure true
  | k + 1, th, sh, x, y => do
    let r ← th.sample false false tm x
    let s ← sh.sample true false sm y
    if r.2 ≠ s.2 then pure false else compareSamples tm sm k r.1 s.1 r.2 s.2

/-- `check` (`test-herding-sample.cc:29-72`). -/
def herdingTest (runs dim pop seq : Nat) : Sim Bool :=
  every runs (do
    let n ← Sim.uniformInt 1 dim
    let size ← Sim.uniformInt 1 pop
    let length ← Sim.uniformInt 1 seq
    let m ← populationMoments n size
    let tm ← Sim.lift (m.1.average false size)
    let sm ← Sim.lift (m.2.average true size)
    let th ← Sim.lift (Herding.new false n)
    let sh ← Sim.lift (Herding.new true n)
    compareSamples tm sm length th.init sh.init (List.replicate n false) (List.replicate n false))

/-- `main` (`test-walsh-transform.cc:29-56`). -/
def walshTransformTest (runs inner dim : Nat) : Sim Bool :=
  every runs (do
    let n ← Sim.uniformInt 1 dim
    let norm ← Sim.lift (shiftOne n)
    let terms ← Sim.lift (computeWalshTransform (plateau n))
    every inner (do
      let bv ← bvRandomBits n
      let a ← Sim.lift (walshExpansionEval terms bv)
      let b ← Sim.lift ((plateau n).eval bv)
      if a ≠ b * (norm : Int) then pure false else pure true))

end Hnco.Tests
