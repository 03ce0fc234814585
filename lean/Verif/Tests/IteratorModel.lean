import Verif.Tests.SearchModel
import Verif.Function.Maximality

/-!
# The project's test programs on iterators, neighbourhoods and hill climbing

As in `Tests/Model.lean`, the numbers of runs and the largest sizes are parameters.
-/

namespace Hnco.Tests

open Outcome

/-- A loop `while (iterator.has_next())` which counts the vectors and is left by `return 1` at the first one which fails the
check (`test-hypercube-iterator.cc:41-44`, `test-single-bit-flip-iterator.cc:42-46`, `test-hamming-sphere-iterator.cc:48-52`):
whether all vectors pass the check, and the count.  The loop has no result if it is not over after `fuel` turns.
Simplification: the count is a natural number. -/
def countAll {σ : Type} (hasNext : σ → Outcome Bool) (next : σ → Outcome (BV × σ)) (check : BV → Outcome Bool) :
    Nat → σ → Nat → Sim (Bool × Nat)
  | 0, _, _ => fun _ => .out
  | fuel + 1, it, count => do
    let b ← Sim.lift (hasNext it)
    if b then do
      let r ← Sim.lift (next it)
      let good ← Sim.lift (check r.1)
      if good then countAll hasNext next check fuel r.2 (count + 1) else pure (false, count)
    else pure (true, count)

/-- `1 << n` for an `int` (`test-hypercube-iterator.cc:49`, `test-walsh-transform.cc:37`); undefined when the result is not an
`int`. -/
def shiftOne (n : Nat) : Outcome Nat := if n < 31 then ok (2 ^ n) else ub

/-- `test-hypercube-iterator.cc:31-55`. -/
def hypercubeTest (runs size fuel : Nat) : Sim Bool :=
  every runs (do
    let n ← Sim.uniformInt 0 size
    let r ← countAll HypercubeIterator.hasNext HypercubeIterator.next (fun _ => ok true) fuel (HypercubeIterator.new n) 0
    if n = 0 then pure (r.2 == 0)
    else do
      let expected ← Sim.lift (shiftOne n)
      pure (r.2 == expected))

/-- `test-single-bit-flip-iterator.cc:29-52`. -/
def singleBitFlipTest (runs size fuel : Nat) : Sim Bool :=
  every runs (do
    let n ← Sim.uniformInt 0 size
    let bv ← bvRandomBits n
    let it ← Sim.lift ((SingleBitFlipIterator.new n).setOrigin bv)
    let r ← countAll SingleBitFlipIterator.hasNext SingleBitFlipIterator.next (fun y => do
      let d ← bvHammingDistance y bv
      return d == 1) fuel it 0
    if r.1 then pure (r.2 == n) else pure false)

/-- `test-hamming-sphere-iterator.cc:29-63`. -/
def hammingSphereIteratorTest (runs radiusBound delta fuel : Nat) : Sim Bool :=
  every runs (do
    let radius ← Sim.uniformInt 1 radiusBound
    let d ← Sim.uniformInt 0 delta
    let n := radius + d
    let bv ← bvRandomBits n
    let it ← Sim.lift (HammingSphereIterator.new n radius)
    let it ← Sim.lift (it.setOrigin bv)
    let r ← countAll HammingSphereIterator.hasNext HammingSphereIterator.next (fun y => do
      let d ← bvHammingDistance y bv
      return d == radius) fuel it 0
    if r.1 then
      if radius = 2 ∧ r.2 ≠ n * (n - 1) / 2 then pure false else pure true
    else pure false)

/-- `test-hamming-sphere.cc:29-62`. -/
def hammingSphereTest (runs size : Nat) : Sim Bool :=
  every runs (do
    let p ← Sim.repeatUntil (do
      let n ← Sim.uniformInt 1 size
      let radius ← Sim.uniformInt 1 size
      pure (n, radius)) (fun p => decide (p.2 ≤ p.1))
    Sim.lift (assert (decide (p.2 ≤ p.1)))
    let bv ← bvRandomBits p.1
    let s ← Sim.lift ((Sampler.hammingSphere p.2).construct p.1)
    let s ← (s.setOrigin bv).propose (Sampler.hammingSphere p.2)
    let d ← Sim.lift (bvHammingDistance s.origin s.candidate)
    pure (d == p.2))

section
variable {K ι : Type} [LinearOrder K]

/-- The loop of `bv_is_locally_maximal` (`function.cc:138-142`), without result if it is not over after `fuel` turns. -/
def scanBetter (N : NbhIter ι) (f : Fn K) (value : K) : Nat → ι → Sim Bool
  | 0, _ => fun _ => .out
  | fuel + 1, it => do
    let b ← Sim.lift (N.hasNext it)
    if b then do
      let r ← Sim.lift (N.next it)
      let v ← Sim.lift (f.eval r.1)
      if value < v then pure false else scanBetter N f value fuel r.2
    else pure true

/-- `bv_is_locally_maximal` (`function.cc:132-143`). -/
def isLocallyMaximal (N : NbhIter ι) (f : Fn K) (bv : BV) (it : ι) (fuel : Nat) : Sim Bool := do
  let value ← Sim.lift (f.eval bv)
  let it ← Sim.lift (N.setOrigin it bv)
  scanBetter N f value fuel (N.init it)

variable [Zero K]

/-- Construction and run of first ascent hill climbing with the iterator over single bit flips
(`test-first-ascent-hill-climbing.cc:45-48`); the check is made on the solution and on the iterator, which the algorithm has
left in some state.  An exception would leave the program. -/
def firstAscentThen (n : Nat) (f : Fn K) (fuel : Nat) (check : BV → SingleBitFlipIterator → Sim Bool) : Sim Bool := do
  Sim.lift (algorithmNew n)
  let r ← firstAscentMaximize ⟨f, fun _ _ => none⟩ singleBitFlipIter (newStart n) fuel 0 fuel
    (newState n ⟨SingleBitFlipIterator.new n, []⟩)
  match r.1 with
  | .error _ => pure false
  | .ok _ => check r.2.solution.1 r.2.data.it

/-- Same with steepest ascent (`test-steepest-ascent-hill-climbing.cc:45-48`, `steepest-ascent-hill-climbing.hh:48-50`). -/
def steepestAscentThen (n : Nat) (f : Fn K) (fuel : Nat) (check : BV → SingleBitFlipIterator → Sim Bool) : Sim Bool := do
  Sim.lift (algorithmNew n)
  let r ← steepestMaximize ⟨f, fun _ _ => none⟩ singleBitFlipIter (newStart n) fuel 0 fuel
    (newState n ⟨SingleBitFlipIterator.new n, List.replicate n (List.replicate n false)⟩)
  match r.1 with
  | .error _ => pure false
  | .ok _ => check r.2.solution.1 r.2.data.it

end

/-- `Labs` with its default flag (`labs.hh:52`, `60-70`, `labs.cc:54-63`). -/
def labsFn (n : Nat) : Fn Rat := Fn.ofEval n (labsEval false (List.replicate n 0))

/-- `test-first-ascent-hill-climbing.cc:33-55`. -/
def firstAscentTest (runs size fuel : Nat) : Sim Bool :=
  every runs (do
    let n ← Sim.uniformInt 1 size
    firstAscentThen n (oneMax n) fuel (fun bv _ => Sim.lift (globalTest (oneMax n) bv)))

/-- `test-steepest-ascent-hill-climbing.cc:33-55`. -/
def steepestAscentTest (runs size fuel : Nat) : Sim Bool :=
  every runs (do
    let n ← Sim.uniformInt 1 size
    steepestAscentThen n (oneMax n) fuel (fun bv _ => Sim.lift (globalTest (oneMax n) bv)))

/-- `test-first-ascent-hill-climbing-local.cc:33-55`. -/
def firstAscentLocalTest (runs size fuel : Nat) : Sim Bool :=
  every runs (do
    let n ← Sim.uniformInt 1 size
    firstAscentThen n (labsFn n) fuel (fun bv it => isLocallyMaximal singleBitFlipIter (labsFn n) bv it fuel))

/-- `test-steepest-ascent-hill-climbing-local.cc:33-56`. -/
def steepestAscentLocalTest (runs size fuel : Nat) : Sim Bool :=
  every runs (do
    let n ← Sim.uniformInt 1 size
    steepestAscentThen n (labsFn n) fuel (fun bv it => isLocallyMaximal singleBitFlipIter (labsFn n) bv it fuel))

end Hnco.Tests
