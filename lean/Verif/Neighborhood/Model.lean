import Verif.BitVector.Model
import Verif.Sort
import Mathlib.Data.Rat.Defs
import Mathlib.Algebra.Order.Ring.Rat

/-!
# Model of the random neighbourhoods

Models `lib/hnco/neighborhoods/neighborhood.hh` and `neighborhood.cc`.
-/

namespace Hnco

open Outcome

/-- `Generator::uniform()` (`lib/hnco/random.hh`): any rational number of `[0, 1)`. -/
def Sim.uniform : Sim Rat := do
  let a ← Sim.draw
  let b ← Sim.draw
  return ((a % (b + 1) : Nat) : Rat) / ((b + 1 : Nat) : Rat)

/-- Fuel-bounded iteration used by `Sim.doWhile`. -/
def Sim.doWhileGo {σ : Type} (body : σ → Sim σ) (again : σ → Bool) : Nat → σ → Sim σ
  | 0, _ => fun _ => .out
  | k + 1, s => do
    let t ← body s
    if again t then Sim.doWhileGo body again k t else return t

/-- `do body while (again)` on a state; the fuel is the number of draws left, as in `Sim.repeatUntil`. -/
def Sim.doWhile {σ : Type} (body : σ → Sim σ) (again : σ → Bool) (s : σ) : Sim σ :=
  fun ds => Sim.doWhileGo body again (ds.length + 1) s ds

/-- Data members of `Neighborhood` (`neighborhood.hh:63-75`); `n` is the size given to the constructor, of which the
range of `_index_dist` is made. -/
structure Nbh where
  n : Nat
  origin : BV
  candidate : BV
  flipped : List Nat
  deriving DecidableEq

/-- Constructor (`neighborhood.hh:86-92`). -/
def Nbh.new (n : Nat) : Outcome Nbh := do
  assert (decide (n > 0))
  ok { n := n, origin := List.replicate n false, candidate := List.replicate n false, flipped := [] }

/-- `set_origin` (`neighborhood.hh:98-101`). -/
def Nbh.setOrigin (x : BV) (s : Nbh) : Nbh := { s with origin := x, candidate := x }

/-- Parameters of `StandardBitMutation` (`neighborhood.hh:231-239`).  The distributions themselves are not
modelled: a Bernoulli trial gives any bit, a binomial variable any number up to `n`. -/
structure StandardParams where
  rejection : Bool
  allowNoMutation : Bool

/-- `StandardBitMutation::set_mutation_rate` (`neighborhood.hh:282-287`); `belowSqrt` stands for the result of
`p < 1 / std::sqrt(_origin.size())`. -/
def StandardParams.setMutationRate (belowSqrt : Bool) (p : StandardParams) : StandardParams :=
  if belowSqrt then { p with rejection := true } else p

/-- `StandardBitMutation::set_allow_no_mutation` (`neighborhood.hh:290`). -/
def StandardParams.setAllowNoMutation (b : Bool) (p : StandardParams) : StandardParams :=
  { p with allowNoMutation := b }

/-- `MultiBitFlip::bernoulli_trials` (`neighborhood.cc:33-48`).  The state of the loop consists of the flipped bits,
`k` and `n`.  Simplification: `double(k) / double(n)` is exact. -/
def bernoulliTrials (k : Nat) (s : Nbh) : Sim (List Nat) := do
  let st ← Sim.forRange 0 s.candidate.length (fun i (st : List Nat × Nat × Nat) => do
    let p : Rat := (st.2.1 : Rat) / (st.2.2 : Rat)
    let u ← Sim.uniform
    if u < p then pure (st.1 ++ [i], st.2.1 - 1, st.2.2 - 1) else pure (st.1, st.2.1, st.2.2 - 1))
    (([] : List Nat), k, s.candidate.length)
  Sim.lift (assert (st.2.1 == 0))
  pure st.1

/-- `MultiBitFlip::rejection_sampling` (`neighborhood.cc:51-63`). -/
def rejectionSampling (k : Nat) (s : Nbh) : Sim (List Nat) := do
  let flipped ← Sim.forRange 0 k (fun _ flipped => do
    let index ← Sim.repeatUntil (Sim.uniformInt 0 (s.n - 1)) (fun index => !flipped.contains index)
    pure (flipped ++ [index])) ([] : List Nat)
  Sim.sort (fun a b => decide (a < b)) flipped

/-- `StandardBitMutation::bernoulli_process` (`neighborhood.cc:85-97`).  The state consists of the flipped bits and
`again`. -/
def bernoulliProcess (s : Nbh) : Sim (List Nat) := do
  let st ← Sim.doWhile (fun (st : List Nat × Bool) =>
      Sim.forRange 0 s.candidate.length (fun i (st : List Nat × Bool) => do
        let b ← Sim.bernoulli
        if b then pure (st.1 ++ [i], false) else pure st) st)
    (fun st => st.2) (([] : List Nat), true)
  pure st.1

/-- The kinds of neighbourhoods. -/
inductive Sampler where
  | singleBitFlip
  | standardBitMutation (params : StandardParams)
  | hammingBall (radius : Nat)
  | hammingSphere (radius : Nat)

/-- `sample_bits` of `SingleBitFlip` (`neighborhood.hh:167-170`), `StandardBitMutation` (`neighborhood.cc:66-82`),
`HammingBall` (`neighborhood.cc:100-112`) and `HammingSphere` (`neighborhood.cc:115-122`).  The test
`k < std::sqrt(n)` is done as `k * k < n`. -/
def Sampler.sampleBits : Sampler → Nbh → Sim (List Nat)
  | .singleBitFlip, s => do
    Sim.lift (assert (s.flipped.length == 1))
    let index ← Sim.uniformInt 0 (s.n - 1)
    Sim.lift (vset s.flipped 0 index)
  | .standardBitMutation params, s =>
    if params.rejection then do
      let k ← if params.allowNoMutation then Sim.uniformInt 0 s.n
        else Sim.repeatUntil (Sim.uniformInt 0 s.n) (fun k => k != 0)
      rejectionSampling k s
    else bernoulliProcess s
  | .hammingBall radius, s => do
    let k ← Sim.uniformInt 1 radius
    Sim.lift (assert (decide (k > 0)))
    Sim.lift (assert (decide (k ≤ s.candidate.length)))
    if k * k < s.candidate.length then rejectionSampling k s else bernoulliTrials k s
  | .hammingSphere radius, s =>
    if radius * radius < s.candidate.length then rejectionSampling radius s else bernoulliTrials radius s

/-- Constructors of `SingleBitFlip` (`neighborhood.hh:175-179`), `StandardBitMutation` (`neighborhood.hh:257-270`),
`HammingBall` (`neighborhood.hh:318-324`) and `HammingSphere` (`neighborhood.hh:350-356`). -/
def Sampler.construct (k : Sampler) (n : Nat) : Outcome Nbh := do
  let s ← Nbh.new n
  match k with
  | .singleBitFlip => ok { s with flipped := List.replicate 1 0 }
  | .standardBitMutation _ => ok s
  | .hammingBall r => do
    assert (decide (r > 0))
    assert (decide (r ≤ n))
    ok s
  | .hammingSphere r => do
    assert (decide (r > 0))
    assert (decide (r ≤ n))
    ok s

/-- `propose` (`neighborhood.hh:113-117`). -/
def Nbh.propose (k : Sampler) (s : Nbh) : Sim Nbh := do
  Sim.lift (assert (s.candidate == s.origin))
  let flipped ← k.sampleBits s
  let candidate ← Sim.lift (bvFlipSparse s.candidate flipped)
  pure { s with candidate := candidate, flipped := flipped }

/-- `keep` (`neighborhood.hh:120-123`). -/
def Nbh.keep (s : Nbh) : Outcome Nbh := do
  let origin ← bvFlipSparse s.origin s.flipped
  assert (s.candidate == origin)
  ok { s with origin := origin }

/-- `forget` (`neighborhood.hh:126-129`). -/
def Nbh.forget (s : Nbh) : Outcome Nbh := do
  let candidate ← bvFlipSparse s.candidate s.flipped
  assert (candidate == s.origin)
  ok { s with candidate := candidate }

/-- `mutate` (`neighborhood.hh:137-141`): the neighbourhood and the bit vector. -/
def Nbh.mutate (k : Sampler) (bv : BV) (s : Nbh) : Sim (Nbh × BV) := do
  Sim.lift (assert (bv.length == s.origin.length))
  let flipped ← k.sampleBits s
  let bv ← Sim.lift (bvFlipSparse bv flipped)
  pure ({ s with flipped := flipped }, bv)

/-- `map` (`neighborhood.hh:151-157`); `output` is overwritten. -/
def Nbh.map (k : Sampler) (input output : BV) (s : Nbh) : Sim (Nbh × BV) := do
  Sim.lift (assert (input.length == s.origin.length))
  Sim.lift (assert (output.length == s.origin.length))
  let output ← Sim.lift (forRange 0 input.length (fun i output => do
    let b ← vget input i
    vset output i b) output)
  let flipped ← k.sampleBits s
  let output ← Sim.lift (bvFlipSparse output flipped)
  pure ({ s with flipped := flipped }, output)

end Hnco
