import Verif.Algorithm.ProbabilityVector
import Verif.Map.Model

/-! # Model of MIMIC

`lib/hnco/algorithms/mimic.{hh,cc}`.  `std::log` is a parameter `log` of the model; the theorems which need something about
it only ask that it is not negative on the numbers which are at least 1.  Probabilities are rational numbers: rounding is
not modelled. -/

namespace Hnco

open Outcome

variable {K : Type}

/-- `std::min_element(l.begin() + i, l.end()) - l.begin()`: the position of the first smallest element. -/
def minElement (l : List Rat) (i : Nat) : Outcome Nat :=
  if l.length ≤ i then ok l.length
  else forRange (i + 1) l.length (fun k best => do
    let a ← vget l k
    let b ← vget l best
    ok (if a < b then k else best)) i

/-- `std::swap(l[i], l[j])`. -/
def swapAt {α : Type} (l : List α) (i j : Nat) : Outcome (List α) := do
  let a ← vget l i
  let b ← vget l j
  let l ← vset l i b
  vset l j a

/-- `perm_is_valid` (`permutation.cc:28-41`) of a permutation with no negative element. -/
def permCheck (p : List Nat) : Outcome Unit := do
  let v ← permIsValid (p.map Int.ofNat)
  assert v

/-- The members of `Mimic` which are the model (`mimic.hh:60-69`); `off` and `on` are `_parameters[0]` and `_parameters[1]`. -/
structure Chain where
  permutation : List Nat
  off : List Rat
  on : List Rat
  entropies : List Rat
  deriving DecidableEq

/-- Members of `Mimic` (`mimic.hh:57-78`). -/
structure MimicData (K : Type) where
  population : Pop K
  chain : Chain
  mean : List Rat
  lower : Rat
  upper : Rat

/-- Constructor (`mimic.hh:116-131`). -/
def mimicNew [Zero K] (n size : Int) : Outcome (MimicData K) := do
  let population ← Pop.new size n
  let d : MimicData K := ⟨population, ⟨List.replicate n.toNat 0, List.replicate n.toNat 0, List.replicate n.toNat 0,
    List.replicate n.toNat 0⟩, List.replicate n.toNat 0, 1 / (n : Rat), 1 - 1 / (n : Rat)⟩
  if 1 < size then ok d else throw .runtimeError

/-- The member `_population` of `Mimic`. -/
def mimicLens (K : Type) : PopLens (MimicData K) K where
  get d := d.population
  put p d := { d with population := p }
  get_put _ _ := rfl
  put_put _ _ _ := rfl
  put_get _ := rfl

/-- `bit_random(p)` (`bit-vector.hh:75`). -/
def bitRandom (p : Rat) : Sim Bool := do
  let u ← Sim.uniform
  pure (decide (u < p))

/-- `Mimic::sample` (`mimic.cc:50-64`). -/
def mimicSample (c : Chain) (bv : BV) : Sim BV := do
  Sim.lift (assert (bv.length == c.permutation.length))
  Sim.lift (assert (bv.length == c.off.length))
  Sim.lift (assert (bv.length == c.on.length))
  Sim.lift (permCheck c.permutation)
  let k ← Sim.lift (vget c.permutation 0)
  let p ← Sim.lift (vget c.on 0)
  let b ← bitRandom p
  let bv ← Sim.lift (vset bv k b)
  Sim.forRange 1 bv.length (fun i bv => do
    let previous ← Sim.lift (vget c.permutation (i - 1))
    let given ← Sim.lift (vget bv previous)
    let p ← Sim.lift (vget (if given then c.on else c.off) i)
    let k ← Sim.lift (vget c.permutation i)
    let b ← bitRandom p
    Sim.lift (vset bv k b)) bv

/-- Contingency table (`mimic.hh:72`): `_table[0]` and `_table[1]`. -/
abbrev Table := (Nat × Nat) × (Nat × Nat)

/-- `_table[a][b]++` (`mimic.cc:124`). -/
def Table.count (t : Table) (a b : Bool) : Table :=
  match a, b with
  | false, false => ((t.1.1 + 1, t.1.2), t.2)
  | false, true => ((t.1.1, t.1.2 + 1), t.2)
  | true, false => (t.1, (t.2.1 + 1, t.2.2))
  | true, true => (t.1, (t.2.1, t.2.2 + 1))

/-- Contribution of a row to the entropy (`mimic.cc:77-82`). -/
def rowEntropy (log : Rat → Rat) (r : Nat × Nat) (entropy : Rat) : Rat :=
  if r.1 + r.2 = 0 then entropy
  else
    let e := if r.1 = 0 then entropy else entropy + r.1 * log (((r.1 + r.2 : Nat) : Rat) / r.1)
    if r.2 = 0 then e else e + r.2 * log (((r.1 + r.2 : Nat) : Rat) / r.2)

/-- Conditional probability in a row (`mimic.cc:83`). -/
def rowParameter (r : Nat × Nat) : Rat := if r.1 + r.2 = 0 then 1 / 2 else (r.2 : Rat) / ((r.1 + r.2 : Nat) : Rat)

/-- `Mimic::compute_conditional_entropy` (`mimic.cc:66-91`). -/
def conditionalEntropy (log : Rat → Rat) (sel : Int) (t : Table) (index : Nat) (c : Chain) : Outcome Chain := do
  assert (decide (index < c.entropies.length))
  let off ← vset c.off index (rowParameter t.1)
  let on ← vset c.on index (rowParameter t.2)
  assert (decide (((t.1.1 + t.1.2 + (t.2.1 + t.2.2) : Nat) : Int) = sel))
  assert (decide (0 ≤ rowEntropy log t.2 (rowEntropy log t.1 0)))
  let entropies ← vset c.entropies index (rowEntropy log t.2 (rowEntropy log t.1 0))
  ok { c with off := off, on := on, entropies := entropies }

/-- The loop which fills the contingency table (`mimic.cc:121-125`). -/
def mimicTable (sel : Int) (p : Pop K) (first second : Nat) : Outcome Table :=
  forRange 0 sel.toNat (fun k (t : Table) => do
    let bv ← p.bestBv k
    let a ← vget bv first
    let b ← vget bv second
    ok (t.count a b)) ((0, 0), (0, 0))

/-- The loop over the candidates for the position `i` (`mimic.cc:117-128`). -/
def mimicCandidates (log : Rat → Rat) (sel : Int) (p : Pop K) (first i : Nat) (c : Chain) : Outcome Chain :=
  forRange i c.permutation.length (fun j c => do
    let second ← vget c.permutation j
    assert (second != first)
    let t ← mimicTable sel p first second
    conditionalEntropy log sel t j c) c

/-- Copy of the parameters of the chosen component (`mimic.cc:133-137`). -/
def mimicChoose (i child : Nat) (c : Chain) : Outcome Chain :=
  if child = i then ok c
  else do
    let permutation ← swapAt c.permutation i child
    let a ← vget c.off child
    let off ← vset c.off i a
    let b ← vget c.on child
    let on ← vset c.on i b
    ok { c with permutation := permutation, off := off, on := on }

/-- The main loop (`mimic.cc:114-139`). -/
def mimicLinks (log : Rat → Rat) (sel : Int) (p : Pop K) (c : Chain) : Outcome Chain :=
  forRange 1 c.permutation.length (fun i c => do
    let first ← vget c.permutation (i - 1)
    let c ← mimicCandidates log sel p first i c
    let child ← minElement c.entropies i
    assert (decide (child < c.permutation.length))
    let c ← mimicChoose i child c
    permCheck c.permutation
    ok c) c

/-- Choice of the root (`mimic.cc:104-112`). -/
def mimicRoot (mean : List Rat) (c : Chain) : Outcome Chain := do
  assert (decide (mean.length ≤ c.entropies.length))
  let entropies := mean.map (fun x => min x (1 - x)) ++ c.entropies.drop mean.length
  assert (entropies.all (fun x => decide (0 ≤ x)))
  let root ← minElement entropies 0
  assert (decide (root < c.permutation.length))
  let permutation ← swapAt (permIdentity c.permutation.length) 0 root
  let m ← vget mean root
  let off ← vset c.off 0 m
  let on ← vset c.on 0 m
  ok ⟨permutation, off, on, entropies⟩

/-- `Mimic::update_model` (`mimic.cc:93-144`). -/
def mimicUpdate (log : Rat → Rat) (sel : Int) : Alg (AlgState K (MimicData K)) Unit := do
  let s ← Alg.get
  let mean ← Alg.lift (selectionMean sel s.data.population s.data.mean)
  let c ← Alg.lift (mimicRoot mean s.data.chain)
  let c ← Alg.lift (mimicLinks log sel s.data.population c)
  let off ← Alg.lift (pvBound c.off s.data.lower s.data.upper)
  let on ← Alg.lift (pvBound c.on s.data.lower s.data.upper)
  Alg.modify (fun s => { s with data := { s.data with mean := mean, chain := { c with off := off, on := on } } })

/-- `Mimic::init` (`mimic.cc:38-48`). -/
def mimicInit (env : Env K) (sel : Int) : Alg (AlgState K (MimicData K)) Unit := do
  Alg.lift (assert (decide (0 < sel)))
  let s ← Alg.get
  Alg.lift (assert (decide (sel < s.data.population.size)))
  randomSolution env
  let s ← Alg.get
  let permutation ← Alg.sim (Sim.shuffle (permIdentity s.data.chain.permutation.length))
  Alg.modify (fun s => { s with data := { s.data with chain := { s.data.chain with
    permutation := permutation, off := pvUniform s.data.chain.off, on := pvUniform s.data.chain.on } } })

/-- `Mimic::iterate` (`mimic.cc:146-163`). -/
def mimicIterate [LT K] [DecidableLT K] (env : Env K) (log : Rat → Rat) (sel : Int) :
    Alg (AlgState K (MimicData K)) Unit := do
  let s ← Alg.get
  let p ← Alg.sim (s.data.population.sample (mimicSample s.data.chain))
  Alg.modify (fun s => { s with data := { s.data with population := p } })
  popEvaluate env (mimicLens K)
  popSort (mimicLens K)
  popUpdateSolution (mimicLens K)
  mimicUpdate log sel

/-- `Mimic` as an iterative algorithm. -/
def mimicMaximize [LT K] [DecidableLT K] (env : Env K) (log : Rat → Rat) (sel : Int) (numIterations : Int) (fuel : Nat) :
    Alg (AlgState K (MimicData K)) Unit :=
  algLoop (mimicInit env sel) (mimicIterate env log sel) numIterations fuel

end Hnco
