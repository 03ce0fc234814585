import Verif.Algorithm.Calm
import Verif.Algorithm.LocalSearch
import Verif.Algorithm.ItEa
import Verif.Algorithm.LambdaLambda
import Verif.Algorithm.Human
import Verif.Algorithm.Mimic
import Verif.Algorithm.RamUmda
import Verif.Walsh.Model

/-! # The definitions of the algorithms raise no exception by themselves -/

namespace Hnco

open Outcome

variable {K σ ι : Type}

instance (n : Nat) : (bvRandomBits n).Calm := by unfold bvRandomBits; calm

instance {env : Env K} (bv : BV) (v : K) : Alg.Calm env (setSolution bv v : Alg (AlgState K σ) Unit) := by
  unfold setSolution; calm

instance [LT K] [DecidableLT K] {env : Env K} (bv : BV) (v : K) :
    Alg.Calm env (updateSolution bv v : Alg (AlgState K σ) Unit) := by
  unfold updateSolution; calm

instance (env : Env K) (bv : BV) : Alg.Calm env (setSolutionEval env bv : Alg (AlgState K σ) Unit) := by
  unfold setSolutionEval; calm

instance [LT K] [DecidableLT K] (env : Env K) (bv : BV) :
    Alg.Calm env (updateSolutionEval env bv : Alg (AlgState K σ) Unit) := by
  unfold updateSolutionEval; calm

instance (env : Env K) : Alg.Calm env (randomSolution env : Alg (AlgState K σ) Unit) := by
  unfold randomSolution; calm

/-- An iterator over neighbourhoods which throws no exception. -/
class NbhIter.Calm (N : NbhIter ι) : Prop where
  setOrigin : ∀ it x, (N.setOrigin it x).Calm
  hasNext : ∀ it, (N.hasNext it).Calm
  next : ∀ it, (N.next it).Calm

instance (N : NbhIter ι) [h : N.Calm] (it : ι) (x : BV) : (N.setOrigin it x).Calm := h.setOrigin it x
instance (N : NbhIter ι) [h : N.Calm] (it : ι) : (N.hasNext it).Calm := h.hasNext it
instance (N : NbhIter ι) [h : N.Calm] (it : ι) : (N.next it).Calm := h.next it


instance {α : Type} (lt : α → α → Bool) (l : List α) : (Sim.sort lt l).Calm := by
  refine ⟨fun ds e h => ?_⟩
  cases ds with
  | nil => cases h
  | cons d ds =>
    unfold Sim.sort at h
    simp only at h
    split at h <;> cases h

instance {α : Type} (lt : α → α → Bool) (k : Nat) (l : List α) : (Sim.partialSort lt k l).Calm := by
  refine ⟨fun ds e h => ?_⟩
  unfold Sim.partialSort at h
  split at h
  · cases h
  · split at h
    · cases h
    · split at h <;> cases h


/-! ## `BitVector/Model.lean` -/


instance (x : BV) (i : Nat) : Outcome.Calm (bvFlip x i) := by
  unfold bvFlip; calm

theorem flipLoop_calm : ∀ l x, (flipLoop x l).Calm
  | [], x => by unfold flipLoop; calm
  | i :: l, x => by
    have := fun y => flipLoop_calm l y
    unfold flipLoop; calm

instance (x : BV) (l : List Nat) : (flipLoop x l).Calm := flipLoop_calm l x

instance (x : BV) (sbv : List Nat) : (bvFlipSparse x sbv).Calm := by
  unfold bvFlipSparse; calm

instance (env : Env K) (x : BV) (v : K) (flipped : List Nat) :
    Alg.Calm env (evaluateIncrementally env x v flipped : Alg (AlgState K σ) K) := by
  unfold evaluateIncrementally
  refine @algCalm_bind _ _ _ _ _ _ _ inferInstance (fun y => ⟨fun s ds e t rest he => ?_⟩)
  change (match env.stop s.calls y with
    | some e => Alg.lift (.throw e)
    | none => do
      let v ← Alg.lift (env.fn.evalInc x v flipped)
      Alg.modify (fun s => { s with calls := s.calls ++ [(y, v)] })
      Pure.pure v : Alg (AlgState K σ) K) s ds = _ at he
  cases h : env.stop s.calls y with
  | some z => rw [h] at he; cases he; exact Or.inl ⟨y, h⟩
  | none =>
    rw [h] at he
    simp only at he
    cases hv : env.fn.evalInc x v flipped with
    | ok w => rw [hv] at he; cases he
    | throw z => rw [hv] at he; cases he; exact Or.inr (Or.inr ⟨x, v, flipped, hv⟩)
    | ub => rw [hv] at he; cases he

instance {K : Type} [LT K] [DecidableLT K] (ratio : Nat → Nat → K) (uniform : Nat → K) (i : Nat) (s : RandomState) :
    Outcome.Calm (bvRandomBody ratio uniform i s) := by
  unfold bvRandomBody; calm

instance {K : Type} [LT K] [DecidableLT K] (ratio : Nat → Nat → K) (uniform : Nat → K) (x : BV) (k : Nat) :
    Outcome.Calm (bvRandom ratio uniform x k) := by
  unfold bvRandom; calm

instance (dest src : BV) : Outcome.Calm (bvAdd dest src) := by
  unfold bvAdd; calm

instance (dest x y : BV) : Outcome.Calm (bvAdd3 dest x y) := by
  unfold bvAdd3; calm


/-! ## `Sort.lean` -/



/-! ## `Neighborhood/Model.lean` -/


instance : Sim.Calm (Sim.uniform) := by
  unfold Sim.uniform; calm

theorem doWhileGo_calm {body : σ → Sim σ} [h : ∀ s, (body s).Calm] {again : σ → Bool} :
    ∀ k s, (Sim.doWhileGo body again k s).Calm
  | 0, s => by unfold Sim.doWhileGo; calm
  | k + 1, s => by
    have := fun t => doWhileGo_calm (h := h) (again := again) k t
    unfold Sim.doWhileGo; calm

instance (body : σ → Sim σ) [∀ s, (body s).Calm] (again : σ → Bool) (s : σ) : (Sim.doWhile body again s).Calm :=
  ⟨fun ds e h => (doWhileGo_calm (body := body) (again := again) (ds.length + 1) s).out ds e h⟩

instance (k : Nat) (s : Nbh) : Sim.Calm (bernoulliTrials k s) := by
  unfold bernoulliTrials; calm

instance (k : Nat) (s : Nbh) : Sim.Calm (rejectionSampling k s) := by
  unfold rejectionSampling; calm

instance (s : Nbh) : Sim.Calm (bernoulliProcess s) := by
  unfold bernoulliProcess; calm

instance (a0 : _) (a1 : _) : Sim.Calm (Sampler.sampleBits a0 a1) := by
  unfold Sampler.sampleBits; calm

instance (k : Sampler) (s : Nbh) : Sim.Calm (Nbh.propose k s) := by
  unfold Nbh.propose; calm

instance (s : Nbh) : Outcome.Calm (Nbh.keep s) := by
  unfold Nbh.keep; calm

instance (s : Nbh) : Outcome.Calm (Nbh.forget s) := by
  unfold Nbh.forget; calm

instance (k : Sampler) (bv : BV) (s : Nbh) : Sim.Calm (Nbh.mutate k bv s) := by
  unfold Nbh.mutate; calm

instance (k : Sampler) (input output : BV) (s : Nbh) : Sim.Calm (Nbh.map k input output s) := by
  unfold Nbh.map; calm


/-! ## `Iterator/Model.lean` -/


instance (it : HypercubeIterator) : Outcome.Calm (HypercubeIterator.hasNext it) := by
  unfold HypercubeIterator.hasNext; calm

instance (it : HypercubeIterator) : Outcome.Calm (HypercubeIterator.next it) := by
  unfold HypercubeIterator.next; calm

instance (it : SingleBitFlipIterator) (x : BV) : Outcome.Calm (SingleBitFlipIterator.setOrigin it x) := by
  unfold SingleBitFlipIterator.setOrigin; calm

instance (it : SingleBitFlipIterator) : Outcome.Calm (SingleBitFlipIterator.hasNext it) := by
  unfold SingleBitFlipIterator.hasNext; calm

instance (it : SingleBitFlipIterator) : Outcome.Calm (SingleBitFlipIterator.next it) := by
  unfold SingleBitFlipIterator.next; calm

instance (it : HammingSphereIterator) (x : BV) : Outcome.Calm (HammingSphereIterator.setOrigin it x) := by
  unfold HammingSphereIterator.setOrigin; calm

theorem findIndex_calm (b : List Nat) : ∀ i, (HammingSphereIterator.findIndex b i).Calm
  | 0 => by unfold HammingSphereIterator.findIndex; calm
  | i + 1 => by
    have := findIndex_calm b i
    unfold HammingSphereIterator.findIndex; calm

instance (b : List Nat) (i : Nat) : (HammingSphereIterator.findIndex b i).Calm := findIndex_calm b i

instance (it : HammingSphereIterator) : Outcome.Calm (HammingSphereIterator.hasNext it) := by
  unfold HammingSphereIterator.hasNext; calm

instance (n : Nat) (radius : Nat) (b : List Nat) : Outcome.Calm (HammingSphereIterator.nextIndexes n radius b) := by
  unfold HammingSphereIterator.nextIndexes; calm

instance (it : HammingSphereIterator) : Outcome.Calm (HammingSphereIterator.next it) := by
  unfold HammingSphereIterator.next; calm


/-! ## `Map/Model.lean` -/


instance (t : Transvection) (bv : BV) : Outcome.Calm (tvMultiply t bv) := by
  unfold tvMultiply; calm

theorem tsMultiplyLoop_calm : ∀ ts x, (tsMultiplyLoop ts x).Calm
  | [], x => by unfold tsMultiplyLoop; calm
  | t :: ts, x => by
    have := fun y => tsMultiplyLoop_calm ts y
    unfold tsMultiplyLoop; calm

instance (ts : List Transvection) (x : BV) : (tsMultiplyLoop ts x).Calm := tsMultiplyLoop_calm ts x

instance (bv : BV) (ts : List Transvection) : Outcome.Calm (tsMultiply bv ts) := by
  unfold tsMultiply; calm

instance (n : Nat) : Sim.Calm (tvRandom n) := by
  unfold tvRandom; calm

instance (n : Nat) (a : Transvection) : Sim.Calm (tvRandomNonCommuting n a) := by
  unfold tvRandomNonCommuting; calm

theorem tsRandomLoop_calm (n : Nat) : ∀ k, (tsRandomLoop n k).Calm
  | 0 => by unfold tsRandomLoop; calm
  | k + 1 => by
    have := tsRandomLoop_calm n k
    unfold tsRandomLoop; calm

instance (n k : Nat) : (tsRandomLoop n k).Calm := tsRandomLoop_calm n k

instance (_ts : List Transvection) (n t : Nat) : Sim.Calm (tsRandom _ts n t) := by
  unfold tsRandom; calm

instance (n : Nat) : Sim.Calm (shuffledVariables n) := by
  unfold shuffledVariables; calm

instance (n t : Nat) : Sim.Calm (commutingSplit n t) := by
  unfold commutingSplit; calm

instance (vars : List Nat) (n split : Nat) (ts : List Transvection) : Outcome.Calm (commutingPairs vars n split ts) := by
  unfold commutingPairs; calm

instance (ts : List Transvection) (n t : Nat) : Sim.Calm (tsRandomCommuting ts n t) := by
  unfold tsRandomCommuting; calm

instance (ts : List Transvection) (n t : Nat) : Sim.Calm (tsRandomUniqueSource ts n t) := by
  unfold tsRandomUniqueSource; calm

instance (ts : List Transvection) (n t : Nat) : Sim.Calm (tsRandomUniqueDestination ts n t) := by
  unfold tsRandomUniqueDestination; calm

instance (vars : List Nat) (n t : Nat) : Outcome.Calm (disjointPairs vars n t) := by
  unfold disjointPairs; calm

instance (ts : List Transvection) (n t : Nat) : Sim.Calm (tsRandomDisjoint ts n t) := by
  unfold tsRandomDisjoint; calm

theorem nonCommutingLoop_calm (n : Nat) : ∀ k a, (nonCommutingLoop n k a).Calm
  | 0, a => by unfold nonCommutingLoop; calm
  | k + 1, a => by
    have := fun b => nonCommutingLoop_calm n k b
    unfold nonCommutingLoop; calm

instance (n k : Nat) (a : Transvection) : (nonCommutingLoop n k a).Calm := nonCommutingLoop_calm n k a

instance (ts : List Transvection) (n t : Nat) : Sim.Calm (tsRandomNonCommuting ts n t) := by
  unfold tsRandomNonCommuting; calm

theorem permIsValidLoop_calm (n : Nat) : ∀ l c, (permIsValidLoop n l c).Calm
  | [], c => by unfold permIsValidLoop; calm
  | p :: l, c => by
    have := fun c => permIsValidLoop_calm n l c
    unfold permIsValidLoop; calm

instance (n : Nat) (l : List Int) (c : List Bool) : (permIsValidLoop n l c).Calm := permIsValidLoop_calm n l c

instance (p : List Int) : Outcome.Calm (permIsValid p) := by
  unfold permIsValid; calm

instance (f : TsAffine) (input output : BV) : Outcome.Calm (tsAffineMap f input output) := by
  unfold tsAffineMap; calm

instance (f : TsAffine) : Outcome.Calm (tsAffineInvert f) := by
  unfold tsAffineInvert; calm

instance (ts : List Transvection) (n t : Nat) (a0 : _) : Sim.Calm (tsSample ts n t a0) := by
  unfold tsSample; calm

instance (f : TsAffine) (n t : Nat) (mode : SamplingMode) : Sim.Calm (tsAffineRandom f n t mode) := by
  unfold tsAffineRandom; calm


/-! ## `Population/Model.lean` -/




theorem randomBvs_calm : ∀ l, (randomBvs l).Calm
  | [] => by unfold randomBvs; calm
  | x :: l => by
    have := randomBvs_calm l
    unfold randomBvs; calm

instance (l : List BV) : (randomBvs l).Calm := randomBvs_calm l

instance (p : Pop K) : (Pop.random p).Calm := by
  unfold Pop.random; calm

theorem readValues_calm (values : List K) : ∀ l, (readValues values l).Calm
  | [] => by unfold readValues; calm
  | x :: l => by
    have := readValues_calm values l
    unfold readValues; calm

instance (values : List K) (l : List Nat) : (readValues values l).Calm := readValues_calm values l

instance [LT K] [DecidableLT K] (p : Pop K) : Sim.Calm (Pop.sort p) := by
  unfold Pop.sort; calm

instance [LT K] [DecidableLT K] (selectionSize : Nat) (p : Pop K) : Sim.Calm (Pop.partialSort selectionSize p) := by
  unfold Pop.partialSort; calm

instance {α : Type} (lt : α → α → Bool) (l : List α) (v : α) : Outcome.Calm (equalRange lt l v) := by
  unfold equalRange; calm

instance [LT K] [DecidableLT K] (index : Nat) (p : Pop K) : Outcome.Calm (Pop.getEquivalentBvs index p) := by
  unfold Pop.getEquivalentBvs; calm

instance (i : Nat) (p : Pop K) : Outcome.Calm (Pop.bestIndex i p) := by
  unfold Pop.bestIndex; calm

instance (i : Nat) (p : Pop K) : Outcome.Calm (Pop.bestBv i p) := by
  unfold Pop.bestBv; calm

instance (i : Nat) (p : Pop K) : Outcome.Calm (Pop.worstBv i p) := by
  unfold Pop.worstBv; calm

instance (i : Nat) (p : Pop K) : Outcome.Calm (Pop.bestValue i p) := by
  unfold Pop.bestValue; calm

instance (i : Nat) (bv : BV) (p : Pop K) : Outcome.Calm (Pop.setBestBv i bv p) := by
  unfold Pop.setBestBv; calm

instance (i : Nat) (s : Pop K × Pop K) : Outcome.Calm (takeBest i s) := by
  unfold takeBest; calm

instance [LT K] [DecidableLT K] (parents offsprings : Pop K) : Sim.Calm (commaSelect parents offsprings) := by
  unfold commaSelect; calm

instance (offset : Nat) (i : Nat) (s : Pop K × Pop K) : Outcome.Calm (fillPool offset i s) := by
  unfold fillPool; calm

instance [LT K] [DecidableLT K] (parents offsprings pool : Pop K) : Sim.Calm (plusSelect parents offsprings pool) := by
  unfold plusSelect; calm

instance (t : Tournament) : Sim.Calm (Tournament.init t) := by
  unfold Tournament.init; calm

instance (compare : K → K → Bool) (values : List K) (t : Tournament) : Outcome.Calm (Tournament.round compare values t) := by
  unfold Tournament.round; calm

instance (popSize : Nat) (t : Tournament) : Sim.Calm (Tournament.next popSize t) := by
  unfold Tournament.next; calm

instance (compare : K → K → Bool) (bvs : List BV) (values : List K) (t : Tournament) :
    Sim.Calm (Tournament.select compare bvs values t) := by
  unfold Tournament.select; calm

instance (first : Bool) (parent1 parent2 : BV) (i : Nat) (offspring : BV) :
    Outcome.Calm (recombineBit first parent1 parent2 i offspring) := by
  unfold recombineBit; calm

instance (parent1 parent2 offspring : BV) : Sim.Calm (uniformRecombine parent1 parent2 offspring) := by
  unfold uniformRecombine; calm

instance (parent1 parent2 offspring : BV) : Sim.Calm (biasedRecombine parent1 parent2 offspring) := by
  unfold biasedRecombine; calm

instance (env : Env K) (L : PopLens σ K) (i : Nat) : Alg.Calm env (popEvaluateOne env L i : Alg (AlgState K σ) Unit) := by
  unfold popEvaluateOne; calm

instance (env : Env K) (L : PopLens σ K) : Alg.Calm env (popEvaluate env L : Alg (AlgState K σ) Unit) := by
  unfold popEvaluate; calm

instance (env : Env K) (L : PopLens σ K) : Alg.Calm env (popRandom L : Alg (AlgState K σ) Unit) := by
  unfold popRandom; calm

instance (env : Env K) [LT K] [DecidableLT K] (L : PopLens σ K) : Alg.Calm env (popSort L : Alg (AlgState K σ) Unit) := by
  unfold popSort; calm

instance (env : Env K) (L : PopLens σ K) : Alg.Calm env (popSetSolution L : Alg (AlgState K σ) Unit) := by
  unfold popSetSolution; calm

instance (env : Env K) [LT K] [DecidableLT K] (L : PopLens σ K) :
    Alg.Calm env (popUpdateSolution L : Alg (AlgState K σ) Unit) := by
  unfold popUpdateSolution; calm


/-! ## `Algorithm/LocalSearch.lean` -/


instance (env : Env K) : Alg.Calm env (randomSearchInit env : Alg (AlgState K σ) Unit) := by
  unfold randomSearchInit; calm

instance [LT K] [DecidableLT K] (env : Env K) : Alg.Calm env (randomSearchIterate env : Alg (AlgState K BV) Unit) := by
  unfold randomSearchIterate; calm

instance [LT K] [DecidableLT K] (env : Env K) (numIterations : Int) (fuel : Nat) :
    Alg.Calm env (randomSearchMaximize env numIterations fuel : Alg (AlgState K BV) Unit) := by
  unfold randomSearchMaximize; calm

instance (env : Env K) (p : StartParams) : Alg.Calm env (initSolution env p : Alg (AlgState K σ) Unit) := by
  unfold initSolution; calm

instance (env : Env K) (p : RlsParams K) : Alg.Calm env (rlsInit env p : Alg (AlgState K RlsData) Unit) := by
  unfold rlsInit; calm

instance (env : Env K) (p : RlsParams K) (value : K) : Alg.Calm env (rlsAccept p value : Alg (AlgState K RlsData) Unit) := by
  unfold rlsAccept; calm

instance (env : Env K) (p : RlsParams K) (value : K) : Alg.Calm env (rlsDecide p value : Alg (AlgState K RlsData) Unit) := by
  unfold rlsDecide; calm

instance (env : Env K) (p : RlsParams K) : Alg.Calm env (rlsIterateFull env p : Alg (AlgState K RlsData) Unit) := by
  unfold rlsIterateFull; calm

instance (env : Env K) (p : RlsParams K) : Alg.Calm env (rlsIterateIncremental env p : Alg (AlgState K RlsData) Unit) := by
  unfold rlsIterateIncremental; calm

instance (env : Env K) (p : RlsParams K) : Alg.Calm env (rlsIterate env p : Alg (AlgState K RlsData) Unit) := by
  unfold rlsIterate; calm

instance (env : Env K) (p : RlsParams K) (numIterations : Int) (fuel : Nat) :
    Alg.Calm env (rlsMaximize env p numIterations fuel : Alg (AlgState K RlsData) Unit) := by
  unfold rlsMaximize; calm

instance (env : Env K) : Alg.Calm env (rlsFinalize : Alg (AlgState K RlsData) Unit) := by
  unfold rlsFinalize; calm

instance [LE K] [DecidableLE K] (env : Env K) (q : OnePlusOneParams) (old : StandardParams) (start : StartParams) (fuel : Nat) :
    Alg.Calm env (onePlusOneMaximize env q old start fuel : Alg (AlgState K RlsData) Unit) := by
  unfold onePlusOneMaximize; calm

instance (env : Env K) (p : StartParams) : Alg.Calm env (walkInit env p : Alg (AlgState K (WalkData K)) Unit) := by
  unfold walkInit; calm

instance [LT K] [DecidableLT K] (env : Env K) (k : Sampler) :
    Alg.Calm env (walkIterateFull env k : Alg (AlgState K (WalkData K)) Unit) := by
  unfold walkIterateFull; calm

instance (v : Option K) : Outcome.Calm (readInitialized v) := by
  unfold readInitialized; calm

instance [LT K] [DecidableLT K] (env : Env K) (k : Sampler) :
    Alg.Calm env (walkIterateIncremental env k : Alg (AlgState K (WalkData K)) Unit) := by
  unfold walkIterateIncremental; calm

instance [LT K] [DecidableLT K] (env : Env K) (k : Sampler) (incremental : Bool) :
    Alg.Calm env (walkIterate env k incremental : Alg (AlgState K (WalkData K)) Unit) := by
  unfold walkIterate; calm

instance [LT K] [DecidableLT K] (env : Env K) (p : StartParams) (k : Sampler) (incremental : Bool) (numIterations : Int) (fuel : Nat) :
    Alg.Calm env (walkMaximize env p k incremental numIterations fuel : Alg (AlgState K (WalkData K)) Unit) := by
  unfold walkMaximize; calm

instance [LT K] [DecidableLT K] (env : Env K) (k : Sampler) (numTrials : Nat) :
    Alg.Calm env (annealingInitBeta env k numTrials : Alg (AlgState K (AnnealingData K)) Unit) := by
  unfold annealingInitBeta; calm

instance [LT K] [DecidableLT K] (env : Env K) (p : StartParams) (k : Sampler) (numTrials : Nat) :
    Alg.Calm env (annealingInit env p k numTrials : Alg (AlgState K (AnnealingData K)) Unit) := by
  unfold annealingInit; calm

instance (env : Env K) [LT K] [DecidableLT K] [LE K] [DecidableLE K] (nbh : Nbh) (value : K) :
    Alg.Calm env (annealingAccept nbh value : Alg (AlgState K (AnnealingData K)) Unit) := by
  unfold annealingAccept; calm

instance [LT K] [DecidableLT K] [LE K] [DecidableLE K] (env : Env K) (k : Sampler) (numTransitions : Nat) :
    Alg.Calm env (annealingIterate env k numTransitions : Alg (AlgState K (AnnealingData K)) Unit) := by
  unfold annealingIterate; calm

instance [LT K] [DecidableLT K] [LE K] [DecidableLE K] (env : Env K) (p : StartParams) (k : Sampler) (numTrials numTransitions : Nat) (numIterations : Int) (fuel : Nat) :
    Alg.Calm env (annealingMaximize env p k numTrials numTransitions numIterations fuel : Alg (AlgState K (AnnealingData K)) Unit) := by
  unfold annealingMaximize; calm

instance (env : Env K) (N : NbhIter ι) [N.Calm] (p : StartParams) : Alg.Calm env (climbInit env N p) := by
  unfold climbInit; calm

theorem firstAscentScan_calm [LT K] [DecidableLT K] (env : Env K) (N : NbhIter ι) [N.Calm] :
    ∀ k, Alg.Calm env (firstAscentScan env N k)
  | 0 => by unfold firstAscentScan; calm
  | k + 1 => by
    have := firstAscentScan_calm env N k
    unfold firstAscentScan; calm

instance [LT K] [DecidableLT K] (env : Env K) (N : NbhIter ι) [N.Calm] (k : Nat) : Alg.Calm env (firstAscentScan env N k) :=
  firstAscentScan_calm env N k

instance [LT K] [DecidableLT K] (env : Env K) (N : NbhIter ι) [N.Calm] (fuel : Nat) :
    Alg.Calm env (firstAscentIterate env N fuel) := by
  unfold firstAscentIterate; calm

theorem steepestScan_calm [LT K] [DecidableLT K] [DecidableEq K] (env : Env K) (N : NbhIter ι) [N.Calm] :
    ∀ k a i, Alg.Calm env (steepestScan env N k a i)
  | 0, a, i => by unfold steepestScan; calm
  | k + 1, a, i => by
    have := fun a i => steepestScan_calm env N k a i
    unfold steepestScan; calm

instance [LT K] [DecidableLT K] [DecidableEq K] (env : Env K) (N : NbhIter ι) [N.Calm] (k : Nat) (a : K) (i : Nat) :
    Alg.Calm env (steepestScan env N k a i) := steepestScan_calm env N k a i

instance [LT K] [DecidableLT K] [DecidableEq K] (env : Env K) (N : NbhIter ι) [N.Calm] (fuel : Nat) :
    Alg.Calm env (steepestIterate env N fuel) := by
  unfold steepestIterate; calm

instance [LT K] [DecidableLT K] (env : Env K) (N : NbhIter ι) [N.Calm] (p : StartParams) (scanFuel : Nat) (k : Int)
    (fuel : Nat) : Alg.Calm env (firstAscentMaximize env N p scanFuel k fuel) := by
  unfold firstAscentMaximize; calm

instance [LT K] [DecidableLT K] [DecidableEq K] (env : Env K) (N : NbhIter ι) [N.Calm] (p : StartParams)
    (scanFuel : Nat) (k : Int) (fuel : Nat) : Alg.Calm env (steepestMaximize env N p scanFuel k fuel) := by
  unfold steepestMaximize; calm


/-! ## `Algorithm/Evolutionary.lean` -/


instance (env : Env K) {τ : Type} (q : MutationParams) :
    Alg.Calm env (setMutation q : Alg (AlgState K (EaData K τ)) Unit) := by
  unfold setMutation; calm

instance (params : StandardParams) (parents : Pop K) (i : Nat) (s : Nbh × Pop K) :
    Sim.Calm (makeOffspring params parents i s) := by
  unfold makeOffspring; calm

instance (env : Env K) {τ : Type} : Alg.Calm env (makeOffsprings : Alg (AlgState K (EaData K τ)) Unit) := by
  unfold makeOffsprings; calm

instance (env : Env K) (q : MutationParams) : Alg.Calm env (muCommaInit env q : Alg (AlgState K (EaData K Unit)) Unit) := by
  unfold muCommaInit; calm

instance (env : Env K) {τ : Type} [LT K] [DecidableLT K] :
    Alg.Calm env (applyComma : Alg (AlgState K (EaData K τ)) Unit) := by
  unfold applyComma; calm

instance [LT K] [DecidableLT K] (env : Env K) :
    Alg.Calm env (muCommaIterate env : Alg (AlgState K (EaData K Unit)) Unit) := by
  unfold muCommaIterate; calm

instance [LT K] [DecidableLT K] (env : Env K) (q : MutationParams) (numIterations : Int) (fuel : Nat) :
    Alg.Calm env (muCommaMaximize env q numIterations fuel : Alg (AlgState K (EaData K Unit)) Unit) := by
  unfold muCommaMaximize; calm

instance [LT K] [DecidableLT K] (env : Env K) (q : MutationParams) :
    Alg.Calm env (muPlusInit env q : Alg (AlgState K (EaData K (Pop K))) Unit) := by
  unfold muPlusInit; calm

instance (env : Env K) [LT K] [DecidableLT K] : Alg.Calm env (applyPlus : Alg (AlgState K (EaData K (Pop K))) Unit) := by
  unfold applyPlus; calm

instance [LT K] [DecidableLT K] (env : Env K) :
    Alg.Calm env (muPlusIterate env : Alg (AlgState K (EaData K (Pop K))) Unit) := by
  unfold muPlusIterate; calm

instance [LT K] [DecidableLT K] (env : Env K) (q : MutationParams) (numIterations : Int) (fuel : Nat) :
    Alg.Calm env (muPlusMaximize env q numIterations fuel : Alg (AlgState K (EaData K (Pop K))) Unit) := by
  unfold muPlusMaximize; calm

theorem initTournament_calmAt {env : Env K} {size : Int} {s : AlgState K (EaData K Tournament)}
    (h : 2 ≤ size ∧ size < s.data.parents.size) : Alg.CalmAt env (initTournament size) s := by
  unfold initTournament
  refine Alg.CalmAt.bind (Alg.Calm.out s) (fun a t ds rest e => ?_)
  cases e
  refine Alg.CalmAt.bind ?_ (fun a t ds rest e => Alg.Calm.out t)
  unfold Tournament.setSize
  rw [if_pos h]
  exact Alg.Calm.out _



instance [LT K] [DecidableLT K] (parents : Pop K) (t : Tournament) (offspring : BV) :
    Sim.Calm (reproduce parents t offspring) := by
  unfold reproduce; calm

instance [LT K] [DecidableLT K] (params : StandardParams) (parents : Pop K) (i : Nat) (s : Tournament × Nbh × Pop K) :
    Sim.Calm (gaOffspring params parents i s) := by
  unfold gaOffspring; calm

instance (env : Env K) [LT K] [DecidableLT K] :
    Alg.Calm env (gaOffsprings : Alg (AlgState K (EaData K Tournament)) Unit) := by
  unfold gaOffsprings; calm

instance [LT K] [DecidableLT K] (env : Env K) :
    Alg.Calm env (gaIterate env : Alg (AlgState K (EaData K Tournament)) Unit) := by
  unfold gaIterate; calm

theorem gaMaximize_calmAt [LT K] [DecidableLT K] {env : Env K} {q : GaParams} {s : AlgState K (EaData K Tournament)}
    (h : 2 ≤ q.tournamentSize ∧ q.tournamentSize < s.data.parents.size) (k : Int) (fuel : Nat) :
    Alg.CalmAt env (gaMaximize env q k fuel) s := by
  unfold gaMaximize
  refine Alg.CalmAt.loop ?_ k fuel
  unfold gaInit
  exact (initTournament_calmAt h).bind (fun _ t _ _ _ => Alg.Calm.out t)

instance {F : Type} [LT F] [DecidableLT F] (x lo hi : F) : Outcome.Calm (stdClamp x lo hi) := by
  unfold stdClamp; calm

instance (env : Env K) (q : TwoRateParams) : Alg.Calm env (twoRateInit env q : Alg (AlgState K (TwoRateData K)) Unit) := by
  unfold twoRateInit; calm

instance (params : StandardParams) (x : BV) (i : Nat) (s : Nbh × Pop K) : Sim.Calm (mapOffspring params x i s) := by
  unfold mapOffspring; calm

instance (env : Env K) (q : TwoRateParams) : Alg.Calm env (twoRateOffsprings q : Alg (AlgState K (TwoRateData K)) Unit) := by
  unfold twoRateOffsprings; calm

instance (q : TwoRateParams) (number rate : Rat) (best mid : Nat) : Outcome.Calm (twoRateUpdate q number rate best mid) := by
  unfold twoRateUpdate; calm

instance (env : Env K) (q : TwoRateParams) : Alg.Calm env (twoRateSetRate q : Alg (AlgState K (TwoRateData K)) Unit) := by
  unfold twoRateSetRate; calm

instance [LT K] [DecidableLT K] (env : Env K) (q : TwoRateParams) :
    Alg.Calm env (twoRateIterate env q : Alg (AlgState K (TwoRateData K)) Unit) := by
  unfold twoRateIterate; calm

instance [LT K] [DecidableLT K] (env : Env K) (q : TwoRateParams) (numIterations : Int) (fuel : Nat) :
    Alg.Calm env (twoRateMaximize env q numIterations fuel : Alg (AlgState K (TwoRateData K)) Unit) := by
  unfold twoRateMaximize; calm

instance (env : Env K) (q : SelfAdjustingParams) :
    Alg.Calm env (selfAdjustingInit env q : Alg (AlgState K SelfAdjustingData) Unit) := by
  unfold selfAdjustingInit; calm

instance (env : Env K) [LE K] [DecidableLE K] (q : SelfAdjustingParams) (value : K) :
    Alg.Calm env (selfAdjustingDecide q value : Alg (AlgState K SelfAdjustingData) Unit) := by
  unfold selfAdjustingDecide; calm

instance (env : Env K) : Alg.Calm env (selfAdjustingPropose : Alg (AlgState K SelfAdjustingData) Unit) := by
  unfold selfAdjustingPropose; calm

instance [LE K] [DecidableLE K] (env : Env K) (q : SelfAdjustingParams) :
    Alg.Calm env (selfAdjustingIterateFull env q : Alg (AlgState K SelfAdjustingData) Unit) := by
  unfold selfAdjustingIterateFull; calm

instance [LE K] [DecidableLE K] (env : Env K) (q : SelfAdjustingParams) :
    Alg.Calm env (selfAdjustingIterateIncremental env q : Alg (AlgState K SelfAdjustingData) Unit) := by
  unfold selfAdjustingIterateIncremental; calm

instance [LE K] [DecidableLE K] (env : Env K) (q : SelfAdjustingParams) :
    Alg.Calm env (selfAdjustingIterate env q : Alg (AlgState K SelfAdjustingData) Unit) := by
  unfold selfAdjustingIterate; calm

instance [LE K] [DecidableLE K] (env : Env K) (q : SelfAdjustingParams) (numIterations : Int) (fuel : Nat) :
    Alg.Calm env (selfAdjustingMaximize env q numIterations fuel : Alg (AlgState K SelfAdjustingData) Unit) := by
  unfold selfAdjustingMaximize; calm

instance (env : Env K) : Alg.Calm env (selfAdjustingFinalize : Alg (AlgState K SelfAdjustingData) Unit) := by
  unfold selfAdjustingFinalize; calm


/-! ## `Algorithm/ItEa.lean` -/


instance {L : Type} [LT L] [DecidableLT L] (ratio uniform : Nat → Nat → L) (x : BV) (k : Nat) :
    (bvRandomSim ratio uniform x k).Calm := by
  unfold bvRandomSim; calm

instance (env : Env K) (q : ItParams) : Alg.Calm env (itFirst env q) := by
  unfold itFirst; calm

instance (env : Env K) (q : ItParams) : Alg.Calm env (itInit env q : Alg (AlgState K (ItData K)) Unit) := by
  unfold itInit; calm

instance [DecidableEq K] [LT K] [DecidableLT K] (p : Pop K) (selectionSize : Nat) :
    Outcome.Calm (itTies p selectionSize) := by
  unfold itTies; calm

instance {σ : Type} (t : Ties) (selectionSize : Nat) (body : Rat → Nat → σ → Outcome σ) [∀ a i s, (body a i s).Calm] (s : σ) :
    (weightedLoop t selectionSize body s).Calm := by
  unfold weightedLoop; calm

instance (center : BV) (p : Pop K) (k : Nat) (masks : List BV) : Outcome.Calm (computeMask center p k masks) := by
  unfold computeMask; calm

instance (t : Ties) (selectionSize : Nat) (center : BV) (p : Pop K) (masks : List BV) :
    Outcome.Calm (computeMasks t selectionSize center p masks) := by
  unfold computeMasks; calm

instance (w : Rat) (bv : BV) (l : List Rat) (n : Nat) : Outcome.Calm (addWeighted w bv l n) := by
  unfold addWeighted; calm

instance (t : Ties) (selectionSize n : Nat) (p : Pop K) (likelihoods : List Rat) :
    Outcome.Calm (mlLikelihoods t selectionSize n p likelihoods) := by
  unfold mlLikelihoods; calm

instance (t : Ties) (selectionSize n : Nat) (masks : List BV) (likelihoods : List Rat) :
    Outcome.Calm (maskLikelihoods t selectionSize n masks likelihoods) := by
  unfold maskLikelihoods; calm

instance (t : Ties) (selectionSize n : Nat) (masks : List BV) : Outcome.Calm (igoTarget t selectionSize n masks) := by
  unfold igoTarget; calm

instance [LT K] [DecidableLT K] (env : Env K) : Alg.Calm env (evaluateCenter env : Alg (AlgState K (ItData K)) Unit) := by
  unfold evaluateCenter; calm

instance (rate : Rat) (selectionSize : Nat) (likelihoods : List Rat) (i : Nat) (x : BV) :
    Sim.Calm (mlBit rate selectionSize likelihoods i x) := by
  unfold mlBit; calm

instance [LT K] [DecidableLT K] (env : Env K) (q : ItParams) (t : Ties) :
    Alg.Calm env (mlUpdate env q t : Alg (AlgState K (ItData K)) Unit) := by
  unfold mlUpdate; calm

instance (lt : Rat → Rat → Bool) (l : List Rat) : Outcome.Calm (firstBest lt l) := by
  unfold firstBest; calm

instance (lt : Rat → Rat → Bool) (values : List Rat) : Sim.Calm (sampleFromArg lt values) := by
  unfold sampleFromArg; calm

instance [LT K] [DecidableLT K] (env : Env K) (i : Nat) :
    Alg.Calm env (flipCenter env i : Alg (AlgState K (ItData K)) Unit) := by
  unfold flipCenter; calm

instance [LT K] [DecidableLT K] (env : Env K) (q : ItParams) (t : Ties) :
    Alg.Calm env (incrementalMlUpdate env q t : Alg (AlgState K (ItData K)) Unit) := by
  unfold incrementalMlUpdate; calm

instance (env : Env K) : Alg.Calm env (bestCenter : Alg (AlgState K (ItData K)) Unit) := by
  unfold bestCenter; calm

instance [LT K] [DecidableLT K] [LE K] [DecidableLE K] (env : Env K) (q : ItParams) [h : Fact (q.replacement ≤ 4)] (t : Ties) :
    Alg.Calm env (itReplace env q t) := by
  have h := h.out
  unfold itReplace
  generalize q.replacement = r at h
  rcases r with _ | _ | _ | _ | _ | r
  · calm
  · calm
  · calm
  · calm
  · exact inferInstanceAs (Alg.Calm env (pure ()))
  · omega

instance (env : Env K) (q : ItParams) (t : Ties) : Alg.Calm env (igoUpdate q t : Alg (AlgState K (ItData K)) Unit) := by
  unfold igoUpdate; calm

instance (env : Env K) (q : ItParams) : Alg.Calm env (itGenerate q : Alg (AlgState K (ItData K)) Unit) := by
  unfold itGenerate; calm

instance [DecidableEq K] [LT K] [DecidableLT K] [LE K] [DecidableLE K] (env : Env K) (q : ItParams) [Fact (q.replacement ≤ 4)] :
    Alg.Calm env (itUpdate env q : Alg (AlgState K (ItData K)) Unit) := by
  unfold itUpdate; calm

instance [DecidableEq K] [LT K] [DecidableLT K] [LE K] [DecidableLE K] (env : Env K) (q : ItParams) [Fact (q.replacement ≤ 4)] :
    Alg.Calm env (itIterate env q : Alg (AlgState K (ItData K)) Unit) := by
  unfold itIterate; calm

instance [DecidableEq K] [LT K] [DecidableLT K] [LE K] [DecidableLE K] (env : Env K) (q : ItParams) (numIterations : Int) (fuel : Nat) [Fact (q.replacement ≤ 4)] :
    Alg.Calm env (itMaximize env q numIterations fuel : Alg (AlgState K (ItData K)) Unit) := by
  unfold itMaximize; calm


/-! ## `Algorithm/LambdaLambda.lean` -/


instance (b : Rat) : Outcome.Calm (setBias b) := by
  unfold setBias; calm

instance (env : Env K) (bias : Rat) : Alg.Calm env (lambdaInit env bias : Alg (AlgState K (LambdaData K)) Unit) := by
  unfold lambdaInit; calm

theorem tieLoop_calm [DecidableEq K] (p : Pop K) (value : K) : ∀ turns n, (tieLoop p value turns n).Calm
  | turns, n => by
    unfold tieLoop
    split
    · split
      · split
        · infer_instance
        · exact tieLoop_calm p value _ _
      · infer_instance
    · rename_i e h
      exact ((inferInstance : (p.bestValue n).Calm).out e h).elim
    · infer_instance

instance [DecidableEq K] (p : Pop K) (value : K) (turns n : Nat) : (tieLoop p value turns n).Calm :=
  tieLoop_calm p value turns n

instance [DecidableEq K] (p : Pop K) (value : K) (n : Nat) : Outcome.Calm (countTies p value n) := by
  unfold countTies; calm

instance [DecidableEq K] (p : Pop K) (value : K) : Sim.Calm (chooseBest p value) := by
  unfold chooseBest; calm

instance (radius : Nat) (x : BV) (i : Nat) (s : Nbh × Pop K) : Sim.Calm (sphereOffspring radius x i s) := by
  unfold sphereOffspring; calm

instance (env : Env K) : Alg.Calm env (lambdaMutate : Alg (AlgState K (LambdaData K)) Unit) := by
  unfold lambdaMutate; calm

instance (env : Env K) [DecidableEq K] : Alg.Calm env (lambdaParent : Alg (AlgState K (LambdaData K)) Unit) := by
  unfold lambdaParent; calm

instance (x y : BV) (i : Nat) (p : Pop K) : Sim.Calm (biasedOffspring x y i p) := by
  unfold biasedOffspring; calm

instance (env : Env K) : Alg.Calm env (lambdaRecombine : Alg (AlgState K (LambdaData K)) Unit) := by
  unfold lambdaRecombine; calm

instance (env : Env K) [DecidableEq K] [LE K] [DecidableLE K] :
    Alg.Calm env (lambdaSelect : Alg (AlgState K (LambdaData K)) Unit) := by
  unfold lambdaSelect; calm

instance [DecidableEq K] [LT K] [DecidableLT K] [LE K] [DecidableLE K] (env : Env K) :
    Alg.Calm env (lambdaIterate env : Alg (AlgState K (LambdaData K)) Unit) := by
  unfold lambdaIterate; calm

instance [DecidableEq K] [LT K] [DecidableLT K] [LE K] [DecidableLE K] (env : Env K) (bias : Rat) (numIterations : Int) (fuel : Nat) :
    Alg.Calm env (lambdaMaximize env bias numIterations fuel : Alg (AlgState K (LambdaData K)) Unit) := by
  unfold lambdaMaximize; calm


/-! ## `Algorithm/ProbabilityVector.lean` -/


instance (pv : List Rat) (bv : BV) : Sim.Calm (pvSample pv bv) := by
  unfold pvSample; calm

instance (pv : List Rat) (bv : BV) : Outcome.Calm (pvAdd pv bv) := by
  unfold pvAdd; calm

instance (pv : List Rat) (count : Int) : Outcome.Calm (pvAverage pv count) := by
  unfold pvAverage; calm

instance (pv x : List Rat) (rate : Rat) : Outcome.Calm (pvUpdate pv x rate) := by
  unfold pvUpdate; calm

instance (pv : List Rat) (x : BV) (rate : Rat) : Outcome.Calm (pvUpdateBits pv x rate) := by
  unfold pvUpdateBits; calm

instance (pv x y : List Rat) (rate : Rat) : Outcome.Calm (pvUpdateBetween pv x y rate) := by
  unfold pvUpdateBetween; calm

instance (pv : List Rat) (lower upper : Rat) : Outcome.Calm (pvBound pv lower upper) := by
  unfold pvBound; calm

instance (env : Env K) : Alg.Calm env (pvStart env : Alg (AlgState K (PvData ρ)) Unit) := by
  unfold pvStart; calm

instance [LE K] [DecidableLE K] (env : Env K) (debug : Bool) (best worst : BV) :
    Alg.Calm env (compactCheck env debug best worst : Alg (AlgState K (PvData ρ)) Unit) := by
  unfold compactCheck; calm

instance (rate : Rat) (best worst : BV) (pv : List Rat) : Outcome.Calm (compactMove rate best worst pv) := by
  unfold compactMove; calm

instance [LE K] [DecidableLE K] (env : Env K) (q : CompactParams) (best worst : BV) :
    Alg.Calm env (compactLearn env q best worst : Alg (AlgState K (PvData ρ)) Unit) := by
  unfold compactLearn; calm

instance [LT K] [DecidableLT K] [LE K] [DecidableLE K] (env : Env K) (q : CompactParams) :
    Alg.Calm env (compactIterate env q : Alg (AlgState K (PvData (BV × BV))) Unit) := by
  unfold compactIterate; calm

instance [LT K] [DecidableLT K] [LE K] [DecidableLE K] (env : Env K) (q : CompactParams) (numIterations : Int) (fuel : Nat) :
    Alg.Calm env (compactMaximize env q numIterations fuel : Alg (AlgState K (PvData (BV × BV))) Unit) := by
  unfold compactMaximize; calm

instance (env : Env K) (rate : Rat) : Alg.Calm env (mmasLearn rate : Alg (AlgState K (PvData BV)) Unit) := by
  unfold mmasLearn; calm

instance (env : Env K) (q : MmasParams K) : Alg.Calm env (mmasInit env q : Alg (AlgState K (PvData BV)) Unit) := by
  unfold mmasInit; calm

instance (env : Env K) (q : MmasParams K) : Alg.Calm env (mmasIterate env q : Alg (AlgState K (PvData BV)) Unit) := by
  unfold mmasIterate; calm

instance (env : Env K) (q : MmasParams K) (numIterations : Int) (fuel : Nat) :
    Alg.Calm env (mmasMaximize env q numIterations fuel : Alg (AlgState K (PvData BV)) Unit) := by
  unfold mmasMaximize; calm

instance (sampler : BV → Sim BV) [∀ x, (sampler x).Calm] (p : Pop K) : (Pop.sample sampler p).Calm := by
  unfold Pop.sample; calm

instance (sel : Int) (p : Pop K) (mean : List Rat) : Outcome.Calm (selectionMean sel p mean) := by
  unfold selectionMean; calm

instance (env : Env K) (L : PopLens (PvData ρ) K) : Alg.Calm env (pvSamplePop L : Alg (AlgState K (PvData ρ)) Unit) := by
  unfold pvSamplePop; calm

instance (env : Env K) (q : PbilParams) : Alg.Calm env (pbilLearn q : Alg (AlgState K (PvData (PbilRest K))) Unit) := by
  unfold pbilLearn; calm

instance [LT K] [DecidableLT K] (env : Env K) (q : PbilParams) :
    Alg.Calm env (pbilIterate env q : Alg (AlgState K (PvData (PbilRest K))) Unit) := by
  unfold pbilIterate; calm

instance [LT K] [DecidableLT K] (env : Env K) (q : PbilParams) (numIterations : Int) (fuel : Nat) :
    Alg.Calm env (pbilMaximize env q numIterations fuel : Alg (AlgState K (PvData (PbilRest K))) Unit) := by
  unfold pbilMaximize; calm

instance (env : Env K) (q : PbilParams) : Alg.Calm env (npsLearn q : Alg (AlgState K (PvData (NpsRest K))) Unit) := by
  unfold npsLearn; calm

instance [LT K] [DecidableLT K] (env : Env K) (q : PbilParams) :
    Alg.Calm env (npsIterate env q : Alg (AlgState K (PvData (NpsRest K))) Unit) := by
  unfold npsIterate; calm

instance [LT K] [DecidableLT K] (env : Env K) (q : PbilParams) (numIterations : Int) (fuel : Nat) :
    Alg.Calm env (npsMaximize env q numIterations fuel : Alg (AlgState K (PvData (NpsRest K))) Unit) := by
  unfold npsMaximize; calm

instance (env : Env K) (sel : Int) : Alg.Calm env (umdaLearn sel : Alg (AlgState K (PvData (Pop K))) Unit) := by
  unfold umdaLearn; calm

instance [LT K] [DecidableLT K] (env : Env K) (sel : Int) :
    Alg.Calm env (umdaIterate env sel : Alg (AlgState K (PvData (Pop K))) Unit) := by
  unfold umdaIterate; calm

instance [LT K] [DecidableLT K] (env : Env K) (sel : Int) (numIterations : Int) (fuel : Nat) :
    Alg.Calm env (umdaMaximize env sel numIterations fuel : Alg (AlgState K (PvData (Pop K))) Unit) := by
  unfold umdaMaximize; calm


/-! ## `Algorithm/Mimic.lean` -/


instance (l : List Rat) (i : Nat) : Outcome.Calm (minElement l i) := by
  unfold minElement; calm

instance {α : Type} (l : List α) (i j : Nat) : Outcome.Calm (swapAt l i j) := by
  unfold swapAt; calm

instance (p : List Nat) : Outcome.Calm (permCheck p) := by
  unfold permCheck; calm

instance (p : Rat) : Sim.Calm (bitRandom p) := by
  unfold bitRandom; calm

instance (c : Chain) (bv : BV) : Sim.Calm (mimicSample c bv) := by
  unfold mimicSample; calm

instance (log : Rat → Rat) (sel : Int) (t : Table) (index : Nat) (c : Chain) :
    Outcome.Calm (conditionalEntropy log sel t index c) := by
  unfold conditionalEntropy; calm

instance (sel : Int) (p : Pop K) (first second : Nat) : Outcome.Calm (mimicTable sel p first second) := by
  unfold mimicTable; calm

instance (log : Rat → Rat) (sel : Int) (p : Pop K) (first i : Nat) (c : Chain) :
    Outcome.Calm (mimicCandidates log sel p first i c) := by
  unfold mimicCandidates; calm

instance (i child : Nat) (c : Chain) : Outcome.Calm (mimicChoose i child c) := by
  unfold mimicChoose; calm

instance (log : Rat → Rat) (sel : Int) (p : Pop K) (c : Chain) : Outcome.Calm (mimicLinks log sel p c) := by
  unfold mimicLinks; calm

instance (mean : List Rat) (c : Chain) : Outcome.Calm (mimicRoot mean c) := by
  unfold mimicRoot; calm

instance (env : Env K) (log : Rat → Rat) (sel : Int) :
    Alg.Calm env (mimicUpdate log sel : Alg (AlgState K (MimicData K)) Unit) := by
  unfold mimicUpdate; calm

instance (env : Env K) (sel : Int) : Alg.Calm env (mimicInit env sel : Alg (AlgState K (MimicData K)) Unit) := by
  unfold mimicInit; calm

instance [LT K] [DecidableLT K] (env : Env K) (log : Rat → Rat) (sel : Int) :
    Alg.Calm env (mimicIterate env log sel : Alg (AlgState K (MimicData K)) Unit) := by
  unfold mimicIterate; calm

instance [LT K] [DecidableLT K] (env : Env K) (log : Rat → Rat) (sel : Int) (numIterations : Int) (fuel : Nat) :
    Alg.Calm env (mimicMaximize env log sel numIterations fuel : Alg (AlgState K (MimicData K)) Unit) := by
  unfold mimicMaximize; calm


/-! ## `Algorithm/RamUmda.lean` -/


instance (env : Env K) : Alg.Calm env (ramInit env : Alg (AlgState K (PvData (RamRest K))) Unit) := by
  unfold ramInit; calm

instance (q : RamParams) [h : Fact (q.mode ≠ .unknown)] (iteration length : Int) : (ramLength q iteration length).Calm := by
  have h := h.out
  unfold ramLength
  split
  all_goals first | exact absurd (by assumption) h | calm

instance (q : RamParams) (n : Nat) (r : RamRest K) [Fact (q.mode ≠ .unknown)] : Sim.Calm (ramMaps q n r) := by
  unfold ramMaps; calm

instance (sel : Int) (r : RamRest K) : Outcome.Calm (ramImages sel r) := by
  unfold ramImages; calm

instance (sel : Int) (bvs : List BV) (lower upper : Rat) (pv : List Rat) :
    Outcome.Calm (ramMean sel bvs lower upper pv) := by
  unfold ramMean; calm

instance (pv : List Rat) (inverse : TsAffine) (a output : BV) : Sim.Calm (ramSampleOne pv inverse a output) := by
  unfold ramSampleOne; calm

instance (sampler : BV → BV → Sim (BV × BV)) [∀ x y, (sampler x y).Calm] (a : BV) (p : Pop K) :
    (ramPopulation sampler a p).Calm := by
  unfold ramPopulation; calm

instance (env : Env K) (q : RamParams) [Fact (q.mode ≠ .unknown)] :
    Alg.Calm env (ramLearn q : Alg (AlgState K (PvData (RamRest K))) Unit) := by
  unfold ramLearn; calm

instance [LT K] [DecidableLT K] (env : Env K) (q : RamParams) [Fact (q.mode ≠ .unknown)] :
    Alg.Calm env (ramIterate env q : Alg (AlgState K (PvData (RamRest K))) Unit) := by
  unfold ramIterate; calm

instance [LT K] [DecidableLT K] (env : Env K) (q : RamParams) (numIterations : Int) (fuel : Nat) [Fact (q.mode ≠ .unknown)] :
    Alg.Calm env (ramMaximize env q numIterations fuel : Alg (AlgState K (PvData (RamRest K))) Unit) := by
  unfold ramMaximize; calm

instance (q : RamParams) (pv pvY : List Rat) (inverse : TsAffine) (a output : BV) :
    Sim.Calm (ram2SampleOne q pv pvY inverse a output) := by
  unfold ram2SampleOne; calm

instance (env : Env K) (q : RamParams) [Fact (q.mode ≠ .unknown)] :
    Alg.Calm env (ram2Learn q : Alg (AlgState K (PvData (RamRest K))) Unit) := by
  unfold ram2Learn; calm

instance [LT K] [DecidableLT K] (env : Env K) (q : RamParams) [Fact (q.mode ≠ .unknown)] :
    Alg.Calm env (ram2Iterate env q : Alg (AlgState K (PvData (RamRest K))) Unit) := by
  unfold ram2Iterate; calm

instance [LT K] [DecidableLT K] (env : Env K) (q : RamParams) (numIterations : Int) (fuel : Nat) [Fact (q.mode ≠ .unknown)] :
    Alg.Calm env (ram2Maximize env q numIterations fuel : Alg (AlgState K (PvData (RamRest K))) Unit) := by
  unfold ram2Maximize; calm


/-! ## `Walsh/Model.lean` -/


instance (m : Moment) (i j : Nat) : Outcome.Calm (Moment.read m i j) := by
  unfold Moment.read; calm

instance (m : Moment) (i j : Nat) (x : Rat) : Outcome.Calm (Moment.write m i j x) := by
  unfold Moment.write; calm

instance (mirror : Bool) (f : Nat → Rat → Outcome Rat) [∀ i a, (f i a).Calm] (g : Nat → Nat → Rat → Outcome Rat)
    [∀ i j a, (g i j a).Calm] (m : Moment) : (Moment.sweep mirror f g m).Calm := by
  unfold Moment.sweep; calm

instance (m : Moment) (bv : BV) : Outcome.Calm (Moment.add m bv) := by
  unfold Moment.add; calm

instance (x : Rat) : Outcome.Calm (checkUnit x) := by
  unfold checkUnit; calm

instance (m : Moment) : Outcome.Calm (matrixIsSymmetric m) := by
  unfold matrixIsSymmetric; calm

instance (full : Bool) (m : Moment) : Outcome.Calm (checkSymmetric full m) := by
  unfold checkSymmetric; calm

instance (count : Int) (x : Rat) : Outcome.Calm (divideBy count x) := by
  unfold divideBy; calm

instance (full : Bool) (m : Moment) (count : Int) : Outcome.Calm (Moment.average full m count) := by
  unfold Moment.average; calm

instance (full : Bool) (m m2 : Moment) (rate : Rat) : Outcome.Calm (Moment.update full m m2 rate) := by
  unfold Moment.update; calm

instance (full : Bool) (m m1 m2 : Moment) (rate : Rat) : Outcome.Calm (Moment.updateBetween full m m1 m2 rate) := by
  unfold Moment.updateBetween; calm

instance (full : Bool) (m : Moment) (lambda : Rat) (m1 m2 : Moment) :
    Outcome.Calm (Moment.scaledDifference full m lambda m1 m2) := by
  unfold Moment.scaledDifference; calm

instance (margin x : Rat) : Outcome.Calm (boundEntry margin x) := by
  unfold boundEntry; calm

instance (full : Bool) (m : Moment) (margin : Rat) : Outcome.Calm (Moment.bound full m margin) := by
  unfold Moment.bound; calm

instance (m : Moment) (state : BV) (i : Nat) : Outcome.Calm (gibbsDelta m state i) := by
  unfold gibbsDelta; calm

instance (logistic : Rat → Rat) (m : Moment) (state : BV) (i : Nat) : Sim.Calm (gibbsUpdate logistic m state i) := by
  unfold gibbsUpdate; calm

instance (m : Moment) (state : BV) (i : Nat) : Outcome.Calm (gibbsSyncDelta m state i) := by
  unfold gibbsSyncDelta; calm

instance (logistic : Rat → Rat) (m : Moment) (state : BV) (pv : List Rat) :
    Sim.Calm (gibbsUpdateSync logistic m state pv) := by
  unfold gibbsUpdateSync; calm

instance (randomize : Bool) (permutation : List Nat) (k : Nat) : Outcome.Calm (herdingIndex randomize permutation k) := by
  unfold herdingIndex; calm

instance (full : Bool) (delta : Moment) (i j : Nat) : Outcome.Calm (herdingRead full delta i j) := by
  unfold herdingRead; calm

instance (full randomize : Bool) (delta : Moment) (permutation : List Nat) (bv : BV) :
    Outcome.Calm (herdingBits full randomize delta permutation bv) := by
  unfold herdingBits; calm

instance (full randomize : Bool) (target : Moment) (permutation : List Nat) (h : Herding) (bv : BV) :
    Outcome.Calm (Herding.sampleWith full randomize target permutation h bv) := by
  unfold Herding.sampleWith; calm

instance (full randomize : Bool) (target : Moment) (h : Herding) (bv : BV) :
    Sim.Calm (Herding.sample full randomize target h bv) := by
  unfold Herding.sample; calm

instance (env : Env K) : Alg.Calm env (heaInit env : Alg (AlgState K (HeaData K)) Unit) := by
  unfold heaInit; calm

instance (q : HeaParams) (target : Moment) (s : Herding × Pop K) : Sim.Calm (heaSample q target s) := by
  unfold heaSample; calm

instance (sel : Int) (p : Pop K) (m : Moment) : Outcome.Calm (addBest sel p m) := by
  unfold addBest; calm

instance (q : HeaParams) (m : Moment) : Outcome.Calm (heaAverage q m) := by
  unfold heaAverage; calm

instance (q : HeaParams) (m : Moment) : Outcome.Calm (heaBound q m) := by
  unfold heaBound; calm

instance (env : Env K) (q : HeaParams) : Alg.Calm env (heaLearn q : Alg (AlgState K (HeaData K)) Unit) := by
  unfold heaLearn; calm

instance [LT K] [DecidableLT K] (env : Env K) (q : HeaParams) :
    Alg.Calm env (heaIterate env q : Alg (AlgState K (HeaData K)) Unit) := by
  unfold heaIterate; calm

instance [LT K] [DecidableLT K] (env : Env K) (q : HeaParams) (numIterations : Int) (fuel : Nat) :
    Alg.Calm env (heaMaximize env q numIterations fuel : Alg (AlgState K (HeaData K)) Unit) := by
  unfold heaMaximize; calm

instance (g : GibbsState) : Sim.Calm (gibbsInit g) := by
  unfold gibbsInit; calm

instance (logistic : Rat → Rat) (numSteps : Int) (m : Moment) (g : GibbsState) :
    Sim.Calm (bmAsynchronous logistic numSteps m g) := by
  unfold bmAsynchronous; calm

instance (logistic : Rat → Rat) (numCycles : Int) (m : Moment) (g : GibbsState) :
    Sim.Calm (bmFullScan logistic numCycles m g) := by
  unfold bmFullScan; calm

instance (logistic : Rat → Rat) (numCycles : Int) (m : Moment) (g : GibbsState) :
    Sim.Calm (bmSynchronous logistic numCycles m g) := by
  unfold bmSynchronous; calm

instance (logistic : Rat → Rat) (q : BmParams) [h : Fact (q.sampling ≠ .unknown)] (m : Moment) (g : GibbsState) :
    (bmChain logistic q m g).Calm := by
  have h := h.out
  unfold bmChain
  split
  all_goals first | exact absurd (by assumption) h | calm

instance (b : Bool) (g : GibbsState) : Sim.Calm (bmReset b g) := by
  unfold bmReset; calm

instance (logistic : Rat → Rat) (q : BmParams) (m : Moment) (s : GibbsState × Pop K) [Fact (q.sampling ≠ .unknown)] :
    Sim.Calm (bmSample logistic q m s) := by
  unfold bmSample; calm

instance (env : Env K) : Alg.Calm env (bmInit env : Alg (AlgState K (BmData K)) Unit) := by
  unfold bmInit; calm

instance (full : Bool) (sel : Int) (p : Pop K) (m : Moment) : Outcome.Calm (bestMoment full sel p m) := by
  unfold bestMoment; calm

instance (full : Bool) (sel : Int) (p : Pop K) (m : Moment) : Outcome.Calm (worstMoment full sel p m) := by
  unfold worstMoment; calm

instance (full : Bool) (p : Pop K) (m : Moment) : Outcome.Calm (allMoment full p m) := by
  unfold allMoment; calm

instance (env : Env K) (q : BmParams) : Alg.Calm env (bmLearn q : Alg (AlgState K (BmData K)) Unit) := by
  unfold bmLearn; calm

instance [LT K] [DecidableLT K] (env : Env K) (logistic : Rat → Rat) (q : BmParams) [Fact (q.sampling ≠ .unknown)] :
    Alg.Calm env (bmIterate env logistic q : Alg (AlgState K (BmData K)) Unit) := by
  unfold bmIterate; calm

instance [LT K] [DecidableLT K] (env : Env K) (logistic : Rat → Rat) (q : BmParams) (numIterations : Int) (fuel : Nat) [Fact (q.sampling ≠ .unknown)] :
    Alg.Calm env (bmMaximize env logistic q numIterations fuel : Alg (AlgState K (BmData K)) Unit) := by
  unfold bmMaximize; calm

end Hnco
