import Verif.Algorithm.Steady
import Verif.Algorithm.LocalSearch
import Verif.Algorithm.ItEa
import Verif.Algorithm.LambdaLambda
import Verif.Algorithm.Human
import Verif.Algorithm.Mimic
import Verif.Algorithm.RamUmda
import Verif.Walsh.Model

/-! # The algorithms go on only with evaluations which are not interrupted -/

namespace Hnco

open Outcome

variable {K σ ι : Type}

instance {env : Env K} (bv : BV) (v : K) : Alg.Steady env (setSolution bv v : Alg (AlgState K σ) Unit) := by
  unfold setSolution; steady

instance [LT K] [DecidableLT K] {env : Env K} (bv : BV) (v : K) :
    Alg.Steady env (updateSolution bv v : Alg (AlgState K σ) Unit) := by
  unfold updateSolution; steady

instance (env : Env K) (bv : BV) : Alg.Steady env (setSolutionEval env bv : Alg (AlgState K σ) Unit) := by
  unfold setSolutionEval; steady

instance [LT K] [DecidableLT K] (env : Env K) (bv : BV) :
    Alg.Steady env (updateSolutionEval env bv : Alg (AlgState K σ) Unit) := by
  unfold updateSolutionEval; steady

instance (env : Env K) : Alg.Steady env (randomSolution env : Alg (AlgState K σ) Unit) := by
  unfold randomSolution; steady

/-! ## `BitVector/Model.lean` -/

/-! ## `Sort.lean` -/

/-! ## `Neighborhood/Model.lean` -/

/-! ## `Iterator/Model.lean` -/

/-! ## `Map/Model.lean` -/

/-! ## `Population/Model.lean` -/

instance (env : Env K) (L : PopLens σ K) (i : Nat) : Alg.Steady env (popEvaluateOne env L i : Alg (AlgState K σ) Unit) := by
  unfold popEvaluateOne; steady

instance (env : Env K) (L : PopLens σ K) : Alg.Steady env (popEvaluate env L : Alg (AlgState K σ) Unit) := by
  unfold popEvaluate; steady

instance (env : Env K) (L : PopLens σ K) : Alg.Steady env (popRandom L : Alg (AlgState K σ) Unit) := by
  unfold popRandom; steady

instance (env : Env K) [LT K] [DecidableLT K] (L : PopLens σ K) : Alg.Steady env (popSort L : Alg (AlgState K σ) Unit) := by
  unfold popSort; steady

instance (env : Env K) (L : PopLens σ K) : Alg.Steady env (popSetSolution L : Alg (AlgState K σ) Unit) := by
  unfold popSetSolution; steady

instance (env : Env K) [LT K] [DecidableLT K] (L : PopLens σ K) :
    Alg.Steady env (popUpdateSolution L : Alg (AlgState K σ) Unit) := by
  unfold popUpdateSolution; steady

/-! ## `Algorithm/LocalSearch.lean` -/

instance (env : Env K) : Alg.Steady env (randomSearchInit env : Alg (AlgState K σ) Unit) := by
  unfold randomSearchInit; steady

instance [LT K] [DecidableLT K] (env : Env K) : Alg.Steady env (randomSearchIterate env : Alg (AlgState K BV) Unit) := by
  unfold randomSearchIterate; steady

instance [LT K] [DecidableLT K] (env : Env K) (numIterations : Int) (fuel : Nat) :
    Alg.Steady env (randomSearchMaximize env numIterations fuel : Alg (AlgState K BV) Unit) := by
  unfold randomSearchMaximize; steady

instance (env : Env K) (p : StartParams) : Alg.Steady env (initSolution env p : Alg (AlgState K σ) Unit) := by
  unfold initSolution; steady

instance (env : Env K) (p : RlsParams K) : Alg.Steady env (rlsInit env p : Alg (AlgState K RlsData) Unit) := by
  unfold rlsInit; steady

instance (env : Env K) (p : RlsParams K) (value : K) : Alg.Steady env (rlsAccept p value : Alg (AlgState K RlsData) Unit) := by
  unfold rlsAccept; steady

instance (env : Env K) (p : RlsParams K) (value : K) : Alg.Steady env (rlsDecide p value : Alg (AlgState K RlsData) Unit) := by
  unfold rlsDecide; steady

instance (env : Env K) (p : RlsParams K) : Alg.Steady env (rlsIterateFull env p : Alg (AlgState K RlsData) Unit) := by
  unfold rlsIterateFull; steady

instance (env : Env K) (p : RlsParams K) : Alg.Steady env (rlsIterateIncremental env p : Alg (AlgState K RlsData) Unit) := by
  unfold rlsIterateIncremental; steady

instance (env : Env K) (p : RlsParams K) : Alg.Steady env (rlsIterate env p : Alg (AlgState K RlsData) Unit) := by
  unfold rlsIterate; steady

instance (env : Env K) (p : RlsParams K) (numIterations : Int) (fuel : Nat) :
    Alg.Steady env (rlsMaximize env p numIterations fuel : Alg (AlgState K RlsData) Unit) := by
  unfold rlsMaximize; steady

instance (env : Env K) : Alg.Steady env (rlsFinalize : Alg (AlgState K RlsData) Unit) := by
  unfold rlsFinalize; steady

instance [LE K] [DecidableLE K] (env : Env K) (q : OnePlusOneParams) (old : StandardParams) (start : StartParams) (fuel : Nat) :
    Alg.Steady env (onePlusOneMaximize env q old start fuel : Alg (AlgState K RlsData) Unit) := by
  unfold onePlusOneMaximize; steady

instance (env : Env K) (p : StartParams) : Alg.Steady env (walkInit env p : Alg (AlgState K (WalkData K)) Unit) := by
  unfold walkInit; steady

instance [LT K] [DecidableLT K] (env : Env K) (k : Sampler) :
    Alg.Steady env (walkIterateFull env k : Alg (AlgState K (WalkData K)) Unit) := by
  unfold walkIterateFull; steady

instance [LT K] [DecidableLT K] (env : Env K) (k : Sampler) :
    Alg.Steady env (walkIterateIncremental env k : Alg (AlgState K (WalkData K)) Unit) := by
  unfold walkIterateIncremental; steady

instance [LT K] [DecidableLT K] (env : Env K) (k : Sampler) (incremental : Bool) :
    Alg.Steady env (walkIterate env k incremental : Alg (AlgState K (WalkData K)) Unit) := by
  unfold walkIterate; steady

instance [LT K] [DecidableLT K] (env : Env K) (p : StartParams) (k : Sampler) (incremental : Bool) (numIterations : Int) (fuel : Nat) :
    Alg.Steady env (walkMaximize env p k incremental numIterations fuel : Alg (AlgState K (WalkData K)) Unit) := by
  unfold walkMaximize; steady

instance [LT K] [DecidableLT K] (env : Env K) (k : Sampler) (numTrials : Nat) :
    Alg.Steady env (annealingInitBeta env k numTrials : Alg (AlgState K (AnnealingData K)) Unit) := by
  unfold annealingInitBeta; steady

instance [LT K] [DecidableLT K] (env : Env K) (p : StartParams) (k : Sampler) (numTrials : Nat) :
    Alg.Steady env (annealingInit env p k numTrials : Alg (AlgState K (AnnealingData K)) Unit) := by
  unfold annealingInit; steady

instance (env : Env K) [LT K] [DecidableLT K] [LE K] [DecidableLE K] (nbh : Nbh) (value : K) :
    Alg.Steady env (annealingAccept nbh value : Alg (AlgState K (AnnealingData K)) Unit) := by
  unfold annealingAccept; steady

instance [LT K] [DecidableLT K] [LE K] [DecidableLE K] (env : Env K) (k : Sampler) (numTransitions : Nat) :
    Alg.Steady env (annealingIterate env k numTransitions : Alg (AlgState K (AnnealingData K)) Unit) := by
  unfold annealingIterate; steady

instance [LT K] [DecidableLT K] [LE K] [DecidableLE K] (env : Env K) (p : StartParams) (k : Sampler) (numTrials numTransitions : Nat) (numIterations : Int) (fuel : Nat) :
    Alg.Steady env (annealingMaximize env p k numTrials numTransitions numIterations fuel : Alg (AlgState K (AnnealingData K)) Unit) := by
  unfold annealingMaximize; steady

instance (env : Env K) (N : NbhIter ι) (p : StartParams) : Alg.Steady env (climbInit env N p) := by
  unfold climbInit; steady

theorem firstAscentScan_steady [LT K] [DecidableLT K] (env : Env K) (N : NbhIter ι) :
    ∀ k, Alg.Steady env (firstAscentScan env N k)
  | 0 => by unfold firstAscentScan; steady
  | k + 1 => by
    have := firstAscentScan_steady env N k
    unfold firstAscentScan; steady

instance [LT K] [DecidableLT K] (env : Env K) (N : NbhIter ι) (k : Nat) : Alg.Steady env (firstAscentScan env N k) :=
  firstAscentScan_steady env N k

instance [LT K] [DecidableLT K] (env : Env K) (N : NbhIter ι) (fuel : Nat) :
    Alg.Steady env (firstAscentIterate env N fuel) := by
  unfold firstAscentIterate; steady

theorem steepestScan_steady [LT K] [DecidableLT K] [DecidableEq K] (env : Env K) (N : NbhIter ι) :
    ∀ k a i, Alg.Steady env (steepestScan env N k a i)
  | 0, a, i => by unfold steepestScan; steady
  | k + 1, a, i => by
    have := fun a i => steepestScan_steady env N k a i
    unfold steepestScan; steady

instance [LT K] [DecidableLT K] [DecidableEq K] (env : Env K) (N : NbhIter ι) (k : Nat) (a : K) (i : Nat) :
    Alg.Steady env (steepestScan env N k a i) := steepestScan_steady env N k a i

instance [LT K] [DecidableLT K] [DecidableEq K] (env : Env K) (N : NbhIter ι) (fuel : Nat) :
    Alg.Steady env (steepestIterate env N fuel) := by
  unfold steepestIterate; steady

instance [LT K] [DecidableLT K] (env : Env K) (N : NbhIter ι) (p : StartParams) (scanFuel : Nat) (k : Int)
    (fuel : Nat) : Alg.Steady env (firstAscentMaximize env N p scanFuel k fuel) := by
  unfold firstAscentMaximize; steady

instance [LT K] [DecidableLT K] [DecidableEq K] (env : Env K) (N : NbhIter ι) (p : StartParams)
    (scanFuel : Nat) (k : Int) (fuel : Nat) : Alg.Steady env (steepestMaximize env N p scanFuel k fuel) := by
  unfold steepestMaximize; steady

/-! ## `Algorithm/Evolutionary.lean` -/

instance (env : Env K) {τ : Type} (q : MutationParams) :
    Alg.Steady env (setMutation q : Alg (AlgState K (EaData K τ)) Unit) := by
  unfold setMutation; steady

instance (env : Env K) {τ : Type} : Alg.Steady env (makeOffsprings : Alg (AlgState K (EaData K τ)) Unit) := by
  unfold makeOffsprings; steady

instance (env : Env K) (q : MutationParams) : Alg.Steady env (muCommaInit env q : Alg (AlgState K (EaData K Unit)) Unit) := by
  unfold muCommaInit; steady

instance (env : Env K) {τ : Type} [LT K] [DecidableLT K] :
    Alg.Steady env (applyComma : Alg (AlgState K (EaData K τ)) Unit) := by
  unfold applyComma; steady

instance [LT K] [DecidableLT K] (env : Env K) :
    Alg.Steady env (muCommaIterate env : Alg (AlgState K (EaData K Unit)) Unit) := by
  unfold muCommaIterate; steady

instance [LT K] [DecidableLT K] (env : Env K) (q : MutationParams) (numIterations : Int) (fuel : Nat) :
    Alg.Steady env (muCommaMaximize env q numIterations fuel : Alg (AlgState K (EaData K Unit)) Unit) := by
  unfold muCommaMaximize; steady

instance [LT K] [DecidableLT K] (env : Env K) (q : MutationParams) :
    Alg.Steady env (muPlusInit env q : Alg (AlgState K (EaData K (Pop K))) Unit) := by
  unfold muPlusInit; steady

instance (env : Env K) [LT K] [DecidableLT K] : Alg.Steady env (applyPlus : Alg (AlgState K (EaData K (Pop K))) Unit) := by
  unfold applyPlus; steady

instance [LT K] [DecidableLT K] (env : Env K) :
    Alg.Steady env (muPlusIterate env : Alg (AlgState K (EaData K (Pop K))) Unit) := by
  unfold muPlusIterate; steady

instance [LT K] [DecidableLT K] (env : Env K) (q : MutationParams) (numIterations : Int) (fuel : Nat) :
    Alg.Steady env (muPlusMaximize env q numIterations fuel : Alg (AlgState K (EaData K (Pop K))) Unit) := by
  unfold muPlusMaximize; steady

instance (env : Env K) [LT K] [DecidableLT K] :
    Alg.Steady env (gaOffsprings : Alg (AlgState K (EaData K Tournament)) Unit) := by
  unfold gaOffsprings; steady

instance [LT K] [DecidableLT K] (env : Env K) :
    Alg.Steady env (gaIterate env : Alg (AlgState K (EaData K Tournament)) Unit) := by
  unfold gaIterate; steady

instance (env : Env K) (size : Int) : Alg.Steady env (initTournament size : Alg (AlgState K (EaData K Tournament)) Unit) := by
  unfold initTournament; steady

instance [LT K] [DecidableLT K] (env : Env K) (q : GaParams) (k : Int) (fuel : Nat) : Alg.Steady env (gaMaximize env q k fuel) := by
  unfold gaMaximize gaInit; steady

instance (env : Env K) (q : TwoRateParams) : Alg.Steady env (twoRateInit env q : Alg (AlgState K (TwoRateData K)) Unit) := by
  unfold twoRateInit; steady

instance (env : Env K) (q : TwoRateParams) : Alg.Steady env (twoRateOffsprings q : Alg (AlgState K (TwoRateData K)) Unit) := by
  unfold twoRateOffsprings; steady

instance (env : Env K) (q : TwoRateParams) : Alg.Steady env (twoRateSetRate q : Alg (AlgState K (TwoRateData K)) Unit) := by
  unfold twoRateSetRate; steady

instance [LT K] [DecidableLT K] (env : Env K) (q : TwoRateParams) :
    Alg.Steady env (twoRateIterate env q : Alg (AlgState K (TwoRateData K)) Unit) := by
  unfold twoRateIterate; steady

instance [LT K] [DecidableLT K] (env : Env K) (q : TwoRateParams) (numIterations : Int) (fuel : Nat) :
    Alg.Steady env (twoRateMaximize env q numIterations fuel : Alg (AlgState K (TwoRateData K)) Unit) := by
  unfold twoRateMaximize; steady

instance (env : Env K) (q : SelfAdjustingParams) :
    Alg.Steady env (selfAdjustingInit env q : Alg (AlgState K SelfAdjustingData) Unit) := by
  unfold selfAdjustingInit; steady

instance (env : Env K) [LE K] [DecidableLE K] (q : SelfAdjustingParams) (value : K) :
    Alg.Steady env (selfAdjustingDecide q value : Alg (AlgState K SelfAdjustingData) Unit) := by
  unfold selfAdjustingDecide; steady

instance (env : Env K) : Alg.Steady env (selfAdjustingPropose : Alg (AlgState K SelfAdjustingData) Unit) := by
  unfold selfAdjustingPropose; steady

instance [LE K] [DecidableLE K] (env : Env K) (q : SelfAdjustingParams) :
    Alg.Steady env (selfAdjustingIterateFull env q : Alg (AlgState K SelfAdjustingData) Unit) := by
  unfold selfAdjustingIterateFull; steady

instance [LE K] [DecidableLE K] (env : Env K) (q : SelfAdjustingParams) :
    Alg.Steady env (selfAdjustingIterateIncremental env q : Alg (AlgState K SelfAdjustingData) Unit) := by
  unfold selfAdjustingIterateIncremental; steady

instance [LE K] [DecidableLE K] (env : Env K) (q : SelfAdjustingParams) :
    Alg.Steady env (selfAdjustingIterate env q : Alg (AlgState K SelfAdjustingData) Unit) := by
  unfold selfAdjustingIterate; steady

instance [LE K] [DecidableLE K] (env : Env K) (q : SelfAdjustingParams) (numIterations : Int) (fuel : Nat) :
    Alg.Steady env (selfAdjustingMaximize env q numIterations fuel : Alg (AlgState K SelfAdjustingData) Unit) := by
  unfold selfAdjustingMaximize; steady

instance (env : Env K) : Alg.Steady env (selfAdjustingFinalize : Alg (AlgState K SelfAdjustingData) Unit) := by
  unfold selfAdjustingFinalize; steady

/-! ## `Algorithm/ItEa.lean` -/

instance (env : Env K) (q : ItParams) : Alg.Steady env (itFirst env q) := by
  unfold itFirst; steady

instance (env : Env K) (q : ItParams) : Alg.Steady env (itInit env q : Alg (AlgState K (ItData K)) Unit) := by
  unfold itInit; steady

instance [LT K] [DecidableLT K] (env : Env K) : Alg.Steady env (evaluateCenter env : Alg (AlgState K (ItData K)) Unit) := by
  unfold evaluateCenter; steady

instance [LT K] [DecidableLT K] (env : Env K) (q : ItParams) (t : Ties) :
    Alg.Steady env (mlUpdate env q t : Alg (AlgState K (ItData K)) Unit) := by
  unfold mlUpdate; steady

instance [LT K] [DecidableLT K] (env : Env K) (i : Nat) :
    Alg.Steady env (flipCenter env i : Alg (AlgState K (ItData K)) Unit) := by
  unfold flipCenter; steady

instance [LT K] [DecidableLT K] (env : Env K) (q : ItParams) (t : Ties) :
    Alg.Steady env (incrementalMlUpdate env q t : Alg (AlgState K (ItData K)) Unit) := by
  unfold incrementalMlUpdate; steady

instance (env : Env K) : Alg.Steady env (bestCenter : Alg (AlgState K (ItData K)) Unit) := by
  unfold bestCenter; steady

instance [LT K] [DecidableLT K] [LE K] [DecidableLE K] (env : Env K) (q : ItParams) (t : Ties) :
    Alg.Steady env (itReplace env q t) := by
  unfold itReplace
  steady

instance (env : Env K) (q : ItParams) (t : Ties) : Alg.Steady env (igoUpdate q t : Alg (AlgState K (ItData K)) Unit) := by
  unfold igoUpdate; steady

instance (env : Env K) (q : ItParams) : Alg.Steady env (itGenerate q : Alg (AlgState K (ItData K)) Unit) := by
  unfold itGenerate; steady

instance [DecidableEq K] [LT K] [DecidableLT K] [LE K] [DecidableLE K] (env : Env K) (q : ItParams) :
    Alg.Steady env (itUpdate env q : Alg (AlgState K (ItData K)) Unit) := by
  unfold itUpdate; steady

instance [DecidableEq K] [LT K] [DecidableLT K] [LE K] [DecidableLE K] (env : Env K) (q : ItParams) :
    Alg.Steady env (itIterate env q : Alg (AlgState K (ItData K)) Unit) := by
  unfold itIterate; steady

instance [DecidableEq K] [LT K] [DecidableLT K] [LE K] [DecidableLE K] (env : Env K) (q : ItParams) (numIterations : Int) (fuel : Nat) :
    Alg.Steady env (itMaximize env q numIterations fuel : Alg (AlgState K (ItData K)) Unit) := by
  unfold itMaximize; steady

/-! ## `Algorithm/LambdaLambda.lean` -/

instance (env : Env K) (bias : Rat) : Alg.Steady env (lambdaInit env bias : Alg (AlgState K (LambdaData K)) Unit) := by
  unfold lambdaInit; steady

instance (env : Env K) : Alg.Steady env (lambdaMutate : Alg (AlgState K (LambdaData K)) Unit) := by
  unfold lambdaMutate; steady

instance (env : Env K) [DecidableEq K] : Alg.Steady env (lambdaParent : Alg (AlgState K (LambdaData K)) Unit) := by
  unfold lambdaParent; steady

instance (env : Env K) : Alg.Steady env (lambdaRecombine : Alg (AlgState K (LambdaData K)) Unit) := by
  unfold lambdaRecombine; steady

instance (env : Env K) [DecidableEq K] [LE K] [DecidableLE K] :
    Alg.Steady env (lambdaSelect : Alg (AlgState K (LambdaData K)) Unit) := by
  unfold lambdaSelect; steady

instance [DecidableEq K] [LT K] [DecidableLT K] [LE K] [DecidableLE K] (env : Env K) :
    Alg.Steady env (lambdaIterate env : Alg (AlgState K (LambdaData K)) Unit) := by
  unfold lambdaIterate; steady

instance [DecidableEq K] [LT K] [DecidableLT K] [LE K] [DecidableLE K] (env : Env K) (bias : Rat) (numIterations : Int) (fuel : Nat) :
    Alg.Steady env (lambdaMaximize env bias numIterations fuel : Alg (AlgState K (LambdaData K)) Unit) := by
  unfold lambdaMaximize; steady

/-! ## `Algorithm/ProbabilityVector.lean` -/

instance (env : Env K) : Alg.Steady env (pvStart env : Alg (AlgState K (PvData ρ)) Unit) := by
  unfold pvStart; steady

instance [LE K] [DecidableLE K] (env : Env K) (debug : Bool) (best worst : BV) :
    Alg.Steady env (compactCheck env debug best worst : Alg (AlgState K (PvData ρ)) Unit) := by
  unfold compactCheck; steady

instance [LE K] [DecidableLE K] (env : Env K) (q : CompactParams) (best worst : BV) :
    Alg.Steady env (compactLearn env q best worst : Alg (AlgState K (PvData ρ)) Unit) := by
  unfold compactLearn; steady

instance [LT K] [DecidableLT K] [LE K] [DecidableLE K] (env : Env K) (q : CompactParams) :
    Alg.Steady env (compactIterate env q : Alg (AlgState K (PvData (BV × BV))) Unit) := by
  unfold compactIterate; steady

instance [LT K] [DecidableLT K] [LE K] [DecidableLE K] (env : Env K) (q : CompactParams) (numIterations : Int) (fuel : Nat) :
    Alg.Steady env (compactMaximize env q numIterations fuel : Alg (AlgState K (PvData (BV × BV))) Unit) := by
  unfold compactMaximize; steady

instance (env : Env K) (rate : Rat) : Alg.Steady env (mmasLearn rate : Alg (AlgState K (PvData BV)) Unit) := by
  unfold mmasLearn; steady

instance (env : Env K) (q : MmasParams K) : Alg.Steady env (mmasInit env q : Alg (AlgState K (PvData BV)) Unit) := by
  unfold mmasInit; steady

instance (env : Env K) (q : MmasParams K) : Alg.Steady env (mmasIterate env q : Alg (AlgState K (PvData BV)) Unit) := by
  unfold mmasIterate; steady

instance (env : Env K) (q : MmasParams K) (numIterations : Int) (fuel : Nat) :
    Alg.Steady env (mmasMaximize env q numIterations fuel : Alg (AlgState K (PvData BV)) Unit) := by
  unfold mmasMaximize; steady

instance (env : Env K) (L : PopLens (PvData ρ) K) : Alg.Steady env (pvSamplePop L : Alg (AlgState K (PvData ρ)) Unit) := by
  unfold pvSamplePop; steady

instance (env : Env K) (q : PbilParams) : Alg.Steady env (pbilLearn q : Alg (AlgState K (PvData (PbilRest K))) Unit) := by
  unfold pbilLearn; steady

instance [LT K] [DecidableLT K] (env : Env K) (q : PbilParams) :
    Alg.Steady env (pbilIterate env q : Alg (AlgState K (PvData (PbilRest K))) Unit) := by
  unfold pbilIterate; steady

instance [LT K] [DecidableLT K] (env : Env K) (q : PbilParams) (numIterations : Int) (fuel : Nat) :
    Alg.Steady env (pbilMaximize env q numIterations fuel : Alg (AlgState K (PvData (PbilRest K))) Unit) := by
  unfold pbilMaximize; steady

instance (env : Env K) (q : PbilParams) : Alg.Steady env (npsLearn q : Alg (AlgState K (PvData (NpsRest K))) Unit) := by
  unfold npsLearn; steady

instance [LT K] [DecidableLT K] (env : Env K) (q : PbilParams) :
    Alg.Steady env (npsIterate env q : Alg (AlgState K (PvData (NpsRest K))) Unit) := by
  unfold npsIterate; steady

instance [LT K] [DecidableLT K] (env : Env K) (q : PbilParams) (numIterations : Int) (fuel : Nat) :
    Alg.Steady env (npsMaximize env q numIterations fuel : Alg (AlgState K (PvData (NpsRest K))) Unit) := by
  unfold npsMaximize; steady

instance (env : Env K) (sel : Int) : Alg.Steady env (umdaLearn sel : Alg (AlgState K (PvData (Pop K))) Unit) := by
  unfold umdaLearn; steady

instance [LT K] [DecidableLT K] (env : Env K) (sel : Int) :
    Alg.Steady env (umdaIterate env sel : Alg (AlgState K (PvData (Pop K))) Unit) := by
  unfold umdaIterate; steady

instance [LT K] [DecidableLT K] (env : Env K) (sel : Int) (numIterations : Int) (fuel : Nat) :
    Alg.Steady env (umdaMaximize env sel numIterations fuel : Alg (AlgState K (PvData (Pop K))) Unit) := by
  unfold umdaMaximize; steady

/-! ## `Algorithm/Mimic.lean` -/

instance (env : Env K) (log : Rat → Rat) (sel : Int) :
    Alg.Steady env (mimicUpdate log sel : Alg (AlgState K (MimicData K)) Unit) := by
  unfold mimicUpdate; steady

instance (env : Env K) (sel : Int) : Alg.Steady env (mimicInit env sel : Alg (AlgState K (MimicData K)) Unit) := by
  unfold mimicInit; steady

instance [LT K] [DecidableLT K] (env : Env K) (log : Rat → Rat) (sel : Int) :
    Alg.Steady env (mimicIterate env log sel : Alg (AlgState K (MimicData K)) Unit) := by
  unfold mimicIterate; steady

instance [LT K] [DecidableLT K] (env : Env K) (log : Rat → Rat) (sel : Int) (numIterations : Int) (fuel : Nat) :
    Alg.Steady env (mimicMaximize env log sel numIterations fuel : Alg (AlgState K (MimicData K)) Unit) := by
  unfold mimicMaximize; steady

/-! ## `Algorithm/RamUmda.lean` -/

instance (env : Env K) : Alg.Steady env (ramInit env : Alg (AlgState K (PvData (RamRest K))) Unit) := by
  unfold ramInit; steady

instance (env : Env K) (q : RamParams) :
    Alg.Steady env (ramLearn q : Alg (AlgState K (PvData (RamRest K))) Unit) := by
  unfold ramLearn; steady

instance [LT K] [DecidableLT K] (env : Env K) (q : RamParams) :
    Alg.Steady env (ramIterate env q : Alg (AlgState K (PvData (RamRest K))) Unit) := by
  unfold ramIterate; steady

instance [LT K] [DecidableLT K] (env : Env K) (q : RamParams) (numIterations : Int) (fuel : Nat) :
    Alg.Steady env (ramMaximize env q numIterations fuel : Alg (AlgState K (PvData (RamRest K))) Unit) := by
  unfold ramMaximize; steady

instance (env : Env K) (q : RamParams) :
    Alg.Steady env (ram2Learn q : Alg (AlgState K (PvData (RamRest K))) Unit) := by
  unfold ram2Learn; steady

instance [LT K] [DecidableLT K] (env : Env K) (q : RamParams) :
    Alg.Steady env (ram2Iterate env q : Alg (AlgState K (PvData (RamRest K))) Unit) := by
  unfold ram2Iterate; steady

instance [LT K] [DecidableLT K] (env : Env K) (q : RamParams) (numIterations : Int) (fuel : Nat) :
    Alg.Steady env (ram2Maximize env q numIterations fuel : Alg (AlgState K (PvData (RamRest K))) Unit) := by
  unfold ram2Maximize; steady

/-! ## `Walsh/Model.lean` -/

instance (env : Env K) : Alg.Steady env (heaInit env : Alg (AlgState K (HeaData K)) Unit) := by
  unfold heaInit; steady

instance (env : Env K) (q : HeaParams) : Alg.Steady env (heaLearn q : Alg (AlgState K (HeaData K)) Unit) := by
  unfold heaLearn; steady

instance [LT K] [DecidableLT K] (env : Env K) (q : HeaParams) :
    Alg.Steady env (heaIterate env q : Alg (AlgState K (HeaData K)) Unit) := by
  unfold heaIterate; steady

instance [LT K] [DecidableLT K] (env : Env K) (q : HeaParams) (numIterations : Int) (fuel : Nat) :
    Alg.Steady env (heaMaximize env q numIterations fuel : Alg (AlgState K (HeaData K)) Unit) := by
  unfold heaMaximize; steady

instance (env : Env K) : Alg.Steady env (bmInit env : Alg (AlgState K (BmData K)) Unit) := by
  unfold bmInit; steady

instance (env : Env K) (q : BmParams) : Alg.Steady env (bmLearn q : Alg (AlgState K (BmData K)) Unit) := by
  unfold bmLearn; steady

instance [LT K] [DecidableLT K] (env : Env K) (logistic : Rat → Rat) (q : BmParams) :
    Alg.Steady env (bmIterate env logistic q : Alg (AlgState K (BmData K)) Unit) := by
  unfold bmIterate; steady

instance [LT K] [DecidableLT K] (env : Env K) (logistic : Rat → Rat) (q : BmParams) (numIterations : Int) (fuel : Nat) :
    Alg.Steady env (bmMaximize env logistic q numIterations fuel : Alg (AlgState K (BmData K)) Unit) := by
  unfold bmMaximize; steady

end Hnco
