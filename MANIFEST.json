{
 "claims": [
  {
   "property": "C01",
   "status": "proved",
   "theorems": [
    "Hnco.bvToWord_bits",
    "Hnco.bvToWord_fromWord",
    "Hnco.bvFromWord_toWord",
    "Hnco.bvToWordSlice_eq",
    "Hnco.bvToWord_contract"
   ],
   "note": "size_t is BitVec 64; sizes up to 64 as asserted by the code; other sizes and slices are shown to be outside the contract."
  },
  {
   "property": "C02",
   "status": "proved",
   "theorems": [
    "Hnco.bvAdd_componentwise",
    "Hnco.bvAdd3_eq",
    "Hnco.bvAdd_comm",
    "Hnco.bvAdd_assoc",
    "Hnco.bvAdd_self_zero",
    "Hnco.bvAdd_cancel",
    "Hnco.bvHammingWeight_count",
    "Hnco.bvIsZero_iff",
    "Hnco.bvHammingDistance_weight",
    "Hnco.bvHammingDistance_eq_zero",
    "Hnco.bvHammingDistance_symm",
    "Hnco.bvHammingDistance_triangle",
    "Hnco.bvAdd_contract"
   ],
   "note": "bits are Bool (valid bit vectors only)."
  },
  {
   "property": "C03",
   "status": "proved",
   "theorems": [
    "Hnco.bvRandom_weight",
    "Hnco.bvRandom_overwrites"
   ],
   "note": "for every total quotient and draws such that a draw is below n/n, which covers IEEE doubles and draws in [0,1)."
  },
  {
   "property": "C04",
   "status": "proved",
   "theorems": [
    "Hnco.bvFromString_display",
    "Hnco.bvFromString_spec",
    "Hnco.bvFromStream_display",
    "Hnco.bvFromStream_empty",
    "Hnco.vectorBool_roundtrip"
   ],
   "note": "strings and streams are lists of characters."
  },
  {
   "property": "C05",
   "status": "proved",
   "theorems": [
    "Hnco.sbvIsValid_iff",
    "Hnco.bvFlipSparse_exact",
    "Hnco.bvFlipSparse_distance",
    "Hnco.bvFlipSparse_twice",
    "Hnco.bvFlip_contract",
    "Hnco.sbvIsValid_repeated"
   ],
   "note": "includes the witness that repeated indices pass the validity check. Negative results, false of the code as it is: Hnco.sbvIsValid_repeated."
  },
  {
   "property": "C06",
   "status": "proved",
   "theorems": [
    "Hnco.hypercubeIterator_enumerates",
    "Hnco.extendedHypercubeIterator_enumerates",
    "Hnco.hypercubeIterator_dimension_zero"
   ],
   "note": ""
  },
  {
   "property": "C07",
   "status": "proved",
   "theorems": [
    "Hnco.completeSearch_correct"
   ],
   "note": "values in an arbitrary linear order (no NaN); deterministic function; evaluation trace is ghost state."
  },
  {
   "property": "C08",
   "status": "proved",
   "theorems": [
    "Hnco.singleBitFlipIterator_enumerates"
   ],
   "note": ""
  },
  {
   "property": "C09",
   "status": "proved",
   "theorems": [
    "Hnco.hammingSphereIterator_enumerates",
    "Hnco.hammingSphereIterator_new",
    "Hnco.hammingSphere_count"
   ],
   "note": ""
  },
  {
   "property": "C10",
   "status": "proved",
   "theorems": [
    "Hnco.sampleBits_flips",
    "Hnco.sampleBits_onto",
    "Hnco.construct_ready",
    "Hnco.propose_spec",
    "Hnco.propose_onto",
    "Hnco.keep_spec",
    "Hnco.forget_spec",
    "Hnco.run_spec",
    "Hnco.mutate_spec",
    "Hnco.map_spec",
    "Hnco.standardBitMutation_ignores_option",
    "Hnco.setMutationRate_sticky"
   ],
   "note": "Negative results, false of the code as it is: Hnco.standardBitMutation_ignores_option, Hnco.setMutationRate_sticky."
  },
  {
   "property": "C11",
   "status": "proved",
   "theorems": [
    "Hnco.linearMap_spec",
    "Hnco.affineMap_spec",
    "Hnco.linearIsSurjective_correct",
    "Hnco.affineIsSurjective_correct",
    "Hnco.linearRandom_surjective",
    "Hnco.linearRandom_refused",
    "Hnco.linearRandom_shape",
    "Hnco.bmRowEchelonForm_spec",
    "Hnco.bmRank_echelon",
    "Hnco.bmRank_eq_rows_iff"
   ],
   "note": "positive dimensions."
  },
  {
   "property": "C12",
   "status": "proved",
   "theorems": [
    "Hnco.bmSolve_correct",
    "Hnco.bmSolveUpperTriangular_correct",
    "Hnco.bmSolveUpperTriangular_singular"
   ],
   "note": "sizes n > 0; indices are natural numbers."
  },
  {
   "property": "C13",
   "status": "proved",
   "theorems": [
    "Hnco.bmInvert_correct"
   ],
   "note": "sizes n > 0; whatever the previous contents of the second argument."
  },
  {
   "property": "C14",
   "status": "proved",
   "theorems": [
    "Hnco.bmIsUpperTriangular_spec",
    "Hnco.bmIsValid_spec",
    "Hnco.bmIsSquare_spec",
    "Hnco.bmMultiply_spec",
    "Hnco.bmMultiply_linear",
    "Hnco.bmIdentityN_spec",
    "Hnco.bmIdentity_spec",
    "Hnco.bmIsIdentity_iff",
    "Hnco.bmTranspose_spec",
    "Hnco.bmTranspose_twice",
    "Hnco.bmSwapRows_spec",
    "Hnco.bmSwapRows_twice",
    "Hnco.bmAddRows_spec",
    "Hnco.bmAddRows_twice",
    "Hnco.bmAddColumns_spec",
    "Hnco.bmSetColumn_spec"
   ],
   "note": "positive dimensions (required by the validity assertion)."
  },
  {
   "property": "C15",
   "status": "proved",
   "theorems": [
    "Hnco.tvMultiply_spec",
    "Hnco.tvMultiply_invalid",
    "Hnco.tsMultiply_linear",
    "Hnco.tvMultiply_linear",
    "Hnco.tvMultiply_involution",
    "Hnco.tsInvert_correct",
    "Hnco.tsMultiplyMatrix_spec"
   ],
   "note": ""
  },
  {
   "property": "C16",
   "status": "proved",
   "theorems": [
    "Hnco.tvCommute_correct",
    "Hnco.tvDisjoint_correct",
    "Hnco.tvDisjoint_commute",
    "Hnco.tsMultiply_reorder",
    "Hnco.tsMultiply_involution"
   ],
   "note": ""
  },
  {
   "property": "C17",
   "status": "proved",
   "theorems": [
    "Hnco.tsRandom_correct",
    "Hnco.tsRandomCommuting_correct",
    "Hnco.tsRandomUniqueSource_correct",
    "Hnco.tsRandomUniqueDestination_correct",
    "Hnco.tsRandomDisjoint_correct",
    "Hnco.tsRandomNonCommuting_correct",
    "Hnco.constrained_samplers_zero",
    "Hnco.unique_samplers_nonempty",
    "Hnco.tsRandomCommuting_appends"
   ],
   "note": "randomness is an arbitrary list of draws; includes the negative results for a zero count and for a non-empty initial sequence."
  },
  {
   "property": "C18",
   "status": "proved",
   "theorems": [
    "Hnco.tsAffineInvert_correct",
    "Hnco.tsAffineInvert_twice",
    "Hnco.tsAffineRandom_valid"
   ],
   "note": ""
  },
  {
   "property": "C19",
   "status": "proved",
   "theorems": [
    "Hnco.permIsValid_correct",
    "Hnco.permutationMap_correct",
    "Hnco.permutationMap_invalid",
    "Hnco.translationMap_correct"
   ],
   "note": ""
  },
  {
   "property": "C20",
   "status": "proved",
   "theorems": [
    "Hnco.injectionMap_spec",
    "Hnco.projectionMap_spec",
    "Hnco.projection_injection",
    "Hnco.injection_injective_projection_surjective",
    "Hnco.injectionIsSurjective_correct",
    "Hnco.surjectivity_wrong_with_repeated_positions",
    "Hnco.injection_projection_refused"
   ],
   "note": "includes the witness that the surjectivity test is wrong when a position is repeated."
  },
  {
   "property": "C21",
   "status": "proved",
   "theorems": [
    "Hnco.functionMapNew_iff",
    "Hnco.functionMapMaximum_cases",
    "Hnco.functionMap_maximum",
    "Hnco.linearObj_meets",
    "Hnco.mapComposition_computes",
    "Hnco.mapComposition_surjective",
    "Hnco.opposite_spec",
    "Hnco.functionMap_injection_deterministic"
   ],
   "note": "the buffer of the composition is explicit; values in an arbitrary order."
  },
  {
   "property": "C22",
   "status": "proved",
   "theorems": [
    "Hnco.cache_transparent",
    "Hnco.cache_wrong_size"
   ],
   "note": "deterministic wrapped function; the hash table is the list of its entries."
  },
  {
   "property": "C23",
   "status": "proved",
   "theorems": [
    "Hnco.onBudget_returned",
    "Hnco.onBudget_reaches",
    "Hnco.onBudget_negative",
    "Hnco.onBudget_throwing_reached"
   ],
   "note": "histories with caught exceptions; counters do not overflow."
  },
  {
   "property": "C24",
   "status": "proved",
   "theorems": [
    "Hnco.progressTracker_transparent",
    "Hnco.progressTracker_first_best",
    "Hnco.progressTracker_consistent",
    "Hnco.progressTracker_incremental_wrong"
   ],
   "note": "the defect of incremental evaluation is a separate theorem with a witness."
  },
  {
   "property": "C25",
   "status": "proved",
   "theorems": [
    "Hnco.stopOnTarget_replies",
    "Hnco.stopOnTarget_stops",
    "Hnco.stopOnTarget_incremental_wrong"
   ],
   "note": "the defect of incremental evaluation is a separate theorem with a witness."
  },
  {
   "property": "C26",
   "status": "proved",
   "theorems": [
    "Hnco.oneMax_incremental",
    "Hnco.linear_incremental",
    "Hnco.walsh1_incremental",
    "Hnco.opposite_incremental",
    "Hnco.opposite_claims_incremental",
    "Hnco.oneMax_incremental_repeated_index"
   ],
   "note": "Negative results, false of the code as it is: Hnco.opposite_claims_incremental, Hnco.oneMax_incremental_repeated_index."
  },
  {
   "property": "C27",
   "status": "proved",
   "theorems": [
    "Hnco.ising1_value",
    "Hnco.ising1_incremental",
    "Hnco.ising2_value",
    "Hnco.ising2_incremental"
   ],
   "note": ""
  },
  {
   "property": "C28",
   "status": "proved",
   "theorems": [
    "Hnco.oneMax_value",
    "Hnco.oneMax_maximum",
    "Hnco.leadingOnes_value",
    "Hnco.leadingOnes_maximum",
    "Hnco.needle_value",
    "Hnco.needle_maximum",
    "Hnco.ridge_value",
    "Hnco.ridge_maximum",
    "Hnco.plateau_value",
    "Hnco.plateau_maximum"
   ],
   "note": ""
  },
  {
   "property": "C29",
   "status": "proved",
   "theorems": [
    "Hnco.hiff_value",
    "Hnco.hiff_maximum_iff",
    "Hnco.hiff_maximum",
    "Hnco.hiff_maximum_overflow",
    "Hnco.hiffNew_spec"
   ],
   "note": "Negative results, false of the code as it is: Hnco.hiff_maximum_overflow."
  },
  {
   "property": "C30",
   "status": "proved",
   "theorems": [
    "Hnco.jumpNew_spec",
    "Hnco.jump_value",
    "Hnco.jump_maximum",
    "Hnco.deceptiveJump_value",
    "Hnco.deceptiveJump_maximum",
    "Hnco.trapNew_spec",
    "Hnco.trap_value",
    "Hnco.trap_maximum"
   ],
   "note": ""
  },
  {
   "property": "C31",
   "status": "proved",
   "theorems": [
    "Hnco.peaksNew_spec",
    "Hnco.fourPeaks_value",
    "Hnco.fourPeaks_maximum",
    "Hnco.sixPeaks_value",
    "Hnco.sixPeaks_maximum",
    "Hnco.sixPeaks_complement",
    "Hnco.peaks_negative_threshold"
   ],
   "note": "Negative results, false of the code as it is: Hnco.peaks_negative_threshold."
  },
  {
   "property": "C32",
   "status": "proved",
   "theorems": [
    "Hnco.longPathNew_spec",
    "Hnco.longPath_path",
    "Hnco.longPath_maximum"
   ],
   "note": ""
  },
  {
   "property": "C33",
   "status": "proved",
   "theorems": [
    "Hnco.linear_value",
    "Hnco.linear_maximum",
    "Hnco.walsh1_value",
    "Hnco.walsh1_maximum",
    "Hnco.cancellationNew_spec",
    "Hnco.summationCancellation_value",
    "Hnco.summationCancellation_maximum",
    "Hnco.sinusSummationCancellation_value",
    "Hnco.sinusSummationCancellation_maximum"
   ],
   "note": ""
  },
  {
   "property": "C34",
   "status": "proved",
   "theorems": [
    "Hnco.walshTransform_terms",
    "Hnco.walshTransform_expansion",
    "Hnco.fastWalshTransform_eq",
    "Hnco.walshExpansion2_value"
   ],
   "note": ""
  },
  {
   "property": "C35",
   "status": "proved",
   "theorems": [
    "Hnco.qubo_value",
    "Hnco.quboLoad_accepts",
    "Hnco.quboLoad_rejects",
    "Hnco.quboLoad_blank",
    "Hnco.quboLoad_value",
    "Hnco.quboText_isQuboFile"
   ],
   "note": "Negative results, false of the code as it is: Hnco.quboLoad_blank."
  },
  {
   "property": "C36",
   "status": "proved",
   "theorems": [
    "Hnco.differenceIsSafe_spec",
    "Hnco.dyadicExact_accepts",
    "Hnco.dyadicExact_overflow",
    "Hnco.dyadicUnpack_spec",
    "Hnco.dyadicUnpack_zeros",
    "Hnco.dyadicUnpack_onto",
    "Hnco.dyadicExact_size",
    "Hnco.dyadicExact_onto",
    "Hnco.dyadicWithSize_size",
    "Hnco.dyadicWithPrecision_step"
   ],
   "note": "Negative results, false of the code as it is: Hnco.dyadicExact_overflow."
  },
  {
   "property": "C37",
   "status": "proved",
   "theorems": [
    "Hnco.integerCategoricalNew_spec",
    "Hnco.integerCategoricalUnpack_spec",
    "Hnco.integerCategoricalUnpack_onto",
    "Hnco.integerCategorical_single",
    "Hnco.linearCategoricalUnpack_range",
    "Hnco.linearCategoricalUnpack_onto",
    "Hnco.linearCategorical_single",
    "Hnco.valueSetUnpack_mem",
    "Hnco.valueSetUnpack_onto",
    "Hnco.valueSetUnpack_mono",
    "Hnco.valueSetNew_accepts",
    "Hnco.floatUnpack_spec",
    "Hnco.floatUnpack_range",
    "Hnco.floatUnpack_strictMono",
    "Hnco.floatWithPrecision_dense",
    "Hnco.floatWithPrecision_coarse",
    "Hnco.complexUnpack_spec"
   ],
   "note": "Negative results, false of the code as it is: Hnco.integerCategorical_single, Hnco.linearCategorical_single."
  },
  {
   "property": "C38",
   "status": "proved",
   "theorems": [
    "Hnco.permutationUnpack_valid",
    "Hnco.permutationUnpack_sorted",
    "Hnco.permutationUnpack_ties",
    "Hnco.permutationUnpack_onto",
    "Hnco.permutationRepNew_bits",
    "Hnco.permutationUnpack_overflow"
   ],
   "note": "Negative results, false of the code as it is: Hnco.permutationUnpack_overflow."
  },
  {
   "property": "C39",
   "status": "proved",
   "theorems": [
    "Hnco.slices_cover",
    "Hnco.multivariateEvaluate_spec",
    "Hnco.multivariate_independent",
    "Hnco.dyadic_decodes",
    "Hnco.valueSet_decodes",
    "Hnco.float_decodes",
    "Hnco.complex_decodes",
    "Hnco.linearCategorical_decodes",
    "Hnco.integerCategorical_decodes",
    "Hnco.map_decodes",
    "Hnco.permutationUnpack_local",
    "Hnco.sliceStart_append",
    "Hnco.universalUnpack_spec",
    "Hnco.permutationAdapterEvaluate_spec",
    "Hnco.permutationAdapterNew_spec",
    "Hnco.multiobjectiveAdapterEvaluate_spec"
   ],
   "note": ""
  },
  {
   "property": "C40",
   "status": "proved",
   "theorems": [
    "Hnco.maxSat_value",
    "Hnco.maxNae3Sat_value",
    "Hnco.litTrue_neg",
    "Hnco.maxSatRandom_instance",
    "Hnco.maxSatRandomPlanted_instance"
   ],
   "note": ""
  },
  {
   "property": "C41",
   "status": "proved",
   "theorems": [
    "Hnco.cnfLoad_iff",
    "Hnco.cnfLoad_range",
    "Hnco.cnfLoad_rejects",
    "Hnco.cnfLoad_blank_clause",
    "Hnco.cnfLoad_smallest_int",
    "Hnco.nae3Load_iff",
    "Hnco.cnf_roundtrip",
    "Hnco.cnf_roundtrip_empty"
   ],
   "note": "Negative results, false of the code as it is: Hnco.cnfLoad_blank_clause, Hnco.cnfLoad_smallest_int, Hnco.cnf_roundtrip_empty."
  },
  {
   "property": "C42",
   "status": "proved",
   "theorems": [
    "Hnco.factorization_value",
    "Hnco.factorization_zero",
    "Hnco.factorization_reaches_zero",
    "Hnco.factorization_stale"
   ],
   "note": "Negative results, false of the code as it is: Hnco.factorization_stale."
  },
  {
   "property": "C43",
   "status": "proved",
   "theorems": [
    "Hnco.sudokuLoad_spec",
    "Hnco.sudoku_round_trip",
    "Hnco.sudokuRandom_valid",
    "Hnco.sudokuRandom_solvable",
    "Hnco.sudokuRandom_not_ready",
    "Hnco.sudokuWrite_cells",
    "Hnco.sudoku_value",
    "Hnco.sudoku_zero_iff",
    "Hnco.sudoku_ready_again"
   ],
   "note": "Negative results, false of the code as it is: Hnco.sudokuRandom_not_ready."
  },
  {
   "property": "C44",
   "status": "proved",
   "theorems": [
    "Hnco.tsp_value",
    "Hnco.tsp_rotate",
    "Hnco.tsp_reverse",
    "Hnco.tspGenerate_table",
    "Hnco.tspDistances_table",
    "Hnco.tspAtt_ceil",
    "Hnco.tspEuc_round"
   ],
   "note": ""
  },
  {
   "property": "C45",
   "status": "proved",
   "theorems": [
    "Hnco.partition_value",
    "Hnco.partition_perfect",
    "Hnco.partition_complement",
    "Hnco.equalProducts_value",
    "Hnco.equalProducts_zero",
    "Hnco.equalProducts_complement",
    "Hnco.labs_autocorrelation",
    "Hnco.labs_complement",
    "Hnco.labs_merit",
    "Hnco.ising1_complement",
    "Hnco.ising2_complement"
   ],
   "note": ""
  },
  {
   "property": "C46",
   "status": "proved",
   "theorems": [
    "Hnco.tie_weights_fair",
    "Hnco.mlLikelihoods_spec",
    "Hnco.igoTarget_spec",
    "Hnco.pop_sort_spec",
    "Hnco.pop_sort_onto",
    "Hnco.pop_partialSort_spec",
    "Hnco.pop_equivalent_spec"
   ],
   "note": ""
  },
  {
   "property": "C47",
   "status": "proved",
   "theorems": [
    "Hnco.comma_select_spec",
    "Hnco.plus_select_spec",
    "Hnco.selectsBest_first"
   ],
   "note": ""
  },
  {
   "property": "C48",
   "status": "partial",
   "theorems": [
    "Hnco.tournament_select_partial",
    "Hnco.tournament_last_round_any",
    "Hnco.tournament_pass_partial"
   ],
   "note": "Proved for all rounds of a pass but the last; for the last round the claim is false of the code, see tournament_last_round_any. Negative results, false of the code as it is: Hnco.tournament_last_round_any."
  },
  {
   "property": "C49",
   "status": "proved",
   "theorems": [
    "Hnco.firstAscentIterate_spec",
    "Hnco.firstAscent_stops_at_local_maximum",
    "Hnco.steepestIterate_spec",
    "Hnco.steepestAscent_stops_at_local_maximum",
    "Hnco.firstAscent_singleBitFlip",
    "Hnco.steepestAscent_hammingSphere",
    "Hnco.steepestAscent_interrupted_not_best",
    "Hnco.randomLocalSearch_best",
    "Hnco.randomLocalSearch_patience",
    "Hnco.randomLocalSearch_monotone",
    "Hnco.onePlusOneEa_best"
   ],
   "note": "Negative results, false of the code as it is: Hnco.steepestAscent_interrupted_not_best."
  },
  {
   "property": "C50",
   "status": "proved",
   "theorems": [
    "Hnco.muCommaLambda_best",
    "Hnco.muPlusLambda_best",
    "Hnco.geneticAlgorithm_best",
    "Hnco.itEa_best",
    "Hnco.lambda_best_partial",
    "Hnco.lambda_mutant_lost",
    "Hnco.randomSearch_best",
    "Hnco.randomWalk_best",
    "Hnco.simulatedAnnealing_best",
    "Hnco.mimic_best",
    "Hnco.compactGa_bounded",
    "Hnco.mmas_bounded",
    "Hnco.pbil_bounded",
    "Hnco.npsPbil_constant",
    "Hnco.umda_bounded",
    "Hnco.ramUmda_best",
    "Hnco.ramUmda2_best",
    "Hnco.twoRate_best",
    "Hnco.selfAdjusting_best",
    "Hnco.bm_best",
    "Hnco.hea_best"
   ],
   "note": "Negative results, false of the code as it is: Hnco.lambda_mutant_lost, Hnco.npsPbil_constant."
  },
  {
   "property": "C51",
   "status": "proved",
   "theorems": [
    "Hnco.mimicSample_any",
    "Hnco.mimic_best",
    "Hnco.pvBound_bounded",
    "Hnco.pvBound_single",
    "Hnco.pvSample_any",
    "Hnco.pvUpdate_unit",
    "Hnco.selectionMean_unit",
    "Hnco.compactMove_spec",
    "Hnco.compactGa_bounded",
    "Hnco.mmasLearn_spec",
    "Hnco.mmas_bounded",
    "Hnco.pbilLearn_spec",
    "Hnco.pbil_bounded",
    "Hnco.umdaLearn_spec",
    "Hnco.umda_bounded",
    "Hnco.pvSample_exact",
    "Hnco.ramUmda_best",
    "Hnco.ramUmda2_best"
   ],
   "note": "Negative results, false of the code as it is: Hnco.pvBound_single."
  },
  {
   "property": "C52",
   "status": "proved",
   "theorems": [
    "Hnco.npsLearn_constant",
    "Hnco.npsLearn_wrong",
    "Hnco.npsPbil_constant"
   ],
   "note": "The implementation never moves the probability vector: proved, with the intended step as specification. Negative results, false of the code as it is: Hnco.npsLearn_constant, Hnco.npsLearn_wrong, Hnco.npsPbil_constant."
  },
  {
   "property": "C53",
   "status": "proved",
   "theorems": [
    "Hnco.countTies_count",
    "Hnco.countTies_all_tie",
    "Hnco.countTies_undefined_iff",
    "Hnco.lambda_one_never_iterates"
   ],
   "note": "Also refutes that the loop stays in range. Negative results, false of the code as it is: Hnco.countTies_all_tie, Hnco.lambda_one_never_iterates."
  },
  {
   "property": "C54",
   "status": "partial",
   "theorems": [
    "Hnco.randomWalk_incremental_reads_uninitialized",
    "Hnco.randomWalk_incremental_eq_full_partial",
    "Hnco.randomWalk_loop_incremental_eq_full_partial"
   ],
   "note": "Proved for iterations from a state in which the value is initialised; the code never initialises it, see randomWalk_incremental_reads_uninitialized. Negative results, false of the code as it is: Hnco.randomWalk_incremental_reads_uninitialized."
  },
  {
   "property": "C55",
   "status": "proved",
   "theorems": [
    "Hnco.dominates_spec",
    "Hnco.dominance_irrefl",
    "Hnco.dominance_trans",
    "Hnco.computeFronts_spec",
    "Hnco.fronts_unique",
    "Hnco.computeFronts_deterministic"
   ],
   "note": ""
  },
  {
   "property": "C56",
   "status": "proved",
   "theorems": [
    "Hnco.nsga2Rank_spec",
    "Hnco.nsga2Survive_spec",
    "Hnco.survivors_elitist",
    "Hnco.strictWeak_pairLess",
    "Hnco.nsga2Iterate_spec",
    "Hnco.nsga2Finalize_spec",
    "Hnco.nsga2_run",
    "Hnco.paretoSet_covers",
    "Hnco.nsga2_tournament_size",
    "Hnco.nsga2_second_run_ub"
   ],
   "note": "Negative results, false of the code as it is: Hnco.nsga2_tournament_size, Hnco.nsga2_second_run_ub."
  },
  {
   "property": "C57",
   "status": "proved",
   "theorems": [
    "Hnco.parallel_evaluation_correct",
    "Hnco.parallel_schedule_irrelevant"
   ],
   "note": "iterations of the parallel loop are atomic and function objects share no state; stacks of controllers without cache (see C63)."
  },
  {
   "property": "C58",
   "status": "proved",
   "theorems": [
    "Hnco.moment_average",
    "Hnco.moment_update",
    "Hnco.moment_update_undefined",
    "Hnco.moment_bound",
    "Hnco.moment_bound_one",
    "Hnco.moment_norm1",
    "Hnco.moment_norm2",
    "Hnco.moment_distance",
    "Hnco.moment_normInfinite_max",
    "Hnco.moment_normInfinite_negative",
    "Hnco.moment_normInfinite"
   ],
   "note": "Negative results, false of the code as it is: Hnco.moment_update_undefined, Hnco.moment_bound_one, Hnco.moment_normInfinite_negative."
  },
  {
   "property": "C59",
   "status": "proved",
   "theorems": [
    "Hnco.gibbsDelta_energy",
    "Hnco.gibbs_conditional",
    "Hnco.gibbsUpdate_same",
    "Hnco.gibbsUpdate_spec",
    "Hnco.gibbsSync_triangular",
    "Hnco.gibbsSync_full",
    "Hnco.gibbsUpdateSync_spec"
   ],
   "note": "Negative results, false of the code as it is: Hnco.gibbsSync_triangular."
  },
  {
   "property": "C60",
   "status": "proved",
   "theorems": [
    "Hnco.mimicSample_spec",
    "Hnco.mimicSample_any",
    "Hnco.mimicUpdate_spec",
    "Hnco.mimic_best"
   ],
   "note": ""
  },
  {
   "property": "C61",
   "status": "proved",
   "theorems": [
    "Hnco.splitString_splits",
    "Hnco.splits_unique",
    "Hnco.splits_join",
    "Hnco.splits_pieces",
    "Hnco.splits_count",
    "Hnco.splitString_empty_delimiter",
    "Hnco.splitString_wraps"
   ],
   "note": "strings of fewer than 2^32 characters and a delimiter that is not empty; the other cases do not end (negative theorems). Negative results, false of the code as it is: Hnco.splitString_empty_delimiter, Hnco.splitString_wraps."
  },
  {
   "property": "C62",
   "status": "proved",
   "theorems": [
    "Hnco.restart_best"
   ],
   "note": ""
  },
  {
   "property": "C63",
   "status": "proved",
   "theorems": [
    "Hnco.cached_update_lost",
    "Hnco.cached_budget_ignored"
   ],
   "note": "negative result."
  },
  {
   "property": "C64",
   "status": "proved",
   "theorems": [
    "Hnco.uniform_crossover_mixes",
    "Hnco.biased_crossover_mixes",
    "Hnco.mixes_agreement"
   ],
   "note": ""
  },
  {
   "property": "C65",
   "status": "proved",
   "theorems": [
    "Hnco.itEa_rate_bounds",
    "Hnco.igo_rate_unit",
    "Hnco.itEa_clamp_undefined",
    "Hnco.twoRate_update_bounds",
    "Hnco.twoRate_rate_bounds",
    "Hnco.twoRate_clamp_undefined",
    "Hnco.selfAdjusting_rate_bounds"
   ],
   "note": "Negative results, false of the code as it is: Hnco.itEa_clamp_undefined, Hnco.twoRate_clamp_undefined."
  },
  {
   "property": "C66",
   "status": "proved",
   "theorems": [
    "Hnco.herded_goodness",
    "Hnco.herding_sample",
    "Hnco.herding_same"
   ],
   "note": ""
  },
  {
   "property": "C67",
   "status": "proved",
   "theorems": [
    "Hnco.bmLearn_spec",
    "Hnco.bm_reset_forgets",
    "Hnco.bm_reset_modes",
    "Hnco.bm_synchronous_undefined",
    "Hnco.bm_best",
    "Hnco.heaLearn_spec",
    "Hnco.hea_single_undefined",
    "Hnco.hea_best"
   ],
   "note": "Negative results, false of the code as it is: Hnco.bm_synchronous_undefined, Hnco.hea_single_undefined."
  },
  {
   "property": "C68",
   "status": "proved",
   "theorems": [
    "Hnco.ramLength_spec",
    "Hnco.ramLearn_spec",
    "Hnco.ram2Learn_spec",
    "Hnco.ram2_learns_from_worst"
   ],
   "note": "Negative results, false of the code as it is: Hnco.ram2_learns_from_worst."
  },
  {
   "property": "C69",
   "status": "proved",
   "theorems": [
    "Hnco.parseType_written",
    "Hnco.parseRepresentation_written",
    "Hnco.parseRepresentations_correct",
    "Hnco.parseRepresentations_blank",
    "Hnco.parseType_conversion"
   ],
   "note": "std::stod is a parameter; texts of fewer than 2^32 characters. Negative results, false of the code as it is: Hnco.parseRepresentations_blank, Hnco.parseType_conversion."
  },
  {
   "property": "C70",
   "status": "proved",
   "theorems": [
    "Hnco.nkGenerate_valid",
    "Hnco.nkGenerate_again_keeps",
    "Hnco.nkGenerate_too_many",
    "Hnco.nkGenerate_onto",
    "Hnco.nkEval_spec",
    "Hnco.nkTerm_unique"
   ],
   "note": "Negative results, false of the code as it is: Hnco.nkGenerate_again_keeps, Hnco.nkGenerate_too_many."
  },
  {
   "property": "C71",
   "status": "proved",
   "theorems": [
    "Hnco.appMaximize_spec",
    "Hnco.appMaximize_value",
    "Hnco.appLoad_saved",
    "Hnco.appDescribed_abstract",
    "Hnco.appDescribed_concrete",
    "Hnco.appDescribed_twice"
   ],
   "note": "Negative results, false of the code as it is: Hnco.appDescribed_concrete, Hnco.appDescribed_twice."
  },
  {
   "property": "C72",
   "status": "proved",
   "theorems": [
    "Hnco.makeMap_made",
    "Hnco.makeMap_refused",
    "Hnco.makeMap_transvections_one_bit",
    "Hnco.decorate_evaluates",
    "Hnco.makeMap_fits",
    "Hnco.decorate_hasMax",
    "Hnco.decorate_maximum",
    "Hnco.decorate_hasInc",
    "Hnco.decorate_minimize_incremental",
    "Hnco.decorate_incremental_throws",
    "Hnco.decorate_prior_size"
   ],
   "note": "Negative results, false of the code as it is: Hnco.makeMap_transvections_one_bit, Hnco.decorate_incremental_throws, Hnco.decorate_prior_size."
  },
  {
   "property": "C73",
   "status": "proved",
   "theorems": [
    "Hnco.makeDouble_made",
    "Hnco.makeLong_made",
    "Hnco.makeInt_made",
    "Hnco.makeComplex_made",
    "Hnco.makeMixed_made",
    "Hnco.makeDouble_default_kind",
    "Hnco.makeMixed_default_long",
    "Hnco.make_malformed"
   ],
   "note": "Negative results, false of the code as it is: Hnco.makeDouble_default_kind, Hnco.makeMixed_default_long."
  },
  {
   "property": "C74",
   "status": "proved",
   "theorems": [
    "Hnco.proportionate_shares",
    "Hnco.proportionate_possible",
    "Hnco.proportionate_undefined",
    "Hnco.boltzmann_shares",
    "Hnco.boltzmann_negative",
    "Hnco.uniformSelect_any"
   ],
   "note": "Negative results, false of the code as it is: Hnco.proportionate_undefined, Hnco.boltzmann_negative."
  },
  {
   "property": "C75",
   "status": "proved",
   "theorems": [
    "Hnco.localTest_singleBitFlip",
    "Hnco.localTest_hammingSphere",
    "Hnco.globalTest_spec",
    "Hnco.globalTest_unknown"
   ],
   "note": ""
  },
  {
   "property": "C76",
   "status": "proved",
   "theorems": [
    "Hnco.moParsed_expressions",
    "Hnco.moAdapter_objectives",
    "Hnco.moMixed_objectives"
   ],
   "note": ""
  },
  {
   "property": "C77",
   "status": "proved",
   "theorems": [
    "Hnco.sum_monotone",
    "Hnco.opposite_sum_pareto",
    "Hnco.sum_maximum_dominates_nothing",
    "Hnco.sum_maximum_dominated",
    "Hnco.absolute_equations",
    "Hnco.complex_equations",
    "Hnco.moRun_spec",
    "Hnco.moRun_options"
   ],
   "note": "Negative results, false of the code as it is: Hnco.sum_maximum_dominated, Hnco.moRun_options."
  },
  {
   "property": "C78",
   "status": "proved",
   "theorems": [
    "Hnco.human_run",
    "Hnco.human_interrupted",
    "Hnco.human_endless"
   ],
   "note": "Negative results, false of the code as it is: Hnco.human_endless."
  },
  {
   "property": "C79",
   "status": "proved",
   "theorems": [
    "Hnco.maps_roundTrip",
    "Hnco.functions_roundTrip",
    "Hnco.loadMap_sound",
    "Hnco.mapgen_then_load",
    "Hnco.mapgen_ts_output_ignored"
   ],
   "note": "Negative results, false of the code as it is: Hnco.mapgen_ts_output_ignored."
  },
  {
   "property": "C80",
   "status": "proved",
   "theorems": [
    "Hnco.ffgen_linear_normal",
    "Hnco.ffgen_linear_progression",
    "Hnco.ffgen_vectors",
    "Hnco.ffgen_nk",
    "Hnco.ffgen_walsh",
    "Hnco.ffgen_walsh2",
    "Hnco.ffgen_walsh2_long_range",
    "Hnco.walsh2LongRangePeriodic_eq",
    "Hnco.ffgen_ising1",
    "Hnco.ffgen_ising2",
    "Hnco.ffgen_maxSat",
    "Hnco.ffgen_sudoku",
    "Hnco.ffgen_unknown",
    "Hnco.ffgen_ising2_size"
   ],
   "note": "Negative results, false of the code as it is: Hnco.ffgen_ising2_size."
  },
  {
   "property": "C81",
   "status": "proved",
   "theorems": [
    "Hnco.factory_no_size",
    "Hnco.factory_unknown",
    "Hnco.factory_loaded_size",
    "Hnco.factory_constructed",
    "Hnco.factory_counts",
    "Hnco.factory_prefixes",
    "Hnco.factory_blocks",
    "Hnco.factory_sequences",
    "Hnco.factory_longPath",
    "Hnco.factory_doubling",
    "Hnco.factory_doubling_overflows",
    "Hnco.factory_loaded_sound",
    "Hnco.factory_not_archive",
    "Hnco.factory_unchecked"
   ],
   "note": "Negative results, false of the code as it is: Hnco.factory_doubling_overflows, Hnco.factory_unchecked."
  },
  {
   "property": "C82",
   "status": "proved",
   "theorems": [
    "Hnco.factory_saved_vectors",
    "Hnco.factory_saved_partition",
    "Hnco.factory_saved_walsh",
    "Hnco.factory_saved_walsh2",
    "Hnco.factory_saved_ising1",
    "Hnco.factory_saved_ising2",
    "Hnco.factory_saved_nk",
    "Hnco.factory_text_sat",
    "Hnco.factory_text_qubo",
    "Hnco.factory_text_sudoku",
    "Hnco.ffgen_hnco_linear",
    "Hnco.ffgen_hnco_vectors",
    "Hnco.ffgen_hnco_nk",
    "Hnco.ffgen_hnco_walsh",
    "Hnco.ffgen_hnco_walsh2",
    "Hnco.ffgen_hnco_ising1",
    "Hnco.ffgen_hnco_ising2",
    "Hnco.ffgen_hnco_maxSat",
    "Hnco.ffgen_hnco_sudoku"
   ],
   "note": ""
  },
  {
   "property": "C83",
   "status": "proved",
   "theorems": [
    "Hnco.makeTsp_value",
    "Hnco.makeTsp_no_coordinates",
    "Hnco.tspLoad_file",
    "Hnco.tspLoad_refuses",
    "Hnco.tspLoad_no_dimension",
    "Hnco.tspLoad_no_coordinates",
    "Hnco.tspText_isTspFile",
    "Hnco.tspLoad_text",
    "Hnco.tspLoad_missing_city",
    "Hnco.tspLoad_wrong_index",
    "Hnco.tspLoad_no_colon"
   ],
   "note": "Negative results, false of the code as it is: Hnco.makeTsp_no_coordinates, Hnco.tspLoad_no_dimension, Hnco.tspLoad_no_coordinates, Hnco.tspLoad_missing_city, Hnco.tspLoad_wrong_index, Hnco.tspLoad_no_colon."
  },
  {
   "property": "C84",
   "status": "proved",
   "theorems": [
    "Hnco.randomSearch_evaluations",
    "Hnco.randomWalk_evaluations",
    "Hnco.randomLocalSearch_evaluations",
    "Hnco.randomLocalSearch_evaluations_le",
    "Hnco.onePlusOneEa_evaluations",
    "Hnco.simulatedAnnealing_evaluations",
    "Hnco.selfAdjusting_evaluations",
    "Hnco.muCommaLambda_evaluations",
    "Hnco.muPlusLambda_evaluations",
    "Hnco.geneticAlgorithm_evaluations",
    "Hnco.twoRate_evaluations",
    "Hnco.lambda_evaluations",
    "Hnco.itEa_evaluations",
    "Hnco.compactGa_evaluations",
    "Hnco.mmas_evaluations",
    "Hnco.pbil_evaluations",
    "Hnco.npsPbil_evaluations",
    "Hnco.umda_evaluations",
    "Hnco.mimic_evaluations",
    "Hnco.hea_evaluations",
    "Hnco.bm_evaluations",
    "Hnco.ramUmda_evaluations",
    "Hnco.ramUmda2_evaluations",
    "Hnco.makeAlgorithm_uninterrupted",
    "Hnco.makeAlgorithm_uses_budget",
    "Hnco.human_evaluations"
   ],
   "note": ""
  },
  {
   "property": "C85",
   "status": "partial",
   "theorems": [
    "Hnco.makeAlgorithm_interrupted",
    "Hnco.makeAlgorithm_uninterrupted",
    "Hnco.makeAlgorithm_uses_budget",
    "Hnco.makeAlgorithm_complete_search",
    "Hnco.makeAlgorithm_hill_climbing",
    "Hnco.makeAlgorithm_refuses",
    "Hnco.makeAlgorithm_size_zero",
    "Hnco.makeAlgorithm_lambda_partial",
    "Hnco.lambda_option_ignored",
    "Hnco.lambda_default_undefined",
    "Hnco.tournament_refused_in_run",
    "Hnco.default_accepted",
    "Hnco.makeAlgorithm_ok"
   ],
   "note": "Proved for all algorithms of the library but the (1+(lambda, lambda)) genetic algorithm, for which makeAlgorithm_lambda_partial excludes undefined behaviour and compares with the crossovers only (the full claim is false of the code). Negative results, false of the code as it is: Hnco.lambda_option_ignored, Hnco.lambda_default_undefined, Hnco.tournament_refused_in_run."
  },
  {
   "property": "C86",
   "status": "proved",
   "theorems": [
    "Hnco.makeAlgorithm_rls_path",
    "Hnco.makeAlgorithm_rls_patience",
    "Hnco.makeAlgorithm_ea_path",
    "Hnco.makeAlgorithm_self_adjusting_path",
    "Hnco.makeAlgorithm_walk_path",
    "Hnco.makeAlgorithm_annealing_path",
    "Hnco.makeAlgorithm_first_ascent_path",
    "Hnco.makeAlgorithm_rls_any_path",
    "Hnco.makeAlgorithm_ea_any_path",
    "Hnco.makeAlgorithm_walk_any_path"
   ],
   "note": ""
  },
  {
   "property": "C87",
   "status": "proved",
   "theorems": [
    "Hnco.hnco_run",
    "Hnco.hnco_maximum",
    "Hnco.hnco_complete_search",
    "Hnco.hnco_restart_report",
    "Hnco.hnco_restart_zeros",
    "Hnco.hnco_restart_first",
    "Hnco.hnco_population_value"
   ],
   "note": "Negative results, false of the code as it is: Hnco.hnco_restart_zeros, Hnco.hnco_population_value."
  },
  {
   "property": "C88",
   "status": "proved",
   "theorems": [
    "Hnco.makeAlgorithm_mu_plus_lambda_generations",
    "Hnco.makeAlgorithm_mu_comma_lambda_generations",
    "Hnco.makeAlgorithm_two_rate_generations",
    "Hnco.makeAlgorithm_genetic_generations",
    "Hnco.makeAlgorithm_mu_plus_lambda_any_generations",
    "Hnco.makeAlgorithm_mu_comma_lambda_any_generations",
    "Hnco.makeAlgorithm_two_rate_any_generations"
   ],
   "note": ""
  },
  {
   "property": "C89",
   "status": "proved",
   "theorems": [
    "Hnco.makeAlgorithm_self_adjusting_rates",
    "Hnco.makeAlgorithm_self_adjusting_any_path",
    "Hnco.self_adjusting_former_rate"
   ],
   "note": "Negative results, false of the code as it is: Hnco.self_adjusting_former_rate."
  },
  {
   "property": "C90",
   "status": "proved",
   "theorems": [
    "Hnco.options_read",
    "Hnco.options_ignore_exponent",
    "Hnco.options_read_words_as_zero",
    "Hnco.options_seed",
    "Hnco.options_same_seed",
    "Hnco.options_octal_seed"
   ],
   "note": "Negative results, false of the code as it is: Hnco.options_ignore_exponent, Hnco.options_read_words_as_zero, Hnco.options_same_seed, Hnco.options_octal_seed."
  },
  {
   "property": "C91",
   "status": "proved",
   "theorems": [
    "Hnco.options_accepted_iff",
    "Hnco.options_refused"
   ],
   "note": ""
  },
  {
   "property": "C92",
   "status": "proved",
   "theorems": [
    "Hnco.options_reprinted",
    "Hnco.options_replayed",
    "Hnco.options_replay_rounds"
   ],
   "note": "Negative results, false of the code as it is: Hnco.options_replay_rounds."
  },
  {
   "property": "C93",
   "status": "proved",
   "theorems": [
    "Hnco.walshTransform_report",
    "Hnco.walshTransform_interrupted",
    "Hnco.walshTransform_constant",
    "Hnco.information_answers",
    "Hnco.information_sound"
   ],
   "note": "Negative results, false of the code as it is: Hnco.walshTransform_interrupted, Hnco.walshTransform_constant."
  },
  {
   "property": "C94",
   "status": "proved",
   "theorems": [
    "Hnco.hnco_onemax",
    "Hnco.hnco_onemax_complete",
    "Hnco.hnco_no_option",
    "Hnco.hnco_function_five",
    "Hnco.hnco_information",
    "Hnco.hnco_onemax_maximum",
    "Hnco.hnco_options",
    "Hnco.hnco_statuses",
    "Hnco.hnco_program",
    "Hnco.hnco_complete",
    "Hnco.hnco_load",
    "Hnco.hnco_minimize_maximum",
    "Hnco.hnco_missing_file",
    "Hnco.hnco_doubling_undefined"
   ],
   "note": "Negative results, false of the code as it is: Hnco.hnco_function_five, Hnco.hnco_minimize_maximum, Hnco.hnco_doubling_undefined."
  },
  {
   "property": "C95",
   "status": "proved",
   "theorems": [
    "Hnco.hncoMo_double",
    "Hnco.hncoMo_long",
    "Hnco.hncoMo_complex",
    "Hnco.hncoMo_int",
    "Hnco.hncoMo_mixed",
    "Hnco.hncoMo_parameters",
    "Hnco.hncoMo_unknown",
    "Hnco.hncoMo_terminated"
   ],
   "note": "Negative results, false of the code as it is: Hnco.hncoMo_unknown, Hnco.hncoMo_terminated."
  },
  {
   "property": "C96",
   "status": "proved",
   "theorems": [
    "Hnco.ffgen_program_linear",
    "Hnco.ffgen_program_products",
    "Hnco.ffgen_program_walsh1",
    "Hnco.ffgen_program_partition",
    "Hnco.ffgen_program_nk",
    "Hnco.ffgen_program_walsh",
    "Hnco.ffgen_program_walsh2",
    "Hnco.ffgen_program_ising1",
    "Hnco.ffgen_program_ising2",
    "Hnco.ffgen_program_maxSat",
    "Hnco.ffgen_program_sudoku",
    "Hnco.ffgen_program_unknown",
    "Hnco.ffgen_program_ends",
    "Hnco.ffgen_planted_negative",
    "Hnco.ffgen_command",
    "Hnco.ffgen_then_hnco",
    "Hnco.mapgen_program",
    "Hnco.mapgen_unknown",
    "Hnco.mapgen_refused",
    "Hnco.mapgen_unknown_mode",
    "Hnco.mapgen_unwritable",
    "Hnco.partition_words"
   ],
   "note": "Negative results, false of the code as it is: Hnco.ffgen_planted_negative, Hnco.mapgen_unwritable."
  },
  {
   "property": "C97",
   "status": "proved",
   "theorems": [
    "Hnco.Tests.bmSwapRowsTest_ends",
    "Hnco.Tests.bmRankTest_ends",
    "Hnco.Tests.bmIdentityTest_ends",
    "Hnco.Tests.bmRowColumnRankTest_ends",
    "Hnco.Tests.bvToSizeTypeTest_ends",
    "Hnco.Tests.bvFromStreamTest_ends",
    "Hnco.Tests.translationTest_ends",
    "Hnco.Tests.injectionProjectionTest_ends",
    "Hnco.Tests.tsCommutingTest_ends",
    "Hnco.Tests.tsCommutingInvolutionTest_ends",
    "Hnco.Tests.tsDisjointTest_ends",
    "Hnco.Tests.tsDisjointInvolutionTest_ends",
    "Hnco.Tests.tsUniqueSourceTest_ends",
    "Hnco.Tests.tsUniqueDestinationTest_ends",
    "Hnco.Tests.bvRandomTest_ends",
    "Hnco.Tests.bmMultiplyTest_lives",
    "Hnco.Tests.bmAddRowsTest_lives",
    "Hnco.Tests.bmAddColumnsTest_lives",
    "Hnco.Tests.bmSolveTest_lives",
    "Hnco.Tests.bmInvertTest_lives",
    "Hnco.Tests.transvectionTest_lives",
    "Hnco.Tests.tsMultiplyTest_lives",
    "Hnco.Tests.tsNonCommutingTest_lives",
    "Hnco.Tests.tsAffineInvertTest_lives",
    "Hnco.Tests.bmMultiplyTest_succeeds",
    "Hnco.Tests.bmAddRowsTest_succeeds",
    "Hnco.Tests.bmAddColumnsTest_succeeds",
    "Hnco.Tests.bmSwapRowsTest_succeeds",
    "Hnco.Tests.bmSolveTest_succeeds",
    "Hnco.Tests.bmRankTest_succeeds",
    "Hnco.Tests.bmInvertTest_succeeds",
    "Hnco.Tests.bmIdentityTest_succeeds",
    "Hnco.Tests.bmRowColumnRankTest_succeeds",
    "Hnco.Tests.bvToSizeTypeTest_succeeds",
    "Hnco.Tests.bvFromStreamTest_succeeds",
    "Hnco.Tests.bvRandomTest_succeeds",
    "Hnco.Tests.translationTest_succeeds",
    "Hnco.Tests.injectionProjectionTest_succeeds",
    "Hnco.Tests.transvectionTest_succeeds",
    "Hnco.Tests.tsMultiplyTest_succeeds",
    "Hnco.Tests.tsCommutingTest_succeeds",
    "Hnco.Tests.tsCommutingInvolutionTest_succeeds",
    "Hnco.Tests.tsDisjointTest_succeeds",
    "Hnco.Tests.tsDisjointInvolutionTest_succeeds",
    "Hnco.Tests.tsUniqueSourceTest_succeeds",
    "Hnco.Tests.tsUniqueDestinationTest_succeeds",
    "Hnco.Tests.tsNonCommutingTest_succeeds",
    "Hnco.Tests.tsAffineInvertTest_succeeds"
   ],
   "note": ""
  },
  {
   "property": "C98",
   "status": "proved",
   "theorems": [
    "Hnco.Tests.searchOneMax_ends",
    "Hnco.Tests.searchLeadingOnes_ends",
    "Hnco.Tests.searchNeedle_ends",
    "Hnco.Tests.searchRidge_ends",
    "Hnco.Tests.searchPlateau_ends",
    "Hnco.Tests.searchHiff_ends",
    "Hnco.Tests.searchJump_ends",
    "Hnco.Tests.searchDeceptiveJump_ends",
    "Hnco.Tests.searchTrap_ends",
    "Hnco.Tests.searchFourPeaks_ends",
    "Hnco.Tests.searchSixPeaks_ends",
    "Hnco.Tests.searchLongPath_ends",
    "Hnco.Tests.searchLinear_ends",
    "Hnco.Tests.searchWalsh1_ends",
    "Hnco.Tests.searchFactorization_ends",
    "Hnco.Tests.searchMaxSat_ends"
   ],
   "note": ""
  },
  {
   "property": "C99",
   "status": "proved",
   "theorems": [
    "Hnco.Tests.hypercubeTest_ends",
    "Hnco.Tests.singleBitFlipTest_ends",
    "Hnco.Tests.hammingSphereIteratorTest_ends",
    "Hnco.Tests.hammingSphereTest_succeeds",
    "Hnco.Tests.firstAscentTest_ends",
    "Hnco.Tests.steepestAscentTest_ends",
    "Hnco.Tests.firstAscentLocalTest_ends",
    "Hnco.Tests.steepestAscentLocalTest_ends",
    "Hnco.Tests.hammingSphereTest_lives"
   ],
   "note": ""
  },
  {
   "property": "C100",
   "status": "proved",
   "theorems": [
    "Hnco.Tests.incrementalOneMaxTest_lives",
    "Hnco.Tests.incrementalSingleBitFlipTest_lives",
    "Hnco.Tests.incrementalHammingBallTest_lives",
    "Hnco.Tests.incrementalHammingSphereTest_lives",
    "Hnco.Tests.incrementalOppositeTest_lives",
    "Hnco.Tests.incrementalLinearTest_lives",
    "Hnco.Tests.incrementalWalsh1Test_lives",
    "Hnco.Tests.incrementalIsing1Test_lives",
    "Hnco.Tests.incrementalIsing2Test_lives"
   ],
   "note": ""
  },
  {
   "property": "C101",
   "status": "proved",
   "theorems": [
    "Hnco.Tests.serializeLinearTest_ends",
    "Hnco.Tests.serializeWalsh1Test_ends",
    "Hnco.Tests.serializeEqualProductsTest_ends",
    "Hnco.Tests.serializeNkTest_ends",
    "Hnco.Tests.serializeIsing1Test_ends",
    "Hnco.Tests.serializeIsing2Test_ends",
    "Hnco.Tests.serializeWalshTest_ends",
    "Hnco.Tests.serializeWalsh2Test_ends",
    "Hnco.Tests.serializePartitionTest_ends",
    "Hnco.Tests.serializeMaxSatTest_ends",
    "Hnco.Tests.serializeTranslationTest_ends",
    "Hnco.Tests.serializePermutationTest_ends",
    "Hnco.Tests.serializeLinearMapTest_ends",
    "Hnco.Tests.serializeAffineMapTest_ends",
    "Hnco.Tests.serializeTsAffineMapTest_lives",
    "Hnco.Tests.serializeMapCompositionTest_ends"
   ],
   "note": ""
  },
  {
   "property": "C102",
   "status": "proved",
   "theorems": [
    "Hnco.Tests.momentAddTest_ends",
    "Hnco.Tests.herdingTest_ends",
    "Hnco.Tests.walshTransformTest_ends",
    "Hnco.Tests.paretoTest_ends",
    "Hnco.Tests.parallelTest_ends"
   ],
   "note": ""
  },
  {
   "property": "C103",
   "status": "proved",
   "theorems": [
    "Hnco.Tests.onePlusOneEaTest_succeeds",
    "Hnco.Tests.dyadicIntegerTest_lives",
    "Hnco.Tests.dyadicIntegerTest_status",
    "Hnco.Tests.dyadicIntegerTest_overflows",
    "Hnco.Tests.dyadicFloatTest_ends"
   ],
   "note": ""
  },
  {
   "property": "C104",
   "status": "proved",
   "theorems": [
    "Hnco.hnco_onemax_map",
    "Hnco.hnco_map_words_unknown",
    "Hnco.hnco_map_words_one_bit",
    "Hnco.hnco_map_random",
    "Hnco.hnco_map_loaded",
    "Hnco.hnco_map_complete",
    "Hnco.hnco_map_loaded_complete",
    "Hnco.mapgen_then_hnco",
    "Hnco.hnco_map_refused",
    "Hnco.hnco_map_one_bit",
    "Hnco.hnco_map_described"
   ],
   "note": "Negative results, false of the code as it is: Hnco.hnco_map_words_one_bit, Hnco.hnco_map_one_bit, Hnco.hnco_map_described."
  },
  {
   "property": "C105",
   "status": "proved",
   "theorems": [
    "Hnco.Examples.myFunction_program",
    "Hnco.Examples.myFunction_maximum",
    "Hnco.Examples.myFunction_size",
    "Hnco.Examples.myAlgorithm_program",
    "Hnco.Examples.myAlgorithm_endless",
    "Hnco.Examples.universal_less",
    "Hnco.Examples.myAlgorithm_budget",
    "Hnco.Examples.myAlgorithm_no_budget",
    "Hnco.Examples.examples_rate",
    "Hnco.Examples.basic_prints",
    "Hnco.Examples.custom_prints",
    "Hnco.Examples.onBudgetFunction_prints",
    "Hnco.Examples.onBudgetFunction_late",
    "Hnco.Examples.stopOnMaximum_prints",
    "Hnco.Examples.onBudgetFunction_misses"
   ],
   "note": "Negative results, false of the code as it is: Hnco.Examples.myFunction_maximum, Hnco.Examples.myFunction_size, Hnco.Examples.myAlgorithm_no_budget, Hnco.Examples.onBudgetFunction_misses."
  },
  {
   "property": "C106",
   "status": "proved",
   "theorems": [
    "Hnco.FParser.parse_iff_derives",
    "Hnco.FParser.program_unambiguous",
    "Hnco.FParser.parse_decides",
    "Hnco.FParser.parse_text",
    "Hnco.FParser.definition_accepted"
   ],
   "note": "Negative results, false of the code as it is: Hnco.FParser.definition_accepted."
  },
  {
   "property": "C107",
   "status": "proved",
   "theorems": [
    "Hnco.FParser.code_computes_value",
    "Hnco.FParser.text_computes_value",
    "Hnco.FParser.plainEmitter_right",
    "Hnco.FParser.compilePowi_computes",
    "Hnco.FParser.division_by_zero_unnoticed",
    "Hnco.FParser.error_gives_zero"
   ],
   "note": "Negative results, false of the code as it is: Hnco.FParser.division_by_zero_unnoticed, Hnco.FParser.error_gives_zero."
  },
  {
   "property": "C108",
   "status": "proved",
   "theorems": [
    "Hnco.FParser.rule_right",
    "Hnco.FParser.rule_right_exact",
    "Hnco.FParser.optimizations_right",
    "Hnco.FParser.optimized_code_computes_value",
    "Hnco.FParser.optimized_code_computes_value_exact",
    "Hnco.FParser.wrong_rules",
    "Hnco.FParser.tolerance_rules",
    "Hnco.FParser.tolerance_matters",
    "Hnco.FParser.sum_of_negations"
   ],
   "note": "With eleven wrong rules, which are listed, and proved to be wrong. Negative results, false of the code as it is: Hnco.FParser.wrong_rules, Hnco.FParser.tolerance_rules, Hnco.FParser.tolerance_matters, Hnco.FParser.sum_of_negations."
  },
  {
   "property": "C109",
   "status": "proved",
   "theorems": [
    "Hnco.FParser.deduce_iff",
    "Hnco.FParser.deduce_complete",
    "Hnco.FParser.deduce_refuses",
    "Hnco.FParser.meaning_unique",
    "Hnco.FParser.parsed_function",
    "Hnco.FParser.parsed_function_refused",
    "Hnco.FParser.moParser_function",
    "Hnco.FParser.parsed_modifier",
    "Hnco.FParser.misplaced_error",
    "Hnco.FParser.invalid_names_accepted",
    "Hnco.FParser.modifier_without_constants",
    "Hnco.FParser.accepted_names",
    "Hnco.FParser.accepted_constant"
   ],
   "note": "Negative results, false of the code as it is: Hnco.FParser.misplaced_error, Hnco.FParser.invalid_names_accepted, Hnco.FParser.modifier_without_constants."
  },
  {
   "property": "C110",
   "status": "proved",
   "theorems": [
    "Hnco.Prob.coin_uniform",
    "Hnco.Prob.singleBitFlip_law",
    "Hnco.Prob.hammingSphere_law",
    "Hnco.Prob.hammingBall_law",
    "Hnco.Prob.standardBitMutation_law",
    "Hnco.Prob.standardBitMutation_allowed",
    "Hnco.Prob.standardBitMutation_never_none",
    "Hnco.Prob.standardBitMutation_never_none_example",
    "Hnco.Prob.hammingSphere_ends",
    "Hnco.Prob.standardBitMutation_ends",
    "Hnco.Prob.standardBitMutation_zero",
    "Hnco.Prob.law_reached",
    "Hnco.Prob.bvRandomBits_law",
    "Hnco.Prob.bvRandom_uniform",
    "Hnco.Prob.pvSample_law",
    "Hnco.Prob.biasedCrossover_law",
    "Hnco.Prob.uniformCrossover_law",
    "Hnco.Prob.tvRandom_law",
    "Hnco.Prob.tvRandomNonCommuting_law",
    "Hnco.Prob.linearRandom_uniform",
    "Hnco.Prob.linearRandom_surjective_law",
    "Hnco.Prob.uniformSelection_law",
    "Hnco.Prob.fitnessProportionate_law",
    "Hnco.Prob.boltzmannSelection_law",
    "Hnco.Prob.boltzmannSelection_negative",
    "Hnco.Prob.bitRandom_law"
   ],
   "note": "Negative results, false of the code as it is: Hnco.Prob.standardBitMutation_never_none, Hnco.Prob.standardBitMutation_never_none_example, Hnco.Prob.standardBitMutation_zero, Hnco.Prob.boltzmannSelection_negative."
  },
  {
   "property": "C111",
   "status": "proved",
   "theorems": [
    "Hnco.Prob.rls_after",
    "Hnco.Prob.rls_endless",
    "Hnco.Prob.ea_start",
    "Hnco.Prob.ea_mutation",
    "Hnco.Prob.ea_converges",
    "Hnco.Prob.ea_expected",
    "Hnco.Prob.ea_default",
    "Hnco.Prob.ea_finds",
    "Hnco.Prob.ea_oneMax",
    "Hnco.Prob.rls_oneMax",
    "Hnco.Prob.rls_oneMax_random",
    "Hnco.Prob.rls_trapped",
    "Hnco.Prob.rls_trap",
    "Hnco.Prob.randomSearch_law",
    "Hnco.Prob.ea_leadingOnes"
   ],
   "note": "Negative results, false of the code as it is: Hnco.Prob.rls_endless, Hnco.Prob.rls_trapped, Hnco.Prob.rls_trap."
  },
  {
   "property": "C112",
   "status": "proved",
   "theorems": [
    "Hnco.Prob.synchronous_not_stationary",
    "Hnco.Prob.neighborhoods_sample",
    "Hnco.Prob.walk_step",
    "Hnco.Prob.walk_uniform",
    "Hnco.Prob.walk_parity",
    "Hnco.Prob.annealing_step",
    "Hnco.Prob.annealing_cools",
    "Hnco.Prob.annealing_boltzmann",
    "Hnco.Prob.annealing_converges",
    "Hnco.Prob.boltzmann_maxima",
    "Hnco.Prob.gibbs_step",
    "Hnco.Prob.gibbs_stationary",
    "Hnco.Prob.asynchronous_stationary",
    "Hnco.Prob.fullScan_stationary",
    "Hnco.Prob.fullScan_converges",
    "Hnco.Prob.asynchronous_converges",
    "Hnco.Prob.standard_positive"
   ],
   "note": "Negative results, false of the code as it is: Hnco.Prob.synchronous_not_stationary."
  },
  {
   "property": "C113",
   "status": "proved",
   "theorems": [
    "Hnco.Prob.muPlusLambda_converges",
    "Hnco.Prob.muCommaLambda_converges",
    "Hnco.Prob.geneticAlgorithm_converges",
    "Hnco.Prob.vectors_find",
    "Hnco.Prob.populations_find",
    "Hnco.Prob.margins_sample",
    "Hnco.Prob.compactGa_converges",
    "Hnco.Prob.mmas_converges",
    "Hnco.Prob.mmas_single",
    "Hnco.Prob.pbil_converges",
    "Hnco.Prob.umda_converges",
    "Hnco.Prob.npsPbil_random"
   ],
   "note": "Negative results, false of the code as it is: Hnco.Prob.mmas_single, Hnco.Prob.npsPbil_random."
  },
  {
   "property": "C114",
   "status": "proved",
   "theorems": [
    "Hnco.Prob.twoRate_converges",
    "Hnco.Prob.twoRate_undefined",
    "Hnco.Prob.adjust_converges",
    "Hnco.Prob.adjust_value",
    "Hnco.Prob.adjustDefault_valid",
    "Hnco.Prob.adaptive_find"
   ],
   "note": "Negative results, false of the code as it is: Hnco.Prob.twoRate_undefined."
  },
  {
   "property": "C115",
   "status": "proved",
   "theorems": [
    "Hnco.Prob.muPlusLambda_possible",
    "Hnco.Prob.muCommaLambda_possible",
    "Hnco.Prob.geneticAlgorithm_possible",
    "Hnco.Prob.compactGa_possible",
    "Hnco.Prob.mmas_possible",
    "Hnco.Prob.pbil_possible",
    "Hnco.Prob.npsPbil_possible",
    "Hnco.Prob.umda_possible",
    "Hnco.Prob.randomSearch_possible",
    "Hnco.Prob.randomLocalSearch_possible",
    "Hnco.Prob.onePlusOneEa_possible"
   ],
   "note": ""
  },
  {
   "property": "C116",
   "status": "proved",
   "theorems": [
    "Hnco.Prob.maxSatRandom_law",
    "Hnco.Prob.maxSatPlanted_law",
    "Hnco.Prob.planted_biased",
    "Hnco.Prob.nkStructure_law",
    "Hnco.Prob.partitionRandom_law",
    "Hnco.Prob.walshFeatures_law",
    "Hnco.Prob.maxSatRandom_mean"
   ],
   "note": ""
  },
  {
   "property": "C117",
   "status": "proved",
   "theorems": [
    "Hnco.Prob.tournament_last_uniform",
    "Hnco.Prob.tournament_periodic",
    "Hnco.Prob.tournament_no_pressure",
    "Hnco.Prob.tournament_law",
    "Hnco.Prob.tournament_best",
    "Hnco.Prob.tournament_worst",
    "Hnco.Prob.tournament_pass",
    "Hnco.Prob.tournament_choices"
   ],
   "note": ""
  },
  {
   "property": "C118",
   "status": "proved",
   "theorems": [
    "Hnco.Prob.restart_miss",
    "Hnco.Prob.restart_time",
    "Hnco.Prob.restart_converges",
    "Hnco.Prob.restart_indefinite",
    "Hnco.Prob.rls_runs",
    "Hnco.Prob.rls_miss_le",
    "Hnco.Prob.restart_rls"
   ],
   "note": ""
  },
  {
   "property": "C119",
   "status": "proved",
   "theorems": [
    "Hnco.Prob.tsAffineRandom_image",
    "Hnco.Prob.affineRandom_image",
    "Hnco.Prob.translationRandom_image",
    "Hnco.Prob.permutationRandom_image",
    "Hnco.Prob.tsRandom_law",
    "Hnco.Prob.tsRandomUniqueSource_law",
    "Hnco.Prob.tsRandomUniqueDestination_law",
    "Hnco.Prob.tsRandomDisjoint_law",
    "Hnco.Prob.tsRandomNonCommuting_law",
    "Hnco.Prob.tsRandomCommuting_law",
    "Hnco.Prob.tsRandomCommuting_biased"
   ],
   "note": "Negative results, false of the code as it is: Hnco.Prob.tsRandomCommuting_biased."
  },
  {
   "property": "C120",
   "status": "proved",
   "theorems": [
    "Hnco.Prob.singleBitFlip_fair",
    "Hnco.Prob.hammingSphere_fair",
    "Hnco.Prob.hammingBall_fair",
    "Hnco.Prob.standardBitMutation_fair",
    "Hnco.Prob.randomSearch_unbiased",
    "Hnco.Prob.randomLocalSearch_unbiased",
    "Hnco.Prob.onePlusOneEa_unbiased",
    "Hnco.Prob.randomWalk_unbiased",
    "Hnco.Prob.annealing_unbiased"
   ],
   "note": ""
  },
  {
   "property": "C121",
   "status": "proved",
   "theorems": [
    "Hnco.Prob.pbil_unbiased",
    "Hnco.Prob.npsPbil_unbiased",
    "Hnco.Prob.umda_unbiased",
    "Hnco.Prob.muPlusLambdaEa_unbiased",
    "Hnco.Prob.muCommaLambdaEa_unbiased",
    "Hnco.Prob.geneticAlgorithm_unbiased",
    "Hnco.Prob.compactGa_unbiased",
    "Hnco.Prob.mmas_unbiased",
    "Hnco.Prob.mmas_biased"
   ],
   "note": "Negative results, false of the code as it is: Hnco.Prob.mmas_biased."
  },
  {
   "property": "C122",
   "status": "proved",
   "theorems": [
    "Hnco.Prob.Unbiased.image",
    "Hnco.Prob.Unbiased.invariant",
    "Hnco.Prob.Unbiased.unitation",
    "Hnco.Prob.Unbiased.constant",
    "Hnco.Prob.Unbiased.uniform",
    "Hnco.Prob.Unbiased.misses",
    "Hnco.Prob.Unbiased.time",
    "Hnco.Prob.unbiased_randomSearch",
    "Hnco.Prob.unbiased_randomLocalSearch",
    "Hnco.Prob.unbiased_onePlusOneEa",
    "Hnco.Prob.unbiased_compactGa",
    "Hnco.Prob.unbiased_mmas",
    "Hnco.Prob.unbiased_pbil",
    "Hnco.Prob.unbiased_npsPbil",
    "Hnco.Prob.unbiased_umda",
    "Hnco.Prob.unbiased_muPlusLambdaEa",
    "Hnco.Prob.unbiased_muCommaLambdaEa",
    "Hnco.Prob.unbiased_geneticAlgorithm",
    "Hnco.Prob.Unbiased.target",
    "Hnco.Prob.rls_target",
    "Hnco.Prob.ea_target"
   ],
   "note": ""
  },
  {
   "property": "C123",
   "status": "proved",
   "theorems": [
    "Hnco.Prob.twoRateEa_unbiased",
    "Hnco.Prob.adjustEa_unbiased",
    "Hnco.Prob.adjustEa_default_unbiased"
   ],
   "note": ""
  },
  {
   "property": "C124",
   "status": "proved",
   "theorems": [
    "Hnco.matrixSymmetric_iff",
    "Hnco.matrixStrictlyLower_iff",
    "Hnco.matrixDiagonal_iff",
    "Hnco.matrixRange_iff",
    "Hnco.matrixRange_symmetric",
    "Hnco.matrixDominant_always",
    "Hnco.matrixRange_above"
   ],
   "note": "Negative results, false of the code as it is: Hnco.matrixDominant_always, Hnco.matrixRange_above."
  },
  {
   "property": "C125",
   "status": "proved",
   "theorems": [
    "Hnco.Prob.noise_walsh_allowed",
    "Hnco.Prob.noise_walsh_some",
    "Hnco.Prob.noise_walsh_single",
    "Hnco.Prob.noise_oneMax_allowed",
    "Hnco.Prob.noise_oneMax_single",
    "Hnco.Prob.noise_oneMax_law",
    "Hnco.Prob.noise_maximum_hidden",
    "Hnco.Prob.noise_maximum_neighbors"
   ],
   "note": "Negative results, false of the code as it is: Hnco.Prob.noise_maximum_hidden, Hnco.Prob.noise_maximum_neighbors."
  },
  {
   "property": "C126",
   "status": "proved",
   "theorems": [
    "Hnco.Prob.initBeta_law",
    "Hnco.Prob.beta_fits",
    "Hnco.Prob.beta_nan",
    "Hnco.Prob.beta_nan_ge",
    "Hnco.Prob.beta_nan_needle",
    "Hnco.Prob.fullSaInit_starts",
    "Hnco.Prob.fullSa_number",
    "Hnco.Prob.nan_climbs",
    "Hnco.Prob.annealing_scale"
   ],
   "note": "Negative results, false of the code as it is: Hnco.Prob.beta_nan, Hnco.Prob.beta_nan_ge, Hnco.Prob.beta_nan_needle, Hnco.Prob.nan_climbs."
  },
  {
   "property": "C127",
   "status": "proved",
   "theorems": [
    "Hnco.Prob.muPlusLambdaEa_order",
    "Hnco.Prob.muCommaLambdaEa_order",
    "Hnco.Prob.geneticAlgorithm_order",
    "Hnco.Prob.randomSearch_order",
    "Hnco.Prob.randomLocalSearch_order",
    "Hnco.Prob.onePlusOneEa_order",
    "Hnco.Prob.randomWalk_order",
    "Hnco.Prob.adjustEa_order",
    "Hnco.Prob.compactGa_order",
    "Hnco.Prob.mmas_order",
    "Hnco.Prob.pbil_order",
    "Hnco.Prob.npsPbil_order",
    "Hnco.Prob.umda_order",
    "Hnco.Prob.twoRateEa_order",
    "Hnco.Prob.search_sameOrder",
    "Hnco.Prob.ea_sameOrder",
    "Hnco.Prob.ea_countsOnes",
    "Hnco.Prob.rls_countsOnes",
    "Hnco.Prob.ea_leads"
   ],
   "note": ""
  }
 ]
}