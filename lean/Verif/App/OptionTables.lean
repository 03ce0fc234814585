import Verif.App.Options

/-!
# The options of the programs

The tables of the classes `HncoOptions`, `hnco::multiobjective::app::HncoOptions`, `FfgenOptions` and `MapgenOptions`.  Written
by `tools/options.py` from the source: one row for each row, member, case, getter or line in the source.
-/

namespace Hnco


/-! ## `HncoOptions` -/

/-- `long_options` (`lib/hnco/app/hnco-options.cc:14-152`); the value of an enumerator (`lib/hnco/app/hnco-options.hh:20-157`) is a number. -/
def hncoLongOptions : List LongOption := [
  ⟨"algorithm".toList, true, 272⟩,
  ⟨"bm-num-gs-cycles".toList, true, 273⟩,
  ⟨"bm-num-gs-steps".toList, true, 274⟩,
  ⟨"bm-reset-mode".toList, true, 275⟩,
  ⟨"bm-sampling-mode".toList, true, 276⟩,
  ⟨"budget".toList, true, 277⟩,
  ⟨"bv-size".toList, true, 278⟩,
  ⟨"description-path".toList, true, 279⟩,
  ⟨"ea-crossover-bias".toList, true, 280⟩,
  ⟨"ea-crossover-probability".toList, true, 281⟩,
  ⟨"ea-it-initial-hamming-weight".toList, true, 282⟩,
  ⟨"ea-it-replacement".toList, true, 283⟩,
  ⟨"ea-lambda".toList, true, 284⟩,
  ⟨"ea-mu".toList, true, 285⟩,
  ⟨"ea-mutation-rate".toList, true, 286⟩,
  ⟨"ea-mutation-rate-max".toList, true, 287⟩,
  ⟨"ea-mutation-rate-min".toList, true, 288⟩,
  ⟨"ea-success-ratio".toList, true, 289⟩,
  ⟨"ea-tournament-size".toList, true, 290⟩,
  ⟨"ea-update-strength".toList, true, 291⟩,
  ⟨"expression".toList, true, 292⟩,
  ⟨"fn-name".toList, true, 293⟩,
  ⟨"fn-num-traps".toList, true, 294⟩,
  ⟨"fn-prefix-length".toList, true, 295⟩,
  ⟨"fn-threshold".toList, true, 296⟩,
  ⟨"fp-default-double-precision".toList, true, 297⟩,
  ⟨"fp-default-double-rep".toList, true, 298⟩,
  ⟨"fp-default-double-size".toList, true, 299⟩,
  ⟨"fp-default-int-rep".toList, true, 300⟩,
  ⟨"fp-default-long-rep".toList, true, 301⟩,
  ⟨"fp-expression".toList, true, 302⟩,
  ⟨"fp-representations".toList, true, 303⟩,
  ⟨"fp-representations-path".toList, true, 304⟩,
  ⟨"function".toList, true, 305⟩,
  ⟨"hea-bound-moment".toList, true, 306⟩,
  ⟨"hea-randomize-bit-order".toList, true, 307⟩,
  ⟨"hea-reset-period".toList, true, 308⟩,
  ⟨"learning-rate".toList, true, 309⟩,
  ⟨"map".toList, true, 310⟩,
  ⟨"map-input-size".toList, true, 311⟩,
  ⟨"map-path".toList, true, 312⟩,
  ⟨"map-ts-length".toList, true, 313⟩,
  ⟨"map-ts-sampling-mode".toList, true, 314⟩,
  ⟨"neighborhood".toList, true, 315⟩,
  ⟨"neighborhood-iterator".toList, true, 316⟩,
  ⟨"noise-stddev".toList, true, 317⟩,
  ⟨"num-iterations".toList, true, 318⟩,
  ⟨"num-threads".toList, true, 319⟩,
  ⟨"path".toList, true, 320⟩,
  ⟨"pn-mutation-rate".toList, true, 321⟩,
  ⟨"pn-neighborhood".toList, true, 322⟩,
  ⟨"pn-radius".toList, true, 323⟩,
  ⟨"population-size".toList, true, 324⟩,
  ⟨"pv-log-num-components".toList, true, 325⟩,
  ⟨"radius".toList, true, 326⟩,
  ⟨"ram-crossover-probability".toList, true, 327⟩,
  ⟨"ram-latent-space-probability".toList, true, 328⟩,
  ⟨"ram-ts-length".toList, true, 329⟩,
  ⟨"ram-ts-length-distribution-parameter".toList, true, 330⟩,
  ⟨"ram-ts-length-increment-period".toList, true, 331⟩,
  ⟨"ram-ts-length-lower-bound".toList, true, 332⟩,
  ⟨"ram-ts-length-mode".toList, true, 333⟩,
  ⟨"ram-ts-length-upper-bound".toList, true, 334⟩,
  ⟨"rep-categorical-representation".toList, true, 335⟩,
  ⟨"rep-num-additional-bits".toList, true, 336⟩,
  ⟨"results-path".toList, true, 337⟩,
  ⟨"rls-patience".toList, true, 338⟩,
  ⟨"sa-beta-ratio".toList, true, 339⟩,
  ⟨"sa-initial-acceptance-probability".toList, true, 340⟩,
  ⟨"sa-num-transitions".toList, true, 341⟩,
  ⟨"sa-num-trials".toList, true, 342⟩,
  ⟨"seed".toList, true, 343⟩,
  ⟨"selection-size".toList, true, 344⟩,
  ⟨"solution-path".toList, true, 345⟩,
  ⟨"target".toList, true, 346⟩,
  ⟨"additive-gaussian-noise".toList, false, 347⟩,
  ⟨"bm-log-norm-1".toList, false, 348⟩,
  ⟨"bm-log-norm-infinite".toList, false, 349⟩,
  ⟨"bm-negative-positive-selection".toList, false, 350⟩,
  ⟨"cache".toList, false, 351⟩,
  ⟨"cache-budget".toList, false, 352⟩,
  ⟨"concrete-solution".toList, false, 353⟩,
  ⟨"ea-allow-no-mutation".toList, false, 354⟩,
  ⟨"ea-it-log-center-fitness".toList, false, 355⟩,
  ⟨"ea-log-mutation-rate".toList, false, 356⟩,
  ⟨"fn-display".toList, false, 357⟩,
  ⟨"fn-get-bv-size".toList, false, 358⟩,
  ⟨"fn-get-maximum".toList, false, 359⟩,
  ⟨"fn-has-known-maximum".toList, false, 360⟩,
  ⟨"fn-provides-incremental-evaluation".toList, false, 361⟩,
  ⟨"fn-walsh-transform".toList, false, 362⟩,
  ⟨"hea-log-delta-norm".toList, false, 363⟩,
  ⟨"hea-log-herding-error".toList, false, 364⟩,
  ⟨"hea-log-target".toList, false, 365⟩,
  ⟨"hea-log-target-norm".toList, false, 366⟩,
  ⟨"incremental-evaluation".toList, false, 367⟩,
  ⟨"load-solution".toList, false, 368⟩,
  ⟨"log-improvement".toList, false, 369⟩,
  ⟨"map-display".toList, false, 370⟩,
  ⟨"map-random".toList, false, 371⟩,
  ⟨"map-surjective".toList, false, 372⟩,
  ⟨"minimize".toList, false, 373⟩,
  ⟨"mmas-strict".toList, false, 374⟩,
  ⟨"parsed-modifier".toList, false, 375⟩,
  ⟨"pn-allow-no-mutation".toList, false, 376⟩,
  ⟨"print-default-parameters".toList, false, 377⟩,
  ⟨"print-description".toList, false, 378⟩,
  ⟨"print-parameters".toList, false, 379⟩,
  ⟨"print-results".toList, false, 380⟩,
  ⟨"print-solution".toList, false, 381⟩,
  ⟨"prior-noise".toList, false, 382⟩,
  ⟨"pv-log-entropy".toList, false, 383⟩,
  ⟨"pv-log-pv".toList, false, 384⟩,
  ⟨"record-evaluation-time".toList, false, 385⟩,
  ⟨"record-total-time".toList, false, 386⟩,
  ⟨"restart".toList, false, 387⟩,
  ⟨"rls-strict".toList, false, 388⟩,
  ⟨"rw-log-value".toList, false, 389⟩,
  ⟨"save-description".toList, false, 390⟩,
  ⟨"save-results".toList, false, 391⟩,
  ⟨"save-solution".toList, false, 392⟩,
  ⟨"stop-on-maximum".toList, false, 393⟩,
  ⟨"version".toList, false, 271⟩,
  ⟨"help".toList, false, 256⟩,
  ⟨"help-fn".toList, false, 262⟩,
  ⟨"help-fp".toList, false, 263⟩,
  ⟨"help-rep".toList, false, 269⟩,
  ⟨"help-mod".toList, false, 267⟩,
  ⟨"help-ctrl".toList, false, 259⟩,
  ⟨"help-pn".toList, false, 268⟩,
  ⟨"help-map".toList, false, 266⟩,
  ⟨"help-alg".toList, false, 257⟩,
  ⟨"help-ls".toList, false, 265⟩,
  ⟨"help-sa".toList, false, 270⟩,
  ⟨"help-ea".toList, false, 260⟩,
  ⟨"help-eda".toList, false, 261⟩,
  ⟨"help-hea".toList, false, 264⟩,
  ⟨"help-bm".toList, false, 258⟩]

/-- `short_options` (`lib/hnco/app/hnco-options.cc:154`). -/
def hncoShortOptions : List Char := "A:b:s:m:t:F:l:M:N:i:p:x:y:".toList

/-- The cases of the switch (`lib/hnco/app/hnco-options.cc:161-813`). -/
def hncoCases : List (List Nat × OptAction) := [
  (['A'.toNat, 272], .assign "algorithm" "algorithm" .int),
  ([273], .assign "bm_num_gs_cycles" "bm_num_gs_cycles" .int),
  ([274], .assign "bm_num_gs_steps" "bm_num_gs_steps" .int),
  ([275], .assign "bm_reset_mode" "bm_reset_mode" .int),
  ([276], .assign "bm_sampling_mode" "bm_sampling_mode" .int),
  (['b'.toNat, 277], .assign "budget" "budget" .int),
  (['s'.toNat, 278], .assign "bv_size" "bv_size" .int),
  ([279], .assign "description_path" "description_path" .string),
  ([280], .assign "ea_crossover_bias" "ea_crossover_bias" .double),
  ([281], .assign "ea_crossover_probability" "ea_crossover_probability" .double),
  ([282], .assign "ea_it_initial_hamming_weight" "ea_it_initial_hamming_weight" .int),
  ([283], .assign "ea_it_replacement" "ea_it_replacement" .int),
  ([284], .assign "ea_lambda" "ea_lambda" .int),
  ([285], .assign "ea_mu" "ea_mu" .int),
  (['m'.toNat, 286], .assign "ea_mutation_rate" "ea_mutation_rate" .double),
  ([287], .assign "ea_mutation_rate_max" "ea_mutation_rate_max" .double),
  ([288], .assign "ea_mutation_rate_min" "ea_mutation_rate_min" .double),
  ([289], .assign "ea_success_ratio" "ea_success_ratio" .double),
  ([290], .assign "ea_tournament_size" "ea_tournament_size" .int),
  ([291], .assign "ea_update_strength" "ea_update_strength" .double),
  ([292], .assign "expression" "expression" .string),
  ([293], .assign "fn_name" "fn_name" .string),
  ([294], .assign "fn_num_traps" "fn_num_traps" .int),
  ([295], .assign "fn_prefix_length" "fn_prefix_length" .int),
  (['t'.toNat, 296], .assign "fn_threshold" "fn_threshold" .int),
  ([297], .assign "fp_default_double_precision" "fp_default_double_precision" .double),
  ([298], .assign "fp_default_double_rep" "fp_default_double_rep" .string),
  ([299], .assign "fp_default_double_size" "fp_default_double_size" .int),
  ([300], .assign "fp_default_int_rep" "fp_default_int_rep" .string),
  ([301], .assign "fp_default_long_rep" "fp_default_long_rep" .string),
  ([302], .assign "fp_expression" "fp_expression" .string),
  ([303], .assign "fp_representations" "fp_representations" .string),
  ([304], .assign "fp_representations_path" "fp_representations_path" .string),
  (['F'.toNat, 305], .assign "function" "function" .int),
  ([306], .assign "hea_bound_moment" "hea_bound_moment" .bool),
  ([307], .assign "hea_randomize_bit_order" "hea_randomize_bit_order" .bool),
  ([308], .assign "hea_reset_period" "hea_reset_period" .int),
  (['l'.toNat, 309], .assign "learning_rate" "learning_rate" .double),
  (['M'.toNat, 310], .assign "map" "map" .int),
  ([311], .assign "map_input_size" "map_input_size" .int),
  ([312], .assign "map_path" "map_path" .string),
  ([313], .assign "map_ts_length" "map_ts_length" .int),
  ([314], .assign "map_ts_sampling_mode" "map_ts_sampling_mode" .int),
  (['N'.toNat, 315], .assign "neighborhood" "neighborhood" .int),
  ([316], .assign "neighborhood_iterator" "neighborhood_iterator" .int),
  ([317], .assign "noise_stddev" "noise_stddev" .double),
  (['i'.toNat, 318], .assign "num_iterations" "num_iterations" .int),
  ([319], .assign "num_threads" "num_threads" .int),
  (['p'.toNat, 320], .assign "path" "path" .string),
  ([321], .assign "pn_mutation_rate" "pn_mutation_rate" .double),
  ([322], .assign "pn_neighborhood" "pn_neighborhood" .int),
  ([323], .assign "pn_radius" "pn_radius" .int),
  (['x'.toNat, 324], .assign "population_size" "population_size" .int),
  ([325], .assign "pv_log_num_components" "pv_log_num_components" .int),
  ([326], .assign "radius" "radius" .int),
  ([327], .assign "ram_crossover_probability" "ram_crossover_probability" .double),
  ([328], .assign "ram_latent_space_probability" "ram_latent_space_probability" .double),
  ([329], .assign "ram_ts_length" "ram_ts_length" .int),
  ([330], .assign "ram_ts_length_distribution_parameter" "ram_ts_length_distribution_parameter" .double),
  ([331], .assign "ram_ts_length_increment_period" "ram_ts_length_increment_period" .int),
  ([332], .assign "ram_ts_length_lower_bound" "ram_ts_length_lower_bound" .int),
  ([333], .assign "ram_ts_length_mode" "ram_ts_length_mode" .int),
  ([334], .assign "ram_ts_length_upper_bound" "ram_ts_length_upper_bound" .int),
  ([335], .assign "rep_categorical_representation" "rep_categorical_representation" .int),
  ([336], .assign "rep_num_additional_bits" "rep_num_additional_bits" .int),
  ([337], .assign "results_path" "results_path" .string),
  ([338], .assign "rls_patience" "rls_patience" .int),
  ([339], .assign "sa_beta_ratio" "sa_beta_ratio" .double),
  ([340], .assign "sa_initial_acceptance_probability" "sa_initial_acceptance_probability" .double),
  ([341], .assign "sa_num_transitions" "sa_num_transitions" .int),
  ([342], .assign "sa_num_trials" "sa_num_trials" .int),
  ([343], .assign "seed" "seed" .unsigned),
  (['y'.toNat, 344], .assign "selection_size" "selection_size" .int),
  ([345], .assign "solution_path" "solution_path" .string),
  ([346], .assign "target" "target" .double),
  ([347], .raise "additive_gaussian_noise"),
  ([348], .raise "bm_log_norm_1"),
  ([349], .raise "bm_log_norm_infinite"),
  ([350], .raise "bm_negative_positive_selection"),
  ([351], .raise "cache"),
  ([352], .raise "cache_budget"),
  ([353], .raise "concrete_solution"),
  ([354], .raise "ea_allow_no_mutation"),
  ([355], .raise "ea_it_log_center_fitness"),
  ([356], .raise "ea_log_mutation_rate"),
  ([357], .raise "fn_display"),
  ([358], .raise "fn_get_bv_size"),
  ([359], .raise "fn_get_maximum"),
  ([360], .raise "fn_has_known_maximum"),
  ([361], .raise "fn_provides_incremental_evaluation"),
  ([362], .raise "fn_walsh_transform"),
  ([363], .raise "hea_log_delta_norm"),
  ([364], .raise "hea_log_herding_error"),
  ([365], .raise "hea_log_target"),
  ([366], .raise "hea_log_target_norm"),
  ([367], .raise "incremental_evaluation"),
  ([368], .raise "load_solution"),
  ([369], .raise "log_improvement"),
  ([370], .raise "map_display"),
  ([371], .raise "map_random"),
  ([372], .raise "map_surjective"),
  ([373], .raise "minimize"),
  ([374], .raise "mmas_strict"),
  ([375], .raise "parsed_modifier"),
  ([376], .raise "pn_allow_no_mutation"),
  ([377], .raise "print_default_parameters"),
  ([378], .raise "print_description"),
  ([379], .raise "print_parameters"),
  ([380], .raise "print_results"),
  ([381], .raise "print_solution"),
  ([382], .raise "prior_noise"),
  ([383], .raise "pv_log_entropy"),
  ([384], .raise "pv_log_pv"),
  ([385], .raise "record_evaluation_time"),
  ([386], .raise "record_total_time"),
  ([387], .raise "restart"),
  ([388], .raise "rls_strict"),
  ([389], .raise "rw_log_value"),
  ([390], .raise "save_description"),
  ([391], .raise "save_results"),
  ([392], .raise "save_solution"),
  ([393], .raise "stop_on_maximum"),
  ([256], .show "help"),
  ([262], .show "help_fn"),
  ([263], .show "help_fp"),
  ([269], .show "help_rep"),
  ([267], .show "help_mod"),
  ([259], .show "help_ctrl"),
  ([268], .show "help_pn"),
  ([266], .show "help_map"),
  ([257], .show "help_alg"),
  ([265], .show "help_ls"),
  ([270], .show "help_sa"),
  ([260], .show "help_ea"),
  ([261], .show "help_eda"),
  ([264], .show "help_hea"),
  ([258], .show "help_bm"),
  ([271], .show "version")]

/-- The parameters, their types and initial values (`lib/hnco/app/hnco-options.hh:161-599`). -/
def hncoMembers : List OptMember := [
  ⟨"algorithm", .int, (some (.int 100))⟩,
  ⟨"bm_num_gs_cycles", .int, (some (.int 1))⟩,
  ⟨"bm_num_gs_steps", .int, (some (.int 100))⟩,
  ⟨"bm_reset_mode", .int, (some (.int 1))⟩,
  ⟨"bm_sampling_mode", .int, (some (.int 1))⟩,
  ⟨"budget", .int, (some (.int 10000))⟩,
  ⟨"bv_size", .int, (some (.int 100))⟩,
  ⟨"description_path", .string, (some (.str "description.txt".toList))⟩,
  ⟨"ea_crossover_bias", .double, (some (.double (1 / 2)))⟩,
  ⟨"ea_crossover_probability", .double, (some (.double (1 / 2)))⟩,
  ⟨"ea_it_initial_hamming_weight", .int, (some (.int 0))⟩,
  ⟨"ea_it_replacement", .int, (some (.int 0))⟩,
  ⟨"ea_lambda", .int, (some (.int 100))⟩,
  ⟨"ea_mu", .int, (some (.int 10))⟩,
  ⟨"ea_mutation_rate", .double, none⟩,
  ⟨"ea_mutation_rate_max", .double, (some (.double (1 / 2)))⟩,
  ⟨"ea_mutation_rate_min", .double, none⟩,
  ⟨"ea_success_ratio", .double, (some (.double 4))⟩,
  ⟨"ea_tournament_size", .int, (some (.int 2))⟩,
  ⟨"ea_update_strength", .double, (some (.double (101 / 100)))⟩,
  ⟨"expression", .string, (some (.str "x".toList))⟩,
  ⟨"fn_name", .string, none⟩,
  ⟨"fn_num_traps", .int, (some (.int 10))⟩,
  ⟨"fn_prefix_length", .int, (some (.int 2))⟩,
  ⟨"fn_threshold", .int, (some (.int 10))⟩,
  ⟨"fp_default_double_precision", .double, none⟩,
  ⟨"fp_default_double_rep", .string, (some (.str "double(0, 1, precision = 1e-3)".toList))⟩,
  ⟨"fp_default_double_size", .int, none⟩,
  ⟨"fp_default_int_rep", .string, (some (.str "int(-10, 10)".toList))⟩,
  ⟨"fp_default_long_rep", .string, (some (.str "long(-100, 100)".toList))⟩,
  ⟨"fp_expression", .string, none⟩,
  ⟨"fp_representations", .string, none⟩,
  ⟨"fp_representations_path", .string, (some (.str "representations.txt".toList))⟩,
  ⟨"function", .int, (some (.int 0))⟩,
  ⟨"hea_bound_moment", .bool, (some (.bool true))⟩,
  ⟨"hea_randomize_bit_order", .bool, (some (.bool true))⟩,
  ⟨"hea_reset_period", .int, (some (.int 0))⟩,
  ⟨"learning_rate", .double, (some (.double (1 / 1000)))⟩,
  ⟨"map", .int, (some (.int 0))⟩,
  ⟨"map_input_size", .int, (some (.int 100))⟩,
  ⟨"map_path", .string, (some (.str "map.txt".toList))⟩,
  ⟨"map_ts_length", .int, (some (.int 10))⟩,
  ⟨"map_ts_sampling_mode", .int, (some (.int 0))⟩,
  ⟨"neighborhood", .int, (some (.int 0))⟩,
  ⟨"neighborhood_iterator", .int, (some (.int 0))⟩,
  ⟨"noise_stddev", .double, (some (.double 1))⟩,
  ⟨"num_iterations", .int, (some (.int 0))⟩,
  ⟨"num_threads", .int, (some (.int 1))⟩,
  ⟨"path", .string, (some (.str "function.txt".toList))⟩,
  ⟨"pn_mutation_rate", .double, none⟩,
  ⟨"pn_neighborhood", .int, (some (.int 0))⟩,
  ⟨"pn_radius", .int, (some (.int 2))⟩,
  ⟨"population_size", .int, (some (.int 10))⟩,
  ⟨"pv_log_num_components", .int, (some (.int 5))⟩,
  ⟨"radius", .int, (some (.int 2))⟩,
  ⟨"ram_crossover_probability", .double, (some (.double (1 / 10)))⟩,
  ⟨"ram_latent_space_probability", .double, (some (.double (1 / 2)))⟩,
  ⟨"ram_ts_length", .int, (some (.int 10))⟩,
  ⟨"ram_ts_length_distribution_parameter", .double, (some (.double (1 / 10)))⟩,
  ⟨"ram_ts_length_increment_period", .int, (some (.int 10000))⟩,
  ⟨"ram_ts_length_lower_bound", .int, (some (.int 0))⟩,
  ⟨"ram_ts_length_mode", .int, (some (.int 0))⟩,
  ⟨"ram_ts_length_upper_bound", .int, (some (.int 20))⟩,
  ⟨"rep_categorical_representation", .int, (some (.int 0))⟩,
  ⟨"rep_num_additional_bits", .int, (some (.int 2))⟩,
  ⟨"results_path", .string, (some (.str "results.json".toList))⟩,
  ⟨"rls_patience", .int, (some (.int 50))⟩,
  ⟨"sa_beta_ratio", .double, (some (.double (6 / 5)))⟩,
  ⟨"sa_initial_acceptance_probability", .double, (some (.double (3 / 5)))⟩,
  ⟨"sa_num_transitions", .int, (some (.int 50))⟩,
  ⟨"sa_num_trials", .int, (some (.int 100))⟩,
  ⟨"seed", .unsigned, none⟩,
  ⟨"selection_size", .int, (some (.int 1))⟩,
  ⟨"solution_path", .string, (some (.str "solution.txt".toList))⟩,
  ⟨"target", .double, none⟩]

/-- The flags (`lib/hnco/app/hnco-options.hh:161-599`). -/
def hncoFlags : List String := [
  "additive_gaussian_noise",
  "bm_log_norm_1",
  "bm_log_norm_infinite",
  "bm_negative_positive_selection",
  "cache",
  "cache_budget",
  "concrete_solution",
  "ea_allow_no_mutation",
  "ea_it_log_center_fitness",
  "ea_log_mutation_rate",
  "fn_display",
  "fn_get_bv_size",
  "fn_get_maximum",
  "fn_has_known_maximum",
  "fn_provides_incremental_evaluation",
  "fn_walsh_transform",
  "hea_log_delta_norm",
  "hea_log_herding_error",
  "hea_log_target",
  "hea_log_target_norm",
  "incremental_evaluation",
  "load_solution",
  "log_improvement",
  "map_display",
  "map_random",
  "map_surjective",
  "minimize",
  "mmas_strict",
  "parsed_modifier",
  "pn_allow_no_mutation",
  "print_default_parameters",
  "print_description",
  "print_parameters",
  "print_results",
  "print_solution",
  "prior_noise",
  "pv_log_entropy",
  "pv_log_pv",
  "record_evaluation_time",
  "record_total_time",
  "restart",
  "rls_strict",
  "rw_log_value",
  "save_description",
  "save_results",
  "save_solution",
  "stop_on_maximum"]

/-- The getters of parameters (`lib/hnco/app/hnco-options.hh:658-1296`). -/
def hncoGetters : List OptGetter := [
  ⟨"algorithm", none, "algorithm"⟩,
  ⟨"bm_num_gs_cycles", none, "bm_num_gs_cycles"⟩,
  ⟨"bm_num_gs_steps", none, "bm_num_gs_steps"⟩,
  ⟨"bm_reset_mode", none, "bm_reset_mode"⟩,
  ⟨"bm_sampling_mode", none, "bm_sampling_mode"⟩,
  ⟨"budget", none, "budget"⟩,
  ⟨"bv_size", none, "bv_size"⟩,
  ⟨"description_path", none, "description_path"⟩,
  ⟨"ea_crossover_bias", none, "ea_crossover_bias"⟩,
  ⟨"ea_crossover_probability", none, "ea_crossover_probability"⟩,
  ⟨"ea_it_initial_hamming_weight", none, "ea_it_initial_hamming_weight"⟩,
  ⟨"ea_it_replacement", none, "ea_it_replacement"⟩,
  ⟨"ea_lambda", none, "ea_lambda"⟩,
  ⟨"ea_mu", none, "ea_mu"⟩,
  ⟨"ea_mutation_rate", (some "ea_mutation_rate"), "ea_mutation_rate"⟩,
  ⟨"ea_mutation_rate_max", none, "ea_mutation_rate_max"⟩,
  ⟨"ea_mutation_rate_min", (some "ea_mutation_rate_min"), "ea_mutation_rate_min"⟩,
  ⟨"ea_success_ratio", none, "ea_success_ratio"⟩,
  ⟨"ea_tournament_size", none, "ea_tournament_size"⟩,
  ⟨"ea_update_strength", none, "ea_update_strength"⟩,
  ⟨"expression", none, "expression"⟩,
  ⟨"fn_name", (some "fn_name"), "fn_name"⟩,
  ⟨"fn_num_traps", none, "fn_num_traps"⟩,
  ⟨"fn_prefix_length", none, "fn_prefix_length"⟩,
  ⟨"fn_threshold", none, "fn_threshold"⟩,
  ⟨"fp_default_double_precision", (some "fp_default_double_precision"), "fp_default_double_precision"⟩,
  ⟨"fp_default_double_rep", none, "fp_default_double_rep"⟩,
  ⟨"fp_default_double_size", (some "fp_default_double_size"), "fp_default_double_size"⟩,
  ⟨"fp_default_int_rep", none, "fp_default_int_rep"⟩,
  ⟨"fp_default_long_rep", none, "fp_default_long_rep"⟩,
  ⟨"fp_expression", (some "fp_expression"), "fp_expression"⟩,
  ⟨"fp_representations", (some "fp_representations"), "fp_representations"⟩,
  ⟨"fp_representations_path", none, "fp_representations_path"⟩,
  ⟨"function", none, "function"⟩,
  ⟨"hea_bound_moment", none, "hea_bound_moment"⟩,
  ⟨"hea_randomize_bit_order", none, "hea_randomize_bit_order"⟩,
  ⟨"hea_reset_period", none, "hea_reset_period"⟩,
  ⟨"learning_rate", none, "learning_rate"⟩,
  ⟨"map", none, "map"⟩,
  ⟨"map_input_size", none, "map_input_size"⟩,
  ⟨"map_path", none, "map_path"⟩,
  ⟨"map_ts_length", none, "map_ts_length"⟩,
  ⟨"map_ts_sampling_mode", none, "map_ts_sampling_mode"⟩,
  ⟨"neighborhood", none, "neighborhood"⟩,
  ⟨"neighborhood_iterator", none, "neighborhood_iterator"⟩,
  ⟨"noise_stddev", none, "noise_stddev"⟩,
  ⟨"num_iterations", none, "num_iterations"⟩,
  ⟨"num_threads", none, "num_threads"⟩,
  ⟨"path", none, "path"⟩,
  ⟨"pn_mutation_rate", (some "pn_mutation_rate"), "pn_mutation_rate"⟩,
  ⟨"pn_neighborhood", none, "pn_neighborhood"⟩,
  ⟨"pn_radius", none, "pn_radius"⟩,
  ⟨"population_size", none, "population_size"⟩,
  ⟨"pv_log_num_components", none, "pv_log_num_components"⟩,
  ⟨"radius", none, "radius"⟩,
  ⟨"ram_crossover_probability", none, "ram_crossover_probability"⟩,
  ⟨"ram_latent_space_probability", none, "ram_latent_space_probability"⟩,
  ⟨"ram_ts_length", none, "ram_ts_length"⟩,
  ⟨"ram_ts_length_distribution_parameter", none, "ram_ts_length_distribution_parameter"⟩,
  ⟨"ram_ts_length_increment_period", none, "ram_ts_length_increment_period"⟩,
  ⟨"ram_ts_length_lower_bound", none, "ram_ts_length_lower_bound"⟩,
  ⟨"ram_ts_length_mode", none, "ram_ts_length_mode"⟩,
  ⟨"ram_ts_length_upper_bound", none, "ram_ts_length_upper_bound"⟩,
  ⟨"rep_categorical_representation", none, "rep_categorical_representation"⟩,
  ⟨"rep_num_additional_bits", none, "rep_num_additional_bits"⟩,
  ⟨"results_path", none, "results_path"⟩,
  ⟨"rls_patience", none, "rls_patience"⟩,
  ⟨"sa_beta_ratio", none, "sa_beta_ratio"⟩,
  ⟨"sa_initial_acceptance_probability", none, "sa_initial_acceptance_probability"⟩,
  ⟨"sa_num_transitions", none, "sa_num_transitions"⟩,
  ⟨"sa_num_trials", none, "sa_num_trials"⟩,
  ⟨"seed", (some "seed"), "seed"⟩,
  ⟨"selection_size", none, "selection_size"⟩,
  ⟨"solution_path", none, "solution_path"⟩,
  ⟨"target", (some "target"), "target"⟩]

/-- The options in the help pages (`lib/hnco/app/hnco-options.cc:821-1331`). -/
def hncoHelp : List OptDoc := [
  ⟨none, "help".toList, .shows⟩,
  ⟨none, "version".toList, .shows⟩,
  ⟨none, "concrete-solution".toList, .flag⟩,
  ⟨none, "description-path".toList, .value .string (some (.str "description.txt".toList))⟩,
  ⟨none, "load-solution".toList, .flag⟩,
  ⟨none, "num-threads".toList, .value .int (some (.int 1))⟩,
  ⟨none, "print-default-parameters".toList, .flag⟩,
  ⟨none, "print-description".toList, .flag⟩,
  ⟨none, "print-parameters".toList, .flag⟩,
  ⟨none, "print-results".toList, .flag⟩,
  ⟨none, "print-solution".toList, .flag⟩,
  ⟨none, "record-total-time".toList, .flag⟩,
  ⟨none, "results-path".toList, .value .string (some (.str "results.json".toList))⟩,
  ⟨none, "save-description".toList, .flag⟩,
  ⟨none, "save-results".toList, .flag⟩,
  ⟨none, "save-solution".toList, .flag⟩,
  ⟨none, "seed".toList, .value .unsigned none⟩,
  ⟨none, "solution-path".toList, .value .string (some (.str "solution.txt".toList))⟩,
  ⟨none, "help-fn".toList, .shows⟩,
  ⟨none, "help-fp".toList, .shows⟩,
  ⟨none, "help-rep".toList, .shows⟩,
  ⟨none, "help-mod".toList, .shows⟩,
  ⟨none, "help-ctrl".toList, .shows⟩,
  ⟨none, "help-pn".toList, .shows⟩,
  ⟨none, "help-map".toList, .shows⟩,
  ⟨none, "help-alg".toList, .shows⟩,
  ⟨none, "help-ls".toList, .shows⟩,
  ⟨none, "help-sa".toList, .shows⟩,
  ⟨none, "help-ea".toList, .shows⟩,
  ⟨none, "help-eda".toList, .shows⟩,
  ⟨none, "help-hea".toList, .shows⟩,
  ⟨none, "help-bm".toList, .shows⟩,
  ⟨(some 's'), "bv-size".toList, .value .int (some (.int 100))⟩,
  ⟨none, "fn-display".toList, .flag⟩,
  ⟨none, "fn-get-bv-size".toList, .flag⟩,
  ⟨none, "fn-get-maximum".toList, .flag⟩,
  ⟨none, "fn-has-known-maximum".toList, .flag⟩,
  ⟨none, "fn-name".toList, .value .string none⟩,
  ⟨none, "fn-num-traps".toList, .value .int (some (.int 10))⟩,
  ⟨none, "fn-prefix-length".toList, .value .int (some (.int 2))⟩,
  ⟨none, "fn-provides-incremental-evaluation".toList, .flag⟩,
  ⟨(some 't'), "fn-threshold".toList, .value .int (some (.int 10))⟩,
  ⟨none, "fn-walsh-transform".toList, .flag⟩,
  ⟨(some 'F'), "function".toList, .value .int (some (.int 0))⟩,
  ⟨(some 'p'), "path".toList, .value .string (some (.str "function.txt".toList))⟩,
  ⟨none, "fp-default-double-precision".toList, .value .double none⟩,
  ⟨none, "fp-default-double-rep".toList, .value .string (some (.str "double(0, 1, precision = 1e-3)".toList))⟩,
  ⟨none, "fp-default-double-size".toList, .value .int none⟩,
  ⟨none, "fp-default-int-rep".toList, .value .string (some (.str "int(-10, 10)".toList))⟩,
  ⟨none, "fp-default-long-rep".toList, .value .string (some (.str "long(-100, 100)".toList))⟩,
  ⟨none, "fp-expression".toList, .value .string none⟩,
  ⟨none, "fp-representations".toList, .value .string none⟩,
  ⟨none, "fp-representations-path".toList, .value .string (some (.str "representations.txt".toList))⟩,
  ⟨none, "rep-categorical-representation".toList, .value .int (some (.int 0))⟩,
  ⟨none, "rep-num-additional-bits".toList, .value .int (some (.int 2))⟩,
  ⟨none, "additive-gaussian-noise".toList, .flag⟩,
  ⟨none, "expression".toList, .value .string (some (.str "x".toList))⟩,
  ⟨none, "minimize".toList, .flag⟩,
  ⟨none, "noise-stddev".toList, .value .double (some (.double 1))⟩,
  ⟨none, "parsed-modifier".toList, .flag⟩,
  ⟨(some 'b'), "budget".toList, .value .int (some (.int 10000))⟩,
  ⟨none, "cache".toList, .flag⟩,
  ⟨none, "cache-budget".toList, .flag⟩,
  ⟨none, "log-improvement".toList, .flag⟩,
  ⟨none, "record-evaluation-time".toList, .flag⟩,
  ⟨none, "stop-on-maximum".toList, .flag⟩,
  ⟨none, "target".toList, .value .double none⟩,
  ⟨none, "pn-allow-no-mutation".toList, .flag⟩,
  ⟨none, "pn-mutation-rate".toList, .value .double none⟩,
  ⟨none, "pn-neighborhood".toList, .value .int (some (.int 0))⟩,
  ⟨none, "pn-radius".toList, .value .int (some (.int 2))⟩,
  ⟨none, "prior-noise".toList, .flag⟩,
  ⟨(some 'M'), "map".toList, .value .int (some (.int 0))⟩,
  ⟨none, "map-display".toList, .flag⟩,
  ⟨none, "map-input-size".toList, .value .int (some (.int 100))⟩,
  ⟨none, "map-path".toList, .value .string (some (.str "map.txt".toList))⟩,
  ⟨none, "map-random".toList, .flag⟩,
  ⟨none, "map-surjective".toList, .flag⟩,
  ⟨none, "map-ts-length".toList, .value .int (some (.int 10))⟩,
  ⟨none, "map-ts-sampling-mode".toList, .value .int (some (.int 0))⟩,
  ⟨(some 'A'), "algorithm".toList, .value .int (some (.int 100))⟩,
  ⟨(some 'i'), "num-iterations".toList, .value .int (some (.int 0))⟩,
  ⟨none, "restart".toList, .flag⟩,
  ⟨none, "incremental-evaluation".toList, .flag⟩,
  ⟨(some 'N'), "neighborhood".toList, .value .int (some (.int 0))⟩,
  ⟨none, "neighborhood-iterator".toList, .value .int (some (.int 0))⟩,
  ⟨none, "radius".toList, .value .int (some (.int 2))⟩,
  ⟨none, "rls-patience".toList, .value .int (some (.int 50))⟩,
  ⟨none, "rls-strict".toList, .flag⟩,
  ⟨none, "rw-log-value".toList, .flag⟩,
  ⟨none, "sa-beta-ratio".toList, .value .double (some (.double (6 / 5)))⟩,
  ⟨none, "sa-initial-acceptance-probability".toList, .value .double (some (.double (3 / 5)))⟩,
  ⟨none, "sa-num-transitions".toList, .value .int (some (.int 50))⟩,
  ⟨none, "sa-num-trials".toList, .value .int (some (.int 100))⟩,
  ⟨none, "ea-allow-no-mutation".toList, .flag⟩,
  ⟨none, "ea-crossover-bias".toList, .value .double (some (.double (1 / 2)))⟩,
  ⟨none, "ea-crossover-probability".toList, .value .double (some (.double (1 / 2)))⟩,
  ⟨none, "ea-it-initial-hamming-weight".toList, .value .int (some (.int 0))⟩,
  ⟨none, "ea-it-log-center-fitness".toList, .flag⟩,
  ⟨none, "ea-it-replacement".toList, .value .int (some (.int 0))⟩,
  ⟨none, "ea-lambda".toList, .value .int (some (.int 100))⟩,
  ⟨none, "ea-log-mutation-rate".toList, .flag⟩,
  ⟨none, "ea-mu".toList, .value .int (some (.int 10))⟩,
  ⟨(some 'm'), "ea-mutation-rate".toList, .value .double none⟩,
  ⟨none, "ea-mutation-rate-max".toList, .value .double (some (.double (1 / 2)))⟩,
  ⟨none, "ea-mutation-rate-min".toList, .value .double none⟩,
  ⟨none, "ea-success-ratio".toList, .value .double (some (.double 4))⟩,
  ⟨none, "ea-tournament-size".toList, .value .int (some (.int 2))⟩,
  ⟨none, "ea-update-strength".toList, .value .double (some (.double (101 / 100)))⟩,
  ⟨(some 'l'), "learning-rate".toList, .value .double (some (.double (1 / 1000)))⟩,
  ⟨none, "mmas-strict".toList, .flag⟩,
  ⟨(some 'x'), "population-size".toList, .value .int (some (.int 10))⟩,
  ⟨none, "pv-log-entropy".toList, .flag⟩,
  ⟨none, "pv-log-num-components".toList, .value .int (some (.int 5))⟩,
  ⟨none, "pv-log-pv".toList, .flag⟩,
  ⟨none, "ram-crossover-probability".toList, .value .double (some (.double (1 / 10)))⟩,
  ⟨none, "ram-latent-space-probability".toList, .value .double (some (.double (1 / 2)))⟩,
  ⟨none, "ram-ts-length".toList, .value .int (some (.int 10))⟩,
  ⟨none, "ram-ts-length-distribution-parameter".toList, .value .double (some (.double (1 / 10)))⟩,
  ⟨none, "ram-ts-length-increment-period".toList, .value .int (some (.int 10000))⟩,
  ⟨none, "ram-ts-length-lower-bound".toList, .value .int (some (.int 0))⟩,
  ⟨none, "ram-ts-length-mode".toList, .value .int (some (.int 0))⟩,
  ⟨none, "ram-ts-length-upper-bound".toList, .value .int (some (.int 20))⟩,
  ⟨(some 'y'), "selection-size".toList, .value .int (some (.int 1))⟩,
  ⟨none, "hea-bound-moment".toList, .value .bool (some (.bool true))⟩,
  ⟨none, "hea-log-delta-norm".toList, .flag⟩,
  ⟨none, "hea-log-herding-error".toList, .flag⟩,
  ⟨none, "hea-log-target".toList, .flag⟩,
  ⟨none, "hea-log-target-norm".toList, .flag⟩,
  ⟨none, "hea-randomize-bit-order".toList, .value .bool (some (.bool true))⟩,
  ⟨none, "hea-reset-period".toList, .value .int (some (.int 0))⟩,
  ⟨none, "bm-log-norm-1".toList, .flag⟩,
  ⟨none, "bm-log-norm-infinite".toList, .flag⟩,
  ⟨none, "bm-negative-positive-selection".toList, .flag⟩,
  ⟨none, "bm-num-gs-cycles".toList, .value .int (some (.int 1))⟩,
  ⟨none, "bm-num-gs-steps".toList, .value .int (some (.int 100))⟩,
  ⟨none, "bm-reset-mode".toList, .value .int (some (.int 1))⟩,
  ⟨none, "bm-sampling-mode".toList, .value .int (some (.int 1))⟩]

/-- The lines of `operator<<` (`lib/hnco/app/hnco-options.cc:1347-1525`). -/
def hncoPrints : List OptPrint := [
  .value none "algorithm" "algorithm" false,
  .value none "bm_num_gs_cycles" "bm_num_gs_cycles" false,
  .value none "bm_num_gs_steps" "bm_num_gs_steps" false,
  .value none "bm_reset_mode" "bm_reset_mode" false,
  .value none "bm_sampling_mode" "bm_sampling_mode" false,
  .value none "budget" "budget" false,
  .value none "bv_size" "bv_size" false,
  .value none "description_path" "description_path" true,
  .value none "ea_crossover_bias" "ea_crossover_bias" false,
  .value none "ea_crossover_probability" "ea_crossover_probability" false,
  .value none "ea_it_initial_hamming_weight" "ea_it_initial_hamming_weight" false,
  .value none "ea_it_replacement" "ea_it_replacement" false,
  .value none "ea_lambda" "ea_lambda" false,
  .value none "ea_mu" "ea_mu" false,
  .value (some "ea_mutation_rate") "ea_mutation_rate" "ea_mutation_rate" false,
  .value none "ea_mutation_rate_max" "ea_mutation_rate_max" false,
  .value (some "ea_mutation_rate_min") "ea_mutation_rate_min" "ea_mutation_rate_min" false,
  .value none "ea_success_ratio" "ea_success_ratio" false,
  .value none "ea_tournament_size" "ea_tournament_size" false,
  .value none "ea_update_strength" "ea_update_strength" false,
  .value none "expression" "expression" true,
  .value (some "fn_name") "fn_name" "fn_name" true,
  .value none "fn_num_traps" "fn_num_traps" false,
  .value none "fn_prefix_length" "fn_prefix_length" false,
  .value none "fn_threshold" "fn_threshold" false,
  .value (some "fp_default_double_precision") "fp_default_double_precision" "fp_default_double_precision" false,
  .value none "fp_default_double_rep" "fp_default_double_rep" true,
  .value (some "fp_default_double_size") "fp_default_double_size" "fp_default_double_size" false,
  .value none "fp_default_int_rep" "fp_default_int_rep" true,
  .value none "fp_default_long_rep" "fp_default_long_rep" true,
  .value (some "fp_expression") "fp_expression" "fp_expression" true,
  .value (some "fp_representations") "fp_representations" "fp_representations" true,
  .value none "fp_representations_path" "fp_representations_path" true,
  .value none "function" "function" false,
  .value none "hea_bound_moment" "hea_bound_moment" false,
  .value none "hea_randomize_bit_order" "hea_randomize_bit_order" false,
  .value none "hea_reset_period" "hea_reset_period" false,
  .value none "learning_rate" "learning_rate" false,
  .value none "map" "map" false,
  .value none "map_input_size" "map_input_size" false,
  .value none "map_path" "map_path" true,
  .value none "map_ts_length" "map_ts_length" false,
  .value none "map_ts_sampling_mode" "map_ts_sampling_mode" false,
  .value none "neighborhood" "neighborhood" false,
  .value none "neighborhood_iterator" "neighborhood_iterator" false,
  .value none "noise_stddev" "noise_stddev" false,
  .value none "num_iterations" "num_iterations" false,
  .value none "num_threads" "num_threads" false,
  .value none "path" "path" true,
  .value (some "pn_mutation_rate") "pn_mutation_rate" "pn_mutation_rate" false,
  .value none "pn_neighborhood" "pn_neighborhood" false,
  .value none "pn_radius" "pn_radius" false,
  .value none "population_size" "population_size" false,
  .value none "pv_log_num_components" "pv_log_num_components" false,
  .value none "radius" "radius" false,
  .value none "ram_crossover_probability" "ram_crossover_probability" false,
  .value none "ram_latent_space_probability" "ram_latent_space_probability" false,
  .value none "ram_ts_length" "ram_ts_length" false,
  .value none "ram_ts_length_distribution_parameter" "ram_ts_length_distribution_parameter" false,
  .value none "ram_ts_length_increment_period" "ram_ts_length_increment_period" false,
  .value none "ram_ts_length_lower_bound" "ram_ts_length_lower_bound" false,
  .value none "ram_ts_length_mode" "ram_ts_length_mode" false,
  .value none "ram_ts_length_upper_bound" "ram_ts_length_upper_bound" false,
  .value none "rep_categorical_representation" "rep_categorical_representation" false,
  .value none "rep_num_additional_bits" "rep_num_additional_bits" false,
  .value none "results_path" "results_path" true,
  .value none "rls_patience" "rls_patience" false,
  .value none "sa_beta_ratio" "sa_beta_ratio" false,
  .value none "sa_initial_acceptance_probability" "sa_initial_acceptance_probability" false,
  .value none "sa_num_transitions" "sa_num_transitions" false,
  .value none "sa_num_trials" "sa_num_trials" false,
  .value (some "seed") "seed" "seed" false,
  .value none "selection_size" "selection_size" false,
  .value none "solution_path" "solution_path" true,
  .value (some "target") "target" "target" false,
  .flag "additive_gaussian_noise" "additive_gaussian_noise",
  .flag "bm_log_norm_1" "bm_log_norm_1",
  .flag "bm_log_norm_infinite" "bm_log_norm_infinite",
  .flag "bm_negative_positive_selection" "bm_negative_positive_selection",
  .flag "cache" "cache",
  .flag "cache_budget" "cache_budget",
  .flag "concrete_solution" "concrete_solution",
  .flag "ea_allow_no_mutation" "ea_allow_no_mutation",
  .flag "ea_it_log_center_fitness" "ea_it_log_center_fitness",
  .flag "ea_log_mutation_rate" "ea_log_mutation_rate",
  .flag "fn_display" "fn_display",
  .flag "fn_get_bv_size" "fn_get_bv_size",
  .flag "fn_get_maximum" "fn_get_maximum",
  .flag "fn_has_known_maximum" "fn_has_known_maximum",
  .flag "fn_provides_incremental_evaluation" "fn_provides_incremental_evaluation",
  .flag "fn_walsh_transform" "fn_walsh_transform",
  .flag "hea_log_delta_norm" "hea_log_delta_norm",
  .flag "hea_log_herding_error" "hea_log_herding_error",
  .flag "hea_log_target" "hea_log_target",
  .flag "hea_log_target_norm" "hea_log_target_norm",
  .flag "incremental_evaluation" "incremental_evaluation",
  .flag "load_solution" "load_solution",
  .flag "log_improvement" "log_improvement",
  .flag "map_display" "map_display",
  .flag "map_random" "map_random",
  .flag "map_surjective" "map_surjective",
  .flag "minimize" "minimize",
  .flag "mmas_strict" "mmas_strict",
  .flag "parsed_modifier" "parsed_modifier",
  .flag "pn_allow_no_mutation" "pn_allow_no_mutation",
  .flag "print_default_parameters" "print_default_parameters",
  .flag "print_description" "print_description",
  .flag "print_parameters" "print_parameters",
  .flag "print_results" "print_results",
  .flag "print_solution" "print_solution",
  .flag "prior_noise" "prior_noise",
  .flag "pv_log_entropy" "pv_log_entropy",
  .flag "pv_log_pv" "pv_log_pv",
  .flag "record_evaluation_time" "record_evaluation_time",
  .flag "record_total_time" "record_total_time",
  .flag "restart" "restart",
  .flag "rls_strict" "rls_strict",
  .flag "rw_log_value" "rw_log_value",
  .flag "save_description" "save_description",
  .flag "save_results" "save_results",
  .flag "save_solution" "save_solution",
  .flag "stop_on_maximum" "stop_on_maximum"]

/-- The class (`lib/hnco/app/hnco-options.hh`, `lib/hnco/app/hnco-options.cc`). -/
def hncoClass : OptClass where
  long := hncoLongOptions
  short := hncoShortOptions
  cases := hncoCases
  members := hncoMembers
  flags := hncoFlags
  getters := hncoGetters
  help := hncoHelp
  prints := hncoPrints


/-! ## `HncoOptions` -/

/-- `long_options` (`lib/hnco/multiobjective/app/hnco-mo-options.cc:14-51`); the value of an enumerator (`lib/hnco/multiobjective/app/hnco-mo-options.hh:21-57`) is a number. -/
def hncoMoLongOptions : List LongOption := [
  ⟨"algorithm".toList, true, 263⟩,
  ⟨"bv-size".toList, true, 264⟩,
  ⟨"ea-crossover-probability".toList, true, 265⟩,
  ⟨"ea-mu".toList, true, 266⟩,
  ⟨"ea-mutation-rate".toList, true, 267⟩,
  ⟨"ea-tournament-size".toList, true, 268⟩,
  ⟨"fn-name".toList, true, 269⟩,
  ⟨"fp-default-double-precision".toList, true, 270⟩,
  ⟨"fp-default-double-rep".toList, true, 271⟩,
  ⟨"fp-default-double-size".toList, true, 272⟩,
  ⟨"fp-default-int-rep".toList, true, 273⟩,
  ⟨"fp-default-long-rep".toList, true, 274⟩,
  ⟨"fp-expression".toList, true, 275⟩,
  ⟨"fp-representations".toList, true, 276⟩,
  ⟨"fp-representations-path".toList, true, 277⟩,
  ⟨"function".toList, true, 278⟩,
  ⟨"num-iterations".toList, true, 279⟩,
  ⟨"num-threads".toList, true, 280⟩,
  ⟨"path".toList, true, 281⟩,
  ⟨"rep-categorical-representation".toList, true, 282⟩,
  ⟨"rep-num-additional-bits".toList, true, 283⟩,
  ⟨"seed".toList, true, 284⟩,
  ⟨"ea-allow-no-mutation".toList, false, 285⟩,
  ⟨"fn-display".toList, false, 286⟩,
  ⟨"fn-get-bv-size".toList, false, 287⟩,
  ⟨"fn-get-output-size".toList, false, 288⟩,
  ⟨"print-default-parameters".toList, false, 289⟩,
  ⟨"print-description".toList, false, 290⟩,
  ⟨"print-parameters".toList, false, 291⟩,
  ⟨"print-pareto-front".toList, false, 292⟩,
  ⟨"version".toList, false, 262⟩,
  ⟨"help".toList, false, 256⟩,
  ⟨"help-fn".toList, false, 259⟩,
  ⟨"help-fp".toList, false, 260⟩,
  ⟨"help-rep".toList, false, 261⟩,
  ⟨"help-alg".toList, false, 257⟩,
  ⟨"help-ea".toList, false, 258⟩]

/-- `short_options` (`lib/hnco/multiobjective/app/hnco-mo-options.cc:53`). -/
def hncoMoShortOptions : List Char := "A:s:m:F:i:p:".toList

/-- The cases of the switch (`lib/hnco/multiobjective/app/hnco-mo-options.cc:60-240`). -/
def hncoMoCases : List (List Nat × OptAction) := [
  (['A'.toNat, 263], .assign "algorithm" "algorithm" .int),
  (['s'.toNat, 264], .assign "bv_size" "bv_size" .int),
  ([265], .assign "ea_crossover_probability" "ea_crossover_probability" .double),
  ([266], .assign "ea_mu" "ea_mu" .int),
  (['m'.toNat, 267], .assign "ea_mutation_rate" "ea_mutation_rate" .double),
  ([268], .assign "ea_tournament_size" "ea_tournament_size" .int),
  ([269], .assign "fn_name" "fn_name" .string),
  ([270], .assign "fp_default_double_precision" "fp_default_double_precision" .double),
  ([271], .assign "fp_default_double_rep" "fp_default_double_rep" .string),
  ([272], .assign "fp_default_double_size" "fp_default_double_size" .int),
  ([273], .assign "fp_default_int_rep" "fp_default_int_rep" .string),
  ([274], .assign "fp_default_long_rep" "fp_default_long_rep" .string),
  ([275], .assign "fp_expression" "fp_expression" .string),
  ([276], .assign "fp_representations" "fp_representations" .string),
  ([277], .assign "fp_representations_path" "fp_representations_path" .string),
  (['F'.toNat, 278], .assign "function" "function" .int),
  (['i'.toNat, 279], .assign "num_iterations" "num_iterations" .int),
  ([280], .assign "num_threads" "num_threads" .int),
  (['p'.toNat, 281], .assign "path" "path" .string),
  ([282], .assign "rep_categorical_representation" "rep_categorical_representation" .int),
  ([283], .assign "rep_num_additional_bits" "rep_num_additional_bits" .int),
  ([284], .assign "seed" "seed" .unsigned),
  ([285], .raise "ea_allow_no_mutation"),
  ([286], .raise "fn_display"),
  ([287], .raise "fn_get_bv_size"),
  ([288], .raise "fn_get_output_size"),
  ([289], .raise "print_default_parameters"),
  ([290], .raise "print_description"),
  ([291], .raise "print_parameters"),
  ([292], .raise "print_pareto_front"),
  ([256], .show "help"),
  ([259], .show "help_fn"),
  ([260], .show "help_fp"),
  ([261], .show "help_rep"),
  ([257], .show "help_alg"),
  ([258], .show "help_ea"),
  ([262], .show "version")]

/-- The parameters, their types and initial values (`lib/hnco/multiobjective/app/hnco-mo-options.hh:61-170`). -/
def hncoMoMembers : List OptMember := [
  ⟨"algorithm", .int, (some (.int 100))⟩,
  ⟨"bv_size", .int, (some (.int 100))⟩,
  ⟨"ea_crossover_probability", .double, (some (.double (4 / 5)))⟩,
  ⟨"ea_mu", .int, (some (.int 100))⟩,
  ⟨"ea_mutation_rate", .double, none⟩,
  ⟨"ea_tournament_size", .int, (some (.int 2))⟩,
  ⟨"fn_name", .string, none⟩,
  ⟨"fp_default_double_precision", .double, none⟩,
  ⟨"fp_default_double_rep", .string, (some (.str "double(0, 1, precision = 1e-3)".toList))⟩,
  ⟨"fp_default_double_size", .int, none⟩,
  ⟨"fp_default_int_rep", .string, (some (.str "int(-10, 10)".toList))⟩,
  ⟨"fp_default_long_rep", .string, (some (.str "long(-100, 100)".toList))⟩,
  ⟨"fp_expression", .string, none⟩,
  ⟨"fp_representations", .string, none⟩,
  ⟨"fp_representations_path", .string, (some (.str "representations.txt".toList))⟩,
  ⟨"function", .int, (some (.int 180))⟩,
  ⟨"num_iterations", .int, (some (.int 100))⟩,
  ⟨"num_threads", .int, (some (.int 1))⟩,
  ⟨"path", .string, (some (.str "function.txt".toList))⟩,
  ⟨"rep_categorical_representation", .int, (some (.int 0))⟩,
  ⟨"rep_num_additional_bits", .int, (some (.int 2))⟩,
  ⟨"seed", .unsigned, none⟩]

/-- The flags (`lib/hnco/multiobjective/app/hnco-mo-options.hh:61-170`). -/
def hncoMoFlags : List String := [
  "ea_allow_no_mutation",
  "fn_display",
  "fn_get_bv_size",
  "fn_get_output_size",
  "print_default_parameters",
  "print_description",
  "print_parameters",
  "print_pareto_front"]

/-- The getters of parameters (`lib/hnco/multiobjective/app/hnco-mo-options.hh:202-390`). -/
def hncoMoGetters : List OptGetter := [
  ⟨"algorithm", none, "algorithm"⟩,
  ⟨"bv_size", none, "bv_size"⟩,
  ⟨"ea_crossover_probability", none, "ea_crossover_probability"⟩,
  ⟨"ea_mu", none, "ea_mu"⟩,
  ⟨"ea_mutation_rate", (some "ea_mutation_rate"), "ea_mutation_rate"⟩,
  ⟨"ea_tournament_size", none, "ea_tournament_size"⟩,
  ⟨"fn_name", (some "fn_name"), "fn_name"⟩,
  ⟨"fp_default_double_precision", (some "fp_default_double_precision"), "fp_default_double_precision"⟩,
  ⟨"fp_default_double_rep", none, "fp_default_double_rep"⟩,
  ⟨"fp_default_double_size", (some "fp_default_double_size"), "fp_default_double_size"⟩,
  ⟨"fp_default_int_rep", none, "fp_default_int_rep"⟩,
  ⟨"fp_default_long_rep", none, "fp_default_long_rep"⟩,
  ⟨"fp_expression", (some "fp_expression"), "fp_expression"⟩,
  ⟨"fp_representations", (some "fp_representations"), "fp_representations"⟩,
  ⟨"fp_representations_path", none, "fp_representations_path"⟩,
  ⟨"function", none, "function"⟩,
  ⟨"num_iterations", none, "num_iterations"⟩,
  ⟨"num_threads", none, "num_threads"⟩,
  ⟨"path", none, "path"⟩,
  ⟨"rep_categorical_representation", none, "rep_categorical_representation"⟩,
  ⟨"rep_num_additional_bits", none, "rep_num_additional_bits"⟩,
  ⟨"seed", (some "seed"), "seed"⟩]

/-- The options in the help pages (`lib/hnco/multiobjective/app/hnco-mo-options.cc:248-373`). -/
def hncoMoHelp : List OptDoc := [
  ⟨none, "help".toList, .shows⟩,
  ⟨none, "version".toList, .shows⟩,
  ⟨none, "num-threads".toList, .value .int (some (.int 1))⟩,
  ⟨none, "print-default-parameters".toList, .flag⟩,
  ⟨none, "print-description".toList, .flag⟩,
  ⟨none, "print-parameters".toList, .flag⟩,
  ⟨none, "print-pareto-front".toList, .flag⟩,
  ⟨none, "seed".toList, .value .unsigned none⟩,
  ⟨none, "help-fn".toList, .shows⟩,
  ⟨none, "help-fp".toList, .shows⟩,
  ⟨none, "help-rep".toList, .shows⟩,
  ⟨none, "help-alg".toList, .shows⟩,
  ⟨none, "help-ea".toList, .shows⟩,
  ⟨(some 's'), "bv-size".toList, .value .int (some (.int 100))⟩,
  ⟨none, "fn-display".toList, .flag⟩,
  ⟨none, "fn-get-bv-size".toList, .flag⟩,
  ⟨none, "fn-get-output-size".toList, .flag⟩,
  ⟨none, "fn-name".toList, .value .string none⟩,
  ⟨(some 'F'), "function".toList, .value .int (some (.int 180))⟩,
  ⟨(some 'p'), "path".toList, .value .string (some (.str "function.txt".toList))⟩,
  ⟨none, "fp-default-double-precision".toList, .value .double none⟩,
  ⟨none, "fp-default-double-rep".toList, .value .string (some (.str "double(0, 1, precision = 1e-3)".toList))⟩,
  ⟨none, "fp-default-double-size".toList, .value .int none⟩,
  ⟨none, "fp-default-int-rep".toList, .value .string (some (.str "int(-10, 10)".toList))⟩,
  ⟨none, "fp-default-long-rep".toList, .value .string (some (.str "long(-100, 100)".toList))⟩,
  ⟨none, "fp-expression".toList, .value .string none⟩,
  ⟨none, "fp-representations".toList, .value .string none⟩,
  ⟨none, "fp-representations-path".toList, .value .string (some (.str "representations.txt".toList))⟩,
  ⟨none, "rep-categorical-representation".toList, .value .int (some (.int 0))⟩,
  ⟨none, "rep-num-additional-bits".toList, .value .int (some (.int 2))⟩,
  ⟨(some 'A'), "algorithm".toList, .value .int (some (.int 100))⟩,
  ⟨(some 'i'), "num-iterations".toList, .value .int (some (.int 100))⟩,
  ⟨none, "ea-allow-no-mutation".toList, .flag⟩,
  ⟨none, "ea-crossover-probability".toList, .value .double (some (.double (4 / 5)))⟩,
  ⟨none, "ea-mu".toList, .value .int (some (.int 100))⟩,
  ⟨(some 'm'), "ea-mutation-rate".toList, .value .double none⟩,
  ⟨none, "ea-tournament-size".toList, .value .int (some (.int 2))⟩]

/-- The lines of `operator<<` (`lib/hnco/multiobjective/app/hnco-mo-options.cc:386-430`). -/
def hncoMoPrints : List OptPrint := [
  .value none "algorithm" "algorithm" false,
  .value none "bv_size" "bv_size" false,
  .value none "ea_crossover_probability" "ea_crossover_probability" false,
  .value none "ea_mu" "ea_mu" false,
  .value (some "ea_mutation_rate") "ea_mutation_rate" "ea_mutation_rate" false,
  .value none "ea_tournament_size" "ea_tournament_size" false,
  .value (some "fn_name") "fn_name" "fn_name" true,
  .value (some "fp_default_double_precision") "fp_default_double_precision" "fp_default_double_precision" false,
  .value none "fp_default_double_rep" "fp_default_double_rep" true,
  .value (some "fp_default_double_size") "fp_default_double_size" "fp_default_double_size" false,
  .value none "fp_default_int_rep" "fp_default_int_rep" true,
  .value none "fp_default_long_rep" "fp_default_long_rep" true,
  .value (some "fp_expression") "fp_expression" "fp_expression" true,
  .value (some "fp_representations") "fp_representations" "fp_representations" true,
  .value none "fp_representations_path" "fp_representations_path" true,
  .value none "function" "function" false,
  .value none "num_iterations" "num_iterations" false,
  .value none "num_threads" "num_threads" false,
  .value none "path" "path" true,
  .value none "rep_categorical_representation" "rep_categorical_representation" false,
  .value none "rep_num_additional_bits" "rep_num_additional_bits" false,
  .value (some "seed") "seed" "seed" false,
  .flag "ea_allow_no_mutation" "ea_allow_no_mutation",
  .flag "fn_display" "fn_display",
  .flag "fn_get_bv_size" "fn_get_bv_size",
  .flag "fn_get_output_size" "fn_get_output_size",
  .flag "print_default_parameters" "print_default_parameters",
  .flag "print_description" "print_description",
  .flag "print_parameters" "print_parameters",
  .flag "print_pareto_front" "print_pareto_front"]

/-- The class (`lib/hnco/multiobjective/app/hnco-mo-options.hh`, `lib/hnco/multiobjective/app/hnco-mo-options.cc`). -/
def hncoMoClass : OptClass where
  long := hncoMoLongOptions
  short := hncoMoShortOptions
  cases := hncoMoCases
  members := hncoMoMembers
  flags := hncoMoFlags
  getters := hncoMoGetters
  help := hncoMoHelp
  prints := hncoMoPrints


/-! ## `FfgenOptions` -/

/-- `long_options` (`app/ffgen-options.cc:14-42`); the value of an enumerator (`app/ffgen-options.hh:20-47`) is a number. -/
def ffgenLongOptions : List LongOption := [
  ⟨"bv-size".toList, true, 258⟩,
  ⟨"coupling-constant".toList, true, 259⟩,
  ⟨"ep-upper-bound".toList, true, 260⟩,
  ⟨"field-constant".toList, true, 261⟩,
  ⟨"function".toList, true, 262⟩,
  ⟨"lin-distance".toList, true, 263⟩,
  ⟨"lin-generator".toList, true, 264⟩,
  ⟨"lin-initial-weight".toList, true, 265⟩,
  ⟨"lin-ratio".toList, true, 266⟩,
  ⟨"ms-num-clauses".toList, true, 267⟩,
  ⟨"ms-num-literals-per-clause".toList, true, 268⟩,
  ⟨"nk-k".toList, true, 269⟩,
  ⟨"nn1-generator".toList, true, 270⟩,
  ⟨"nn2-generator".toList, true, 271⟩,
  ⟨"nn2-num-columns".toList, true, 272⟩,
  ⟨"nn2-num-rows".toList, true, 273⟩,
  ⟨"part-upper-bound".toList, true, 274⟩,
  ⟨"path".toList, true, 275⟩,
  ⟨"seed".toList, true, 276⟩,
  ⟨"stddev".toList, true, 277⟩,
  ⟨"sudoku-num-empty-cells".toList, true, 278⟩,
  ⟨"walsh2-generator".toList, true, 279⟩,
  ⟨"walsh2-ising-alpha".toList, true, 280⟩,
  ⟨"walsh-num-features".toList, true, 281⟩,
  ⟨"ms-planted-solution".toList, false, 282⟩,
  ⟨"periodic-boundary-conditions".toList, false, 283⟩,
  ⟨"version".toList, false, 257⟩,
  ⟨"help".toList, false, 256⟩]

/-- `short_options` (`app/ffgen-options.cc:44`). -/
def ffgenShortOptions : List Char := "s:F:p:".toList

/-- The cases of the switch (`app/ffgen-options.cc:51-194`). -/
def ffgenCases : List (List Nat × OptAction) := [
  (['s'.toNat, 258], .assign "bv_size" "bv_size" .int),
  ([259], .assign "coupling_constant" "coupling_constant" .double),
  ([260], .assign "ep_upper_bound" "ep_upper_bound" .double),
  ([261], .assign "field_constant" "field_constant" .double),
  (['F'.toNat, 262], .assign "function" "function" .int),
  ([263], .assign "lin_distance" "lin_distance" .double),
  ([264], .assign "lin_generator" "lin_generator" .int),
  ([265], .assign "lin_initial_weight" "lin_initial_weight" .double),
  ([266], .assign "lin_ratio" "lin_ratio" .double),
  ([267], .assign "ms_num_clauses" "ms_num_clauses" .int),
  ([268], .assign "ms_num_literals_per_clause" "ms_num_literals_per_clause" .int),
  ([269], .assign "nk_k" "nk_k" .int),
  ([270], .assign "nn1_generator" "nn1_generator" .int),
  ([271], .assign "nn2_generator" "nn2_generator" .int),
  ([272], .assign "nn2_num_columns" "nn2_num_columns" .int),
  ([273], .assign "nn2_num_rows" "nn2_num_rows" .int),
  ([274], .assign "part_upper_bound" "part_upper_bound" .int),
  (['p'.toNat, 275], .assign "path" "path" .string),
  ([276], .assign "seed" "seed" .int),
  ([277], .assign "stddev" "stddev" .double),
  ([278], .assign "sudoku_num_empty_cells" "sudoku_num_empty_cells" .int),
  ([279], .assign "walsh2_generator" "walsh2_generator" .int),
  ([280], .assign "walsh2_ising_alpha" "walsh2_ising_alpha" .double),
  ([281], .assign "walsh_num_features" "walsh_num_features" .int),
  ([282], .raise "ms_planted_solution"),
  ([283], .raise "periodic_boundary_conditions"),
  ([256], .show "help"),
  ([257], .show "version")]

/-- The parameters, their types and initial values (`app/ffgen-options.hh:51-150`). -/
def ffgenMembers : List OptMember := [
  ⟨"bv_size", .int, (some (.int 100))⟩,
  ⟨"coupling_constant", .double, (some (.double 1))⟩,
  ⟨"ep_upper_bound", .double, (some (.double 1))⟩,
  ⟨"field_constant", .double, (some (.double 1))⟩,
  ⟨"function", .int, (some (.int 1))⟩,
  ⟨"lin_distance", .double, (some (.double 1))⟩,
  ⟨"lin_generator", .int, (some (.int 0))⟩,
  ⟨"lin_initial_weight", .double, (some (.double 1))⟩,
  ⟨"lin_ratio", .double, (some (.double 2))⟩,
  ⟨"ms_num_clauses", .int, (some (.int 100))⟩,
  ⟨"ms_num_literals_per_clause", .int, (some (.int 3))⟩,
  ⟨"nk_k", .int, (some (.int 3))⟩,
  ⟨"nn1_generator", .int, (some (.int 0))⟩,
  ⟨"nn2_generator", .int, (some (.int 0))⟩,
  ⟨"nn2_num_columns", .int, (some (.int 10))⟩,
  ⟨"nn2_num_rows", .int, (some (.int 10))⟩,
  ⟨"part_upper_bound", .int, (some (.int 100))⟩,
  ⟨"path", .string, (some (.str "function.txt".toList))⟩,
  ⟨"seed", .int, none⟩,
  ⟨"stddev", .double, (some (.double 1))⟩,
  ⟨"sudoku_num_empty_cells", .int, (some (.int 10))⟩,
  ⟨"walsh2_generator", .int, (some (.int 0))⟩,
  ⟨"walsh2_ising_alpha", .double, (some (.double 2))⟩,
  ⟨"walsh_num_features", .int, (some (.int 100))⟩]

/-- The flags (`app/ffgen-options.hh:51-150`). -/
def ffgenFlags : List String := [
  "ms_planted_solution",
  "periodic_boundary_conditions"]

/-- The getters of parameters (`app/ffgen-options.hh:167-319`). -/
def ffgenGetters : List OptGetter := [
  ⟨"bv_size", none, "bv_size"⟩,
  ⟨"coupling_constant", none, "coupling_constant"⟩,
  ⟨"ep_upper_bound", none, "ep_upper_bound"⟩,
  ⟨"field_constant", none, "field_constant"⟩,
  ⟨"function", none, "function"⟩,
  ⟨"lin_distance", none, "lin_distance"⟩,
  ⟨"lin_generator", none, "lin_generator"⟩,
  ⟨"lin_initial_weight", none, "lin_initial_weight"⟩,
  ⟨"lin_ratio", none, "lin_ratio"⟩,
  ⟨"ms_num_clauses", none, "ms_num_clauses"⟩,
  ⟨"ms_num_literals_per_clause", none, "ms_num_literals_per_clause"⟩,
  ⟨"nk_k", none, "nk_k"⟩,
  ⟨"nn1_generator", none, "nn1_generator"⟩,
  ⟨"nn2_generator", none, "nn2_generator"⟩,
  ⟨"nn2_num_columns", none, "nn2_num_columns"⟩,
  ⟨"nn2_num_rows", none, "nn2_num_rows"⟩,
  ⟨"part_upper_bound", none, "part_upper_bound"⟩,
  ⟨"path", none, "path"⟩,
  ⟨"seed", (some "seed"), "seed"⟩,
  ⟨"stddev", none, "stddev"⟩,
  ⟨"sudoku_num_empty_cells", none, "sudoku_num_empty_cells"⟩,
  ⟨"walsh2_generator", none, "walsh2_generator"⟩,
  ⟨"walsh2_ising_alpha", none, "walsh2_ising_alpha"⟩,
  ⟨"walsh_num_features", none, "walsh_num_features"⟩]

/-- The options in the help pages (`app/ffgen-options.cc:202-300`). -/
def ffgenHelp : List OptDoc := [
  ⟨none, "help".toList, .shows⟩,
  ⟨none, "version".toList, .shows⟩,
  ⟨(some 's'), "bv-size".toList, .value .int (some (.int 100))⟩,
  ⟨(some 'F'), "function".toList, .value .int (some (.int 1))⟩,
  ⟨(some 'p'), "path".toList, .value .string (some (.str "function.txt".toList))⟩,
  ⟨none, "seed".toList, .value .int none⟩,
  ⟨none, "coupling-constant".toList, .value .double (some (.double 1))⟩,
  ⟨none, "field-constant".toList, .value .double (some (.double 1))⟩,
  ⟨none, "periodic-boundary-conditions".toList, .flag⟩,
  ⟨none, "stddev".toList, .value .double (some (.double 1))⟩,
  ⟨none, "lin-distance".toList, .value .double (some (.double 1))⟩,
  ⟨none, "lin-generator".toList, .value .int (some (.int 0))⟩,
  ⟨none, "lin-initial-weight".toList, .value .double (some (.double 1))⟩,
  ⟨none, "lin-ratio".toList, .value .double (some (.double 2))⟩,
  ⟨none, "nk-k".toList, .value .int (some (.int 3))⟩,
  ⟨none, "ms-num-clauses".toList, .value .int (some (.int 100))⟩,
  ⟨none, "ms-num-literals-per-clause".toList, .value .int (some (.int 3))⟩,
  ⟨none, "ms-planted-solution".toList, .flag⟩,
  ⟨none, "ep-upper-bound".toList, .value .double (some (.double 1))⟩,
  ⟨none, "part-upper-bound".toList, .value .int (some (.int 100))⟩,
  ⟨none, "walsh-num-features".toList, .value .int (some (.int 100))⟩,
  ⟨none, "walsh2-generator".toList, .value .int (some (.int 0))⟩,
  ⟨none, "walsh2-ising-alpha".toList, .value .double (some (.double 2))⟩,
  ⟨none, "nn1-generator".toList, .value .int (some (.int 0))⟩,
  ⟨none, "nn2-generator".toList, .value .int (some (.int 0))⟩,
  ⟨none, "nn2-num-columns".toList, .value .int (some (.int 10))⟩,
  ⟨none, "nn2-num-rows".toList, .value .int (some (.int 10))⟩,
  ⟨none, "sudoku-num-empty-cells".toList, .value .int (some (.int 10))⟩]

/-- The lines of `operator<<` (`app/ffgen-options.cc:313-341`). -/
def ffgenPrints : List OptPrint := [
  .value none "bv_size" "bv_size" false,
  .value none "coupling_constant" "coupling_constant" false,
  .value none "ep_upper_bound" "ep_upper_bound" false,
  .value none "field_constant" "field_constant" false,
  .value none "function" "function" false,
  .value none "lin_distance" "lin_distance" false,
  .value none "lin_generator" "lin_generator" false,
  .value none "lin_initial_weight" "lin_initial_weight" false,
  .value none "lin_ratio" "lin_ratio" false,
  .value none "ms_num_clauses" "ms_num_clauses" false,
  .value none "ms_num_literals_per_clause" "ms_num_literals_per_clause" false,
  .value none "nk_k" "nk_k" false,
  .value none "nn1_generator" "nn1_generator" false,
  .value none "nn2_generator" "nn2_generator" false,
  .value none "nn2_num_columns" "nn2_num_columns" false,
  .value none "nn2_num_rows" "nn2_num_rows" false,
  .value none "part_upper_bound" "part_upper_bound" false,
  .value none "path" "path" true,
  .value (some "seed") "seed" "seed" false,
  .value none "stddev" "stddev" false,
  .value none "sudoku_num_empty_cells" "sudoku_num_empty_cells" false,
  .value none "walsh2_generator" "walsh2_generator" false,
  .value none "walsh2_ising_alpha" "walsh2_ising_alpha" false,
  .value none "walsh_num_features" "walsh_num_features" false,
  .flag "ms_planted_solution" "ms_planted_solution",
  .flag "periodic_boundary_conditions" "periodic_boundary_conditions"]

/-- The class (`app/ffgen-options.hh`, `app/ffgen-options.cc`). -/
def ffgenClass : OptClass where
  long := ffgenLongOptions
  short := ffgenShortOptions
  cases := ffgenCases
  members := ffgenMembers
  flags := ffgenFlags
  getters := ffgenGetters
  help := ffgenHelp
  prints := ffgenPrints


/-! ## `MapgenOptions` -/

/-- `long_options` (`app/mapgen-options.cc:14-24`); the value of an enumerator (`app/mapgen-options.hh:20-29`) is a number. -/
def mapgenLongOptions : List LongOption := [
  ⟨"input-size".toList, true, 258⟩,
  ⟨"map".toList, true, 259⟩,
  ⟨"output-size".toList, true, 260⟩,
  ⟨"path".toList, true, 261⟩,
  ⟨"seed".toList, true, 262⟩,
  ⟨"ts-length".toList, true, 263⟩,
  ⟨"ts-sampling-mode".toList, true, 264⟩,
  ⟨"surjective".toList, false, 265⟩,
  ⟨"version".toList, false, 257⟩,
  ⟨"help".toList, false, 256⟩]

/-- `short_options` (`app/mapgen-options.cc:26`). -/
def mapgenShortOptions : List Char := "x:M:y:p:".toList

/-- The cases of the switch (`app/mapgen-options.cc:33-88`). -/
def mapgenCases : List (List Nat × OptAction) := [
  (['x'.toNat, 258], .assign "input_size" "input_size" .int),
  (['M'.toNat, 259], .assign "map" "map" .int),
  (['y'.toNat, 260], .assign "output_size" "output_size" .int),
  (['p'.toNat, 261], .assign "path" "path" .string),
  ([262], .assign "seed" "seed" .int),
  ([263], .assign "ts_length" "ts_length" .int),
  ([264], .assign "ts_sampling_mode" "ts_sampling_mode" .int),
  ([265], .raise "surjective"),
  ([256], .show "help"),
  ([257], .show "version")]

/-- The parameters, their types and initial values (`app/mapgen-options.hh:33-61`). -/
def mapgenMembers : List OptMember := [
  ⟨"input_size", .int, (some (.int 100))⟩,
  ⟨"map", .int, (some (.int 1))⟩,
  ⟨"output_size", .int, (some (.int 100))⟩,
  ⟨"path", .string, (some (.str "map.txt".toList))⟩,
  ⟨"seed", .int, none⟩,
  ⟨"ts_length", .int, (some (.int 10))⟩,
  ⟨"ts_sampling_mode", .int, (some (.int 0))⟩]

/-- The flags (`app/mapgen-options.hh:33-61`). -/
def mapgenFlags : List String := [
  "surjective"]

/-- The getters of parameters (`app/mapgen-options.hh:78-125`). -/
def mapgenGetters : List OptGetter := [
  ⟨"input_size", none, "input_size"⟩,
  ⟨"map", none, "map"⟩,
  ⟨"output_size", none, "output_size"⟩,
  ⟨"path", none, "path"⟩,
  ⟨"seed", (some "seed"), "seed"⟩,
  ⟨"ts_length", none, "ts_length"⟩,
  ⟨"ts_sampling_mode", none, "ts_sampling_mode"⟩]

/-- The options in the help pages (`app/mapgen-options.cc:96-117`). -/
def mapgenHelp : List OptDoc := [
  ⟨none, "help".toList, .shows⟩,
  ⟨none, "version".toList, .shows⟩,
  ⟨(some 'x'), "input-size".toList, .value .int (some (.int 100))⟩,
  ⟨(some 'M'), "map".toList, .value .int (some (.int 1))⟩,
  ⟨(some 'y'), "output-size".toList, .value .int (some (.int 100))⟩,
  ⟨(some 'p'), "path".toList, .value .string (some (.str "map.txt".toList))⟩,
  ⟨none, "seed".toList, .value .int none⟩,
  ⟨none, "surjective".toList, .flag⟩,
  ⟨none, "ts-length".toList, .value .int (some (.int 10))⟩,
  ⟨none, "ts-sampling-mode".toList, .value .int (some (.int 0))⟩]

/-- The lines of `operator<<` (`app/mapgen-options.cc:135-144`). -/
def mapgenPrints : List OptPrint := [
  .value none "input_size" "input_size" false,
  .value none "map" "map" false,
  .value none "output_size" "output_size" false,
  .value none "path" "path" true,
  .value (some "seed") "seed" "seed" false,
  .value none "ts_length" "ts_length" false,
  .value none "ts_sampling_mode" "ts_sampling_mode" false,
  .flag "surjective" "surjective"]

/-- The class (`app/mapgen-options.hh`, `app/mapgen-options.cc`). -/
def mapgenClass : OptClass where
  long := mapgenLongOptions
  short := mapgenShortOptions
  cases := mapgenCases
  members := mapgenMembers
  flags := mapgenFlags
  getters := mapgenGetters
  help := mapgenHelp
  prints := mapgenPrints


end Hnco
