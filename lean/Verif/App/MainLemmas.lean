import Verif.App.MainSpec
import Verif.App.OptionsProps

/-!
# Lemmas about the options of the program `hnco`
-/

namespace Hnco

open Outcome

variable {lib : OptLib} {items : List (OptDoc × Option (List Char))} {s : OptState}

/-! ## Command lines -/

theorem CommandLine.docs {docs : List OptDoc} {argv : List (List Char)} (h : CommandLine docs argv items) :
    ∀ i ∈ items, i.1 ∈ docs := by
  induction h with
  | done => simp
  | stop => simp
  | word _ _ ih => exact ih
  | option hs _ ih =>
    intro i hi
    rcases List.mem_cons.mp hi with rfl | hi
    · cases hs with
      | flag h _ => exact h.1
      | joined h _ => exact h.1
      | separate h _ => exact h.1
      | letterJoined h _ _ => exact h
      | letterSeparate h _ => exact h
    · exact ih i hi

theorem lastArgument_exists (hf : ∀ i ∈ items, FineItem lib i) {d : OptDoc} {k : OptKind} {x : Option OptValue}
    (hk : d.kind = .value k x) (hm : Mentioned items d) : ∃ v, LastArgument items d v := by
  induction items with
  | nil => obtain ⟨i, hi, _⟩ := hm; cases hi
  | cons i t ih =>
    by_cases ht : Mentioned t d
    · obtain ⟨v, before, after, h1, h2⟩ := ih (fun j hj => hf j (by simp [hj])) ht
      exact ⟨v, i :: before, after, by rw [h1]; rfl, h2⟩
    · have hi : i.1 = d := by
        obtain ⟨j, hj, hjd⟩ := hm
        rcases List.mem_cons.mp hj with rfl | hj
        · exact hjd
        · exact absurd ⟨j, hj, hjd⟩ ht
      have := hf i (by simp)
      cases this with
      | flag h => simp only at hi; rw [hi, hk] at h; cases h
      | value h _ =>
        simp only at hi
        subst hi
        exact ⟨_, [], t, rfl, fun j hj hjd => ht ⟨j, hj, hjd⟩⟩

theorem LastArgument.mentioned {d : OptDoc} {v : List Char} (h : LastArgument items d v) : Mentioned items d := by
  obtain ⟨before, after, rfl, _⟩ := h
  exact ⟨(d, some v), by simp, rfl⟩

theorem LastArgument.unique {d : OptDoc} {v v' : List Char} (h : LastArgument items d v) (h' : LastArgument items d v') : v = v' := by
  obtain ⟨b, a, h1, h2⟩ := h
  obtain ⟨b', a', h1', h2'⟩ := h'
  rw [h1] at h1'
  rcases List.append_eq_append_iff.mp h1' with ⟨c, hc, hc'⟩ | ⟨c, hc, hc'⟩
  · cases c with
    | nil => simp at hc'; exact hc'.1
    | cons e c =>
      simp only [List.cons_append, List.cons.injEq] at hc'
      exact absurd rfl (h2 (d, some v') (by rw [hc'.2]; simp))
  · cases c with
    | nil => simp at hc'; exact hc'.1.symm
    | cons e c =>
      simp only [List.cons_append, List.cons.injEq] at hc'
      exact absurd rfl (h2' (d, some v) (by rw [hc'.2]; simp))

theorem Means.unique {k : OptKind} {v : List Char} {x y : OptValue} (h : Means lib k v x) (h' : Means lib k v y) : x = y := by
  have e1 := (convert_iff lib k v x).mpr h
  have e2 := (convert_iff lib k v y).mpr h'
  rw [e1] at e2
  simpa using e2

theorem Param.unique {name : String} {x y : OptValue} (h : Param lib items name x) (h' : Param lib items name y) : x = y := by
  obtain ⟨d, hd, hn, k, default, hk, h⟩ := h
  obtain ⟨d', hd', hn', k', default', hk', h'⟩ := h'
  have : d = d' := doc_eq check_hnco hd hd' (by rw [hn, hn'])
  subst this
  rw [hk] at hk'
  cases hk'
  rcases h with ⟨v, h1, h2⟩ | ⟨h1, h2⟩ <;> rcases h' with ⟨v', h1', h2'⟩ | ⟨h1', h2'⟩
  · have := h1.unique h1'
    subst this
    exact h2.unique h2'
  · exact absurd h1.mentioned h1'
  · exact absurd h1'.mentioned h1
  · rw [h2] at h2'; simpa using h2'

theorem OptionalParam.unique {name : String} {x y : Option Rat} (h : OptionalParam lib items name x)
    (h' : OptionalParam lib items name y) (hp : ¬ Present items name → ∀ r, ¬ Param lib items name (.double r)) : x = y := by
  rcases h with ⟨h1, h2⟩ | ⟨r, h1, h2⟩ <;> rcases h' with ⟨h1', h2'⟩ | ⟨r', h1', h2'⟩
  · rw [h2, h2']
  · exact absurd h2' (hp h1 r')
  · exact absurd h2 (hp h1' r)
  · have := h2.unique h2'
    simp only [OptValue.double.injEq] at this
    rw [h1, h1', this]

/-! ## Tables -/

/-- The option of a name. -/
def docOf (name : String) : Option OptDoc := hncoClass.help.find? (fun d => decide (d.name = name.toList))

/-- Whether an option is a parameter of the given kind with a default value. -/
def isParam (name member : String) (kind : OptKind) : Bool :=
  match docOf name with
  | some ⟨_, n, .value k (some _)⟩ => decide (k = kind) && decide (memberOf n = member)
  | _ => false

/-- Whether an option is a parameter of type `double` without default value. -/
def isOptional (name member : String) : Bool :=
  match docOf name with
  | some ⟨_, n, .value .double none⟩ => decide (memberOf n = member)
  | _ => false

/-- Whether an option is a flag. -/
def isFlag (name member : String) : Bool :=
  match docOf name with
  | some ⟨_, n, .flag⟩ => decide (memberOf n = member)
  | _ => false

theorem docOf_some {name : String} {d : OptDoc} (h : docOf name = some d) : d ∈ hncoClass.help ∧ d.name = name.toList :=
  ⟨List.mem_of_find?_eq_some h, by simpa using List.find?_some h⟩

set_option maxRecDepth 100000 in
/-- Default values have the type of their parameters. -/
theorem defaults_typed : (hncoClass.help.all fun d =>
    match d.kind with
    | .value .int (some (.int _)) => true
    | .value .double (some (.double _)) => true
    | .value .string (some (.str _)) => true
    | .value .bool (some (.bool _)) => true
    | .value _ none => true
    | .value _ _ => false
    | _ => true) = true := by decide +kernel

theorem present_iff (hdocs : ∀ i ∈ items, i.1 ∈ hncoClass.help) {name : String} {d : OptDoc} (hd : docOf name = some d) :
    Present items name ↔ Mentioned items d := by
  obtain ⟨h1, h2⟩ := docOf_some hd
  constructor
  · rintro ⟨i, hi, hn⟩
    exact ⟨i, hi, doc_eq check_hnco (hdocs i hi) h1 (by rw [hn, h2])⟩
  · rintro ⟨i, hi, rfl⟩
    exact ⟨i, hi, h2⟩

/-- A parameter with a default value. -/
theorem param_value (hs : Settings hncoClass lib items s) (hf : ∀ i ∈ items, FineItem lib i) {name member : String} {kind : OptKind}
    (h : isParam name member kind = true) : ∃ x, hncoClass.get s member = ok x ∧ Param lib items name x ∧
      ((∃ v, Means lib kind v x) ∨ ∃ d ∈ hncoClass.help, d.kind = .value kind (some x)) := by
  unfold isParam at h
  split at h
  · rename_i l n k x0 hd
    simp only [Bool.and_eq_true, decide_eq_true_eq] at h
    obtain ⟨h1, h2⟩ := docOf_some hd
    obtain ⟨rfl, rfl⟩ := h
    by_cases hm : Mentioned items ⟨l, n, .value k (some x0)⟩
    · obtain ⟨v, hv⟩ := lastArgument_exists hf rfl hm
      obtain ⟨x, hx, hg⟩ := hs.set _ h1 k (some x0) v rfl hv
      exact ⟨x, hg, ⟨_, h1, h2, k, _, rfl, Or.inl ⟨v, hv, hx⟩⟩, Or.inl ⟨v, hx⟩⟩
    · exact ⟨x0, hs.default _ h1 k x0 rfl hm, ⟨_, h1, h2, k, _, rfl, Or.inr ⟨hm, rfl⟩⟩, Or.inr ⟨_, h1, rfl⟩⟩
  · cases h

theorem param_int (hs : Settings hncoClass lib items s) (hf : ∀ i ∈ items, FineItem lib i) {name member : String}
    (h : isParam name member .int = true) : ∃ z, s.int member = ok z ∧ Param lib items name (.int z) := by
  obtain ⟨x, h1, h2, h3⟩ := param_value hs hf h
  have : ∃ z, x = .int z := by
    rcases h3 with ⟨v, h3⟩ | ⟨d, h3, h4⟩
    · cases h3; exact ⟨_, rfl⟩
    · have := List.all_eq_true.mp defaults_typed d h3
      rw [h4] at this
      cases x <;> first | exact ⟨_, rfl⟩ | simp at this
  obtain ⟨z, rfl⟩ := this
  exact ⟨z, by simp [OptState.int, h1], h2⟩

theorem param_double (hs : Settings hncoClass lib items s) (hf : ∀ i ∈ items, FineItem lib i) {name member : String}
    (h : isParam name member .double = true) : ∃ z, s.double member = ok z ∧ Param lib items name (.double z) := by
  obtain ⟨x, h1, h2, h3⟩ := param_value hs hf h
  have : ∃ z, x = .double z := by
    rcases h3 with ⟨v, h3⟩ | ⟨d, h3, h4⟩
    · cases h3; exact ⟨_, rfl⟩
    · have := List.all_eq_true.mp defaults_typed d h3
      rw [h4] at this
      cases x <;> first | exact ⟨_, rfl⟩ | simp at this
  obtain ⟨z, rfl⟩ := this
  exact ⟨z, by simp [OptState.double, h1], h2⟩

theorem param_bool (hs : Settings hncoClass lib items s) (hf : ∀ i ∈ items, FineItem lib i) {name member : String}
    (h : isParam name member .bool = true) : ∃ z, s.bool member = ok z ∧ Param lib items name (.bool z) := by
  obtain ⟨x, h1, h2, h3⟩ := param_value hs hf h
  have : ∃ z, x = .bool z := by
    rcases h3 with ⟨v, h3⟩ | ⟨d, h3, h4⟩
    · cases h3 <;> exact ⟨_, rfl⟩
    · have := List.all_eq_true.mp defaults_typed d h3
      rw [h4] at this
      cases x <;> first | exact ⟨_, rfl⟩ | simp at this
  obtain ⟨z, rfl⟩ := this
  exact ⟨z, by simp [OptState.bool, h1], h2⟩

theorem param_str (hs : Settings hncoClass lib items s) (hf : ∀ i ∈ items, FineItem lib i) {name member : String}
    (h : isParam name member .string = true) : ∃ z, s.str member = ok z ∧ Param lib items name (.str z) := by
  obtain ⟨x, h1, h2, h3⟩ := param_value hs hf h
  have : ∃ z, x = .str z := by
    rcases h3 with ⟨v, h3⟩ | ⟨d, h3, h4⟩
    · cases h3; exact ⟨_, rfl⟩
    · have := List.all_eq_true.mp defaults_typed d h3
      rw [h4] at this
      cases x <;> first | exact ⟨_, rfl⟩ | simp at this
  obtain ⟨z, rfl⟩ := this
  exact ⟨z, by simp [OptState.str, h1], h2⟩

theorem param_optional (hs : Settings hncoClass lib items s) (hf : ∀ i ∈ items, FineItem lib i)
    (hdocs : ∀ i ∈ items, i.1 ∈ hncoClass.help) {name member : String} (h : isOptional name member = true) :
    ∃ z, s.optional member = ok z ∧ OptionalParam lib items name z := by
  unfold isOptional at h
  split at h
  · rename_i l n hd
    simp only [decide_eq_true_eq] at h
    obtain ⟨h1, h2⟩ := docOf_some hd
    subst h
    have hg := hs.given _ h1 rfl
    by_cases hm : Mentioned items ⟨l, n, .value .double none⟩
    · obtain ⟨v, hv⟩ := lastArgument_exists hf rfl hm
      obtain ⟨x, hx, hget⟩ := hs.set _ h1 .double none v rfl hv
      have hgiven := hg.mpr hm
      cases hx
      refine ⟨some (lib.atof v), ?_, Or.inr ⟨_, rfl, _, h1, h2, _, _, rfl, Or.inl ⟨v, hv, .double⟩⟩⟩
      simp only at hget hgiven
      simp [OptState.optional, hgiven, OptState.double, hget]
    · have hgiven : s.given (memberOf n) = false := by
        rw [← Bool.not_eq_true]
        exact fun hc => hm (hg.mp hc)
      refine ⟨none, by simp [OptState.optional, hgiven], Or.inl ⟨?_, rfl⟩⟩
      rw [present_iff hdocs hd]
      exact hm
  · cases h

theorem flag_raised (hs : Settings hncoClass lib items s) (hdocs : ∀ i ∈ items, i.1 ∈ hncoClass.help) {name member : String}
    (h : isFlag name member = true) : s.raised member = true ↔ Present items name := by
  unfold isFlag at h
  split at h
  · rename_i l n hd
    simp only [decide_eq_true_eq] at h
    subst h
    obtain ⟨h1, h2⟩ := docOf_some hd
    rw [present_iff hdocs hd]
    exact hs.flags _ h1 rfl
  · cases h

/-! ## Options of the parts of the program -/

/-- The parameters with a default value which are read, with their members and kinds. -/
def readParams : List (String × String × OptKind) := [
  ("num-threads", "num_threads", .int), ("map", "map", .int), ("path", "path", .string),
  ("solution-path", "solution_path", .string), ("budget", "budget", .int), ("function", "function", .int),
  ("bv-size", "bv_size", .int), ("fn-threshold", "fn_threshold", .int), ("fn-num-traps", "fn_num_traps", .int),
  ("fn-prefix-length", "fn_prefix_length", .int), ("rep-categorical-representation", "rep_categorical_representation", .int),
  ("algorithm", "algorithm", .int), ("num-iterations", "num_iterations", .int), ("neighborhood", "neighborhood", .int),
  ("neighborhood-iterator", "neighborhood_iterator", .int), ("radius", "radius", .int), ("rls-patience", "rls_patience", .int),
  ("sa-num-transitions", "sa_num_transitions", .int), ("sa-num-trials", "sa_num_trials", .int),
  ("ea-mutation-rate-max", "ea_mutation_rate_max", .double), ("ea-success-ratio", "ea_success_ratio", .double),
  ("ea-update-strength", "ea_update_strength", .double), ("ea-mu", "ea_mu", .int), ("ea-lambda", "ea_lambda", .int),
  ("ea-tournament-size", "ea_tournament_size", .int), ("ea-crossover-bias", "ea_crossover_bias", .double),
  ("ea-it-initial-hamming-weight", "ea_it_initial_hamming_weight", .int), ("ea-it-replacement", "ea_it_replacement", .int),
  ("population-size", "population_size", .int), ("selection-size", "selection_size", .int),
  ("learning-rate", "learning_rate", .double), ("ram-ts-length", "ram_ts_length", .int),
  ("ram-ts-length-distribution-parameter", "ram_ts_length_distribution_parameter", .double),
  ("ram-ts-length-increment-period", "ram_ts_length_increment_period", .int),
  ("ram-ts-length-lower-bound", "ram_ts_length_lower_bound", .int), ("ram-ts-length-mode", "ram_ts_length_mode", .int),
  ("ram-ts-length-upper-bound", "ram_ts_length_upper_bound", .int),
  ("ram-crossover-probability", "ram_crossover_probability", .double),
  ("ram-latent-space-probability", "ram_latent_space_probability", .double), ("hea-bound-moment", "hea_bound_moment", .bool),
  ("hea-randomize-bit-order", "hea_randomize_bit_order", .bool), ("hea-reset-period", "hea_reset_period", .int),
  ("bm-num-gs-cycles", "bm_num_gs_cycles", .int), ("bm-num-gs-steps", "bm_num_gs_steps", .int),
  ("bm-reset-mode", "bm_reset_mode", .int), ("bm-sampling-mode", "bm_sampling_mode", .int)]

/-- The parameters without default value which are read. -/
def readOptionals : List (String × String) := [("target", "target"), ("ea-mutation-rate", "ea_mutation_rate"), ("ea-mutation-rate-min", "ea_mutation_rate_min")]

/-- The flags which are read. -/
def readFlags : List (String × String) := [
  ("print-default-parameters", "print_default_parameters"), ("load-solution", "load_solution"),
  ("fn-has-known-maximum", "fn_has_known_maximum"), ("fn-get-maximum", "fn_get_maximum"), ("fn-get-bv-size", "fn_get_bv_size"),
  ("fn-provides-incremental-evaluation", "fn_provides_incremental_evaluation"), ("fn-walsh-transform", "fn_walsh_transform"),
  ("fn-display", "fn_display"), ("map-display", "map_display"), ("prior-noise", "prior_noise"),
  ("parsed-modifier", "parsed_modifier"), ("additive-gaussian-noise", "additive_gaussian_noise"), ("minimize", "minimize"),
  ("restart", "restart"), ("print-results", "print_results"), ("cache", "cache"), ("cache-budget", "cache_budget"),
  ("stop-on-maximum", "stop_on_maximum"), ("concrete-solution", "concrete_solution"),
  ("print-description", "print_description"), ("incremental-evaluation", "incremental_evaluation"),
  ("rls-strict", "rls_strict"), ("ea-allow-no-mutation", "ea_allow_no_mutation"), ("mmas-strict", "mmas_strict"),
  ("bm-negative-positive-selection", "bm_negative_positive_selection")]

set_option maxRecDepth 100000 in
theorem readParams_ok : (readParams.all fun r => isParam r.1 r.2.1 r.2.2) = true := by decide +kernel

set_option maxRecDepth 100000 in
theorem readOptionals_ok : (readOptionals.all fun r => isOptional r.1 r.2) = true := by decide +kernel

set_option maxRecDepth 100000 in
theorem readFlags_ok : (readFlags.all fun r => isFlag r.1 r.2) = true := by decide +kernel

theorem params_ok (i : Nat) {name member : String} {kind : OptKind} (h : readParams[i]? = some (name, member, kind)) :
    isParam name member kind = true := List.all_eq_true.mp readParams_ok _ (List.mem_of_getElem? h)

theorem optionals_ok (i : Nat) {name member : String} (h : readOptionals[i]? = some (name, member)) :
    isOptional name member = true := List.all_eq_true.mp readOptionals_ok _ (List.mem_of_getElem? h)

theorem flags_ok (i : Nat) {name member : String} (h : readFlags[i]? = some (name, member)) :
    isFlag name member = true := List.all_eq_true.mp readFlags_ok _ (List.mem_of_getElem? h)

/-- The parameters of maps. -/
def mapParams : List (String × String × OptKind) := [("map-input-size", "map_input_size", .int),
  ("map-ts-length", "map_ts_length", .int), ("map-ts-sampling-mode", "map_ts_sampling_mode", .int), ("map-path", "map_path", .string)]

/-- The flags of maps. -/
def mapFlags : List (String × String) := [("map-random", "map_random"), ("map-surjective", "map_surjective")]

set_option maxRecDepth 100000 in
theorem mapParams_all : (mapParams.all fun r => isParam r.1 r.2.1 r.2.2) = true := by decide +kernel

set_option maxRecDepth 100000 in
theorem mapFlags_all : (mapFlags.all fun r => isFlag r.1 r.2) = true := by decide +kernel

theorem mapParams_ok (i : Nat) {name member : String} {kind : OptKind} (h : mapParams[i]? = some (name, member, kind)) :
    isParam name member kind = true := List.all_eq_true.mp mapParams_all _ (List.mem_of_getElem? h)

theorem mapFlags_ok (i : Nat) {name member : String} (h : mapFlags[i]? = some (name, member)) :
    isFlag name member = true := List.all_eq_true.mp mapFlags_all _ (List.mem_of_getElem? h)

theorem appOptionsOf_settings (hs : Settings hncoClass lib items s) (hf : ∀ i ∈ items, FineItem lib i)
    (hdocs : ∀ i ∈ items, i.1 ∈ hncoClass.help) : ∃ o, appOptionsOf s = ok o ∧ AppSettings lib items o := by
  obtain ⟨b, hb, hb'⟩ := param_int hs hf (show isParam "budget" "budget" .int = true from params_ok 4 rfl)
  obtain ⟨t, ht, ht'⟩ := param_optional hs hf hdocs (show isOptional "target" "target" = true from optionals_ok 0 rfl)
  refine ⟨_, by simp only [appOptionsOf, hb, ht, ok_bind]; rfl, ⟨hb', ?_, ?_, ?_, ht', ?_, ?_⟩⟩
  · exact flag_raised hs hdocs (show isFlag "cache" "cache" = true from flags_ok 15 rfl)
  · exact flag_raised hs hdocs (show isFlag "cache-budget" "cache_budget" = true from flags_ok 16 rfl)
  · exact flag_raised hs hdocs (show isFlag "stop-on-maximum" "stop_on_maximum" = true from flags_ok 17 rfl)
  · exact flag_raised hs hdocs (show isFlag "concrete-solution" "concrete_solution" = true from flags_ok 18 rfl)
  · exact flag_raised hs hdocs (show isFlag "print-description" "print_description" = true from flags_ok 19 rfl)

theorem factoryOptionsOf_settings (hs : Settings hncoClass lib items s) (hf : ∀ i ∈ items, FineItem lib i) :
    ∃ o, factoryOptionsOf s = ok o ∧ FunctionSettings lib items o := by
  obtain ⟨f, h1, h1'⟩ := param_int hs hf (show isParam "function" "function" .int = true from params_ok 5 rfl)
  obtain ⟨n, h2, h2'⟩ := param_int hs hf (show isParam "bv-size" "bv_size" .int = true from params_ok 6 rfl)
  obtain ⟨t, h3, h3'⟩ := param_int hs hf (show isParam "fn-threshold" "fn_threshold" .int = true from params_ok 7 rfl)
  obtain ⟨a, h4, h4'⟩ := param_int hs hf (show isParam "fn-num-traps" "fn_num_traps" .int = true from params_ok 8 rfl)
  obtain ⟨p, h5, h5'⟩ := param_int hs hf (show isParam "fn-prefix-length" "fn_prefix_length" .int = true from params_ok 9 rfl)
  obtain ⟨c, h6, h6'⟩ := param_int hs hf
    (show isParam "rep-categorical-representation" "rep_categorical_representation" .int = true from params_ok 10 rfl)
  refine ⟨_, by simp only [factoryOptionsOf, h1, h2, h3, h4, h5, h6, ok_bind]; rfl,
    ⟨⟨f, h1', ?_, ?_⟩, h2', h3', ⟨a, h4', ?_⟩, ⟨p, h5', ?_⟩, ⟨c, h6', ?_, ?_⟩⟩⟩
  · intro h; simp [functionNumber, h]
  · intro h; simp only [functionNumber]; rw [if_neg (by omega)]; omega
  · simp only; omega
  · simp only; omega
  · intro h; simp [representationNumber, h]
  · intro h; simp only [representationNumber]; rw [if_neg (by omega)]; omega

theorem algOptionsOf_settings (hs : Settings hncoClass lib items s) (hf : ∀ i ∈ items, FineItem lib i)
    (hdocs : ∀ i ∈ items, i.1 ∈ hncoClass.help) : ∃ o, algOptionsOf s = ok o ∧ AlgorithmSettings lib items o := by
  obtain ⟨algorithm, ealgorithm, halgorithm⟩ := param_int hs hf (show isParam "algorithm" "algorithm" .int = true from params_ok 11 rfl)
  obtain ⟨numIterations, enumIterations, hnumIterations⟩ := param_int hs hf
    (show isParam "num-iterations" "num_iterations" .int = true from params_ok 12 rfl)
  obtain ⟨neighborhood, eneighborhood, hneighborhood⟩ := param_int hs hf
    (show isParam "neighborhood" "neighborhood" .int = true from params_ok 13 rfl)
  obtain ⟨neighborhoodIterator, eneighborhoodIterator, hneighborhoodIterator⟩ := param_int hs hf
    (show isParam "neighborhood-iterator" "neighborhood_iterator" .int = true from params_ok 14 rfl)
  obtain ⟨radius, eradius, hradius⟩ := param_int hs hf (show isParam "radius" "radius" .int = true from params_ok 15 rfl)
  obtain ⟨rlsPatience, erlsPatience, hrlsPatience⟩ := param_int hs hf
    (show isParam "rls-patience" "rls_patience" .int = true from params_ok 16 rfl)
  obtain ⟨saNumTransitions, esaNumTransitions, hsaNumTransitions⟩ := param_int hs hf
    (show isParam "sa-num-transitions" "sa_num_transitions" .int = true from params_ok 17 rfl)
  obtain ⟨saNumTrials, esaNumTrials, hsaNumTrials⟩ := param_int hs hf
    (show isParam "sa-num-trials" "sa_num_trials" .int = true from params_ok 18 rfl)
  obtain ⟨eaMutationRate, eeaMutationRate, heaMutationRate⟩ := param_optional hs hf hdocs (show isOptional "ea-mutation-rate" "ea_mutation_rate" = true from optionals_ok 1 rfl)
  obtain ⟨eaMutationRateMin, eeaMutationRateMin, heaMutationRateMin⟩ := param_optional hs hf hdocs (show isOptional "ea-mutation-rate-min" "ea_mutation_rate_min" = true from optionals_ok 2 rfl)
  obtain ⟨eaMutationRateMax, eeaMutationRateMax, heaMutationRateMax⟩ := param_double hs hf
    (show isParam "ea-mutation-rate-max" "ea_mutation_rate_max" .double = true from params_ok 19 rfl)
  obtain ⟨eaSuccessRatio, eeaSuccessRatio, heaSuccessRatio⟩ := param_double hs hf
    (show isParam "ea-success-ratio" "ea_success_ratio" .double = true from params_ok 20 rfl)
  obtain ⟨eaUpdateStrength, eeaUpdateStrength, heaUpdateStrength⟩ := param_double hs hf
    (show isParam "ea-update-strength" "ea_update_strength" .double = true from params_ok 21 rfl)
  obtain ⟨eaMu, eeaMu, heaMu⟩ := param_int hs hf (show isParam "ea-mu" "ea_mu" .int = true from params_ok 22 rfl)
  obtain ⟨eaLambda, eeaLambda, heaLambda⟩ := param_int hs hf (show isParam "ea-lambda" "ea_lambda" .int = true from params_ok 23 rfl)
  obtain ⟨eaTournamentSize, eeaTournamentSize, heaTournamentSize⟩ := param_int hs hf
    (show isParam "ea-tournament-size" "ea_tournament_size" .int = true from params_ok 24 rfl)
  obtain ⟨eaCrossoverBias, eeaCrossoverBias, heaCrossoverBias⟩ := param_double hs hf
    (show isParam "ea-crossover-bias" "ea_crossover_bias" .double = true from params_ok 25 rfl)
  obtain ⟨eaItInitialHammingWeight, eeaItInitialHammingWeight, heaItInitialHammingWeight⟩ := param_int hs hf
    (show isParam "ea-it-initial-hamming-weight" "ea_it_initial_hamming_weight" .int = true from params_ok 26 rfl)
  obtain ⟨eaItReplacement, eeaItReplacement, heaItReplacement⟩ := param_int hs hf
    (show isParam "ea-it-replacement" "ea_it_replacement" .int = true from params_ok 27 rfl)
  obtain ⟨populationSize, epopulationSize, hpopulationSize⟩ := param_int hs hf
    (show isParam "population-size" "population_size" .int = true from params_ok 28 rfl)
  obtain ⟨selectionSize, eselectionSize, hselectionSize⟩ := param_int hs hf
    (show isParam "selection-size" "selection_size" .int = true from params_ok 29 rfl)
  obtain ⟨learningRate, elearningRate, hlearningRate⟩ := param_double hs hf
    (show isParam "learning-rate" "learning_rate" .double = true from params_ok 30 rfl)
  obtain ⟨ramTsLength, eramTsLength, hramTsLength⟩ := param_int hs hf
    (show isParam "ram-ts-length" "ram_ts_length" .int = true from params_ok 31 rfl)
  obtain ⟨ramTsLengthDistributionParameter, eramTsLengthDistributionParameter, hramTsLengthDistributionParameter⟩ := param_double hs hf
    (show isParam "ram-ts-length-distribution-parameter" "ram_ts_length_distribution_parameter" .double = true from params_ok 32 rfl)
  obtain ⟨ramTsLengthIncrementPeriod, eramTsLengthIncrementPeriod, hramTsLengthIncrementPeriod⟩ := param_int hs hf
    (show isParam "ram-ts-length-increment-period" "ram_ts_length_increment_period" .int = true from params_ok 33 rfl)
  obtain ⟨ramTsLengthLowerBound, eramTsLengthLowerBound, hramTsLengthLowerBound⟩ := param_int hs hf
    (show isParam "ram-ts-length-lower-bound" "ram_ts_length_lower_bound" .int = true from params_ok 34 rfl)
  obtain ⟨ramTsLengthMode, eramTsLengthMode, hramTsLengthMode⟩ := param_int hs hf
    (show isParam "ram-ts-length-mode" "ram_ts_length_mode" .int = true from params_ok 35 rfl)
  obtain ⟨ramTsLengthUpperBound, eramTsLengthUpperBound, hramTsLengthUpperBound⟩ := param_int hs hf
    (show isParam "ram-ts-length-upper-bound" "ram_ts_length_upper_bound" .int = true from params_ok 36 rfl)
  obtain ⟨ramCrossoverProbability, eramCrossoverProbability, hramCrossoverProbability⟩ := param_double hs hf
    (show isParam "ram-crossover-probability" "ram_crossover_probability" .double = true from params_ok 37 rfl)
  obtain ⟨ramLatentSpaceProbability, eramLatentSpaceProbability, hramLatentSpaceProbability⟩ := param_double hs hf
    (show isParam "ram-latent-space-probability" "ram_latent_space_probability" .double = true from params_ok 38 rfl)
  obtain ⟨heaBoundMoment, eheaBoundMoment, hheaBoundMoment⟩ := param_bool hs hf
    (show isParam "hea-bound-moment" "hea_bound_moment" .bool = true from params_ok 39 rfl)
  obtain ⟨heaRandomizeBitOrder, eheaRandomizeBitOrder, hheaRandomizeBitOrder⟩ := param_bool hs hf
    (show isParam "hea-randomize-bit-order" "hea_randomize_bit_order" .bool = true from params_ok 40 rfl)
  obtain ⟨heaResetPeriod, eheaResetPeriod, hheaResetPeriod⟩ := param_int hs hf
    (show isParam "hea-reset-period" "hea_reset_period" .int = true from params_ok 41 rfl)
  obtain ⟨bmNumGsCycles, ebmNumGsCycles, hbmNumGsCycles⟩ := param_int hs hf
    (show isParam "bm-num-gs-cycles" "bm_num_gs_cycles" .int = true from params_ok 42 rfl)
  obtain ⟨bmNumGsSteps, ebmNumGsSteps, hbmNumGsSteps⟩ := param_int hs hf
    (show isParam "bm-num-gs-steps" "bm_num_gs_steps" .int = true from params_ok 43 rfl)
  obtain ⟨bmResetMode, ebmResetMode, hbmResetMode⟩ := param_int hs hf
    (show isParam "bm-reset-mode" "bm_reset_mode" .int = true from params_ok 44 rfl)
  obtain ⟨bmSamplingMode, ebmSamplingMode, hbmSamplingMode⟩ := param_int hs hf
    (show isParam "bm-sampling-mode" "bm_sampling_mode" .int = true from params_ok 45 rfl)
  have hincrementalEvaluation := flag_raised hs hdocs (show isFlag "incremental-evaluation" "incremental_evaluation" = true from flags_ok 20 rfl)
  have hrlsStrict := flag_raised hs hdocs (show isFlag "rls-strict" "rls_strict" = true from flags_ok 21 rfl)
  have heaAllowNoMutation := flag_raised hs hdocs (show isFlag "ea-allow-no-mutation" "ea_allow_no_mutation" = true from flags_ok 22 rfl)
  have hmmasStrict := flag_raised hs hdocs (show isFlag "mmas-strict" "mmas_strict" = true from flags_ok 23 rfl)
  have hbmNegativePositiveSelection := flag_raised hs hdocs (show isFlag "bm-negative-positive-selection" "bm_negative_positive_selection" = true from flags_ok 24 rfl)
  refine ⟨_, by
    simp only [algOptionsOf, algOptionsOf1, ealgorithm, enumIterations, eneighborhood, eneighborhoodIterator, eradius, erlsPatience, esaNumTransitions, esaNumTrials,
      eeaMutationRate, eeaMutationRateMin, eeaMutationRateMax, eeaSuccessRatio, eeaUpdateStrength, eeaMu, eeaLambda,
      eeaTournamentSize, eeaCrossoverBias, eeaItInitialHammingWeight, eeaItReplacement, epopulationSize, eselectionSize,
      elearningRate, eramTsLength, eramTsLengthDistributionParameter, eramTsLengthIncrementPeriod, eramTsLengthLowerBound,
      eramTsLengthMode, eramTsLengthUpperBound, eramCrossoverProbability, eramLatentSpaceProbability, eheaBoundMoment,
      eheaRandomizeBitOrder, eheaResetPeriod, ebmNumGsCycles, ebmNumGsSteps, ebmResetMode, ebmSamplingMode, ok_bind]
    rfl, ⟨halgorithm, hnumIterations, hneighborhood, hneighborhoodIterator, hradius, hincrementalEvaluation, hrlsPatience,
      hrlsStrict, hsaNumTransitions, hsaNumTrials, heaAllowNoMutation, heaMutationRate, heaMutationRateMin, heaMutationRateMax,
      heaSuccessRatio, heaUpdateStrength, heaMu, heaLambda, heaTournamentSize, heaCrossoverBias, heaItInitialHammingWeight,
      heaItReplacement, hpopulationSize, hselectionSize, hlearningRate, hramTsLength, hramTsLengthDistributionParameter,
      hramTsLengthIncrementPeriod, hramTsLengthLowerBound, hramTsLengthMode, hramTsLengthUpperBound, hramCrossoverProbability,
      hramLatentSpaceProbability, hmmasStrict, hheaBoundMoment, hheaRandomizeBitOrder, hheaResetPeriod, hbmNumGsCycles,
      hbmNumGsSteps, hbmResetMode, hbmSamplingMode, hbmNegativePositiveSelection⟩⟩

end Hnco
