# Formal model of hnco: design

The subject is `courros/hnco` (C++), source in `/repo`, read as text.  The model and the proofs are
in Lean 4 (`/verif/lean`).  `properties.jsonl` lists the properties, `MANIFEST.json` maps each of
them to theorem names.

## Layout

* `Verif/Base.lean` - outcomes of C++ computations (`ok` / `throw` / `ub`), vector accesses, counted
  loops and their invariant rule.  `Verif/Random.lean`, `Verif/Sort.lean` - computations which draw
  random numbers, sorting.  `Verif/Text.lean` - text streams.  `Verif/Algorithm/Alg.lean` - search
  algorithms with a state which survives exceptions.
* Model files - the model, function by function; each definition cites file and lines of `/repo` and
  names its simplifications.  These are `Verif/<Area>/Model.lean` and, in the larger areas, one file
  per group of classes (`Function/{Theory,Peaks,Ising,Walsh,Qubo,MaxSat,Sudoku,Collection,
  Cancellation,Controller}.lean`, `Representation/Adapter.lean`, `Algorithm/{LocalSearch,
  Evolutionary,ItEa,LambdaLambda,ProbabilityVector,Mimic,RamUmda,Population}.lean`,
  `Multiobjective/{Model,Nsga2}.lean`).
* `Verif/<Area>/*Lemmas.lean`, and `Matrix/{Bridge,Echelon,Elim,Elim2}.lean`, `Function/Sums.lean`,
  `Algorithm/Total.lean`, `Population/Generation.lean` - helper lemmas (not part of the claims).
* `Verif/<Area>/*Props.lean` (and `Map/Sampling.lean`) - the specification vocabulary at the top, the
  property theorems, and next to them an `example` showing that the hypotheses are met by a concrete
  non trivial case.  The comment of every property theorem starts with the identifier of the property.
* `tools/` - `manifest.py` collects the theorem names for `MANIFEST.json` from these comments,
  `status.json` holds the status and the notes, `imports.py` writes `Verif.lean`, and `mutate.py`
  applies wrong programs to a scratch copy and logs them in `seeded/LOG.jsonl`.  An edit counts as caught when a proof no longer
  compiles.  This is weaker than showing that the statement has become false: when the first failure is a helper lemma, the
  theorems which depend on it (`claim_theorems_not_rebuilt`, or later in the same file) are not tested further.

## Modelling conventions

* **Undefined behaviour is an outcome.**  Indexing goes through `vget`/`vset`, which give `ub` out of
  range.  A failed `assert` is also `ub`; so are a read of an uninitialised variable, `std::clamp` with
  reversed bounds, a signed overflow and a division by a zero count where they are modelled.
  `f x = .ok y` therefore includes absence of all of these.  Where a loop scans a vector from begin to
  end and no index can be out of range, structural recursion on the list is used instead.
* **Bits** are `Bool`: only vectors accepted by `bv_is_valid` are modelled.
* **Integers.** `int`/`size_t` are `Int`/`Nat` unless the property is about overflow, in which case
  the wrap-around or overflow is modelled explicitly (`BitVec 64`, or `ub` for signed overflow).
* **Floating point** is not modelled.  `double` values are elements of an arbitrary linear order where
  the code only compares them, of an ordered ring or field (or `Int`/`Rat`) where it computes with
  them.  Theorems therefore speak about exact arithmetic; rounding and NaN are outside.  Infinity is
  an added top element in the crowding distances (`WithTop Rat`).  `sin`, `log`, `exp`, the logistic
  function, `ceil(log(m)/log(2))` and `std::stod` are parameters of the model; theorems state what
  they need about them.  Final square roots are not modelled.
* **Randomness** is a list of raw draws over which theorems quantify universally (`Sim`): every
  distribution maps a raw draw onto its whole range, so that quantifying over lists of draws is
  quantifying over all outcomes.  `std::shuffle` is an arbitrary permutation.  This model has no
  probabilities, only the set of possible outcomes.  A second model (`Prob/`) gives the samplers their
  laws, as sub-probabilities on their results, from the laws of the primitives of the standard library
  (`uniform_int_distribution`, `binomial_distribution`, `discrete_distribution`, and the test
  `uniform() < p`), which are trusted, together with the independence of successive draws;
  `law_reached` links both models.  A run that has used up its list gives no result
  (`out`).  `Sim.Post`, `Alg.Holds` speak about all the runs that do end, and exclude `ub`; `PostOk`,
  `HoldsOk` speak about the runs which end without an exception; `Sim.Within`, `Alg.Within` (total
  correctness) say that the run ends given enough draws; `Sim.Reaches` says that an outcome is possible.
* **Sorting**: `std::sort`, `std::partial_sort` and `std::nth_element` leave the order of equivalent
  elements unspecified: the model gives any rearrangement allowed by the standard, chosen by a draw,
  and `ub` if the comparison is not a strict weak order.  An `unordered_set` is traversed in any order:
  it is shuffled before each traversal.
* **Unbounded loops**: `while` loops are recursive functions where a measure decreases.  Elsewhere
  they have a number of steps as argument (`algLoop`, `frontLoop`, `splitString`); theorems hold for
  every number of steps, or show that there are enough of them.  Runs "until interrupted" are runs
  with an arbitrary number of iterations.
* **Exceptions** of algorithms keep the state in which they are thrown (`Alg`), because the solution
  is read after `LastEvaluation` or `TargetReached`.
* **Virtual functions and mutable objects** become parameters and explicit state passed through.  An
  algorithm evaluates through `Env`, whose evaluation may depend on its own state and throw; the
  hypothesis `Env.Computes` says that a value, when there is one, is that of a fixed function.  The list of evaluated
  vectors is ghost state.
* **Threads**: parallel evaluation is modelled as an arbitrary schedule of atomic per-individual
  writes.

## Trusted base

* Lean 4 kernel, and the axioms `propext`, `Classical.choice`, `Quot.sound` (no other axiom, no
  `sorry`, no `native_decide`, no `bv_decide`).  Every theorem depends on a subset of these three.
* The reading of the C++ text by the author of the model: nothing is run against the code, and only the
  tables of options are extracted from it (by `tools/options.py`, which is trusted for them).
* The conventions above (exact arithmetic, no resource limits).

### What is modelled

| Source (under `lib/hnco`) | Modelled | Not modelled |
|---|---|---|
| `bit-vector`, `sparse-bit-vector` | conversions, addition, flips, weights, sampling by weight, text | `sbv_display` |
| `bit-matrix` | all algebraic functions | `bm_display`, `bm_random` (any matrix) |
| `permutation` | `perm_is_valid`, `perm_identity`, `perm_random` | `perm_display` |
| `iterator`, `neighborhoods/*` | all | - |
| `maps/*` | all maps, transvections, samplers (serialisation: see below) | display |
| `functions/function`, `controllers`, `modifiers/*` (prior noise, parsed modifier and additive noise with the expression and the variates as parameters), `walsh-term` | evaluation, incremental evaluation, safe evaluation, Walsh transforms | display; the wall clock |
| `functions/collection` | theory, linear, jump, trap, four-peaks, long-path, cancellation, ising, walsh, qubo, max-sat, factorization, sudoku, tsp, partition, equal-products, labs, nk-landscape | plugin, python and parsed functions |
| `functions/*-adapter`, `representations/*` | unpacking, sizes, errors | display |
| `algorithms` | complete search, random search, local search, restart, evolutionary algorithms, probability vectors, walsh moments, MIMIC, human, populations, crossover, selection | `fast-efficient-p3`, `gomea` (wrappers of other libraries), logging |
| `multiobjective` | values, Pareto fronts, populations, tournament, NSGA-II, iterative algorithm, parsed functions, adapters, algorithm factory, output of the application | python functions, universal adapter |
| `app` | `parser`, `make_function_controller`, `make_map`, `make_function_modifier`, `make_multivariate_function_adapter` and its variants, `application` (maximize, results, solution, load) | other factories, printing of information |
| `serialization.hh`, members `save`, `load`, `serialize`, `app/mapgen.cc` | archives as sequences of numbers; what is written and read by each class, the checks made after loading, `generate_map` | the archives of boost themselves (their behaviour on malformed items is assumed, unchecked), opening files |
| `app/ffgen.cc`, members `generate` and `random` of the functions it writes | the file which is written, for each type of function and generator; sizes are natural numbers | messages |
| `app/function-factory.cc` | the function which is made from the number, the options and the file; the `Tsp` instances read from files in TSPLIB format (`App/TspFactory.lean`) | factorization, parsed functions, plugins and Python are only named |
| `app/algorithm-factory.cc` | the algorithm which is made from the number and the options, with its constructor and setters | the wrappers of other libraries are only named; exact arithmetic also for products of sizes (`n * n`) |
| `app/application` (`print_information`) | which information is printed, with its values, and the Walsh transform including its evaluations, sorting and normalization | the text which functions and maps display; the warning about large sizes |
| `app/hnco.cc`, `app/application` (`run`) | the ends of the program for a command line: pages, messages, information, results, exit status, undefined behaviour; maps, random or loaded; files are a parameter | several threads, noise and expressions, incremental evaluation, wrapped algorithms (the model says nothing about these: `Prepared.notModelled`); saved files |
| `app/hnco-options`, `ffgen-options`, `mapgen-options`, `multiobjective/app/hnco-mo-options` | reading command lines, getters and flags, printing of the parameters; the tables in `App/OptionTables.lean` are generated from these files by `tools/options.py`, which stops at any line it does not know | the text of the help pages beyond names, types and defaults; `getopt_long`, `atoi` and `strtoul` of glibc are modelled as documented (with `POSIXLY_CORRECT` unset), `atof` and the output of a `double` are parameters |
| `tests/*.cc` | the test programs listed in C99 to C103, with their literal sizes and numbers of runs as parameters | output on success |
| `logging`, `stop-watch`, `bindings`, `lib/fparser` | - | all |

## Properties: what is modelled and how it is proved

| Id | Model | Proof |
|---|---|---|
| C01 | word conversion loops over `BitVec 64` | bit-level characterisation of the loop, induction |
| C02 | `bv_add`, weight, distance on lists | induction on lists |
| C03 | selection sampling with an arbitrary list of rational draws in [0,1) | invariant: remaining k <= remaining n |
| C04 | strings as lists of characters | induction |
| C05 | `bv_flip` with bounds check | pointwise characterisation |
| C06 | iterator state machine, `has_next`/`next` | refinement to counting in binary |
| C07 | loop over the iterator with `update_solution` | C06 + invariant |
| C08 | iterator state machine | invariant, then list equality |
| C09 | iterator on index combinations | successor in lexicographic order, completeness by measure |
| C10 | neighbourhood state, samplers over draw streams | invariant over operation lists |
| C11 | `bm_row_echelon_form`, `bm_rank` with bounds checks | echelon invariant, row operations preserve the image |
| C12, C13 | elimination loops | row operations preserve solution sets; triangular systems |
| C14 | element-wise matrix operations | pointwise characterisation |
| C15, C16 | transvection application | pointwise algebra over F2 |
| C17 | samplers over draws and permutations | invariants; integer square root for the split |
| C18-C21 | map classes | algebra, witness for negative parts |
| C22-C25 | controllers as state machines over call histories | induction over histories |
| C26, C27 | evaluation and incremental evaluation | induction over flip lists; edge-wise accounting |
| C28-C33 | evaluation functions and declared maxima | bound + witness, induction |
| C34 | plain and fast transforms | character orthogonality, induction on levels |
| C35 | loader on token lists, evaluation | induction |
| C36-C39 | unpack functions; sizes given by an arbitrary `ceilLog2`, with the exact one as a special case | arithmetic on binary encodings |
| C40, C41 | clause evaluation, generator over draws, character-level parser | induction; parser/printer round trip |
| C42 | factor decoding and weighted Hamming distance | arithmetic |
| C43 | board generation and evaluation | counting argument, permutation argument |
| C44, C45 | evaluation functions | sums over permutations, complement symmetry |
| C46-C48 | population sorting and selection operators | sorting permutations; witness for the tournament defect |
| C49, C50, C54 | local search state machines | invariants over executions, witness for the random walk defect |
| C51, C52 | probability vector updates over an ordered field | invariants; the defect of NPS-PBIL is proved for all executions |
| C53 | whole algorithm, tie counting loop with bounds check | characterisation of the `ub` outcome, invariant of the iterations |
| C55, C56 | dominance, front computation, survivor selection | loop invariants; induction on rounds |
| C57 | schedules of writes | commutation |
| C58, C59 | moment accumulation and samplers with bounds checks | invariants; `ub` characterised |
| C60 | MIMIC model update | permutation invariant |
| C61 | `split_string` with `find`/`substr` | induction on the search |
| C62 | restart loop over run results | invariant |
| C63 | cache above the other controllers, parallel schedule | witness: the controllers below do not see the evaluations |
| C64 | crossover over draws | pointwise characterisation, reachability of every mixture |
| C65 | rate updates with `clamp` | invariant; `ub` for small sizes characterised |
| C66 | herding state machine | invariant over histories of samples |
| C67 | moment based algorithms over an ordered field | invariant of iterations |
| C68 | both versions, with transvection sequences | invariant of iterations; witness for the second version |
| C69 | parser on lists of characters, `stod` a parameter | splitting is unique (C61); induction on declarations |
| C70 | generation over draws, evaluation over a field | invariant of sequential sampling, reachability of every instance; binary digits |
| C71 | stack of controllers built from the options; an algorithm is any function from past evaluations to the next vector | compositional invariant per controller, induction on the run |
| C72 | maps drawn in the draw monad; a function with noise has a hidden state and draws; modifiers stacked as in `make_function_modifier` | compositional: each modifier carries the exact set of values it can give from any state (post-condition and reachability) |
| C73 | parameters of representations chosen in an environment (a function from names); representations of C36-C39 | the loop which completes the environment is characterised by induction; soundness and surjectivity of each representation are lifted to the adapter by induction on the variables |
| C74 | discrete distributions by cumulated weights in an ordered field, the variate being an argument; the exponential is a parameter, instantiated with the real one | the search of the index is characterised by induction on the weights; the shares are invariant under scaling |
| C75 | the loop as a big step relation over the iterators of C08 and C09 | induction on the enumeration of the neighbours; the loop has a single outcome |
| C76 | `Multiobjective/Parsed.lean`: constructor, `parse`, `evaluate`, both adapters with their state; the parser of expressions is a parameter | invariant of the state of the adapter preserved by evaluations; the index table inverts the sorted list of names; loop invariants for the three nested copies |
| C77 | `Multiobjective/Application.lean`: converters, `manage_solutions`, `run`, algorithm factory | induction on objectives for sums; the specification of NSGA-II (C56) and of Pareto fronts (C55) for the application |
| C78 | standard input as a list of words | induction on the input |
| C79 | `Verif/Serialization/Model.lean`: an archive is the sequence of the numbers written; `save` and `load` of maps and functions, `loadMap`, `mapgen`. What the text archives of boost do with malformed items is assumed, since the source of boost is not available; opening files is left out. | `RoundTrip` for each class, by induction on vectors; `loadMap_sound` from the assertions made after loading and the theorems on maps (C11, C19, C21); `mapgen_then_load` is an equality of programs, using the postconditions of the random maps. |
| C80 | `App/Ffgen.lean`: the functions `generate` and `random` as loops which draw each number in the order of the code, and `ffgen` as a program which returns the file written (an archive in the sense of C79, or a text). `App/FfgenSpec.lean`: `Sim.Exactly m P` says that the results of `m` over all draws are exactly the values which satisfy `P`. | Post-conditions by invariants of the loops (rows filled so far), and converses by running the loops on the draws which give the wanted entries. |
| C81 | App/Factory.lean: makeFunction, with the sub-models of each function; the cases of factorization, travelling salesman, parsed functions, plugins and Python are only named | by cases on the function number, from the theorems about each function: factory_constructed, factory_counts, factory_prefixes, factory_blocks, factory_sequences, factory_longPath, factory_doubling, factory_loaded_sound, factory_loaded_size, factory_not_archive, factory_no_size, factory_unknown |
| C82 | App/Ffgen.lean and App/Factory.lean; App/FactoryFileSpec.lean: LoadsWith (the factory makes a sound function of a size with given values, whatever the size option) and SudokuPlayable | post-conditions of ffgen (C80), round trip of archives and texts (C79, C41, C43), value theorems of each function, and decoding by the adapter (C39) |
| C83 | `Verif/Function/TspLoad.lean` reads the text character by character as `getline` and `>>` do, including what is left in a variable when an extraction fails; `Verif/App/TspFactory.lean` is case 200 of the factory. Reading a floating point number and the square root are parameters. | `Verif/Function/TspLoadProps.lean`: an invariant over the lines of the header (last key, last value, dimension and type of distance read so far), induction over the listed cities, then the table of distances of C44; `Verif/App/TspFactoryProps.lean` combines with the permutation representation of C38 and the adapter of C39. The vocabulary (first word, field, header line, listed cities, distance) is in `Verif/Function/TspLoadSpec.lean`. |
| C84 | The models of the algorithms (`Verif/Algorithm/*.lean`, `Verif/Walsh/Model.lean`) with the ghost list of evaluated vectors. | `Verif/Algorithm/Counts.lean`: a Hoare style judgement which bounds the evaluations of a computation from below and above and keeps the sizes of the populations, with rules for every construct and for the loop; `Verif/Algorithm/CountProps.lean` derives the counts of each algorithm. |
| C85 | `Verif/App/AlgorithmFactory.lean`: the factory, case by case, with the constructors it calls; FastEfficientParameterlessPopulationPyramid and GOMEA (wrappers of other libraries) are only named. `Verif/App/AlgorithmFactorySpec.lean`: which options are in order, and the plan of evaluations of each algorithm. | `Verif/App/AlgorithmFactoryProps.lean`: each case from the theorems on the algorithm (C11-C30, C79-C84); `Verif/Algorithm/Calm*.lean`: errors of each algorithm come from the function; `Verif/App/AlgorithmFactoryMoreProps.lean`: interruptions, complete search, hill climbing, refusals. |
| C86 | `Verif/App/AlgorithmFactory.lean`, `Verif/Algorithm/LocalSearch.lean`, `Verif/Neighborhood/Model.lean`. Specification: `Verif/Algorithm/PathSpec.lean` (search paths, rejections in a row) and `Verif/App/FactoryPathSpec.lean` (steps and comparison given by the options). | `Verif/App/FactoryPathProps.lean`, from invariants in `Verif/Algorithm/PathLemmas.lean`, `PatienceLemmas.lean`, `ClimbPath.lean`; the converse in `Verif/Algorithm/PathReach.lean` by constructing the draws of each iteration. |
| C87 | `Verif/App/HncoRun.lean`: the function with its controllers as seen by an algorithm (`FnStack.env`), the end of `maximize` (`appConclude`) and the restart decorator around a made algorithm. Incremental evaluation and several threads are not modelled here. The algorithms do not record the vector whose evaluation has been interrupted; the theorems hold for every vector which would be interrupted at this point. | `Verif/App/HncoRunProps.lean`, from C71 (controllers), C85 (algorithms), and the fact that algorithms go on only with evaluations which are not interrupted (`Verif/Algorithm/Steady.lean`, class instances for all algorithms). |
| C88 | Algorithm/Evolutionary, Algorithm/Population and App/AlgorithmFactory; the specification is in Algorithm/GenerationSpec and App/FactoryGenerationSpec: an inductive relation between the list of evaluations, what is kept, and the solution | invariant of the loops which relates the population to the list of evaluations (GenerationLemmas); for the converse, random numbers are given for each generation, including the permutations by which ties are broken (GenerationReach). The converse is not stated for the genetic algorithm, whose tournaments depend on a permutation shared by successive selections |
| C89 | Algorithm/Evolutionary and App/AlgorithmFactory; the specification is Algorithm/AdjustedSpec (an inductive relation between evaluations, position and the list of rates) and adjustmentOf in App/FactoryAdjustedProps. The distribution of the number of flipped bits is not modelled | one decision is computed and relates state and path (selfAdjustingDecide_eq); from it an invariant for the paths which are taken, and random numbers for those which are possible |
| C90 | App/Options (getopt_long, atoi, strtoul, the switch, getters) and App/OptionTables, generated from the four classes by tools/options.py; the specification is App/OptionsSpec. The text conversions of double are a parameter; glibc's getopt_long with POSIXLY_CORRECT unset is modelled as documented | the tables are checked against the help pages by evaluation, and then everything is proved for any class which passes this check |
| C91 | as for C90; Problem in App/OptionsSpec says why a program ends | the events of getopt_long are split at the first one which ends the program; a word with a dash either spells an option or gives '?' |
| C92 | App/Options (printLines) and App/OptionTables; the last lines about the program and the ends of lines are left out | the printed statements are checked against the help pages by evaluation; induction on them gives a command line in the sense of C90 |
| C93 | `printInformation` and `appWalsh` in App/Information.lean: the vectors evaluated by the fast transform go through the stack of controllers in order, their values are transformed by the model of C34, and the terms are sorted in any order compatible with the comparison | the vectors evaluated are all vectors once, so the stack is not interrupted; a function which is not constant has a non-zero coefficient besides the mean (Walsh inversion), so the norm is the largest magnitude among non-empty features; the printed lines are a permutation of the specified ones |
| C94 | `App/Main.lean`: reading of the options by the parts, `run`, `main` as a relation between command lines and ends; `App/MainSpec.lean` for the meaning of options | composition of C81, C86, C87, C90 and C91; table checks for the names of options |
| C95 | `Verif/App/MoMain.lean` (`hncoMoMain`, `moProgram`, `moMakeFunction`, `moMake`, `moFinish`) on the options of `Verif/App/OptionTables.lean`, read by `Verif/App/OptionRead.lean`; the specification is `Verif/App/MoMainSpec.lean`. The library which parses expressions, the text of the display and the number of threads of OpenMP are not modelled. | `hncoMo_double`, `hncoMo_long`, `hncoMo_complex`, `hncoMo_int`, `hncoMo_mixed` compose the theorems on options (C92), split expressions, representations (C73), adapters and NSGA-II; `hncoMo_parameters` for the default parameters. |
| C96 | `App/GenMain.lean`: the programs `ffgenMain` and `mapgenMain` on the words of the command line, with the option tables (C86), the generators (C79, C80) and the handlers of `main`; `GenEnd` distinguishes pages, exit statuses with or without file, uncaught exceptions and undefined behaviour. `App/GenMainSpec.lean`: what the options mean in terms of the help page, and `HncoFinds`, what a later run of `hnco` (C94) finds in the file. | `App/GenMainLemmas.lean` reads the options from any spelling; the files are those of C80 and C82, and the maps those of C72 and C79; the pipeline theorems compose with `hnco_complete` (C94). |
| C97 | `Tests/Model.lean`: the body of every test as a program over draws, with the number of runs and the largest size as parameters, calling the model of the library; `exitStatus` is the status of `main`; seeding is left out | `Tests/Props.lean`: `Succeeds` says that the run on any list of draws either runs out of draws or gives status 0, so that exceptions, undefined behaviour and status 1 are excluded; the proofs go through the specifications of the library functions (C01–C20); `Tests/Ends.lean`: for the fifteen tests which do not draw until something holds, `Ends` adds that there is a number of draws which always suffices, so that the program does end; `Tests/LiveProps.lean`: for the nine others, `Lives` says that from any prefix of draws the end with status 0 can be reached |
| C98 | `Tests/SearchModel.lean`: `searchFinds` runs the model of `CompleteSearch` on a function without stopping condition, `translatedSearch` composes with a random translation, and one definition per program; parameters instead of literals; the buffer of the composition starts afresh | `Tests/SearchProps.lean`: the algorithm evaluates every vector once and ends without exception (as C20, C81), its solution is the best of them, hence any value which is the maximum (C30–C33, C40...) is found; a translation is onto; `Ends` says that, given enough draws, the status is 0 |
| C99 | `Tests/IteratorModel.lean`: the main functions of eight test programs, and `bv_is_locally_maximal`; loops over iterators have a fuel, which the hypotheses bound from below by what is needed. | Enumeration theorems C08, C09 (with the new `hammingSphere_count`) and C49 (which now also says that the iterator can be used again). A vector no neighbour of which has more ones has only ones. `Tests/LiveProps.lean`: the test which draws again until the sizes fit can always end. |
| C100 | Tests/IncrementalModel.lean: each program as a computation on the stream of draws, on top of the models of neighbourhoods, functions, incremental evaluation and generators; the buffers of the Ising models are threaded from an iteration to the next. | Tests/IncrementalProps.lean (never a failure, by induction on the iterations, from C10 and the incremental evaluation theorems) and Tests/Live.lean, LiveLemmas.lean, LiveProps.lean (from any prefix of draws an end can be reached: a structural property preserved by sequencing and loops, where a loop that repeats until a condition needs a value which is reached and leaves it). |
| C101 | Tests/SerializeModel.lean: each program as a computation on the stream of draws, on top of the models of generators, archives, CNF files, functions and maps; numbers are drawn by any function of a draw and computed exactly; opening a file never fails. | Tests/SerializeProps.lean: the object drawn is valid (C96 and earlier), its archive is loaded back (C79, C41), its evaluation returns, and the number of draws is bounded; the loops which compare by induction. |
| C102 | Tests/MomentModel.lean and Tests/PopulationModel.lean: each program as a computation on the stream of draws, on top of the models of moments, herding, the Walsh transform, populations, Pareto fronts and parallel evaluation; numbers are exact; the schedule of the threads is an argument; Generator::reset gives the stream as it was at the start. | Tests/MomentProps.lean and Tests/PopulationProps.lean: the comparisons succeed by the theorems on moments, herding, transforms, fronts (IsFronts, with an induction on the distance of the fronts) and parallel evaluation (C57); the number of draws is bounded; all the threads' functions are the same because the stream is. |
| C103 | `Tests/RepresentationModel.lean` models the two test programs function by function on top of the representation model (`differenceIsSafe`, `dyadicExact`, `dyadicUnpack`, `floatWithSize`, `floatUnpack`); `Tests/EaModel.lean` the test of the (1+1) EA on top of the model of the algorithm and of the controllers. In double arithmetic `1 - 2^-100` rounds to 1, so that the comparison `x < b` of the float test can fail when the leading bits are all ones; this rounding is not modelled. | Hoare rules of `Sim` with the specifications of the representations (C38 and following) for each run, then induction on the runs; `Flows` for the loop which draws the bounds. |
| C104 | `hncoMap`, `hncoCompose`, `composedFn` and `hncoConclude` in App/Main.lean, on top of `makeMap` (App/Modifier.lean) and `loadMap` (Serialization/Model.lean). Specification in App/MainMapSpec.lean: `MappedRun`, `MapSettings`, `MapFile`, `MappedEnd`, `Presentable`, `MapRefused`; `MapKind` in App/ModifierProps.lean says which function a map of each kind computes. | The map which is made or loaded is known by C72 and C22; the composed function evaluates the image; then the run is the one of C87 on the composed function, and the end of the program maps the solution. |
| C105 | `Examples/Model.lean`: the programs `basic`, `custom`, `on-budget-function` and `stop-on-maximum`, for any constants. `Examples/AppModel.lean`: the factories of the programs with a command line, which are passed to `appPrepare` and `AppEnds` of `App/Main.lean`, and the function of `cli-universal-function`. The modulus of complex numbers is a parameter which is positive except at zero. The program `cli-universal-function` is not modelled as a whole, since its function draws random numbers to break ties; `onemax.c`, a plugin, is left out. | The algorithms are those of the factory (`makeAlgorithm_ok`, `makeAlgorithm_interrupted`), hence `RunOk` describes their runs; `MyAlgorithm` is random search by definition. The state of the controllers is computed from the evaluations made before. `app_program` generalises `hnco_program` to any factories. `universalUnpack_spec` gives the variables, and z² + z + 1 has no rational root. |
| C106 | `FParser/Syntax.lean`: literals, identifiers, the recursive functions `Compile...` with a bound on their nesting, inline variables and `ParseFunction`, for the parser of real numbers. They build a tree; the emission of code is separate. ASCII characters only, no units, no user functions; literals are exact rational numbers. `FParser/Grammar.lean`: the grammar, which does not mention the parser. | Soundness by induction on the bound (`FParser/Sound.lean`); completeness by induction on derivations, where a level with a loop is characterised by the state of the loop, with conditions on what may follow (`FParser/CompleteExpr.lean`, `FParser/CompleteProgram.lean`); the bound is never reached because each nested call gets a shorter text. Unambiguity follows since the parser is a function. |
| C107 | `FParser/Code.lean`: the opcodes, `Eval`, the emission of code by the functions `Compile...`, `CompilePowi`. Arithmetic is that of real numbers. `AddFunctionOpcode` is a parameter; `Optimize` (file fpoptimizer.cc) is not modelled. `FParser/Value.lean`: the value of an expression, which does not mention code. | Invariant: the code emitted so far leads to a stack whose height is `mStackPtr`, and the pending constant times (or plus) the top of the stack is the value of the operands read so far; induction on expressions (`FParser/EmitLemmas.lean`, `FParser/EmitExpr.lean`). `fp_pow` and the other functions are equal to those of the specification (`FParser/FnLemmas.lean`). |
| C108 | `FParser/Rules.lean`: the rules, transcribed one by one, as a relation between the pattern and the replacement; the classes of opcodes; `TryCompilePowi`. The choice of the rule to apply is not modelled: any rule may be applied anywhere, any number of times. Arithmetic is that of real numbers. | One lemma by rule: both sides are run symbolically on an arbitrary stack (`FParser/RunLemmas.lean`), and the results are compared (`FParser/RuleLemmas.lean`, `FParser/RulePowi.lean`). One counterexample by wrong rule. |
| C109 | `FParser/Deduce.lean`: the state of the parser (string of the names of variables, names, constants), `ParseVariables`, `Parse`, `ParseAndDeduceVariables`, `AddConstant`, the constructor of the parsed function and its evaluation, the parsed modifier, and the parsers of the expressions of a multiobjective function. The loop has a number of iterations, length of the text plus two, which is proved to be enough. Specification of the variables of an expression: `FParser/Variables.lean`. | Parsing with fewer variables than needed fails at the first missing one (`parseFunction_tracks`, by induction on the derivation). So the set of names grows and stays included in that of the program (`deduceLoop_finds`), names are disjoint pieces of the text (`deduceLoop_ends`), and the last parsing is that of C106. The value comes from C107. |
| C110 | `Prob/Samplers.lean`, a second model of the samplers in which a random computation is a sub-probability (`Prob/Dist.lean`): what is missing from one is the probability of not returning (exception, undefined behaviour, failed assertion, endless loop). A loop is the limit of its finite runs. Rates are real numbers. Specification: `Prob/Spec.lean` (distance, number of ones). | Sequential sampling of k bits is Pascal's rule (`trials_law`); rejection sampling is an induction on the number of bits already chosen (`rejection_loop`), and sorting counts the k! orders (`rejectionSampling_law`); a rejection loop is a geometric series (`repeatUntil_apply`). The laws of flipped bits become laws of mutants because flipping is a bijection between sets of bits and vectors (`mutate_apply`). |
| C111 | `Prob/Search.lean`, a second model of these algorithms in which iterations are sub-probabilities (`Prob/Dist.lean`). Evaluations are not interrupted by controllers. Rates are real numbers. Specification: `Prob/SearchSpec.lean` (maxima, probability of having missed them, expected number of iterations as the sum over t of the probability that t iterations are not enough). | The state of a search which accepts what is not worse reduces to a Markov chain on bit vectors (`rlsAfter_steps`). Upper bounds come from a drift argument and fitness levels (`drift_le`, `levels_le`); the equality for OneMax from a drift which is exactly one (`drift_eq`); convergence from a bound on the probability of finding a maximum in one iteration (`steps_geometric`). |
| C112 | `Prob/Walks.lean`, a second model in which iterations are sub-probabilities. Evaluations are not interrupted. Incremental evaluation in the random walk is not modelled here; the choice of the first temperature (`init_beta`) is in C126. `std::shuffle` is trusted to make all permutations equally likely. Specification: `Prob/WalkSpec.lean` (uniform and Boltzmann laws, stationary laws, laws which differ by at most eps on every event). | Detailed balance for weights (`boltzmann_stationary`): mutations are symmetric, the ratio of the acceptance probabilities is the one of the weights, and an update of the Gibbs sampler draws a bit from its conditional law. Convergence by Doeblin's argument (`doeblin`): a given vector is reached in one iteration (or one cycle, or n updates) with a probability bounded below. |
| C113 | `Prob/Populations.lean`, in the second model of C110-C112. Evaluations are sequential and not interrupted. The laws of what `perm_shuffle`, `std::sort` and `std::partial_sort` give, hence of replacement and of tournaments, are arbitrary (`Choices`), as long as they always give a result and only results possible in the first model. Specification: `Prob/PopulationSpec.lean`. | Probabilities stay within the margins, hence any vector is sampled with probability at least 1/n^n. Without a maximum among the parents, a mutant is a given maximum with probability at least c; a crossover of two parents, neither of which is the given maximum, differs from it with probability at least one half. The bounds for one vector multiply along the loops over populations (`breed_le`) and over iterations (`run_miss_le`). In the (mu,lambda) EA the first parents are not evaluated, hence the first generation does not count. |
| C114 | `Prob/Adaptive.lean`, in the second model of C110-C113: rates are real numbers, `std::pow` is the real power, the uniform number is replaced by the probabilities of the three cases, `std::clamp` with bounds in the wrong order is undefined. Sorting is left open as in C113. | The rate is an invariant of the loop: within the bounds after every update, hence both rates of the two-rate EA are between 1/n and 1/2. The two loops which make the offsprings are one loop (`forRange_split`), along which the bounds for one mutant multiply (`breed_le`). With few bits the bounds are in the wrong order: the first two cases of the update, of total probability one half, give a rate between 1/4 and 2/n, and the third one is undefined. |
| C115 | `Prob/RefineSpec.lean` relates the models: `CanReturn` (the first model, `Algorithm/*.lean`, with draws) and `Choices.Possible`; the mutation rate of the second model decides the tests on rates which the first model has as parameters. | A simulation. `Given` says that whatever a law gives with positive probability, a sampler of the first model gives for some draws, whatever draws follow; it is closed under sequencing, loops and rejection (`Prob/RefineLemmas.lean`, `Prob/RefineMutation.lean`). For each algorithm a relation between the two states is established by `init` and kept by `iterate` (`Prob/RefineProps.lean`, `Prob/RefineEvolution.lean`, `Prob/RefineSearch.lean`). |
| C116 | `Prob/Instances.lean`, in the second model of C110. The evaluation in the last assertion of MaxSat::random is that of the first model. Coefficients and partial functions, which are drawn from continuous laws, are left out. | The loops write independent values (`fill_loop`, `fill_plain`: the law of the whole vector is the product). A clause is a uniform set of variables (`weight_positions`) with fair signs (`signs_apply`). With a solution, an unsatisfied clause is repaired by one negation, and a clause comes from an unsatisfied one by one negation exactly when it has one true literal (`negate_unsatisfied`). For NK landscapes, the sites which are not i are numbered by skipping i (`nk_loop`). |
| C117 | `Prob/Tournaments.lean`, in the second model of C110; the comparison of the challengers is that of the first model (C48). | Counting permutations (`Prob/ShuffleLemmas.lean`): those with k elements of a set from a given position on are counted by induction on k and by rotation (`card_prefix`, `card_slice`). The winner has value v when all participants have at most v and not all less; individuals of the same value are exchanged by a transposition (`card_winner`). The state after m selections is a uniform permutation in round m mod R (`states_law`). |
| C118 | `Prob/Restarts.lean`, in the second model of C110: Restart passes the state of its algorithm from run to run; random local search begins a run in the state left by the previous one. | The solution which is kept is a maximum exactly if one of the runs has found one, so that the indicator of missing is a product (`missing_update`), and its expectation is computed by induction on the number of runs (`restart_loop`). For random local search, the bits flipped by the previous run are overwritten before they are read, and the law of a random vector only depends on its size (`rlsRun_eq`); the value never decreases (`boundedLoop_any`). |
| C119 | `Prob/Sequences.lean`, in the second model of C110; what draws nothing (pairs of variables, bounds of the split) is taken from the first model of the same functions. | A shuffle makes each order of different elements equally likely, and its beginning is a uniform sequence of different elements (`shuffle_take`); shuffling a sequence with a law which does not depend on the order changes nothing (`shuffle_invariant`). The sets of variables which separate the rows of a sequence from its columns are counted in two ways for commuting sequences (`card_separate`). For images, the transvections are forgotten because the final translation is uniform whatever they are (`Sure.forget`, `add_uniform`), and the permutations which take a vector to another are counted by induction (`card_pick`). Specification in `Prob/SequenceSpec.lean`. |
| C120 | `Prob/Search.lean`, `Prob/Walks.lean` and `Prob/Samplers.lean`, which are the second model of C110, C111 and C112. | The two runs are paired: a law of pairs of states, with the laws of the two runs, in which the vectors of a pair always correspond to each other (`Paired`, `Prob/Pairing.lean`). Uniform vectors correspond to uniform vectors, and fair sets of flips to fair sets of flips moved to the other positions; comparisons only look at values, which are the same. Runs without limit are limits of bounded runs (`Paired.indefiniteLoop`). Specification in `Prob/SymmetrySpec.lean`. |
| C121 | `Prob/Populations.lean`, which is the second model of C113, and `Prob/Samplers.lean`. | Pairs of runs as in C120. Probability vectors are permuted, and their components replaced by the complements where zeros and ones are exchanged (`Symmetry.turn`): updates and margins commute with this because the margins add up to one and are in order. Populations correspond vector by vector, with the same values and permutations; what vectors not yet overwritten contain does not matter (`RoughR`). Sorting and selection draw permutations or indices with the same law (`Blind`, `Prob/BlindSpec.lean`, met by `blindChoices`). |
| C122 | The models of C120 and C121; no new code. `Unbiased` and `agreements` are in `Prob/UnbiasedSpec.lean`. | Consequences of the definition: a permutation between two vectors with as many ones (`permuting_exists`), exchanges between any two vectors (`exchanging_act`), and the symmetry which takes the vector of ones to the target (`toward`). The expected times are those of C111, transported. |
| C123 | `Prob/Adaptive.lean`, the model of C114; `Unbiased` is in `Prob/UnbiasedSpec.lean`. | Pairs of runs as in C120 and C121: the same mutation rates in both runs, because they only depend on comparisons of values and on the index of the best individual. Rates stay at most one half, or one, so that mutations are fair. Where the clamp of the rate is undefined both runs are undefined. |
| C124 | `Walsh/Matrix.lean`, all of `matrix.hh`. Elements are of a linearly ordered type, so that there is no NaN. (`matrix_is_symmetric` is also part of the model of Walsh moments.) | A loop which stops at the first failure returns whether all tests pass (`forAll_eq`). |
| C125 | `Prob/Noise.lean`: `Neighborhood::map` and `PriorNoise::evaluate` with probabilities, over the samplers of `Prob/Samplers.lean`. Values are real numbers or integers instead of `double`. | A mean is a finite sum over the vectors of size n; sums weighted by the laws of C110 are computed by induction on n, bit after bit (`flipWeight_sign`, `single_sign`, `single_count`). |
| C126 | `Prob/Beta.lean`: the whole of `SimulatedAnnealing`, with `init_beta`; the inverse temperature is a real number or NaN. Other numbers are real instead of `double`; evaluations are not interrupted. Specification: `Prob/BetaSpec.lean` (independent trials, mean loss). | The sum and the counter of the loop are a fold over the trials (`betaLoop_law`). Trials are symmetric since mutations are and the first vector is uniform, hence a loss is as likely as a gain. Runs on a rescaled function are step by step the rescaled runs (`fullSaIterate_rescale`). |
| C127 | The probabilistic models of C111-C114 (`Prob/Search.lean`, `Prob/Walks.lean`, `Prob/Adaptive.lean`, `Prob/Populations.lean`); how populations are sorted is left open (`Choices`). Specification: `Prob/OrderSpec.lean`. | The two runs are paired so that their states differ only in values (`Paired`); each comparison has the same result on both sides. Populations are created with zeros on both sides, which are overwritten before being read (`evaluateLoop_order`, `takeBestLoop_order`, `fillLoop_order`). `blindChoices_alike` shows that valid choices sort and select alike. Expected times (`Prob/OrderTimeSpec.lean`, `Prob/OrderTimeProps.lean`): the chain of solutions of C111 only depends on the order of the vectors of size n (`steps_order`), so its bounds carry over to all functions ordered as OneMax or LeadingOnes. Simulated annealing is not in the list: for it see `annealing_scale` in C126, which only allows affine transformations. |

## Where the code does not satisfy the natural claim

Each of these is proved about the model (theorems whose comment says "negative part", or negative
clauses of other theorems), and the positive theorem carries the hypothesis which excludes it.

* C05 `sbvIsValid_repeated`: the validity check accepts a repeated position, which is flipped back.
* C10 `setMutationRate_sticky`: once the rate has been below the threshold, rejection sampling remains in use for all rates.
* C10 `standardBitMutation_ignores_option`: without rejection sampling, standard bit mutation flips at least one bit even if no mutation is allowed.
* C26 `oneMax_incremental_repeated_index`: a list with a repeated index passes the validity check of sparse bit vectors, but for it the incremental evaluation of `OneMax` differs from the value of the vector flipped by `bv_flip`.
* C26 `opposite_claims_incremental`: `OppositeFunction` says that it provides incremental evaluation even when the function it negates does not; its incremental evaluation then throws.
* C29 `hiff_maximum_overflow`: the constructor accepts size `2 ^ 27`, for which computing the declared maximum overflows.
* C31 `peaks_negative_threshold`: the constructors also accept thresholds below -1, for which the declared maximum is larger than every value of `FourPeaks` and `SixPeaks`.
* C35 `quboLoad_blank`: a file made of empty lines and comments only is accepted although it has no header, and the function keeps its previous matrix.
* C36 `dyadicExact_overflow`: bounds whose difference is the greatest value of the type pass the check of the difference, but computing the size overflows.
* C37 `integerCategorical_single`: a single category has a representation of no bits, which cannot be unpacked.
* C37 `linearCategorical_single`: there is no linear representation of a single category.
* C38 `permutationUnpack_overflow`: with 32 bits per element, codes are stored in an `int` of 32 bits and the order of the coded numbers is lost: the code `2^31` of element 0 comes before the code 0 of element 1.
* C41 `cnfLoad_blank_clause`: on a line made of a single space the loader reads an uninitialised variable.
* C41 `cnfLoad_smallest_int`: the loader negates the smallest `int`.
* C41 `cnf_roundtrip_empty`: an expression without clauses is saved to a file which cannot be loaded.
* C42 `factorization_stale`: for the number 1, whose second factor has no digit, a value left in the second factor by a previous number is used: 1 is "factored".
* C43 `sudokuRandom_not_ready`: a random instance cannot be evaluated before it is saved and loaded: the generator sets neither the number of variables nor the given cells of the candidate.
* C48 `tournament_last_round_any`: on the last round of a pass the implementation shuffles the permutation before reading the winner through it, so that any individual of the population can be returned, whatever the values.
* C49 `steepestAscent_interrupted_not_best`: if steepest ascent hill climbing is interrupted then it reports the solution of the last complete iteration, although it has evaluated better vectors.
* C50 `lambda_mutant_lost`: the mutant `[true, true, true]` has been evaluated, but is not offered to the solution, and the crossovers are worse. The iteration starts from `exampleLambda`, which satisfies the invariant.
* C51 `pvBound_single`: for a single bit the bounds are in the wrong order, and bounding makes the component 1, so that 0 is never sampled.
* C52 `npsLearn_constant`: a step leaves a bounded probability vector as it is, whatever the population.
* C52 `npsLearn_wrong`: if the learning rate is not zero and the mean of the best individuals differs from the mean of the worst ones where the probability is strictly between the bounds, then a step is not what it should be.
* C52 `npsPbil_constant`: after any number of iterations of PBIL with negative and positive selection, with any learning rate and any function, all components of the probability vector are 1/2: nothing has been learned. The solution is a best evaluated vector.
* C53 `countTies_all_tie`: if all offsprings tie, then the loop reads past the end of the population.
* C53 `lambda_one_never_iterates`: with a single offspring, no iteration ever ends normally: it always reads past the end of the population, unless an evaluation throws.
* C54 `randomWalk_incremental_reads_uninitialized`: `_value` is never initialised, so that the first iteration with incremental evaluation reads an indeterminate value: whatever the function, the neighbourhood and the parameters, an iteration either has undefined behaviour or runs out of draws (or the draws make the proposal fail).
* C56 `nsga2_second_run_ub`: `finalize` shrinks the solutions, and nothing restores their number: a second run which finds more solutions than the first one writes out of range.
* C56 `nsga2_tournament_size`: a run throws unless the tournament size is at least 2 and *less* than the population size, so that a population of one or two individuals can not be used.
* C58 `moment_bound_one`: the margin 1 is allowed by the first assertion of `bound` and refused by the second.
* C58 `moment_normInfinite_negative`: `norm_infinite` ignores negative entries: it is 0 if no entry is positive.
* C58 `moment_update_undefined`: a rate above 1 can take the moments out of range; the assertion then fails.
* C59 `gibbsSync_triangular`: with at least two bits, the synchronous update of the triangular sampler is undefined: it reads an entry above the diagonal, which is not stored.
* C61 `splitString_empty_delimiter`: with an empty delimiter the loop does not end.
* C61 `splitString_wraps`: `start` has 32 bits, so that if the first delimiter ends at position 2^32, then the loop does not end.
* C65 `itEa_clamp_undefined`: with the default parameters and a single bit, the bounds given to `std::clamp` are in the wrong order.
* C65 `twoRate_clamp_undefined`: with the default parameters and fewer than 8 bits, the bounds given to `std::clamp` are in the wrong order, so that every update with `number` not less than 1/2 has undefined behaviour.
* C67 `bm_synchronous_undefined`: synchronous sampling with triangular parameters is undefined, unless there is a single bit or no cycle.
* C67 `hea_single_undefined`: with a single bit and the default parameters, the bounding of the target moment is undefined.
* C68 `ram2_learns_from_worst`: in the second version, with two individuals 000 and 111, one of which is selected, the best individual is 111, the vector of the latent space comes from its image, and the vector of the solution space comes from 000.
* C69 `parseRepresentations_blank`: contrary to an empty declaration, a declaration made of white space is an error; so is therefore a file which ends with a semicolon and a newline.
* C69 `parseType_conversion`: a bound which is not a number makes the conversion throw an exception which is not a `std::runtime_error`, so that it is not caught in order to be thrown again with the name.
* C70 `nkGenerate_too_many`: with k >= n, the generation of an NK landscape fails on an assertion whatever is drawn (undefined in release builds).
* C70 `nkGenerate_again_keeps`: `resize` keeps the rows, so that generating again an instance with the same number of sites keeps the number of neighbours of the first generation.
* C71 `appDescribed_twice`: with a map and `--concrete-solution`, the vector passed to `describe` has already been mapped, and is mapped again.
* C71 `appLoad_saved`: loading a solution which reaches the goal throws `TargetReached`, hence the program fails instead of printing the value.
* C72 `makeMap_transvections_one_bit`: a random map made of transvections for a function of one bit fails an assertion.
* C72 `decorate_incremental_throws`: `OppositeFunction` always declares incremental evaluation; with a map, prior noise or an expression below it, it throws when asked.
* C72 `decorate_prior_size`: the neighbourhood of the prior noise has the size of the function before the composition with the map; with a map which changes the size, every evaluation fails an assertion.
* C73 `makeDouble_default_kind`: a default representation of doubles which is well formed but of another kind makes all functions on doubles fail with `std::bad_variant_access`, even if all variables are declared.
* C73 `makeMixed_default_long`: a malformed default representation of longs makes all functions on mixed types fail, although it is never used.
* C74 `proportionate_undefined`: a negative value, or a population of null values (for instance OneMax on null vectors), breaks the precondition of the distribution.
* C74 `boltzmann_negative`: with a negative inverse temperature, the initialization fails on an assertion unless all values are equal.
* C77 `sum_maximum_dominated`: `hnco` maximizes the sum of the objectives (functions 520 to 524) which `hnco-mo` minimizes: the maximum can be dominated by all the other bit vectors
* C77 `moRun_options`: the application throws unless the tournament size is at least 2 and less than the population size
* C78 `human_endless`: if the input ends without `quit` before the number of iterations is reached, an empty vector is read again and again: the run never ends.
* C79 `mapgen_ts_output_ignored`: with transvection sequences, the output size given to mapgen is ignored (a message is printed).
* C80 `ffgen_ising2_size`: the option `bv_size` is ignored for Ising models in two dimensions (the program prints a warning)
* C81 `factory_doubling_overflows`: function 5 (linear function with doubling weights) computes its weights with an `int`, which overflows from 31 bits on; the default size is 100, so that `hnco -F 5` with default options is undefined behaviour
* C81 `factory_unchecked`: archives of NK landscapes, Walsh expansions, Walsh expansions of degree 2 and Ising models are not checked when loaded: an archive with inconsistent lengths is accepted and the first evaluation reads out of the bounds of a vector; an empty Walsh expansion is accepted although it has no size
* C83 `tspLoad_no_dimension`: without DIMENSION before the coordinates the uninitialised number of cities is read
* C83 `tspLoad_no_coordinates`: a file without NODE_COORD_SECTION is accepted with no cities
* C83 `makeTsp_no_coordinates`: the factory then fails an assertion instead of reporting an error
* C83 `tspLoad_missing_city`: a file which lists too few cities is accepted, the others being at (0, 0)
* C83 `tspLoad_wrong_index`: a city number out of range fails an assertion instead of being refused
* C83 `tspLoad_no_colon`: a DIMENSION line without colon gives 0 cities and fails an assertion
* C85 `lambda_option_ignored`: number 450 makes a (1+(lambda, lambda)) genetic algorithm whose lambda is the option `ea_mu`; the option `ea_lambda` has no effect (`algorithm-factory.cc:310-322`).
* C85 `lambda_default_undefined`: with the default options, number 450 fails an assertion if the function has fewer than 10 variables.
* C85 `tournament_refused_in_run`: the tournament size of the genetic algorithm is not checked when the algorithm is made; every run then ends with an exception before the first evaluation.
* C87 `hnco_restart_zeros`: with `--restart`, an algorithm which does not stop by itself never returns to `Restart::iterate`; when the budget is used up, its solution is lost, and the vector of zeros is printed or saved, although the value reported is the best one.
* C87 `hnco_population_value`: when the budget is used up within a generation, the value which is reported may be the one of a vector which is better than the solution which is printed or saved.
* C89 `self_adjusting_former_rate`: set_mutation_rate does not take back rejection sampling: at a rate of 1, a mutant equal to its parent is possible after a low rate, and impossible if the rate has been 1 from the start
* C90 `options_ignore_exponent`: --budget=1e6 is a budget of 1
* C90 `options_read_words_as_zero`: a word is read as 0, which means an unlimited budget
* C90 `options_same_seed`: seeds which differ by 2^32 are the same
* C90 `options_octal_seed`: a seed with a leading 0 is read in base 8
* C92 `options_replay_rounds`: doubles are printed with the default precision, so that a target with more digits is not the same in a run with the printed parameters
* C93 `walshTransform_interrupted`: if 0 < budget < 2^n (the default budget is 10000, so from n = 14) or if some vector reaches the target, an exception leaves print_information and the program fails with status 1
* C93 `walshTransform_constant`: for a constant function, terms[1] (or terms[0]) is read beyond the end: undefined behaviour
* C94 `hnco_function_five`: `hnco -F 5` has undefined behaviour, since the default size is 100 bits and the weights overflow from 31 bits on (`hnco_doubling_undefined`)
* C94 `hnco_minimize_maximum`: `--minimize` with `--stop-on-maximum` is always an error, even if the minimum of the function is known
* C94 `hnco_load`: a loaded solution which reaches the goal is not given its value: the exception of the controller is caught by `main`, and the exit status is 1
* C95 `hncoMo_unknown`: the default function number of the options is 180, which the factory does not know: without options the program always fails
* C95 `hncoMo_terminated`: a number in the declarations which cannot be converted throws an exception which `main` does not catch: the program is terminated
* C96 `ffgen_planted_negative`: `--ms-planted-solution` with a negative size ends `ffgen` with an uncaught exception instead of status 1
* C96 `mapgen_unwritable`: `mapgen` does not check that its file can be opened, and ends with an uncaught exception
* C103 `dyadicIntegerTest_overflows`: the test of dyadic integers draws its bounds among all the numbers of `long`: with the least number and 0, `-a` overflows in `difference_is_safe`; with 0 and the greatest number, `upper - lower + 1` overflows in the constructor.
* C104 `hnco_map_one_bit`: Random transvections on a function of one bit are undefined behaviour.
* C104 `hnco_map_described`: With --concrete-solution and --print-description, the image of the solution is described as if it were the solution: undefined behaviour if the map changes the number of bits.
* C105 `onBudgetFunction_misses`: with two offsprings, `on-budget-function` may print a vector which is not the best one it has evaluated
* C105 `myFunction_maximum`: `cli-my-function --stop-on-maximum` is an error
* C105 `myFunction_size`: `cli-my-function --bv-size 0` is an error although the size is ignored
* C105 `myAlgorithm_no_budget`: `cli-my-algorithm -b 0` has no end
* C106 `definition_accepted`: the text `a := 3`, without any expression after the definition, is accepted and means 3
* C107 `division_by_zero_unnoticed`: `x/(5/y)` at `y = 0` has no value, but its code computes 0 without error
* C107 `error_gives_zero`: `log(x) + 7` at `x = 0` is an error, and HNCO takes the result 0
* C108 `wrong_rules`: eleven rules are wrong: 91, 94, 95, 96 (an error is raised where there was none), 293, 299 (signs are lost), 354 (`tan(atan2(0,0))`), 368 (comparison of an even power which is not compiled into products), 426, 427 (comparison of `abs` with a negative number), and the compilation of a power of a non-positive number with a logarithm (456)
* C108 `tolerance_rules`: 22 rules are wrong for some tolerance of comparisons
* C108 `tolerance_matters`: `x*x = 0` is replaced by `x = 0`, which is false at `10 ^ (-7)`, with the tolerance of HNCO
* C108 `sum_of_negations`: with rule 299 the code of `-x+-y+3` computes -3 at the origin, instead of 3
* C109 `misplaced_error`: the error of `x e` is reported at the end of the text, and is said to be that names are invalid
* C109 `invalid_names_accepted`: names which are refused are accepted when given a second time, because the string is stored before being checked
* C109 `modifier_without_constants`: `pi` and `e` are unknown to the parsed modifier
* C110 `standardBitMutation_never_none`: if no mutation is allowed but the Bernoulli process is used (when the rate is at least 1/sqrt(n), or has not been set after construction), the vector itself is never made, although its probability should be (1-p)^n
* C110 `standardBitMutation_zero`: with rate zero the mutation never returns, unless no mutation is allowed and bits are chosen by rejection
* C110 `tvRandomNonCommuting_law`: the random transvection which does not commute with a given one is not uniform: one of them is twice as likely as the others
* C110 `boltzmannSelection_negative`: with a negative inverse temperature Boltzmann selection fails on its assertion, unless all values are equal
* C111 `rls_endless`: a search which never gives up and whose number of iterations is not set does not return: it must be interrupted by a controller
* C111 `rls_trapped`: random local search with single bit flips never leaves a vector which is strictly better than its neighbours
* C111 `rls_trap`: so that, started from the vector of zeros, it never finds the maximum of a trap
* C112 `walk_parity`: a random walk with single bit flips from a given starting point never tends to the uniform law: the parity of the number of ones changes at every iteration
* C112 `synchronous_not_stationary`: synchronous sampling does not keep the law of the Boltzmann machine: two coupled bits
* C113 `npsPbil_random`: PBIL with negative and positive selection computes the mean of the worst vectors from the best ones, hence learns nothing: its probability to miss the maxima is exactly the one of independent uniform vectors
* C113 `mmas_single`: on one bit the margins are swapped, the max-min ant system always samples the same vector after its initialization, and misses the maximum of a function whose maximum is at zero with probability one half
* C114 `twoRate_undefined`: with four to seven bits and the default parameters, the probability that t iterations of the two-rate (1+lambda) EA have a defined behaviour is exactly (1/2)^t
* C116 `planted_biased`: with a solution, satisfied clauses are not equally likely: those with one true literal are 1 + 1/k times as likely as the others (the documentation only promises a satisfiable expression)
* C117 `tournament_last_uniform`: in the last round of each pass, selection is uniform instead of returning the winner of the round
* C117 `tournament_no_pressure`: if N < 2 k there is no selection pressure at all
* C119 `tsRandomCommuting_biased`: Of four bits, two transvections with the same row are more likely than two without a common bit as a commuting sequence; with an even number of bits, a split in two halves is twice as likely as another one.
* C121 `mmas_biased`: on one bit the margins of the max-min ant system are exchanged, the probability of a one is always one after an update, and the law on the function with zeros and ones exchanged is not the corresponding one.
* C124 `matrixDominant_always`: `A[i][j] > A[i][j]` is never true, so all matrices have a "dominant diagonal". The function is not used elsewhere.
* C124 `matrixRange_above`: elements on and above the diagonal are not checked.
* C125 `noise_maximum_hidden`: `get_maximum` and `has_known_maximum` are delegated to the function (the comments say that this is questionable); the noisy value of a single maximum never is the announced maximum.
* C125 `noise_maximum_neighbors`: a run which stops on the maximum of a function with a single maximum under flips of a single bit reports a neighbour of the maximum.
* C126 `beta_nan`: `delta /= count` with a counter equal to zero: the inverse temperature is NaN if no trial leads to a worse vector.
* C126 `beta_nan_ge`: this has a positive probability whatever the function.
* C126 `beta_nan_needle`: it is almost sure for a needle in a haystack with the default hundred trials.
* C126 `nan_climbs`: simulated annealing then never accepts a worse vector, at any time.

Further observations made while reading, which are visible in the model (comments of the definitions)
but are not claims of their own:

* LABS: the merit factor divides by zero for n <= 1, and uses n^2 without the factor 1/2 of the
  literature.
* `Tsp::generate` never sets the diagonal of the distances.
* `compute_walsh_transform` on 0 bits returns no terms.
* `ceil(log(m)/log(2))` in doubles is not always the exact size: 30 instead of 29 for `m = 2^29`, 49
  instead of 50 for `m = 2^49 + 1`; this is why it is a parameter (C36, C37).
* An exception during the very first evaluation leaves a solution which has never been evaluated;
  `Restart` loses the solution of an interrupted run (C62).
* `CompactGa` evaluates inside an `assert`: the number of evaluations differs between debug and
  release builds (modelled with a flag `debug`).
* The multiobjective `IterativeAlgorithm` runs no iteration for a number of iterations <= 0, although
  it is documented as running indefinitely; `Nsga2` never changes `_do_crossover`.
* `std::stoi` ignores trailing characters, and the parser ignores anything after ')'.
* Budget: a call which throws below the budget is not counted (C23).
* The tracker and stop-on-target report the vector before the flips when the evaluation is
  incremental (C24, C25).

## Partial theorems

* `tournament_select_partial`, `tournament_pass_partial` (C48): all rounds of a pass but the last; the full claim is false for the
  last round (`tournament_last_round_any`).
* `randomWalk_incremental_eq_full_partial`, `randomWalk_loop_incremental_eq_full_partial` (C54): for a `_value` which has been
  initialised; the code does not initialise it.
* `lambda_best_partial` (C50): for (1+(lambda,lambda)), among the vectors offered to the solution; the
  full claim is false (`lambda_mutant_lost`).
* `makeAlgorithm_lambda_partial` (C85): the same limits for the algorithm made by the factory.
