{"id": "C01", "title": "Bit vector / unsigned integer round trip", "statement": "Converting a bit vector of at most 64 bits to a machine word and back gives the same bit vector; converting a word smaller than 2^n to an n-bit vector and back gives the same word; the slice version agrees with the full version on the extracted slice; out of range bounds are outside the contract.", "quantifier": "all bit vectors of every size up to 64, all 64-bit words, all slices", "why_tests_cant": "2^64 words times 64 sizes cannot be enumerated; the existing test samples a few sizes.", "anchors": ["lib/hnco/bit-vector.cc: bv_to_size_type, bv_from_size_type"]}
{"id": "C02", "title": "Bit vector addition is the F2 group law and Hamming distance is its weight", "statement": "Adding bit vectors of equal size is commutative, associative, self-inverse with the zero vector as neutral element; the Hamming distance of two vectors is the Hamming weight of their sum, is zero only for equal vectors, symmetric and satisfies the triangle inequality.", "quantifier": "all bit vectors of every common size", "why_tests_cant": "Universally quantified algebraic laws over unbounded sizes.", "anchors": ["lib/hnco/bit-vector.cc: bv_add, bv_hamming_distance", "lib/hnco/bit-vector.hh: bv_hamming_weight, bv_is_zero"]}
{"id": "C03", "title": "Sampling a bit vector of prescribed weight always gives that weight", "statement": "For every size n and every 0 <= k <= n, and whatever the random generator returns, sampling a random bit vector of Hamming weight k overwrites every position and produces a vector whose Hamming weight is exactly k.", "quantifier": "all sizes, all weights, all sequences of uniform draws in [0,1)", "why_tests_cant": "The set of random streams is infinite; a test with a few seeds cannot reach all of them.", "anchors": ["lib/hnco/bit-vector.cc: bv_random(bit_vector_t&, int)"]}
{"id": "C04", "title": "Textual and vector<bool> forms of bit vectors round trip", "statement": "Displaying a bit vector and reading the text back gives the same bit vector; reading a text of n characters gives n bits, a bit being 0 exactly where the character is '0'; converting to vector<bool> and back is the identity.", "quantifier": "all bit vectors and all strings", "why_tests_cant": "Unbounded inputs.", "anchors": ["lib/hnco/bit-vector.cc: bv_display, bv_from_string, bv_from_stream, bv_to_vector_bool, bv_from_vector_bool"]}
{"id": "C05", "title": "Flipping a set of positions flips exactly these positions", "statement": "Flipping a sparse bit vector with distinct in-range indices changes exactly the listed positions, hence moves to Hamming distance equal to the number of indices, and flipping twice restores the vector. The sparse bit vector validity check does not rule out repeated indices, for which the first part fails.", "quantifier": "all bit vectors, all index lists", "why_tests_cant": "Unbounded inputs; duplicate index lists accepted by the validity check are not generated by tests.", "anchors": ["lib/hnco/bit-vector.cc: bv_flip", "lib/hnco/sparse-bit-vector.cc: sbv_is_valid"]}
{"id": "C06", "title": "The hypercube iterator enumerates every bit vector exactly once", "statement": "Starting from the initial state, iterating until there is no next element yields every bit vector of size n exactly once, in the order of the unsigned integers they encode; in dimension 0 the plain iterator yields nothing and the extended one yields the empty vector; re-initialising restarts the same enumeration from any state.", "quantifier": "all dimensions", "why_tests_cant": "The existing test checks small dimensions; the claim is for every dimension.", "anchors": ["lib/hnco/iterator.cc: HypercubeIterator, ExtendedHypercubeIterator", "lib/hnco/iterator.hh: Iterator::init"]}
{"id": "C07", "title": "Complete search returns a global maximum", "statement": "For every function and every positive dimension, complete search terminates having evaluated every bit vector exactly once, and its solution is a bit vector of the right size, with the value the function gives to it, which is at least the value of every other bit vector.", "quantifier": "all objective functions, all dimensions", "why_tests_cant": "The set of objective functions is infinite.", "anchors": ["lib/hnco/algorithms/complete-search.cc: CompleteSearch::maximize", "lib/hnco/algorithms/algorithm.cc: set_solution, update_solution"]}
{"id": "C08", "title": "The single bit flip iterator enumerates the n neighbours of the origin", "statement": "From any origin of size n, iterating until exhaustion yields exactly the n vectors at Hamming distance one from the origin, each once, in index order.", "quantifier": "all origins of all sizes", "why_tests_cant": "Unbounded sizes and origins.", "anchors": ["lib/hnco/neighborhoods/neighborhood-iterator.cc: SingleBitFlipIterator"]}
{"id": "C09", "title": "The Hamming sphere iterator enumerates the sphere", "statement": "From any origin of size n and for every radius 1 <= r <= n, iterating until exhaustion yields exactly the vectors at Hamming distance r from the origin, each exactly once, and never indexes out of range.", "quantifier": "all origins, all sizes, all radii", "why_tests_cant": "Combinatorial enumeration correctness for every n and r cannot be sampled; the test checks a handful of pairs.", "anchors": ["lib/hnco/neighborhoods/neighborhood-iterator.cc: HammingSphereIterator"]}
{"id": "C10", "title": "Random neighbourhoods keep origin and candidate consistent", "statement": "Whatever the random draws, after proposing, the candidate differs from the origin exactly at the flipped bits; after keeping or forgetting, origin and candidate coincide (with the candidate, respectively the old origin). The number of flipped bits is one for single bit flip, the radius for the Hamming sphere, between one and the radius for the Hamming ball, and at least one for standard bit mutation without the no-mutation option; flipped bits are distinct and sorted where the sampler sorts them.", "quantifier": "all origins, all draws, all sequences of propose/keep/forget", "why_tests_cant": "Histories and random streams are unbounded.", "anchors": ["lib/hnco/neighborhoods/neighborhood.hh: Neighborhood, SingleBitFlip", "lib/hnco/neighborhoods/neighborhood.cc: bernoulli_trials, rejection_sampling, bernoulli_process, sample_bits"]}
{"id": "C11", "title": "Row echelon form and rank decide surjectivity of linear and affine maps", "statement": "For every bit matrix, computing the row echelon form and then the rank never reads out of range, the rank is the dimension of the row space, and the surjectivity test of a linear or affine map answers true exactly when every output vector has a preimage.", "quantifier": "all bit matrices of all shapes", "why_tests_cant": "2^(nm) matrices per shape; the property is about all preimages.", "anchors": ["lib/hnco/bit-matrix.cc: bm_row_echelon_form, bm_rank", "lib/hnco/maps/map.cc: LinearMap::is_surjective, AffineMap::is_surjective"]}
{"id": "C12", "title": "Solving a linear system over F2", "statement": "For every square bit matrix A and vector b of the same size, the solver returns true exactly when A is invertible, and then the resulting vector is the unique x with A x = b (for the original A and b).", "quantifier": "all square bit matrices and right-hand sides", "why_tests_cant": "Random testing samples a vanishing fraction of matrices, and 'false iff singular' quantifies over all vectors.", "anchors": ["lib/hnco/bit-matrix.cc: bm_solve, bm_solve_upper_triangular"]}
{"id": "C13", "title": "Inverting a bit matrix", "statement": "For every square bit matrix M, inversion returns true exactly when M is invertible; then M has become the identity and N is the two-sided inverse of the original matrix.", "quantifier": "all square bit matrices", "why_tests_cant": "As for solving: quantifies over all matrices.", "anchors": ["lib/hnco/bit-matrix.cc: bm_invert"]}
{"id": "C14", "title": "Elementary matrix operations act as documented", "statement": "Matrix-vector multiplication is linear; the identity matrix acts as identity; transposing twice is the identity and exchanges indices; swapping rows twice or adding a row twice is the identity; adding column src to dest commutes with multiplication as the corresponding transvection. The tests of validity, squareness, identity and triangularity return true exactly for the matrices which are valid (at least one row and one column, rows of the same size), square, the identity, and upper triangular.", "quantifier": "all matrices and vectors of compatible sizes", "why_tests_cant": "Unbounded sizes.", "anchors": ["lib/hnco/bit-matrix.cc: bm_multiply, bm_identity, bm_transpose, bm_swap_rows, bm_add_rows, bm_add_columns"]}
{"id": "C15", "title": "Transvections and their sequences are invertible linear maps", "statement": "Multiplying by a valid transvection is linear and an involution; multiplying by a sequence and then by the inverted sequence gives back the original vector; multiplying a matrix by a sequence and then applying it to x is the same as applying the matrix to x and multiplying the result by the sequence.", "quantifier": "all dimensions, all valid transvection sequences of any length, all vectors and matrices", "why_tests_cant": "Unbounded sequences.", "anchors": ["lib/hnco/maps/transvection.cc: Transvection::multiply, ts_multiply, ts_invert"]}
{"id": "C16", "title": "The commutation test decides commutation", "statement": "For valid transvections the commutation test answers true exactly when applying them in either order gives the same result on every vector; disjoint transvections commute; a sequence of pairwise commuting transvections is an involution that can be applied in any order.", "quantifier": "all pairs of valid transvections in all dimensions, all vectors", "why_tests_cant": "Quantifies over all vectors of all sizes.", "anchors": ["lib/hnco/maps/transvection.cc: transvections_commute, transvections_are_disjoint"]}
{"id": "C17", "title": "Random transvection sequences satisfy their advertised constraint", "statement": "For every n > 1, t >= 0 and every outcome of the random generator, starting from an empty sequence: the unconstrained sampler returns t valid transvections, the commuting sampler returns valid pairwise commuting ones of length min(t, max), unique source/destination return sequences whose destinations/sources are pairwise distinct, and source and destination sets are disjoint, disjoint returns pairwise disjoint ones, non commuting returns consecutive non commuting ones. On a non empty sequence commuting/unique samplers append instead of replacing.", "quantifier": "all dimensions, lengths, random draws and shuffles, previous contents of the sequence", "why_tests_cant": "Random streams are infinite; the floating-point split computation must be right for every n and t; re-sampling an existing map is not tested.", "anchors": ["lib/hnco/maps/transvection.cc: ts_random*, Transvection::random, random_non_commuting", "lib/hnco/maps/map.cc: TsAffineMap::random"]}
{"id": "C18", "title": "Inverting an affine map given by transvections", "statement": "Every map given by a valid transvection sequence and a translation vector is a bijection, and the inverted map is its two-sided inverse; inverting twice gives a map with the same behaviour.", "quantifier": "all dimensions, sequences and translation vectors, all inputs", "why_tests_cant": "Unbounded.", "anchors": ["lib/hnco/maps/map.cc: TsAffineMap::map, TsAffineMap::invert"]}
{"id": "C19", "title": "Permutation validity check and permutation maps", "statement": "The validity check accepts a vector of integers exactly when it is a permutation of 0..n-1, never reading out of range; the map of a valid permutation is a bijection on bit vectors that preserves Hamming weight.", "quantifier": "all integer vectors, all bit vectors", "why_tests_cant": "Unbounded.", "anchors": ["lib/hnco/permutation.cc: perm_is_valid", "lib/hnco/maps/map.cc: Permutation::map"]}
{"id": "C20", "title": "Injection and projection are mutually inverse", "statement": "With distinct in-range bit positions, projecting after injecting is the identity whatever the previous contents of the output buffer; bits outside the positions are left untouched; injection is injective and projection is surjective. With repeated positions the declared surjectivity of the projection (and of a same-size injection) is wrong.", "quantifier": "all position lists, all inputs, all previous buffer contents", "why_tests_cant": "Unbounded; wrong surjectivity only shows as a non attained known maximum.", "anchors": ["lib/hnco/maps/map.cc: Injection, Projection", "lib/hnco/maps/map.hh: is_surjective"]}
{"id": "C21", "title": "Composing with a surjective map preserves the known maximum", "statement": "If a function's declared maximum is attained and is an upper bound, and the map's surjectivity test answers true and is right, then the composition's declared maximum is attained and is an upper bound; composition of maps applies the inner one first and is surjective when both are; the negated function has no declared maximum.", "quantifier": "all functions, all maps", "why_tests_cant": "Quantifies over functions and maps.", "anchors": ["lib/hnco/functions/modifiers/modifier.cc: FunctionMapComposition", "lib/hnco/functions/modifiers/modifier.hh", "lib/hnco/maps/map.hh: MapComposition"]}
{"id": "C22", "title": "The cache is transparent", "statement": "For a deterministic function, any sequence of evaluations through the cache returns the values of the function itself; each distinct vector is evaluated at most once by the wrapped function; evaluations = lookups + wrapped evaluations.", "quantifier": "all functions and all sequences of queries", "why_tests_cant": "Unbounded histories.", "anchors": ["lib/hnco/functions/controllers/controller.cc: Cache::evaluate"]}
{"id": "C23", "title": "The evaluation budget is never exceeded", "statement": "With a non-negative budget B, over any sequence of evaluations (full, incremental or updates after parallel evaluation), at most B calls reach the wrapped function; the first call made when the count is B raises the last-evaluation exception, as do all later ones, and before that no such exception is raised by the controller. With a negative budget the controller never stops.", "quantifier": "all histories of calls, all budgets", "why_tests_cant": "Unbounded histories.", "anchors": ["lib/hnco/functions/controllers/controller.cc: CallCounter, OnBudgetFunction"]}
{"id": "C24", "title": "The progress tracker records the first occurrence of the best value", "statement": "After any non-empty sequence of successful evaluations, the recorded improvement holds the maximum value seen and the 1-based rank of its first occurrence, with the matching bit vector when recording is on and evaluations are not incremental; with incremental evaluation the recorded bit vector is the one before the flips.", "quantifier": "all functions and all histories", "why_tests_cant": "Unbounded histories; the mismatch for incremental evaluations is not covered.", "anchors": ["lib/hnco/functions/controllers/controller.cc: ProgressTracker"]}
{"id": "C25", "title": "Stop-on-target stops at the first evaluation reaching the target", "statement": "In any sequence of evaluations, the target exception is raised exactly at the first evaluation whose value is at least the target, and the trigger is that bit vector with its value; with incremental evaluation the trigger holds the vector before the flips while the value belongs to the vector after them.", "quantifier": "all functions, targets and histories", "why_tests_cant": "Unbounded histories.", "anchors": ["lib/hnco/functions/controllers/controller.cc: StopOnTarget"]}
{"id": "C26", "title": "Incremental evaluation agrees with full evaluation (separable functions)", "statement": "For OneMax, linear functions and first order Walsh expansions, and for negations of such functions, incrementally evaluating x with its value and a list of distinct in-range flipped bits gives the value of the flipped vector. With a repeated index (accepted by the validity check) it does not.", "quantifier": "all dimensions, weights, vectors and flip lists", "why_tests_cant": "Unbounded; tests use random neighbourhoods which never repeat an index.", "anchors": ["lib/hnco/functions/collection/theory.cc: OneMax", "lib/hnco/functions/collection/linear-function.cc", "lib/hnco/functions/collection/walsh/walsh-expansion-1.cc", "lib/hnco/functions/modifiers/modifier.cc: OppositeFunction"]}
{"id": "C27", "title": "Incremental evaluation agrees with full evaluation (Ising models)", "statement": "For nearest neighbour Ising models in one and two dimensions, periodic or not, incremental evaluation equals full evaluation of the flipped vector and leaves the internal flip buffer as it found it, including lattices with one or two rows or columns.", "quantifier": "all lattice sizes, couplings, fields, vectors, flip lists, boundary conditions", "why_tests_cant": "Boundary combinatorics over all lattice sizes.", "anchors": ["lib/hnco/functions/collection/ising/nearest-neighbor-ising-model-1.cc", "lib/hnco/functions/collection/ising/nearest-neighbor-ising-model-2.cc"]}
{"id": "C28", "title": "Declared maxima of OneMax, LeadingOnes, Needle, Ridge and Plateau are correct", "statement": "For every dimension, the declared maximum is an upper bound on all values and is attained.", "quantifier": "all dimensions, all bit vectors", "why_tests_cant": "2^n vectors for every n.", "anchors": ["lib/hnco/functions/collection/theory.cc", "lib/hnco/functions/collection/theory.hh"]}
{"id": "C29", "title": "Hierarchical if and only if function: early stop is sound and the maximum is right", "statement": "For every dimension that is a power of two, the value equals the sum over all levels and all aligned uniform blocks of the block size (stopping at the first level without uniform block loses nothing), and the declared maximum is attained exactly by the two constant vectors. Other dimensions are rejected.", "quantifier": "all powers of two, all bit vectors", "why_tests_cant": "Unbounded.", "anchors": ["lib/hnco/functions/collection/theory.cc: Hiff"]}
{"id": "C30", "title": "Declared maxima of Jump, DeceptiveJump and Trap are correct", "statement": "For every accepted parameterisation, the declared maximum is an upper bound and is attained; Trap rejects sizes that are not a multiple of the number of traps.", "quantifier": "all dimensions, gaps, numbers of traps, bit vectors", "why_tests_cant": "Unbounded parameters.", "anchors": ["lib/hnco/functions/collection/jump.cc", "lib/hnco/functions/collection/trap.cc", "lib/hnco/functions/collection/trap.hh"]}
{"id": "C31", "title": "Declared maxima of FourPeaks and SixPeaks are correct", "statement": "For every dimension n and threshold t with -1 <= t <= n/2 - 1 the declared maximum 2n - t - 1 is an upper bound and is attained; the constructor also accepts t < -1, for which the declared maximum is not attained.", "quantifier": "all dimensions, thresholds and bit vectors", "why_tests_cant": "Unbounded parameters.", "anchors": ["lib/hnco/functions/collection/four-peaks.cc", "lib/hnco/functions/collection/four-peaks.hh"]}
{"id": "C32", "title": "The long path function enumerates a path", "statement": "For every prefix size k and dimension a multiple of k, the path has k*2^(n/k) - k + 1 points, point values along the path are 1, 2, 3, ..., consecutive path points are at Hamming distance one, points off the path have value at most zero, and the declared maximum is attained by exactly one vector.", "quantifier": "all prefix sizes and dimensions, all bit vectors", "why_tests_cant": "Exponential path length; recursion depth unbounded.", "anchors": ["lib/hnco/functions/collection/long-path.cc"]}
{"id": "C33", "title": "Declared maxima of linear functions, Walsh expansions of order one and summation cancellation are correct", "statement": "The declared maximum of a linear function or of a first order Walsh expansion is an upper bound and is attained by the vector following the signs of the weights; the summation cancellation value never exceeds its declared maximum, reached exactly when all partial sums vanish.", "quantifier": "all dimensions, weights and bit vectors", "why_tests_cant": "Unbounded.", "anchors": ["lib/hnco/functions/collection/linear-function.cc", "lib/hnco/functions/collection/walsh/walsh-expansion-1.cc", "lib/hnco/functions/collection/cancellation.cc"]}
{"id": "C34", "title": "Walsh transforms", "statement": "For every function on n > 0 bits, the Walsh transform yields the coefficients whose Walsh expansion, divided by 2^n, is the function; the fast transform returns the same terms as the plain one.", "quantifier": "all functions on n bits, all n", "why_tests_cant": "Infinite family of functions.", "anchors": ["lib/hnco/functions/function.cc: compute_walsh_transform, compute_fast_walsh_transform", "lib/hnco/functions/collection/walsh/walsh-expansion.cc"]}
{"id": "C35", "title": "QUBO evaluation is the opposite of the quadratic form", "statement": "For every upper triangular instance the value of x is minus the sum of q_ij over i <= j with x_i = x_j = 1; the loader rejects malformed files and stores each (i,j) entry at the position used by evaluation.", "quantifier": "all instances, all bit vectors, all input files", "why_tests_cant": "Unbounded inputs.", "anchors": ["lib/hnco/functions/collection/qubo.cc"]}
{"id": "C36", "title": "Dyadic integer representations are total, in range and onto", "statement": "For every pair of bounds accepted by the constructor, every bit vector unpacks to an integer between the bounds; with the exact size every integer between the bounds is reached, and the lower bound is reached by zeros; with a smaller size the values are multiples of a power of two above the lower bound. The constructor accepts bounds only where their difference does not overflow; bounds whose difference is exactly the largest value pass its check but overflow in the constructor, so it returns exactly when the difference plus one fits.", "quantifier": "all bounds of the integer type, all bit vectors", "why_tests_cant": "All int pairs and all vectors.", "anchors": ["lib/hnco/representations/integer.hh"]}
{"id": "C37", "title": "Value-set, float and categorical representations decode to admissible values", "statement": "A value-set representation only yields listed values and reaches each of them; a dyadic float representation yields values in [lower, upper) for every bit vector, monotone in the encoded integer; categorical representations yield a category in range and reach all categories.", "quantifier": "all parameters, all bit vectors", "why_tests_cant": "Unbounded.", "anchors": ["lib/hnco/representations/value-set.hh", "lib/hnco/representations/float.hh", "lib/hnco/representations/categorical.hh"]}
{"id": "C38", "title": "The permutation representation decodes to permutations and reaches them all", "statement": "For every number of elements and every random tie-breaking, decoding any bit vector gives a permutation sorted by the decoded keys, and every permutation is the decoding of some bit vector.", "quantifier": "all sizes, bit vectors, shuffles", "why_tests_cant": "Unbounded, random.", "anchors": ["lib/hnco/representations/permutation.hh"]}
{"id": "C39", "title": "Adapters split the bit vector into consecutive disjoint slices", "statement": "In multivariate and universal adapters each variable is decoded from its own slice, slices are consecutive, disjoint and cover the bit vector exactly; changing bits of one slice changes no other variable.", "quantifier": "all lists of representations, all bit vectors", "why_tests_cant": "Unbounded shapes.", "anchors": ["lib/hnco/functions/multivariate-function-adapter.hh", "lib/hnco/functions/universal-function-adapter.hh"]}
{"id": "C40", "title": "MaxSat evaluation counts satisfied clauses and the planted generator is satisfiable", "statement": "The value is the number of clauses having a true literal; an instance generated with a planted solution is satisfied by it, has the requested numbers of variables, clauses and literals per clause, with distinct variables in each clause, for all random draws. MaxNae3Sat counts clauses with both a true and a false literal.", "quantifier": "all formulas, assignments and random draws", "why_tests_cant": "Unbounded.", "anchors": ["lib/hnco/functions/collection/max-sat.cc"]}
{"id": "C41", "title": "CNF files round trip", "statement": "Saving a formula and loading it gives the same formula when it has at least one variable and one clause; loading never accepts a literal out of range or a clause not terminated by 0.", "quantifier": "all formulas, all input texts", "why_tests_cant": "All strings.", "anchors": ["lib/hnco/functions/collection/max-sat.cc: load_, save_"]}
{"id": "C42", "title": "The factorization function is zero exactly at factorizations", "statement": "The value is at most 0 and is 0 exactly when the product of the two decoded factors is the given number; some bit vector reaches 0 exactly when the number has a non-trivial factorization (or is 0).", "quantifier": "all natural numbers, all bit vectors", "why_tests_cant": "Arbitrary precision numbers.", "anchors": ["lib/hnco/functions/collection/factorization.cc"]}
{"id": "C43", "title": "Sudoku", "statement": "The value of a filled board is at most 0 and is 0 exactly when each row, column and block contains each digit exactly once; the random generator starts from a valid complete board for every shuffle; given cells are never changed when writing variables.", "quantifier": "all boards, candidate fillings, shuffles", "why_tests_cant": "9^81 boards.", "anchors": ["lib/hnco/functions/collection/sudoku.cc"]}
{"id": "C44", "title": "Travelling salesman tours", "statement": "The value is the opposite of the closed tour length; it is invariant under rotation and reversal of the tour, and distance tables are symmetric with zero diagonal.", "quantifier": "all instances and permutations", "why_tests_cant": "Unbounded.", "anchors": ["lib/hnco/functions/collection/tsp.cc"]}
{"id": "C45", "title": "Complement invariances", "statement": "Partition values, autocorrelation merit (LABS) energies and nearest neighbour Ising values without field are invariant under complementing all bits; the partition value is at most 0 and 0 exactly for a perfect split; equal products value is 0 exactly when both products agree.", "quantifier": "all instances and bit vectors", "why_tests_cant": "Unbounded.", "anchors": ["lib/hnco/functions/collection/partition.cc", "lib/hnco/functions/collection/labs.cc", "lib/hnco/functions/collection/equal-products.cc"]}
{"id": "C46", "title": "Sorting a population and finding ties", "statement": "For every shuffle, sorting a population permutes indices so that values are non-increasing, leaving individuals in place; the reported range of individuals equivalent to a given rank is exactly the set of ranks with the same value; fractional weights attributed to ties sum to the selection size.", "quantifier": "all populations, values, shuffles", "why_tests_cant": "Unbounded.", "anchors": ["lib/hnco/algorithms/population.hh: sort, partial_sort", "lib/hnco/algorithms/population.cc: get_equivalent_bvs", "lib/hnco/algorithms/evolutionary-algorithms/it-ea.cc"]}
{"id": "C47", "title": "Plus and comma selection keep the best", "statement": "After plus (comma) selection the parents are mu individuals of the union of parents and offsprings (of the offsprings) with their own values, no discarded individual is strictly better than a kept one, ranks are non-increasing, and the best value never decreases under plus selection.", "quantifier": "all populations and shuffles", "why_tests_cant": "Unbounded.", "anchors": ["lib/hnco/algorithms/evolutionary-algorithms/selection.hh"]}
{"id": "C48", "title": "Tournament selection returns the winner of the round", "statement": "Each selection returns an individual that no other participant of its round beats; rounds of one pass use disjoint participants. On the last round of a pass the implementation reshuffles before returning, so the returned individual need not be the winner.", "quantifier": "all populations, shuffles and histories", "why_tests_cant": "Shuffle-dependent wrong answers are invisible to black-box tests.", "anchors": ["lib/hnco/multiobjective/algorithms/random-selection.hh"]}
{"id": "C49", "title": "Local search returns consistent, monotone solutions and stops at local maxima", "statement": "Random local search, (1+1) EA and hill climbing keep value and vector consistent, the value never decreases (for >= and > comparisons), and first/steepest ascent hill climbing stop only at a vector no neighbour of which is better, and do stop on every function.", "quantifier": "all functions, starting points, random draws and numbers of iterations", "why_tests_cant": "Unbounded executions.", "anchors": ["lib/hnco/algorithms/local-search/random-local-search.cc", "lib/hnco/algorithms/local-search/first-ascent-hill-climbing.cc", "lib/hnco/algorithms/local-search/steepest-ascent-hill-climbing.cc"]}
{"id": "C50", "title": "The reported solution is the best evaluated vector", "statement": "For random search, random walk, simulated annealing and population based algorithms that use the strict update, after any number of iterations the solution is an evaluated vector with its value, at least as good as all vectors offered to the update and the first of them with that value.", "quantifier": "all functions and executions", "why_tests_cant": "Unbounded executions.", "anchors": ["lib/hnco/algorithms/algorithm.cc: update_solution", "lib/hnco/algorithms/random-search.cc", "lib/hnco/algorithms/local-search/simulated-annealing.cc"]}
{"id": "C51", "title": "Probability vectors stay within bounds", "statement": "Whatever is sampled, after each iteration of compact GA, MMAS, PBIL, UMDA every component lies between the lower and upper bounds (n >= 2); averaging and convex updates with rate in [0,1] keep components in [0,1] before bounding.", "quantifier": "all executions", "why_tests_cant": "Unbounded executions.", "anchors": ["lib/hnco/algorithms/probability-vector/*.cc"]}
{"id": "C52", "title": "Negative and positive selection learning moves towards the best and away from the worst", "statement": "PBIL with negative and positive selection should move the probability vector by rate times the difference between the means of the best and of the worst individuals. The implementation computes both means from the best individuals, so the probability vector never moves.", "quantifier": "all functions, populations and executions", "why_tests_cant": "A stochastic optimiser that does not learn still returns plausible results.", "anchors": ["lib/hnco/algorithms/probability-vector/nps-pbil.cc"]}
{"id": "C53", "title": "Counting ties in the (1+(lambda,lambda)) GA", "statement": "When some offspring is worse than the best one, counting the offsprings tied for best yields the number of ties. The implementation evaluates the index bound after the read, so it reads past the end of the population exactly when all offsprings tie; with a single offspring it always does.", "quantifier": "all populations", "why_tests_cant": "Reading one past the end is silent.", "anchors": ["lib/hnco/algorithms/evolutionary-algorithms/one-plus-lambda-comma-lambda-ga.cc"]}
{"id": "C54", "title": "Random walk: incremental and full evaluation give the same trajectory", "statement": "With a function whose incremental evaluation is exact, a random walk with incremental evaluation should produce the same values as with full evaluation for the same draws. The implementation never initialises the value of the current vector, so it does not.", "quantifier": "all functions, starting points, draws", "why_tests_cant": "Reading an uninitialised double.", "anchors": ["lib/hnco/algorithms/local-search/random-walk.cc", "lib/hnco/algorithms/local-search/local-search-algorithm.hh"]}
{"id": "C55", "title": "Dominance and Pareto fronts", "statement": "Dominance is a strict partial order; the front computation terminates for every population, assigns every individual a front, front 0 is exactly the set of non dominated individuals, every individual of front k+1 is dominated by some individual of front k, no individual dominates another of the same or a smaller front; the result does not depend on set iteration order.", "quantifier": "all populations, numbers of objectives and iteration orders of the hash set", "why_tests_cant": "Unbounded; iteration order of an unordered set is unspecified.", "anchors": ["lib/hnco/multiobjective/functions/value.hh: dominates", "lib/hnco/multiobjective/algorithms/pareto-front-computation.hh"]}
{"id": "C56", "title": "NSGA-II survivor selection is elitist", "statement": "After each iteration the parents are population_size members of the union, no discarded individual has a strictly smaller front than a kept one, and within the last front kept ones have crowding distance at least that of discarded ones.", "quantifier": "all populations and shuffles", "why_tests_cant": "Unbounded.", "anchors": ["lib/hnco/multiobjective/algorithms/nsga2.cc: iterate, finalize"]}
{"id": "C57", "title": "Parallel evaluation is equivalent to sequential evaluation", "statement": "For deterministic functions and any assignment of individuals to threads and any interleaving, parallel evaluation stores the same values as sequential evaluation, and the controllers on the first function see the same sequence of (vector, value) updates (budget, tracker and target behave as in the sequential run).", "quantifier": "all schedules, numbers of threads, populations", "why_tests_cant": "Schedules cannot be enumerated by tests.", "anchors": ["lib/hnco/algorithms/population.cc: evaluate, evaluate_in_parallel", "lib/hnco/functions/controllers/controller.hh: evaluate_safely"]}
{"id": "C58", "title": "Walsh moments", "statement": "After adding any list of bit vectors and averaging, first and second moments are the averages of +-1 products, lie in [-1,1] and the full matrix is symmetric; convex update keeps the range; bounding with a margin gives the clamped range. The infinite norm ignores negative entries.", "quantifier": "all lists of bit vectors", "why_tests_cant": "Unbounded.", "anchors": ["lib/hnco/algorithms/walsh-moment/walsh-moment.cc"]}
{"id": "C59", "title": "Gibbs sampling only reads stored moments", "statement": "Asynchronous updates of the triangular sampler only read stored entries and use the same parameters as the full sampler. The synchronous update of the triangular sampler reads entries above the diagonal that are not stored.", "quantifier": "all dimensions and states", "why_tests_cant": "Out of range reads are silent.", "anchors": ["lib/hnco/algorithms/walsh-moment/gibbs-sampler.cc"]}
{"id": "C60", "title": "MIMIC keeps a valid variable ordering", "statement": "After every model update the variable ordering is a permutation whose first element is a component with smallest min(p,1-p), and sampling writes every bit exactly once.", "quantifier": "all populations", "why_tests_cant": "Unbounded.", "anchors": ["lib/hnco/algorithms/mimic.cc"]}
{"id": "C61", "title": "Splitting strings", "statement": "Splitting a string with a non empty delimiter yields pieces which joined with the delimiter give back the string, none of which contains the delimiter; the number of pieces is one more than the number of delimiters found left to right.", "quantifier": "all strings and non empty delimiters", "why_tests_cant": "All strings.", "anchors": ["lib/hnco/app/parser.cc: split_string"]}
{"id": "C62", "title": "Restart keeps the best of all runs", "statement": "Whatever the wrapped algorithm returns at each run, after any number of runs the restart decorator's solution is the first of the best run solutions.", "quantifier": "all sequences of run results", "why_tests_cant": "Unbounded executions.", "anchors": ["lib/hnco/algorithms/decorators/restart.cc"]}
{"id": "C63", "title": "A cache hides parallel evaluations from the controllers below it", "statement": "The cache does not forward updates: after parallel evaluation of any population through a cache, the budget, tracker and target controllers below the cache are in the state they were in before, and no exception is raised; sequential evaluation of the same population can exhaust the budget.", "quantifier": "all controllers below the cache, all histories of updates", "why_tests_cant": "the combination of cache, budget and several threads must be chosen, and the symptom is the absence of an exception", "anchors": ["lib/hnco/functions/controllers/controller.hh: Cache", "lib/hnco/algorithms/population.cc: evaluate_in_parallel", "lib/hnco/app/decorated-function-factory.cc: make_function_controller"]}
{"id": "C64", "title": "Crossover mixes the parents", "statement": "Uniform and biased crossover give an offspring each of whose bits is the bit of one of the parents at the same position; every such combination is possible, and bits on which the parents agree are kept.", "quantifier": "all parents, offspring vectors of the same size, and draws", "why_tests_cant": "There are exponentially many combinations and the operators are random, so tests only see samples.", "anchors": ["lib/hnco/algorithms/evolutionary-algorithms/crossover.cc"]}
{"id": "C65", "title": "Self-adjusted mutation rates stay within their bounds", "statement": "In the two-rate (1+lambda) EA, the self-adjusting (1+1) EA and the information theoretic EA, the mutation rate is between its minimum and its maximum after any number of iterations, provided the bounds are in order and the initial rate is between them. With the default bounds the provision fails for small bit vectors: fewer than 8 bits for the two-rate EA, a single bit for the information theoretic EA; std::clamp is then undefined.", "quantifier": "all functions, parameters and executions", "why_tests_cant": "Unbounded executions; undefined behaviour of std::clamp is silent.", "anchors": ["lib/hnco/algorithms/evolutionary-algorithms/two-rate-one-plus-lambda-ea.cc", "lib/hnco/algorithms/evolutionary-algorithms/self-adjusting-one-plus-one-ea.cc", "lib/hnco/algorithms/evolutionary-algorithms/it-ea.cc: igo_update"]}
{"id": "C66", "title": "Herding is greedy and counts its samples", "statement": "A herding sample does not depend on the previous content of the bit vector nor on the kind of moment (triangular or full); every bit is set once, in the chosen order, to the sign of its local field, so that the inner product of the moment of the sample with the weights is not negative; the counter always equals the sum of the moments of the samples since the last reset.", "quantifier": "all targets, orders and histories", "why_tests_cant": "Unbounded histories.", "anchors": ["lib/hnco/algorithms/walsh-moment/herding.cc"]}
{"id": "C67", "title": "Moment based algorithms learn from the selected individuals", "statement": "In every iteration the target moment of the herding evolutionary algorithm moves by the learning rate towards the mean moment of the best individuals, is clamped by the margin, and stays in this range during the whole run, interrupted or not; the parameters of the Boltzmann machine PBIL move by the learning rate times the difference between the mean moments of the best individuals and of the worst (or of all) individuals, and the full moment stays symmetric. With a single bit the default margin makes the herding evolutionary algorithm undefined, and synchronous sampling with triangular moments is undefined. If the chain of the Boltzmann machine is reset for each bit vector, what is sampled does not depend on its state, and if moreover sampling is asynchronous and makes no step, any population can be sampled; without this reset an asynchronous chain which makes no step fills the population with its state.", "quantifier": "all functions, populations and executions", "why_tests_cant": "Unbounded executions.", "anchors": ["lib/hnco/algorithms/walsh-moment/hea.hh", "lib/hnco/algorithms/walsh-moment/bm-pbil.hh"]}
{"id": "C68", "title": "UMDA with random affine maps learns in the latent space", "statement": "In every iteration the map is a bijection, the probability vector of the latent space is the clamped mean of the images of the best individuals, every new individual is the inverse image of a sample of this vector (or, in the second version, a sample of the vector of the solution space or a crossover of both), and the length of the transvection sequence obeys its bounds. In the second version the probability vector of the solution space is computed from the first individuals in memory instead of the best ones: it does not depend on the values.", "quantifier": "all functions, populations and executions", "why_tests_cant": "Unbounded executions.", "anchors": ["lib/hnco/algorithms/probability-vector/ram-umda.cc"]}
{"id": "C69", "title": "Parsing representations", "statement": "A text made of declarations `name: kind(parameters)` separated by semicolons, with white space around the tokens, is parsed as an environment which binds every declared name to the representation parameters of its last declaration, whatever the number of declarations and the characters in names and parameters; every field written is taken, every other one has its default; an empty declaration is ignored. A declaration made of white space only is an error, and a bound which is not a number raises an exception which is not caught as the other parse errors are.", "quantifier": "all texts of fewer than 2^32 characters made of well formed declarations", "why_tests_cant": "Unbounded texts, arbitrary names and spacing.", "anchors": ["lib/hnco/app/parser.hh", "lib/hnco/app/parser.cc"]}
{"id": "C70", "title": "NK landscapes", "statement": "With 0 < k < n (and k <= 29), a new random instance always has, for each site, k distinct neighbours among the other sites followed by the site itself, and a partial function of 2^(k+1) entries; any such instance can be generated. The value of a bit vector is the mean over the sites of the entry of the partial function selected by the bits of the neighbours. With k >= n every generation fails on an assertion; generating again an instance on the same number of sites ignores the new number of neighbours.", "quantifier": "all n, k, generators, draws and bit vectors", "why_tests_cant": "Unbounded; sequential sampling must never run out of candidates, which depends on the draws.", "anchors": ["lib/hnco/functions/collection/nk-landscape.cc", "lib/hnco/functions/collection/nk-landscape.hh"]}
{"id": "C71", "title": "What the application reports", "statement": "Whatever the algorithm and the combination of budget, cache, target and stop-on-maximum options, a run of the command line application which ends has no uncaught exception; it reports the number of calls of the function, the best value obtained with the rank of its first occurrence, whether the goal has been reached, and an exit status which is zero unless a goal has been missed; it stops as soon as the goal is reached and then prints the vector which has reached it; the number of calls is within the budget. With an algorithm that returns the best vector it has seen, the reported value is the value of the printed solution, and loading the saved solution prints this value (unless it reaches the goal, in which case the program fails). With a map and the option for the concrete solution, the description applies the map twice.", "quantifier": "all functions, algorithms and options", "why_tests_cant": "Adaptive algorithms and all combinations of controllers over unbounded runs.", "anchors": ["lib/hnco/app/application.cc", "lib/hnco/app/decorated-function-factory.cc: make_function_controller", "lib/hnco/functions/controllers/controller.cc", "lib/hnco/functions/modifiers/modifier.cc: describe"]}
{"id": "C72", "title": "Maps and modifiers of the application", "statement": "With the documented options, the map made for a function of n bits always composes with it: its output has n bits, its declaration of being surjective is true exactly when the map is onto, and every documented kind of map is obtained. The function decorated with a map, prior noise, an expression, minimization and additive noise evaluates a vector as: perturb it by an allowed number of bit flips, apply the map, evaluate, apply the expression, negate, add a normal variate; in this order, each present exactly when its option is; all such values are possible. Its known maximum, which it has exactly when it makes sense of the values, is never exceeded and is obtained. Minimization alone keeps incremental evaluation exact; with any other modifier it declares incremental evaluation, which throws. Prior noise with a map which changes the size fails an assertion at every evaluation.", "quantifier": "all functions, maps, options, vectors, sequences of evaluations and draws", "why_tests_cant": "All combinations of modifiers and draws; claims about what is possible for some draws.", "anchors": ["lib/hnco/app/decorated-function-factory.cc: make_map, make_prior_noise_neighborhood, make_function_modifier", "lib/hnco/functions/modifiers/"]}
{"id": "C73", "title": "Variables of parsed functions get their declared representations", "statement": "In the adapters made for functions given by expressions, the representation of each variable is the one declared for its name if there is one of the right kind, otherwise the default one; complex variables use the names with suffixes _re and _im; mixed functions keep declarations of longs, doubles and sets. The adapter is made exactly when all the declarations used can be represented; then, on every bit vector of its size, the function is evaluated on values each of which is allowed by the declaration of its variable, and for integers every choice of allowed values is obtained on some bit vector. A well formed default of another kind makes every function on doubles fail with an exception which is not a runtime error; a malformed default for longs makes every mixed function fail though it is not used.", "quantifier": "all declarations, lists of names (with duplicates), options, functions and bit vectors", "why_tests_cant": "All texts of declarations and all assignments of the variables.", "anchors": ["lib/hnco/app/make-multivariate-function-adapter.hh", "lib/hnco/app/parser.hh: to_rep", "lib/hnco/functions/multivariate-function-adapter.hh"]}
{"id": "C74", "title": "Random selection of parents", "statement": "Uniform selection gives any individual of the population and nothing else. With non negative values which are not all null, fitness proportionate selection selects each individual for a part of the variates in [0, 1) whose length is its share of the sum of the values: individuals with a null value are never selected, all others are possible. With a non negative inverse temperature beta, Boltzmann selection never fails and selects each individual with the share exp(beta v) / sum exp(beta v), whatever the signs of the values. Fitness proportionate selection is undefined if a value is negative or all are null; Boltzmann selection fails an assertion if beta is negative and the values are not all equal.", "quantifier": "all populations, values, inverse temperatures and variates", "why_tests_cant": "The exact shares are a statement about all variates; the failures concern all populations of null or negative values.", "anchors": ["lib/hnco/algorithms/evolutionary-algorithms/random-selection.cc", "lib/hnco/algorithms/evolutionary-algorithms/random-selection.hh"]}
{"id": "C75", "title": "Tests of local and global maximality", "statement": "With an iterator of single bit flips or of a Hamming sphere, in any state, the test of local maximality always ends without error and answers true exactly when no vector at the given distance has a greater value. For a function which declares its maximum, the test of global maximality answers true exactly when no vector has a greater value; otherwise it fails an assertion.", "quantifier": "all functions, vectors, radii and states of the iterator", "why_tests_cant": "All functions and all states in which an iterator can be left.", "anchors": ["lib/hnco/functions/function.cc: bv_is_locally_maximal, bv_is_globally_maximal"]}
{"id": "C76", "title": "Multiobjective parsed functions evaluate each sub expression at its own variables", "statement": "The expression of a multiobjective parsed function is cut at its double colons, from left to right, without loss; a sub expression rejected by the parser makes parsing a runtime error. Otherwise the variables of the function are exactly those of the sub expressions, without repetition and in alphabetical order, whatever the order in which the hash set of names is traversed. An adapter built with one representation by variable, however often it has been used, evaluates on a bit vector of its size to one value by sub expression: the converted value of this sub expression where each of its variables has the value decoded from the slice of this variable. With other sizes evaluation is an error. This holds for both adapters (same and mixed representations).", "quantifier": "all expressions shorter than 2^32 characters, all parsers, all representations which decode their slice, all converters, all histories of evaluations, all bit vectors and all contents of the output value", "why_tests_cant": "Tests use a few expressions whose variables often come in the same order in all the sub expressions; a wrong index table shows only for particular sets of names, and the order of a hash set depends on the library.", "anchors": ["lib/hnco/multiobjective/functions/collection/parsed-multivariate-function.hh:114-204", "lib/hnco/multiobjective/functions/multivariate-function-adapter.hh:70-132", "lib/hnco/multiobjective/functions/multivariate-function-adapter.hh:186-242"]}
{"id": "C77", "title": "Scalarization and the output of the multiobjective application", "statement": "The function which adds objectives is strictly increasing for dominance: if x dominates y then its value at x is less. Hence a maximum of its opposite is a Pareto optimum, and a maximum of the sum itself dominates nothing. For systems of equations (functions 530 to 534), the function of hnco is at most zero, is zero exactly where all the expressions vanish, and its maxima are Pareto optima of the corresponding function of hnco-mo. The application hnco-mo, with NSGA-II and a tournament smaller than the population, never fails and prints at least one individual; it prints exactly the members of the final population which no member dominates, with their true objectives, and no printed individual dominates another one.", "quantifier": "all vector functions, numbers of objectives, sizes, bit vectors; all options with 2 <= tournament size < population size, all numbers of iterations, all random draws", "why_tests_cant": "Pareto optimality quantifies over all the bit vectors, and what is printed depends on random populations of any size.", "anchors": ["lib/hnco/functions/multiobjective-function-adapter.hh:71-74", "lib/hnco/functions/converter.hh:31-73", "lib/hnco/multiobjective/app/application.cc:107-172", "lib/hnco/multiobjective/app/algorithm-factory.cc:31-57", "lib/hnco/app/function-factory.cc:312-399"]}
{"id": "C78", "title": "The human algorithm evaluates what is typed", "statement": "The human algorithm evaluates, in the order in which they are typed, the words before `quit` which are long enough, cut to the size of the function, any character but zero being a one; it stops after the number of iterations plus one of them, or at `quit` by the exception which the application catches; its solution is the first best vector evaluated. Whenever calls of the function are interrupted, the vectors evaluated are the first typed ones and the solution is the first best of them. If the input ends without `quit` the algorithm never stops.", "quantifier": "all functions, inputs, numbers of iterations and interruptions", "why_tests_cant": "Inputs are unbounded and an endless loop cannot be observed.", "anchors": ["lib/hnco/algorithms/human.cc:32-75", "lib/hnco/algorithms/human.hh:33-60"]}
{"id": "C79", "title": "Saved maps and functions are loaded unchanged, and whatever is loaded as a map is one", "statement": "Saving a valid map (translation, permutation, linear map, affine map, sequence of transvections) or a function (linear function, Walsh expansions, NK landscape, Ising models, partition, equal products) and loading it gives the same object and leaves the rest of the archive unread. Whatever the contents of the file, if make_map loads a map from it then this map is total on vectors of its input size and says that it is surjective exactly when it is. For the same random numbers, the map loaded from the file of mapgen is the one hnco makes when asked for a random map of the same kind and sizes. For sequences of transvections, mapgen ignores the output size.", "quantifier": "all maps and functions of every size, all contents of files, all options of mapgen which can be met, all sequences of random numbers", "why_tests_cant": "The objects and the files are unbounded in number and size; a test saves and loads a few of them, and never a file which has been damaged in an arbitrary way.", "anchors": ["lib/hnco/maps/map.hh:87-99", "lib/hnco/maps/map.hh:175-187", "lib/hnco/maps/map.hh:255-267", "lib/hnco/maps/map.hh:339-355", "lib/hnco/maps/map.hh:606-619", "lib/hnco/maps/transvection.hh:64-76", "lib/hnco/serialization.hh:43-76", "lib/hnco/app/decorated-function-factory.cc:39-151", "app/mapgen.cc:38-120", "lib/hnco/functions/collection/nk-landscape.hh:53-57", "lib/hnco/functions/collection/ising/nearest-neighbor-ising-model-2.hh:74-92"]}
{"id": "C80", "title": "ffgen writes exactly the instances described by its options", "statement": "For each type of function and each generator of the program ffgen, the instances which can be written are exactly those described by the options: linear functions and Walsh expansions of degree 1 whose weights are multiples of normal deviates by the standard deviation, arithmetic and geometric progressions, equal products with multiples of uniform deviates, partitions with integers between 1 and the upper bound, NK landscapes with k distinct neighbours per bit, Walsh expansions with the requested number of features of bv_size bits, lower triangular quadratic expansions, long range Ising expansions whose term for two bits depends on their distance only, and Ising models on a line or on a grid with random or constant couplings and fields and the requested boundary conditions. MaxSat and Sudoku files are read back unchanged, and are solvable (MaxSat with a planted solution). An unknown function or generator throws and nothing is written. The option bv_size has no effect on Ising models in two dimensions.", "quantifier": "for all options, all sizes, all sequences of draws, all sets of normal and uniform deviates, and all instances that satisfy the description", "why_tests_cant": "The instances range over all sizes and all values drawn; that every instance of the described class can be written, and no other, is a statement about all draws.", "anchors": ["app/ffgen.cc:39-294", "lib/hnco/functions/collection/linear-function.hh:70-75", "lib/hnco/functions/collection/partition.hh:83-106", "lib/hnco/functions/collection/equal-products.hh:90-97", "lib/hnco/functions/collection/walsh/walsh-expansion.hh:84-102", "lib/hnco/functions/collection/walsh/walsh-expansion-1.hh:80-87", "lib/hnco/functions/collection/walsh/walsh-expansion-2.hh:92-107", "lib/hnco/functions/collection/walsh/walsh-expansion-2.cc:36-122", "lib/hnco/functions/collection/ising/nearest-neighbor-ising-model-1.hh:123-132", "lib/hnco/functions/collection/ising/nearest-neighbor-ising-model-2.hh:131-143"]}
{"id": "C81", "title": "The function factory makes the requested function, or fails", "statement": "CommandLineFunctionFactory::make gives, for every function number and every option, either an error (size not positive, unknown number, parameters which are not accepted, file which is not an archive) or a function of the requested size. Functions made from options (0, 5, 10, 11, 20, 30, 31, 40, 41, 80, 81, 100, 101, 110, 120, 130, 140) give to every bit vector of that size the value of their mathematical definition; their declared maximum, if any, is the maximum, and their incremental evaluation, if any, is exact. Functions read from a file do not depend on the size option, and for those whose files are checked (1, 50, 70, 71, 90, 91, 161) every accepted file gives a function which evaluates every vector of its size.", "quantifier": "all function numbers, sizes, options, files and bit vectors", "why_tests_cant": "sizes, options, files and bit vectors are unbounded", "anchors": ["lib/hnco/app/function-factory.cc:35-419", "lib/hnco/app/hnco-options.hh:185-258"]}
{"id": "C82", "title": "Instances written by ffgen are evaluated by hnco as requested", "statement": "For each function written by ffgen (linear functions, NK landscapes, MaxSat, equal products, partitions, Walsh expansions, of degree 1 and of degree 2, Ising models in one and two dimensions, Sudoku) and for all options and draws, the file is accepted by hnco with the same function number, whatever the positive size in the options; the function has the size of the instance and the values of its mathematical definition with the numbers drawn by ffgen; its maximum and incremental evaluation, if any, are right. A planted MaxSat instance has a vector which satisfies all clauses, and a Sudoku has, with both categorical representations, a bit vector of value zero, which is the largest value. More generally, any saved instance with consistent lengths, any CNF file, any QUBO file with distinct positions and any text with a grid are read as the function they describe.", "quantifier": "all options, draws, instances, files and bit vectors", "why_tests_cant": "instances, files and draws are unbounded, and two programs are involved", "anchors": ["app/ffgen.cc", "lib/hnco/app/function-factory.cc:35-419", "lib/hnco/serialization.hh:30-56"]}
{"id": "C83", "title": "A travelling salesman instance in TSPLIB format is maximized as minus the length of tours", "statement": "Tsp::load accepts a file whose header has TYPE TSP, a DIMENSION and an EDGE_WEIGHT_TYPE of ATT or EUC_2D (fields in any order, the last one counts, ATT by default, other keys and blank lines ignored), followed by a NODE_COORD_SECTION which lists cities in any order; the distances are those defined by TSPLIB between the listed coordinates. A file with another TYPE or EDGE_WEIGHT_TYPE is refused with an error. Through the factory (function 200) and the permutation adapter, every bit vector of the announced size has as value minus the length of a tour through all the cities, and every tour is reached by some bit vector.", "quantifier": "all files, all numbers of cities, all names and field orders, all coordinates, all bit vectors, all random tie-breakings", "why_tests_cant": "Tests load a few instances; the layout of headers, the order of cities and the tie-breaking of permutations are unbounded.", "anchors": ["lib/hnco/functions/collection/tsp.cc:37-161", "lib/hnco/functions/collection/tsp.hh:43-63", "lib/hnco/app/function-factory.cc:225-232", "lib/hnco/functions/permutation-function-adapter.hh:54-84"]}
{"id": "C84", "title": "The number of evaluations of a run is known in advance", "statement": "With k > 0 iterations, every run of an iterative algorithm which is not interrupted makes exactly a + k * b evaluations, and an interrupted run makes at most as many: a = 1 and b = 1 for random search, random walk, random local search without patience, (1+1) EA, self-adjusting (1+1) EA and MMAS; a = 1 + 2 * trials and b = 1 for simulated annealing; a = 1 and b = lambda for the (mu, lambda) EA and the two-rate EA; a = mu and b = lambda for the (mu + lambda) EA; a = b = mu for the genetic algorithm; a = 1 and b = 2 * lambda for the (1 + (lambda, lambda)) GA; a = 1 and b = population size for PBIL, NPS-PBIL, UMDA, RAM-UMDA, MIMIC, HEA and BM-PBIL; a = 1 and b = 2 for the compact GA, 4 when assertions are compiled. The information theoretic EA makes 1 evaluation and per iteration as many as its population has individuals, plus one for maximum likelihood replacement and at most one more for its incremental version. Random local search with patience makes at most 1 + k evaluations. Without a number of iterations such a run is only ended by an exception.", "quantifier": "all functions and interruptions, all parameters and sizes, all numbers of iterations, all random draws, all initial states", "why_tests_cant": "Tests use fixed sizes and iterations; an extra or missing evaluation in a branch taken rarely (replacement modes, incremental evaluation, ties) is not seen in the results.", "anchors": ["lib/hnco/algorithms/iterative-algorithm.cc:27-57", "lib/hnco/algorithms/population.cc:42-50", "lib/hnco/algorithms/local-search/simulated-annealing.cc:33-75", "lib/hnco/algorithms/evolutionary-algorithms/mu-plus-lambda-ea.cc:31-64", "lib/hnco/algorithms/evolutionary-algorithms/one-plus-lambda-comma-lambda-ga.cc:40-79", "lib/hnco/algorithms/evolutionary-algorithms/it-ea.cc:185-249", "lib/hnco/algorithms/probability-vector/compact-ga.cc:40-70"]}
{"id": "C85", "title": "The algorithm factory makes the algorithm asked for, with its options", "statement": "For each number of an algorithm of the library and options which are in order, CommandLineAlgorithmFactory::make returns an algorithm each run of which has no undefined behaviour, evaluates the function at vectors of the right size only, makes the number of evaluations announced by the options (population sizes, number of iterations, trials), and reports a best evaluation (the best of all generations but the last if the run is interrupted). A run ends with an exception only if the function raises it. Without interruption a run with a number of iterations ends normally; without a number of iterations it uses up the budget of the function. Complete search finds the global maximum; hill climbing finds a local maximum for the radius given as an option. Unknown algorithms, neighborhoods, distributions, modes, and sizes which are not in order are refused with an exception.", "quantifier": "all options, sizes, functions, interruptions and random draws", "why_tests_cant": "There are 32 cases with dozens of options; a setter which is forgotten or given the wrong option changes a run only for particular values of that option, and the results remain plausible.", "anchors": ["lib/hnco/app/algorithm-factory.cc:40-68", "lib/hnco/app/algorithm-factory.cc:77-91", "lib/hnco/app/algorithm-factory.cc:94-560", "lib/hnco/app/hnco-options.hh:161-584"]}
{"id": "C86", "title": "Sequential searches made by the factory move as their options say", "statement": "A random walk, random local search, simulated annealing, the (1+1) EA and first ascent hill climbing made by the factory only look at vectors which differ from their position in a number of bits allowed by the neighborhood options (one bit; at least one bit, or none if the mutation rate is low and that is allowed; one up to radius bits; exactly radius bits), and move as their comparison says: always, if better, if not worse, or at least if not worse. Conversely random walk, random local search and the (1+1) EA can take every such path. Local search reports its position. Random local search ends by itself exactly when the number of vectors rejected in a row reaches the patience given as an option.", "quantifier": "all options, sizes, functions, paths, interruptions and random draws", "why_tests_cant": "An option handed to the wrong setter (strict comparison, neighborhood, radius, patience, no mutation) leaves the results of a run plausible; that a path is possible at all can hardly be observed in random runs.", "anchors": ["lib/hnco/app/algorithm-factory.cc:40-68", "lib/hnco/app/algorithm-factory.cc:110-144", "lib/hnco/app/algorithm-factory.cc:159-220", "lib/hnco/algorithms/local-search/random-local-search.cc", "lib/hnco/neighborhoods/neighborhood.hh"]}
{"id": "C87", "title": "A whole run of hnco: function, controllers and algorithm together", "statement": "A run of the application with any accepted algorithm on a function with the controllers asked for has no undefined behaviour and no uncaught exception. The report counts the calls which have reached the function and gives the best value and the rank of its first occurrence; success and exit status tell whether the goal has been reached, and then the solution is the vector which has reached it. The budget is never exceeded, and is used up if there is neither a number of iterations nor another end. The solution is the best vector evaluated, except that the last ones of a population may not have been considered; for algorithms which consider each vector at once, the reported value is the one of the solution. With the option to stop on a right declared maximum, exit status zero means that the solution is a global maximum. Complete search without budget reaches every goal which can be reached, and otherwise returns a global maximum. With restart the report is right and the budget respected too.", "quantifier": "all options accepted by the algorithm factory, controller options, functions, sizes and random draws", "why_tests_cant": "The number of combinations of algorithm, budget, cache, target and restart is too large for tests; a solution which is not the one whose value is reported only shows if an improvement comes in an interrupted generation or an interrupted restart.", "anchors": ["lib/hnco/app/application.cc:177-191", "lib/hnco/app/application.cc:269-315", "lib/hnco/app/decorated-function-factory.cc:256-311", "lib/hnco/algorithms/decorators/restart.cc:28-52", "lib/hnco/algorithms/algorithm.hh:110-145"]}
{"id": "C88", "title": "Generations of the evolutionary algorithms made by the factory", "statement": "The (mu + lambda) EA, the (mu, lambda) EA, the two-rate (1 + lambda) EA and the genetic algorithm made by make_algorithm evaluate their first vectors and then whole generations: each vector of a generation is a mutant of a parent (of the solution for the two-rate EA, of a parent or a mixture of two parents for the genetic algorithm) with a number of flipped bits allowed by the options; after each generation the parents are as many best ones as ea_mu of parents and offspring (plus), of offspring only (comma) or the offspring; the solution is replaced only by a best vector of the generation, if it is better; an interrupted generation has no influence on the solution. Conversely, every sequence of such generations is possible for the plus, comma and two-rate algorithms, with any choice among equally good vectors.", "quantifier": "all options, sizes, functions, interruptions and random numbers", "why_tests_cant": "Each run makes random generations; a mutant which can never be made, a parent which can never be chosen, or a selection wrong only among ties goes unnoticed by tests, and no test shows that every sequence of generations is possible.", "anchors": ["lib/hnco/algorithms/evolutionary-algorithms/mu-plus-lambda-ea.cc:31-64", "lib/hnco/algorithms/evolutionary-algorithms/mu-comma-lambda-ea.cc:31-64", "lib/hnco/algorithms/evolutionary-algorithms/two-rate-one-plus-lambda-ea.cc:30-78", "lib/hnco/algorithms/evolutionary-algorithms/genetic-algorithm.cc:30-75", "lib/hnco/app/algorithm-factory.cc:222-268", "lib/hnco/app/algorithm-factory.cc:293-308"]}
{"id": "C89", "title": "Mutation rates of the self-adjusting (1+1) EA follow from its evaluations and the options", "statement": "The self-adjusting (1+1) EA made by make_algorithm looks at mutants of its position and moves to those at least as good. Its mutation rate is the initial rate of the options (1/n by default), multiplied by strength^ratio up to the maximum after a success, and divided by the strength down to the minimum (1/n^2 by default) after a failure. A mutant equal to its parent is evaluated only if that is allowed and one of the rates until then has been below 1/sqrt(n). Every such path is possible. The choice of rejection sampling is not taken back when the rate increases, so that equal mutants stay possible at rates at which they would be impossible at the start.", "quantifier": "all options, sizes, functions, interruptions and random numbers", "why_tests_cant": "The sequence of rates depends on all successes and failures of a run; that a former rate still has an influence shows only if the rate crosses 1/sqrt(n).", "anchors": ["lib/hnco/algorithms/evolutionary-algorithms/self-adjusting-one-plus-one-ea.cc:33-109", "lib/hnco/neighborhoods/neighborhood.hh:282-290", "lib/hnco/app/algorithm-factory.cc:201-220"]}
{"id": "C90", "title": "Option objects hold what the help pages say about a command line", "statement": "For each of the four programs hnco, hnco-mo, ffgen and mapgen: if a command line is made of options written as in the help pages (long name or unambiguous abbreviation, letter, value joined or separate, other words, and anything after --) then its object holds, for each parameter, the last value given, or else the documented default, or else its getter throws runtime_error; a flag is set exactly if it is given; has_/with_ functions say exactly which parameters are given. An integer is what a text starts with (0 for a word), so that --budget=1e6 is a budget of 1; seeds are taken modulo 2^32 and a leading 0 means octal.", "quantifier": "all command lines and all four option classes", "why_tests_cant": "There are hundreds of options, each handled by separate lines of generated code in six places (long_options, short string, switch, members, getters, help), and unboundedly many command lines.", "anchors": ["lib/hnco/app/hnco-options.cc:10-816", "lib/hnco/app/hnco-options.hh:161-1155"]}
{"id": "C91", "title": "Which command lines are accepted", "statement": "The option object of each of the four programs is made exactly for the command lines made of options written as in the help pages whose values have a meaning. Otherwise the program has read some such options and then ends with status 1 at a word which is no option or at a Boolean value other than true and false, or with status 0 after showing a page, and its behavior is undefined exactly at an integer too large for int.", "quantifier": "all command lines and all four option classes", "why_tests_cant": "The set of accepted command lines is infinite; acceptance of abbreviations depends on all names at once.", "anchors": ["lib/hnco/app/hnco-options.cc:156-815"]}
{"id": "C92", "title": "Printed parameters can be used as a command line", "statement": "For each of the four programs, the lines written by operator<< for an option object, each turned into the option of the same name (underscores become dashes, quotes are removed), are a command line which is accepted; every flag is the same and every parameter has the printed value, so that the run is the same if doubles are printed without loss. The code prints doubles with six digits, so a target which needs more digits is changed.", "quantifier": "all command lines and all four option classes", "why_tests_cant": "It relates two different pieces of generated code for each option, for all values.", "anchors": ["lib/hnco/app/hnco-options.cc:1344-1531"]}
{"id": "C93", "title": "Information printed by the application: Walsh spectrum, maximum, incremental evaluation", "statement": "With --fn-walsh-transform, hnco prints, for each non-empty feature whose coefficient is not negligible, its weight and the magnitude of its Walsh coefficient divided by the largest such magnitude, by decreasing magnitudes; --fn-get-maximum prints the maximum of the function or fails if it is unknown; a positive answer to --fn-provides-incremental-evaluation means that incremental evaluation is exact and not hidden by a cache.", "quantifier": "for all functions on less than 31 bits which are not constant, all stacks of controllers whose budget is at least 2^n and whose target is not reached, and all orders in which sorting may leave equal magnitudes", "why_tests_cant": "a test compares the output for some functions; it cannot show that the normalisation uses the right term whatever the coefficients, or that no budget or target hidden in the default options interrupts the computation", "anchors": ["lib/hnco/app/application.cc:102-175", "lib/hnco/functions/function.cc:76-130", "lib/hnco/app/decorated-function-factory.cc:256-311"]}
{"id": "C94", "title": "The program hnco from its command line to its exit status", "statement": "For a command line written as in the help pages, each part of the program (controllers, function, algorithm) gets the options of the same names. A plain run (one thread, no map, noise or expression) of a function which gives a value to each vector, with options of the algorithm which are in order, has defined behaviour and always ends with results: counts, best value, solution, budget and exit status are right; the exit status is 2 or 3 only if there is a goal which has not been reached, and 1 only with an error message. Complete search always ends with a maximum. A saved solution which is loaded is given its value. A file which cannot be opened is an error.", "quantifier": "for all command lines, all functions and files, all algorithms made by the factory which are accepted, all sizes and budgets, and all random numbers", "why_tests_cant": "a test runs some command lines with some seeds; it cannot show that no combination of options is read as another one, or that every run of every seed ends with results which agree with its exit status", "anchors": ["app/hnco.cc:30-43", "lib/hnco/app/application.cc:47-100", "lib/hnco/app/application.cc:317-326", "lib/hnco/app/decorated-function-factory.cc:191-305"]}
{"id": "C95", "title": "What the program hnco-mo does with a command line", "statement": "For a command line of hnco-mo which asks for a function of parsed expressions (numbers 520 to 524 and 530 to 534), with a well formed expression, well formed declarations, and representable variables: the program prints the total number of bits of the representations of the variables, or the number of sub expressions, or the display of the function if it is asked to, with status 0; otherwise it runs NSGA-II and, if it ends, it succeeds and prints a nonempty front without dominated members, whose objectives are the values of the sub expressions (or absolute values, or squared magnitudes), each variable being in the domain of its declaration or of the default declaration; with another algorithm or a tournament size which is less than 2 or not less than the population size it fails with status 1. Any other function number, among them the default number 180, always makes it fail with status 1.", "quantifier": "for all command lines, worlds (files, parsers of expressions and numbers), sizes, random numbers, and numbers of iterations and threads", "why_tests_cant": "command lines, expressions, declarations and random numbers are unbounded: a test runs some of them with some seeds", "anchors": ["app/hnco-mo.cc:30-43", "lib/hnco/multiobjective/app/application.cc:44-172", "lib/hnco/multiobjective/app/function-factory.cc:38-135", "lib/hnco/multiobjective/app/algorithm-factory.cc:31-57"]}
{"id": "C96", "title": "The generators ffgen and mapgen do what the command line says, and hnco then finds what was asked for", "statement": "A command line of ffgen which follows the help page and asks for one of the eleven known functions with valid sizes makes the program exit with status 0 and write, at the path given, a file from which hnco, on any command line that asks for the same function at this path, reads a sound function of the requested size with the requested values (weights, clauses, couplings...). In particular ffgen -F 91 followed by hnco -A 0 -b 0 -F 91 gives an optimal partition of the generated numbers. Unknown functions and generators, and files which cannot be opened, give status 1 and no file. mapgen exits with status 0 and writes a file from which a map of the requested kind and sizes is loaded, surjective if requested; unknown maps, unknown modes and impossible surjective maps give status 1 and no file.", "quantifier": "All command lines in all spellings accepted by getopt, all option values, all random numbers, all paths, and all later command lines of hnco.", "why_tests_cant": "There are unboundedly many command lines, sizes and random streams, and the claim links two separate programs through a file: the tests run neither program.", "anchors": ["app/ffgen.cc:39-319", "app/mapgen.cc:38-145", "app/ffgen-options.cc:46-197", "app/mapgen-options.cc:28-91", "lib/hnco/serialization.hh:64-76"]}
{"id": "C97", "title": "The project's tests of bit vectors, bit matrices and maps never fail", "statement": "Each of the twenty-four test programs on bit matrices (multiply, add rows, add columns, swap rows, solve, rank, invert, identity, rank of rows and columns), on bit vectors (to and from integers, from a stream, random), on translations, injections and projections, on transvections and sequences of transvections, and on the inversion of affine maps ends with the exit status 0: no assertion fails, nothing is read or written out of bounds, nothing is thrown, and no comparison fails, for whatever the generator draws. Those which draw a bounded number of times do end; the nine others, which draw again until a condition holds, can still end with this status whatever they have drawn so far.", "quantifier": "All numbers of runs, all largest sizes (the programs fix them), all random numbers.", "why_tests_cant": "The programs draw a few thousand objects of bounded size from one seed which depends on the time; a failure for one rare draw would be seen in some runs only. Also most of the claims are about what a test says of all the objects it might draw.", "anchors": ["tests/test-bm-multiply.cc:31-65", "tests/test-bm-solve.cc:31-74", "tests/test-bm-row-column-rank.cc:28-63", "tests/test-bv-to-size-type.cc:28-50", "tests/test-injection-projection.cc:33-70", "tests/test-ts-multiply.cc:29-73", "tests/test-ts-random-non-commuting.cc:40-74", "tests/test-tsaffinemap-invert.cc:35-71"]}
{"id": "C98", "title": "The project's tests of complete search never fail", "statement": "Each of the sixteen test programs which move the optimum of a function by a random translation, explore the hypercube with CompleteSearch, and compare the value of the solution with the maximum declared by the function (OneMax, LeadingOnes, Needle, Ridge, Plateau, Hiff, Jump, DeceptiveJump, Trap, FourPeaks, SixPeaks, LongPath, LinearFunction, WalshExpansion1), with zero (Factorization of a product) or with the number of clauses (MaxSat with a planted solution) ends with the exit status 0.", "quantifier": "All sizes and parameters taken by the constructors, all random translations, weights, instances and numbers of runs.", "why_tests_cant": "Each test makes ten to a hundred runs at one size; it sees neither other sizes and parameters nor the other translations, weights and clauses. The claim links the constructor, the declared maximum, the composition with a map, the iterator and the algorithm.", "anchors": ["tests/test-complete-search-one-max.cc:37-62", "tests/test-complete-search-hiff.cc:37-62", "tests/test-complete-search-long-path.cc:37-66", "tests/test-complete-search-linear-function.cc:37-69", "tests/test-complete-search-factorization.cc:37-70", "tests/test-complete-search-max-sat.cc:35-73"]}
{"id": "C99", "title": "The project's tests of neighbourhood iterators and hill climbing end with success", "statement": "The test programs of the hypercube iterator, of the single bit flip iterator, of the Hamming sphere iterator and of first and steepest ascent hill climbing (on OneMax, where the result must be the global maximum, and on Labs, where it must be a local one) end, after a bounded number of random draws, with the status 0. The test of the Hamming sphere sampler, which draws its sizes again until they fit, never ends with another status, and can still end with this one whatever it has drawn so far.", "quantifier": "for all numbers of runs, all bounds on the sizes, all sequences of random draws", "why_tests_cant": "The statement is about the tests: one run of a test shows that it passes with one seed. That it passes with every seed means that a failure always points to a change of the code.", "anchors": ["tests/test-hypercube-iterator.cc:31-55", "tests/test-single-bit-flip-iterator.cc:29-52", "tests/test-hamming-sphere-iterator.cc:29-63", "tests/test-hamming-sphere.cc:29-62", "tests/test-first-ascent-hill-climbing.cc:33-55", "tests/test-steepest-ascent-hill-climbing.cc:33-55", "tests/test-first-ascent-hill-climbing-local.cc:33-55", "tests/test-steepest-ascent-hill-climbing-local.cc:33-56", "lib/hnco/functions/function.cc:132-143"]}
{"id": "C100", "title": "The tests of incremental evaluation can only end with success", "statement": "The nine test programs on incremental evaluation (OneMax with standard bit mutation, single bit flips, Hamming balls and Hamming spheres; the opposite of a function; a random linear function; a random Walsh expansion of degree 1; random Ising chains and grids, periodic or not, with integer coefficients) compare, along a random walk, the value of each proposed point with the value obtained incrementally from that of the current point. Whatever these programs have drawn so far, they have ended with the exit status 0 or they ask for another draw and can still end with this status; they never report a difference, break an assertion or throw.", "quantifier": "All sequences of draws of the generator, all numbers of runs and iterations, all bounds on sizes and on coefficients; the program's own literals are one instance.", "why_tests_cant": "The programs are the project's tests: running one shows that it succeeded for one seed; the theorem is about every sequence of draws, hence every seed, and about every bound.", "anchors": ["tests/test-incremental-one-max.cc:33-63", "tests/test-incremental-one-max-single-bit-flip.cc:33-63", "tests/test-incremental-one-max-hamming-ball.cc:33-66", "tests/test-incremental-one-max-hamming-sphere.cc:33-66", "tests/test-incremental-opposite-function.cc:35-67", "tests/test-incremental-linear-function.cc:33-67", "tests/test-incremental-walsh-expansion-1.cc:33-69", "tests/test-incremental-nn-ising-1.cc:33-73", "tests/test-incremental-nn-ising-2.cc:33-76"]}
{"id": "C101", "title": "The tests of serialization can only end with success", "statement": "The seventeen test programs on serialization (linear functions by archive and by save and load, equal products, partitions, nk landscapes, one- and two-dimensional Ising models, Walsh expansions of any degree, of degree 1 and of degree 2, MaxSat instances by their text file, translations, permutations, linear maps, affine maps, sequences of transvections and compositions of maps) draw a random object, save it, load it into a new object and compare both on random bit vectors. Sixteen of them end with the exit status 0 on every sequence of draws which is long enough. The one on transvections, which draws again until the indices differ, has ended with the status 0, or asks for another draw and can still end with this status. None reports a difference, breaks an assertion, throws or has undefined behaviour.", "quantifier": "All sequences of draws, all functions from draws to numbers, all numbers of runs and of comparisons, all bounds on the sizes; the literals of the programs are one instance.", "why_tests_cant": "The programs are the project's tests: running one shows that it succeeded for one seed; the theorem is about every sequence of draws, hence every seed, and about every bound.", "anchors": ["tests/test-serialize-linear-function.cc:31-70", "tests/test-save-load-linear-function.cc:29-58", "tests/test-serialize-equal-products.cc:31-70", "tests/test-serialize-partition.cc:31-71", "tests/test-serialize-nk-landscape.cc:31-73", "tests/test-serialize-nn-ising-1.cc:31-70", "tests/test-serialize-nn-ising-2.cc:31-73", "tests/test-serialize-walsh-expansion.cc:31-71", "tests/test-serialize-walsh-expansion-1.cc:31-70", "tests/test-serialize-walsh-expansion-2.cc:31-70", "tests/test-serialize-max-sat.cc:33-71", "tests/test-serialize-translation.cc:31-74", "tests/test-serialize-permutation.cc:31-74", "tests/test-serialize-linear-map.cc:31-75", "tests/test-serialize-affine-map.cc:31-75", "tests/test-serialize-ts-affine-map.cc:31-76", "tests/test-serialize-map-composition.cc:31-81"]}
{"id": "C102", "title": "The tests of moments, herding, the Walsh transform, Pareto fronts and parallel evaluation can only end with success", "statement": "Five more test programs of the project end with the exit status 0 on every sequence of draws which is long enough: the one which compares the moments of a random population accumulated in triangular and in full matrices; the one which compares the bit vectors sampled by herding from triangular and from full moments; the one which compares a function with its Walsh transform; the one which computes the Pareto fronts of random populations and checks, for random pairs, that individuals of the same front do not dominate each other and that an individual of a later front is dominated by an individual of the earlier one; and the one which compares the parallel evaluation of a population with its sequential evaluation, for any number of threads and any schedule, where the generator is reset before each function is made. None reports a difference, breaks an assertion, throws or has undefined behaviour.", "quantifier": "All sequences of draws, all numbers of runs, all bounds on the sizes, on the numbers of objectives and of threads, and all schedules; the literals of the programs are one instance.", "why_tests_cant": "The programs are the project's tests: running one shows that it succeeded for one seed and one schedule; the theorem is about every sequence of draws, every schedule and every bound.", "anchors": ["tests/test-walsh-moment-add.cc:29-68", "tests/test-herding-sample.cc:29-81", "tests/test-walsh-transform.cc:29-56", "tests/test-pareto-front-computation.hh:50-116", "tests/test-nsga2-pareto-front-computation.cc:32-40", "tests/test-population-evaluate-in-parallel.cc:43-107"]}
{"id": "C103", "title": "The tests of representations and of the (1+1) evolutionary algorithm do what they claim", "statement": "The test program of dyadic float representations ends with exit status 0 in exact arithmetic, whatever it draws. The test program of the (1+1) evolutionary algorithm on OneMax never ends with a nonzero status, and its check of the best value never fails. The test program of dyadic integer representations never ends with a nonzero status; with bounds drawn in an interval whose size is a number of the type it can always still end with the status 0, whereas with the literal bounds of the program (all of long) it can draw bounds for which a signed addition or subtraction overflows.", "quantifier": "For all sequences of draws, numbers of runs, of variables and of bits, interval bounds, and results of the logarithm; for the (1+1) EA, all dimensions and all numbers of iterations.", "why_tests_cant": "These are the tests themselves: running them samples a few random draws, and the two pairs of bounds which overflow are drawn with probability about 2^-64 and 2^-128.", "anchors": ["tests/test-dyadic-integer-representation.cc:35-92", "tests/test-dyadic-float-representation.cc:31-84", "tests/test-one-plus-one-ea-one-max.cc:37-69"]}
{"id": "C104", "title": "Program hnco with a map: from the command line to the solution which is printed", "statement": "For a command line of hnco written as in the help pages with --map 1 to 6: with --map-random, a feasible map of the kind asked for is made with the options of maps (input size, surjectivity, length and mode of transvections), and otherwise the map is loaded from the file at --map-path. Whatever the random numbers, the program then ends with results only, and they are right for the composition of the function and of the map: calls, best value, budget, exit status; the solution which is printed is the one of the algorithm, or its image with --concrete-solution. Complete search through a surjective map finds a maximum of the function itself, in particular through the map which mapgen has just written. A map which is unknown, has wrong sizes, has an unknown mode, cannot be read, does not match the function, or is not surjective while the program must stop on the maximum, ends the program with an error message and exit status 1. Random transvections on one bit, and --concrete-solution with --print-description through a map which changes the number of bits, make the behaviour undefined.", "quantifier": "for all command lines, functions, maps, files, algorithm options, budgets, and random draws", "why_tests_cant": "The claim is about all maps, functions and random numbers at once; a test runs a few seeds, and the composition of the two programs mapgen and hnco is not tested at all.", "anchors": ["lib/hnco/app/decorated-function-factory.cc:38-151", "lib/hnco/app/decorated-function-factory.cc:219-223", "lib/hnco/functions/modifiers/modifier.hh:82-142", "lib/hnco/app/application.cc:231-267", "app/hnco.cc:30-43", "app/mapgen.cc:123-145"]}
{"id": "C105", "title": "The example programs do what they say", "statement": "The programs of examples/ end as expected. basic and custom evaluate one vector and then one per iteration, and print one of these vectors with the greatest number of ones, with its value. on-budget-function makes exactly budget evaluations, and prints the best of them if the number of offsprings divides the number of evaluations after the first population; otherwise at most lambda - 1 of the last vectors may have been overlooked. stop-on-maximum ends only with the vector of ones. cli-my-function gives the results of hnco for OneMax on 8 bits, whatever --function and --bv-size say, but fails with --stop-on-maximum and if --bv-size is not positive. cli-my-algorithm runs random search whatever --algorithm and --num-iterations say: its number of evaluations is the budget unless the goal is reached, its solution is the best one, and without budget and goal it has no end. The function of cli-universal-function has 109 bits, all its evaluations are defined, and its values are less than 10.", "quantifier": "all sizes, budgets, populations, iterations, command lines, bit vectors and random choices", "why_tests_cant": "The programs are random and cannot be run on all sizes, seeds and command lines; that a program never ends cannot be observed.", "anchors": ["examples/basic.cc:31-50", "examples/custom.cc:34-100", "examples/on-budget-function.cc:36-58", "examples/stop-on-maximum.cc:36-56", "examples/cli-my-function.cc:33-65", "examples/cli-my-algorithm.cc:35-69", "examples/cli-universal-function.cc:36-117", "lib/hnco/app/application.cc:317-326"]}
{"id": "C106", "title": "The parser of expressions accepts exactly its grammar", "statement": "The parser of mathematical expressions used by parsed modifiers (--expression) and parsed multivariate functions (--fp-expression) accepts a text, and finds a tree, if and only if the text means that tree according to a grammar which gives the literals, names, functions, precedences (power, then signs, products, sums, comparisons, conjunctions, disjunctions) and groupings (power from the right, others from the left). A text has at most one meaning. On every other text the parser reports one of its errors at a place of the text. Every tree can be written. A definition of an inline variable which is not followed by an expression is accepted, as well as hexadecimal numbers without digits.", "quantifier": "all texts of ASCII characters, all names of variables and constants, all trees", "why_tests_cant": "There are infinitely many texts and nestings, and a test cannot show that a grammar is unambiguous or that a text outside of it is always rejected.", "anchors": ["lib/fparser/fparser.cc:1374-1413", "lib/fparser/fparser.cc:1722-1750", "lib/fparser/fparser.cc:1794-2046", "lib/fparser/fparser.cc:2080-2113", "lib/fparser/fparser.cc:2145-2565", "lib/fparser/extrasrc/fp_identifier_parser.inc:11-379"]}
{"id": "C107", "title": "The code of a parsed expression computes the value of the expression", "statement": "While it reads an expression, the parser emits code for a stack machine, in a single pass which already groups constants of products and sums, replaces divisions by inverses, subtractions by opposites, powers of e and 2 by exponentials, and reuses values on the stack. If the expression, with its inline definitions, has a value for the given values of its variables (no division by zero, no argument outside the domain of a function), then the evaluation of the code returns exactly this value, for every way of adding opcodes which is locally right, and every tolerance of comparisons. The code of an integer power computes the power. The converse is false: the code may compute a value where the expression divides by zero. HNCO does not look at errors of evaluation: the result is then zero.", "quantifier": "all expressions with any number of inline definitions, all values of variables and constants, all tolerances, all exponents", "why_tests_cant": "The emission depends on the last opcodes emitted, so that the number of situations is unbounded; tests sample a few expressions at a few points.", "anchors": ["lib/fparser/fparser.cc:1534-1567", "lib/fparser/fparser.cc:1794-1854", "lib/fparser/fparser.cc:1902-1996", "lib/fparser/fparser.cc:2080-2565", "lib/fparser/fparser.cc:2586-2983", "lib/fparser/extrasrc/fpaux.hh:1199-1239"]}
{"id": "C108", "title": "The local optimizations of the parser of expressions preserve values, except for eleven wrong rules", "statement": "Each time an opcode is added to the code, the parser rewrites the last instructions of the code with local rules. For real numbers there are 276 of them, plus the compilation of powers into products and square roots, which has two branches. Eleven rules are wrong even with exact comparisons. With exact comparisons, all others are right: whatever the code they match computes from a stack, their replacement computes too, from the same stack. With comparisons up to a positive tolerance, 22 of these rules become wrong for some tolerance, and all the others are right for every tolerance. So any sequence of applications of right rules, anywhere in the code, preserves what the code computes, and the code of a parsed expression, optimized with right rules, computes the value of the expression. Two of the wrong rules lose signs: the code of -x+-y+3 computes -x+y-3.", "quantifier": "all rules, all immediate constants, opcodes and variables they match, all stacks, all sequences of applications, all tolerances", "why_tests_cant": "A rule has infinitely many instances, and is triggered only by particular sequences of opcodes; two wrong rules for sums of opposites have remained in the library.", "anchors": ["lib/fparser/extrasrc/fp_opcode_add.inc:2647-5309", "lib/fparser/fparser.cc:1569-1648", "lib/fparser/fparser.cc:46-268"]}
{"id": "C109", "title": "The variables of a parsed function are those of its expression, in alphabetical order", "statement": "The variables of a parsed function are not declared: the parser finds them by parsing the text again and again, adding the name where it failed to the names of the variables. This always ends, and it succeeds exactly when there are variables, other than the constants, with which the text means something. The names found are then those of the variables which occur in the text, without repetition, in alphabetical order, and the program found is the meaning of the text, which does not depend on the variables. So a function parsed from a text by HNCO has these variables, and its value at a vector of numbers, read in this order, is the value of the expression, with pi and e, provided that the optimizations of the code are right (C108). Otherwise an exception is thrown. The modifier which applies an expression to the values of a function accepts the texts which mean something with the only variable x, and computes the value of the expression.", "quantifier": "all texts, all constants, all sets of variables, all values of the variables, all right optimizations", "why_tests_cant": "A test has one text; that the loop always ends, and finds the variables whenever there are some, is a claim on all texts.", "anchors": ["lib/fparser/fparser.cc:1282-1333", "lib/fparser/fparser.cc:2991-3077", "lib/fparser/fparser.cc:1338-1368", "lib/hnco/functions/collection/parsed-multivariate-function.hh:82-108", "lib/hnco/functions/modifiers/parsed-modifier.cc:31-51"]}
{"id": "C110", "title": "The random samplers have the laws which are announced", "statement": "When the random primitives have their usual laws (the test uniform() < p is true with probability p, uniform and binomial distributions), the samplers built on them have the laws which are announced. Mutation by a single bit flip makes each neighbour with probability 1/n. The Hamming sphere makes each vector at distance r with probability 1/C(n,r), both by rejection sampling and by Bernoulli trials. The Hamming ball makes a vector at distance d, 1 <= d <= r, with probability 1/(r C(n,d)). Standard bit mutation makes a vector y other than x with probability p^d (1-p)^(n-d) / (1 - (1-p)^n), both by a Bernoulli process and by a binomial number of bits; without the denominator if no mutation is allowed and bits are chosen by rejection. Random bit vectors, with or without a given weight, are uniform; bits sampled from a probability vector or by biased or uniform crossover are independent with the right parameters; random transvections, matrices and surjective matrices are uniform. Boltzmann selection chooses i with probability proportional to exp(beta f(x_i)). Loops end with probability one. What may be sampled in the model without probabilities is what has a positive probability.", "quantifier": "all sizes, all bit vectors, all mutation rates, all radii, all weights, all values", "why_tests_cant": "A test compares a few frequencies with a tolerance, for some sizes; it cannot see a law which is nearly right, nor all sizes.", "anchors": ["lib/hnco/neighborhoods/neighborhood.cc:33-125", "lib/hnco/neighborhoods/neighborhood.hh:225-292", "lib/hnco/bit-vector.cc:92-121", "lib/hnco/algorithms/probability-vector/probability-vector.cc:45-60", "lib/hnco/algorithms/evolutionary-algorithms/crossover.cc:26-56", "lib/hnco/algorithms/evolutionary-algorithms/random-selection.cc:32-83", "lib/hnco/maps/transvection.cc:60-101", "lib/hnco/maps/map.cc:70-121"]}
{"id": "C111", "title": "Random search, random local search and the (1+1) evolutionary algorithm find the maximum, and how fast", "statement": "With the laws of C110, random search has not found one of the N maxima of a function on n bits after t iterations with probability exactly (1 - N/2^n)^(t+1). The (1+1) evolutionary algorithm with a mutation rate p, 0 < p < 1, finds a maximum of any function with probability one: the probability of not having found it after t iterations is at most (1 - min(p, 1-p)^n)^t, and the expected number of iterations is finite, at most n^n with the default rate 1/n. With rate 1/n its expected number of iterations is at most e n H_n on OneMax and e n^2 on LeadingOnes, whether or not mutations without effect are allowed. The expected number of iterations of random local search with single bit flips on OneMax is exactly n H_d, where d is the number of zeros of the starting point and H_d = 1 + 1/2 + ... + 1/d. Incremental evaluation makes no difference.", "quantifier": "all functions, all numbers of bits, all numbers of iterations, all mutation rates, all starting points, all options of the (1+1) evolutionary algorithm", "why_tests_cant": "A test runs a search a few times on a few functions with fixed seeds; it cannot tell a search which finds the maximum with probability one from a search which finds it nearly always, nor check an expected time for all sizes.", "anchors": ["lib/hnco/algorithms/random-search.cc:27-41", "lib/hnco/algorithms/iterative-algorithm.cc:27-57", "lib/hnco/algorithms/local-search/random-local-search.cc:33-124", "lib/hnco/algorithms/evolutionary-algorithms/one-plus-one-ea.hh:58-100", "lib/hnco/neighborhoods/neighborhood.hh:98-129"]}
{"id": "C112", "title": "The random walk, simulated annealing and the asynchronous Gibbs sampler have the stationary laws they are meant to have", "statement": "With the laws of C110, whatever the neighbourhood: the random walk with random initialization is uniform after any number of iterations; an iteration of simulated annealing moves to a proposed vector which is not worse with probability one and to a worse one with probability exp(beta times the difference of values), it keeps the Boltzmann law at the current inverse temperature beta, and at constant temperature, with a neighbourhood which may flip any set of bits, its vector tends exponentially fast to that law from any starting point; the Boltzmann law gives the vectors which are not maxima a probability which vanishes exponentially with beta. The asynchronous samplings of BM-PBIL (random bits, or full scans in a random order) keep the law of the Boltzmann machine, and tend to it exponentially fast from any state.", "quantifier": "all functions, all neighbourhoods, all numbers of bits, all temperatures, all parameters of the Boltzmann machine, all states, all numbers of iterations, steps and cycles, all events", "why_tests_cant": "A stationary law is a statement about the probabilities of all vectors and of all moves; a test only sees frequencies in a few runs, and cannot tell a sampler with the right limit from one whose limit is slightly different.", "anchors": ["lib/hnco/algorithms/local-search/random-walk.cc:45-55", "lib/hnco/algorithms/local-search/simulated-annealing.cc:78-112", "lib/hnco/neighborhoods/neighborhood.hh:98-129", "lib/hnco/algorithms/walsh-moment/gibbs-sampler.cc:39-141", "lib/hnco/algorithms/walsh-moment/bm-pbil.hh:229-247", "lib/hnco/permutation.hh:60-64"]}
{"id": "C113", "title": "Algorithms with a probability vector with margins, and evolutionary algorithms with populations, find the maximum with probability one", "statement": "With the laws of C110, on any function of n bits, whatever the learning rate and however equal individuals are sorted: the probability that no maximum has been found after t iterations is at most (1 - 1/n^n)^(2t+1) for the compact genetic algorithm, (1 - 1/n^n)^(t+1) for the max-min ant system, (1 - 1/n^n)^(size t + 1) for PBIL and UMDA (n at least two), and, with c = min(p, 1 - p)^n for the mutation rate p, at most (1 - c)^(mu + lambda t) for the (mu+lambda) EA, (1 - c)^(1 + lambda (t - 1)) for the (mu,lambda) EA and (1 - c/2)^(mu (t + 1)) for the genetic algorithm with tournaments of at least two and less than mu individuals, whatever the crossover probability. Hence it tends to zero.", "quantifier": "all functions, all numbers of bits, all population and selection sizes, all learning and mutation rates, all crossover probabilities, all laws of the order of equal individuals and of tournaments, all numbers of iterations", "why_tests_cant": "A test can see that the maximum was found in some runs on some functions, but neither that no function traps the algorithm nor a bound on the probability of failure which holds for all functions and sizes.", "anchors": ["lib/hnco/algorithms/probability-vector/compact-ga.cc:31-70", "lib/hnco/algorithms/probability-vector/mmas.cc:28-54", "lib/hnco/algorithms/probability-vector/pbil.cc:29-63", "lib/hnco/algorithms/probability-vector/umda.cc:29-61", "lib/hnco/algorithms/probability-vector/nps-pbil.cc:28-67", "lib/hnco/algorithms/probability-vector/probability-vector.cc:29-100", "lib/hnco/algorithms/evolutionary-algorithms/mu-plus-lambda-ea.cc:31-64", "lib/hnco/algorithms/evolutionary-algorithms/mu-comma-lambda-ea.cc:31-64", "lib/hnco/algorithms/evolutionary-algorithms/genetic-algorithm.cc:30-75"]}
{"id": "C114", "title": "Evolutionary algorithms which adjust their mutation rate find the maximum with probability one", "statement": "With the laws of C110, on any function of n bits: with at least eight bits and an initial rate between 2/n and 1/4, the probability that the two-rate (1+lambda) EA has not found a maximum after t iterations is at most (1 - 1/n^n)^(lambda t + 1), however equal individuals are sorted; with c = min(a, 1 - b)^n for the bounds a and b of the mutation rate, the probability that the self-adjusting (1+1) EA has not found a maximum after t iterations is at most (1 - c)^(t+1), with full or incremental evaluation, if 0 < a <= initial rate <= b < 1, the update strength is at least one and the success ratio is not negative, as is the case of the default parameters with at least two bits. Hence both tend to zero. With four to seven bits and the default parameters, t iterations of the two-rate (1+lambda) EA have a defined behaviour with probability (1/2)^t only.", "quantifier": "all functions, all numbers of bits, all population sizes, all parameters within the hypotheses, all laws of the order of equal individuals, all numbers of iterations", "why_tests_cant": "The mutation rate is a random process: a test sees some of its paths on some functions, but neither that it stays away from zero and one on all of them nor a bound on the probability of failure for all functions and sizes. That half of the updates are undefined with few bits is invisible to a test whose standard library does not check the precondition of std::clamp.", "anchors": ["lib/hnco/algorithms/evolutionary-algorithms/two-rate-one-plus-lambda-ea.cc:30-78", "lib/hnco/algorithms/evolutionary-algorithms/two-rate-one-plus-lambda-ea.hh:46-52", "lib/hnco/algorithms/evolutionary-algorithms/two-rate-one-plus-lambda-ea.hh:85-91", "lib/hnco/algorithms/evolutionary-algorithms/self-adjusting-one-plus-one-ea.cc:32-109", "lib/hnco/algorithms/evolutionary-algorithms/self-adjusting-one-plus-one-ea.hh:57-76", "lib/hnco/algorithms/evolutionary-algorithms/self-adjusting-one-plus-one-ea.hh:118-124"]}
{"id": "C115", "title": "Whatever the algorithms return with positive probability can be returned by a run of the step by step model", "statement": "The probabilities of C110-C113 are those of a second model, written with laws in place of draws. For random search, random local search with each of the four neighbourhoods, the (1+1) EA, the compact GA, MMAS, PBIL, NPS-PBIL, UMDA, the (mu+lambda) EA, the (mu,lambda) EA and the genetic algorithm, on any function and with any parameters: if the second model returns the solution r with a positive probability, then the constructor succeeds in the first model, and for some random draws the first model, run from the state which the constructor leaves, terminates without undefined behaviour, failed assertion or exception, with r as its solution. Sorting, replacement and tournaments may have any laws which only give what some draws give in the first model. Hence every maximum which C111 and C113 say is found with positive probability is one which a run of the first model finds.", "quantifier": "all functions, all numbers of bits, all parameters, all laws of the order of equal individuals and of tournaments, all numbers of iterations, all results", "why_tests_cant": "Two models of the same code could drift apart: a statement on probabilities of the second one says nothing about the code if it does what the code cannot do. Agreement for all results of all runs on all functions is a relation between the executions of the two models, which sampling does not establish.", "anchors": ["lib/hnco/algorithms/random-search.cc:27-41", "lib/hnco/algorithms/iterative-algorithm.cc:27-57", "lib/hnco/algorithms/local-search/random-local-search.cc:33-124", "lib/hnco/algorithms/evolutionary-algorithms/one-plus-one-ea.hh:58-100", "lib/hnco/neighborhoods/neighborhood.hh:98-129", "lib/hnco/algorithms/probability-vector/compact-ga.cc:31-70", "lib/hnco/algorithms/probability-vector/mmas.cc:28-54", "lib/hnco/algorithms/probability-vector/pbil.cc:29-63", "lib/hnco/algorithms/probability-vector/umda.cc:29-61", "lib/hnco/algorithms/probability-vector/nps-pbil.cc:28-67", "lib/hnco/algorithms/probability-vector/probability-vector.cc:29-100", "lib/hnco/algorithms/evolutionary-algorithms/mu-plus-lambda-ea.cc:31-64", "lib/hnco/algorithms/evolutionary-algorithms/mu-comma-lambda-ea.cc:31-64", "lib/hnco/algorithms/evolutionary-algorithms/genetic-algorithm.cc:30-75"]}
{"id": "C116", "title": "Random instances of MAX-SAT, NK landscapes, partitions and Walsh expansions have exact laws", "statement": "With the laws of C110: MaxSat::random(n, k, c) gives every expression of c clauses of k literals over different variables among n, in the order of the variables, with the same probability (choose(n, k) 2^k)^(-c), and on such an instance the mean value of any bit vector is c (1 - 2^(-k)). MaxSat::random(solution, k, c) gives independent clauses, all satisfied by the solution, but those of which exactly one literal is true are 1 + 1/k times as likely as the others, so that satisfied clauses are not equally likely. NkLandscape::random_structure gives, for each of n sites, every set of k other sites with probability 1/choose(n - 1, k), independently of the other sites. Partition::random gives independent uniform numbers between 1 and the bound. The features of WalshExpansion::generate are independent uniform bit vectors.", "quantifier": "all numbers of variables, literals, clauses, sites, neighbours, numbers and features which the assertions allow, all solutions, all instances", "why_tests_cant": "The law of an instance is a statement about exponentially many instances, each of tiny probability: sampling cannot tell a uniform law from a slightly biased one, such as that of the instances with a solution, for all sizes.", "anchors": ["lib/hnco/functions/collection/max-sat.cc:189-258", "lib/hnco/functions/collection/nk-landscape.cc:33-67", "lib/hnco/functions/collection/partition.hh:84-106", "lib/hnco/functions/collection/walsh/walsh-expansion.hh:85-102", "lib/hnco/bit-vector.cc:101-121"]}
{"id": "C117", "title": "Tournament selection has an exact law, and ignores the values in one round out of N / k", "statement": "With the laws of C110 and uniform shuffles, in a population of N individuals with tournaments of k: let R = N / k, rounded down, be the number of rounds of a pass. After init, selection number m (from zero) such that R does not divide m + 1 returns an individual of value v with probability (choose(a, k) - choose(b, k)) / (e choose(N, k)), where a, b and e are the numbers of individuals whose values are at most v, below v and equal to v; in particular the best individual, if there is only one, is returned with probability k / N, and individuals with fewer than k - 1 others which are not better are never returned. If R divides m + 1, then each individual is returned with probability 1 / N, whatever the values and the comparison: the winner is looked up in a permutation which has been shuffled again. If N < 2 k then all selections are uniform and there is no selection pressure. In a pass the best individual is returned ((R - 1) k + 1) / N times on average, instead of R k / N. The genetic algorithm with these laws is covered by C113.", "quantifier": "all populations, tournament sizes from 2 to N, values, strict weak orders for the uniform rounds and linear orders for the others, numbers of previous selections", "why_tests_cant": "Selected individuals are random: a test on a run sees plausible individuals in all rounds, and the missing selection pressure in one round out of R only shows in probabilities.", "anchors": ["lib/hnco/multiobjective/algorithms/random-selection.hh:88-92", "lib/hnco/multiobjective/algorithms/random-selection.hh:95-114", "lib/hnco/algorithms/evolutionary-algorithms/random-selection.cc:38-49", "lib/hnco/permutation.hh:53-54"]}
{"id": "C118", "title": "Restarting multiplies the probabilities of missing the maximum", "statement": "With the laws of C110: let the runs of an algorithm return with probability one, with solutions of the right size and their values, and miss the maximum with probability q whatever the state which the previous run has left. Then Restart with T runs misses it with probability exactly q^T; the expected number of runs until it has been found is 1 / (1 - q), and it is found with probability one if q < 1. Without a number of runs, Restart never returns. The runs of random local search are of this kind, with any neighbourhood of C110, any patience and any comparison which does not accept worse vectors: a run has the same law whatever the previous one has left, and from random vectors it misses the maximum with probability at most 1 - N / 2^n if there are N maxima, so that restarted random local search finds the maximum of any function with probability one, even where a single run is trapped (C111).", "quantifier": "all functions, sizes, numbers of runs and of iterations, neighbourhoods, patiences, states left by previous runs", "why_tests_cant": "The claim compares probabilities of all runs, which a test would have to estimate, and independence from what previous runs have left concerns all states of the algorithm object.", "anchors": ["lib/hnco/algorithms/decorators/restart.cc:28-52", "lib/hnco/algorithms/local-search/random-local-search.cc:33-124", "lib/hnco/algorithms/algorithm.cc:28-35", "lib/hnco/algorithms/algorithm.cc:61-66"]}
{"id": "C119", "title": "Laws of random transvection sequences and of random maps", "statement": "With the laws of C110, for n > 1 bits: all sequences of t transvections are equally likely (ts_random); so are all sequences of min(t, n-1) transvections with different rows (or different columns) in which no row is a column, and all sequences of min(t, n/2) transvections without a common bit. Non commuting sequences begin with a uniform transvection, and after a, each transvection which does not commute with a has probability 1/(2(n-1)), twice that for the one with row and column exchanged. Commuting sequences of min(t, max) transvections are a mixture over the number s of possible rows: all s with s(n-s) >= t are equally likely, except that one half of the bits is twice as likely; given s, the rows are in a uniform set of s bits, the columns outside, and ordered choices are equally likely. Hence commuting sequences are not uniform. A random translation, a random affine map (also if it has to be surjective) and a random affine map made of transvections (with any sampling mode) take any given vector to a uniform one, and a random permutation takes it to a uniform one among those with the same number of ones.", "quantifier": "all sizes, lengths, sampling modes, vectors and sequences", "why_tests_cant": "The claims are equalities of probabilities over all sequences and vectors, of which there are exponentially many.", "anchors": ["lib/hnco/maps/transvection.cc:172-353", "lib/hnco/maps/map.cc:105-127", "lib/hnco/maps/map.cc:193-231", "lib/hnco/maps/map.hh:127-132", "lib/hnco/maps/map.hh:197-202"]}
{"id": "C120", "title": "Searches treat all positions, and zeros and ones, alike", "statement": "Let g be the function f with its bits permuted, and with zeros and ones exchanged in some positions. With the laws of C110, the law of the solution returned by random search, by random local search (any comparison, patience and kind of evaluation, starting point moved in the same way) and by the (1+1) evolutionary algorithm on g is the law of the solution returned on f, with its bits permuted and exchanged in the same way; the same is true of the current vector and of the solution of the random walk and of simulated annealing (then also of its temperature and transitions). The neighbourhoods only need to be fair: sets of positions of the same size are flipped with the same probability, which is true of all the neighbourhoods of the library.", "quantifier": "all functions, all symmetries of the hypercube, all numbers of bits, all fair neighbourhoods, all parameters, all numbers of iterations (also runs without limit)", "why_tests_cant": "The claim compares the laws of two runs for each of the 2^n n! symmetries; a test compares frequencies for a few of them.", "anchors": ["lib/hnco/algorithms/random-search.cc:27-41", "lib/hnco/algorithms/local-search/random-local-search.cc:33-124", "lib/hnco/algorithms/evolutionary-algorithms/one-plus-one-ea.hh:58-100", "lib/hnco/algorithms/local-search/random-walk.cc:45-55", "lib/hnco/algorithms/local-search/simulated-annealing.cc:78-112", "lib/hnco/neighborhoods/neighborhood.hh:65-129"]}
{"id": "C121", "title": "Algorithms with a probability vector or with populations treat all positions, and zeros and ones, alike", "statement": "Let g be the function f with its bits permuted, and with zeros and ones exchanged in some positions. With the laws of C113, the law of the solution returned on g by the compact genetic algorithm, the max-min ant system (any comparison), population-based incremental learning, with negative and positive selection or not, the univariate marginal distribution algorithm, the (mu+lambda) and (mu,lambda) evolutionary algorithms and the genetic algorithm is the law of the solution returned on f, with its bits permuted and exchanged in the same way. Sorting and selection may follow any laws which only look at values (the law of tournaments of C117 does). The algorithms with a probability vector need two bits: on one bit the max-min ant system is biased, because its margins are exchanged.", "quantifier": "all functions, all symmetries of the hypercube, all numbers of bits (two at least for those with a probability vector), all laws of sorting and selection which only look at values, all parameters, all numbers of iterations (also runs without limit)", "why_tests_cant": "The claim compares the laws of two runs for each of the 2^n n! symmetries; a test compares frequencies for a few of them.", "anchors": ["lib/hnco/algorithms/probability-vector/compact-ga.cc:40-70", "lib/hnco/algorithms/probability-vector/mmas.cc:28-54", "lib/hnco/algorithms/probability-vector/pbil.cc:39-63", "lib/hnco/algorithms/probability-vector/nps-pbil.cc:38-67", "lib/hnco/algorithms/probability-vector/umda.cc:39-61", "lib/hnco/algorithms/evolutionary-algorithms/mu-plus-lambda-ea.cc:46-64", "lib/hnco/algorithms/evolutionary-algorithms/mu-comma-lambda-ea.cc:46-64", "lib/hnco/algorithms/evolutionary-algorithms/genetic-algorithm.cc:50-75"]}
{"id": "C122", "title": "What unbiased algorithms cannot distinguish, and finding a hidden target", "statement": "Call an algorithm unbiased if relabelling the bits of the function (permuting them, exchanging zeros and ones) relabels its solutions in the same way. Random search, random local search from a random vector with fair neighbourhoods, the (1+1), (mu+lambda) and (mu,lambda) evolutionary algorithms, the genetic algorithm, the compact genetic algorithm, the max-min ant system, PBIL, with negative and positive selection or not, and UMDA are unbiased. An unbiased algorithm returns a vector on f with the probability of its image on f relabelled; if the value only depends on the number of ones then vectors with as many ones are returned with the same probability; on a constant function, if it returns, it returns a uniformly distributed vector; it misses the maxima of f and of f relabelled with the same probability, and finds them in the same expected time. Hence the functions which count the bits equal to those of a target are all as hard as OneMax: random local search with single bit flips takes exactly n(1 + 1/2 + ... + 1/d) expected iterations, where d is the distance of its starting point to the target, and the (1+1) EA with rate 1/n at most e n (1 + 1/2 + ... + 1/n).", "quantifier": "all functions, symmetries, targets, starting points, numbers of bits (two at least for algorithms with a probability vector), parameters and numbers of iterations", "why_tests_cant": "Equalities of probabilities and of expected times for infinitely many functions and algorithms; a test compares frequencies on a few functions.", "anchors": ["lib/hnco/algorithms/local-search/random-local-search.cc:33-124", "lib/hnco/algorithms/evolutionary-algorithms/one-plus-one-ea.hh:45-100", "lib/hnco/functions/collection/theory.cc:34-50", "lib/hnco/algorithms/probability-vector/mmas.cc:28-54"]}
{"id": "C123", "title": "Evolutionary algorithms which adjust their mutation rate treat all positions, and zeros and ones, alike", "statement": "With the laws of C114, the two-rate (1+lambda) evolutionary algorithm (on at least four bits, with an initial rate of at most one half, however equal individuals are sorted, provided that sorting only looks at values) and the self-adjusting (1+1) evolutionary algorithm (if rates and their bounds are at most one and the update strength is at least one, as with the default parameters; full or incremental evaluation) are unbiased: if the bits of the function are permuted, and zeros and ones exchanged at some positions, then the law of the solution is changed in the same way. Hence the consequences of C122 hold: as many ones, equal probabilities on functions of the number of ones; uniform solutions on constant functions; all targets are equally hard.", "quantifier": "all functions, all symmetries of the hypercube, all numbers of bits (four at least for the two-rate algorithm), all parameters within the bounds, all laws of sorting which only look at values, all numbers of iterations (also runs without limit)", "why_tests_cant": "The claim compares the laws of two runs for each of the 2^n n! symmetries; a test compares frequencies for a few of them.", "anchors": ["lib/hnco/algorithms/evolutionary-algorithms/two-rate-one-plus-lambda-ea.cc:30-78", "lib/hnco/algorithms/evolutionary-algorithms/self-adjusting-one-plus-one-ea.cc:32-109"]}
{"id": "C124", "title": "What the predicates on matrices say", "statement": "For square matrices: matrix_is_symmetric, matrix_is_strictly_lower_triangular and matrix_has_diagonal return true exactly for symmetric matrices, for those whose elements on and above the diagonal are zero, and for those with the given diagonal. matrix_has_range returns true exactly if the elements below the diagonal are within the bounds; for symmetric matrices with a diagonal within the bounds that is all elements, in general it is not. matrix_has_dominant_diagonal compares each element with itself and returns true for all matrices.", "quantifier": "all square matrices of all sizes, over any linearly ordered type", "why_tests_cant": "An equivalence for all matrices; tests of the range on symmetric matrices, and of dominance on matrices with a dominant diagonal, pass.", "anchors": ["lib/hnco/algorithms/walsh-moment/matrix.hh:33-94"]}
{"id": "C125", "title": "What prior noise does to the values of functions", "statement": "With the laws of C110, the noisy value of a vector is the value of a mutated one, whatever the previous evaluations. In the mean, for any Walsh expansion: independent flips with rate p multiply the coefficient of a feature with k ones by (1 - 2p)^k; standard bit mutation which flips at least one of n bits multiplies it by ((1 - 2p)^k - (1 - p)^n) / (1 - (1 - p)^n); flips of a single bit multiply it by 1 - 2k/n. Hence the mean of the noisy OneMax of a vector with k ones is (1 - 2p) k + n p, resp. (1 - 2/n) k + 1; with flips of a single bit it is k - 1 with probability k/n and k + 1 otherwise. The noisy function announces the maximum of the function; but if the function has a single maximum, its noisy value never is the maximum unless vectors may stay as they are; with flips of a single bit the noisy value of a vector is the maximum with probability 1/n for the neighbours of the maximum, and never for other vectors.", "quantifier": "all sizes, vectors, rates, Walsh expansions, functions with a single maximum, and all previous evaluations", "why_tests_cant": "Means and probabilities of all vectors under all functions; noisy values differ from run to run.", "anchors": ["lib/hnco/functions/modifiers/prior-noise.cc:28-33", "lib/hnco/functions/modifiers/prior-noise.hh:49-79", "lib/hnco/neighborhoods/neighborhood.hh:151-157"]}
{"id": "C126", "title": "The initial temperature of simulated annealing", "statement": "`init_beta` makes independent trials: a uniform vector, and the result of flipping in it the bits sampled by the neighbourhood. If some trials lead to a worse vector, the inverse temperature is the only one at which a loss equal to their mean loss is accepted with the initial acceptance probability; it is positive if that probability is less than one. Otherwise it is NaN: this happens with the probability, to the power of the number of trials, that a trial does not lead to a worse vector, hence with probability at least 2^-trials whatever the function, and (1 - 2^-n)^trials for a needle in a haystack. Then worse vectors never are accepted, whatever the number of iterations. Otherwise iterations are those of C112. Initialization always ends, and leaves the algorithm at the best vector seen. The law of a run does not depend on the scale of the function: if all values are multiplied by a positive number and increased by a constant, the vectors have the same law.", "quantifier": "all sizes, functions, neighbourhoods, starting points, numbers of trials and iterations, acceptance probabilities, scales", "why_tests_cant": "Probabilities of all trials under all functions; a test which sees a number does not see the case in which the temperature is NaN.", "anchors": ["lib/hnco/algorithms/local-search/simulated-annealing.cc:33-112", "lib/hnco/algorithms/local-search/simulated-annealing.hh:47-70"]}
{"id": "C127", "title": "Algorithms which only compare values", "statement": "If the values of a function are transformed by a strictly increasing function, then random search, random local search, the (1+1) evolutionary algorithm, random walks, the self-adjusting (1+1) evolutionary algorithm, the two-rate (1+lambda) evolutionary algorithm, the compact genetic algorithm, the max-min ant system, population-based incremental learning (with or without negative selection), the univariate marginal distribution algorithm, the (mu+lambda) and (mu,lambda) evolutionary algorithms and the genetic algorithm have the same runs: the law of the result is the same, its value being transformed. This holds whatever the function, even if its evaluation fails, and whatever the number of iterations, even indefinite; with populations it holds provided that populations are sorted and selected alike, as valid choices do. More generally, random local search and the (1+1) evolutionary algorithm which accept vectors which are not worse take the same expected time to find any set of vectors on two functions which order vectors alike; for instance, on any function which orders vectors as OneMax, the (1+1) evolutionary algorithm with rate 1/n takes at most e n H_n iterations, and random local search exactly n H_d from a vector with d zeros.", "quantifier": "all functions, strictly increasing transformations between ordered types, sizes, parameters, neighbourhoods and numbers of iterations", "why_tests_cant": "Equality of laws for all functions and all increasing transformations; runs of a test are finitely many draws on finitely many functions.", "anchors": ["lib/hnco/algorithms/random-search.cc:27-41", "lib/hnco/algorithms/local-search/random-local-search.cc:33-124", "lib/hnco/algorithms/evolutionary-algorithms/self-adjusting-one-plus-one-ea.cc:32-109", "lib/hnco/algorithms/probability-vector/compact-ga.cc:33-70", "lib/hnco/algorithms/probability-vector/mmas.cc:28-54", "lib/hnco/algorithms/probability-vector/pbil.cc:39-63", "lib/hnco/algorithms/probability-vector/umda.cc:39-61"]}
