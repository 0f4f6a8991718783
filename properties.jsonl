{"id": "C01", "title": "Spend lookup counts affordable impressions", "statement": "For a publisher log, impressions_by_spend(s) returns exactly the number of log entries whose spend is <= s. (Claimed for logs in any order, since the constructor takes an unordered iterable; the code only meets it for logs already ordered by spend.)", "quantifier": "every log (any order, ties, duplicates of users) and every spend s", "why_tests_cant": "the answer depends on the whole log and its order; tests use a few hand-written, already sorted logs", "anchors": ["src/data_generators/publisher_data.py:PublisherData.__init__", "src/data_generators/publisher_data.py:PublisherData.impressions_by_spend"]}
{"id": "C02", "title": "Spend and impression lookups are inverse up to rounding", "statement": "For an ordered log, spending spend_by_impressions(n) buys at least min(n, log size) impressions, and the spend of impressions_by_spend(s) impressions (when positive) is <= s; spending strictly less than spend_by_impressions(n) buys fewer than n impressions.", "quantifier": "every non-empty ordered log, every impression count n, every spend s", "why_tests_cant": "Galois-connection law over all logs, including ties in spend, which sampled logs rarely contain", "anchors": ["src/data_generators/publisher_data.py:PublisherData.spend_by_impressions", "src/data_generators/publisher_data.py:PublisherData.impressions_by_spend"]}
{"id": "C03", "title": "Exposure counts by impressions and by spend describe the same people", "statement": "user_counts_by_spend(s) assigns every user exactly the number of that user's log entries with spend <= s, whatever the input order, and it equals user_counts_by_impressions(m) where m is the number of entries with spend <= s. user_counts_by_impressions(n) distributes exactly min(n, log size) impressions, always the cheapest ones.", "quantifier": "every log in every order, every spend, every impression count, every user", "why_tests_cant": "an equality of two whole counting functions over all logs; needs the sort/prefix argument, not samples", "anchors": ["src/data_generators/publisher_data.py:PublisherData.user_counts_by_impressions", "src/data_generators/publisher_data.py:PublisherData.user_counts_by_spend"]}
{"id": "C04", "title": "Publisher reach grows with spend up to the maximum reach", "statement": "The number of users a publisher reaches is non-decreasing in spend, never exceeds max_reach, and equals max_reach at spend >= max_spend (and at >= log-size impressions).", "quantifier": "every non-empty log, every pair of spends", "why_tests_cant": "monotonicity over all pairs of spends and logs", "anchors": ["src/data_generators/publisher_data.py:PublisherData.max_spend", "src/data_generators/publisher_data.py:PublisherData.max_reach", "src/data_generators/publisher_data.py:PublisherData.user_counts_by_spend"]}
{"id": "C05", "title": "Publisher file round trip", "statement": "Writing a publisher log and reading the file back yields the same log ordered by spend, hence the same answers to every query.", "quantifier": "every non-empty log of integer ids and spends, given only that decimal printing of a float parses back to it and prints no comma or newline", "why_tests_cant": "the text format must be unambiguous for every id and spend; sampled ids do not show this", "anchors": ["src/data_generators/publisher_data.py:PublisherData.write_publisher_data", "src/data_generators/publisher_data.py:PublisherData.read_publisher_data"]}
{"id": "C06", "title": "Malformed publisher files are rejected at the right line", "statement": "read_publisher_data fails with the 1-based number of the first malformed line whenever any line is malformed, and never silently skips or alters a line.", "quantifier": "every text file", "why_tests_cant": "all possible malformed files cannot be enumerated by tests", "anchors": ["src/data_generators/publisher_data.py:PublisherData.read_publisher_data"]}
{"id": "C07", "title": "Cross-publisher reach is exact deduplicated k+ reach", "statement": "reach_by_impressions(v, F).reach(k) is, for each 1 <= k <= F, the number of distinct users whose total number of impressions over all publishers (the first v[i] cheapest of publisher i) is at least k. With enough frequencies the k+ reaches add up to the impressions delivered.", "quantifier": "every data set, every impression vector of matching length, every max frequency F >= 1 and every k <= F", "why_tests_cant": "set-cardinality statement over all overlaps between publishers", "anchors": ["src/data_generators/data_set.py:DataSet.reach_by_impressions", "src/data_generators/data_set.py:DataSet._counts_to_histogram"]}
{"id": "C08", "title": "Spend-based reach agrees with impression-based reach", "statement": "reach_by_spend(s, F) returns the deduplicated k+ reaches of the users with entries costing <= s[i] at publisher i, its impressions field is the number of such entries per publisher, and it equals reach_by_impressions at those impression counts; its spends field is s. With enough frequencies the k+ reaches add up to the impressions field.", "quantifier": "every data set, spend vector, max frequency", "why_tests_cant": "equality of two different code paths for all inputs, including unsorted logs", "anchors": ["src/data_generators/data_set.py:DataSet.reach_by_spend", "src/data_generators/data_set.py:DataSet.reach_by_impressions"]}
{"id": "C09", "title": "Reach surfaces of data sets are monotone and bounded", "statement": "k+ reach of a data set never decreases when any publisher's impressions (or spend) increase, is non-increasing in k, is at most maximum_reach, at least every single publisher's own reach and at most the sum of the publishers' own reaches. 1+ reach is submodular: what two plans reach in total is at least what their pointwise larger and their pointwise smaller plan reach in total, by impressions and by spend.", "quantifier": "every data set, pair of comparable vectors, and k", "why_tests_cant": "monotonicity and inclusion-exclusion bounds over all data sets", "anchors": ["src/data_generators/data_set.py:DataSet.reach_by_impressions", "src/data_generators/data_set.py:DataSet.reach_by_spend", "src/data_generators/data_set.py:DataSet.maximum_reach"]}
{"id": "C10", "title": "Queries with the wrong number of publishers are refused", "statement": "reach_by_impressions and reach_by_spend raise ValueError exactly when the vector length differs from the publisher count.", "quantifier": "every data set and vector", "why_tests_cant": "exactly-when over all lengths", "anchors": ["src/data_generators/data_set.py:DataSet.reach_by_impressions", "src/data_generators/data_set.py:DataSet.reach_by_spend"]}
{"id": "C11", "title": "Publisher order does not matter", "statement": "Permuting the publishers of a data set together with the query vector leaves every k+ reach unchanged; giving zero impressions to a publisher is the same as dropping it.", "quantifier": "every data set, permutation, vector, frequency", "why_tests_cant": "factorially many permutations", "anchors": ["src/data_generators/data_set.py:DataSet.reach_by_impressions"]}
{"id": "C12", "title": "Data set round trip through a directory", "statement": "Writing a data set and reading it back gives a data set answering every query identically. (False in general: publishers come back in lexicographic order of file name and publishers with equal names overwrite each other; with pairwise distinct names the publishers are preserved up to that reordering.)", "quantifier": "every data set with every assignment of publisher names, every query", "why_tests_cant": "default names are 1..P and tests use few publishers, so the P >= 10 reordering is never seen", "anchors": ["src/data_generators/data_set.py:DataSet.write_data_set", "src/data_generators/data_set.py:DataSet.read_data_set"]}
{"id": "C13", "title": "k+ reaches and frequency histograms are inverse encodings", "statement": "For a reach point with k+ reaches r_1..r_F, the exact-frequency histogram with the F+ bucket converts back to r_1..r_F, and conversely; non-increasing reaches give non-negative frequencies.", "quantifier": "every list of k+ reaches, every histogram", "why_tests_cant": "round trip for every length and value", "anchors": ["src/models/reach_point.py:ReachPoint.__init__", "src/models/reach_point.py:ReachPoint.frequencies_with_kplus_bucket", "src/models/reach_point.py:ReachPoint.frequencies_to_kplus_reaches"]}
{"id": "C14", "title": "User counts convert to correct frequencies", "statement": "user_counts_to_frequencies(counts, F)[k] is the number of users with exactly k+1 exposures for k+1<F and with at least F exposures in the last entry; user_counts_to_kplus_reaches(counts, F)[k] is the number of users with at least k+1 exposures; a count of zero is never a reached user.", "quantifier": "every mapping of users to counts, every F >= 1", "why_tests_cant": "every count map and cap", "anchors": ["src/models/reach_point.py:ReachPoint.user_counts_to_frequencies", "src/models/reach_point.py:ReachPoint.user_counts_to_kplus_reaches"]}
{"id": "C15", "title": "Reach point accessors reject exactly the frequencies they do not store", "statement": "reach(k) succeeds iff 1 <= k <= stored length, frequency(k) iff 1 <= k < stored length; frequency(k) = reach(k) - reach(k+1); the zero-included histogram adds up to the universe size and fails without one.", "quantifier": "every reach point and every integer k including zero and negatives", "why_tests_cant": "off-by-one at both ends for every length", "anchors": ["src/models/reach_point.py:ReachPoint.reach", "src/models/reach_point.py:ReachPoint.frequency", "src/models/reach_point.py:ReachPoint.zero_included_histogram"]}
{"id": "C16", "title": "Reported privacy consumption is the worst case over all users", "statement": "After any sequence of noising events, privacy_consumption.epsilon (and .delta) equals the maximum, over every possible user position in the sampling circle [0,1), of the summed epsilon (delta) of the events whose sampling bucket contains that position.", "quantifier": "every history of events with buckets starting in [0,1) of width in [0,1] and non-negative budgets; every real position", "why_tests_cant": "a supremum over a continuum of users and all histories", "anchors": ["src/simulator/privacy_tracker.py:PrivacyTracker.privacy_consumption", "src/simulator/privacy_tracker.py:SamplingBucketIndices.contains", "src/simulator/privacy_tracker.py:PrivacyTracker.append"]}
{"id": "C17", "title": "Privacy accounting is monotone, order-free and never over-reports", "statement": "Appending an event never lowers the reported consumption; the order of events is irrelevant; the report is at most the sum of all budgets; full-universe events add exactly (sequential composition); events with disjoint buckets cost only the larger one (parallel composition); the list of mechanisms is the history in order.", "quantifier": "every history and permutation of it", "why_tests_cant": "all histories and interleavings", "anchors": ["src/simulator/privacy_tracker.py:PrivacyTracker.privacy_consumption", "src/simulator/privacy_tracker.py:PrivacyTracker.append", "src/simulator/privacy_tracker.py:PrivacyTracker.mechanisms"]}
{"id": "C18", "title": "M3 strategy never requests more than its privacy budget", "statement": "Summed over all Halo requests issued by one M3 fit, the requested epsilon (and delta) never exceed the budget given, for every number of publishers; they use it exactly when there are at least three publishers.", "quantifier": "every publisher count p >= 1 and every budget", "why_tests_cant": "p is unbounded; the p = 1, 2 and >= 3 cases differ", "anchors": ["src/simulator/m3_strategy.py:M3Strategy.fit"]}
{"id": "C19", "title": "M3 strategy trains on the right subsets", "statement": "The M3 fit trains publisher i's curve on the spend vector that is zero except campaign spend i, and trains the surface on the full campaign plus (for p > 2) each leave-one-out campaign; a single publisher campaign returns that publisher's curve.", "quantifier": "every campaign spend vector", "why_tests_cant": "index arithmetic for every p", "anchors": ["src/simulator/m3_strategy.py:M3Strategy.fit", "src/simulator/single_publisher_strategy.py:SinglePublisherStrategy.fit"]}
{"id": "C20", "title": "Noisy k+ reaches are always non-negative and non-increasing", "statement": "Whatever noisy estimates the sketch estimator returns, simulated_reach_by_spend returns max_frequency k+ reaches that are non-negative and non-increasing.", "quantifier": "every noise realisation (every list of estimates), every impression vector", "why_tests_cant": "noise is unbounded; a test sees a few draws", "anchors": ["src/simulator/halo_simulator.py:HaloSimulator.simulated_reach_by_spend"]}
{"id": "C21", "title": "Simulated reach stays below the impressions bought", "statement": "simulated_reach_by_spend never reports a reach as large as the number of impressions bought. (False when at most one impression is bought: it reports reach 1.)", "quantifier": "every noise realisation and impression vector", "why_tests_cant": "boundary at total impressions 0 or 1", "anchors": ["src/simulator/halo_simulator.py:HaloSimulator.simulated_reach_by_spend"]}
{"id": "C22", "title": "Venn regions partition the reached users", "statement": "For at most 20 active publishers, the Venn diagram regions contain each reached user exactly once, in the region of exactly those publishers that reached the user; all 2^a - 1 regions are present; the regions add up to the deduplicated reach; more than 20 active publishers is an error.", "quantifier": "every data set, every spend vector, every user", "why_tests_cant": "exponential number of regions and all overlaps", "anchors": ["src/simulator/halo_simulator.py:HaloSimulator._form_venn_diagram_regions"]}
{"id": "C23", "title": "Aggregating Venn regions recovers the reach of every publisher subset", "statement": "Without noise and sampling, aggregating the primitive regions yields for every non-empty subset of active publishers exactly the deduplicated reach of that subset, and generated reach points carry spend and impressions only for the publishers in the subset.", "quantifier": "every region table, every subset", "why_tests_cant": "2^a subsets for every a", "anchors": ["src/simulator/halo_simulator.py:HaloSimulator._aggregate_reach_in_primitive_venn_diagram_regions", "src/simulator/halo_simulator.py:HaloSimulator._generate_reach_points_from_venn_diagram"]}
{"id": "C24", "title": "Venn simulation spends exactly the budget requested", "statement": "The two noising events recorded by the Venn diagram path (per-region noise and cardinality estimate) have epsilons and deltas adding up to exactly the requested budget, whatever split is configured, and both are recorded in the tracker.", "quantifier": "every budget and split, every history of earlier events", "why_tests_cant": "budget arithmetic for all splits and histories", "anchors": ["src/simulator/halo_simulator.py:HaloSimulator._add_dp_noise_to_primitive_regions", "src/simulator/halo_simulator.py:HaloSimulator._scale_up_reach_in_primitive_regions"]}
{"id": "C25", "title": "Sampling and noising keep Venn regions sane", "statement": "Sampling never draws more from a region than it holds and draws exactly the sample size (asking for more than exist is an error); noised counts are never negative; scaling preserves region proportions, makes the regions add up to the estimated cardinality (or all zero), and never invents regions.", "quantifier": "every region table, sample and noise realisation", "why_tests_cant": "all noise and sample outcomes", "anchors": ["src/simulator/halo_simulator.py:HaloSimulator._sample_venn_diagram", "src/simulator/halo_simulator.py:HaloSimulator._add_dp_noise_to_primitive_regions", "src/simulator/halo_simulator.py:HaloSimulator._scale_up_reach_in_primitive_regions"]}
{"id": "C26", "title": "Quantile search finds the largest input not exceeding the target", "statement": "For any non-decreasing curve, impressions_by_quantile style search terminates and returns n with reach(n) <= target < reach(n+1), or 0 if the curve is above the target from the start; it fails with an overflow error exactly if the curve is still at or below the target after all doublings.", "quantifier": "every non-decreasing curve and quantile", "why_tests_cant": "all curves; termination of a doubling and bisection loop", "anchors": ["src/models/reach_curve.py:ReachCurve._by_quantile", "src/models/reach_curve.py:ReachCurve.impressions_by_quantile"]}
{"id": "C27", "title": "Goerg model reproduces its training point", "statement": "A fitted one-point reach curve predicts exactly the observed reach at the observed impressions, and at the observed spend when spend was given; fitting is refused exactly when the reach is not below the impressions, when there is not exactly one training point, or when impressions are below 0.001.", "quantifier": "every training point (I, R) with R < I, spend S", "why_tests_cant": "identity over all real inputs", "anchors": ["src/models/goerg_model.py:GoergModel.__init__", "src/models/goerg_model.py:GoergModel._fit", "src/models/goerg_model.py:GoergModel.by_impressions", "src/models/goerg_model.py:GoergModel.by_spend"]}
{"id": "C28", "title": "Goerg model is a valid reach curve", "statement": "Predicted k+ reach is non-negative, non-decreasing in impressions, non-increasing in k, strictly below the model's maximum reach, and at most the impressions; by_spend is the same curve rescaled by the cost per impression. Over all frequencies the k+ reaches add up to the impressions; they are those of a Poisson number of impressions with an exponentially distributed rate. Predicted 1+ reach is concave in impressions (diminishing returns).", "quantifier": "every fitted model, every pair of impression counts, every k", "why_tests_cant": "inequalities over a continuum", "anchors": ["src/models/goerg_model.py:GoergModel.by_impressions", "src/models/goerg_model.py:GoergModel.by_spend", "src/models/goerg_model.py:GoergModel.impressions_for_spend"]}
{"id": "C29", "title": "Pairwise union constraints say what they mean", "statement": "A parameter vector satisfies the solver constraints Gx <= h, Ax = b built for p publishers if and only if its p x p matrix is non-negative, has row and column sums at most one, zero diagonal and is symmetric.", "quantifier": "every p and every parameter vector", "why_tests_cant": "constraint-matrix construction with Kronecker products for every p", "anchors": ["src/models/pairwise_union_reach_surface.py:PairwiseUnionReachSurface._get_inequality_constraints", "src/models/pairwise_union_reach_surface.py:PairwiseUnionReachSurface._get_equality_constraints"]}
{"id": "C30", "title": "Pairwise union surface is a plausible union reach", "statement": "For every feasible parameter matrix and single-publisher reaches between 0 and their maxima, the predicted union reach is at least every single reach, at most their sum, and non-decreasing in every single-publisher reach; with only one active publisher it equals that publisher's reach. Over well-shaped curves (non-decreasing, between zero and the maximum reach) the prediction is submodular in the impressions, and it is concave in the impressions of every publisher whose curve is concave. On binary64 floats the prediction differs from the exact one by at most (p + 3)^2 2^-50 of the sum of the reaches.", "quantifier": "every p, feasible matrix, reach vector", "why_tests_cant": "inequality over all dimensions and parameters", "anchors": ["src/models/pairwise_union_reach_surface.py:PairwiseUnionReachSurface.by_impressions"]}
{"id": "C31", "title": "Pairwise union fitting minimises squared reach error", "statement": "The quadratic objective handed to the solver equals, up to a constant independent of the parameters, half the sum over training points of the squared difference between observed reach and the reach the surface predicts there; so the solver's minimisers are exactly the least-squares fits.", "quantifier": "every training set, every parameter vector", "why_tests_cant": "polynomial identity in all parameters", "anchors": ["src/models/pairwise_union_reach_surface.py:PairwiseUnionReachSurface._solve_a_given_z_and_alpha", "src/models/pairwise_union_reach_surface.py:PairwiseUnionReachSurface._get_z_and_alpha"]}
{"id": "C32", "title": "Restricted surface: loss measures the surface's own overlap", "statement": "The fitted overlap used in the loss at a training point equals (sum of reaches minus surface prediction) of the surface built from the same lambdas; its dependence on a single coordinate is affine with exactly the intercept and slope used by the coordinate update.", "quantifier": "every lambda vector, training point and coordinate", "why_tests_cant": "polynomial identity in all dimensions", "anchors": ["src/models/restricted_pairwise_union_reach_surface.py:RestrictedPairwiseUnionReachSurface._loss", "src/models/restricted_pairwise_union_reach_surface.py:RestrictedPairwiseUnionReachSurface._compute_u", "src/models/restricted_pairwise_union_reach_surface.py:RestrictedPairwiseUnionReachSurface._compute_v", "src/models/restricted_pairwise_union_reach_surface.py:RestrictedPairwiseUnionReachSurface._construct_a_from_lambda"]}
{"id": "C33", "title": "Restricted surface: coordinate step is optimal and stays feasible", "statement": "Each coordinate update picks, among all values within its feasible range, one with the least loss, never increases the loss, and keeps the lambda vector feasible; hence whole rounds never increase the loss.", "quantifier": "every feasible start, training set, coordinate order and number of rounds", "why_tests_cant": "optimality over a continuum, induction over rounds", "anchors": ["src/models/restricted_pairwise_union_reach_surface.py:RestrictedPairwiseUnionReachSurface._step", "src/models/restricted_pairwise_union_reach_surface.py:RestrictedPairwiseUnionReachSurface._round", "src/models/restricted_pairwise_union_reach_surface.py:RestrictedPairwiseUnionReachSurface._get_feasible_bound"]}
{"id": "C34", "title": "Restricted surface: feasible bound is exact", "statement": "A non-negative value for one coordinate keeps the lambda vector feasible if and only if it is at most the reported feasible bound.", "quantifier": "every feasible lambda vector, coordinate and value", "why_tests_cant": "iff over a continuum with a quadratic case split", "anchors": ["src/models/restricted_pairwise_union_reach_surface.py:RestrictedPairwiseUnionReachSurface._get_feasible_bound", "src/models/restricted_pairwise_union_reach_surface.py:RestrictedPairwiseUnionReachSurface._check_lbd_feasiblity"]}
{"id": "C35", "title": "Restricted surface: feasible lambdas give a plausible union reach", "statement": "Every feasible lambda vector yields pairwise parameters that are symmetric with zero diagonal and row sums at most one half (plus tolerance), so the predicted reach is between the largest single reach and the sum.", "quantifier": "every p and feasible lambda vector", "why_tests_cant": "all dimensions", "anchors": ["src/models/restricted_pairwise_union_reach_surface.py:RestrictedPairwiseUnionReachSurface._check_lbd_feasiblity", "src/models/restricted_pairwise_union_reach_surface.py:RestrictedPairwiseUnionReachSurface._construct_a_from_lambda"]}
{"id": "C36", "title": "Restricted surface: multi-start returns the best start", "statement": "Fitting from several initial points returns a lambda vector whose loss is the least of all the runs performed, the number of runs is between the configured minimum and maximum, and every run stops.", "quantifier": "every sequence of starting points and losses", "why_tests_cant": "every sequence of random starts", "anchors": ["src/models/restricted_pairwise_union_reach_surface.py:RestrictedPairwiseUnionReachSurface._fit_multi_init_lbds", "src/models/restricted_pairwise_union_reach_surface.py:RestrictedPairwiseUnionReachSurface._fit_one_init_lbd"]}
{"id": "C37", "title": "Generalized mixture surface is a plausible union reach", "statement": "For mixture weights that are non-negative and sum to one per publisher, and reaches between 0 and the universe size, the predicted union is at least every single reach, at most the sum, at most the universe, non-decreasing in every single reach, and equals the single reach when only one publisher is active. Over well-shaped curves the prediction is submodular in the impressions and concave in those of every publisher with a concave curve.", "quantifier": "every number of components and publishers, every weight matrix, every reach vector", "why_tests_cant": "product inequality over all dimensions", "anchors": ["src/models/generalized_mixture_reach_surface.py:GeneralizedMixtureReachSurface.by_impressions"]}
{"id": "C38", "title": "Generalized mixture: alternating fit sees the true prediction", "statement": "For every weight vector, the linear form sum(a*z) with z computed from the same weights equals predicted reach divided by the universe size, so the quadratic program optimises real prediction error at a fixed point.", "quantifier": "every weight vector and training point", "why_tests_cant": "algebraic identity for all dimensions", "anchors": ["src/models/generalized_mixture_reach_surface.py:GeneralizedMixtureReachSurface.get_z_from_theta", "src/models/generalized_mixture_reach_surface.py:GeneralizedMixtureReachSurface.get_theta", "src/models/generalized_mixture_reach_surface.py:GeneralizedMixtureReachSurface.solve_a_given_z"]}
{"id": "C39", "title": "k-inflated distribution is a probability distribution", "statement": "For every non-negative inflation vector and tail distribution, the frequency distribution is non-negative, puts nothing on zero impressions, and sums to one.", "quantifier": "every inflation vector (including sums above one) and every tail", "why_tests_cant": "normalisation over all inputs and the sum-above-one branch", "anchors": ["src/models/kinflated_gamma_poisson_model.py:KInflatedGammaPoissonDistribution.__init__"]}
{"id": "C40", "title": "Reach predictions of the k-inflated model are coherent across k", "statement": "Predicted k+ reach is non-increasing in k, between 0 and the population, does not depend on the max_frequency requested, and is non-decreasing in impressions. The k+ reaches add up to at most the impressions bought and the inventory, to exactly the smaller of the two if all frequencies are asked for, and k times the k+ reach does not exceed it either. 1+ reach is concave in impressions.", "quantifier": "every frequency distribution, pair of impression counts, k", "why_tests_cant": "binomial sums over all distributions", "anchors": ["src/models/kinflated_gamma_poisson_model.py:KInflatedGammaPoissonDistribution.kreach", "src/models/kinflated_gamma_poisson_model.py:KInflatedGammaPoissonDistribution.kplusreach", "src/models/kinflated_gamma_poisson_model.py:KInflatedGammaPoissonModel.by_impressions"]}
{"id": "C41", "title": "Exponential-Poisson closed forms invert each other", "statement": "In the exponential-Poisson model, solving for the rate parameter from population, impressions and reach (or for the population from the rate) and evaluating the reach formula returns the observed reach, whenever the solution branch applies; the reach formula is non-decreasing in impressions and at most the population.", "quantifier": "every population, impression count, reach and rate in the stated domain", "why_tests_cant": "rational identities over all reals and continuity at the saturation branch", "anchors": ["src/models/kinflated_gamma_poisson_model.py:KInflatedGammaPoissonModel._exponential_poisson_reach", "src/models/kinflated_gamma_poisson_model.py:KInflatedGammaPoissonModel._exponential_poisson_beta", "src/models/kinflated_gamma_poisson_model.py:KInflatedGammaPoissonModel._exponential_poisson_N_from_beta", "src/models/kinflated_gamma_poisson_model.py:KInflatedGammaPoissonModel._exponential_poisson_N"]}
{"id": "C42", "title": "Ground truth curve equals the data set restricted to one publisher", "statement": "The ground-truth curve of publisher i at n impressions (or spend s) gives the k+ reaches of publisher i's own log alone, independent of all other publishers.", "quantifier": "every data set, publisher, impression count or positive spend, k", "why_tests_cant": "independence from arbitrary other publishers", "anchors": ["src/models/ground_truth_reach_curve_model.py:GroundTruthReachCurveModel.by_impressions", "src/models/ground_truth_reach_curve_model.py:GroundTruthReachCurveModel.by_spend"]}
{"id": "C43", "title": "Overlap relabelling preserves each publisher's own behaviour", "statement": "Assigning user ids from an external overlap pattern keeps every publisher's spends, reach and frequency histogram at every spend level unchanged, provided the pattern has as many distinct ids as the publisher's reach; a pattern of a different size is refused.", "quantifier": "every data set and overlap pattern, every spend", "why_tests_cant": "injective relabelling over all logs", "anchors": ["src/data_generators/overlap_data_set.py:OverlapDataSet._label_ids", "src/data_generators/overlap_data_set.py:OverlapDataSet.__init__"]}
{"id": "C44", "title": "Generated impressions reach every user", "statement": "Each impression generator returns a log in which every one of the n users 0..n-1 occurs at least once and nobody else occurs, whatever frequencies are drawn and however it is shuffled; fixed pricing then gives strictly increasing spends so a generated publisher has reach exactly n and an ordered log. The number of impressions of a user follows the documented law: shifted Poisson, shifted negative binomial (the gamma mixture of Poisson laws) or zeta, with the documented means and variances, also for every generator of the single publisher design.", "quantifier": "every n, every draw of frequencies, every shuffle, every positive price", "why_tests_cant": "all random draws", "anchors": ["src/data_generators/homogeneous_impression_generator.py:HomogeneousImpressionGenerator", "src/data_generators/heterogeneous_impression_generator.py:HeterogeneousImpressionGenerator", "src/data_generators/heavy_tailed_impression_generator.py:HeavyTailedImpressionGenerator", "src/data_generators/fixed_price_generator.py:FixedPriceGenerator", "src/data_generators/publisher_data.py:PublisherData.generate_publisher_data"]}
{"id": "C45", "title": "A data design behaves like a write-once map of data sets", "statement": "After any sequence of additions and lookups, names lists exactly the added data sets in sorted order without duplicates, count is their number, lookup by name returns what was added under that name, and adding an existing name is refused without changing anything.", "quantifier": "every sequence of operations", "why_tests_cant": "all histories", "anchors": ["src/data_generators/data_design.py:DataDesign.add", "src/data_generators/data_design.py:DataDesign.by_name", "src/data_generators/data_design.py:DataDesign.names", "src/data_generators/data_design.py:DataDesign.count"]}
{"id": "C46", "title": "Publisher sizes decay from the largest to the configured smallest", "statement": "The generated publisher sizes start at the configured largest size, never increase, and the last one is the largest size times the configured ratio, rounded down; all are positive when that product is at least one.", "quantifier": "every publisher count, size and ratio in (0,1]", "why_tests_cant": "all sizes and counts", "anchors": ["src/data_generators/synthetic_data_design_generator.py:SyntheticDataDesignGenerator"]}
{"id": "C47", "title": "Aggregates are well defined and have a fixed set of columns", "statement": "Whether a trial succeeds or fails, the result row has the same columns in the same order; the shuffle distance always lies in [0,1], is 0 for equal distributions and symmetric in true and modelled histograms.", "quantifier": "every set of test points with non-negative histograms", "why_tests_cant": "all histograms including zero-sum ones", "anchors": ["src/driver/test_point_aggregator.py:aggregate", "src/driver/test_point_aggregator.py:aggregate_on_exception", "src/driver/test_point_aggregator.py:_shuffle_distance"]}
{"id": "C48", "title": "Trial results survive crashes at any point", "statement": "After a crash at any point of any evaluation (including between creating and finishing a file) the next evaluation of the trial with the same seed returns the result a crash-free evaluation would have returned. (Holds if a partially written result file is never readable as a table; false for torn writes that still parse.) On cloud storage, where objects appear in one piece, this holds for every result, also if several processes evaluate the same trial at the same time.", "quantifier": "every crash point, every number of crashes and retries", "why_tests_cant": "all crash points and histories", "anchors": ["src/driver/experimental_trial.py:ExperimentalTrial.evaluate", "src/filesystem_wrappers/filesystem_cloudpath_wrapper.py:FilesystemCloudpathWrapper.write_text"]}
{"id": "C49", "title": "Trial results are a function of the requested configuration", "statement": "evaluate(seed) returns the result for that seed and analysis type. (False: results are cached under a path that ignores seed and analysis type, so a later run with another seed silently returns the old result.)", "quantifier": "every history of evaluations with varying seeds and analysis types", "why_tests_cant": "histories over a persistent directory", "anchors": ["src/driver/experimental_trial.py:ExperimentalTrial.evaluate", "src/driver/experimental_trial.py:ExperimentalTrial._compute_trial_results_path"]}
{"id": "C50", "title": "One result row per distinct trial, for any schedule", "statement": "Loading an experimental design returns exactly one row per distinct (data set, trial description), in generation order, and the rows are the same whether trials were first evaluated sequentially or by any number of workers in any interleaving.", "quantifier": "every set of trials, every interleaving of workers", "why_tests_cant": "all schedules", "anchors": ["src/driver/experimental_design.py:ExperimentalDesign.load", "src/driver/experimental_design.py:ExperimentalDesign.generate_trials", "src/driver/experimental_design.py:ExperimentalDesign._remove_duplicates"]}
{"id": "C51", "title": "Test points lie inside the spend range and are as many as promised", "statement": "Grid test points are grid_size^p distinct points strictly between zero and the maximum spends; Latin hypercube generation gives between 100 and 2000 points within the spend box; uniformly random generation gives at least 100 points within the box. (The last is false when the caller asks for fewer: the minimum is computed but not used.)", "quantifier": "every number of publishers, grid size, requested count and random draw", "why_tests_cant": "all dimensions and parameters", "anchors": ["src/driver/grid_test_point_generator.py:GridTestPointGenerator.test_points", "src/driver/latin_hypercube_random_test_point_generator.py:LatinHypercubeRandomTestPointGenerator.test_points", "src/driver/uniformly_random_test_point_generator.py:UniformlyRandomTestPointGenerator.test_points"]}
{"id": "C52", "title": "Different trials get different descriptions", "statement": "Two trial descriptors differing in any parameter have different textual descriptions, so neither de-duplication nor the result cache confuses them. (False: argument dictionaries are printed without quoting, so different dictionaries print alike.)", "quantifier": "every pair of descriptors", "why_tests_cant": "injectivity over all descriptor values", "anchors": ["src/driver/modeling_strategy_descriptor.py:ModelingStrategyDescriptor.__str__", "src/driver/experiment_parameters.py:ExperimentParameters.__str__", "src/driver/trial_descriptor.py:TrialDescriptor.__str__"]}
{"id": "C53", "title": "Dirac mixture predictions are valid reach curves", "statement": "For any component weights forming a distribution and non-negative component rates, predicted frequency histograms are distributions at every scaling, and predicted k+ reaches are non-increasing in k and between 0 and the universe size. 1+ reach is concave in impressions up to the rounding to whole people. Predicting a share of the impressions is thinning: it shows every impression of the mixture with that probability. A model whose weights solve the fitting problem exactly never predicts more than the observed reach at or below the training impressions, provided one of its components reaches nobody, and its reach stays below that of the largest component; it predicts the observed reaches (false unless the observed histogram is a mixture of the components) and its predictions do not depend on the solver (false away from the training impressions).", "quantifier": "every mixture and impression count", "why_tests_cant": "all mixtures", "anchors": ["src/models/dirac_mixture_single_publisher_model.py:UnivariateMixedPoissonOptimizer.predict", "src/models/dirac_mixture_single_publisher_model.py:DiracMixtureSinglePublisherModel.by_impressions"]}
{"id": "C54", "title": "Gamma-Poisson k+ reaches are coherent", "statement": "Predicted k+ reaches of the gamma-Poisson model are non-negative and non-increasing in k, do not depend on the requested max_frequency, and by_spend is by_impressions at spend divided by cost per impression. The inventory law of the model is a probability law with mean 1 + alpha*beta, so _expected_impressions is the mean inventory and the impressions shown in the mean are those bought. The predicted k+ reaches add up to at most the impressions bought; with all frequencies they fall short exactly by the share of the inventory that is cut off. 1+ reach is concave in impressions.", "quantifier": "every impression distribution, impression count, k", "why_tests_cant": "all distributions", "anchors": ["src/models/gamma_poisson_model.py:GammaPoissonModel._kreach", "src/models/gamma_poisson_model.py:GammaPoissonModel.by_impressions", "src/models/gamma_poisson_model.py:GammaPoissonModel.by_spend"]}
{"id": "C55", "title": "Simulated publishers never spend more than their campaign", "statement": "A simulated publisher's sketch for any requested spend contains exactly the impressions affordable at the smaller of the requested spend and the campaign spend, so requesting more than the campaign spend changes nothing.", "quantifier": "every log, campaign fraction and requested spend", "why_tests_cant": "all spends", "anchors": ["src/simulator/publisher.py:Publisher.liquid_legions_sketch", "src/simulator/publisher.py:Publisher.true_reach_by_spend"]}
{"id": "C56", "title": "The k-inflated model's answers do not depend on the order of queries", "statement": "For a fitted-on-demand model, by_impressions returns the same answer whatever queries were made before. (False if the first query triggers the fit with an impression-dependent bound.)", "quantifier": "every history of queries", "why_tests_cant": "all query histories", "anchors": ["src/models/kinflated_gamma_poisson_model.py:KInflatedGammaPoissonModel._fit", "src/models/kinflated_gamma_poisson_model.py:KInflatedGammaPoissonModel.by_impressions"]}
{"id": "C57", "title": "Reading a data set always returns what is on disk", "statement": "read_data_set returns the publishers currently stored in the directory. (False: results are memoised per directory for the lifetime of the process, so data written after a first read is not seen.)", "quantifier": "every history of writes and reads", "why_tests_cant": "all histories", "anchors": ["src/data_generators/data_set.py:DataSet.read_data_set"]}
{"id": "C58", "title": "Venn requests never report negative reach", "statement": "Whatever the noise, no reach point returned by a Venn diagram request has a negative reach, and a larger set of publishers never reports less than a smaller one. (False: the noised cardinality estimate is not clipped at zero.)", "quantifier": "every noise realisation, every spend vector, every pair of publisher sets", "why_tests_cant": "all noise outcomes", "anchors": ["src/simulator/halo_simulator.py:HaloSimulator.simulated_venn_diagram_reach_by_spend", "src/simulator/halo_simulator.py:HaloSimulator._scale_up_reach_in_primitive_regions"]}
{"id": "C59", "title": "Goerg model: impressions at a reach quantile have a closed form", "statement": "The number of impressions the doubling and bisection search returns for a quantile q of the maximum reach of a fitted Goerg curve is the closed-form floor of rho*q/(1-q): the largest whole number of impressions whose reach does not exceed q times the maximum reach, if rho*q/(1-q) is below 2^60. Otherwise, and for a curve fitted to zero reach, the search does not answer but raises OverflowError.", "quantifier": "every fitted curve and every quantile strictly between 0 and 1", "why_tests_cant": "unbounded search over a continuum of curves", "anchors": ["src/models/reach_curve.py:ReachCurve.impressions_at_reach_quantile", "src/models/goerg_model.py:GoergModel.by_impressions"]}
{"id": "C60", "title": "Restricted surface: documented product form", "statement": "The restricted surface predicts the pairwise formula with a_ij = lambda_i * lambda_j, as documented. (False: the stored parameters are half of that, so for every feasible lambda the predicted union is at least three quarters of the sum of the single reaches, and fully overlapping audiences can not be represented.)", "quantifier": "every feasible lambda vector, surface and impression vector", "why_tests_cant": "a bound over all parameters and all data, not visible at any test point", "anchors": ["src/models/restricted_pairwise_union_reach_surface.py:RestrictedPairwiseUnionReachSurface._construct_a_from_lambda", "src/models/restricted_pairwise_union_reach_surface.py:RestrictedPairwiseUnionReachSurface._construct_D_from_r_and_m"]}
{"id": "C61", "title": "Restricted surface: reported convergence", "statement": "If a run of coordinate descent reports convergence, its last round improved the loss by at most the configured minimal improvement. (False for runs of one round: the loop is primed with a previous loss that is one too small.)", "quantifier": "every training set, start, coordinate order and number of rounds", "why_tests_cant": "all runs", "anchors": ["src/models/restricted_pairwise_union_reach_surface.py:RestrictedPairwiseUnionReachSurface._fit_one_init_lbd"]}
{"id": "C62", "title": "Restricted surface: starting points are feasible", "statement": "The simplex sampler returns a feasible vector with one coordinate per publisher whatever the random draws; the rejection sampler returns the first draw that is feasible up to the tolerance.", "quantifier": "every sequence of random draws", "why_tests_cant": "all random outcomes; square roots", "anchors": ["src/models/restricted_pairwise_union_reach_surface.py:RestrictedPairwiseUnionReachSurface._scaled_from_simplex_initial_lbd", "src/models/restricted_pairwise_union_reach_surface.py:RestrictedPairwiseUnionReachSurface._truncated_uniform_initial_lbd"]}
{"id": "C63", "title": "Multi-start: reported success belongs to the returned parameters", "statement": "The convergence flag reported after fitting from several starting points is that of the run whose parameters are returned. (False: it is overwritten with the flag of the last run.)", "quantifier": "every sequence of runs", "why_tests_cant": "all sequences of runs", "anchors": ["src/models/restricted_pairwise_union_reach_surface.py:RestrictedPairwiseUnionReachSurface._fit_multi_init_lbds", "src/models/generalized_mixture_reach_surface.py:GeneralizedMixtureReachSurface._fit_multi_init_a"]}
{"id": "C64", "title": "Generalized mixture: loss ranks runs by fitting error", "statement": "Of two weight vectors compared by the loss, the one with the smaller loss has the smaller sum of squared errors on the training points. (False: the loss lacks the factor one half of the quadratic objective, so it is least where the prediction is half the observed reach.)", "quantifier": "every training set and pair of feasible weight vectors", "why_tests_cant": "all data sets and weight vectors", "anchors": ["src/models/generalized_mixture_reach_surface.py:GeneralizedMixtureReachSurface._loss", "src/models/generalized_mixture_reach_surface.py:GeneralizedMixtureReachSurface._fit_multi_init_a"]}
{"id": "C65", "title": "Reach points carry the right universe size", "statement": "Without an explicit universe size a data set reports twice its number of distinct users, so the zero-included histogram of every query has no negative entry and adds up to that number; an explicit size is reported unchanged.", "quantifier": "every data set and query", "why_tests_cant": "all data sets", "anchors": ["src/data_generators/data_set.py:DataSet.__init__", "src/models/reach_point.py:ReachPoint.zero_included_histogram"]}
{"id": "C66", "title": "Without noise, a request measures the deduplicated reach of the capped campaign", "statement": "Every simulated publisher's campaign spend is its configured fraction of its own maximum spend. If the sketch library is exact, simulated_reach_by_spend returns the deduplicated k+ reach of the users with impressions affordable at the requested spends, each capped at the campaign spend (whenever that reach is below the number of impressions of the request).", "quantifier": "every data set, fraction vector, request and exact sketch library", "why_tests_cant": "all data sets; end-to-end composition of publishers, sketches and post-processing", "anchors": ["src/simulator/halo_simulator.py:HaloSimulator.simulated_reach_by_spend", "src/simulator/publisher.py:Publisher.liquid_legions_sketch"]}
{"id": "C67", "title": "Copying a data set creates a copy", "statement": "Reading a data set and writing it to another directory leaves the original alone and makes the same publishers readable from the new directory. (False: read_data_set names every publisher by its full path and an absolute name replaces the target directory in joinpath, so the copy stays empty and the original files are rewritten.)", "quantifier": "every file system, data set directory and target directory", "why_tests_cant": "all directory layouts; tests write only data sets whose publishers carry short names", "anchors": ["src/data_generators/data_set.py:DataSet.read_data_set", "src/data_generators/data_set.py:DataSet.write_data_set", "src/filesystem_wrappers/filesystem_pathlib_wrapper.py:FilesystemPathlibWrapper.joinpath"]}
{"id": "C68", "title": "The accuracy statistics mean what their names say and fit together", "statement": "For test points of any number the reported mean, absolute, squared and relative errors, variances and quantiles are those of the errors of the points; the absolute mean error is at most the mean absolute error, whose square is at most the mean squared error; the variance is the mean squared error less the squared mean; quantile columns increase; perfect predictions give zeros; and one point of true reach zero makes every relative column undefined.", "quantifier": "every pair of lists of test points of equal length", "why_tests_cant": "all lists; relations between columns are not covered by example rows", "anchors": ["src/driver/test_point_aggregator.py:aggregate", "src/driver/test_point_aggregator.py:_mean_abs_relative_error", "src/driver/test_point_aggregator.py:AGGREGATORS"]}
{"id": "C69", "title": "Every trial yields a row with the same columns", "statement": "The row of a trial has the same pairwise different columns in the same order whether modelling succeeds or fails, depending only on analysis type and maximum frequency; a row is returned whenever the data set has a publisher; model_succeeded is 1 exactly if every step of the evaluation went through, and after a failure all statistics are NaN; single publisher columns hold the relative error at the stated share of the spend.", "quantifier": "every combination of outcomes of fitting, test points, true and predicted reaches, every maximum frequency", "why_tests_cant": "all failure points and all frequencies; silent column mismatch only shows when rows are concatenated", "anchors": ["src/driver/experimental_trial.py:ExperimentalTrial.evaluate", "src/driver/experimental_trial.py:ExperimentalTrial._compute_single_publisher_fractions_dataframe", "src/driver/experimental_trial.py:ExperimentalTrial._single_publisher_fractions_dataframe_on_exception", "src/driver/experimental_trial.py:ExperimentalTrial._make_independent_vars_dataframe"]}
{"id": "C70", "title": "Different data set parameters give different data set names", "statement": "Data set parameters that differ have different names, so two data sets of a design are never stored under one name. (False: a given name hides all parameters, and generator classes are not shown; without a given name and with arguments free of the characters ,()= every shown parameter can be read off the name.)", "quantifier": "every pair of parameter sets", "why_tests_cant": "injectivity over all parameter values", "anchors": ["src/data_generators/data_set_parameters.py:DataSetParameters.__str__", "src/data_generators/data_set_parameters.py:GeneratorParameters.__str__"]}
{"id": "C71", "title": "Trial descriptors are filled in for the data set at hand and nothing else changes", "statement": "update_from_dataset replaces the spend fractions by those of the generator for this data set and the argument npublishers by its number of publishers, and keeps everything else; doing it twice changes nothing; a filled-in descriptor can be filled in again for another data set. (The last part is false with a spend generator, which is dropped.)", "quantifier": "every descriptor, spend generator and pair of data sets", "why_tests_cant": "all descriptors and data sets", "anchors": ["src/driver/trial_descriptor.py:TrialDescriptor.update_from_dataset", "src/simulator/system_parameters.py:SystemParameters.update_from_dataset", "src/driver/experiment_parameters.py:ExperimentParameters.update_from_dataset"]}
{"id": "C72", "title": "Exponential-Poisson bootstrap terminates and matches the observed reach", "statement": "The search for a starting point ends for every accepted point and yields a positive population, a non-negative rate and an inventory of at least the observed and the requested impressions; the model it describes has the observed reach at the observed impressions. (The last part is false: if more impressions are requested than observed, the model has the observed reach at the requested impressions and never predicts more.)", "quantifier": "every reach point and minimal inventory", "why_tests_cant": "termination of a loop over all real inputs; all points", "anchors": ["src/models/kinflated_gamma_poisson_model.py:KInflatedGammaPoissonModel._fit_exponential_poisson", "src/models/kinflated_gamma_poisson_model.py:KInflatedGammaPoissonModel._exponential_poisson_N"]}
{"id": "C73", "title": "Fitting the k-inflated model ends in a usable fit", "statement": "For every accepted point and minimal inventory, if scipy keeps its promises, a fit is found in at most kmax rounds: positive population, a probability distribution with nothing on zero impressions, at most kmax inflated values, stopping only when the fit is good or kmax values are inflated; the first query to a new model returns non-increasing k+ reaches within the population. The fit has at least the minimal inventory, as documented. (The last part is false: the distribution is cut off at 1000 impressions per person.)", "quantifier": "every point, minimal inventory, solver and query", "why_tests_cant": "all behaviours of the optimizer; loops", "anchors": ["src/models/kinflated_gamma_poisson_model.py:KInflatedGammaPoissonModel._fit_point", "src/models/kinflated_gamma_poisson_model.py:KInflatedGammaPoissonModel._fit_histogram_fixed_length_a", "src/models/kinflated_gamma_poisson_model.py:KInflatedGammaPoissonModel.by_impressions"]}
{"id": "C74", "title": "The gamma-Poisson objective is the documented distance", "statement": "The histogram of a reach point holds the people reached exactly 1, 2, ... times and finally those reached at least as often as the highest frequency, and adds up to the 1+ reach. For admissible parameters the objective is the sum of squared differences to the expected buckets divided by these, the squared error of the 1+ reach and the squared shortfall of the inventory; it is never negative and zero exactly for a perfect fit. Outside of the admissible region it is the sum of squares of the histogram.", "quantifier": "every histogram, parameter vector and family of distributions", "why_tests_cant": "all parameters", "anchors": ["src/models/gamma_poisson_model.py:GammaPoissonModel._chi2_distance_with_one_plus_reach", "src/models/gamma_poisson_model.py:GammaPoissonModel._histogram_with_kplus_bucket"]}
{"id": "C75", "title": "Fitting the gamma-Poisson model takes the best run", "statement": "The fit is the first best of the runs tried, which start from 11, 11/2, ..., 11/10 times the reach and end with the first run below the threshold; there is no fit exactly if all runs score 10^99 or more. If the optimizer respects its bounds every fit of a new model can be used for predictions, with a population of at least the reach. Fitting a fitted model again changes nothing. (The last part is false: the second fit is one with a fixed population.)", "quantifier": "every optimizer and reach point", "why_tests_cant": "all behaviours of the optimizer", "anchors": ["src/models/gamma_poisson_model.py:GammaPoissonModel._fit_histogram_chi2_distance", "src/models/gamma_poisson_model.py:GammaPoissonModel._fit_histogram_fixed_N", "src/models/gamma_poisson_model.py:GammaPoissonModel._fit"]}
{"id": "C76", "title": "The search for a starting point improves on its start", "statement": "The grid search for a starting point starts from an admissible point with admissible neighbours. Its result is at least as good as the start and as its four diagonal neighbours at the final distance 1/80, or the start itself if no neighbour of it scores below 10^99. The search ends for every non-negative score. (The last part is false for scores that fall for ever in some direction; it ends if only finitely many grid points score below 10^99.)", "quantifier": "every score function and starting point", "why_tests_cant": "loop over all score functions", "anchors": ["src/models/gamma_poisson_model.py:GammaPoissonModel._find_starting_point_for_fixed_N"]}
{"id": "C77", "title": "Dirac mixture: components are drawn where the data are", "statement": "The components are different, increasing, not negative, at least as many as asked for and at most half an additional one per histogram entry; the components in [f, f+1) are equally spaced, as many as the number of components times the (diluted) probability of f, rounded, until enough are drawn; if these are whole numbers exactly that many are drawn. As documented, no component is beyond the maximum frequency. (The last part is false: components are drawn up to the maximum frequency plus two.)", "quantifier": "every distribution, dilution and number of components", "why_tests_cant": "all distributions", "anchors": ["src/models/dirac_mixture_single_publisher_model.py:UnivariateMixedPoissonOptimizer.in_bound_grid"]}
{"id": "C78", "title": "Dirac mixture: fitting retries with fewer components and then answers", "statement": "Fitting tries n, n/2, n/4, ... components and keeps the weights of the first attempt that does not fail; if all fail every query fails with the exception of the attempt with one component. A fitted model is not fitted again. Every model that can be constructed answers queries with coherent reaches that grow with the impressions. (The last part is false for points with more people reached than there are, which the constructor accepts.) Under the single publisher strategy the model is constructed exactly if the campaign buys an impression; under the M3 strategy, which drops the number of people from the points, it is always refused. The fitting problem always has a solution; weights solve it exactly if no component would gain likelihood, and all solutions fit the observed frequencies alike.", "quantifier": "every solver behaviour, reach point, number of components and query", "why_tests_cant": "all failure patterns of the solver", "anchors": ["src/models/dirac_mixture_single_publisher_model.py:DiracMixtureSinglePublisherModel._fit", "src/models/dirac_mixture_single_publisher_model.py:DiracMixtureSinglePublisherModel.__init__", "src/models/dirac_mixture_single_publisher_model.py:DiracMixtureSinglePublisherModel.by_impressions", "src/simulator/m3_strategy.py:M3Strategy.fit", "src/simulator/single_publisher_strategy.py:SinglePublisherStrategy.fit"]}
{"id": "C79", "title": "Latin hypercube designs use every level equally often", "statement": "For sample values in [0,1) a level is always found, namely the one whose share of the interval contains the value. If each of N equal parts of the interval contains one of N sample values, each of L levels is used N/L times, up to less than two more or less, and exactly N/L times if L divides N. A design has one data set per sample, numbered from zero and with the levels of its sample; the names of the data sets are pairwise different whatever levels are drawn, so none is refused as a duplicate.", "quantifier": "every list of levels, every Latin sample and every number of samples", "why_tests_cant": "all samples; counting over all permutations", "anchors": ["src/data_generators/m3_data_design.py:generate_data_design_config", "src/data_generators/lhs_data_design_example.py:generate_data_design_config", "src/driver/sample_experimental_design.py:generate_experimental_design_config"]}
{"id": "C80", "title": "Full factorial designs try every combination exactly once", "statement": "A full factorial data design consists of exactly the combinations of levels, each once. If levels are told apart by texts without ,()= the data sets have different names. In a full factorial experimental design, if the levels can be told apart on each data set and data set names have no colon, each data set is evaluated under each combination of levels exactly once: no trial is dropped as a duplicate. The first round design has 288 trials per data set with at least one publisher.", "quantifier": "every choice of levels, every set of data sets", "why_tests_cant": "injectivity of descriptions over all levels and data sets", "anchors": ["src/data_generators/analysis_example_data_design.py:generate_data_design_config", "src/data_generators/simple_data_design_example.py:generate_data_design_config", "src/data_generators/single_publisher_design.py:generate_data_design_config", "src/driver/m3_first_round_experimental_design.py:generate_experimental_design_config", "src/driver/analysis_example_experimental_design.py:generate_experimental_design_config", "src/driver/experimental_design.py:ExperimentalDesign.generate_trials"]}
{"id": "C81", "title": "Independent overlaps fit into their universe and the data set keeps it", "statement": "The universe of an independent overlap has the size of the largest publisher divided by the given ratio, rounded down, and every generated publisher fits into it. The data set has the universe size it was generated with. (The last part is false: the universe size is not passed on; the data set assumes twice the number of people reached.)", "quantifier": "every size, ratio in (0,1], number of publishers and overlap pattern", "why_tests_cant": "all sizes and patterns", "anchors": ["src/data_generators/m3_data_design.py:generate_data_design_config", "src/data_generators/independent_overlap_data_set.py:IndependentOverlapDataSet.__init__", "src/data_generators/overlap_data_set.py:OverlapDataSet.__init__"]}
{"id": "C82", "title": "Running a design on Apache Beam gives the same rows", "statement": "However Beam splits results over accumulators and merges them, the combined list contains every result exactly as often as it was fed in. If the result of a trial does not depend on the state of shared generators and is read back unchanged, a finished Beam run returns exactly one row per trial, the same rows as loading on one core, for every interleaving of evaluations and every number of restarted evaluations, and leaves the result of every trial on disk; the file of the combined result is never the file of a trial. A design without trials is a ValueError however it is run. The rows come in the same order as on one core. (The last part is false: Beam combines in an order of its own.)", "quantifier": "every list of trials, sequence of steps and restarts, and way of combining", "why_tests_cant": "all interleavings and merge trees", "anchors": ["src/driver/experimental_design.py:CombineDataFrameFn", "src/driver/experimental_design.py:EvaluateTrialDoFn.process", "src/driver/experimental_design.py:ExperimentalDesign._evaluate_all_trials_using_apache_beam", "src/driver/experimental_design.py:ExperimentalDesign.load"]}
{"id": "C83", "title": "The output file of the driver has one row per data set and description", "statement": "However the experiment driver is run (one core, several cores, Apache Beam), the output file and the returned frame have exactly one row for every distinct pair of data set and trial description, and without Beam the rows come in the order in which trials are generated. The wrapper for files follows from the runner, and a directory that does not suit it makes every trial fail without touching a file. A command line in the documented form, in any order, runs the driver with the last value of every option; without a required option, or with a seed or number of cores that is no integer, nothing is run; options the driver does not know go to Beam, whose temporary location is always the directory of intermediate results. Asking for help runs nothing; a negative number or a lone dash may be the next argument after an option, anything else with a dash may not; what follows a second separator changes no argument of the driver.", "quantifier": "every data design, experimental design, schedule and way of combining", "why_tests_cant": "all designs and interleavings", "anchors": ["src/driver/experiment_driver.py:ExperimentDriver.execute", "src/driver/experiment_driver.py:create_arg_parser", "src/driver/experiment_driver.py:main", "src/driver/experimental_design.py:ExperimentalDesign.load", "src/driver/experimental_design.py:ExperimentalDesign.generate_trials"]}
{"id": "C84", "title": "Surfaces queried by spend", "statement": "If every curve can convert the spend of its publisher, querying a surface by spend is querying it by impressions at the converted spends, with the same maximum frequency. A curve without known cost makes the query fail with its exception. A pairwise surface with plausible parameters over Goerg, gamma-Poisson and k-inflated curves in any mixture, each fitted to somebody reached and of known cost, answers every query with non-negative spends; more spend never predicts less reach, and the predictions are submodular in the spends and concave in the spend with every single publisher. The same holds for generalized mixture surfaces if no curve exceeds the universe. A query with the wrong number of spends is refused, and an answer has as many frequencies as were asked for. (The last two are false: too many spends are silently ignored, and the surfaces always answer with one reach.)", "quantifier": "every surface, number of publishers, spend vector and maximum frequency", "why_tests_cant": "all spend vectors; monotonicity over all pairs of queries", "anchors": ["src/models/reach_surface.py:ReachSurface.by_spend", "src/models/pairwise_union_reach_surface.py:PairwiseUnionReachSurface.by_impressions", "src/models/goerg_model.py:GoergModel.impressions_for_spend"]}
{"id": "C85", "title": "The pairwise surface of two publishers is fitted as well as the overlap model allows", "statement": "For two publishers and one training point the solutions of the quadratic program are exactly the symmetric overlap matrices with one entry t in [0,1] for which the surface predicts, at the training point, the observed reach clamped to the interval from r0 + r1 - r0 r1 / max(m0, m1) to r0 + r1. There always is a solution, and if both curves have positive reach there it is unique.", "quantifier": "every pair of curves, training point and solver result", "why_tests_cant": "optimality over all parameter vectors", "anchors": ["src/models/pairwise_union_reach_surface.py:PairwiseUnionReachSurface._fit", "src/models/pairwise_union_reach_surface.py:PairwiseUnionReachSurface._solve_a_given_z_and_alpha", "src/models/pairwise_union_reach_surface.py:PairwiseUnionReachSurface.by_impressions"]}
{"id": "C86", "title": "The planner reproduces the campaign it was trained on, or overestimates it", "statement": "Before fitting, asking a planner for the modeled reach is an AttributeError; fitting never changes the true reach. Without noise, for one publisher and a Goerg curve, the modeled reach of the campaign equals its true reach, with either strategy. For two publishers with Goerg curves, with reaches that are positive and below the impressions, the pairwise union surface and a solver that solves its program, fitting succeeds and the modeled reach of the campaign is max(t, t0 + t1 - t0 t1 / max(rho0, rho1)), where t, t0, t1 are the true reaches of both and of each alone and rho the fitted maximum reaches: never below the truth, and above it exactly if the overlap is larger than t0 t1 / max(rho0, rho1).", "quantifier": "every pair of logs, campaign, data set, privacy budget and generator state", "why_tests_cant": "end to end over all logs and campaigns", "anchors": ["src/simulator/planner_simulator.py:PlannerSimulator.fit_model", "src/simulator/planner_simulator.py:PlannerSimulator.true_reach_by_spend", "src/simulator/planner_simulator.py:PlannerSimulator.modeled_reach_by_spend", "src/simulator/m3_strategy.py:M3Strategy.fit", "src/simulator/single_publisher_strategy.py:SinglePublisherStrategy.fit"]}
{"id": "C87", "title": "The k-inflated fit is admissible and not worse than its start", "statement": "The chi-squared distance of a fit raises nothing, is the documented sum over the histogram (10^-6 added to denominators; the sum of squares if the inventory is used up), is never negative and is zero exactly if the expected histogram is the actual one. The objective given to the optimizer is this distance plus the squared shortfall of the inventory for admissible parameters, and one constant for all others. Appending the current probability to the inflation vector changes no probability. Hence, if Nelder-Mead never returns anything worse than its start, the fit is admissible (population between the people reached and 100 times as many, rates within their bounds, inflated values between 0 and 1 of sum at most 1) and not worse than the exponential-Poisson start, however many values are inflated, and the inventory falls short of the documented minimum by at most the square root of the score of the start. The start itself is admissible whenever the impressions considered exceed the people reached by stated margins.", "quantifier": "every point, minimal inventory, kmax, negative binomial and optimizer that does not get worse", "why_tests_cant": "the optimizer is a parameter; all sequences of rounds are covered", "anchors": ["src/models/kinflated_gamma_poisson_model.py:KInflatedGammaPoissonModel._chi2_distance", "src/models/kinflated_gamma_poisson_model.py:KInflatedGammaPoissonModel._fit_histogram_fixed_length_a", "src/models/kinflated_gamma_poisson_model.py:KInflatedGammaPoissonModel._fit_point"]}
{"id": "C88", "title": "The mixture fit ends with admissible weights that are not worse than its start", "statement": "A run of the alternating fit performs at least one and at most the configured number of rounds, goes on exactly while a round improves the loss by more than the configured amount, returns the weights of the last round with their loss, and reports convergence exactly if the last round did not improve the loss by more. If the solver solves its programs, the weights returned satisfy the documented constraints and minimise the squared error of the linear forms of the round before. The whole fit returns the first of ten runs with the least loss, and its predictions lie between the largest single reach and the sum. The squared prediction error of a run is at most that of its start. (The last part is false. Also, one training point at which nobody is reached leaves the surface without weights.)", "quantifier": "every surface, training set, start, sequence of starts and solver", "why_tests_cant": "all sequences of rounds with an arbitrary solver", "anchors": ["src/models/generalized_mixture_reach_surface.py:GeneralizedMixtureReachSurface._fit_one_init_a", "src/models/generalized_mixture_reach_surface.py:GeneralizedMixtureReachSurface._fit", "src/models/generalized_mixture_reach_surface.py:GeneralizedMixtureReachSurface.update_theta_from_a", "src/models/generalized_mixture_reach_surface.py:GeneralizedMixtureReachSurface.update_a_from_theta"]}
{"id": "C89", "title": "The restricted surface is fitted feasibly and not worse than any start", "statement": "For training data with positive maximum reaches and one training point at which every publisher reaches somebody, from feasible starting points with two positive coordinates and for all random orders of the coordinates, the fit succeeds; its parameters come from a feasible lambda vector; if observed overlaps are above the floor, its squared prediction error over the training points with several publishers is at most that of the surface of each of the first thirty starting points; and it predicts, for all reaches within range, between the largest single reach and the sum, and at least 0.7499 of the sum. If no training point has two active publishers, as with a single publisher, the fitted parameters are nan; if there are such points but nobody is reached at them, the fit raises AttributeError.", "quantifier": "every training set, sequence of starts and random orders", "why_tests_cant": "end to end over all random draws", "anchors": ["src/models/restricted_pairwise_union_reach_surface.py:RestrictedPairwiseUnionReachSurface._fit", "src/models/restricted_pairwise_union_reach_surface.py:RestrictedPairwiseUnionReachSurface._fit_multi_init_lbds", "src/models/restricted_pairwise_union_reach_surface.py:RestrictedPairwiseUnionReachSurface._setup_predictor_response", "src/models/restricted_pairwise_union_reach_surface.py:RestrictedPairwiseUnionReachSurface._construct_a_from_lambda"]}
{"id": "C90", "title": "The report of the privacy tracker is a guarantee of differential privacy", "statement": "Take any sequence of noisy computations, each of which may look at the database and at all earlier results, and each of which keeps the promise of the noising event recorded for it: users in its sampling bucket are protected with its (epsilon, delta), all other users are not looked at. Then the whole record of results is differentially private for every user, with the consumption the tracker reports for the user's bucket and so with the overall consumption it reports: for databases that differ in one user's data, the probability of any set of records differs by at most a factor exp(epsilon) plus delta. The reported epsilon can not be lowered: for every list of events some computations keep their promises and lose exactly that much.", "quantifier": "every sequence of adaptive randomised computations, database, user and set of records", "why_tests_cant": "quantifies over all randomised computations and all events of their output distributions", "anchors": ["src/simulator/privacy_tracker.py:PrivacyBudget", "src/simulator/privacy_tracker.py:PrivacyTracker.privacy_consumption", "src/simulator/privacy_tracker.py:PrivacyTracker.privacy_consumption_for_sampling_bucket", "src/simulator/privacy_tracker.py:PrivacyTracker.append"]}
{"id": "C91", "title": "The noise on the Venn diagram regions is worth its recorded budget", "statement": "If the noise generator adds independent integers whose probabilities change by at most a factor exp(epsilon * split) from one integer to the next, as discrete Laplace noise does, then the noised tables of two region tables with the same regions are within exp(d * epsilon * split) of each other, where d is the sum of the differences of the counts; so for tables that differ by one person in one region the step is differentially private with the budget of the event that every run records. With discrete Laplace noise this is exact: d * epsilon * split is the least possible, although negative counts are cut to zero; a person who moves between two regions loses twice the recorded budget.", "quantifier": "every pair of tables with non-negative counts, budget, split and generator state", "why_tests_cant": "compares probabilities of all sets of results", "anchors": ["src/simulator/halo_simulator.py:HaloSimulator._add_dp_noise_to_primitive_regions", "src/simulator/privacy_tracker.py:NoisingEvent"]}
{"id": "C92", "title": "The response to a Venn diagram request protects every user with the recorded budget", "statement": "Take the logs of all publishers with and without the impressions of one user, and draw registers independently, the sample of regions as the multivariate hypergeometric distribution, and integer noise whose probabilities change by at most a factor exp(epsilon * split) per step. If the noised estimate of the cardinality is within exp(epsilon * (1 - split)) for n and n + 1 users, then the distributions of the response to a Venn diagram request are within exp(epsilon) plus the recorded delta of each other. (False of the whole response: its reach points state exact impressions, so that no delta below the probability of a response is possible for any reached user, and a request at which no register is active fails, which alone can tell whether somebody is reached. True of the reaches, with delta the probability of such a failure with or without the user: sampling by registers moves the sampled table by at most one person when one user is added.)", "quantifier": "every set of logs, user, spend vector, register distribution, noise and state", "why_tests_cant": "compares probabilities of all sets of responses over all random draws", "anchors": ["src/simulator/halo_simulator.py:HaloSimulator.simulated_venn_diagram_reach_by_spend", "src/simulator/halo_simulator.py:HaloSimulator._sample_venn_diagram", "src/simulator/halo_simulator.py:HaloSimulator._add_dp_noise_to_primitive_regions", "src/simulator/halo_simulator.py:HaloSimulator._scale_up_reach_in_primitive_regions", "src/simulator/halo_simulator.py:HaloSimulator._generate_reach_points_from_venn_diagram"]}
{"id": "C93", "title": "The LiquidLegions formulas of the simulator are sound", "statement": "For every positive decay rate, sketch size and number of users the variance formula of the cardinality estimate divides by nothing that is zero and is positive, so that its square root is a standard deviation. It is the delta method: the variance of the number of occupied registers (with Poisson loads on a continuum of registers) divided by the squared derivative of its mean, less the variance n of a Poisson number of users. The probabilities of the registers are positive, add up to one and fall geometrically. If n users choose registers independently, the expected number of registers with exactly one user is n times the sum of p (1-p)^(n-1) over the registers, and the probability that there is none, for which a request fails, is at most one minus that sum.", "quantifier": "every decay rate, sketch size, number of users and register distribution", "why_tests_cant": "an inequality between integrals for all real parameters; probabilities over all assignments", "anchors": ["src/simulator/halo_simulator.py:HaloSimulator._liquid_legions_cardinality_estimate_variance", "src/simulator/halo_simulator.py:HaloSimulator._liquid_legions_num_active_regions"]}
{"id": "C94", "title": "The reaches of a Venn diagram request are right on average", "statement": "If the estimate of the cardinality and all noise are right on average, then for every non-empty set of publishers taking part, the mean of the reach that a Venn diagram request reports for it is the number of people the set reaches, over the requests that succeed; a request fails exactly if no register is active. (False with noise on the regions: negative counts are cut to zero and an empty table is not scaled. Then the reach of all publishers together is too small on average whenever the noise can empty the table, and never too large. True without noise on the regions.)", "quantifier": "every set of logs, spend vector, set of publishers, register distribution, estimate and state", "why_tests_cant": "mean values over all random draws", "anchors": ["src/simulator/halo_simulator.py:HaloSimulator.simulated_venn_diagram_reach_by_spend", "src/simulator/halo_simulator.py:HaloSimulator._sample_venn_diagram", "src/simulator/halo_simulator.py:HaloSimulator._add_dp_noise_to_primitive_regions", "src/simulator/halo_simulator.py:HaloSimulator._scale_up_reach_in_primitive_regions"]}
{"id": "C95", "title": "A data design on cloud storage is a write-once map too", "statement": "On cloud storage, starting from a directory without objects, after any sequence of additions and lookups the names are exactly those added; adding a name again is refused and changes nothing; a lookup returns the data set that was added; a design opened later lists the same names. (The part about refusal and reopening is false for data sets without publishers, which leave no object; the part about lookups needs that the name was not looked up before. True for data sets with publishers.) A directory that is not on cloud storage is refused when the design is opened; a directory in which :// occurs twice is cut at the second one by additions but not by lookups; an absolute data set name is written outside the directory and its bucket.", "quantifier": "every sequence of additions and lookups with file names, every bucket", "why_tests_cant": "unbounded sequences of operations, all names and contents", "anchors": ["src/filesystem_wrappers/filesystem_cloudpath_wrapper.py:FilesystemCloudpathWrapper.joinpath", "src/filesystem_wrappers/filesystem_cloudpath_wrapper.py:FilesystemCloudpathWrapper.is_dir", "src/filesystem_wrappers/filesystem_cloudpath_wrapper.py:FilesystemCloudpathWrapper.glob", "src/filesystem_wrappers/filesystem_cloudpath_wrapper.py:FilesystemCloudpathWrapper.mkdir", "src/data_generators/data_design.py:DataDesign.add", "src/data_generators/data_set.py:DataSet.write_data_set", "src/data_generators/data_set.py:DataSet.read_data_set"]}
{"id": "C96", "title": "A generated data design contains exactly the configured data sets", "statement": "For every configuration whose entries have distinct names, publishers of positive size and generators that do what they should, and for an empty output directory, the generator of synthetic data designs ends normally. The design then has one data set for each entry, named after it, and looking it up gives as many publishers as configured, in the order of the configuration, with the configured sizes, prices and users. (The order is false for ten and more publishers: they are read in the order of their names as strings. True for up to nine.) An entry with a name that has occurred before, an entry with an empty publisher, and a second run on the same directory are refused with a ValueError and leave what was written before. The designs that come with the code have no empty publishers.", "quantifier": "every configuration, set generator, sequence of random draws and empty output directory", "why_tests_cant": "configurations of any length and publishers of any number and size; interplay of generator, file system and names", "anchors": ["src/data_generators/synthetic_data_design_generator.py:SyntheticDataDesignGenerator.__call__", "src/data_generators/synthetic_data_design_generator.py:SyntheticDataDesignGenerator._generate_data_set", "src/data_generators/data_design.py:DataDesign.add", "src/data_generators/overlap_data_set.py:OverlapDataSet.__init__"]}
{"id": "C97", "title": "Which trials yield a row of results", "statement": "A trial yields a row of results exactly if its data set has publishers, there are at least as many spend fractions as publishers, the names of its strategy and models are registered and the strategy knows its keyword arguments; otherwise evaluate ends with an IndexError, KeyError, TypeError or ValueError, in this order of checks. A row reports success only if the test point strategy is registered with known arguments, the models know their keyword arguments, there is a multi publisher model if there are several publishers, and the single publisher strategy has one publisher. The shipped designs compare the strategies that they say, use as many test points as configured, all within the maximum spends, and each of their trials yields a row on every data set with a publisher. (The last part is false: the single publisher design yields no rows for two and more publishers, and the sampled design none for three and more; true otherwise.)", "quantifier": "every data set, trial descriptor, library and random source; every trial of the shipped designs", "why_tests_cant": "all descriptors, data sets of any number of publishers, arbitrary libraries and noise", "anchors": ["src/driver/experimental_trial.py:ExperimentalTrial.evaluate", "src/driver/modeling_strategy_descriptor.py:ModelingStrategyDescriptor.instantiate_strategy", "src/driver/experiment_parameters.py:ExperimentParameters.generate_test_points", "src/driver/single_publisher_design.py:generate_experimental_design_config", "src/driver/sample_experimental_design.py:generate_experimental_design_config"]}
{"id": "C98", "title": "The privacy columns of a trial", "statement": "The row of a trial, successful or not, names the configured privacy budget and a consumption between zero and that budget: a whole number of the equal shares into which the strategy divides the budget, at most as many as measurements that the strategy makes, and exactly as many if the trial succeeds. So a successful M3 trial has used the whole budget if it has three or more publishers, two thirds of it for one publisher and three fifths for two; a successful single publisher trial has used it all. The mechanism Discrete Gaussian is named if and only if something was measured.", "quantifier": "every data set, trial descriptor, sketch library that reports the budgets it used, model and random source", "why_tests_cant": "all numbers of publishers, all libraries and all points at which a trial may fail", "anchors": ["src/driver/experimental_trial.py:ExperimentalTrial._make_privacy_tracking_vars_dataframe", "src/driver/experimental_trial.py:ExperimentalTrial.evaluate", "src/simulator/m3_strategy.py:M3Strategy.fit", "src/simulator/privacy_tracker.py:PrivacyTracker.privacy_consumption"]}
{"id": "C99", "title": "Which trials succeed, and what their surfaces predict", "statement": "For a data set of one publisher with log in order of cost, whatever the sketches estimate: a trial with Goerg's model, by either strategy, with positive campaign spend and test points at positive spends, succeeds if its campaign buys at least two impressions and fails if it buys none; with one impression it fails if somebody is counted and succeeds if nobody is. With analysis type single_pub it succeeds if at least two impressions are bought and somebody is counted, and fails if nobody is counted. If somebody is counted and scipy's optimizers keep to their bounds, a trial with the gamma-Poisson model succeeds if any impression is bought, and one with the k-inflated model if more than one impression is considered (bought, or bought times the extrapolation multiplier); both fail if none is bought, and the k-inflated model divides by zero if only one is considered. All trials of the single publisher design do so for spends from one to nine tenths of the total cost. A trial of several publishers whose impressions all cost something, by the strategy m3strategy with either surface, succeeds exactly if each publisher sells enough impressions for its curve (one; two for Goerg's model and for the k-inflated model without extrapolation), and with true reach curves whatever is bought (for the restricted surface: if each publisher sells one); with analysis type single_pub it always fails. The fitted surface of such a trial predicts, for all spends, a reach between the largest and the sum of the reaches of the single publishers' curves (for true reach curves: of the numbers of people that each publisher reaches, so that the error is at most the reach of all publishers but the largest one), and the reach of a single curve if the others reach nobody. An M3 trial of one publisher with true reach curves always succeeds with all errors zero. (The last part is false for analysis type single_pub, where such a trial always fails; true otherwise.)", "quantifier": "every such data set and trial descriptor, sketch library, noise and random source, any number of publishers up to one million", "why_tests_cant": "arbitrary estimates and logs of any length, from the data set to the row of results", "anchors": ["src/driver/experimental_trial.py:ExperimentalTrial.evaluate", "src/simulator/m3_strategy.py:M3Strategy.fit", "src/models/goerg_model.py:GoergModel.__init__", "src/models/goerg_model.py:GoergModel.by_spend", "src/models/gamma_poisson_model.py:GammaPoissonModel._fit", "src/models/kinflated_gamma_poisson_model.py:KInflatedGammaPoissonModel._fit", "src/models/ground_truth_reach_curve_model.py:GroundTruthReachCurveModel.__init__", "src/models/pairwise_union_reach_surface.py:PairwiseUnionReachSurface._fit", "src/models/restricted_pairwise_union_reach_surface.py:RestrictedPairwiseUnionReachSurface._fit"]}
