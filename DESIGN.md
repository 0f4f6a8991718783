# Design

Subject: /repo (planning-evaluation-framework, Python). Machine-checked model: Lean 4, `/verif/lean`.

## Layout

* `lean/Verif/Model/*.lean`  – model of the code, function by function; every definition cites file and lines.
* `lean/Verif/Spec/*.lean`   – small independent specifications (sets, counts, suprema) used to state properties. Specifications used by one property file only stand at the top of that file and are marked "(specification)".
* `lean/Verif/Lemmas/*.lean` – helper lemmas.
* `lean/Verif/Props/*.lean`  – the property theorems, followed by a concrete `example` meeting their hypotheses.
* `properties.jsonl` states the properties in English; `MANIFEST.json` maps them to theorem names.
* `seeded/LOG.jsonl` records wrong programs tried against the theorems.

A property that the code violates is kept in view as a definition `Cxx_full : Prop`, refuted by `Cxx_full_is_false` with a witness, and accompanied by a theorem ending in `_partial` for the part that holds.

## Modelling conventions

* Python floats are exact rationals (real numbers where powers, roots or exponentials are needed). Rounding, `-0.0` and overflow of floats are not modelled, except that `Model/Float64` and `Model/FloatSpend` repeat the privacy accounting, prices, campaign spends, test points, level choices and the Goerg curve with rounding to binary64. Where numpy produces NaN or infinity instead of an exception, the model returns `none`.
* Integers are unbounded, as in Python; the one conversion to `int32` (Dirac mixture) is modelled.
* Exceptions are values (`Except PyErr`), mutable objects become returned values, loops become recursion or folds. Loops without an obvious bound take `fuel`; theorems show that the fuel used is enough or say what happens for all amounts of fuel.
* Dictionaries and `Counter`s are association lists in insertion order; sets whose iteration order matters take the order as a parameter.
* Random number generators, sketches, solvers, file formats of floats and special-function pmfs are parameters; any assumed property of them is an explicit hypothesis of the theorem that uses it, and an `example` gives an instance meeting it.

## Trusted base

* The Lean 4.33.0 kernel, and Mathlib's definitions used in statements (lists, finite sums, `ℚ`, `ℝ`, real powers and exponentials). Proofs are replayed by the kernel; tactics are not trusted.
* That the model says what the Python says. It was written by reading the code; the code was not run. This is the main thing to review: each definition in `Verif/Model` is meant to be compared with the lines it cites.
* That the specifications say what the English says.

### Axioms

Output of `#print axioms` for every theorem named in `MANIFEST.json`, grouped. No theorem depends on `sorryAx`, on `Lean.ofReduceBool`, or on an axiom declared here (there are none).

* **Classical.choice, Quot.sound, propext** (633 theorems): C01_bracket, C01_right_iff_sorted, C01_full_is_false, C01_impressions_by_spend_partial, C02_spend_buys_impressions, C02_spend_of_bought_impressions, C02_less_buys_fewer, C03_user_counts_by_spend, C03_user_counts_by_impressions, C03_spend_and_impressions_agree, C03_max_impressions, C03_negative_impressions, C04_max_reach_and_spend, C04_reach_is_people, C04_reach_monotone_bounded, C04_all_impressions_reach_everybody, C05_round_trip_partial, C05_round_trip_sorted, C06_first_malformed_line, C06_only_outcomes, C06_id_syntax, C07_impressions_add_up, C07_reach_by_impressions, C08_impressions_add_up, C08_reach_by_spend, C08_spend_and_impressions_agree, C09_kplus_bounds, C09_spend_bounds, C09_monotone_impressions, C09_monotone_spend, C09_bounded_and_decreasing, C09_union_bounds, C09_submodular_impressions, C09_submodular_spend, C10_length_check_impressions, C10_length_check_spend, C11_publisher_order_spend, C11_zero_anywhere, C11_unaffordable, C11_publisher_order, C11_zero_publisher, C12_round_trip_partial, C12_same_reach, C12_reordered, C12_duplicate_names, C12_stale_files, C12_missing_directory, C12_malformed_file, C12_name_in_missing_directory, C12_full_is_false, C13_kplus_roundtrip, C13_frequency_roundtrip, C13_nonneg_frequencies, C13_kplus_nonincreasing, C14_zero_counts, C14_full_is_false, C14_frequencies_partial, C14_kplus_partial, C15_reach_accessor, C15_frequency_accessor, C15_zero_included_histogram, C15_constructor, C16_float_worst_case, C16_float_error, C16_float_full_is_false, C16_worst_case_user, C16_per_bucket, C16_float_rounding, C17_float_append_monotone, C17_float_at_most_sum, C17_float_order_full_is_false, C17_append_monotone, C17_order_free, C17_at_most_sum, C17_full_event_adds, C17_disjoint_events, C18_events, C18_float, C18_float_full_is_false, C18_m3_within_budget, C18_few_publishers, C19_m3_training, C19_single_publisher_strategy, C20_kplus_nonneg_nonincreasing, C20_length_and_success, C20_valid_estimates_unchanged, C21_reach_bound, C21_full_is_false, C21_reach_below_impressions_partial, C21_nothing_bought_reports_one, C22_regions, C22_each_user_once, C22_too_many, C22_sum_is_deduplicated_reach, C22_sum_is_true_reach, C23_aggregate, C23_reach_points, C23_noiseless_points_are_true_reach, C24_float_half, C24_float_error, C24_venn_budget, C24_defaults, C25_empty_sample, C25_noise_nonneg, C25_scaling, C26_above, C26_search, C26_monotone_curve, C26_quantile_range, C27_float_spend, C27_float, C27_float_full_is_false, C27_fit_accepts_iff, C27_refusal_is_value_error, C27_reproduces_training_point, C27_reproduces_training_spend, C28_impressions_add_up, C28_law, C28_diminishing, C28_full_is_false, C28_float_kplus, C28_float_kplus_exact, C28_float_one, C28_float_monotone_full_is_false, C28_float, C28_float_full_is_false, C28_float_monotone, C28_bounds_partial, C28_monotone_partial, C28_by_spend, C28_zero_reach, C28_refused, C29_kron, C29_constraints_iff, C30_float, C30_float_exact, C30_float_full_is_false, C30_float_goerg, C30_float_goerg_exact, C30_formula, C30_bounds, C30_monotone, C30_single_publisher, C30_submodular, C30_diminishing, C31_objective, C31_minimisers, C31_exact_fit, C32_fitted_is_own_overlap, C32_loss_is_squared_error, C32_affine, C33_full_is_false, C33_negative_step, C33_step_partial, C33_round_partial, C33_run_partial, C33_step_is_a_number, C33_round_is_a_number, C33_run_is_a_number, C34_bound_is_sound, C34_full_is_false, C34_bound_of_zero_vector, C34_bound_is_exact_partial, C34_bound_is_exact_within_size_partial, C35_plausible, C35_union_reach, C36_multi_start, C36_mixture_always_ten, C36_perfect_fit_exhausts, C36_restricted_defaults, C36_no_wall, C36_mixture_defaults, C37_formula, C37_bounds_partial, C37_one_cluster_partial, C37_monotone, C37_single_publisher, C37_universe, C37_refused, C37_full_is_false, C37_data, C37_submodular, C37_diminishing, C38_full_is_false, C38_linear_form_partial, C38_objective, C38_constraints, C39_distribution, C39_values, C40_impressions_add_up, C40_diminishing, C40_formula, C40_bounds, C40_max_frequency, C40_monotone, C40_ends, C40_no_frequency, C40_no_inventory, C40_consecutive, C40_point, C40_by_spend, C40_refused, C40_accepted, C40_defaults, C41_beta, C41_N_from_beta, C41_N, C41_curve, C41_series, C41_refused, C41_no_rate, C42_by_spend_exact, C42_by_impressions, C42_by_spend_full_is_false, C42_by_spend_partial, C42_errors, C42_quantile, C42_spend_quantile_partial, C43_one_publisher, C43_preserves, C43_data_set, C43_refused, C44_float, C44_homogeneous, C44_heterogeneous, C44_heavy_tailed, C44_fixed_price, C44_generated_publisher, C44_no_users, C44_homogeneous_law, C44_heterogeneous_law, C44_heavy_tailed_law, C44_default_has_no_mean, C44_documented_moments, C45_names, C45_write_once, C45_lookup_partial, C45_full_is_false, C45_reopen, C45_unknown_name, C46_float, C46_full_is_false, C46_decreasing, C46_smallest_partial, C46_two_publishers, C46_equal_sizes, C46_single_publisher, C46_generated, C46_empty_publisher, C47_shuffle_value, C47_shuffle_range, C47_shuffle_symmetric, C47_shuffle_zero_iff, C47_shuffle_equal_partial, C47_shuffle_degenerate, C47_full_is_false, C47_columns, C47_succeeds, C47_lengths, C47_float_shuffle, C47_float_self, C47_float_range_full_is_false, C47_float_range_partial, C47_float_zero, C47_float_symmetric, C47_float_degenerate, C47_float_labels, C48_any_generators, C48_cloud_steps, C48_cloud_safe, C48_cloud_progress, C48_cloud_unreadable, C48_duplicates_full_is_false, C48_cloud_touched, C48_cloud_any, C48_cloud_settled_full_is_false, C48_steps, C48_full_is_false, C48_crash_safe_partial, C48_one_piece_partial, C48_files, C48_touched, C48_stale_pending, C49_full_is_false, C49_first_wins, C49_same_request_partial, C50_any_generators, C50_trials_partial, C50_rows_full_is_false, C50_schedule_partial, C50_no_trials, C50_design_partial, C50_workers_finish, C50_exception, C50_descriptions_partial, C51_float_grid, C51_float_random, C51_grid, C51_grid_complete, C51_latin, C51_latin_stratified, C51_latin_rearranged, C51_uniform_partial, C51_full_is_false, C52_shown_partial, C52_full_is_false, C52_marks_collide, C53_thinning, C53_diminishing, C53_histogram, C53_coherent_partial, C53_monotone, C53_no_impressions, C53_max_frequency, C53_by_spend, C53_full_is_false, C53_refused, C53_defaults, C53_never_overestimates, C53_ceiling, C53_reproduces_partial, C53_reproduces_full_is_false, C53_determined_partial, C53_determined_full_is_false, C53_refused_frequency, C54_impressions_add_up, C54_diminishing, C54_formula, C54_coherent, C54_max_frequency, C54_monotone, C54_by_spend, C54_point, C54_cost, C54_unfitted, C54_refused, C54_accepted, C54_defaults, C54_gamma_poisson_law, C54_expected_impressions, C54_documented_mean_full_is_false, C54_shown_law, C54_shown_impressions, C54_truncation, C54_exponential_tail, C54_truncation_matters, C54_assumption, C55_default, C55_sketch_contents, C55_capped_at_campaign, C55_true_reach, C56_state, C56_full_is_false, C56_once_fitted, C56_first_query, C56_no_extrapolation_partial, C57_some_moment_partial, C57_uncached, C57_no_changes, C57_cache_bounded, C57_full_is_false, C58_one_sign, C58_full_is_false, C58_nonneg_and_monotone_partial, C59_goerg_quantile, C59_goerg_quantile_overflow, C60_half_of_documented_partial, C60_at_least_three_quarters, C60_full_is_false, C61_converged_iff, C61_stops_converged, C61_full_is_false, C61_converged_partial, C61_default_partial, C62_scaled_sampler_feasible, C62_truncated_sampler, C62_scaled_sampler_range, C63_full_is_false, C63_success_of_last_run_partial, C64_loss_formula_partial, C64_full_is_false, C65_universe_size, C65_missing, C66_float, C66_float_full_is_false, C66_campaign_spends, C66_combined_content, C66_noiseless_request, C67_absolute_names_partial, C67_full_is_false, C68_errors, C68_consistent, C68_quantiles, C68_zero_reach, C68_relative, C68_mare, C68_perfect, C68_shuffle, C68_mismatch, C68_no_points, C68_float_mare, C68_float_errors, C68_float_relative, C68_float_exact, C68_float_mean_error, C68_float_var_error, C68_float_mean_shuffle, C68_float_var_relative, C68_float_var_shuffle, C68_float_mean_squared_shuffle, C69_reported, C69_trial_describing, C69_columns, C69_columns_distinct, C69_returns, C69_success, C69_failure, C69_describing, C69_single_values, C69_max_frequency, C69_max_frequency_columns, C69_zero_reach, C70_shown_partial, C70_full_is_false, C70_named, C70_class_hidden, C71_fill, C71_idempotent, C71_refill_partial, C71_refill_full_is_false, C72_terminates, C72_failure, C72_match_partial, C72_extrapolation, C72_full_is_false, C72_all_distinct, C73_fit, C73_answers, C73_rounds, C73_full_is_false, C73_inventory_partial, C74_histogram, C74_distance, C74_inadmissible, C74_zero_iff, C74_penalty_not_worst, C75_best_run, C75_usable, C75_refit_full_is_false, C75_refit_partial, C76_result, C76_fuel, C76_feasible_start, C76_ends_full_is_false, C76_ends_partial, C77_components, C77_per_frequency, C77_exact, C77_bound_full_is_false, C77_bound_partial, C77_uniform, C77_rounding, C78_default, C78_retries, C78_fitted_once, C78_unusable, C78_answers_full_is_false, C78_answers_partial, C78_solution_exists, C78_solution_iff, C78_solution_unique, C78_refused_under_m3, C78_accepted_under_single, C79_pick, C79_balanced, C79_design, C79_names, C79_float, C80_analysis_example, C80_single_publisher_trials, C80_single_publisher_design, C80_sampled_combinations, C80_sampled_design, C80_data_names, C80_descriptions, C80_evaluated, C80_first_round, C80_first_round_levels, C81_fits, C81_other, C81_kept_partial, C81_kept_full_is_false, C81_refused, C82_any_generators, C82_combine, C82_rows_partial, C82_order_full_is_false, C82_waits, C82_no_trials, C82_temp_file, C82_dataflow, C82_dataflow_raises, C82_dataflow_refused, C83_any_generators, C83_output_full_is_false, C83_output_partial, C83_runner, C83_command_line, C83_refused_command_line, C83_temp_location, C83_separate_value, C83_help, C83_negative_value, C83_dash_value_refused, C83_separator, C83_flag_value_refused, C83_dataflow_rows, C83_dataflow_local_output, C83_dataflow_local_dir, C83_one_core, C83_many_cores, C83_beam_rows, C83_cores_agree, C83_whole_run, C83_first_round, C84_default, C84_float_goerg, C84_mixture_returns, C84_mixture_trial_returns, C84_too_few, C84_refused_full_is_false, C84_frequency_full_is_false, C84_frequency_partial, C84_monotone, C84_returns, C84_trial_returns, C85_solutions, C85_training_point, C85_unique, C86_protocol, C86_single_publisher, C86_two_publishers, C86_defaults, C87_distance, C87_distance_zero, C87_objective, C87_append, C87_poor, C87_fit_partial, C87_inventory_partial, C87_start, C87_start_two, C87_full_is_false, C87_penalty_too_low, C88_run_partial, C88_one_round_partial, C88_weights_partial, C88_fit_partial, C88_prediction_partial, C88_zero_point, C88_full_is_false, C89_fit, C89_error, C89_prediction, C89_single_points, C89_nobody_reached, C90_user, C90_reported, C90_tight, C91_protects, C91_one_person, C91_laplace, C91_exact, C91_moved, C92_reaches_partial, C92_cardinality, C92_impressions_reveal, C92_failure_reveals, C92_full_is_false, C93_delta_method, C93_variance_pos, C93_variance_le, C93_registers, C93_expected_active, C93_failure, C94_unbiased_partial, C94_total, C94_success, C94_full_is_false, C95_names, C95_write_once_partial, C95_lookup_partial, C95_reopen_partial, C95_local_refused, C95_cut, C95_absolute, C95_full_is_false, C95_refused, C96_contents_partial, C96_repeated, C96_again, C96_empty_publisher, C96_shipped_sizes, C96_full_is_false, C97_test_point_errors, C97_model_errors, C97_reported, C97_instantiate, C97_returns_row, C97_refusals, C97_sampled, C97_shipped_partial, C97_shipped_full_is_false, C97_compared, C97_parameters, C97_test_points, C97_success_needs, C98_columns, C98_within_budget, C98_successful, C99_truth_partial, C99_goerg, C99_goerg_single_pub, C99_single_publisher_design, C99_truth_full_is_false, C99_several_publishers, C99_several_truth, C99_gamma_poisson, C99_kinflated, C99_single_publisher_models, C99_predictions, C99_truth_predictions, C99_truth_errors
* **Quot.sound, propext** (13 theorems): C05_full_is_false, C06_reads_every_line, C06_line_endings, C17_mechanisms, C25_sampling, C29_refused, C42_index, C43_length, C50_by_name, C80_data_sets, C80_trials, C84_by_spend, C84_unknown_cost
* **propext** (4 theorems): C06_lines_exist, C13_curve_kplus, C50_trials_full_is_false, C84_too_many
* **none** (1 theorems): C07_constructor

### Modelled code

| Python (under /repo/src) | Model | Not modelled |
|---|---|---|
| data_generators/publisher_data.py | PublisherData, Storage, Generators | printing and parsing of floats (a parameter with laws) |
| data_generators/data_set.py | DataSet, Storage | |
| data_generators/data_design.py | DataDesign | |
| data_generators/data_set_parameters.py | Descriptor | |
| data_generators/{homogeneous,heterogeneous,heavy_tailed}_impression_generator.py, fixed_price_generator.py | Generators | distributions of the draws (parameters) |
| data_generators/overlap_data_set.py | Generators | set generators (external library) |
| data_generators/synthetic_data_design_generator.py | Generators | command line, import of the config file |
| data_generators/m3_data_design.py, lhs_data_design_example.py, analysis_example_data_design.py, simple_data_design_example.py, single_publisher_design.py, independent_overlap_data_set.py; driver/m3_first_round_experimental_design.py, analysis_example_experimental_design.py, sample_experimental_design.py | Designs | pyDOE (samples are a parameter); the concrete level tables except those of the first round; the construction of descriptors in sample_experimental_design.py and driver/single_publisher_design.py |
| driver/experimental_design.py (Beam: 54-72, 159-208), driver/experiment_driver.py (execute) | Beam | Apache Beam itself (order, restarts and merge tree are arbitrary parameters; two evaluations of one trial at the same time: see CloudTrial); loading the design module; command line |
| simulator/planner_simulator.py, models/reach_surface.py (by_spend) | Planner | — (`solvers.qp` is a parameter; C86 assumes that it solves its program exactly) |
| models/generalized_mixture_reach_surface.py (`_fit_one_init_a`, `_fit`) | MixtureFit | `solvers.qp` (a parameter; exceptions of it are not modelled), the Dirichlet sampler (starts are parameters) |
| models/restricted_pairwise_union_reach_surface.py (`_fit`) | RestrictedFit | random draws (parameters) |
| simulator/halo_simulator.py (227-273: LiquidLegions formulas) | LiquidLegions | `scipy.special.expi` (specified as the exponential integral), the multinomial generator (independent registers, Spec/VennLaw), rounding of floats |
| filesystem_wrappers/filesystem_cloudpath_wrapper.py | CloudStorage | `cloudpathlib` (specified as a dictionary of objects), the client, `parent` |
| data_generators/synthetic_data_design_generator.py (`__call__`), sequentially_correlated_overlap_data_set.py, sizes of the shipped designs | SyntheticDesign | the set generators of the cardinality library (a parameter: as many distinct ids as asked for), random draws (parameters), loading of the configuration file |
| driver/experimental_trial.py (173-238 as a whole), driver/modeling_strategy_descriptor.py (`instantiate_strategy`, registries), driver/experiment_parameters.py (`generate_test_points`), driver/single_publisher_design.py, driver/sample_experimental_design.py, driver/analysis_example_experimental_design.py | WholeTrial | the gamma Poisson, kinflated and pairwise models (parameters), random sources (parameters); keyword arguments are texts, so values of a wrong type are not distinguished |
| driver/modeling_strategy_descriptor.py:48-64 with all models as a trial uses them (constructor keyword arguments, `_fit`, `by_spend`, surfaces over mixed curves) | TrialModels | scipy, cvxopt and the draws of the restricted surface (parameters); a NaN in place of a reach is an exception |
| driver/experiment_driver.py (`main`: choice of the wrapper), driver/experimental_trial.py with filesystem_cloudpath_wrapper.py (`write_text`, `unlink`) | CloudTrial | `cloudpathlib` (an upload is one step; its local copies are those of the bucket), the client |
| simulator/privacy_tracker.py, the budgets of halo_simulator.py:176-179 and m3_strategy.py:76-107, with rounding | Float64 | numbers of 2^1024 and more (rounded as if there were no upper end) |
| fixed_price_generator.py:38-51, publisher.py:60-62, the three test point generators, synthetic_data_design_generator.py:146-162, m3_data_design.py:179, experimental_trial.py:73, 324 and goerg_model.py:54-85 (`k = 1`), with rounding | FloatSpend | the power at synthetic_data_design_generator.py:144 (the decay rate is any number in [0, 1]) |
| driver/experiment_driver.py:173-209 with the trials of experimental_trial.py:173-238 as their results | DriverRun | as for WholeTrial and Beam; one generator per descriptor, as the shipped designs create them |
| driver/experiment_driver.py:173-199, 267-307 and experimental_design.py:159-201 on Dataflow with several attempts per trial | Dataflow | which attempts Dataflow makes and which it uses (arbitrary); every attempt starts with a copy of the trial |
| the laws behind homogeneous_, heterogeneous_ and heavy_tailed_impression_generator.py, `_logpmf` of gamma_poisson_model.py:154-170 over the reals, single_publisher_design.py:41-146 | Laws | that numpy draws independently from the documented laws; rounding |
| models/dirac_mixture_single_publisher_model.py:183-204, 225-260: the optimization problem as a statement about weights | DiracSolve | tolerances of the solvers (a solver is exact or arbitrary); relative_entropy objective (unused) |
| models/pairwise_union_reach_surface.py:90-110 on binary64 floats | FloatSurface | overflow; the compensated `sum` of Python 3.12 and later |
| driver/experiment_driver.py:212-306: the command line | CommandLine | absl's part (options before the separator `--`); negative numbers with ASCII digits only; Beam's reading of its options only in the form `--name=value` |
| models/goerg_model.py:50, 59-62, 79-81, 103 on binary64 floats | FloatGoerg | overflow; the power of the C library (parameter) |
| driver/test_point_aggregator.py:35-58, 88-98, 116-124 on binary64 floats (mean, mean absolute and mean squared errors, the latter two also relative, relative errors at frequencies 2 to 9, variances of the error and of the relative error, shuffle distance, its mean, mean square and variance) | FloatMetrics | overflow; quantiles on floats; the subtraction that makes frequencies of reaches || driver/test_point_generator.py and the grid, uniform and Latin hypercube generators | TestPoints | pyDOE's `lhs` (any matrix with entries in [0,1)) |
| driver/test_point_aggregator.py | Aggregator | pandas data frames (ordered columns) |
| driver/experimental_trial.py | Trial, TrialRow | CSV library, logging |
| driver/experiment.py, experimental_design.py | Trial | process pool (any interleaving of workers) |
| driver/trial_descriptor.py, experiment_parameters.py, modeling_strategy_descriptor.py, simulator/system_parameters.py | Descriptor | instantiation of classes by name |
| simulator/privacy_tracker.py | PrivacyTracker | |
| simulator/publisher.py, halo_simulator.py | Halo | sketch and estimator library (parameters), single-publisher impression helper |
| simulator/m3_strategy.py, single_publisher_strategy.py, modeling_strategy.py | Strategy | |
| models/reach_point.py | ReachPoint | |
| models/reach_curve.py, goerg_model.py, ground_truth_reach_curve_model.py, reach_surface.py | ReachCurve | |
| models/pairwise_union_reach_surface.py | Pairwise | `cvxopt.solvers.qp` (the problem handed over is modelled) |
| models/restricted_pairwise_union_reach_surface.py | Restricted, RestrictedSampler, MultiStart | NaN beyond "everything after it is NaN" |
| models/generalized_mixture_reach_surface.py | Mixture, MultiStart | the quadratic program solver |
| models/kinflated_gamma_poisson_model.py | KInflated, KInflatedObjective, Thinning | scipy's negative binomial, Nelder-Mead and chi-squared distribution (parameters), debug output |
| models/gamma_poisson_model.py | GammaPoisson, Thinning | scipy's negative binomial, chi-square distribution and optimizer (parameters) |
| models/dirac_mixture_single_publisher_model.py | Dirac | cvxpy problem (parameter) |
| filesystem_wrappers/filesystem_pathlib_wrapper.py | Storage, Trial | permissions, symbolic links |

Not modelled at all: the command lines of the programs other than the experiment driver, docstring-only base classes, the example designs' lists of constants, logging, debug printing, plots.

## Plan and status per property

* **C01** Spend lookup counts affordable impressions [partial]: `PublisherData` model (stable merge sort of the log, `_spends` from the unsorted input, CPython `bisect_right` loop). Positive theorem for ordered logs named `_partial`; negation for unordered logs by witness.
* **C02** Spend and impression lookups are inverse up to rounding [proved]: Same model; Galois laws from the bisect characterisation.
* **C03** Exposure counts by impressions and by spend describe the same people [proved]: Same model; `Counter` modelled as insertion-ordered association list; prefix-of-sorted = filter lemma.
* **C04** Publisher reach grows with spend up to the maximum reach [proved]: Same model; distinct-count monotonicity.
* **C05** Publisher file round trip [partial]: Text model on `List Char`: decimal printing/parsing of integers proved to round trip, float printing/parsing a parameter with recorded laws.
* **C06** Malformed publisher files are rejected at the right line [proved]: Same text model; induction on lines.
* **C07** Cross-publisher reach is exact deduplicated k+ reach [proved]: `DataSet` model incl. `_counts_to_histogram` loop; specification = cardinality of a set of users.
* **C08** Spend-based reach agrees with impression-based reach [proved]: Same, for the spend path, and equality of both paths.
* **C09** Reach surfaces of data sets are monotone and bounded [proved]: Corollaries of C07/C08 set characterisation.
* **C10** Queries with the wrong number of publishers are refused [proved]: Exceptions as `Except`; iff theorem.
* **C11** Publisher order does not matter [proved]: Corollary of C07: total exposures invariant under permutation.
* **C12** Data set round trip through a directory [partial]: Directory model = finite map name -> text; `write_data_set` fold, `read_data_set` sorted by name; negation witnesses (10 < 2, equal names), partial theorem for distinct names.
* **C13** k+ reaches and frequency histograms are inverse encodings [proved]: `ReachPoint` model over rationals; list induction.
* **C14** User counts convert to correct frequencies [partial]: Same.
* **C15** Reach point accessors reject exactly the frequencies they do not store [proved]: Same, exceptions as values.
* **C16** Reported privacy consumption is the worst case over all users [proved]: `PrivacyTracker` model over rationals; spec quantifies over all rational positions of [0,1); proof that a maximiser can be moved back to a bucket start.
* **C17** Privacy accounting is monotone, order-free and never over-reports [proved]: Same model; monotone/perm/composition theorems over event lists.
* **C18** M3 strategy never requests more than its privacy budget [proved]: Model of the request list issued by `M3Strategy.fit`, arithmetic on budgets.
* **C19** M3 strategy trains on the right subsets [proved]: Same model; specification by index.
* **C20** Noisy k+ reaches are always non-negative and non-increasing [proved]: Model of post-processing in `simulated_reach_by_spend` with estimator output as a parameter.
* **C21** Simulated reach stays below the impressions bought [partial]: Same; negation witness for total impressions 0/1 and partial theorem.
* **C22** Venn regions partition the reached users [proved]: Model of `_form_venn_diagram_regions` over list-of-sets; bit masks as naturals.
* **C23** Aggregating Venn regions recovers the reach of every publisher subset [proved]: Model of aggregation; equality with set-theoretic reach.
* **C24** Venn simulation spends exactly the budget requested [proved]: Model of the event appends; arithmetic.
* **C25** Sampling and noising keep Venn regions sane [proved]: RNG results are parameters constrained by the documented support of the numpy sampler.
* **C26** Quantile search finds the largest input not exceeding the target [proved]: Model of `_by_quantile` loops; loop invariants, termination by fuel bound shown sufficient.
* **C27** Goerg model reproduces its training point [proved]: Rational-function model; `field_simp`.
* **C28** Goerg model is a valid reach curve [partial]: Same.
* **C29** Pairwise union constraints say what they mean [proved]: Constraint matrices built as in the code (kron of eye/ones, row loop), iff theorem for all p.
* **C30** Pairwise union surface is a plausible union reach [proved]: Finite-sum inequalities.
* **C31** Pairwise union fitting minimises squared reach error [proved]: Finite-sum identity.
* **C32** Restricted surface: loss measures the surface's own overlap [proved]: Finite-sum identity.
* **C33** Restricted surface: coordinate step is optimal and stays feasible [partial]: Convex quadratic argument + induction over rounds.
* **C34** Restricted surface: feasible bound is exact [partial]: Case analysis of the bound formula (tolerance included).
* **C35** Restricted surface: feasible lambdas give a plausible union reach [proved]: Finite-sum inequality, reuse of C30.
* **C36** Restricted surface: multi-start returns the best start [proved]: Fold invariant over runs.
* **C37** Generalized mixture surface is a plausible union reach [partial]: Product inequalities by induction.
* **C38** Generalized mixture: alternating fit sees the true prediction [partial]: Product identity.
* **C39** k-inflated distribution is a probability distribution [proved]: Vector construction model over rationals, tail pmf a parameter.
* **C40** Reach predictions of the k-inflated model are coherent across k [proved]: Binomial thinning model, tail pmf a parameter.
* **C41** Exponential-Poisson closed forms invert each other [proved]: Rational functions.
* **C42** Ground truth curve equals the data set restricted to one publisher [partial]: Reuse of the DataSet model.
* **C43** Overlap relabelling preserves each publisher's own behaviour [proved]: `_label_ids` model, injective relabelling lemma.
* **C44** Generated impressions reach every user [proved]: Generator loops with RNG draws as parameters.
* **C45** A data design behaves like a write-once map of data sets [partial]: State machine over the directory; refinement to a finite map.
* **C46** Publisher sizes decay from the largest to the configured smallest [partial]: Sizes with the floating power abstracted by its defining inequalities.
* **C47** Aggregates are well defined and have a fixed set of columns [partial]: Column-list equality and L1 inequalities.
* **C48** Trial results survive crashes at any point [partial]: Small-step file-system model of `evaluate` with crash points.
* **C49** Trial results are a function of the requested configuration [partial]: Negation by witness on that model plus `_partial` theorem for fixed seed/type.
* **C50** One result row per distinct trial, for any schedule [partial]: Interleaving model of workers over the shared result directory.
* **C51** Test points lie inside the spend range and are as many as promised [partial]: Cartesian product and box bounds; negation witness for the uniform generator.
* **C52** Different trials get different descriptions [partial]: String model of the descriptors; negation by witness, `_partial` theorem for names without separators.
* **C53** Dirac mixture predictions are valid reach curves [partial]: Mixture model with component pmf as parameter.
* **C54** Gamma-Poisson k+ reaches are coherent [proved]: Binomial thinning shared with C40.
* **C55** Simulated publishers never spend more than their campaign [proved]: Reuse of PublisherData model.
* **C56** The k-inflated model's answers do not depend on the order of queries [partial]: Query-history machine; negation by witness and `_partial` after explicit fit.
* **C57** Reading a data set always returns what is on disk [partial]: Memo-cache machine; negation by witness and `_partial` theorem.
* **C58** Venn requests never report negative reach [partial]: Halo model: cardinality noise before scaling; negation by witness, `_partial` for non-negative estimates.
* **C59** Goerg model: impressions at a reach quantile have a closed form [proved]: Goerg model plugged into the quantile search of C26.
* **C60** Restricted surface: documented product form [partial]: Finite-sum comparison of the documented product form with the code's formula.
* **C61** Restricted surface: reported convergence [partial]: Loop model with the convergence flag; negation by witness after one round.
* **C62** Restricted surface: starting points are feasible [proved]: Sampler loop with the random draws as a stream; invariant of the rejection loop.
* **C63** Multi-start: reported success belongs to the returned parameters [partial]: Fold over runs; negation by witness.
* **C64** Generalized mixture: loss ranks runs by fitting error [partial]: Loss as a function of the residuals; negation by witness.
* **C65** Reach points carry the right universe size [proved]: Universe size as an optional field through all constructors of points.
* **C66** Without noise, a request measures the deduplicated reach of the capped campaign [proved]: Halo model with a sketch that is exact and noise zero.
* **C67** Copying a data set creates a copy [partial]: Directory model with relative and absolute names; negation by witness.
* **C68** The accuracy statistics mean what their names say and fit together [proved]: Aggregator model over rationals, reference definitions of the statistics.
* **C69** Every trial yields a row with the same columns [proved]: Model of `make_trial_dataframe`: columns of success and failure rows.
* **C70** Different data set parameters give different data set names [partial]: String model of `DataSetParameters.__str__`; negation by witness, `_partial` for marked-free values.
* **C71** Trial descriptors are filled in for the data set at hand and nothing else changes [partial]: Record update model; reference record.
* **C72** Exponential-Poisson bootstrap terminates and matches the observed reach [partial]: Loop with geometric growth; termination from `log` bounds; negation by witness.
* **C73** Fitting the k-inflated model ends in a usable fit [partial]: Loop over inflated values with the optimizer as a parameter; chain of rounds as specification.
* **C74** The gamma-Poisson objective is the documented distance [proved]: Chi-square objective over rationals against a stated formula.
* **C75** Fitting the gamma-Poisson model takes the best run [partial]: Loop over starting sizes; specification by argmin over the list of runs.
* **C76** The search for a starting point improves on its start [partial]: Grid search loop over rationals with fuel; descent by monotone score.
* **C77** Dirac mixture: components are drawn where the data are [partial]: Grid construction over rationals; counts by filtering.
* **C78** Dirac mixture: fitting retries with fewer components and then answers [partial]: Retry loop with halving; specification by first success in the sequence n, n/2, n/4, …
* **C79** Latin hypercube designs use every level equally often [proved]: Floor arithmetic for the choice of levels; counting lemma for Latin samples (between floor and ceiling of tN values below t); last `=` of a name for distinctness.
* **C80** Full factorial designs try every combination exactly once [proved]: Products of lists; injectivity of descriptions (C52, C70) on levels that are told apart; de-duplication removes nothing from a list with distinct names.
* **C81** Independent overlaps fit into their universe and the data set keeps it [partial]: Floor bounds; sizes never exceed the first (C46); relabelled data sets have twice the union as universe (C43), counterexample for the requested universe.
* **C82** Running a design on Apache Beam gives the same rows [partial]: Induction over combination trees; invariant of concurrent evaluations with restarts (C49, C50); counterexample with two results merged in reverse order.
* **C83** The output file of the driver has one row per data set and description [partial]: Composition of C50 and C82 with the driver.
* **C84** Surfaces queried by spend [partial]: List reasoning over `zip`/`mapM`, monotonicity from C30 and C28; counterexamples with two publishers.
* **C85** The pairwise surface of two publishers is fitted as well as the overlap model allows [proved]: Reduce the quadratic program to one variable with C29 and C31; distance to an interval.
* **C86** The planner reproduces the campaign it was trained on, or overestimates it [proved]: Composition of C08, C66, C19, C27, C84 and C85; evaluation of the fitting protocol step by step.
* **C87** The k-inflated fit is admissible and not worse than its start [partial]: Objective function evaluated by cases (in bounds or not); the distribution after appending its own probability is the same (equal entries but the last, equal sums); invariant over the rounds: admissible and score at most that of the start.
* **C88** The mixture fit ends with admissible weights that are not worse than its start [partial]: Weights and losses after k rounds as a recursive sequence; invariant of the loop over the number of rounds left; C38 turns the objective into squared errors; C36 gives the choice of the run.
* **C89** The restricted surface is fitted feasibly and not worse than any start [proved]: Set-up of the data gives symmetric, non-negative, informative matrices (hypotheses of C33); every run ends with a number, feasible and not worse than its start (C33); C36 chooses the least loss; C32 and C35 translate into predictions.
* **C90** The report of the privacy tracker is a guarantee of differential privacy [proved]: Definition of (epsilon, delta) closeness for distributions; basic composition by extending the inequality from events to functions with values in [0,1]; induction over the computations; C16 for the report; randomised response for tightness.
* **C91** The noise on the Venn diagram regions is worth its recorded budget [proved]: The law of the noised table as a product of the laws of its entries; shifts of a step law; composition (C90) entry by entry; for exactness a table that tells the two apart as well as possible, built entry by entry.
* **C92** The response to a Venn diagram request protects every user with the recorded budget [partial]: A request as a function of its draws; the joint law of the number of active registers and the sampled table, from the symmetry of independent registers; a coupling of the registers with and without one user under which the sampled tables differ by at most one; then C91 and composition (C90). Counterexamples from exact impressions and from requests without active registers.
* **C93** The LiquidLegions formulas of the simulator are sound [proved]: The bracket of exponential integrals as one integral of (exp(-t) - exp(-2t))/t; a strict Cauchy-Schwarz inequality by integrating a positive quadratic form; probabilities of single users by splitting off one user and symmetry.
* **C94** The reaches of a Venn diagram request are right on average [partial]: Mean values as unconditional sums over the distribution of draws of C92; the sample is the set of users alone in their register, which is symmetric, so every user has the same expected share; noise is bounded by comparing the table with the all-zero table.
* **C95** A data design on cloud storage is a write-once map too [partial]: Simulation: after the operations that concern data sets with publishers, the bucket agrees below the directory with the file system of a design on disk (C45); additions of empty data sets do not touch the bucket.
* **C96** A generated data design contains exactly the configured data sets [partial]: Induction over the configuration with the invariant of designs (C45); each entry generates what it describes (C43, C44, C46); single-digit names are in string order.
* **C97** Which trials yield a row of results [partial]: Case distinction on the exceptions before the `try` block; lookups in the registries; the designs are products (C80) or samples (C79); test points by C51.
* **C98** The privacy columns of a trial [proved]: The predicate `Uses` of C18, extended by the mechanism and the number of events, composed along the fit of a trial; the row is described by C69.
* **C99** Which trials succeed, and what their surfaces predict [partial]: What Halo measures of one publisher is bounded for all estimates (at least 0, below the impressions, C20's capping); Goerg's model accepts it and answers at positive spends (C27, C28); the row is described by C69, perfect predictions by C68.

## Findings

Places where the code does not do what it documents or what a property asks for. Each is a theorem unless marked (remark).

Data sets and files

* `impressions_by_spend` bisects an unsorted list for unsorted logs (C01), and so changes its answer after writing and reading (C05).
* A user count of zero is counted in the highest frequency bucket through index −1 (C14).
* Data sets: publishers come back in lexicographic order, equal names overwrite each other, an explicit universe size is lost, files already in the directory become publishers (C12). A missing directory reads as an empty data set (remark).
* Copying a data set that was read from a directory rewrites the originals and leaves the copy empty (C67).
* The read cache never sees later writes (C57); a data design that is asked for a name before it is added hides the later addition (C45).
* Publisher sizes are rounded down at every step, so the smallest publisher is smaller than configured and can be empty, which raises (C46).
* Overlap: `zip` silently drops publishers, and repeated ids from the set generator merge users (C43).

Simulator

* A request that buys at most one impression reports a reach of one (C21).
* The Venn cardinality estimate is not clipped, so negative reaches are possible (C58). The Venn path ignores free impressions of publishers with zero spend while the cardinality counts them (remark, model of C22/C25).
* The tracker records "Discrete Gaussian" for geometric noise; with one or two publishers M3 leaves part of the budget unused (C18, remark).
* The sketch is capped at the campaign spend, the reported impressions and spends are not (C55, remark).
* The ground-truth curve by spend counts other publishers' free impressions (C42).

Models

* Goerg: a point with reach zero raises at construction or at the first quantile (C28, C59).
* Restricted surface: NaN steps (C33), bound not exact within the tolerance (C34), parameters half the documented ones (C60), convergence flag wrong after one round (C61), success flag of the last instead of the best run (C63).
* Generalized mixture: predicted reach above the universe (C37), NaN for empty clusters (C38), loss not what is documented (C64). `MIN_NUM_INIT` 30 exceeds `MAX_NUM_INIT` 10 (remark).
* k-inflated: the answer depends on which query came first (C56); the bootstrap fits the observed reach to the requested number of impressions (C72); minimal inventory not guaranteed (C73).
* Gamma-Poisson: the constructor does not fit; fitting twice changes the result (C75); the score of inadmissible parameters can be lower than that of admissible ones (C74); the grid search never moves along an axis and need not end (C76).
* Dirac mixture: components beyond the documented bound (C77), `int32` overflow (C53), points with reach above the universe are accepted and fail at the first query (C78).

Experiments

* The minimum number of uniform test points is computed but not used (C51).
* A histogram with at most five entries has distance one from itself (C47); one point of true reach zero makes all relative columns undefined (C68).
* A torn result file parses as a result (C48); the cache ignores seed and analysis type (C49); shared generators make results depend on the order of trials, and names with colons merge trials (C50).
* A single-publisher trial that reaches nobody is reported as failed (C69).
* Descriptions do not show the seed and generator and do not quote arguments (C52); a given name hides all parameters (C70); a spend generator is dropped when a descriptor is filled in (C71).
- `m3_first_round_experimental_design.py:96` announces 192 trials per data set; there are 288 (C80_first_round).
- `IndependentOverlapDataSet` does not pass its universe size on to `DataSet`, which then assumes twice the number of people reached (C81_kept_full_is_false).
- `m3_data_design.py` uses the random order of the sequentially correlated overlap at two levels although its own comment says that this order is not supported; if the external generator yields sets in another order, publishers of different sizes are refused with an `AssertionError` (C43_refused).
- On Apache Beam the rows of the result come in an order that may differ from run to run (C82_order_full_is_false).
- `ReachSurface.by_spend` hands `max_frequency` on, but both surfaces ignore it and always answer with a single reach; too many spends are silently dropped by `zip` (C84_frequency_full_is_false, C84_refused_full_is_false).
- Even without noise the two-publisher pairwise model overestimates a campaign it was trained on when the publishers share more than `t0 t1 / max(rho0, rho1)` people (C86_two_publishers; example with 10/3 for 3).
- `_fit_histogram_fixed_length_a` (k-inflated model) starts its optimizer outside of its own bounds when impressions are nearly distinct (for two frequencies, impressions below 298/297 times the reach: C87_full_is_false; for more, below 12001/12000 times), where the objective is constant; and its penalty for leaving the bounds is lower than the score of some admissible parameters (C87_penalty_too_low).
- The alternating fit of the mixture surface is not a descent: with exact solutions of every program a run can report convergence at weights that fit worse than its start (18.125 to 17.5 for an observed 20: C88_full_is_false). One training point without any reach makes every run `nan` and the fit leaves no weights (C88_zero_point).
- With a single publisher, or if every training point has only one active publisher, the restricted surface has `nan` parameters and predictions, with a reported loss of zero (C89_single_points).
- `_add_dp_noise_to_primitive_regions` spends the recorded epsilon for a change of one count by one; an impression that moves a person from one region to another changes two counts and loses twice as much (C91_moved).
- The response to a Venn diagram request contains exact impressions, which no budget covers (C92_impressions_reveal), and raises RuntimeError when no register is active, which tells an empty audience from a single person with certainty (C92_failure_reveals).
- Because noised counts are cut to zero and an empty table is not scaled up, the reach that a Venn diagram request reports for all publishers together is too small on average, for every discrete Laplace noise (C94_total, C94_full_is_false).
- On cloud storage a data set without publishers leaves no object: it can be added twice and is missing when the design is opened again (C95_full_is_false, C95_reopen_partial).
- `joinpath` of the cloud wrapper cuts a directory at a second `://`, so additions and lookups use different directories (C95_cut).
- A generated data set with ten or more publishers comes back with its publishers in the order 1, 10, 2, …, not by decreasing size; the shipped M3 design has entries with 10, 20 and 100 publishers (C96_full_is_false).
- The single publisher design yields no row, but an IndexError, for every data set with two or more publishers; the sampled design for every data set with three or more (C97_shipped_partial).
- A one publisher trial with true reach curves and analysis type `single_pub` always fails with AttributeError, because `GroundTruthReachCurveModel` has no `_data` (C99_truth_full_is_false).
- With analysis type `single_pub` a trial whose measurement is all zeros is reported as a failure of the model, because `max` of an empty list is taken (C99_goerg_single_pub).
- In the single publisher design a trial whose campaign pays exactly one impression fails with Goerg's model (ValueError) and with the k-inflated model without extrapolation (ZeroDivisionError), and succeeds with the other three models (C99_single_publisher_models).
- The M3 strategy drops the universe size when it projects a point to one publisher, so that a Dirac mixture model under M3 always ends with a ValueError, whereas the single publisher strategy keeps it (C78_refused_under_m3, C78_accepted_under_single).
- On the local disk, several evaluations of one trial at the same time can end with a FileNotFoundError even if no partly written result is readable (C48_duplicates_full_is_false); on cloud storage they cannot (C48_cloud_safe).
- A `gs://` directory for intermediate results with a runner other than Dataflow fails with an AttributeError in every trial, because the local wrapper has no `set_default_client_to_gs_client` (C83_runner).
* **C28** A Goerg model fitted to a training point with zero reach has maximum reach zero: its predictions are not strictly below the maximum, and a query for zero impressions divides by zero (`goerg_model.py:32-62`).
* **C16, C18 in floats** With binary64 rounding the report of an M3 fit can exceed the budget in the last digit (budget 1 and four publishers: 1.0000000000000002), and an overlap of two sampling buckets narrower than the distance of two floats is not seen (`privacy_tracker.py:58-63`).
* **C66 in floats** The campaign spend is a rounded product, and so are the prices: three quarters of twelve impressions at price 0.7 buy eight impressions, not nine (`publisher.py:60-62`, `fixed_price_generator.py:51`). The error is at most one impression (C66_float).
* **C27 in floats** A Goerg curve fitted to one person reached by seven impressions predicts 1.0000000000000002 there (`goerg_model.py:54-85`).
* **C48, C50, C83** A result loaded from disk can differ from the one computed: a row has the text `None` as its exception (`test_point_aggregator.py:143`) and may have an empty text as its privacy mechanisms, both of which recent versions of pandas read as NaN. The theorems `…_any_generators` therefore distinguish a row from what reading its text gives (`norm`).
* **C83** On Dataflow the output file is written with the cloud wrapper after all trials are evaluated: with `--output_file` on a local disk the run fails with a `ValueError` at its very end (`experiment_driver.py:196`, C83_dataflow_local_output).
* **C48** On cloud storage a second attempt at a trial replaces the result of the first: the row a run returns and the row found later can differ if the attempts started with different generators (`experimental_trial.py:151-244`, C48_cloud_settled_full_is_false).
* **C44** The heavy-tailed impression generator accepts every parameter above 1, but its mean number of impressions is infinite up to 2, which is the default (`heavy_tailed_impression_generator.py:28, 42`).
* **C54** The documentation of the gamma-Poisson model calls beta a rate and gives the mean inventory alpha/beta (`gamma_poisson_model.py:31-36, 81-89, 256`); in the code beta is a scale and the mean is 1 + alpha*beta (line 260). The limit of 1000 on the inventory of a user can hide a third of the users (alpha = 1, beta = 1000).
* **C53** The components of the Dirac mixture have rates below the largest frequency plus two, so with one frequency a reach above 95 % of the people cannot be reproduced: 990 of 1000 observed, at most 951 predicted (`dirac_mixture_single_publisher_model.py:108-112, 134-150`). Its predictions away from the training impressions depend on which of several solutions the solver returns (`:225-260`, C53_determined_full_is_false).
* **C30** On floats the pairwise union surface can predict less than the reach of a single publisher, by the last digit: reaches 3 and 0.8 with full overlap give 2.9999999999999996 (`pairwise_union_reach_surface.py:95-110`, C30_float_full_is_false). The error is at most (p + 3)^2 2^-50 of the sum of the reaches (C30_float).
* **C83** An option the driver does not know is passed on to Beam without a word, so a misspelt `--core=4` runs on one core (`experiment_driver.py:269`). A `--temp_location` of the user is overridden by the directory of intermediate results (`:281-286`, C83_temp_location). The program name is passed to Beam as an argument.
* **C28** On floats the Goerg curve is not monotone even for small numbers: fitted to one person and two impressions it predicts 1.5000000000000002 at 6.000000000000001 impressions and 1.5 at 6.000000000000002 (`goerg_model.py:79-81`, C28_float_monotone_full_is_false).
* **C47** On floats the shuffle distance can be above 1, by the last digit: 9 people reached three times and 2 four times against 6, 3 and 6 people reached once, twice and five times give 1.0000000000000002 (`test_point_aggregator.py:124`, C47_float_range_full_is_false). It is within 2^-48 of the exact distance (C47_float_shuffle).
