{
 "claims": [
  {
   "property": "C01",
   "status": "partial",
   "theorems": [
    "Verif.C01_bracket",
    "Verif.C01_right_iff_sorted",
    "Verif.C01_full_is_false",
    "Verif.C01_impressions_by_spend_partial"
   ],
   "note": "As stated for any log the claim is false: impressions_by_spend bisects the spends in file order, so an unsorted log gives a wrong count (C01_full_is_false). The partial theorem covers logs whose spends are non-decreasing in log order. C01_bracket says what is returned for logs in any order; C01_right_iff_sorted shows that for logs of distinct spends the order is also necessary."
  },
  {
   "property": "C02",
   "status": "proved",
   "theorems": [
    "Verif.C02_spend_buys_impressions",
    "Verif.C02_spend_of_bought_impressions",
    "Verif.C02_less_buys_fewer"
   ],
   "note": ""
  },
  {
   "property": "C03",
   "status": "proved",
   "theorems": [
    "Verif.C03_user_counts_by_spend",
    "Verif.C03_user_counts_by_impressions",
    "Verif.C03_spend_and_impressions_agree",
    "Verif.C03_max_impressions",
    "Verif.C03_negative_impressions"
   ],
   "note": ""
  },
  {
   "property": "C04",
   "status": "proved",
   "theorems": [
    "Verif.C04_max_reach_and_spend",
    "Verif.C04_reach_is_people",
    "Verif.C04_reach_monotone_bounded",
    "Verif.C04_all_impressions_reach_everybody"
   ],
   "note": ""
  },
  {
   "property": "C05",
   "status": "partial",
   "theorems": [
    "Verif.C05_round_trip_partial",
    "Verif.C05_round_trip_sorted",
    "Verif.C05_full_is_false"
   ],
   "note": "Log, totals and all queries but impressions_by_spend survive for every log; impressions_by_spend survives for sorted logs (C05_round_trip_sorted). Missing: impressions_by_spend of unsorted logs, where the written object itself is wrong (C01); C05_full_is_false shows it."
  },
  {
   "property": "C06",
   "status": "proved",
   "theorems": [
    "Verif.C06_first_malformed_line",
    "Verif.C06_reads_every_line",
    "Verif.C06_only_outcomes",
    "Verif.C06_lines_exist",
    "Verif.C06_id_syntax",
    "Verif.C06_line_endings"
   ],
   "note": ""
  },
  {
   "property": "C07",
   "status": "proved",
   "theorems": [
    "Verif.C07_impressions_add_up",
    "Verif.C07_reach_by_impressions",
    "Verif.C07_constructor"
   ],
   "note": ""
  },
  {
   "property": "C08",
   "status": "proved",
   "theorems": [
    "Verif.C08_impressions_add_up",
    "Verif.C08_reach_by_spend",
    "Verif.C08_spend_and_impressions_agree"
   ],
   "note": ""
  },
  {
   "property": "C09",
   "status": "proved",
   "theorems": [
    "Verif.C09_kplus_bounds",
    "Verif.C09_spend_bounds",
    "Verif.C09_monotone_impressions",
    "Verif.C09_monotone_spend",
    "Verif.C09_bounded_and_decreasing",
    "Verif.C09_union_bounds",
    "Verif.C09_submodular_impressions",
    "Verif.C09_submodular_spend"
   ],
   "note": ""
  },
  {
   "property": "C10",
   "status": "proved",
   "theorems": [
    "Verif.C10_length_check_impressions",
    "Verif.C10_length_check_spend"
   ],
   "note": ""
  },
  {
   "property": "C11",
   "status": "proved",
   "theorems": [
    "Verif.C11_publisher_order_spend",
    "Verif.C11_zero_anywhere",
    "Verif.C11_unaffordable",
    "Verif.C11_publisher_order",
    "Verif.C11_zero_publisher"
   ],
   "note": ""
  },
  {
   "property": "C12",
   "status": "partial",
   "theorems": [
    "Verif.C12_round_trip_partial",
    "Verif.C12_same_reach",
    "Verif.C12_reordered",
    "Verif.C12_duplicate_names",
    "Verif.C12_stale_files",
    "Verif.C12_missing_directory",
    "Verif.C12_malformed_file",
    "Verif.C12_name_in_missing_directory",
    "Verif.C12_full_is_false"
   ],
   "note": "Holds up to reordering by name for distinct plain names in a fresh directory, with universe size reset; C12_full_is_false, C12_reordered, C12_duplicate_names, C12_stale_files show the rest fails."
  },
  {
   "property": "C13",
   "status": "proved",
   "theorems": [
    "Verif.C13_curve_kplus",
    "Verif.C13_kplus_roundtrip",
    "Verif.C13_frequency_roundtrip",
    "Verif.C13_nonneg_frequencies",
    "Verif.C13_kplus_nonincreasing"
   ],
   "note": ""
  },
  {
   "property": "C14",
   "status": "partial",
   "theorems": [
    "Verif.C14_zero_counts",
    "Verif.C14_full_is_false",
    "Verif.C14_frequencies_partial",
    "Verif.C14_kplus_partial"
   ],
   "note": "False when a user count is zero: the count lands in the last bucket through index -1 (C14_full_is_false). The partial theorems cover all lists of positive counts. C14_zero_counts gives the exact result for all non-negative counts."
  },
  {
   "property": "C15",
   "status": "proved",
   "theorems": [
    "Verif.C15_reach_accessor",
    "Verif.C15_frequency_accessor",
    "Verif.C15_zero_included_histogram",
    "Verif.C15_constructor"
   ],
   "note": ""
  },
  {
   "property": "C16",
   "status": "proved",
   "theorems": [
    "Verif.C16_float_worst_case",
    "Verif.C16_float_error",
    "Verif.C16_float_full_is_false",
    "Verif.C16_worst_case_user",
    "Verif.C16_per_bucket",
    "Verif.C16_float_rounding"
   ],
   "note": "The theorems with exact numbers are C16_worst_case_user and C16_per_bucket. The C16_float theorems repeat them with rounding to binary64: the report is still the worst loss as binary64 computes it, and close to the exact one if bucket ends are computed without rounding; without that it can miss an event (C16_float_full_is_false)."
  },
  {
   "property": "C17",
   "status": "proved",
   "theorems": [
    "Verif.C17_float_append_monotone",
    "Verif.C17_float_at_most_sum",
    "Verif.C17_float_order_full_is_false",
    "Verif.C17_append_monotone",
    "Verif.C17_order_free",
    "Verif.C17_at_most_sum",
    "Verif.C17_full_event_adds",
    "Verif.C17_disjoint_events",
    "Verif.C17_mechanisms"
   ],
   "note": "With rounding to binary64 monotonicity and the bound by the sum still hold (C17_float_*); independence of the order fails in the last digit (C17_float_order_full_is_false)."
  },
  {
   "property": "C18",
   "status": "proved",
   "theorems": [
    "Verif.C18_events",
    "Verif.C18_float",
    "Verif.C18_float_full_is_false",
    "Verif.C18_m3_within_budget",
    "Verif.C18_few_publishers"
   ],
   "note": "The theorems with exact numbers prove the statement. With rounding to binary64 the tracker reports the budget up to (4p+3)*2^-52 of it (C18_float), which can be above the budget in the last digit (C18_float_full_is_false)."
  },
  {
   "property": "C19",
   "status": "proved",
   "theorems": [
    "Verif.C19_m3_training",
    "Verif.C19_single_publisher_strategy"
   ],
   "note": ""
  },
  {
   "property": "C20",
   "status": "proved",
   "theorems": [
    "Verif.C20_kplus_nonneg_nonincreasing",
    "Verif.C20_length_and_success",
    "Verif.C20_valid_estimates_unchanged"
   ],
   "note": ""
  },
  {
   "property": "C21",
   "status": "partial",
   "theorems": [
    "Verif.C21_reach_bound",
    "Verif.C21_full_is_false",
    "Verif.C21_reach_below_impressions_partial",
    "Verif.C21_nothing_bought_reports_one"
   ],
   "note": "False when at most one impression is bought: the cap is max(impressions-1, 1), so reach 1 is reported for 0 or 1 impressions (C21_full_is_false). The partial theorem covers two or more impressions. C21_reach_bound says what holds without exception: the reach is non-negative, and below the impressions or at most one."
  },
  {
   "property": "C22",
   "status": "proved",
   "theorems": [
    "Verif.C22_regions",
    "Verif.C22_each_user_once",
    "Verif.C22_too_many",
    "Verif.C22_sum_is_deduplicated_reach",
    "Verif.C22_sum_is_true_reach"
   ],
   "note": ""
  },
  {
   "property": "C23",
   "status": "proved",
   "theorems": [
    "Verif.C23_aggregate",
    "Verif.C23_reach_points",
    "Verif.C23_noiseless_points_are_true_reach"
   ],
   "note": ""
  },
  {
   "property": "C24",
   "status": "proved",
   "theorems": [
    "Verif.C24_float_half",
    "Verif.C24_float_error",
    "Verif.C24_venn_budget",
    "Verif.C24_defaults"
   ],
   "note": "C24_float_* repeat the statement with rounding to binary64: exact for the default split, up to 2^-50 of the budget for any other."
  },
  {
   "property": "C25",
   "status": "proved",
   "theorems": [
    "Verif.C25_empty_sample",
    "Verif.C25_sampling",
    "Verif.C25_noise_nonneg",
    "Verif.C25_scaling"
   ],
   "note": ""
  },
  {
   "property": "C26",
   "status": "proved",
   "theorems": [
    "Verif.C26_above",
    "Verif.C26_search",
    "Verif.C26_monotone_curve",
    "Verif.C26_quantile_range"
   ],
   "note": ""
  },
  {
   "property": "C27",
   "status": "proved",
   "theorems": [
    "Verif.C27_float_spend",
    "Verif.C27_float",
    "Verif.C27_float_full_is_false",
    "Verif.C27_fit_accepts_iff",
    "Verif.C27_refusal_is_value_error",
    "Verif.C27_reproduces_training_point",
    "Verif.C27_reproduces_training_spend"
   ],
   "note": "C27_float: with binary64 rounding the curve differs from the exact one, and from the observed reach at the training point, by at most the factor 1 +- 2^-50 (not exactly zero: C27_float_full_is_false). C27_float_spend: the same by spend, up to 11*2^-52."
  },
  {
   "property": "C28",
   "status": "partial",
   "theorems": [
    "Verif.C28_impressions_add_up",
    "Verif.C28_law",
    "Verif.C28_diminishing",
    "Verif.C28_full_is_false",
    "Verif.C28_float_kplus",
    "Verif.C28_float_kplus_exact",
    "Verif.C28_float_one",
    "Verif.C28_float_monotone_full_is_false",
    "Verif.C28_float",
    "Verif.C28_float_full_is_false",
    "Verif.C28_float_monotone",
    "Verif.C28_bounds_partial",
    "Verif.C28_monotone_partial",
    "Verif.C28_by_spend",
    "Verif.C28_zero_reach",
    "Verif.C28_refused"
   ],
   "note": "False in full (C28_full_is_false): a training point with impressions but zero reach is accepted; the fitted curve has maximum reach zero, so predictions are not strictly below it, and a query without impressions raises ZeroDivisionError. Proved for all models fitted to a positive reach; C28_zero_reach says what the others do; C28_by_spend and C28_refused hold for all models. C28_float, C28_float_monotone: with binary64 rounding predictions stay between zero and the maximum reach and are monotone up to the factor 1 + 2^-50; strictness and exact monotonicity are false for 2^54 impressions (C28_float_full_is_false). C28_float_kplus: every k+ reach on floats differs from the exact one by at most (5k+7)*2^-52 of it, if the power of the C library is correct to one unit in the last place; exact monotonicity is false already for six impressions (C28_float_monotone_full_is_false)."
  },
  {
   "property": "C29",
   "status": "proved",
   "theorems": [
    "Verif.C29_kron",
    "Verif.C29_refused",
    "Verif.C29_constraints_iff"
   ],
   "note": ""
  },
  {
   "property": "C30",
   "status": "proved",
   "theorems": [
    "Verif.C30_float",
    "Verif.C30_float_exact",
    "Verif.C30_float_full_is_false",
    "Verif.C30_float_goerg",
    "Verif.C30_float_goerg_exact",
    "Verif.C30_formula",
    "Verif.C30_bounds",
    "Verif.C30_monotone",
    "Verif.C30_single_publisher",
    "Verif.C30_submodular",
    "Verif.C30_diminishing"
   ],
   "note": "C30_float: with binary64 rounding the prediction differs from the exact one by at most (p+3)^2 2^-50 of the sum of the reaches, for up to 2^20 publishers and maximum reaches of at least one person, so the bounds hold up to this error (not exactly: C30_float_full_is_false). C30_float_goerg: over fitted Goerg curves, with the curves and the surface all on floats, the error is at most ((p+3)^2+5) 2^-50 of the sum of the exact reaches."
  },
  {
   "property": "C31",
   "status": "proved",
   "theorems": [
    "Verif.C31_objective",
    "Verif.C31_minimisers",
    "Verif.C31_exact_fit"
   ],
   "note": ""
  },
  {
   "property": "C32",
   "status": "proved",
   "theorems": [
    "Verif.C32_fitted_is_own_overlap",
    "Verif.C32_loss_is_squared_error",
    "Verif.C32_affine"
   ],
   "note": ""
  },
  {
   "property": "C33",
   "status": "partial",
   "theorems": [
    "Verif.C33_full_is_false",
    "Verif.C33_negative_step",
    "Verif.C33_step_partial",
    "Verif.C33_round_partial",
    "Verif.C33_run_partial",
    "Verif.C33_step_is_a_number",
    "Verif.C33_round_is_a_number",
    "Verif.C33_run_is_a_number"
   ],
   "note": "False as stated: a step divides 0 by 0 when the other coordinates are zero (C33_full_is_false), and from a vector that is feasible only within the tolerance a step can return a negative number (C33_negative_step). The partial theorems cover exactly feasible starts of size up to 10^6; C33_step_is_a_number and its consequences show that with informative data and two positive coordinates no division by zero occurs in any run."
  },
  {
   "property": "C34",
   "status": "partial",
   "theorems": [
    "Verif.C34_bound_is_sound",
    "Verif.C34_full_is_false",
    "Verif.C34_bound_of_zero_vector",
    "Verif.C34_bound_is_exact_partial",
    "Verif.C34_bound_is_exact_within_size_partial"
   ],
   "note": "The docstring claim is false because the check has a tolerance that the bound has not (C34_full_is_false), and numbers below the tolerance are rounded up (C34_bound_of_zero_vector). Soundness is proved for all feasible vectors; exactness for coordinates not below the tolerance, and for all feasible vectors when sizes are limited to 1/tol."
  },
  {
   "property": "C35",
   "status": "proved",
   "theorems": [
    "Verif.C35_plausible",
    "Verif.C35_union_reach"
   ],
   "note": ""
  },
  {
   "property": "C36",
   "status": "proved",
   "theorems": [
    "Verif.C36_multi_start",
    "Verif.C36_mixture_always_ten",
    "Verif.C36_perfect_fit_exhausts",
    "Verif.C36_restricted_defaults",
    "Verif.C36_no_wall",
    "Verif.C36_mixture_defaults"
   ],
   "note": ""
  },
  {
   "property": "C37",
   "status": "partial",
   "theorems": [
    "Verif.C37_formula",
    "Verif.C37_bounds_partial",
    "Verif.C37_one_cluster_partial",
    "Verif.C37_monotone",
    "Verif.C37_single_publisher",
    "Verif.C37_universe",
    "Verif.C37_refused",
    "Verif.C37_full_is_false",
    "Verif.C37_data",
    "Verif.C37_submodular",
    "Verif.C37_diminishing"
   ],
   "note": "'At most the universe' is false: clusters are added up, so up to the number of clusters times the universe can be predicted (C37_full_is_false: 30 of 20 people). The partial theorems prove all other parts, the bound universe times clusters, and the universe bound for one cluster."
  },
  {
   "property": "C38",
   "status": "partial",
   "theorems": [
    "Verif.C38_full_is_false",
    "Verif.C38_linear_form_partial",
    "Verif.C38_objective",
    "Verif.C38_constraints"
   ],
   "note": "False when a cluster has no weight at any publisher with reach: theta is 0/0 (C38_full_is_false). The partial theorem covers all weights for which no cluster is empty; the objective and the constraint matrices are characterised without restriction."
  },
  {
   "property": "C39",
   "status": "proved",
   "theorems": [
    "Verif.C39_distribution",
    "Verif.C39_values"
   ],
   "note": ""
  },
  {
   "property": "C40",
   "status": "proved",
   "theorems": [
    "Verif.C40_impressions_add_up",
    "Verif.C40_diminishing",
    "Verif.C40_formula",
    "Verif.C40_bounds",
    "Verif.C40_max_frequency",
    "Verif.C40_monotone",
    "Verif.C40_ends",
    "Verif.C40_no_frequency",
    "Verif.C40_no_inventory",
    "Verif.C40_consecutive",
    "Verif.C40_point",
    "Verif.C40_by_spend",
    "Verif.C40_refused",
    "Verif.C40_accepted",
    "Verif.C40_defaults"
   ],
   "note": ""
  },
  {
   "property": "C41",
   "status": "proved",
   "theorems": [
    "Verif.C41_beta",
    "Verif.C41_N_from_beta",
    "Verif.C41_N",
    "Verif.C41_curve",
    "Verif.C41_series",
    "Verif.C41_refused",
    "Verif.C41_no_rate"
   ],
   "note": ""
  },
  {
   "property": "C42",
   "status": "partial",
   "theorems": [
    "Verif.C42_by_spend_exact",
    "Verif.C42_by_impressions",
    "Verif.C42_by_spend_full_is_false",
    "Verif.C42_by_spend_partial",
    "Verif.C42_errors",
    "Verif.C42_quantile",
    "Verif.C42_spend_quantile_partial",
    "Verif.C42_index"
   ],
   "note": "by_spend is false as stated: evaluating the curve at zero spend for the other publishers still counts their zero-cost impressions (C42_by_spend_full_is_false). The partial theorem covers data sets in which the other publishers have no zero-cost impressions; by_impressions and the error behaviour are proved without restriction. C42_by_spend_exact gives the exact result for all data sets."
  },
  {
   "property": "C43",
   "status": "proved",
   "theorems": [
    "Verif.C43_one_publisher",
    "Verif.C43_preserves",
    "Verif.C43_data_set",
    "Verif.C43_refused",
    "Verif.C43_length"
   ],
   "note": ""
  },
  {
   "property": "C44",
   "status": "proved",
   "theorems": [
    "Verif.C44_float",
    "Verif.C44_homogeneous",
    "Verif.C44_heterogeneous",
    "Verif.C44_heavy_tailed",
    "Verif.C44_fixed_price",
    "Verif.C44_generated_publisher",
    "Verif.C44_no_users",
    "Verif.C44_homogeneous_law",
    "Verif.C44_heterogeneous_law",
    "Verif.C44_heavy_tailed_law",
    "Verif.C44_default_has_no_mean",
    "Verif.C44_documented_moments"
   ],
   "note": "C44_float repeats the generated publisher with binary64 prices: they stay strictly increasing up to 2^51 impressions. The laws of the draws are those numpy documents; C44_documented_moments checks the 16 generators of the single publisher design against the comments beside them (means and variances up to half a percent; the variance of the zeta laws is infinite). The default zeta_s=2 has an infinite mean (C44_default_has_no_mean)."
  },
  {
   "property": "C45",
   "status": "partial",
   "theorems": [
    "Verif.C45_names",
    "Verif.C45_write_once",
    "Verif.C45_lookup_partial",
    "Verif.C45_full_is_false",
    "Verif.C45_reopen",
    "Verif.C45_unknown_name"
   ],
   "note": "Names, count, refusal of existing names and re-opening are proved for every history. Lookup is false as stated: looking a name up before it is added returns an empty data set which the read cache keeps, hiding the later addition (C45_full_is_false). The partial theorem covers histories in which a name is not looked up before it is added."
  },
  {
   "property": "C46",
   "status": "partial",
   "theorems": [
    "Verif.C46_float",
    "Verif.C46_full_is_false",
    "Verif.C46_decreasing",
    "Verif.C46_smallest_partial",
    "Verif.C46_two_publishers",
    "Verif.C46_equal_sizes",
    "Verif.C46_single_publisher",
    "Verif.C46_generated",
    "Verif.C46_empty_publisher"
   ],
   "note": "False as stated: each step rounds down, so the last size is generally below floor(N * ratio) and can reach zero, for which the publisher generator raises (C46_full_is_false, C46_empty_publisher). Proved: first size, decrease, and that the last size is at most N * ratio and more than N * ratio - (P - 1); exact for two publishers and for ratio 1. C46_float: with binary64 rounding sizes still never increase, whatever float the decay rate is."
  },
  {
   "property": "C47",
   "status": "partial",
   "theorems": [
    "Verif.C47_shuffle_value",
    "Verif.C47_shuffle_range",
    "Verif.C47_shuffle_symmetric",
    "Verif.C47_shuffle_zero_iff",
    "Verif.C47_shuffle_equal_partial",
    "Verif.C47_shuffle_degenerate",
    "Verif.C47_full_is_false",
    "Verif.C47_columns",
    "Verif.C47_succeeds",
    "Verif.C47_lengths",
    "Verif.C47_float_shuffle",
    "Verif.C47_float_self",
    "Verif.C47_float_range_full_is_false",
    "Verif.C47_float_range_partial",
    "Verif.C47_float_zero",
    "Verif.C47_float_symmetric",
    "Verif.C47_float_degenerate",
    "Verif.C47_float_labels"
   ],
   "note": "Columns, success, range and symmetry are proved for all inputs. 'Zero for equal distributions' is false: a histogram with at most five entries is at distance 1 from itself and a zero one at distance 1/2 (C47_full_is_false). The partial theorem covers all others. Lists of different lengths are refused except where numpy broadcasts a single true point (C47_lengths). C47_float_labels: the thirty column labels are right although the fractions are rounded. On floats the distance is within 2^-48 of the exact one (C47_float_shuffle) symmetric (C47_float_symmetric) and exactly 0 from itself and for whole-number histograms of equal proportions (C47_float_self, C47_float_zero), but it can exceed 1 by the last digit (C47_float_range_full_is_false); C47_float_range_partial gives the bound 1 + 2^-48."
  },
  {
   "property": "C48",
   "status": "partial",
   "theorems": [
    "Verif.C48_any_generators",
    "Verif.C48_cloud_steps",
    "Verif.C48_cloud_safe",
    "Verif.C48_cloud_progress",
    "Verif.C48_cloud_unreadable",
    "Verif.C48_duplicates_full_is_false",
    "Verif.C48_cloud_touched",
    "Verif.C48_cloud_any",
    "Verif.C48_cloud_settled_full_is_false",
    "Verif.C48_steps",
    "Verif.C48_full_is_false",
    "Verif.C48_crash_safe_partial",
    "Verif.C48_one_piece_partial",
    "Verif.C48_files",
    "Verif.C48_touched",
    "Verif.C48_stale_pending"
   ],
   "note": "Full statement false (C48_full_is_false): a result file cut after its header still parses. Proved for any number of concurrently evaluated trials, interleavings and crashes if partly written results are unreadable, in particular if a result fits into one write buffer. Also: a crash before the pending file is removed leaves it for ever (C48_stale_pending). On cloud storage, where results appear in one piece, it is proved without that condition, also for several simultaneous evaluations of one trial (C48_cloud_safe, C48_cloud_progress); on the local disk those can fail (C48_duplicates_full_is_false). C48_any_generators proves crash safety also for results that depend on the generators shared by the trials and for rows that are read back differently from how they were computed. C48_touched: evaluations write only result files and files in the directory pending. C48_cloud_any proves cloud safety for such results too; there a row that was returned need not be the row that is kept (C48_cloud_settled_full_is_false)."
  },
  {
   "property": "C49",
   "status": "partial",
   "theorems": [
    "Verif.C49_full_is_false",
    "Verif.C49_first_wins",
    "Verif.C49_same_request_partial"
   ],
   "note": "Full statement false (C49_full_is_false). C49_first_wins says exactly what is returned; C49_same_request_partial gives the intended result for histories in which requests for one file agree."
  },
  {
   "property": "C50",
   "status": "partial",
   "theorems": [
    "Verif.C50_any_generators",
    "Verif.C50_by_name",
    "Verif.C50_trials_full_is_false",
    "Verif.C50_trials_partial",
    "Verif.C50_rows_full_is_false",
    "Verif.C50_schedule_partial",
    "Verif.C50_no_trials",
    "Verif.C50_design_partial",
    "Verif.C50_workers_finish",
    "Verif.C50_exception",
    "Verif.C50_descriptions_partial"
   ],
   "note": "False for data set names with colons (C50_trials_full_is_false) and for results that depend on the generators shared by trials (C50_rows_full_is_false). C50_descriptions_partial covers all data set names if descriptions have no colon. Proved otherwise for every schedule; workers finish under every fair schedule. C50_any_generators: with results that depend on shared generators there is still exactly one row per trial, a result of that trial, and later loads repeat it."
  },
  {
   "property": "C51",
   "status": "partial",
   "theorems": [
    "Verif.C51_float_grid",
    "Verif.C51_float_random",
    "Verif.C51_grid",
    "Verif.C51_grid_complete",
    "Verif.C51_latin",
    "Verif.C51_latin_stratified",
    "Verif.C51_latin_rearranged",
    "Verif.C51_uniform_partial",
    "Verif.C51_full_is_false"
   ],
   "note": "Grid and Latin hypercube parts are proved in full. The minimum of 100 uniformly random points is false when both requested numbers are smaller (C51_full_is_false): the number computed at line 72 is not used. The partial theorem gives the exact number of points and the minimum whenever either request keeps its default. C51_float_grid and C51_float_random: with binary64 rounding the points stay in the box and grid points stay distinct."
  },
  {
   "property": "C52",
   "status": "partial",
   "theorems": [
    "Verif.C52_shown_partial",
    "Verif.C52_full_is_false",
    "Verif.C52_marks_collide"
   ],
   "note": "Full statement refuted (C52_full_is_false: sketch seed and generator are not shown; C52_marks_collide: unquoted arguments). Proved: for names and arguments free of ,()= equal descriptions mean equal shown parameters."
  },
  {
   "property": "C53",
   "status": "partial",
   "theorems": [
    "Verif.C53_thinning",
    "Verif.C53_diminishing",
    "Verif.C53_histogram",
    "Verif.C53_coherent_partial",
    "Verif.C53_monotone",
    "Verif.C53_no_impressions",
    "Verif.C53_max_frequency",
    "Verif.C53_by_spend",
    "Verif.C53_full_is_false",
    "Verif.C53_refused",
    "Verif.C53_defaults",
    "Verif.C53_never_overestimates",
    "Verif.C53_ceiling",
    "Verif.C53_reproduces_partial",
    "Verif.C53_reproduces_full_is_false",
    "Verif.C53_determined_partial",
    "Verif.C53_determined_full_is_false",
    "Verif.C53_refused_frequency"
   ],
   "note": "Proved for real Poisson probabilities and every mixture, including growth with impressions, zero impressions and spends. The bounds on reaches (C53_full) are false for universes of 2^31 people or more because of the conversion to int32 (C53_full_is_false); C53_coherent_partial covers smaller universes. Weights need to add up to one only up to half a person. Exactly fitted models: C53_never_overestimates, C53_ceiling. That they reproduce the training reaches is false (C53_reproduces_full_is_false: 990 of 1000 people observed, at most 951 predicted) and proved if the observed histogram is a mixture of the components. That predictions do not depend on the solver is false (C53_determined_full_is_false: 680 or more against 625 or fewer people) and proved at the training impressions."
  },
  {
   "property": "C54",
   "status": "proved",
   "theorems": [
    "Verif.C54_impressions_add_up",
    "Verif.C54_diminishing",
    "Verif.C54_formula",
    "Verif.C54_coherent",
    "Verif.C54_max_frequency",
    "Verif.C54_monotone",
    "Verif.C54_by_spend",
    "Verif.C54_point",
    "Verif.C54_cost",
    "Verif.C54_unfitted",
    "Verif.C54_refused",
    "Verif.C54_accepted",
    "Verif.C54_defaults",
    "Verif.C54_gamma_poisson_law",
    "Verif.C54_expected_impressions",
    "Verif.C54_documented_mean_full_is_false",
    "Verif.C54_shown_law",
    "Verif.C54_shown_impressions",
    "Verif.C54_truncation",
    "Verif.C54_exponential_tail",
    "Verif.C54_truncation_matters",
    "Verif.C54_assumption"
   ],
   "note": "The exact inventory law (negative binomial, shifted) is in Model/Laws; C54_assumption proves of it what the other theorems assume about the values gp. The class documentation gives another mean (alpha/beta), which is false of the code (C54_documented_mean_full_is_false). C54_truncation bounds what adding up to 1000 loses; C54_truncation_matters shows that it can be a third."
  },
  {
   "property": "C55",
   "status": "proved",
   "theorems": [
    "Verif.C55_default",
    "Verif.C55_sketch_contents",
    "Verif.C55_capped_at_campaign",
    "Verif.C55_true_reach"
   ],
   "note": ""
  },
  {
   "property": "C56",
   "status": "partial",
   "theorems": [
    "Verif.C56_state",
    "Verif.C56_full_is_false",
    "Verif.C56_once_fitted",
    "Verif.C56_first_query",
    "Verif.C56_no_extrapolation_partial"
   ],
   "note": "False in general: the first query fixes the fit (C56_full_is_false: 10 impressions first changes the answer for 100000 from about 50 to about 67 people). Proved: after a fit nothing changes (C56_once_fitted), only the first answered query matters (C56_first_query), and single-frequency points queried below the observed impressions are order-independent (C56_no_extrapolation_partial)."
  },
  {
   "property": "C57",
   "status": "partial",
   "theorems": [
    "Verif.C57_some_moment_partial",
    "Verif.C57_uncached",
    "Verif.C57_no_changes",
    "Verif.C57_cache_bounded",
    "Verif.C57_full_is_false"
   ],
   "note": "A read returns the disk at some moment of the history, and the current disk on the first read or without changes; C57_full_is_false shows that later writes are not seen."
  },
  {
   "property": "C58",
   "status": "partial",
   "theorems": [
    "Verif.C58_one_sign",
    "Verif.C58_full_is_false",
    "Verif.C58_nonneg_and_monotone_partial"
   ],
   "note": "False as stated: the cardinality estimate is noised but not clipped, so all regions can be scaled by a negative factor (C58_full_is_false). The partial theorem covers noise that leaves the cardinality estimate non-negative. C58_one_sign says what holds for every noise realisation: all reaches of a request have one sign and their magnitudes grow with the set of publishers."
  },
  {
   "property": "C59",
   "status": "proved",
   "theorems": [
    "Verif.C59_goerg_quantile",
    "Verif.C59_goerg_quantile_overflow"
   ],
   "note": ""
  },
  {
   "property": "C60",
   "status": "partial",
   "theorems": [
    "Verif.C60_half_of_documented_partial",
    "Verif.C60_at_least_three_quarters",
    "Verif.C60_full_is_false"
   ],
   "note": "False: the stored parameters are half the documented ones (C60_full_is_false). The partial theorem gives the formula the code implements; C60_at_least_three_quarters the resulting lower bound."
  },
  {
   "property": "C61",
   "status": "partial",
   "theorems": [
    "Verif.C61_converged_iff",
    "Verif.C61_stops_converged",
    "Verif.C61_full_is_false",
    "Verif.C61_converged_partial",
    "Verif.C61_default_partial"
   ],
   "note": "False after a single round (C61_full_is_false); the partial theorem covers runs of at least two rounds. C61_converged_iff gives the exact condition for any number of rounds: after a single round, improvements up to one more than configured count as convergence."
  },
  {
   "property": "C62",
   "status": "proved",
   "theorems": [
    "Verif.C62_scaled_sampler_feasible",
    "Verif.C62_truncated_sampler",
    "Verif.C62_scaled_sampler_range"
   ],
   "note": ""
  },
  {
   "property": "C63",
   "status": "partial",
   "theorems": [
    "Verif.C63_full_is_false",
    "Verif.C63_success_of_last_run_partial"
   ],
   "note": "False: the flag is that of the last run (C63_full_is_false). The partial theorem states what is reported."
  },
  {
   "property": "C64",
   "status": "partial",
   "theorems": [
    "Verif.C64_loss_formula_partial",
    "Verif.C64_full_is_false"
   ],
   "note": "False (C64_full_is_false). The partial theorem states which function the loss is."
  },
  {
   "property": "C65",
   "status": "proved",
   "theorems": [
    "Verif.C65_universe_size",
    "Verif.C65_missing"
   ],
   "note": ""
  },
  {
   "property": "C66",
   "status": "proved",
   "theorems": [
    "Verif.C66_float",
    "Verif.C66_float_full_is_false",
    "Verif.C66_campaign_spends",
    "Verif.C66_combined_content",
    "Verif.C66_noiseless_request"
   ],
   "note": "C66_float: with binary64 rounding the campaign spend buys floor(f n) impressions up to one; exactness is false (C66_float_full_is_false: three quarters of twelve impressions at price 0.7 buy eight)."
  },
  {
   "property": "C67",
   "status": "partial",
   "theorems": [
    "Verif.C67_absolute_names_partial",
    "Verif.C67_full_is_false"
   ],
   "note": "C67_full_is_false: the copy stays empty. Proved instead: with absolute names no path other than those names is touched."
  },
  {
   "property": "C68",
   "status": "proved",
   "theorems": [
    "Verif.C68_errors",
    "Verif.C68_consistent",
    "Verif.C68_quantiles",
    "Verif.C68_zero_reach",
    "Verif.C68_relative",
    "Verif.C68_mare",
    "Verif.C68_perfect",
    "Verif.C68_shuffle",
    "Verif.C68_mismatch",
    "Verif.C68_no_points",
    "Verif.C68_float_mare",
    "Verif.C68_float_errors",
    "Verif.C68_float_relative",
    "Verif.C68_float_exact",
    "Verif.C68_float_mean_error",
    "Verif.C68_float_var_error",
    "Verif.C68_float_mean_shuffle",
    "Verif.C68_float_var_relative",
    "Verif.C68_float_var_shuffle",
    "Verif.C68_float_mean_squared_shuffle"
   ],
   "note": " C68_float_errors, C68_float_relative: on floats, in whatever order numpy adds, the mean absolute and squared (relative) errors differ from the exact ones by at most (H+6) 2^-52 of them, H the number of additions an entry takes part in. C68_float_mean_error: the mean error, whose terms have either sign, differs by at most 2 (H+1) 2^-52 of the mean absolute error. C68_float_var_error: the variance of the error is never negative and differs by at most 48 (H+1) 2^-52 of the mean squared error. C68_no_points: without test points every mean and variance is nan. C68_float_mean_shuffle, C68_float_mean_squared_shuffle: the mean and mean squared shuffle distances differ by at most (2H+18) 2^-52 and (2H+66) 2^-52. C68_float_mare: the same bound as for the relative error at frequencies 2 to 9. C68_float_var_relative, C68_float_var_shuffle: the other two variances are not negative on floats and close to the exact ones."
  },
  {
   "property": "C69",
   "status": "proved",
   "theorems": [
    "Verif.C69_reported",
    "Verif.C69_trial_describing",
    "Verif.C69_columns",
    "Verif.C69_columns_distinct",
    "Verif.C69_returns",
    "Verif.C69_success",
    "Verif.C69_failure",
    "Verif.C69_describing",
    "Verif.C69_single_values",
    "Verif.C69_max_frequency",
    "Verif.C69_max_frequency_columns",
    "Verif.C69_zero_reach"
   ],
   "note": ""
  },
  {
   "property": "C70",
   "status": "partial",
   "theorems": [
    "Verif.C70_shown_partial",
    "Verif.C70_full_is_false",
    "Verif.C70_named",
    "Verif.C70_class_hidden"
   ],
   "note": "Full statement refuted (C70_full_is_false: a given name hides all parameters; C70_class_hidden). Proved for unnamed parameters with arguments free of ,()=."
  },
  {
   "property": "C71",
   "status": "partial",
   "theorems": [
    "Verif.C71_fill",
    "Verif.C71_idempotent",
    "Verif.C71_refill_partial",
    "Verif.C71_refill_full_is_false"
   ],
   "note": "Filling in and idempotence proved for all inputs; refilling for another data set refuted with a spend generator (C71_refill_full_is_false), proved without one."
  },
  {
   "property": "C72",
   "status": "partial",
   "theorems": [
    "Verif.C72_terminates",
    "Verif.C72_failure",
    "Verif.C72_match_partial",
    "Verif.C72_extrapolation",
    "Verif.C72_full_is_false",
    "Verif.C72_all_distinct"
   ],
   "note": "Termination, positivity and inventory bound are proved (C72_terminates, with the two division-by-zero cases in C72_failure). The documented match of the observed reach (C72_full) is false when more impressions are requested than observed (C72_full_is_false) and when every impression reached another person (C72_all_distinct); C72_match_partial gives the exact point at which the reach is matched and C72_extrapolation the consequence."
  },
  {
   "property": "C73",
   "status": "partial",
   "theorems": [
    "Verif.C73_fit",
    "Verif.C73_answers",
    "Verif.C73_rounds",
    "Verif.C73_full_is_false",
    "Verif.C73_inventory_partial"
   ],
   "note": "The fit and the answers are covered for every solver (C73_fit, C73_answers). The documented minimal inventory (C73_full) is false because the distribution is cut off at 1000 impressions per person (C73_full_is_false); C73_inventory_partial shows it for the untruncated distribution of single-frequency points."
  },
  {
   "property": "C74",
   "status": "proved",
   "theorems": [
    "Verif.C74_histogram",
    "Verif.C74_distance",
    "Verif.C74_inadmissible",
    "Verif.C74_zero_iff",
    "Verif.C74_penalty_not_worst"
   ],
   "note": ""
  },
  {
   "property": "C75",
   "status": "partial",
   "theorems": [
    "Verif.C75_best_run",
    "Verif.C75_usable",
    "Verif.C75_refit_full_is_false",
    "Verif.C75_refit_partial"
   ],
   "note": "The choice of the run and the usability of the fit are proved for every optimizer (C75_best_run, C75_usable). That fitting again changes nothing (C75_refit_full) is false, because the first fit sets the population and the second fit takes the branch for a fixed population (C75_refit_full_is_false); C75_refit_partial shows what is kept."
  },
  {
   "property": "C76",
   "status": "partial",
   "theorems": [
    "Verif.C76_result",
    "Verif.C76_fuel",
    "Verif.C76_feasible_start",
    "Verif.C76_ends_full_is_false",
    "Verif.C76_ends_partial"
   ],
   "note": "The quality of the result and the feasibility of the start are proved in full (C76_result, C76_fuel, C76_feasible_start). That the search always ends (C76_ends_full) is false over exact numbers (C76_ends_full_is_false); C76_ends_partial gives a sufficient condition."
  },
  {
   "property": "C77",
   "status": "partial",
   "theorems": [
    "Verif.C77_components",
    "Verif.C77_per_frequency",
    "Verif.C77_exact",
    "Verif.C77_bound_full_is_false",
    "Verif.C77_bound_partial",
    "Verif.C77_uniform",
    "Verif.C77_rounding"
   ],
   "note": "Number, order, spacing and counts of the components are proved in full. The documented bound by the maximum frequency (C77_bound_full) is false (C77_bound_full_is_false); C77_bound_partial gives the actual bounds."
  },
  {
   "property": "C78",
   "status": "partial",
   "theorems": [
    "Verif.C78_default",
    "Verif.C78_retries",
    "Verif.C78_fitted_once",
    "Verif.C78_unusable",
    "Verif.C78_answers_full_is_false",
    "Verif.C78_answers_partial",
    "Verif.C78_solution_exists",
    "Verif.C78_solution_iff",
    "Verif.C78_solution_unique",
    "Verif.C78_refused_under_m3",
    "Verif.C78_accepted_under_single"
   ],
   "note": "The retry loop is characterized for every solver (C78_retries, C78_fitted_once, C78_unusable). That every constructed model answers queries (C78_answers_full) is false for points with reach above the universe size; C78_answers_partial covers all other points, given a solver that keeps its promises. C78_refused_under_m3 and C78_accepted_under_single say what the two strategies do with the model. The optimization problem itself: C78_solution_exists, C78_solution_iff, C78_solution_unique."
  },
  {
   "property": "C79",
   "status": "proved",
   "theorems": [
    "Verif.C79_pick",
    "Verif.C79_balanced",
    "Verif.C79_design",
    "Verif.C79_names",
    "Verif.C79_float"
   ],
   "note": "C79_float: with binary64 rounding no sample below one gives an IndexError; a value at a boundary may take the next level."
  },
  {
   "property": "C80",
   "status": "proved",
   "theorems": [
    "Verif.C80_analysis_example",
    "Verif.C80_single_publisher_trials",
    "Verif.C80_single_publisher_design",
    "Verif.C80_sampled_combinations",
    "Verif.C80_sampled_design",
    "Verif.C80_data_sets",
    "Verif.C80_data_names",
    "Verif.C80_descriptions",
    "Verif.C80_evaluated",
    "Verif.C80_first_round",
    "Verif.C80_trials",
    "Verif.C80_first_round_levels"
   ],
   "note": "C80_analysis_example, C80_single_publisher_design and C80_sampled_design count the trials of the shipped designs and say exactly which combinations occur."
  },
  {
   "property": "C81",
   "status": "partial",
   "theorems": [
    "Verif.C81_fits",
    "Verif.C81_other",
    "Verif.C81_kept_partial",
    "Verif.C81_kept_full_is_false",
    "Verif.C81_refused"
   ],
   "note": "Size and fit of the universe are proved (C81_fits). That the data set keeps the universe size (C81_kept_full) is false (C81_kept_full_is_false); C81_kept_partial shows what is stored instead."
  },
  {
   "property": "C82",
   "status": "partial",
   "theorems": [
    "Verif.C82_any_generators",
    "Verif.C82_combine",
    "Verif.C82_rows_partial",
    "Verif.C82_order_full_is_false",
    "Verif.C82_waits",
    "Verif.C82_no_trials",
    "Verif.C82_temp_file",
    "Verif.C82_dataflow",
    "Verif.C82_dataflow_raises",
    "Verif.C82_dataflow_refused"
   ],
   "note": "Combining, the file of the combined result and the case of no trials are proved in full. Order of rows as on one core (C82_order_full) is false (C82_order_full_is_false); C82_rows_partial proves equality up to order. Results depending on shared generators are excluded, as in C50. C82_any_generators covers them: one row per trial, each a result of that trial. C82_dataflow proves the rows on cloud storage with any number of simultaneous attempts per trial, without a condition on partly written results; C82_dataflow_raises and C82_dataflow_refused say when such a run fails."
  },
  {
   "property": "C83",
   "status": "partial",
   "theorems": [
    "Verif.C83_any_generators",
    "Verif.C83_output_full_is_false",
    "Verif.C83_output_partial",
    "Verif.C83_runner",
    "Verif.C83_command_line",
    "Verif.C83_refused_command_line",
    "Verif.C83_temp_location",
    "Verif.C83_separate_value",
    "Verif.C83_help",
    "Verif.C83_negative_value",
    "Verif.C83_dash_value_refused",
    "Verif.C83_separator",
    "Verif.C83_flag_value_refused",
    "Verif.C83_dataflow_rows",
    "Verif.C83_dataflow_local_output",
    "Verif.C83_dataflow_local_dir",
    "Verif.C83_one_core",
    "Verif.C83_many_cores",
    "Verif.C83_beam_rows",
    "Verif.C83_cores_agree",
    "Verif.C83_whole_run",
    "Verif.C83_first_round"
   ],
   "note": "C83_output_partial assumes results that do not depend on shared generators, data set names without colons and slashes, and a finished run on Beam; without the first two the claim is false (C50_rows_full_is_false, C83_output_full_is_false). C83_runner says which combinations of runner and directory are refused. C83_any_generators covers results depending on shared generators, interrupted earlier runs and rows that are read back differently. C83_whole_run does the same with the trials as they are modelled in WholeTrial in place of arbitrary ones: one row per data set and description, each within its privacy budget. C83_first_round: 288 rows per data set for the first round design. C83_one_core, C83_many_cores and C83_beam_rows say exactly which rows a run on an empty directory gives: on one core the generator of a trial continues from data set to data set, with workers and on Beam it starts afresh; C83_cores_agree: on one data set the number of cores makes no difference. C83_dataflow_rows, C83_dataflow_local_output and C83_dataflow_local_dir: the same for Dataflow, and what happens if output file or directory are not on cloud storage. C83_command_line, C83_refused_command_line, C83_separate_value and C83_temp_location are about the command line (documented form, any order); C83_help, C83_negative_value, C83_dash_value_refused, C83_flag_value_refused and C83_separator about the other forms (help, values that start with a dash, values for flags, a second separator)."
  },
  {
   "property": "C84",
   "status": "partial",
   "theorems": [
    "Verif.C84_default",
    "Verif.C84_float_goerg",
    "Verif.C84_mixture_returns",
    "Verif.C84_mixture_trial_returns",
    "Verif.C84_by_spend",
    "Verif.C84_unknown_cost",
    "Verif.C84_too_few",
    "Verif.C84_too_many",
    "Verif.C84_refused_full_is_false",
    "Verif.C84_frequency_full_is_false",
    "Verif.C84_frequency_partial",
    "Verif.C84_monotone",
    "Verif.C84_returns",
    "Verif.C84_trial_returns"
   ],
   "note": "Conversion, unknown costs, too few spends and monotonicity are proved in full. Refusing too many spends (C84_refused_full) and answering with max_frequency reaches (C84_frequency_full) are false (C84_refused_full_is_false, C84_frequency_full_is_false); C84_frequency_partial covers a maximum frequency of one, C84_too_few one half of the refusals. C84_float_goerg: over fitted Goerg curves with training spends, all on floats, the prediction by spend differs from the exact one by at most ((p+3)^2+6) 2^-50 of the sum of the exact reaches."
  },
  {
   "property": "C85",
   "status": "proved",
   "theorems": [
    "Verif.C85_solutions",
    "Verif.C85_training_point",
    "Verif.C85_unique"
   ],
   "note": ""
  },
  {
   "property": "C86",
   "status": "proved",
   "theorems": [
    "Verif.C86_protocol",
    "Verif.C86_single_publisher",
    "Verif.C86_two_publishers",
    "Verif.C86_defaults"
   ],
   "note": ""
  },
  {
   "property": "C87",
   "status": "partial",
   "theorems": [
    "Verif.C87_distance",
    "Verif.C87_distance_zero",
    "Verif.C87_objective",
    "Verif.C87_append",
    "Verif.C87_poor",
    "Verif.C87_fit_partial",
    "Verif.C87_inventory_partial",
    "Verif.C87_start",
    "Verif.C87_start_two",
    "Verif.C87_full_is_false",
    "Verif.C87_penalty_too_low"
   ],
   "note": "Distance, objective and appended value are covered in full (C87_distance, C87_distance_zero, C87_objective, C87_append). C87_fit_partial and C87_inventory_partial need an admissible start below the penalty, which C87_start and C87_start_two give for all but nearly distinct or extremely frequent impressions. Without it the fit may be inadmissible (C87_full_is_false), and admissible parameters may be worse than the penalty (C87_penalty_too_low)."
  },
  {
   "property": "C88",
   "status": "partial",
   "theorems": [
    "Verif.C88_run_partial",
    "Verif.C88_one_round_partial",
    "Verif.C88_weights_partial",
    "Verif.C88_fit_partial",
    "Verif.C88_prediction_partial",
    "Verif.C88_zero_point",
    "Verif.C88_full_is_false"
   ],
   "note": "The loop, the constraints, the optimality of each round, the choice among the ten runs and the bounds of the predictions are proved without restriction (named _partial because they are part of C88_full); C88_zero_point is complete. That the squared error does not exceed that of the start is false even with an exact solver (C88_full_is_false)."
  },
  {
   "property": "C89",
   "status": "proved",
   "theorems": [
    "Verif.C89_fit",
    "Verif.C89_error",
    "Verif.C89_prediction",
    "Verif.C89_single_points",
    "Verif.C89_nobody_reached"
   ],
   "note": ""
  },
  {
   "property": "C90",
   "status": "proved",
   "theorems": [
    "Verif.C90_user",
    "Verif.C90_reported",
    "Verif.C90_tight"
   ],
   "note": ""
  },
  {
   "property": "C91",
   "status": "proved",
   "theorems": [
    "Verif.C91_protects",
    "Verif.C91_one_person",
    "Verif.C91_laplace",
    "Verif.C91_exact",
    "Verif.C91_moved"
   ],
   "note": ""
  },
  {
   "property": "C92",
   "status": "partial",
   "theorems": [
    "Verif.C92_reaches_partial",
    "Verif.C92_cardinality",
    "Verif.C92_impressions_reveal",
    "Verif.C92_failure_reveals",
    "Verif.C92_full_is_false"
   ],
   "note": "C92_reaches_partial covers the reaches and the state up to the probability that a request fails for lack of active registers. C92_full_is_false, C92_impressions_reveal and C92_failure_reveals show that the rest is false. C92_cardinality gives the assumption on the cardinality when the error of the estimate does not depend on it; in the code its standard deviation does, and the estimate itself is not modelled beyond being a distribution for every cardinality."
  },
  {
   "property": "C93",
   "status": "proved",
   "theorems": [
    "Verif.C93_delta_method",
    "Verif.C93_variance_pos",
    "Verif.C93_variance_le",
    "Verif.C93_registers",
    "Verif.C93_expected_active",
    "Verif.C93_failure"
   ],
   "note": ""
  },
  {
   "property": "C94",
   "status": "partial",
   "theorems": [
    "Verif.C94_unbiased_partial",
    "Verif.C94_total",
    "Verif.C94_success",
    "Verif.C94_full_is_false"
   ],
   "note": "C94_unbiased_partial is the claim without noise on the regions. With noise it is false (C94_full_is_false): C94_total shows that the reach of all publishers is never too large on average and strictly too small if the noise can empty the table. C94_success gives the probability of success for every noise."
  },
  {
   "property": "C95",
   "status": "partial",
   "theorems": [
    "Verif.C95_names",
    "Verif.C95_write_once_partial",
    "Verif.C95_lookup_partial",
    "Verif.C95_reopen_partial",
    "Verif.C95_local_refused",
    "Verif.C95_cut",
    "Verif.C95_absolute",
    "Verif.C95_full_is_false",
    "Verif.C95_refused"
   ],
   "note": "False for data sets without publishers (C95_full_is_false): they leave no object, so they can be added again and are missing when the design is opened later. C95_write_once_partial and C95_reopen_partial say exactly what happens for all data sets; C95_lookup_partial has the proviso of C45 about earlier lookups. C95_names is proved in full."
  },
  {
   "property": "C96",
   "status": "partial",
   "theorems": [
    "Verif.C96_contents_partial",
    "Verif.C96_repeated",
    "Verif.C96_again",
    "Verif.C96_empty_publisher",
    "Verif.C96_shipped_sizes",
    "Verif.C96_full_is_false"
   ],
   "note": "Contents, names, refusals and the shipped designs are proved in full; that the publishers come back in order is false for ten and more publishers, which are read in string order (C96_full_is_false), and proved for up to nine (C96_contents_partial)."
  },
  {
   "property": "C97",
   "status": "partial",
   "theorems": [
    "Verif.C97_test_point_errors",
    "Verif.C97_model_errors",
    "Verif.C97_reported",
    "Verif.C97_instantiate",
    "Verif.C97_returns_row",
    "Verif.C97_refusals",
    "Verif.C97_sampled",
    "Verif.C97_shipped_partial",
    "Verif.C97_shipped_full_is_false",
    "Verif.C97_compared",
    "Verif.C97_parameters",
    "Verif.C97_test_points",
    "Verif.C97_success_needs"
   ],
   "note": "Which trials yield a row, which exceptions occur, what success needs, the strategies and test points of the shipped designs are proved in full. That every shipped trial yields a row on every data set is false (C97_shipped_full_is_false); C97_shipped_partial says exactly for how many publishers each shipped design yields rows."
  },
  {
   "property": "C98",
   "status": "proved",
   "theorems": [
    "Verif.C98_columns",
    "Verif.C98_within_budget",
    "Verif.C98_successful"
   ],
   "note": ""
  },
  {
   "property": "C99",
   "status": "partial",
   "theorems": [
    "Verif.C99_truth_partial",
    "Verif.C99_goerg",
    "Verif.C99_goerg_single_pub",
    "Verif.C99_single_publisher_design",
    "Verif.C99_truth_full_is_false",
    "Verif.C99_several_publishers",
    "Verif.C99_several_truth",
    "Verif.C99_gamma_poisson",
    "Verif.C99_kinflated",
    "Verif.C99_single_publisher_models",
    "Verif.C99_predictions",
    "Verif.C99_truth_predictions",
    "Verif.C99_truth_errors"
   ],
   "note": "Full statement false: a GroundTruthReachCurveModel has no _data, so a one publisher trial with true reach curves and analysis type single_pub fails with AttributeError; C99_truth_partial covers all other analysis types (and proves the failure). The other parts (Goerg's, gamma-Poisson and k-inflated models, the single publisher design, several publishers with either surface) are proved as stated, with the promises of scipy, cvxopt and the sampler as hypotheses."
  }
 ]
}