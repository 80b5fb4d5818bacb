{
 "claims": [
  {
   "property": "C01",
   "status": "proved",
   "theorems": [
    "Gbdt.C01_string_roundtrip"
   ],
   "note": ""
  },
  {
   "property": "C02",
   "status": "proved",
   "theorems": [
    "Gbdt.C02_same_code_iff_same_string",
    "Gbdt.C02_missing_iff",
    "Gbdt.C02_lookup_inverse",
    "Gbdt.C02_max_int",
    "Gbdt.C02_block_independent"
   ],
   "note": ""
  },
  {
   "property": "C03",
   "status": "proved",
   "theorems": [
    "Gbdt.C03_missing_iff_nan"
   ],
   "note": ""
  },
  {
   "property": "C04",
   "status": "proved",
   "theorems": [
    "Gbdt.C04_row_in_bucket"
   ],
   "note": ""
  },
  {
   "property": "C05",
   "status": "proved",
   "theorems": [
    "Gbdt.C05_codes_ordered"
   ],
   "note": ""
  },
  {
   "property": "C06",
   "status": "proved",
   "theorems": [
    "Gbdt.C06_bucket_count",
    "Gbdt.C06_bound_reached",
    "Gbdt.C06_default_fits_16_bits"
   ],
   "note": "Bound 2*num_buckets+1, shown to be reached."
  },
  {
   "property": "C07",
   "status": "proved",
   "theorems": [
    "Gbdt.C07_few_values_exact"
   ],
   "note": ""
  },
  {
   "property": "C08",
   "status": "partial",
   "theorems": [
    "Gbdt.C08_crash_iff_partial",
    "Gbdt.C08_distinct_values_crash",
    "Gbdt.C08_refuted"
   ],
   "note": "False as stated (C08_refuted, C08_distinct_values_crash). The crash condition is characterized exactly by C08_crash_iff_partial."
  },
  {
   "property": "C09",
   "status": "proved",
   "theorems": [
    "Gbdt.C09_minima_tight",
    "Gbdt.C09_limits_are_data"
   ],
   "note": ""
  },
  {
   "property": "C10",
   "status": "proved",
   "theorems": [
    "Gbdt.C10_bucketized_frozen"
   ],
   "note": ""
  },
  {
   "property": "C11",
   "status": "proved",
   "theorems": [
    "Gbdt.C11_store_is_finite_map",
    "Gbdt.C11_statuses",
    "Gbdt.C11_typed_getters",
    "Gbdt.C11_names"
   ],
   "note": ""
  },
  {
   "property": "C12",
   "status": "proved",
   "theorems": [
    "Gbdt.C12_equal_row_counts"
   ],
   "note": ""
  },
  {
   "property": "C13",
   "status": "proved",
   "theorems": [
    "Gbdt.C13_string_get",
    "Gbdt.C13_raw_get",
    "Gbdt.C13_bucketized_get",
    "Gbdt.C13_null_get"
   ],
   "note": ""
  },
  {
   "property": "C14",
   "status": "partial",
   "theorems": [
    "Gbdt.C14_failures_raise_partial",
    "Gbdt.C14_duplicate_silently_ignored",
    "Gbdt.C14_refuted"
   ],
   "note": "False for ALREADY_EXISTS (C14_refuted, C14_duplicate_silently_ignored) and ABORTED; proved for all other codes."
  },
  {
   "property": "C15",
   "status": "proved",
   "theorems": [
    "Gbdt.C15_join_split",
    "Gbdt.C15_split_join",
    "Gbdt.C15_single_empty_piece",
    "Gbdt.C15_empty_delimiter_diverges"
   ],
   "note": ""
  },
  {
   "property": "C16",
   "status": "proved",
   "theorems": [
    "Gbdt.C16_block_contents",
    "Gbdt.C16_success_iff",
    "Gbdt.C16_failure",
    "Gbdt.C16_missing_file"
   ],
   "note": ""
  },
  {
   "property": "C17",
   "status": "proved",
   "theorems": [
    "Gbdt.C17_trim",
    "Gbdt.C17_requested",
    "Gbdt.C17_load_contents",
    "Gbdt.C17_string_rows",
    "Gbdt.C17_raw_rows",
    "Gbdt.C17_bucketized_rows",
    "Gbdt.C17_schedule_independent",
    "Gbdt.C17_failure_reasons",
    "Gbdt.C17_succeeds"
   ],
   "note": "strtof is an arbitrary function; the thread pool is abstracted to any completion order (C23)."
  },
  {
   "property": "C18",
   "status": "partial",
   "theorems": [
    "Gbdt.C18_distinct_names_partial",
    "Gbdt.C18_duplicates_undefined",
    "Gbdt.C18_refuted"
   ],
   "note": "False (C18_refuted): two requests of one name write through a pointer to a destroyed column. Proved for distinct names."
  },
  {
   "property": "C19",
   "status": "proved",
   "theorems": [
    "Gbdt.C19_flatfile_rows"
   ],
   "note": ""
  },
  {
   "property": "C20",
   "status": "proved",
   "theorems": [
    "Gbdt.C20_concurrent_get_column"
   ],
   "note": ""
  },
  {
   "property": "C21",
   "status": "proved",
   "theorems": [
    "Gbdt.C21_divide_samples",
    "Gbdt.C21_even",
    "Gbdt.C21_divide_range",
    "Gbdt.C21_no_groups"
   ],
   "note": ""
  },
  {
   "property": "C22",
   "status": "proved",
   "theorems": [
    "Gbdt.C22_subsample",
    "Gbdt.C22_rate_one_zero",
    "Gbdt.C22_monotone",
    "Gbdt.C22_all_samples"
   ],
   "note": "The Mersenne twister is an arbitrary stream of draws."
  },
  {
   "property": "C23",
   "status": "proved",
   "theorems": [
    "Gbdt.C23_each_task_once",
    "Gbdt.C23_all_done_at_return",
    "Gbdt.C23_single_thread_in_order",
    "Gbdt.C23_no_threads"
   ],
   "note": "Needs at least one thread (C23_no_threads shows what happens otherwise)."
  },
  {
   "property": "C24",
   "status": "proved",
   "theorems": [
    "Gbdt.C24_no_deadlock",
    "Gbdt.C24_terminates"
   ],
   "note": "Fairness enters only as: steps keep being taken; the bound is in the number of spurious wake-ups."
  },
  {
   "property": "C25",
   "status": "proved",
   "theorems": [
    "Gbdt.C25_scoring",
    "Gbdt.C25_sums",
    "Gbdt.C25_gradients",
    "Gbdt.C25_splits"
   ],
   "note": "Tasks are programs of single memory accesses run by the modelled pool; memory is sequentially consistent, which the absence of data races justifies. A slice is one cell (read once, written back once). Pairwise gradients share the generator and are C54."
  },
  {
   "property": "C26",
   "status": "proved",
   "theorems": [
    "Gbdt.C26_float_partition",
    "Gbdt.C26_float_partition_exact",
    "Gbdt.C26_string_partition",
    "Gbdt.C26_string_partition_by_index",
    "Gbdt.C26_raw_partition",
    "Gbdt.C26_in_place",
    "Gbdt.C26_mismatch_aborts"
   ],
   "note": ""
  },
  {
   "property": "C27",
   "status": "proved",
   "theorems": [
    "Gbdt.C27_names_and_indices_agree"
   ],
   "note": ""
  },
  {
   "property": "C28",
   "status": "proved",
   "theorems": [
    "Gbdt.C28_best_candidate",
    "Gbdt.C28_exceeds_limits",
    "Gbdt.C28_hessian_limit",
    "Gbdt.C28_none"
   ],
   "note": "NaN provisos are in the theorem statements."
  },
  {
   "property": "C29",
   "status": "partial",
   "theorems": [
    "Gbdt.C29_float_gain_partial",
    "Gbdt.C29_string_gain_partial",
    "Gbdt.C29_refuted"
   ],
   "note": "Exact arithmetic, no bin with exactly one of its sums zero. False otherwise: cancelling gradients drop a bin from the scan (C29_refuted)."
  },
  {
   "property": "C30",
   "status": "partial",
   "theorems": [
    "Gbdt.C30_best_threshold_partial",
    "Gbdt.C30_refuted"
   ],
   "note": "Exact arithmetic, no bin with exactly one of its sums zero. False otherwise (C30_refuted)."
  },
  {
   "property": "C31",
   "status": "partial",
   "theorems": [
    "Gbdt.C31_best_subset_partial",
    "Gbdt.C31_refuted"
   ],
   "note": "Proved for l2_lambda = 0. False for l2_lambda > 0 (C31_refuted)."
  },
  {
   "property": "C32",
   "status": "proved",
   "theorems": [
    "Gbdt.C32_float_children_nonempty",
    "Gbdt.C32_string_children_nonempty"
   ],
   "note": "In any arithmetic of the sums; for floats, thresholds must separate buckets (binary32: C63)."
  },
  {
   "property": "C33",
   "status": "proved",
   "theorems": [
    "Gbdt.C33_shape",
    "Gbdt.C33_stops_when_exhausted"
   ],
   "note": ""
  },
  {
   "property": "C34",
   "status": "proved",
   "theorems": [
    "Gbdt.C34_samples_reach_leaves",
    "Gbdt.C34_leaves_partition"
   ],
   "note": ""
  },
  {
   "property": "C35",
   "status": "proved",
   "theorems": [
    "Gbdt.C35_scores",
    "Gbdt.C35_leaf_members",
    "Gbdt.C35_newton_step"
   ],
   "note": ""
  },
  {
   "property": "C36",
   "status": "proved",
   "theorems": [
    "Gbdt.C36_best_first"
   ],
   "note": "Stated between the trees for n and n+1 leaves: growth is a sequence of such steps."
  },
  {
   "property": "C37",
   "status": "proved",
   "theorems": [
    "Gbdt.C37_prediction",
    "Gbdt.C37_prediction_exact",
    "Gbdt.C37_slices"
   ],
   "note": "Law-free: in any arithmetic the score is the sum in tree order; exact version included."
  },
  {
   "property": "C38",
   "status": "proved",
   "theorems": [
    "Gbdt.C38_same_values_same_leaf",
    "Gbdt.C38_same_prediction",
    "Gbdt.C38_same_string",
    "Gbdt.C38_same_float"
   ],
   "note": ""
  },
  {
   "property": "C39",
   "status": "proved",
   "theorems": [
    "Gbdt.C39_function_values",
    "Gbdt.C39_forest_usable",
    "Gbdt.C39_training_scores_are_predictions"
   ],
   "note": "Equality with predictions in exact arithmetic; C39_function_values says in any arithmetic what is added up in which order."
  },
  {
   "property": "C40",
   "status": "proved",
   "theorems": [
    "Gbdt.C40_shape",
    "Gbdt.C40_base_unchanged",
    "Gbdt.C40_errors",
    "Gbdt.C40_divergence"
   ],
   "note": ""
  },
  {
   "property": "C41",
   "status": "proved",
   "theorems": [
    "Gbdt.C41_shrinkage",
    "Gbdt.C41_contribution_exact"
   ],
   "note": ""
  },
  {
   "property": "C42",
   "status": "proved",
   "theorems": [
    "Gbdt.C42_stripped",
    "Gbdt.C42_nothing_else",
    "Gbdt.C42_same_leaf",
    "Gbdt.C42_same_prediction"
   ],
   "note": ""
  },
  {
   "property": "C43",
   "status": "proved",
   "theorems": [
    "Gbdt.C43_checkpoints"
   ],
   "note": "Files hold the scores before they are printed; their text is the subject of C184."
  },
  {
   "property": "C44",
   "status": "proved",
   "theorems": [
    "Gbdt.C44_test_points",
    "Gbdt.C44_all_written"
   ],
   "note": ""
  },
  {
   "property": "C45",
   "status": "proved",
   "theorems": [
    "Gbdt.C45_importance",
    "Gbdt.C45_normalized"
   ],
   "note": "Normalisation in exact arithmetic and for positive gains; the ranking in any arithmetic."
  },
  {
   "property": "C46",
   "status": "proved",
   "theorems": [
    "Gbdt.C46_check_config",
    "Gbdt.C46_train_refuses",
    "Gbdt.C46_known_losses",
    "Gbdt.C46_factory"
   ],
   "note": ""
  },
  {
   "property": "C47",
   "status": "proved",
   "theorems": [
    "Gbdt.C47_mse",
    "Gbdt.C47_logloss",
    "Gbdt.C47_huberized",
    "Gbdt.C47_squared_hinge"
   ],
   "note": "Over the reals, with the exponential and logarithm of Mathlib; squared hinge (gbrank) included."
  },
  {
   "property": "C48",
   "status": "proved",
   "theorems": [
    "Gbdt.C48_newton",
    "Gbdt.C48_mse",
    "Gbdt.C48_mse_two_steps",
    "Gbdt.C48_mse_no_weight"
   ],
   "note": "Exact arithmetic in any linearly ordered field, for any loss function."
  },
  {
   "property": "C49",
   "status": "proved",
   "theorems": [
    "Gbdt.C49_pair_bijection",
    "Gbdt.C49_num_pairs",
    "Gbdt.C49_defined"
   ],
   "note": "For every sort implementation and arithmetic in which comparison is a strict order with NaN apart; targets must not be NaN (std::sort is undefined otherwise)."
  },
  {
   "property": "C50",
   "status": "proved",
   "theorems": [
    "Gbdt.C50_ranks"
   ],
   "note": "For every sort implementation; function values must not be NaN."
  },
  {
   "property": "C51",
   "status": "proved",
   "theorems": [
    "Gbdt.C51_cancel",
    "Gbdt.C51_hessians",
    "Gbdt.C51_other_groups"
   ],
   "note": "Cancellation and sign in exact arithmetic, the frame for every arithmetic; for every state the loss can reach."
  },
  {
   "property": "C52",
   "status": "proved",
   "theorems": [
    "Gbdt.C52_delta_dcg"
   ],
   "note": "Exact arithmetic, any discount function."
  },
  {
   "property": "C53",
   "status": "partial",
   "theorems": [
    "Gbdt.C53_init_partial",
    "Gbdt.C53_compute_partial",
    "Gbdt.C53_refuted_no_pairs",
    "Gbdt.C53_refuted_missing",
    "Gbdt.C53_refuted_nan_target",
    "Gbdt.C53_refuted",
    "Gbdt.C53_exact_partial"
   ],
   "note": "False in three ways: no group with two different targets (C53_refuted, C53_refuted_no_pairs), a missing group (C53_refuted_missing), a NaN target (C53_refuted_nan_target). Otherwise defined (C53_init_partial, C53_compute_partial, C53_exact_partial)."
  },
  {
   "property": "C54",
   "status": "partial",
   "theorems": [
    "Gbdt.C54_one_thread_partial",
    "Gbdt.C54_refuted",
    "Gbdt.C54_refuted_race"
   ],
   "note": "Proved for one thread (all schedules, whole memory). False for several threads: the tasks share Subsampling::generator_ without a lock, so two schedules give different gradients (C54_refuted), and the accesses are a data race (C54_refuted_race), which is undefined behaviour in C++."
  },
  {
   "property": "C55",
   "status": "proved",
   "theorems": [
    "Gbdt.C55_reads",
    "Gbdt.C55_milliseconds"
   ],
   "note": "Arithmetic on doubles is exact; {:.1f} is any rounding to a nearest tenth. Negative durations (the clock is system_clock) are printed as negative milliseconds, and are undefined behaviour below -2^31 ms."
  },
  {
   "property": "C56",
   "status": "proved",
   "theorems": [
    "Gbdt.C56_groups",
    "Gbdt.C56_no_column"
   ],
   "note": "For columns as the loaders build them."
  },
  {
   "property": "C57",
   "status": "partial",
   "theorems": [
    "Gbdt.C57_containment_refuted",
    "Gbdt.C57_order_refuted",
    "Gbdt.C57_minima_refuted",
    "Gbdt.C57_small_column_partial"
   ],
   "note": "False: refuted three ways (containment, order, minima). What does hold (containment and minima in columns of at most 100*num_buckets rows) is C57_small_column_partial."
  },
  {
   "property": "C58",
   "status": "partial",
   "theorems": [
    "Gbdt.C58_string_refinalize_partial",
    "Gbdt.C58_string_refuted",
    "Gbdt.C58_raw_refuted",
    "Gbdt.C58_refuted"
   ],
   "note": "False for Add after Finalize (C58_string_refuted, C58_raw_refuted); a second Finalize of a string column behaves as stated."
  },
  {
   "property": "C59",
   "status": "partial",
   "theorems": [
    "Gbdt.C59_first_has_rows_partial",
    "Gbdt.C59_refuted"
   ],
   "note": "False (C59_refuted). Proved when the first column has rows and nothing is removed (C59_first_has_rows_partial), or when no column is empty (C12)."
  },
  {
   "property": "C60",
   "status": "partial",
   "theorems": [
    "Gbdt.C60_no_hash_partial",
    "Gbdt.C60_refuted"
   ],
   "note": "False (C60_refuted): a data line starting with '#' is dropped."
  },
  {
   "property": "C61",
   "status": "partial",
   "theorems": [
    "Gbdt.C61_distinct_names_partial",
    "Gbdt.C61_loaded_partial",
    "Gbdt.C61_refuted"
   ],
   "note": "False (C61_refuted): two concurrent first requests of one name; the second insertion destroys the column the first returned."
  },
  {
   "property": "C62",
   "status": "proved",
   "theorems": [
    "Gbdt.C62_histogram_bins",
    "Gbdt.C62_values_scanned"
   ],
   "note": ""
  },
  {
   "property": "C63",
   "status": "partial",
   "theorems": [
    "Gbdt.C63_refuted_overflow",
    "Gbdt.C63_refuted",
    "Gbdt.C63_separating_partial"
   ],
   "note": "False: 16777216 and 16777218 (C63_refuted), and sums that overflow (C63_refuted_overflow, in binary32 itself). Proved when the rounded midpoints separate the buckets; C186 shows that they do for floats in half the range that are not neighbours."
  },
  {
   "property": "C64",
   "status": "partial",
   "theorems": [
    "Gbdt.C64_refuted",
    "Gbdt.C64_refuted_no_split",
    "Gbdt.C64_missing_feature_partial"
   ],
   "note": "False for a column of another type and for an inner node without split (C64_refuted, C64_refuted_no_split); a missing feature is reported (C64_missing_feature_partial)."
  },
  {
   "property": "C65",
   "status": "partial",
   "theorems": [
    "Gbdt.C65_refuted",
    "Gbdt.C65_refuted_increasing",
    "Gbdt.C65_first_partial"
   ],
   "note": "False for [2,1] and [0,1] (C65_refuted, C65_refuted_increasing)."
  },
  {
   "property": "C66",
   "status": "partial",
   "theorems": [
    "Gbdt.C66_refuted",
    "Gbdt.C66_increasing_partial"
   ],
   "note": "False with stale files (C66_refuted); holds for increasing checkpoints within the number of trees."
  },
  {
   "property": "C67",
   "status": "proved",
   "theorems": [
    "Gbdt.C67_best_feature",
    "Gbdt.C67_splits_are_best"
   ],
   "note": ""
  },
  {
   "property": "C68",
   "status": "proved",
   "theorems": [
    "Gbdt.C68_fit_defined"
   ],
   "note": "Samples, weights and gradients are indexed within range; weights are modelled as a function, so a weight vector that is too short is not covered (GetSampleWeightsOrDie builds it from the store)."
  },
  {
   "property": "C69",
   "status": "proved",
   "theorems": [
    "Gbdt.C69_training_defined"
   ],
   "note": ""
  },
  {
   "property": "C70",
   "status": "proved",
   "theorems": [
    "Gbdt.C70_prefix"
   ],
   "note": ""
  },
  {
   "property": "C71",
   "status": "proved",
   "theorems": [
    "Gbdt.C71_warm_start"
   ],
   "note": "Trees without a split end up in the constant of the base forest, so they are not repeated."
  },
  {
   "property": "C72",
   "status": "partial",
   "theorems": [
    "Gbdt.C72_refuted",
    "Gbdt.C72_defined_without_nan_partial"
   ],
   "note": "False: a NaN sampling rate passes the check and is converted to an integer (C72_refuted). Holds for rates that are not NaN."
  },
  {
   "property": "C73",
   "status": "proved",
   "theorems": [
    "Gbdt.C73_rounds",
    "Gbdt.C73_divergence"
   ],
   "note": "Holds for every arithmetic and every loss that keeps its output length."
  },
  {
   "property": "C74",
   "status": "partial",
   "theorems": [
    "Gbdt.C74_formula_partial",
    "Gbdt.C74_base_partial",
    "Gbdt.C74_refuted_small_base",
    "Gbdt.C74_refuted",
    "Gbdt.C74_refuted_always",
    "Gbdt.C74_discount_partial",
    "Gbdt.C74_resize_partial",
    "Gbdt.C74_refuted_short"
   ],
   "note": "False (C74_refuted): the constructor writes beyond the size of a vector. If the writes do no harm the discounts are right: 1 for the first rank, positive, decreasing, for bases above 1 (C74_formula_partial, C74_base_partial). Bases in (0, 1) are accepted and give negative discounts (C74_refuted_small_base)."
  },
  {
   "property": "C75",
   "status": "proved",
   "theorems": [
    "Gbdt.C75_gradients"
   ],
   "note": "Exact arithmetic; rounding of targets, weights to float is kept as a function."
  },
  {
   "property": "C76",
   "status": "proved",
   "theorems": [
    "Gbdt.C76_pointwise_defined",
    "Gbdt.C76_binary_targets"
   ],
   "note": "Law-free: holds for every arithmetic of doubles."
  },
  {
   "property": "C77",
   "status": "proved",
   "theorems": [
    "Gbdt.C77_pointwise",
    "Gbdt.C77_pointwise_warm_start",
    "Gbdt.C77_pairwise"
   ],
   "note": "Pointwise losses for every arithmetic with a strict order; pairwise losses and warm start in exact arithmetic."
  },
  {
   "property": "C78",
   "status": "proved",
   "theorems": [
    "Gbdt.C78_refines",
    "Gbdt.C78_runs"
   ],
   "note": "The generator is one memory cell that is read and then written; a data race on it is taken to give some value of some state of the generator, the mildest outcome (C++ promises nothing). Gradient data of a row is one cell."
  },
  {
   "property": "C79",
   "status": "partial",
   "theorems": [
    "Gbdt.C79_partial",
    "Gbdt.C79_refuted"
   ],
   "note": "False in the last 50 ms of a minute: 59970 ms is rendered as 60.0s (C79_refuted). Proved elsewhere."
  },
  {
   "property": "C80",
   "status": "proved",
   "theorems": [
    "Gbdt.C80_slice",
    "Gbdt.C80_slice_large",
    "Gbdt.C80_bad_index",
    "Gbdt.C80_copy"
   ],
   "note": "Crash condition exact below 60000 rows; for larger slices C80_slice_large."
  },
  {
   "property": "C81",
   "status": "proved",
   "theorems": [
    "Gbdt.C81_from_dict",
    "Gbdt.C81_sound",
    "Gbdt.C81_ragged"
   ],
   "note": ""
  },
  {
   "property": "C82",
   "status": "partial",
   "theorems": [
    "Gbdt.C82_refuted",
    "Gbdt.C82_from_df_partial"
   ],
   "note": "False (C82_refuted): a number column overridden to string is dropped. Proved when no number column is overridden to string and no other column to a number type."
  },
  {
   "property": "C83",
   "status": "partial",
   "theorems": [
    "Gbdt.C83_appends_partial",
    "Gbdt.C83_refuted"
   ],
   "note": "False for a base forest with single-node trees and a non-empty forest on entry (C83_refuted): the constants go to the first tree of the forest given. Proved otherwise."
  },
  {
   "property": "C84",
   "status": "proved",
   "theorems": [
    "Gbdt.C84_no_worse_than_base",
    "Gbdt.C84_more_trees"
   ],
   "note": "Exact arithmetic (any ordered field), every draw below example_sampling_rate, squared error."
  },
  {
   "property": "C85",
   "status": "partial",
   "theorems": [
    "Gbdt.C85_constant_partial",
    "Gbdt.C85_refuted"
   ],
   "note": "False for targets whose mean is below 0.0001 (C85_refuted): the tree is fitted to gradients from before the constant was added. Proved above the threshold, and up to the square of the threshold in general."
  },
  {
   "property": "C86",
   "status": "proved",
   "theorems": [
    "Gbdt.C86_value_error",
    "Gbdt.C86_only_named"
   ],
   "note": "For every store with different names; the second part under the conditions of C87."
  },
  {
   "property": "C87",
   "status": "proved",
   "theorems": [
    "Gbdt.C87_no_crash",
    "Gbdt.C87_trains",
    "Gbdt.C87_from_dict",
    "Gbdt.C87_mse"
   ],
   "note": "Losses that look at one row at a time; columns without numbers above FLT_MAX; a base forest that fits the store. The squared error part is in exact arithmetic."
  },
  {
   "property": "C88",
   "status": "proved",
   "theorems": [
    "Gbdt.C88_same",
    "Gbdt.C88_binarize"
   ],
   "note": "The hash set of features is listed in an order that depends on the set only (the two entry points insert in different orders)."
  },
  {
   "property": "C89",
   "status": "partial",
   "theorems": [
    "Gbdt.C89_partial",
    "Gbdt.C89_refuted_weight",
    "Gbdt.C89_refuted_binarize"
   ],
   "note": "False: Python ignores weight_column and binarize_target (C89_refuted_weight, C89_refuted_binarize). Proved without these two fields."
  },
  {
   "property": "C90",
   "status": "proved",
   "theorems": [
    "Gbdt.C90_constant"
   ],
   "note": "Exact arithmetic; losses that look at one row at a time."
  },
  {
   "property": "C91",
   "status": "partial",
   "theorems": [
    "Gbdt.C91_looking_partial",
    "Gbdt.C91_train_partial",
    "Gbdt.C91_refuted_train",
    "Gbdt.C91_refuted_checkpoints"
   ],
   "note": "False: training with only a target column named, and predict_at_checkpoints, crash (C91_refuted_train, C91_refuted_checkpoints). Proved: exactly when training crashes; everything else is fine."
  },
  {
   "property": "C92",
   "status": "partial",
   "theorems": [
    "Gbdt.C92_exactly_partial",
    "Gbdt.C92_refuted",
    "Gbdt.C92_refuted_erase"
   ],
   "note": "False: column objects do not keep the store alive and dangle after erase, clear and load_tsv (C92_refuted, C92_refuted_erase). Proved: exactly when a column is usable."
  },
  {
   "property": "C93",
   "status": "proved",
   "theorems": [
    "Gbdt.C93_list",
    "Gbdt.C93_to_df",
    "Gbdt.C93_round_trip",
    "Gbdt.C93_round_trip_plain"
   ],
   "note": "The crash of from_df with exactly nb - 1 different numbers (C08) is part of the statement."
  },
  {
   "property": "C94",
   "status": "proved",
   "theorems": [
    "Gbdt.C94_predict",
    "Gbdt.C94_train"
   ],
   "note": "Losses that look at one row at a time; the pairwise losses draw pairs per slice."
  },
  {
   "property": "C95",
   "status": "partial",
   "theorems": [
    "Gbdt.C95_associative_partial",
    "Gbdt.C95_refuted"
   ],
   "note": "False with doubles: seven rows, one thread predicts 0.69, two threads 0 (C95_refuted, computed with IEEE binary64). Proved wherever addition is associative with neutral 0."
  },
  {
   "property": "C96",
   "status": "proved",
   "theorems": [
    "Gbdt.C96_predict",
    "Gbdt.C96_trained",
    "Gbdt.C96_new_data"
   ],
   "note": "For fewer than twice the number of buckets (60000) rows; above that see C97."
  },
  {
   "property": "C97",
   "status": "partial",
   "theorems": [
    "Gbdt.C97_small_partial",
    "Gbdt.C97_large_partial",
    "Gbdt.C97_refuted"
   ],
   "note": "False: among 120000 different numbers one is above the threshold of a split in the batch and below it alone (C97_refuted). Proved for fewer than 60000 rows; for any number of rows the prediction is the forest's value for the row with its numbers rounded up to bucket limits."
  },
  {
   "property": "C98",
   "status": "proved",
   "theorems": [
    "Gbdt.C98_numbers",
    "Gbdt.C98_strings",
    "Gbdt.C98_errors",
    "Gbdt.C98_unused",
    "Gbdt.C98_dict"
   ],
   "note": "Means, standard deviations and drawing are C191. x is sorted by any permutation."
  },
  {
   "property": "C99",
   "status": "proved",
   "theorems": [
    "Gbdt.C99_saving",
    "Gbdt.C99_roundtrip"
   ],
   "note": "JSON is modelled as values (objects, lists, strings, numbers), not as text; printing numbers is an arbitrary exact encoding. The nesting limits are those of protobuf 3.6.1 (WORKSPACE)."
  },
  {
   "property": "C100",
   "status": "partial",
   "theorems": [
    "Gbdt.C100_few_leaves_partial",
    "Gbdt.C100_refuted"
   ],
   "note": "False: 64 leaves can form a chain that is nested 65 deep, which protobuf refuses to write (C100_refuted); str(forest) raises, and the command line aborts after training, losing the model. Proved for num_leaves < 64."
  },
  {
   "property": "C101",
   "status": "proved",
   "theorems": [
    "Gbdt.C101_picture",
    "Gbdt.C101_num_trees",
    "Gbdt.C101_trained"
   ],
   "note": "Graphviz is not modelled: the picture is the list of nodes and edges handed to it. Python's format of numbers is arbitrary and may fail."
  },
  {
   "property": "C102",
   "status": "partial",
   "theorems": [
    "Gbdt.C102_refuted",
    "Gbdt.C102_not_equal_partial",
    "Gbdt.C102_categories",
    "Gbdt.C102_refuted_script"
   ],
   "note": "False for values equal to the threshold: the label says <= but they go right (C102_refuted). draw_trees.py moreover always shows missing values on the right (C102_refuted_script). Proved for other values, missing ones and categories."
  },
  {
   "property": "C103",
   "status": "partial",
   "theorems": [
    "Gbdt.C103_undisturbed_partial",
    "Gbdt.C103_ended",
    "Gbdt.C103_refuted"
   ],
   "note": "False: all generators write to and read from the same files in the same directory (C103_refuted). Proved for generators that are not disturbed by another between their first and last use."
  },
  {
   "property": "C104",
   "status": "proved",
   "theorems": [
    "Gbdt.C104_ignored",
    "Gbdt.C104_zero_weights"
   ],
   "note": "C104_ignored holds for any arithmetic, given that the weight times the gradients are the same. The sums are those of the code, in slices for threads."
  },
  {
   "property": "C105",
   "status": "partial",
   "theorems": [
    "Gbdt.C105_hinge_partial",
    "Gbdt.C105_refuted"
   ],
   "note": "False for logloss: exp overflows, the gradient is inf/inf = NaN and 0 * NaN = NaN (C105_refuted). Proved for huberized_hinge, whose gradients are finite whatever the score."
  },
  {
   "property": "C106",
   "status": "proved",
   "theorems": [
    "Gbdt.C106_row_order"
   ],
   "note": "C106_row_order, over any ordered field and any sampling of features. The hash map of the store must list the names in the same order (hnames), which it does for the same names added in the same order."
  },
  {
   "property": "C107",
   "status": "partial",
   "theorems": [
    "Gbdt.C107_same_order_partial",
    "Gbdt.C107_refuted"
   ],
   "note": "False for strings: categories with equal scores are ordered by their codes, which are given in order of first appearance (C107_refuted). Proved (C107_same_order_partial) if the strings of each column first appear in the same order."
  },
  {
   "property": "C108",
   "status": "proved",
   "theorems": [
    "Gbdt.C108_repeated_rows"
   ],
   "note": "C108_repeated_rows. The bound on the number of rows is twice num_buckets (column.h:46): from there on, buckets depend on how often a value occurs, so weights and copies differ."
  },
  {
   "property": "C109",
   "status": "proved",
   "theorems": [
    "Gbdt.C109_total",
    "Gbdt.C109_no_group"
   ],
   "note": "C109_total, C109_no_group. RoundDraws is what C75_gradients gives for each round."
  },
  {
   "property": "C110",
   "status": "partial",
   "theorems": [
    "Gbdt.C110_starved_partial",
    "Gbdt.C110_refuted"
   ],
   "note": "False: the number is rounded down in each group, so a group with fewer than 2 * (all pairs) / (rate * rows) pairs is never drawn from (C110_starved_partial). Witness: two groups of two rows and rate 1/2: one pair is due, none is drawn (C110_refuted)."
  },
  {
   "property": "C111",
   "status": "partial",
   "theorems": [
    "Gbdt.C111_weights_partial",
    "Gbdt.C111_refuted"
   ],
   "note": "False for the same reason (C111_refuted: groups of one and three pairs, the first weighs nothing). Proved: the weight of a group is below M * p by less than the weight of one of its pairs, where M is the largest number of pairs of a group and p the sampling probability, and never above it (C111_weights_partial)."
  },
  {
   "property": "C112",
   "status": "proved",
   "theorems": [
    "Gbdt.C112_no_crash",
    "Gbdt.C112_trains"
   ],
   "note": "C112_no_crash, C112_trains. LambdaMART is left out: its constructor is undefined behaviour (see C74). The conditions on pairs are needed: without a pair the sampling probability is NaN or infinite (C53)."
  },
  {
   "property": "C113",
   "status": "proved",
   "theorems": [
    "Gbdt.C113_rounds"
   ],
   "note": "C113_rounds. RankRound spells out pairs, weights, gradients and hessians with formulas of its own; RankBoosts is C73's description of boosting with RankRound in place of the loss."
  },
  {
   "property": "C114",
   "status": "proved",
   "theorems": [
    "Gbdt.C114_of",
    "Gbdt.C114_order_only",
    "Gbdt.C114_differences_only",
    "Gbdt.C114_shift"
   ],
   "note": "C114_order_only, C114_differences_only, C114_shift. Assumes of std::sort that it sees the keys only by comparing them (ComparisonSort) and sorts (DescSortSpec). An example shows that gbrank, and the option, do use more than the order."
  },
  {
   "property": "C115",
   "status": "proved",
   "theorems": [
    "Gbdt.C115_forest",
    "Gbdt.C115_predict",
    "Gbdt.C115_predictions",
    "Gbdt.C115_rename",
    "Gbdt.C115_commutes",
    "Gbdt.C115_linear"
   ],
   "note": "C115_forest, C115_predict, C115_predictions; C115_rename, C115_commutes, C115_linear say which maps qualify. Values are assumed below FLT_MAX before and after."
  },
  {
   "property": "C116",
   "status": "partial",
   "theorems": [
    "Gbdt.C116_partial",
    "Gbdt.C116_refuted"
   ],
   "note": "False (C116_refuted): a bin whose gradient sum is zero is left out of the search for splits, so the middle of its neighbours decides where it goes. C116_partial: true if no middle of two values of a feature moves across a value."
  },
  {
   "property": "C117",
   "status": "partial",
   "theorems": [
    "Gbdt.C117_partial",
    "Gbdt.C117_refuted"
   ],
   "note": "False (C117_refuted): missing values are split off by the threshold min - 0.001, an absolute distance. C117_partial: true if the other data have no values below all training values in features with missing training values."
  },
  {
   "property": "C118",
   "status": "proved",
   "theorems": [
    "Gbdt.C118_reading",
    "Gbdt.C118_unique"
   ],
   "note": "C118_reading, C118_unique. Objects that give a field twice are left out: protobuf merges messages given twice, the model of reading takes the last scalar."
  },
  {
   "property": "C119",
   "status": "proved",
   "theorems": [
    "Gbdt.C119_train",
    "Gbdt.C119_test",
    "Gbdt.C119_train_test",
    "Gbdt.C119_from_tsvs",
    "Gbdt.C119_python"
   ],
   "note": "C119_train, C119_test, C119_train_test, C119_from_tsvs, C119_python. Pointwise losses; hypotheses on the files (no bucketing crash, C18, and no infinite cells) are those of the loading theorems."
  },
  {
   "property": "C120",
   "status": "partial",
   "theorems": [
    "Gbdt.C120_refuted",
    "Gbdt.C120_partial"
   ],
   "note": "C120_refuted: the loader also requires the target, weight, group and additional columns of the configuration. C120_partial: with those, testing works."
  },
  {
   "property": "C121",
   "status": "proved",
   "theorems": [
    "Gbdt.C121_load",
    "Gbdt.C121_train",
    "Gbdt.C121_test"
   ],
   "note": "C121_load, C121_train, C121_test. Targets as they are (without binarize_target; Python ignores that field, C89)."
  },
  {
   "property": "C122",
   "status": "proved",
   "theorems": [
    "Gbdt.C122_reading"
   ],
   "note": "C122_reading. protobuf's reader is modelled by the proto3 JSON mapping; the readers of numbers and booleans are arbitrary."
  },
  {
   "property": "C123",
   "status": "proved",
   "theorems": [
    "Gbdt.C123_dict",
    "Gbdt.C123_refused"
   ],
   "note": "C123_dict, C123_refused."
  },
  {
   "property": "C124",
   "status": "partial",
   "theorems": [
    "Gbdt.C124_refuted",
    "Gbdt.C124_refuted_none",
    "Gbdt.C124_partial"
   ],
   "note": "False: C124_refuted (exampleSamplingRate is silently replaced by 1) and C124_refuted_none (example_sampling_rate None is refused, though missing means 1). C124_partial: spelling does not matter for the other fields."
  },
  {
   "property": "C125",
   "status": "proved",
   "theorems": [
    "Gbdt.C125_train",
    "Gbdt.C125_predict",
    "Gbdt.C125_program_train",
    "Gbdt.C125_program_test"
   ],
   "note": "C125_train, C125_predict, C125_program_train, C125_program_test."
  },
  {
   "property": "C126",
   "status": "proved",
   "theorems": [
    "Gbdt.C126_train",
    "Gbdt.C126_store",
    "Gbdt.C126_schedule",
    "Gbdt.C126_test"
   ],
   "note": "C126_train, C126_store, C126_schedule, C126_test. Base forests with features outside the configuration are excluded: their columns would be loaded while scoring, from several threads, which is C61."
  },
  {
   "property": "C127",
   "status": "proved",
   "theorems": [
    "Gbdt.C127_train",
    "Gbdt.C127_test"
   ],
   "note": "C127_train, C127_test. Above 3,000,000 rows the buckets of a TSV column depend on the blocks (Add builds buckets early), so the bound is part of the statement."
  },
  {
   "property": "C128",
   "status": "partial",
   "theorems": [
    "Gbdt.C128_refuted_name",
    "Gbdt.C128_refuted_type",
    "Gbdt.C128_partial",
    "Gbdt.C128_refuted_train",
    "Gbdt.C128_refuted_rows",
    "Gbdt.C128_refuted"
   ],
   "note": "False: C128_refuted, C128_refuted_type (every float feature), C128_refuted_name, C128_refuted_train (no training on such files). Proved for raw float and string columns: C128_partial."
  },
  {
   "property": "C129",
   "status": "partial",
   "theorems": [
    "Gbdt.C129_scores_partial",
    "Gbdt.C129_refuted"
   ],
   "note": "False: C129_refuted. Proved for forests with features: C129_scores_partial."
  },
  {
   "property": "C130",
   "status": "partial",
   "theorems": [
    "Gbdt.C130_equal_rows_partial",
    "Gbdt.C130_test_partial",
    "Gbdt.C130_refuted",
    "Gbdt.C130_refuted_train"
   ],
   "note": "False: C130_refuted, C130_refuted_train. Proved for files without empty columns: C130_equal_rows_partial, C130_test_partial."
  },
  {
   "property": "C131",
   "status": "proved",
   "theorems": [
    "Gbdt.C131_weights"
   ],
   "note": "C131_weights."
  },
  {
   "property": "C132",
   "status": "partial",
   "theorems": [
    "Gbdt.C132_partial",
    "Gbdt.C132_refuted"
   ],
   "note": "False: C132_refuted. With the tolerance multiplied like the weights: C132_partial. With min_gain at least 1e-6: C131."
  },
  {
   "property": "C133",
   "status": "proved",
   "theorems": [
    "Gbdt.C133_signs"
   ],
   "note": "C133_signs; negation_f64 and f64Machine_symmetric show that IEEE doubles meet its hypotheses."
  },
  {
   "property": "C134",
   "status": "partial",
   "theorems": [
    "Gbdt.C134_refuted"
   ],
   "note": "False: C134_refuted. Without string features: C133."
  },
  {
   "property": "C135",
   "status": "partial",
   "theorems": [
    "Gbdt.C135_partial",
    "Gbdt.C135_refuted"
   ],
   "note": "False: C135_refuted. With threshold and tolerance in the unit of the targets: C135_partial."
  },
  {
   "property": "C136",
   "status": "proved",
   "theorems": [
    "Gbdt.C136_once",
    "Gbdt.C136_scores"
   ],
   "note": "C136_once (bags), C136_scores (what the script writes)."
  },
  {
   "property": "C137",
   "status": "proved",
   "theorems": [
    "Gbdt.C137_files",
    "Gbdt.C137_honest"
   ],
   "note": "C137_files (the bag), C137_honest (the scores that are written)."
  },
  {
   "property": "C138",
   "status": "partial",
   "theorems": [
    "Gbdt.C138_refuted_rows",
    "Gbdt.C138_refuted_one",
    "Gbdt.C138_partial",
    "Gbdt.C138_refuted"
   ],
   "note": "False: C138_refuted (a bag without a split), C138_refuted_rows (blank rows: the script always fails), C138_refuted_one (one bag). C138_partial: it succeeds if all score files have enough scores; all bags have the same test points."
  },
  {
   "property": "C139",
   "status": "partial",
   "theorems": [
    "Gbdt.C139_ignored",
    "Gbdt.C139_refuted"
   ],
   "note": "False: C139_refuted; C139_ignored shows that the weight column of the configuration never matters."
  },
  {
   "property": "C140",
   "status": "proved",
   "theorems": [
    "Gbdt.C140_shift"
   ],
   "note": "C140_shift, in exact arithmetic."
  },
  {
   "property": "C141",
   "status": "partial",
   "theorems": [
    "Gbdt.C141_refuted"
   ],
   "note": "False: C141_refuted (mean target 0.00008). What holds is C140."
  },
  {
   "property": "C142",
   "status": "proved",
   "theorems": [
    "Gbdt.C142_dcu"
   ],
   "note": "C142_dcu."
  },
  {
   "property": "C143",
   "status": "proved",
   "theorems": [
    "Gbdt.C143_best",
    "Gbdt.C143_discount"
   ],
   "note": "C143_best for any antitone discount; C143_discount: that of the script is."
  },
  {
   "property": "C144",
   "status": "proved",
   "theorems": [
    "Gbdt.C144_order"
   ],
   "note": "C144_order."
  },
  {
   "property": "C145",
   "status": "partial",
   "theorems": [
    "Gbdt.C145_refuted",
    "Gbdt.C145_prefix_partial",
    "Gbdt.C145_empty"
   ],
   "note": "False: C145_refuted; C145_empty for empty score files. C145_prefix_partial: groups are left out, but none is counted in part."
  },
  {
   "property": "C146",
   "status": "partial",
   "theorems": [
    "Gbdt.C146_count_partial",
    "Gbdt.C146_refuted"
   ],
   "note": "False: C146_refuted. C146_count_partial gives the value rounded down."
  },
  {
   "property": "C147",
   "status": "partial",
   "theorems": [
    "Gbdt.C147_refuted",
    "Gbdt.C147_newline_refuted"
   ],
   "note": "False: C147_refuted, C147_newline_refuted. What holds is C142."
  },
  {
   "property": "C148",
   "status": "proved",
   "theorems": [
    "Gbdt.C148_rmse",
    "Gbdt.C148_printed_first"
   ],
   "note": "C148_rmse; C148_printed_first shows what is printed before the assertion."
  },
  {
   "property": "C149",
   "status": "proved",
   "theorems": [
    "Gbdt.C149_share"
   ],
   "note": "C149_share."
  },
  {
   "property": "C150",
   "status": "partial",
   "theorems": [
    "Gbdt.C150_top_partial",
    "Gbdt.C150_refuted"
   ],
   "note": "False: C150_refuted. C150_top_partial: a frequent number is the maximum of its bucket."
  },
  {
   "property": "C151",
   "status": "partial",
   "theorems": [
    "Gbdt.C151_even_partial",
    "Gbdt.C151_refuted"
   ],
   "note": "False: C151_refuted. C151_even_partial: holds if frequent numbers take fewer than half of the buckets."
  },
  {
   "property": "C152",
   "status": "proved",
   "theorems": [
    "Gbdt.C152_useless"
   ],
   "note": "C152_useless, for the Python entry point."
  },
  {
   "property": "C153",
   "status": "partial",
   "theorems": [
    "Gbdt.C153_partial",
    "Gbdt.C153_refuted"
   ],
   "note": "False: C153_refuted. C153_partial: holds for forests of one tree."
  },
  {
   "property": "C154",
   "status": "partial",
   "theorems": [
    "Gbdt.C154_tree_partial",
    "Gbdt.C154_refuted"
   ],
   "note": "False: C154_refuted. C154_tree_partial: holds for every tree if l2_lambda is at least half of the total weight."
  },
  {
   "property": "C155",
   "status": "proved",
   "theorems": [
    "Gbdt.C155_train",
    "Gbdt.C155_test",
    "Gbdt.C155_inputs",
    "Gbdt.C155_errors"
   ],
   "note": "C155_train, C155_test, C155_errors: the whole of main on a file system of plain files and directories."
  },
  {
   "property": "C156",
   "status": "proved",
   "theorems": [
    "Gbdt.C156_train_test"
   ],
   "note": "C156_train_test: from C119 and C155."
  },
  {
   "property": "C157",
   "status": "partial",
   "theorems": [
    "Gbdt.C157_refuted",
    "Gbdt.C157_weights_partial",
    "Gbdt.C157_tsvs_partial",
    "Gbdt.C157_partial"
   ],
   "note": "False: C157_refuted. C157_partial: the other files are noticed; C157_weights_partial, C157_tsvs_partial: the two flags that have no effect."
  },
  {
   "property": "C158",
   "status": "partial",
   "theorems": [
    "Gbdt.C158_refuted",
    "Gbdt.C158_partial"
   ],
   "note": "False: C158_refuted. C158_partial: if the output directory or its parent exists."
  },
  {
   "property": "C159",
   "status": "partial",
   "theorems": [
    "Gbdt.C159_refuted",
    "Gbdt.C159_partial"
   ],
   "note": "False: C159_refuted. C159_partial: if there were no score files before."
  },
  {
   "property": "C160",
   "status": "proved",
   "theorems": [
    "Gbdt.C160_buckets"
   ],
   "note": "C160_buckets."
  },
  {
   "property": "C161",
   "status": "proved",
   "theorems": [
    "Gbdt.C161_row",
    "Gbdt.C161_no_row",
    "Gbdt.C161_range",
    "Gbdt.C161_list",
    "Gbdt.C161_name"
   ],
   "note": "C161_row, C161_no_row, C161_range, C161_list, C161_name."
  },
  {
   "property": "C162",
   "status": "proved",
   "theorems": [
    "Gbdt.C162_score_files"
   ],
   "note": "C162_score_files."
  },
  {
   "property": "C163",
   "status": "partial",
   "theorems": [
    "Gbdt.C163_shipped_partial",
    "Gbdt.C163_partial",
    "Gbdt.C163_refuted"
   ],
   "note": "False: C163_refuted. C163_shipped_partial: with the configurations that come with it exactly two of the ten files are written. C163_partial: with enough trees all are."
  },
  {
   "property": "C164",
   "status": "partial",
   "theorems": [
    "Gbdt.C164_trains_partial",
    "Gbdt.C164_partial",
    "Gbdt.C164_refuted"
   ],
   "note": "False: C164_refuted. C164_trains_partial: what the command does. C164_partial: with --mode=test."
  },
  {
   "property": "C165",
   "status": "partial",
   "theorems": [
    "Gbdt.C165_refuted",
    "Gbdt.C165_partial"
   ],
   "note": "False: C165_refuted. C165_partial: with a column."
  },
  {
   "property": "C166",
   "status": "proved",
   "theorems": [
    "Gbdt.C166_independent",
    "Gbdt.C166_rate"
   ],
   "note": "C166_independent, C166_rate. The generator is taken as finitely many equally likely values; that std::mt19937 is one is not modelled."
  },
  {
   "property": "C167",
   "status": "proved",
   "theorems": [
    "Gbdt.C167_unbiased",
    "Gbdt.C167_share"
   ],
   "note": "C167_unbiased, C167_share. Exact arithmetic; indices uniform and independent as std::uniform_int_distribution promises; the sharing of the generator by threads is C54."
  },
  {
   "property": "C168",
   "status": "proved",
   "theorems": [
    "Gbdt.C168_same",
    "Gbdt.C168_count",
    "Gbdt.C168_messages"
   ],
   "note": "C168_same (any arithmetic), C168_count, C168_messages (exact arithmetic). How numbers are printed is not modelled here; the times in the log are C194."
  },
  {
   "property": "C169",
   "status": "proved",
   "theorems": [
    "Gbdt.C169_mse"
   ],
   "note": "C169_mse. Exact arithmetic; builds on C84 and C48."
  },
  {
   "property": "C170",
   "status": "partial",
   "theorems": [
    "Gbdt.C170_upper_partial",
    "Gbdt.C170_refuted"
   ],
   "note": "C170_upper_partial: never above 100, and 0 at the start, for losses that are never negative. The full statement is false: C170_refuted."
  },
  {
   "property": "C171",
   "status": "proved",
   "theorems": [
    "Gbdt.C171_same",
    "Gbdt.C171_messages"
   ],
   "note": "C171_same (any arithmetic), C171_messages (exact arithmetic). If no pair is drawn, or the weights of the drawn pairs sum to 0, the code divides 0 by 0 and logs nan; the exact model says 0 there. How numbers are printed is not modelled."
  },
  {
   "property": "C172",
   "status": "partial",
   "theorems": [
    "Gbdt.C172_bounds_partial",
    "Gbdt.C172_refuted"
   ],
   "note": "C172_bounds_partial: between the least and the largest loss of a pair. The full statement is false: C172_refuted."
  },
  {
   "property": "C173",
   "status": "proved",
   "theorems": [
    "Gbdt.C173_one_tree"
   ],
   "note": "C173_one_tree. Exact arithmetic: in doubles sums are rounded, so the value can be off by rounding errors."
  },
  {
   "property": "C174",
   "status": "partial",
   "theorems": [
    "Gbdt.C174_training_rows_partial",
    "Gbdt.C174_refuted"
   ],
   "note": "C174_training_rows_partial for the training rows. The full statement is false: C174_refuted. This is a property of boosting rather than a mistake in the code."
  },
  {
   "property": "C175",
   "status": "partial",
   "theorems": [
    "Gbdt.C175_no_ties_partial",
    "Gbdt.C175_gain_partial",
    "Gbdt.C175_refuted",
    "Gbdt.C175_train_partial"
   ],
   "note": "C175_train_partial (whole training: the same model if there are no ties in any round), C175_no_ties_partial (the same for one tree), C175_gain_partial (the gain is the same always). The full statement is false: C175_refuted."
  },
  {
   "property": "C176",
   "status": "proved",
   "theorems": [
    "Gbdt.C176_column",
    "Gbdt.C176_store",
    "Gbdt.C176_empty"
   ],
   "note": "C176_column, C176_store, C176_empty."
  },
  {
   "property": "C177",
   "status": "partial",
   "theorems": [
    "Gbdt.C177_strings_partial",
    "Gbdt.C177_refuted"
   ],
   "note": "C177_strings_partial (strings without quotation marks). The full statement is false: C177_refuted."
  },
  {
   "property": "C178",
   "status": "proved",
   "theorems": [
    "Gbdt.C178_tree"
   ],
   "note": "C178_tree."
  },
  {
   "property": "C179",
   "status": "partial",
   "theorems": [
    "Gbdt.C179_refuted",
    "Gbdt.C179_first_partial"
   ],
   "note": "C179_first_partial (one tree, no base forest). The full statement is false: C179_refuted."
  },
  {
   "property": "C180",
   "status": "proved",
   "theorems": [
    "Gbdt.C180_refines",
    "Gbdt.C180_rows",
    "Gbdt.C180_error"
   ],
   "note": "C180_refines, C180_rows (any doubles), C180_error (exact arithmetic)."
  },
  {
   "property": "C181",
   "status": "proved",
   "theorems": [
    "Gbdt.C181_gain"
   ],
   "note": "C181_gain: every node, any doubles."
  },
  {
   "property": "C182",
   "status": "partial",
   "theorems": [
    "Gbdt.C182_hessian_partial",
    "Gbdt.C182_refuted"
   ],
   "note": "C182_hessian_partial: if no value has exactly one of its sums zero at a node. The full statement is false: C182_refuted."
  },
  {
   "property": "C183",
   "status": "partial",
   "theorems": [
    "Gbdt.C183_sum_partial",
    "Gbdt.C183_error_partial",
    "Gbdt.C183_refuted"
   ],
   "note": "C183_sum_partial, C183_error_partial: under the same condition. The full statement is false: C183_refuted."
  },
  {
   "property": "C184",
   "status": "partial",
   "theorems": [
    "Gbdt.C184_refuted",
    "Gbdt.C184_file_partial",
    "Gbdt.C184_program_partial",
    "Gbdt.C184_checkpoints_partial",
    "Gbdt.C184_order_partial",
    "Gbdt.C184_close_partial",
    "Gbdt.C184_exact_partial"
   ],
   "note": "C184_refuted: 0.1234567 is read as 0.123457. Proved: C184_file_partial, C184_checkpoints_partial (one number per row, rounded to six digits), C184_order_partial, C184_close_partial, C184_exact_partial. Missing: digits after the sixth."
  },
  {
   "property": "C185",
   "status": "partial",
   "theorems": [
    "Gbdt.C185_three_partial",
    "Gbdt.C185_unicode_partial",
    "Gbdt.C185_refuted_always",
    "Gbdt.C185_refuted"
   ],
   "note": "C185_refuted, C185_refuted_always (Python 2.7, every forest). Proved: C185_three_partial (Python 3), C185_unicode_partial. Missing: str in Python 2.7."
  },
  {
   "property": "C186",
   "status": "proved",
   "theorems": [
    "Gbdt.C186_both_sides",
    "Gbdt.C186_threshold"
   ],
   "note": "Exact rounding to binary32 and binary64 (Spec/Ieee, Spec/Binary32); half the range and no neighbours are needed: C63_refuted, C63_refuted_overflow."
  },
  {
   "property": "C187",
   "status": "proved",
   "theorems": [
    "Gbdt.C187_error",
    "Gbdt.C187_keeps_order",
    "Gbdt.C187_exact",
    "Gbdt.C187_order"
   ],
   "note": "Rounding to nearest of binary64, no overflow because of the limit on the sum."
  },
  {
   "property": "C188",
   "status": "partial",
   "theorems": [
    "Gbdt.C188_metrics_partial",
    "Gbdt.C188_refuted"
   ],
   "note": "C188_refuted (0.5 and 0.50000001). Proved: C188_metrics_partial when no two different predictions of a group are printed alike."
  },
  {
   "property": "C189",
   "status": "proved",
   "theorems": [
    "Gbdt.C189_rmse"
   ],
   "note": "The arithmetic of the script itself is taken to be exact; printing and reading of the scores are as in C184."
  },
  {
   "property": "C190",
   "status": "partial",
   "theorems": [
    "Gbdt.C190_plain_partial",
    "Gbdt.C190_nodes",
    "Gbdt.C190_edges",
    "Gbdt.C190_refuted",
    "Gbdt.C190_refuted_others"
   ],
   "note": "C190_refuted (feature `size \"L\"`), C190_refuted_others (category `don't know`, feature `Gr\u00f6\u00dfe`). Proved: C190_plain_partial for plain names; C190_nodes and C190_edges say what a picture contains."
  },
  {
   "property": "C191",
   "status": "proved",
   "theorems": [
    "Gbdt.C191_bars",
    "Gbdt.C191_base",
    "Gbdt.C191_curve"
   ],
   "note": "numpy's argsort is any function that returns the indices in an order of the values; arithmetic is exact (reals)."
  },
  {
   "property": "C192",
   "status": "partial",
   "theorems": [
    "Gbdt.C192_band_partial",
    "Gbdt.C192_refuted"
   ],
   "note": "C192_refuted (one row of ten outside). Proved: C192_band_partial, by Chebyshev's inequality."
  },
  {
   "property": "C193",
   "status": "partial",
   "theorems": [
    "Gbdt.C193_tells_partial",
    "Gbdt.C193_one_line",
    "Gbdt.C193_refuted"
   ],
   "note": "C193_refuted (weight columns `w'` and `w\"`). Proved: C193_tells_partial without quotation marks, C193_one_line for all. protobuf's printing of numbers is a parameter that loses nothing; its escaping of strings is modelled."
  },
  {
   "property": "C194",
   "status": "partial",
   "theorems": [
    "Gbdt.C194_written_partial",
    "Gbdt.C194_estimate",
    "Gbdt.C194_refuted"
   ],
   "note": "C194_refuted (2147483647 trees, 1.001 s). Proved: C194_written_partial (below 68 years), C194_estimate. Durations are written as in C55."
  },
  {
   "property": "C195",
   "status": "proved",
   "theorems": [
    "Gbdt.C195_chart"
   ],
   "note": "C195_chart, on top of C45. matplotlib draws what it is given."
  },
  {
   "property": "C196",
   "status": "proved",
   "theorems": [
    "Gbdt.C196_power_of_two"
   ],
   "note": "C196_power_of_two: C115 for binary32. Numbers so small that halving loses a bit, or so large that a sum overflows, are left out."
  },
  {
   "property": "C197",
   "status": "proved",
   "theorems": [
    "Gbdt.C197_text",
    "Gbdt.C197_one_line",
    "Gbdt.C197_model_file",
    "Gbdt.C197_forest",
    "Gbdt.C197_different"
   ],
   "note": "C197_text, C197_forest, C197_one_line, C197_different, C197_model_file. The writer of protobuf is modelled after its documentation (no white space, JsonEscaping); the reader is a specification after RFC 8259, taken to agree with protobuf's on such text. This discharges, for these two, the assumption of C156, C162 and C185 that text is read back (C197_model_file)."
  },
  {
   "property": "C198",
   "status": "proved",
   "theorems": [
    "Gbdt.C198_double",
    "Gbdt.C198_float",
    "Gbdt.C198_float_through",
    "Gbdt.C198_eight_digits",
    "Gbdt.C198_forest"
   ],
   "note": "C198_forest; C198_double, C198_float, C198_float_through for numbers. C198_eight_digits: with eight digits, as older versions of protobuf are said to write, two different floats have one text. How protobuf writes numbers (SimpleDtoa, SimpleFtoa) is modelled after its documentation, its source not being in the repository; -0.0 and 0.0 are identified. In C198_forest scores are written like doubles, as in C99; that the text of a float, as scores have it, is read as this float is C198_float_through."
  },
  {
   "property": "C199",
   "status": "partial",
   "theorems": [
    "Gbdt.C199_partial",
    "Gbdt.C199_order_partial",
    "Gbdt.C199_refuted",
    "Gbdt.C199_float_error_partial"
   ],
   "note": "False in full (C199_refuted): the constant of a round is added as a double to the function values and as a float to the constant tree; with targets of mean 2^24 + 4/5 the forest predicts 2^24. C199_partial: if only floats are rounded, predictions are the function values moved by one number, the same for all rows, with a bound from the constants that the loss returned; C199_order_partial: so rows are ranked alike; C199_float_error_partial: binary32 satisfies the hypothesis on rounding (overflow aside). With no rounding at all it is C39."
  },
  {
   "property": "C200",
   "status": "proved",
   "theorems": [
    "Gbdt.C200_order",
    "Gbdt.C200_range",
    "Gbdt.C200_how_many"
   ],
   "note": "C200_order, C200_range in binary64 (Spec/Ieee); C200_how_many in any arithmetic."
  },
  {
   "property": "C201",
   "status": "proved",
   "theorems": [
    "Gbdt.C201_unseen_strings",
    "Gbdt.C201_unseen_missing"
   ],
   "note": "C201_unseen_strings, C201_unseen_missing: for training without a base forest."
  },
  {
   "property": "C202",
   "status": "proved",
   "theorems": [
    "Gbdt.C202_same_target"
   ],
   "note": "C202_same_target. With targets closer to zero than the threshold this is false (C85_refuted)."
  },
  {
   "property": "C203",
   "status": "proved",
   "theorems": [
    "Gbdt.C203_no_partner",
    "Gbdt.C203_no_group_column",
    "Gbdt.C203_leaf"
   ],
   "note": "C203_no_partner, C203_no_group_column, C203_leaf."
  },
  {
   "property": "C204",
   "status": "proved",
   "theorems": [
    "Gbdt.C204_within_groups",
    "Gbdt.C204_base_constant"
   ],
   "note": "C204_within_groups, C204_base_constant."
  },
  {
   "property": "C205",
   "status": "partial",
   "theorems": [
    "Gbdt.C205_slope",
    "Gbdt.C205_descent_partial",
    "Gbdt.C205_refuted"
   ],
   "note": "C205_slope (gradients are the slope of the loss of the drawn pairs, any weights); C205_descent_partial for rows of weight 1. False with other weights: C205_refuted, where every pair the tree can tell apart is ranked worse, because row weights count twice."
  },
  {
   "property": "C206",
   "status": "proved",
   "theorems": [
    "Gbdt.C206_fall",
    "Gbdt.C206_train",
    "Gbdt.C206_losses"
   ],
   "note": "C206_fall for any loss below parabolas, C206_train for every round of training, C206_losses for the four losses over the reals."
  },
  {
   "property": "C207",
   "status": "partial",
   "theorems": [
    "Gbdt.C207_fall_partial",
    "Gbdt.C207_refuted"
   ],
   "note": "C207_fall_partial needs l2_lambda of at least twice the weight of the pairs; C207_refuted: with l2_lambda 1 the loss of four pairs goes from 1 to 13/9."
  },
  {
   "property": "C208",
   "status": "proved",
   "theorems": [
    "Gbdt.C208_cube"
   ],
   "note": "C208_cube: the two runs are related step by step, as in C131; the gradients of rows grow by k*k, their sums in trees by k*k*k."
  },
  {
   "property": "C209",
   "status": "partial",
   "theorems": [
    "Gbdt.C209_partial",
    "Gbdt.C209_refuted"
   ],
   "note": "C209_partial is for runs without limits (l2_lambda, min_hessian, min_gain and tolerance 0); C209_refuted: weights and limits doubled on five rows give other values."
  }
 ]
}