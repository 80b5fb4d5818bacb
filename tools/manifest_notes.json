{
 "C01": ["proved", ""],
 "C02": ["proved", ""],
 "C03": ["proved", ""],
 "C04": ["proved", ""],
 "C05": ["proved", ""],
 "C06": ["proved", "Bound 2*num_buckets+1, shown to be reached."],
 "C07": ["proved", ""],
 "C08": ["partial", "False as stated (C08_refuted, C08_distinct_values_crash). The crash condition is characterized exactly by C08_crash_iff_partial."],
 "C09": ["proved", ""],
 "C10": ["proved", ""],
 "C11": ["proved", ""],
 "C12": ["proved", ""],
 "C13": ["proved", ""],
 "C14": ["partial", "False for ALREADY_EXISTS (C14_refuted, C14_duplicate_silently_ignored) and ABORTED; proved for all other codes."],
 "C15": ["proved", ""],
 "C16": ["proved", ""],
 "C17": ["proved", "strtof is an arbitrary function; the thread pool is abstracted to any completion order (C23)."],
 "C18": ["partial", "False (C18_refuted): two requests of one name write through a pointer to a destroyed column. Proved for distinct names."],
 "C19": ["proved", ""],
 "C20": ["proved", ""],
 "C21": ["proved", ""],
 "C22": ["proved", "The Mersenne twister is an arbitrary stream of draws."],
 "C23": ["proved", "Needs at least one thread (C23_no_threads shows what happens otherwise)."],
 "C24": ["proved", "Fairness enters only as: steps keep being taken; the bound is in the number of spurious wake-ups."],
 "C25": ["proved", "Tasks are programs of single memory accesses run by the modelled pool; memory is sequentially consistent, which the absence of data races justifies. A slice is one cell (read once, written back once). Pairwise gradients share the generator and are C54."],
 "C26": ["proved", ""],
 "C27": ["proved", ""],
 "C28": ["proved", "NaN provisos are in the theorem statements."],
 "C29": ["partial", "Exact arithmetic, no bin with exactly one of its sums zero. False otherwise: cancelling gradients drop a bin from the scan (C29_refuted)."],
 "C30": ["partial", "Exact arithmetic, no bin with exactly one of its sums zero. False otherwise (C30_refuted)."],
 "C31": ["partial", "Proved for l2_lambda = 0. False for l2_lambda > 0 (C31_refuted)."],
 "C32": ["proved", "In any arithmetic of the sums; for floats, thresholds must separate buckets (binary32: C63)."],
 "C33": ["proved", ""],
 "C34": ["proved", ""],
 "C35": ["proved", ""],
 "C36": ["proved", "Stated between the trees for n and n+1 leaves: growth is a sequence of such steps."],
 "C37": ["proved", "Law-free: in any arithmetic the score is the sum in tree order; exact version included."],
 "C38": ["proved", ""],
 "C39": ["proved", "Equality with predictions in exact arithmetic; C39_function_values says in any arithmetic what is added up in which order."],
 "C40": ["proved", ""],
 "C41": ["proved", ""],
 "C42": ["proved", ""],
 "C43": ["proved", "Files hold the scores before they are printed; their text is the subject of C184."],
 "C44": ["proved", ""],
 "C45": ["proved", "Normalisation in exact arithmetic and for positive gains; the ranking in any arithmetic."],
 "C46": ["proved", ""],
 "C47": ["proved", "Over the reals, with the exponential and logarithm of Mathlib; squared hinge (gbrank) included."],
 "C48": ["proved", "Exact arithmetic in any linearly ordered field, for any loss function."],
 "C49": ["proved", "For every sort implementation and arithmetic in which comparison is a strict order with NaN apart; targets must not be NaN (std::sort is undefined otherwise)."],
 "C50": ["proved", "For every sort implementation; function values must not be NaN."],
 "C51": ["proved", "Cancellation and sign in exact arithmetic, the frame for every arithmetic; for every state the loss can reach."],
 "C52": ["proved", "Exact arithmetic, any discount function."],
 "C53": ["partial", "False in three ways: no group with two different targets (C53_refuted, C53_refuted_no_pairs), a missing group (C53_refuted_missing), a NaN target (C53_refuted_nan_target). Otherwise defined (C53_init_partial, C53_compute_partial, C53_exact_partial)."],
 "C54": ["partial", "Proved for one thread (all schedules, whole memory). False for several threads: the tasks share Subsampling::generator_ without a lock, so two schedules give different gradients (C54_refuted), and the accesses are a data race (C54_refuted_race), which is undefined behaviour in C++."],
 "C55": ["proved", "Arithmetic on doubles is exact; {:.1f} is any rounding to a nearest tenth. Negative durations (the clock is system_clock) are printed as negative milliseconds, and are undefined behaviour below -2^31 ms."],
 "C56": ["proved", "For columns as the loaders build them."],
 "C57": ["partial", "False: refuted three ways (containment, order, minima). What does hold (containment and minima in columns of at most 100*num_buckets rows) is C57_small_column_partial."],
 "C58": ["partial", "False for Add after Finalize (C58_string_refuted, C58_raw_refuted); a second Finalize of a string column behaves as stated."],
 "C59": ["partial", "False (C59_refuted). Proved when the first column has rows and nothing is removed (C59_first_has_rows_partial), or when no column is empty (C12)."],
 "C60": ["partial", "False (C60_refuted): a data line starting with '#' is dropped."],
 "C61": ["partial", "False (C61_refuted): two concurrent first requests of one name; the second insertion destroys the column the first returned."],
 "C62": ["proved", ""],
 "C63": ["partial", "False: 16777216 and 16777218 (C63_refuted), and sums that overflow (C63_refuted_overflow, in binary32 itself). Proved when the rounded midpoints separate the buckets; C186 shows that they do for floats in half the range that are not neighbours."],
 "C64": ["partial", "False for a column of another type and for an inner node without split (C64_refuted, C64_refuted_no_split); a missing feature is reported (C64_missing_feature_partial)."],
 "C65": ["partial", "False for [2,1] and [0,1] (C65_refuted, C65_refuted_increasing)."],
 "C66": ["partial", "False with stale files (C66_refuted); holds for increasing checkpoints within the number of trees."],
 "C67": ["proved", ""],
 "C68": ["proved", "Samples, weights and gradients are indexed within range; weights are modelled as a function, so a weight vector that is too short is not covered (GetSampleWeightsOrDie builds it from the store)."],
 "C69": ["proved", ""],
 "C70": ["proved", ""],
 "C71": ["proved", "Trees without a split end up in the constant of the base forest, so they are not repeated."],
 "C72": ["partial", "False: a NaN sampling rate passes the check and is converted to an integer (C72_refuted). Holds for rates that are not NaN."],
 "C73": ["proved", "Holds for every arithmetic and every loss that keeps its output length."],
 "C74": ["partial", "False (C74_refuted): the constructor writes beyond the size of a vector. If the writes do no harm the discounts are right: 1 for the first rank, positive, decreasing, for bases above 1 (C74_formula_partial, C74_base_partial). Bases in (0, 1) are accepted and give negative discounts (C74_refuted_small_base)."],
 "C75": ["proved", "Exact arithmetic; rounding of targets, weights to float is kept as a function."],
 "C76": ["proved", "Law-free: holds for every arithmetic of doubles."],
 "C77": ["proved", "Pointwise losses for every arithmetic with a strict order; pairwise losses and warm start in exact arithmetic."],
 "C78": ["proved", "The generator is one memory cell that is read and then written; a data race on it is taken to give some value of some state of the generator, the mildest outcome (C++ promises nothing). Gradient data of a row is one cell."],
 "C79": ["partial", "False in the last 50 ms of a minute: 59970 ms is rendered as 60.0s (C79_refuted). Proved elsewhere."],
 "C80": ["proved", "Crash condition exact below 60000 rows; for larger slices C80_slice_large."],
 "C81": ["proved", ""],
 "C82": ["partial", "False (C82_refuted): a number column overridden to string is dropped. Proved when no number column is overridden to string and no other column to a number type."],
 "C83": ["partial", "False for a base forest with single-node trees and a non-empty forest on entry (C83_refuted): the constants go to the first tree of the forest given. Proved otherwise."],
 "C84": ["proved", "Exact arithmetic (any ordered field), every draw below example_sampling_rate, squared error."],
 "C85": ["partial", "False for targets whose mean is below 0.0001 (C85_refuted): the tree is fitted to gradients from before the constant was added. Proved above the threshold, and up to the square of the threshold in general."],
 "C86": ["proved", "For every store with different names; the second part under the conditions of C87."],
 "C87": ["proved", "Losses that look at one row at a time; columns without numbers above FLT_MAX; a base forest that fits the store. The squared error part is in exact arithmetic."],
 "C88": ["proved", "The hash set of features is listed in an order that depends on the set only (the two entry points insert in different orders)."],
 "C89": ["partial", "False: Python ignores weight_column and binarize_target (C89_refuted_weight, C89_refuted_binarize). Proved without these two fields."],
 "C90": ["proved", "Exact arithmetic; losses that look at one row at a time."],
 "C91": ["partial", "False: training with only a target column named, and predict_at_checkpoints, crash (C91_refuted_train, C91_refuted_checkpoints). Proved: exactly when training crashes; everything else is fine."],
 "C92": ["partial", "False: column objects do not keep the store alive and dangle after erase, clear and load_tsv (C92_refuted, C92_refuted_erase). Proved: exactly when a column is usable."],
 "C93": ["proved", "The crash of from_df with exactly nb - 1 different numbers (C08) is part of the statement."],
 "C94": ["proved", "Losses that look at one row at a time; the pairwise losses draw pairs per slice."],
 "C95": ["partial", "False with doubles: seven rows, one thread predicts 0.69, two threads 0 (C95_refuted, computed with IEEE binary64). Proved wherever addition is associative with neutral 0."],
 "C96": ["proved", "For fewer than twice the number of buckets (60000) rows; above that see C97."],
 "C97": ["partial", "False: among 120000 different numbers one is above the threshold of a split in the batch and below it alone (C97_refuted). Proved for fewer than 60000 rows; for any number of rows the prediction is the forest's value for the row with its numbers rounded up to bucket limits."],
 "C98": ["proved", "Means, standard deviations and drawing are C191. x is sorted by any permutation."],
 "C99": ["proved", "JSON is modelled as values (objects, lists, strings, numbers), not as text; printing numbers is an arbitrary exact encoding. The nesting limits are those of protobuf 3.6.1 (WORKSPACE)."],
 "C100": ["partial", "False: 64 leaves can form a chain that is nested 65 deep, which protobuf refuses to write (C100_refuted); str(forest) raises, and the command line aborts after training, losing the model. Proved for num_leaves < 64."],
 "C101": ["proved", "Graphviz is not modelled: the picture is the list of nodes and edges handed to it. Python's format of numbers is arbitrary and may fail."],
 "C102": ["partial", "False for values equal to the threshold: the label says <= but they go right (C102_refuted). draw_trees.py moreover always shows missing values on the right (C102_refuted_script). Proved for other values, missing ones and categories."],
 "C103": ["partial", "False: all generators write to and read from the same files in the same directory (C103_refuted). Proved for generators that are not disturbed by another between their first and last use."],
 "C104": ["proved", "C104_ignored holds for any arithmetic, given that the weight times the gradients are the same. The sums are those of the code, in slices for threads."],
 "C105": ["partial", "False for logloss: exp overflows, the gradient is inf/inf = NaN and 0 * NaN = NaN (C105_refuted). Proved for huberized_hinge, whose gradients are finite whatever the score."],
 "C106": ["proved", "C106_row_order, over any ordered field and any sampling of features. The hash map of the store must list the names in the same order (hnames), which it does for the same names added in the same order."],
 "C107": ["partial", "False for strings: categories with equal scores are ordered by their codes, which are given in order of first appearance (C107_refuted). Proved (C107_same_order_partial) if the strings of each column first appear in the same order."],
 "C108": ["proved", "C108_repeated_rows. The bound on the number of rows is twice num_buckets (column.h:46): from there on, buckets depend on how often a value occurs, so weights and copies differ."],
 "C109": ["proved", "C109_total, C109_no_group. RoundDraws is what C75_gradients gives for each round."],
 "C110": ["partial", "False: the number is rounded down in each group, so a group with fewer than 2 * (all pairs) / (rate * rows) pairs is never drawn from (C110_starved_partial). Witness: two groups of two rows and rate 1/2: one pair is due, none is drawn (C110_refuted)."],
 "C111": ["partial", "False for the same reason (C111_refuted: groups of one and three pairs, the first weighs nothing). Proved: the weight of a group is below M * p by less than the weight of one of its pairs, where M is the largest number of pairs of a group and p the sampling probability, and never above it (C111_weights_partial)."],
 "C112": ["proved", "C112_no_crash, C112_trains. LambdaMART is left out: its constructor is undefined behaviour (see C74). The conditions on pairs are needed: without a pair the sampling probability is NaN or infinite (C53)."],
 "C113": ["proved", "C113_rounds. RankRound spells out pairs, weights, gradients and hessians with formulas of its own; RankBoosts is C73's description of boosting with RankRound in place of the loss."],
 "C114": ["proved", "C114_order_only, C114_differences_only, C114_shift. Assumes of std::sort that it sees the keys only by comparing them (ComparisonSort) and sorts (DescSortSpec). An example shows that gbrank, and the option, do use more than the order."],
 "C115": ["proved", "C115_forest, C115_predict, C115_predictions; C115_rename, C115_commutes, C115_linear say which maps qualify. Values are assumed below FLT_MAX before and after."],
 "C116": ["partial", "False (C116_refuted): a bin whose gradient sum is zero is left out of the search for splits, so the middle of its neighbours decides where it goes. C116_partial: true if no middle of two values of a feature moves across a value."],
 "C117": ["partial", "False (C117_refuted): missing values are split off by the threshold min - 0.001, an absolute distance. C117_partial: true if the other data have no values below all training values in features with missing training values."],
 "C118": ["proved", "C118_reading, C118_unique. Objects that give a field twice are left out: protobuf merges messages given twice, the model of reading takes the last scalar."],
 "C119": ["proved", "C119_train, C119_test, C119_train_test, C119_from_tsvs, C119_python. Pointwise losses; hypotheses on the files (no bucketing crash, C18, and no infinite cells) are those of the loading theorems."],
 "C120": ["partial", "C120_refuted: the loader also requires the target, weight, group and additional columns of the configuration. C120_partial: with those, testing works."],
 "C121": ["proved", "C121_load, C121_train, C121_test. Targets as they are (without binarize_target; Python ignores that field, C89)."],
 "C122": ["proved", "C122_reading. protobuf's reader is modelled by the proto3 JSON mapping; the readers of numbers and booleans are arbitrary."],
 "C123": ["proved", "C123_dict, C123_refused."],
 "C124": ["partial", "False: C124_refuted (exampleSamplingRate is silently replaced by 1) and C124_refuted_none (example_sampling_rate None is refused, though missing means 1). C124_partial: spelling does not matter for the other fields."],
 "C125": ["proved", "C125_train, C125_predict, C125_program_train, C125_program_test."],
 "C126": ["proved", "C126_train, C126_store, C126_schedule, C126_test. Base forests with features outside the configuration are excluded: their columns would be loaded while scoring, from several threads, which is C61."],
 "C127": ["proved", "C127_train, C127_test. Above 3,000,000 rows the buckets of a TSV column depend on the blocks (Add builds buckets early), so the bound is part of the statement."],
 "C128": ["partial", "False: C128_refuted, C128_refuted_type (every float feature), C128_refuted_name, C128_refuted_train (no training on such files). Proved for raw float and string columns: C128_partial."],
 "C129": ["partial", "False: C129_refuted. Proved for forests with features: C129_scores_partial."],
 "C130": ["partial", "False: C130_refuted, C130_refuted_train. Proved for files without empty columns: C130_equal_rows_partial, C130_test_partial."],
 "C131": ["proved", "C131_weights."],
 "C132": ["partial", "False: C132_refuted. With the tolerance multiplied like the weights: C132_partial. With min_gain at least 1e-6: C131."],
 "C133": ["proved", "C133_signs; negation_f64 and f64Machine_symmetric show that IEEE doubles meet its hypotheses."],
 "C134": ["partial", "False: C134_refuted. Without string features: C133."],
 "C135": ["partial", "False: C135_refuted. With threshold and tolerance in the unit of the targets: C135_partial."],
 "C136": ["proved", "C136_once (bags), C136_scores (what the script writes)."],
 "C137": ["proved", "C137_files (the bag), C137_honest (the scores that are written)."],
 "C138": ["partial", "False: C138_refuted (a bag without a split), C138_refuted_rows (blank rows: the script always fails), C138_refuted_one (one bag). C138_partial: it succeeds if all score files have enough scores; all bags have the same test points."],
 "C139": ["partial", "False: C139_refuted; C139_ignored shows that the weight column of the configuration never matters."],
 "C140": ["proved", "C140_shift, in exact arithmetic."],
 "C141": ["partial", "False: C141_refuted (mean target 0.00008). What holds is C140."],
 "C142": ["proved", "C142_dcu."],
 "C143": ["proved", "C143_best for any antitone discount; C143_discount: that of the script is."],
 "C144": ["proved", "C144_order."],
 "C145": ["partial", "False: C145_refuted; C145_empty for empty score files. C145_prefix_partial: groups are left out, but none is counted in part."],
 "C146": ["partial", "False: C146_refuted. C146_count_partial gives the value rounded down."],
 "C147": ["partial", "False: C147_refuted, C147_newline_refuted. What holds is C142."],
 "C148": ["proved", "C148_rmse; C148_printed_first shows what is printed before the assertion."],
 "C149": ["proved", "C149_share."],
 "C150": ["partial", "False: C150_refuted. C150_top_partial: a frequent number is the maximum of its bucket."],
 "C151": ["partial", "False: C151_refuted. C151_even_partial: holds if frequent numbers take fewer than half of the buckets."],
 "C152": ["proved", "C152_useless, for the Python entry point."],
 "C153": ["partial", "False: C153_refuted. C153_partial: holds for forests of one tree."],
 "C154": ["partial", "False: C154_refuted. C154_tree_partial: holds for every tree if l2_lambda is at least half of the total weight."],
 "C155": ["proved", "C155_train, C155_test, C155_errors: the whole of main on a file system of plain files and directories."],
 "C156": ["proved", "C156_train_test: from C119 and C155."],
 "C157": ["partial", "False: C157_refuted. C157_partial: the other files are noticed; C157_weights_partial, C157_tsvs_partial: the two flags that have no effect."],
 "C158": ["partial", "False: C158_refuted. C158_partial: if the output directory or its parent exists."],
 "C159": ["partial", "False: C159_refuted. C159_partial: if there were no score files before."],
 "C160": ["proved", "C160_buckets."],
 "C161": ["proved", "C161_row, C161_no_row, C161_range, C161_list, C161_name."],
 "C162": ["proved", "C162_score_files."],
 "C163": ["partial", "False: C163_refuted. C163_shipped_partial: with the configurations that come with it exactly two of the ten files are written. C163_partial: with enough trees all are."],
 "C164": ["partial", "False: C164_refuted. C164_trains_partial: what the command does. C164_partial: with --mode=test."],
 "C165": ["partial", "False: C165_refuted. C165_partial: with a column."],
 "C166": ["proved", "C166_independent, C166_rate. The generator is taken as finitely many equally likely values; that std::mt19937 is one is not modelled."],
 "C167": ["proved", "C167_unbiased, C167_share. Exact arithmetic; indices uniform and independent as std::uniform_int_distribution promises; the sharing of the generator by threads is C54."],
 "C168": ["proved", "C168_same (any arithmetic), C168_count, C168_messages (exact arithmetic). How numbers are printed is not modelled here; the times in the log are C194."],
 "C169": ["proved", "C169_mse. Exact arithmetic; builds on C84 and C48."],
 "C170": ["partial", "C170_upper_partial: never above 100, and 0 at the start, for losses that are never negative. The full statement is false: C170_refuted."],
 "C171": ["proved", "C171_same (any arithmetic), C171_messages (exact arithmetic). If no pair is drawn, or the weights of the drawn pairs sum to 0, the code divides 0 by 0 and logs nan; the exact model says 0 there. How numbers are printed is not modelled."],
 "C172": ["partial", "C172_bounds_partial: between the least and the largest loss of a pair. The full statement is false: C172_refuted."],
 "C173": ["proved", "C173_one_tree. Exact arithmetic: in doubles sums are rounded, so the value can be off by rounding errors."],
 "C174": ["partial", "C174_training_rows_partial for the training rows. The full statement is false: C174_refuted. This is a property of boosting rather than a mistake in the code."],
 "C175": ["partial", "C175_train_partial (whole training: the same model if there are no ties in any round), C175_no_ties_partial (the same for one tree), C175_gain_partial (the gain is the same always). The full statement is false: C175_refuted."],
 "C176": ["proved", "C176_column, C176_store, C176_empty."],
 "C177": ["partial", "C177_strings_partial (strings without quotation marks). The full statement is false: C177_refuted."],
 "C178": ["proved", "C178_tree."],
 "C179": ["partial", "C179_first_partial (one tree, no base forest). The full statement is false: C179_refuted."],
 "C180": ["proved", "C180_refines, C180_rows (any doubles), C180_error (exact arithmetic)."],
 "C181": ["proved", "C181_gain: every node, any doubles."],
 "C182": ["partial", "C182_hessian_partial: if no value has exactly one of its sums zero at a node. The full statement is false: C182_refuted."],
 "C183": ["partial", "C183_sum_partial, C183_error_partial: under the same condition. The full statement is false: C183_refuted."],
 "C184": ["partial", "C184_refuted: 0.1234567 is read as 0.123457. Proved: C184_file_partial, C184_checkpoints_partial (one number per row, rounded to six digits), C184_order_partial, C184_close_partial, C184_exact_partial. Missing: digits after the sixth."],
 "C185": ["partial", "C185_refuted, C185_refuted_always (Python 2.7, every forest). Proved: C185_three_partial (Python 3), C185_unicode_partial. Missing: str in Python 2.7."],
 "C186": ["proved", "Exact rounding to binary32 and binary64 (Spec/Ieee, Spec/Binary32); half the range and no neighbours are needed: C63_refuted, C63_refuted_overflow."],
 "C187": ["proved", "Rounding to nearest of binary64, no overflow because of the limit on the sum."],
 "C188": ["partial", "C188_refuted (0.5 and 0.50000001). Proved: C188_metrics_partial when no two different predictions of a group are printed alike."],
 "C189": ["proved", "The arithmetic of the script itself is taken to be exact; printing and reading of the scores are as in C184."],
 "C190": ["partial", "C190_refuted (feature `size \"L\"`), C190_refuted_others (category `don't know`, feature `Größe`). Proved: C190_plain_partial for plain names; C190_nodes and C190_edges say what a picture contains."],
 "C191": ["proved", "numpy's argsort is any function that returns the indices in an order of the values; arithmetic is exact (reals)."],
 "C192": ["partial", "C192_refuted (one row of ten outside). Proved: C192_band_partial, by Chebyshev's inequality."],
 "C194": ["partial", "C194_refuted (2147483647 trees, 1.001 s). Proved: C194_written_partial (below 68 years), C194_estimate. Durations are written as in C55."],
 "C195": ["proved", "C195_chart, on top of C45. matplotlib draws what it is given."],
 "C193": ["partial", "C193_refuted (weight columns `w'` and `w\"`). Proved: C193_tells_partial without quotation marks, C193_one_line for all. protobuf's printing of numbers is a parameter that loses nothing; its escaping of strings is modelled."],
 "C196": ["proved", "C196_power_of_two: C115 for binary32. Numbers so small that halving loses a bit, or so large that a sum overflows, are left out."],
 "C197": ["proved", "C197_text, C197_forest, C197_one_line, C197_different, C197_model_file. The writer of protobuf is modelled after its documentation (no white space, JsonEscaping); the reader is a specification after RFC 8259, taken to agree with protobuf's on such text. This discharges, for these two, the assumption of C156, C162 and C185 that text is read back (C197_model_file)."],
 "C198": ["proved", "C198_forest; C198_double, C198_float, C198_float_through for numbers. C198_eight_digits: with eight digits, as older versions of protobuf are said to write, two different floats have one text. How protobuf writes numbers (SimpleDtoa, SimpleFtoa) is modelled after its documentation, its source not being in the repository; -0.0 and 0.0 are identified. In C198_forest scores are written like doubles, as in C99; that the text of a float, as scores have it, is read as this float is C198_float_through."],
 "C199": ["partial", "False in full (C199_refuted): the constant of a round is added as a double to the function values and as a float to the constant tree; with targets of mean 2^24 + 4/5 the forest predicts 2^24. C199_partial: if only floats are rounded, predictions are the function values moved by one number, the same for all rows, with a bound from the constants that the loss returned; C199_order_partial: so rows are ranked alike; C199_float_error_partial: binary32 satisfies the hypothesis on rounding (overflow aside). With no rounding at all it is C39."],
 "C200": ["proved", "C200_order, C200_range in binary64 (Spec/Ieee); C200_how_many in any arithmetic."],
 "C201": ["proved", "C201_unseen_strings, C201_unseen_missing: for training without a base forest."],
 "C202": ["proved", "C202_same_target. With targets closer to zero than the threshold this is false (C85_refuted)."],
 "C203": ["proved", "C203_no_partner, C203_no_group_column, C203_leaf."],
 "C204": ["proved", "C204_within_groups, C204_base_constant."],
 "C205": ["partial", "C205_slope (gradients are the slope of the loss of the drawn pairs, any weights); C205_descent_partial for rows of weight 1. False with other weights: C205_refuted, where every pair the tree can tell apart is ranked worse, because row weights count twice."],
 "C206": ["proved", "C206_fall for any loss below parabolas, C206_train for every round of training, C206_losses for the four losses over the reals."],
 "C207": ["partial", "C207_fall_partial needs l2_lambda of at least twice the weight of the pairs; C207_refuted: with l2_lambda 1 the loss of four pairs goes from 1 to 13/9."],
 "C208": ["proved", "C208_cube: the two runs are related step by step, as in C131; the gradients of rows grow by k*k, their sums in trees by k*k*k."],
 "C209": ["partial", "C209_partial is for runs without limits (l2_lambda, min_hessian, min_gain and tolerance 0); C209_refuted: weights and limits doubled on five rows give other values."]
}
