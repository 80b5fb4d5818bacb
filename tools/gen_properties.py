#!/usr/bin/env python3
"""Writes /verif/properties.jsonl.  The property list is kept here so that it is easy to edit."""
import json, os
P = []
def p(id, title, statement, quantifier, why, anchors):
    P.append(dict(id=id, title=title, statement=statement, quantifier=quantifier, why_tests_cant=why, anchors=anchors))

# ---------------------------------------------------------------- columns
p("C01", "A string column gives back every string, at any storage width",
  "If a string column is fed any sequence of blocks of strings and then finalized, its size is the total number of strings fed and the string reported for row i is the i-th string fed. This holds whether the column ends up stored in 8, 16 or 32 bits per row.",
  "all lists of blocks of strings (fewer than 2^32 - 1 strings in all); all rows",
  "The width switches at 256 and 65536 distinct values and depends on the whole history of Adds; tests sample a handful of values and never reach the boundaries from both sides.",
  ["src/data_store/column.cc: StringColumn::Add, StringColumn::Finalize, IntegerizedColumn::Finalize, ConvertIntVector, get_row_string", "src/data_store/column.h: StringColumn, IntegerizedColumn"])
p("C02", "String codes are canonical",
  "In a string column two rows have the same code exactly when they hold the same string; code 0 means exactly the string '__missing__'; codes are below max_int and max_int is one more than the number of distinct non-missing strings; looking up the code of a category name inverts reading the name of a code, and an unseen name has no code. The coding does not depend on how rows were cut into blocks.",
  "all lists of blocks (fewer than 2^32 - 1 strings in all); all pairs of rows; all candidate category names",
  "A statement about all pairs of rows and all names never added; tests check one small fixed column.",
  ["src/data_store/column.cc: StringColumn::Add", "src/data_store/column.h: StringColumn::get_cat_index, get_cat_string, max_int, missing"])
p("C03", "Missing floats and only missing floats have code 0",
  "In a finalized bucketized float column a row is reported missing exactly when the value fed for that row was NaN, and the number of rows equals the number of values fed, whether or not the column was bucketized in the middle of the feeding.",
  "all num_buckets, all lists of float blocks for which feeding does not crash, all rows",
  "Whether bucketing happens early depends on total length against 100*num_buckets (3,000,000 rows by default), far beyond test sizes.",
  ["src/data_store/column.cc: BucketizedFloatColumn::Add, Finalize, BuildBuckets, AddBucketizedVec"])
p("C04", "Every row lies inside the bucket it is reported in",
  "For every row of a finalized bucketized float column holding a finite number v (or -inf), the reported row minimum and maximum satisfy min <= v <= max.",
  "all num_buckets, all lists of float blocks (including values arriving after the buckets are fixed), all rows",
  "Needs an invariant over arbitrary histories and value distributions; infinities are the corner that random tests do not draw.",
  ["src/data_store/column.cc: AddBucketizedVecHelper, BuildBuckets", "src/data_store/column.h: get_row_min, get_row_max"])
p("C05", "Bucket codes preserve order",
  "If rows i and j of a bucketized column hold numbers v <= w, neither being +inf, then code(i) <= code(j); if code(i) < code(j) then the bucket of i ends strictly below where the bucket of j starts.",
  "all num_buckets, all histories, all pairs of rows",
  "Pairs of rows over all distributions; relies on the sort in the middle of bucket construction and on the sentinel FLT_MAX bucket.",
  ["src/data_store/column.cc: BuildBuckets, AddBucketizedVecHelper"])
p("C06", "The number of buckets is at most twice the request",
  "However the values are distributed, the number of buckets of a finalized column (including the missing bucket and the overflow bucket) is at most 2*num_buckets+1, so a column built with the default 30000 always fits in 16 bits. (The comment in the header promises num_buckets+1, which is not true.)",
  "all num_buckets >= 1 and all histories for which bucketing does not crash",
  "The worst case is an adversarial histogram; tests use a few dozen values.",
  ["src/data_store/column.cc: BuildBuckets, UniformBinning", "src/data_store/column.h: max_int"])
p("C07", "Few values are stored exactly",
  "If a column is fed n < 2*num_buckets values in total, then each non-missing row's minimum and maximum are both exactly the value fed, so bucketizing loses nothing.",
  "all num_buckets >= 1, all lists of at most 2*num_buckets-1 floats including infinities for which bucketing does not crash; all rows",
  "Ranges over all value multisets; tests check one fixed list.",
  ["src/data_store/column.cc: BuildBuckets"])
p("C08", "Bucketizing never crashes",
  "Feeding any floats to a bucketized column and finalizing it always completes (no division by zero).",
  "all num_buckets >= 1 and all lists of floats",
  "The crash needs exactly num_buckets-1 heavy values (for instance a column of exactly 29999 distinct values with the default setting), which no random or hand-written test hits.",
  ["src/data_store/column.cc: BuildBuckets (left_over / (num_buckets_ - bucket_maxs_.size()))"])
p("C09", "Bucket minima are tight",
  "For every bucket that holds at least one row other than +inf, the reported bucket minimum is the smallest value of the rows in it; every bucket boundary other than the overflow one is a value from the data the buckets were built from.",
  "all num_buckets, all histories, all occupied buckets",
  "Invariant over histories including data added after the buckets were fixed.",
  ["src/data_store/column.cc: AddBucketizedVecHelper, BuildBuckets"])
p("C10", "A finalized bucketized column cannot be changed",
  "After Finalize, any further Add or Finalize on a bucketized float column reports FAILED_PRECONDITION and leaves the reported rows unchanged.",
  "all histories of Add and Finalize calls in any order",
  "Histories are unbounded sequences of calls in any order.",
  ["src/data_store/column.cc: BucketizedFloatColumn::Add, BucketizedFloatColumn::Finalize"])
# ---------------------------------------------------------------- data store
p("C11", "A data store behaves as a finite map from names to columns",
  "After any history of Add and Remove calls the store holds, under each name, exactly the column of the last successful Add of that name not followed by a Remove; adding a name twice reports ALREADY_EXISTS and changes nothing; removing an absent name changes nothing; a rejected Add changes nothing; the listed column names are exactly the names that can be looked up, each once.",
  "all histories of Add/Remove over all names",
  "Refinement over unbounded histories.",
  ["src/data_store/data_store.cc: Add, RemoveColumnIfExists, GetColumn, typed getters"])
p("C12", "All columns of a store have the same number of rows",
  "After any history of successful and rejected Adds of non-empty columns and Removes, all columns in the store have the same number of rows, equal to num_rows(), and a new name is accepted exactly when its column has that many rows or the store is empty.",
  "all histories, all iteration orders of the hash map",
  "Depends on history and on the hash map's iteration order.",
  ["src/data_store/data_store.cc: DataStore::Add, num_rows"])
p("C13", "Reading a row from Python never goes out of bounds",
  "Column.get(i), for every int i (negative ones included), either returns the value of row i or raises; it never reads outside the column.",
  "all columns with fewer than 2^31 rows and all 32-bit ints",
  "All 2^32 indices against all sizes; the check relies on a mixed signed/unsigned comparison.",
  ["src/python/column_py.cc: StringColumnPy::get, RawFloatColumnPy::get, BucketizedFloatColumnPy::get"])
p("C14", "Failures reach the Python caller",
  "Every operation of the library that ends with a non-OK status raises a Python exception.",
  "all statuses; all histories of column additions from Python",
  "Needs all status codes against all operations; the failing codes are never exercised from Python by the tests.",
  ["src/python/gbdt_py_base.cc: ThrowException", "src/python/datastore_py.cc: AddStringColumn, AddBucketizedFloatColumn, AddRawFloatColumn"])
# ---------------------------------------------------------------- text
p("C15", "Splitting and joining strings are inverse",
  "Joining the pieces of a split string with the same delimiter gives back the string; splitting a join of delimiter-free pieces with a one-character delimiter gives back the pieces, except that the single empty piece becomes no pieces.",
  "all strings, all non-empty delimiters",
  "All strings.",
  ["src/utils/utils.cc: split, SplitStringUsing", "src/utils/utils_inl.h: JoinStrings"])
p("C16", "A TSV block parses to aligned columns or fails cleanly",
  "Parsing a block either fails or yields, for every requested column, exactly one value per non-empty data line, being the cell at the column's index on that line (converted to a float, or NaN for the accepted missing tokens); it fails with OUT_OF_RANGE when a line is too short and INVALID_ARGUMENT when a requested float cell is neither a number nor a missing token, and in no other case.",
  "all file contents, all column index lists, every float-parsing function",
  "All file contents.",
  ["src/data_store/tsv_block.cc: TSVBlock::ReadTSV, AddFloats, AddStrings"])
p("C17", "Loading several TSV files equals loading their concatenation",
  "If no column is requested twice and loading succeeds, every column holds the cells of the data lines of all files in file order, no matter in which order the parsing threads finish; the first line of the first file (only) is dropped as the header.",
  "all lists of files, all thread counts >= 1, all completion orders",
  "Needs all schedules of the parser threads.",
  ["src/data_store/tsv_data_store.cc: LoadTSVs, ProcessBlock", "src/utils/threadpool.cc"])
p("C18", "TSV configuration never leads to a dangling column",
  "Loading TSV files with any configuration of column names either succeeds, or reports an error; it never uses a column after it was destroyed.",
  "all header lines and all lists of requested columns (repetitions included)",
  "The failing cases need the same name requested twice; memory errors are not visible to assertion-style tests.",
  ["src/data_store/tsv_data_store.cc: SetupColumns"])
p("C19", "A flat file column keeps one row per line",
  "Loading a flat file yields the column of the type its first line names, with one row per line that does not start with '#', in order; unparsable floats are missing; the empty piece after the last line-feed is not a row.",
  "all file contents",
  "All file contents: blank lines, carriage returns, unterminated last lines.",
  ["src/data_store/flatfiles_data_store.cc: LoadStringColumn, LoadFloatColumn", "src/utils/utils.cc: ReadLine, HasPrefix"])
p("C20", "Concurrent flat file loading gives the same store for every schedule",
  "If the files requested have equal row counts, then requesting them from any number of threads in any interleaving (the same name any number of times) succeeds: every call returns within four of its own steps with a non-null column, the store then holds the column of the file for every name requested, columns held before are kept and nothing else is added; so the contents are the same for every schedule.",
  "all sets of files, all interleavings of the loading steps",
  "All interleavings.",
  ["src/data_store/flatfiles_data_store.cc: LoadColumn, GetColumn", "src/gbdt_algo/utils.cc: LoadFeatures"])
# ---------------------------------------------------------------- sampling / threads
p("C21", "Dividing samples covers every sample exactly once, evenly",
  "Dividing n samples into k >= 1 groups yields k contiguous groups whose concatenation is the original list and whose sizes differ by at most one. (k <= 0 is undefined behaviour.)",
  "all n and k",
  "All n and k; floor arithmetic.",
  ["src/utils/subsampling.cc: DivideSamplesHelper, DivideSamples"])
p("C22", "Subsampling selects a sorted subset",
  "For every generator output, the subsample is a strictly increasing list of indices below n; a rate of 1 or more selects every index; a rate of 0 selects none (a NaN rate, or one for which rate*n does not fit an int, is an invalid conversion and undefined); with the same random draws a larger rate selects a superset.",
  "all draw sequences in [0,1), all n, all rates",
  "All generator outputs.",
  ["src/utils/subsampling.cc: UniformSubsample, CreateAllSamples"])
p("C23", "The thread pool runs each task exactly once before its destructor returns",
  "With at least one thread, for every interleaving (spurious wake-ups included), each enqueued task is started at most once, and when the destructor returns every task enqueued has been run to completion exactly once.",
  "all numbers of threads >= 1, all numbers of tasks, all interleavings of producer and workers",
  "Schedules and spurious wake-ups cannot be enumerated by tests.",
  ["src/utils/threadpool.cc: ThreadPool, Enqueue, Invoke, ShutDown"])
p("C24", "The thread pool never deadlocks or loses a wake-up",
  "With at least one thread, from every reachable state of the pool some step other than a spurious wake-up is possible until the destructor has returned, and every execution in which steps keep being taken reaches that point.",
  "all reachable states and all fair executions",
  "Absence of lost wake-ups is a statement about all interleavings.",
  ["src/utils/threadpool.cc: Enqueue, Invoke, ShutDown"])
p("C25", "Parallel training steps are race free and schedule independent",
  "When a pool of threads scores a tree, computes the gradients of a pointwise loss, sums gradients over the slices of a node, or looks for the splits of the chosen features, then under every schedule: no two threads ever are about to access the same memory cell with one of them writing, no task crashes, the pool does not get stuck and ends after boundedly many steps (up to spurious wake-ups), and memory then is what running the tasks one after the other gives, bit for bit (no law of arithmetic is used).",
  "all interleavings of the threads' individual memory accesses and of the steps of the pool itself; all numbers of threads, slices, trees, columns, arithmetic operations",
  "All interleavings.",
  ["src/gbdt_algo/compute_tree_scores.cc: AddTreeScores", "src/loss_func/loss_func_pointwise.cc: Compute", "src/gbdt_algo/tree_algo.cc: ComputeWeightedSum, FindBestFeatureAndSplit", "src/utils/threadpool.cc"])
# ---------------------------------------------------------------- splits
p("C26", "Partitioning a node sends each sample to the side its value says",
  "Partitioning the samples of a node permutes them in place, touches nothing outside the node's slice, and yields a left part of exactly the samples whose value satisfies the split (below the threshold, or missing and missing goes left; category listed in the split) and a right part of all others. For a float column with at least twice as many rows as buckets the value compared with the threshold is the largest of the sample's bucket.",
  "all columns, splits and sample slices",
  "In-place swap loop over all inputs; multiset preservation.",
  ["src/gbdt_algo/split_algo.cc: Partition (3 overloads)"])
p("C27", "Category names and internal indices route alike",
  "For a split produced in training, partitioning by the internal category indices and partitioning by the category names give the same result on the training column; so stripping the internal indices from a trained forest does not change any prediction.",
  "all string columns, all index sets, all samples",
  "All columns and all splits.",
  ["src/gbdt_algo/split_algo.cc: Partition(StringColumn)", "src/gbdt_algo/tree_algo.cc: FindBestFeatureAndSplit", "src/gbdt_algo/gbdt_algo.cc: ClearInternalFields"])
p("C28", "The chosen split point is the best one scanned and satisfies the limits",
  "The split point chosen for a feature has the largest gain of all cut positions and missing-value directions scanned; its gain exceeds min_gain and 1e-6, and the hessian on both sides exceeds min_hessian; if no candidate qualifies the gain is 0. This uses only the order laws of IEEE comparison, so it holds for floating point with NaN (where the gain with missing values on the left is NaN, moving them to the right is not considered; a NaN limit is ignored).",
  "all histograms, all configs, all arithmetic",
  "All histograms.",
  ["src/gbdt_algo/split_algo.cc: FindBestSplitPoint"])
p("C29", "The gain reported for a split is the gain of the partition it makes",
  "For a split found on a node, the reported gain equals energy(left)+energy(right)-energy(node) where left and right are the samples the split really sends to each side.",
  "all columns, weights, gradients and samples (exact arithmetic)",
  "All data; the failing case needs a bucket whose gradients cancel exactly between the two sides of the cut.",
  ["src/gbdt_algo/split_algo.cc: Histogram::ComputeHistograms, FindBestSplitPoint, FindBestFloatSplit, FindBestStringSplit, Partition"])
p("C30", "The float split is the best among all thresholds",
  "On a float feature no threshold and no direction for missing values yields a partition with larger gain than the split found (subject to the min_hessian limit).",
  "all thresholds and both missing directions, all data (exact arithmetic)",
  "All real thresholds.",
  ["src/gbdt_algo/split_algo.cc: FindBestFloatSplit"])
p("C31", "The categorical split is the best among all subsets",
  "On a categorical feature no subset of categories yields a larger gain than the split found (documented as 'shown to be the optimal strategy').",
  "all 2^k subsets of categories, all data (exact arithmetic)",
  "Exponentially many subsets over all data.",
  ["src/gbdt_algo/split_algo.cc: FindBestStringSplit, SortOnNodeScore", "docs/ALGORITHMS.md"])
p("C32", "A found split never makes an empty child",
  "If a split is found and min_hessian >= 0, both children receive at least one sample: always for categorical features, and for float features whenever the midpoint used as threshold separates the buckets.",
  "all data, any arithmetic of the sums, any sort",
  "All data.",
  ["src/gbdt_algo/split_algo.cc: FindBestSplit, Partition", "src/gbdt_algo/tree_algo.cc"])
# ---------------------------------------------------------------- trees
p("C33", "A grown tree has at most num_leaves leaves and is well formed",
  "A tree fitted to gradients has between 1 and max(1,num_leaves) leaves, every node has either no child or two children, every inner node carries a split with positive gain, and it has fewer leaves than num_leaves only if no leaf has a qualifying split left.",
  "all data, configs and arithmetic; all tie-breaks of the priority queue",
  "Inductive over tree growth.",
  ["src/gbdt_algo/tree_algo.cc: FitTreeToGradients, FindBestFeatureAndSplit"])
p("C34", "Leaves partition the samples and evaluation follows training",
  "The samples the tree was fitted on are partitioned among its leaves, and evaluating the fitted tree on a training sample reaches exactly the leaf that held the sample during fitting, so the score added is that leaf's score.",
  "all data and configs, all samples",
  "Inductive over tree growth and routing.",
  ["src/gbdt_algo/tree_algo.cc: FitTreeToGradients", "src/gbdt_algo/compute_tree_scores.cc: AddSampleTreeScores"])
p("C35", "Leaf scores are the regularized Newton steps of their samples",
  "The score of each leaf is sum(w*g)/(sum(w*h)+lambda) over the samples in the leaf (0 if the denominator is 0), and it minimizes the quadratic model -G*s + (H+lambda)*s^2/2 when H+lambda > 0.",
  "all data, all leaves",
  "Inductive over tree growth.",
  ["src/gbdt_algo/tree_algo.cc: FitTreeToGradients, ComputeWeightedSum", "src/loss_func/gradient_data.h: Score, Energy"])
p("C36", "Growth is best-first",
  "At each step the leaf that is split is one with the largest gain among all current leaves.",
  "all growth histories",
  "All growth histories.",
  ["src/gbdt_algo/tree_algo.cc: FitTreeToGradients"])
p("C37", "The score of a row is the sum of the leaves it reaches",
  "Scoring a data store with a tree or forest gives for each row the sum, in tree order, of the score of the leaf reached by comparing that row's own values with the splits; it depends on no other row of the slice, nor on the order or division of the samples.",
  "all forests, all stores, all divisions of rows among threads",
  "All forests; in-place partition by slices.",
  ["src/gbdt_algo/compute_tree_scores.cc", "src/gbdt_algo/evaluation.cc: EvaluateForest"])
p("C38", "Predictions do not depend on how categories were coded",
  "Two stores in which a row has the same feature values (strings equal, floats equal and stored exactly) give that row the same score for a forest without internal indices, even if they hold different other rows.",
  "all pairs of stores, all forests",
  "All pairs of stores.",
  ["src/gbdt_algo/split_algo.cc: Partition", "src/data_store/column.h: get_cat_index"])
# ---------------------------------------------------------------- boosting
p("C39", "Training scores equal predictions of the returned forest",
  "When training succeeds, the function values maintained during training equal the predictions of the returned forest on the training data (exact arithmetic), with or without a base forest.",
  "all data, configs, losses, base forests",
  "Inductive over boosting rounds; needs the constant tree, shrinkage and base forest handled alike in both places.",
  ["src/gbdt_algo/gbdt_algo.cc: TrainGBDT, InitializeWithBaseForest, ApplyShrinkage"])
p("C40", "The returned forest has the documented shape",
  "When training into an empty forest succeeds, the forest has one constant tree, followed by the trees of the base forest that split, in order and without their internal indices (so unchanged if they came from training), followed by exactly num_trees fitted trees with at most num_leaves leaves each, splitting only on the given features with positive gain. An invalid configuration, a feature that is not in the store and a failing loss initialisation are reported, in this order, and leave the forest as it was; no round whose constant is NaN or infinite is part of a successful run.",
  "all inputs",
  "All inputs and loss behaviours.",
  ["src/gbdt_algo/gbdt_algo.cc: TrainGBDT, InitializeWithBaseForest, CleanForest"])
p("C41", "Shrinkage scales the tree's contribution and nothing else",
  "Shrinking a tree multiplies its contribution to every row by the rate and leaves its routing unchanged.",
  "all trees, rates, rows (exact arithmetic)",
  "All trees.",
  ["src/gbdt_algo/gbdt_algo.cc: ApplyShrinkage"])
p("C42", "A saved model carries no training-internal index",
  "Trees returned by training have no internal category index anywhere, splits only on inner nodes, and predict the same as before stripping.",
  "all trees",
  "All trees.",
  ["src/gbdt_algo/gbdt_algo.cc: ClearInternalFields, CleanForest"])
p("C43", "Checkpoint predictions are prefix sums",
  "Given strictly increasing positive checkpoints, evaluation writes exactly one score file per checkpoint not larger than the number of trees, holding for every row the prediction of the forest made of the first p trees.",
  "all forests, stores and strictly increasing lists of positive checkpoints",
  "All lists of checkpoints; the scores are accumulated in place between checkpoints.",
  ["src/gbdt_algo/evaluation.cc: EvaluateForest (checkpoints), WriteScoreFile"])
p("C44", "Evaluation checkpoints built from an interval are n, n-k, n-2k, ...",
  "For a forest of n trees and interval k > 0 the checkpoints are n, n-k, n-2k, ... as long as they are positive, in increasing order; for k <= 0 only n. Evaluating at them writes all of their score files.",
  "all n and k",
  "All n, k.",
  ["src/gbdt_algo/utils.cc: GetTestPoints"])
p("C45", "Feature importance is a normalized ranking of the features used",
  "Feature importance lists each feature used at an inner node exactly once, in non-increasing order; with positive gains the first has importance 1 and all lie in (0,1], and each is proportional to the sum of its gains.",
  "all forests",
  "All forests.",
  ["src/gbdt_algo/utils.cc: ComputeFeatureImportance"])
p("C46", "An invalid configuration is rejected",
  "If the example and feature sampling rates are not NaN, the configuration check accepts exactly the configurations with positive num_trees and num_leaves and both rates in (0,1]. Training from Python succeeds only if moreover the loss is one of the known ones, features are given and exist in the store, and weights and targets have one entry per row (or no weights, and a float target column).",
  "all configurations with rates that are not NaN, all Python calls",
  "All float rates and all combinations of arguments.",
  ["src/gbdt_algo/utils.cc: CheckConfig", "src/python/train_gbdt_py.cc: TrainPy", "src/loss_func/loss_func_factory.cc"])
# ---------------------------------------------------------------- losses
p("C47", "Gradients and hessians are the derivatives of the loss",
  "For mse, logloss (targets 1 and -1), huberized hinge and the squared hinge of gbrank (positive difference of targets), at every score the reported gradient is the negative derivative (mse and squared hinge: half of it) of the loss in the score, and the hessian is the second derivative (half of it, likewise) wherever it exists; hessians are non-negative.",
  "all real scores and all admissible targets",
  "Continuum of scores.",
  ["src/loss_func/loss_func_math.cc"])
p("C48", "The constant step stops at a near-stationary point",
  "The constant computed for a pointwise loss is found by between 1 and 10 Newton steps from 0 (weighted sum of gradients over weighted sum of hessians; no step if the latter is 0); all but the last are larger than the threshold 1e-4, and if fewer than 10 were made the last is not; the gradients handed to tree fitting are those where the last step started. For mse with weights that do not sum to 0 the second step is 0 and the constant is the weighted mean residual.",
  "all data and losses",
  "All data.",
  ["src/loss_func/loss_func_pointwise.cc: Compute"])
p("C49", "Each ordered pair of a group is drawn from exactly one index",
  "For every group, the number of pairs is the number of pairs of rows with strictly different targets, and the map from random index to pair is a bijection between 0..num_pairs-1 and those pairs (higher target first), so sampling is uniform.",
  "all groups and targets",
  "All groups.",
  ["src/loss_func/group.cc: Group, SamplePair"])
p("C50", "Ranks are a permutation sorted by score",
  "After re-ranking, ranks of the rows of a group are a permutation of 0..n-1 and a row with a strictly larger score has a smaller rank.",
  "all groups, scores and sort implementations",
  "All groups, all unstable sorts.",
  ["src/loss_func/group.cc: Rerank"])
p("C51", "Pairwise gradients cancel and hessians are non-negative",
  "For every pairwise loss and every outcome of pair sampling, the gradients of the rows of a group sum to zero (exact arithmetic), hessians are non-negative if row weights are, and working on a group leaves rows of other groups untouched.",
  "all data, all sampling outcomes",
  "All random outcomes.",
  ["src/loss_func/loss_func_pairwise.cc: Compute"])
p("C52", "LambdaMART pair weights are the DCG change of a swap",
  "The weight LambdaMART gives to a pair is the absolute change of the group's (linear gain) DCG when the two rows exchange ranks.",
  "all groups, rankings and pairs",
  "All rankings.",
  ["src/loss_func/loss_func_lambdamart.cc: PairWeightingFunc, discount"])
p("C53", "Pairwise training never executes undefined behaviour",
  "Pairwise losses can be computed for any group column and targets without undefined behaviour.",
  "all group columns and targets",
  "Memory errors and invalid conversions are not observable by assertions; failing inputs: no group has two different targets; the group column contains '__missing__'.",
  ["src/loss_func/loss_func_pairwise.cc: Init, Compute, ComputePairSamplingProbability", "src/loss_func/group.cc: SamplePair"])
p("C54", "Pairwise training with several threads is deterministic for a fixed seed",
  "With a fixed random seed and thread count, computing pairwise gradients gives the same result in every run.",
  "all interleavings",
  "All interleavings: the generator is shared by the threads without a lock.",
  ["src/loss_func/loss_func_pairwise.cc: Compute", "src/utils/subsampling.cc: get_generator"])
p("C55", "Elapsed times are formatted faithfully",
  "A duration of a second or more is rendered as days, hours (1-23), minutes (1-59) and seconds (at most 60.0), zero parts left out, and the rendering decodes to within 0.05 s of the duration; shorter durations are rendered as whole milliseconds.",
  "all durations below 68 years",
  "All durations; the test has four.",
  ["src/utils/stopwatch.cc: MSecsToFormattedString"])
p("C56", "Rows are grouped exactly by the group column",
  "The groups used by pairwise losses are disjoint, cover every row, and two rows are in the same group exactly when their group strings are equal.",
  "all group columns without missing values",
  "All group columns.",
  ["src/loss_func/loss_func_pairwise.cc: Init"])
# ---------------------------------------------------------------- later additions
p("C57", "Infinite values are bucketized like other numbers",
  "Rows holding +inf lie inside their reported bucket, their codes are ordered with those of other rows, and a bucket holding only +inf has minimum +inf.",
  "all num_buckets, all histories with +inf among the values, all rows",
  "Needs +inf arriving before or after the buckets are fixed, in columns of a particular shape; never drawn by tests.",
  ["src/data_store/column.cc: BuildBuckets (FLT_MAX sentinel), AddBucketizedVecHelper"])
p("C58", "A finalized string or raw float column cannot be changed",
  "After Finalize, any further Add or Finalize on a string or raw float column reports FAILED_PRECONDITION and leaves the reported rows unchanged.",
  "all histories of Add and Finalize calls in any order",
  "Histories are unbounded sequences of calls in any order.",
  ["src/data_store/column.cc: StringColumn::Add, StringColumn::Finalize, RawFloatColumn::Add, RawFloatColumn::Finalize"])
p("C59", "Columns without rows do not break the equal row count",
  "After any history of Adds and Removes, empty columns included, all columns of the store have the same number of rows.",
  "all histories of finished columns, all iteration orders of the hash map",
  "Needs an empty column in the right place of a history; the acceptance test even depends on the hash map's iteration order.",
  ["src/data_store/data_store.cc: DataStore::Add (num_rows() > 0 test)"])
p("C60", "Every line of a flat file after the type line is a row",
  "Loading a string flat file yields one row per line after the type line.",
  "all file contents",
  "Needs a data value starting with '#', which is silently dropped and shifts all later rows.",
  ["src/data_store/flatfiles_data_store.cc: LoadStringColumn, LoadFloatColumn"])
p("C61", "Pointers returned by concurrent GetColumn calls stay valid",
  "Whatever the interleaving of GetColumn calls on a flat file store, a pointer returned by one of them stays valid while the store lives and nothing is removed.",
  "all sets of files, all interleavings, repeated names included",
  "Needs two threads that both find the same column absent; the dangling pointer is a memory error.",
  ["src/data_store/flatfiles_data_store.cc: GetColumn, LoadColumn", "src/data_store/flatfiles_data_store.h"])
p("C62", "Histogram bins hold exactly the samples with the value",
  "The bin of a feature value is the sum, in sample order, of weight * gradient data over exactly the samples of the node with that value, and the values scanned are those whose two sums are both non-zero, in increasing order of the codes.",
  "all columns, weights, gradients, sample lists (repeats allowed), in any arithmetic",
  "All inputs.",
  ["src/gbdt_algo/split_algo.cc: Histogram::ComputeHistograms"])
p("C63", "A float split separates neighbouring floats",
  "With binary32 thresholds a found float split sends at least one sample to each side.",
  "all float columns (finite binary32 values) and gradients",
  "Fails only for neighbouring floats whose sum is rounded down; random tests do not find it.",
  ["src/gbdt_algo/split_algo.cc: FindBestFloatSplit lines 228-231, Partition"])
p("C64", "Scoring a forest on a store that does not fit it reports an error and never aborts",
  "Scoring a forest on a data store whose columns do not fit the forest (a feature is missing, has another type, or the forest is malformed) returns an error status; it does not crash.",
  "all forests and stores",
  "Needs malformed forests or mismatched column types.",
  ["src/gbdt_algo/utils.cc: LoadFeatures, CollectAllFeatures", "src/gbdt_algo/compute_tree_scores.cc", "src/gbdt_algo/split_algo.cc: Partition"])
p("C65", "Every checkpoint of any list gets its file",
  "For every list of checkpoints, in whatever order, each checkpoint between 1 and the number of trees gets its score file.",
  "all lists of checkpoints",
  "Needs an unsorted list or one that contains 0; the others silently vanish.",
  ["src/gbdt_algo/evaluation.cc: EvaluateForest (checkpoints)"])
p("C66", "predict_at_checkpoints does not depend on earlier runs",
  "Forest.predict_at_checkpoints of the Python package yields for each checkpoint the prediction of the first p trees, whatever files earlier runs have left in the temporary directory.",
  "all forests, checkpoints and prior contents of the directory",
  "Needs stale files of an earlier run and a checkpoint that is not written.",
  ["gbdt/_forest.py: predict_at_checkpoints", "src/gbdt_algo/evaluation.cc"])
p("C67", "Every split of a fitted tree is the best one found for its node",
  "At every node of a fitted tree, inner or leaf, the stored split is one that FindBestSplit finds, on exactly the training samples that pass the node, for one of the features drawn for the node, and no split found for another of these features has a larger gain. A node stores no split only if none is found for any of the features drawn.",
  "all data, configs, arithmetic, draws, tie-breaks, nodes",
  "Inductive over tree growth: samples of a node are only known through the in-place partitions of all its ancestors.",
  ["src/gbdt_algo/tree_algo.cc: FindBestFeatureAndSplit, FitTreeToGradients"])
p("C68", "Fitting a tree is always defined",
  "Given columns as the loaders build them with one row per gradient and no number above FLT_MAX, at least one thread and sampling rates whose product with the counts fits an int, fitting a tree terminates, reads nothing out of bounds and does not abort.",
  "all data, configs, arithmetic (NaN gradients included), draws, sort and queue implementations",
  "Absence of undefined behaviour for all inputs.",
  ["src/gbdt_algo/tree_algo.cc", "src/gbdt_algo/split_algo.cc"])
p("C69", "Training is always defined",
  "Given columns as the loaders build them without numbers above FLT_MAX, at least one thread, rates whose product with the counts fits an int, a group column (if named) that is a string column, a base forest that can be scored on the store and a loss that is defined for the data, training terminates with a status: nothing is read out of bounds and nothing aborts.",
  "all data, configs, losses, base forests, arithmetic, draws",
  "Absence of undefined behaviour for all inputs.",
  ["src/gbdt_algo/gbdt_algo.cc: TrainGBDT"])
p("C70", "Training longer only appends trees",
  "Two successful runs that differ only in num_trees (m <= n) return forests that agree on all trees but the constant one up to the end of the shorter run; the longer one has n - m more trees.",
  "all data, configs, losses, base forests, arithmetic, draws",
  "Relates two executions.",
  ["src/gbdt_algo/gbdt_algo.cc: TrainGBDT"])
p("C71", "Continuing from a saved forest equals training on",
  "Training m trees and then n more with the first result as base forest gives the same function values and the same splitting trees as training m + n trees at once, in exact arithmetic, for a loss whose result depends only on the function values and a generator that continues where it stopped.",
  "all data, configs, base forests, m and n",
  "Relates three executions.",
  ["src/gbdt_algo/gbdt_algo.cc: TrainGBDT, InitializeWithBaseForest, ClearInternalFields"])
p("C72", "Every configuration that passes the check can be trained with",
  "If the configuration check accepts a configuration, training with it (on valid data, with a loss defined for it) has no undefined behaviour.",
  "all configurations, NaN rates included",
  "All float rates; NaN slips through the comparisons and is later converted to an integer.",
  ["src/gbdt_algo/utils.cc: CheckConfig", "src/utils/subsampling.cc: UniformSubsample"])
p("C73", "Every round fits a tree to the gradients of the loss at the current function values",
  "A successful run consists of exactly num_trees rounds; in each, the loss is computed at the function values of all trees and constants so far, and the next tree is fitted to those gradients; the result is the constant tree followed by the splitting trees. A run that ends with INTERNAL stopped in the round whose constant was NaN or infinite, with the forest so far.",
  "all data, configs, losses, base forests, arithmetic, draws",
  "Quantifies over whole training runs and the unobservable intermediate gradients.",
  ["src/gbdt_algo/gbdt_algo.cc: TrainGBDT"])
p("C74", "Constructing a LambdaMART loss is defined and its discounts follow the formula",
  "Constructing the loss has no undefined behaviour, and the discount of every rank is log(base)/log(base+rank).",
  "all bases and ranks",
  "Writes beyond the size of a vector are not observable by assertions.",
  ["src/loss_func/loss_func_lambdamart.cc: LambdaMART"])
p("C75", "Pairwise gradients are the weighted sums over the drawn pairs",
  "For every outcome of the draws: of each group floor(pairs * probability) pairs are drawn, ranked anew for LambdaMART; the gradient of a row is the sum of weight times first derivative over the drawn pairs in which it has the larger target minus those in which it has the smaller one, its hessian twice the sum of weight times second derivative; weights are the product of row weights, pair weight and group factor; the constant is 0.",
  "all data, targets, group columns, function values, rounds and sampling outcomes, in exact arithmetic",
  "All random outcomes and all rounds.",
  ["src/loss_func/loss_func_pairwise.cc: ComputeFunctionalGradientsAndHessians, PairWeightingFunc"])
p("C76", "Pointwise losses are defined for every data set",
  "With at least one thread, setting up a pointwise loss returns a status and after success gradients can be computed for any function values, one gradient per row, without reading out of bounds; INVALID_ARGUMENT is returned exactly for the binary losses with some target other than 1 and -1.",
  "all losses, targets, weights, function values and thread counts",
  "All data sets and values.",
  ["src/loss_func/loss_func_pointwise.cc: Init, ComputeFunctionalGradientsAndHessians", "src/loss_func/loss_func_logloss.cc: Init", "src/loss_func/loss_func_huberized_hinge.cc: Init"])
p("C77", "Training with every loss of the library ends with a status",
  "Training on a store built by the loaders with any pointwise loss returns one of OK, INVALID_ARGUMENT, NOT_FOUND, INTERNAL and reads nothing out of bounds; so does training with any pairwise loss if rows of some group have different targets, no group is missing and fewer than 2^31 pairs are drawn (exact arithmetic). With a pointwise loss, continuing from a forest gives what training for longer gives.",
  "all stores, losses, configurations and base forests",
  "All inputs; runs of unbounded length.",
  ["src/gbdt_algo/gbdt_algo.cc: TrainGBDT", "src/loss_func/loss_func_pointwise.cc", "src/loss_func/loss_func_pairwise.cc"])
p("C78", "Parallel pairwise gradients are those of some sequential computation",
  "Whatever the thread schedule, when computing pairwise gradients returns, the gradients and the ranked groups are exactly those of a computation without threads, for some sequence of numbers that the generator can give; threads race for nothing but the generator; the computation always ends, and no thread crashes or is stuck if the computation without threads is defined for all such numbers.",
  "all schedules, thread counts, groups, function values, generators and rounds",
  "All interleavings; the tests run one of them and compare with recorded numbers.",
  ["src/loss_func/loss_func_pairwise.cc: ComputeFunctionalGradientsAndHessians", "src/utils/subsampling.h: get_generator", "src/utils/threadpool.cc"])
p("C79", "The seconds shown in a duration are less than 60",
  "In the rendering of a duration the seconds are less than 60.",
  "all durations",
  "Fails only in the last 50 milliseconds of a minute.",
  ["src/utils/stopwatch.cc: MSecsToFormattedString"])

p("C80", "A slice of a data store has exactly the chosen rows",
  "DataStore.slice(index) gives a store with the same columns and types in which row j is row index[j] of the original, "
  "for fewer than 60000 rows in every column, missing values, repeats and order included; for more rows the numbers of "
  "bucketized columns may become smaller but stay missing for the same rows. An index that is not a row raises an exception. "
  "copy() gives equal rows. The call crashes exactly when the chosen rows of a bucketized column have exactly 29999 different numbers.",
  "all stores of fewer than 2^31 rows, all lists of integers, all orders of the hash map",
  "The bucketized columns are bucketized again from bucket minima, so equality depends on the values; the crash needs one exact count.",
  ["gbdt/_data_store.py: slice, copy, items, _get_col", "src/python/datastore_py.cc: AddStringColumn, AddBucketizedFloatColumn, AddRawFloatColumn", "src/python/column_py.cc: get"])

p("C81", "from_dict holds exactly the given columns",
  "DataLoader.from_dict, given columns of one length under different names, gives a store with exactly these columns, types "
  "and values (fewer than 60000 rows); columns of different lengths raise an exception. The call crashes exactly when a column "
  "to be bucketized has exactly 29999 different numbers.",
  "all dictionaries, all orders of the hash map",
  "Values go through bucketization; equality for every input and the exact crash condition are beyond samples.",
  ["gbdt/_data_store.py: DataLoader.from_dict", "src/python/datastore_py.cc: Add*Column", "src/data_store/data_store.cc: Add"])

p("C82", "from_df gives every column the promised type",
  "DataLoader.from_df puts every column of the data frame into the store with the type that type_overrides says, or else "
  "bucketized for numbers and string for the rest, and with its values.",
  "all data frames, all overrides",
  "The combinations of column kind and override are easily missed: one of them loses the column silently.",
  ["gbdt/_data_store.py: DataLoader.from_df"])

p("C83", "Training appends to the forest it is given",
  "When *forest holds trees on entry, TrainGBDT leaves them in front, changing nothing but internal fields, and appends what "
  "training into an empty forest gives.",
  "all data, losses, configurations, base forests and forests on entry",
  "Both callers pass an empty forest; the constant tree is found by position in two different ways.",
  ["src/gbdt_algo/gbdt_algo.cc: TrainGBDT, InitializeWithBaseForest"])

p("C84", "Squared error: more trees never fit the training data worse",
  "Training with loss mse on all rows, with weights and l2_lambda not negative and shrinkage between 0 and 1, in exact "
  "arithmetic: the predictions of the returned forest have no larger weighted squared error on the training data than those "
  "of the base forest (or zeros), and a run with more trees has no larger error than the same run with fewer.",
  "all stores, targets, weights, base forests, configurations, sequences of random numbers",
  "It is a statement about sums over leaves of every tree that can be fitted; runs show single curves.",
  ["src/gbdt_algo/gbdt_algo.cc: TrainGBDT", "src/gbdt_algo/tree_algo.cc", "src/loss_func/loss_func_pointwise.cc"])

p("C85", "Squared error: training fits no worse than a constant",
  "Training with loss mse as in C84, without base forest, gives predictions with no larger weighted squared error on the "
  "training data than any constant prediction.",
  "all stores, targets, weights, configurations, constants",
  "Targets of usual size never show the failure: it needs a mean residual below the convergence threshold.",
  ["src/loss_func/loss_func_pointwise.cc: ComputeFunctionalGradientsAndHessians", "src/gbdt_algo/gbdt_algo.cc: TrainGBDT"])

p("C86", "train uses exactly the features it is asked for",
  "train(store, config, features=...) raises ValueError exactly when some name in features is not a column of bucketized numbers or "
  "strings of the store. A returned forest splits only on features named in the call, or on those of the base forest.",
  "all stores, configurations, targets, weights, feature lists",
  "A misspelt or raw column could be dropped silently for some combination of columns; tests try a few names.",
  ["gbdt/_gbdt.py: train", "src/python/train_gbdt_py.cc: TrainPy"])

p("C87", "From Python data to predictions without a crash",
  "On a store built from equally long columns, train with mse, logloss or huberized_hinge raises an exception or returns a forest, "
  "whatever the configuration, targets, weights and features; predict with that forest on the store gives one score per row, the sum "
  "of the scores of the trees. A call with everything in order returns a forest unless the learning diverges. With mse in exact arithmetic "
  "the predictions have no larger squared error than those of the base forest.",
  "all stores, targets, weights, configurations with rates that are numbers, machines, seeds, numbers of threads",
  "The composition of loader, configuration check, loss, training and scoring over all data is out of reach of runs.",
  ["gbdt/_gbdt.py: train", "gbdt/_forest.py: predict", "src/python/train_gbdt_py.cc", "src/python/forest_py.cc", "src/loss_func/loss_func_factory.cc"])

p("C88", "The command line and Python train the same forest",
  "For the same store, configuration without binarize_target, seed, number of threads and base forest, with the weight column passed as weights, the "
  "command line and gbdt.train return the same forest; where one crashes the other does; where the command line stops, train raises "
  "an exception with a library error or stops. With binarize_target the command line returns the forest that gbdt.train returns for the targets replaced by "
  "1 (positive) and -1 (the others), for the losses that look at one row at a time.",
  "all stores, configurations that name features of the right types, machines, seeds",
  "The two entry points check and prepare their arguments in different code; tests compare at most a few runs.",
  ["src/main.cc: Train", "gbdt/_gbdt.py: train", "src/python/train_gbdt_py.cc: TrainPy"])

p("C89", "The configuration means the same from Python as on the command line",
  "The same configuration gives the same forest from gbdt.train as from the command line, including weight_column and binarize_target.",
  "all stores and configurations",
  "A field that one entry point ignores shows up only in a test that sets it and compares.",
  ["src/main.cc: Train", "src/python/train_gbdt_py.cc: TrainPy", "src/gbdt_algo/utils.cc: GetSampleWeightsOrDie, GetTargetsOrDie"])

p("C90", "Without shrinkage nothing is learned",
  "With shrinkage 0, which is what a configuration without the field means, a successful training changes every prediction by one and the same "
  "constant: no tree contributes anything. In exact arithmetic.",
  "all stores, targets, weights, pointwise losses, seeds, exact arithmetic",
  "The training succeeds without a warning; only a comparison over all rows and data sets shows that the trees are idle.",
  ["src/proto/config.proto: shrinkage", "src/gbdt_algo/utils.cc: CheckConfig", "src/gbdt_algo/gbdt_algo.cc: TrainGBDT"])

p("C91", "An empty store raises exceptions, never a crash",
  "Looking at a store without columns, training on it and predicting with it gives an empty result or an exception.",
  "all configurations, forests, arguments",
  "The crash needs one combination of absent arguments among many.",
  ["src/python/train_gbdt_py.cc: TrainPy", "src/python/forest_py.cc: PredictAndOutput, Predict", "src/python/datastore_py.cc"])

p("C92", "A column taken from a store can be used",
  "A column object stays usable whatever is done to the store afterwards. (True exactly as long as the column is not erased, the store is not "
  "cleared or loaded anew, and the store itself is kept by a reference.)",
  "all stores, all sequences of operations",
  "Use after free shows no symptom in most runs, and the sequences of operations are infinitely many.",
  ["src/python/column_py.h", "src/python/datastore_py.cc: GetStringColumn, InitDataStorePy", "gbdt/_data_store.py: DataStore"])

p("C93", "Columns as lists and stores as data frames lose nothing",
  "list(column) is the list of all rows. to_df shows every column and nothing else, with all rows in order. from_df(store.to_df()) "
  "has the same columns and values; with float overrides for the raw columns it has the same types too.",
  "all stores",
  "Iteration depends on an exception at the right index; the round trip ranges over all columns and values.",
  ["gbdt/_data_store.py: to_df, from_df", "src/python/column_py.cc: get", "src/python/gbdt_py_base.cc: ThrowException"])

p("C94", "The number of threads does not matter",
  "predict and predict_and_output give the same result for any two positive numbers of threads, in any arithmetic. train with mse, logloss or huberized_hinge gives the same forest, or the same exception, in exact arithmetic.",
  "all stores, configurations, targets, weights, seeds, base forests, numbers of threads",
  "Slices of the rows depend on the number of threads in five places; a test compares a few numbers on one data set.",
  ["src/gbdt_algo/compute_tree_scores.cc: ComputeTreeScores", "src/gbdt_algo/tree_algo.cc: ComputeWeightedSum", "src/loss_func/loss_func_pointwise.cc: Init", "src/gbdt_algo/evaluation.cc: EvaluateForest"])

p("C95", "The number of threads does not change a single bit",
  "train gives exactly the same forest for any two positive numbers of threads, in floating point arithmetic too.",
  "all stores, configurations, targets, weights, seeds, base forests, numbers of threads",
  "Sums grouped in different ways agree on most data, and where they differ it is usually in the last bit.",
  ["src/gbdt_algo/tree_algo.cc: ComputeWeightedSum", "src/loss_func/loss_func_pointwise.cc: ComputeFunctionalGradientsAndHessians"])

p("C96", "A trained forest predicts on other data",
  "predict on a data store built from a dictionary gives, for every row, the value of the forest for the row's own strings and numbers: at each split a string goes left if it is among the categories, a number if it is below the threshold, a missing number as the split says. A forest trained on one store can be used on every other store whose feature columns have the same types, whatever values and categories it holds.",
  "all dictionaries of fewer than 60000 rows, all typed forests, all training runs, all column orders and numbers of threads",
  "Codes and bucket numbers differ from store to store; tests predict on the training data or on one file.",
  ["src/gbdt_algo/compute_tree_scores.cc: ComputeTreeScores", "src/gbdt_algo/evaluation.cc: ClearInternalFields", "src/gbdt_algo/tree_algo.cc: LoadFeatures", "src/data_store/column.cc: BuildBuckets", "gbdt/_data_store.py: from_dict"])

p("C97", "A row's prediction does not depend on the other rows",
  "predict gives a row the same score whether it is predicted alone or together with other rows.",
  "all data, all typed forests",
  "Differences appear only with 60000 or more rows of different values, and only for rows near a threshold.",
  ["src/data_store/column.cc: BuildBuckets", "src/data_store/column.h: num_buckets", "src/gbdt_algo/compute_tree_scores.cc: ComputeTreeScores"])

p("C98", "Partial dependency plots show what they say",
  "plot_partial_dependency(forest, data, feature, x, x0) shows, for each value v of x (numbers sorted, strings in their order) and each row, the value of the forest for the row with the feature set to v minus that for the row with the feature set to x0 (missing for numbers, the first of x for strings, if x0 is not given). All other values of the row are those of data, which is not changed; nothing is left over from one value to the next. For a feature that the forest does not use all differences are those of a number with itself; a raw column or an unknown name raises ValueError.",
  "all stores of fewer than 60000 rows that can be copied (all from from_dict can), all forests typed for the store, all values, numbers of threads and orders of the hash map",
  "The plot is only looked at; a column left over from the previous value, or a base computed after the first value, gives plots that look plausible.",
  ["gbdt/_partial_dependency_plot.py: plot_partial_dependency", "gbdt/_data_store.py: copy, erase, add_bucketized_float_col, add_string_col", "src/python/datastore_py.cc: Add, Remove", "src/gbdt_algo/evaluation.cc: EvaluateForest"])

p("C99", "Forests survive JSON",
  "str(forest) (and the command line's model file) succeeds exactly if no tree is nested deeper than the JSON writer allows (64); Forest(str(forest)) is then the same forest, field by field: scores, thresholds, directions for missing values, categories, gains, the order of the trees and unset children.",
  "all forests of set trees, all ways of printing numbers that are read back exactly",
  "Tests save one small model; a field that is dropped when it has its default value, or an optional child that comes back as an empty node, shows only for particular trees.",
  ["src/utils/json_utils.cc: ToJson, FromJson", "src/python/forest_py.cc: ctor, ToJson", "src/proto/tree.proto"])

p("C100", "Every trained forest can be saved",
  "A forest returned by train can be converted to JSON, whatever num_leaves is: no configuration makes a trained model impossible to save.",
  "all data, configurations and seeds",
  "Needs a tree with a chain of more than sixty splits; tests train small trees.",
  ["src/utils/json_utils.cc: ToJson", "src/main.cc: Train", "src/python/forest_py.cc: ToJson"])

p("C101", "Pictures of trees are complete",
  "ForestVisualizer(forest).visualize_tree(i) draws tree i: one node for every node of the tree, labelled with its split and score, with names that are all different, and exactly the edges from nodes to their children. It works for every tree of a trained forest that can be saved, if its numbers are finite; num_trees is the number of trees.",
  "all forests that can be written as JSON, all trees of them whose numbers can be printed",
  "Name clashes between nodes or a missed edge show only in trees of particular shapes, and pictures are judged by eye.",
  ["gbdt/_forest_visualizer.py: ForestVisualizer"])

p("C102", "Labels in pictures say where rows go",
  "The condition in the label of a node (feature <= threshold, with a star on the side of missing values; or feature in a set) holds for a row exactly if the forest sends the row to the left child.",
  "all splits and values",
  "The label is text; nothing compares it with the evaluation of trees.",
  ["gbdt/_forest_visualizer.py: _format_float_label, _format_categorical_label", "scripts/draw_trees.py", "src/gbdt_algo/compute_tree_scores.cc", "src/proto/tree.proto: FloatSplit"])

p("C103", "Generators of predictions do not interfere",
  "Several generators made by forest.predict_at_checkpoints, advanced in any order (for example with zip), each yield what they would yield alone: the scores of their own forest at their own checkpoints.",
  "all forests, data, checkpoints, and all orders in which the generators are advanced",
  "Tests exhaust one generator before making the next; the number of interleavings is unbounded.",
  ["gbdt/_forest.py: predict_at_checkpoints", "src/python/forest_py.cc: PredictAndOutput", "src/gbdt_algo/evaluation.cc: EvaluateForest"])

p("C104", "Rows of weight zero are left out",
  "In exact arithmetic, replacing the targets of rows with weight zero does not change what train returns, or whether it raises, for mse, logloss and huberized_hinge (whose targets must remain 1 or -1): a model trained on a bag has not seen the targets out of the bag.",
  "all data, configurations, weights, seeds, base forests, and all replacements of targets in rows of weight zero",
  "A test would compare two models on one data set; the claim is about all replacements, through histograms, splits, leaf values, sampling and the initial constant.",
  ["src/loss_func/loss_func_pointwise.cc: ComputeFunctionalGradientsAndHessians", "src/gbdt_algo/tree_algo.cc: FitTreeToGradients", "src/gbdt_algo/split_algo.cc", "scripts/bagged.py"])

p("C105", "Rows of weight zero are left out, with doubles",
  "As C104 with IEEE doubles.",
  "all data, configurations, weights, seeds, base forests, and all replacements of targets in rows of weight zero",
  "Fails only when the loss of a row of weight zero overflows, which test data does not produce.",
  ["src/loss_func/loss_func_math.cc: ComputeLogLoss", "src/loss_func/loss_func_pointwise.cc", "src/loss_func/gradient_data.h"])

p("C106", "The order of the rows does not matter for numbers",
  "In exact arithmetic, reordering the rows of data that has no string columns, and the targets and weights with them, does not change what train returns, or whether it raises (mse, logloss, huberized_hinge; no sampling of rows). Features may still be sampled, a base forest given, and any number of threads used.",
  "all data without strings, all permutations of its rows, all configurations, weights, seeds, base forests, numbers of threads",
  "A test can shuffle one data set; the claim spans bucketing, histograms, split search, partitioning, leaf values and all trees, for all permutations.",
  ["src/data_store/column.cc: BuildBuckets", "src/gbdt_algo/split_algo.cc", "src/gbdt_algo/tree_algo.cc", "src/gbdt_algo/gbdt_algo.cc: TrainGBDT", "gbdt/_gbdt.py: train"])

p("C107", "The order of the rows does not matter",
  "As C106 for data that may have string columns.",
  "all data, all permutations of its rows, all configurations, weights, seeds, base forests, numbers of threads",
  "Fails only when two categories have equal scores and a split separates them; shuffled test data rarely shows it.",
  ["src/data_store/column.cc: StringColumn::Add", "src/gbdt_algo/split_algo.cc: SortOnNodeScore, FindBestStringSplit"])

p("C108", "Weights count rows",
  "In exact arithmetic and without sampling, giving each row a positive whole number as weight is the same for train as repeating the row that often: the same forest or the same exception (mse, logloss, huberized_hinge; fewer than 60000 rows counted with repetition).",
  "all data, with or without strings, all positive whole weights, configurations, base forests, numbers of threads",
  "Relates two runs on different data through bucketing, histograms, splits, leaf values, initial constants; tests compare one pair at most.",
  ["src/gbdt_algo/split_algo.cc: ComputeHistograms", "src/loss_func/loss_func_pointwise.cc", "src/data_store/column.cc: BuildBuckets", "src/gbdt_algo/tree_algo.cc"])

p("C109", "The number of sampled pairs",
  "In exact arithmetic, a round of training with a pairwise loss draws at most pair_sampling_rate * num_rows / 2 pairs, less than one pair per group below that, and without a group column exactly that number rounded down (if there are two rows with different targets in one group).",
  "all targets, groups, positive rates with fewer than 2^31 pairs, function values, outcomes of the random generator, rounds",
  "A test sees one data set; the claim is about the sum over any number of groups of any size of counts that are rounded down one by one.",
  ["src/loss_func/loss_func_pairwise.cc: Init, ComputeFunctionalGradientsAndHessians", "src/proto/config.proto: pair_sampling_rate"])

p("C110", "Rounding the number of pairs loses less than one pair",
  "The number of pairs that a round draws is less than one pair below pair_sampling_rate * num_rows / 2, so that all groups with different targets are learned from.",
  "all targets, groups, positive rates, function values, outcomes of the random generator, rounds",
  "Test data has few groups with many pairs each; the loss grows with the number of groups and is total for groups of two.",
  ["src/loss_func/loss_func_pairwise.cc: 122", "src/proto/config.proto: pair_sampling_rate"])

p("C111", "equal_group_weight makes the weights of groups equal",
  "With equal_group_weight, the pairs drawn from each group that has pairs weigh the same in total (rows of weight 1, pairs not weighted by the difference of targets).",
  "all targets, groups, positive rates, function values, outcomes of the random generator, rounds",
  "The weights are internal; a test would have to compare groups of different sizes for all roundings.",
  ["src/loss_func/loss_func_pairwise.cc: 83-96, 122-127", "src/proto/config.proto: equal_group_weight"])

p("C112", "Ranking from data to predictions",
  "In exact arithmetic, train with auc, pairwise_logloss or gbrank on a store whose columns have one length never crashes, whatever the features, weights and configuration otherwise; a call with everything in order returns a forest (ranking never diverges); predict then gives one score per row, and training can go on from the forest. Needed: a positive pair_sampling_rate with fewer than 2^31 pairs, two rows of one group with different targets, no missing group.",
  "all stores, targets, weights, groups, features, configurations, base forests, seeds, numbers of threads, outcomes of the generator",
  "Composes the loader, grouping, sampling, tree fitting and scoring for all data; tests run a few data sets.",
  ["gbdt/_gbdt.py: train", "gbdt/_forest.py: predict", "src/python/train_gbdt_py.cc", "src/loss_func/loss_func_pairwise.cc", "src/loss_func/loss_func_factory.cc", "src/gbdt_algo/gbdt_algo.cc"])

p("C113", "The options of ranking mean what they say",
  "In exact arithmetic, train with auc, pairwise_logloss or gbrank consists of num_trees rounds: at the scores of the trees so far, pairs of rows of one group with different targets are drawn, as many per group as pair_sampling_rate says; a pair weighs the product of its row weights, times the difference of the targets with pair_weight_by_delta_target, times a factor inverse to the number of pairs of the group with equal_group_weight; it pulls the better row up and the worse row down by the slope of the loss at the difference of their scores (huberized hinge, logistic loss, squared hinge with the difference of targets as margin); a tree is fitted to that and shrunk. Predictions are the sum of the trees, without constants.",
  "all stores, targets, weights, groups, features, configurations, base forests, seeds, numbers of threads, outcomes of the generator",
  "The sampled pairs and gradients are internal and random; the claim is about every round of every run.",
  ["src/loss_func/loss_func_pairwise.cc", "src/loss_func/loss_func_auc.h", "src/loss_func/loss_func_pairwise_logloss.h", "src/loss_func/loss_func_gbrank.h", "src/loss_func/loss_func_math.cc", "src/loss_func/group.cc", "src/proto/config.proto"])

p("C114", "Ranking uses the order of the targets",
  "With auc or pairwise_logloss and without pair_weight_by_delta_target, train uses nothing of the targets but the order (ties included) of the rows within each group: targets that order the rows of each group alike give the same forest, exception or crash, in any arithmetic. With all three losses for ranking (gbrank too) and any options it uses nothing but order and differences within groups; in exact arithmetic, adding a number to the targets of a group, for each group its own, changes nothing.",
  "all stores, pairs of target lists, weights, groups, features, configurations, base forests, seeds, numbers of threads, arithmetics",
  "A relation between two runs for all pairs of target vectors; tests compare a run with fixed numbers.",
  ["gbdt/_gbdt.py: train", "src/loss_func/group.cc", "src/loss_func/loss_func_pairwise.cc", "src/loss_func/loss_func_auc.h", "src/loss_func/loss_func_pairwise_logloss.h", "src/loss_func/loss_func_gbrank.h"])

p("C115", "Units of numeric features and names of categories do not matter",
  "Scaling numeric features and renaming the categories of string features, in the same way for training and for the data to predict for, leaves what train returns as it is up to thresholds and category names (same shapes, leaf scores, features, gains, or the same exception) and leaves all predictions as they are, for every loss, sampling, weights, groups and arithmetic. Renaming may be any injective map that keeps the marker __missing__; scaling any strictly increasing map under which the thresholds training can choose keep the same values on either side, which includes, in exact arithmetic, increasing linear maps on values not below all training values (on all values if none is missing in training).",
  "all data sets, maps of numbers and strings, losses, configurations, seeds, thread counts, other data",
  "A relation between two runs over all data and all transformations; a test compares fixed numbers.",
  ["src/data_store/column.cc: BuildBuckets, StringColumn::Add", "src/gbdt_algo/split_algo.cc", "src/gbdt_algo/gbdt_algo.cc", "gbdt/_gbdt.py: train", "src/python/forest_py.cc: Predict"])

p("C116", "Monotone transformations and training rows",
  "Any strictly increasing transformation of a numeric feature leaves the predictions for the training rows as they are.",
  "all data sets, strictly increasing functions, configurations",
  "A relation between two runs over all transformations.",
  ["src/gbdt_algo/split_algo.cc:119-123", "src/gbdt_algo/split_algo.cc:222-231"])

p("C117", "Multiplying a feature by a positive number",
  "In exact arithmetic, multiplying numeric features by positive numbers, in training and in the data to predict for, leaves predictions as they are.",
  "all data sets, positive factors, configurations, other data",
  "A relation between two runs over all factors and all other data.",
  ["src/gbdt_algo/split_algo.cc:222-231"])

p("C118", "Which JSON is a forest, and which",
  "Reading JSON as a forest succeeds exactly for objects made of the fields of the messages with values of their types and nesting within the parser's limit, and gives exactly the forest the fields say: names in camelCase or snake_case, null as not given, missing numbers as 0, missing flags as false, missing children as absent. Anything else (unknown fields, wrong types, a non-object) is refused, and no JSON means two forests.",
  "all JSON values in which no object gives a field twice, all number codecs in which an object is not a number, all nesting limits",
  "A characterization over all JSON values, hand-written ones included; tests read a few that the code itself has written.",
  ["src/utils/json_utils.cc:58-67", "src/proto/tree.proto:20-51", "gbdt/_forest.py"])

p("C119", "From TSV files to predictions",
  "With pointwise losses, training on TSV files never crashes: it ends with an error (or exception), or gives a model that can be read back and whose splits fit the types of the configured columns. Testing that model on files whose header has the configured columns and whose lines have their cells writes a score file for every checkpoint; every file has one score per data line, and the score is the value of the trees up to the checkpoint for the cells of that line. The same holds for DataStore.from_tsvs, train and predict from Python.",
  "all file contents, headers, configurations with distinct column names, base models, seeds, schedules of the loading pool, sort and hash orders, numbers of threads; fewer than 60000 lines to test, no cell above FLT_MAX, no column on which bucketing crashes",
  "Composes parsing, bucketing, training, JSON and scoring for all files; tests run one file through.",
  ["src/main.cc:88-190", "src/data_store/tsv_data_store.cc:39-216", "gbdt/_data_store.py:109-122", "src/python/datastore_py.cc:37-57", "src/gbdt_algo/evaluation.cc:40-103"])

p("C120", "Testing needs only the features of the model",
  "--mode=test works on TSV files that have the features named in the configuration, with readable cells.",
  "all models, configurations and files",
  "A statement about all files and configurations; tests use files with every column.",
  ["src/data_store/tsv_data_store.cc:133-216", "src/main.cc:161-190"])

p("C121", "The program and the Python package agree on TSV files",
  "DataStore.from_tsvs with the columns named in a configuration gives the store the program loads, and raises exactly when the program stops. The program then writes a model exactly if train with the same features, configuration, weights, base model, seed and number of threads returns a forest that can be written as JSON; it writes that forest, and its feature importance. The score files of --mode=test are those of predict_and_output.",
  "all files, configurations with distinct column names, both sampling rates and a target column, base models, weights, losses, seeds, numbers of threads, schedules of the loading pools; hash sets are listed in an order given by their contents",
  "Relates two front ends for all inputs; tests of either do not compare them.",
  ["src/main.cc:88-190", "src/python/train_gbdt_py.cc:42-118", "src/python/datastore_py.cc:37-57", "gbdt/_data_store.py:109-122", "gbdt/_gbdt.py:4-49"])

p("C122", "What a configuration file means",
  "A configuration is read from exactly those JSON objects whose names are names of configuration fields (in camelCase or snake_case) and whose values have the fields' types. Each field then has the value given for it; null counts as not given, and what is not given is 0, false, empty or without elements.",
  "all JSON values that give no field twice, all readers of numbers and booleans",
  "Characterizes the accepted configurations and their meaning; tests read a few files.",
  ["src/utils/json_utils.cc:58-67", "src/proto/config.proto:20-70", "src/main.cc:115-119", "src/python/train_gbdt_py.cc:51-53"])

p("C123", "train reads its dictionary as the program reads its file",
  "gbdt.train with a dictionary gives the forest, or raises the error, that training with the configuration the dictionary means gives, with the features of the argument features and with rates of 1 where the dictionary has none. It raises ValueError if an entry other than the features has a name that is not a field's or a value that is not of the field's type.",
  "all dictionaries that give no field twice, write float_feature, categorical_feature and the two sampling rates in snake_case, and give no rate as None; all stores, targets, features, weights, base models, seeds, numbers of threads",
  "Combines edits of a dictionary, JSON and message reading, for all dictionaries.",
  ["gbdt/_gbdt.py:4-49", "src/python/train_gbdt_py.cc:42-118", "src/proto/config.proto:20-70"])

p("C124", "The spelling of fields and None in the dictionary do not matter",
  "gbdt.train gives the same result if a field of the dictionary is spelled in camelCase instead of snake_case, and if a field is None instead of missing.",
  "all dictionaries that give no field twice, all stores and features",
  "Needs all fields in both spellings; a test would have to guess the failing ones.",
  ["gbdt/_gbdt.py:36-41", "src/proto/config.proto:37-39", "src/gbdt_algo/utils.cc:204-228"])

p("C125", "Columns that are not named do not matter",
  "Removing a column from a store changes neither what gbdt.train does nor what predict returns, if it is no feature, target or group column and no feature of the base forest or of the forest. The program writes the same model and the same scores for two tables that have the same cells under the names that the configuration and the forests use: the order of the columns, other columns of the table, blank lines, spaces around headers and additional columns that are asked for do not matter.",
  "all stores, sets of columns to keep, features, configurations, targets, weights, base forests, seeds and numbers of threads; all pairs of tables and configurations that can be loaded and agree on the named columns",
  "A statement about the absence of any influence, for all tables; a test sees one table.",
  ["src/gbdt_algo/gbdt_algo.cc:122-206", "src/gbdt_algo/compute_tree_scores.cc:32-68", "src/gbdt_algo/utils.cc:40-77", "src/data_store/tsv_data_store.cc:39-216", "gbdt/_gbdt.py:4-49", "src/main.cc:106-190"])

p("C126", "Flat files are as good as a store in memory",
  "With --flatfiles_dirs, the program writes the model, feature importances and score files that it writes on a store holding the columns of the files, whichever thread loads which column when and whichever of weights and targets the compiler loads first. A file that is missing, of unknown type or of another number of rows than the targets counts as a missing column.",
  "all files whose reading is defined, with a non-empty target column of n rows; all configurations, base forests with features of the configuration, schedules of the loading threads, orders of the hash map, seeds, numbers of threads; testing for all forests with features",
  "Columns are loaded lazily by concurrent threads; a test sees one schedule and one set of files.",
  ["src/data_store/flatfiles_data_store.cc:33-140", "src/gbdt_algo/utils.cc:40-77", "src/gbdt_algo/utils.cc:157-193", "src/main.cc:88-190"])

p("C127", "TSV files and flat files of a table give the same results",
  "If a table can be loaded from TSV files and there are flat files with the same cells for the columns that the configuration names, then the program writes the same model and feature importances from the TSV files and from the flat files, and the same score files for a forest on these columns.",
  "all tables of 1 to 3,000,000 rows whose cells do not start with #, all configurations with distinct column names, numbers of TSV files, schedules, base forests, seeds, numbers of threads",
  "Relates two loaders and everything after them, for all tables.",
  ["src/data_store/flatfiles_data_store.cc:33-140", "src/data_store/tsv_data_store.cc:39-216", "src/data_store/column.cc:191-305", "src/main.cc:88-190"])

p("C128", "The converter's flat files can be loaded",
  "Every column of a table can be loaded, under its name, from the flat files that scripts/convert_tsv_to_filatfiles.py makes of it. (False: the script gives float features the type binned_floats, which the store does not know, and replaces spaces and slashes in file names.)",
  "all tables whose rows have a cell on one line for every column, with distinct file names",
  "The script and the store are never tested together; the claim is about all tables.",
  ["scripts/convert_tsv_to_filatfiles.py:7-29", "src/data_store/flatfiles_data_store.cc:33-140"])

p("C129", "Every row of flat files gets a score",
  "The score files that --mode=test writes from flat files have one score per row of the files. (False for forests without a split: no column is loaded, the store has no rows, and empty files are written.)",
  "all sets of flat files with n rows, all forests whose features are among them",
  "The failing case is a forest that most tests never produce; the positive part is about all forests and files.",
  ["src/gbdt_algo/evaluation.cc:57-103", "src/data_store/data_store.cc:67-69", "src/data_store/flatfiles_data_store.cc:33-140"])

p("C130", "All columns of a flat file store have the same number of rows",
  "Whatever calls of GetColumn are in progress, all columns of a flat file store have the same number of rows, and testing that succeeds has found all features with the same number of rows. (False in general: the check is skipped while the store's first column is empty; training with an empty weight file either aborts or reads out of bounds, depending on the order in which the compiler evaluates arguments.)",
  "all sets of flat files, requested names and schedules of the calls; the positive part for files without empty columns",
  "About all interleavings of loading threads and about an order of evaluation that no test can choose.",
  ["src/data_store/flatfiles_data_store.cc:76-84", "src/data_store/data_store.cc:67-69", "src/main.cc:137-144"])

p("C131", "Only the proportions of sample weights matter, if the limits are changed with them",
  "If all sample weights, l2_lambda, min_hessian and min_gain are multiplied by the same number, train gives a forest with the same splits and the same scores, hence the same predictions and the same feature importances; only the gains noted in it are multiplied. It raises or aborts in the same cases.",
  "all stores, targets, weights (none given counts as weights of 1), features, seeds, numbers of threads and configurations with mse, logloss or huberized_hinge and min_gain not below 1e-6 before and after; arithmetic without rounding; any sort and any priority queue that look at keys only by comparing them",
  "Relates two runs of the whole training loop for every data set and factor.",
  ["src/loss_func/loss_func_pointwise.cc:34-92", "src/gbdt_algo/split_algo.cc:33-285", "src/gbdt_algo/tree_algo.cc:43-179", "src/gbdt_algo/gbdt_algo.cc:50-206", "src/loss_func/gradient_data.h:21-62", "src/gbdt_algo/utils.cc:79-108"])

p("C132", "Without regularization only the proportions of sample weights matter",
  "With l2_lambda, min_hessian and min_gain of 0, multiplying all sample weights by the same number does not change predictions. (False: gains are compared with a fixed tolerance of 1e-6, so with small weights, such as weights that add up to 1, no tree is split.)",
  "all stores, targets, weights, factors > 0, configurations with mse, logloss or huberized_hinge; the positive part with the tolerance multiplied as well",
  "Relates two runs for every data set and factor; tests use weights around 1.",
  ["src/gbdt_algo/split_algo.cc:33", "src/gbdt_algo/split_algo.cc:193", "src/loss_func/loss_func_pointwise.cc:34-92", "src/gbdt_algo/tree_algo.cc:43-179", "src/gbdt_algo/gbdt_algo.cc:50-206"])

p("C133", "Negated targets give negated predictions",
  "If all targets are negated, train on float features gives a forest with the same splits and negated scores, and its predictions are the negated predictions, exactly, also with doubles. It raises or aborts in the same cases.",
  "all stores, non-empty targets, weights, features that are not strings, configurations with mse, logloss or huberized_hinge, seeds and numbers of threads; any arithmetic whose rounding is symmetric, proved of IEEE doubles",
  "Relates two runs of the whole training loop for every data set, up to the last bit.",
  ["src/loss_func/loss_func_pointwise.cc:34-92", "src/loss_func/loss_func_mse.h:27-30", "src/loss_func/loss_func_logloss.cc:31-42", "src/loss_func/loss_func_huberized_hinge.cc:29-40", "src/gbdt_algo/split_algo.cc:33-285", "src/gbdt_algo/tree_algo.cc:43-179", "src/gbdt_algo/gbdt_algo.cc:50-206"])

p("C134", "Negated targets give negated predictions, with string features",
  "The same with string features. (False: categories are sorted by mean gradient and the first of several best splits is taken; among equally good splits negated targets lead to another one.)",
  "all stores, targets, weights, features, configurations with mse, logloss or huberized_hinge",
  "Needs a tie between two splits; and the claim relates two runs.",
  ["src/gbdt_algo/split_algo.cc:95-285", "src/gbdt_algo/tree_algo.cc:43-179"])

p("C135", "The unit of the targets does not matter to squared error",
  "With mse and min_gain 0, multiplying all targets by a positive number multiplies all predictions by it. (False: the tolerance for gains, 1e-6, and the threshold of the convergence test, 1e-4, are absolute. Targets such as rates of a few in 10000 are not fitted.)",
  "all stores, targets, factors > 0, weights, features, configurations with mse; the positive part with threshold and tolerance in the unit of the targets and its square",
  "Relates two runs for every data set and factor.",
  ["src/gbdt_algo/split_algo.cc:33", "src/gbdt_algo/split_algo.cc:193", "src/loss_func/loss_func_pointwise.cc:34-92", "src/gbdt_algo/tree_algo.cc:43-179", "src/gbdt_algo/gbdt_algo.cc:50-206"])

p("C136", "Every row has one out-of-bag score, and it is from the one bag that the row is out of",
  "scripts/bagged.py: every row has weight zero in exactly one bag and weight one in the others. When the script has finished, there is an in-bag and an out-of-bag score for every row and every test point; the out-of-bag score of a row is its score by the model of the one bag that the row is out of, the in-bag score is the mean of its scores by the models of all other bags.",
  "all flat files, configurations, numbers of bags, Python hash functions (also negative hashes), test intervals, machines, schedules of threads",
  "Hashes of strings differ between Python versions and runs; the claim is about every hash function and every number of bags.",
  ["scripts/bagged.py:33-36", "scripts/bagged.py:41-45", "scripts/bagged.py:47-70", "scripts/bagged.py:118-136"])

p("C137", "Out-of-bag scores are honest",
  "scripts/bagged.py: the target of a row does not matter to its out-of-bag scores. The model of the bag that the row is out of, and all score files of that bag, are the same whatever the target is.",
  "all flat files with n > 0 targets, rows, targets (of the same class or none, for the losses for two classes), configurations with mse, logloss or huberized_hinge whose target is not a feature and not the group, hash functions, numbers of bags, seeds, schedules of threads; arithmetic without rounding (0 times a gradient is 0)",
  "Relates two runs of a script that runs the program once per bag, for every data set; a leak would show in the quality of the scores only.",
  ["scripts/bagged.py:72-136", "src/main.cc:106-190", "src/gbdt_algo/utils.cc:157-183", "src/gbdt_algo/gbdt_algo.cc:122-206", "src/loss_func/loss_func_pointwise.cc:34-92"])

p("C138", "Bagging succeeds if the program succeeds for every bag",
  "scripts/bagged.py with two bags or more writes its scores if training and testing succeed for every bag. (False: the model of a bag may have no split; then its score files are empty, see C129, and the script raises IndexError. Also, rows are counted by the lines of an arbitrary file that are not blank: with blank rows in it the file of weights is too short and training aborts. With one bag there is a ZeroDivisionError.)",
  "all flat files with n > 0 targets, configurations, hash functions, numbers of bags",
  "Needs a bag with constant targets, or a string column with empty cells that happens to be listed first.",
  ["scripts/bagged.py:33-36", "scripts/bagged.py:82-85", "scripts/bagged.py:87-136"])

p("C139", "Bagging respects the sample weights of the configuration",
  "scripts/bagged.py: rows to which the weight column of the configuration gives weight zero do not matter to bagging, as they do not matter to training (C104). (False: the script replaces the weight column by its own weights; the weights of the configuration are not used at all.)",
  "all flat files, configurations with a weight column",
  "The script runs without complaint; only comparing models shows it.",
  ["scripts/bagged.py:80-85", "src/gbdt_algo/utils.cc:157-168"])

p("C140", "Adding a constant to all targets adds it to all predictions",
  "train with squared error: if the same number s is added to all targets, the forest is the same but for the score of its first, constant tree, which is larger by s, and all predictions on all data are larger by s. This holds as long as neither the weighted mean of the targets nor that mean plus s is within the convergence threshold (0.0001) of zero.",
  "all stores, features, targets, weights with a total other than zero, shifts, configurations with mse (sampling and regularization included), seeds, numbers of threads; exact arithmetic, no base forest",
  "Relates two training runs on arbitrary data over any number of rounds; tests compare single runs with stored results.",
  ["src/gbdt_algo/gbdt_algo.cc:122-206", "src/loss_func/loss_func_pointwise.cc:34-92", "src/loss_func/loss_func_math.cc:24-26", "src/gbdt_algo/compute_tree_scores.cc:32-68"])

p("C141", "Adding a constant to all targets adds it to all predictions, whatever the targets",
  "As C140, for all targets. (False: when the mean of the targets is below the convergence threshold, the loop that computes the constant stops after one step; the constant is the mean, but the trees are fitted to targets from which it has not been taken. Targets that are nearly balanced around zero give other trees than the same targets plus one.)",
  "all stores, features, targets, shifts, configurations with mse",
  "The difference is small and only visible between two runs; no single run looks wrong.",
  ["src/loss_func/loss_func_pointwise.cc:34", "src/loss_func/loss_func_pointwise.cc:63-87"])

p("C142", "compute_metrics.py prints the discounted utility per group",
  "compute_metrics.py on a group, a score and a target file: if the files have whole lines and equally many data rows and the rows of each group follow one another, then for every target value that occurs, and for total, dcu_<value> is the sum over the rows with that target of discount(position) * target, divided by the number of groups. The position of a row is its rank in its group by falling score, ties in the order of the file. No other dcu lines are printed.",
  "all files of whole lines with equally many rows (comments included), groups, scores, targets, discount functions; exact arithmetic, before rounding to four digits",
  "The result depends on sorting, run detection and a dictionary of sums over arbitrary files; the script has no tests.",
  ["scripts/compute_metrics.py:28-85"])

p("C143", "No score file beats the targets themselves in dcu_total",
  "compute_metrics.py: dcu_total is largest when the target file itself is given as score file, since the discount falls with the position.",
  "all group, score and target files with equally many rows; the discount of the script over the reals, and any that does not grow",
  "A statement over all orders of all groups (the rearrangement inequality).",
  ["scripts/compute_metrics.py:55-56", "scripts/compute_metrics.py:62-85"])

p("C144", "compute_metrics.py depends on the order of the scores only",
  "compute_metrics.py: two score files that order the rows within each group in the same way (with the same ties) give the same output.",
  "all files with equally many rows, all scores with the same order in each group",
  "Relates two runs on arbitrary files.",
  ["scripts/compute_metrics.py:34-52", "scripts/compute_metrics.py:73-85"])

p("C145", "compute_metrics.py notices files of different lengths",
  "If compute_metrics.py ends without an exception, the group, score and target files have equally many rows. (False: when the scores or targets end early, StopIteration ends the generator of groups; the group that was being read and all later ones are left out without a word. With an empty score file, which the program writes for a forest without splits, nothing is printed.)",
  "all files",
  "The failure is silent: the numbers look like those of a complete run.",
  ["scripts/compute_metrics.py:41-43", "scripts/compute_metrics.py:79-85"])

p("C146", "count_total is the mean number of rows per group",
  "compute_metrics.py: count_<value> and count_total are the numbers of rows divided by the number of groups. (False: these are integers and Python 2 divides them rounding down, though four decimals are printed. What holds is the quotient rounded down.)",
  "all files of whole lines with equally many rows and groups that are together",
  "With as many rows as a multiple of the groups the number is right.",
  ["scripts/compute_metrics.py:68-69", "scripts/compute_metrics.py:85"])

p("C147", "compute_metrics.py counts each group once, wherever its rows are",
  "As C142 for dcu_total, without the rows of a group having to follow one another. (False: a group whose rows are apart is taken for several, and each part is ranked by itself. The same happens to the last row when the group file does not end in a newline, as lines are compared with their newlines.)",
  "all files of whole lines with equally many rows",
  "The training code accepts such group columns, so that the same data give right models and wrong metrics.",
  ["scripts/compute_metrics.py:41-52"])

p("C148", "compute_rmse.py ends normally only with the right result",
  "compute_rmse.py on files whose data lines are numbers: it ends without an exception exactly if both files have equally many rows and at least one, and then it has printed the root of the mean squared difference. (Otherwise a number may have been printed before the exception, which is not that of any set of rows: the sum over the common rows divided by the number of scores.)",
  "all files whose data lines parse",
  "Covers all lengths of both files.",
  ["scripts/compute_rmse.py:6-13"])

p("C149", "A bucket holds no more than its share of rows",
  "BucketizedFloatColumn with at most 100*num_buckets rows of finite or missing values: call a number frequent if it has at least rows/num_buckets rows. In every bucket, the rows whose numbers are not frequent are fewer than the even share (the rows of all other values divided by the buckets that frequent numbers leave over) plus rows/num_buckets.",
  "all columns of at most 100*num_buckets rows fed in any blocks, all numbers of buckets for which feeding is defined (C08)",
  "A bound over all histograms; tests look at single columns.",
  ["src/data_store/column.cc:35-51", "src/data_store/column.cc:257-305"])

p("C150", "A frequent number has a bucket of its own",
  "BucketizedFloatColumn: a number held by at least rows/num_buckets rows has a bucket in which there is nothing else, as the comment in BuildBuckets says. (False: infrequent numbers below it that lie in the same bin end up in its bucket. It is the maximum of its bucket, though, so that different frequent numbers are never in one bucket.)",
  "all columns of at most 100*num_buckets rows",
  "Only shows when a frequent number falls between two numbers of one bin.",
  ["src/data_store/column.cc:277-287", "src/data_store/column.cc:288-292"])

p("C151", "Binning has equal frequencies",
  "The tutorial says that float features are bucketized with equal frequency binning: no bucket has more than a few times the average number of rows, apart from numbers that are frequent themselves. (False: when frequent numbers take nearly all buckets, all other numbers share what is left, however many there are, since they may get at most num_buckets buckets together. With fewer than half of the buckets taken it holds with a factor of three.)",
  "all columns of at most 100*num_buckets rows of finite or missing values",
  "Needs columns that mix many repeated values with many single ones; precision is lost silently.",
  ["src/data_store/column.cc:272-291", "docs/TUTORIAL.md:37-38"])

p("C152", "Useless features make no difference",
  "gbdt.train with all rows and features sampled: adding a feature whose value is the same in every row, or one that holds the same as a feature listed before it, leaves the outcome as it is: the same forest or the same exception.",
  "all stores of well-formed columns, all losses, configurations with sampling rates 1 or unset, targets, weights, base forests, seeds, numbers of threads; other features listed in the same order",
  "A statement about all pairs of runs; unit tests compare no two runs.",
  ["src/gbdt_algo/tree_algo.cc:75-115", "src/gbdt_algo/tree_algo.cc:117-179", "src/gbdt_algo/split_algo.cc:165-285"])

p("C153", "Useless features make no difference when rows are sampled",
  "The same with example_sampling_rate below 1, from the same seed. (False: even if all features are used one number is drawn per feature and node, from the generator that samples the rows, so every later tree sees other rows. It holds for the first tree.)",
  "all stores, all example_sampling_rates",
  "Runs differ by sampling only, so the difference passes for noise.",
  ["src/utils/subsampling.cc:34-43", "src/gbdt_algo/tree_algo.cc:81-82", "src/gbdt_algo/tree_algo.cc:129-130"])

p("C154", "Huberized hinge: more trees never fit the training data worse",
  "Training with loss huberized_hinge as in C84 (all rows, weights and l2_lambda not negative, shrinkage between 0 and 1, exact arithmetic): the predictions of the returned forest have no larger loss on the training data than those of the base forest or zeros. (False: where the loss is a line its hessian is 0, so the Newton step of a leaf is its gradient divided by little more than l2_lambda; two trees can multiply the loss. With l2_lambda at least half of the weight of all rows no tree makes the loss larger than it was where its gradients were computed.)",
  "all stores, targets 1 and -1, weights, base forests, configurations",
  "It takes data on which some rows of a leaf are already fitted; typical runs shrink the steps enough to hide it.",
  ["src/loss_func/loss_func_math.cc:33-43", "src/loss_func/gradient_data.h:52-55", "src/gbdt_algo/tree_algo.cc:117-179"])

p("C155", "The program writes the files it promises and no others",
  "A run of the program with --mode=train changes no file but <output_dir>/<output_model_name>.json and .fimps; with --mode=test none but <output_dir>/forest.<k>.score for positive k. After success these hold the model trained as the flags tell, a line `feature<TAB>importance` per feature, and per number of trees tested one line per score. A wrong mode, or flags missing, end the run with an error; a run that ends with an error has changed no file unless one of the files to write cannot be opened.",
  "all flags, file systems, platforms",
  "Tests call the functions that main uses, not main; that nothing else is written, in every run, cannot be seen from samples.",
  ["src/main.cc:64-190", "src/gbdt_algo/evaluation.cc:40-87", "src/utils/utils.cc:26-48", "src/flags.cc:19-29"])

p("C156", "Train, then test, through files",
  "If --mode=train with --tsvs ends with success, --mode=test with the same configuration file and the model file written, on files that have the columns of the configuration, ends with success, and each score file holds, line by line, the values of the first k trees of the trained forest for the lines of the data. (Assumed: protobuf reads back the JSON it wrote; the model does not overwrite the configuration or the data; the score files can be opened; the limits of C119.)",
  "all flags, file systems, configurations, data, orders of threads",
  "It joins flags, paths, JSON, loading, training, evaluation and printing; no test runs the program.",
  ["src/main.cc:106-190", "src/gbdt_algo/utils.cc:195-202", "src/gbdt_algo/evaluation.cc:57-87"])

p("C157", "A file named in a flag that does not exist is noticed",
  "A run that is given, in a flag, a file that does not exist ends with an error. (False: --training_weight_file is defined but read nowhere, so training succeeds and ignores the weights; and --tsvs is ignored without a word if --flatfiles_dirs is given too. True of the configuration, the base model when training, the model when testing, and --tsvs alone.)",
  "all flags and file systems",
  "Tests do not run main; a flag that is never read needs an argument about all runs.",
  ["src/flags.cc:21", "src/main.cc:88-129", "src/main.cc:161-180", "src/utils/utils.cc:26-41"])

p("C158", "A model that has been trained is saved",
  "If the data and the configuration can be trained on, --mode=train leaves the model in the output directory. (False: the output directory is made after training, one level deep, and the result of mkdir is not looked at; with --output_dir=runs/first and no directory runs the process trains, then dies, and the model is lost. True if the output directory, or the one it is in, exists and the name of the model has no slash.)",
  "all flags, file systems, data and configurations",
  "Tests do not run main; the failure takes a missing parent directory.",
  ["src/main.cc:147-158", "src/utils/utils.cc:43-48"])

p("C159", "The score files are those of the model tested",
  "After --mode=test, the files forest.<k>.score in the output directory are those of the model tested. (False: files of an earlier test of a model with more trees stay. True if there were none before.)",
  "all flags, file systems and models",
  "Only a second run into the same directory shows it.",
  ["src/main.cc:182-187", "src/gbdt_algo/evaluation.cc:66-79"])

p("C160", "The buckets of a column are disjoint intervals around its numbers",
  "For a bucketized column of numbers below the largest float, buckets() gives (nan, nan), then intervals in rising order without common points whose ends are numbers of the column, and last one that ends at the largest float (and begins there too, unless the column has more than 100 times as many rows as buckets). Every number of the column lies in one of them, and column[i] is the lower end of that one.",
  "all columns that fit (fewer than 2^32 rows and buckets), all numbers of buckets, values in any blocks",
  "It is about all lists of values; a test can compare a few lists.",
  ["src/python/column_py.cc:100-107", "src/data_store/column.cc:191-305", "src/data_store/column.h:144-155"])

p("C161", "Indexing a store picks rows or a column",
  "data_store[k] has the columns of the store and row k alone; data_store[a, b] has the rows from a to b - 1 and none if b <= a; data_store[[i, j, ...]] has the rows of the list in its order; data_store[name] is the column, or ValueError. An integer that is no row, negative ones too, raises IndexError if there is a column. (The limits of C80: fewer than 60000 rows picked, and no bucketized column with exactly 29999 different numbers in them.)",
  "all stores, keys, orders of the hash map",
  "It is about all stores and keys.",
  ["gbdt/_data_store.py:11-33", "gbdt/_data_store.py:82-91", "src/python/column_py.cc:42-98"])

p("C162", "Which score files testing writes",
  "After training without a base model and testing the model written, both with success, there is a file forest.<p>.score for exactly those positive p that are num_trees + 1 or, if eval_interval > 0, num_trees + 1 - i * eval_interval; the testing changes no other file. This holds for every loss, for TSV and flat files, and for any data.",
  "all flags, file systems, configurations, data, losses, orders of threads",
  "It joins the number of trees of training (with the constant tree and failures of the loss), the model file, and the test points.",
  ["src/main.cc:106-190", "src/gbdt_algo/evaluation.cc:57-103", "src/gbdt_algo/gbdt_algo.cc:119-206"])

p("C163", "The benchmark finds its score files",
  "When the commands of examples/benchm-ml/run.py have ended with success, the score files it opens are there. (False: it opens forest.{1,21,...,181}.score, but the configurations that come with it have num_trees 20 and eval_interval 20, so that only those for 1 and 21 trees are written. True for a multiple of 20 trees, at least 180, and an interval of 20.)",
  "all models, files and data",
  "The script needs the data and the program; that no data helps is a statement about all runs.",
  ["examples/benchm-ml/run.py:11-44", "examples/benchm-ml/benchm-ml.logloss.config", "src/gbdt_algo/evaluation.cc:57-103"])

p("C164", "The testing command of the tutorial tests",
  "After the command under \"Run testing\" in the tutorial has ended with success, there are score files in scores. (False: it lacks --mode=test, and the default is train: it trains a model on the test data, writes it to scores/forest.json, and writes no score file, whatever the files. True with --mode=test.)",
  "all files",
  "Documentation is not tested; that no score file is ever written is a statement about all runs.",
  ["docs/TUTORIAL.md:140-150", "src/flags.cc:28", "src/main.cc:64-78"])

p("C165", "A loop over a store goes through its rows",
  "`for x in data_store` has as many steps as the store has rows. (False: over a store without columns it never ends, as every index gives an empty store and never IndexError. True with a column: step j is a store with the same columns and row j alone.)",
  "all stores, orders of the hash map",
  "That a loop never ends cannot be tested.",
  ["gbdt/_data_store.py:23-25", "gbdt/_data_store.py:82-91"])

p("C166", "Rows and features are sampled independently, at one rate",
  "Let the generator give one of finitely many equally likely numbers at each draw. Then each sample of UniformSubsample is as likely as by independent choices with the same probability for every row: the share of numbers below the rate. So the sequences of numbers that give a sample T are (numbers below the rate)^|T| times (others)^(n - |T|), and each row is in the sample with exactly that probability.",
  "all numbers of rows, rates, sets of values of the generator, samples",
  "A distribution cannot be tested; a test sees single draws of one seed.",
  ["src/utils/subsampling.cc:34-43"])

p("C167", "Sampling pairs is fair",
  "In exact arithmetic and for a generator that gives every index of a group with the same chance, the gradient of a row in a pairwise loss, averaged over all that a round can draw, is the sum over the groups of (number of pairs drawn / number of pairs) times what all pairs of rows of that group of which the first has the larger target add to the gradient of the row; the same for its hessian. If the numbers of pairs drawn need no rounding, that is the sampling probability times the gradient for all pairs.",
  "all data, groups, functions, losses of pairs, options (pair weights, equal_group_weight, LambdaMART), rounds",
  "It is about the average over all outcomes of the draws.",
  ["src/loss_func/loss_func_pairwise.cc:98-160", "src/loss_func/group.cc:25-76", "src/loss_func/loss_func_lambdamart.cc:52-71"])

p("C168", "What the log of training says (pointwise losses)",
  "Training logs one message per tree that it adds, however it ends, and logging changes nothing else. In exact arithmetic the loss in the message of a round is the weighted mean loss over all rows at the function values before the round plus the constant of the round before its last correction: the point at which the gradients are taken to which the tree of the round is fitted. The percentage is the reduction of that loss from the one of the first message (0 if that is 0), provided that is not negative. The loss after the last tree is never reported.",
  "all data, pointwise losses, configurations, base forests, numbers of trees; the first part for all floating-point arithmetic",
  "The messages depend on a state kept between calls (initial_loss_) and on where a loop of up to ten passes stops; no test looks at the log.",
  ["src/loss_func/loss_func_pointwise.cc:40-102", "src/loss_func/loss_func_pointwise.h:41-48", "src/gbdt_algo/gbdt_algo.cc:157-195"])

p("C169", "The log of training with squared error never goes up",
  "Training with mse in exact arithmetic on all rows, shrinkage between 0 and 1, l2_lambda not negative and weights that are not negative nor all zero: the losses in the log never go up, the reductions are between 0 and 100 % and never go down, and the forest that is returned fits the training data at least as well as every message says.",
  "all data, weights, base forests, configurations as described, numbers of trees",
  "It is a statement about all data sets and all rounds.",
  ["src/loss_func/loss_func_pointwise.cc:51-102", "src/gbdt_algo/gbdt_algo.cc:157-195"])

p("C170", "The reduction in the log is between 0 and 100 %",
  "Whatever the pointwise loss, the reduction that a message reports is between 0 and 100 %. (False with the huberized hinge: -705 % in the third message of a run on seven rows. True is that it is never above 100 and starts at 0.)",
  "all data, pointwise losses that are never negative, configurations",
  "Whether the loss can go up depends on hessians of 0 in leaves that hold mostly rows beyond the parabola; tests use data where it goes down.",
  ["src/loss_func/loss_func_pointwise.cc:51-102", "src/loss_func/loss_func_math.cc:33-43"])

p("C171", "What the log of training says (pairwise losses)",
  "Training with a pairwise loss (pairwise logloss, LambdaMART, ...) logs one message per tree, and logging changes nothing else. In exact arithmetic the loss in the message of a round is the weighted mean, over the pairs drawn in that round, of the loss of the difference of the function values before the round; these are the pairs whose gradients the tree of the round is fitted to. The percentage is the reduction from the loss of the first message (0 if that is 0), provided that is not negative.",
  "all data, group columns, pairwise losses, outcomes of the random draws, configurations, base forests; the part about changing nothing for all floating-point arithmetic",
  "The loss is accumulated by tasks over slices of groups that are ranked anew meanwhile, over random pairs; no test looks at the log.",
  ["src/loss_func/loss_func_pairwise.cc:98-182", "src/loss_func/loss_func_pairwise.h:54-70", "src/gbdt_algo/gbdt_algo.cc:157-195"])

p("C172", "The loss in the log depends on the model only (pairwise losses)",
  "The same function values give the same reported loss, so that the reduction in the log tells how much better the model has become. (False: the loss is taken over the few pairs of the round. Two rounds at the very same values can report 1/32 and 9/32, that is, a reduction of -800 %. True is that it lies between the least and the largest loss of any pair of a group with different targets.)",
  "all data, group columns, pairwise losses, outcomes of the random draws",
  "It is about two rounds with different random draws; a test fixes one sequence of draws.",
  ["src/loss_func/loss_func_pairwise.cc:98-182"])

p("C173", "One tree predicts within the range of the targets",
  "A model of one tree trained for squared error without a base forest predicts, for any row whatever, training or not, missing values and unknown strings included, a value between the least and the largest target, provided the weighted mean of the targets is beyond the convergence threshold (1e-4); otherwise within that threshold of this range. In exact arithmetic, with weights that are not negative, any sampling, any lambda >= 0 and a shrinkage between 0 and 1.",
  "all data, feature columns, weights, random draws, configurations, rows to predict for",
  "It is about all rows the model could ever be asked about; tests predict for a few.",
  ["src/gbdt_algo/gbdt_algo.cc:103-206", "src/gbdt_algo/tree_algo.cc:43-179", "src/gbdt_algo/split_algo.cc:33-285", "src/loss_func/loss_func_pointwise.cc:51-92", "src/gbdt_algo/compute_tree_scores.cc:32-68"])

p("C174", "Any number of trees predicts within the range of the targets",
  "The same for any number of trees. (False: targets 0, 1 and 1, two trees of two leaves, no shrinkage; a row with a combination of values not seen in training is given 1.5. True is that predictions for the training rows are as close to the targets as the weighted variance of the targets allows, whatever the number of trees.)",
  "all data, feature columns, weights, configurations, rows to predict for",
  "It is about rows that were not seen in training and all numbers of trees.",
  ["src/gbdt_algo/gbdt_algo.cc:157-206", "src/gbdt_algo/compute_tree_scores.cc:32-68"])

p("C175", "The order in which features are listed does not matter",
  "The features are kept in a hash set, so the order in which they are looked at depends on the C++ library and not on the user. Models trained from the same data, configuration and seed predict the same whatever this order. (False: of two features that offer the same gain the first listed is used; for rows in which they differ the models predict differently. True is that the model is the same in every order if in no round two features offer the same gain at a node of the tree of that round, and that the gain found for a node is the same in any case.)",
  "all data, features, gradients, configurations that use all features, orders; any arithmetic",
  "A test runs with one C++ library; whether two features tie depends on the data.",
  ["src/gbdt_algo/gbdt_algo.cc:122-140", "src/gbdt_algo/tree_algo.cc:66-115", "src/gbdt_algo/utils.cc:40-60", "src/python/train_gbdt_py.cc:98-99"])

p("C176", "repr of a column shows its first ten elements; repr of a store counts its columns",
  "`repr(column)` never raises an exception and shows the type, then the first ten elements of `list(column)` (all if there are at most ten) in order, separated by commas and with strings between quotation marks, then three dots exactly if there are more than ten elements. `repr(store)` says how many columns of each of the three types there are, which add up to the number of columns, and the number of rows; a cleared store is shown as empty.",
  "all columns and stores that can be built, of fewer than 2^31 rows; every way to print a number",
  "A test prints a few columns; the boundary at ten elements and the stored representation (8, 16 or 32 bits, buckets) are for all columns.",
  ["src/python/column_py.cc:31-118", "src/data_store/data_store.cc:147-153", "src/python/datastore_py.h:33-35", "src/utils/utils.cc:26-40"])

p("C177", "Columns of at most ten strings that are shown alike are the same",
  "If `repr` shows two columns of at most ten strings alike, the columns hold the same strings. (False: strings are put between quotation marks but not escaped. True if no string contains a quotation mark; then columns of any length shown alike have the same first ten strings, and both or neither have more.)",
  "all pairs of columns of strings",
  "It is a statement about pairs of columns.",
  ["src/python/column_py.cc:49-58"])

p("C178", "Logistic loss: with enough regularization no tree fits the training data worse",
  "Training with logloss, on all rows, with shrinkage between 0 and 1 and with l2_lambda at least an eighth of the weight of all rows: in every round the tree makes the logistic loss on the training data no larger than it is with the constant at which the gradients of the round were computed, and with the constant that is added in its place the loss is larger by at most the difference of the two constants for each unit of weight.",
  "all data, features, non-negative weights, base forests, numbers of trees and leaves; real arithmetic with the real exponential and logarithm",
  "A statement about all data in real arithmetic; a test compares the loss of a few models, with rounding.",
  ["src/loss_func/loss_func_math.cc:28-31", "src/loss_func/loss_func_pointwise.cc:51-92", "src/gbdt_algo/gbdt_algo.cc:150-200", "src/gbdt_algo/tree_algo.cc:117-135"])

p("C179", "Logistic loss: training does not end with a larger loss than it started with",
  "Training with logloss, on all rows, with shrinkage between 0 and 1 and l2_lambda at least an eighth of the weight of all rows ends with predictions for the training data of no larger logistic loss than those of the base forest, if one is given, or than predicting 0. (False: before each tree Newton's method looks for the best constant to add, from 0 and without a check of its steps; if the base forest is off by more than about 2.2, each step goes further beyond the best constant than the one before. True for one tree without a base forest, but for the last step of Newton's method: from 0 the method approaches the best constant from one side.)",
  "all data, features, non-negative weights, base forests, numbers of trees and leaves; real arithmetic with the real exponential and logarithm",
  "A statement about all data in real arithmetic; a test warm starts from a model that is nearly right.",
  ["src/loss_func/loss_func_pointwise.cc:51-92", "src/loss_func/loss_func_math.cc:28-31", "src/gbdt_algo/gbdt_algo.cc:60-101"])

p("C180", "A larger num_leaves refines a tree and does not raise its squared error",
  "Fitting a tree to the same gradients, from the same position of the random numbers, with a larger num_leaves gives the same tree with subtrees put below some of its leaves: scores and splits of shared nodes are equal, and each row ends at or below the leaf it had. If the smaller number of leaves was not reached, the tree is the same. For residuals as gradients, non-negative weights, all rows and l2_lambda 0, the squared error left is no larger.",
  "all data, features, gradients, weights, configurations and pairs of numbers of leaves; the error in exact arithmetic",
  "A relation between two runs for all data; tests fit one tree with one number of leaves.",
  ["src/gbdt_algo/tree_algo.cc:117-179", "src/loss_func/gradient_data.h:21-62"])

p("C181", "Every split in a tree gains more than min_gain",
  "Every split stored in a fitted tree, whether it has been made or not, has a gain above min_gain and above the tolerance of the program (if these are not NaN).",
  "all data, features, weights, gradients and configurations; all doubles",
  "All trees that can be fitted; a test looks at one.",
  ["src/gbdt_algo/split_algo.cc:123-200", "src/gbdt_algo/tree_algo.cc:75-179"])

p("C182", "Every leaf has more than min_hessian",
  "If a tree has more than one leaf, the sum of the weighted hessians of the samples of every leaf is above min_hessian; with squared error and no weights, every leaf has more than min_hessian training rows. (False: feature values whose gradients sum to exactly 0 at a node are left out of the scan, but their hessians count as part of the right side, whichever side they go to. True if no value has exactly one of its two sums equal to 0.)",
  "all data, features, weights, gradients and configurations; exact arithmetic",
  "The limit is kept in nearly all data; only values whose gradients cancel exactly break it.",
  ["src/gbdt_algo/split_algo.cc:100-200", "src/gbdt_algo/tree_algo.cc:117-179"])

p("C183", "The gains of a tree add up to what it takes from the loss",
  "The gains of the splits made in a tree (of which feature importance is made) add up to the difference between the regularized quadratic objective of the root alone and that of the tree; with squared error, all rows and l2_lambda 0, to the squared error removed by the splits. (False for values whose gradients sum to exactly 0 at a node, as for C182; true otherwise.)",
  "all data, features, weights, gradients and configurations; exact arithmetic",
  "An identity between the log of training and the loss, for all data.",
  ["src/gbdt_algo/split_algo.cc:100-200", "src/loss_func/gradient_data.h:40-62", "src/gbdt_algo/utils.cc:79-108"])

p("C184", "Scores read from score files are the predictions",
  "The scores that forest.predict_at_checkpoints yields, and that --mode=test leaves in its files, are read back as the predictions of the forest (what forest.predict returns). (False: six significant digits are printed. What holds: every file can be read and has one number for each row, the double nearest to the score rounded to six significant digits; the relative change is at most five millionths, the order of two scores is never turned round, scores that are the doubles for decimals with six digits come back unchanged, and so do infinities and NaN.)",
  "all lists of doubles, all forests and stores",
  "Tests compare files with a few round scores; the claim is about printing and reading every double.",
  ["src/gbdt_algo/evaluation.cc:40-55", "gbdt/_forest.py:18-29", "src/python/forest_py.cc:57-65"])

p("C185", "A forest can be made from its string",
  "Forest(str(forest)) is the same forest. (False in Python 2.7, the version the README names: str gives bytes, and Forest takes only unicode for JSON, so it raises TypeError for every forest; with a name outside ASCII already str raises. What holds: Python 3, and Forest(unicode(forest)) in Python 2.7.)",
  "all forests that can be saved, both versions of Python",
  "Whether every forest survives is a claim about all forests, and the tests never make a Forest from a string.",
  ["gbdt/_forest.py:5-12", "gbdt/_forest.py:52-53", "src/python/forest_py.cc:19-33"])

p("C186", "Every split of floats that are not neighbours has samples on both sides",
  "If the values of a float feature are below 2^127 in magnitude and no two different ones are neighbouring floats, then every split that training finds on it sends at least one sample to each side. The threshold put between two such floats is a float between them, and it is the lower one only if they are neighbours.",
  "all columns of binary32 values with the two limits, all sets of samples, all splits that the search returns",
  "A test sees a few thresholds; the claim is about the rounding of every midpoint of floats.",
  ["src/gbdt_algo/split_algo.cc:205-285", "src/data_store/column.cc:257-305"])

p("C187", "A prediction is accurate to the rounding of its additions",
  "The double that is predicted for a sample differs from the exact sum of the scores of the trees by at most n·2^-52 times the sum of their absolute values, for n trees. If the scores are multiples of one power of two and small enough, it is the exact sum, and the order of the trees does not matter. Samples whose exact sums are further apart than the two bounds are predicted in that order.",
  "all forests of up to 2^52 trees whose scores add up (in absolute value) to at most 2^1000, all samples",
  "The error of rounding depends on all scores and their order; tests compare a few predictions with a tolerance chosen by hand.",
  ["src/gbdt_algo/compute_tree_scores.cc:32-68", "src/gbdt_algo/evaluation.cc:89-103"])

p("C188", "The ranking metrics of a score file are those of the predictions",
  "compute_metrics.py, given the score file that the program wrote, reports the metrics of the predictions themselves. (False: score files have six digits, so different predictions can be equal in the file, and the metrics then change. What holds: if no two different predictions of a group are printed alike.)",
  "all lists of predictions, all targets, weights and groups",
  "Which predictions are printed alike depends on their digits; tests of the script use scores of few digits.",
  ["scripts/compute_metrics.py:34-85", "src/gbdt_algo/evaluation.cc:42-54"])

p("C189", "The error that compute_rmse.py prints is close to that of the predictions",
  "compute_rmse.py, given the score file that the program wrote, computes a root mean squared error that differs from that of the predictions by at most six millionths of the largest absolute prediction.",
  "all nonempty lists of predictions that are 0 or between 2^-1000 and 2^1000 in absolute value, all responses",
  "The loss of digits affects every prediction; a test sees one list of numbers.",
  ["scripts/compute_rmse.py:6-13", "src/gbdt_algo/evaluation.cc:42-54"])

p("C190", "draw_trees.py draws the trees of the model",
  "The file forest.dot that draw_trees.py writes for a saved model is the picture of its trees: one graph per tree, in it a node with the label for every node and an edge to every child. (False: names are put between double quotes as they are, so a quotation mark in a feature name or an apostrophe in a category breaks the file, and letters outside ASCII stop the script. What holds: if features are ASCII without quotation mark or newline and categories have no quote of either kind, the file reads as the pictures of the trees.)",
  "all forests whose splits have a kind, all names of features and categories",
  "Every name in the model goes into the file; a test draws one model with plain names.",
  ["scripts/draw_trees.py:16-69"])

p("C191", "Partial dependency plots draw what was computed",
  "In the bar chart of a categorical feature every bar stands over the label of its own category and the bars ascend; the base value is drawn at 0 with deviation 0. The curve of a float feature has one point per value of the grid (its logarithm if asked), the mean of the differences in the middle of a band of 1.96 standard deviations to either side.",
  "all computed dependencies, all features, all sorting functions that return an order of the indices (exact arithmetic)",
  "Labels and bars are permuted separately; a plot is not checked by any test.",
  ["gbdt/_partial_dependency_plot.py:39-97"])

p("C192", "The band of a dependency plot contains 95 % of the rows",
  "The band drawn around the curve contains the differences of at least 95 % of the rows, as the comment 'Use 1.96 for 95% confidence interval' suggests. (False: nothing is assumed of the distribution of the differences; one row of ten can lie outside. What holds: at least 73.9 % of the rows are inside.)",
  "all lists of differences (exact arithmetic)",
  "The share depends on all differences; a test sees one list.",
  ["gbdt/_partial_dependency_plot.py:57-70"])

p("C193", "The meta info of a model tells its configuration",
  "The meta_info that training puts into the model tells the configuration the model was trained with, apart from the lists of columns: two configurations with the same meta info are equal. (False: all quotation marks of the text become apostrophes, and both are escaped alike in strings, so the weight columns w' and w\" give the same meta info. What holds: without quotation marks in column names it tells them apart, even if names contain commas, newlines or apostrophes; and it is always one line without quotation marks.)",
  "all configurations, times and durations; numbers printed without loss",
  "Whether two texts can collide depends on all pairs of configurations; a test compares a few.",
  ["src/gbdt_algo/gbdt_algo.cc:103-120"])

p("C194", "The log of training shows how long it still takes",
  "The log has a line for every iteration, with the time of the last iteration and the time until training has finished if iterations go on like that; writing it never disturbs training. (False: with num_trees 2147483647, which one may give in order to stop by hand, and an iteration of 1.001 seconds the estimate is over 68 years, and its conversion overflows an int, which is undefined behaviour. What holds: the log is written if no iteration times num_trees comes to 68 years, and the estimate is right.)",
  "all numbers of trees, clock readings that do not go back, and reports of the loss (exact arithmetic)",
  "The estimate depends on all readings of the clock and on num_trees; a test runs a few short iterations.",
  ["src/gbdt_algo/gbdt_algo.cc:158-183", "src/utils/stopwatch.cc:35-52"])

p("C195", "The chart of feature importance shows the importances",
  "feature_importance_bar_chart draws one bar for every feature that the forest uses, as long as its importance and with its name at the same height, from the most important at the top downwards.",
  "all forests with positive gains (exact arithmetic), all orders of the hash map",
  "Names and values are passed to matplotlib separately; no test looks at a chart.",
  ["gbdt/_forest.py:39-55", "src/gbdt_algo/utils.cc:79-108"])

p("C196", "Multiplying a feature by a power of two changes nothing, with floats as they are",
  "If every numeric feature is multiplied by a power of two of its own, in the training data and in the data to predict for, training gives a model with the same predictions, or the same exception. This holds for the binary32 thresholds the code computes, with their rounding, not only for exact numbers.",
  "all data, losses, sampling, configurations, arithmetic of scores; numbers in training 0 or of magnitude from 2^-125 to below 2^127 before and after; numbers to predict for finite and below FLT_MAX before and after; where a feature has missing numbers in training, none to predict for is below all of its training numbers (see C117); the hash map lists the columns in the same order",
  "Each threshold is a rounded mean of floats; a test of a few columns cannot show that rounding commutes with the factor for all of them.",
  ["src/gbdt_algo/split_algo.cc:222-231", "src/data_store/column.cc:35-51"])

p("C197", "The text of a saved forest reads as the forest",
  "The text that is written for a forest, to a file or by str(forest), is JSON by RFC 8259 that means this forest: reading it gives the same trees, scores, splits, categories and meta info, whatever the names contain (quotation marks, backslashes, newlines, control characters, letters of any script). It is one line without control characters or angle brackets. Different forests have different texts.",
  "all JSON values and all forests nested at most 64 deep; all strings; every way to write numbers with the characters of numbers and without loss; every choice of the characters beyond ASCII that are written by their code",
  "Escaping has to be undone for every string and every nesting; a test writes and reads a few names.",
  ["src/utils/json_utils.cc:48-67", "src/python/forest_py.cc:27-33"])

p("C198", "No digit of a forest is lost when it is saved",
  "A forest that is saved as JSON and loaded again has exactly the same doubles (gains) and floats (scores, thresholds): a double is written with 15 digits or, if these are read as another double, with 17; a float with 6 or 9. So a loaded forest scores every row as the forest that was trained, bit by bit. Eight digits for floats would not suffice.",
  "all forests nested at most 64 deep; all values of binary64 with infinities and NaN; floats that are not finite, zero, or between 1e-7 and 1e19 in size (for other floats: if they are read with one rounding, or need more than six digits)",
  "That 17 and 9 digits identify every double and float is a statement about 2^64 and 2^32 numbers; that reading a float through a double rounds twice but not wrongly needs a proof.",
  ["src/utils/json_utils.cc:48-67", "src/proto/tree.proto:10-46"])

p("C199", "Training ends with the predictions of its forest, on a machine with double and float",
  "The function values that training works with at the end (from which the next round would take its gradients and the log its loss) are what the returned forest predicts for the training data, with doubles and with node scores that are floats.",
  "all training data, losses, configurations, base forests",
  "The rounding errors of the constants add up over the rounds; a test sees them only with the data at hand.",
  ["src/gbdt_algo/gbdt_algo.cc:188-195", "src/proto/tree.proto:42"])

p("C200", "Predictions keep the order and the range of the leaves, rounding included",
  "If no tree of a forest gives one row more than another row (of the same or of another store), the first row is not predicted more than the second, although scores are added with rounding. No row at all, seen in training or not, is predicted outside the sums of the smallest and of the largest leaves, and no prediction is NaN. A forest has at most as many different predictions as there are choices of one leaf per tree.",
  "all forests with finite leaves, all stores they can be evaluated on, all rows; IEEE binary64 with overflow",
  "Rounding could reverse an order for some row out of infinitely many; only an argument over all rows and forests excludes it.",
  ["src/gbdt_algo/evaluation.cc:57-105", "src/gbdt_algo/compute_tree_scores.cc:57-68"])

p("C201", "Values that training never saw",
  "A trained forest does not tell apart two strings of a column that no training row has there, even if they occur in the data to be scored: such rows go right wherever the column is used. If a numeric column has no missing value in the training data, a missing value is scored like any number that is not larger than the numbers seen in training.",
  "all stores, losses, configurations, seeds and numbers of trees without a base forest, all rows to be scored; any arithmetic for gradients, thresholds that lie between the numbers they separate (see C63 and C186)",
  "Values that did not occur in training are what a deployed model meets later; a test cannot enumerate forests and unseen values.",
  ["src/gbdt_algo/split_algo.cc:60-110", "src/gbdt_algo/split_algo.cc:154-245", "src/gbdt_algo/compute_tree_scores.cc:57-68", "src/gbdt_algo/gbdt_algo.cc:60-76"])

p("C202", "A constant target is learnt exactly",
  "If all rows have the same target and it is further from zero than the threshold of the constant step (1e-4), then training with squared error gives trees of one leaf each, and the forest predicts exactly that target for every row of any data.",
  "all stores, configurations, seeds and numbers of trees without a base forest; any weights whose sum is not zero; exact arithmetic",
  "A test can try a few constant targets with a few configurations; that no split is ever made on rounds in which nothing is left to learn is a statement about every store and every sampling.",
  ["src/gbdt_algo/gbdt_algo.cc:150-200", "src/gbdt_algo/split_algo.cc:60-110", "src/loss_func/loss_func_pointwise.cc:51-92", "src/loss_func/loss_func_mse.h"])

p("C203", "Groups with a single target teach nothing to a pairwise loss",
  "With a pairwise loss, a row gets gradient and hessian zero in every round if all rows of its group have the same target. A leaf that only such rows reach scores zero.",
  "all pairwise losses and LambdaMART, all group columns, targets, weights, function values and random draws; exact arithmetic",
  "A test fixes one outcome of the draws; the claim is about every outcome, every grouping and every round.",
  ["src/loss_func/loss_func_pairwise.cc:30-60", "src/loss_func/loss_func_pairwise.cc:93-170", "src/loss_func/group.cc", "src/gbdt_algo/tree_algo.cc:115-170"])

p("C204", "Ranking sees only differences of scores within groups",
  "Adding a number to the scores of all rows of a group, a different one for each group, does not change the gradients of a pairwise loss or of LambdaMART. If a constant is added to the base forest that training continues from, training gives the same trees and a constant that is larger by the same amount.",
  "all pairwise losses and LambdaMART, all group columns, targets, weights, scores, base forests, configurations and random draws; exact arithmetic; sorting that sees keys only by comparing them",
  "A test fixes the draws, the scores and the shift; the claim is about all of them and about every round of training.",
  ["src/loss_func/loss_func_pairwise.cc:98-160", "src/loss_func/group.cc:48-62", "src/loss_func/loss_func_lambdamart.cc:64-71", "src/gbdt_algo/gbdt_algo.cc:84-105", "src/gbdt_algo/gbdt_algo.cc:165-200"])

p("C205", "A tree of a ranking lowers the weighted loss of the pairs it was fitted to",
  "With a pairwise loss or LambdaMART, the gradients of a round add up, over the rows, to the slope of the weighted loss of the pairs that were drawn in that round; and adding the tree fitted to them (all rows sampled, l2_lambda not negative) does not raise that loss to first order.",
  "all ranking data, all weights, all scores, all draws, all tree configurations; exact arithmetic",
  "Tests use rows of equal weight and few pairs; whether a tree can work against the loss it was fitted to depends on weights, groups and splits jointly.",
  ["src/loss_func/loss_func_pairwise.cc:98-160", "src/gbdt_algo/tree_algo.cc:43-62", "src/gbdt_algo/split_algo.cc:100-123"])

p("C206", "Ranking: with enough regularization no tree raises the loss of the pairs it was fitted to",
  "With rows of weight 1, all rows sampled, and l2_lambda at least half (pairwise_logloss, lambdamart) or twice (auc, gbrank) the weight of the pairs drawn in a round, adding the tree of that round, shrunk by any factor between 0 and 1, does not raise the weighted loss of those pairs.",
  "all ranking data, all scores, all draws, all tree configurations with such an l2_lambda; exact arithmetic",
  "A step that is too long can raise the loss on particular data only; tests cannot try all data and trees.",
  ["src/loss_func/loss_func_pairwise.cc:98-160", "src/loss_func/loss_func_math.cc:28-52", "src/gbdt_algo/tree_algo.cc:43-62"])

p("C207", "Ranking with gbrank: no tree raises the loss of the pairs it was fitted to",
  "gbrank with rows of weight 1, all rows sampled and shrinkage 1: adding the tree of a round does not raise the loss of the pairs drawn in it, whatever l2_lambda. (False: pairs that are already far enough apart have gradient and hessian 0, so nothing keeps a tree from pulling them together again; true if l2_lambda is at least twice the weight of the pairs.)",
  "all ranking data, all scores, all draws, all tree configurations; exact arithmetic",
  "It needs scores at which most pairs are satisfied and a tree that undoes them; tests train on a few rows from scores of 0.",
  ["src/loss_func/loss_func_math.cc:45-52", "src/loss_func/loss_func_pairwise.cc:98-160", "src/gbdt_algo/tree_algo.cc:43-62"])

p("C208", "Ranking: weights times k and limits times the cube of k give the same model",
  "With a pairwise loss or LambdaMART, multiplying all weights by k > 0 and l2_lambda, min_hessian and min_gain by k*k*k changes neither how training ends nor splits, scores and function values; the gains written in the forest are multiplied by k*k*k. Least gains are not below the tolerance of the code.",
  "all ranking data, all k > 0, all configurations of trees and sampling, all losses of pairs; exact arithmetic",
  "Tests use one set of weights; how weights trade off against the limits is a statement about pairs of runs.",
  ["src/loss_func/loss_func_pairwise.cc:118-152", "src/gbdt_algo/tree_algo.cc:43-62", "src/gbdt_algo/split_algo.cc:100-125"])

p("C209", "Ranking: only the proportions of weights matter if the limits are changed with them",
  "What C131 says of losses of single rows: with weights, l2_lambda, min_hessian and min_gain all multiplied by the same number, training a ranking gives the same function values. (False: the weights of rows are in the sums of a leaf three times, so limits would have to be multiplied by the cube, C208; true without limits.)",
  "all ranking data, all k > 0, all configurations; exact arithmetic",
  "It needs pairs of runs with different weights and limits; a test with one set of weights cannot notice.",
  ["src/loss_func/loss_func_pairwise.cc:132-133", "src/gbdt_algo/tree_algo.cc:43-62", "src/gbdt_algo/split_algo.cc:100-125"])

here = os.path.dirname(os.path.abspath(__file__))
with open(os.path.join(here, "..", "properties.jsonl"), "w") as f:
    for q in P: f.write(json.dumps(q) + "\n")
print(len(P))
