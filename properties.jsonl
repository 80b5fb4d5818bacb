{"id": "C01", "title": "A string column gives back every string, at any storage width", "statement": "If a string column is fed any sequence of blocks of strings and then finalized, its size is the total number of strings fed and the string reported for row i is the i-th string fed. This holds whether the column ends up stored in 8, 16 or 32 bits per row.", "quantifier": "all lists of blocks of strings (fewer than 2^32 - 1 strings in all); all rows", "why_tests_cant": "The width switches at 256 and 65536 distinct values and depends on the whole history of Adds; tests sample a handful of values and never reach the boundaries from both sides.", "anchors": ["src/data_store/column.cc: StringColumn::Add, StringColumn::Finalize, IntegerizedColumn::Finalize, ConvertIntVector, get_row_string", "src/data_store/column.h: StringColumn, IntegerizedColumn"]}
{"id": "C02", "title": "String codes are canonical", "statement": "In a string column two rows have the same code exactly when they hold the same string; code 0 means exactly the string '__missing__'; codes are below max_int and max_int is one more than the number of distinct non-missing strings; looking up the code of a category name inverts reading the name of a code, and an unseen name has no code. The coding does not depend on how rows were cut into blocks.", "quantifier": "all lists of blocks (fewer than 2^32 - 1 strings in all); all pairs of rows; all candidate category names", "why_tests_cant": "A statement about all pairs of rows and all names never added; tests check one small fixed column.", "anchors": ["src/data_store/column.cc: StringColumn::Add", "src/data_store/column.h: StringColumn::get_cat_index, get_cat_string, max_int, missing"]}
{"id": "C03", "title": "Missing floats and only missing floats have code 0", "statement": "In a finalized bucketized float column a row is reported missing exactly when the value fed for that row was NaN, and the number of rows equals the number of values fed, whether or not the column was bucketized in the middle of the feeding.", "quantifier": "all num_buckets, all lists of float blocks for which feeding does not crash, all rows", "why_tests_cant": "Whether bucketing happens early depends on total length against 100*num_buckets (3,000,000 rows by default), far beyond test sizes.", "anchors": ["src/data_store/column.cc: BucketizedFloatColumn::Add, Finalize, BuildBuckets, AddBucketizedVec"]}
{"id": "C04", "title": "Every row lies inside the bucket it is reported in", "statement": "For every row of a finalized bucketized float column holding a finite number v (or -inf), the reported row minimum and maximum satisfy min <= v <= max.", "quantifier": "all num_buckets, all lists of float blocks (including values arriving after the buckets are fixed), all rows", "why_tests_cant": "Needs an invariant over arbitrary histories and value distributions; infinities are the corner that random tests do not draw.", "anchors": ["src/data_store/column.cc: AddBucketizedVecHelper, BuildBuckets", "src/data_store/column.h: get_row_min, get_row_max"]}
{"id": "C05", "title": "Bucket codes preserve order", "statement": "If rows i and j of a bucketized column hold numbers v <= w, neither being +inf, then code(i) <= code(j); if code(i) < code(j) then the bucket of i ends strictly below where the bucket of j starts.", "quantifier": "all num_buckets, all histories, all pairs of rows", "why_tests_cant": "Pairs of rows over all distributions; relies on the sort in the middle of bucket construction and on the sentinel FLT_MAX bucket.", "anchors": ["src/data_store/column.cc: BuildBuckets, AddBucketizedVecHelper"]}
{"id": "C06", "title": "The number of buckets is at most twice the request", "statement": "However the values are distributed, the number of buckets of a finalized column (including the missing bucket and the overflow bucket) is at most 2*num_buckets+1, so a column built with the default 30000 always fits in 16 bits. (The comment in the header promises num_buckets+1, which is not true.)", "quantifier": "all num_buckets >= 1 and all histories for which bucketing does not crash", "why_tests_cant": "The worst case is an adversarial histogram; tests use a few dozen values.", "anchors": ["src/data_store/column.cc: BuildBuckets, UniformBinning", "src/data_store/column.h: max_int"]}
{"id": "C07", "title": "Few values are stored exactly", "statement": "If a column is fed n < 2*num_buckets values in total, then each non-missing row's minimum and maximum are both exactly the value fed, so bucketizing loses nothing.", "quantifier": "all num_buckets >= 1, all lists of at most 2*num_buckets-1 floats including infinities for which bucketing does not crash; all rows", "why_tests_cant": "Ranges over all value multisets; tests check one fixed list.", "anchors": ["src/data_store/column.cc: BuildBuckets"]}
{"id": "C08", "title": "Bucketizing never crashes", "statement": "Feeding any floats to a bucketized column and finalizing it always completes (no division by zero).", "quantifier": "all num_buckets >= 1 and all lists of floats", "why_tests_cant": "The crash needs exactly num_buckets-1 heavy values (for instance a column of exactly 29999 distinct values with the default setting), which no random or hand-written test hits.", "anchors": ["src/data_store/column.cc: BuildBuckets (left_over / (num_buckets_ - bucket_maxs_.size()))"]}
{"id": "C09", "title": "Bucket minima are tight", "statement": "For every bucket that holds at least one row other than +inf, the reported bucket minimum is the smallest value of the rows in it; every bucket boundary other than the overflow one is a value from the data the buckets were built from.", "quantifier": "all num_buckets, all histories, all occupied buckets", "why_tests_cant": "Invariant over histories including data added after the buckets were fixed.", "anchors": ["src/data_store/column.cc: AddBucketizedVecHelper, BuildBuckets"]}
{"id": "C10", "title": "A finalized bucketized column cannot be changed", "statement": "After Finalize, any further Add or Finalize on a bucketized float column reports FAILED_PRECONDITION and leaves the reported rows unchanged.", "quantifier": "all histories of Add and Finalize calls in any order", "why_tests_cant": "Histories are unbounded sequences of calls in any order.", "anchors": ["src/data_store/column.cc: BucketizedFloatColumn::Add, BucketizedFloatColumn::Finalize"]}
{"id": "C11", "title": "A data store behaves as a finite map from names to columns", "statement": "After any history of Add and Remove calls the store holds, under each name, exactly the column of the last successful Add of that name not followed by a Remove; adding a name twice reports ALREADY_EXISTS and changes nothing; removing an absent name changes nothing; a rejected Add changes nothing; the listed column names are exactly the names that can be looked up, each once.", "quantifier": "all histories of Add/Remove over all names", "why_tests_cant": "Refinement over unbounded histories.", "anchors": ["src/data_store/data_store.cc: Add, RemoveColumnIfExists, GetColumn, typed getters"]}
{"id": "C12", "title": "All columns of a store have the same number of rows", "statement": "After any history of successful and rejected Adds of non-empty columns and Removes, all columns in the store have the same number of rows, equal to num_rows(), and a new name is accepted exactly when its column has that many rows or the store is empty.", "quantifier": "all histories, all iteration orders of the hash map", "why_tests_cant": "Depends on history and on the hash map's iteration order.", "anchors": ["src/data_store/data_store.cc: DataStore::Add, num_rows"]}
{"id": "C13", "title": "Reading a row from Python never goes out of bounds", "statement": "Column.get(i), for every int i (negative ones included), either returns the value of row i or raises; it never reads outside the column.", "quantifier": "all columns with fewer than 2^31 rows and all 32-bit ints", "why_tests_cant": "All 2^32 indices against all sizes; the check relies on a mixed signed/unsigned comparison.", "anchors": ["src/python/column_py.cc: StringColumnPy::get, RawFloatColumnPy::get, BucketizedFloatColumnPy::get"]}
{"id": "C14", "title": "Failures reach the Python caller", "statement": "Every operation of the library that ends with a non-OK status raises a Python exception.", "quantifier": "all statuses; all histories of column additions from Python", "why_tests_cant": "Needs all status codes against all operations; the failing codes are never exercised from Python by the tests.", "anchors": ["src/python/gbdt_py_base.cc: ThrowException", "src/python/datastore_py.cc: AddStringColumn, AddBucketizedFloatColumn, AddRawFloatColumn"]}
{"id": "C15", "title": "Splitting and joining strings are inverse", "statement": "Joining the pieces of a split string with the same delimiter gives back the string; splitting a join of delimiter-free pieces with a one-character delimiter gives back the pieces, except that the single empty piece becomes no pieces.", "quantifier": "all strings, all non-empty delimiters", "why_tests_cant": "All strings.", "anchors": ["src/utils/utils.cc: split, SplitStringUsing", "src/utils/utils_inl.h: JoinStrings"]}
{"id": "C16", "title": "A TSV block parses to aligned columns or fails cleanly", "statement": "Parsing a block either fails or yields, for every requested column, exactly one value per non-empty data line, being the cell at the column's index on that line (converted to a float, or NaN for the accepted missing tokens); it fails with OUT_OF_RANGE when a line is too short and INVALID_ARGUMENT when a requested float cell is neither a number nor a missing token, and in no other case.", "quantifier": "all file contents, all column index lists, every float-parsing function", "why_tests_cant": "All file contents.", "anchors": ["src/data_store/tsv_block.cc: TSVBlock::ReadTSV, AddFloats, AddStrings"]}
{"id": "C17", "title": "Loading several TSV files equals loading their concatenation", "statement": "If no column is requested twice and loading succeeds, every column holds the cells of the data lines of all files in file order, no matter in which order the parsing threads finish; the first line of the first file (only) is dropped as the header.", "quantifier": "all lists of files, all thread counts >= 1, all completion orders", "why_tests_cant": "Needs all schedules of the parser threads.", "anchors": ["src/data_store/tsv_data_store.cc: LoadTSVs, ProcessBlock", "src/utils/threadpool.cc"]}
{"id": "C18", "title": "TSV configuration never leads to a dangling column", "statement": "Loading TSV files with any configuration of column names either succeeds, or reports an error; it never uses a column after it was destroyed.", "quantifier": "all header lines and all lists of requested columns (repetitions included)", "why_tests_cant": "The failing cases need the same name requested twice; memory errors are not visible to assertion-style tests.", "anchors": ["src/data_store/tsv_data_store.cc: SetupColumns"]}
{"id": "C19", "title": "A flat file column keeps one row per line", "statement": "Loading a flat file yields the column of the type its first line names, with one row per line that does not start with '#', in order; unparsable floats are missing; the empty piece after the last line-feed is not a row.", "quantifier": "all file contents", "why_tests_cant": "All file contents: blank lines, carriage returns, unterminated last lines.", "anchors": ["src/data_store/flatfiles_data_store.cc: LoadStringColumn, LoadFloatColumn", "src/utils/utils.cc: ReadLine, HasPrefix"]}
{"id": "C20", "title": "Concurrent flat file loading gives the same store for every schedule", "statement": "If the files requested have equal row counts, then requesting them from any number of threads in any interleaving (the same name any number of times) succeeds: every call returns within four of its own steps with a non-null column, the store then holds the column of the file for every name requested, columns held before are kept and nothing else is added; so the contents are the same for every schedule.", "quantifier": "all sets of files, all interleavings of the loading steps", "why_tests_cant": "All interleavings.", "anchors": ["src/data_store/flatfiles_data_store.cc: LoadColumn, GetColumn", "src/gbdt_algo/utils.cc: LoadFeatures"]}
{"id": "C21", "title": "Dividing samples covers every sample exactly once, evenly", "statement": "Dividing n samples into k >= 1 groups yields k contiguous groups whose concatenation is the original list and whose sizes differ by at most one. (k <= 0 is undefined behaviour.)", "quantifier": "all n and k", "why_tests_cant": "All n and k; floor arithmetic.", "anchors": ["src/utils/subsampling.cc: DivideSamplesHelper, DivideSamples"]}
{"id": "C22", "title": "Subsampling selects a sorted subset", "statement": "For every generator output, the subsample is a strictly increasing list of indices below n; a rate of 1 or more selects every index; a rate of 0 selects none (a NaN rate, or one for which rate*n does not fit an int, is an invalid conversion and undefined); with the same random draws a larger rate selects a superset.", "quantifier": "all draw sequences in [0,1), all n, all rates", "why_tests_cant": "All generator outputs.", "anchors": ["src/utils/subsampling.cc: UniformSubsample, CreateAllSamples"]}
{"id": "C23", "title": "The thread pool runs each task exactly once before its destructor returns", "statement": "With at least one thread, for every interleaving (spurious wake-ups included), each enqueued task is started at most once, and when the destructor returns every task enqueued has been run to completion exactly once.", "quantifier": "all numbers of threads >= 1, all numbers of tasks, all interleavings of producer and workers", "why_tests_cant": "Schedules and spurious wake-ups cannot be enumerated by tests.", "anchors": ["src/utils/threadpool.cc: ThreadPool, Enqueue, Invoke, ShutDown"]}
{"id": "C24", "title": "The thread pool never deadlocks or loses a wake-up", "statement": "With at least one thread, from every reachable state of the pool some step other than a spurious wake-up is possible until the destructor has returned, and every execution in which steps keep being taken reaches that point.", "quantifier": "all reachable states and all fair executions", "why_tests_cant": "Absence of lost wake-ups is a statement about all interleavings.", "anchors": ["src/utils/threadpool.cc: Enqueue, Invoke, ShutDown"]}
{"id": "C25", "title": "Parallel training steps are race free and schedule independent", "statement": "When a pool of threads scores a tree, computes the gradients of a pointwise loss, sums gradients over the slices of a node, or looks for the splits of the chosen features, then under every schedule: no two threads ever are about to access the same memory cell with one of them writing, no task crashes, the pool does not get stuck and ends after boundedly many steps (up to spurious wake-ups), and memory then is what running the tasks one after the other gives, bit for bit (no law of arithmetic is used).", "quantifier": "all interleavings of the threads' individual memory accesses and of the steps of the pool itself; all numbers of threads, slices, trees, columns, arithmetic operations", "why_tests_cant": "All interleavings.", "anchors": ["src/gbdt_algo/compute_tree_scores.cc: AddTreeScores", "src/loss_func/loss_func_pointwise.cc: Compute", "src/gbdt_algo/tree_algo.cc: ComputeWeightedSum, FindBestFeatureAndSplit", "src/utils/threadpool.cc"]}
{"id": "C26", "title": "Partitioning a node sends each sample to the side its value says", "statement": "Partitioning the samples of a node permutes them in place, touches nothing outside the node's slice, and yields a left part of exactly the samples whose value satisfies the split (below the threshold, or missing and missing goes left; category listed in the split) and a right part of all others. For a float column with at least twice as many rows as buckets the value compared with the threshold is the largest of the sample's bucket.", "quantifier": "all columns, splits and sample slices", "why_tests_cant": "In-place swap loop over all inputs; multiset preservation.", "anchors": ["src/gbdt_algo/split_algo.cc: Partition (3 overloads)"]}
{"id": "C27", "title": "Category names and internal indices route alike", "statement": "For a split produced in training, partitioning by the internal category indices and partitioning by the category names give the same result on the training column; so stripping the internal indices from a trained forest does not change any prediction.", "quantifier": "all string columns, all index sets, all samples", "why_tests_cant": "All columns and all splits.", "anchors": ["src/gbdt_algo/split_algo.cc: Partition(StringColumn)", "src/gbdt_algo/tree_algo.cc: FindBestFeatureAndSplit", "src/gbdt_algo/gbdt_algo.cc: ClearInternalFields"]}
{"id": "C28", "title": "The chosen split point is the best one scanned and satisfies the limits", "statement": "The split point chosen for a feature has the largest gain of all cut positions and missing-value directions scanned; its gain exceeds min_gain and 1e-6, and the hessian on both sides exceeds min_hessian; if no candidate qualifies the gain is 0. This uses only the order laws of IEEE comparison, so it holds for floating point with NaN (where the gain with missing values on the left is NaN, moving them to the right is not considered; a NaN limit is ignored).", "quantifier": "all histograms, all configs, all arithmetic", "why_tests_cant": "All histograms.", "anchors": ["src/gbdt_algo/split_algo.cc: FindBestSplitPoint"]}
{"id": "C29", "title": "The gain reported for a split is the gain of the partition it makes", "statement": "For a split found on a node, the reported gain equals energy(left)+energy(right)-energy(node) where left and right are the samples the split really sends to each side.", "quantifier": "all columns, weights, gradients and samples (exact arithmetic)", "why_tests_cant": "All data; the failing case needs a bucket whose gradients cancel exactly between the two sides of the cut.", "anchors": ["src/gbdt_algo/split_algo.cc: Histogram::ComputeHistograms, FindBestSplitPoint, FindBestFloatSplit, FindBestStringSplit, Partition"]}
{"id": "C30", "title": "The float split is the best among all thresholds", "statement": "On a float feature no threshold and no direction for missing values yields a partition with larger gain than the split found (subject to the min_hessian limit).", "quantifier": "all thresholds and both missing directions, all data (exact arithmetic)", "why_tests_cant": "All real thresholds.", "anchors": ["src/gbdt_algo/split_algo.cc: FindBestFloatSplit"]}
{"id": "C31", "title": "The categorical split is the best among all subsets", "statement": "On a categorical feature no subset of categories yields a larger gain than the split found (documented as 'shown to be the optimal strategy').", "quantifier": "all 2^k subsets of categories, all data (exact arithmetic)", "why_tests_cant": "Exponentially many subsets over all data.", "anchors": ["src/gbdt_algo/split_algo.cc: FindBestStringSplit, SortOnNodeScore", "docs/ALGORITHMS.md"]}
{"id": "C32", "title": "A found split never makes an empty child", "statement": "If a split is found and min_hessian >= 0, both children receive at least one sample: always for categorical features, and for float features whenever the midpoint used as threshold separates the buckets.", "quantifier": "all data, any arithmetic of the sums, any sort", "why_tests_cant": "All data.", "anchors": ["src/gbdt_algo/split_algo.cc: FindBestSplit, Partition", "src/gbdt_algo/tree_algo.cc"]}
{"id": "C33", "title": "A grown tree has at most num_leaves leaves and is well formed", "statement": "A tree fitted to gradients has between 1 and max(1,num_leaves) leaves, every node has either no child or two children, every inner node carries a split with positive gain, and it has fewer leaves than num_leaves only if no leaf has a qualifying split left.", "quantifier": "all data, configs and arithmetic; all tie-breaks of the priority queue", "why_tests_cant": "Inductive over tree growth.", "anchors": ["src/gbdt_algo/tree_algo.cc: FitTreeToGradients, FindBestFeatureAndSplit"]}
{"id": "C34", "title": "Leaves partition the samples and evaluation follows training", "statement": "The samples the tree was fitted on are partitioned among its leaves, and evaluating the fitted tree on a training sample reaches exactly the leaf that held the sample during fitting, so the score added is that leaf's score.", "quantifier": "all data and configs, all samples", "why_tests_cant": "Inductive over tree growth and routing.", "anchors": ["src/gbdt_algo/tree_algo.cc: FitTreeToGradients", "src/gbdt_algo/compute_tree_scores.cc: AddSampleTreeScores"]}
{"id": "C35", "title": "Leaf scores are the regularized Newton steps of their samples", "statement": "The score of each leaf is sum(w*g)/(sum(w*h)+lambda) over the samples in the leaf (0 if the denominator is 0), and it minimizes the quadratic model -G*s + (H+lambda)*s^2/2 when H+lambda > 0.", "quantifier": "all data, all leaves", "why_tests_cant": "Inductive over tree growth.", "anchors": ["src/gbdt_algo/tree_algo.cc: FitTreeToGradients, ComputeWeightedSum", "src/loss_func/gradient_data.h: Score, Energy"]}
{"id": "C36", "title": "Growth is best-first", "statement": "At each step the leaf that is split is one with the largest gain among all current leaves.", "quantifier": "all growth histories", "why_tests_cant": "All growth histories.", "anchors": ["src/gbdt_algo/tree_algo.cc: FitTreeToGradients"]}
{"id": "C37", "title": "The score of a row is the sum of the leaves it reaches", "statement": "Scoring a data store with a tree or forest gives for each row the sum, in tree order, of the score of the leaf reached by comparing that row's own values with the splits; it depends on no other row of the slice, nor on the order or division of the samples.", "quantifier": "all forests, all stores, all divisions of rows among threads", "why_tests_cant": "All forests; in-place partition by slices.", "anchors": ["src/gbdt_algo/compute_tree_scores.cc", "src/gbdt_algo/evaluation.cc: EvaluateForest"]}
{"id": "C38", "title": "Predictions do not depend on how categories were coded", "statement": "Two stores in which a row has the same feature values (strings equal, floats equal and stored exactly) give that row the same score for a forest without internal indices, even if they hold different other rows.", "quantifier": "all pairs of stores, all forests", "why_tests_cant": "All pairs of stores.", "anchors": ["src/gbdt_algo/split_algo.cc: Partition", "src/data_store/column.h: get_cat_index"]}
{"id": "C39", "title": "Training scores equal predictions of the returned forest", "statement": "When training succeeds, the function values maintained during training equal the predictions of the returned forest on the training data (exact arithmetic), with or without a base forest.", "quantifier": "all data, configs, losses, base forests", "why_tests_cant": "Inductive over boosting rounds; needs the constant tree, shrinkage and base forest handled alike in both places.", "anchors": ["src/gbdt_algo/gbdt_algo.cc: TrainGBDT, InitializeWithBaseForest, ApplyShrinkage"]}
{"id": "C40", "title": "The returned forest has the documented shape", "statement": "When training into an empty forest succeeds, the forest has one constant tree, followed by the trees of the base forest that split, in order and without their internal indices (so unchanged if they came from training), followed by exactly num_trees fitted trees with at most num_leaves leaves each, splitting only on the given features with positive gain. An invalid configuration, a feature that is not in the store and a failing loss initialisation are reported, in this order, and leave the forest as it was; no round whose constant is NaN or infinite is part of a successful run.", "quantifier": "all inputs", "why_tests_cant": "All inputs and loss behaviours.", "anchors": ["src/gbdt_algo/gbdt_algo.cc: TrainGBDT, InitializeWithBaseForest, CleanForest"]}
{"id": "C41", "title": "Shrinkage scales the tree's contribution and nothing else", "statement": "Shrinking a tree multiplies its contribution to every row by the rate and leaves its routing unchanged.", "quantifier": "all trees, rates, rows (exact arithmetic)", "why_tests_cant": "All trees.", "anchors": ["src/gbdt_algo/gbdt_algo.cc: ApplyShrinkage"]}
{"id": "C42", "title": "A saved model carries no training-internal index", "statement": "Trees returned by training have no internal category index anywhere, splits only on inner nodes, and predict the same as before stripping.", "quantifier": "all trees", "why_tests_cant": "All trees.", "anchors": ["src/gbdt_algo/gbdt_algo.cc: ClearInternalFields, CleanForest"]}
{"id": "C43", "title": "Checkpoint predictions are prefix sums", "statement": "Given strictly increasing positive checkpoints, evaluation writes exactly one score file per checkpoint not larger than the number of trees, holding for every row the prediction of the forest made of the first p trees.", "quantifier": "all forests, stores and strictly increasing lists of positive checkpoints", "why_tests_cant": "All lists of checkpoints; the scores are accumulated in place between checkpoints.", "anchors": ["src/gbdt_algo/evaluation.cc: EvaluateForest (checkpoints), WriteScoreFile"]}
{"id": "C44", "title": "Evaluation checkpoints built from an interval are n, n-k, n-2k, ...", "statement": "For a forest of n trees and interval k > 0 the checkpoints are n, n-k, n-2k, ... as long as they are positive, in increasing order; for k <= 0 only n. Evaluating at them writes all of their score files.", "quantifier": "all n and k", "why_tests_cant": "All n, k.", "anchors": ["src/gbdt_algo/utils.cc: GetTestPoints"]}
{"id": "C45", "title": "Feature importance is a normalized ranking of the features used", "statement": "Feature importance lists each feature used at an inner node exactly once, in non-increasing order; with positive gains the first has importance 1 and all lie in (0,1], and each is proportional to the sum of its gains.", "quantifier": "all forests", "why_tests_cant": "All forests.", "anchors": ["src/gbdt_algo/utils.cc: ComputeFeatureImportance"]}
{"id": "C46", "title": "An invalid configuration is rejected", "statement": "If the example and feature sampling rates are not NaN, the configuration check accepts exactly the configurations with positive num_trees and num_leaves and both rates in (0,1]. Training from Python succeeds only if moreover the loss is one of the known ones, features are given and exist in the store, and weights and targets have one entry per row (or no weights, and a float target column).", "quantifier": "all configurations with rates that are not NaN, all Python calls", "why_tests_cant": "All float rates and all combinations of arguments.", "anchors": ["src/gbdt_algo/utils.cc: CheckConfig", "src/python/train_gbdt_py.cc: TrainPy", "src/loss_func/loss_func_factory.cc"]}
{"id": "C47", "title": "Gradients and hessians are the derivatives of the loss", "statement": "For mse, logloss (targets 1 and -1), huberized hinge and the squared hinge of gbrank (positive difference of targets), at every score the reported gradient is the negative derivative (mse and squared hinge: half of it) of the loss in the score, and the hessian is the second derivative (half of it, likewise) wherever it exists; hessians are non-negative.", "quantifier": "all real scores and all admissible targets", "why_tests_cant": "Continuum of scores.", "anchors": ["src/loss_func/loss_func_math.cc"]}
{"id": "C48", "title": "The constant step stops at a near-stationary point", "statement": "The constant computed for a pointwise loss is found by between 1 and 10 Newton steps from 0 (weighted sum of gradients over weighted sum of hessians; no step if the latter is 0); all but the last are larger than the threshold 1e-4, and if fewer than 10 were made the last is not; the gradients handed to tree fitting are those where the last step started. For mse with weights that do not sum to 0 the second step is 0 and the constant is the weighted mean residual.", "quantifier": "all data and losses", "why_tests_cant": "All data.", "anchors": ["src/loss_func/loss_func_pointwise.cc: Compute"]}
{"id": "C49", "title": "Each ordered pair of a group is drawn from exactly one index", "statement": "For every group, the number of pairs is the number of pairs of rows with strictly different targets, and the map from random index to pair is a bijection between 0..num_pairs-1 and those pairs (higher target first), so sampling is uniform.", "quantifier": "all groups and targets", "why_tests_cant": "All groups.", "anchors": ["src/loss_func/group.cc: Group, SamplePair"]}
{"id": "C50", "title": "Ranks are a permutation sorted by score", "statement": "After re-ranking, ranks of the rows of a group are a permutation of 0..n-1 and a row with a strictly larger score has a smaller rank.", "quantifier": "all groups, scores and sort implementations", "why_tests_cant": "All groups, all unstable sorts.", "anchors": ["src/loss_func/group.cc: Rerank"]}
{"id": "C51", "title": "Pairwise gradients cancel and hessians are non-negative", "statement": "For every pairwise loss and every outcome of pair sampling, the gradients of the rows of a group sum to zero (exact arithmetic), hessians are non-negative if row weights are, and working on a group leaves rows of other groups untouched.", "quantifier": "all data, all sampling outcomes", "why_tests_cant": "All random outcomes.", "anchors": ["src/loss_func/loss_func_pairwise.cc: Compute"]}
{"id": "C52", "title": "LambdaMART pair weights are the DCG change of a swap", "statement": "The weight LambdaMART gives to a pair is the absolute change of the group's (linear gain) DCG when the two rows exchange ranks.", "quantifier": "all groups, rankings and pairs", "why_tests_cant": "All rankings.", "anchors": ["src/loss_func/loss_func_lambdamart.cc: PairWeightingFunc, discount"]}
{"id": "C53", "title": "Pairwise training never executes undefined behaviour", "statement": "Pairwise losses can be computed for any group column and targets without undefined behaviour.", "quantifier": "all group columns and targets", "why_tests_cant": "Memory errors and invalid conversions are not observable by assertions; failing inputs: no group has two different targets; the group column contains '__missing__'.", "anchors": ["src/loss_func/loss_func_pairwise.cc: Init, Compute, ComputePairSamplingProbability", "src/loss_func/group.cc: SamplePair"]}
{"id": "C54", "title": "Pairwise training with several threads is deterministic for a fixed seed", "statement": "With a fixed random seed and thread count, computing pairwise gradients gives the same result in every run.", "quantifier": "all interleavings", "why_tests_cant": "All interleavings: the generator is shared by the threads without a lock.", "anchors": ["src/loss_func/loss_func_pairwise.cc: Compute", "src/utils/subsampling.cc: get_generator"]}
{"id": "C55", "title": "Elapsed times are formatted faithfully", "statement": "A duration of a second or more is rendered as days, hours (1-23), minutes (1-59) and seconds (at most 60.0), zero parts left out, and the rendering decodes to within 0.05 s of the duration; shorter durations are rendered as whole milliseconds.", "quantifier": "all durations below 68 years", "why_tests_cant": "All durations; the test has four.", "anchors": ["src/utils/stopwatch.cc: MSecsToFormattedString"]}
{"id": "C56", "title": "Rows are grouped exactly by the group column", "statement": "The groups used by pairwise losses are disjoint, cover every row, and two rows are in the same group exactly when their group strings are equal.", "quantifier": "all group columns without missing values", "why_tests_cant": "All group columns.", "anchors": ["src/loss_func/loss_func_pairwise.cc: Init"]}
{"id": "C57", "title": "Infinite values are bucketized like other numbers", "statement": "Rows holding +inf lie inside their reported bucket, their codes are ordered with those of other rows, and a bucket holding only +inf has minimum +inf.", "quantifier": "all num_buckets, all histories with +inf among the values, all rows", "why_tests_cant": "Needs +inf arriving before or after the buckets are fixed, in columns of a particular shape; never drawn by tests.", "anchors": ["src/data_store/column.cc: BuildBuckets (FLT_MAX sentinel), AddBucketizedVecHelper"]}
{"id": "C58", "title": "A finalized string or raw float column cannot be changed", "statement": "After Finalize, any further Add or Finalize on a string or raw float column reports FAILED_PRECONDITION and leaves the reported rows unchanged.", "quantifier": "all histories of Add and Finalize calls in any order", "why_tests_cant": "Histories are unbounded sequences of calls in any order.", "anchors": ["src/data_store/column.cc: StringColumn::Add, StringColumn::Finalize, RawFloatColumn::Add, RawFloatColumn::Finalize"]}
{"id": "C59", "title": "Columns without rows do not break the equal row count", "statement": "After any history of Adds and Removes, empty columns included, all columns of the store have the same number of rows.", "quantifier": "all histories of finished columns, all iteration orders of the hash map", "why_tests_cant": "Needs an empty column in the right place of a history; the acceptance test even depends on the hash map's iteration order.", "anchors": ["src/data_store/data_store.cc: DataStore::Add (num_rows() > 0 test)"]}
{"id": "C60", "title": "Every line of a flat file after the type line is a row", "statement": "Loading a string flat file yields one row per line after the type line.", "quantifier": "all file contents", "why_tests_cant": "Needs a data value starting with '#', which is silently dropped and shifts all later rows.", "anchors": ["src/data_store/flatfiles_data_store.cc: LoadStringColumn, LoadFloatColumn"]}
{"id": "C61", "title": "Pointers returned by concurrent GetColumn calls stay valid", "statement": "Whatever the interleaving of GetColumn calls on a flat file store, a pointer returned by one of them stays valid while the store lives and nothing is removed.", "quantifier": "all sets of files, all interleavings, repeated names included", "why_tests_cant": "Needs two threads that both find the same column absent; the dangling pointer is a memory error.", "anchors": ["src/data_store/flatfiles_data_store.cc: GetColumn, LoadColumn", "src/data_store/flatfiles_data_store.h"]}
{"id": "C62", "title": "Histogram bins hold exactly the samples with the value", "statement": "The bin of a feature value is the sum, in sample order, of weight * gradient data over exactly the samples of the node with that value, and the values scanned are those whose two sums are both non-zero, in increasing order of the codes.", "quantifier": "all columns, weights, gradients, sample lists (repeats allowed), in any arithmetic", "why_tests_cant": "All inputs.", "anchors": ["src/gbdt_algo/split_algo.cc: Histogram::ComputeHistograms"]}
{"id": "C63", "title": "A float split separates neighbouring floats", "statement": "With binary32 thresholds a found float split sends at least one sample to each side.", "quantifier": "all float columns (finite binary32 values) and gradients", "why_tests_cant": "Fails only for neighbouring floats whose sum is rounded down; random tests do not find it.", "anchors": ["src/gbdt_algo/split_algo.cc: FindBestFloatSplit lines 228-231, Partition"]}
{"id": "C64", "title": "Scoring a forest on a store that does not fit it reports an error and never aborts", "statement": "Scoring a forest on a data store whose columns do not fit the forest (a feature is missing, has another type, or the forest is malformed) returns an error status; it does not crash.", "quantifier": "all forests and stores", "why_tests_cant": "Needs malformed forests or mismatched column types.", "anchors": ["src/gbdt_algo/utils.cc: LoadFeatures, CollectAllFeatures", "src/gbdt_algo/compute_tree_scores.cc", "src/gbdt_algo/split_algo.cc: Partition"]}
{"id": "C65", "title": "Every checkpoint of any list gets its file", "statement": "For every list of checkpoints, in whatever order, each checkpoint between 1 and the number of trees gets its score file.", "quantifier": "all lists of checkpoints", "why_tests_cant": "Needs an unsorted list or one that contains 0; the others silently vanish.", "anchors": ["src/gbdt_algo/evaluation.cc: EvaluateForest (checkpoints)"]}
{"id": "C66", "title": "predict_at_checkpoints does not depend on earlier runs", "statement": "Forest.predict_at_checkpoints of the Python package yields for each checkpoint the prediction of the first p trees, whatever files earlier runs have left in the temporary directory.", "quantifier": "all forests, checkpoints and prior contents of the directory", "why_tests_cant": "Needs stale files of an earlier run and a checkpoint that is not written.", "anchors": ["gbdt/_forest.py: predict_at_checkpoints", "src/gbdt_algo/evaluation.cc"]}
{"id": "C67", "title": "Every split of a fitted tree is the best one found for its node", "statement": "At every node of a fitted tree, inner or leaf, the stored split is one that FindBestSplit finds, on exactly the training samples that pass the node, for one of the features drawn for the node, and no split found for another of these features has a larger gain. A node stores no split only if none is found for any of the features drawn.", "quantifier": "all data, configs, arithmetic, draws, tie-breaks, nodes", "why_tests_cant": "Inductive over tree growth: samples of a node are only known through the in-place partitions of all its ancestors.", "anchors": ["src/gbdt_algo/tree_algo.cc: FindBestFeatureAndSplit, FitTreeToGradients"]}
{"id": "C68", "title": "Fitting a tree is always defined", "statement": "Given columns as the loaders build them with one row per gradient and no number above FLT_MAX, at least one thread and sampling rates whose product with the counts fits an int, fitting a tree terminates, reads nothing out of bounds and does not abort.", "quantifier": "all data, configs, arithmetic (NaN gradients included), draws, sort and queue implementations", "why_tests_cant": "Absence of undefined behaviour for all inputs.", "anchors": ["src/gbdt_algo/tree_algo.cc", "src/gbdt_algo/split_algo.cc"]}
{"id": "C69", "title": "Training is always defined", "statement": "Given columns as the loaders build them without numbers above FLT_MAX, at least one thread, rates whose product with the counts fits an int, a group column (if named) that is a string column, a base forest that can be scored on the store and a loss that is defined for the data, training terminates with a status: nothing is read out of bounds and nothing aborts.", "quantifier": "all data, configs, losses, base forests, arithmetic, draws", "why_tests_cant": "Absence of undefined behaviour for all inputs.", "anchors": ["src/gbdt_algo/gbdt_algo.cc: TrainGBDT"]}
{"id": "C70", "title": "Training longer only appends trees", "statement": "Two successful runs that differ only in num_trees (m <= n) return forests that agree on all trees but the constant one up to the end of the shorter run; the longer one has n - m more trees.", "quantifier": "all data, configs, losses, base forests, arithmetic, draws", "why_tests_cant": "Relates two executions.", "anchors": ["src/gbdt_algo/gbdt_algo.cc: TrainGBDT"]}
{"id": "C71", "title": "Continuing from a saved forest equals training on", "statement": "Training m trees and then n more with the first result as base forest gives the same function values and the same splitting trees as training m + n trees at once, in exact arithmetic, for a loss whose result depends only on the function values and a generator that continues where it stopped.", "quantifier": "all data, configs, base forests, m and n", "why_tests_cant": "Relates three executions.", "anchors": ["src/gbdt_algo/gbdt_algo.cc: TrainGBDT, InitializeWithBaseForest, ClearInternalFields"]}
{"id": "C72", "title": "Every configuration that passes the check can be trained with", "statement": "If the configuration check accepts a configuration, training with it (on valid data, with a loss defined for it) has no undefined behaviour.", "quantifier": "all configurations, NaN rates included", "why_tests_cant": "All float rates; NaN slips through the comparisons and is later converted to an integer.", "anchors": ["src/gbdt_algo/utils.cc: CheckConfig", "src/utils/subsampling.cc: UniformSubsample"]}
{"id": "C73", "title": "Every round fits a tree to the gradients of the loss at the current function values", "statement": "A successful run consists of exactly num_trees rounds; in each, the loss is computed at the function values of all trees and constants so far, and the next tree is fitted to those gradients; the result is the constant tree followed by the splitting trees. A run that ends with INTERNAL stopped in the round whose constant was NaN or infinite, with the forest so far.", "quantifier": "all data, configs, losses, base forests, arithmetic, draws", "why_tests_cant": "Quantifies over whole training runs and the unobservable intermediate gradients.", "anchors": ["src/gbdt_algo/gbdt_algo.cc: TrainGBDT"]}
{"id": "C74", "title": "Constructing a LambdaMART loss is defined and its discounts follow the formula", "statement": "Constructing the loss has no undefined behaviour, and the discount of every rank is log(base)/log(base+rank).", "quantifier": "all bases and ranks", "why_tests_cant": "Writes beyond the size of a vector are not observable by assertions.", "anchors": ["src/loss_func/loss_func_lambdamart.cc: LambdaMART"]}
{"id": "C75", "title": "Pairwise gradients are the weighted sums over the drawn pairs", "statement": "For every outcome of the draws: of each group floor(pairs * probability) pairs are drawn, ranked anew for LambdaMART; the gradient of a row is the sum of weight times first derivative over the drawn pairs in which it has the larger target minus those in which it has the smaller one, its hessian twice the sum of weight times second derivative; weights are the product of row weights, pair weight and group factor; the constant is 0.", "quantifier": "all data, targets, group columns, function values, rounds and sampling outcomes, in exact arithmetic", "why_tests_cant": "All random outcomes and all rounds.", "anchors": ["src/loss_func/loss_func_pairwise.cc: ComputeFunctionalGradientsAndHessians, PairWeightingFunc"]}
{"id": "C76", "title": "Pointwise losses are defined for every data set", "statement": "With at least one thread, setting up a pointwise loss returns a status and after success gradients can be computed for any function values, one gradient per row, without reading out of bounds; INVALID_ARGUMENT is returned exactly for the binary losses with some target other than 1 and -1.", "quantifier": "all losses, targets, weights, function values and thread counts", "why_tests_cant": "All data sets and values.", "anchors": ["src/loss_func/loss_func_pointwise.cc: Init, ComputeFunctionalGradientsAndHessians", "src/loss_func/loss_func_logloss.cc: Init", "src/loss_func/loss_func_huberized_hinge.cc: Init"]}
{"id": "C77", "title": "Training with every loss of the library ends with a status", "statement": "Training on a store built by the loaders with any pointwise loss returns one of OK, INVALID_ARGUMENT, NOT_FOUND, INTERNAL and reads nothing out of bounds; so does training with any pairwise loss if rows of some group have different targets, no group is missing and fewer than 2^31 pairs are drawn (exact arithmetic). With a pointwise loss, continuing from a forest gives what training for longer gives.", "quantifier": "all stores, losses, configurations and base forests", "why_tests_cant": "All inputs; runs of unbounded length.", "anchors": ["src/gbdt_algo/gbdt_algo.cc: TrainGBDT", "src/loss_func/loss_func_pointwise.cc", "src/loss_func/loss_func_pairwise.cc"]}
{"id": "C78", "title": "Parallel pairwise gradients are those of some sequential computation", "statement": "Whatever the thread schedule, when computing pairwise gradients returns, the gradients and the ranked groups are exactly those of a computation without threads, for some sequence of numbers that the generator can give; threads race for nothing but the generator; the computation always ends, and no thread crashes or is stuck if the computation without threads is defined for all such numbers.", "quantifier": "all schedules, thread counts, groups, function values, generators and rounds", "why_tests_cant": "All interleavings; the tests run one of them and compare with recorded numbers.", "anchors": ["src/loss_func/loss_func_pairwise.cc: ComputeFunctionalGradientsAndHessians", "src/utils/subsampling.h: get_generator", "src/utils/threadpool.cc"]}
{"id": "C79", "title": "The seconds shown in a duration are less than 60", "statement": "In the rendering of a duration the seconds are less than 60.", "quantifier": "all durations", "why_tests_cant": "Fails only in the last 50 milliseconds of a minute.", "anchors": ["src/utils/stopwatch.cc: MSecsToFormattedString"]}
{"id": "C80", "title": "A slice of a data store has exactly the chosen rows", "statement": "DataStore.slice(index) gives a store with the same columns and types in which row j is row index[j] of the original, for fewer than 60000 rows in every column, missing values, repeats and order included; for more rows the numbers of bucketized columns may become smaller but stay missing for the same rows. An index that is not a row raises an exception. copy() gives equal rows. The call crashes exactly when the chosen rows of a bucketized column have exactly 29999 different numbers.", "quantifier": "all stores of fewer than 2^31 rows, all lists of integers, all orders of the hash map", "why_tests_cant": "The bucketized columns are bucketized again from bucket minima, so equality depends on the values; the crash needs one exact count.", "anchors": ["gbdt/_data_store.py: slice, copy, items, _get_col", "src/python/datastore_py.cc: AddStringColumn, AddBucketizedFloatColumn, AddRawFloatColumn", "src/python/column_py.cc: get"]}
{"id": "C81", "title": "from_dict holds exactly the given columns", "statement": "DataLoader.from_dict, given columns of one length under different names, gives a store with exactly these columns, types and values (fewer than 60000 rows); columns of different lengths raise an exception. The call crashes exactly when a column to be bucketized has exactly 29999 different numbers.", "quantifier": "all dictionaries, all orders of the hash map", "why_tests_cant": "Values go through bucketization; equality for every input and the exact crash condition are beyond samples.", "anchors": ["gbdt/_data_store.py: DataLoader.from_dict", "src/python/datastore_py.cc: Add*Column", "src/data_store/data_store.cc: Add"]}
{"id": "C82", "title": "from_df gives every column the promised type", "statement": "DataLoader.from_df puts every column of the data frame into the store with the type that type_overrides says, or else bucketized for numbers and string for the rest, and with its values.", "quantifier": "all data frames, all overrides", "why_tests_cant": "The combinations of column kind and override are easily missed: one of them loses the column silently.", "anchors": ["gbdt/_data_store.py: DataLoader.from_df"]}
{"id": "C83", "title": "Training appends to the forest it is given", "statement": "When *forest holds trees on entry, TrainGBDT leaves them in front, changing nothing but internal fields, and appends what training into an empty forest gives.", "quantifier": "all data, losses, configurations, base forests and forests on entry", "why_tests_cant": "Both callers pass an empty forest; the constant tree is found by position in two different ways.", "anchors": ["src/gbdt_algo/gbdt_algo.cc: TrainGBDT, InitializeWithBaseForest"]}
{"id": "C84", "title": "Squared error: more trees never fit the training data worse", "statement": "Training with loss mse on all rows, with weights and l2_lambda not negative and shrinkage between 0 and 1, in exact arithmetic: the predictions of the returned forest have no larger weighted squared error on the training data than those of the base forest (or zeros), and a run with more trees has no larger error than the same run with fewer.", "quantifier": "all stores, targets, weights, base forests, configurations, sequences of random numbers", "why_tests_cant": "It is a statement about sums over leaves of every tree that can be fitted; runs show single curves.", "anchors": ["src/gbdt_algo/gbdt_algo.cc: TrainGBDT", "src/gbdt_algo/tree_algo.cc", "src/loss_func/loss_func_pointwise.cc"]}
{"id": "C85", "title": "Squared error: training fits no worse than a constant", "statement": "Training with loss mse as in C84, without base forest, gives predictions with no larger weighted squared error on the training data than any constant prediction.", "quantifier": "all stores, targets, weights, configurations, constants", "why_tests_cant": "Targets of usual size never show the failure: it needs a mean residual below the convergence threshold.", "anchors": ["src/loss_func/loss_func_pointwise.cc: ComputeFunctionalGradientsAndHessians", "src/gbdt_algo/gbdt_algo.cc: TrainGBDT"]}
{"id": "C86", "title": "train uses exactly the features it is asked for", "statement": "train(store, config, features=...) raises ValueError exactly when some name in features is not a column of bucketized numbers or strings of the store. A returned forest splits only on features named in the call, or on those of the base forest.", "quantifier": "all stores, configurations, targets, weights, feature lists", "why_tests_cant": "A misspelt or raw column could be dropped silently for some combination of columns; tests try a few names.", "anchors": ["gbdt/_gbdt.py: train", "src/python/train_gbdt_py.cc: TrainPy"]}
{"id": "C87", "title": "From Python data to predictions without a crash", "statement": "On a store built from equally long columns, train with mse, logloss or huberized_hinge raises an exception or returns a forest, whatever the configuration, targets, weights and features; predict with that forest on the store gives one score per row, the sum of the scores of the trees. A call with everything in order returns a forest unless the learning diverges. With mse in exact arithmetic the predictions have no larger squared error than those of the base forest.", "quantifier": "all stores, targets, weights, configurations with rates that are numbers, machines, seeds, numbers of threads", "why_tests_cant": "The composition of loader, configuration check, loss, training and scoring over all data is out of reach of runs.", "anchors": ["gbdt/_gbdt.py: train", "gbdt/_forest.py: predict", "src/python/train_gbdt_py.cc", "src/python/forest_py.cc", "src/loss_func/loss_func_factory.cc"]}
{"id": "C88", "title": "The command line and Python train the same forest", "statement": "For the same store, configuration without binarize_target, seed, number of threads and base forest, with the weight column passed as weights, the command line and gbdt.train return the same forest; where one crashes the other does; where the command line stops, train raises an exception with a library error or stops. With binarize_target the command line returns the forest that gbdt.train returns for the targets replaced by 1 (positive) and -1 (the others), for the losses that look at one row at a time.", "quantifier": "all stores, configurations that name features of the right types, machines, seeds", "why_tests_cant": "The two entry points check and prepare their arguments in different code; tests compare at most a few runs.", "anchors": ["src/main.cc: Train", "gbdt/_gbdt.py: train", "src/python/train_gbdt_py.cc: TrainPy"]}
{"id": "C89", "title": "The configuration means the same from Python as on the command line", "statement": "The same configuration gives the same forest from gbdt.train as from the command line, including weight_column and binarize_target.", "quantifier": "all stores and configurations", "why_tests_cant": "A field that one entry point ignores shows up only in a test that sets it and compares.", "anchors": ["src/main.cc: Train", "src/python/train_gbdt_py.cc: TrainPy", "src/gbdt_algo/utils.cc: GetSampleWeightsOrDie, GetTargetsOrDie"]}
{"id": "C90", "title": "Without shrinkage nothing is learned", "statement": "With shrinkage 0, which is what a configuration without the field means, a successful training changes every prediction by one and the same constant: no tree contributes anything. In exact arithmetic.", "quantifier": "all stores, targets, weights, pointwise losses, seeds, exact arithmetic", "why_tests_cant": "The training succeeds without a warning; only a comparison over all rows and data sets shows that the trees are idle.", "anchors": ["src/proto/config.proto: shrinkage", "src/gbdt_algo/utils.cc: CheckConfig", "src/gbdt_algo/gbdt_algo.cc: TrainGBDT"]}
{"id": "C91", "title": "An empty store raises exceptions, never a crash", "statement": "Looking at a store without columns, training on it and predicting with it gives an empty result or an exception.", "quantifier": "all configurations, forests, arguments", "why_tests_cant": "The crash needs one combination of absent arguments among many.", "anchors": ["src/python/train_gbdt_py.cc: TrainPy", "src/python/forest_py.cc: PredictAndOutput, Predict", "src/python/datastore_py.cc"]}
{"id": "C92", "title": "A column taken from a store can be used", "statement": "A column object stays usable whatever is done to the store afterwards. (True exactly as long as the column is not erased, the store is not cleared or loaded anew, and the store itself is kept by a reference.)", "quantifier": "all stores, all sequences of operations", "why_tests_cant": "Use after free shows no symptom in most runs, and the sequences of operations are infinitely many.", "anchors": ["src/python/column_py.h", "src/python/datastore_py.cc: GetStringColumn, InitDataStorePy", "gbdt/_data_store.py: DataStore"]}
{"id": "C93", "title": "Columns as lists and stores as data frames lose nothing", "statement": "list(column) is the list of all rows. to_df shows every column and nothing else, with all rows in order. from_df(store.to_df()) has the same columns and values; with float overrides for the raw columns it has the same types too.", "quantifier": "all stores", "why_tests_cant": "Iteration depends on an exception at the right index; the round trip ranges over all columns and values.", "anchors": ["gbdt/_data_store.py: to_df, from_df", "src/python/column_py.cc: get", "src/python/gbdt_py_base.cc: ThrowException"]}
{"id": "C94", "title": "The number of threads does not matter", "statement": "predict and predict_and_output give the same result for any two positive numbers of threads, in any arithmetic. train with mse, logloss or huberized_hinge gives the same forest, or the same exception, in exact arithmetic.", "quantifier": "all stores, configurations, targets, weights, seeds, base forests, numbers of threads", "why_tests_cant": "Slices of the rows depend on the number of threads in five places; a test compares a few numbers on one data set.", "anchors": ["src/gbdt_algo/compute_tree_scores.cc: ComputeTreeScores", "src/gbdt_algo/tree_algo.cc: ComputeWeightedSum", "src/loss_func/loss_func_pointwise.cc: Init", "src/gbdt_algo/evaluation.cc: EvaluateForest"]}
{"id": "C95", "title": "The number of threads does not change a single bit", "statement": "train gives exactly the same forest for any two positive numbers of threads, in floating point arithmetic too.", "quantifier": "all stores, configurations, targets, weights, seeds, base forests, numbers of threads", "why_tests_cant": "Sums grouped in different ways agree on most data, and where they differ it is usually in the last bit.", "anchors": ["src/gbdt_algo/tree_algo.cc: ComputeWeightedSum", "src/loss_func/loss_func_pointwise.cc: ComputeFunctionalGradientsAndHessians"]}
{"id": "C96", "title": "A trained forest predicts on other data", "statement": "predict on a data store built from a dictionary gives, for every row, the value of the forest for the row's own strings and numbers: at each split a string goes left if it is among the categories, a number if it is below the threshold, a missing number as the split says. A forest trained on one store can be used on every other store whose feature columns have the same types, whatever values and categories it holds.", "quantifier": "all dictionaries of fewer than 60000 rows, all typed forests, all training runs, all column orders and numbers of threads", "why_tests_cant": "Codes and bucket numbers differ from store to store; tests predict on the training data or on one file.", "anchors": ["src/gbdt_algo/compute_tree_scores.cc: ComputeTreeScores", "src/gbdt_algo/evaluation.cc: ClearInternalFields", "src/gbdt_algo/tree_algo.cc: LoadFeatures", "src/data_store/column.cc: BuildBuckets", "gbdt/_data_store.py: from_dict"]}
{"id": "C97", "title": "A row's prediction does not depend on the other rows", "statement": "predict gives a row the same score whether it is predicted alone or together with other rows.", "quantifier": "all data, all typed forests", "why_tests_cant": "Differences appear only with 60000 or more rows of different values, and only for rows near a threshold.", "anchors": ["src/data_store/column.cc: BuildBuckets", "src/data_store/column.h: num_buckets", "src/gbdt_algo/compute_tree_scores.cc: ComputeTreeScores"]}
{"id": "C98", "title": "Partial dependency plots show what they say", "statement": "plot_partial_dependency(forest, data, feature, x, x0) shows, for each value v of x (numbers sorted, strings in their order) and each row, the value of the forest for the row with the feature set to v minus that for the row with the feature set to x0 (missing for numbers, the first of x for strings, if x0 is not given). All other values of the row are those of data, which is not changed; nothing is left over from one value to the next. For a feature that the forest does not use all differences are those of a number with itself; a raw column or an unknown name raises ValueError.", "quantifier": "all stores of fewer than 60000 rows that can be copied (all from from_dict can), all forests typed for the store, all values, numbers of threads and orders of the hash map", "why_tests_cant": "The plot is only looked at; a column left over from the previous value, or a base computed after the first value, gives plots that look plausible.", "anchors": ["gbdt/_partial_dependency_plot.py: plot_partial_dependency", "gbdt/_data_store.py: copy, erase, add_bucketized_float_col, add_string_col", "src/python/datastore_py.cc: Add, Remove", "src/gbdt_algo/evaluation.cc: EvaluateForest"]}
{"id": "C99", "title": "Forests survive JSON", "statement": "str(forest) (and the command line's model file) succeeds exactly if no tree is nested deeper than the JSON writer allows (64); Forest(str(forest)) is then the same forest, field by field: scores, thresholds, directions for missing values, categories, gains, the order of the trees and unset children.", "quantifier": "all forests of set trees, all ways of printing numbers that are read back exactly", "why_tests_cant": "Tests save one small model; a field that is dropped when it has its default value, or an optional child that comes back as an empty node, shows only for particular trees.", "anchors": ["src/utils/json_utils.cc: ToJson, FromJson", "src/python/forest_py.cc: ctor, ToJson", "src/proto/tree.proto"]}
{"id": "C100", "title": "Every trained forest can be saved", "statement": "A forest returned by train can be converted to JSON, whatever num_leaves is: no configuration makes a trained model impossible to save.", "quantifier": "all data, configurations and seeds", "why_tests_cant": "Needs a tree with a chain of more than sixty splits; tests train small trees.", "anchors": ["src/utils/json_utils.cc: ToJson", "src/main.cc: Train", "src/python/forest_py.cc: ToJson"]}
{"id": "C101", "title": "Pictures of trees are complete", "statement": "ForestVisualizer(forest).visualize_tree(i) draws tree i: one node for every node of the tree, labelled with its split and score, with names that are all different, and exactly the edges from nodes to their children. It works for every tree of a trained forest that can be saved, if its numbers are finite; num_trees is the number of trees.", "quantifier": "all forests that can be written as JSON, all trees of them whose numbers can be printed", "why_tests_cant": "Name clashes between nodes or a missed edge show only in trees of particular shapes, and pictures are judged by eye.", "anchors": ["gbdt/_forest_visualizer.py: ForestVisualizer"]}
{"id": "C102", "title": "Labels in pictures say where rows go", "statement": "The condition in the label of a node (feature <= threshold, with a star on the side of missing values; or feature in a set) holds for a row exactly if the forest sends the row to the left child.", "quantifier": "all splits and values", "why_tests_cant": "The label is text; nothing compares it with the evaluation of trees.", "anchors": ["gbdt/_forest_visualizer.py: _format_float_label, _format_categorical_label", "scripts/draw_trees.py", "src/gbdt_algo/compute_tree_scores.cc", "src/proto/tree.proto: FloatSplit"]}
{"id": "C103", "title": "Generators of predictions do not interfere", "statement": "Several generators made by forest.predict_at_checkpoints, advanced in any order (for example with zip), each yield what they would yield alone: the scores of their own forest at their own checkpoints.", "quantifier": "all forests, data, checkpoints, and all orders in which the generators are advanced", "why_tests_cant": "Tests exhaust one generator before making the next; the number of interleavings is unbounded.", "anchors": ["gbdt/_forest.py: predict_at_checkpoints", "src/python/forest_py.cc: PredictAndOutput", "src/gbdt_algo/evaluation.cc: EvaluateForest"]}
{"id": "C104", "title": "Rows of weight zero are left out", "statement": "In exact arithmetic, replacing the targets of rows with weight zero does not change what train returns, or whether it raises, for mse, logloss and huberized_hinge (whose targets must remain 1 or -1): a model trained on a bag has not seen the targets out of the bag.", "quantifier": "all data, configurations, weights, seeds, base forests, and all replacements of targets in rows of weight zero", "why_tests_cant": "A test would compare two models on one data set; the claim is about all replacements, through histograms, splits, leaf values, sampling and the initial constant.", "anchors": ["src/loss_func/loss_func_pointwise.cc: ComputeFunctionalGradientsAndHessians", "src/gbdt_algo/tree_algo.cc: FitTreeToGradients", "src/gbdt_algo/split_algo.cc", "scripts/bagged.py"]}
{"id": "C105", "title": "Rows of weight zero are left out, with doubles", "statement": "As C104 with IEEE doubles.", "quantifier": "all data, configurations, weights, seeds, base forests, and all replacements of targets in rows of weight zero", "why_tests_cant": "Fails only when the loss of a row of weight zero overflows, which test data does not produce.", "anchors": ["src/loss_func/loss_func_math.cc: ComputeLogLoss", "src/loss_func/loss_func_pointwise.cc", "src/loss_func/gradient_data.h"]}
{"id": "C106", "title": "The order of the rows does not matter for numbers", "statement": "In exact arithmetic, reordering the rows of data that has no string columns, and the targets and weights with them, does not change what train returns, or whether it raises (mse, logloss, huberized_hinge; no sampling of rows). Features may still be sampled, a base forest given, and any number of threads used.", "quantifier": "all data without strings, all permutations of its rows, all configurations, weights, seeds, base forests, numbers of threads", "why_tests_cant": "A test can shuffle one data set; the claim spans bucketing, histograms, split search, partitioning, leaf values and all trees, for all permutations.", "anchors": ["src/data_store/column.cc: BuildBuckets", "src/gbdt_algo/split_algo.cc", "src/gbdt_algo/tree_algo.cc", "src/gbdt_algo/gbdt_algo.cc: TrainGBDT", "gbdt/_gbdt.py: train"]}
{"id": "C107", "title": "The order of the rows does not matter", "statement": "As C106 for data that may have string columns.", "quantifier": "all data, all permutations of its rows, all configurations, weights, seeds, base forests, numbers of threads", "why_tests_cant": "Fails only when two categories have equal scores and a split separates them; shuffled test data rarely shows it.", "anchors": ["src/data_store/column.cc: StringColumn::Add", "src/gbdt_algo/split_algo.cc: SortOnNodeScore, FindBestStringSplit"]}
{"id": "C108", "title": "Weights count rows", "statement": "In exact arithmetic and without sampling, giving each row a positive whole number as weight is the same for train as repeating the row that often: the same forest or the same exception (mse, logloss, huberized_hinge; fewer than 60000 rows counted with repetition).", "quantifier": "all data, with or without strings, all positive whole weights, configurations, base forests, numbers of threads", "why_tests_cant": "Relates two runs on different data through bucketing, histograms, splits, leaf values, initial constants; tests compare one pair at most.", "anchors": ["src/gbdt_algo/split_algo.cc: ComputeHistograms", "src/loss_func/loss_func_pointwise.cc", "src/data_store/column.cc: BuildBuckets", "src/gbdt_algo/tree_algo.cc"]}
{"id": "C109", "title": "The number of sampled pairs", "statement": "In exact arithmetic, a round of training with a pairwise loss draws at most pair_sampling_rate * num_rows / 2 pairs, less than one pair per group below that, and without a group column exactly that number rounded down (if there are two rows with different targets in one group).", "quantifier": "all targets, groups, positive rates with fewer than 2^31 pairs, function values, outcomes of the random generator, rounds", "why_tests_cant": "A test sees one data set; the claim is about the sum over any number of groups of any size of counts that are rounded down one by one.", "anchors": ["src/loss_func/loss_func_pairwise.cc: Init, ComputeFunctionalGradientsAndHessians", "src/proto/config.proto: pair_sampling_rate"]}
{"id": "C110", "title": "Rounding the number of pairs loses less than one pair", "statement": "The number of pairs that a round draws is less than one pair below pair_sampling_rate * num_rows / 2, so that all groups with different targets are learned from.", "quantifier": "all targets, groups, positive rates, function values, outcomes of the random generator, rounds", "why_tests_cant": "Test data has few groups with many pairs each; the loss grows with the number of groups and is total for groups of two.", "anchors": ["src/loss_func/loss_func_pairwise.cc: 122", "src/proto/config.proto: pair_sampling_rate"]}
{"id": "C111", "title": "equal_group_weight makes the weights of groups equal", "statement": "With equal_group_weight, the pairs drawn from each group that has pairs weigh the same in total (rows of weight 1, pairs not weighted by the difference of targets).", "quantifier": "all targets, groups, positive rates, function values, outcomes of the random generator, rounds", "why_tests_cant": "The weights are internal; a test would have to compare groups of different sizes for all roundings.", "anchors": ["src/loss_func/loss_func_pairwise.cc: 83-96, 122-127", "src/proto/config.proto: equal_group_weight"]}
{"id": "C112", "title": "Ranking from data to predictions", "statement": "In exact arithmetic, train with auc, pairwise_logloss or gbrank on a store whose columns have one length never crashes, whatever the features, weights and configuration otherwise; a call with everything in order returns a forest (ranking never diverges); predict then gives one score per row, and training can go on from the forest. Needed: a positive pair_sampling_rate with fewer than 2^31 pairs, two rows of one group with different targets, no missing group.", "quantifier": "all stores, targets, weights, groups, features, configurations, base forests, seeds, numbers of threads, outcomes of the generator", "why_tests_cant": "Composes the loader, grouping, sampling, tree fitting and scoring for all data; tests run a few data sets.", "anchors": ["gbdt/_gbdt.py: train", "gbdt/_forest.py: predict", "src/python/train_gbdt_py.cc", "src/loss_func/loss_func_pairwise.cc", "src/loss_func/loss_func_factory.cc", "src/gbdt_algo/gbdt_algo.cc"]}
{"id": "C113", "title": "The options of ranking mean what they say", "statement": "In exact arithmetic, train with auc, pairwise_logloss or gbrank consists of num_trees rounds: at the scores of the trees so far, pairs of rows of one group with different targets are drawn, as many per group as pair_sampling_rate says; a pair weighs the product of its row weights, times the difference of the targets with pair_weight_by_delta_target, times a factor inverse to the number of pairs of the group with equal_group_weight; it pulls the better row up and the worse row down by the slope of the loss at the difference of their scores (huberized hinge, logistic loss, squared hinge with the difference of targets as margin); a tree is fitted to that and shrunk. Predictions are the sum of the trees, without constants.", "quantifier": "all stores, targets, weights, groups, features, configurations, base forests, seeds, numbers of threads, outcomes of the generator", "why_tests_cant": "The sampled pairs and gradients are internal and random; the claim is about every round of every run.", "anchors": ["src/loss_func/loss_func_pairwise.cc", "src/loss_func/loss_func_auc.h", "src/loss_func/loss_func_pairwise_logloss.h", "src/loss_func/loss_func_gbrank.h", "src/loss_func/loss_func_math.cc", "src/loss_func/group.cc", "src/proto/config.proto"]}
{"id": "C114", "title": "Ranking uses the order of the targets", "statement": "With auc or pairwise_logloss and without pair_weight_by_delta_target, train uses nothing of the targets but the order (ties included) of the rows within each group: targets that order the rows of each group alike give the same forest, exception or crash, in any arithmetic. With all three losses for ranking (gbrank too) and any options it uses nothing but order and differences within groups; in exact arithmetic, adding a number to the targets of a group, for each group its own, changes nothing.", "quantifier": "all stores, pairs of target lists, weights, groups, features, configurations, base forests, seeds, numbers of threads, arithmetics", "why_tests_cant": "A relation between two runs for all pairs of target vectors; tests compare a run with fixed numbers.", "anchors": ["gbdt/_gbdt.py: train", "src/loss_func/group.cc", "src/loss_func/loss_func_pairwise.cc", "src/loss_func/loss_func_auc.h", "src/loss_func/loss_func_pairwise_logloss.h", "src/loss_func/loss_func_gbrank.h"]}
{"id": "C115", "title": "Units of numeric features and names of categories do not matter", "statement": "Scaling numeric features and renaming the categories of string features, in the same way for training and for the data to predict for, leaves what train returns as it is up to thresholds and category names (same shapes, leaf scores, features, gains, or the same exception) and leaves all predictions as they are, for every loss, sampling, weights, groups and arithmetic. Renaming may be any injective map that keeps the marker __missing__; scaling any strictly increasing map under which the thresholds training can choose keep the same values on either side, which includes, in exact arithmetic, increasing linear maps on values not below all training values (on all values if none is missing in training).", "quantifier": "all data sets, maps of numbers and strings, losses, configurations, seeds, thread counts, other data", "why_tests_cant": "A relation between two runs over all data and all transformations; a test compares fixed numbers.", "anchors": ["src/data_store/column.cc: BuildBuckets, StringColumn::Add", "src/gbdt_algo/split_algo.cc", "src/gbdt_algo/gbdt_algo.cc", "gbdt/_gbdt.py: train", "src/python/forest_py.cc: Predict"]}
{"id": "C116", "title": "Monotone transformations and training rows", "statement": "Any strictly increasing transformation of a numeric feature leaves the predictions for the training rows as they are.", "quantifier": "all data sets, strictly increasing functions, configurations", "why_tests_cant": "A relation between two runs over all transformations.", "anchors": ["src/gbdt_algo/split_algo.cc:119-123", "src/gbdt_algo/split_algo.cc:222-231"]}
{"id": "C117", "title": "Multiplying a feature by a positive number", "statement": "In exact arithmetic, multiplying numeric features by positive numbers, in training and in the data to predict for, leaves predictions as they are.", "quantifier": "all data sets, positive factors, configurations, other data", "why_tests_cant": "A relation between two runs over all factors and all other data.", "anchors": ["src/gbdt_algo/split_algo.cc:222-231"]}
{"id": "C118", "title": "Which JSON is a forest, and which", "statement": "Reading JSON as a forest succeeds exactly for objects made of the fields of the messages with values of their types and nesting within the parser's limit, and gives exactly the forest the fields say: names in camelCase or snake_case, null as not given, missing numbers as 0, missing flags as false, missing children as absent. Anything else (unknown fields, wrong types, a non-object) is refused, and no JSON means two forests.", "quantifier": "all JSON values in which no object gives a field twice, all number codecs in which an object is not a number, all nesting limits", "why_tests_cant": "A characterization over all JSON values, hand-written ones included; tests read a few that the code itself has written.", "anchors": ["src/utils/json_utils.cc:58-67", "src/proto/tree.proto:20-51", "gbdt/_forest.py"]}
{"id": "C119", "title": "From TSV files to predictions", "statement": "With pointwise losses, training on TSV files never crashes: it ends with an error (or exception), or gives a model that can be read back and whose splits fit the types of the configured columns. Testing that model on files whose header has the configured columns and whose lines have their cells writes a score file for every checkpoint; every file has one score per data line, and the score is the value of the trees up to the checkpoint for the cells of that line. The same holds for DataStore.from_tsvs, train and predict from Python.", "quantifier": "all file contents, headers, configurations with distinct column names, base models, seeds, schedules of the loading pool, sort and hash orders, numbers of threads; fewer than 60000 lines to test, no cell above FLT_MAX, no column on which bucketing crashes", "why_tests_cant": "Composes parsing, bucketing, training, JSON and scoring for all files; tests run one file through.", "anchors": ["src/main.cc:88-190", "src/data_store/tsv_data_store.cc:39-216", "gbdt/_data_store.py:109-122", "src/python/datastore_py.cc:37-57", "src/gbdt_algo/evaluation.cc:40-103"]}
{"id": "C120", "title": "Testing needs only the features of the model", "statement": "--mode=test works on TSV files that have the features named in the configuration, with readable cells.", "quantifier": "all models, configurations and files", "why_tests_cant": "A statement about all files and configurations; tests use files with every column.", "anchors": ["src/data_store/tsv_data_store.cc:133-216", "src/main.cc:161-190"]}
{"id": "C121", "title": "The program and the Python package agree on TSV files", "statement": "DataStore.from_tsvs with the columns named in a configuration gives the store the program loads, and raises exactly when the program stops. The program then writes a model exactly if train with the same features, configuration, weights, base model, seed and number of threads returns a forest that can be written as JSON; it writes that forest, and its feature importance. The score files of --mode=test are those of predict_and_output.", "quantifier": "all files, configurations with distinct column names, both sampling rates and a target column, base models, weights, losses, seeds, numbers of threads, schedules of the loading pools; hash sets are listed in an order given by their contents", "why_tests_cant": "Relates two front ends for all inputs; tests of either do not compare them.", "anchors": ["src/main.cc:88-190", "src/python/train_gbdt_py.cc:42-118", "src/python/datastore_py.cc:37-57", "gbdt/_data_store.py:109-122", "gbdt/_gbdt.py:4-49"]}
{"id": "C122", "title": "What a configuration file means", "statement": "A configuration is read from exactly those JSON objects whose names are names of configuration fields (in camelCase or snake_case) and whose values have the fields' types. Each field then has the value given for it; null counts as not given, and what is not given is 0, false, empty or without elements.", "quantifier": "all JSON values that give no field twice, all readers of numbers and booleans", "why_tests_cant": "Characterizes the accepted configurations and their meaning; tests read a few files.", "anchors": ["src/utils/json_utils.cc:58-67", "src/proto/config.proto:20-70", "src/main.cc:115-119", "src/python/train_gbdt_py.cc:51-53"]}
{"id": "C123", "title": "train reads its dictionary as the program reads its file", "statement": "gbdt.train with a dictionary gives the forest, or raises the error, that training with the configuration the dictionary means gives, with the features of the argument features and with rates of 1 where the dictionary has none. It raises ValueError if an entry other than the features has a name that is not a field's or a value that is not of the field's type.", "quantifier": "all dictionaries that give no field twice, write float_feature, categorical_feature and the two sampling rates in snake_case, and give no rate as None; all stores, targets, features, weights, base models, seeds, numbers of threads", "why_tests_cant": "Combines edits of a dictionary, JSON and message reading, for all dictionaries.", "anchors": ["gbdt/_gbdt.py:4-49", "src/python/train_gbdt_py.cc:42-118", "src/proto/config.proto:20-70"]}
{"id": "C124", "title": "The spelling of fields and None in the dictionary do not matter", "statement": "gbdt.train gives the same result if a field of the dictionary is spelled in camelCase instead of snake_case, and if a field is None instead of missing.", "quantifier": "all dictionaries that give no field twice, all stores and features", "why_tests_cant": "Needs all fields in both spellings; a test would have to guess the failing ones.", "anchors": ["gbdt/_gbdt.py:36-41", "src/proto/config.proto:37-39", "src/gbdt_algo/utils.cc:204-228"]}
{"id": "C125", "title": "Columns that are not named do not matter", "statement": "Removing a column from a store changes neither what gbdt.train does nor what predict returns, if it is no feature, target or group column and no feature of the base forest or of the forest. The program writes the same model and the same scores for two tables that have the same cells under the names that the configuration and the forests use: the order of the columns, other columns of the table, blank lines, spaces around headers and additional columns that are asked for do not matter.", "quantifier": "all stores, sets of columns to keep, features, configurations, targets, weights, base forests, seeds and numbers of threads; all pairs of tables and configurations that can be loaded and agree on the named columns", "why_tests_cant": "A statement about the absence of any influence, for all tables; a test sees one table.", "anchors": ["src/gbdt_algo/gbdt_algo.cc:122-206", "src/gbdt_algo/compute_tree_scores.cc:32-68", "src/gbdt_algo/utils.cc:40-77", "src/data_store/tsv_data_store.cc:39-216", "gbdt/_gbdt.py:4-49", "src/main.cc:106-190"]}
{"id": "C126", "title": "Flat files are as good as a store in memory", "statement": "With --flatfiles_dirs, the program writes the model, feature importances and score files that it writes on a store holding the columns of the files, whichever thread loads which column when and whichever of weights and targets the compiler loads first. A file that is missing, of unknown type or of another number of rows than the targets counts as a missing column.", "quantifier": "all files whose reading is defined, with a non-empty target column of n rows; all configurations, base forests with features of the configuration, schedules of the loading threads, orders of the hash map, seeds, numbers of threads; testing for all forests with features", "why_tests_cant": "Columns are loaded lazily by concurrent threads; a test sees one schedule and one set of files.", "anchors": ["src/data_store/flatfiles_data_store.cc:33-140", "src/gbdt_algo/utils.cc:40-77", "src/gbdt_algo/utils.cc:157-193", "src/main.cc:88-190"]}
{"id": "C127", "title": "TSV files and flat files of a table give the same results", "statement": "If a table can be loaded from TSV files and there are flat files with the same cells for the columns that the configuration names, then the program writes the same model and feature importances from the TSV files and from the flat files, and the same score files for a forest on these columns.", "quantifier": "all tables of 1 to 3,000,000 rows whose cells do not start with #, all configurations with distinct column names, numbers of TSV files, schedules, base forests, seeds, numbers of threads", "why_tests_cant": "Relates two loaders and everything after them, for all tables.", "anchors": ["src/data_store/flatfiles_data_store.cc:33-140", "src/data_store/tsv_data_store.cc:39-216", "src/data_store/column.cc:191-305", "src/main.cc:88-190"]}
{"id": "C128", "title": "The converter's flat files can be loaded", "statement": "Every column of a table can be loaded, under its name, from the flat files that scripts/convert_tsv_to_filatfiles.py makes of it. (False: the script gives float features the type binned_floats, which the store does not know, and replaces spaces and slashes in file names.)", "quantifier": "all tables whose rows have a cell on one line for every column, with distinct file names", "why_tests_cant": "The script and the store are never tested together; the claim is about all tables.", "anchors": ["scripts/convert_tsv_to_filatfiles.py:7-29", "src/data_store/flatfiles_data_store.cc:33-140"]}
{"id": "C129", "title": "Every row of flat files gets a score", "statement": "The score files that --mode=test writes from flat files have one score per row of the files. (False for forests without a split: no column is loaded, the store has no rows, and empty files are written.)", "quantifier": "all sets of flat files with n rows, all forests whose features are among them", "why_tests_cant": "The failing case is a forest that most tests never produce; the positive part is about all forests and files.", "anchors": ["src/gbdt_algo/evaluation.cc:57-103", "src/data_store/data_store.cc:67-69", "src/data_store/flatfiles_data_store.cc:33-140"]}
{"id": "C130", "title": "All columns of a flat file store have the same number of rows", "statement": "Whatever calls of GetColumn are in progress, all columns of a flat file store have the same number of rows, and testing that succeeds has found all features with the same number of rows. (False in general: the check is skipped while the store's first column is empty; training with an empty weight file either aborts or reads out of bounds, depending on the order in which the compiler evaluates arguments.)", "quantifier": "all sets of flat files, requested names and schedules of the calls; the positive part for files without empty columns", "why_tests_cant": "About all interleavings of loading threads and about an order of evaluation that no test can choose.", "anchors": ["src/data_store/flatfiles_data_store.cc:76-84", "src/data_store/data_store.cc:67-69", "src/main.cc:137-144"]}
{"id": "C131", "title": "Only the proportions of sample weights matter, if the limits are changed with them", "statement": "If all sample weights, l2_lambda, min_hessian and min_gain are multiplied by the same number, train gives a forest with the same splits and the same scores, hence the same predictions and the same feature importances; only the gains noted in it are multiplied. It raises or aborts in the same cases.", "quantifier": "all stores, targets, weights (none given counts as weights of 1), features, seeds, numbers of threads and configurations with mse, logloss or huberized_hinge and min_gain not below 1e-6 before and after; arithmetic without rounding; any sort and any priority queue that look at keys only by comparing them", "why_tests_cant": "Relates two runs of the whole training loop for every data set and factor.", "anchors": ["src/loss_func/loss_func_pointwise.cc:34-92", "src/gbdt_algo/split_algo.cc:33-285", "src/gbdt_algo/tree_algo.cc:43-179", "src/gbdt_algo/gbdt_algo.cc:50-206", "src/loss_func/gradient_data.h:21-62", "src/gbdt_algo/utils.cc:79-108"]}
{"id": "C132", "title": "Without regularization only the proportions of sample weights matter", "statement": "With l2_lambda, min_hessian and min_gain of 0, multiplying all sample weights by the same number does not change predictions. (False: gains are compared with a fixed tolerance of 1e-6, so with small weights, such as weights that add up to 1, no tree is split.)", "quantifier": "all stores, targets, weights, factors > 0, configurations with mse, logloss or huberized_hinge; the positive part with the tolerance multiplied as well", "why_tests_cant": "Relates two runs for every data set and factor; tests use weights around 1.", "anchors": ["src/gbdt_algo/split_algo.cc:33", "src/gbdt_algo/split_algo.cc:193", "src/loss_func/loss_func_pointwise.cc:34-92", "src/gbdt_algo/tree_algo.cc:43-179", "src/gbdt_algo/gbdt_algo.cc:50-206"]}
{"id": "C133", "title": "Negated targets give negated predictions", "statement": "If all targets are negated, train on float features gives a forest with the same splits and negated scores, and its predictions are the negated predictions, exactly, also with doubles. It raises or aborts in the same cases.", "quantifier": "all stores, non-empty targets, weights, features that are not strings, configurations with mse, logloss or huberized_hinge, seeds and numbers of threads; any arithmetic whose rounding is symmetric, proved of IEEE doubles", "why_tests_cant": "Relates two runs of the whole training loop for every data set, up to the last bit.", "anchors": ["src/loss_func/loss_func_pointwise.cc:34-92", "src/loss_func/loss_func_mse.h:27-30", "src/loss_func/loss_func_logloss.cc:31-42", "src/loss_func/loss_func_huberized_hinge.cc:29-40", "src/gbdt_algo/split_algo.cc:33-285", "src/gbdt_algo/tree_algo.cc:43-179", "src/gbdt_algo/gbdt_algo.cc:50-206"]}
{"id": "C134", "title": "Negated targets give negated predictions, with string features", "statement": "The same with string features. (False: categories are sorted by mean gradient and the first of several best splits is taken; among equally good splits negated targets lead to another one.)", "quantifier": "all stores, targets, weights, features, configurations with mse, logloss or huberized_hinge", "why_tests_cant": "Needs a tie between two splits; and the claim relates two runs.", "anchors": ["src/gbdt_algo/split_algo.cc:95-285", "src/gbdt_algo/tree_algo.cc:43-179"]}
{"id": "C135", "title": "The unit of the targets does not matter to squared error", "statement": "With mse and min_gain 0, multiplying all targets by a positive number multiplies all predictions by it. (False: the tolerance for gains, 1e-6, and the threshold of the convergence test, 1e-4, are absolute. Targets such as rates of a few in 10000 are not fitted.)", "quantifier": "all stores, targets, factors > 0, weights, features, configurations with mse; the positive part with threshold and tolerance in the unit of the targets and its square", "why_tests_cant": "Relates two runs for every data set and factor.", "anchors": ["src/gbdt_algo/split_algo.cc:33", "src/gbdt_algo/split_algo.cc:193", "src/loss_func/loss_func_pointwise.cc:34-92", "src/gbdt_algo/tree_algo.cc:43-179", "src/gbdt_algo/gbdt_algo.cc:50-206"]}
{"id": "C136", "title": "Every row has one out-of-bag score, and it is from the one bag that the row is out of", "statement": "scripts/bagged.py: every row has weight zero in exactly one bag and weight one in the others. When the script has finished, there is an in-bag and an out-of-bag score for every row and every test point; the out-of-bag score of a row is its score by the model of the one bag that the row is out of, the in-bag score is the mean of its scores by the models of all other bags.", "quantifier": "all flat files, configurations, numbers of bags, Python hash functions (also negative hashes), test intervals, machines, schedules of threads", "why_tests_cant": "Hashes of strings differ between Python versions and runs; the claim is about every hash function and every number of bags.", "anchors": ["scripts/bagged.py:33-36", "scripts/bagged.py:41-45", "scripts/bagged.py:47-70", "scripts/bagged.py:118-136"]}
{"id": "C137", "title": "Out-of-bag scores are honest", "statement": "scripts/bagged.py: the target of a row does not matter to its out-of-bag scores. The model of the bag that the row is out of, and all score files of that bag, are the same whatever the target is.", "quantifier": "all flat files with n > 0 targets, rows, targets (of the same class or none, for the losses for two classes), configurations with mse, logloss or huberized_hinge whose target is not a feature and not the group, hash functions, numbers of bags, seeds, schedules of threads; arithmetic without rounding (0 times a gradient is 0)", "why_tests_cant": "Relates two runs of a script that runs the program once per bag, for every data set; a leak would show in the quality of the scores only.", "anchors": ["scripts/bagged.py:72-136", "src/main.cc:106-190", "src/gbdt_algo/utils.cc:157-183", "src/gbdt_algo/gbdt_algo.cc:122-206", "src/loss_func/loss_func_pointwise.cc:34-92"]}
{"id": "C138", "title": "Bagging succeeds if the program succeeds for every bag", "statement": "scripts/bagged.py with two bags or more writes its scores if training and testing succeed for every bag. (False: the model of a bag may have no split; then its score files are empty, see C129, and the script raises IndexError. Also, rows are counted by the lines of an arbitrary file that are not blank: with blank rows in it the file of weights is too short and training aborts. With one bag there is a ZeroDivisionError.)", "quantifier": "all flat files with n > 0 targets, configurations, hash functions, numbers of bags", "why_tests_cant": "Needs a bag with constant targets, or a string column with empty cells that happens to be listed first.", "anchors": ["scripts/bagged.py:33-36", "scripts/bagged.py:82-85", "scripts/bagged.py:87-136"]}
{"id": "C139", "title": "Bagging respects the sample weights of the configuration", "statement": "scripts/bagged.py: rows to which the weight column of the configuration gives weight zero do not matter to bagging, as they do not matter to training (C104). (False: the script replaces the weight column by its own weights; the weights of the configuration are not used at all.)", "quantifier": "all flat files, configurations with a weight column", "why_tests_cant": "The script runs without complaint; only comparing models shows it.", "anchors": ["scripts/bagged.py:80-85", "src/gbdt_algo/utils.cc:157-168"]}
{"id": "C140", "title": "Adding a constant to all targets adds it to all predictions", "statement": "train with squared error: if the same number s is added to all targets, the forest is the same but for the score of its first, constant tree, which is larger by s, and all predictions on all data are larger by s. This holds as long as neither the weighted mean of the targets nor that mean plus s is within the convergence threshold (0.0001) of zero.", "quantifier": "all stores, features, targets, weights with a total other than zero, shifts, configurations with mse (sampling and regularization included), seeds, numbers of threads; exact arithmetic, no base forest", "why_tests_cant": "Relates two training runs on arbitrary data over any number of rounds; tests compare single runs with stored results.", "anchors": ["src/gbdt_algo/gbdt_algo.cc:122-206", "src/loss_func/loss_func_pointwise.cc:34-92", "src/loss_func/loss_func_math.cc:24-26", "src/gbdt_algo/compute_tree_scores.cc:32-68"]}
{"id": "C141", "title": "Adding a constant to all targets adds it to all predictions, whatever the targets", "statement": "As C140, for all targets. (False: when the mean of the targets is below the convergence threshold, the loop that computes the constant stops after one step; the constant is the mean, but the trees are fitted to targets from which it has not been taken. Targets that are nearly balanced around zero give other trees than the same targets plus one.)", "quantifier": "all stores, features, targets, shifts, configurations with mse", "why_tests_cant": "The difference is small and only visible between two runs; no single run looks wrong.", "anchors": ["src/loss_func/loss_func_pointwise.cc:34", "src/loss_func/loss_func_pointwise.cc:63-87"]}
{"id": "C142", "title": "compute_metrics.py prints the discounted utility per group", "statement": "compute_metrics.py on a group, a score and a target file: if the files have whole lines and equally many data rows and the rows of each group follow one another, then for every target value that occurs, and for total, dcu_<value> is the sum over the rows with that target of discount(position) * target, divided by the number of groups. The position of a row is its rank in its group by falling score, ties in the order of the file. No other dcu lines are printed.", "quantifier": "all files of whole lines with equally many rows (comments included), groups, scores, targets, discount functions; exact arithmetic, before rounding to four digits", "why_tests_cant": "The result depends on sorting, run detection and a dictionary of sums over arbitrary files; the script has no tests.", "anchors": ["scripts/compute_metrics.py:28-85"]}
{"id": "C143", "title": "No score file beats the targets themselves in dcu_total", "statement": "compute_metrics.py: dcu_total is largest when the target file itself is given as score file, since the discount falls with the position.", "quantifier": "all group, score and target files with equally many rows; the discount of the script over the reals, and any that does not grow", "why_tests_cant": "A statement over all orders of all groups (the rearrangement inequality).", "anchors": ["scripts/compute_metrics.py:55-56", "scripts/compute_metrics.py:62-85"]}
{"id": "C144", "title": "compute_metrics.py depends on the order of the scores only", "statement": "compute_metrics.py: two score files that order the rows within each group in the same way (with the same ties) give the same output.", "quantifier": "all files with equally many rows, all scores with the same order in each group", "why_tests_cant": "Relates two runs on arbitrary files.", "anchors": ["scripts/compute_metrics.py:34-52", "scripts/compute_metrics.py:73-85"]}
{"id": "C145", "title": "compute_metrics.py notices files of different lengths", "statement": "If compute_metrics.py ends without an exception, the group, score and target files have equally many rows. (False: when the scores or targets end early, StopIteration ends the generator of groups; the group that was being read and all later ones are left out without a word. With an empty score file, which the program writes for a forest without splits, nothing is printed.)", "quantifier": "all files", "why_tests_cant": "The failure is silent: the numbers look like those of a complete run.", "anchors": ["scripts/compute_metrics.py:41-43", "scripts/compute_metrics.py:79-85"]}
{"id": "C146", "title": "count_total is the mean number of rows per group", "statement": "compute_metrics.py: count_<value> and count_total are the numbers of rows divided by the number of groups. (False: these are integers and Python 2 divides them rounding down, though four decimals are printed. What holds is the quotient rounded down.)", "quantifier": "all files of whole lines with equally many rows and groups that are together", "why_tests_cant": "With as many rows as a multiple of the groups the number is right.", "anchors": ["scripts/compute_metrics.py:68-69", "scripts/compute_metrics.py:85"]}
{"id": "C147", "title": "compute_metrics.py counts each group once, wherever its rows are", "statement": "As C142 for dcu_total, without the rows of a group having to follow one another. (False: a group whose rows are apart is taken for several, and each part is ranked by itself. The same happens to the last row when the group file does not end in a newline, as lines are compared with their newlines.)", "quantifier": "all files of whole lines with equally many rows", "why_tests_cant": "The training code accepts such group columns, so that the same data give right models and wrong metrics.", "anchors": ["scripts/compute_metrics.py:41-52"]}
{"id": "C148", "title": "compute_rmse.py ends normally only with the right result", "statement": "compute_rmse.py on files whose data lines are numbers: it ends without an exception exactly if both files have equally many rows and at least one, and then it has printed the root of the mean squared difference. (Otherwise a number may have been printed before the exception, which is not that of any set of rows: the sum over the common rows divided by the number of scores.)", "quantifier": "all files whose data lines parse", "why_tests_cant": "Covers all lengths of both files.", "anchors": ["scripts/compute_rmse.py:6-13"]}
{"id": "C149", "title": "A bucket holds no more than its share of rows", "statement": "BucketizedFloatColumn with at most 100*num_buckets rows of finite or missing values: call a number frequent if it has at least rows/num_buckets rows. In every bucket, the rows whose numbers are not frequent are fewer than the even share (the rows of all other values divided by the buckets that frequent numbers leave over) plus rows/num_buckets.", "quantifier": "all columns of at most 100*num_buckets rows fed in any blocks, all numbers of buckets for which feeding is defined (C08)", "why_tests_cant": "A bound over all histograms; tests look at single columns.", "anchors": ["src/data_store/column.cc:35-51", "src/data_store/column.cc:257-305"]}
{"id": "C150", "title": "A frequent number has a bucket of its own", "statement": "BucketizedFloatColumn: a number held by at least rows/num_buckets rows has a bucket in which there is nothing else, as the comment in BuildBuckets says. (False: infrequent numbers below it that lie in the same bin end up in its bucket. It is the maximum of its bucket, though, so that different frequent numbers are never in one bucket.)", "quantifier": "all columns of at most 100*num_buckets rows", "why_tests_cant": "Only shows when a frequent number falls between two numbers of one bin.", "anchors": ["src/data_store/column.cc:277-287", "src/data_store/column.cc:288-292"]}
{"id": "C151", "title": "Binning has equal frequencies", "statement": "The tutorial says that float features are bucketized with equal frequency binning: no bucket has more than a few times the average number of rows, apart from numbers that are frequent themselves. (False: when frequent numbers take nearly all buckets, all other numbers share what is left, however many there are, since they may get at most num_buckets buckets together. With fewer than half of the buckets taken it holds with a factor of three.)", "quantifier": "all columns of at most 100*num_buckets rows of finite or missing values", "why_tests_cant": "Needs columns that mix many repeated values with many single ones; precision is lost silently.", "anchors": ["src/data_store/column.cc:272-291", "docs/TUTORIAL.md:37-38"]}
{"id": "C152", "title": "Useless features make no difference", "statement": "gbdt.train with all rows and features sampled: adding a feature whose value is the same in every row, or one that holds the same as a feature listed before it, leaves the outcome as it is: the same forest or the same exception.", "quantifier": "all stores of well-formed columns, all losses, configurations with sampling rates 1 or unset, targets, weights, base forests, seeds, numbers of threads; other features listed in the same order", "why_tests_cant": "A statement about all pairs of runs; unit tests compare no two runs.", "anchors": ["src/gbdt_algo/tree_algo.cc:75-115", "src/gbdt_algo/tree_algo.cc:117-179", "src/gbdt_algo/split_algo.cc:165-285"]}
{"id": "C153", "title": "Useless features make no difference when rows are sampled", "statement": "The same with example_sampling_rate below 1, from the same seed. (False: even if all features are used one number is drawn per feature and node, from the generator that samples the rows, so every later tree sees other rows. It holds for the first tree.)", "quantifier": "all stores, all example_sampling_rates", "why_tests_cant": "Runs differ by sampling only, so the difference passes for noise.", "anchors": ["src/utils/subsampling.cc:34-43", "src/gbdt_algo/tree_algo.cc:81-82", "src/gbdt_algo/tree_algo.cc:129-130"]}
{"id": "C154", "title": "Huberized hinge: more trees never fit the training data worse", "statement": "Training with loss huberized_hinge as in C84 (all rows, weights and l2_lambda not negative, shrinkage between 0 and 1, exact arithmetic): the predictions of the returned forest have no larger loss on the training data than those of the base forest or zeros. (False: where the loss is a line its hessian is 0, so the Newton step of a leaf is its gradient divided by little more than l2_lambda; two trees can multiply the loss. With l2_lambda at least half of the weight of all rows no tree makes the loss larger than it was where its gradients were computed.)", "quantifier": "all stores, targets 1 and -1, weights, base forests, configurations", "why_tests_cant": "It takes data on which some rows of a leaf are already fitted; typical runs shrink the steps enough to hide it.", "anchors": ["src/loss_func/loss_func_math.cc:33-43", "src/loss_func/gradient_data.h:52-55", "src/gbdt_algo/tree_algo.cc:117-179"]}
{"id": "C155", "title": "The program writes the files it promises and no others", "statement": "A run of the program with --mode=train changes no file but <output_dir>/<output_model_name>.json and .fimps; with --mode=test none but <output_dir>/forest.<k>.score for positive k. After success these hold the model trained as the flags tell, a line `feature<TAB>importance` per feature, and per number of trees tested one line per score. A wrong mode, or flags missing, end the run with an error; a run that ends with an error has changed no file unless one of the files to write cannot be opened.", "quantifier": "all flags, file systems, platforms", "why_tests_cant": "Tests call the functions that main uses, not main; that nothing else is written, in every run, cannot be seen from samples.", "anchors": ["src/main.cc:64-190", "src/gbdt_algo/evaluation.cc:40-87", "src/utils/utils.cc:26-48", "src/flags.cc:19-29"]}
{"id": "C156", "title": "Train, then test, through files", "statement": "If --mode=train with --tsvs ends with success, --mode=test with the same configuration file and the model file written, on files that have the columns of the configuration, ends with success, and each score file holds, line by line, the values of the first k trees of the trained forest for the lines of the data. (Assumed: protobuf reads back the JSON it wrote; the model does not overwrite the configuration or the data; the score files can be opened; the limits of C119.)", "quantifier": "all flags, file systems, configurations, data, orders of threads", "why_tests_cant": "It joins flags, paths, JSON, loading, training, evaluation and printing; no test runs the program.", "anchors": ["src/main.cc:106-190", "src/gbdt_algo/utils.cc:195-202", "src/gbdt_algo/evaluation.cc:57-87"]}
{"id": "C157", "title": "A file named in a flag that does not exist is noticed", "statement": "A run that is given, in a flag, a file that does not exist ends with an error. (False: --training_weight_file is defined but read nowhere, so training succeeds and ignores the weights; and --tsvs is ignored without a word if --flatfiles_dirs is given too. True of the configuration, the base model when training, the model when testing, and --tsvs alone.)", "quantifier": "all flags and file systems", "why_tests_cant": "Tests do not run main; a flag that is never read needs an argument about all runs.", "anchors": ["src/flags.cc:21", "src/main.cc:88-129", "src/main.cc:161-180", "src/utils/utils.cc:26-41"]}
{"id": "C158", "title": "A model that has been trained is saved", "statement": "If the data and the configuration can be trained on, --mode=train leaves the model in the output directory. (False: the output directory is made after training, one level deep, and the result of mkdir is not looked at; with --output_dir=runs/first and no directory runs the process trains, then dies, and the model is lost. True if the output directory, or the one it is in, exists and the name of the model has no slash.)", "quantifier": "all flags, file systems, data and configurations", "why_tests_cant": "Tests do not run main; the failure takes a missing parent directory.", "anchors": ["src/main.cc:147-158", "src/utils/utils.cc:43-48"]}
{"id": "C159", "title": "The score files are those of the model tested", "statement": "After --mode=test, the files forest.<k>.score in the output directory are those of the model tested. (False: files of an earlier test of a model with more trees stay. True if there were none before.)", "quantifier": "all flags, file systems and models", "why_tests_cant": "Only a second run into the same directory shows it.", "anchors": ["src/main.cc:182-187", "src/gbdt_algo/evaluation.cc:66-79"]}
{"id": "C160", "title": "The buckets of a column are disjoint intervals around its numbers", "statement": "For a bucketized column of numbers below the largest float, buckets() gives (nan, nan), then intervals in rising order without common points whose ends are numbers of the column, and last one that ends at the largest float (and begins there too, unless the column has more than 100 times as many rows as buckets). Every number of the column lies in one of them, and column[i] is the lower end of that one.", "quantifier": "all columns that fit (fewer than 2^32 rows and buckets), all numbers of buckets, values in any blocks", "why_tests_cant": "It is about all lists of values; a test can compare a few lists.", "anchors": ["src/python/column_py.cc:100-107", "src/data_store/column.cc:191-305", "src/data_store/column.h:144-155"]}
{"id": "C161", "title": "Indexing a store picks rows or a column", "statement": "data_store[k] has the columns of the store and row k alone; data_store[a, b] has the rows from a to b - 1 and none if b <= a; data_store[[i, j, ...]] has the rows of the list in its order; data_store[name] is the column, or ValueError. An integer that is no row, negative ones too, raises IndexError if there is a column. (The limits of C80: fewer than 60000 rows picked, and no bucketized column with exactly 29999 different numbers in them.)", "quantifier": "all stores, keys, orders of the hash map", "why_tests_cant": "It is about all stores and keys.", "anchors": ["gbdt/_data_store.py:11-33", "gbdt/_data_store.py:82-91", "src/python/column_py.cc:42-98"]}
{"id": "C162", "title": "Which score files testing writes", "statement": "After training without a base model and testing the model written, both with success, there is a file forest.<p>.score for exactly those positive p that are num_trees + 1 or, if eval_interval > 0, num_trees + 1 - i * eval_interval; the testing changes no other file. This holds for every loss, for TSV and flat files, and for any data.", "quantifier": "all flags, file systems, configurations, data, losses, orders of threads", "why_tests_cant": "It joins the number of trees of training (with the constant tree and failures of the loss), the model file, and the test points.", "anchors": ["src/main.cc:106-190", "src/gbdt_algo/evaluation.cc:57-103", "src/gbdt_algo/gbdt_algo.cc:119-206"]}
{"id": "C163", "title": "The benchmark finds its score files", "statement": "When the commands of examples/benchm-ml/run.py have ended with success, the score files it opens are there. (False: it opens forest.{1,21,...,181}.score, but the configurations that come with it have num_trees 20 and eval_interval 20, so that only those for 1 and 21 trees are written. True for a multiple of 20 trees, at least 180, and an interval of 20.)", "quantifier": "all models, files and data", "why_tests_cant": "The script needs the data and the program; that no data helps is a statement about all runs.", "anchors": ["examples/benchm-ml/run.py:11-44", "examples/benchm-ml/benchm-ml.logloss.config", "src/gbdt_algo/evaluation.cc:57-103"]}
{"id": "C164", "title": "The testing command of the tutorial tests", "statement": "After the command under \"Run testing\" in the tutorial has ended with success, there are score files in scores. (False: it lacks --mode=test, and the default is train: it trains a model on the test data, writes it to scores/forest.json, and writes no score file, whatever the files. True with --mode=test.)", "quantifier": "all files", "why_tests_cant": "Documentation is not tested; that no score file is ever written is a statement about all runs.", "anchors": ["docs/TUTORIAL.md:140-150", "src/flags.cc:28", "src/main.cc:64-78"]}
{"id": "C165", "title": "A loop over a store goes through its rows", "statement": "`for x in data_store` has as many steps as the store has rows. (False: over a store without columns it never ends, as every index gives an empty store and never IndexError. True with a column: step j is a store with the same columns and row j alone.)", "quantifier": "all stores, orders of the hash map", "why_tests_cant": "That a loop never ends cannot be tested.", "anchors": ["gbdt/_data_store.py:23-25", "gbdt/_data_store.py:82-91"]}
{"id": "C166", "title": "Rows and features are sampled independently, at one rate", "statement": "Let the generator give one of finitely many equally likely numbers at each draw. Then each sample of UniformSubsample is as likely as by independent choices with the same probability for every row: the share of numbers below the rate. So the sequences of numbers that give a sample T are (numbers below the rate)^|T| times (others)^(n - |T|), and each row is in the sample with exactly that probability.", "quantifier": "all numbers of rows, rates, sets of values of the generator, samples", "why_tests_cant": "A distribution cannot be tested; a test sees single draws of one seed.", "anchors": ["src/utils/subsampling.cc:34-43"]}
{"id": "C167", "title": "Sampling pairs is fair", "statement": "In exact arithmetic and for a generator that gives every index of a group with the same chance, the gradient of a row in a pairwise loss, averaged over all that a round can draw, is the sum over the groups of (number of pairs drawn / number of pairs) times what all pairs of rows of that group of which the first has the larger target add to the gradient of the row; the same for its hessian. If the numbers of pairs drawn need no rounding, that is the sampling probability times the gradient for all pairs.", "quantifier": "all data, groups, functions, losses of pairs, options (pair weights, equal_group_weight, LambdaMART), rounds", "why_tests_cant": "It is about the average over all outcomes of the draws.", "anchors": ["src/loss_func/loss_func_pairwise.cc:98-160", "src/loss_func/group.cc:25-76", "src/loss_func/loss_func_lambdamart.cc:52-71"]}
{"id": "C168", "title": "What the log of training says (pointwise losses)", "statement": "Training logs one message per tree that it adds, however it ends, and logging changes nothing else. In exact arithmetic the loss in the message of a round is the weighted mean loss over all rows at the function values before the round plus the constant of the round before its last correction: the point at which the gradients are taken to which the tree of the round is fitted. The percentage is the reduction of that loss from the one of the first message (0 if that is 0), provided that is not negative. The loss after the last tree is never reported.", "quantifier": "all data, pointwise losses, configurations, base forests, numbers of trees; the first part for all floating-point arithmetic", "why_tests_cant": "The messages depend on a state kept between calls (initial_loss_) and on where a loop of up to ten passes stops; no test looks at the log.", "anchors": ["src/loss_func/loss_func_pointwise.cc:40-102", "src/loss_func/loss_func_pointwise.h:41-48", "src/gbdt_algo/gbdt_algo.cc:157-195"]}
{"id": "C169", "title": "The log of training with squared error never goes up", "statement": "Training with mse in exact arithmetic on all rows, shrinkage between 0 and 1, l2_lambda not negative and weights that are not negative nor all zero: the losses in the log never go up, the reductions are between 0 and 100 % and never go down, and the forest that is returned fits the training data at least as well as every message says.", "quantifier": "all data, weights, base forests, configurations as described, numbers of trees", "why_tests_cant": "It is a statement about all data sets and all rounds.", "anchors": ["src/loss_func/loss_func_pointwise.cc:51-102", "src/gbdt_algo/gbdt_algo.cc:157-195"]}
{"id": "C170", "title": "The reduction in the log is between 0 and 100 %", "statement": "Whatever the pointwise loss, the reduction that a message reports is between 0 and 100 %. (False with the huberized hinge: -705 % in the third message of a run on seven rows. True is that it is never above 100 and starts at 0.)", "quantifier": "all data, pointwise losses that are never negative, configurations", "why_tests_cant": "Whether the loss can go up depends on hessians of 0 in leaves that hold mostly rows beyond the parabola; tests use data where it goes down.", "anchors": ["src/loss_func/loss_func_pointwise.cc:51-102", "src/loss_func/loss_func_math.cc:33-43"]}
{"id": "C171", "title": "What the log of training says (pairwise losses)", "statement": "Training with a pairwise loss (pairwise logloss, LambdaMART, ...) logs one message per tree, and logging changes nothing else. In exact arithmetic the loss in the message of a round is the weighted mean, over the pairs drawn in that round, of the loss of the difference of the function values before the round; these are the pairs whose gradients the tree of the round is fitted to. The percentage is the reduction from the loss of the first message (0 if that is 0), provided that is not negative.", "quantifier": "all data, group columns, pairwise losses, outcomes of the random draws, configurations, base forests; the part about changing nothing for all floating-point arithmetic", "why_tests_cant": "The loss is accumulated by tasks over slices of groups that are ranked anew meanwhile, over random pairs; no test looks at the log.", "anchors": ["src/loss_func/loss_func_pairwise.cc:98-182", "src/loss_func/loss_func_pairwise.h:54-70", "src/gbdt_algo/gbdt_algo.cc:157-195"]}
{"id": "C172", "title": "The loss in the log depends on the model only (pairwise losses)", "statement": "The same function values give the same reported loss, so that the reduction in the log tells how much better the model has become. (False: the loss is taken over the few pairs of the round. Two rounds at the very same values can report 1/32 and 9/32, that is, a reduction of -800 %. True is that it lies between the least and the largest loss of any pair of a group with different targets.)", "quantifier": "all data, group columns, pairwise losses, outcomes of the random draws", "why_tests_cant": "It is about two rounds with different random draws; a test fixes one sequence of draws.", "anchors": ["src/loss_func/loss_func_pairwise.cc:98-182"]}
{"id": "C173", "title": "One tree predicts within the range of the targets", "statement": "A model of one tree trained for squared error without a base forest predicts, for any row whatever, training or not, missing values and unknown strings included, a value between the least and the largest target, provided the weighted mean of the targets is beyond the convergence threshold (1e-4); otherwise within that threshold of this range. In exact arithmetic, with weights that are not negative, any sampling, any lambda >= 0 and a shrinkage between 0 and 1.", "quantifier": "all data, feature columns, weights, random draws, configurations, rows to predict for", "why_tests_cant": "It is about all rows the model could ever be asked about; tests predict for a few.", "anchors": ["src/gbdt_algo/gbdt_algo.cc:103-206", "src/gbdt_algo/tree_algo.cc:43-179", "src/gbdt_algo/split_algo.cc:33-285", "src/loss_func/loss_func_pointwise.cc:51-92", "src/gbdt_algo/compute_tree_scores.cc:32-68"]}
{"id": "C174", "title": "Any number of trees predicts within the range of the targets", "statement": "The same for any number of trees. (False: targets 0, 1 and 1, two trees of two leaves, no shrinkage; a row with a combination of values not seen in training is given 1.5. True is that predictions for the training rows are as close to the targets as the weighted variance of the targets allows, whatever the number of trees.)", "quantifier": "all data, feature columns, weights, configurations, rows to predict for", "why_tests_cant": "It is about rows that were not seen in training and all numbers of trees.", "anchors": ["src/gbdt_algo/gbdt_algo.cc:157-206", "src/gbdt_algo/compute_tree_scores.cc:32-68"]}
{"id": "C175", "title": "The order in which features are listed does not matter", "statement": "The features are kept in a hash set, so the order in which they are looked at depends on the C++ library and not on the user. Models trained from the same data, configuration and seed predict the same whatever this order. (False: of two features that offer the same gain the first listed is used; for rows in which they differ the models predict differently. True is that the model is the same in every order if in no round two features offer the same gain at a node of the tree of that round, and that the gain found for a node is the same in any case.)", "quantifier": "all data, features, gradients, configurations that use all features, orders; any arithmetic", "why_tests_cant": "A test runs with one C++ library; whether two features tie depends on the data.", "anchors": ["src/gbdt_algo/gbdt_algo.cc:122-140", "src/gbdt_algo/tree_algo.cc:66-115", "src/gbdt_algo/utils.cc:40-60", "src/python/train_gbdt_py.cc:98-99"]}
{"id": "C176", "title": "repr of a column shows its first ten elements; repr of a store counts its columns", "statement": "`repr(column)` never raises an exception and shows the type, then the first ten elements of `list(column)` (all if there are at most ten) in order, separated by commas and with strings between quotation marks, then three dots exactly if there are more than ten elements. `repr(store)` says how many columns of each of the three types there are, which add up to the number of columns, and the number of rows; a cleared store is shown as empty.", "quantifier": "all columns and stores that can be built, of fewer than 2^31 rows; every way to print a number", "why_tests_cant": "A test prints a few columns; the boundary at ten elements and the stored representation (8, 16 or 32 bits, buckets) are for all columns.", "anchors": ["src/python/column_py.cc:31-118", "src/data_store/data_store.cc:147-153", "src/python/datastore_py.h:33-35", "src/utils/utils.cc:26-40"]}
{"id": "C177", "title": "Columns of at most ten strings that are shown alike are the same", "statement": "If `repr` shows two columns of at most ten strings alike, the columns hold the same strings. (False: strings are put between quotation marks but not escaped. True if no string contains a quotation mark; then columns of any length shown alike have the same first ten strings, and both or neither have more.)", "quantifier": "all pairs of columns of strings", "why_tests_cant": "It is a statement about pairs of columns.", "anchors": ["src/python/column_py.cc:49-58"]}
{"id": "C178", "title": "Logistic loss: with enough regularization no tree fits the training data worse", "statement": "Training with logloss, on all rows, with shrinkage between 0 and 1 and with l2_lambda at least an eighth of the weight of all rows: in every round the tree makes the logistic loss on the training data no larger than it is with the constant at which the gradients of the round were computed, and with the constant that is added in its place the loss is larger by at most the difference of the two constants for each unit of weight.", "quantifier": "all data, features, non-negative weights, base forests, numbers of trees and leaves; real arithmetic with the real exponential and logarithm", "why_tests_cant": "A statement about all data in real arithmetic; a test compares the loss of a few models, with rounding.", "anchors": ["src/loss_func/loss_func_math.cc:28-31", "src/loss_func/loss_func_pointwise.cc:51-92", "src/gbdt_algo/gbdt_algo.cc:150-200", "src/gbdt_algo/tree_algo.cc:117-135"]}
{"id": "C179", "title": "Logistic loss: training does not end with a larger loss than it started with", "statement": "Training with logloss, on all rows, with shrinkage between 0 and 1 and l2_lambda at least an eighth of the weight of all rows ends with predictions for the training data of no larger logistic loss than those of the base forest, if one is given, or than predicting 0. (False: before each tree Newton's method looks for the best constant to add, from 0 and without a check of its steps; if the base forest is off by more than about 2.2, each step goes further beyond the best constant than the one before. True for one tree without a base forest, but for the last step of Newton's method: from 0 the method approaches the best constant from one side.)", "quantifier": "all data, features, non-negative weights, base forests, numbers of trees and leaves; real arithmetic with the real exponential and logarithm", "why_tests_cant": "A statement about all data in real arithmetic; a test warm starts from a model that is nearly right.", "anchors": ["src/loss_func/loss_func_pointwise.cc:51-92", "src/loss_func/loss_func_math.cc:28-31", "src/gbdt_algo/gbdt_algo.cc:60-101"]}
{"id": "C180", "title": "A larger num_leaves refines a tree and does not raise its squared error", "statement": "Fitting a tree to the same gradients, from the same position of the random numbers, with a larger num_leaves gives the same tree with subtrees put below some of its leaves: scores and splits of shared nodes are equal, and each row ends at or below the leaf it had. If the smaller number of leaves was not reached, the tree is the same. For residuals as gradients, non-negative weights, all rows and l2_lambda 0, the squared error left is no larger.", "quantifier": "all data, features, gradients, weights, configurations and pairs of numbers of leaves; the error in exact arithmetic", "why_tests_cant": "A relation between two runs for all data; tests fit one tree with one number of leaves.", "anchors": ["src/gbdt_algo/tree_algo.cc:117-179", "src/loss_func/gradient_data.h:21-62"]}
{"id": "C181", "title": "Every split in a tree gains more than min_gain", "statement": "Every split stored in a fitted tree, whether it has been made or not, has a gain above min_gain and above the tolerance of the program (if these are not NaN).", "quantifier": "all data, features, weights, gradients and configurations; all doubles", "why_tests_cant": "All trees that can be fitted; a test looks at one.", "anchors": ["src/gbdt_algo/split_algo.cc:123-200", "src/gbdt_algo/tree_algo.cc:75-179"]}
{"id": "C182", "title": "Every leaf has more than min_hessian", "statement": "If a tree has more than one leaf, the sum of the weighted hessians of the samples of every leaf is above min_hessian; with squared error and no weights, every leaf has more than min_hessian training rows. (False: feature values whose gradients sum to exactly 0 at a node are left out of the scan, but their hessians count as part of the right side, whichever side they go to. True if no value has exactly one of its two sums equal to 0.)", "quantifier": "all data, features, weights, gradients and configurations; exact arithmetic", "why_tests_cant": "The limit is kept in nearly all data; only values whose gradients cancel exactly break it.", "anchors": ["src/gbdt_algo/split_algo.cc:100-200", "src/gbdt_algo/tree_algo.cc:117-179"]}
{"id": "C183", "title": "The gains of a tree add up to what it takes from the loss", "statement": "The gains of the splits made in a tree (of which feature importance is made) add up to the difference between the regularized quadratic objective of the root alone and that of the tree; with squared error, all rows and l2_lambda 0, to the squared error removed by the splits. (False for values whose gradients sum to exactly 0 at a node, as for C182; true otherwise.)", "quantifier": "all data, features, weights, gradients and configurations; exact arithmetic", "why_tests_cant": "An identity between the log of training and the loss, for all data.", "anchors": ["src/gbdt_algo/split_algo.cc:100-200", "src/loss_func/gradient_data.h:40-62", "src/gbdt_algo/utils.cc:79-108"]}
{"id": "C184", "title": "Scores read from score files are the predictions", "statement": "The scores that forest.predict_at_checkpoints yields, and that --mode=test leaves in its files, are read back as the predictions of the forest (what forest.predict returns). (False: six significant digits are printed. What holds: every file can be read and has one number for each row, the double nearest to the score rounded to six significant digits; the relative change is at most five millionths, the order of two scores is never turned round, scores that are the doubles for decimals with six digits come back unchanged, and so do infinities and NaN.)", "quantifier": "all lists of doubles, all forests and stores", "why_tests_cant": "Tests compare files with a few round scores; the claim is about printing and reading every double.", "anchors": ["src/gbdt_algo/evaluation.cc:40-55", "gbdt/_forest.py:18-29", "src/python/forest_py.cc:57-65"]}
{"id": "C185", "title": "A forest can be made from its string", "statement": "Forest(str(forest)) is the same forest. (False in Python 2.7, the version the README names: str gives bytes, and Forest takes only unicode for JSON, so it raises TypeError for every forest; with a name outside ASCII already str raises. What holds: Python 3, and Forest(unicode(forest)) in Python 2.7.)", "quantifier": "all forests that can be saved, both versions of Python", "why_tests_cant": "Whether every forest survives is a claim about all forests, and the tests never make a Forest from a string.", "anchors": ["gbdt/_forest.py:5-12", "gbdt/_forest.py:52-53", "src/python/forest_py.cc:19-33"]}
{"id": "C186", "title": "Every split of floats that are not neighbours has samples on both sides", "statement": "If the values of a float feature are below 2^127 in magnitude and no two different ones are neighbouring floats, then every split that training finds on it sends at least one sample to each side. The threshold put between two such floats is a float between them, and it is the lower one only if they are neighbours.", "quantifier": "all columns of binary32 values with the two limits, all sets of samples, all splits that the search returns", "why_tests_cant": "A test sees a few thresholds; the claim is about the rounding of every midpoint of floats.", "anchors": ["src/gbdt_algo/split_algo.cc:205-285", "src/data_store/column.cc:257-305"]}
{"id": "C187", "title": "A prediction is accurate to the rounding of its additions", "statement": "The double that is predicted for a sample differs from the exact sum of the scores of the trees by at most n\u00b72^-52 times the sum of their absolute values, for n trees. If the scores are multiples of one power of two and small enough, it is the exact sum, and the order of the trees does not matter. Samples whose exact sums are further apart than the two bounds are predicted in that order.", "quantifier": "all forests of up to 2^52 trees whose scores add up (in absolute value) to at most 2^1000, all samples", "why_tests_cant": "The error of rounding depends on all scores and their order; tests compare a few predictions with a tolerance chosen by hand.", "anchors": ["src/gbdt_algo/compute_tree_scores.cc:32-68", "src/gbdt_algo/evaluation.cc:89-103"]}
{"id": "C188", "title": "The ranking metrics of a score file are those of the predictions", "statement": "compute_metrics.py, given the score file that the program wrote, reports the metrics of the predictions themselves. (False: score files have six digits, so different predictions can be equal in the file, and the metrics then change. What holds: if no two different predictions of a group are printed alike.)", "quantifier": "all lists of predictions, all targets, weights and groups", "why_tests_cant": "Which predictions are printed alike depends on their digits; tests of the script use scores of few digits.", "anchors": ["scripts/compute_metrics.py:34-85", "src/gbdt_algo/evaluation.cc:42-54"]}
{"id": "C189", "title": "The error that compute_rmse.py prints is close to that of the predictions", "statement": "compute_rmse.py, given the score file that the program wrote, computes a root mean squared error that differs from that of the predictions by at most six millionths of the largest absolute prediction.", "quantifier": "all nonempty lists of predictions that are 0 or between 2^-1000 and 2^1000 in absolute value, all responses", "why_tests_cant": "The loss of digits affects every prediction; a test sees one list of numbers.", "anchors": ["scripts/compute_rmse.py:6-13", "src/gbdt_algo/evaluation.cc:42-54"]}
{"id": "C190", "title": "draw_trees.py draws the trees of the model", "statement": "The file forest.dot that draw_trees.py writes for a saved model is the picture of its trees: one graph per tree, in it a node with the label for every node and an edge to every child. (False: names are put between double quotes as they are, so a quotation mark in a feature name or an apostrophe in a category breaks the file, and letters outside ASCII stop the script. What holds: if features are ASCII without quotation mark or newline and categories have no quote of either kind, the file reads as the pictures of the trees.)", "quantifier": "all forests whose splits have a kind, all names of features and categories", "why_tests_cant": "Every name in the model goes into the file; a test draws one model with plain names.", "anchors": ["scripts/draw_trees.py:16-69"]}
{"id": "C191", "title": "Partial dependency plots draw what was computed", "statement": "In the bar chart of a categorical feature every bar stands over the label of its own category and the bars ascend; the base value is drawn at 0 with deviation 0. The curve of a float feature has one point per value of the grid (its logarithm if asked), the mean of the differences in the middle of a band of 1.96 standard deviations to either side.", "quantifier": "all computed dependencies, all features, all sorting functions that return an order of the indices (exact arithmetic)", "why_tests_cant": "Labels and bars are permuted separately; a plot is not checked by any test.", "anchors": ["gbdt/_partial_dependency_plot.py:39-97"]}
{"id": "C192", "title": "The band of a dependency plot contains 95 % of the rows", "statement": "The band drawn around the curve contains the differences of at least 95 % of the rows, as the comment 'Use 1.96 for 95% confidence interval' suggests. (False: nothing is assumed of the distribution of the differences; one row of ten can lie outside. What holds: at least 73.9 % of the rows are inside.)", "quantifier": "all lists of differences (exact arithmetic)", "why_tests_cant": "The share depends on all differences; a test sees one list.", "anchors": ["gbdt/_partial_dependency_plot.py:57-70"]}
{"id": "C193", "title": "The meta info of a model tells its configuration", "statement": "The meta_info that training puts into the model tells the configuration the model was trained with, apart from the lists of columns: two configurations with the same meta info are equal. (False: all quotation marks of the text become apostrophes, and both are escaped alike in strings, so the weight columns w' and w\" give the same meta info. What holds: without quotation marks in column names it tells them apart, even if names contain commas, newlines or apostrophes; and it is always one line without quotation marks.)", "quantifier": "all configurations, times and durations; numbers printed without loss", "why_tests_cant": "Whether two texts can collide depends on all pairs of configurations; a test compares a few.", "anchors": ["src/gbdt_algo/gbdt_algo.cc:103-120"]}
{"id": "C194", "title": "The log of training shows how long it still takes", "statement": "The log has a line for every iteration, with the time of the last iteration and the time until training has finished if iterations go on like that; writing it never disturbs training. (False: with num_trees 2147483647, which one may give in order to stop by hand, and an iteration of 1.001 seconds the estimate is over 68 years, and its conversion overflows an int, which is undefined behaviour. What holds: the log is written if no iteration times num_trees comes to 68 years, and the estimate is right.)", "quantifier": "all numbers of trees, clock readings that do not go back, and reports of the loss (exact arithmetic)", "why_tests_cant": "The estimate depends on all readings of the clock and on num_trees; a test runs a few short iterations.", "anchors": ["src/gbdt_algo/gbdt_algo.cc:158-183", "src/utils/stopwatch.cc:35-52"]}
{"id": "C195", "title": "The chart of feature importance shows the importances", "statement": "feature_importance_bar_chart draws one bar for every feature that the forest uses, as long as its importance and with its name at the same height, from the most important at the top downwards.", "quantifier": "all forests with positive gains (exact arithmetic), all orders of the hash map", "why_tests_cant": "Names and values are passed to matplotlib separately; no test looks at a chart.", "anchors": ["gbdt/_forest.py:39-55", "src/gbdt_algo/utils.cc:79-108"]}
{"id": "C196", "title": "Multiplying a feature by a power of two changes nothing, with floats as they are", "statement": "If every numeric feature is multiplied by a power of two of its own, in the training data and in the data to predict for, training gives a model with the same predictions, or the same exception. This holds for the binary32 thresholds the code computes, with their rounding, not only for exact numbers.", "quantifier": "all data, losses, sampling, configurations, arithmetic of scores; numbers in training 0 or of magnitude from 2^-125 to below 2^127 before and after; numbers to predict for finite and below FLT_MAX before and after; where a feature has missing numbers in training, none to predict for is below all of its training numbers (see C117); the hash map lists the columns in the same order", "why_tests_cant": "Each threshold is a rounded mean of floats; a test of a few columns cannot show that rounding commutes with the factor for all of them.", "anchors": ["src/gbdt_algo/split_algo.cc:222-231", "src/data_store/column.cc:35-51"]}
{"id": "C197", "title": "The text of a saved forest reads as the forest", "statement": "The text that is written for a forest, to a file or by str(forest), is JSON by RFC 8259 that means this forest: reading it gives the same trees, scores, splits, categories and meta info, whatever the names contain (quotation marks, backslashes, newlines, control characters, letters of any script). It is one line without control characters or angle brackets. Different forests have different texts.", "quantifier": "all JSON values and all forests nested at most 64 deep; all strings; every way to write numbers with the characters of numbers and without loss; every choice of the characters beyond ASCII that are written by their code", "why_tests_cant": "Escaping has to be undone for every string and every nesting; a test writes and reads a few names.", "anchors": ["src/utils/json_utils.cc:48-67", "src/python/forest_py.cc:27-33"]}
{"id": "C198", "title": "No digit of a forest is lost when it is saved", "statement": "A forest that is saved as JSON and loaded again has exactly the same doubles (gains) and floats (scores, thresholds): a double is written with 15 digits or, if these are read as another double, with 17; a float with 6 or 9. So a loaded forest scores every row as the forest that was trained, bit by bit. Eight digits for floats would not suffice.", "quantifier": "all forests nested at most 64 deep; all values of binary64 with infinities and NaN; floats that are not finite, zero, or between 1e-7 and 1e19 in size (for other floats: if they are read with one rounding, or need more than six digits)", "why_tests_cant": "That 17 and 9 digits identify every double and float is a statement about 2^64 and 2^32 numbers; that reading a float through a double rounds twice but not wrongly needs a proof.", "anchors": ["src/utils/json_utils.cc:48-67", "src/proto/tree.proto:10-46"]}
{"id": "C199", "title": "Training ends with the predictions of its forest, on a machine with double and float", "statement": "The function values that training works with at the end (from which the next round would take its gradients and the log its loss) are what the returned forest predicts for the training data, with doubles and with node scores that are floats.", "quantifier": "all training data, losses, configurations, base forests", "why_tests_cant": "The rounding errors of the constants add up over the rounds; a test sees them only with the data at hand.", "anchors": ["src/gbdt_algo/gbdt_algo.cc:188-195", "src/proto/tree.proto:42"]}
{"id": "C200", "title": "Predictions keep the order and the range of the leaves, rounding included", "statement": "If no tree of a forest gives one row more than another row (of the same or of another store), the first row is not predicted more than the second, although scores are added with rounding. No row at all, seen in training or not, is predicted outside the sums of the smallest and of the largest leaves, and no prediction is NaN. A forest has at most as many different predictions as there are choices of one leaf per tree.", "quantifier": "all forests with finite leaves, all stores they can be evaluated on, all rows; IEEE binary64 with overflow", "why_tests_cant": "Rounding could reverse an order for some row out of infinitely many; only an argument over all rows and forests excludes it.", "anchors": ["src/gbdt_algo/evaluation.cc:57-105", "src/gbdt_algo/compute_tree_scores.cc:57-68"]}
{"id": "C201", "title": "Values that training never saw", "statement": "A trained forest does not tell apart two strings of a column that no training row has there, even if they occur in the data to be scored: such rows go right wherever the column is used. If a numeric column has no missing value in the training data, a missing value is scored like any number that is not larger than the numbers seen in training.", "quantifier": "all stores, losses, configurations, seeds and numbers of trees without a base forest, all rows to be scored; any arithmetic for gradients, thresholds that lie between the numbers they separate (see C63 and C186)", "why_tests_cant": "Values that did not occur in training are what a deployed model meets later; a test cannot enumerate forests and unseen values.", "anchors": ["src/gbdt_algo/split_algo.cc:60-110", "src/gbdt_algo/split_algo.cc:154-245", "src/gbdt_algo/compute_tree_scores.cc:57-68", "src/gbdt_algo/gbdt_algo.cc:60-76"]}
{"id": "C202", "title": "A constant target is learnt exactly", "statement": "If all rows have the same target and it is further from zero than the threshold of the constant step (1e-4), then training with squared error gives trees of one leaf each, and the forest predicts exactly that target for every row of any data.", "quantifier": "all stores, configurations, seeds and numbers of trees without a base forest; any weights whose sum is not zero; exact arithmetic", "why_tests_cant": "A test can try a few constant targets with a few configurations; that no split is ever made on rounds in which nothing is left to learn is a statement about every store and every sampling.", "anchors": ["src/gbdt_algo/gbdt_algo.cc:150-200", "src/gbdt_algo/split_algo.cc:60-110", "src/loss_func/loss_func_pointwise.cc:51-92", "src/loss_func/loss_func_mse.h"]}
{"id": "C203", "title": "Groups with a single target teach nothing to a pairwise loss", "statement": "With a pairwise loss, a row gets gradient and hessian zero in every round if all rows of its group have the same target. A leaf that only such rows reach scores zero.", "quantifier": "all pairwise losses and LambdaMART, all group columns, targets, weights, function values and random draws; exact arithmetic", "why_tests_cant": "A test fixes one outcome of the draws; the claim is about every outcome, every grouping and every round.", "anchors": ["src/loss_func/loss_func_pairwise.cc:30-60", "src/loss_func/loss_func_pairwise.cc:93-170", "src/loss_func/group.cc", "src/gbdt_algo/tree_algo.cc:115-170"]}
{"id": "C204", "title": "Ranking sees only differences of scores within groups", "statement": "Adding a number to the scores of all rows of a group, a different one for each group, does not change the gradients of a pairwise loss or of LambdaMART. If a constant is added to the base forest that training continues from, training gives the same trees and a constant that is larger by the same amount.", "quantifier": "all pairwise losses and LambdaMART, all group columns, targets, weights, scores, base forests, configurations and random draws; exact arithmetic; sorting that sees keys only by comparing them", "why_tests_cant": "A test fixes the draws, the scores and the shift; the claim is about all of them and about every round of training.", "anchors": ["src/loss_func/loss_func_pairwise.cc:98-160", "src/loss_func/group.cc:48-62", "src/loss_func/loss_func_lambdamart.cc:64-71", "src/gbdt_algo/gbdt_algo.cc:84-105", "src/gbdt_algo/gbdt_algo.cc:165-200"]}
{"id": "C205", "title": "A tree of a ranking lowers the weighted loss of the pairs it was fitted to", "statement": "With a pairwise loss or LambdaMART, the gradients of a round add up, over the rows, to the slope of the weighted loss of the pairs that were drawn in that round; and adding the tree fitted to them (all rows sampled, l2_lambda not negative) does not raise that loss to first order.", "quantifier": "all ranking data, all weights, all scores, all draws, all tree configurations; exact arithmetic", "why_tests_cant": "Tests use rows of equal weight and few pairs; whether a tree can work against the loss it was fitted to depends on weights, groups and splits jointly.", "anchors": ["src/loss_func/loss_func_pairwise.cc:98-160", "src/gbdt_algo/tree_algo.cc:43-62", "src/gbdt_algo/split_algo.cc:100-123"]}
{"id": "C206", "title": "Ranking: with enough regularization no tree raises the loss of the pairs it was fitted to", "statement": "With rows of weight 1, all rows sampled, and l2_lambda at least half (pairwise_logloss, lambdamart) or twice (auc, gbrank) the weight of the pairs drawn in a round, adding the tree of that round, shrunk by any factor between 0 and 1, does not raise the weighted loss of those pairs.", "quantifier": "all ranking data, all scores, all draws, all tree configurations with such an l2_lambda; exact arithmetic", "why_tests_cant": "A step that is too long can raise the loss on particular data only; tests cannot try all data and trees.", "anchors": ["src/loss_func/loss_func_pairwise.cc:98-160", "src/loss_func/loss_func_math.cc:28-52", "src/gbdt_algo/tree_algo.cc:43-62"]}
{"id": "C207", "title": "Ranking with gbrank: no tree raises the loss of the pairs it was fitted to", "statement": "gbrank with rows of weight 1, all rows sampled and shrinkage 1: adding the tree of a round does not raise the loss of the pairs drawn in it, whatever l2_lambda. (False: pairs that are already far enough apart have gradient and hessian 0, so nothing keeps a tree from pulling them together again; true if l2_lambda is at least twice the weight of the pairs.)", "quantifier": "all ranking data, all scores, all draws, all tree configurations; exact arithmetic", "why_tests_cant": "It needs scores at which most pairs are satisfied and a tree that undoes them; tests train on a few rows from scores of 0.", "anchors": ["src/loss_func/loss_func_math.cc:45-52", "src/loss_func/loss_func_pairwise.cc:98-160", "src/gbdt_algo/tree_algo.cc:43-62"]}
{"id": "C208", "title": "Ranking: weights times k and limits times the cube of k give the same model", "statement": "With a pairwise loss or LambdaMART, multiplying all weights by k > 0 and l2_lambda, min_hessian and min_gain by k*k*k changes neither how training ends nor splits, scores and function values; the gains written in the forest are multiplied by k*k*k. Least gains are not below the tolerance of the code.", "quantifier": "all ranking data, all k > 0, all configurations of trees and sampling, all losses of pairs; exact arithmetic", "why_tests_cant": "Tests use one set of weights; how weights trade off against the limits is a statement about pairs of runs.", "anchors": ["src/loss_func/loss_func_pairwise.cc:118-152", "src/gbdt_algo/tree_algo.cc:43-62", "src/gbdt_algo/split_algo.cc:100-125"]}
{"id": "C209", "title": "Ranking: only the proportions of weights matter if the limits are changed with them", "statement": "What C131 says of losses of single rows: with weights, l2_lambda, min_hessian and min_gain all multiplied by the same number, training a ranking gives the same function values. (False: the weights of rows are in the sums of a leaf three times, so limits would have to be multiplied by the cube, C208; true without limits.)", "quantifier": "all ranking data, all k > 0, all configurations; exact arithmetic", "why_tests_cant": "It needs pairs of runs with different weights and limits; a test with one set of weights cannot notice.", "anchors": ["src/loss_func/loss_func_pairwise.cc:132-133", "src/gbdt_algo/tree_algo.cc:43-62", "src/gbdt_algo/split_algo.cc:100-125"]}
