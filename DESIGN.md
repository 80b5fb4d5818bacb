# Formal model of yarny/gbdt: design

Everything in `/repo` was read as text only.  Nothing was built or run.  The model is in Lean 4.33 under
`lean/Verif`.  Citations such as `column.cc:257-305` are to files under `/repo/src` unless a path is given.

## 1. Layout

* `Verif/Base.lean`, `Verif/Num.lean`: outcomes (value / undefined behaviour / fatal check), status codes, numbers.
* `Verif/Model/*.lean`: the code, function by function.  Every definition cites the file and lines it models.
* `Verif/Spec/*.lean`: specification vocabulary that several property files share (sums over samples, energies and gains of a
  partition, routing of a row through a tree, leaves, well-formed inputs, what "under every schedule" means).  It does not use
  the loops of the model.
* `Verif/Lemmas/*.lean`: helper lemmas, no property is stated there.
* `Verif/Props/*.lean`: the properties.  Each file opens with the small specification vocabulary it needs
  (written without using the model's helpers), then the theorems `Cnn_...`, and beside each an `example`
  that meets its hypotheses on concrete data.
* A theorem whose name ends in `_partial` proves less than the full property; the full statement is given
  beside it as a `def Cnn_full : Prop` where that is expressible, and a theorem `Cnn_refuted...` proves its
  negation with a concrete witness when the code does not satisfy it.

## 2. How numbers are modelled

* `float` values in columns are `Fl A`: NaN, or a number from **any** linear order `A` (so infinities,
  `FLT_MAX` and denormals are covered).  `-0.0` and `+0.0` are identified.  Only comparisons are used on them,
  except for the threshold midpoint, which is an abstract operation with a stated law; a concrete
  binary32 model with round-to-nearest-even is used to show where IEEE breaks the law.
* `double` arithmetic is a class `Dbl D` with uninterpreted `+ - * / < ==`.  Theorems that need no law of
  arithmetic (scheduling, routing, shape of trees, arg-max scans) are proved for every `Dbl D`, hence for IEEE doubles.
  Theorems about the values themselves (gain equals energy difference, optimality, training scores equal
  predictions) are proved for every linearly ordered field; rounding is not covered there and this is said in the note
  of the claim.
* Laws used where comparisons matter are classes, met by IEEE doubles and by exact fields: `StrictLt` (irreflexive, transitive),
  `FpOrder` (moreover: numbers that are not NaN are totally preordered), `EqOrder` (`==` and `<` agree; NaN is what is not equal to
  itself).  A theorem names the class it needs; a theorem over `[Field K] [LinearOrder K]` is about exact arithmetic.
* `Spec/Ieee.lean` is IEEE binary64 and binary32 with rounding to nearest even, subnormals, infinities and NaN (`-0.0` and `+0.0` are
  identified).  It meets `FpOrder` and `EqOrder`, so these classes are not empty promises, and it gives counterexamples that depend on rounding.
  `roundRat_nearest` (`Lemmas/Ieee.lean`) shows that its rounding gives a nearest number of the format, with relative error at most 2^-53.
* Scores of nodes are `float` (`tree.proto:42`).  In the model they have the type of doubles, and `rnd32` is applied wherever the code stores one;
  theorems over exact fields take `rnd32 = id`, C199 says what the difference is.
* The threshold of a float split is `ThrOps.mid`; `ThrSeparates c` says that the midpoints of neighbouring buckets of `c` lie in
  between.  C63 shows with a binary32 model that this can fail.
* Machine integers: row counts and codes are `Nat` with the 8/16-bit narrowing written as `% 256`, `% 65536`
  and unsigned 64-bit wrap-around written out where the code relies on it (`column.cc:290`).

## 3. How effects are modelled

* Undefined behaviour (division by zero, out-of-bounds access, use after destruction, invalid conversion) is the
  outcome `Outcome.ub`; failed `CHECK`s are `Outcome.fatal`; status errors are ordinary values.
* `std::sort` is any function returning a sorted permutation (ties in any order); `unordered_map` iteration
  order is arbitrary; `mt19937` output is an arbitrary stream.
* The thread pool is a transition system with mutex, condition variable, spurious wake-ups.  Tasks are programs (`Prog`) whose steps
  are single reads and writes of shared memory cells; `Work` puts pool, tasks and memory together, so a schedule interleaves accesses
  of all workers.  Memory is sequentially consistent; C++ promises this for programs without data races, and their absence is part
  of what is proved (C25).  For pairwise losses the random generator is a shared cell without a lock: there the race is proved to exist
  (C54), and what is proved holds for whatever the generator gives (C78), which is milder than what C++ allows.
* Sequential models (`fitTree`, `scoreTree`, `pointSlice`, ...) run the tasks one after the other; C25 and C78 are the refinement theorems
  that connect them with the concurrent ones.
* A loss is a pair of functions on an abstract state (`LossFunc`); training (C39-C42, C69-C73) is proved for every loss, and C77
  instantiates it with the losses of the library.
* Input conditions that the loaders establish are collected in `FitInput`, `FitData`, `TrainInput` (one row per column, codes below the number of
  buckets, no number above `FLT_MAX`, at least one thread, rates times counts fit an `int`).

## 4. Plan per property

"false" means: the property as a user would state it does not hold of the code; the refutation is a theorem with a concrete witness
and the part that holds is a `_partial` theorem (or a separate property).

| id | modelled | proof |
|----|----------|-------|
| C01 C02 | `StringColumn::Add/Finalize`, three storage widths | invariant of the intern table by induction on the strings fed |
| C03-C07 C09 | `BucketizedFloatColumn` with both feeding stages, `BuildBuckets`, `UniformBinning`, `map` as sorted association list | invariants by induction; C04, C05, C09 exclude `+inf` (see C57) |
| C08 | the same | false: exact characterization of the crash and a witness for every `num_buckets >= 2` |
| C57 | the same with `+inf` | false in three ways (containment, order, minima) |
| C10 C58 | call histories as lists of operations | C10 induction; C58 false for `Add` after `Finalize` of string and raw columns |
| C11 C12 C59 | `DataStore` as association list; `begin()` as an arbitrary choice | refinement to a finite map; C59 (empty columns) false |
| C13 C14 | Python wrappers, `ThrowException` | case analysis on two's complement; C14 false: `ALREADY_EXISTS` and `ABORTED` are swallowed |
| C15 | `split`, `JoinStrings` on character lists | induction; an empty delimiter never returns |
| C16 C17 C18 | `ReadTSV`, `LoadTSVs`, `SetupColumns` with object identities | refinement to a row-wise specification; any completion order; C18 false for a name requested twice |
| C19 C60 | flat file readers | C19 refinement; C60 false for data lines starting with `#` |
| C20 C61 | `GetColumn` of the flat file store as interleaved atomic steps | induction on schedules; C61 (pointers stay valid) false |
| C21 C22 | `DivideSamplesHelper`, `UniformSubsample` | arithmetic, induction |
| C23 C24 | transition system of the pool | inductive invariant; progress and a decreasing measure |
| C25 | tasks of scoring, pointwise gradients, weighted sums, split search as programs | footprints are disjoint, hence no race and every schedule ends with the memory of the sequential run |
| C26 C27 | the swap loop of `Partition` on lists | loop invariant; index/name equivalence from C02 |
| C28 | `FindBestSplitPoint` scan | loop invariant with only irreflexivity and transitivity of `<` |
| C62 | `ComputeHistograms` | induction on the samples |
| C29 C30 C32 | histogram, scan, threshold, partition together | sums over buckets; C29, C30 false when the gradients or hessians of a bin cancel to exactly 0 |
| C63 | binary32 midpoints | false (16777216, 16777218; 2^127 and 1.5·2^127); proved when midpoints separate (C186 gives a sufficient condition on the floats) |
| C31 | Fisher/Breiman argument over subsets | proved for lambda = 0; false for lambda > 0 |
| C33-C36 C67 C68 | best-first growth with an arbitrary tie-breaking queue | invariant relating queue, tree and samples |
| C37 C38 C64 | slice-based scoring refined to per-row routing | structural induction on trees; C64 (bad store never aborts) false |
| C39-C42 C69-C73 | `TrainGBDT`, `InitializeWithBaseForest`, `ApplyShrinkage`, `ClearInternalFields` | loop invariant over rounds for an abstract loss; C72 false for NaN rates |
| C43 C44 C65 C66 | checkpoint evaluation, `GetTestPoints`, the Python reader of score files | induction; C65 false for unsorted lists, C66 false with stale files |
| C45 C46 | `ComputeFeatureImportance`, `CheckConfig`, the checks of `TrainPy` | induction; case analysis |
| C47 | loss formulas over the reals | `HasDerivAt` |
| C48 C76 | set-up and Newton loop of pointwise losses | loop invariant; definedness |
| C49 C50 C56 | `Group`, grouping of rows | bijection proof for the ordered map of pair blocks; sorted permutation |
| C51 C52 C75 | pair sampling loop, LambdaMART weights | sums over the drawn pairs |
| C53 C74 | definedness of pairwise losses | C53 false in three ways; C74 false (vector written beyond its size) |
| C54 C78 | pairwise tasks as programs sharing the generator | C78: whatever the generator cell holds, results are those of a sequential run; C54 false |
| C77 | training composed with every loss of the library | composition of C69 with C76 and C53 |
| C80 C81 C82 | Python `slice`, `copy`, `from_dict`, `from_df` on the modelled store and columns | invariant of the loop that adds columns (names, sizes), then C01, C03, C07, C08 per column; C82 false for numbers overridden to `string` |
| C83 | `TrainGBDT` with trees in `*forest` on entry | prefix lemma for the loop; false with a base forest of constants |
| C84 C85 | training with squared error in exact arithmetic | sums over the leaves (C34, C35) and the Newton step (C48) per round, C73 and C39 for the run; C85 false for targets below the threshold |
| C86 C87 | `train` and `predict` of the Python package, `TrainPy`, `CreateLossFunc`, on stores made by `from_dict` | case analysis of the call; composition of C69, C77, C39, C37, C84 |
| C88 C89 | `main.cc` `Train` against `train` of the Python package | both unfold to the same `TrainGBDT` call; C89 false: two fields are ignored by Python |
| C90 | shrinkage 0 in the training loop | induction over the rounds (`Boosts`) |
| C91 | Python calls on a store without columns | case analysis; false in two cases |
| C92 | addresses of columns under add, erase, clear, load, and destruction of the store | invariant over traces, equivalence with the absence of destroying operations; false without that condition |
| C93 | Python's iteration over columns, `to_df`, `from_df` of it | induction over the rows; composition with C82 |
| C94 C95 | thread counts in the sums, the losses, scoring and training | sums of consecutive groups are the sum of all; simulation of the training loop with other slices; C95 false under rounding, witness in IEEE binary64 (`Spec/Ieee.lean`) |
| C96 C97 | from_dict, predict and trained forests as functions of one row (`Spec/Forest.lean`) | scoring follows the typed tree on the row's own values; trained trees are typed for the store (invariant of training); C97 false by pigeonhole on the bucket limits |
| C98 | plot_partial_dependency up to the statistics: copy, erase, add a constant column, predict, subtract (`Model/PartialDependency.lean`) | invariant: scoring sees the rows of the data with the feature replaced; kept by each replacement, whatever the feature was before |
| C99 | protobuf's JSON mapping of `tree.proto` as values, with limits on nesting (`Model/Json.lean`) | induction over the tree; reading what each writer wrote |
| C100 | as C99, after `train` | nesting is at most the number of leaves plus one; refutation: data for which 64 leaves form a chain, checked by the kernel |
| C101 | `ForestVisualizer` on JSON values (`Model/Visualizer.lean`) | induction over the tree; names are the root and the path, hence different |
| C102 | labels of `ForestVisualizer`, sign of `draw_trees.py` | cases; refutations by a value equal to the threshold and by the sign of any split |
| C103 | `predict_at_checkpoints` as a state machine over a shared directory (`Model/Generators.lean`) | invariant over schedules; refutation: two forests advanced in turn |
| C104 | `pyTrain` (pipeline model), pointwise losses | relational: runs with gradients that agree once weighted are equal, step by step |
| C105 | as C104 over `F64` | bounds on rounding give finite gradients of the hinge; refutation: base score 800, checked by the kernel |
| C106 | `pyTrain` on the stores that `from_dict` makes of both data sets (`Model/TrainPy.lean`, `Model/PyStore.lean`) | relational: rows of one store correspond to rows of the other (`Lemmas/Twin.lean`, `TwinTrain.lean`, `TwinStore.lean`), weighted sums over corresponding sets of rows are equal, hence the same histograms, splits, leaves, trees |
| C107 | as C106 | as C106 if the strings have the same codes; refutation: four rows, two categories with equal scores |
| C108 | as C106, row `i` repeated `k i` times | as C106, the correspondence being many to one: the weighted sum over rows is the plain sum over copies; the buckets depend on the set of values only, below 60000 rows |
| C109 | `pairInit`, `pairCompute` (`Model/Pairwise.lean`) | the state in terms of the number of pairs of rows (`PairReach.counts`, from C49), floor of each group's share, sum over groups |
| C110 | as C109 | a share below 1 has floor 0; refutation by a concrete loss over ℚ |
| C111 | as C109 | weights from C75, count from C109; refutation by a concrete loss over ℚ |
| C112 | `pyTrain`, `pyPredict` (`Model/Pipeline.lean`) with `mkPair` | composes C77, C73, C39, C37 as C87 does |
| C113 | as C112 | C73 gives the rounds, C75 the gradients in terms of draws, C109 the counts; draws are rewritten as pairs of rows by group, model formulas as `rankSlopes` and `rankWeight` |
| C114 | `mkGroup`, `pairCompute`, `trainGBDT`, `pyTrain` | congruence: groups depend on comparisons only, gradients on differences only; an invariant keeps the rows of groups through the rounds |
| C115 C116 C117 | `BktCol.build`, `StrCol.build`, `partition`, `findBestSplit`, `fitTree`, `trainGBDT`, `pyTrain`, `pyPredict` | simulation between two runs: buckets, codes and minima commute with the map; related columns give related splits, trees, forests (Lemmas/Alike, Lemmas/Scaled); refutations by concrete runs |
| C118 | `forestFromJson` and the readers under it | equivalence of the reader with a declarative meaning of JSON objects, field by field, by mutual recursion over JSON |
| C119 | `cliTrainMain`, `cliTestMain`, `pyFromTsvs` (Model/Cli) | composition: C17 (what is loaded) gives the hypotheses of the training theorems (C96), the round trip of JSON (C99) gives the model back, C44 and the scoring theorems give the score files; rows of the store are related to lines of the files |
| C120 | `cliTestMain` | refuted by a model on one feature and a file without the target column; partial from C119 |
| C121 | `cliTrainMain`, `cliTestMain` against `pyFromTsvs`, `pyTrain`, `pyPredictAndOutput` | loading depends only on the list of requested columns and not on the schedule (C17); then C88 |
| C122 | `configFromJson` (`readMessage` with the table `configFields`) | induction over the entries for any table of fields with disjoint names and independent places (`readMessage_iff`); then the table of `config.proto` |
| C123 | `pyTrainDict` (`pyConfigDict`: `_gbdt.py:36-41`) against `pyTrain` | the edits keep the meaning of other fields and set theirs; then C122 |
| C124 (partial) | same | two witnesses; renaming keys to snake_case keeps every field's value, then C123 twice |
| C125 | `pyTrain`, `pyPredict`, `cliTrainMain`, `cliTestMain` | the splits of fitted trees are on the given features (induction over `fitLoop`), so that all lookups of columns are at named ones (`trainGBDT_named`, `evaluateCheckpoints_named`); loaded columns are functions of the cells under their names (`load_same`) |
| C126 C129 C130 | the flat file branch of `main.cc` (`Model/FlatTrain.lean`): lazily loaded columns, the pool of `LoadFeatures`, weights and targets in either order | invariant of the map under all schedules (`GoodMem`: every loaded column is the file's and has `n` rows); then the run only looks up loaded columns, and is that of a store in memory; C129, C130 false: witnesses |
| C127 | both branches of `main.cc` | the column of a flat file is that of the TSV loader (`flatFile_column`), then C126 |
| C128 | `scripts/convert_tsv_to_filatfiles.py` (`Model/Converter.lean`) | round trip of printed lines through the reader; false for float features and for names with spaces or slashes |
| C131 C132 C133 C134 C135 | `train` of the Python package, with the losses of one row at a time | one simulation (`Lemmas/Stretch.lean`): maps on gradients, hessians, gains and scores that commute with the arithmetic of the code commute with splitting, tree growing, scoring, the convergence loop and the training loop; instances: weights (gradients, hessians, gains), signs (gradients, scores), units (gradients, scores, gains squared); C132, C134, C135 false: witnesses |
| C136 C137 C138 C139 | `scripts/bagged.py` on top of the program on flat files; `hash`, the file listed first, the rounding of printed scores are arbitrary | C136: arithmetic of `%` and unfolding the script; C137: reading the weights that the script prints, C126 to get to a store, the argument of C104 at the level of `trainGBDT`, and that a test reads the files of the features of a model only, which are features of the configuration; C138, C139 false: witnesses |
| C140 C141 | `train` and `predict` with mse in exact arithmetic (`rnd32` the identity) | `ShiftBy`: function values shifted row by row through `addTreeScores`; C48_mse for the first round (same gradients, shifted constant), then the loss is the same function of shifted values and targets; induction over the rounds; C141 false: witness |
| C142 C143 C144 C145 C146 C147 | `scripts/compute_metrics.py` (`Model/Metrics.lean`), exact numbers, `float` and `str` of numbers arbitrary | the dictionary as association list, by key; the sum over an insertion-sorted group as a sum over ranks (induction on insertion); runs of equal group lines are the groups if these are together; C143: insertion increases the sum; C145 to C147 false: witnesses |
| C148 | `scripts/compute_rmse.py` | unfolding and sums over zipped lists |
| C149 C150 C151 | `UniformBinning`, `BuildBuckets` | rows of a bucket are a convex set of histogram entries without bin limit between them (`bins_total`, induction over the loop); the capacities in terms of rows; witnesses for C150, C151 |
| C152 C153 | `FindBestFeatureAndSplit`, `FitTreeToGradients`, `TrainGBDT`, `train` | the best feature as a left-to-right maximum of positive gains (`pickBest_insert`); a constant column offers gain 0; lock-step of both runs up to the position of the generator; witness for C153 |
| C154 | `ComputeHuberizedHinge`, `FitTreeToGradients`, `TrainGBDT` | the loss lies below a parabola of curvature 1 (`hinge_step`), summed over the leaves (`fitTree_descent_by`), induction over the rounds of C73; witness of seven rows |
| C155 – C159 | `main`, flags, `LoadDataStoreOrDie`, `ReadFileToStringOrDie`, `WriteStringToFile`, `WriteScoreFile`, `FeatureImportanceFormatted`, `mkdir` (`Model/Main.lean`) on a file system of plain files and directories | the list of files to write is computed first, then written one by one (induction in `Lemmas/Main.lean`); paths of score files are injective in the number of trees; C156 from C119; C157 – C159 false: concrete runs |
| C160 | `buckets()` (`Model/PyStore.lean`) | from the invariant of finalized columns (`Ready`): limits rise strictly below the largest float, a minimum is above the limit before |
| C161 C165 | `__getitem__` of `DataStore` and the loops Python makes of it | from C80; induction over the rows left; C165 false: an empty store |
| C162 – C164 | `examples/benchm-ml/run.py` and the tutorial's command as flags of `main` (`Model/Benchmark.lean`) | training makes `num_trees + 1` trees for every loss and any data (induction over the loop, no hypotheses on the data), JSON keeps their number, every test point gets a file; C163, C164 false: concrete runs |
| C166 | `uniformSubsample` | counting: the sequences that give a sample are a product of sets (C22), `Fintype.card_piFinset` |
| C167 | `pairCompute` with the draws of a round given by an outcome | C75 makes the gradient a sum over the draws; the average of a function of one coordinate; C49 turns indices into pairs |
| C168 | `reportInit`, `reportCompute`, `lossLoop`, `prepareProgress`, `trainState`, `trainMessages` (Model/Progress) | simulation: the loop with messages projects to the loop without; induction over the loop of a round (loss of its last pass) and over the rounds (`Boosts`, C73) |
| C169 | the same with `mseLoss` | the reported loss lies between the squared errors before and after the round: after a first step nothing is left to correct (C48), and the decrease of C84 is at least the part due to the constant |
| C170 (partial) | the same | means of losses that are not negative; counterexample by evaluation |
| C171 | `pairLossStep`, `pairLossLoop`, `pairLossGroups`, `pairLossSlices`, `pairReportCompute`, `pairTrainMessages` (Model/PairProgress) | simulation as for C168; a drawn index determines the pair (rows of a group are distinct), so the sums run over the draws of C75; induction over groups, slices and rounds |
| C172 (partial) | the same | a weighted mean lies between bounds; counterexample by evaluation of two rounds |
| C173 | `trainGBDT`, `pointCompute`, `fitTree`, `forestValue` (C96) | the constant is the mean and every node's score is a shrunken mean of residuals over the node's rows (C60, C61), and so lies between the extremes of y minus the mean |
| C174 (partial) | the same | from C85 (the error is at most that of the best constant), one summand at most the sum; counterexample by evaluation |
| C175 (partial) | `bestFeature`, `fitTree`; `pyTrain` with `Machine.listing` | the best of a list of offers with distinct gains does not depend on the order; simulation of the loop and of the rounds of training, with the invariant that the rows of a queue entry are those that pass its node in the final tree; counterexample by evaluation |
| C176 | `PyStore.describeCol`, `PyStore.describe` (Model/Describe.lean); how a number is printed is a parameter | the elements shown are those of `list(column)` (C93) taken ten; counting by type |
| C177 (partial) | `PyStore.describeCol` | the text can be read back: a string without quotation marks ends at the next one, induction on the list; counterexample by evaluation |
| C178 | `trainGBDT` with `logLoss` over the real numbers | the second derivative of the loss (C47) is at most 1/4, so that the loss lies below a parabola at each point; the sum over the rows of a leaf of the parabolas is no larger after the regularized Newton step (C35), if `l2_lambda` is an eighth of the weight; induction over the rounds (C73). The example has a run over the real numbers, which is shown to end well (it cannot be evaluated) |
| C179 (partial) | `trainGBDT` with `logLoss` over the real numbers | the steps of Newton's method from 0 stay between 0 and the best constant, because `2(r-1)/(r+1) <= log r`; the loss is convex; then C178. Counterexample by proof, as real numbers cannot be evaluated: with targets 1 and -1 and all predictions `v` the step is `-sinh v`, and `2x < sinh x` for `x > 3` |
| C180 | `fitTree` with two values of `numLeaves`; specification `Refines`, `leftError` | both runs of the loop make the same steps until the smaller one stops (induction on the rounds), and a step gives children to a leaf; each leaf of the larger tree has the best constant for its rows (C35), and the score of the smaller tree is constant on it |
| C181 | `fitTree` | the split of a node is one that `findBestSplit` found for its samples (C67), and C28 |
| C182 (partial) | `fitTree`; specification `FineIn` | invariant of the loop: the samples of every entry of the queue have a hessian above the limit; a step puts the two sides of a split found into the queue. Counterexample: six rows |
| C183 (partial) | `fitTree`; specification `treeObjective`, `innerSplits`, `leftError` | invariant of the loop: gains so far plus the energy of all samples are the energies of the entries of the queue; a leaf's score minimises its part of the objective, which is minus its energy |
| C184 (partial) | the text of score files: `%g` with six digits, and `float` of Python (`Model/ScoreText.lean`); specification `RoundsTo`, `Binary` | printing and reading texts of digits; the six digits are a nearest number with six digits, and `F64.round` a nearest binary64 number (`roundRat_nearest`); rounding to nearest is monotone; numbers with six digits are further apart than the error of a double |
| C185 (partial) | `Forest.__init__`, `__str__` (`Model/PyForest.lean`) with the two string types of Python 2; that `pybind11` returns `unicode` and that `str` encodes it in ASCII is taken from their documentation | cases; C99 |
| C186 | threshold in binary32 (`Spec/Binary32.lean` instantiates `ThrOps`): the sum is formed in float, halved in double, compared with the lower bucket | the rounded midpoint of floats that are not neighbours lies strictly between; C63 |
| C187 | predictions in `F64` with rounding to nearest | induction over the trees; `roundRat_nearest` |
| C188 (partial) | `compute_metrics.py` on the text of the score file (`Model/ScoreText.lean`, `Model/Metrics.lean`) | false; order and ties of the scores are kept if different scores are printed apart |
| C189 | `compute_rmse.py` on the text of the score file, exact real arithmetic in the script | C184, Cauchy-Schwarz |
| C190 (partial) | `Model/DrawTrees.lean`: `scripts/draw_trees.py` with Python 2's `repr` and formatting; `Spec/Dot.lean`: a reader of the dot language (quoted strings with `\"`, one statement per `;`) | false; the reader undoes the script for plain names, by induction over the tree |
| C191 | `Model/PlotDraw.lean`: what is passed to matplotlib; numpy's argsort by its contract | permutation of labels and bars by the same indices |
| C192 (partial) | the same model | false; Chebyshev's inequality for the population standard deviation |
| C193 (partial) | `Model/MetaInfo.lean`: `MetaInfo` with protobuf's `DebugString` (fields in order, zero fields left out, C escapes) | false; the text is read back field by field and character by character |
| C194 (partial) | `Model/ProgressTime.lean`: the times in the log, with the clock readings as parameters | false; induction over the iterations, with C55 |
| C195 | `Model/ProgressTime.lean` (`importanceChart`): what is passed to matplotlib | positions and values are looked up together, with C45 |
| C196 | `Spec/Binary32.lean` thresholds with `Lemmas/PowerOfTwo.lean` | rounding commutes with powers of two (`roundRat_scale`), then C115 |
| C197 | `Model/JsonText.lean`: the text that protobuf writes; `Spec/JsonText.lean`: a reader after RFC 8259 | the reader undoes the writer, by mutual induction over values, lists and entries; surrogate pairs by arithmetic |
| C198 | `Model/NumberText.lean`: `%g` with any number of digits, `SimpleDtoa` and `SimpleFtoa` of protobuf; IEEE 754 (`Spec/Ieee.lean`) | different numbers of `p` bits differ by the `2^p`-th part (`Binary.gap`), decimals of `n` digits are closer; two roundings: a decimal with at most twelve places is not that close to the middle of two floats unless it is the middle (`twice_rounded`) |
| C199 | `Model/Train.lean`, `rnd32` on the constant tree; F64 for the refutation | partial: C73 (rounds of boosting) and a bound on a sum whose every addition is rounded; refuted with mse and one leaf |
| C200 | predictions as in C37, binary64 as in `Spec/Ieee.lean` | rounding to nearest keeps the order, so does adding with rounding; overflow goes to the right infinity and finite leaves never cancel it to NaN |
| C201 | training as in C73, splits as in C67, rows as in `Spec/Forest.lean` | a histogram bin that no sample falls into is zero, so neither its category nor the placing of missing values is tried; every node of every tree therefore only names what occurs |
| C202 | training as in C73, squared error as in C33, splits as in C67 | the constant step of the first round lands on the target; from then on every gradient is zero, so no split has a positive gain and every score is zero (induction over the rounds) |
| C203 | gradients as in C75, groups as in C56, scores as in C35 | every drawn pair consists of two rows of one group with different targets, so a row without such a partner is in no draw |
| C204 | gradients as in C75, groups as in C56, training as in C73 | scores are used in differences of two rows of one group and in comparisons within a group; the two runs of training are related round by round |
| C205 | `pairCompute`, `fitTree` as in C75, C20 | the gradients are the slope (C75), each leaf contributes G²/(H+λ); **false** with unequal weights, witness of six rows |
| C206 | as C205; losses of C47 over ℝ | the loss of a pair lies below a parabola, (a-b)² ≤ 2a²+2b², and each leaf gains at least λ times its squared score |
| C207 | as C206 with the loss of gbrank | from C206; **false** for small `l2_lambda`: satisfied pairs have no hessian, witness of eight rows |
| C208 | `trainGBDT` with `pairCompute`, exact field | lockstep of two runs (Lemmas/Stretch, as C131) after relating `pairCompute` with weights times `k` to itself |
| C209 | as C208 | from C208 when all limits are 0; **false** otherwise, witness of five rows |
| C55 C79 | duration formatting | arithmetic; C79 false in the last 50 ms of a minute |

## 5. What is modelled and what is not

Modelled, function by function (files under `/repo/src`):

| file | functions |
|------|-----------|
| `data_store/column.cc` | `UniformBinning`, `ConvertIntVector`, integer storage, `StringColumn`, `BucketizedFloatColumn`, `RawFloatColumn`: `Add`, `Finalize`, getters |
| `data_store/data_store.cc` | `Add`, `RemoveColumn`, getters, `num_rows` |
| `data_store/flatfiles_data_store.cc` | everything |
| `/repo/scripts/convert_tsv_to_filatfiles.py` | everything after `csv.reader` |
| `/repo/scripts/bagged.py` | what is computed; not the options, the paths and the printing |
| `/repo/scripts/compute_metrics.py`, `/repo/scripts/compute_rmse.py` | everything but the options and the rounding of what is printed |
| `data_store/tsv_block.cc`, `tsv_data_store.cc` | parsing of a block, column set-up, loading of all files |
| `utils/*` | `split`, `Trim`, `JoinStrings`, `Subsampling`, `ThreadPool`, `VectorSlice` (as lists), `StopWatch::MSecsToFormattedString` |
| `gbdt_algo/split_algo.cc`, `tree_algo.cc` | everything |
| `gbdt_algo/compute_tree_scores.cc`, `evaluation.cc` | everything except printing |
| `gbdt_algo/utils.cc` | `LoadFeatures`, `ComputeFeatureImportance`, `CollectAllFeatures`, `IsSingleNodeTree`, `GetTestPoints`, `CheckConfig` |
| `gbdt_algo/gbdt_algo.cc` | `TrainGBDT` and its helpers, `MetaInfo` (C193), the lines of the log (C168-C172, C194) |
| `loss_func/*` | formulas, pointwise losses, groups, pairwise losses, LambdaMART, names in the factory |
| `python/*` | `ThrowException`, index checks of columns, `TrainPy`, `Predict`, `PredictAndOutput`, adding columns, lifetime of columns |
| `main.cc`, `flags.cc` | `main`, `Train`, `Test` with `--tsvs` and with `--flatfiles_dirs`, from flags and files to files, `LoadDataStoreOrDie`, `FeatureImportanceFormatted`, `GetSampleWeightsOrDie`, `GetTargetsOrDie`, `GetFeaturesSetFromConfig`, `LoadForestOrDie` |
| `/repo/gbdt/_gbdt.py`, `_forest.py` | `train` (with a configuration and with a dictionary), `predict`, reading of checkpoint scores, `feature_importance_bar_chart` (C195) |
| `utils/json_utils.cc` | `ToJson`, `FromJson` for forests, `FromJson` for configurations (`proto/config.proto`), as values; the text that is written, with its numbers (C197, C198) |
| `/repo/gbdt/_partial_dependency_plot.py`, `_forest_visualizer.py` | what is computed and drawn |
| `/repo/examples/benchm-ml/run.py`, `docs/TUTORIAL.md` | the commands and the names of the score files (not the computation of AUC) |
| `/repo/gbdt/_data_store.py` | `__getitem__`, `slice`, `copy`, `items`, `to_df`, `from_dict`, `from_df`, `from_tsvs` (a data frame is a list of columns of numbers or strings) |

Not modelled: protobuf's binary format, what its reader of JSON text accepts beyond RFC 8259 (the text it writes is modelled, C197), glog output other than the progress of training (that is, C168-C172 and C194), `pybind11` glue other
than the index and exception logic, pandas, numpy, matplotlib and Graphviz (what `gbdt/*.py` hands to them is), `strtof` (an arbitrary
function), the file system (contents are given; for `main` plain files and directories, C155), memory exhaustion, integer overflow beyond 2^31 rows, allocation and lifetime other than
where a property is about it (C18, C61, C92).

## 6. Bugs found

Each is a theorem about the model, with the lines responsible cited there.

1. `BuildBuckets` divides by zero when `num_buckets - 1` values each occur at least `max(1, n / num_buckets)` times, for instance for any column of
   29999 distinct floats with the default of 30000 buckets (C08_crash_iff_partial, C08_distinct_values_crash, C08_refuted).
2. `+inf` is put in the overflow bucket whose bounds are `FLT_MAX` (C57_*_refuted).
3. `Add` after `Finalize` is accepted by string and raw columns (C58_string_refuted, C58_raw_refuted).
4. Columns without rows break the equal row count of a store (C59_refuted).
5. `ThrowException` drops `ALREADY_EXISTS` and `ABORTED`, so adding a duplicate column from Python silently does nothing (C14_refuted).
6. A column name requested twice in a TSV configuration writes through a dangling pointer (C18_refuted).
7. Data lines starting with `#` vanish from flat files (C60_refuted).
8. Two first requests of one flat file column: the second destroys the column the first returned (C61_refuted).
9. Bins with a sum of exactly 0 are skipped, so gains are misreported and better splits are missed (C29_refuted, C30_refuted).
10. A threshold halfway between two buckets can round to the lower of the two, or overflow to infinity, and then one child is empty (C63_refuted, C63_refuted_overflow; `split_algo.cc:222-231`).
11. Sorting categories by g/h is not optimal with l2 regularization, contrary to the comment (C31_refuted).
12. Scoring aborts for columns of another type and for inner nodes without a split (C64_refuted, C64_refuted_no_split).
13. A checkpoint that is not larger than those before it gets no file, and a checkpoint 0 suppresses the others (C65_refuted, C65_refuted_increasing); stale files of earlier runs are read (C66_refuted).
14. NaN sampling rates pass `CheckConfig` and are converted to an integer (C72_refuted).
15. Pairwise losses: without any pair a NaN is converted to an integer; a missing group makes `Init` write far out of bounds; a NaN target
   is sorted with a comparison that is no ordering (C53_refuted_no_pairs, C53_refuted_missing, C53_refuted_nan_target).
16. The LambdaMART constructor writes to a reserved but not resized vector (C74_refuted).
17. The generator is shared by tasks without a lock (C54_refuted, C54_refuted_race).
18. `59970 ms` is shown as `60.0s` (C79_refuted).
19. `from_df` drops number columns overridden to `string` and ignores number overrides of other columns (C82_refuted).
20. Slicing crashes when the chosen rows of a bucketized column have exactly 29999 different numbers (C80, same cause as C08).
21. With trees in `*forest` on entry, the constants of the base forest are added to the first of them (C83_refuted); no caller does this.
22. If the mean residual is below 0.0001, gradients are those from before the constant is added, so tree and constant both make up for it: with
   targets of 0.00005 and shrinkage 1 the predictions alternate between 0.0001 and 0 for ever (C85_refuted).
23. `weight_column` and `binarize_target` are honoured by the command line and ignored by `train` of the Python package (C89_refuted_weight,
   C89_refuted_binarize).
24. A configuration without `shrinkage` has shrinkage 0, passes the check, and trains trees that contribute nothing (C90).
25. `train(DataStore(), {'target_column': 'y'})` and `predict_at_checkpoints` on an empty store follow a null pointer (C91_refuted_train,
   C91_refuted_checkpoints).
26. Column objects hold a bare pointer: `DataLoader.from_dict(...)['x'][0]`, and any use after `erase`, is a use after free (C92_refuted,
   C92_refuted_erase).
27. The number of threads groups the sums of gradients, so with rounding it changes the forest: on seven rows with targets 2^53, 0, 1, 1, -2^53, 0, 0 one
   thread gives predictions of 0.69 and two threads 0 (C95_refuted). The comments promise nothing; a fixed number of slices would do.
28. With 60000 or more rows the number a split compares is the largest of the row's bucket, and buckets depend on the other rows: a row's
   prediction can differ between a batch and the row alone (C97_refuted).
29. **Deep trees cannot be saved (C100).** protobuf's JSON writer stops at 64 levels. A trained tree with 64 leaves in a chain is nested 65 deep: `str(forest)` raises, so such a forest cannot be saved or drawn, and the command line trains and then aborts in `CHECK` (`main.cc:149-153`) without writing the model.
30. **Labels say `<=`, trees test `<` (C102).** `_forest_visualizer.py` and `scripts/draw_trees.py` print `feature <= threshold` for the left child, but a value equal to the threshold goes right, as `tree.proto` says. `draw_trees.py` also tests only whether `missingToRightChild` is present, which it always is in files of this library, so it always shows missing values going right.
31. **Generators share files (C103).** `predict_at_checkpoints` lets the extension write the scores to `files in one directory` at the first `next` and reads each file when its turn comes, so a second generator started in between replaces the files of the first: `zip` of two generators yields the second forest's scores for both.
32. **Rows of weight zero can spoil training (C105).** Gradients are multiplied by the weight after being computed; for logloss a row with `-y * f > 709` has gradient `inf / inf = NaN`, and `0 * NaN = NaN` enters every sum, so training fails because of a row that has been given weight zero.
33. **Row order decides ties between categories (C107).** `SortOnNodeScore` compares scores only, and equal ones stay in an order that depends on the codes of the categories, which are given in order of first appearance. A split may separate two categories with equal scores, so shuffling the rows changes predictions, with exact arithmetic and without sampling.
34. **Small groups are never sampled (C110, C111).** `uint64 sample_pairs = group.num_pairs() * pair_sampling_probability_` (`loss_func_pairwise.cc:122`) is rounded down for each group on its own. With many groups of few pairs, which is common in ranking, nothing is ever drawn from the small ones; if all are small, all gradients are 0 and training silently learns nothing. `equal_group_weight` cannot repair it, since nothing is there to be weighted.
35. LambdaMART accepts a base of discounts in (0, 1], for which discounts are negative from the second rank on, or NaN for base 1 (C74_refuted_small_base).
36. The threshold that splits missing values from the others is the smallest value minus 0.001, whatever the unit of the feature; rows with values a little below that threshold are treated like missing ones, so predictions depend on the unit (C117_refuted).
37. Values whose gradients add up to exactly zero take no part in the search for splits; the side they end up on depends on the middle of their neighbours (C116_refuted), so even predictions for training rows depend on the scale of a feature.
38. `--mode=test` on TSV files ends the process if a file lacks the target, weight or group column of the configuration, though testing reads none of them (C120_refuted): unlabelled data cannot be scored with the configuration used for training.
39. `gbdt.train` adds `example_sampling_rate` and `feature_sampling_rate` (and the features) in snake_case without looking for the camelCase names that protobuf also accepts, so a rate given as `exampleSamplingRate` is silently replaced by 1; and a rate of `None`, which protobuf takes as not given, is refused although a missing rate means 1 (C124_refuted, C124_refuted_none).
40. `scripts/convert_tsv_to_filatfiles.py` writes `# dtype=binned_floats` for float features, but `flatfiles_data_store.cc` knows only `bucketized_floats`, so no float feature it converts can be loaded; and it replaces spaces and slashes in file names, under which the store does not look (C128_refuted, C128_refuted_name, C128_refuted_train).
41. `--mode=test` with flat files and a forest without splits writes empty score files: no column is loaded, and a store without columns has no rows (C129_refuted).
42. A flat file store compares row counts only if its first column is not empty, so columns of different sizes get in (C130_refuted). With an empty weight file the program either aborts or reads weights out of bounds, depending on which argument of `TrainGBDT` the compiler evaluates first (C130_refuted_train).
43. Gains are compared with an absolute tolerance (`kFloatTolerance = 1e-6`, `split_algo.cc:33, 193`) although they scale with the weights and, for mse, with the square of the targets. With weights that add up to 1 over many rows, or with targets of a few in 10000, no tree is ever split (C132_refuted, C135_refuted).
44. The convergence threshold of the constant term (`loss_func_pointwise.cc:34, 87`) is absolute, too (C135_partial shows what would be needed).
45. With string features, negated targets may give another forest: ties between splits are decided by the order of the categories (C134_refuted).
46. `scripts/convert_tsv_to_filatfiles.py` takes rows that lack cells, and the cells of later rows move up into them (C128_refuted_rows).
47. `scripts/bagged.py:33-36` counts rows by the lines of the file that `os.listdir` happens to list first that are not blank, but blank lines are rows to the program: a string column with empty cells makes training abort (C138_refuted_rows).
48. `scripts/bagged.py` raises IndexError when the model of some bag has no split, since the program writes empty score files for it (bug of C129; C138_refuted), and ZeroDivisionError with one bag (C138_refuted_one).
49. `scripts/bagged.py:80-81` overwrites the weight column of the configuration: sample weights are silently ignored (C139_refuted). Score files of an earlier run with other test points that are left in the directories of the bags are averaged as if they were of this run.
50. `loss_func_pointwise.cc:63-87`: when the mean target is below the threshold, gradients are computed before the constant is added, so the constant is not taken from them: a shift of all targets changes the trees (C141_refuted).
51. `scripts/compute_metrics.py:41-43`: a score or target file that is too short silently ends the reading; the current group and all later ones are lost (C145_refuted), and nothing is printed for an empty score file (C145_empty).
52. `scripts/compute_metrics.py:85` divides counts as integers, so that `count_*` are rounded down though printed with four decimals (C146_refuted).
53. `scripts/compute_metrics.py:44`: groups whose rows are apart are taken for several groups (C147_refuted), and a group file without final newline gets one group too many (C147_newline_refuted).
54. `scripts/compute_rmse.py:12-13` prints before it compares the lengths (C148_printed_first).
55. `column.cc:277-292`: frequent numbers do not have buckets of their own when infrequent ones of the same bin lie below them (C150_refuted), and when frequent numbers take nearly all buckets the rest is put into very few (C151_refuted): the binning is not of equal frequency.
56. `subsampling.cc:37-41`: a feature_sampling_rate of 1 still draws a number per feature from the generator that samples rows, so a feature that is never used changes the model (C153_refuted).
57. `loss_func_math.cc:33-43` with `gradient_data.h:52-55`: undamped Newton steps for the huberized hinge overshoot, as its hessian is 0 outside the parabola: with l2_lambda 0.1 and shrinkage 1 two trees take the loss from 3.5 to 27 (C154_refuted).
58. `flags.cc:21`: `--training_weight_file` is defined ("The training weight file.") but read nowhere; weights given that way are ignored (C157_refuted). Likewise `--tsvs` next to `--flatfiles_dirs` (`main.cc:90-95`).
59. `main.cc:147-153`: the output directory is made only after training, one level deep, without looking at the result; if it cannot be made, the trained model is lost in `CHECK` (C158_refuted).
60. `evaluation.cc:66-79`: score files of earlier runs are left in the output directory, where they look like results of the model tested (C159_refuted).
61. `examples/benchm-ml/run.py:35-36`: reads score files for 1, 21, …, 181 trees, but the configurations next to it train 20 trees (C163_refuted).
62. `docs/TUTORIAL.md:140-149`: the testing command lacks `--mode=test` and so trains on the test data (C164_refuted).
63. `_data_store.py:23-25`: a loop over a store without columns never ends (C165_refuted).
64. **C170: the log can report a negative reduction.** With the huberized hinge the loss may go up from tree to tree (see C154), so that `reduced=` in the log is negative: -705 % for three trees on seven rows.
65. **C172: the log of a pairwise loss reports the loss of that round's pairs.** Losses of different rounds are about different pairs; the reduction in the log can be far below 0 though the predictions did not change. If no pair is drawn the log says nan.
66. **C174 (not a bug, but surprises users): with two or more trees predictions can leave the range of the targets** for rows that have a combination of values not seen in training; nothing clips them.
67. **C175: ties between features are decided by the hash function of the C++ library.** `LoadFeatures` goes through an `unordered_set`; the first of several features with the same gain is used (`tree_algo.cc:96-100`). Two features that each tell two rows of a node apart are enough for a tie, so that models trained by different builds from the same data and seed can differ.
68. **C177: strings are not escaped by `repr`.** The column of the one string `a","b` is shown as `StringColumn(["a","b"])`, like the column of `a` and `b` (`column_py.cc:53`).
69. **C179: the search for the constant can run away.** `Pointwise::ComputeFunctionalGradientsAndHessians` makes up to ten Newton steps from 0 without checking that a step lowers the loss. Two rows with targets 1 and -1 and a base forest that predicts -4 for both: the steps are -sinh of the prediction, which becomes 23.3, then about -6.5e9, then the exponential overflows; in real arithmetic the loss after training is larger for every `l2_lambda`. With doubles the constant becomes infinite or NaN and training ends with an error that speaks of divergence.
70. **C182, C183: values whose gradients cancel break the limits.** `Histogram::ComputeHistograms` leaves values with `g == 0` out (it should leave out those with `g == 0 && h == 0`). With residuals 1, 1, 1 (value 1), 2, -2 (value 2), -6 (value 4) and `min_hessian` 2, the tree's right leaf has one row: the two rows with value 2 were counted on the right and go left. The reported gain is 27/2 instead of 363/10.
71. **C184: score files have six digits.** `WriteScoreFile` prints with the default precision of streams, so `predict_at_checkpoints` yields other numbers than `predict` (0.1234567 becomes 0.123457), and different scores can become equal; metrics computed from score files see ties that the forest does not have.
72. **C185: Python 2.7 cannot make a forest from a string.** `gbdt/_forest.py:7` asks for `six.text_type`, which is `unicode` in Python 2.7, while `str(forest)` and `open(...).read()` give `str`: `Forest(str(forest))` raises TypeError. `str(forest)` itself raises UnicodeEncodeError if a feature or category has a character outside ASCII, and with it `ForestVisualizer(forest)`.
73. **C188: six digits in score files change ranking metrics.** `evaluation.cc:42-54` prints scores with six digits; 0.5 and 0.50000001 become ties, which `compute_metrics.py` orders or counts differently.
74. **C190: draw_trees.py does not escape names.** `scripts/draw_trees.py:16-69` puts feature names and the `repr` of categories between double quotes; a quotation mark in a feature name, or a category with an apostrophe (whose `repr` uses double quotes), makes an unreadable dot file, and names outside ASCII raise UnicodeEncodeError.
75. **C192: the band is not a 95 % interval.** `_partial_dependency_plot.py:57-70` draws mean ± 1.96 standard deviations of the differences; only 73.9 % of the rows are guaranteed inside.
76. **C193: the meta info confuses quotation marks and apostrophes.** `gbdt_algo.cc:111` replaces every `"` of the printed configuration by `'`, including those inside escaped strings; column names `w'` and `w"` print alike.
77. **C194: the estimate in the log can overflow.** `gbdt_algo.cc:163-167` formats iteration time times remaining trees; `stopwatch.cc:41-42` computes `60 * mins` in `int`, undefined from 68 years on, which num_trees near 2^31 reaches with iterations of a second.
78. **C199: the constant is kept twice, in different precision.** `gbdt_algo.cc:193` adds it to a `float` (`tree.proto:42`), `gbdt_algo.cc:195` to `double` function values; so the forest does not predict what training has worked with, and small constants are lost altogether once the constant tree is 2^24 times larger.
79. **Row weights count twice in rankings** (`loss_func_pairwise.cc:132-133`, `tree_algo.cc:55`, `split_algo.cc:112`): the weight of a pair is already the product of the weights of its two rows, and the tree is then fitted to each row's gradient times the weight of the row again. With rows of different weight the gradients of a pair no longer cancel, and a tree can raise the very loss it was fitted to: in `C205_refuted` a tree with two leaves ranks the only pair it can tell apart the wrong way round.
80. **Weights of rankings against the limits** (C208, C209): doubling all weights makes the sums compared with `min_hessian` and `min_gain` and added to `l2_lambda` eight times as large, not twice as with the losses of single rows, a consequence of bug 79 (src/loss_func/loss_func_pairwise.cc:132-133).

Disagreements of comments with code that do no harm are noted at the definitions (for instance the header promises `num_buckets+1` buckets, C06;
`min_num_pairs_` is really a maximum).

## 7. Trusted base

* Lean's kernel, and Mathlib as installed.
* The axioms `propext`, `Classical.choice`, `Quot.sound`, no others.  The table at the end of this file lists them per theorem; it is written by
  `tools/gen_axioms.py` from `#print axioms`.  No `sorry`, no `native_decide`, no `bv_decide`, no axiom of our own.
* That the definitions under `Verif/Model` say what the C++ says.  This is argued by the citations beside each definition and tested by the
  mutants of `seeded/LOG.jsonl`: edits of the model that make an English claim false must break a theorem.
* That protobuf's JSON reader follows the proto3 JSON mapping.  protobuf 3.6.1 is more lenient in places: it takes strings for booleans and
  a single value for a repeated field.  Of a field given twice it takes the last value; C122 to C124 assume that no field is given twice.
* That the specifications (`Verif/Spec`, the openings of `Verif/Props`) say what the English statements say.

## 8. Axioms per theorem

**none** (5): C13_null_get, C15_single_empty_piece, C28_hessian_limit, C58_string_refuted, C74_refuted_always.

**propext** (26): C06_bound_reached, C101_num_trees, C102_refuted_script, C103_ended, C115_commutes, C115_rename, C11_typed_getters, C150_refuted, C15_empty_delimiter_diverges, C185_refuted_always, C190_edges, C190_nodes, C21_no_groups, C26_mismatch_aborts, C26_raw_partition, C41_shrinkage, C42_nothing_else, C42_stripped, C46_factory, C46_known_losses, C58_raw_refuted, C58_refuted, C58_string_refinalize_partial, C64_missing_feature_partial, C74_discount_partial, C91_looking_partial.

**propext, Quot.sound** (30): C102_categories, C135_partial, C14_duplicate_silently_ignored, C14_failures_raise_partial, C151_refuted, C15_join_split, C165_refuted, C168_same, C171_same, C17_trim, C22_monotone, C22_rate_one_zero, C23_no_threads, C24_terminates, C40_errors, C41_contribution_exact, C42_same_leaf, C44_test_points, C46_check_config, C49_defined, C57_containment_refuted, C57_minima_refuted, C57_order_refuted, C62_histogram_bins, C74_refuted_short, C76_binary_targets, C83_appends_partial, C92_refuted, C92_refuted_erase, C99_saving.

**propext, Classical.choice, Quot.sound** (474): C01_string_roundtrip, C02_block_independent, C02_lookup_inverse, C02_max_int, C02_missing_iff, C02_same_code_iff_same_string, C03_missing_iff_nan, C04_row_in_bucket, C05_codes_ordered, C06_bucket_count, C06_default_fits_16_bits, C07_few_values_exact, C08_crash_iff_partial, C08_distinct_values_crash, C08_refuted, C09_limits_are_data, C09_minima_tight, C100_few_leaves_partial, C100_refuted, C101_picture, C101_trained, C102_not_equal_partial, C102_refuted, C103_refuted, C103_undisturbed_partial, C104_ignored, C104_zero_weights, C105_hinge_partial, C105_refuted, C106_row_order, C107_refuted, C107_same_order_partial, C108_repeated_rows, C109_no_group, C109_total, C10_bucketized_frozen, C110_refuted, C110_starved_partial, C111_refuted, C111_weights_partial, C112_no_crash, C112_trains, C113_rounds, C114_differences_only, C114_of, C114_order_only, C114_shift, C115_forest, C115_linear, C115_predict, C115_predictions, C116_partial, C116_refuted, C117_partial, C117_refuted, C118_reading, C118_unique, C119_from_tsvs, C119_python, C119_test, C119_train, C119_train_test, C11_names, C11_statuses, C11_store_is_finite_map, C120_partial, C120_refuted, C121_load, C121_test, C121_train, C122_reading, C123_dict, C123_refused, C124_partial, C124_refuted, C124_refuted_none, C125_predict, C125_program_test, C125_program_train, C125_train, C126_schedule, C126_store, C126_test, C126_train, C127_test, C127_train, C128_partial, C128_refuted, C128_refuted_name, C128_refuted_rows, C128_refuted_train, C128_refuted_type, C129_refuted, C129_scores_partial, C12_equal_row_counts, C130_equal_rows_partial, C130_refuted, C130_refuted_train, C130_test_partial, C131_weights, C132_partial, C132_refuted, C133_signs, C134_refuted, C135_refuted, C136_once, C136_scores, C137_files, C137_honest, C138_partial, C138_refuted, C138_refuted_one, C138_refuted_rows, C139_ignored, C139_refuted, C13_bucketized_get, C13_raw_get, C13_string_get, C140_shift, C141_refuted, C142_dcu, C143_best, C143_discount, C144_order, C145_empty, C145_prefix_partial, C145_refuted, C146_count_partial, C146_refuted, C147_newline_refuted, C147_refuted, C148_printed_first, C148_rmse, C149_share, C14_refuted, C150_top_partial, C151_even_partial, C152_useless, C153_partial, C153_refuted, C154_refuted, C154_tree_partial, C155_errors, C155_inputs, C155_test, C155_train, C156_train_test, C157_partial, C157_refuted, C157_tsvs_partial, C157_weights_partial, C158_partial, C158_refuted, C159_partial, C159_refuted, C15_split_join, C160_buckets, C161_list, C161_name, C161_no_row, C161_range, C161_row, C162_score_files, C163_partial, C163_refuted, C163_shipped_partial, C164_partial, C164_refuted, C164_trains_partial, C165_partial, C166_independent, C166_rate, C167_share, C167_unbiased, C168_count, C168_messages, C169_mse, C16_block_contents, C16_failure, C16_missing_file, C16_success_iff, C170_refuted, C170_upper_partial, C171_messages, C172_bounds_partial, C172_refuted, C173_one_tree, C174_refuted, C174_training_rows_partial, C175_gain_partial, C175_no_ties_partial, C175_refuted, C175_train_partial, C176_column, C176_empty, C176_store, C177_refuted, C177_strings_partial, C178_tree, C179_first_partial, C179_refuted, C17_bucketized_rows, C17_failure_reasons, C17_load_contents, C17_raw_rows, C17_requested, C17_schedule_independent, C17_string_rows, C17_succeeds, C180_error, C180_refines, C180_rows, C181_gain, C182_hessian_partial, C182_refuted, C183_error_partial, C183_refuted, C183_sum_partial, C184_checkpoints_partial, C184_close_partial, C184_exact_partial, C184_file_partial, C184_order_partial, C184_program_partial, C184_refuted, C185_refuted, C185_three_partial, C185_unicode_partial, C186_both_sides, C186_threshold, C187_error, C187_exact, C187_keeps_order, C187_order, C188_metrics_partial, C188_refuted, C189_rmse, C18_distinct_names_partial, C18_duplicates_undefined, C18_refuted, C190_plain_partial, C190_refuted, C190_refuted_others, C191_bars, C191_base, C191_curve, C192_band_partial, C192_refuted, C193_one_line, C193_refuted, C193_tells_partial, C194_estimate, C194_refuted, C194_written_partial, C195_chart, C196_power_of_two, C197_different, C197_forest, C197_model_file, C197_one_line, C197_text, C198_double, C198_eight_digits, C198_float, C198_float_through, C198_forest, C199_float_error_partial, C199_order_partial, C199_partial, C199_refuted, C19_flatfile_rows, C200_how_many, C200_order, C200_range, C201_unseen_missing, C201_unseen_strings, C202_same_target, C203_leaf, C203_no_group_column, C203_no_partner, C204_base_constant, C204_within_groups, C205_descent_partial, C205_refuted, C205_slope, C206_fall, C206_losses, C206_train, C207_fall_partial, C207_refuted, C208_cube, C209_partial, C209_refuted, C20_concurrent_get_column, C21_divide_range, C21_divide_samples, C21_even, C22_all_samples, C22_subsample, C23_all_done_at_return, C23_each_task_once, C23_single_thread_in_order, C24_no_deadlock, C25_gradients, C25_scoring, C25_splits, C25_sums, C26_float_partition, C26_float_partition_exact, C26_in_place, C26_string_partition, C26_string_partition_by_index, C27_names_and_indices_agree, C28_best_candidate, C28_exceeds_limits, C28_none, C29_float_gain_partial, C29_refuted, C29_string_gain_partial, C30_best_threshold_partial, C30_refuted, C31_best_subset_partial, C31_refuted, C32_float_children_nonempty, C32_string_children_nonempty, C33_shape, C33_stops_when_exhausted, C34_leaves_partition, C34_samples_reach_leaves, C35_leaf_members, C35_newton_step, C35_scores, C36_best_first, C37_prediction, C37_prediction_exact, C37_slices, C38_same_float, C38_same_prediction, C38_same_string, C38_same_values_same_leaf, C39_forest_usable, C39_function_values, C39_training_scores_are_predictions, C40_base_unchanged, C40_divergence, C40_shape, C42_same_prediction, C43_checkpoints, C44_all_written, C45_importance, C45_normalized, C46_train_refuses, C47_huberized, C47_logloss, C47_mse, C47_squared_hinge, C48_mse, C48_mse_no_weight, C48_mse_two_steps, C48_newton, C49_num_pairs, C49_pair_bijection, C50_ranks, C51_cancel, C51_hessians, C51_other_groups, C52_delta_dcg, C53_compute_partial, C53_exact_partial, C53_init_partial, C53_refuted, C53_refuted_missing, C53_refuted_nan_target, C53_refuted_no_pairs, C54_one_thread_partial, C54_refuted, C54_refuted_race, C55_milliseconds, C55_reads, C56_groups, C56_no_column, C57_small_column_partial, C59_first_has_rows_partial, C59_refuted, C60_no_hash_partial, C60_refuted, C61_distinct_names_partial, C61_loaded_partial, C61_refuted, C62_values_scanned, C63_refuted, C63_refuted_overflow, C63_separating_partial, C64_refuted, C64_refuted_no_split, C65_first_partial, C65_refuted, C65_refuted_increasing, C66_increasing_partial, C66_refuted, C67_best_feature, C67_splits_are_best, C68_fit_defined, C69_training_defined, C70_prefix, C71_warm_start, C72_defined_without_nan_partial, C72_refuted, C73_divergence, C73_rounds, C74_base_partial, C74_formula_partial, C74_refuted, C74_refuted_small_base, C74_resize_partial, C75_gradients, C76_pointwise_defined, C77_pairwise, C77_pointwise, C77_pointwise_warm_start, C78_refines, C78_runs, C79_partial, C79_refuted, C80_bad_index, C80_copy, C80_slice, C80_slice_large, C81_from_dict, C81_ragged, C81_sound, C82_from_df_partial, C82_refuted, C83_refuted, C84_more_trees, C84_no_worse_than_base, C85_constant_partial, C85_refuted, C86_only_named, C86_value_error, C87_from_dict, C87_mse, C87_no_crash, C87_trains, C88_binarize, C88_same, C89_partial, C89_refuted_binarize, C89_refuted_weight, C90_constant, C91_refuted_checkpoints, C91_refuted_train, C91_train_partial, C92_exactly_partial, C93_list, C93_round_trip, C93_round_trip_plain, C93_to_df, C94_predict, C94_train, C95_associative_partial, C95_refuted, C96_new_data, C96_predict, C96_trained, C97_large_partial, C97_refuted, C97_small_partial, C98_dict, C98_errors, C98_numbers, C98_strings, C98_unused, C99_roundtrip.
