# A Lean 4 model of rankeval

This file says what is modelled, how each property of `properties.jsonl` is
stated and proved, what is trusted, and where the code disagrees with its own
documentation. Line numbers refer to the pinned commit in `/repo`.

## 1. Layout

    lean/Verif/Py/*.lean        Python/numpy primitives used by several functions
    lean/Verif/Model/*.lean     the model, one file per source file; each definition cites its lines
    lean/Verif/Spec/*.lean      small independent specifications (textbook definitions, inductive trees, ...)
    lean/Verif/Lemmas/*.lean    proofs that are not property statements
    lean/Verif/Props/*.lean     the property theorems, with satisfying examples beside them

## 2. Modelling conventions

* **Numbers.** Where only comparisons and operations in a fixed order matter
  (tree traversal, caching, loaders, parsing, dataset bookkeeping) the number
  type is an arbitrary type with arbitrary operations, so the theorem covers
  IEEE floats, NaN included. Where a theorem needs algebra (bounds,
  optimality, sums) numbers are exact: a linearly ordered field, or the reals
  when logarithms or powers occur. Rounding is then outside of the model and
  is said so in the file. Rounding is modelled where the property is about it
  (C12, C39).
* **Exceptions** are values: functions that may raise return
  `Except PyErr _`, one constructor per Python exception class.
* **Python slices** `a[:k]`, `a[-k:]` are modelled with negative arguments.
* **Sorting.** `np.argsort` is introsort, unstable and unspecified on ties. It is
  a parameter: any function returning a permutation of the positions which
  puts the values in ascending order. Theorems hold for all of them.
* **Randomness.** Permutations and random masks are universally quantified
  arguments.
* **Parallel loops** (`prange`) are sets of per-iteration step lists; theorems
  range over all interleavings.
* **Objects** with caches are states, calls are transitions, theorems range
  over all finite histories.
* **File system** for the downloader: a small state with a crash possible
  between any two effects.
* **Text formats** are modelled at the level of tokens, records or XML events.
  Conversion of a numeral to a number is a function parameter, except in C12.

## 3. Properties: model and proof

| id | model | proof |
|----|-------|-------|
| C01 | `Dataset.__init__`: `np.unique(return_index)` + argsort by first index, offsets, wrong size error | induction on the id list: offsets are the first occurrences, strictly increasing |
| C02 | same | contiguity implies block ids are constant; witness [1,2,1] for the negation |
| C03 | `get_qids_dataset`, `get_query_sizes`, `get_query_offsets` | blocks of C01 flatten back to the ids |
| C04 | `subset` with the `in1d` mask | filter lemma |
| C05 | `subset_features` | direct, indexes of rows |
| C06 | `split` with Python rounding and negative slicing | permutation cut in three; witness for the violated case |
| C07 | `kfold` cyclic index arithmetic | arithmetic over split points; witnesses n_folds=2 and too many folds |
| C08 | `__eq__`, `__hash__` (digest of the byte arrays as a parameter) | witness for the block violation; equality with equal blocks is interchangeable |
| C09 | `parse_line`, `reshape_data`, `parse_file`, `load` | invariant: the buffer is the padded rows seen so far; loop invariant of the in-place move |
| C10 | same, lines as tokens and as characters for comments | induction on lines |
| C11 | `dump` lines + C09 | composition; witness for one row |
| C12 | decimal rounding to 9 digits, round to nearest double, round to nearest single, as relations on rationals | error bound smaller than half the gap |
| C13 | `Metric.eval` loop, `nanmean` | induction over blocks |
| C14-C23, C25 | each `eval_per_query` line by line | equalities with textbook formulas, bounds, rearrangement / exchange arguments |
| C17, C18 | NDCG object as state (cache, current dataset, cursor) | invariant over histories; witnesses |
| C24 | `MSE.eval` with writes at `qid` (numpy negative indexing and IndexError) | ids 0..n-1 give the right shares; witness |
| C26, C27, C28 | same metric functions | argsort contract transfers along monotone maps; exchange |
| C29-C31 | node arrays, traversal with fuel-free termination by well-foundedness of the decoded tree, explicit bounds checked reads | refinement to inductive trees |
| C32 | per-iteration steps and interleavings | disjoint footprints commute |
| C33 | model object with cache as a state machine | invariant: every cache entry is the fresh result |
| C34 | post-processing in `score` | algebra |
| C35 | `_prune_model`, `copy` | prefix of arrays decodes to prefix of trees |
| C36 | `num_leaves`, `num_nodes`, `height_trees`, `is_leaf_node` | induction on trees |
| C37 | SAX-like event machine, XML writer | simulation by induction on the tree |
| C38, C40 | line machines with the parent stack | simulation by induction |
| C39 | binary32 numbers as a discrete order with exact rational values | monotone rounding, witness 2^25 |
| C41, C42 | array encodings | index arithmetic |
| C43 | CatBoost node records | index arithmetic for equal sizes, witness otherwise |
| C44, C45 | heap indices on 64 bit words, `most_significant_bit` | induction on trees; witness for fullness |
| C46-C48 | partition loop, stack, unsigned conversions | partition invariant, law of total variance, witness for the wrap-around |
| C49, C50 | `_randomization` | counting, sign flip bijection |
| C51 | `_kfold_scoring` | chunks of a permutation |
| C52 | `bias_variance` aggregation | algebra |
| C53 | `get_tree_steps`, incremental sums | prefix sums |
| C54, C57 | `np.histogram`, cumulative sums | counting |
| C55 | `query_class_performance` | partition of sums |
| C56 | `rank_confusion_matrix` | counting pairs, witness for ties |
| C58 | average contribution | triangle inequality |
| C59, C60 | directory state machine with crash points | witness, partial theorem without crash |
| C61 | breadth first loop with predictions by level, numpy indexing | level by level: the queue is the frontier of the tree cut at depth k; for MSE the change telescopes to the reduction of C46 |
| C62 | tau-b from counts of pairs, Pearson correlation of average ranks | counting, Cauchy-Schwarz with its equality case, ranks without ties are 1..n |
| C63 | loops writing the result tables | the writes fill the table cell by cell, equal to nested maps |
| C64 | `_randomization` with NaN | witness for all vectors with NaN, partial theorem without |
| C65-C67 | `export_graphviz` as a list of statements | induction over trees with node ids; parsing the statements back; counts split at each node |
| C68 | the attributes of a `Scorer` and its methods | invariant over sequences of calls |
| C69 | loaders and scoring together | composition of C37-C43 with C31 and C34; 16 bit features by computation |
| C70 | loaders and topological analysis together | invariants of the loaders: links lead to later nodes |
| C71 | text of XGBoost and scikit-learn dumps | backtracking matcher for the regular expressions, proved against an inductive definition of matching; first-match lemmas for each expression |
| C72 | text of LightGBM models | keys exclude each other, words between white space; composition with C41 |
| C73 | lines and memory in the C++ reader | induction over the lines; case analysis of the cells (vector, array, owner) over all failure patterns |
| C74 | independence of the memory layout | arrays as views of a buffer with strides; index arithmetic of both orders |
| C75 | plot of the average tree shape | the nested loops write each cell once (induction over levels and nodes); composition with C44 |
| C76 | plot of feature importances | prefix of a reversed sorted permutation; floor arithmetic of the ticks |
| C77 | plots of effectiveness analyses | linear arithmetic of bars; first largest defined value; sorting |
| C78 | text of QuickRank files | serializer and parser of XML without entities other than the predefined ones; nested induction on elements, fuel on the length of the text; prefix argument for files cut off |
| C79 | rounding errors of predictions | standard model of rounded arithmetic as hypothesis; binary32 as integers in units of 2^-149, shown to satisfy it; induction on trees of additions |
| C80 | from files to NDCG | composition of C09, C13, C16, C17, C34, C72, C78 |
| C81 | names of metrics | cut the name at the first `@` or `[`; numerals are injective |
| C82 | arrays shared between callers, datasets and caches | memory as a list of arrays, operations as transitions; frame argument (worlds that agree outside of a set), invariant that cached arrays hold what scoring gives |
| C83 | text of jforests files | `split(" ")`, conversion word by word, events of the parser of C78; elements that spell converted elements, then C42; loose blanks always give an empty word |
| C84 | several SVMlight files at once | fold over the files of the loader of C09; columns per file |
| C85 | classes derived from metrics | classes as lists in the order of method lookup, `super` with a named class or with `self.__class__`, a limit on the depth of calls |
| C86 | XGBoost models on data with features that are not given | trees with default directions and their text as specification; C69 for the text, induction on trees |
| C87 | opening and saving models by name | names of formats, package present or not; composition with C78 |
| C88 | files to all ranking metrics | composition of C09, C13-C23, C34; specification of all values in Spec/EffectAll |
| C89 | learners that are always right | cross-validation (C51) and decomposition (C52) with the choice by class of the metric |
| C90 | random state | generators as abstract state machines, programs of calls |
| C91 | averages in floating point | pairwise summation of numpy as a sum tree (C79), binary32 in units of 2^-149 |
| C92 | text of single precision numbers | characters; sign and magnitude in units of 2^-149; `%.9g`, `operator>>` and `%lf` on exact rationals, rounding to nearest even; instance of the abstract scanner of C09-C11 |
| C93 | numbers in saved models | `repr` of numpy.float32 (shortest text, positional or scientific) and `float` followed by narrowing, on exact rationals; all exponents are checked with convergents of continued fractions evaluated by the kernel; instance of the abstract `repr` and `float` of C78 |
| C94 | decisions after rounding | `<=` of single precision numbers; the specification compares the exact rationals in the texts of a LightGBM model and of a dataset, the model is the text readers of C72 and C09 with the numbers of C92 and C93 |
| C95 | scores of files with rounding errors | the scorer run on `Decimal.Single` with every order of summation (`SumTree`); the specification `fileScore` is the exact sum over the exact numbers of the two texts, and the bound uses the standard model of C91 |
| C96 | NDCG in floating point | float32 labels, float64 discounts, quotients and pairwise sum, float32 ideal score, float64 quotient, float32 result; `log2` and `exp2` of numpy are any functions with the stated accuracy; the specification is the real NDCG of C16 |
| C97 | quotients of counts in floating point | Precision, PrecisionMax, Recall, MRR and MAP with float64 quotients and sums, stored as float32; the specification is the nearest float32 number of the exact value (`NearestSingle`), and the exact values are those of C14, C15, C22 and C23 |
| C98 | ERR, Pfound and RBP in floating point | the loops of ERR and Pfound and the pairwise sum of RBP in float64, stored as float32; powers of 2 are exact, powers of p are off by at most 2^-52; the exact values are those of C19, C20 and C21 |
| C99 | MSE and RMSE in floating point | differences, products and pairwise sums in float32 with overflow; the division by the number of rows is in float64 and stored as float32; the exact values are those of C24 and C25 |
| C100 | load_dataset succeeds and can be repeated | the file system and servers of C59 and C60; liveness for a process that is never killed, and the state after a call that ended normally |
| C101 | randomization test in floating point | float32 sums and means (`Binary32`), division by the Python float `N` in float64 (numpy 1.x: a float32 scalar and a Python float give float64), infinity and NaN are one value; the exact test is that of C49 |
| C102 | catalogue of datasets | the entries written by the script as `Entry` values, the file system and servers of C59/C60; the description texts are left out, the catalogue on the server is assumed to be the one the script writes |
| C103 | from text files to NDCG | the composition of the loaders (C94), the scorer with rounding errors (C95), NDCG in floating point (C96) and the mean (C91); the specification is the NDCG (C80) of the documents with their exact labels and exact scores; `sort` is any argsort of the finite predictions |
| C104 | text of the DOT file | `Model/DotText`: labels of both kinds, colours, rank groups, head and errors, on top of the statements of C65-C67; the specification is a small reader of the DOT language (tokens, quoted and HTML labels, attributes, statements) that knows nothing of the writer; printing of numbers and the colour map are parameters |
| C105 | scoring from several threads | `Model/ScoreThreads`: a call is a sequence of steps, each one access to the dictionary or to an attribute of a scorer; scorers are cells of a heap; a schedule is any list of steps and `clear_cache`; an interrupted call is one that gets no further step. Kernels and operations on whole arrays are one step each. Invariant over all schedules: each scorer is finished or computed by exactly one call at a known stage |
| C106 | feature ids in any order | the loader of C09 on rows without the condition on ids; the columns are specified as the least increasing ones not left of the ids |
| C107 | metric objects used by several threads | `Model/MetricThreads`: a call is a sequence of steps, each one access to the attribute `detailed_scores` or to an array of a heap; any schedule, any number of objects, exceptions from outside. Invariant for a call that is apart from the others on its object |
| C108 | an NDCG object used by several threads | `Model/NdcgThreads`: steps on the current dataset, the cursor, the dictionary (which inserts 0 for missing keys) and the arrays. Invariant over histories without overlap; composition with the sequential model of C17 |
| C109 | predictions that are NaN | `Model/NanScores`: predictions in `WithTop S` with NaN as the greatest element, which is numpy's sorting contract; the rank metrics are those of `Model/Metrics` at this order, MSE and RMSE are written out with NaN arithmetic |
| C110 | numbers in exported scikit-learn models | `Model/ExportNumbers`: `%f` and `%.12g` on exact rationals, as the printer of `exportText` (C71); reading is `pyFloat` and the rounding to single precision of C91; `Spec/ExportNumbers` has scikit-learn's test |
| C111 | files and streams of SVMlight data | `Model/SvmlightStreams`: a world of files, descriptors, file objects and a device that may be full; actions return a result or an exception together with the world after it; compression is a parameter with a contract; parsing and row texts are those of C09, C73 and C11 |
| C112 | any number of trees asked for | `Model/PruneAny`: `_prune_model` with Python's negative indices and slices on arrays whose number of trees is an integer; scoring and statistics of the result; the arrays after the cut are those of a prefix of the forest |
| C113 | trees of any depth | `Model/Recursion`: the recursive functions with the number of calls that can still be nested as argument; each element of a document nests as many calls as its depth, compared with the heights of the specification trees |
| C114 | plots show each value under its own name | `Model/PlotLabels`: `sel` as a look-up by comparison of labels which keeps an axis when it finds several positions; figures as subplots of named, coloured curves or bars; the loops of the six functions are compared with a grid of curves given by positions |
| C115 | parts of a dataset give the values of the whole | `Model/Parts`: score, then evaluate. The rows of a part are a selection by the ids of `get_qids_dataset`, which are contiguous for every dataset; the queries of a part are the filtered queries of the whole; scores and metric values go row by row and query by query; averages by permutation of the values |
| C116 | order of rows and names of queries | scores go row by row; the labels and scores of a query in the two datasets are permutations of each other, and a ranking with ties between equal labels only is unique; a renamed dataset has the same order of first occurrences, so `Built.ext` gives its ids and boundaries, and the loop of `Metric.eval` does not read the ids |
| C117 | sessions | each step computes, from every state that satisfies the invariant (cache entries are results of uncached scoring, ideal values belong to their datasets), a result that depends only on the objects without caches, and keeps the invariant; loops over datasets, models and metrics are then folds of pure steps, which are those of `Stat.modelPerformance` and `Stat.significance` |
| C118 | analyses with loops | each analysis computes a fold of pure steps that depends only on the objects without caches (`Computes`); steps that write one cell are lenses, and nested loops of lenses on arrays of initial values are the nested lists of cells (`Lemmas/Fill.lean`); the running scores of tree-wise performance are the prefix sums (`scanFold`), and the running minimum and maximum are independent of the array (`pairFold`) |
| C119 | statistics of tree heights, sums of the matrix | `Model/TopologyResult`: the formulas of `describe` on the heights of C44; the specification uses squared differences of all pairs for the variance and determines every field (`Statistics.unique`), so order independence follows; Pearson's inequality from a sum of squares; sums over rows by splitting positions at the root |
| C120 | fractions of trees in floating point | `Model/TopologyFloat`: float32 counts, `astype(float64)` and the product with the rounded reciprocal, on exact rationals (`double` of C92); bounds from the relative error, the upper bound 1 from the tie at 1 + 2^-53 |
| C121 | file of a drawing after any call | `Model/DotFile`: what has been written when an exception is raised, as a monad of text and result with a number of frames; relation to `exportText` of C104 by induction on the tree, and for any arrays by a relation `Cut` between runs with different limits |
| C122 | file of an exported scikit-learn model after any call | `Model/SkFile`: the text written when an exception is raised, with the monad of C121; relation to `exportText` of C71 by induction on the tree and the list of trees; for any model by `Cut` between runs with different limits, and an invariant that the text ends with a line end |
| C123 | dumps that have been cut off | the loop of C38 and C40 on any lines: an invariant on the lengths of the arrays and the queue; the number of expected children and of nodes before a tree are defined on the lines; dumps satisfy the condition at each place; for exports with the file of C122 and the text of C71 |
| C124 | LightGBM models that have been cut off | the loop of C41 with arrays of any lengths: each line of a tree succeeds if there is room; every beginning of the lines of a model consists of complete trees and perhaps the beginning of another one; what _count_nodes counts leaves room for it; the scores by comparison with the complete file, and C34; for earlier cuts by walking through the complete trees and stopping at the root of the last one |

## 4. Trusted base

* Lean 4.33.0's kernel, and at most the axioms `propext`, `Classical.choice`,
  `Quot.sound` (no `sorry`, no own axioms, no `native_decide`/`bv_decide`).
* The reading of the Python, Cython and C++ code into Lean definitions: there
  is no mechanical extraction. Each definition cites the lines it models.
* The contracts assumed for libraries, stated with the definitions that use
  them. The ones a reader should know:
  * numpy 1: storing an int in an int16/int32 array wraps, `np.bool` exists,
    `repr` of a float32 is the plain shortest numeral, comparing arrays of
    different lengths gives a plain `bool`.
  * `np.argsort` returns some permutation that sorts; nothing about ties.
  * `np.unique` returns sorted distinct values with first positions.
  * `std::copy` on overlapping float ranges behaves as `memmove`
    (`C09_copy_overlap` shows the result is wrong if it does not).
  * Comparing a list of strings with a `np.str_` is not elementwise;
    `np.unique` of ragged label vectors raises `ValueError`.
  * Python dictionaries find an entry iff hashes are equal and the keys are
    identical or `==`.
  * Threads see sequentially consistent memory (C32).
  * Reading and printing decimal numerals is a parameter, except in C12 where
    it is "any number nearest to the exact value".

## 5. Not modelled

* The drawing of plots by matplotlib (C75-C77 model what is handed to it),
  console output, `xarray` containers (results are nested lists), progress
  bars except where they raise.
* `scipy`'s algorithms for Kendall and Spearman (C62 models the documented
  result, and that `initial_lexsort` is accepted), gzip/bz2 decompression,
  the XML and JSON tokenizers of the jforests and CatBoost loaders
  (files enter as events or records). XGBoost, scikit-learn, LightGBM and
  QuickRank files enter as text in C71, C72 and C78. The XML reader of C78
  knows elements, attributes in double quotes and the predefined entities;
  it has no comments, processing instructions, CDATA sections, character
  references or namespaces, and no encodings.
* Floating point rounding outside C12, C17 (rounding of cached ideals), C33,
  C39, C79, C91-C99, C101, C103, C110 and C120. Theorems over arbitrary operations (C13, C29-C35, C37-C43) cover
  it. In C79 infinities and NaN are one value, there is one zero, and a product
  followed by a sum is two roundings (no fused multiply-add).
* Python's recursion limit outside `height_trees` and QuickRank saving (C113), drawings (C121) and exports to files of scikit-learn (C122).
* Wrap-around of counters that need files with 2^31 rows or nodes; the 16 bit
  split counters of the feature importance.
* Downloader: paths with `..` or links, permissions, concurrent processes;
  `rmtree` is one step; the catalogue is an argument.

## 6. Disagreements between code and documented behaviour

Each has a theorem about the model with a concrete witness, and a `_partial`
theorem that says what does hold.

| id | what happens | theorem |
|----|--------------|---------|
| C02 | rows of a query that are not contiguous are silently given to other queries | `C02_violated`, `C02_iff_contiguous` |
| C06 | when the sizes leave no test query, `[-0:]` makes the test set the whole dataset | `C06_violated`, `C06_violated_by_rounding`, `C06_test_is_everything` |
| C06 | negative query ids become large numbers in the `uint32` array of `split`, so that their rows are in no part | `C06_violated_negative` |
| C07 | two folds give an empty training set; more folds than queries give empty parts | `C07_two_folds_empty_train`, `C07_too_many_folds_empty` |
| C08 | `==` ignores the boundaries of queries and broadcasts one-row datasets; equal datasets can have different hashes | `C08_violated`, `C08_hash_violated` |
| C09 | a file whose first rows have no features loads shifted or fails | `C09_violated`, `C09_leading_empty` |
| C11 | the query id of a one-row dataset is not written | `C11_violated`, `C11_one_row` |
| C17 | NDCG on a dataset `==` to an earlier one uses the ideals of the earlier one | `C17_violated` |
| C18 | `eval_per_query` after any `eval` raises `IndexError` | `C18_violated` |
| C20 | `p_abandonment` is the probability of continuing | `C20_violated` |
| C23 | MAP is the default 1 when relevant documents exist but none is retrieved | `C23_violated` |
| C24 | `MSE.eval` stores the share of a query at the position given by its id | `C24_violated`, `C24_id_out_of_range` |
| C25 | RMSE is the root of the sum, not of the mean | `C25_rmse_not_mean` |
| C33 | an interrupted scoring leaves an empty scorer in the cache, later calls return `None`; a basic call after a detailed one may differ by rounding | `C33_violated`, `C33_violated_by_rounding` |
| C37 | saving loses learning rate and base score; a file without info section loses its first tree | `C37_violated`, `C37_no_info` |
| C39 | thresholds with `t - 1` rounding to `t` are not decremented | `C39_violated` |
| C42 | jforests trees with a single leaf raise `AttributeError` | `C42_violated` |
| C43 | CatBoost trees of different sizes are mixed up; 2^16 nodes wrap the count | `C43_violated`, `C43_count_wraps` |
| C44 | children stored before their parents are put at position 0; levels beyond 63 wrap | `C44_violated_child_first`, `C44_violated_deep` |
| C45 | fullness is 1 for levels that are not full | `C45_violated` |
| C46 | the counters of features have 16 bits: a feature tested 65536 times is reported with count 0 | `C46_violated_count` |
| C46, C47 | an unsigned comparison reads past the arrays, importances can be negative | `C46_violated`, `C47_violated_empty_left`, `C47_violated_single_leaf`, `C47_violated_cycle` (a node that is its own child: endless loop) |
| C48 | RMSE importance takes the root of the first feature only | `C48_violated` |
| C51 | k-fold scoring raises `UnboundLocalError` outside of notebooks | `C51_violated_outside_notebooks` |
| C53 | labels of points of smaller models are wrong; a large step is an `IndexError` | `C53_violated_labels`, `C53_violated_large_step` |
| C54 | bin labels are right edges only for ranges of length 1; NaN values spoil the range | `C54_violated_labels`, `C54_violated_nan` |
| C55 | string classes in a list select nothing; NaN values spoil the mean | `C55_violated_strings`, `C55_violated_nan` |
| C56 | ties depend on the order of documents, documents are paired with themselves, label values are used as positions, datasets of different sizes raise | `C56_violated_*` |
| C57 | datasets of different sizes and the documented `bins=None` raise | `C57_violated_lengths`, `C57_violated_no_bins` |
| C59 | an interrupted download is never repaired without `force_download` | `C59_violated_*` |
| C60 | `download_if_missing=False` can download; `force_download` without models deletes the models | `C60_violated_*` |
| C61 | improvements of a metric where higher is better count negatively; a single leaf tree counts for the last feature | `C61_violated_sign`, `C61_violated_single_leaf` |
| C64 | a metric that is NaN for one query has p-values 0 for any two models, even equal ones | `C64_violated_nan`, `C64_violated_same_model` |
| C66 | with `label='leaves'` percentages are relative to the fullest leaf | `C66_violated_percentage` |
| C67 | names for all features of the dataset are rejected, too short lists pass the check | `C67_violated` |
| C68 | `get_predicted_leaves` always raises; the partial scores include the weights | `C68_violated_leaves`, `C68_violated_weights` |
| C69 | features from 2^15 on are stored modulo 2^16: the check passes and the kernel reads out of bounds, or another feature is tested | `C69_violated_bounds`, `C69_violated_feature` |
| C71 | the dump of an XGBoost model with named features is loaded without its splits: every document gets the value of the first leaf | `C71_violated_names` (the splits skipped: `C71_named_splits`) |
| C71 | `export_scikit_model` writes the leaves of classifiers as `c1`, which the loader cannot read | `C71_violated_classes` |
| C72 | the importance of a feature named `threshold`, written at the end of a LightGBM file, is loaded as a threshold of the last tree | `C72_violated_importances` (in general: `C72_importances`) |
| C73 | the rows after a line that begins with NUL are dropped silently; a read error uses a null pointer; no line object is ever released; a failed allocation throws an exception object that no longer exists | `C73_violated_nul`, `C73_violated_read_error`, `C73_violated_leak`, `C73_violated_throw` |
| C74 | a matrix stored column by column is written scrambled (a square one transposed); importances of such a matrix or of a view are wrong or read outside of the buffer | `C74_violated_dump`, `C74_violated_importance`, `C74_violated_bounds` (in general: `C74_dump_columns`) |
| C76 | with fewer features than places (10 by default) no plot is drawn (one feature is drawn ten times); when no importance is positive the ticks are NaN | `C76_violated_few`, `C76_violated_one`, `C76_violated_step` |
| C77 | one undefined value and no bar plot is drawn, negative values are outside of the axis, a curve without defined values raises; the axes of the rank confusion matrix are exchanged, "at least twice" is "more than twice", one label raises | `C77_violated_nan`, `C77_violated_negative`, `C77_violated_marker`, `C77_violated_axes`, `C77_violated_twice`, `C77_violated_single` |
| C78 | with NumPy 2 (`numpy >= 1.13` in setup.py) `repr` writes `np.float32(2.0)`, and the saved file cannot be loaded | `C78_violated_numpy2` |
| C81 | `implementation`, `p`, `p_abandonment` and `no_relevant_results` are not in the name: two metrics called DCG give 2 and 3 on the same query | `C81_hidden`, `C81_violated_gain` |
| C81 | `Precision` and `PrecisionMax` are both called P | `C81_violated_max` |
| C81 | P[>2] counts labels equal to 2 | `C81_violated_sign` |
| C82 | `score` returns the arrays kept in the cache: a caller who changes them changes the scores all later callers get | `C82_violated_cached` |
| C82 | the hash of a dataset is computed once: after a change of `X` in place the scores of the old matrix are returned | `C82_violated_hash` |
| C83 | two blanks in a row, or a blank before or after the numbers of an element, make a jforests file unloadable | `C83_violated_blanks` |
| C83 | one tree without a split makes a jforests file unloadable (`AttributeError`) | `C83_violated_leaf` |
| C84 | files loaded together keep different numbers of columns, against the documentation; an empty list of files raises `StopIteration` | `C84_violated`, `C84_violated_none` |
| C85 | `super(self.__class__, self)` in NDCG, MSE and RMSE: no class derived from them can be constructed (`RecursionError`) | `C85_violated`, `C85_violated_eval` |
| C86 | the directions for features that are not given (`missing=`) are not read; such features count as 0 | `C86_violated`, `C86_directions_ignored` |
| C87 | without coremltools every CatBoost file opens as a model without trees, the error comes with the first use | `C87_violated` |
| C89 | bias_variance takes 1 as the ideal value of every metric but MSE: with RMSE an exact learner gets error 1 on every dataset and one that is off by 1 gets 0; DCG, Precision likewise | `C89_violated_rmse`, `C89_violated_worse`, `C89_violated_dcg` |
| C92 | positive infinity becomes the largest finite number in a dump and load while negative infinity stays; a NaN or infinite label makes the dumped file unreadable; features are rounded twice (double, then single), so a text can be read as a number that is not the nearest, unlike the same text as a label | `C92_violated_inf`, `C92_violated_label`, `C92_violated_double` |
| C93 | a threshold, output or weight 7.038531e-26 (or its negative) is changed to the next number by saving and loading: its shortest text is rounded twice, to double and then to single precision; it is the only number for which this happens. With NumPy 1.13, which setup.py admits, eight digits are written and many numbers are changed | `C93_violated`, `C93_violated_numpy113`, exactly which: `C93_repr` |
| C94 | the value 0.1000000001 goes left at the threshold 0.1, since both become the same single precision number; LightGBM and scikit-learn compare in double precision for thresholds. Exactly these values are treated wrongly (`C94_decision`), and none with two single precision numbers between threshold and value (`C94_between`) | `C94_violated` |
| C95 | trees with the values 3e38, 3e38, -3e38, -3e38 have the exact score 0 and the prediction inf, in another order of the trees 0; the leaves inf and -inf give NaN | `C95_violated` |
| C96 | four documents with label 1: every ranking is ideal, but the stored NDCG is 0.99999994 (1 - 2^-24) because the ideal score is rounded to single precision (ndcg.py 88) and the score is not. The stored value of an ideal ranking is always one of these two numbers (`C96_ideal_partial`) | `C96_violated` |
| C97 | 4999 of 5000 and 5000 of 5001 relevant documents: the second query has the larger precision, but both are stored as the same float32 number | `C97_violated` |
| C98 | of two rankings of 27 documents one has the larger RBP with p = 1/2, but both are stored as 1 | `C98_violated` |
| C99 | a prediction of 2^-76 for the label 0 has the squared error 0; the squared error of two predictions overflows although their mean is a float32 number | `C99_violated_underflow`, `C99_violated_overflow` |
| C101 | scores 1, 0, 0 against 0, 0, 0: both p-values are 0 for all subsets, the exact two-sided p-value is 1 | `C101_violated` |
| C102 | istella-full: the validation file is called `None` (a string), so that loading fails unless the archive has a file of that name | `C102_violated` |
| C102 | msn10k and msn30k without a fold: the files are expected outside the folders of the folds | `C102_violated_fold` |
| C103 | values 0.1000000001 and 0.1 on both sides of the threshold 0.1 get the same prediction, so the documents may be swapped: NDCG@1 is 0 instead of 1. The bound is proved for documents whose scores are equal or further apart than their errors (`C103_ndcg_partial`) | `C103_violated` |
| C104 | a feature name with a quote (or with `<` if `special_characters` is set) is written as it is, and the file cannot be read; if all leaves of a tree have the same output, the position of the colour is 0/0. Proved for names without such characters (`C104_text_partial`, `C104_counts_partial`) | `C104_violated` |
| C105 | a call with `cache=True` puts its scorer into the cache before it has scored and before the learning rate and base score are applied; other threads (and all later calls, if this one is interrupted) get `None`, or scores without the learning rate, or right predictions with wrong partial scores; `clear_cache` between two steps gives `KeyError`. Proved for calls not overlapping with a caching call on an equal dataset (`C105_alone_partial`), for calls that compute themselves (`C105_computing`), and that the cache is right once all calls have returned (`C105_settles`) | `C105_violated_none`, `C105_violated_raw`, `C105_violated_half`, `C105_violated_replaced`, `C105_violated_clear` |
| C106 | feature ids that are repeated, decreasing, or counted from zero with gaps are accepted, and the values are loaded as other features, always to the right of their own column (ids from 1) or one column short of it (ids from 0) | `C106_violated`, `C106_least`, `C106_zero_based` |
| C107 | `eval` fills `self.detailed_scores`, read again for each query: overlapping calls on one object lose scores, raise IndexError, average another array, or change the array of a call that has already returned. Proved for calls that do not overlap on their object (`C107_apart_partial`, `C107_mse_partial`), with what can be in the arrays at all (`C107_any`) | `C107_violated_mean`, `C107_violated_later`, `C107_violated_error` |
| C108 | `NDCG.eval` keeps dataset and query number in attributes and stores ideal scores under `self._current_dataset`: overlapping calls divide by ideal scores of other queries, and may store the ideal scores of one dataset for another one for good; after an interrupted `eval`, `eval_per_query` makes the `defaultdict` insert 0, and `eval` on that dataset raises TypeError from then on | `C108_violated_cursor`, `C108_violated_poisoned`, `C108_violated_default`, `C108_violated_query` |
| C109 | `np.argsort(y_pred)[::-1]` puts NaN first: a model without a prediction for a document ranks it on top (Precision@1 = 1 for labels 1, 0 and predictions NaN, 5). `np.nanmean` drops the queries on which RMSE is NaN, so a model that predicts NaN for its worst queries has a better RMSE. Proved: the exact behaviour (`C109_first`, `C109_as_largest`, `C109_rmse_eval`) | `C109_violated`, `C109_rmse_violated` |
| C110 | `%f` keeps six decimals: the threshold 2^-22 is written as 0.000000 and a document with 2^-23 changes its leaf; a learning rate below 5e-7 is written as 0.000000 and all documents get the base score. Proved: the text is the nearest multiple of 10^-6 (`C110_text`), and values that are clear of the thresholds reach the same leaf (`C110_decision`, `C110_scores_partial`) | `C110_violated`, `C110_violated_rate` |
| C111 | opening for writing empties the file before the first row is written, so a dump that fails has destroyed what was there; a file object or descriptor that was loaded is at its end, and loading it again is reported as `ZeroDivisionError`; a damaged .gz file, a file object in text mode and a closed one are read through a null or wrong pointer. Proved: everything is closed and nothing else is (`C111_load_closes`, `C111_dump_closes`, `C111_files_close`), `C111_roundtrip`, `C111_files` | `C111_violated_truncated`, `C111_violated_twice`, `C111_violated_descriptor`, `C111_violated_damaged`, `C111_violated_text` |
| C112 | `copy(n_trees=-1)` cuts the arrays to all trees but the last and sets the number of trees to -1; the scoring loops over no tree, so every document gets the base score, without an error. Proved: first n trees for n >= 0 (`C112_nonneg_partial`), `IndexError` below minus the number of trees (`C112_below`), no scoring at all when no tree is left (`C112_no_tree_left`), and that such a copy cannot be repaired by copying (`C112_copy_again`) | `C112_violated`, `C112_negative_scores` |
| C113 | for every limit on nested calls there is a loadable model for which `height_trees` and `save` raise `RecursionError`; `save` opens the file before `tostring` runs into the limit, so the old file is lost. Proved: the exact number of nested calls needed (`C113_height`, `C113_save`) | `C113_violated`, `C113_file_lost` |
| C114 | a table with two datasets that compare equal (`Dataset.__eq__` compares contents) cannot be plotted: `sel` finds both and the arrays do not fit. `plot_query_wise_performance` writes no model name anywhere when metrics are compared and only the name of the last metric when models are compared; `plot_query_class_performance` names a figure of all models after the last one; a model called `_x` has no entry in the legend | `C114_violated_equal`, `C114_violated_models`, `C114_violated_metrics`, `C114_violated_classes`, `C114_violated_hidden` |
| C115 | `MSE.eval` of a part gives other values than the whole or raises `IndexError`; a query id that does not fit into int32 is found by `subset` only under another id | `C115_violated_mse`, `C115_violated_ids` |
| C116 | documents with equal scores and different labels are ranked by their position in the file, for every `np.argsort`; moving a row of a scattered query changes values; `MSE.eval` works for ids 0 and 1 and raises `IndexError` for the same queries named 1 and 2 | `C116_violated_ties`, `C116_violated_scattered`, `C116_violated_names_mse` |
| C117 | `model_performance` gives another table after `score(detailed=True, cache=True)`, even if it is itself called without cache, because a cached detailed scorer is used for basic calls and its sums may be rounded otherwise; after an interrupted cached score call it raises | `C117_violated_by_rounding`, `C117_violated_interrupted` |
| C118 | `tree_wise_average_contribution` (or `tree_wise_performance`) with `cache=True` changes later tables of `model_performance` when detailed sums are rounded otherwise | `C118_violated_by_rounding` |
| C119 | a model with one tree: the variance of the heights divides by 0 and is NaN | `C119_violated_single` |
| C120 | `avg_tree_shape` of a model with 49 trees gives the root, which all trees have, the fraction 1 - 2^-53 | `C120_violated` |
| C121 | `export_graphviz` opens the file before it checks its arguments: a negative precision, too many names or a wrong tree id leave an empty file; trees that are too deep and missing names leave a part of the drawing | `C121_emptied`, `C121_violated`, `C121_violated_names` |
| C122 | `export_scikit_model` writes while it recurses: with a tree that is too deep, or an element that is not a tree, it raises and leaves a file of whole lines that `load` accepts as another model | `C122_violated`, `C122_violated_types` |
| C123 | incomplete dumps of XGBoost and scikit-learn are loaded without an error: nothing checks at the end of the file that no child is expected; a split without children becomes a leaf whose score is its threshold | `C123_cut`, `C123_cut_scikit_partial`, `C123_export_partial`, `C123_violated` |
| C124 | incomplete LightGBM models are loaded without an error: nothing checks that a tree is complete; a tree without its line `shrinkage=` keeps weight 0, so that its scores are ignored | `C124_cut`, `C124_text_partial`, `C124_unfinished`, `C124_scores_partial`, `C124_scores_early_partial`, `C124_violated` |

## 7. Testing the theorems

`seeded/LOG.jsonl` lists wrong programs: one edit of a model definition each,
made in a copy outside of this directory, with the theorems whose proofs (or
the lemmas they depend on) no longer compile. Where the claim of a theorem was
false of the edited program and the theorem still compiled, the theorem was
tightened and the line says so.
