{
 "C01": {
  "note": "Model of Dataset.__init__; holds for every id array of the right length."
 },
 "C02": {
  "note": "Holds exactly for id arrays with contiguous queries (C02_iff_contiguous); the code accepts others, witness in C02_violated."
 },
 "C03": {
  "note": "For contiguous ids in int32 range where the per-row ids are concerned; np.empty content arbitrary."
 },
 "C04": {
  "note": "For datasets with contiguous int32 ids."
 },
 "C05": {
  "note": "All feature lists in range (C05_subset_features); negative positions count from the end (C05_negative); others are an IndexError (C05_out_of_range)."
 },
 "C06": {
  "note": "Proved when the rounded sizes leave a test query; C06_test_is_everything, C06_violated and C06_violated_by_rounding show the remaining cases are false. Negative query ids are in no part (C06_violated_negative); ids from 2^31 to 2^32 keep their documents and labels (C06_large_ids)."
 },
 "C07": {
  "note": "Proved for 3 <= k <= n_queries; two folds give an empty training set and more folds than queries give empty folds."
 },
 "C08": {
  "note": "== compares rows, labels and distinct ids (C08_eq_partial); boundaries are ignored and one-row arrays are broadcast (C08_violated); equal floats with different bytes hash differently (C08_hash_violated)."
 },
 "C13": {
  "note": "Any metric, any rounding of stored values; contiguous ids."
 },
 "C14": {
  "note": "Any argsort; exact arithmetic over an ordered field."
 },
 "C15": {
  "note": "Any argsort; exact arithmetic over an ordered field."
 },
 "C16": {
  "note": "Reals, fresh NDCG object. Rounding of the cached ideal DCG to float32 is treated separately."
 },
 "C17": {
  "note": "All histories, when datasets identified by the cache have equal boundaries; C17_violated is a concrete history where the stale ideal is used."
 },
 "C18": {
  "note": "Correct while only eval_per_query was called; after every eval it raises IndexError (C18_violated)."
 },
 "C19": {
  "note": "Reals."
 },
 "C20": {
  "note": "Formula, bounds and optimality proved. The documented meaning of p_abandonment is violated (C20_violated)."
 },
 "C21": {
  "note": "Exact arithmetic over an ordered field."
 },
 "C22": {
  "note": "Exact arithmetic over an ordered field."
 },
 "C23": {
  "note": "All but the last part: with relevant documents of which none is retrieved the default 1 is returned (C23_violated)."
 },
 "C24": {
  "note": "Proved for query ids 0..n-1 in any order; other ids raise IndexError or are misplaced."
 },
 "C25": {
  "note": "Reals. C25_rmse_not_mean: root of the sum, not of the mean, unless one document or exact predictions."
 },
 "C26": {
  "note": "All ten rank metrics of evalMetric."
 },
 "C27": {
  "note": "All ten rank metrics for large cutoffs and for the order below the cutoff; Precision, DCG, RBP and MRR for arbitrary labels below the cutoff (recall depends on them, C27_recall_below_cutoff)."
 },
 "C28": {
  "note": "Also PrecisionMax. MAP needs a relevant document retrieved before the exchange or a default of at most 0: C28_map_excluded is the counterexample otherwise."
 },
 "C29": {
  "note": "Arbitrary float operations, so rounding and NaN are covered; the weighted-sum form is for exact numbers."
 },
 "C30": {
  "note": "Arbitrary float operations; equality of the two predictions needs that numpy's row sum equals the left-to-right sum (true for exact numbers)."
 },
 "C31": {
  "note": "Every read of the unchecked kernels is in bounds when the ensemble represents a forest and the feature check passed."
 },
 "C34": {
  "status": "proved",
  "note": "Any float operations for the scores; exact numbers for the row sums of the partial scores."
 },
 "C35": {
  "note": "All forests and all numbers of trees."
 },
 "C36": {
  "note": "All forests."
 },
 "C32": {
  "note": "Every interleaving of the atomic steps (reads and writes of the shared arrays) of the iterations; arbitrary float operations; sequentially consistent memory."
 },
 "C33": {
  "note": "All histories of score, clear_cache and copy on any number of models, except interrupted scoring (C33_violated). With rounding, a basic call after a cached detailed call returns the detailed prediction (C33_violated_by_rounding); equal for exact numbers."
 },
 "C38": {
  "note": "All trees, any node ids, other lines in between; features below 2^15 (int16 storage)."
 },
 "C39": {
  "note": "Proved for |t| up to 2^24 and whenever the gap below t is under 2; false for larger thresholds, witness 2^25 in C39_violated."
 },
 "C40": {
  "note": "All trees with ids 0..n-1 in any order, root first; also for files written by export_scikit_model, up to the rounding of the printed numbers."
 },
 "C41": {
  "note": "All trees and numberings, other lines in between; features below 2^15 (int16 storage)."
 },
 "C42": {
  "note": "All trees with a split; a tree with a single leaf has an empty SplitFeatures element and raises AttributeError (C42_violated)."
 },
 "C43": {
  "note": "Proved when all trees have the same number of nodes (at most 65535) and the root is numbered and listed last; false for trees of different sizes (C43_violated); depth 16 trees overflow the uint16 count (C43_count_wraps)."
 },
 "C37": {
  "note": "Trees, order, weights and (when learning rate and base score are passed again) all scores survive; learning rate and base score are lost on reload (C37_violated)."
 },
 "C09": {
  "note": "Proved from the text of the file on, with in-place re-layout; fails exactly when the file begins with rows without features (C09_leading_empty, C09_violated). Relies on std::copy being memmove (C09_copy_overlap)."
 },
 "C10": {
  "note": "Comment lines anywhere, comments at the end of a line, malformed lines anywhere; reading of floating point numbers is a parameter."
 },
 "C11": {
  "note": "Proved for two or more rows, both index bases, arrays and whole Dataset; one row always loses its query id (C11_one_row, C11_violated)."
 },
 "C12": {
  "note": "All finite float32, any tie rule in printing and reading; eight digits are shown not to suffice."
 },
 "C44": {
  "note": "Proved for ensembles storing parents before children (needed: C44_violated_child_first) and heights below 63 (needed: C44_violated_deep); counts as naturals instead of float32; the division in floating point is in C120."
 },
 "C45": {
  "note": "In [0,1]; equals 1 exactly if every position present in some tree is present in all, which is weaker than a full level (C45_violated)."
 },
 "C46": {
  "note": "Exact arithmetic. Proved when no visited node at position 0 sends all its documents right and no tree is a single leaf; otherwise importances can be negative (C46_violated)."
 },
 "C47": {
  "note": "Safe under the conditions of C46; an empty left part at position 0 or a single leaf tree leads outside the arrays (C47_violated_*), and a node that is its own child makes the loop endless (C47_violated_cycle)."
 },
 "C48": {
  "note": "The square root is applied to the first feature only: equality holds exactly if the other importances are 0 or 1; false for [4, 4]."
 },
 "C49": {
  "note": "P-values are exactly the fractions of random exchanges whose mean difference reaches the observed one; bounds and order for every result; (1,1) for equal vectors. Numbers are from an ordered field (no rounding). With no queries the means are NaN and both p-values are 0 (C49_no_queries)."
 },
 "C50": {
  "note": "Order independence for different means, factor two over all subsets (allSels has each subset once, C50_all_subsets). For equal means p2 = 1, while p1 can depend on the order (C50_equal_means_differ)."
 },
 "C51": {
  "note": "Violated outside of notebooks: _kfold_scoring closes a progress bar that was never created and raises UnboundLocalError after doing all the work (C51_violated_outside_notebooks). In a notebook the full statement holds (C51_no_leak_partial); the learner is any function that returns one score per row.",
  "status": "partial"
 },
 "C52": {
  "note": "Over an ordered field (no rounding): decomposition, sign and zero of the variance for every score matrix, and for bias_variance with MSE and with any metric."
 },
 "C53": {
  "note": "Evaluated on exactly the scores of the first k trees for the multiples of the step and for all trees (C53_prefixes_partial, C53_last), labelled with the numbers of trees when all models have the same number of trees (C53_labels_partial); step at most the number of trees. Violated: the last point of a smaller model beside a larger one gets the label of another number of trees (C53_violated_labels), and a step above the number of trees is an IndexError (C53_violated_large_step)."
 },
 "C54": {
  "note": "Query-wise curves are fractions of queries from the start of the range up to the right edges, with explicit labels, for every way of giving or not giving start, stop and bins (C54_curves_partial); a distribution function ending at 1 (C54_cdf, C54_ends_at_one). Violated: labels are the right edges only for ranges of length 1 (C54_labels, C54_violated_labels); NaN metric values (C54_violated_nan). With NaN values the exact curves are in C54_nan; datasets without queries raise (C54_no_queries)."
 },
 "C55": {
  "note": "Cells are means over the queries of the class and the weighted mean of the cells is the mean of the metric (C55_mean_partial, C55_weighted), when the classes compare elementwise. Violated for string classes given as a list and NaN values (C55_violated_strings, C55_violated_nan)."
 },
 "C56": {
  "note": "Cells for different labels count the pairs of the query with the first label lower, total and diagonal are given exactly (C56_pairs_partial, C56_total, C56_diagonal, C56_order), for labels 0..n-1 and no equal scores. Violated: ties depend on the order, documents paired with themselves, gaps between labels, negative labels, datasets of different lengths."
 },
 "C57": {
  "note": "Curves are fractions of documents of the label below the edges, with given or default range (C57_curves_partial, C57_ends_at_one), when datasets have the same number of documents and bins is given. Violated otherwise (C57_violated_lengths, C57_violated_no_bins). NaN scores are in no bin (C57_nan); datasets without documents raise (C57_no_documents)."
 },
 "C58": {
  "note": "The contribution is the mean absolute partial score per tree, NaN for trees a shorter model does not have, zero exactly for trees that give 0 to every document; the contributions add up to at least the mean absolute score. Exact numbers."
 },
 "C59": {
  "note": "Violated: the directory is created before the download and its existence is taken as completion. No sequence of calls without force_download repairs it (C59_violated_never_retried, for every catalogue entry, server and kill point); concrete kills give missing files, a truncated training set returned as if complete, or a failure after one server error. Holds with force_download (C59_forced_partial)."
 },
 "C60": {
  "note": "Proved: missing or forced resources are downloaded, the directory is then exactly the archive and the data returned are its files (C60_fresh, C60_fresh_models), one request per resource (C60_requests), existing data untouched (C60_untouched*). Violated: download_if_missing=False can download, force_download without models deletes the models, a catalogue entry without models loses the data before KeyError.",
  "status": "partial"
 },
 "C61": {
  "note": "Exact arithmetic, the metric is any function of the scores. Proved for forests without single leaf trees (C61_importance_partial); agrees with the efficient implementation for MSE. Violated: improvements of higher-is-better metrics count negatively (C61_violated_sign), and a single leaf tree counts for the last feature (C61_violated_single_leaf)."
 },
 "C62": {
  "note": "Model is scipy's documented result (tau-b, Pearson correlation of average ranks) over exact reals; assumes scipy accepts initial_lexsort and returns NaN for constant input."
 },
 "C63": {
  "note": "The loops with array writes of the three analyses, for arbitrary scoring and metrics; the conversion of a cell to float32 is the parameter store. xarray's labels are the coordinate lists themselves."
 },
 "C64": {
  "note": "Violated: one NaN in the values of a query makes both p-values 0 (all comparisons with NaN are false), i.e. the strongest significance, also for a model compared with itself. Without NaN the p-values are those of C49 and C50."
 },
 "C65": {
  "note": "The output is modelled as a list of statements with structured labels (fonts, colours and rank groups left out). Node ids are those of the arrays."
 },
 "C66": {
  "note": "Proved for label='all'. Violated for label='leaves': the counts are right but the percentages are relative to the fullest leaf, not to the number of documents."
 },
 "C67": {
  "note": "Violated: the check has the wrong direction, longer lists (e.g. all features of the dataset) are rejected and shorter ones pass and raise IndexError while drawing. Proved for lists that end with the largest feature used."
 },
 "C68": {
  "note": "Violated: get_predicted_leaves reads self.self and raises AttributeError in every state; the documentation of the partial scores says they exclude the weights, the kernel multiplies them in. Proved over exact numbers for arbitrary sequences of the other calls, with at most two kernel runs."
 },
 "C69": {
  "note": "Composition of the loading theorems (C37-C43) with scoring (C31, C34) for all six formats, features below 2^15. XGBoost for arbitrary float operations (its tests are strict), learning rate 1 and a base score that is not 0; the others with exact numbers. Violated above: feature 40000 is stored as -25536, passes the feature check for every dataset and is read outside of the matrix; feature 65537 becomes feature 1. The wrap-around is that of numpy 1, numpy 2 raises OverflowError instead."
 },
 "C70": {
  "note": "All six formats; features below 2^15, trees of height below 63 (C44). For scikit-learn, LightGBM, jforests and CatBoost the nodes of the file must be numbered in the direction in which these libraries number them; C70_numbering_needed shows that this is needed."
 },
 "C71": {
  "note": "Text level of C38/C40. float and printing are parameters; features below 2^15; named features and several outputs violate the property."
 },
 "C72": {
  "note": "Text level of C41. float is a parameter; features below 2^15; a feature named like a key violates the property."
 },
 "C73": {
  "note": "Proved for files without NUL and streams without errors; ownership for every pattern of failing allocations. Violated by NUL bytes, read errors, references to lines that are never released, and a dangling exception."
 },
 "C74": {
  "note": "Proved for arrays whose rows are at least as far apart as the columns (dump) and for arrays stored row by row (importances); the general formula of what is written otherwise is C74_dump_columns. Violated for other layouts."
 },
 "C75": {
  "note": "Proved for every forest analysed (C44) and every maximum level. The drawing itself (matplotlib) is not modelled."
 },
 "C76": {
  "note": "Proved for at least as many features as places and for all features; ticks for positive steps. Violated otherwise."
 },
 "C77": {
  "note": "Proved: bars, names, limits for defined values that are not negative, markers of curves with a defined value, the logarithmic scale. Violated: undefined and negative values, axes, scale."
 },
 "C78": {
  "note": "Texts of numbers (repr, float) are parameters with the hypothesis PrintsNumbers: what repr writes is read back, true of NumPy 1. The XML reader covers what ElementTree writes (elements, attributes in double quotes, predefined entities); comments, processing instructions, CDATA, character references and encodings are left out. C78_violated_numpy2 shows that with NumPy 2 a saved file cannot be loaded."
 },
 "C79": {
  "note": "Bound for every rounded arithmetic that meets the standard model, and binary32 shown to meet it; predictions are proved finite when the sizes of outputs and weights leave room (C79_finite), with a witness for the overflow otherwise. Infinities and NaN are one value, the two zeros are one, no fused multiply-add; learning rate and base score are taken as already converted to float32."
 },
 "C80": {
  "note": "Exact arithmetic; data files with contiguous queries whose first row has a feature (C02 and C09 are violated otherwise), feature numbers below 2^15."
 },
 "C81": {
  "note": "Names identify classes, cutoffs and thresholds except PrecisionMax; arguments that are not shown collide (C81_hidden)."
 },
 "C82": {
  "note": "Memory model of score, Dataset and the scorer cache. Proved: overwriting arrays the library does not hold never changes later results; uncached calls on empty caches return private arrays; careful callers always get the right scores. Violated when a caller writes to cached predictions or to the matrix of a hashed dataset. Labels, query ids and model arrays are values, copy is left out."
 },
 "C83": {
  "note": "Any text whose events spell weighted trees (numbers separated by single blanks, other white space around a number allowed) loads to exactly these trees; cut-off files give ParseError. Missing: layouts with loose blanks and single-leaf trees, proved to be refused. Number conversion is a parameter; comments, CDATA and declarations are left out of the XML parser."
 },
 "C84": {
  "note": "Concatenation of what the files denote (C09 for each file), first error wins. The promised equal number of columns holds iff the largest feature numbers agree (C84_violated)."
 },
 "C85": {
  "note": "Proved for classes derived in any number of steps from the eleven classes that name themselves in super. NDCG, MSE and RMSE pass self.__class__ to super: every class derived from them raises RecursionError on construction, whatever the limit (C85_violated), and for NDCG and RMSE eval does so too (C85_violated_eval). Single inheritance only.",
  "status": "partial"
 },
 "C86": {
  "note": "From the text of the dump and the rows of the data file to the scores, for arbitrary float operations for which the conversion of thresholds is right (C39), learning rate 1 and a base score other than 0. Proved when the directions agree with the value 0 at the tests reached; violated otherwise, the loader ignores missing= (C86_directions_ignored).",
  "status": "partial"
 },
 "C87": {
  "note": "All names and files. Violated for CatBoost when coremltools is not installed: a message is logged and an object without trees is returned. Only QuickRank can be saved.",
  "status": "partial"
 },
 "C88": {
  "note": "Exact arithmetic, labels not negative (only needed for MAP), data files as in C80 (C02, C09), any model whose arrays represent a forest; NDCG.eval itself is C80 because of its cache.",
  "status": "partial"
 },
 "C89": {
  "note": "Proved for MSE and NDCG, and for all ranking metrics as an equivalence: the error is the mean of (value - 1)^2 and vanishes exactly if the metric is 1 for every query. Violated for RMSE on every dataset, for DCG, and a wrong learner gets error 0. In a notebook only (C51).",
  "status": "partial"
 },
 "C90": {
  "note": "The generator is a parameter (any state machine); all programs of split, kfold, seed and new RandomState.",
  "status": "proved"
 },
 "C91": {
  "note": "Numpy adds the first number of a block to 0 in the model (no effect on the value except the sign of zero). eval_per_query is a parameter with a given error; the double precision errors inside each metric are not bounded.",
  "status": "proved"
 },
 "C92": {
  "note": "Printing with 9 digits and reading are modelled on characters and exact rationals; C92_text, C92_label and C92_value hold for all finite numbers and all decimal texts, and instantiate the abstract scanner of C09-C11 and C67. Violated: +inf features, NaN or infinite labels, double rounding of features. Not modelled: hexadecimal numbers, locales.",
  "status": "partial"
 },
 "C93": {
  "note": "C93_repr says exactly which single precision numbers survive repr and float (all but 7.038531e-26, its negative, and the sign of NaN); C93_model_partial lifts it to whole saved and loaded models; missing only what is false: C93_violated gives the model with threshold 7.038531e-26 that changes, C93_violated_numpy113 the changes with NumPy 1.13",
  "status": "partial"
 },
 "C94": {
  "note": "Proved: exactly when the decision differs from the exact one (C94_decision), that it cannot differ when two single precision numbers lie between (C94_between), and the scores of text files of model and data when no value is rounded to the threshold below it (C94_scores_partial). Missing: values just above a threshold, where the claim is false (C94_violated); numbers too large for single precision.",
  "status": "partial"
 },
 "C95": {
  "note": "Proved: error bound of the predictions from the texts of a LightGBM model and a dataset, with all rounding steps (decimal to double to single, products with weights and learning rate, sums in any order) and without overflow (C95_error_partial), and that documents further apart than both errors are ordered as by the exact scores (C95_order_partial). Missing: values that are rounded to the threshold below them, where the wrong leaf is reached (C94_violated); more than 2^20 trees; sums above 2^125, where the claim is false (C95_violated: exact score 0, prediction inf); other model formats. C95_cancellation shows that the bound cannot refer to the exact score alone.",
  "status": "partial"
 },
 "C96": {
  "note": "Proved: relative error 2^-23 of the computed NDCG before storing (C96_error), error of the average of eval (C96_eval), and that the stored value of an ideal ranking is 1 or 1 - 2^-24 (C96_ideal_partial). Missing: that it is 1, which is false (C96_violated); labels that are not integers, or above 24; overflow. Unknown implementations raise (C96_unknown).",
  "status": "partial"
 },
 "C97": {
  "note": "Proved: stored Precision, PrecisionMax, Recall and MRR are nearest single precision numbers, 1 and 0 only in the perfect and the empty case (C97_precision, C97_precision_max, C97_recall, C97_mrr), larger precision is stored as a larger number if the product of the numbers of retrieved documents is below 2^24 (C97_order_partial), better ranks give larger MRR (C97_mrr_order), MAP within 2^-23 (C97_map) and exactly 1 for ideal rankings (C97_map_ideal). The order is lost for more documents, which is false of the code: C97_violated stores the same number for 4999/5000 and 5000/5001.",
  "status": "partial"
 },
 "C98": {
  "note": "float64 arithmetic with rational numbers. Proved: the stored values are in [0,1] and within 2^-24 of the exact ones. The claim that a better ranking has a larger stored value is false (C98_violated).",
  "status": "partial"
 },
 "C99": {
  "note": "C99_query, C99_rmse (relative error 2^-17, plus 2^-149 for each document), C99_exact and C99_finite for each query; C99_eval_partial for query ids 0..n-1 without cutoff (other ids: C24_violated). The claim without the absolute term is false because squares underflow (C99_violated_underflow), and large labels overflow (C99_violated_overflow).",
  "status": "partial"
 },
 "C100": {
  "note": "C100_succeeds (liveness), C100_again (later calls), C100_license, C100_in_the_way.",
  "status": "proved"
 },
 "C101": {
  "note": "Violated: for the scores 1, 0, 0 against 0, 0, 0 the computed p-values are 0 whatever the subsets, and the exact two-sided p-value is 1, because the difference of the models is rounded to float32 and the differences after the exchange are float64. Proved instead: the p-values are in range and ordered, equal scores give 1, exchanges that differ from the difference of the models by 2^-12 are counted rightly, and the test is exact if the number of queries is a power of two and all scores are multiples of a power of two.",
  "status": "partial"
 },
 "C102": {
  "note": "C102_keys and C102_urls: complete entries. C102_violated: istella-full names its validation file 'None'. C102_violated_fold: msn10k without a fold reads files that are only in the folders of the folds. C102_loads_partial: the other datasets load. Missing: istella-full, and msn10k/msn30k without a fold.",
  "status": "partial"
 },
 "C103": {
  "note": "The average of NDCG.eval is within (e+31)/2^23 of the mean of the exact NDCG of the numbers in the text files (C103_ndcg_partial), when documents of a query have equal scores or scores further apart than their errors and labels are naturals up to 24. Violated without that: documents with values on both sides of a threshold can be swapped (C103_violated).",
  "status": "partial"
 },
 "C104": {
  "note": "Proved for feature names without quotes and backslashes (without <, > and & with special_characters), for printers of numbers that use no such characters, and any colour map giving four bytes. With output leaves the bounds of the colours are those of the numbers of documents (all nodes, or with label='leaves' the leaves that have documents, so that other leaves are below the bound). Violated for names with a quote or <: the text cannot be read.",
  "status": "partial"
 },
 "C105": {
  "status": "partial",
  "note": "Under every schedule: calls finish within 15 steps (C105_finishes), calls that compute return the right scores (C105_computing), calls with no other caching call on an equal dataset return the right scores (C105_alone_partial, C105_uncached), the set of values that can be returned at all (C105_any), and the cache is right when all calls have ended (C105_settles). Violated for overlapping calls with cache=True on equal datasets, after interruptions, and with clear_cache in between. Arrays are read as they are at that time; kernels and whole-array operations are taken as one step."
 },
 "C106": {
  "status": "partial",
  "note": "What is loaded from rows with ids in any order (C106_load): the least increasing columns not left of the ids (C106_least), how many columns (C106_width), and when ids from zero are right (C106_zero_based). The values are in their own columns exactly if the ids increase from 1 (C106_own_columns_partial); violated otherwise."
 },
 "C107": {
  "status": "partial",
  "note": "Under every schedule, with any number of metric objects and exceptions from outside: a call that does not overlap with a call on the same object is right, and its array is never changed later (C107_apart_partial, C107_mse_partial); calls end after a bounded number of their own steps (C107_finishes); what arrays can contain (C107_any). Violated for overlapping calls on one object. nanmean, sum and the evaluation of one query are one step each."
 },
 "C108": {
  "status": "partial",
  "note": "Histories of eval calls without overlap, with interruptions at any step, give the results of a new object (C108_serial_partial, under the condition of C17 on equal datasets). Violated for overlapping calls, also for later calls (C108_violated_poisoned), and by eval_per_query after an interrupted eval (C108_violated_default). DCG of a query and ideal scores of a dataset are one step each."
 },
 "C109": {
  "note": "The property fails; what the code does instead is proved for all inputs. Not covered: NaN labels, and MSE.eval over datasets, whose result is NaN."
 },
 "C110": {
  "note": "Proved for features that are clear of the thresholds (more than half of 10^-6 away, and on the right not the next number above); violated otherwise. `%s` of leaves is a parameter; infinite thresholds are left out."
 },
 "C111": {
  "note": "The parts about closing, round trips and refused arguments are proved for all worlds; the parts about failing dumps, loading twice and unreadable streams are violated. Simplified: reading ahead, buffering and failures of close()."
 },
 "C112": {
  "note": "The full property is false: proved for n >= 0 (C112_nonneg_partial) and for n below minus the number of trees (IndexError); for other negative n the exact behaviour is proved, with a witness. n = 0 gives a model that cannot be scored (C112_no_tree_left)."
 },
 "C113": {
  "note": "The full property is false for every limit; the exact conditions are proved (C113_height, C113_save). Simplified: calls of C functions and the constant number of nested calls of max_leaves are not counted, tostring nests one call per element and a constant number of others. export_graphviz is C121."
 },
 "C114": {
  "note": "The full property is false. Proved when the labels of each axis differ: contents, names, legends and colours of all figures. Violations: equal labels (C114_violated_equal), names hidden by legends (C114_violated_hidden), subplots without names (C114_violated_models, C114_violated_metrics, C114_violated_classes). Colours are numbers in the colour cycle, which repeats after the colours of the palette; Axes.bar with more than one row is simplified to an exception."
 },
 "C115": {
  "note": "Proved for subset, for the scores (any arithmetic), for split when a query is left for the test part, for kfold with at least 3 folds and as many queries, and for NDCG with its cache. The averages are exact numbers. Violations: MSE (C115_violated_mse), ids outside of int32 (C115_violated_ids), and those of C06 and C07."
 },
 "C116": {
  "note": "Names: proved for every metric evaluated by Metric.eval. Order: proved for the ten ranking metrics and for NDCG.eval, for queries in one piece and ties between equal labels only; averages are exact numbers. Violations: ties between different labels for every argsort (C116_violated_ties), scattered queries (C116_violated_scattered), MSE under other names (C116_violated_names_mse)."
 },
 "C117": {
  "note": "Proved for sessions without interrupted score calls and with detailed scores cached only if the arithmetic gives them the same predictions (true for exact numbers, C117_exact), and for dataset objects that are equal in all arrays whenever dictionaries identify them. Violations: C117_violated_by_rounding, C117_violated_interrupted; equal keys with other query boundaries are C17_violated. Missing: datasets changed in place. The other effectiveness analyses are C118."
 },
 "C118": {
  "note": "Proved for sessions as in C117 (detailed scores cached only if they agree, no interrupted calls), for cells that are computed without exception (C118_history_partial: exceptions do not depend on the history either), metric values that are numbers for query-wise tables and classes, and a step of at most the number of trees of each model. Missing: float32 conversion of the tables, rounding of the sums of partial scores, bounds of counters. Violation: C118_violated_by_rounding."
 },
 "C119": {
  "note": "Proved with the hypotheses of C44 and exact arithmetic; scipy.stats.describe by its documentation, with skewness and kurtosis of equal heights as arguments (they depend on the version). Missing: floating point, float32 counts, models that are not parents first (C44_violated_child_first). Violation: C119_violated_single."
 },
 "C120": {
  "note": "Proved for fewer than 2^24 trees (and nodes in a level), for which float32 counts are exact; that all trees give exactly 1 is false (C120_violated), and 1 or the number before is proved (C120_all_trees_partial). Scipy's division of a sparse matrix by a number is modelled from its source. Missing: more trees."
 },
 "C121": {
  "note": "C121_file gives the result and the text for every limit; C121_prefix and C121_targets hold for any arrays and arguments. That a failing call keeps the old file is false (C121_violated, C121_violated_names, C121_emptied). Nested calls of numpy and matplotlib are a parameter or not counted; opening and closing of the file do not fail."
 },
 "C122": {
  "note": "C122_file gives the result and the text for every limit on nested calls, C122_refused, C122_not_tree, C122_emptied, C122_prefix and C122_lines hold for any model, C122_outputs for a leaf with several outputs. That the file of a failed call cannot be taken for a model is false (C122_violated, C122_violated_types). Calls nested by numpy and the import are parameters; opening and writing do not fail."
 },
 "C123": {
  "note": "C123_xgboost and C123_scikit say exactly which lines are accepted, C123_errors how others are refused. That incomplete dumps are refused is false: C123_cut (all XGBoost dumps), C123_cut_scikit_partial and C123_export_partial (numbering in the order of the lines; with another numbering the file may be refused, C123_order), C123_violated (other scores). Cuts inside a line and lines the expressions do not match as in C71 are not covered."
 },
 "C124": {
  "note": "That incomplete files are refused is false: C124_cut (lines) and C124_text_partial (text) show that every model cut off between two lines is loaded, and give its number of trees and its weights; C124_unfinished and C124_scores_partial show that a model that lacks the last shrinkage gives the scores of the other trees, C124_scores_early_partial the same for models that end after the features, thresholds or left children of a tree; C124_violated has the scores of examples, and an example where scoring reads outside the arrays. Missing: cuts inside a line, features from 2^15 on, the scores after the other cuts (after the number of leaves, after the right children)."
 }
}