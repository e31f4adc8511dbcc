{
 "claims": [
  {
   "property": "C01",
   "status": "proved",
   "theorems": [
    "Verif.Props.C01_query_blocks_tile_rows",
    "Verif.Props.C01_wrong_size_rejected"
   ],
   "note": "Model of Dataset.__init__; holds for every id array of the right length."
  },
  {
   "property": "C02",
   "status": "partial",
   "theorems": [
    "Verif.Props.C02_rows_under_own_query_partial",
    "Verif.Props.C02_iff_contiguous",
    "Verif.Props.C02_violated"
   ],
   "note": "Holds exactly for id arrays with contiguous queries (C02_iff_contiguous); the code accepts others, witness in C02_violated."
  },
  {
   "property": "C03",
   "status": "proved",
   "theorems": [
    "Verif.Props.C03_get_qids_dataset",
    "Verif.Props.C03_sizes_sum",
    "Verif.Props.C03_sizes_count",
    "Verif.Props.C03_get_query_offsets",
    "Verif.Props.C03_absent_id_error",
    "Verif.Props.C03_rebuild"
   ],
   "note": "For contiguous ids in int32 range where the per-row ids are concerned; np.empty content arbitrary."
  },
  {
   "property": "C04",
   "status": "proved",
   "theorems": [
    "Verif.Props.C04_subset",
    "Verif.Props.C04_subset_congr"
   ],
   "note": "For datasets with contiguous int32 ids."
  },
  {
   "property": "C05",
   "status": "proved",
   "theorems": [
    "Verif.Props.C05_subset_features",
    "Verif.Props.C05_negative",
    "Verif.Props.C05_out_of_range"
   ],
   "note": "All feature lists in range (C05_subset_features); negative positions count from the end (C05_negative); others are an IndexError (C05_out_of_range)."
  },
  {
   "property": "C06",
   "status": "partial",
   "theorems": [
    "Verif.Props.C06_split_partial",
    "Verif.Props.C06_test_is_everything",
    "Verif.Props.C06_violated",
    "Verif.Props.C06_violated_by_rounding",
    "Verif.Props.C06_large_ids",
    "Verif.Props.C06_violated_negative"
   ],
   "note": "Proved when the rounded sizes leave a test query; C06_test_is_everything, C06_violated and C06_violated_by_rounding show the remaining cases are false. Negative query ids are in no part (C06_violated_negative); ids from 2^31 to 2^32 keep their documents and labels (C06_large_ids)."
  },
  {
   "property": "C07",
   "status": "partial",
   "theorems": [
    "Verif.Props.C07_kfold_qids_partial",
    "Verif.Props.C07_kfold_datasets_partial",
    "Verif.Props.C07_two_folds_empty_train",
    "Verif.Props.C07_too_many_folds_empty"
   ],
   "note": "Proved for 3 <= k <= n_queries; two folds give an empty training set and more folds than queries give empty folds."
  },
  {
   "property": "C08",
   "status": "partial",
   "theorems": [
    "Verif.Props.C08_eq_partial",
    "Verif.Props.C08_violated",
    "Verif.Props.C08_hash_violated",
    "Verif.Props.C08_hash_separates"
   ],
   "note": "== compares rows, labels and distinct ids (C08_eq_partial); boundaries are ignored and one-row arrays are broadcast (C08_violated); equal floats with different bytes hash differently (C08_hash_violated)."
  },
  {
   "property": "C09",
   "status": "partial",
   "theorems": [
    "Verif.Props.C09_load_partial",
    "Verif.Props.C09_leading_empty",
    "Verif.Props.C09_memory_safe",
    "Verif.Props.C09_violated",
    "Verif.Props.C09_copy_overlap"
   ],
   "note": "Proved from the text of the file on, with in-place re-layout; fails exactly when the file begins with rows without features (C09_leading_empty, C09_violated). Relies on std::copy being memmove (C09_copy_overlap)."
  },
  {
   "property": "C10",
   "status": "proved",
   "theorems": [
    "Verif.Props.C10_comment_line",
    "Verif.Props.C10_malformed_rejected",
    "Verif.Props.C10_bad_word",
    "Verif.Props.C10_trailing_comment"
   ],
   "note": "Comment lines anywhere, comments at the end of a line, malformed lines anywhere; reading of floating point numbers is a parameter."
  },
  {
   "property": "C11",
   "status": "partial",
   "theorems": [
    "Verif.Props.C11_roundtrip_partial",
    "Verif.Props.C11_dataset_partial",
    "Verif.Props.C11_one_row",
    "Verif.Props.C11_violated"
   ],
   "note": "Proved for two or more rows, both index bases, arrays and whole Dataset; one row always loses its query id (C11_one_row, C11_violated)."
  },
  {
   "property": "C12",
   "status": "proved",
   "theorems": [
    "Verif.Props.C12_nine_digits",
    "Verif.Props.C12_nine_digits_label",
    "Verif.Props.C12_eight_digits_not_enough"
   ],
   "note": "All finite float32, any tie rule in printing and reading; eight digits are shown not to suffice."
  },
  {
   "property": "C13",
   "status": "proved",
   "theorems": [
    "Verif.Props.C13_eval",
    "Verif.Props.C13_eval_succeeds",
    "Verif.Props.C13_eval_error",
    "Verif.Props.C13_locality"
   ],
   "note": "Any metric, any rounding of stored values; contiguous ids."
  },
  {
   "property": "C14",
   "status": "proved",
   "theorems": [
    "Verif.Props.C14_precision",
    "Verif.Props.C14_retrieved_length",
    "Verif.Props.C14_precision_bounds",
    "Verif.Props.C14_precision_max"
   ],
   "note": "Any argsort; exact arithmetic over an ordered field."
  },
  {
   "property": "C15",
   "status": "proved",
   "theorems": [
    "Verif.Props.C15_recall",
    "Verif.Props.C15_recall_bounds",
    "Verif.Props.C15_recall_monotone",
    "Verif.Props.C15_recall_no_cutoff",
    "Verif.Props.C15_precision_recall"
   ],
   "note": "Any argsort; exact arithmetic over an ordered field."
  },
  {
   "property": "C16",
   "status": "proved",
   "theorems": [
    "Verif.Props.C16_dcg",
    "Verif.Props.C16_unknown_implementation",
    "Verif.Props.C16_dcg_le_ideal",
    "Verif.Props.C16_ndcg",
    "Verif.Props.C16_ndcg_bounds",
    "Verif.Props.C16_ndcg_one_iff",
    "Verif.Props.C16_ndcg_ideal",
    "Verif.Props.C16_ndcg_no_relevant"
   ],
   "note": "Reals, fresh NDCG object. Rounding of the cached ideal DCG to float32 is treated separately."
  },
  {
   "property": "C17",
   "status": "partial",
   "theorems": [
    "Verif.Props.C17_history_partial",
    "Verif.Props.C17_value_partial",
    "Verif.Props.C17_rounding",
    "Verif.Props.C17_violated"
   ],
   "note": "All histories, when datasets identified by the cache have equal boundaries; C17_violated is a concrete history where the stale ideal is used."
  },
  {
   "property": "C18",
   "status": "partial",
   "theorems": [
    "Verif.Props.C18_per_query_partial",
    "Verif.Props.C18_violated"
   ],
   "note": "Correct while only eval_per_query was called; after every eval it raises IndexError (C18_violated)."
  },
  {
   "property": "C19",
   "status": "proved",
   "theorems": [
    "Verif.Props.C19_err",
    "Verif.Props.C19_stop_probabilities",
    "Verif.Props.C19_err_bounds",
    "Verif.Props.C19_err_ideal",
    "Verif.Props.C19_err_empty"
   ],
   "note": "Reals."
  },
  {
   "property": "C20",
   "status": "partial",
   "theorems": [
    "Verif.Props.C20_pfound_partial",
    "Verif.Props.C20_pfound_bounds",
    "Verif.Props.C20_pfound_ideal",
    "Verif.Props.C20_pfound_monotone_in_p",
    "Verif.Props.C20_violated"
   ],
   "note": "Formula, bounds and optimality proved. The documented meaning of p_abandonment is violated (C20_violated)."
  },
  {
   "property": "C21",
   "status": "proved",
   "theorems": [
    "Verif.Props.C21_rbp",
    "Verif.Props.C21_rbp_bounds",
    "Verif.Props.C21_rbp_all_relevant",
    "Verif.Props.C21_rbp_zero"
   ],
   "note": "Exact arithmetic over an ordered field."
  },
  {
   "property": "C22",
   "status": "proved",
   "theorems": [
    "Verif.Props.C22_mrr",
    "Verif.Props.C22_mrr_bounds",
    "Verif.Props.C22_mrr_monotone"
   ],
   "note": "Exact arithmetic over an ordered field."
  },
  {
   "property": "C23",
   "status": "partial",
   "theorems": [
    "Verif.Props.C23_map_partial",
    "Verif.Props.C23_map_bounds",
    "Verif.Props.C23_map_ideal",
    "Verif.Props.C23_violated"
   ],
   "note": "All but the last part: with relevant documents of which none is retrieved the default 1 is returned (C23_violated)."
  },
  {
   "property": "C24",
   "status": "partial",
   "theorems": [
    "Verif.Props.C24_mse_eval_partial",
    "Verif.Props.C24_id_out_of_range",
    "Verif.Props.C24_violated"
   ],
   "note": "Proved for query ids 0..n-1 in any order; other ids raise IndexError or are misplaced."
  },
  {
   "property": "C25",
   "status": "proved",
   "theorems": [
    "Verif.Props.C25_rmse",
    "Verif.Props.C25_rmse_zero",
    "Verif.Props.C25_rmse_not_mean"
   ],
   "note": "Reals. C25_rmse_not_mean: root of the sum, not of the mean, unless one document or exact predictions."
  },
  {
   "property": "C26",
   "status": "proved",
   "theorems": [
    "Verif.Props.C26_monotone_transform",
    "Verif.Props.C26_monotone_transform_ties",
    "Verif.Props.C26_storage_order"
   ],
   "note": "All ten rank metrics of evalMetric."
  },
  {
   "property": "C27",
   "status": "proved",
   "theorems": [
    "Verif.Props.C27_large_cutoff",
    "Verif.Props.C27_only_top_matters",
    "Verif.Props.C27_below_cutoff_order",
    "Verif.Props.C27_recall_below_cutoff"
   ],
   "note": "All ten rank metrics for large cutoffs and for the order below the cutoff; Precision, DCG, RBP and MRR for arbitrary labels below the cutoff (recall depends on them, C27_recall_below_cutoff)."
  },
  {
   "property": "C28",
   "status": "proved",
   "theorems": [
    "Verif.Props.C28_swap_upwards",
    "Verif.Props.C28_map_excluded",
    "Verif.Props.C28_map_swap_upwards"
   ],
   "note": "Also PrecisionMax. MAP needs a relevant document retrieved before the exchange or a default of at most 0: C28_map_excluded is the counterexample otherwise."
  },
  {
   "property": "C29",
   "status": "proved",
   "theorems": [
    "Verif.Props.C29_score",
    "Verif.Props.C29_score_exact"
   ],
   "note": "Arbitrary float operations, so rounding and NaN are covered; the weighted-sum form is for exact numbers."
  },
  {
   "property": "C30",
   "status": "proved",
   "theorems": [
    "Verif.Props.C30_detailed",
    "Verif.Props.C30_same_prediction"
   ],
   "note": "Arbitrary float operations; equality of the two predictions needs that numpy's row sum equals the left-to-right sum (true for exact numbers)."
  },
  {
   "property": "C31",
   "status": "proved",
   "theorems": [
    "Verif.Props.C31_memory_safe",
    "Verif.Props.C31_missing_feature_rejected"
   ],
   "note": "Every read of the unchecked kernels is in bounds when the ensemble represents a forest and the feature check passed."
  },
  {
   "property": "C32",
   "status": "proved",
   "theorems": [
    "Verif.Props.C32_basic",
    "Verif.Props.C32_basic_progress",
    "Verif.Props.C32_basic_score",
    "Verif.Props.C32_detailed",
    "Verif.Props.C32_detailed_progress"
   ],
   "note": "Every interleaving of the atomic steps (reads and writes of the shared arrays) of the iterations; arbitrary float operations; sequentially consistent memory."
  },
  {
   "property": "C33",
   "status": "partial",
   "theorems": [
    "Verif.Props.C33_transparent_partial",
    "Verif.Props.C33_transparent_exact_partial",
    "Verif.Props.C33_violated",
    "Verif.Props.C33_violated_by_rounding",
    "Verif.Props.C33_interrupted",
    "Verif.Props.C33_interrupted_harmless",
    "Verif.Props.C33_identified"
   ],
   "note": "All histories of score, clear_cache and copy on any number of models, except interrupted scoring (C33_violated). With rounding, a basic call after a cached detailed call returns the detailed prediction (C33_violated_by_rounding); equal for exact numbers."
  },
  {
   "property": "C34",
   "status": "proved",
   "theorems": [
    "Verif.Props.C34_score",
    "Verif.Props.C34_partial_scores"
   ],
   "note": "Any float operations for the scores; exact numbers for the row sums of the partial scores."
  },
  {
   "property": "C35",
   "status": "proved",
   "theorems": [
    "Verif.Props.C35_loading",
    "Verif.Props.C35_prune",
    "Verif.Props.C35_prune_all",
    "Verif.Props.C35_prune_score"
   ],
   "note": "All forests and all numbers of trees."
  },
  {
   "property": "C36",
   "status": "proved",
   "theorems": [
    "Verif.Props.C36_num_leaves",
    "Verif.Props.C36_num_nodes",
    "Verif.Props.C36_height",
    "Verif.Props.C36_max_leaves",
    "Verif.Props.C36_is_leaf"
   ],
   "note": "All forests."
  },
  {
   "property": "C37",
   "status": "partial",
   "theorems": [
    "Verif.Props.C37_save",
    "Verif.Props.C37_load",
    "Verif.Props.C37_roundtrip_partial",
    "Verif.Props.C37_scores",
    "Verif.Props.C37_info",
    "Verif.Props.C37_no_weight",
    "Verif.Props.C37_violated",
    "Verif.Props.C37_no_info"
   ],
   "note": "Trees, order, weights and (when learning rate and base score are passed again) all scores survive; learning rate and base score are lost on reload (C37_violated)."
  },
  {
   "property": "C38",
   "status": "proved",
   "theorems": [
    "Verif.Props.C38_load",
    "Verif.Props.C38_value"
   ],
   "note": "All trees, any node ids, other lines in between; features below 2^15 (int16 storage)."
  },
  {
   "property": "C39",
   "status": "partial",
   "theorems": [
    "Verif.Props.C39_strict_partial",
    "Verif.Props.C39_gap",
    "Verif.Props.C39_violated"
   ],
   "note": "Proved for |t| up to 2^24 and whenever the gap below t is under 2; false for larger thresholds, witness 2^25 in C39_violated."
  },
  {
   "property": "C40",
   "status": "proved",
   "theorems": [
    "Verif.Props.C40_load",
    "Verif.Props.C40_export"
   ],
   "note": "All trees with ids 0..n-1 in any order, root first; also for files written by export_scikit_model, up to the rounding of the printed numbers."
  },
  {
   "property": "C41",
   "status": "proved",
   "theorems": [
    "Verif.Props.C41_load",
    "Verif.Props.C41_rejects"
   ],
   "note": "All trees and numberings, other lines in between; features below 2^15 (int16 storage)."
  },
  {
   "property": "C42",
   "status": "partial",
   "theorems": [
    "Verif.Props.C42_load_partial",
    "Verif.Props.C42_violated"
   ],
   "note": "All trees with a split; a tree with a single leaf has an empty SplitFeatures element and raises AttributeError (C42_violated)."
  },
  {
   "property": "C43",
   "status": "partial",
   "theorems": [
    "Verif.Props.C43_load_partial",
    "Verif.Props.C43_value",
    "Verif.Props.C43_rejects",
    "Verif.Props.C43_violated",
    "Verif.Props.C43_count_wraps"
   ],
   "note": "Proved when all trees have the same number of nodes (at most 65535) and the root is numbered and listed last; false for trees of different sizes (C43_violated); depth 16 trees overflow the uint16 count (C43_count_wraps)."
  },
  {
   "property": "C44",
   "status": "partial",
   "theorems": [
    "Verif.Props.C44_topology_partial",
    "Verif.Props.C44_cell",
    "Verif.Props.C44_avg_tree_shape",
    "Verif.Props.C44_violated_child_first",
    "Verif.Props.C44_violated_deep"
   ],
   "note": "Proved for ensembles storing parents before children (needed: C44_violated_child_first) and heights below 63 (needed: C44_violated_deep); counts as naturals instead of float32; the division in floating point is in C120."
  },
  {
   "property": "C45",
   "status": "partial",
   "theorems": [
    "Verif.Props.C45_fullness_partial",
    "Verif.Props.C45_violated"
   ],
   "note": "In [0,1]; equals 1 exactly if every position present in some tree is present in all, which is weaker than a full level (C45_violated)."
  },
  {
   "property": "C46",
   "status": "partial",
   "theorems": [
    "Verif.Props.C46_importance_partial",
    "Verif.Props.C46_sum_partial",
    "Verif.Props.C46_violated",
    "Verif.Props.C46_violated_count"
   ],
   "note": "Exact arithmetic. Proved when no visited node at position 0 sends all its documents right and no tree is a single leaf; otherwise importances can be negative (C46_violated)."
  },
  {
   "property": "C47",
   "status": "partial",
   "theorems": [
    "Verif.Props.C47_bounds_partial",
    "Verif.Props.C47_violated_empty_left",
    "Verif.Props.C47_violated_single_leaf",
    "Verif.Props.C47_violated_cycle"
   ],
   "note": "Safe under the conditions of C46; an empty left part at position 0 or a single leaf tree leads outside the arrays (C47_violated_*), and a node that is its own child makes the loop endless (C47_violated_cycle)."
  },
  {
   "property": "C48",
   "status": "partial",
   "theorems": [
    "Verif.Props.C48_rmse_partial",
    "Verif.Props.C48_violated"
   ],
   "note": "The square root is applied to the first feature only: equality holds exactly if the other importances are 0 or 1; false for [4, 4]."
  },
  {
   "property": "C49",
   "status": "proved",
   "theorems": [
    "Verif.Props.C49_meaning",
    "Verif.Props.C49_bounds",
    "Verif.Props.C49_equal",
    "Verif.Props.C49_no_queries"
   ],
   "note": "P-values are exactly the fractions of random exchanges whose mean difference reaches the observed one; bounds and order for every result; (1,1) for equal vectors. Numbers are from an ordered field (no rounding). With no queries the means are NaN and both p-values are 0 (C49_no_queries)."
  },
  {
   "property": "C50",
   "status": "proved",
   "theorems": [
    "Verif.Props.C50_order",
    "Verif.Props.C50_exact",
    "Verif.Props.C50_all_subsets",
    "Verif.Props.C50_equal_means",
    "Verif.Props.C50_equal_means_differ"
   ],
   "note": "Order independence for different means, factor two over all subsets (allSels has each subset once, C50_all_subsets). For equal means p2 = 1, while p1 can depend on the order (C50_equal_means_differ)."
  },
  {
   "property": "C51",
   "status": "partial",
   "theorems": [
    "Verif.Props.C51_no_leak_partial",
    "Verif.Props.C51_violated_outside_notebooks"
   ],
   "note": "Violated outside of notebooks: _kfold_scoring closes a progress bar that was never created and raises UnboundLocalError after doing all the work (C51_violated_outside_notebooks). In a notebook the full statement holds (C51_no_leak_partial); the learner is any function that returns one score per row."
  },
  {
   "property": "C52",
   "status": "proved",
   "theorems": [
    "Verif.Props.C52_decomposition",
    "Verif.Props.C52_variance",
    "Verif.Props.C52_values",
    "Verif.Props.C52_mse_values",
    "Verif.Props.C52_metric_values",
    "Verif.Props.C52_mse",
    "Verif.Props.C52_metric"
   ],
   "note": "Over an ordered field (no rounding): decomposition, sign and zero of the variance for every score matrix, and for bias_variance with MSE and with any metric."
  },
  {
   "property": "C53",
   "status": "partial",
   "theorems": [
    "Verif.Props.C53_prefixes_partial",
    "Verif.Props.C53_last",
    "Verif.Props.C53_labels_partial",
    "Verif.Props.C53_violated_labels",
    "Verif.Props.C53_violated_large_step"
   ],
   "note": "Evaluated on exactly the scores of the first k trees for the multiples of the step and for all trees (C53_prefixes_partial, C53_last), labelled with the numbers of trees when all models have the same number of trees (C53_labels_partial); step at most the number of trees. Violated: the last point of a smaller model beside a larger one gets the label of another number of trees (C53_violated_labels), and a step above the number of trees is an IndexError (C53_violated_large_step)."
  },
  {
   "property": "C54",
   "status": "partial",
   "theorems": [
    "Verif.Props.C54_curves_partial",
    "Verif.Props.C54_ends_at_one",
    "Verif.Props.C54_cdf",
    "Verif.Props.C54_labels",
    "Verif.Props.C54_reversed_range",
    "Verif.Props.C54_violated_labels",
    "Verif.Props.C54_violated_nan",
    "Verif.Props.C54_nan",
    "Verif.Props.C54_no_queries"
   ],
   "note": "Query-wise curves are fractions of queries from the start of the range up to the right edges, with explicit labels, for every way of giving or not giving start, stop and bins (C54_curves_partial); a distribution function ending at 1 (C54_cdf, C54_ends_at_one). Violated: labels are the right edges only for ranges of length 1 (C54_labels, C54_violated_labels); NaN metric values (C54_violated_nan). With NaN values the exact curves are in C54_nan; datasets without queries raise (C54_no_queries)."
  },
  {
   "property": "C55",
   "status": "partial",
   "theorems": [
    "Verif.Props.C55_mean_partial",
    "Verif.Props.C55_weighted",
    "Verif.Props.C55_violated_strings",
    "Verif.Props.C55_violated_nan"
   ],
   "note": "Cells are means over the queries of the class and the weighted mean of the cells is the mean of the metric (C55_mean_partial, C55_weighted), when the classes compare elementwise. Violated for string classes given as a list and NaN values (C55_violated_strings, C55_violated_nan)."
  },
  {
   "property": "C56",
   "status": "partial",
   "theorems": [
    "Verif.Props.C56_pairs_partial",
    "Verif.Props.C56_order",
    "Verif.Props.C56_total",
    "Verif.Props.C56_diagonal",
    "Verif.Props.C56_violated_ties",
    "Verif.Props.C56_violated_self",
    "Verif.Props.C56_violated_gap",
    "Verif.Props.C56_violated_negative",
    "Verif.Props.C56_violated_lengths"
   ],
   "note": "Cells for different labels count the pairs of the query with the first label lower, total and diagonal are given exactly (C56_pairs_partial, C56_total, C56_diagonal, C56_order), for labels 0..n-1 and no equal scores. Violated: ties depend on the order, documents paired with themselves, gaps between labels, negative labels, datasets of different lengths."
  },
  {
   "property": "C57",
   "status": "partial",
   "theorems": [
    "Verif.Props.C57_curves_partial",
    "Verif.Props.C57_ends_at_one",
    "Verif.Props.C57_violated_lengths",
    "Verif.Props.C57_violated_no_bins",
    "Verif.Props.C57_nan",
    "Verif.Props.C57_no_documents"
   ],
   "note": "Curves are fractions of documents of the label below the edges, with given or default range (C57_curves_partial, C57_ends_at_one), when datasets have the same number of documents and bins is given. Violated otherwise (C57_violated_lengths, C57_violated_no_bins). NaN scores are in no bin (C57_nan); datasets without documents raise (C57_no_documents)."
  },
  {
   "property": "C58",
   "status": "proved",
   "theorems": [
    "Verif.Props.C58_mean",
    "Verif.Props.C58_missing",
    "Verif.Props.C58_zero",
    "Verif.Props.C58_bound"
   ],
   "note": "The contribution is the mean absolute partial score per tree, NaN for trees a shorter model does not have, zero exactly for trees that give 0 to every document; the contributions add up to at least the mean absolute score. Exact numbers."
  },
  {
   "property": "C59",
   "status": "partial",
   "theorems": [
    "Verif.Props.C59_violated_never_retried",
    "Verif.Props.C59_violated_missing",
    "Verif.Props.C59_violated_truncated",
    "Verif.Props.C59_violated_server",
    "Verif.Props.C59_forced_partial"
   ],
   "note": "Violated: the directory is created before the download and its existence is taken as completion. No sequence of calls without force_download repairs it (C59_violated_never_retried, for every catalogue entry, server and kill point); concrete kills give missing files, a truncated training set returned as if complete, or a failure after one server error. Holds with force_download (C59_forced_partial)."
  },
  {
   "property": "C60",
   "status": "partial",
   "theorems": [
    "Verif.Props.C60_fresh",
    "Verif.Props.C60_fresh_models",
    "Verif.Props.C60_requests",
    "Verif.Props.C60_untouched",
    "Verif.Props.C60_untouched_dataset",
    "Verif.Props.C60_unknown",
    "Verif.Props.C60_no_fold",
    "Verif.Props.C60_violated_download_if_missing",
    "Verif.Props.C60_violated_models_deleted",
    "Verif.Props.C60_violated_deleted_then_error"
   ],
   "note": "Proved: missing or forced resources are downloaded, the directory is then exactly the archive and the data returned are its files (C60_fresh, C60_fresh_models), one request per resource (C60_requests), existing data untouched (C60_untouched*). Violated: download_if_missing=False can download, force_download without models deletes the models, a catalogue entry without models loses the data before KeyError."
  },
  {
   "property": "C61",
   "status": "partial",
   "theorems": [
    "Verif.Props.C61_importance_partial",
    "Verif.Props.C61_violated_sign",
    "Verif.Props.C61_agrees_with_mse_partial",
    "Verif.Props.C61_normalize_negative",
    "Verif.Props.C61_violated_single_leaf"
   ],
   "note": "Exact arithmetic, the metric is any function of the scores. Proved for forests without single leaf trees (C61_importance_partial); agrees with the efficient implementation for MSE. Violated: improvements of higher-is-better metrics count negatively (C61_violated_sign), and a single leaf tree counts for the last feature (C61_violated_single_leaf)."
  },
  {
   "property": "C62",
   "status": "proved",
   "theorems": [
    "Verif.Props.C62_lengths",
    "Verif.Props.C62_range",
    "Verif.Props.C62_kendall",
    "Verif.Props.C62_no_ties",
    "Verif.Props.C62_perfect",
    "Verif.Props.C62_monotone",
    "Verif.Props.C62_reverse",
    "Verif.Props.C62_worst",
    "Verif.Props.C62_symmetric",
    "Verif.Props.C62_order_of_documents",
    "Verif.Props.C62_dataset"
   ],
   "note": "Model is scipy's documented result (tau-b, Pearson correlation of average ranks) over exact reals; assumes scipy accepts initial_lexsort and returns NaN for constant input."
  },
  {
   "property": "C63",
   "status": "proved",
   "theorems": [
    "Verif.Props.C63_performance",
    "Verif.Props.C63_performance_succeeds",
    "Verif.Props.C63_significance",
    "Verif.Props.C63_bias_variance",
    "Verif.Props.C63_bias_variance_empty"
   ],
   "note": "The loops with array writes of the three analyses, for arbitrary scoring and metrics; the conversion of a cell to float32 is the parameter store. xarray's labels are the coordinate lists themselves."
  },
  {
   "property": "C64",
   "status": "partial",
   "theorems": [
    "Verif.Props.C64_numbers_partial",
    "Verif.Props.C64_violated_nan",
    "Verif.Props.C64_violated_same_model"
   ],
   "note": "Violated: one NaN in the values of a query makes both p-values 0 (all comparisons with NaN are false), i.e. the strongest significance, also for a model compared with itself. Without NaN the p-values are those of C49 and C50."
  },
  {
   "property": "C65",
   "status": "proved",
   "theorems": [
    "Verif.Props.C65_drawing",
    "Verif.Props.C65_tree_id",
    "Verif.Props.C65_determines"
   ],
   "note": "The output is modelled as a list of statements with structured labels (fonts, colours and rank groups left out). Node ids are those of the arrays."
  },
  {
   "property": "C66",
   "status": "partial",
   "theorems": [
    "Verif.Props.C66_counts",
    "Verif.Props.C66_leaves_partial",
    "Verif.Props.C66_violated_percentage"
   ],
   "note": "Proved for label='all'. Violated for label='leaves': the counts are right but the percentages are relative to the fullest leaf, not to the number of documents."
  },
  {
   "property": "C67",
   "status": "partial",
   "theorems": [
    "Verif.Props.C67_check",
    "Verif.Props.C67_names_partial",
    "Verif.Props.C67_violated"
   ],
   "note": "Violated: the check has the wrong direction, longer lists (e.g. all features of the dataset) are rejected and shorter ones pass and raise IndexError while drawing. Proved for lists that end with the largest feature used."
  },
  {
   "property": "C68",
   "status": "partial",
   "theorems": [
    "Verif.Props.C68_accessors_partial",
    "Verif.Props.C68_cached",
    "Verif.Props.C68_violated_leaves",
    "Verif.Props.C68_violated_weights"
   ],
   "note": "Violated: get_predicted_leaves reads self.self and raises AttributeError in every state; the documentation of the partial scores says they exclude the weights, the kernel multiplies them in. Proved over exact numbers for arbitrary sequences of the other calls, with at most two kernel runs."
  },
  {
   "property": "C69",
   "status": "partial",
   "theorems": [
    "Verif.Props.C69_quickrank_partial",
    "Verif.Props.C69_lightgbm_partial",
    "Verif.Props.C69_jforests_partial",
    "Verif.Props.C69_scikit_partial",
    "Verif.Props.C69_catboost_partial",
    "Verif.Props.C69_xgboost_partial",
    "Verif.Props.C69_violated_bounds",
    "Verif.Props.C69_violated_feature",
    "Verif.Props.C69_text_quickrank_partial",
    "Verif.Props.C69_text_saved_partial",
    "Verif.Props.C69_text_lightgbm_partial",
    "Verif.Props.C69_text_jforests_partial",
    "Verif.Props.C69_text_scikit_partial",
    "Verif.Props.C69_text_xgboost_partial"
   ],
   "note": "Composition of the loading theorems (C37-C43) with scoring (C31, C34) for all six formats, features below 2^15. XGBoost for arbitrary float operations (its tests are strict), learning rate 1 and a base score that is not 0; the others with exact numbers. Violated above: feature 40000 is stored as -25536, passes the feature check for every dataset and is read outside of the matrix; feature 65537 becomes feature 1. The wrap-around is that of numpy 1, numpy 2 raises OverflowError instead."
  },
  {
   "property": "C70",
   "status": "proved",
   "theorems": [
    "Verif.Props.C70_quickrank",
    "Verif.Props.C70_xgboost",
    "Verif.Props.C70_scikit",
    "Verif.Props.C70_lightgbm",
    "Verif.Props.C70_jforests",
    "Verif.Props.C70_catboost",
    "Verif.Props.C70_numbering_needed"
   ],
   "note": "All six formats; features below 2^15, trees of height below 63 (C44). For scikit-learn, LightGBM, jforests and CatBoost the nodes of the file must be numbered in the direction in which these libraries number them; C70_numbering_needed shows that this is needed."
  },
  {
   "property": "C71",
   "status": "partial",
   "theorems": [
    "Verif.Props.C71_search",
    "Verif.Props.C71_xgboost_text",
    "Verif.Props.C71_scikit_text",
    "Verif.Props.C71_xgboost_partial",
    "Verif.Props.C71_scikit_partial",
    "Verif.Props.C71_named_splits",
    "Verif.Props.C71_violated_names",
    "Verif.Props.C71_export_partial",
    "Verif.Props.C71_violated_classes"
   ],
   "note": "Text level of C38/C40. float and printing are parameters; features below 2^15; named features and several outputs violate the property."
  },
  {
   "property": "C72",
   "status": "partial",
   "theorems": [
    "Verif.Props.C72_text",
    "Verif.Props.C72_load_partial",
    "Verif.Props.C72_importances",
    "Verif.Props.C72_malformed",
    "Verif.Props.C72_violated_importances"
   ],
   "note": "Text level of C41. float is a parameter; features below 2^15; a feature named like a key violates the property."
  },
  {
   "property": "C73",
   "status": "partial",
   "theorems": [
    "Verif.Props.C73_lines_partial",
    "Verif.Props.C73_rest_of_line",
    "Verif.Props.C73_ends",
    "Verif.Props.C73_violated_nul",
    "Verif.Props.C73_violated_read_error",
    "Verif.Props.C73_violated_leak",
    "Verif.Props.C73_returned",
    "Verif.Props.C73_failure",
    "Verif.Props.C73_violated_throw"
   ],
   "note": "Proved for files without NUL and streams without errors; ownership for every pattern of failing allocations. Violated by NUL bytes, read errors, references to lines that are never released, and a dangling exception."
  },
  {
   "property": "C74",
   "status": "partial",
   "theorems": [
    "Verif.Props.C74_values",
    "Verif.Props.C74_dump_partial",
    "Verif.Props.C74_dump_columns",
    "Verif.Props.C74_dump_transpose",
    "Verif.Props.C74_violated_dump",
    "Verif.Props.C74_importance_partial",
    "Verif.Props.C74_violated_importance",
    "Verif.Props.C74_violated_bounds"
   ],
   "note": "Proved for arrays whose rows are at least as far apart as the columns (dump) and for arrays stored row by row (importances); the general formula of what is written otherwise is C74_dump_columns. Violated for other layouts."
  },
  {
   "property": "C75",
   "status": "proved",
   "theorems": [
    "Verif.Props.C75_grid",
    "Verif.Props.C75_sectors",
    "Verif.Props.C75_plot",
    "Verif.Props.C75_rings"
   ],
   "note": "Proved for every forest analysed (C44) and every maximum level. The drawing itself (matplotlib) is not modelled."
  },
  {
   "property": "C76",
   "status": "partial",
   "theorems": [
    "Verif.Props.C76_gain_partial",
    "Verif.Props.C76_count_partial",
    "Verif.Props.C76_all",
    "Verif.Props.C76_violated_few",
    "Verif.Props.C76_order",
    "Verif.Props.C76_negative",
    "Verif.Props.C76_violated_one",
    "Verif.Props.C76_ticks_partial",
    "Verif.Props.C76_violated_step"
   ],
   "note": "Proved for at least as many features as places and for all features; ticks for positive steps. Violated otherwise."
  },
  {
   "property": "C77",
   "status": "partial",
   "theorems": [
    "Verif.Props.C77_bars",
    "Verif.Props.C77_apart",
    "Verif.Props.C77_names",
    "Verif.Props.C77_limit_partial",
    "Verif.Props.C77_violated_nan",
    "Verif.Props.C77_violated_negative",
    "Verif.Props.C77_marker_partial",
    "Verif.Props.C77_violated_marker",
    "Verif.Props.C77_log_partial",
    "Verif.Props.C77_violated_twice",
    "Verif.Props.C77_violated_single",
    "Verif.Props.C77_violated_axes"
   ],
   "note": "Proved: bars, names, limits for defined values that are not negative, markers of curves with a defined value, the logarithmic scale. Violated: undefined and negative values, axes, scale."
  },
  {
   "property": "C78",
   "status": "partial",
   "theorems": [
    "Verif.Props.C78_written_is_read",
    "Verif.Props.C78_pretty",
    "Verif.Props.C78_layout",
    "Verif.Props.C78_load",
    "Verif.Props.C78_roundtrip",
    "Verif.Props.C78_cut_off",
    "Verif.Props.C78_entity",
    "Verif.Props.C78_no_weight",
    "Verif.Props.C78_violated_numpy2"
   ],
   "note": "Texts of numbers (repr, float) are parameters with the hypothesis PrintsNumbers: what repr writes is read back, true of NumPy 1. The XML reader covers what ElementTree writes (elements, attributes in double quotes, predefined entities); comments, processing instructions, CDATA, character references and encodings are left out. C78_violated_numpy2 shows that with NumPy 2 a saved file cannot be loaded."
  },
  {
   "property": "C79",
   "status": "proved",
   "theorems": [
    "Verif.Props.C79_prediction",
    "Verif.Props.C79_finite",
    "Verif.Props.C79_detailed",
    "Verif.Props.C79_order",
    "Verif.Props.C79_factor",
    "Verif.Props.C79_binary32",
    "Verif.Props.C79_binary32_overflow",
    "Verif.Props.C79_inexact"
   ],
   "note": "Bound for every rounded arithmetic that meets the standard model, and binary32 shown to meet it; predictions are proved finite when the sizes of outputs and weights leave room (C79_finite), with a witness for the overflow otherwise. Infinities and NaN are one value, the two zeros are one, no fused multiply-add; learning rate and base score are taken as already converted to float32."
  },
  {
   "property": "C80",
   "status": "partial",
   "theorems": [
    "Verif.Props.C80_ndcg_partial",
    "Verif.Props.C80_lightgbm_partial",
    "Verif.Props.C80_quickrank_partial"
   ],
   "note": "Exact arithmetic; data files with contiguous queries whose first row has a feature (C02 and C09 are violated otherwise), feature numbers below 2^15."
  },
  {
   "property": "C81",
   "status": "partial",
   "theorems": [
    "Verif.Props.C81_names_partial",
    "Verif.Props.C81_hidden",
    "Verif.Props.C81_violated_gain",
    "Verif.Props.C81_violated_max",
    "Verif.Props.C81_violated_sign"
   ],
   "note": "Names identify classes, cutoffs and thresholds except PrecisionMax; arguments that are not shown collide (C81_hidden)."
  },
  {
   "property": "C82",
   "status": "partial",
   "theorems": [
    "Verif.Props.C82_frame",
    "Verif.Props.C82_private",
    "Verif.Props.C82_scores_partial",
    "Verif.Props.C82_violated_cached",
    "Verif.Props.C82_violated_hash"
   ],
   "note": "Memory model of score, Dataset and the scorer cache. Proved: overwriting arrays the library does not hold never changes later results; uncached calls on empty caches return private arrays; careful callers always get the right scores. Violated when a caller writes to cached predictions or to the matrix of a hashed dataset. Labels, query ids and model arrays are values, copy is left out."
  },
  {
   "property": "C83",
   "status": "partial",
   "theorems": [
    "Verif.Props.C83_text_partial",
    "Verif.Props.C83_load_partial",
    "Verif.Props.C83_violated_blanks",
    "Verif.Props.C83_violated_leaf",
    "Verif.Props.C83_no_weight",
    "Verif.Props.C83_cut_off"
   ],
   "note": "Any text whose events spell weighted trees (numbers separated by single blanks, other white space around a number allowed) loads to exactly these trees; cut-off files give ParseError. Missing: layouts with loose blanks and single-leaf trees, proved to be refused. Number conversion is a parameter; comments, CDATA and declarations are left out of the XML parser."
  },
  {
   "property": "C84",
   "status": "partial",
   "theorems": [
    "Verif.Props.C84_each",
    "Verif.Props.C84_columns_partial",
    "Verif.Props.C84_violated",
    "Verif.Props.C84_violated_none",
    "Verif.Props.C84_bad"
   ],
   "note": "Concatenation of what the files denote (C09 for each file), first error wins. The promised equal number of columns holds iff the largest feature numbers agree (C84_violated)."
  },
  {
   "property": "C85",
   "status": "partial",
   "theorems": [
    "Verif.Props.C85_derived_partial",
    "Verif.Props.C85_library",
    "Verif.Props.C85_names",
    "Verif.Props.C85_violated",
    "Verif.Props.C85_violated_eval",
    "Verif.Props.C85_abstract"
   ],
   "note": "Proved for classes derived in any number of steps from the eleven classes that name themselves in super. NDCG, MSE and RMSE pass self.__class__ to super: every class derived from them raises RecursionError on construction, whatever the limit (C85_violated), and for NDCG and RMSE eval does so too (C85_violated_eval). Single inheritance only."
  },
  {
   "property": "C86",
   "status": "partial",
   "theorems": [
    "Verif.Props.C86_directions_ignored",
    "Verif.Props.C86_scores_partial",
    "Verif.Props.C86_violated"
   ],
   "note": "From the text of the dump and the rows of the data file to the scores, for arbitrary float operations for which the conversion of thresholds is right (C39), learning rate 1 and a base score other than 0. Proved when the directions agree with the value 0 at the tests reached; violated otherwise, the loader ignores missing= (C86_directions_ignored)."
  },
  {
   "property": "C87",
   "status": "partial",
   "theorems": [
    "Verif.Props.C87_open_partial",
    "Verif.Props.C87_unknown",
    "Verif.Props.C87_violated",
    "Verif.Props.C87_prune_empty",
    "Verif.Props.C87_save"
   ],
   "note": "All names and files. Violated for CatBoost when coremltools is not installed: a message is logged and an object without trees is returned. Only QuickRank can be saved."
  },
  {
   "property": "C88",
   "status": "partial",
   "theorems": [
    "Verif.Props.C88_query",
    "Verif.Props.C88_any_partial",
    "Verif.Props.C88_metrics_partial"
   ],
   "note": "Exact arithmetic, labels not negative (only needed for MAP), data files as in C80 (C02, C09), any model whose arrays represent a forest; NDCG.eval itself is C80 because of its cache."
  },
  {
   "property": "C89",
   "status": "partial",
   "theorems": [
    "Verif.Props.C89_mse_partial",
    "Verif.Props.C89_ranking_partial",
    "Verif.Props.C89_ndcg_partial",
    "Verif.Props.C89_violated_rmse",
    "Verif.Props.C89_violated_worse",
    "Verif.Props.C89_violated_dcg"
   ],
   "note": "Proved for MSE and NDCG, and for all ranking metrics as an equivalence: the error is the mean of (value - 1)^2 and vanishes exactly if the metric is 1 for every query. Violated for RMSE on every dataset, for DCG, and a wrong learner gets error 0. In a notebook only (C51)."
  },
  {
   "property": "C90",
   "status": "proved",
   "theorems": [
    "Verif.Props.C90_seed",
    "Verif.Props.C90_partition",
    "Verif.Props.C90_insert",
    "Verif.Props.C90_equivalent",
    "Verif.Props.C90_frame",
    "Verif.Props.C90_object",
    "Verif.Props.C90_shared",
    "Verif.Props.C90_errors",
    "Verif.Props.C90_kfold"
   ],
   "note": "The generator is a parameter (any state machine); all programs of split, kfold, seed and new RandomState."
  },
  {
   "property": "C91",
   "status": "proved",
   "theorems": [
    "Verif.Props.C91_nanmean",
    "Verif.Props.C91_eval",
    "Verif.Props.C91_binary32"
   ],
   "note": "Numpy adds the first number of a block to 0 in the model (no effect on the value except the sign of zero). eval_per_query is a parameter with a given error; the double precision errors inside each metric are not bounded."
  },
  {
   "property": "C92",
   "status": "partial",
   "theorems": [
    "Verif.Props.C92_label",
    "Verif.Props.C92_value",
    "Verif.Props.C92_text",
    "Verif.Props.C92_roundtrip_partial",
    "Verif.Props.C92_arrays_partial",
    "Verif.Props.C92_comment",
    "Verif.Props.C92_violated_inf",
    "Verif.Props.C92_violated_label",
    "Verif.Props.C92_violated_double"
   ],
   "note": "Printing with 9 digits and reading are modelled on characters and exact rationals; C92_text, C92_label and C92_value hold for all finite numbers and all decimal texts, and instantiate the abstract scanner of C09-C11 and C67. Violated: +inf features, NaN or infinite labels, double rounding of features. Not modelled: hexadecimal numbers, locales."
  },
  {
   "property": "C93",
   "status": "partial",
   "theorems": [
    "Verif.Props.C93_repr",
    "Verif.Props.C93_texts",
    "Verif.Props.C93_float",
    "Verif.Props.C93_model_partial",
    "Verif.Props.C93_violated",
    "Verif.Props.C93_violated_numpy113"
   ],
   "note": "C93_repr says exactly which single precision numbers survive repr and float (all but 7.038531e-26, its negative, and the sign of NaN); C93_model_partial lifts it to whole saved and loaded models; missing only what is false: C93_violated gives the model with threshold 7.038531e-26 that changes, C93_violated_numpy113 the changes with NumPy 1.13"
  },
  {
   "property": "C94",
   "status": "partial",
   "theorems": [
    "Verif.Props.C94_decision",
    "Verif.Props.C94_between",
    "Verif.Props.C94_scores_partial",
    "Verif.Props.C94_violated"
   ],
   "note": "Proved: exactly when the decision differs from the exact one (C94_decision), that it cannot differ when two single precision numbers lie between (C94_between), and the scores of text files of model and data when no value is rounded to the threshold below it (C94_scores_partial). Missing: values just above a threshold, where the claim is false (C94_violated); numbers too large for single precision."
  },
  {
   "property": "C95",
   "status": "partial",
   "theorems": [
    "Verif.Props.C95_error_partial",
    "Verif.Props.C95_order_partial",
    "Verif.Props.C95_violated",
    "Verif.Props.C95_cancellation"
   ],
   "note": "Proved: error bound of the predictions from the texts of a LightGBM model and a dataset, with all rounding steps (decimal to double to single, products with weights and learning rate, sums in any order) and without overflow (C95_error_partial), and that documents further apart than both errors are ordered as by the exact scores (C95_order_partial). Missing: values that are rounded to the threshold below them, where the wrong leaf is reached (C94_violated); more than 2^20 trees; sums above 2^125, where the claim is false (C95_violated: exact score 0, prediction inf); other model formats. C95_cancellation shows that the bound cannot refer to the exact score alone."
  },
  {
   "property": "C96",
   "status": "partial",
   "theorems": [
    "Verif.Props.C96_error",
    "Verif.Props.C96_ideal_partial",
    "Verif.Props.C96_violated",
    "Verif.Props.C96_unknown",
    "Verif.Props.C96_eval"
   ],
   "note": "Proved: relative error 2^-23 of the computed NDCG before storing (C96_error), error of the average of eval (C96_eval), and that the stored value of an ideal ranking is 1 or 1 - 2^-24 (C96_ideal_partial). Missing: that it is 1, which is false (C96_violated); labels that are not integers, or above 24; overflow. Unknown implementations raise (C96_unknown)."
  },
  {
   "property": "C97",
   "status": "partial",
   "theorems": [
    "Verif.Props.C97_precision",
    "Verif.Props.C97_precision_max",
    "Verif.Props.C97_recall",
    "Verif.Props.C97_mrr",
    "Verif.Props.C97_order_partial",
    "Verif.Props.C97_mrr_order",
    "Verif.Props.C97_violated",
    "Verif.Props.C97_map",
    "Verif.Props.C97_map_ideal"
   ],
   "note": "Proved: stored Precision, PrecisionMax, Recall and MRR are nearest single precision numbers, 1 and 0 only in the perfect and the empty case (C97_precision, C97_precision_max, C97_recall, C97_mrr), larger precision is stored as a larger number if the product of the numbers of retrieved documents is below 2^24 (C97_order_partial), better ranks give larger MRR (C97_mrr_order), MAP within 2^-23 (C97_map) and exactly 1 for ideal rankings (C97_map_ideal). The order is lost for more documents, which is false of the code: C97_violated stores the same number for 4999/5000 and 5000/5001."
  },
  {
   "property": "C98",
   "status": "partial",
   "theorems": [
    "Verif.Props.C98_err",
    "Verif.Props.C98_pfound",
    "Verif.Props.C98_rbp",
    "Verif.Props.C98_violated"
   ],
   "note": "float64 arithmetic with rational numbers. Proved: the stored values are in [0,1] and within 2^-24 of the exact ones. The claim that a better ranking has a larger stored value is false (C98_violated)."
  },
  {
   "property": "C99",
   "status": "partial",
   "theorems": [
    "Verif.Props.C99_query",
    "Verif.Props.C99_rmse",
    "Verif.Props.C99_finite",
    "Verif.Props.C99_eval_partial",
    "Verif.Props.C99_exact",
    "Verif.Props.C99_violated_underflow",
    "Verif.Props.C99_violated_overflow"
   ],
   "note": "C99_query, C99_rmse (relative error 2^-17, plus 2^-149 for each document), C99_exact and C99_finite for each query; C99_eval_partial for query ids 0..n-1 without cutoff (other ids: C24_violated). The claim without the absolute term is false because squares underflow (C99_violated_underflow), and large labels overflow (C99_violated_overflow)."
  },
  {
   "property": "C100",
   "status": "proved",
   "theorems": [
    "Verif.Props.C100_succeeds",
    "Verif.Props.C100_again",
    "Verif.Props.C100_license",
    "Verif.Props.C100_in_the_way"
   ],
   "note": "C100_succeeds (liveness), C100_again (later calls), C100_license, C100_in_the_way."
  },
  {
   "property": "C101",
   "status": "partial",
   "theorems": [
    "Verif.Props.C101_violated",
    "Verif.Props.C101_range",
    "Verif.Props.C101_equal",
    "Verif.Props.C101_bounds_partial",
    "Verif.Props.C101_exact_partial"
   ],
   "note": "Violated: for the scores 1, 0, 0 against 0, 0, 0 the computed p-values are 0 whatever the subsets, and the exact two-sided p-value is 1, because the difference of the models is rounded to float32 and the differences after the exchange are float64. Proved instead: the p-values are in range and ordered, equal scores give 1, exchanges that differ from the difference of the models by 2^-12 are counted rightly, and the test is exact if the number of queries is a power of two and all scores are multiples of a power of two."
  },
  {
   "property": "C102",
   "status": "partial",
   "theorems": [
    "Verif.Props.C102_keys",
    "Verif.Props.C102_urls",
    "Verif.Props.C102_violated",
    "Verif.Props.C102_violated_fold",
    "Verif.Props.C102_loads_partial"
   ],
   "note": "C102_keys and C102_urls: complete entries. C102_violated: istella-full names its validation file 'None'. C102_violated_fold: msn10k without a fold reads files that are only in the folders of the folds. C102_loads_partial: the other datasets load. Missing: istella-full, and msn10k/msn30k without a fold."
  },
  {
   "property": "C103",
   "status": "partial",
   "theorems": [
    "Verif.Props.C103_ndcg_partial",
    "Verif.Props.C103_violated"
   ],
   "note": "The average of NDCG.eval is within (e+31)/2^23 of the mean of the exact NDCG of the numbers in the text files (C103_ndcg_partial), when documents of a query have equal scores or scores further apart than their errors and labels are naturals up to 24. Violated without that: documents with values on both sides of a threshold can be swapped (C103_violated)."
  },
  {
   "property": "C104",
   "status": "partial",
   "theorems": [
    "Verif.Props.C104_text_partial",
    "Verif.Props.C104_counts_partial",
    "Verif.Props.C104_leaves_partial",
    "Verif.Props.C104_errors",
    "Verif.Props.C104_violated"
   ],
   "note": "Proved for feature names without quotes and backslashes (without <, > and & with special_characters), for printers of numbers that use no such characters, and any colour map giving four bytes. With output leaves the bounds of the colours are those of the numbers of documents (all nodes, or with label='leaves' the leaves that have documents, so that other leaves are below the bound). Violated for names with a quote or <: the text cannot be read."
  },
  {
   "property": "C105",
   "status": "partial",
   "theorems": [
    "Verif.Props.C105_finishes",
    "Verif.Props.C105_computing",
    "Verif.Props.C105_alone_partial",
    "Verif.Props.C105_uncached",
    "Verif.Props.C105_settles",
    "Verif.Props.C105_any",
    "Verif.Props.C105_any_plain",
    "Verif.Props.C105_alone_exact_partial",
    "Verif.Props.C105_violated_none",
    "Verif.Props.C105_violated_raw",
    "Verif.Props.C105_violated_half",
    "Verif.Props.C105_violated_replaced",
    "Verif.Props.C105_violated_clear"
   ],
   "note": "Under every schedule: calls finish within 15 steps (C105_finishes), calls that compute return the right scores (C105_computing), calls with no other caching call on an equal dataset return the right scores (C105_alone_partial, C105_uncached), the set of values that can be returned at all (C105_any), and the cache is right when all calls have ended (C105_settles). Violated for overlapping calls with cache=True on equal datasets, after interruptions, and with clear_cache in between. Arrays are read as they are at that time; kernels and whole-array operations are taken as one step."
  },
  {
   "property": "C106",
   "status": "partial",
   "theorems": [
    "Verif.Props.C106_load",
    "Verif.Props.C106_own_columns_partial",
    "Verif.Props.C106_least",
    "Verif.Props.C106_width",
    "Verif.Props.C106_zero_based",
    "Verif.Props.C106_violated"
   ],
   "note": "What is loaded from rows with ids in any order (C106_load): the least increasing columns not left of the ids (C106_least), how many columns (C106_width), and when ids from zero are right (C106_zero_based). The values are in their own columns exactly if the ids increase from 1 (C106_own_columns_partial); violated otherwise."
  },
  {
   "property": "C107",
   "status": "partial",
   "theorems": [
    "Verif.Props.MetricThreads.C107_apart_partial",
    "Verif.Props.MetricThreads.C107_mse_partial",
    "Verif.Props.MetricThreads.C107_finishes",
    "Verif.Props.MetricThreads.C107_any",
    "Verif.Props.MetricThreads.C107_violated_mean",
    "Verif.Props.MetricThreads.C107_violated_later",
    "Verif.Props.MetricThreads.C107_violated_error"
   ],
   "note": "Under every schedule, with any number of metric objects and exceptions from outside: a call that does not overlap with a call on the same object is right, and its array is never changed later (C107_apart_partial, C107_mse_partial); calls end after a bounded number of their own steps (C107_finishes); what arrays can contain (C107_any). Violated for overlapping calls on one object. nanmean, sum and the evaluation of one query are one step each."
  },
  {
   "property": "C108",
   "status": "partial",
   "theorems": [
    "Verif.Props.NdcgThreads.C108_serial_partial",
    "Verif.Props.NdcgThreads.C108_violated_cursor",
    "Verif.Props.NdcgThreads.C108_violated_poisoned",
    "Verif.Props.NdcgThreads.C108_violated_default",
    "Verif.Props.NdcgThreads.C108_violated_query"
   ],
   "note": "Histories of eval calls without overlap, with interruptions at any step, give the results of a new object (C108_serial_partial, under the condition of C17 on equal datasets). Violated for overlapping calls, also for later calls (C108_violated_poisoned), and by eval_per_query after an interrupted eval (C108_violated_default). DCG of a query and ideal scores of a dataset are one step each."
  },
  {
   "property": "C109",
   "status": "partial",
   "theorems": [
    "Verif.Props.NanScores.C109_first",
    "Verif.Props.NanScores.C109_as_largest",
    "Verif.Props.NanScores.C109_numbers",
    "Verif.Props.NanScores.C109_violated",
    "Verif.Props.NanScores.C109_rmse_query",
    "Verif.Props.NanScores.C109_rmse_numbers",
    "Verif.Props.NanScores.C109_rmse_eval",
    "Verif.Props.NanScores.C109_rmse_violated"
   ],
   "note": "The property fails; what the code does instead is proved for all inputs. Not covered: NaN labels, and MSE.eval over datasets, whose result is NaN."
  },
  {
   "property": "C110",
   "status": "partial",
   "theorems": [
    "Verif.Props.ExportNumbers.C110_text",
    "Verif.Props.ExportNumbers.C110_export",
    "Verif.Props.ExportNumbers.C110_decision",
    "Verif.Props.ExportNumbers.C110_scores_partial",
    "Verif.Props.ExportNumbers.C110_twelve_digits",
    "Verif.Props.ExportNumbers.C110_violated",
    "Verif.Props.ExportNumbers.C110_violated_rate"
   ],
   "note": "Proved for features that are clear of the thresholds (more than half of 10^-6 away, and on the right not the next number above); violated otherwise. `%s` of leaves is a parameter; infinite thresholds are left out."
  },
  {
   "property": "C111",
   "status": "partial",
   "theorems": [
    "Verif.Props.SvmlightStreams.C111_load_closes",
    "Verif.Props.SvmlightStreams.C111_dump_closes",
    "Verif.Props.SvmlightStreams.C111_files_close",
    "Verif.Props.SvmlightStreams.C111_load_path",
    "Verif.Props.SvmlightStreams.C111_roundtrip",
    "Verif.Props.SvmlightStreams.C111_bad_arguments",
    "Verif.Props.SvmlightStreams.C111_refused",
    "Verif.Props.SvmlightStreams.C111_files",
    "Verif.Props.SvmlightStreams.C111_extension",
    "Verif.Props.SvmlightStreams.C111_dump_stream",
    "Verif.Props.SvmlightStreams.C111_dump_binary",
    "Verif.Props.SvmlightStreams.C111_stops",
    "Verif.Props.SvmlightStreams.C111_violated_truncated",
    "Verif.Props.SvmlightStreams.C111_violated_twice",
    "Verif.Props.SvmlightStreams.C111_violated_descriptor",
    "Verif.Props.SvmlightStreams.C111_violated_damaged",
    "Verif.Props.SvmlightStreams.C111_violated_text"
   ],
   "note": "The parts about closing, round trips and refused arguments are proved for all worlds; the parts about failing dumps, loading twice and unreadable streams are violated. Simplified: reading ahead, buffering and failures of close()."
  },
  {
   "property": "C112",
   "status": "partial",
   "theorems": [
    "Verif.Props.C112_nonneg_partial",
    "Verif.Props.C112_none",
    "Verif.Props.C112_negative",
    "Verif.Props.C112_below",
    "Verif.Props.C112_negative_scores",
    "Verif.Props.C112_negative_detailed",
    "Verif.Props.C112_no_tree_left",
    "Verif.Props.C112_copy_again",
    "Verif.Props.C112_violated"
   ],
   "note": "The full property is false: proved for n >= 0 (C112_nonneg_partial) and for n below minus the number of trees (IndexError); for other negative n the exact behaviour is proved, with a witness. n = 0 gives a model that cannot be scored (C112_no_tree_left)."
  },
  {
   "property": "C113",
   "status": "partial",
   "theorems": [
    "Verif.Props.C113_height",
    "Verif.Props.C113_save",
    "Verif.Props.C113_violated",
    "Verif.Props.C113_file_lost"
   ],
   "note": "The full property is false for every limit; the exact conditions are proved (C113_height, C113_save). Simplified: calls of C functions and the constant number of nested calls of max_leaves are not counted, tostring nests one call per element and a constant number of others. export_graphviz is C121."
  },
  {
   "property": "C114",
   "status": "partial",
   "theorems": [
    "Verif.Props.C114_lookup",
    "Verif.Props.C114_tree_wise_metrics_partial",
    "Verif.Props.C114_tree_wise_models_partial",
    "Verif.Props.C114_tree_wise_datasets_partial",
    "Verif.Props.C114_tree_wise_refused",
    "Verif.Props.C114_violated_equal",
    "Verif.Props.C114_query_wise_metrics_partial",
    "Verif.Props.C114_query_wise_models_partial",
    "Verif.Props.C114_violated_models",
    "Verif.Props.C114_violated_metrics",
    "Verif.Props.C114_query_wise_refused",
    "Verif.Props.C114_graded_partial",
    "Verif.Props.C114_contribution_partial",
    "Verif.Props.C114_bars_partial",
    "Verif.Props.C114_classes_models_partial",
    "Verif.Props.C114_classes_metrics_partial",
    "Verif.Props.C114_violated_classes",
    "Verif.Props.C114_violated_hidden",
    "Verif.Props.C114_violated_bars_equal",
    "Verif.Props.C114_empty",
    "Verif.Props.C114_columns"
   ],
   "note": "The full property is false. Proved when the labels of each axis differ: contents, names, legends and colours of all figures. Violations: equal labels (C114_violated_equal), names hidden by legends (C114_violated_hidden), subplots without names (C114_violated_models, C114_violated_metrics, C114_violated_classes). Colours are numbers in the colour cycle, which repeats after the colours of the palette; Axes.bar with more than one row is simplified to an exception."
  },
  {
   "property": "C115",
   "status": "partial",
   "theorems": [
    "Verif.Props.C115_scores",
    "Verif.Props.C115_subset",
    "Verif.Props.C115_split_partial",
    "Verif.Props.C115_kfold_partial",
    "Verif.Props.C115_ndcg_partial",
    "Verif.Props.C115_violated_mse",
    "Verif.Props.C115_violated_ids"
   ],
   "note": "Proved for subset, for the scores (any arithmetic), for split when a query is left for the test part, for kfold with at least 3 folds and as many queries, and for NDCG with its cache. The averages are exact numbers. Violations: MSE (C115_violated_mse), ids outside of int32 (C115_violated_ids), and those of C06 and C07."
  },
  {
   "property": "C116",
   "status": "partial",
   "theorems": [
    "Verif.Props.C116_order_partial",
    "Verif.Props.C116_ndcg_partial",
    "Verif.Props.C116_names",
    "Verif.Props.C116_violated_names_mse",
    "Verif.Props.C116_violated_ties",
    "Verif.Props.C116_violated_scattered"
   ],
   "note": "Names: proved for every metric evaluated by Metric.eval. Order: proved for the ten ranking metrics and for NDCG.eval, for queries in one piece and ties between equal labels only; averages are exact numbers. Violations: ties between different labels for every argsort (C116_violated_ties), scattered queries (C116_violated_scattered), MSE under other names (C116_violated_names_mse)."
  },
  {
   "property": "C117",
   "status": "partial",
   "theorems": [
    "Verif.Props.Sessions.C117_performance_partial",
    "Verif.Props.Sessions.C117_significance_partial",
    "Verif.Props.Sessions.C117_history_partial",
    "Verif.Props.Sessions.C117_unchanged_partial",
    "Verif.Props.Sessions.C117_exact",
    "Verif.Props.Sessions.C117_violated_by_rounding",
    "Verif.Props.Sessions.C117_violated_interrupted"
   ],
   "note": "Proved for sessions without interrupted score calls and with detailed scores cached only if the arithmetic gives them the same predictions (true for exact numbers, C117_exact), and for dataset objects that are equal in all arrays whenever dictionaries identify them. Violations: C117_violated_by_rounding, C117_violated_interrupted; equal keys with other query boundaries are C17_violated. Missing: datasets changed in place. The other effectiveness analyses are C118."
  },
  {
   "property": "C118",
   "status": "partial",
   "theorems": [
    "Verif.Props.Sessions.C118_treeWise_partial",
    "Verif.Props.Sessions.C118_contribution_partial",
    "Verif.Props.Sessions.C118_queryWise_partial",
    "Verif.Props.Sessions.C118_queryClass_partial",
    "Verif.Props.Sessions.C118_graded_partial",
    "Verif.Props.Sessions.C118_confusion_partial",
    "Verif.Props.Sessions.C118_history_partial",
    "Verif.Props.Sessions.C118_performance_partial",
    "Verif.Props.Sessions.C118_violated_by_rounding"
   ],
   "note": "Proved for sessions as in C117 (detailed scores cached only if they agree, no interrupted calls), for cells that are computed without exception (C118_history_partial: exceptions do not depend on the history either), metric values that are numbers for query-wise tables and classes, and a step of at most the number of trees of each model. Missing: float32 conversion of the tables, rounding of the sums of partial scores, bounds of counters. Violation: C118_violated_by_rounding."
  },
  {
   "property": "C119",
   "status": "partial",
   "theorems": [
    "Verif.Props.C119_describe_partial",
    "Verif.Props.C119_empty",
    "Verif.Props.C119_bounds",
    "Verif.Props.C119_order",
    "Verif.Props.C119_level",
    "Verif.Props.C119_rows",
    "Verif.Props.C119_total",
    "Verif.Props.C119_fullness",
    "Verif.Props.C119_violated_single"
   ],
   "note": "Proved with the hypotheses of C44 and exact arithmetic; scipy.stats.describe by its documentation, with skewness and kurtosis of equal heights as arguments (they depend on the version). Missing: floating point, float32 counts, models that are not parents first (C44_violated_child_first). Violation: C119_violated_single."
  },
  {
   "property": "C120",
   "status": "partial",
   "theorems": [
    "Verif.Props.C120_cells_partial",
    "Verif.Props.C120_order_partial",
    "Verif.Props.C120_all_trees_partial",
    "Verif.Props.C120_fullness_partial",
    "Verif.Props.C120_violated"
   ],
   "note": "Proved for fewer than 2^24 trees (and nodes in a level), for which float32 counts are exact; that all trees give exactly 1 is false (C120_violated), and 1 or the number before is proved (C120_all_trees_partial). Scipy's division of a sparse matrix by a number is modelled from its source. Missing: more trees."
  },
  {
   "property": "C121",
   "status": "partial",
   "theorems": [
    "Verif.Props.C121_prefix",
    "Verif.Props.C121_targets",
    "Verif.Props.C121_file",
    "Verif.Props.C121_emptied",
    "Verif.Props.C121_label",
    "Verif.Props.C121_calls",
    "Verif.Props.C121_violated",
    "Verif.Props.C121_violated_names"
   ],
   "note": "C121_file gives the result and the text for every limit; C121_prefix and C121_targets hold for any arrays and arguments. That a failing call keeps the old file is false (C121_violated, C121_violated_names, C121_emptied). Nested calls of numpy and matplotlib are a parameter or not counted; opening and closing of the file do not fail."
  },
  {
   "property": "C122",
   "status": "partial",
   "theorems": [
    "Verif.Props.C122_refused",
    "Verif.Props.C122_emptied",
    "Verif.Props.C122_prefix",
    "Verif.Props.C122_lines",
    "Verif.Props.C122_file",
    "Verif.Props.C122_not_tree",
    "Verif.Props.C122_outputs",
    "Verif.Props.C122_violated",
    "Verif.Props.C122_violated_types"
   ],
   "note": "C122_file gives the result and the text for every limit on nested calls, C122_refused, C122_not_tree, C122_emptied, C122_prefix and C122_lines hold for any model, C122_outputs for a leaf with several outputs. That the file of a failed call cannot be taken for a model is false (C122_violated, C122_violated_types). Calls nested by numpy and the import are parameters; opening and writing do not fail."
  },
  {
   "property": "C123",
   "status": "partial",
   "theorems": [
    "Verif.Props.C123_xgboost",
    "Verif.Props.C123_scikit",
    "Verif.Props.C123_errors",
    "Verif.Props.C123_cut",
    "Verif.Props.C123_cut_scikit_partial",
    "Verif.Props.C123_export_partial",
    "Verif.Props.C123_order",
    "Verif.Props.C123_violated"
   ],
   "note": "C123_xgboost and C123_scikit say exactly which lines are accepted, C123_errors how others are refused. That incomplete dumps are refused is false: C123_cut (all XGBoost dumps), C123_cut_scikit_partial and C123_export_partial (numbering in the order of the lines; with another numbering the file may be refused, C123_order), C123_violated (other scores). Cuts inside a line and lines the expressions do not match as in C71 are not covered."
  },
  {
   "property": "C124",
   "status": "partial",
   "theorems": [
    "Verif.Props.C124_cut",
    "Verif.Props.C124_text_partial",
    "Verif.Props.C124_unfinished",
    "Verif.Props.C124_scores_partial",
    "Verif.Props.C124_scores_early_partial",
    "Verif.Props.C124_violated"
   ],
   "note": "That incomplete files are refused is false: C124_cut (lines) and C124_text_partial (text) show that every model cut off between two lines is loaded, and give its number of trees and its weights; C124_unfinished and C124_scores_partial show that a model that lacks the last shrinkage gives the scores of the other trees, C124_scores_early_partial the same for models that end after the features, thresholds or left children of a tree; C124_violated has the scores of examples, and an example where scoring reads outside the arrays. Missing: cuts inside a line, features from 2^15 on, the scores after the other cuts (after the number of leaves, after the right children)."
  }
 ]
}