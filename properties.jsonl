{"id": "C01", "title": "Query blocks partition the rows of a dataset", "statement": "Building a Dataset from X, y and a per-row query id array always yields query blocks that tile the rows: the first block starts at row 0, consecutive blocks touch, no block is empty, the last one ends at n_instances, n_queries is the number of distinct ids and the ids are listed in order of first appearance; a query id array of the wrong length is rejected.", "quantifier": "every query id array (any length, any ids, contiguous or not)", "why_tests_cant": "the number of rows, queries and id layouts is unbounded; a tiling error shows up only on particular layouts", "anchors": ["rankeval/dataset/dataset.py:Dataset.__init__", "rankeval/dataset/dataset.py:Dataset.query_iterator", "rankeval/dataset/dataset.py:Dataset.get_query_sizes"]}
{"id": "C02", "title": "Every row is evaluated under its own query", "statement": "Every row yielded by query_iterator under query id q was given query id q by the caller, and every row given id q is yielded under q. (The code guarantees this only when the rows of each query are contiguous; otherwise rows silently change query.)", "quantifier": "every query id array", "why_tests_cant": "silent misattribution depends on the layout of ids over the whole file", "anchors": ["rankeval/dataset/dataset.py:Dataset.__init__", "rankeval/dataset/dataset.py:Dataset.query_iterator"]}
{"id": "C03", "title": "Per-row query ids can be recovered from a Dataset", "statement": "For a dataset whose queries are contiguous, get_qids_dataset returns exactly the query id array the dataset was built from, get_query_sizes lists the number of rows of each query in order and sums to n_instances, get_query_offsets(q) returns the block of q for every present id and an error for an absent one, and rebuilding a Dataset from get_qids_dataset gives the same queries and offsets.", "quantifier": "every dataset with contiguous queries, every id", "why_tests_cant": "round trip over unbounded arrays", "anchors": ["rankeval/dataset/dataset.py:Dataset.get_qids_dataset", "rankeval/dataset/dataset.py:Dataset.get_query_sizes", "rankeval/dataset/dataset.py:Dataset.get_query_offsets"]}
{"id": "C04", "title": "subset keeps exactly the rows of the requested queries", "statement": "d.subset(Q) contains exactly the rows of d whose query is in Q, in the original order, with features, labels and query ids still aligned row by row; ids in Q that do not occur are ignored and duplicates in Q do not matter.", "quantifier": "every dataset, every list of query ids", "why_tests_cant": "all subsets of all datasets", "anchors": ["rankeval/dataset/dataset.py:Dataset.subset"]}
{"id": "C05", "title": "subset_features keeps rows, labels and queries and selects the given columns", "statement": "d.subset_features(F) has the rows, labels, query ids and offsets of d, and the features of row i are those of d at the positions in F, in the order of F.", "quantifier": "every dataset and feature list within range", "why_tests_cant": "all feature lists", "anchors": ["rankeval/dataset/dataset.py:Dataset.subset_features"]}
{"id": "C06", "title": "split partitions the queries into train, validation and test", "statement": "d.split(train_size, vali_size) returns train, (validation) and test datasets such that every row of d is in exactly one of them, together with all the rows of its query, for every outcome of the random permutation. (The code violates it when the rounded sizes leave no query for the test set: the test set then overlaps the others.)", "quantifier": "every dataset, every admissible train_size and vali_size, every random permutation", "why_tests_cant": "random permutations and rounding of sizes cannot be enumerated", "anchors": ["rankeval/dataset/dataset.py:Dataset.split"]}
{"id": "C07", "title": "kfold gives disjoint covering folds and rotates the test set", "statement": "For each fold train, validation and test query ids are pairwise disjoint and together are all the queries, every query is in the test set of exactly one fold and in the validation set of exactly one fold, and no part is empty. (The code violates it for n_folds=2, where train is empty, and for n_folds greater than the number of queries.)", "quantifier": "every dataset, every n_folds, every shuffle outcome", "why_tests_cant": "all n_folds and sizes with remainders, all shuffles", "anchors": ["rankeval/dataset/dataset.py:Dataset.kfold"]}
{"id": "C08", "title": "Equal datasets are interchangeable", "statement": "If two Dataset objects compare equal (and so share cache entries), they have the same rows, labels and the same division of rows into queries, hence the same metric values; and equal datasets have equal hashes. (The code compares the list of distinct ids and not the block boundaries, so datasets with different query blocks compare equal.)", "quantifier": "every pair of datasets", "why_tests_cant": "ranges over pairs of datasets", "anchors": ["rankeval/dataset/dataset.py:Dataset.__eq__", "rankeval/dataset/dataset.py:Dataset.__hash__"]}
{"id": "C09", "title": "Loading an SVMlight file yields the dense zero-filled matrix the file denotes", "statement": "For a file whose rows list feature ids in increasing order starting from 1, load returns as X[i,j] the value that row i gives to feature j+1 and 0 if it gives none, with n_features the largest feature id in the file, whatever the order in which wider rows appear; labels and query ids are those of the rows in order. (The code violates it when the file starts with rows that have no feature at all.)", "quantifier": "every file of well-formed rows", "why_tests_cant": "the in-place re-layout runs at data dependent points; all row width sequences", "anchors": ["rankeval/dataset/svmlight_format.py:load_svmlight_file", "rankeval/dataset/_svmlight_format.cpp:parse_line", "rankeval/dataset/_svmlight_format.cpp:reshape_data", "rankeval/dataset/_svmlight_format.cpp:parse_file"]}
{"id": "C10", "title": "Malformed SVMlight rows are rejected and comments ignored", "statement": "A comment line changes nothing; a row without numeric label, or with a feature token that is not id:value, makes the load fail rather than yield a partial dataset; text after # is ignored; adding comment lines or trailing comments to a file does not change the loaded data.", "quantifier": "every sequence of rows, comments and malformed lines", "why_tests_cant": "all interleavings of malformed and well-formed lines", "anchors": ["rankeval/dataset/_svmlight_format.cpp:parse_line", "rankeval/dataset/_svmlight_format.cpp:parse_file"]}
{"id": "C11", "title": "Dumping a dataset and loading it back gives the same dataset", "statement": "For every dataset with at least one feature, dump followed by load returns the same feature matrix, labels and query ids. (The code violates it for a dataset with exactly one row, whose query id is not written.)", "quantifier": "every matrix, label vector and query id vector, both index bases", "why_tests_cant": "all sizes; the failure occurs at a boundary size", "anchors": ["rankeval/dataset/dataset.py:Dataset.dump", "rankeval/dataset/svmlight_format.py:dump_svmlight_file", "rankeval/dataset/_svmlight_format.cpp:dump_svmlight_file", "rankeval/dataset/_svmlight_format.cpp:parse_line"]}
{"id": "C12", "title": "Nine significant digits preserve every single precision value", "statement": "Every finite single precision number printed with 9 significant digits, read as double and narrowed to single precision is the number itself, so dump loses no precision.", "quantifier": "every finite float32 value (about 4 billion), every correct decimal rounding", "why_tests_cant": "exhaustive test over all floats and rounding choices is not done by unit tests; the argument is about error bounds", "anchors": ["rankeval/dataset/_svmlight_format.cpp:dump_svmlight_file", "rankeval/dataset/_svmlight_format.cpp:parse_line"]}
{"id": "C13", "title": "Metric.eval is the mean of the per-query values, each from its own rows only", "statement": "For every metric built on the common evaluation loop, detailed_scores[i] is the value of the metric on the labels and predicted scores of the i-th query block, the returned average is the mean of those values over the queries with a defined value, and changing the scores of one query changes only its own entry.", "quantifier": "every dataset, score vector and per-query metric", "why_tests_cant": "non-interference over all datasets and all score vectors", "anchors": ["rankeval/metrics/metric.py:Metric.eval", "rankeval/metrics/metric.py:Metric.query_iterator"]}
{"id": "C14", "title": "Precision is the fraction of retrieved documents that are relevant", "statement": "Precision on a query is the number of documents among the retrieved (top cutoff by predicted score, or all) with label >= threshold divided by the number retrieved; it lies in [0,1]; PrecisionMax is the same with the maximum label of the query as threshold.", "quantifier": "every query, score vector, cutoff and threshold, every tie order", "why_tests_cant": "all rankings and tie orders", "anchors": ["rankeval/metrics/precision.py:Precision.eval_per_query", "rankeval/metrics/precision_max.py:PrecisionMax.eval_per_query"]}
{"id": "C15", "title": "Recall is the fraction of relevant documents retrieved", "statement": "Recall on a query is the number of retrieved relevant documents over the number of relevant documents, or no_relevant_results if there is none; it is in [0,1], does not decrease when the cutoff grows and is 1 without cutoff; precision times retrieved equals recall times relevant.", "quantifier": "every query, score vector, cutoff and threshold, every tie order", "why_tests_cant": "all rankings, cutoffs and tie orders", "anchors": ["rankeval/metrics/recall.py:Recall.eval_per_query"]}
{"id": "C16", "title": "NDCG is in [0,1] and is 1 exactly for ideal ranking", "statement": "For non-negative labels NDCG of a query is between 0 and 1 for every ranking and cutoff and both gain functions, is 1 when documents are ranked by decreasing label, and DCG of any ranking never exceeds that of the ranking by labels.", "quantifier": "every query with non-negative labels, score vector, cutoff, tie order", "why_tests_cant": "optimality over all n! rankings", "anchors": ["rankeval/metrics/dcg.py:DCG.eval_per_query", "rankeval/metrics/ndcg.py:NDCG.eval_per_query"]}
{"id": "C17", "title": "NDCG.eval does not depend on what was evaluated before", "statement": "For every sequence of NDCG evaluations on any datasets with one NDCG object, each evaluation returns what a fresh NDCG object would return. (The code guarantees it when datasets that compare equal have the same query blocks; otherwise a stale ideal DCG is used.)", "quantifier": "every history of evaluations", "why_tests_cant": "unbounded histories over a shared cache", "anchors": ["rankeval/metrics/ndcg.py:NDCG.eval", "rankeval/dataset/dataset.py:Dataset.__eq__"]}
{"id": "C18", "title": "NDCG.eval_per_query works in every state of the metric object", "statement": "NDCG.eval_per_query(y, y_pred) returns the NDCG of that query whatever was called on the object before. (The code violates it: after any eval the object keeps a query cursor and the call fails or uses the ideal of another query.)", "quantifier": "every history of calls", "why_tests_cant": "history dependent", "anchors": ["rankeval/metrics/ndcg.py:NDCG.eval_per_query", "rankeval/metrics/ndcg.py:NDCG.eval"]}
{"id": "C19", "title": "ERR follows the cascade model and is bounded", "statement": "ERR equals the expected reciprocal of the stopping rank in the cascade user model whose stopping probability at a document is (2^label-1)/2^maxlabel; it is in [0,1) for non-negative labels and is maximal when documents are ranked by decreasing label.", "quantifier": "every query with non-negative labels, score vector, cutoff, tie order", "why_tests_cant": "optimality over all rankings", "anchors": ["rankeval/metrics/err.py:ERR.eval_per_query"]}
{"id": "C20", "title": "Pfound is the cascade probability of finding and is bounded", "statement": "Pfound is the sum over retrieved ranks of the probability of reaching the rank times the probability of satisfaction there, is in [0,1] for non-negative labels and p_abandonment in [0,1]. The documentation calls the parameter the probability of abandoning: then pfound should not increase with it (the code uses it as probability of continuing, and pfound never decreases with it).", "quantifier": "every query with non-negative labels, score vector, cutoff, p_abandonment in [0,1]", "why_tests_cant": "monotonicity over a continuous parameter and all rankings", "anchors": ["rankeval/metrics/pfound.py:Pfound.eval_per_query"]}
{"id": "C21", "title": "RBP is geometric weighted precision, bounded, and P@1 for p=0", "statement": "RBP is (1-p) times the sum of p^i over the relevant retrieved ranks i (from 0), is in [0,1] for p in [0,1), at most 1-p^n for n retrieved documents with equality when all are relevant, and for p=0 equals precision at cutoff 1.", "quantifier": "every query, score vector, cutoff, threshold, p in [0,1)", "why_tests_cant": "all rankings and p", "anchors": ["rankeval/metrics/rbp.py:RBP.eval_per_query"]}
{"id": "C22", "title": "MRR is the reciprocal rank of the first relevant retrieved document", "statement": "MRR on a query is 1/r where r is the 1-based rank of the first retrieved document with label >= threshold, and 0 iff no relevant document is retrieved; it is in [0,1] and does not decrease when the cutoff grows.", "quantifier": "every query, score vector, cutoff, threshold, tie order", "why_tests_cant": "all rankings", "anchors": ["rankeval/metrics/mrr.py:MRR.eval_per_query"]}
{"id": "C23", "title": "MAP is average precision, bounded, 1 for ideal ranking, and low when nothing relevant is retrieved", "statement": "AP on a query with relevant documents is the sum of precision at the ranks of relevant retrieved documents over min(retrieved, relevant); it is in [0,1], is 1 when all relevant documents come first, and is 0 when relevant documents exist but none is retrieved. (The code violates the last part: it returns no_relevant_results, by default 1.)", "quantifier": "every query, score vector, cutoff, tie order", "why_tests_cant": "all rankings; the violation is a corner case", "anchors": ["rankeval/metrics/map.py:MAP.eval_per_query"]}
{"id": "C24", "title": "MSE.eval returns the mean squared error over all instances for any query ids", "statement": "MSE.eval returns the sum over all rows of (y-y_pred)^2 divided by n_instances and the per-query shares in the order of the queries, for every dataset. (The code stores shares at the position given by the query id, so it fails or misplaces values unless ids are 0..n_queries-1.)", "quantifier": "every dataset and score vector", "why_tests_cant": "depends on the ids in the data", "anchors": ["rankeval/metrics/mse.py:MSE.eval", "rankeval/metrics/mse.py:MSE.eval_per_query"]}
{"id": "C25", "title": "RMSE is zero iff predictions are exact and is the root of the summed squares per query", "statement": "RMSE on a query is the square root of the MSE value of the metric for the query, non-negative and 0 exactly when all retrieved predictions are exact; it satisfies the documented root mean square only for queries with one retrieved row.", "quantifier": "every query and score vector", "why_tests_cant": "all real vectors", "anchors": ["rankeval/metrics/rmse.py:RMSE.eval_per_query", "rankeval/metrics/mse.py:MSE.eval_per_query"]}
{"id": "C26", "title": "Rank metrics depend on scores only through the induced order", "statement": "Applying a strictly increasing function to all predicted scores changes no value of Precision, Recall, DCG, NDCG, ERR, Pfound, RBP, MRR, MAP; with distinct scores the value does not depend on the sorting algorithm nor on the order in which the documents of the query are stored.", "quantifier": "every query, score vector, strictly increasing transform, permutation of documents, sorting algorithm", "why_tests_cant": "all transforms, permutations and sorting implementations", "anchors": ["rankeval/metrics/precision.py", "rankeval/metrics/recall.py", "rankeval/metrics/dcg.py", "rankeval/metrics/ndcg.py", "rankeval/metrics/err.py", "rankeval/metrics/pfound.py", "rankeval/metrics/rbp.py", "rankeval/metrics/mrr.py", "rankeval/metrics/map.py"]}
{"id": "C27", "title": "Cutoffs larger than the result list change nothing and only the top matters", "statement": "A cutoff not smaller than the number of documents gives the same value as no cutoff; documents ranked below the cutoff influence DCG, RBP, MRR and Precision in no way, and their order influences no metric.", "quantifier": "every query, score vector, cutoff", "why_tests_cant": "all cutoffs", "anchors": ["rankeval/metrics/precision.py", "rankeval/metrics/dcg.py", "rankeval/metrics/rbp.py", "rankeval/metrics/mrr.py", "rankeval/metrics/err.py", "rankeval/metrics/pfound.py"]}
{"id": "C28", "title": "Swapping a more relevant document upwards never lowers a ranking metric", "statement": "If two documents at ranks i<j are exchanged so that the more relevant one comes to rank i, then DCG, NDCG, Precision, Recall, RBP, MRR, ERR and Pfound do not decrease, nor does MAP if a relevant document was retrieved before.", "quantifier": "every query, ranking, pair of ranks, cutoff", "why_tests_cant": "all rankings and swaps", "anchors": ["rankeval/metrics/dcg.py", "rankeval/metrics/err.py", "rankeval/metrics/rbp.py", "rankeval/metrics/mrr.py", "rankeval/metrics/precision.py", "rankeval/metrics/recall.py"]}
{"id": "C29", "title": "Scoring an ensemble equals the weighted sum of its regression trees", "statement": "For every well-formed model and dataset the score of a row is the sum over the trees of weight times the value of the leaf reached by following feature<=threshold to the left and otherwise to the right; scoring always terminates.", "quantifier": "every ensemble of binary trees of any shape and depth, every row", "why_tests_cant": "all tree shapes and inputs; termination", "anchors": ["rankeval/scoring/_efficient_scoring.pyx:_efficient_scoring_trees", "rankeval/scoring/_efficient_scoring.pyx:basic_scoring", "rankeval/model/rt_ensemble.py:RTEnsemble.score"]}
{"id": "C30", "title": "Detailed scoring agrees with basic scoring", "statement": "With detailed=True the returned partial score of row i and tree t is the contribution of that tree, rows of the partial matrix sum to the same prediction as basic scoring, and the reported leaf of tree t is a leaf node of tree t whose value times weight is the partial score.", "quantifier": "every well-formed ensemble and dataset", "why_tests_cant": "all tree shapes and inputs", "anchors": ["rankeval/scoring/_efficient_scoring.pyx:detailed_scoring", "rankeval/scoring/scorer.py:Scorer.score"]}
{"id": "C31", "title": "The feature compatibility check makes scoring memory safe", "statement": "If score does not raise the feature mismatch error on a well-formed model, every read of X, node arrays and root arrays made by the scoring loops is inside the arrays; if some split uses a feature the dataset lacks, score raises before any read.", "quantifier": "every well-formed ensemble and every dataset", "why_tests_cant": "memory safety on all inputs", "anchors": ["rankeval/model/rt_ensemble.py:RTEnsemble.score", "rankeval/scoring/_efficient_scoring.pyx"]}
{"id": "C32", "title": "Parallel scoring is schedule independent", "statement": "The parallel loops over instances (basic) and over trees (detailed) give the same arrays as sequential execution for every interleaving of the iterations of the threads.", "quantifier": "every interleaving of the steps of all iterations", "why_tests_cant": "schedules", "anchors": ["rankeval/scoring/_efficient_scoring.pyx:basic_scoring", "rankeval/scoring/_efficient_scoring.pyx:detailed_scoring"]}
{"id": "C33", "title": "The score cache is transparent", "statement": "For every history of score (with any detailed and cache flags), clear_cache and copy calls, each score call returns what scoring without cache returns.", "quantifier": "every finite history of calls on any datasets", "why_tests_cant": "unbounded histories", "anchors": ["rankeval/model/rt_ensemble.py:RTEnsemble.score", "rankeval/model/rt_ensemble.py:RTEnsemble.clear_cache", "rankeval/model/rt_ensemble.py:RTEnsemble.copy"]}
{"id": "C34", "title": "Learning rate and base score are applied exactly once", "statement": "score returns base_score + learning_rate * (sum of tree contributions); with detailed=True the partial scores sum to the returned score, the base score being charged to the first tree.", "quantifier": "every model, learning rate, base score, dataset, detailed flag", "why_tests_cant": "all values and both paths", "anchors": ["rankeval/model/rt_ensemble.py:RTEnsemble.score"]}
{"id": "C35", "title": "Pruning to n trees keeps exactly the first n trees", "statement": "copy(n_trees=n) (or loading with n_trees=n) gives a well-formed model with n trees whose score on any row is base_score + learning_rate * (sum of the contributions of the first n trees of the original); the original is unchanged and n at least the number of trees changes nothing.", "quantifier": "every well-formed ensemble, every n, every row", "why_tests_cant": "all ensembles", "anchors": ["rankeval/model/rt_ensemble.py:RTEnsemble._prune_model", "rankeval/model/rt_ensemble.py:RTEnsemble.copy"]}
{"id": "C36", "title": "Tree statistics match the trees", "statement": "num_leaves, num_nodes and height_trees give for each tree its number of leaves, of nodes and its height; max_leaves is the maximum of num_leaves; num_nodes = 2*num_leaves-1; is_leaf_node holds exactly for leaves.", "quantifier": "every well-formed ensemble", "why_tests_cant": "all tree shapes", "anchors": ["rankeval/model/rt_ensemble.py:RTEnsemble.num_leaves", "rankeval/model/rt_ensemble.py:RTEnsemble.num_nodes", "rankeval/model/rt_ensemble.py:RTEnsemble.height_trees", "rankeval/model/rt_ensemble.py:RTEnsemble.max_leaves", "rankeval/model/rt_ensemble.py:RTEnsemble.is_leaf_node"]}
{"id": "C37", "title": "Saving in QuickRank format and loading back preserves the model", "statement": "Saving a model to QuickRank XML and loading it gives a model with the same trees and weights and hence the same predictions. (The code violates it for models with learning_rate other than 1 or with a base_score: both are lost.)", "quantifier": "every ensemble", "why_tests_cant": "all tree shapes; event driven parser with stack", "anchors": ["rankeval/model/proxy_QuickRank.py:ProxyQuickRank.load", "rankeval/model/proxy_QuickRank.py:ProxyQuickRank.save", "rankeval/model/proxy_QuickRank.py:ProxyQuickRank._get_node_xml_element", "rankeval/model/proxy_QuickRank.py:ProxyQuickRank._count_nodes"]}
{"id": "C38", "title": "Loading an XGBoost text dump rebuilds its trees", "statement": "Loading the text dump of a forest (nodes in depth first order, yes branch first) yields arrays that decode to the same trees, with weight 1 and the default base score 0.5.", "quantifier": "every forest of binary trees with any node numbering", "why_tests_cant": "all tree shapes; stack machine", "anchors": ["rankeval/model/proxy_XGBoost.py:ProxyXGBoost.load"]}
{"id": "C39", "title": "XGBoost strict comparisons are translated exactly", "statement": "A row goes to the left child in the loaded model iff XGBoost sends it to the yes branch, i.e. x<t iff x<=stored threshold, for all single precision x and t. (The code violates it for thresholds so large that t-1 rounds to t.)", "quantifier": "every pair of float32 values", "why_tests_cant": "2^64 pairs, fails only in a rare range", "anchors": ["rankeval/model/proxy_XGBoost.py:ProxyXGBoost.load"]}
{"id": "C40", "title": "Loading a ScikitLearn export rebuilds its trees", "statement": "Loading a model file listing nodes of each tree with their ids in depth first order yields arrays that decode to the same trees, with the base score and learning rate in the file.", "quantifier": "every forest, every depth first consistent numbering", "why_tests_cant": "all tree shapes; stack machine", "anchors": ["rankeval/model/proxy_ScikitLearn.py:ProxyScikitLearn.load", "rankeval/model/proxy_ScikitLearn.py:ProxyScikitLearn.export_scikit_model"]}
{"id": "C41", "title": "Loading a LightGBM model rebuilds its trees", "statement": "Loading the array encoding of LightGBM (split indices >= 0, leaves as negative codes) yields arrays that decode to the same trees, with shrinkage ignored as weight; unsupported decision types or categorical splits are rejected.", "quantifier": "every forest in the array encoding", "why_tests_cant": "all tree shapes and index encodings", "anchors": ["rankeval/model/proxy_LightGBM.py:ProxyLightGBM.load"]}
{"id": "C42", "title": "Loading a jforests model rebuilds its trees", "statement": "Loading the array encoding of jforests (split indices >= 0, leaves as negative codes, one weight per tree) yields arrays that decode to the same trees and weights.", "quantifier": "every forest in the array encoding", "why_tests_cant": "all tree shapes and index encodings", "anchors": ["rankeval/model/proxy_Jforests.py:ProxyJforests.load"]}
{"id": "C43", "title": "Loading a CatBoost CoreML model rebuilds its trees", "statement": "Loading a CoreML tree ensemble yields arrays that decode to the trees of the file, for every ensemble. (The code guarantees it only when all trees have the same number of nodes.)", "quantifier": "every ensemble", "why_tests_cant": "trees of different sizes are not in the test data", "anchors": ["rankeval/model/proxy_CatBoost.py:ProxyCatBoost.load"]}
{"id": "C44", "title": "Topological analysis counts the trees that have each node position", "statement": "The topology matrix holds at (level, position) the number of trees having a node there, the height statistics are those of the trees, and avg_tree_shape cells are in [0,1].", "quantifier": "every well-formed ensemble whose trees have height below 63", "why_tests_cant": "all tree shapes, bit arithmetic on 64 bit words", "anchors": ["rankeval/analysis/_efficient_topological.pyx", "rankeval/analysis/topological.py:TopologicalAnalysisResult"]}
{"id": "C45", "title": "Fullness of a level is 1 only if the level is full in every tree", "statement": "fullness_per_level is in [0,1] and reaches 1 only for a level where all 2^level positions are present in all trees. (The code violates the second part.)", "quantifier": "every ensemble", "why_tests_cant": "all tree shapes", "anchors": ["rankeval/analysis/topological.py:TopologicalAnalysisResult.fullness_per_level"]}
{"id": "C46", "title": "Feature importances are non-negative and sum to the error reduction", "statement": "For MSE the importance of each feature is non-negative and the importances sum to the total reduction of the squared error obtained by the means of the documents at the visited nodes.", "quantifier": "every ensemble and dataset in which no visited node sends all its documents to one side at position 0", "why_tests_cant": "all datasets and tree shapes; in place partition loop", "anchors": ["rankeval/analysis/_efficient_feature_impl.cpp", "rankeval/analysis/feature.py:feature_importance"]}
{"id": "C47", "title": "Feature importance never reads or writes outside its arrays", "statement": "For every well-formed ensemble and dataset the document index ranges visited stay within the rows of the dataset. (The code violates it: a signed/unsigned comparison makes an empty left part at row 0 look huge.)", "quantifier": "every well-formed ensemble and dataset", "why_tests_cant": "depends on the data reaching a rare partition", "anchors": ["rankeval/analysis/_efficient_feature_impl.cpp"]}
{"id": "C48", "title": "RMSE feature importance is the square root of the MSE one for every feature", "statement": "feature_importance with RMSE returns for every feature the square root of its MSE importance. (The code applies the square root to the first feature only.)", "quantifier": "every ensemble and dataset with at least two features", "why_tests_cant": "tests look only at one vector", "anchors": ["rankeval/analysis/feature.py:feature_importance"]}
{"id": "C49", "title": "Randomization test p-values are probabilities and ordered", "statement": "For every pair of score vectors and all random swaps, both p-values are in [0,1], the one-sided is at most the two-sided, and both are 1 when the two vectors are equal.", "quantifier": "every pair of score vectors, every sequence of random swaps", "why_tests_cant": "random draws", "anchors": ["rankeval/analysis/statistical.py:_randomization"]}
{"id": "C50", "title": "Randomization test does not depend on the order of the two models", "statement": "For models with different mean score, exchanging the two models gives the same p-values under the same random swaps; over all 2^n swaps the two-sided p-value is twice the one-sided when the observed difference is positive.", "quantifier": "every pair of score vectors, every swap sequence", "why_tests_cant": "random draws", "anchors": ["rankeval/analysis/statistical.py:_randomization"]}
{"id": "C51", "title": "Cross-validated scoring never trains on the query it predicts", "statement": "In the k-fold scoring of bias_variance each row gets exactly one prediction, from a model trained on all the rows of other queries' chunks and none of its own query, and query sizes given to the learner describe exactly the training rows.", "quantifier": "every dataset, k and permutation", "why_tests_cant": "random permutations", "anchors": ["rankeval/analysis/statistical.py:_kfold_scoring", "rankeval/analysis/statistical.py:_multi_kfold_scoring"]}
{"id": "C52", "title": "Bias and variance add up to the error", "statement": "For MSE-based bias_variance the reported error equals bias plus variance, variance is non-negative and zero iff all repetitions agree.", "quantifier": "every prediction matrix", "why_tests_cant": "all real matrices", "anchors": ["rankeval/analysis/statistical.py:bias_variance"]}
{"id": "C53", "title": "Tree-wise performance evaluates the true prefixes of the ensemble", "statement": "tree_wise_performance(step) evaluates the metric on the scores of exactly the first k trees for k = step, 2*step, ... and the last point is the full model. (Coordinates are wrong for a model smaller than the largest; step larger than the ensemble fails.)", "quantifier": "every partial score matrix, every step", "why_tests_cant": "all sizes and steps", "anchors": ["rankeval/analysis/effectiveness.py:tree_wise_performance"]}
{"id": "C54", "title": "Query-wise performance is a cumulative distribution", "statement": "query_wise_performance returns for each bin the fraction of queries with score up to the right edge of the bin; values are non-decreasing in [0,1] and the last is 1 when the range covers all scores. (Bin labels are right edges only for range length 1.)", "quantifier": "every score vector, bins, range", "why_tests_cant": "all vectors", "anchors": ["rankeval/analysis/effectiveness.py:query_wise_performance"]}
{"id": "C55", "title": "Query-class performance averages exactly the queries of the class", "statement": "query_class_performance gives for each class the mean metric over the queries of that class; the class sizes-weighted mean of the class values is the overall mean.", "quantifier": "every assignment of queries to classes", "why_tests_cant": "all assignments", "anchors": ["rankeval/analysis/effectiveness.py:query_class_performance"]}
{"id": "C56", "title": "Rank confusion matrix counts ordered pairs", "statement": "rank_confusion_matrix counts each unordered pair of documents of a query exactly once, the cell (a,b) with a!=b holding the pairs where the document labelled a is scored lower than the one labelled b, independent of the order of documents in the data. (With ties the cell depends on storage order; documents are also paired with themselves.)", "quantifier": "every dataset, score vector", "why_tests_cant": "all datasets, ties", "anchors": ["rankeval/analysis/effectiveness.py:rank_confusion_matrix"]}
{"id": "C57", "title": "Graded relevance curves are cumulative distributions per label", "statement": "document_graded_relevance gives for each label a non-decreasing curve in [0,1] counting the documents of the label by predicted score.", "quantifier": "every dataset, score vector, bins", "why_tests_cant": "all vectors", "anchors": ["rankeval/analysis/effectiveness.py:document_graded_relevance"]}
{"id": "C58", "title": "Average tree contribution is the mean absolute partial score", "statement": "tree_wise_average_contribution of tree t is the mean over rows of |partial score|, zero iff the tree contributes to no row, and the sum over trees bounds the mean absolute score of a model without base score.", "quantifier": "every partial score matrix", "why_tests_cant": "all matrices", "anchors": ["rankeval/analysis/effectiveness.py:tree_wise_average_contribution"]}
{"id": "C59", "title": "Interrupted downloads are retried", "statement": "If a download is interrupted at any point, a later load_dataset call downloads again instead of using an incomplete directory. (The code violates it: the directory is created before the download and its existence is taken as completion.)", "quantifier": "every crash point and history of calls", "why_tests_cant": "crash points", "anchors": ["rankeval/dataset/datasets_fetcher.py:__fetch_dataset_and_models__"]}
{"id": "C60", "title": "load_dataset loads what was requested", "statement": "load_dataset calls the downloader at most once per missing resource, never touches existing complete data unless force_download, and force_download leaves freshly downloaded data.", "quantifier": "every initial directory state and option combination", "why_tests_cant": "all states of the file system and options", "anchors": ["rankeval/dataset/datasets_fetcher.py:load_dataset"]}
{"id": "C61", "title": "Feature importance for any metric is the sum of the changes at the splits", "statement": "For a metric other than MSE and RMSE, feature_importance gives each feature the sum, over the splits of all trees that test it, of the improvement of the metric by the split with respect to the predictions of its level, and as count the number of these splits; for the squared error this agrees with the efficient implementation. (The code subtracts in the order fit for errors, so improvements of a metric for which higher is better are negative; a tree that is a single leaf counts for the last feature.)", "quantifier": "every ensemble, dataset and metric", "why_tests_cant": "the breadth first bookkeeping by levels depends on the shape of each tree and the documents in each node", "anchors": ["rankeval/analysis/feature.py:feature_importance", "rankeval/analysis/feature.py:_feature_importance_tree"]}
{"id": "C62", "title": "Rank correlations are proper correlations", "statement": "Kendalltau and SpearmanRho of a query are NaN exactly if its labels or its scores are all equal and lie in [-1, 1] otherwise; tau is the documented tau-b; without ties they are 1-4Q/(n(n-1)) and 1-6*sum(d^2)/(n(n^2-1)); they are 1 (resp. -1) exactly for scores in the order (resp. opposite order) of the labels, invariant under strictly increasing functions, under exchange of labels and scores and under reordering the documents; on a dataset NaN queries are left out of the mean.", "quantifier": "every query and every dataset", "why_tests_cant": "sign, bound and equality cases over all orders and ties", "anchors": ["rankeval/metrics/kendall_tau.py:eval_per_query", "rankeval/metrics/spearman_rho.py:eval_per_query", "rankeval/metrics/metric.py:eval"]}
{"id": "C63", "title": "Each cell of the result tables belongs to its labels", "statement": "In the tables of model_performance, statistical_significance and bias_variance the cell with the coordinates of a dataset, a model (or algorithm) and a metric holds the value computed for exactly these, for all cells, and the tables have the lengths of the coordinate lists; the analyses succeed when all scorings and evaluations do.", "quantifier": "every list of datasets, models or algorithms and metrics", "why_tests_cant": "the order of the loops and that of the dimensions differ, tests use single datasets or models", "anchors": ["rankeval/analysis/effectiveness.py:model_performance", "rankeval/analysis/statistical.py:statistical_significance", "rankeval/analysis/statistical.py:bias_variance"]}
{"id": "C64", "title": "Significance of metrics that are undefined for some queries", "statement": "The p-values of statistical_significance are meaningful for every metric of the library, including those which are NaN for some queries (Kendall tau and Spearman rho for queries with equal labels or scores).", "quantifier": "every pair of vectors of metric values, with NaN", "why_tests_cant": "tests use NDCG, which is never NaN", "anchors": ["rankeval/analysis/statistical.py:_randomization", "rankeval/metrics/kendall_tau.py:eval_per_query"]}
{"id": "C65", "title": "export_graphviz draws the tree", "statement": "For every tree of an ensemble export_graphviz writes one box for each node up to max_depth, with its test or its output (rounded), '(...)' for their children, and exactly the edges from parents to children, with true/false at the root's edges; the ids of the boxes are distinct; the full drawing determines the tree up to rounding; a tree id that does not exist is an error.", "quantifier": "every ensemble, tree and maximal depth", "why_tests_cant": "the recursion follows the arrays of all tree shapes", "anchors": ["rankeval/visualization/topological.py:export_graphviz"]}
{"id": "C66", "title": "Document counts in the drawing", "statement": "With the leaves of a detailed scoring, each node shows the number of documents of the dataset that pass it, and with proportion the percentage of the documents.", "quantifier": "every ensemble, tree and dataset", "why_tests_cant": "sums over all subtrees and documents", "anchors": ["rankeval/visualization/topological.py:export_graphviz"]}
{"id": "C67", "title": "Feature names in the drawing", "statement": "A list with a name for each feature of the dataset is accepted by export_graphviz and used in the tests; a list that is too short is rejected by the check.", "quantifier": "every ensemble and list of names", "why_tests_cant": "boundary between number of names and largest feature used", "anchors": ["rankeval/visualization/topological.py:export_graphviz"]}
{"id": "C68", "title": "Scorer accessors return the scores in every sequence of calls", "statement": "In every sequence of calls of score (basic or detailed), get_predicted_scores, get_partial_predicted_scores and get_predicted_leaves on one Scorer each call returns the scores, the contributions of the trees without the weights and the exit leaves of the documents, and the scoring kernels run at most once for basic and once for detailed scoring. (The code violates it: get_predicted_leaves always raises, and the contributions include the weights.)", "quantifier": "every ensemble, document matrix and sequence of calls", "why_tests_cant": "the cached attributes depend on the order of the calls", "anchors": ["rankeval/scoring/scorer.py:Scorer.score", "rankeval/scoring/scorer.py:Scorer.get_predicted_scores", "rankeval/scoring/scorer.py:Scorer.get_partial_predicted_scores", "rankeval/scoring/scorer.py:Scorer.get_predicted_leaves"]}
{"id": "C69", "title": "Scores of a model read from a file are those of the trees in the file", "statement": "For each of the six file formats, reading a file with given learning rate, base score and n_trees and scoring a dataset that has all features used gives every row base + rate * sum of weight * value of the leaf reached in the first n_trees trees of the file; the kernel never reads outside of its arrays and datasets without a feature used are refused. (Violated for features from 2^15 on, which are stored in 16 bits.)", "quantifier": "every file, dataset, learning rate, base score, n_trees and scoring mode", "why_tests_cant": "composition of all parsers with the kernel for all tree shapes; test files have a few hundred features", "anchors": ["rankeval/model/rt_ensemble.py:RTEnsemble.__init__", "rankeval/model/rt_ensemble.py:RTEnsemble.initialize", "rankeval/model/rt_ensemble.py:RTEnsemble.score", "rankeval/scoring/_efficient_scoring.pyx:basic_scoring"]}
{"id": "C70", "title": "Topological analysis of loaded models", "statement": "For a model read from a file of any of the six formats, with trees of height below 63, topological_analysis gives the heights of the trees in the file and, for each level and position, the number of trees having a node there: the loaders store parents before children, as the analysis requires, if the file numbers the nodes as its library does.", "quantifier": "every file in the formats of QuickRank, XGBoost, scikit-learn, LightGBM, jforests and CatBoost", "why_tests_cant": "the analysis silently depends on the storage order produced by six different parsers", "anchors": ["rankeval/analysis/topological.py:topological_analysis", "rankeval/analysis/_efficient_topological.pyx:efficient_topological_analysis", "rankeval/model/rt_ensemble.py:RTEnsemble.__init__"]}
{"id": "C71", "title": "Text of XGBoost and scikit-learn dumps", "statement": "The regular expressions and conversions of the loaders give, for every line of a well formed dump (any indentation, any attributes after a split or a leaf), exactly the tree, split or leaf that the line spells, so the file loads as the trees written in it; the text written by export_scikit_model loads as the same trees up to the printing of numbers. (Violated: splits with named features are skipped silently and every document gets the first leaf; classifier leaves are written as text that cannot be read.)", "quantifier": "every text file whose lines spell a dump; every fitted ensemble of trees with one output", "why_tests_cant": "backtracking of greedy and lazy patterns over all texts; the test models use only one writer", "anchors": ["rankeval/model/proxy_XGBoost.py:ProxyXGBoost.load", "rankeval/model/proxy_XGBoost.py:ProxyXGBoost._count_nodes", "rankeval/model/proxy_ScikitLearn.py:ProxyScikitLearn.load", "rankeval/model/proxy_ScikitLearn.py:ProxyScikitLearn.export_scikit_model"]}
{"id": "C72", "title": "Text of LightGBM models", "statement": "Every LightGBM file whose lines spell a model (keys, numbers separated by any white space, other lines anywhere) is loaded as the trees it describes: the counting pass and the loading pass match the same lines, and no key is mistaken for another. (Violated: a feature named threshold in the importances at the end of the file changes the last tree.)", "quantifier": "every text file in the format", "why_tests_cant": "the patterns are matched against every line of the file, including sections the tests' models do not have", "anchors": ["rankeval/model/proxy_LightGBM.py:ProxyLightGBM.load", "rankeval/model/proxy_LightGBM.py:ProxyLightGBM._count_nodes"]}
{"id": "C73", "title": "Reading lines and owning memory in the C++ reader", "statement": "The C++ reader parses exactly the lines of the file: no line and no part of a line is ignored, and an error of the stream is reported as an exception. Every line object is released, every buffer of numbers is freed exactly once, and the arrays returned own their memory; this also holds when an allocation fails, which is reported as an exception.", "quantifier": "for every file and stream, and every set of allocations that fail", "why_tests_cant": "NUL bytes, damaged compressed files and failing allocations are rare and hard to provoke; leaks of references do not change any result.", "anchors": ["rankeval/dataset/_svmlight_format.cpp:126-201", "rankeval/dataset/_svmlight_format.cpp:315-372"]}
{"id": "C74", "title": "Independence of the memory layout", "statement": "Writing a data set and computing feature importances give the same result for two arrays that hold the same matrix, whatever their order and strides.", "quantifier": "for every matrix and every layout", "why_tests_cant": "Tests use arrays fresh from the loader, which are stored row by row; there are many layouts and the wrong result is a plausible matrix.", "anchors": ["rankeval/dataset/svmlight_format.py:193-206", "rankeval/dataset/_svmlight_format.cpp:394-425", "rankeval/analysis/_efficient_feature.pyx:55-80"]}
{"id": "C75", "title": "Plot of the average tree shape", "statement": "The plot of the topology shows, in each sector of each ring, the fraction of trees that have a node at that place of the full binary tree; the sector of a node consists of those of its left and right child, and the rings are exactly the levels up to the last level with a node or the maximum asked for.", "quantifier": "for every forest, every maximum level, every sector and ring", "why_tests_cant": "A test can compare a few pictures; whether the nested loops colour every cell of the grid once with the right node for all shapes is index arithmetic.", "anchors": ["rankeval/visualization/topological.py:47-101", "rankeval/analysis/topological.py:108-122"]}
{"id": "C76", "title": "Plot of feature importances", "statement": "The plot of feature importances shows the best features (by importance or count), as many as asked for or all there are, each with its importance, its count and its label, and both vertical axes have ticks at multiples of the step that cover the bars.", "quantifier": "for every list of importances and counts, every number of places, and every order of ties", "why_tests_cant": "Fewer features than places, ties and importances that are all zero are seldom plotted in tests; a picture with a bar under the wrong label looks like any other.", "anchors": ["rankeval/visualization/feature.py:46-117", "rankeval/visualization/feature.py:120-140"]}
{"id": "C77", "title": "Plots of effectiveness analyses", "statement": "Bar plots have one bar for each value, the bars do not overlap, names are centred under their groups, and all bars lie inside of the axis. Markers are at the first largest value of their curve. The rank confusion matrix is drawn with its labels on the axes, on a logarithmic scale exactly if the largest number is at least twice the second.", "quantifier": "for every table of values, with undefined and negative values", "why_tests_cant": "Pictures are not compared in tests; undefined values, negative correlations and transposed matrices depend on the data.", "anchors": ["rankeval/visualization/effectiveness.py:54-109", "rankeval/visualization/effectiveness.py:135-218", "rankeval/visualization/effectiveness.py:368-432", "rankeval/visualization/effectiveness.py:460-544"]}
{"id": "C78", "title": "Text of QuickRank files", "statement": "Saving writes well-formed XML, one tag per line and indented by depth, which the parser reads back as the same tags, attributes and texts whatever these contain; loading any file whose events spell a QuickRank document, with any white space around numbers and any text between tags, gives exactly its trees; saving and loading gives back the same trees; a file cut off anywhere is refused with ParseError. (Violated with NumPy 2, which setup.py admits: repr of a weight is np.float32(2.0), which cannot be read back.)", "quantifier": "every model and every XML text", "why_tests_cant": "the shipped test files are all written by the same tool with the same layout; truncation points are as many as characters", "anchors": ["rankeval/model/proxy_QuickRank.py:ProxyQuickRank.load", "rankeval/model/proxy_QuickRank.py:ProxyQuickRank.save", "rankeval/model/proxy_QuickRank.py:ProxyQuickRank._xmlprettyprint", "rankeval/model/proxy_QuickRank.py:ProxyQuickRank._count_nodes"]}
{"id": "C79", "title": "Rounding errors of predictions", "statement": "Under the standard model of rounded arithmetic (each sum has relative error at most u, each product relative error at most u plus an absolute error eta for underflow) every finite predicted score differs from the exact weighted sum of the leaves reached, in the number of trees n, by at most gamma = (1+u)^(n+k)-1 times the sum of the absolute values of the terms, plus the underflow errors; for the detailed scoring too, and whatever the order of the additions. IEEE binary32 with round to nearest even satisfies the model with u = 2^-24 and eta = 2^-150.", "quantifier": "all forests, documents, learning rates and base scores, all orders of summation, all rounded arithmetics that satisfy the standard model", "why_tests_cant": "Tests compare scores of a few documents with an absolute tolerance; a bound for all forests and all orders of addition needs a proof.", "anchors": ["rankeval/scoring/_efficient_scoring.pyx:basic_scoring", "rankeval/scoring/_efficient_scoring.pyx:detailed_scoring", "rankeval/scoring/scorer.py:Scorer.score", "rankeval/model/rt_ensemble.py:RTEnsemble.score"]}
{"id": "C80", "title": "From files to NDCG", "statement": "For the text of a data file and the text of a model file: loading both, scoring and evaluating NDCG yields, for each query of the data file once, the NDCG of its documents ranked by the exact scores of the trees in the model file on the feature values written in the data file, and the mean of these values.", "quantifier": "all data files whose rows have increasing feature ids and contiguous queries and whose first row has a feature, all LightGBM and QuickRank texts that spell a nonempty forest over these features, all cutoffs, both gains, all sorting orders of ties", "why_tests_cant": "Tests load a few fixed files and compare a few averages; that no step (reader, dataset, loader, traversal, cached ideal, grouping by query, mean) loses or swaps documents is a statement about the composition for all files.", "anchors": ["rankeval/dataset/dataset.py:Dataset.load", "rankeval/model/rt_ensemble.py:RTEnsemble.score", "rankeval/metrics/ndcg.py:NDCG.eval", "rankeval/metrics/metric.py:Metric.eval"]}
{"id": "C81", "title": "Names of metrics", "statement": "The name of a metric object (str) identifies the function it computes: objects with default names and the same name have the same class, cutoff and threshold.", "quantifier": "all classes of rankeval/metrics, all cutoffs and thresholds, all injective texts of numbers", "why_tests_cant": "Tests print a few names; that no two of infinitely many objects share a name needs a parsing argument, and the collisions found (P, DCG, NDCG, RBP, Pf, R, MAP, the sign of the threshold) need no run to show.", "anchors": ["rankeval/metrics/precision.py:Precision.__str__", "rankeval/metrics/precision_max.py:PrecisionMax.__init__", "rankeval/metrics/rbp.py:RBP.__str__", "rankeval/metrics/dcg.py:DCG.__str__", "rankeval/metrics/ndcg.py:NDCG.__str__", "rankeval/metrics/recall.py:Recall.__str__"]}
{"id": "C82", "title": "Shared arrays", "statement": "Scores returned to a caller are the scores of the dataset as it is now, whatever the caller did before with arrays they hold: arrays returned by an uncached call are not shared with the library, overwriting an array the library does not hold changes no later result, and no call returns an array whose contents were changed by someone else.", "quantifier": "all histories of score calls (cached or not, basic or detailed), cache clearing, dataset creation, array creation and in-place writes, on any number of models and datasets", "why_tests_cant": "aliasing shows only when one caller writes to an array that another holds; tests compare values right after a single call", "anchors": ["rankeval/model/rt_ensemble.py:296-368", "rankeval/dataset/dataset.py:405-424", "rankeval/metrics/metric.py:60-70"]}
{"id": "C83", "title": "Text of jforests files", "statement": "From the characters of a jforests XML file: if the numbers of every SplitFeatures, LeftChildren, RightChildren, OriginalThresholds and LeafOutputs element are separated by single blanks, loading gives exactly the weighted trees of the file in order, whatever other elements the file contains; a file that was cut off is refused. Violated for other layouts: two blanks in a row or a blank at either end of an element make the whole file unloadable, and so does one tree without a split.", "quantifier": "for all texts, all events of the parser that spell weighted trees, all weights, learning rates, base scores and tree limits", "why_tests_cant": "the test suite has one jforests file written by one version of jforests; layouts, truncations and single-leaf trees are not tried", "anchors": ["rankeval/model/proxy_Jforests.py:37-113", "rankeval/model/proxy_Jforests.py:152-172"]}
{"id": "C84", "title": "Loading several SVMlight files at once", "statement": "load_svmlight_files returns, file after file, the matrix, the labels and (if asked for) the query ids that each file denotes, and fails with the error of the first file that cannot be loaded. All matrices have the same number of columns if the largest feature number is the same in all files. Violated otherwise: the documentation promises that all sample vectors are constrained to have the same number of features, but each file keeps its own number of columns; an empty list of files raises StopIteration.", "quantifier": "for all lists of files, rows and values", "why_tests_cant": "the function is not called by the test suite; files with different largest feature numbers have to be combined on purpose", "anchors": ["rankeval/dataset/svmlight_format.py:103-152"]}
{"id": "C85", "title": "Classes derived from metrics", "statement": "For every class of metrics of the library and every class derived from it, in any number of steps and by the usual means (methods that are not defined, or that call the method of the parent by super), an object of the derived class can be constructed, all constructors run from the first to the last, and eval gives for each query the value of the last eval_per_query; a metric that does not define the three methods cannot be constructed.", "quantifier": "all classes of the library, all chains of derived classes, all recursion limits", "why_tests_cant": "Tests only use the classes of the library themselves; three of them pass self.__class__ to super, which only shows for derived classes.", "anchors": ["rankeval/metrics/metric.py:16-98", "rankeval/metrics/ndcg.py:48-97", "rankeval/metrics/mse.py:33", "rankeval/metrics/rmse.py:33-58", "rankeval/metrics/precision.py:43-70"]}
{"id": "C86", "title": "XGBoost models on data with features that are not given", "statement": "The scores that a dump of an XGBoost model gives to the rows of a SVMlight file are those of XGBoost: at a test of a feature that the row does not give, the document goes in the direction that the dump names by missing=.", "quantifier": "all forests with default directions, all dumps of them, all rows", "why_tests_cant": "Test data give all features, so that the default directions never matter; the loader does not read them.", "anchors": ["rankeval/model/proxy_XGBoost.py:42-44", "rankeval/model/proxy_XGBoost.py:86-112", "rankeval/dataset/svmlight_format.py:20-100"]}
{"id": "C87", "title": "Opening and saving models by the name of the format", "statement": "For every name of a format, RTEnsemble(file, format=name) gives a model that holds the trees of the file, or raises an exception; save(file, format=name) writes a file that opens again with the same trees, or raises an exception.", "quantifier": "all names, all files, with and without the optional package coremltools", "why_tests_cant": "Tests run with one set of installed packages and with files that exist.", "anchors": ["rankeval/model/rt_ensemble.py:97-141", "rankeval/model/rt_ensemble.py:264-294", "rankeval/model/proxy_CatBoost.py:50-55"]}
{"id": "C88", "title": "From files to all ranking metrics", "statement": "For a data file, a model and any of the metrics that rank documents (Precision, PrecisionMax, Recall, DCG, ERR, Pfound, RBP, MRR, MAP, and the values of NDCG), loading both, scoring and evaluating gives for each query of the file the value of the textbook formula for a ranking of the rows of the query by the predictions of the trees, and on the whole the mean of these values.", "quantifier": "all data files with contiguous queries, all models, metrics, cutoffs other than 0, and all orders of equally scored documents", "why_tests_cant": "A test runs single pairs of files and models and compares with numbers produced by the same code; that the chain of reader, grouping, scoring, sorting and averaging never loses or mixes rows for any file needs a proof over all of them.", "anchors": ["rankeval/metrics/metric.py:40-70", "rankeval/dataset/svmlight_format.py:40-140", "rankeval/model/rt_ensemble.py:150-260"]}
{"id": "C89", "title": "Error of a learner that is always right", "statement": "bias_variance reports error, bias and variance 0 for a learner that predicts the labels exactly, for every metric.", "quantifier": "all datasets, labels that are a function of the rows, numbers of folds and repetitions, metrics", "why_tests_cant": "Tests use one metric and one learner; that the hard-coded ideal value 1 is not the best value of the metric (RMSE: the exact learner gets error 1 on every dataset, a learner that is off by one gets 0) shows only when all metrics are considered.", "anchors": ["rankeval/analysis/statistical.py:341-385", "rankeval/metrics/rmse.py:12-82"]}
{"id": "C90", "title": "Reproducible splits", "statement": "Dataset.split with a number as random_state returns the same parts whatever random numbers were drawn before and changes no other random results of the program; without random_state, or with a RandomState object, only this generator is used and advanced; anything else is a ValueError.", "quantifier": "all programs of splits, folds and seedings, all generators", "why_tests_cant": "Reproducibility is about all programs around the call: a test can only run a few histories before and after it.", "anchors": ["rankeval/dataset/dataset.py:167-231", "rankeval/dataset/dataset.py:325-401"]}
{"id": "C91", "title": "Averages in single precision are close to the exact averages", "statement": "The average of Metric.eval, computed by numpy from float32 values by pairwise summation and a division, differs from the mean of the exact values of the queries with a defined value by at most a bound that grows with the logarithm of the number of queries; it is NaN exactly if no query has a defined value; for metrics with values between 0 and 1 it never overflows and the error is at most (e+29)/2^23 plus twice the error of eval_per_query, for up to 112*2^e+16 queries, e at most 40.", "quantifier": "all datasets with contiguous query ids, all predictions, all metrics whose values per query are computed with a given error, all number formats with rounding errors", "why_tests_cant": "a test compares one rounded average with one reference value computed the same way; it cannot bound the error for all values and all numbers of queries", "anchors": ["rankeval/metrics/metric.py:65-70"]}
{"id": "C92", "title": "Text of single precision numbers in data files", "statement": "Every finite single precision number, subnormal numbers and -0 included, is printed by the dump (9 significant digits) as a decimal number that is read back as the same number, as a label and as a feature; so a dataset written and read is the same bit by bit. Every decimal number in a file is read as the nearest single precision number.", "quantifier": "all decimal numbers with sign, point and exponent, all finite single precision numbers, all datasets with at least two rows", "why_tests_cant": "there are 2^32 single precision numbers and infinitely many texts; a test tries a few, usually small integers, and cannot see that features are rounded twice", "anchors": ["rankeval/dataset/_svmlight_format.cpp:250-295", "rankeval/dataset/_svmlight_format.cpp:378-441", "rankeval/dataset/svmlight_format.py:91-96"]}
{"id": "C93", "title": "Numbers in saved models", "statement": "The thresholds, outputs and weights that `save` writes with `repr` of numpy.float32 are read back as the same single precision numbers, so a saved and loaded model has the same trees and weights bit by bit, although the loader converts the text to double precision first.", "quantifier": "all 2^32 single precision numbers; all models with numbers among them", "why_tests_cant": "the one positive number that is changed, 7.038531e-26, is not found by trying random numbers; it can be found and shown to be the only one by continued fractions", "anchors": ["rankeval/model/proxy_QuickRank.py:64-89", "rankeval/model/proxy_QuickRank.py:117-207", "setup.py:267"]}
{"id": "C94", "title": "Decisions after rounding", "statement": "A document goes left at a node if and only if the number written in the data file is at most the threshold written in the model file: rounding both to single precision keeps the order, so it can only make a value that is above the threshold equal to it.", "quantifier": "all decimal texts of feature values and thresholds, all LightGBM models and data files", "why_tests_cant": "the wrong decisions need a value just above a threshold, which is where learners put thresholds (halfway between neighbouring values) but not where tests put values; that nothing else goes wrong is a statement about all pairs of numbers", "anchors": ["rankeval/scoring/_efficient_scoring.pyx:109-134", "rankeval/model/proxy_LightGBM.py:94-99", "rankeval/dataset/_svmlight_format.cpp:285-291", "rankeval/model/rt_ensemble.py:160-170"]}
{"id": "C95", "title": "Scores from files with rounding errors", "statement": "The prediction of a document is within (T+5)/2^23 times the size of the sum (base score plus learning rate times the absolute leaf values) of the score computed exactly from the numbers written in the model file and the data file, T being the number of trees; documents whose exact scores differ by more than both errors are ranked in the exact order.", "quantifier": "all texts of LightGBM models with up to 2^20 trees and of datasets, all learning rates and base scores, every order in which the sum over the trees may be computed", "why_tests_cant": "tests compare with predictions of the learner up to a fixed number of decimals for a few models; the bound covers all models, all documents and all orders of summation", "anchors": ["rankeval/scoring/_efficient_scoring.pyx:109-134", "rankeval/scoring/scorer.py:60-91", "rankeval/model/rt_ensemble.py:325-359", "rankeval/model/proxy_LightGBM.py:94-99", "rankeval/dataset/_svmlight_format.cpp:285-291"]}
{"id": "C96", "title": "NDCG in floating point", "statement": "The NDCG values that `eval` stores are the exact NDCG values up to a factor of 1 \u00b1 2^-22, the value of a query whose documents are ranked by label is 1, and the average is within (e+31)/2^23 of the exact average for up to 112*2^e+16 queries.", "quantifier": "all queries with integer labels up to 24, all predictions, cutoffs and both gain functions; every implementation of log2 with an error of at most 2^-50", "why_tests_cant": "the ideal scores are cached in single precision while the scores are in double precision, so a perfect ranking can get 0.99999994; tests compare with a tolerance, and which label lists are affected depends on the rounding of sums of reciprocal logarithms", "anchors": ["rankeval/metrics/dcg.py:87-99", "rankeval/metrics/ndcg.py:83-97", "rankeval/metrics/ndcg.py:122-135", "rankeval/metrics/metric.py:65-70"]}
{"id": "C97", "title": "Quotients of counts in floating point", "statement": "The values of Precision, PrecisionMax, Recall and MRR that eval stores are the single precision numbers nearest to the exact quotients, although they are rounded twice (to double, then to single precision); 1 is stored only for a perfect and 0 only for an empty result; a query with a larger exact value has a larger stored value. The stored MAP is within 2^-23 of the exact value and exactly 1 for ideal rankings.", "quantifier": "all label and score arrays with fewer than 2^24 retrieved or relevant documents, every way to break ties, all cutoffs and thresholds; up to 2^20 documents for MAP", "why_tests_cant": "tests compare a few values up to a number of decimals, so that neither double rounding nor two different values that are stored as the same number show up", "anchors": ["rankeval/metrics/precision.py:91-96", "rankeval/metrics/precision_max.py:85-90", "rankeval/metrics/recall.py:98-108", "rankeval/metrics/mrr.py:94-108", "rankeval/metrics/map.py:96-111", "rankeval/metrics/metric.py:64-69"]}
{"id": "C98", "title": "ERR, Pfound and RBP in floating point", "statement": "The values of ERR, Pfound and RBP that eval stores are in [0, 1] and within 2^-24 of the exact values, although they are computed with float64 products, powers and sums and then rounded to float32; of two rankings of the same documents the one with the larger exact value has the larger stored value.", "quantifier": "all queries with integer labels up to 24 (all labels for RBP), all predictions, every way to break ties, all cutoffs; up to 2^21 documents for ERR, 4000 for Pfound, 2^20 for RBP; all parameters p in [0, 1] and every implementation of pow with an error of at most 2^-52", "why_tests_cant": "tests compare single queries with a tolerance; the bound is about the growth of errors over thousands of multiplications, and the rankings that are stored as equal have more than 25 relevant documents", "anchors": ["rankeval/metrics/err.py:84-97", "rankeval/metrics/pfound.py:98-111", "rankeval/metrics/rbp.py:113-121", "rankeval/metrics/metric.py:64-69"]}
{"id": "C99", "title": "MSE and RMSE in floating point", "statement": "The squared error of a query, computed in float32, is within a relative error of 2^-17 of the exact sum of squares, RMSE within 2^-17 of the exact root, and the average over a dataset within 2^-15 of the exact mean, although differences, squares and sums are all rounded; the error is exactly 0 if the predictions are the labels, and nothing overflows if labels and predictions are at most 2^40.", "quantifier": "all queries with up to 2^20 documents and finite labels and predictions, all cutoffs, every way to break ties; all datasets with up to 2^20 queries", "why_tests_cant": "the error depends on the order in which numpy adds a million float32 numbers; tests with a handful of documents cannot show it, and the squares that underflow or overflow need labels out of the usual range", "anchors": ["rankeval/metrics/mse.py:59-64", "rankeval/metrics/mse.py:87-91", "rankeval/metrics/rmse.py:80-81"]}
{"id": "C100", "title": "load_dataset succeeds and can be repeated", "statement": "If the data are missing or the download is forced, the archives are on the servers and complete, nothing is in the way and the process is not killed, load_dataset ends normally and returns the data and the license in the archive. After any call that ended normally, every later call without force_download returns the same data, license and models and changes nothing, whatever the servers have then. If a file is in the way, the call raises IOError and changes nothing.", "quantifier": "all catalogue entries with the required keys, all archives whose files have different names, all states of the disk, all folds, all loaders of data files", "why_tests_cant": "needs servers, disks in all states and archives; tests of the fetcher need the network and are not run", "anchors": ["rankeval/dataset/datasets_fetcher.py:33-50", "rankeval/dataset/datasets_fetcher.py:53-184", "rankeval/dataset/datasets_fetcher.py:187-251"]}
{"id": "C101", "title": "Randomization test in floating point", "statement": "The p-values that statistical_significance computes from the float32 scores of the queries are the p-values of the exact test, up to the rounding of the last division.", "quantifier": "all score vectors, all numbers of queries and all random subsets", "why_tests_cant": "ties between the difference of the models and the differences after an exchange are decided by the last bit of numbers rounded to different precisions; a test with random subsets has no expected value to compare with", "anchors": ["rankeval/analysis/statistical.py:78-84", "rankeval/analysis/statistical.py:129-179"]}
{"id": "C102", "title": "The datasets of the catalogue can be loaded", "statement": "Every dataset that write_json_dataset_catalogue.py puts in the catalogue is stored under its own name with all the properties load_dataset needs, comes from its own archive, and can be loaded with the default arguments from a complete archive.", "quantifier": "all entries of the catalogue, all archives, file systems and folds", "why_tests_cant": "the archives are gigabytes on a server; the tests load none of them, and a wrong file name in the catalogue shows only after the download", "anchors": ["rankeval/dataset/write_json_dataset_catalogue.py:17-90", "rankeval/dataset/datasets_fetcher.py:53-184", "rankeval/dataset/datasets_fetcher.py:187-251"]}
{"id": "C103", "title": "From text files to NDCG in floating point", "statement": "When a dataset and a LightGBM model are read from text files, scored and evaluated with NDCG, the average returned differs from the mean of the exact NDCG of the queries, computed without rounding from the numbers in the texts, by at most (e + 31) / 2^23 for up to 112 * 2^e + 16 queries.", "quantifier": "all texts, trees, learning rates, base scores, queries, natural labels up to 24, cutoffs and implementations", "why_tests_cant": "the exact value is never computed by the program; a wrong rounding anywhere between the file and the average shows only as a small difference or as a swapped pair of documents", "anchors": ["rankeval/dataset/_svmlight_format.cpp:240-291", "rankeval/model/proxy_LightGBM.py:94-99", "rankeval/scoring/_efficient_scoring.pyx:109-134", "rankeval/scoring/scorer.py:60-91", "rankeval/metrics/dcg.py:87-99", "rankeval/metrics/ndcg.py:83-97", "rankeval/metrics/ndcg.py:122-135", "rankeval/metrics/metric.py:65-70"]}
{"id": "C104", "title": "The DOT file can be read and shows the drawing", "statement": "The text written by export_graphviz is a valid DOT graph for every tree and all feature names: read with the rules of the language it gives one box for each node up to max_depth with the lines of its label, '(...)' for the children below, the edges with their head labels, the default attributes, and with leaves_parallel one rank group for each depth and one for the leaves; highlighted leaves have the colour of their output between the least and the greatest output of the tree.", "quantifier": "all ensembles that represent trees, tree ids, options, feature names, ways to print numbers and colour maps", "why_tests_cant": "tests look at a rendered picture or compare with one stored file; they do not read the file back, and use names without special characters", "anchors": ["rankeval/visualization/topological.py:147-477"]}
{"id": "C105", "title": "Scoring one model from several threads", "statement": "When several threads call RTEnsemble.score on one model, or calls are interrupted at any point, each call that returns gives what scoring without a cache gives; no call waits for another.", "quantifier": "all ensembles, datasets, learning rates, base scores, numbers of calls, arguments and schedules of their steps, with clear_cache at any time", "why_tests_cant": "the wrong results appear only if another thread runs, or Ctrl-C arrives, between two particular statements", "anchors": ["rankeval/model/rt_ensemble.py:296-368", "rankeval/scoring/scorer.py:45-91"]}
{"id": "C106", "title": "Each value of an SVMlight row is loaded into the column of its feature id", "statement": "load_svmlight_file puts each value of a row into the column of its feature id, whatever the order of the ids in the row, or rejects the file. (The code accepts every order, and puts a value whose column is already passed into the next free column: ids that are not increasing, repeated ids, and ids from zero with gaps give values in the columns of other features.)", "quantifier": "every file of rows with any natural feature ids, in any order, repeated or from zero", "why_tests_cant": "all orders of ids; wrong columns are not noticed in the result, which has a plausible shape", "anchors": ["rankeval/dataset/_svmlight_format.cpp:240-313", "rankeval/dataset/svmlight_format.py:38-115"]}
{"id": "C107", "title": "One metric object used by several threads", "statement": "When several threads call eval on one metric object, or calls are interrupted at any point, each call that returns gives the average and the scores that eval gives alone, and the array it has returned does not change afterwards; no call waits for another. (The code keeps the array being filled in an attribute of the object: overlapping calls write into each other's arrays.)", "quantifier": "all numbers of calls on any number of metric objects, all datasets and predictions, all schedules of their steps, with exceptions from outside at any point", "why_tests_cant": "the wrong results appear only if another thread runs between two particular statements, some of them after a call has returned", "anchors": ["rankeval/metrics/metric.py:65-70", "rankeval/metrics/mse.py:59-64"]}
{"id": "C108", "title": "One NDCG object used by several threads", "statement": "When several threads call eval and eval_per_query on one NDCG object, or calls are interrupted at any point, each call of eval that returns gives what it gives on a new object. (The code keeps the current dataset and the number of the current query in attributes: overlapping calls use the ideal scores of other queries and may store the ideal scores of one dataset for another one for good; an interrupted eval followed by eval_per_query makes the dataset unusable.)", "quantifier": "all numbers of calls, datasets, predictions, cutoffs and gains, all schedules of their steps, with exceptions from outside at any point", "why_tests_cant": "needs another thread or Ctrl-C between two particular statements; the damage shows in later calls", "anchors": ["rankeval/metrics/ndcg.py:83-135", "rankeval/metrics/metric.py:65-70"]}
{"id": "C109", "title": "Predictions that are NaN", "statement": "A document whose prediction is NaN is not ranked above a document with a number, and a query with such a document counts in the average of every metric. (The code does the opposite: documents predicted NaN come first in every ranking, exactly as if NaN were a number larger than all others, and RMSE leaves out of its average exactly the queries with a NaN prediction.)", "quantifier": "all labels, all predictions over any linear order of numbers with NaN at any positions, all cutoffs, all sorting algorithms with numpy's contract for NaN, all rank metrics; all datasets with contiguous queries for RMSE", "why_tests_cant": "tests use predictions of working models, which have no NaN", "anchors": ["rankeval/metrics/precision.py:92-97", "rankeval/metrics/mse.py:87-91", "rankeval/metrics/rmse.py:80-81", "rankeval/metrics/metric.py:65-70"]}
{"id": "C110", "title": "Numbers in exported scikit-learn models", "statement": "A scikit-learn model written by ProxyScikitLearn.export_scikit_model and loaded again sends every document to the leaf that scikit-learn sends it to, and has its learning rate and base score. (The code writes thresholds, base score and learning rate with %f, i.e. as the nearest multiple of 10^-6; the same leaf is reached for values at least half of 10^-6 below the threshold or above it with a further number between.)", "quantifier": "all trees with one output, all finite double precision thresholds, leaves, base scores and learning rates, all documents with finite features, all ways of %s to write leaves as decimal numbers, all orders and roundings of the additions of the scoring", "why_tests_cant": "tests export models whose features are counts or are of size 1 and compare with a tolerance; small features, such as probabilities, or small learning rates need six zeros after the point", "anchors": ["rankeval/model/proxy_ScikitLearn.py:193-194", "rankeval/model/proxy_ScikitLearn.py:210-221", "rankeval/model/proxy_ScikitLearn.py:74-118"]}
{"id": "C111", "title": "Files and streams of SVMlight data", "statement": "load_svmlight_file, load_svmlight_files and dump_svmlight_file close every file they open, whether they succeed or fail, and close neither the file objects nor the descriptors they are given; what is dumped to a path is what is loaded from it, with and without compression; a failing dump leaves the file as it was; a file object can be loaded again; and a stream that cannot be read is reported by an exception. (The last three are violated.)", "quantifier": "all paths, descriptors, file objects and other arguments, all contents, all compressions that give back what was stored, all points at which a row cannot be parsed or written, all sequences of files", "why_tests_cant": "tests do not count open files, do not load from a descriptor or twice from the same object, and do not make a write fail; a damaged compressed file ends the process of the test", "anchors": ["rankeval/dataset/svmlight_format.py:16-36", "rankeval/dataset/svmlight_format.py:76-82", "rankeval/dataset/svmlight_format.py:146-152", "rankeval/dataset/svmlight_format.py:192-203", "rankeval/dataset/_svmlight_format.cpp:327-330", "rankeval/dataset/_svmlight_format.cpp:422-426"]}
{"id": "C112", "title": "Any number of trees asked for", "statement": "copy(n_trees=n) and RTEnsemble(..., n_trees=n) either raise an exception or give a model of the first n trees (all, if there are not more), which can be scored and whose scores are those of these trees. (For n = 0 the copy cannot be scored; for negative n that are not below minus the number of trees the code makes a copy that gives every document the base score.)", "quantifier": "all models, all integers n, all datasets, learning rates and base scores", "why_tests_cant": "tests ask for positive numbers of trees; the wrong copies have plausible scores and no error", "anchors": ["rankeval/model/rt_ensemble.py:386-421", "rankeval/model/rt_ensemble.py:143-144", "rankeval/scoring/_efficient_scoring.pyx:30-65"]}
{"id": "C113", "title": "Trees of any depth", "statement": "height_trees returns the heights of all trees and save writes every model that can be loaded and scored; a save that fails leaves the file as it was. (Both functions are recursive: they raise RecursionError for trees deeper than Python's limit, save within a few levels of the limit only after it has emptied the file.)", "quantifier": "all models, all limits on nested calls, all numbers of nested calls of the XML library", "why_tests_cant": "the trees of the tests have depth below 20", "anchors": ["rankeval/model/rt_ensemble.py:247-262", "rankeval/model/proxy_QuickRank.py:95-114", "rankeval/model/proxy_QuickRank.py:152-207"]}
{"id": "C114", "title": "Plots show each value under its own name", "statement": "In the figures of plot_model_performance, plot_tree_wise_performance, plot_tree_wise_average_contribution, plot_query_wise_performance, plot_document_graded_relevance and plot_query_class_performance every curve and every row of bars shows the values of exactly one combination of dataset, model and metric, and the figure tells which: by its title, the name beside the subplot and the legend, whose colours mean the same in all subplots. (Values are looked up by comparing labels, so tables with two equal datasets are not drawn; legends leave out names that start with an underscore; plot_query_wise_performance and plot_query_class_performance do not name all subplots.)", "quantifier": "all tables, labels, ways of comparing labels, names, values of compare", "why_tests_cant": "the tests only check that plotting raises no exception; exchanged or missing names are not seen", "anchors": ["rankeval/visualization/effectiveness.py:25-112", "rankeval/visualization/effectiveness.py:115-218", "rankeval/visualization/effectiveness.py:221-255", "rankeval/visualization/effectiveness.py:258-365", "rankeval/visualization/effectiveness.py:435-544", "rankeval/dataset/dataset.py:405-427"]}
{"id": "C115", "title": "Parts of a dataset give the values of the whole", "statement": "Scoring and evaluating a part of a dataset made by subset, split or kfold gives each row the score and each query the metric value that it has in the whole dataset. The average over the whole dataset is the mean of the averages of the parts of a split, or of the test parts of all folds, weighted by the number of values in them. (MSE.eval divides by the number of rows of the part and puts values at the position of the query id, so it gives other values or raises IndexError.)", "quantifier": "all datasets, also with scattered queries; all models, metrics, selections of queries, permutations drawn by split and kfold, arithmetic of the scores, histories of an NDCG object", "why_tests_cant": "tests split one data file and check sizes; they do not compare values of the parts and the whole", "anchors": ["rankeval/dataset/dataset.py:196-231", "rankeval/dataset/dataset.py:250-254", "rankeval/dataset/dataset.py:348-378", "rankeval/metrics/metric.py:65-70", "rankeval/metrics/ndcg.py:83-97", "rankeval/metrics/mse.py:59-64", "rankeval/model/rt_ensemble.py:325-359"]}
{"id": "C116", "title": "The order of the rows and the names of the queries do not matter", "statement": "Two datasets with the same rows in different orders, each query in one piece, give each query the same value of a metric that ranks documents, and the same average, if documents of a query with equal scores have equal labels. Giving other, different names to the queries changes only the names: the queries are listed in the same order, with the same boundaries, values and average. (With ties between different labels the values depend on the order of the rows, whatever np.argsort does; MSE.eval depends on the names.)", "quantifier": "all models, rows, orders of the rows, ranking metrics and cutoffs, arithmetic of the scores, argsort algorithms, injective renamings", "why_tests_cant": "tests evaluate one stored order of one data file with its own ids", "anchors": ["rankeval/dataset/dataset.py:59-84", "rankeval/dataset/dataset.py:268-270", "rankeval/metrics/metric.py:65-70", "rankeval/metrics/metric.py:113-116", "rankeval/metrics/ndcg.py:83-97", "rankeval/metrics/mrr.py:94-108", "rankeval/metrics/mse.py:59-64", "rankeval/model/rt_ensemble.py:325-359"]}
{"id": "C117", "title": "Results of analyses do not depend on caches and on what was done before", "statement": "In a session that makes models and metric objects and then scores, copies, prunes, evaluates metrics, and calls model_performance and statistical_significance in any order and with or without cache, each call of model_performance and statistical_significance returns the table (or raises the exception) that it would give for new copies of the models and metric objects and without cache. An analysis changes nothing of a model or a metric object but its cache. (Detailed scores put into the cache with rounding arithmetic, and score calls that are interrupted, change later tables.)", "quantifier": "all sequences of calls, models that are forests, metric objects (NDCG objects with their state, others as functions), datasets, random draws, cache flags", "why_tests_cant": "tests make new objects for each call; there are infinitely many orders of calls on shared objects", "anchors": ["rankeval/analysis/effectiveness.py:64-72", "rankeval/analysis/statistical.py:70-84", "rankeval/model/rt_ensemble.py:325-389", "rankeval/metrics/ndcg.py:83-129", "rankeval/metrics/metric.py:65-70", "rankeval/dataset/dataset.py:405-422"]}
{"id": "C118", "title": "Each cell of the other effectiveness tables belongs to its labels, with caches and after any session", "statement": "After any sequence of calls (models and metric objects made, scored, copied, pruned, evaluated; all effectiveness analyses in any order, with or without cache), tree_wise_performance, tree_wise_average_contribution, query_wise_performance, query_class_performance, document_graded_relevance and rank_confusion_matrix return the table whose cell for a dataset, a model, a metric (and a number of trees, class or label) is the one of this dataset, this model scored without cache and a new metric object; models with fewer trees have missing cells at the end. (tree-wise analyses with cache change later tables of other analyses when sums are rounded otherwise.)", "quantifier": "all sequences of calls, lists of datasets, models and metrics in any number and order and with repetitions, steps, bins, ranges, classes, cache flags", "why_tests_cant": "tests use one dataset, one or two models and new objects; wrong indexes or values of an earlier call are seen only with several of each", "anchors": ["rankeval/analysis/effectiveness.py:122-175", "rankeval/analysis/effectiveness.py:202-226", "rankeval/analysis/effectiveness.py:268-315", "rankeval/analysis/effectiveness.py:352-386", "rankeval/analysis/effectiveness.py:435-478", "rankeval/analysis/effectiveness.py:512-537", "rankeval/model/rt_ensemble.py:325-389"]}
{"id": "C119", "title": "Statistics of tree heights and sums of the topology matrix", "statement": "describe_tree_height gives number, extremes, mean, unbiased variance, skewness and kurtosis of the heights of the trees, whatever the order of the trees and with or without leaves; the mean is between the extremes, the variance is 0 only for equal heights and the kurtosis is at least the squared skewness minus 2. The topology matrix has one row per level, the cells of a level add up to the nodes of all trees in this level and all cells to the nodes of the model; fullness_per_level has a number in (0,1] for each level. (For a model with one tree the variance is NaN.)", "quantifier": "all models with at least one tree and heights below 63 that store parents before children, include_leaves either way", "why_tests_cant": "tests look at a few models with one expected matrix; sums over all nodes and inequalities between statistics are not compared with the trees", "anchors": ["rankeval/analysis/topological.py:76-143", "rankeval/analysis/_efficient_topological.pyx:50-72"]}
{"id": "C120", "title": "Fractions of trees in floating point", "statement": "Each cell of avg_tree_shape is in [0,1], is 0 exactly for nodes that no tree has and 1 for nodes that all trees have, differs from the fraction of trees by a few units in the last place, and is larger for nodes that more trees have; the numbers of fullness_per_level are in (0,1] and 1 exactly if all positions taken in one tree are taken in all. (The division multiplies with the rounded reciprocal: for 49 trees the root gets a number below 1.)", "quantifier": "all models with fewer than 2^24 trees, all levels and positions", "why_tests_cant": "tests use models with a few trees, for which reciprocals are harmless; 49 is the first number of trees with a deviation", "anchors": ["rankeval/analysis/topological.py:104-143", "rankeval/analysis/_efficient_topological.pyx:72"]}
{"id": "C121", "title": "The file of a drawing after any call", "statement": "export_graphviz writes the same text to a path, to an open file and to the returned string; when it fails it leaves the old file as it was. (The file is emptied before the arguments are checked, so wrong arguments lose it; RecursionError for deep trees and IndexError for missing names leave the beginning of a drawing.) The number of nested calls needed is given exactly, and depends on the height, the maximal depth and the colours.", "quantifier": "all models, trees, options, limits on nested calls, old contents of the file", "why_tests_cant": "tests draw shallow trees to a string, and never look at a file after an exception", "anchors": ["rankeval/visualization/topological.py:292-367", "rankeval/visualization/topological.py:369-477"]}
{"id": "C122", "title": "The file of an exported scikit-learn model after any call", "statement": "export_scikit_model either writes the complete file, which loads as the same trees, or raises and leaves a file that cannot be taken for a model. (Models without estimators_, init_ or a base score are refused and the file stays as it was. For fitted trees with one output the call succeeds exactly if one call, and in it as many as there are nodes on the longest path of a tree, can be nested; otherwise it raises RecursionError and the file holds a proper beginning of the complete text, always of whole lines. That such a file cannot be taken for a model is false: it is loaded without an error as a model with other trees; the same with an element of estimators_ that is not a tree.)", "quantifier": "all models, limits on nested calls, printers of numbers and old contents of the file; all fitted trees with one output for when it succeeds", "why_tests_cant": "the point at which a call is cut off depends on the shape of the tree and on the depth of the stack of the caller; tests export small models", "anchors": ["rankeval/model/proxy_ScikitLearn.py:174-225", "rankeval/model/proxy_ScikitLearn.py:36-114"]}
{"id": "C123", "title": "Dumps that have been cut off", "statement": "Loading a dump of XGBoost or scikit-learn that is not complete raises an exception. (False: any XGBoost dump cut off after any line is loaded without an error, and any scikit-learn file whose nodes are numbered in the order of the lines, in particular each file that a failed export_scikit_model leaves. For any lines whatsoever, load succeeds exactly if at each line that begins a tree no child is expected and its number is less than the number of such lines, and for scikit-learn each node number, counted on from the nodes before its tree, is less than the number of nodes; otherwise it raises AssertionError or IndexError.)", "quantifier": "all sequences of lines; all dumps, all places where they are cut off; all exports that fail for want of nested calls", "why_tests_cant": "tests load complete files; the claim is about every place in every file", "anchors": ["rankeval/model/proxy_XGBoost.py:65-119", "rankeval/model/proxy_XGBoost.py:159-178", "rankeval/model/proxy_ScikitLearn.py:48-114", "rankeval/model/proxy_ScikitLearn.py:152-172", "rankeval/model/proxy_ScikitLearn.py:174-225"]}
{"id": "C124", "title": "LightGBM models that have been cut off", "statement": "Loading a LightGBM model file that is not complete raises an exception. (False: a model cut off after any line is loaded without an error. It has one tree for each line `Tree=`; the trees whose line `shrinkage=` is there have weight 1, a last one without it has weight 0. So documents get the scores of the complete trees only, or 0 if there is none, and if the file ends with a line `Tree=` scoring reads outside the arrays.)", "quantifier": "all models with features below 2^15, all places between lines where they are cut off", "why_tests_cant": "tests load complete files; the claim is about every place in every file", "anchors": ["rankeval/model/proxy_LightGBM.py:56-166", "rankeval/model/proxy_LightGBM.py:187-223"]}
