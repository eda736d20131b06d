{
 "claims": [
  {
   "property": "C01",
   "status": "proved",
   "theorems": [
    "FF.C01_threshold_counts",
    "FF.C01_one_linear_bin"
   ],
   "note": "All bin types, any sequence of add calls. LINEAR histograms must not have exactly one bin: C01_one_linear_bin proves the claim false there."
  },
  {
   "property": "C02",
   "status": "proved",
   "theorems": [
    "FF.C02_order_and_batching"
   ],
   "note": "Any two add sequences inserting permuted samples."
  },
  {
   "property": "C03",
   "status": "proved",
   "theorems": [
    "FF.C03_counts_and_means"
   ],
   "note": "Any sequence of add calls."
  },
  {
   "property": "C04",
   "status": "partial",
   "theorems": [
    "FF.C04_refuted",
    "FF.C04_variances_partial",
    "FF.C04_single_batch_partial",
    "FF.C04_step_partial"
   ],
   "note": "False in general (C04_refuted: the update drops a variance when one part has zero variance). Proved when every batch has non-constant targets on the side in question, for a single batch, and (C04_step_partial) an exact criterion: one more add keeps a right variance right iff the two groups are Mergeable."
  },
  {
   "property": "C05",
   "status": "proved",
   "theorems": [
    "FF.C05_linear_lookup"
   ],
   "note": "At least two bins and min < max."
  },
  {
   "property": "C06",
   "status": "proved",
   "theorems": [
    "FF.C06_gini_value"
   ],
   "note": ""
  },
  {
   "property": "C07",
   "status": "proved",
   "theorems": [
    "FF.C07_gini_reduction"
   ],
   "note": "Stronger than stated: holds for the inserted samples after any add sequence."
  },
  {
   "property": "C08",
   "status": "proved",
   "theorems": [
    "FF.C08_mse_reduction"
   ],
   "note": "All targets inserted in one add call, as solve_exactly does."
  },
  {
   "property": "C09",
   "status": "partial",
   "theorems": [
    "FF.C09_refuted",
    "FF.C09_entropy_partial"
   ],
   "note": "False: C09_refuted shows that get_entropy raises for every count vector of three or more classes. Proved for at most two classes."
  },
  {
   "property": "C10",
   "status": "proved",
   "theorems": [
    "FF.C10_one_sided_classification",
    "FF.C10_one_sided_regression"
   ],
   "note": "Entropy only where it does not raise (at most two classes)."
  },
  {
   "property": "C11",
   "status": "proved",
   "theorems": [
    "FF.C11_mse_variance"
   ],
   "note": ""
  },
  {
   "property": "C12",
   "status": "proved",
   "theorems": [
    "FF.C12_interval_contains_estimate",
    "FF.C12_single_point",
    "FF.C12_single_point_classification",
    "FF.C12_single_point_regression"
   ],
   "note": ""
  },
  {
   "property": "C13",
   "status": "proved",
   "theorems": [
    "FF.C13_exact_best",
    "FF.C13_candidates_identity",
    "FF.C13_candidates_linear",
    "FF.C13_candidates_random"
   ],
   "note": "Candidates are the bin edges with index below the number of bins; what they are per bin type is in the C13_candidates theorems."
  },
  {
   "property": "C14",
   "status": "proved",
   "theorems": [
    "FF.C14_identity_optimal"
   ],
   "note": ""
  },
  {
   "property": "C15",
   "status": "proved",
   "theorems": [
    "FF.C15_no_split",
    "FF.C15_no_split_identity"
   ],
   "note": ""
  },
  {
   "property": "C16",
   "status": "proved",
   "theorems": [
    "FF.C16_exact_cost"
   ],
   "note": ""
  },
  {
   "property": "C17",
   "status": "proved",
   "theorems": [
    "FF.C17_positional"
   ],
   "note": ""
  },
  {
   "property": "C18",
   "status": "proved",
   "theorems": [
    "FF.C18_terminates",
    "FF.C18_unique"
   ],
   "note": ""
  },
  {
   "property": "C19",
   "status": "proved",
   "theorems": [
    "FF.C19_cost_at_most_exact",
    "FF.C19_cost_bound"
   ],
   "note": ""
  },
  {
   "property": "C20",
   "status": "proved",
   "theorems": [
    "FF.C20_budget"
   ],
   "note": ""
  },
  {
   "property": "C21",
   "status": "proved",
   "theorems": [
    "FF.C21_equals_exact"
   ],
   "note": ""
  },
  {
   "property": "C22",
   "status": "proved",
   "theorems": [
    "FF.C22_split_separates"
   ],
   "note": ""
  },
  {
   "property": "C23",
   "status": "partial",
   "theorems": [
    "FF.C23_refuted",
    "FF.C23_junk_independent_partial"
   ],
   "note": "False with at most five candidates (C23_refuted: the split is read from np.empty memory). Proved for more than five."
  },
  {
   "property": "C24",
   "status": "partial",
   "theorems": [
    "FF.C24_refuted",
    "FF.C24_nan_stops",
    "FF.C24_stop_reasons_partial",
    "FF.C24_candidates_partial"
   ],
   "note": "False: a NaN interval ends the loop (C24_refuted, C24_nan_stops). Proved: the complete list of reasons to stop, and the exact candidate set when no bound is NaN."
  },
  {
   "property": "C25",
   "status": "proved",
   "theorems": [
    "FF.C25_best_arm_kept"
   ],
   "note": ""
  },
  {
   "property": "C26",
   "status": "proved",
   "theorems": [
    "FF.C26_disjoint_batches"
   ],
   "note": ""
  },
  {
   "property": "C27",
   "status": "partial",
   "theorems": [
    "FF.C27_refuted",
    "FF.C27_few_candidates_refuted",
    "FF.C27_exact_identity_partial",
    "FF.C27_exact_linear_partial",
    "FF.C27_exact_random_partial",
    "FF.C27_mab_partial",
    "FF.C27_mab_linear_partial",
    "FF.C27_mab_random_partial"
   ],
   "note": "False in general: LINEAR bins with only constant features raise (C27_refuted), and so does the bandit with at most five candidates if uninitialised memory is NaN. Proved for both solvers otherwise."
  },
  {
   "property": "C28",
   "status": "proved",
   "theorems": [
    "FF.C28_fit_terminates",
    "FF.C28_unique"
   ],
   "note": "fit ends after at most as many splits as rows, any arguments"
  },
  {
   "property": "C29",
   "status": "proved",
   "theorems": [
    "FF.C29_partition"
   ],
   "note": ""
  },
  {
   "property": "C30",
   "status": "proved",
   "theorems": [
    "FF.C30_no_empty_leaf",
    "FF.C30_one_parent"
   ],
   "note": ""
  },
  {
   "property": "C31",
   "status": "proved",
   "theorems": [
    "FF.C31_depth"
   ],
   "note": ""
  },
  {
   "property": "C32",
   "status": "proved",
   "theorems": [
    "FF.C32_leaf_limit",
    "FF.C32_no_exception"
   ],
   "note": ""
  },
  {
   "property": "C33",
   "status": "proved",
   "theorems": [
    "FF.C33_min_samples"
   ],
   "note": ""
  },
  {
   "property": "C34",
   "status": "proved",
   "theorems": [
    "FF.C34_improving",
    "FF.C34_assertion"
   ],
   "note": ""
  },
  {
   "property": "C35",
   "status": "proved",
   "theorems": [
    "FF.C35_training_row",
    "FF.C35_predict_training_row"
   ],
   "note": "A training row of a fitted tree is routed to exactly the leaf that holds it, and predicting it returns that leaf's summary."
  },
  {
   "property": "C36",
   "status": "proved",
   "theorems": [
    "FF.C36_leaf_frequencies",
    "FF.C36_predict_total"
   ],
   "note": "Class probabilities are the class frequencies of the reached leaf; the prediction is their first maximum."
  },
  {
   "property": "C37",
   "status": "proved",
   "theorems": [
    "FF.C37_leaf_mean"
   ],
   "note": "A regression tree returns the mean training label of the reached leaf, between the leaf's smallest and largest label."
  },
  {
   "property": "C38",
   "status": "proved",
   "theorems": [
    "FF.C38_history_independent",
    "FF.C38_batch"
   ],
   "note": "Predictions do not depend on earlier predictions or on batching."
  },
  {
   "property": "C39",
   "status": "proved",
   "theorems": [
    "FF.C39_best_first"
   ],
   "note": ""
  },
  {
   "property": "C40",
   "status": "proved",
   "theorems": [
    "FF.C40_fully_grown",
    "FF.C40_exact_identity"
   ],
   "note": "The recorded reduction is compared with min_impurity_decrease after it is multiplied by the node's share of the rows a second time, as in the code."
  },
  {
   "property": "C41",
   "status": "proved",
   "theorems": [
    "FF.C41_query_accounting"
   ],
   "note": ""
  },
  {
   "property": "C42",
   "status": "proved",
   "theorems": [
    "FF.C42_no_budget",
    "FF.C42_mab_budget"
   ],
   "note": ""
  },
  {
   "property": "C43",
   "status": "proved",
   "theorems": [
    "FF.C43_telescopes",
    "FF.C43_lowers"
   ],
   "note": "Exact-solver trees: the weighted impurity of the leaves equals the root impurity plus the recorded reductions, and each split lowers it."
  },
  {
   "property": "C44",
   "status": "partial",
   "theorems": [
    "FF.C44_exact_identity_partial",
    "FF.C44_refuted"
   ],
   "note": "EXACT solver with IDENTITY bins: constructor and fit never raise on any well-formed training set, for Gini and MSE with any number of classes. Missing: entropy with three or more classes, for which the property is false (C44_refuted). Binned solvers are C81."
  },
  {
   "property": "C45",
   "status": "partial",
   "theorems": [
    "FF.C45_same_data_partial",
    "FF.C45_both_or_neither",
    "FF.C45_refuted"
   ],
   "note": "The property is false: fit(data, labels) with other data keeps the root node made by the constructor (C45_refuted). Proved: with the constructor's own data it equals fit(); passing only one argument raises."
  },
  {
   "property": "C46",
   "status": "proved",
   "theorems": [
    "FF.C46_split_columns"
   ],
   "note": ""
  },
  {
   "property": "C47",
   "status": "proved",
   "theorems": [
    "FF.C47_proportion"
   ],
   "note": ""
  },
  {
   "property": "C48",
   "status": "proved",
   "theorems": [
    "FF.C48_number_of_trees"
   ],
   "note": "A forest with any history (ForestObj: construction, fits, predictions, out-of-bag scores, importances, resets)."
  },
  {
   "property": "C49",
   "status": "proved",
   "theorems": [
    "FF.C49_budget",
    "FF.C49_assertion"
   ],
   "note": "Any history of a forest constructed with budget b >= 0; the assertion can be removed without changing fit."
  },
  {
   "property": "C50",
   "status": "partial",
   "theorems": [
    "FF.C50_new_forest_partial",
    "FF.C50_refit_accumulates",
    "FF.C50_refuted"
   ],
   "note": "Proved for a new forest. False for the refit clause: C50_refit_accumulates shows the count goes on from its old value for every refit, C50_refuted is a concrete one."
  },
  {
   "property": "C51",
   "status": "proved",
   "theorems": [
    "FF.C51_average",
    "FF.C51_default_classes",
    "FF.C51_predict_total"
   ],
   "note": ""
  },
  {
   "property": "C52",
   "status": "proved",
   "theorems": [
    "FF.C52_mean_in_range",
    "FF.C51_predict_total"
   ],
   "note": ""
  },
  {
   "property": "C53",
   "status": "proved",
   "theorems": [
    "FF.C53_residuals",
    "FF.C53_boosted_prediction",
    "FF.C53_residuals_sampled"
   ],
   "note": ""
  },
  {
   "property": "C54",
   "status": "partial",
   "theorems": [
    "FF.C54_labels_unchanged_partial",
    "FF.C54_refuted"
   ],
   "note": "Proved without boosting and, with boosting, for every array but the targets. False with boosting: C54_refuted."
  },
  {
   "property": "C55",
   "status": "proved",
   "theorems": [
    "FF.C55_out_of_bag"
   ],
   "note": ""
  },
  {
   "property": "C56",
   "status": "partial",
   "theorems": [
    "FF.C56_classes_partial",
    "FF.C56_targets_partial",
    "FF.C56_value_classes",
    "FF.C56_value_targets",
    "FF.C56_refuted_classes",
    "FF.C56_refuted_targets",
    "FF.C56_refuted_boosting"
   ],
   "note": "What the score is, for every fitted forest without boosting and any earlier reads (C56_value_*). It is the stated accuracy if the classes are 0..k-1, and the stated mean squared error if no row is out of bag for two trees. The general property is false: the class index is compared with the label, and the regression sum is divided by the count twice (C56_refuted_*)."
  },
  {
   "property": "C57",
   "status": "partial",
   "theorems": [
    "FF.C57_value",
    "FF.C57_total",
    "FF.C57_performed_partial",
    "FF.C57_refuted"
   ],
   "note": "The importance of a feature is the sum over all nodes that recorded a reduction on it (never positive), which includes unsplit leaves under max_leaf_nodes, a budget or a minimal decrease (refuted on a concrete forest); without these limits it is the sum over the performed splits."
  },
  {
   "property": "C58",
   "status": "partial",
   "theorems": [
    "FF.C58_first_partial",
    "FF.C58_stale",
    "FF.C58_refuted"
   ],
   "note": "Holds for the first fit after which importances are read; afterwards the cached array is returned for ever (refuted on a concrete history)."
  },
  {
   "property": "C59",
   "status": "partial",
   "theorems": [
    "FF.C59_same_budget_partial",
    "FF.C59_budget_ignored",
    "FF.C59_refuted"
   ],
   "note": "False: the budget passed to reset is ignored (C59_budget_ignored, for every forest). Proved when it equals the budget that is left."
  },
  {
   "property": "C60",
   "status": "partial",
   "theorems": [
    "FF.C60_default_partial",
    "FF.C60_ignored",
    "FF.C60_refuted"
   ],
   "note": "False: criterion and splitter are ignored (C60_ignored, for every forest). Proved for the default criterion."
  },
  {
   "property": "C61",
   "status": "partial",
   "theorems": [
    "FF.C61_fresh_partial",
    "FF.C61_refuted"
   ],
   "note": "Proved for construction followed by fit. False with other use of the global generator in between."
  },
  {
   "property": "C62",
   "status": "proved",
   "theorems": [
    "FF.C62_samples"
   ],
   "note": "Every tree of any fitted forest, with alpha_N, alpha_F <= 1."
  },
  {
   "property": "C63",
   "status": "proved",
   "theorems": [
    "FF.C63_history_independent",
    "FF.C63_batch",
    "FF.C63_entries",
    "FF.C38_batch"
   ],
   "note": "forests; C38_batch is the same statement for single trees"
  },
  {
   "property": "C64",
   "status": "partial",
   "theorems": [
    "FF.C64_no_depth",
    "FF.C64_refuted",
    "FF.C64_boosted_classifiers",
    "FF.C64_depth_partial",
    "FF.C64_patches_partial",
    "FF.C64_default_bins"
   ],
   "note": "The property as stated is refuted: max_depth=None raises in fit for every wrapper (C64_refuted), and the boosted classifier wrappers cannot be constructed (C64_boosted_classifiers). Proved: with a maximal depth the wrappers can be built and fitted on well-formed data."
  },
  {
   "property": "C65",
   "status": "partial",
   "theorems": [
    "FF.C65_reads_prefix",
    "FF.C65_partial",
    "FF.C65_refuted"
   ],
   "note": "Refuted: the wrapper reads the first columns of a datapoint, not the ones it was trained on. Proved: the prediction is right when the first entries of the datapoint are the trained columns."
  },
  {
   "property": "C66",
   "status": "proved",
   "theorems": [
    "FF.C66_jaccard",
    "FF.C66_value"
   ],
   "note": ""
  },
  {
   "property": "C67",
   "status": "partial",
   "theorems": [
    "FF.C67_spearman_partial",
    "FF.C67_refuted_jaccard",
    "FF.C67_refuted_kuncheva",
    "FF.C67_refuted"
   ],
   "note": "Holds for SPEARMAN with at least two features; proved false for JACCARD and KUNCHEVA, whose values are characterised."
  },
  {
   "property": "C68",
   "status": "proved",
   "theorems": [
    "FF.C68_spearman"
   ],
   "note": ""
  },
  {
   "property": "C69",
   "status": "proved",
   "theorems": [
    "FF.C69_value",
    "FF.C69_bounds",
    "FF.C69_agree",
    "FF.C69_negative"
   ],
   "note": ""
  },
  {
   "property": "C70",
   "status": "proved",
   "theorems": [
    "FF.C70_order"
   ],
   "note": ""
  },
  {
   "property": "C71",
   "status": "proved",
   "theorems": [
    "FF.C71_impurity",
    "FF.C71_total"
   ],
   "note": "One row per forest trained so far: every call of get_importance_array trains num_forests more."
  },
  {
   "property": "C72",
   "status": "proved",
   "theorems": [
    "FF.C72_label_counts",
    "FF.C72_class_to_idx"
   ],
   "note": ""
  },
  {
   "property": "C73",
   "status": "partial",
   "theorems": [
    "FF.C73_ten_partial",
    "FF.C73_refuted"
   ],
   "note": "The argument n is ignored: the code always uses 10. Proved for n = 10, refuted in general."
  },
  {
   "property": "C74",
   "status": "partial",
   "theorems": [
    "FF.C74_never_splits",
    "FF.C74_refuted",
    "FF.C74_other_types_partial"
   ],
   "note": "Refuted: with DISCRETE bins, or automatic bins and a discrete first column, no tree ever splits and fitting data that could be split raises. Proved: make_discrete=True does no harm with the other bin types."
  },
  {
   "property": "C75",
   "status": "proved",
   "theorems": [
    "FF.C75_choose_features"
   ],
   "note": ""
  },
  {
   "property": "C76",
   "status": "partial",
   "theorems": [
    "FF.C76_two_sided_partial",
    "FF.C76_refuted"
   ],
   "note": "verify_reduction answers exactly whether both sides are non-empty (TOLERANCE is negative); so false implies no Gini change, but true does not imply an improvement."
  },
  {
   "property": "C77",
   "status": "proved",
   "theorems": [
    "FF.C77_same_tables",
    "FF.C77_unknown_label"
   ],
   "note": "For every batch the scalar branch accepts. On a label that is no class the branches differ (C77_unknown_label)."
  },
  {
   "property": "C78",
   "status": "proved",
   "theorems": [
    "FF.C78_filter_tied"
   ],
   "note": ""
  },
  {
   "property": "C79",
   "status": "partial",
   "theorems": [
    "FF.C79_auto_bins_partial",
    "FF.C79_leak_partial",
    "FF.C79_refuted"
   ],
   "note": "The local number of bins leaks from a discrete feature to later LINEAR features; proved when no listed feature precedes. C79_leak_partial gives the number of edges every feature gets."
  },
  {
   "property": "C80",
   "status": "proved",
   "theorems": [
    "FF.C80_node_features"
   ],
   "note": ""
  },
  {
   "property": "C81",
   "status": "proved",
   "theorems": [
    "FF.C81_exact_binned",
    "FF.C81_mab_binned",
    "FF.C81_inconsistent_raises"
   ],
   "note": "Enough bins means 1 (RANDOM, exact), 2 (LINEAR, exact), 6 (adaptive); C81_inconsistent_raises shows why consistency is assumed."
  },
  {
   "property": "C82",
   "status": "partial",
   "theorems": [
    "FF.C82_freq_partial",
    "FF.C82_refuted"
   ],
   "note": "The frequency measure is invariant when the top k are strictly separated; the pairwise measures depend on the numbering (C82_refuted)."
  },
  {
   "property": "C83",
   "status": "proved",
   "theorems": [
    "FF.C83_tree",
    "FF.C83_forest",
    "FF.C83_oob"
   ],
   "note": ""
  },
  {
   "property": "C84",
   "status": "partial",
   "theorems": [
    "FF.C84_unused_partial",
    "FF.C84_refuted"
   ],
   "note": "The importance is the count of correct predictions minus the out-of-bag score, the same for every unused feature, and not 0 in general (C84_refuted)."
  },
  {
   "property": "C85",
   "status": "proved",
   "theorems": [
    "FF.C85_fit_passed",
    "FF.C85_constructed",
    "FF.C85_duplicate_rows"
   ],
   "note": "every reachable forest object; C85_duplicate_rows shows why LINEAR bins with boosting need different rows"
  },
  {
   "property": "C86",
   "status": "proved",
   "theorems": [
    "FF.C86_patch"
   ],
   "note": ""
  },
  {
   "property": "C87",
   "status": "proved",
   "theorems": [
    "FF.C87_pass",
    "FF.C87_cost",
    "FF.C87_final"
   ],
   "note": "Every pass, and the rest of the loop, from any reachable loop head."
  },
  {
   "property": "C88",
   "status": "proved",
   "theorems": [
    "FF.C88_limits"
   ],
   "note": "For every reachable forest object; max_leaf_nodes at least 1."
  },
  {
   "property": "C89",
   "status": "proved",
   "theorems": [
    "FF.C89_tree",
    "FF.C89_forest",
    "FF.C89_auto_tree",
    "FF.C89_auto_forest"
   ],
   "note": "IDENTITY, LINEAR, RANDOM and automatic bins, with or without precomputed ranges; at least two LINEAR bins in the forest theorems. Listed (discrete) values are the subject of C74 and C119."
  },
  {
   "property": "C90",
   "status": "proved",
   "theorems": [
    "FF.C90_bins",
    "FF.C90_call",
    "FF.C90_forest"
   ],
   "note": "Bins, tolerance, and the arguments and result of the adaptive search at every searched node, for trees and, in terms of the options of the forest, for forests."
  },
  {
   "property": "C91",
   "status": "proved",
   "theorems": [
    "FF.C91_value",
    "FF.C91_range",
    "FF.C91_matrix"
   ],
   "note": "The value (rank correlation plus the term of the skipped first feature), the bounds, and when the bound 1 is attained."
  },
  {
   "property": "C92",
   "status": "partial",
   "theorems": [
    "FF.C92_gini",
    "FF.C92_mse",
    "FF.C92_entropy_partial",
    "FF.C92_refuted_entropy",
    "FF.C92_refuted_ret_vars"
   ],
   "note": "Gini and MSE: the same arrays. Entropy: the same reductions, but other variances when several bins are requested. ret_vars=False: the vectorised branch always returns a tuple."
  },
  {
   "property": "C93",
   "status": "proved",
   "theorems": [
    "FF.C93_regression",
    "FF.C93_regression_const",
    "FF.C93_classification",
    "FF.C93_classification_const"
   ],
   "note": "for every fitted tree and every history of predict calls"
  },
  {
   "property": "C94",
   "status": "proved",
   "theorems": [
    "FF.C94_training_error",
    "FF.C94_refuted_bootstrap",
    "FF.C94_refuted_large_rate"
   ],
   "note": "for all prefixes of the ensemble; the two refutations show that the conditions (no bootstrapping, learning rate at most 2) are needed"
  },
  {
   "property": "C95",
   "status": "proved",
   "theorems": [
    "FF.C95_tree_row_order",
    "FF.C95_forest_row_order",
    "FF.C95_tree_both",
    "FF.C95_forest_both"
   ],
   "note": "That both runs return is assumed in the first theorems and proved in the _both theorems: for trees with the exact solver and IDENTITY bins on well-formed data (C44), for forests in the cases of C85. Trees: all rows used (idcs none). Forests: no bootstrap, alpha_N and alpha_F at least 1."
  },
  {
   "property": "C96",
   "status": "proved",
   "theorems": [
    "FF.C96_tree_units",
    "FF.C96_forest_units",
    "FF.C96_tree_both",
    "FF.C96_forest_both"
   ],
   "note": "That both runs return is assumed in the first theorems and proved in the _both theorems: for trees with the exact solver and IDENTITY bins on well-formed data (C44), for forests in the cases of C85."
  },
  {
   "property": "C97",
   "status": "proved",
   "theorems": [
    "FF.C97_tree_targets",
    "FF.C97_tree_classes",
    "FF.C97_forest_targets",
    "FF.C97_forest_classes",
    "FF.C97_tree_targets_both",
    "FF.C97_tree_classes_both",
    "FF.C97_forest_targets_both",
    "FF.C97_forest_classes_both",
    "FF.C97_boosted_offset"
   ],
   "note": "That both runs return is assumed in the first theorems and proved in the _both theorems: for trees with the exact solver and IDENTITY bins on well-formed data (C44), for forests in the cases of C85. C97_boosted_offset: with boosting on bootstrap samples an offset b other than 0 changes the forest."
  },
  {
   "property": "C98",
   "status": "proved",
   "theorems": [
    "FF.C98_permutation"
   ],
   "note": ""
  },
  {
   "property": "C99",
   "status": "proved",
   "theorems": [
    "FF.C99_exhausted",
    "FF.C99_positive"
   ],
   "note": ""
  },
  {
   "property": "C100",
   "status": "proved",
   "theorems": [
    "FF.C100_refit_forgets",
    "FF.C100_reset"
   ],
   "note": ""
  },
  {
   "property": "C101",
   "status": "proved",
   "theorems": [
    "FF.C101_greedy_tree",
    "FF.C101_answers",
    "FF.C101_no_randomness"
   ],
   "note": "Exact solver, all columns, IDENTITY or LINEAR bins, no budget, leaf limit not reached."
  },
  {
   "property": "C102",
   "status": "proved",
   "theorems": [
    "FF.C102_limits_refine"
   ],
   "note": "In the situation of C101."
  },
  {
   "property": "C103",
   "status": "proved",
   "theorems": [
    "FF.C103_leaf_limit",
    "FF.C103_both"
   ],
   "note": "That both runs return is assumed in the first theorems and proved in the _both theorems: for trees with the exact solver and IDENTITY bins on well-formed data (C44), for forests in the cases of C85. Both start from the same process-wide generators."
  },
  {
   "property": "C104",
   "status": "proved",
   "theorems": [
    "FF.C104_more_trees",
    "FF.C104_both"
   ],
   "note": "That both runs return is assumed in the first theorems and proved in the _both theorems: for trees with the exact solver and IDENTITY bins on well-formed data (C44), for forests in the cases of C85. Both start from the same world (process-wide generators)."
  },
  {
   "property": "C105",
   "status": "proved",
   "theorems": [
    "FF.C105_solver",
    "FF.C105_tree",
    "FF.C105_forest"
   ],
   "note": "The second fit is proved to succeed. For a forest the hypotheses say that all trees asked for were made, and that each asked a query when the second fit has a budget: with a budget the code drops a tree that asked none."
  },
  {
   "property": "C106",
   "status": "proved",
   "theorems": [
    "FF.C106_print"
   ],
   "note": "Printing is modelled as the list of lines; formatting of numbers is not."
  },
  {
   "property": "C107",
   "status": "proved",
   "theorems": [
    "FF.C107_one_tree",
    "FF.C107_answers",
    "FF.C107_seed_and_size"
   ],
   "note": "alpha_N = alpha_F = 1; settings as in PlainForest."
  },
  {
   "property": "C108",
   "status": "proved",
   "theorems": [
    "FF.C108_depth_first_tree",
    "FF.C108_same_as_fit",
    "FF.C108_records",
    "FF.C108_returns",
    "FF.C108_needs_rows"
   ],
   "note": "Depth-first growth by recursive_split yields the textbook tree and agrees with fit; the hypothesis on the number of rows is shown to be needed."
  },
  {
   "property": "C109",
   "status": "partial",
   "theorems": [
    "FF.C109_gradient_partial",
    "FF.C109_hessian",
    "FF.C109_refuted_hessian",
    "FF.C109_targets_forgotten",
    "FF.C109_other",
    "FF.C109_forest"
   ],
   "note": "False of the code as stated: the hessian is not the second derivative (C109_refuted_hessian, C109_hessian says exactly when it is) and the new targets for classification do not depend on the targets (C109_targets_forgotten). Proved: the gradient is the derivative, the hessian is positive, regression gives the residuals used by the forest."
  },
  {
   "property": "C110",
   "status": "proved",
   "theorems": [
    "FF.C110_thresholds",
    "FF.C110_samples",
    "FF.C110_answers",
    "FF.C110_residuals",
    "FF.C110_limits"
   ],
   "note": ""
  },
  {
   "property": "C111",
   "status": "proved",
   "theorems": [
    "FF.C111_reproducible",
    "FF.C111_construct",
    "FF.C111_call",
    "FF.C111_seeds",
    "FF.C111_two"
   ],
   "note": ""
  },
  {
   "property": "C112",
   "status": "proved",
   "theorems": [
    "FF.C112_regret",
    "FF.C112_reported",
    "FF.C112_exact_arms",
    "FF.C112_ties"
   ],
   "note": "For regression the estimates from partial samples are not of the form of C112_reported (C04); C112_regret, C112_exact_arms and C112_ties cover both tasks."
  },
  {
   "property": "C113",
   "status": "partial",
   "theorems": [
    "FF.C113_linear_lookup_partial",
    "FF.C113_exact",
    "FF.C113_refuted",
    "FF.C113_refuted_max"
   ],
   "note": "False of the code: C113_refuted and C113_refuted_max give double-precision counterexamples. Proved for every precision p >= 4: the lookup is monotone, the minimum lands in the first bin, and a value is on the wrong side of an edge only within 2^-p*(9*(hi-lo)+|lo|) of it. Overflow and underflow are not modelled."
  },
  {
   "property": "C114",
   "status": "proved",
   "theorems": [
    "FF.C114_with",
    "FF.C114_without",
    "FF.C114_not_too_small",
    "FF.C114_tail"
   ],
   "note": "Samples are the equally likely shuffles or sequences of draws of Spec/Sampling.lean; the pseudo-random generators themselves are not modelled as distributions."
  },
  {
   "property": "C115",
   "status": "proved",
   "theorems": [
    "FF.C115_with",
    "FF.C115_without"
   ],
   "note": "Samples are the equally likely shuffles or sequences of draws of Spec/Sampling.lean."
  },
  {
   "property": "C116",
   "status": "partial",
   "theorems": [
    "FF.C116_two_classes_partial",
    "FF.C116_entropy_partial",
    "FF.C116_extreme_partial",
    "FF.C116_refuted"
   ],
   "note": "False for three classes (C116_refuted): get_gini ignores the correlations between the frequencies, so that the reported variance depends on the numbering of the classes and can be too small. Proved for two classes; with more classes the report is not too small if the last class is the most or the least frequent one. get_entropy raises for three classes (C09)."
  },
  {
   "property": "C117",
   "status": "proved",
   "theorems": [
    "FF.C117_tree",
    "FF.C117_forest",
    "FF.C117_huge",
    "FF.C117_make_huge"
   ],
   "note": "Stated for min_samples_split values that treat n rows and k*n copies alike (for example k times the value); an example shows that with an unchanged limit the trees can differ. Exact solver, all columns, no budget, max_leaf_nodes not reached; the logarithmic number of bins is excluded for LINEAR bins because it depends on the number of rows. C117_huge is the case of the experiments' make_huge."
  },
  {
   "property": "C118",
   "status": "proved",
   "theorems": [
    "FF.C118_tree",
    "FF.C118_forest"
   ],
   "note": "Exact solver, all columns, no budget, max_leaf_nodes not reached, no min/max given by the caller of a single tree. New columns come after the old ones, so that ties go to the old ones."
  },
  {
   "property": "C119",
   "status": "partial",
   "theorems": [
    "FF.C119_all_columns_partial",
    "FF.C119_position_partial",
    "FF.C119_remap_partial",
    "FF.C119_refuted"
   ],
   "note": "False of the code as stated: in a node that looks at a subset of the columns, the list of another column is used (C119_refuted; C119_position_partial says which). Proved when every node looks at all columns; the renumbering that the code computes and drops is right."
  },
  {
   "property": "C120",
   "status": "proved",
   "theorems": [
    "FF.C120_boxes",
    "FF.C120_answers",
    "FF.C120_threshold_tree",
    "FF.C120_threshold_forest"
   ],
   "note": ""
  },
  {
   "property": "C121",
   "status": "partial",
   "theorems": [
    "FF.C121_whole_partial",
    "FF.C121_drift",
    "FF.C121_stuck",
    "FF.C121_refuted"
   ],
   "note": "False of the code: residuals written into an integer array are truncated. Proved: equality when every contribution is a whole number, a bound on the drift, and that boosting stops when the first tree is within 1 of all targets."
  },
  {
   "property": "C122",
   "status": "partial",
   "theorems": [
    "FF.C122_number_partial",
    "FF.C122_tree_partial",
    "FF.C122_batch_partial",
    "FF.C122_overwritten",
    "FF.C122_forest",
    "FF.C122_forest_batch",
    "FF.C122_kept",
    "FF.C122_kept_tree",
    "FF.C122_refuted"
   ],
   "note": "Proved for forests, regression trees, and class labels; for classification trees it is false (C122_refuted): predict hands out the cached array, and C122_overwritten says the tree answers with whatever was written there. The proved part for classification trees covers callers that write only into arrays from predict_batch."
  },
  {
   "property": "C123",
   "status": "partial",
   "theorems": [
    "FF.C123_fair_partial",
    "FF.C123_ours",
    "FF.C123_reproducible",
    "FF.C123_no_test",
    "FF.C123_boosted",
    "FF.C123_refuted_targets",
    "FF.C123_refuted_draws"
   ],
   "note": "Proved for bagged models and boosted patches: the caller's arrays are kept, the first model's report is that of the model built alone, the second model's report is that of the model built alone that finds the process-wide generators in some state. Not proved in general because false: boosted forests overwrite the targets (C123_refuted_targets), and the second extremely random forest continues the random numbers of the first (C123_refuted_draws)."
  },
  {
   "property": "C124",
   "status": "partial",
   "theorems": [
    "FF.C124_overlap_partial",
    "FF.C124_verdict_partial",
    "FF.C124_symmetric",
    "FF.C124_one_round",
    "FF.C124_stability_partial",
    "FF.C124_refuted_constant",
    "FF.C124_refuted_heart",
    "FF.C124_refuted_heart_equal",
    "FF.C124_refuted_stability"
   ],
   "note": "compare_budgets and compare_runtimes: proved when both spreads are positive; false when both are 0, in particular with one round. Heart experiment: false, a reported overlap means the intervals are disjoint. Stability test: proved when the second mean is not below the first, false when its interval is entirely below."
  },
  {
   "property": "C125",
   "status": "partial",
   "theorems": [
    "FF.C125_success",
    "FF.C125_reproducible",
    "FF.C125_same_settings_partial",
    "FF.C125_refuted_limits",
    "FF.C125_refuted_one_sided"
   ],
   "note": "Seeds, independence of the process, and the caller's arrays: proved for all tests. Equal settings: proved when no max_leaf_nodes is given, false otherwise (C125_refuted_limits). A success means the bandits' interval is entirely above; the converse case is reported as an overlap (C125_refuted_one_sided)."
  },
  {
   "property": "C126",
   "status": "partial",
   "theorems": [
    "FF.C126_error",
    "FF.C126_decomposition_partial",
    "FF.C126_exact_iff",
    "FF.C126_nonneg",
    "FF.C126_trials",
    "FF.C126_refuted",
    "FF.C126_refuted_budget"
   ],
   "note": "The exact identity has an additional product of noise and bias; the stated sum holds exactly if one of the two is 0 (C126_exact_iff). Trials: proved for all models (the limits only without a budget; C126_refuted_budget shows that a budget is not given back)."
  },
  {
   "property": "C127",
   "status": "proved",
   "theorems": [
    "FF.C127_tree",
    "FF.C127_total_tree",
    "FF.C127_forest",
    "FF.C127_finite",
    "FF.C127_total"
   ],
   "note": "A point with NaN or infinite entries is answered as with large and small numbers in their place; every point that is long enough is answered."
  },
  {
   "property": "C128",
   "status": "partial",
   "theorems": [
    "FF.C128_rows_partial",
    "FF.C128_leaf_or_lost_partial",
    "FF.C128_answers_partial",
    "FF.C128_none_missing_partial",
    "FF.C128_refuted",
    "FF.C128_refuted_fit"
   ],
   "note": "False of the code: a row with a missing value in a tested column is in no leaf, and fit can raise (C128_refuted, C128_refuted_fit). Proved: exactly the rows tested for a missing value are lost, all others are in exactly one leaf, answers are means or frequencies over the rows that came down, and nothing changes if nothing is missing. One tree with IDENTITY bins and the default splitter."
  },
  {
   "property": "C129",
   "status": "partial",
   "theorems": [
    "FF.C129_trees_partial",
    "FF.C129_prefix_partial",
    "FF.C129_labels_partial",
    "FF.C129_accounting_partial",
    "FF.C129_refit_partial",
    "FF.C129_refuted_uncounted",
    "FF.C129_refuted"
   ],
   "note": "False of the code as stated: a tree is appended to the forest before its queries are counted and charged to the budget, so an exception between these statements leaves a forest that has the tree but not its cost (C129_refuted_uncounted for every fit that keeps a tree, C129_refuted for a concrete one). With boosting the caller's array is overwritten even by an undisturbed fit (C54), so C129_labels_partial is for boosting = False; C129_refit_partial is for forests without a budget (the budget is never refilled, C59)."
  },
  {
   "property": "C130",
   "status": "partial",
   "theorems": [
    "FF.C130_answers_partial",
    "FF.C130_rows_partial",
    "FF.C130_pruned_partial",
    "FF.C130_half_partial",
    "FF.C130_half_pruned_partial",
    "FF.C130_refuted_half",
    "FF.C130_refuted",
    "FF.C130_refuted_resume"
   ],
   "note": "False of the code as stated: an exception between the assignments of the two children of a node leaves a node with one child; then predict raises an AttributeError for at least one training row (C130_refuted_half, for every such state; C130_refuted for a concrete one). C130_half_partial says which points are still answered, and how. At all other points of fit() the rows, the answers and the shape are as stated (C130_rows_partial, C130_answers_partial, C130_pruned_partial). A second fit() on a tree that was left behind can raise (C130_refuted_resume)."
  },
  {
   "property": "C131",
   "status": "proved",
   "theorems": [
    "FF.C131_forest",
    "FF.C131_ends",
    "FF.C131_regression_tree"
   ],
   "note": "every schedule of any number of threads, one attribute access per step; calls to fit at the same time are not modelled"
  },
  {
   "property": "C132",
   "status": "partial",
   "theorems": [
    "FF.C132_tree_partial",
    "FF.C132_warm_partial",
    "FF.C132_ends_partial",
    "FF.C132_refuted_always",
    "FF.C132_refuted"
   ],
   "note": "false of the code: predict writes the probabilities of a leaf before its label, and takes the probabilities as the sign that both are there. Proved: the probabilities are right and the label is right or None, under every schedule; the label is right for points asked before"
  },
  {
   "property": "C133",
   "status": "proved",
   "theorems": [
    "FF.C133_one_batch",
    "FF.C133_linear"
   ],
   "note": "Includes the error-probability-free stopping after one batch; regression and bins that separate something everywhere are not covered."
  },
  {
   "property": "C134",
   "status": "proved",
   "theorems": [
    "FF.C134_without",
    "FF.C134_with",
    "FF.C134_small"
   ],
   "note": "The generator is abstract: the theorem is about any family of generator states, one per shuffle (or sequence), that draws that shuffle; that the states occur equally often is the assumption. Entropy is covered only by C134_small."
  },
  {
   "property": "C135",
   "status": "partial",
   "theorems": [
    "FF.C135_partial",
    "FF.C135_rare",
    "FF.C135_refuted"
   ],
   "note": "False of the code: C135_refuted. Proved: a bound that depends on the batch size and the reduction, not on the error probability passed."
  },
  {
   "property": "C136",
   "status": "proved",
   "theorems": [
    "FF.C136_node",
    "FF.C136_tree",
    "FF.C136_depth",
    "FF.C136_leaves",
    "FF.C136_forest",
    "FF.C136_not_regression"
   ],
   "note": "LINEAR bins, Gini or entropy; precomputed bounds, if any, must cover the training rows (they do in a forest)."
  },
  {
   "property": "C137",
   "status": "proved",
   "theorems": [
    "FF.C137_threads",
    "FF.C137_ends",
    "FF.C137_tree",
    "FF.C137_same_answers"
   ],
   "note": "For every schedule, a thread that fits exact models makes what it makes alone, and every thread ends."
  },
  {
   "property": "C138",
   "status": "proved",
   "theorems": [
    "FF.C138_sound",
    "FF.C138_tree"
   ],
   "note": "For every schedule and all kinds of models; label arrays are not shared between a thread that writes and another."
  },
  {
   "property": "C139",
   "status": "partial",
   "theorems": [
    "FF.C139_exact_partial",
    "FF.C139_refuted_forest",
    "FF.C139_refuted_bandit",
    "FF.C139_refuted_random_bins",
    "FF.C139_refuted_shared_targets"
   ],
   "note": "Holds for exact forests that look at all columns. The full property is false of the code: the seeds of the trees, the samples of MABSplit and RANDOM bins come from process-wide generators, which other threads use and reseed."
  },
  {
   "property": "C140",
   "status": "proved",
   "theorems": [
    "FF.C140_leaf_limit_regression",
    "FF.C140_leaf_limit_classification",
    "FF.C140_limits_regression",
    "FF.C140_limits_classification"
   ],
   "note": "For every fitted tree. The leaf limit: two calls to fit from the same state of the generators, any solver. The other limits: exact solver, no columns drawn, no budget (NoChoice), leaf limit not reached by either tree."
  },
  {
   "property": "C141",
   "status": "proved",
   "theorems": [
    "FF.C141_leaf_pure",
    "FF.C141_regression",
    "FF.C141_classification",
    "FF.C141_two_columns"
   ],
   "note": "Exact solver, IDENTITY bins, Gini or squared error, featSub none, leaf limit not reached. Entropy is left out: its strict concavity depends on the logarithm of the machine."
  },
  {
   "property": "C142",
   "status": "proved",
   "theorems": [
    "FF.C142_depth",
    "FF.C142_levels",
    "FF.C142_forest"
   ],
   "note": "Queries as reported by num_queries, from any state of the forest object. Bins: ArgsOK (not one LINEAR bin)."
  },
  {
   "property": "C143",
   "status": "proved",
   "theorems": [
    "FF.C143_regression",
    "FF.C143_classification",
    "FF.C143_not_accuracy"
   ],
   "note": "For every fitted forest that answers at the points. alpha_N and alpha_F at most 1."
  },
  {
   "property": "C144",
   "status": "partial",
   "theorems": [
    "FF.C144_reduction_partial",
    "FF.giniErr_le",
    "FF.C144_choice_partial",
    "FF.C144_pure",
    "FF.C144_exact",
    "FF.C144_refuted"
   ],
   "note": "False of the code: C144_refuted gives 15 rows on which, in double precision, a split on a feature independent of the label is reported as an improvement by 2^-54. Proved for every precision and number of classes: the computed reduction is within giniErr p k of the true change (at most 4(k+8)/2^p by giniErr_le), the reported split is a best one up to twice that, and a node whose labels are all equal is never split (C144_pure). Overflow, underflow and entropy are not covered."
  },
  {
   "property": "C145",
   "status": "partial",
   "theorems": [
    "FF.C145_reduction_partial",
    "FF.mseErr_le",
    "FF.C145_choice_partial",
    "FF.C145_equal_partial",
    "FF.C145_exact",
    "FF.C145_refuted"
   ],
   "note": "False of the code: C145_refuted, in double precision three rows with the target 0.1 are split, because their computed mean is not 0.1 and their computed variance is positive. Proved for every precision and number of rows: the computed reduction is within mseErr p n M of the true change, the reported split is a best one up to twice that, and equal targets m*2^e with n*|m| < 2^p are never split. Overflow, underflow and the sampling solver are not covered."
  },
  {
   "property": "C146",
   "status": "proved",
   "theorems": [
    "FF.C146_tree",
    "FF.C146_forest",
    "FF.C146_first_question",
    "FF.C146_ties"
   ],
   "note": "For exactly solved trees and forests without sampling, IDENTITY or LINEAR thresholds. The hypothesis excludes ties between different columns at the questions of the tree; C146_ties shows that it is needed. C146_first_question needs no such hypothesis."
  },
  {
   "property": "C147",
   "status": "partial",
   "theorems": [
    "FF.C147_leaf",
    "FF.C147_forest_partial",
    "FF.C147_value_partial",
    "FF.C147_boosted_partial",
    "FF.C147_exact",
    "FF.C147_refuted",
    "FF.C147_refuted_value",
    "FF.avgErr_le"
   ],
   "note": "The part about trees for classification is proved in full for leaves of at most 2^(p-1) rows. The parts about labels of forests and the range of regression answers are false of the code (C147_refuted, C147_refuted_value); proved instead: they hold up to explicit bounds of the rounding errors."
  },
  {
   "property": "C148",
   "status": "partial",
   "theorems": [
    "FF.C148_preprocess",
    "FF.C148_order",
    "FF.C148_empty",
    "FF.C148_clash",
    "FF.C148_refuted",
    "FF.C148_refuted_words"
   ],
   "note": "Columns, one-hot encoding, order of values, that rows are kept apart, and which tables are refused are proved in full. That numbers are left alone and that ordered answers keep their meaning is false of the code (C148_refuted, C148_refuted_words)."
  },
  {
   "property": "C149",
   "status": "proved",
   "theorems": [
    "FF.C149_tree",
    "FF.C149_forest",
    "FF.C149_between",
    "FF.C149_ties"
   ],
   "note": "For the exact solver with IDENTITY bins; forests without bootstrap, feature sampling and boosting. The leaf limit must not be the reason to stop. C149_between and C149_ties show that both exceptions in the statement are needed."
  },
  {
   "property": "C150",
   "status": "proved",
   "theorems": [
    "FF.C150_forest",
    "FF.C150_tree",
    "FF.C150_impurity",
    "FF.C150_error",
    "FF.C150_not_monotone",
    "FF.C150_accuracy_may_fall"
   ],
   "note": "C150_not_monotone and C150_accuracy_may_fall show the limits stated."
  },
  {
   "property": "C151",
   "status": "partial",
   "theorems": [
    "FF.C151_tables",
    "FF.C151_table5",
    "FF.C151_all_seeds",
    "FF.C151_round",
    "FF.C151_round_mono",
    "FF.C151_runtime_lines",
    "FF.C151_budget_lines",
    "FF.C151_stability_lines",
    "FF.C151_needs_both",
    "FF.C151_ordinal",
    "FF.C151_baseline_lines_partial",
    "FF.C151_baseline_tests_ignored",
    "FF.C151_script_stale",
    "FF.C151_script_no_tables",
    "FF.C151_refuted_table6"
   ],
   "note": "Proved for Tables 1 to 5, given logs where they are looked for. False of the code otherwise: the script looks for the logs where the experiments do not write them, so that no new result is ever shown (C151_script_stale; on the repository no table is printed at all), and Table 6 shows training scores under Test Performance (C151_refuted_table6)."
  },
  {
   "property": "C152",
   "status": "proved",
   "theorems": [
    "FF.C152_mean",
    "FF.C152_best_line",
    "FF.C152_between",
    "FF.C152_constant_nan",
    "FF.C152_correlation",
    "FF.C152_units",
    "FF.C152_points",
    "FF.C152_classifier_flat"
   ],
   "note": "LinearRegression is modelled as the least-squares line; times and the drawing are not modelled. If all costs are equal the line fits exactly and NaN is printed (C152_constant_nan)."
  },
  {
   "property": "C153",
   "status": "proved",
   "theorems": [
    "FF.C153_subset",
    "FF.C153_subset_refuses",
    "FF.C153_split",
    "FF.C153_split_ok",
    "FF.C153_three",
    "FF.C153_no_leak",
    "FF.C153_heart_ratio",
    "FF.C153_balanced",
    "FF.C153_three_balanced",
    "FF.C153_housing",
    "FF.C153_eighty"
   ],
   "note": "Exact arithmetic: the sizes are ceilings of exact products. sklearn's and imblearn's functions are modelled by what they compute."
  },
  {
   "property": "C154",
   "status": "partial",
   "theorems": [
    "FF.C154_weights",
    "FF.C154_all_right",
    "FF.C154_between",
    "FF.C154_constant",
    "FF.C154_balanced_plain",
    "FF.C154_best",
    "FF.C154_best_none",
    "FF.C154_log",
    "FF.C154_sweep",
    "FF.C154_refuted"
   ],
   "note": "False of the code in one point, which is proved: the branch of our forest raises NameError (C154_refuted), so it is neither measured nor logged. The rest is proved."
  },
  {
   "property": "C155",
   "status": "proved",
   "theorems": [
    "FF.C155_tree",
    "FF.C155_boosting",
    "FF.C155_stuck",
    "FF.C155_rate",
    "FF.C155_converges",
    "FF.C155_refuted_decrease",
    "FF.C155_refuted_size"
   ],
   "note": "Quantitative form of C94: progress per tree, what being stuck means, geometric convergence when one column tells the rows apart; counterexamples without the limits."
  },
  {
   "property": "C156",
   "status": "partial",
   "theorems": [
    "FF.C156_table",
    "FF.C156_refuses",
    "FF.C156_complete",
    "FF.C156_mean",
    "FF.C156_short",
    "FF.C156_warning",
    "FF.C156_no_warning",
    "FF.C156_signed",
    "FF.C156_refuted_alarm",
    "FF.C156_refuted_silent"
   ],
   "note": "Reading, refusal and the numbers of complete sizes are proved for all logs. The claim about the warning is false of the code: only the last cell of the 30 x 20 table is looked at, so a complete log of fewer sizes raises a false alarm and a log with a short earlier size raises none; the mean of a short size counts the missing runs as 0."
  },
  {
   "property": "C157",
   "status": "proved",
   "theorems": [
    "FF.C157_node",
    "FF.C157_greedy",
    "FF.C157_same",
    "FF.C157_answers",
    "FF.C157_refuted_ties"
   ],
   "note": "SmallMab collects the settings: MAB solver, LINEAR bins, at least six of them, no logarithmic bins, all columns, no budget, max_depth set, at most batch_size training rows. max_leaf_nodes must not have stopped the tree. C157_refuted_ties shows that the condition on ties is needed for equal answers."
  },
  {
   "property": "C158",
   "status": "proved",
   "theorems": [
    "FF.C158_tree",
    "FF.C158_answers",
    "FF.C158_forest",
    "FF.C158_oob",
    "FF.C158_refuted_random",
    "FF.C158_refuted_minmax"
   ],
   "note": "Both halves proved; the two exceptions named in the statement are proved by runs of the model where an out-of-bag vote on a row changes with the row itself."
  },
  {
   "property": "C159",
   "status": "partial",
   "theorems": [
    "FF.C159_settings",
    "FF.C159_fair_partial",
    "FF.C159_call_partial",
    "FF.C159_overlap",
    "FF.C159_again_partial",
    "FF.C159_boosted",
    "FF.C159_refuted_gbrfr",
    "FF.C159_refuted_gbhrfr",
    "FF.C159_gbhrfr_raises"
   ],
   "note": "Proved for the four comparisons of models that are not boosted (RFC, ERFC, RFR, ERFR). False of the code for GBRFR (C159_boosted: both models are measured, and the other trained, on our residuals) and for GBHRFR (settings differ; C159_gbhrfr_raises: always an exception). The second call is assumed to return, and to see the same uninitialised memory."
  },
  {
   "property": "C160",
   "status": "proved",
   "theorems": [
    "FF.C160_nodes",
    "FF.C160_points",
    "FF.C160_depth",
    "FF.C160_cost",
    "FF.C160_one_label",
    "FF.C160_one_answer",
    "FF.C160_forest",
    "FF.distinctPoints_le"
   ],
   "note": "for every fitted tree; C160_cost for the exact solver and for MABSplit without replacement"
  },
  {
   "property": "C161",
   "status": "proved",
   "theorems": [
    "FF.C161_cost",
    "FF.C161_same",
    "FF.C161_unbinned",
    "FF.C161_copies",
    "FF.C161_make_huge",
    "FF.C161_forest"
   ],
   "note": "Exact solver, unbinned or linear thresholds, all columns, no budget, leaf limit not reached (the hypotheses of C101). For copies: no log bins, and min_samples_split treats n rows and k*n copies alike. Binned: a feature that has no threshold in a node costs nothing there."
  },
  {
   "property": "C162",
   "status": "proved",
   "theorems": [
    "FF.C162_cheaper",
    "FF.C162_forest",
    "FF.C162_report",
    "FF.C162_script"
   ],
   "note": "Costs are counted in queries, not clock time. Classification over LINEAR bins. Loading the texts and the trees of the other library in the script are not modelled."
  },
  {
   "property": "C163",
   "status": "proved",
   "theorems": [
    "FF.C163_separated",
    "FF.C163_answers",
    "FF.C163_identity",
    "FF.C163_linear",
    "FF.C163_toy",
    "FF.C163_at_most_one",
    "FF.C163_forest",
    "FF.C163_forest_answers",
    "FF.C163_bagged"
   ],
   "note": "Gini and MSE (not ENTROPY, see C09). Forests: those without sampling, and bagged ones (each tree asks at most one question). The draws of create_data are arguments of the model; how likely a draw is to be large is not part of the claim."
  },
  {
   "property": "C164",
   "status": "partial",
   "theorems": [
    "FF.C164_names",
    "FF.C164_run",
    "FF.C164_failed",
    "FF.C164_kept_partial",
    "FF.C164_refuted_ours"
   ],
   "note": "False of the code for the repository's own forests: fit_forest uses the undefined name Forest (C164_refuted_ours). The rest of the claim is proved for the other library."
  },
  {
   "property": "C165",
   "status": "proved",
   "theorems": [
    "FF.C165_unanimous",
    "FF.C165_between",
    "FF.C165_between_reg",
    "FF.C165_majority",
    "FF.C165_more_votes",
    "FF.C165_order",
    "FF.C165_one_tree",
    "FF.C165_one_tree_cls",
    "FF.C165_not_heads",
    "FF.C165_boosted_order"
   ],
   "note": "For fitted forests (order, one tree: any forest without boosting). C165_not_heads and C165_boosted_order are the counterexamples that show why trees have to be sure and boosting is excluded."
  },
  {
   "property": "C166",
   "status": "proved",
   "theorems": [
    "FF.C166_regression",
    "FF.C166_classification",
    "FF.C166_explained",
    "FF.C166_explained_class",
    "FF.C166_forest",
    "FF.C166_forest_constant",
    "FF.C166_forest_classes",
    "FF.C166_boosted",
    "FF.C166_not_labels",
    "FF.C166_refuted_bootstrap"
   ],
   "note": "For fitted trees on their own rows and forests whose trees get all rows. C166_refuted_bootstrap and C166_not_labels show that the limits in the statement are needed."
  },
  {
   "property": "C167",
   "status": "partial",
   "theorems": [
    "FF.C167_rows",
    "FF.C167_read_back_partial",
    "FF.C167_refuted_shared",
    "FF.C167_names",
    "FF.C167_same_file",
    "FF.C167_refuted_sweep",
    "FF.C167_interrupted",
    "FF.C167_refuted_start",
    "FF.C167_refuted_torn"
   ],
   "note": "Holds for logs whose results all have the same names (C167_read_back_partial), and earlier results survive an interrupted write (C167_interrupted). False for shared logs (C167_refuted_shared, C167_refuted_sweep) and for results logged after an interruption (C167_refuted_start, C167_refuted_torn). Conversion of the texts to numbers by the reading library is not modelled, nor that it may refuse files with rows that are too long."
  },
  {
   "property": "C168",
   "status": "partial",
   "theorems": [
    "FF.C168_profile_names",
    "FF.C168_result_names",
    "FF.C168_kinds",
    "FF.C168_profiles_partial",
    "FF.C168_results",
    "FF.C168_all_results",
    "FF.C168_refuted_scaling"
   ],
   "note": "Holds for one comparison (C168_profiles_partial, unless its results are written over a profile) and for the results of the scaling experiment (C168_results, C168_all_results). False for the profiles of the scaling experiment (C168_refuted_scaling)."
  },
  {
   "property": "C169",
   "status": "partial",
   "theorems": [
    "FF.C169_reproduced",
    "FF.C169_produced",
    "FF.C169_files_partial",
    "FF.C169_refuted_files",
    "FF.C169_refuted_nan"
   ],
   "note": "The announcements are characterised exactly (C169_reproduced, C169_produced) and announced lines are in their files (C169_files_partial). False: files of rejected and of old lines (C169_refuted_files), NaN (C169_refuted_nan). What a run computes is arbitrary here (see C125)."
  }
 ]
}