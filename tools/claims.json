{
 "C01": [
  "proved",
  [
   "C01_threshold_counts",
   "C01_one_linear_bin"
  ],
  "All bin types, any sequence of add calls. LINEAR histograms must not have exactly one bin: C01_one_linear_bin proves the claim false there."
 ],
 "C02": [
  "proved",
  [
   "C02_order_and_batching"
  ],
  "Any two add sequences inserting permuted samples."
 ],
 "C03": [
  "proved",
  [
   "C03_counts_and_means"
  ],
  "Any sequence of add calls."
 ],
 "C04": [
  "partial",
  [
   "C04_refuted",
   "C04_variances_partial",
   "C04_single_batch_partial",
   "C04_step_partial"
  ],
  "False in general (C04_refuted: the update drops a variance when one part has zero variance). Proved when every batch has non-constant targets on the side in question, for a single batch, and (C04_step_partial) an exact criterion: one more add keeps a right variance right iff the two groups are Mergeable."
 ],
 "C05": [
  "proved",
  [
   "C05_linear_lookup"
  ],
  "At least two bins and min < max."
 ],
 "C06": [
  "proved",
  [
   "C06_gini_value"
  ],
  ""
 ],
 "C07": [
  "proved",
  [
   "C07_gini_reduction"
  ],
  "Stronger than stated: holds for the inserted samples after any add sequence."
 ],
 "C08": [
  "proved",
  [
   "C08_mse_reduction"
  ],
  "All targets inserted in one add call, as solve_exactly does."
 ],
 "C09": [
  "partial",
  [
   "C09_refuted",
   "C09_entropy_partial"
  ],
  "False: C09_refuted shows that get_entropy raises for every count vector of three or more classes. Proved for at most two classes."
 ],
 "C10": [
  "proved",
  [
   "C10_one_sided_classification",
   "C10_one_sided_regression"
  ],
  "Entropy only where it does not raise (at most two classes)."
 ],
 "C100": [
  "proved",
  [
   "C100_refit_forgets",
   "C100_reset"
  ],
  ""
 ],
 "C101": [
  "proved",
  [
   "C101_greedy_tree",
   "C101_answers",
   "C101_no_randomness"
  ],
  "Exact solver, all columns, IDENTITY or LINEAR bins, no budget, leaf limit not reached."
 ],
 "C102": [
  "proved",
  [
   "C102_limits_refine"
  ],
  "In the situation of C101."
 ],
 "C103": [
  "proved",
  [
   "C103_leaf_limit",
   "C103_both"
  ],
  "That both runs return is assumed in the first theorems and proved in the _both theorems: for trees with the exact solver and IDENTITY bins on well-formed data (C44), for forests in the cases of C85. Both start from the same process-wide generators."
 ],
 "C104": [
  "proved",
  [
   "C104_more_trees",
   "C104_both"
  ],
  "That both runs return is assumed in the first theorems and proved in the _both theorems: for trees with the exact solver and IDENTITY bins on well-formed data (C44), for forests in the cases of C85. Both start from the same world (process-wide generators)."
 ],
 "C105": [
  "proved",
  [
   "C105_solver",
   "C105_tree",
   "C105_forest"
  ],
  "The second fit is proved to succeed. For a forest the hypotheses say that all trees asked for were made, and that each asked a query when the second fit has a budget: with a budget the code drops a tree that asked none."
 ],
 "C106": [
  "proved",
  [
   "C106_print"
  ],
  "Printing is modelled as the list of lines; formatting of numbers is not."
 ],
 "C107": [
  "proved",
  [
   "C107_one_tree",
   "C107_answers",
   "C107_seed_and_size"
  ],
  "alpha_N = alpha_F = 1; settings as in PlainForest."
 ],
 "C108": [
  "proved",
  [
   "C108_depth_first_tree",
   "C108_same_as_fit",
   "C108_records",
   "C108_returns",
   "C108_needs_rows"
  ],
  "Depth-first growth by recursive_split yields the textbook tree and agrees with fit; the hypothesis on the number of rows is shown to be needed."
 ],
 "C109": [
  "partial",
  [
   "C109_gradient_partial",
   "C109_hessian",
   "C109_refuted_hessian",
   "C109_targets_forgotten",
   "C109_other",
   "C109_forest"
  ],
  "False of the code as stated: the hessian is not the second derivative (C109_refuted_hessian, C109_hessian says exactly when it is) and the new targets for classification do not depend on the targets (C109_targets_forgotten). Proved: the gradient is the derivative, the hessian is positive, regression gives the residuals used by the forest."
 ],
 "C11": [
  "proved",
  [
   "C11_mse_variance"
  ],
  ""
 ],
 "C110": [
  "proved",
  [
   "C110_thresholds",
   "C110_samples",
   "C110_answers",
   "C110_residuals",
   "C110_limits"
  ],
  ""
 ],
 "C111": [
  "proved",
  [
   "C111_reproducible",
   "C111_construct",
   "C111_call",
   "C111_seeds",
   "C111_two"
  ],
  ""
 ],
 "C112": [
  "proved",
  [
   "C112_regret",
   "C112_reported",
   "C112_exact_arms",
   "C112_ties"
  ],
  "For regression the estimates from partial samples are not of the form of C112_reported (C04); C112_regret, C112_exact_arms and C112_ties cover both tasks."
 ],
 "C113": [
  "partial",
  [
   "C113_linear_lookup_partial",
   "C113_exact",
   "C113_refuted",
   "C113_refuted_max"
  ],
  "False of the code: C113_refuted and C113_refuted_max give double-precision counterexamples. Proved for every precision p >= 4: the lookup is monotone, the minimum lands in the first bin, and a value is on the wrong side of an edge only within 2^-p*(9*(hi-lo)+|lo|) of it. Overflow and underflow are not modelled."
 ],
 "C114": [
  "proved",
  [
   "C114_with",
   "C114_without",
   "C114_not_too_small",
   "C114_tail"
  ],
  "Samples are the equally likely shuffles or sequences of draws of Spec/Sampling.lean; the pseudo-random generators themselves are not modelled as distributions."
 ],
 "C115": [
  "proved",
  [
   "C115_with",
   "C115_without"
  ],
  "Samples are the equally likely shuffles or sequences of draws of Spec/Sampling.lean."
 ],
 "C116": [
  "partial",
  [
   "C116_two_classes_partial",
   "C116_entropy_partial",
   "C116_extreme_partial",
   "C116_refuted"
  ],
  "False for three classes (C116_refuted): get_gini ignores the correlations between the frequencies, so that the reported variance depends on the numbering of the classes and can be too small. Proved for two classes; with more classes the report is not too small if the last class is the most or the least frequent one. get_entropy raises for three classes (C09)."
 ],
 "C117": [
  "proved",
  [
   "C117_tree",
   "C117_forest",
   "C117_huge",
   "C117_make_huge"
  ],
  "Stated for min_samples_split values that treat n rows and k*n copies alike (for example k times the value); an example shows that with an unchanged limit the trees can differ. Exact solver, all columns, no budget, max_leaf_nodes not reached; the logarithmic number of bins is excluded for LINEAR bins because it depends on the number of rows. C117_huge is the case of the experiments' make_huge."
 ],
 "C118": [
  "proved",
  [
   "C118_tree",
   "C118_forest"
  ],
  "Exact solver, all columns, no budget, max_leaf_nodes not reached, no min/max given by the caller of a single tree. New columns come after the old ones, so that ties go to the old ones."
 ],
 "C119": [
  "partial",
  [
   "C119_all_columns_partial",
   "C119_position_partial",
   "C119_remap_partial",
   "C119_refuted"
  ],
  "False of the code as stated: in a node that looks at a subset of the columns, the list of another column is used (C119_refuted; C119_position_partial says which). Proved when every node looks at all columns; the renumbering that the code computes and drops is right."
 ],
 "C12": [
  "proved",
  [
   "C12_interval_contains_estimate",
   "C12_single_point",
   "C12_single_point_classification",
   "C12_single_point_regression"
  ],
  ""
 ],
 "C120": [
  "proved",
  [
   "C120_boxes",
   "C120_answers",
   "C120_threshold_tree",
   "C120_threshold_forest"
  ],
  ""
 ],
 "C121": [
  "partial",
  [
   "C121_whole_partial",
   "C121_drift",
   "C121_stuck",
   "C121_refuted"
  ],
  "False of the code: residuals written into an integer array are truncated. Proved: equality when every contribution is a whole number, a bound on the drift, and that boosting stops when the first tree is within 1 of all targets."
 ],
 "C122": [
  "partial",
  [
   "C122_number_partial",
   "C122_tree_partial",
   "C122_batch_partial",
   "C122_overwritten",
   "C122_forest",
   "C122_forest_batch",
   "C122_kept",
   "C122_kept_tree",
   "C122_refuted"
  ],
  "Proved for forests, regression trees, and class labels; for classification trees it is false (C122_refuted): predict hands out the cached array, and C122_overwritten says the tree answers with whatever was written there. The proved part for classification trees covers callers that write only into arrays from predict_batch."
 ],
 "C123": [
  "partial",
  [
   "C123_fair_partial",
   "C123_ours",
   "C123_reproducible",
   "C123_no_test",
   "C123_boosted",
   "C123_refuted_targets",
   "C123_refuted_draws"
  ],
  "Proved for bagged models and boosted patches: the caller's arrays are kept, the first model's report is that of the model built alone, the second model's report is that of the model built alone that finds the process-wide generators in some state. Not proved in general because false: boosted forests overwrite the targets (C123_refuted_targets), and the second extremely random forest continues the random numbers of the first (C123_refuted_draws)."
 ],
 "C124": [
  "partial",
  [
   "C124_overlap_partial",
   "C124_verdict_partial",
   "C124_symmetric",
   "C124_one_round",
   "C124_stability_partial",
   "C124_refuted_constant",
   "C124_refuted_heart",
   "C124_refuted_heart_equal",
   "C124_refuted_stability"
  ],
  "compare_budgets and compare_runtimes: proved when both spreads are positive; false when both are 0, in particular with one round. Heart experiment: false, a reported overlap means the intervals are disjoint. Stability test: proved when the second mean is not below the first, false when its interval is entirely below."
 ],
 "C125": [
  "partial",
  [
   "C125_success",
   "C125_reproducible",
   "C125_same_settings_partial",
   "C125_refuted_limits",
   "C125_refuted_one_sided"
  ],
  "Seeds, independence of the process, and the caller's arrays: proved for all tests. Equal settings: proved when no max_leaf_nodes is given, false otherwise (C125_refuted_limits). A success means the bandits' interval is entirely above; the converse case is reported as an overlap (C125_refuted_one_sided)."
 ],
 "C126": [
  "partial",
  [
   "C126_error",
   "C126_decomposition_partial",
   "C126_exact_iff",
   "C126_nonneg",
   "C126_trials",
   "C126_refuted",
   "C126_refuted_budget"
  ],
  "The exact identity has an additional product of noise and bias; the stated sum holds exactly if one of the two is 0 (C126_exact_iff). Trials: proved for all models (the limits only without a budget; C126_refuted_budget shows that a budget is not given back)."
 ],
 "C127": [
  "proved",
  [
   "C127_tree",
   "C127_total_tree",
   "C127_forest",
   "C127_finite",
   "C127_total"
  ],
  "A point with NaN or infinite entries is answered as with large and small numbers in their place; every point that is long enough is answered."
 ],
 "C128": [
  "partial",
  [
   "C128_rows_partial",
   "C128_leaf_or_lost_partial",
   "C128_answers_partial",
   "C128_none_missing_partial",
   "C128_refuted",
   "C128_refuted_fit"
  ],
  "False of the code: a row with a missing value in a tested column is in no leaf, and fit can raise (C128_refuted, C128_refuted_fit). Proved: exactly the rows tested for a missing value are lost, all others are in exactly one leaf, answers are means or frequencies over the rows that came down, and nothing changes if nothing is missing. One tree with IDENTITY bins and the default splitter."
 ],
 "C129": [
  "partial",
  [
   "C129_trees_partial",
   "C129_prefix_partial",
   "C129_labels_partial",
   "C129_accounting_partial",
   "C129_refit_partial",
   "C129_refuted_uncounted",
   "C129_refuted"
  ],
  "False of the code as stated: a tree is appended to the forest before its queries are counted and charged to the budget, so an exception between these statements leaves a forest that has the tree but not its cost (C129_refuted_uncounted for every fit that keeps a tree, C129_refuted for a concrete one). With boosting the caller's array is overwritten even by an undisturbed fit (C54), so C129_labels_partial is for boosting = False; C129_refit_partial is for forests without a budget (the budget is never refilled, C59)."
 ],
 "C13": [
  "proved",
  [
   "C13_exact_best",
   "C13_candidates_identity",
   "C13_candidates_linear",
   "C13_candidates_random"
  ],
  "Candidates are the bin edges with index below the number of bins; what they are per bin type is in the C13_candidates theorems."
 ],
 "C130": [
  "partial",
  [
   "C130_answers_partial",
   "C130_rows_partial",
   "C130_pruned_partial",
   "C130_half_partial",
   "C130_half_pruned_partial",
   "C130_refuted_half",
   "C130_refuted",
   "C130_refuted_resume"
  ],
  "False of the code as stated: an exception between the assignments of the two children of a node leaves a node with one child; then predict raises an AttributeError for at least one training row (C130_refuted_half, for every such state; C130_refuted for a concrete one). C130_half_partial says which points are still answered, and how. At all other points of fit() the rows, the answers and the shape are as stated (C130_rows_partial, C130_answers_partial, C130_pruned_partial). A second fit() on a tree that was left behind can raise (C130_refuted_resume)."
 ],
 "C131": [
  "proved",
  [
   "C131_forest",
   "C131_ends",
   "C131_regression_tree"
  ],
  "every schedule of any number of threads, one attribute access per step; calls to fit at the same time are not modelled"
 ],
 "C132": [
  "partial",
  [
   "C132_tree_partial",
   "C132_warm_partial",
   "C132_ends_partial",
   "C132_refuted_always",
   "C132_refuted"
  ],
  "false of the code: predict writes the probabilities of a leaf before its label, and takes the probabilities as the sign that both are there. Proved: the probabilities are right and the label is right or None, under every schedule; the label is right for points asked before"
 ],
 "C133": [
  "proved",
  [
   "C133_one_batch",
   "C133_linear"
  ],
  "Includes the error-probability-free stopping after one batch; regression and bins that separate something everywhere are not covered."
 ],
 "C134": [
  "proved",
  [
   "C134_without",
   "C134_with",
   "C134_small"
  ],
  "The generator is abstract: the theorem is about any family of generator states, one per shuffle (or sequence), that draws that shuffle; that the states occur equally often is the assumption. Entropy is covered only by C134_small."
 ],
 "C135": [
  "partial",
  [
   "C135_partial",
   "C135_rare",
   "C135_refuted"
  ],
  "False of the code: C135_refuted. Proved: a bound that depends on the batch size and the reduction, not on the error probability passed."
 ],
 "C136": [
  "proved",
  [
   "C136_node",
   "C136_tree",
   "C136_depth",
   "C136_leaves",
   "C136_forest",
   "C136_not_regression"
  ],
  "LINEAR bins, Gini or entropy; precomputed bounds, if any, must cover the training rows (they do in a forest)."
 ],
 "C137": [
  "proved",
  [
   "C137_threads",
   "C137_ends",
   "C137_tree",
   "C137_same_answers"
  ],
  "For every schedule, a thread that fits exact models makes what it makes alone, and every thread ends."
 ],
 "C138": [
  "proved",
  [
   "C138_sound",
   "C138_tree"
  ],
  "For every schedule and all kinds of models; label arrays are not shared between a thread that writes and another."
 ],
 "C139": [
  "partial",
  [
   "C139_exact_partial",
   "C139_refuted_forest",
   "C139_refuted_bandit",
   "C139_refuted_random_bins",
   "C139_refuted_shared_targets"
  ],
  "Holds for exact forests that look at all columns. The full property is false of the code: the seeds of the trees, the samples of MABSplit and RANDOM bins come from process-wide generators, which other threads use and reseed."
 ],
 "C14": [
  "proved",
  [
   "C14_identity_optimal"
  ],
  ""
 ],
 "C140": [
  "proved",
  [
   "C140_leaf_limit_regression",
   "C140_leaf_limit_classification",
   "C140_limits_regression",
   "C140_limits_classification"
  ],
  "For every fitted tree. The leaf limit: two calls to fit from the same state of the generators, any solver. The other limits: exact solver, no columns drawn, no budget (NoChoice), leaf limit not reached by either tree."
 ],
 "C141": [
  "proved",
  [
   "C141_leaf_pure",
   "C141_regression",
   "C141_classification",
   "C141_two_columns"
  ],
  "Exact solver, IDENTITY bins, Gini or squared error, featSub none, leaf limit not reached. Entropy is left out: its strict concavity depends on the logarithm of the machine."
 ],
 "C142": [
  "proved",
  [
   "C142_depth",
   "C142_levels",
   "C142_forest"
  ],
  "Queries as reported by num_queries, from any state of the forest object. Bins: ArgsOK (not one LINEAR bin)."
 ],
 "C143": [
  "proved",
  [
   "C143_regression",
   "C143_classification",
   "C143_not_accuracy"
  ],
  "For every fitted forest that answers at the points. alpha_N and alpha_F at most 1."
 ],
 "C144": [
  "partial",
  [
   "C144_reduction_partial",
   "giniErr_le",
   "C144_choice_partial",
   "C144_pure",
   "C144_exact",
   "C144_refuted"
  ],
  "False of the code: C144_refuted gives 15 rows on which, in double precision, a split on a feature independent of the label is reported as an improvement by 2^-54. Proved for every precision and number of classes: the computed reduction is within giniErr p k of the true change (at most 4(k+8)/2^p by giniErr_le), the reported split is a best one up to twice that, and a node whose labels are all equal is never split (C144_pure). Overflow, underflow and entropy are not covered."
 ],
 "C145": [
  "partial",
  [
   "C145_reduction_partial",
   "mseErr_le",
   "C145_choice_partial",
   "C145_equal_partial",
   "C145_exact",
   "C145_refuted"
  ],
  "False of the code: C145_refuted, in double precision three rows with the target 0.1 are split, because their computed mean is not 0.1 and their computed variance is positive. Proved for every precision and number of rows: the computed reduction is within mseErr p n M of the true change, the reported split is a best one up to twice that, and equal targets m*2^e with n*|m| < 2^p are never split. Overflow, underflow and the sampling solver are not covered."
 ],
 "C146": [
  "proved",
  [
   "C146_tree",
   "C146_forest",
   "C146_first_question",
   "C146_ties"
  ],
  "For exactly solved trees and forests without sampling, IDENTITY or LINEAR thresholds. The hypothesis excludes ties between different columns at the questions of the tree; C146_ties shows that it is needed. C146_first_question needs no such hypothesis."
 ],
 "C147": [
  "partial",
  [
   "C147_leaf",
   "C147_forest_partial",
   "C147_value_partial",
   "C147_boosted_partial",
   "C147_exact",
   "C147_refuted",
   "C147_refuted_value",
   "avgErr_le"
  ],
  "The part about trees for classification is proved in full for leaves of at most 2^(p-1) rows. The parts about labels of forests and the range of regression answers are false of the code (C147_refuted, C147_refuted_value); proved instead: they hold up to explicit bounds of the rounding errors."
 ],
 "C148": [
  "partial",
  [
   "C148_preprocess",
   "C148_order",
   "C148_empty",
   "C148_clash",
   "C148_refuted",
   "C148_refuted_words"
  ],
  "Columns, one-hot encoding, order of values, that rows are kept apart, and which tables are refused are proved in full. That numbers are left alone and that ordered answers keep their meaning is false of the code (C148_refuted, C148_refuted_words)."
 ],
 "C149": [
  "proved",
  [
   "C149_tree",
   "C149_forest",
   "C149_between",
   "C149_ties"
  ],
  "For the exact solver with IDENTITY bins; forests without bootstrap, feature sampling and boosting. The leaf limit must not be the reason to stop. C149_between and C149_ties show that both exceptions in the statement are needed."
 ],
 "C15": [
  "proved",
  [
   "C15_no_split",
   "C15_no_split_identity"
  ],
  ""
 ],
 "C150": [
  "proved",
  [
   "C150_forest",
   "C150_tree",
   "C150_impurity",
   "C150_error",
   "C150_not_monotone",
   "C150_accuracy_may_fall"
  ],
  "C150_not_monotone and C150_accuracy_may_fall show the limits stated."
 ],
 "C151": [
  "partial",
  [
   "C151_tables",
   "C151_table5",
   "C151_all_seeds",
   "C151_round",
   "C151_round_mono",
   "C151_runtime_lines",
   "C151_budget_lines",
   "C151_stability_lines",
   "C151_needs_both",
   "C151_ordinal",
   "C151_baseline_lines_partial",
   "C151_baseline_tests_ignored",
   "C151_script_stale",
   "C151_script_no_tables",
   "C151_refuted_table6"
  ],
  "Proved for Tables 1 to 5, given logs where they are looked for. False of the code otherwise: the script looks for the logs where the experiments do not write them, so that no new result is ever shown (C151_script_stale; on the repository no table is printed at all), and Table 6 shows training scores under Test Performance (C151_refuted_table6)."
 ],
 "C152": [
  "proved",
  [
   "C152_mean",
   "C152_best_line",
   "C152_between",
   "C152_constant_nan",
   "C152_correlation",
   "C152_units",
   "C152_points",
   "C152_classifier_flat"
  ],
  "LinearRegression is modelled as the least-squares line; times and the drawing are not modelled. If all costs are equal the line fits exactly and NaN is printed (C152_constant_nan)."
 ],
 "C153": [
  "proved",
  [
   "C153_subset",
   "C153_subset_refuses",
   "C153_split",
   "C153_split_ok",
   "C153_three",
   "C153_no_leak",
   "C153_heart_ratio",
   "C153_balanced",
   "C153_three_balanced",
   "C153_housing",
   "C153_eighty"
  ],
  "Exact arithmetic: the sizes are ceilings of exact products. sklearn's and imblearn's functions are modelled by what they compute."
 ],
 "C154": [
  "partial",
  [
   "C154_weights",
   "C154_all_right",
   "C154_between",
   "C154_constant",
   "C154_balanced_plain",
   "C154_best",
   "C154_best_none",
   "C154_log",
   "C154_sweep",
   "C154_refuted"
  ],
  "False of the code in one point, which is proved: the branch of our forest raises NameError (C154_refuted), so it is neither measured nor logged. The rest is proved."
 ],
 "C155": [
  "proved",
  [
   "C155_tree",
   "C155_boosting",
   "C155_stuck",
   "C155_rate",
   "C155_converges",
   "C155_refuted_decrease",
   "C155_refuted_size"
  ],
  "Quantitative form of C94: progress per tree, what being stuck means, geometric convergence when one column tells the rows apart; counterexamples without the limits."
 ],
 "C156": [
  "partial",
  [
   "C156_table",
   "C156_refuses",
   "C156_complete",
   "C156_mean",
   "C156_short",
   "C156_warning",
   "C156_no_warning",
   "C156_signed",
   "C156_refuted_alarm",
   "C156_refuted_silent"
  ],
  "Reading, refusal and the numbers of complete sizes are proved for all logs. The claim about the warning is false of the code: only the last cell of the 30 x 20 table is looked at, so a complete log of fewer sizes raises a false alarm and a log with a short earlier size raises none; the mean of a short size counts the missing runs as 0."
 ],
 "C157": [
  "proved",
  [
   "C157_node",
   "C157_greedy",
   "C157_same",
   "C157_answers",
   "C157_refuted_ties"
  ],
  "SmallMab collects the settings: MAB solver, LINEAR bins, at least six of them, no logarithmic bins, all columns, no budget, max_depth set, at most batch_size training rows. max_leaf_nodes must not have stopped the tree. C157_refuted_ties shows that the condition on ties is needed for equal answers."
 ],
 "C158": [
  "proved",
  [
   "C158_tree",
   "C158_answers",
   "C158_forest",
   "C158_oob",
   "C158_refuted_random",
   "C158_refuted_minmax"
  ],
  "Both halves proved; the two exceptions named in the statement are proved by runs of the model where an out-of-bag vote on a row changes with the row itself."
 ],
 "C159": [
  "partial",
  [
   "C159_settings",
   "C159_fair_partial",
   "C159_call_partial",
   "C159_overlap",
   "C159_again_partial",
   "C159_boosted",
   "C159_refuted_gbrfr",
   "C159_refuted_gbhrfr",
   "C159_gbhrfr_raises"
  ],
  "Proved for the four comparisons of models that are not boosted (RFC, ERFC, RFR, ERFR). False of the code for GBRFR (C159_boosted: both models are measured, and the other trained, on our residuals) and for GBHRFR (settings differ; C159_gbhrfr_raises: always an exception). The second call is assumed to return, and to see the same uninitialised memory."
 ],
 "C16": [
  "proved",
  [
   "C16_exact_cost"
  ],
  ""
 ],
 "C160": [
  "proved",
  [
   "C160_nodes",
   "C160_points",
   "C160_depth",
   "C160_cost",
   "C160_one_label",
   "C160_one_answer",
   "C160_forest",
   "distinctPoints_le"
  ],
  "for every fitted tree; C160_cost for the exact solver and for MABSplit without replacement"
 ],
 "C161": [
  "proved",
  [
   "C161_cost",
   "C161_same",
   "C161_unbinned",
   "C161_copies",
   "C161_make_huge",
   "C161_forest"
  ],
  "Exact solver, unbinned or linear thresholds, all columns, no budget, leaf limit not reached (the hypotheses of C101). For copies: no log bins, and min_samples_split treats n rows and k*n copies alike. Binned: a feature that has no threshold in a node costs nothing there."
 ],
 "C162": [
  "proved",
  [
   "C162_cheaper",
   "C162_forest",
   "C162_report",
   "C162_script"
  ],
  "Costs are counted in queries, not clock time. Classification over LINEAR bins. Loading the texts and the trees of the other library in the script are not modelled."
 ],
 "C163": [
  "proved",
  [
   "C163_separated",
   "C163_answers",
   "C163_identity",
   "C163_linear",
   "C163_toy",
   "C163_at_most_one",
   "C163_forest",
   "C163_forest_answers",
   "C163_bagged"
  ],
  "Gini and MSE (not ENTROPY, see C09). Forests: those without sampling, and bagged ones (each tree asks at most one question). The draws of create_data are arguments of the model; how likely a draw is to be large is not part of the claim."
 ],
 "C164": [
  "partial",
  [
   "C164_names",
   "C164_run",
   "C164_failed",
   "C164_kept_partial",
   "C164_refuted_ours"
  ],
  "False of the code for the repository's own forests: fit_forest uses the undefined name Forest (C164_refuted_ours). The rest of the claim is proved for the other library."
 ],
 "C165": [
  "proved",
  [
   "C165_unanimous",
   "C165_between",
   "C165_between_reg",
   "C165_majority",
   "C165_more_votes",
   "C165_order",
   "C165_one_tree",
   "C165_one_tree_cls",
   "C165_not_heads",
   "C165_boosted_order"
  ],
  "For fitted forests (order, one tree: any forest without boosting). C165_not_heads and C165_boosted_order are the counterexamples that show why trees have to be sure and boosting is excluded."
 ],
 "C166": [
  "proved",
  [
   "C166_regression",
   "C166_classification",
   "C166_explained",
   "C166_explained_class",
   "C166_forest",
   "C166_forest_constant",
   "C166_forest_classes",
   "C166_boosted",
   "C166_not_labels",
   "C166_refuted_bootstrap"
  ],
  "For fitted trees on their own rows and forests whose trees get all rows. C166_refuted_bootstrap and C166_not_labels show that the limits in the statement are needed."
 ],
 "C167": [
  "partial",
  [
   "C167_rows",
   "C167_read_back_partial",
   "C167_refuted_shared",
   "C167_names",
   "C167_same_file",
   "C167_refuted_sweep",
   "C167_interrupted",
   "C167_refuted_start",
   "C167_refuted_torn"
  ],
  "Holds for logs whose results all have the same names (C167_read_back_partial), and earlier results survive an interrupted write (C167_interrupted). False for shared logs (C167_refuted_shared, C167_refuted_sweep) and for results logged after an interruption (C167_refuted_start, C167_refuted_torn). Conversion of the texts to numbers by the reading library is not modelled, nor that it may refuse files with rows that are too long."
 ],
 "C168": [
  "partial",
  [
   "C168_profile_names",
   "C168_result_names",
   "C168_kinds",
   "C168_profiles_partial",
   "C168_results",
   "C168_all_results",
   "C168_refuted_scaling"
  ],
  "Holds for one comparison (C168_profiles_partial, unless its results are written over a profile) and for the results of the scaling experiment (C168_results, C168_all_results). False for the profiles of the scaling experiment (C168_refuted_scaling)."
 ],
 "C169": [
  "partial",
  [
   "C169_reproduced",
   "C169_produced",
   "C169_files_partial",
   "C169_refuted_files",
   "C169_refuted_nan"
  ],
  "The announcements are characterised exactly (C169_reproduced, C169_produced) and announced lines are in their files (C169_files_partial). False: files of rejected and of old lines (C169_refuted_files), NaN (C169_refuted_nan). What a run computes is arbitrary here (see C125)."
 ],
 "C17": [
  "proved",
  [
   "C17_positional"
  ],
  ""
 ],
 "C18": [
  "proved",
  [
   "C18_terminates",
   "C18_unique"
  ],
  ""
 ],
 "C19": [
  "proved",
  [
   "C19_cost_at_most_exact",
   "C19_cost_bound"
  ],
  ""
 ],
 "C20": [
  "proved",
  [
   "C20_budget"
  ],
  ""
 ],
 "C21": [
  "proved",
  [
   "C21_equals_exact"
  ],
  ""
 ],
 "C22": [
  "proved",
  [
   "C22_split_separates"
  ],
  ""
 ],
 "C23": [
  "partial",
  [
   "C23_refuted",
   "C23_junk_independent_partial"
  ],
  "False with at most five candidates (C23_refuted: the split is read from np.empty memory). Proved for more than five."
 ],
 "C24": [
  "partial",
  [
   "C24_refuted",
   "C24_nan_stops",
   "C24_stop_reasons_partial",
   "C24_candidates_partial"
  ],
  "False: a NaN interval ends the loop (C24_refuted, C24_nan_stops). Proved: the complete list of reasons to stop, and the exact candidate set when no bound is NaN."
 ],
 "C25": [
  "proved",
  [
   "C25_best_arm_kept"
  ],
  ""
 ],
 "C26": [
  "proved",
  [
   "C26_disjoint_batches"
  ],
  ""
 ],
 "C27": [
  "partial",
  [
   "C27_refuted",
   "C27_few_candidates_refuted",
   "C27_exact_identity_partial",
   "C27_exact_linear_partial",
   "C27_exact_random_partial",
   "C27_mab_partial",
   "C27_mab_linear_partial",
   "C27_mab_random_partial"
  ],
  "False in general: LINEAR bins with only constant features raise (C27_refuted), and so does the bandit with at most five candidates if uninitialised memory is NaN. Proved for both solvers otherwise."
 ],
 "C28": [
  "proved",
  [
   "C28_fit_terminates",
   "C28_unique"
  ],
  "fit ends after at most as many splits as rows, any arguments"
 ],
 "C29": [
  "proved",
  [
   "C29_partition"
  ],
  ""
 ],
 "C30": [
  "proved",
  [
   "C30_no_empty_leaf",
   "C30_one_parent"
  ],
  ""
 ],
 "C31": [
  "proved",
  [
   "C31_depth"
  ],
  ""
 ],
 "C32": [
  "proved",
  [
   "C32_leaf_limit",
   "C32_no_exception"
  ],
  ""
 ],
 "C33": [
  "proved",
  [
   "C33_min_samples"
  ],
  ""
 ],
 "C34": [
  "proved",
  [
   "C34_improving",
   "C34_assertion"
  ],
  ""
 ],
 "C35": [
  "proved",
  [
   "C35_training_row",
   "C35_predict_training_row"
  ],
  "A training row of a fitted tree is routed to exactly the leaf that holds it, and predicting it returns that leaf's summary."
 ],
 "C36": [
  "proved",
  [
   "C36_leaf_frequencies",
   "C36_predict_total"
  ],
  "Class probabilities are the class frequencies of the reached leaf; the prediction is their first maximum."
 ],
 "C37": [
  "proved",
  [
   "C37_leaf_mean"
  ],
  "A regression tree returns the mean training label of the reached leaf, between the leaf's smallest and largest label."
 ],
 "C38": [
  "proved",
  [
   "C38_history_independent",
   "C38_batch"
  ],
  "Predictions do not depend on earlier predictions or on batching."
 ],
 "C39": [
  "proved",
  [
   "C39_best_first"
  ],
  ""
 ],
 "C40": [
  "proved",
  [
   "C40_fully_grown",
   "C40_exact_identity"
  ],
  "The recorded reduction is compared with min_impurity_decrease after it is multiplied by the node's share of the rows a second time, as in the code."
 ],
 "C41": [
  "proved",
  [
   "C41_query_accounting"
  ],
  ""
 ],
 "C42": [
  "proved",
  [
   "C42_no_budget",
   "C42_mab_budget"
  ],
  ""
 ],
 "C43": [
  "proved",
  [
   "C43_telescopes",
   "C43_lowers"
  ],
  "Exact-solver trees: the weighted impurity of the leaves equals the root impurity plus the recorded reductions, and each split lowers it."
 ],
 "C44": [
  "partial",
  [
   "C44_exact_identity_partial",
   "C44_refuted"
  ],
  "EXACT solver with IDENTITY bins: constructor and fit never raise on any well-formed training set, for Gini and MSE with any number of classes. Missing: entropy with three or more classes, for which the property is false (C44_refuted). Binned solvers are C81."
 ],
 "C45": [
  "partial",
  [
   "C45_same_data_partial",
   "C45_both_or_neither",
   "C45_refuted"
  ],
  "The property is false: fit(data, labels) with other data keeps the root node made by the constructor (C45_refuted). Proved: with the constructor's own data it equals fit(); passing only one argument raises."
 ],
 "C46": [
  "proved",
  [
   "C46_split_columns"
  ],
  ""
 ],
 "C47": [
  "proved",
  [
   "C47_proportion"
  ],
  ""
 ],
 "C48": [
  "proved",
  [
   "C48_number_of_trees"
  ],
  "A forest with any history (ForestObj: construction, fits, predictions, out-of-bag scores, importances, resets)."
 ],
 "C49": [
  "proved",
  [
   "C49_budget",
   "C49_assertion"
  ],
  "Any history of a forest constructed with budget b >= 0; the assertion can be removed without changing fit."
 ],
 "C50": [
  "partial",
  [
   "C50_new_forest_partial",
   "C50_refit_accumulates",
   "C50_refuted"
  ],
  "Proved for a new forest. False for the refit clause: C50_refit_accumulates shows the count goes on from its old value for every refit, C50_refuted is a concrete one."
 ],
 "C51": [
  "proved",
  [
   "C51_average",
   "C51_default_classes",
   "C51_predict_total"
  ],
  ""
 ],
 "C52": [
  "proved",
  [
   "C52_mean_in_range",
   "C51_predict_total"
  ],
  ""
 ],
 "C53": [
  "proved",
  [
   "C53_residuals",
   "C53_boosted_prediction",
   "C53_residuals_sampled"
  ],
  ""
 ],
 "C54": [
  "partial",
  [
   "C54_labels_unchanged_partial",
   "C54_refuted"
  ],
  "Proved without boosting and, with boosting, for every array but the targets. False with boosting: C54_refuted."
 ],
 "C55": [
  "proved",
  [
   "C55_out_of_bag"
  ],
  ""
 ],
 "C56": [
  "partial",
  [
   "C56_classes_partial",
   "C56_targets_partial",
   "C56_value_classes",
   "C56_value_targets",
   "C56_refuted_classes",
   "C56_refuted_targets",
   "C56_refuted_boosting"
  ],
  "What the score is, for every fitted forest without boosting and any earlier reads (C56_value_*). It is the stated accuracy if the classes are 0..k-1, and the stated mean squared error if no row is out of bag for two trees. The general property is false: the class index is compared with the label, and the regression sum is divided by the count twice (C56_refuted_*)."
 ],
 "C57": [
  "partial",
  [
   "C57_value",
   "C57_total",
   "C57_performed_partial",
   "C57_refuted"
  ],
  "The importance of a feature is the sum over all nodes that recorded a reduction on it (never positive), which includes unsplit leaves under max_leaf_nodes, a budget or a minimal decrease (refuted on a concrete forest); without these limits it is the sum over the performed splits."
 ],
 "C58": [
  "partial",
  [
   "C58_first_partial",
   "C58_stale",
   "C58_refuted"
  ],
  "Holds for the first fit after which importances are read; afterwards the cached array is returned for ever (refuted on a concrete history)."
 ],
 "C59": [
  "partial",
  [
   "C59_same_budget_partial",
   "C59_budget_ignored",
   "C59_refuted"
  ],
  "False: the budget passed to reset is ignored (C59_budget_ignored, for every forest). Proved when it equals the budget that is left."
 ],
 "C60": [
  "partial",
  [
   "C60_default_partial",
   "C60_ignored",
   "C60_refuted"
  ],
  "False: criterion and splitter are ignored (C60_ignored, for every forest). Proved for the default criterion."
 ],
 "C61": [
  "partial",
  [
   "C61_fresh_partial",
   "C61_refuted"
  ],
  "Proved for construction followed by fit. False with other use of the global generator in between."
 ],
 "C62": [
  "proved",
  [
   "C62_samples"
  ],
  "Every tree of any fitted forest, with alpha_N, alpha_F <= 1."
 ],
 "C63": [
  "proved",
  [
   "C63_history_independent",
   "C63_batch",
   "C63_entries",
   "C38_batch"
  ],
  "forests; C38_batch is the same statement for single trees"
 ],
 "C64": [
  "partial",
  [
   "C64_no_depth",
   "C64_refuted",
   "C64_boosted_classifiers",
   "C64_depth_partial",
   "C64_patches_partial",
   "C64_default_bins"
  ],
  "The property as stated is refuted: max_depth=None raises in fit for every wrapper (C64_refuted), and the boosted classifier wrappers cannot be constructed (C64_boosted_classifiers). Proved: with a maximal depth the wrappers can be built and fitted on well-formed data."
 ],
 "C65": [
  "partial",
  [
   "C65_reads_prefix",
   "C65_partial",
   "C65_refuted"
  ],
  "Refuted: the wrapper reads the first columns of a datapoint, not the ones it was trained on. Proved: the prediction is right when the first entries of the datapoint are the trained columns."
 ],
 "C66": [
  "proved",
  [
   "C66_jaccard",
   "C66_value"
  ],
  ""
 ],
 "C67": [
  "partial",
  [
   "C67_spearman_partial",
   "C67_refuted_jaccard",
   "C67_refuted_kuncheva",
   "C67_refuted"
  ],
  "Holds for SPEARMAN with at least two features; proved false for JACCARD and KUNCHEVA, whose values are characterised."
 ],
 "C68": [
  "proved",
  [
   "C68_spearman"
  ],
  ""
 ],
 "C69": [
  "proved",
  [
   "C69_value",
   "C69_bounds",
   "C69_agree",
   "C69_negative"
  ],
  ""
 ],
 "C70": [
  "proved",
  [
   "C70_order"
  ],
  ""
 ],
 "C71": [
  "proved",
  [
   "C71_impurity",
   "C71_total"
  ],
  "One row per forest trained so far: every call of get_importance_array trains num_forests more."
 ],
 "C72": [
  "proved",
  [
   "C72_label_counts",
   "C72_class_to_idx"
  ],
  ""
 ],
 "C73": [
  "partial",
  [
   "C73_ten_partial",
   "C73_refuted"
  ],
  "The argument n is ignored: the code always uses 10. Proved for n = 10, refuted in general."
 ],
 "C74": [
  "partial",
  [
   "C74_never_splits",
   "C74_refuted",
   "C74_other_types_partial"
  ],
  "Refuted: with DISCRETE bins, or automatic bins and a discrete first column, no tree ever splits and fitting data that could be split raises. Proved: make_discrete=True does no harm with the other bin types."
 ],
 "C75": [
  "proved",
  [
   "C75_choose_features"
  ],
  ""
 ],
 "C76": [
  "partial",
  [
   "C76_two_sided_partial",
   "C76_refuted"
  ],
  "verify_reduction answers exactly whether both sides are non-empty (TOLERANCE is negative); so false implies no Gini change, but true does not imply an improvement."
 ],
 "C77": [
  "proved",
  [
   "C77_same_tables",
   "C77_unknown_label"
  ],
  "For every batch the scalar branch accepts. On a label that is no class the branches differ (C77_unknown_label)."
 ],
 "C78": [
  "proved",
  [
   "C78_filter_tied"
  ],
  ""
 ],
 "C79": [
  "partial",
  [
   "C79_auto_bins_partial",
   "C79_leak_partial",
   "C79_refuted"
  ],
  "The local number of bins leaks from a discrete feature to later LINEAR features; proved when no listed feature precedes. C79_leak_partial gives the number of edges every feature gets."
 ],
 "C80": [
  "proved",
  [
   "C80_node_features"
  ],
  ""
 ],
 "C81": [
  "proved",
  [
   "C81_exact_binned",
   "C81_mab_binned",
   "C81_inconsistent_raises"
  ],
  "Enough bins means 1 (RANDOM, exact), 2 (LINEAR, exact), 6 (adaptive); C81_inconsistent_raises shows why consistency is assumed."
 ],
 "C82": [
  "partial",
  [
   "C82_freq_partial",
   "C82_refuted"
  ],
  "The frequency measure is invariant when the top k are strictly separated; the pairwise measures depend on the numbering (C82_refuted)."
 ],
 "C83": [
  "proved",
  [
   "C83_tree",
   "C83_forest",
   "C83_oob"
  ],
  ""
 ],
 "C84": [
  "partial",
  [
   "C84_unused_partial",
   "C84_refuted"
  ],
  "The importance is the count of correct predictions minus the out-of-bag score, the same for every unused feature, and not 0 in general (C84_refuted)."
 ],
 "C85": [
  "proved",
  [
   "C85_fit_passed",
   "C85_constructed",
   "C85_duplicate_rows"
  ],
  "every reachable forest object; C85_duplicate_rows shows why LINEAR bins with boosting need different rows"
 ],
 "C86": [
  "proved",
  [
   "C86_patch"
  ],
  ""
 ],
 "C87": [
  "proved",
  [
   "C87_pass",
   "C87_cost",
   "C87_final"
  ],
  "Every pass, and the rest of the loop, from any reachable loop head."
 ],
 "C88": [
  "proved",
  [
   "C88_limits"
  ],
  "For every reachable forest object; max_leaf_nodes at least 1."
 ],
 "C89": [
  "proved",
  [
   "C89_tree",
   "C89_forest",
   "C89_auto_tree",
   "C89_auto_forest"
  ],
  "IDENTITY, LINEAR, RANDOM and automatic bins, with or without precomputed ranges; at least two LINEAR bins in the forest theorems. Listed (discrete) values are the subject of C74 and C119."
 ],
 "C90": [
  "proved",
  [
   "C90_bins",
   "C90_call",
   "C90_forest"
  ],
  "Bins, tolerance, and the arguments and result of the adaptive search at every searched node, for trees and, in terms of the options of the forest, for forests."
 ],
 "C91": [
  "proved",
  [
   "C91_value",
   "C91_range",
   "C91_matrix"
  ],
  "The value (rank correlation plus the term of the skipped first feature), the bounds, and when the bound 1 is attained."
 ],
 "C92": [
  "partial",
  [
   "C92_gini",
   "C92_mse",
   "C92_entropy_partial",
   "C92_refuted_entropy",
   "C92_refuted_ret_vars"
  ],
  "Gini and MSE: the same arrays. Entropy: the same reductions, but other variances when several bins are requested. ret_vars=False: the vectorised branch always returns a tuple."
 ],
 "C93": [
  "proved",
  [
   "C93_regression",
   "C93_regression_const",
   "C93_classification",
   "C93_classification_const"
  ],
  "for every fitted tree and every history of predict calls"
 ],
 "C94": [
  "proved",
  [
   "C94_training_error",
   "C94_refuted_bootstrap",
   "C94_refuted_large_rate"
  ],
  "for all prefixes of the ensemble; the two refutations show that the conditions (no bootstrapping, learning rate at most 2) are needed"
 ],
 "C95": [
  "proved",
  [
   "C95_tree_row_order",
   "C95_forest_row_order",
   "C95_tree_both",
   "C95_forest_both"
  ],
  "That both runs return is assumed in the first theorems and proved in the _both theorems: for trees with the exact solver and IDENTITY bins on well-formed data (C44), for forests in the cases of C85. Trees: all rows used (idcs none). Forests: no bootstrap, alpha_N and alpha_F at least 1."
 ],
 "C96": [
  "proved",
  [
   "C96_tree_units",
   "C96_forest_units",
   "C96_tree_both",
   "C96_forest_both"
  ],
  "That both runs return is assumed in the first theorems and proved in the _both theorems: for trees with the exact solver and IDENTITY bins on well-formed data (C44), for forests in the cases of C85."
 ],
 "C97": [
  "proved",
  [
   "C97_tree_targets",
   "C97_tree_classes",
   "C97_forest_targets",
   "C97_forest_classes",
   "C97_tree_targets_both",
   "C97_tree_classes_both",
   "C97_forest_targets_both",
   "C97_forest_classes_both",
   "C97_boosted_offset"
  ],
  "That both runs return is assumed in the first theorems and proved in the _both theorems: for trees with the exact solver and IDENTITY bins on well-formed data (C44), for forests in the cases of C85. C97_boosted_offset: with boosting on bootstrap samples an offset b other than 0 changes the forest."
 ],
 "C98": [
  "proved",
  [
   "C98_permutation"
  ],
  ""
 ],
 "C99": [
  "proved",
  [
   "C99_exhausted",
   "C99_positive"
  ],
  ""
 ]
}