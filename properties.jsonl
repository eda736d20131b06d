{"id": "C01", "title": "Class histogram holds exact threshold counts", "statement": "After any sequence of add() calls on a classification Histogram, left[b][c] is exactly the number of added samples of class c whose feature value is <= bin_edges[b], and right[b][c] exactly the number whose value is > bin_edges[b].", "quantifier": "all bin types with sorted edges (LINEAR with at least two bins), all sample batches, all batch sequences, every bin and class", "why_tests_cant": "the claim ranges over unboundedly many batches and arbitrary feature values; boundary values (equal to an edge, below min, above max) are easy to miss", "anchors": ["data_structures/histogram.py::Histogram.add", "data_structures/histogram.py::Histogram.get_bin", "data_structures/histogram.py::Histogram.linear_bin", "data_structures/histogram.py::Histogram.identity_bin", "data_structures/histogram.py::Histogram.random_bin"]}
{"id": "C02", "title": "Histogram insertion does not depend on order or batching", "statement": "Adding the same multiset of samples to a classification Histogram in any order and in any grouping into add() calls yields the same left and right tables.", "quantifier": "all permutations and groupings of all sample lists", "why_tests_cant": "factorially many orders and exponentially many groupings", "anchors": ["data_structures/histogram.py::Histogram.add"]}
{"id": "C03", "title": "Regression histogram keeps exact counts and means", "statement": "After any sequence of add() calls on a regression Histogram, for every bin edge the stored number of samples and mean of the left (<= edge) and right (> edge) piles are exactly the number and the arithmetic mean of the added targets on that side, and the current pile has those of all added targets.", "quantifier": "all target values, all batches, all batch sequences, every bin", "why_tests_cant": "incremental-mean errors show up only for particular batch splits", "anchors": ["data_structures/histogram.py::Histogram.add", "data_structures/histogram.py::Histogram.update_bins"]}
{"id": "C04", "title": "Regression histogram keeps exact variances", "statement": "After any sequence of add() calls the variance stored for each pile is the population variance of all targets inserted in that pile.", "quantifier": "all target values, all batch sequences", "why_tests_cant": "the merge formula takes shortcuts on zero variances; whether they are right depends on the particular batches", "anchors": ["utils/utils_histogram.py::welford_variance_calc", "data_structures/histogram.py::Histogram.update_bins"]}
{"id": "C05", "title": "Linear bin lookup agrees with comparing against the edge", "statement": "For a LINEAR histogram with at least two bins and min < max, a value falls at or left of bin edge b (is counted in left[b]) if and only if value <= bin_edges[b], for values inside, below and above [min, max].", "quantifier": "all min < max, all num_bins >= 2, all values, all edges", "why_tests_cant": "off-by-one at edges and at clipping happen on measure-zero inputs", "anchors": ["data_structures/histogram.py::Histogram.get_bin", "data_structures/histogram.py::Histogram.linear_bin"]}
{"id": "C06", "title": "Gini impurity value and range", "statement": "get_gini of the class counts of a non-empty set of labels equals 1 minus the sum of squared class frequencies, lies in [0, 1 - 1/k] for k classes, and is 0 exactly for a pure set; for an empty set it is 1.", "quantifier": "all count vectors of any length", "why_tests_cant": "infinite family of count vectors, plus the 0/0 corner", "anchors": ["utils/criteria.py::get_gini"]}
{"id": "C07", "title": "Full-sample Gini reduction is the true one and never positive", "statement": "When every datapoint of the node has been inserted, the impurity change computed for each bin edge equals (|L|/n)*gini(L)+(|R|/n)*gini(R)-gini(all) for the actual partition of the labels at that edge, and is <= 0.", "quantifier": "all datasets, features, edges, class counts", "why_tests_cant": "concavity of the impurity must hold for every partition of every label list", "anchors": ["utils/criteria.py::get_gini", "utils/criteria.py::get_impurity_reductions", "utils/solvers.py::sample_targets"]}
{"id": "C08", "title": "Full-sample MSE reduction is the true one and never positive", "statement": "When every datapoint of the node has been inserted once, the change in MSE computed for each bin edge equals (|L|/n)*Var(L)+(|R|/n)*Var(R)-Var(all) for the actual partition of the targets, despite Bessel and finite-population corrections, and is <= 0.", "quantifier": "all datasets, features, edges, real targets", "why_tests_cant": "the corrections divide by n-1 and must cancel exactly for all sizes including 0 and 1", "anchors": ["utils/criteria.py::get_mse", "utils/criteria.py::get_impurity_reductions"]}
{"id": "C09", "title": "Entropy criterion works for any number of classes", "statement": "get_entropy with variance (the call made for every split evaluation) returns the entropy and a variance for any number of classes.", "quantifier": "all numbers of classes and count vectors", "why_tests_cant": "only a run with at least three classes and the entropy criterion reveals the broadcasting error", "anchors": ["utils/criteria.py::get_entropy"]}
{"id": "C10", "title": "A one-sided split is evaluated as exactly zero", "statement": "If all samples inserted so far lie on one side of a bin edge, the impurity change computed for that edge is exactly 0 (so it is never reported as an improvement), for any sampling history and both task types.", "quantifier": "all histograms reachable by any add sequence, all edges, all population sizes", "why_tests_cant": "the value combines 0/0 guards and weights in several branches; must hold for all histories", "anchors": ["utils/criteria.py::get_impurity_reductions", "utils/criteria.py::get_gini", "utils/criteria.py::get_mse"]}
{"id": "C11", "title": "Regression confidence width is always a finite non-negative number", "statement": "For every sample size n and population size N >= n the variance estimate returned by get_mse is finite and >= 0, so its square root is a number and never NaN.", "quantifier": "all n, N with n <= N, all second moments >= 0, and sampling with replacement", "why_tests_cant": "rational function in two integers with poles at n=0,1 and N=1,2,3", "anchors": ["utils/criteria.py::get_mse"]}
{"id": "C12", "title": "A confidence interval contains its estimate", "statement": "Whenever the bounds computed for a candidate split are numbers, lower bound <= estimate <= upper bound, and the interval is a single point once the whole population has been drawn.", "quantifier": "all nodes, all rounds, all sampling histories", "why_tests_cant": "must hold in every round of every run", "anchors": ["utils/solvers.py::solve_mab"]}
{"id": "C13", "title": "Exact solver returns a best candidate split with its true reduction", "statement": "If solve_exactly returns (feature, value, reduction, queries), then reduction < 0, it equals the true change of weighted impurity when partitioning the node by data[:, feature] <= value, and no candidate (feature, bin edge) has a smaller one; the pair is the first such in (feature, edge) order.", "quantifier": "all datasets, labels, both task types, bin types IDENTITY, LINEAR and RANDOM", "why_tests_cant": "optimality over all candidates for all datasets", "anchors": ["utils/solvers.py::solve_exactly", "utils/solvers.py::sample_targets", "utils/utils.py::make_histograms"]}
{"id": "C14", "title": "Unbinned exact solver is optimal over every real threshold", "statement": "With IDENTITY binning, no feature and no real threshold t whatsoever gives a larger impurity decrease than the split returned by solve_exactly.", "quantifier": "all datasets, all features, all real thresholds", "why_tests_cant": "uncountably many thresholds", "anchors": ["utils/solvers.py::solve_exactly", "data_structures/histogram.py::Histogram.identity_bin"]}
{"id": "C15", "title": "Exact solver reports no split only if none helps", "statement": "If solve_exactly returns only a query count, then every candidate split has impurity change >= 0 (with IDENTITY binning: every threshold on every feature).", "quantifier": "all datasets, all candidates", "why_tests_cant": "a claim of non-existence", "anchors": ["utils/solvers.py::solve_exactly"]}
{"id": "C16", "title": "Exact solver costs n times the number of usable features", "statement": "The query count reported by solve_exactly is exactly (number of datapoints) x (number of features that have at least one bin).", "quantifier": "all datasets and bin types", "why_tests_cant": "must hold for every mix of constant and non-constant features", "anchors": ["utils/solvers.py::solve_exactly", "utils/solvers.py::sample_targets"]}
{"id": "C17", "title": "Each candidate gets its own estimate", "statement": "sample_targets returns values positionally; for the arm lists used by the solvers the value at position i is the impurity change of the i-th (feature, edge) pair, never that of another pair.", "quantifier": "all arm lists the solvers pass (sorted by feature), all histograms", "why_tests_cant": "the code groups by feature and concatenates, and its own TODO calls this dangerous; only specific arm lists would show a shift", "anchors": ["utils/solvers.py::sample_targets", "utils/solvers.py::solve_mab", "utils/solvers.py::solve_exactly"]}
{"id": "C18", "title": "MABSplit terminates", "statement": "solve_mab returns (or raises) after finitely many rounds on every input with batch_size >= 1, with and without replacement.", "quantifier": "all datasets, batch sizes >= 1, budgets, random outcomes", "why_tests_cant": "non-termination cannot be observed by a test, and termination must hold for every random outcome", "anchors": ["utils/solvers.py::solve_mab"]}
{"id": "C19", "title": "MABSplit without replacement never costs more than the exact solver", "statement": "Without replacement, the number of queries solve_mab reports for a node is at most what solve_exactly reports for the same node and bins.", "quantifier": "all datasets, batch sizes, budgets and random outcomes", "why_tests_cant": "must hold for every random outcome; the repo's own test checks two datasets", "anchors": ["utils/solvers.py::solve_mab", "utils/solvers.py::solve_exactly"]}
{"id": "C20", "title": "MABSplit overshoots a budget by less than one sampling step", "statement": "With a positive budget b, solve_mab reports fewer than b + F*max(batch) queries, where one step costs at most F times the number of points sampled in it (batch_size, or n when it recomputes arms exactly).", "quantifier": "all datasets, budgets, batch sizes, random outcomes", "why_tests_cant": "must hold for every random outcome", "anchors": ["utils/solvers.py::solve_mab"]}
{"id": "C21", "title": "MABSplit equals the exact solver when the batch covers the node", "statement": "If the node has at most batch_size datapoints and more than five candidate splits, solve_mab finds the same best reduction as solve_exactly with the same bins, reports a split exactly when solve_exactly does, and costs the same number of queries.", "quantifier": "all such nodes, both task types, both replacement modes, all random outcomes", "why_tests_cant": "relational claim over all datasets and random outcomes", "anchors": ["utils/solvers.py::solve_mab", "utils/solvers.py::solve_exactly"]}
{"id": "C22", "title": "A split returned by MABSplit separates the node's data", "statement": "If solve_mab (with more than five candidates) returns (feature, value, reduction, queries), then reduction < 0 and at least one datapoint of the node has data[:, feature] <= value and at least one has > value, so Node.split never raises 'Wrong split!!'.", "quantifier": "all datasets, bin types, batch sizes, random outcomes", "why_tests_cant": "depends on random sampling at every node", "anchors": ["utils/solvers.py::solve_mab", "data_structures/node.py::Node.split"]}
{"id": "C23", "title": "MABSplit's answer is determined by its inputs", "statement": "The result of solve_mab depends only on its arguments and random generators, not on the contents of uninitialised memory.", "quantifier": "all inputs, all contents of np.empty buffers", "why_tests_cant": "tests see only one memory content; usually benign zeros or leftovers", "anchors": ["utils/solvers.py::solve_mab"]}
{"id": "C24", "title": "MABSplit keeps sampling until the best arm is identified", "statement": "solve_mab keeps drawing batches while more than five candidate splits remain whose confidence intervals overlap the best one's.", "quantifier": "all datasets and sampling outcomes", "why_tests_cant": "premature stopping still returns plausible splits, so accuracy tests pass", "anchors": ["utils/solvers.py::solve_mab", "utils/criteria.py::get_gini"]}
{"id": "C25", "title": "The best arm is never eliminated while intervals are valid", "statement": "In any round in which every candidate's interval contains its true value and the best true value is below both the others' and zero, the elimination rule (with epsilon = 0) keeps the candidate attaining the best value, unless its own interval is a single point or it was already computed exactly.", "quantifier": "all rounds, all interval assignments, all arm sets", "why_tests_cant": "needs all interval configurations", "anchors": ["utils/solvers.py::solve_mab"]}
{"id": "C26", "title": "Without replacement each datapoint is used at most once per feature", "statement": "In a solve_mab run without replacement the batches drawn are pairwise disjoint and contain no duplicates, so no datapoint enters any histogram twice, and what is left is exactly the complement.", "quantifier": "all population sizes, batch sizes, random outcomes", "why_tests_cant": "must hold for every random draw and every number of rounds", "anchors": ["utils/solvers.py::sample_targets"]}
{"id": "C27", "title": "Split search returns normally on every valid node", "statement": "For a node with valid finite data and at least two distinct labels, the split search returns a split or reports that there is none; it does not raise.", "quantifier": "all finite datasets with rectangular shape, all solvers and bin types", "why_tests_cant": "crashes occur only for particular data (e.g. all selected features constant)", "anchors": ["utils/solvers.py::solve_mab", "utils/solvers.py::solve_exactly", "data_structures/histogram.py::Histogram.__init__"]}
{"id": "C28", "title": "Tree fitting terminates", "statement": "TreeBase.fit returns or raises after at most (number of training rows) splits, for every dataset, solver, budget and random outcome.", "quantifier": "all datasets and configurations, all random outcomes", "why_tests_cant": "non-termination is not testable; the loop has no explicit bound", "anchors": ["data_structures/tree_base.py::TreeBase.fit"]}
{"id": "C29", "title": "Leaves partition the training rows", "statement": "After fit, the row indices held by the leaves are, with multiplicity, exactly the training row indices given to the tree.", "quantifier": "all datasets, bootstrap samples with repeats, configurations, random outcomes", "why_tests_cant": "an invariant over every sequence of splits", "anchors": ["data_structures/tree_base.py::TreeBase.fit", "data_structures/node.py::Node.split"]}
{"id": "C30", "title": "No empty leaf", "statement": "After fit on a non-empty training set every leaf holds at least one training row, and every internal node has exactly two children.", "quantifier": "all datasets, configurations and random outcomes", "why_tests_cant": "an invariant over every sequence of splits", "anchors": ["data_structures/tree_base.py::TreeBase.fit", "data_structures/node.py::Node.split"]}
{"id": "C31", "title": "Depth limit", "statement": "After fit no node is deeper than max_depth, each child is one deeper than its parent, and get_depth() is the maximum depth over all nodes.", "quantifier": "all datasets, configurations and random outcomes", "why_tests_cant": "an invariant over every sequence of splits", "anchors": ["data_structures/tree_base.py::TreeBase.fit", "data_structures/tree_base.py::TreeBase.get_depth", "data_structures/tree_base.py::TreeBase.check_splittable_constraints"]}
{"id": "C32", "title": "Leaf count limit", "statement": "After fit with max_leaf_nodes = m >= 1 the tree has at most m leaves; the number of leaves is always one more than num_splits, and the 'too many leaves' exception is never raised for m >= 1.", "quantifier": "all datasets, configurations and random outcomes", "why_tests_cant": "an invariant over every sequence of splits", "anchors": ["data_structures/tree_base.py::TreeBase.fit"]}
{"id": "C33", "title": "min_samples_split is respected", "statement": "Every node that was split holds strictly more than min_samples_split rows and at least two distinct labels.", "quantifier": "all datasets, configurations and random outcomes", "why_tests_cant": "an invariant over every sequence of splits", "anchors": ["data_structures/tree_base.py::TreeBase.check_splittable_constraints", "data_structures/tree_base.py::TreeBase.fit"]}
{"id": "C34", "title": "Only improving splits are performed", "statement": "Every split performed by fit has a recorded impurity reduction that is negative and below min_impurity_decrease, and the assertion that a split must not increase impurity is never violated.", "quantifier": "all datasets, configurations and random outcomes", "why_tests_cant": "must hold for each split of each run", "anchors": ["data_structures/tree_base.py::TreeBase.fit", "data_structures/tree_base.py::TreeBase.check_splittable_impurity", "data_structures/node.py::Node.split"]}
{"id": "C35", "title": "Training rows are routed to the leaf that holds them", "statement": "For every training row, predict on that row ends in the leaf whose index set contains it.", "quantifier": "all fitted trees, all training rows, feature subsampling and bootstrap included", "why_tests_cant": "the split is stored in re-indexed feature coordinates; only some subsamplings would show a mismatch", "anchors": ["data_structures/tree_base.py::TreeBase.predict", "data_structures/node.py::Node.split", "data_structures/node.py::Node.calculate_best_split"]}
{"id": "C36", "title": "Class probabilities are the leaf's class frequencies", "statement": "For a fitted classification tree and any datapoint, predict returns the class frequencies of the training labels in one leaf: non-negative numbers summing to 1, and the returned label is the first class with the largest probability and occurs in that leaf.", "quantifier": "all fitted trees, all datapoints", "why_tests_cant": "all datapoints of an infinite space", "anchors": ["data_structures/tree_base.py::TreeBase.predict", "utils/utils.py::counts_of_labels"]}
{"id": "C37", "title": "Regression prediction is a leaf mean within the label range", "statement": "For a fitted regression tree and any datapoint, predict returns the mean of the training targets in one leaf, hence lies between the smallest and the largest training target.", "quantifier": "all fitted trees, all datapoints", "why_tests_cant": "all datapoints of an infinite space", "anchors": ["data_structures/tree_base.py::TreeBase.predict"]}
{"id": "C38", "title": "Prediction caching is invisible", "statement": "The result of predict for a datapoint is the same whatever sequence of predict calls was made on the tree before.", "quantifier": "all fitted trees, all finite histories of predict calls", "why_tests_cant": "all call histories", "anchors": ["data_structures/tree_base.py::TreeBase.predict"]}
{"id": "C39", "title": "Best-first order", "statement": "Each split performed by fit is at a leaf whose impurity reduction is smallest among all leaves considered in that pass, ties going to the earliest leaf.", "quantifier": "all passes of all runs", "why_tests_cant": "must hold in every pass", "anchors": ["data_structures/tree_base.py::TreeBase.fit"]}
{"id": "C40", "title": "A tree stops growing only when nothing more can be split", "statement": "If fit ends without hitting the budget or max_leaf_nodes, then every leaf is at max_depth, or has at most min_samples_split rows, or has a single label, or its best split does not reach min_impurity_decrease.", "quantifier": "all datasets and configurations without budget", "why_tests_cant": "a claim about all leaves of all fitted trees", "anchors": ["data_structures/tree_base.py::TreeBase.fit"]}
{"id": "C41", "title": "Tree query accounting", "statement": "After fit, num_queries equals the sum over all nodes of the queries spent on their split search, each counted exactly once, and with a budget the remaining budget is the initial one minus num_queries.", "quantifier": "all datasets, configurations, random outcomes", "why_tests_cant": "caching makes double counting possible only in certain pass orders", "anchors": ["data_structures/tree_base.py::TreeBase.fit", "data_structures/node.py::Node.calculate_best_split"]}
{"id": "C42", "title": "Tree budget is respected up to one node step", "statement": "With budget 0 (or less) no split is searched, no query is spent and the tree stays a single leaf; with a positive budget b and solver MAB, num_queries stays below b plus the cost of one sampling step.", "quantifier": "all datasets, configurations, random outcomes", "why_tests_cant": "must hold for every random outcome", "anchors": ["data_structures/tree_base.py::TreeBase.fit"]}
{"id": "C43", "title": "Impurity bookkeeping telescopes", "statement": "With the exact solver, (weighted impurity over the leaves) = (impurity of the root) + (sum of the recorded reductions of all performed splits), where weights are fractions of training rows; hence every split strictly lowers the total.", "quantifier": "all datasets and configurations with solver EXACT", "why_tests_cant": "an identity over every tree shape", "anchors": ["data_structures/tree_base.py::TreeBase.fit", "data_structures/node.py::Node.calculate_best_split", "data_structures/node.py::Node.create_child_node"]}
{"id": "C44", "title": "Exact unbinned fitting never raises", "statement": "For any rectangular finite dataset with matching non-empty labels, valid limits and solver EXACT with IDENTITY bins, constructing a tree and calling fit succeeds.", "quantifier": "all such datasets and limits, both task types", "why_tests_cant": "totality over all inputs", "anchors": ["data_structures/tree_base.py::TreeBase.fit", "utils/solvers.py::solve_exactly"]}
{"id": "C45", "title": "tree.fit(data, labels) trains on the data passed", "statement": "Calling fit(data, labels) on a tree fits it to the arguments, as documented ('imitate the structure of fit method of sklearn').", "quantifier": "all constructor data and all fit arguments", "why_tests_cant": "tests always pass the same data to the constructor and to fit", "anchors": ["data_structures/tree_base.py::TreeBase.fit", "data_structures/tree_base.py::TreeBase.__init__"]}
{"id": "C46", "title": "Trees split only on features they were given", "statement": "Every split feature of a fitted tree is one of the column indices in feature_idcs given to the tree (all columns by default), and the stored threshold refers to that column of the original data.", "quantifier": "all fitted trees, feature subsampling settings, random outcomes", "why_tests_cant": "depends on random feature subsets at every node", "anchors": ["data_structures/node.py::Node.calculate_best_split", "data_structures/node.py::Node.__init__", "utils/utils.py::choose_features"]}
{"id": "C47", "title": "Node proportion is the fraction of training rows", "statement": "For every node of a fitted tree, proportion equals (rows in the node)/(rows in the root).", "quantifier": "all fitted trees", "why_tests_cant": "an invariant over every sequence of splits", "anchors": ["data_structures/node.py::Node.create_child_node"]}
{"id": "C48", "title": "Number of trees", "statement": "After forest.fit without a budget there are exactly n_estimators trees; with a budget at most n_estimators.", "quantifier": "all datasets and configurations", "why_tests_cant": "all configurations", "anchors": ["data_structures/forest_base.py::ForestBase.fit"]}
{"id": "C49", "title": "Forest budget safety", "statement": "After forest.fit with budget b the queries of the kept trees total less than b + BUFFER, and the internal assertion 'went over budget' can never fail, whatever the solver.", "quantifier": "all datasets, solvers, budgets and random outcomes", "why_tests_cant": "must hold for every random outcome", "anchors": ["data_structures/forest_base.py::ForestBase.fit"]}
{"id": "C50", "title": "Forest query accounting", "statement": "On a new forest num_queries after fit is the sum of num_queries of its trees and remaining budget is the initial budget minus num_queries; calling fit again restarts the count for the new trees.", "quantifier": "all datasets and configurations, all numbers of fit calls", "why_tests_cant": "histories of fit calls", "anchors": ["data_structures/forest_base.py::ForestBase.fit"]}
{"id": "C51", "title": "Forest class probabilities average the trees", "statement": "For a fitted non-empty classification forest, predict returns the arithmetic mean of the trees' probability vectors: non-negative, summing to 1, and the label is the class with the largest mean.", "quantifier": "all fitted forests, all datapoints", "why_tests_cant": "all datapoints", "anchors": ["data_structures/forest_base.py::ForestBase.predict"]}
{"id": "C52", "title": "Forest regression prediction stays within the label range", "statement": "For a fitted non-empty non-boosted regression forest, predict is the mean of the trees' predictions and lies between the smallest and largest training target.", "quantifier": "all fitted forests, all datapoints", "why_tests_cant": "all datapoints", "anchors": ["data_structures/forest_base.py::ForestBase.predict"]}
{"id": "C53", "title": "Boosting residuals are exactly targets minus ensemble prediction", "statement": "With boosting and no row subsampling, after fit the residual targets for each training row equal the original target minus forest.predict(row), and predict is first tree + learning rate times the sum of the others. With bootstrap or random subsets each row's target loses the answers of the trees that were grown on it, and no others.", "quantifier": "all datasets, learning rates, numbers of trees", "why_tests_cant": "an invariant over every number of boosting rounds", "anchors": ["data_structures/forest_base.py::ForestBase.fit", "data_structures/forest_base.py::ForestBase.predict", "utils/boosting.py::get_next_targets"]}
{"id": "C54", "title": "fit does not modify the caller's labels", "statement": "forest.fit leaves the labels array passed by the caller unchanged.", "quantifier": "all datasets and configurations", "why_tests_cant": "aliasing shows only if the caller looks at the array again", "anchors": ["data_structures/forest_base.py::ForestBase.fit", "data_structures/forest_base.py::ForestBase.__init__"]}
{"id": "C55", "title": "Out-of-bag indices are exactly the complement", "statement": "get_out_of_bag(idcs, n) returns, in increasing order and without repeats, exactly the indices in range(n) that do not occur in idcs.", "quantifier": "all n, all bootstrap samples in range", "why_tests_cant": "all samples with repeats", "anchors": ["data_structures/forest_base.py::ForestBase.get_out_of_bag"]}
{"id": "C56", "title": "Out-of-bag score is the accuracy / MSE of out-of-bag predictions", "statement": "get_oob_score returns, over rows that are out of bag for at least one tree, the accuracy of the label with the highest summed probability (classification) or the mean squared error of the averaged prediction (regression).", "quantifier": "all fitted forests, labels and bootstrap samples", "why_tests_cant": "wrong only for labels other than 0..k-1, or rows out of bag in several trees", "anchors": ["data_structures/forest_base.py::ForestBase.get_oob_score"]}
{"id": "C57", "title": "Mean decrease in impurity sums the performed splits", "statement": "calculate_mdi()[j] is the sum of the recorded reductions over all performed splits on feature j in all trees, and is <= 0.", "quantifier": "all fitted forests, all features", "why_tests_cant": "leaves may carry speculative splits only under certain limits", "anchors": ["data_structures/forest_base.py::ForestBase.calculate_mdi", "data_structures/forest_base.py::ForestBase.recursive_mdi_helper"]}
{"id": "C58", "title": "Feature importances follow refitting", "statement": "calculate_mdi() describes the trees of the latest fit.", "quantifier": "all histories of fit and calculate_mdi calls", "why_tests_cant": "only a fit - mdi - fit - mdi history shows staleness", "anchors": ["data_structures/forest_base.py::ForestBase.calculate_mdi", "data_structures/forest_base.py::ForestBase.fit"]}
{"id": "C59", "title": "reset(budget) makes the forest ready for a new budgeted fit", "statement": "After reset(budget=b), the next fit runs with budget b.", "quantifier": "all forests, budgets and histories", "why_tests_cant": "needs a budgeted history", "anchors": ["data_structures/forest_base.py::ForestBase.reset", "data_structures/forest_base.py::ForestBase.fit"]}
{"id": "C60", "title": "The forest honours the criterion it was given", "statement": "A forest constructed with criterion=c grows trees that use c.", "quantifier": "all configurations", "why_tests_cant": "accuracy hardly changes between criteria", "anchors": ["data_structures/forest_base.py::ForestBase.fit", "data_structures/forest_base.py::ForestBase.__init__"]}
{"id": "C61", "title": "random_state determines the fitted forest", "statement": "Constructing a forest and fitting it right away gives the same forest whatever random numbers the process drew before; and the same holds if other work that uses the global generators happens between construction and fit.", "quantifier": "all prior generator states, datasets, configurations", "why_tests_cant": "interleavings of generator use", "anchors": ["data_structures/forest_base.py::ForestBase.__init__", "data_structures/forest_base.py::ForestBase.fit", "utils/utils.py::set_seed", "data_structures/tree_base.py::TreeBase.__init__"]}
{"id": "C62", "title": "Row and feature samples have the advertised shape", "statement": "Each tree is trained on N rows drawn from the row subset when bootstrapping, or on int(N*alpha_N) distinct rows otherwise, and considers only int(F*alpha_F) distinct feature columns; all indices are in range.", "quantifier": "all N, F, alphas in (0,1], random outcomes", "why_tests_cant": "random outcomes", "anchors": ["data_structures/forest_base.py::ForestBase.fit"]}
{"id": "C63", "title": "predict_batch is predict row by row", "statement": "predict_batch(data) has one entry per row and the i-th entry equals predict(data[i]), independent of the other rows, and evaluating it twice gives the same.", "quantifier": "all models and all batches", "why_tests_cant": "all batches; caching", "anchors": ["data_structures/classifier.py::Classifier.predict_batch", "data_structures/regressor.py::Regressor.predict_batch"]}
{"id": "C64", "title": "Wrapper defaults are usable", "statement": "A wrapper forest constructed with only data and labels can be fitted.", "quantifier": "all wrappers, all datasets", "why_tests_cant": "tests always pass max_depth", "anchors": ["data_structures/wrappers/random_forest_classifier.py::RandomForestClassifier.__init__", "data_structures/tree_base.py::TreeBase.check_splittable_constraints"]}
{"id": "C65", "title": "Random-patches models predict on full-width datapoints", "statement": "A RandomPatches forest, trained on a random subset of columns, applies each split to the same column of a full-width datapoint that it was trained on.", "quantifier": "all column subsets", "why_tests_cant": "with alpha_F = 1 and lucky orders the columns coincide", "anchors": ["data_structures/wrappers/random_patches_classifier.py::RandomPatchesClassifier.__init__", "data_structures/forest_base.py::ForestBase.predict"]}
{"id": "C66", "title": "Jaccard stability is a symmetric score in [0,1]", "statement": "get_pairwise_stability with JACCARD lies in [0,1] and does not change when the two rankings are swapped.", "quantifier": "all rankings of all lengths", "why_tests_cant": "all rankings", "anchors": ["data_structures/permutation.py::PermutationImportance.get_pairwise_stability"]}
{"id": "C67", "title": "Identical rankings have stability 1", "statement": "get_pairwise_stability of a ranking with itself is 1.", "quantifier": "all rankings of all lengths, all metrics", "why_tests_cant": "depends on the length", "anchors": ["data_structures/permutation.py::PermutationImportance.get_pairwise_stability"]}
{"id": "C68", "title": "Spearman stability is symmetric and at most 1", "statement": "get_pairwise_stability with SPEARMAN is symmetric and at most 1 for rankings of length at least 2.", "quantifier": "all rankings", "why_tests_cant": "all rankings", "anchors": ["data_structures/permutation.py::PermutationImportance.get_pairwise_stability"]}
{"id": "C69", "title": "Frequency stability is at most 1, and 1 for perfect agreement", "statement": "get_stability_freq with at least two importance vectors, non-negative importances and 0 < k < F is at most 1, and equals 1 if all vectors select the same k features.", "quantifier": "all importance matrices, all k", "why_tests_cant": "all matrices", "anchors": ["data_structures/permutation.py::PermutationImportance.get_stability_freq"]}
{"id": "C70", "title": "Pairwise stability does not depend on the order of the forests", "statement": "get_stability_pairwise is unchanged when the rows of the importance matrix are permuted.", "quantifier": "all matrices and permutations", "why_tests_cant": "all permutations", "anchors": ["data_structures/permutation.py::PermutationImportance.get_stability_pairwise"]}
{"id": "C71", "title": "Impurity importances are non-negative and have the right shape", "statement": "With importance_score='impurity', each importance vector has one entry per feature and every entry is >= 0; get_importance_array has one row per forest.", "quantifier": "all trained forests", "why_tests_cant": "all trained forests", "anchors": ["data_structures/permutation.py::PermutationImportance.compute_importance_vec", "data_structures/permutation.py::PermutationImportance.get_importance_array"]}
{"id": "C72", "title": "Label counts are exact", "statement": "counts_of_labels(classes, labels)[classes[c]] is the number of occurrences of c in labels, counts sum to len(labels), and a label outside classes raises.", "quantifier": "all class dictionaries and label arrays", "why_tests_cant": "all arrays", "anchors": ["utils/utils.py::counts_of_labels", "utils/utils.py::class_to_idx"]}
{"id": "C73", "title": "data_to_discrete finds exactly the features with at most n distinct values", "statement": "data_to_discrete(data, n) maps exactly those feature indices with at most n distinct values to their set of distinct values.", "quantifier": "all data and n", "why_tests_cant": "callers only ever pass n=10", "anchors": ["utils/utils.py::data_to_discrete"]}
{"id": "C74", "title": "Discrete binning is usable", "statement": "A forest with make_discrete=True and an automatic or DISCRETE bin type can be fitted on data with discrete features.", "quantifier": "all datasets with discrete features", "why_tests_cant": "no test fits a splittable discrete dataset", "anchors": ["data_structures/histogram.py::Histogram.discrete_bin", "utils/utils.py::data_to_discrete", "utils/utils.py::make_histograms"]}
{"id": "C75", "title": "Feature subsampling returns distinct available features of the right number", "statement": "choose_features returns, without repeats and all from feature_idcs, all features (None), ceil(sqrt(F)) (SQRT), k (int) or ceil(x*F) (float) features, for every random outcome; asking for more than available raises.", "quantifier": "all feature lists, settings, random outcomes", "why_tests_cant": "random outcomes", "anchors": ["utils/utils.py::choose_features"]}
{"id": "C76", "title": "verify_reduction accepts only splits that reduce impurity", "statement": "verify_reduction(data, labels, feature, value) is True only if the split lowers the Gini impurity.", "quantifier": "all datasets and splits", "why_tests_cant": "the tolerance has the wrong sign, which random data do not expose", "anchors": ["utils/solvers.py::verify_reduction"]}
{"id": "C77", "title": "Vectorised and scalar histogram insertion agree", "statement": "With integer labels, the VECTORIZE and non-VECTORIZE branches of Histogram.add leave the same tables.", "quantifier": "all batches, histograms, integer class labels >= 0", "why_tests_cant": "relational claim over all batches", "anchors": ["data_structures/histogram.py::Histogram.add", "data_structures/histogram.py::Histogram.replace_array"]}
{"id": "C78", "title": "filter_tied_arms removes exactly the tied arms", "statement": "filter_tied_arms(candidates, tied, F, B) returns exactly the candidates not in tied, sorted by (feature, bin) without repeats, for arms with bin index below B.", "quantifier": "all arm lists, all B", "why_tests_cant": "all arm lists", "anchors": ["utils/solvers.py::filter_tied_arms"]}
{"id": "C79", "title": "Automatic binning picks the bin type and number of bins from the data", "statement": "When make_histograms is called without a bin type, each feature gets: its listed discrete values as edges if there are at most min(n, num_bins) of them; otherwise one edge per distinct value of the feature if n <= num_bins; otherwise num_bins equally spaced edges from the minimum to the maximum. What one feature gets does not depend on the other features.", "quantifier": "all datasets, all dictionaries of discrete values, all num_bins", "why_tests_cant": "the bin type of every feature depends on all of n, num_bins and the dictionary, and a local variable is carried from one feature to the next", "anchors": ["utils/utils.py::make_histograms", "utils/utils.py::choose_bin_type", "data_structures/histogram.py::Histogram.__init__", "data_structures/histogram.py::Histogram.discrete_bin"]}
{"id": "C80", "title": "Every node considers the requested number of distinct features of its tree", "statement": "In a fitted tree every node considers only features of the tree, all different if the tree's are, and exactly as many as feature_subsampling asks for: all, ceil(sqrt(F)), k or ceil(x*F); and every split of the node is on one of the features it considered.", "quantifier": "all training sets, settings, seeds, all nodes", "why_tests_cant": "random subsampling; a loss of features at depth changes only the distribution of trees", "anchors": ["data_structures/node.py::Node.__init__", "data_structures/node.py::Node.calculate_best_split", "utils/utils.py::choose_features"]}
{"id": "C81", "title": "Fitting with binned features succeeds on consistent data", "statement": "Fitting a tree with LINEAR or RANDOM bins and the exact or the adaptive solver never raises on a well-formed training set in which rows with different labels differ in some feature, provided there are enough bins and, for LINEAR bins, every node considers all features.", "quantifier": "all such training sets, all depths, seeds and random outcomes", "why_tests_cant": "the failing corner (a feature that is constant in one node of the tree) depends on the partition produced by all earlier splits", "anchors": ["data_structures/tree_base.py::TreeBase.fit", "utils/solvers.py::solve_exactly", "utils/solvers.py::solve_mab", "utils/utils.py::make_histograms"]}
{"id": "C82", "title": "Stability does not depend on the numbering of the features", "statement": "Renumbering the features (columns) in the same way in all importance vectors changes neither get_stability_pairwise nor get_stability_freq.", "quantifier": "all importance matrices, all permutations of the columns, all metrics, all k", "why_tests_cant": "all permutations; tests use one fixed column order", "anchors": ["data_structures/permutation.py::PermutationImportance.get_stability_pairwise", "data_structures/permutation.py::PermutationImportance.get_stability_freq"]}
{"id": "C83", "title": "Features that are not used in a split do not influence predictions", "statement": "Two datapoints that agree on every feature some tree splits on get the same prediction from a tree or forest; and the out-of-bag score is the same on two datasets that agree in these columns.", "quantifier": "all trees and forests, all datapoints and datasets", "why_tests_cant": "relational claim over all pairs of datapoints", "anchors": ["data_structures/tree_base.py::TreeBase.predict", "data_structures/forest_base.py::ForestBase.predict", "data_structures/forest_base.py::ForestBase.get_oob_score"]}
{"id": "C84", "title": "An unused feature has permutation importance 0", "statement": "With importance_score='permutation', a feature that no tree of the forest splits on has importance 0.", "quantifier": "all forests, datasets and shuffles", "why_tests_cant": "must hold for every shuffle; no test looks at an unused feature", "anchors": ["data_structures/permutation.py::PermutationImportance.compute_importance_vec"]}
{"id": "C85", "title": "Fitting a forest succeeds on well-formed data", "statement": "Building and fitting a forest never raises on a non-empty rectangular training set with one label per row, limits that can be met and sampling fractions that leave at least one row and one column, when the split search can always produce candidates: exact search with IDENTITY or RANDOM bins, adaptive search with at least six RANDOM bins, or LINEAR bins when the minima and maxima are precomputed and every column varies or when every node sees all columns and rows with different targets differ. This holds for every budget, seed and random outcome, and for refitting a forest in any state.", "quantifier": "all such training sets, settings, budgets, seeds, numbers of trees and histories of calls", "why_tests_cant": "trees are trained on random samples and, with boosting, on targets that the earlier trees produce; the failing corner depends on all of them", "anchors": ["data_structures/forest_base.py::ForestBase.fit", "data_structures/tree_base.py::TreeBase.fit", "utils/utils.py::make_histograms"]}
{"id": "C86", "title": "Random-patches models train on the requested share of rows and columns and leave the caller's labels alone", "statement": "A RandomPatches forest (plain or boosted) is trained on ceil(alpha_N*N) different rows and ceil(alpha_F*F) different columns of the data passed to its constructor, with the labels of these rows, and neither building nor fitting it changes the label array of the caller.", "quantifier": "all datasets, fractions, seeds", "why_tests_cant": "random subsets; the boosted variants write into label arrays by reference", "anchors": ["data_structures/wrappers/random_patches_classifier.py::RandomPatchesClassifier.__init__", "data_structures/wrappers/gradient_boosted_random_patches_regressor.py::GradientBoostedRandomPatchesRegressor.__init__"]}
{"id": "C87", "title": "Growing a tree only adds to it", "statement": "While a tree is grown, a node that has been searched is never searched again and its outcome never changes; a node that has been split keeps its children; rows, depth and features of a node are fixed when it is created. Every pass over the tree spends queries only on nodes that had not been searched, and the returned tree keeps whatever any intermediate state recorded.", "quantifier": "all training sets, settings, seeds, all points of the growing loop", "why_tests_cant": "ranges over every intermediate state of the loop and all later ones", "anchors": ["data_structures/tree_base.py::TreeBase.fit", "data_structures/tree_base.py::TreeBase.get_depth", "data_structures/node.py::Node.calculate_best_split", "data_structures/node.py::Node.split"]}
{"id": "C88", "title": "Limits given to a forest hold in each of its trees", "statement": "However often a forest has been fitted or scored, in each of its trees no node lies deeper than max_depth, there are at most max_leaf_nodes leaves, and every split node has more than min_samples_split rows and a reduction that is negative and below min_impurity_decrease.", "quantifier": "all forests reachable by any history of calls, all trees, all nodes", "why_tests_cant": "limits travel through two constructors and a loop; must hold for every seed and history of calls", "anchors": ["data_structures/forest_base.py::ForestBase.fit", "data_structures/tree_base.py::TreeBase.__init__", "data_structures/tree_base.py::TreeBase.fit"]}
{"id": "C89", "title": "Thresholds come from the advertised grid", "statement": "With IDENTITY bins a threshold is a value of the feature among the rows of the node; with LINEAR bins it is one of the B equally spaced points from the minimum to the maximum of the feature (over the rows of the node, or over the whole training set with make_precomputed_minmax); with RANDOM bins it lies between the minimum and the maximum over the rows of the node. Without a bin type, a node with no more rows than bins is treated as with IDENTITY bins, any other as with LINEAR bins.", "quantifier": "all training sets, settings, seeds, all split nodes of all trees of a forest", "why_tests_cant": "the grid depends on the partition produced by all earlier splits; a grid over the wrong rows still yields plausible trees", "anchors": ["data_structures/histogram.py::Histogram.__init__", "data_structures/histogram.py::Histogram.linear_bin", "data_structures/histogram.py::Histogram.random_bin", "data_structures/histogram.py::Histogram.identity_bin", "data_structures/node.py::Node.calculate_best_split", "data_structures/forest_base.py::ForestBase.fit"]}
{"id": "C90", "title": "Number of bins and tolerance used at a node", "statement": "A node with n rows uses floor(log2 n)+1 bins with use_logarithmic_split_point and the configured number otherwise. With the adaptive solver it searches its own rows, labels and features with tolerance epsilon, or epsilon*sqrt(depth) with use_dynamic_epsilon (so 0 at the root), and records the outcome unchanged.", "quantifier": "all training sets, settings, seeds, all searched nodes", "why_tests_cant": "the parameters are recomputed per node from its size and depth; a wrong one only shifts the distribution of trees", "anchors": ["data_structures/node.py::Node.calculate_best_split", "data_structures/node.py::Node.__init__"]}
{"id": "C91", "title": "Spearman stability of importances without ties lies between -1 and 1", "statement": "For importance vectors without ties the Spearman stability (of two vectors, or averaged over all pairs of rows) lies between -1 and 1, and is 1 exactly if all vectors put the features in the same order. For two vectors it is the rank correlation plus 6*d^2/(n(n^2-1)), d being the rank difference of the first feature, which the loop leaves out.", "quantifier": "all importance matrices without ties, any number of rows (at least two) and features (at least two)", "why_tests_cant": "an algebraic identity over all pairs of permutations of all sizes", "anchors": ["data_structures/permutation.py::PermutationImportance.get_pairwise_stability", "data_structures/permutation.py::PermutationImportance.get_stability_pairwise"]}
{"id": "C92", "title": "The vectorised impurity reductions agree with the loop", "statement": "Switching the constant VECTORIZE on does not change what get_impurity_reductions returns, for any histogram the code can build, any bins, criterion and population size.", "quantifier": "all histograms built by any sequence of insertions, all lists of bins, criteria, population sizes", "why_tests_cant": "the branch is switched off in the repository, so no test runs it; agreement is a relational claim over all histograms", "anchors": ["utils/criteria.py::get_impurity_reductions", "utils/criteria.py::get_gini", "utils/criteria.py::get_entropy", "utils/criteria.py::get_mse"]}
{"id": "C93", "title": "A fitted tree is the best answer its leaves allow on the training rows", "statement": "On the rows it was fitted on (with repetitions), a regression tree has the least squared error among all answers that treat rows of the same leaf alike, hence at most the squared error of the mean; a classification tree is right as often as any such answer, hence at least as often as the most frequent class.", "quantifier": "all training sets, settings, solvers, seeds, histories of predict calls, and all competing leaf-wise answers", "why_tests_cant": "an optimality claim over all competing answers and all fitted trees", "anchors": ["data_structures/tree_base.py::TreeBase.fit", "data_structures/tree_base.py::TreeBase.predict", "data_structures/node.py::Node.split"]}
{"id": "C94", "title": "More boosting rounds do not increase the training error", "statement": "For a boosted regression forest fitted without bootstrapping or row subsampling and with a learning rate in [0,2], the squared error on the training rows of the answer of its first m trees is at most that of its first k trees, for all 1 <= k <= m. (With bootstrapping this fails: targets of rows outside the sample ignore the new tree.)", "quantifier": "all datasets, learning rates in [0,2], numbers of trees, solvers, seeds", "why_tests_cant": "a monotonicity claim over all numbers of rounds and all data", "anchors": ["data_structures/forest_base.py::ForestBase.fit", "data_structures/forest_base.py::ForestBase.predict", "utils/boosting.py::get_next_targets"]}
{"id": "C95", "title": "The order of the training rows does not matter to the exact solver", "statement": "With the exact solver, fitting a tree (on all rows) or a forest without bootstrapping and random subsets, boosted or not, to the same samples in another order (numbers of bins other than 1; make_discrete off unless the bins are LINEAR or IDENTITY) gives the same tests in every node, the same number of trees and histogram insertions, and the same answer for every point.", "quantifier": "all datasets, all permutations of the rows, settings, seeds, contents of uninitialised memory", "why_tests_cant": "relates two runs over all permutations of all datasets", "anchors": ["utils/solvers.py::solve_exactly", "data_structures/tree_base.py::TreeBase.fit", "data_structures/tree_base.py::TreeBase.predict", "data_structures/forest_base.py::ForestBase.fit", "data_structures/forest_base.py::ForestBase.predict"]}
{"id": "C96", "title": "The units of the features do not matter", "statement": "Put every column of the training data through a strictly increasing map (any with IDENTITY bins, affine ones with LINEAR bins; for a forest, numbers of bins other than 1). With the same seed the tree or forest (exact solver, or MABSplit if both runs find the same uninitialised memory; bootstrap and random subsets included) is the same up to the mapped thresholds, and answers for a mapped point what it answered for the point.", "quantifier": "all datasets, families of increasing maps, settings, seeds, contents of uninitialised memory", "why_tests_cant": "relates two runs over all increasing maps of all columns", "anchors": ["utils/solvers.py::solve_exactly", "utils/solvers.py::solve_mab", "data_structures/histogram.py::Histogram.linear_bin", "data_structures/histogram.py::Histogram.identity_bin", "data_structures/tree_base.py::TreeBase.fit", "data_structures/tree_base.py::TreeBase.predict", "data_structures/forest_base.py::ForestBase.fit", "data_structures/forest_base.py::ForestBase.predict"]}
{"id": "C97", "title": "The coding of the labels does not matter", "statement": "With the exact solver and the same seed (numbers of bins other than 1; make_discrete off unless the bins are LINEAR or IDENTITY): regression targets a*y+b (a not 0) with min_impurity_decrease multiplied by a*a give the same tree or forest, boosted or not, with answers a*v+b (boosting with bootstrap or random subsets only if b is 0); renamed classes give the same tree or forest with renamed answers and the same probabilities (for a forest, which numbers the classes by sorting them, whole-number labels and an increasing renaming). With MABSplit and the same uninitialised memory: the same for targets b+y and b-y and for increasing renamings.", "quantifier": "all datasets, affine maps of the targets, renamings of the classes, settings, seeds", "why_tests_cant": "relates two runs over all codings of all label arrays", "anchors": ["utils/solvers.py::solve_exactly", "utils/solvers.py::solve_mab", "utils/criteria.py::get_gini", "utils/criteria.py::get_entropy", "utils/criteria.py::get_mse", "data_structures/tree_base.py::TreeBase.fit", "data_structures/tree_base.py::TreeBase.predict", "data_structures/forest_base.py::ForestBase.fit", "data_structures/forest_base.py::ForestBase.predict", "utils/boosting.py::get_next_targets"]}
{"id": "C98", "title": "Permutation importance rearranges one column and nothing else", "statement": "With importance_score='permutation', entry j of an importance vector is |n - s|, where n is one score of the forest on the data and s the out-of-bag score on data in which the values of column j are rearranged among the rows and every other entry is unchanged. There is one entry per column.", "quantifier": "all datasets, forests, seeds, features", "why_tests_cant": "the rearrangement is drawn anew for each feature; a bug that leaks one column's values into another still gives plausible scores", "anchors": ["data_structures/permutation.py::PermutationImportance.compute_importance_vec"]}
{"id": "C99", "title": "A forest with an exhausted budget trains nothing", "statement": "If 0 or less of the budget is left, fit ends with no trees, unchanged counts of queries and budget, and the process-wide random generators untouched. Every tree that is kept was trained while a positive budget was left.", "quantifier": "all forests with all histories, all data", "why_tests_cant": "ranges over every history that exhausts the budget", "anchors": ["data_structures/forest_base.py::ForestBase.fit"]}
{"id": "C100", "title": "Refitting and resetting forget earlier trees and data", "statement": "Fitting a forest to new data gives the same result whatever trees and training data it held before. After reset it holds no trees and no count of queries, refuses fit without data, and answers no query.", "quantifier": "all forests, previous contents, new data", "why_tests_cant": "relates two runs over all previous contents of the object", "anchors": ["data_structures/forest_base.py::ForestBase.fit", "data_structures/forest_base.py::ForestBase.reset", "data_structures/forest_base.py::ForestBase.predict"]}
{"id": "C101", "title": "The exact solver grows the textbook greedy tree", "statement": "With the exact solver on all columns, no budget, IDENTITY or LINEAR bins and a leaf limit that is not reached, the tree is the only greedy decision tree for the training rows: every node that the limits allow to split is split at the first best candidate if that is worth it, and the halves are treated the same way. Its answers are the class frequencies or the mean in the leaf of that tree; the seed and uninitialised memory play no role.", "quantifier": "all datasets, limits, binnings, row selections, seeds, contents of uninitialised memory", "why_tests_cant": "equates the result of a best-first loop with caches and a queue with a recursive definition, for all inputs", "anchors": ["data_structures/tree_base.py::TreeBase.fit", "data_structures/tree_base.py::TreeBase.check_splittable", "data_structures/tree_base.py::TreeBase.predict", "utils/solvers.py::solve_exactly", "data_structures/node.py::Node.calculate_best_split", "data_structures/node.py::Node.split"]}
{"id": "C102", "title": "Weaker limits only refine the tree", "statement": "In the situation of the property before, raise max_depth, lower min_samples_split or weaken min_impurity_decrease: the new tree asks all questions of the old one at the same places, and perhaps more below its leaves.", "quantifier": "all datasets, pairs of limits, seeds", "why_tests_cant": "relates two runs with different limits over all datasets", "anchors": ["data_structures/tree_base.py::TreeBase.fit", "data_structures/tree_base.py::TreeBase.check_splittable_constraints", "data_structures/tree_base.py::TreeBase.check_splittable_impurity"]}
{"id": "C103", "title": "A weaker leaf limit only adds to the tree", "statement": "Fit twice with the same seed, the second time with a larger max_leaf_nodes or none, any solver. Every node of the first tree is in the second with the same rows and the same test, every point passes, in the second tree, through the leaf where it ends in the first, and the second fit makes at least as many histogram insertions. If the first fit does not reach its limit the trees are the same.", "quantifier": "all datasets, pairs of limits, solvers, seeds, budgets", "why_tests_cant": "relates two runs with different limits over all datasets and solvers", "anchors": ["data_structures/tree_base.py::TreeBase.fit", "data_structures/tree_base.py::TreeBase.predict"]}
{"id": "C104", "title": "Asking for more trees only adds trees", "statement": "Fit a forest twice with the same seed, the second time with a larger n_estimators. The trees and the out-of-bag lists of the first forest are the first ones of the second. If the first forest stopped early for lack of budget, nothing is added.", "quantifier": "all datasets, pairs of n_estimators, settings, seeds, budgets", "why_tests_cant": "relates two runs with different numbers of trees over all datasets and settings", "anchors": ["data_structures/forest_base.py::ForestBase.fit"]}
{"id": "C105", "title": "A budget that is not used up has no effect", "statement": "If a fit makes q histogram insertions and its budget is larger than q (or there is none), then a fit with the same seed and any other budget larger than q, or none, gives the same split, tree or forest and the same count; only the note of what is left differs. (For a forest: if all trees asked for were made, and each made at least one insertion.)", "quantifier": "all datasets, pairs of budgets, solvers, settings, seeds", "why_tests_cant": "relates two runs with different budgets over all datasets; the budget is consulted at many places", "anchors": ["utils/solvers.py::solve_mab", "data_structures/tree_base.py::TreeBase.fit", "data_structures/tree_base.py::TreeBase.check_splittable", "data_structures/forest_base.py::ForestBase.fit"]}
{"id": "C106", "title": "The printed tree says what the tree predicts", "statement": "A fitted tree can be printed, before and after predictions. The text is a properly nested outline of tests, and a reader who follows its tests for a point comes to the class or value that predict answers for that point; the reader gets stuck exactly when predict raises.", "quantifier": "all fitted trees, settings, seeds, points, predictions made before", "why_tests_cant": "relates the text of every tree to its predictions at every point", "anchors": ["data_structures/node.py::Node.n_print", "data_structures/tree_base.py::TreeBase.tree_print", "data_structures/tree_base.py::TreeBase.predict"]}
{"id": "C107", "title": "Without sampling, a forest is its one textbook tree", "statement": "Fit a forest with the exact solver, all columns in every node, one threshold per value or evenly spaced ones, no bootstrap, no subsets of rows or columns, no boosting, no leaf limit, no budget. All its trees are the same, the textbook greedy tree of the whole training set, and the forest answers, for every point, with the mean (or the class frequencies) of the training rows in that tree's leaf. So neither n_estimators nor random_state has any effect on its answers.", "quantifier": "all datasets, limits, numbers of trees, seeds, points, predictions made before", "why_tests_cant": "relates whole runs with different seeds and sizes to a specification that has neither, over all datasets", "anchors": ["data_structures/forest_base.py::ForestBase.fit", "data_structures/forest_base.py::ForestBase.predict", "data_structures/tree_base.py::TreeBase.fit", "utils/solvers.py::solve_exactly"]}
{"id": "C108", "title": "Growing a tree depth-first gives the tree that fit grows", "statement": "Calling recursive_split on the root of a new tree (exact solver, all columns, IDENTITY or LINEAR bins, no budget, at most as many training rows as labels) grows the textbook greedy tree of the training set. The tree asks the same questions and gives the same answers as the tree that fit grows best-first from the same training set and limits, unless fit stopped at max_leaf_nodes, which depth-first growth ignores. With either solver the leaves are recorded from left to right and hold each training row once, no leaf is left that would be worth splitting, the number of splits is one less than the number of leaves, and the query count is the sum over the nodes. On a well-formed training set with IDENTITY bins it always returns. With more training rows than labels the two ways of growing can differ.", "quantifier": "for all training sets, limits, criteria, seeds, generators, contents of uninitialised memory and query points", "why_tests_cant": "The two algorithms visit the nodes in different orders and apply the minimum-decrease test in different places; tests only compare them on a few data sets, and fit refuses the depth-first splitter altogether.", "anchors": ["data_structures/tree_base.py::TreeBase.recursive_split", "data_structures/tree_base.py::TreeBase.check_splittable", "data_structures/tree_base.py::TreeBase.fit", "data_structures/node.py::Node.split"]}
{"id": "C109", "title": "Boosting steps for classification are Newton steps of the cross-entropy loss", "statement": "For classification the new targets of boosting are minus the gradient over the hessian of the (smoothed) cross-entropy loss at the predictions; for regression they are the residuals. True for the code: the gradient is the derivative of the smoothed loss at every non-negative prediction, the hessian is positive, and the regression targets are the residuals for every loss type and the ones the forest's boosting loop uses. False for the code: the hessian is the second derivative only at the one prediction where 2p + s = 1, because the smoothing constant s is added to the square; the smoothing cancels the targets, so the new targets for classification depend on the predictions alone; and an unknown loss type is not reported as such but ends in a TypeError, because the NotImplementedError is created and not raised.", "quantifier": "for all arrays of targets and predictions that are not negative, and all loss types", "why_tests_cant": "A test compares the formulas on a few numbers with the same formulas; that an array is a derivative, and that the result ignores an argument, are statements about all inputs.", "anchors": ["utils/boosting.py::find_gradient", "utils/boosting.py::find_hessian", "utils/boosting.py::get_next_targets", "data_structures/forest_base.py::ForestBase.fit"]}
{"id": "C110", "title": "The ready-made classes train the kind of model their name announces", "statement": "Whatever the parameters and the data, after fit: extremely random classes have thresholds between the extremes of the column in the node's rows, histogram classes have thresholds on an equally spaced grid with the given number of bins, the others have values of the column in the node's rows; the classes that bag give each tree a bootstrap sample and the others give each tree all rows (histogram patches: a share of rows and columns per tree); classifiers that get all columns, and the boosted random forest regressor, look at ceil(sqrt(F)) columns per node and the others at all; gradient boosted regressors answer with the first tree plus the learning rate times the sum of the others and, unless bagged, leave the residuals in the label array; the other classes average trees trained on the labels; the number of trees and the limits are the given ones.", "quantifier": "for all twenty classes, parameters, data, histories before construction and fit, seeds and generators", "why_tests_cant": "Each class hands its parameters through two constructors; a wrong keyword shows only in the distribution of the trees.", "anchors": ["data_structures/wrappers/extremely_random_forest_classifier.py::ExtremelyRandomForestClassifier.__init__", "data_structures/wrappers/gradient_boosted_random_forest_regressor.py::GradientBoostedRandomForestRegressor.__init__", "data_structures/wrappers/histogram_random_forest_classifier.py::HistogramRandomForestClassifier.__init__", "data_structures/forest_base.py::ForestBase.fit", "data_structures/forest_base.py::ForestBase.predict"]}
{"id": "C111", "title": "Importance experiments are reproducible and use fresh seeds", "statement": "Objects for importance experiments that were constructed with equal arguments are equal, and what get_importance_array returns and leaves behind does not depend on the state of the process-wide generators, before construction or before the call. A call adds num_forests forests; the new forest number i is built with the i-th draw of the object's own generator as random_state, fitted to the object's data and labels and only read after that; earlier forests are kept; no label array changes. With impurity importances the seeds of all calls together are the successive draws of a generator started from the object's seed. An object cannot be built for fewer than two forests, and an importance array has one row of F entries for each forest, so at least two.", "quantifier": "for all data, labels, parameters, seeds, generators, numbers of calls and states of the process", "why_tests_cant": "Reproducibility is a statement about all states of hidden global generators; the forests reseed them, and the object's own generator is shared between seeding and shuffling.", "anchors": ["data_structures/permutation.py::PermutationImportance.__init__", "data_structures/permutation.py::PermutationImportance.train_forest", "data_structures/permutation.py::PermutationImportance.train_forests", "data_structures/permutation.py::PermutationImportance.get_importance_array"]}
{"id": "C112", "title": "MABSplit is as good as its estimates, and its estimates are honest", "statement": "Suppose a node has more than five candidate splits and MABSplit finishes. Then every candidate has a finite last estimate. If the estimates of all candidates are off by at most given errors, a reported split is a candidate whose true reduction differs from the reported one by at most its error, no candidate is better than it by more than the two errors, and if no split is reported then no candidate has a true reduction larger than its error. Candidates that MABSplit marks as computed exactly carry the true value at any time. For classification, the reported reduction is the true reduction of the reported split over some rows of the node, each counted once when sampling without replacement. Among the candidates that share the least last estimate the choice is made by a single draw of python's generator, and this is the only use of that generator in the search.", "quantifier": "for all data, labels, criteria, binnings with more than five candidates, batch sizes, budgets, both sampling modes, random draws and contents of uninitialised memory", "why_tests_cant": "A test sees one run with one sample; a bound on the loss against the best split has to hold for every sequence of batches and eliminations, including runs that stop early with candidates that were dropped long ago.", "anchors": ["utils/solvers.py::solve_mab", "utils/solvers.py::sample_targets", "utils/utils.py::empty_histograms", "utils/utils.py::make_histograms"]}
{"id": "C113", "title": "LINEAR bins work in floating-point arithmetic", "statement": "In double precision, a value is counted to the left of a LINEAR bin edge exactly when it is at most that edge, as the split that is performed at the edge will treat it.", "quantifier": "for all minima, maxima, numbers of bins and values, with every operation of linear_bin and get_bin rounded to nearest", "why_tests_cant": "Rounding errors show only for particular pairs of minimum and maximum; the code has a TODO about them, and no finite test excludes them.", "anchors": ["data_structures/histogram.py::Histogram.get_bin", "data_structures/histogram.py::Histogram.linear_bin", "data_structures/histogram.py::Histogram.add"]}
{"id": "C114", "title": "Regression estimates from random samples are right on average, and so are their reported errors", "statement": "Draw a sample of at least two labels at random, with or without replacement, all samples being equally likely. The MSE that get_mse estimates from it (with the population size when sampling without replacement) is on average exactly the MSE of all labels. If the labels have the kurtosis 3 that the code assumes, the variance that get_mse reports with a right estimate is the average squared error of the estimate with replacement, and N^2/(N-1)^2 times this error without replacement from N >= 4 labels; for kurtosis below 3 it is not smaller than the error. The share of samples whose estimate is off by t is at most the average squared error divided by t^2.", "quantifier": "for all populations of labels, all sample sizes of at least two, over all equally likely samples with and without replacement", "why_tests_cant": "Unbiasedness is a statement about the average over all samples of every population; a simulation cannot tell an unbiased formula from a slightly biased one, and the formulas have special cases for small samples and populations.", "anchors": ["utils/criteria.py::get_mse"]}
{"id": "C115", "title": "The Gini index of a random sample is too small by a known factor", "statement": "Draw a sample of n labels at random, all samples being equally likely. The class frequencies of the sample are right on average, with average squared error p(1-p)/n, times (N-n)/(N-1) when sampling without replacement from N labels. The Gini index that get_gini returns for the sample is on average the true index times 1-1/n with replacement, and times (1-1/n)N/(N-1) without replacement.", "quantifier": "for all populations of labels, numbers of classes and sample sizes, over all equally likely samples with and without replacement", "why_tests_cant": "The bias of an estimate is a property of the average over all samples of every population; tests look at single samples.", "anchors": ["utils/criteria.py::get_gini"]}
{"id": "C116", "title": "The reported variance of the Gini index and the entropy is the propagated error of the frequencies", "statement": "For a sample that shows the class frequencies of all labels, the variance that get_gini and get_entropy report is the average square, over all equally likely samples of this size, of the linear part of the error of the impurity (its derivatives times the errors of the frequencies), without a population size for sampling with replacement and with it for sampling without replacement. In particular it does not depend on the numbering of the classes.", "quantifier": "for all populations of labels, numbers of classes and numberings of the classes, sample sizes, with and without replacement", "why_tests_cant": "Whether an error formula neglects correlations between the classes shows only in the average over all samples; tests with two classes cannot see it.", "anchors": ["utils/criteria.py::get_gini", "utils/criteria.py::get_entropy"]}
{"id": "C117", "title": "Repeating every training row does not change the exact tree", "statement": "Train a tree with the exact solver on all columns, with one threshold per value or a fixed number of equally spaced thresholds, once on some rows and once on a table that contains each of these rows k times, in any order, with a min_samples_split that treats n rows and their k*n copies alike. As long as max_leaf_nodes is not reached, the two trees ask the same questions in the same places and give the same answer for every point. The same holds for forests without sampling, whatever their seeds and numbers of trees.", "quantifier": "for all tables, labels, numbers of copies, orders of the repeated rows, criteria, limits, seeds and points", "why_tests_cant": "Whether weights, proportions and thresholds are all relative to the size of the training set shows only when every node of every tree is compared for every number of copies.", "anchors": ["data_structures/tree_base.py::TreeBase.fit", "data_structures/node.py::Node.calculate_best_split", "data_structures/node.py::Node.split", "utils/solvers.py::solve_exactly", "data_structures/forest_base.py::ForestBase.fit"]}
{"id": "C118", "title": "Columns that bring nothing new do not change the exact tree", "statement": "Append columns to the training table. With one threshold per value, let each new column be constant or an increasing or decreasing function of an old column; with equally spaced thresholds, let it be constant or a copy of an old column. Then a tree trained with the exact solver on all columns is the same tree as without the new columns, as long as max_leaf_nodes is not reached, and ignores the new columns when it predicts. The same holds for forests without sampling.", "quantifier": "for all tables, labels, new columns of this kind, criteria, limits, seeds and points", "why_tests_cant": "A new column adds candidates in every node; that none of them ever wins, also when it ties with an old one, has to be shown for all nodes of all trees.", "anchors": ["data_structures/tree_base.py::TreeBase.fit", "utils/solvers.py::solve_exactly", "utils/utils.py::make_histograms", "utils/utils.py::choose_features", "data_structures/forest_base.py::ForestBase.fit"]}
{"id": "C119", "title": "Values listed for a column are used for that column", "statement": "When a tree is given a dictionary that lists the values of its discrete columns, every threshold on such a column (with DISCRETE bins, or with automatic binning and few enough listed values) is one of the values listed for that column, also in nodes that look at a subset of the columns.", "quantifier": "for all training sets, dictionaries of listed values, subsets of columns, feature subsampling rules, solvers and seeds", "why_tests_cant": "Whether the right list is used depends on which columns a node happens to draw and in which order.", "anchors": ["data_structures/node.py::Node.__init__", "utils/utils.py::remap_discrete_features", "utils/utils.py::make_histograms", "data_structures/histogram.py::Histogram.discrete_bin"]}
{"id": "C120", "title": "A tree has one answer per box", "statement": "A fitted tree divides the space of points into as many axis-parallel boxes as it has leaves; every point with enough columns lies in exactly one box, and the sides of the boxes are thresholds of the tree. For a point in a box the tree answers with the mean of the training targets in that box, or with the class frequencies there and the first most frequent class. So a tree has at most max_leaf_nodes different answers, and neither a tree nor a forest changes its answer when a point moves without crossing a threshold.", "quantifier": "for all training sets, options, seeds, points, lists of points and earlier predictions", "why_tests_cant": "It is a statement about all points of a continuous space and all thresholds that training may choose.", "anchors": ["data_structures/tree_base.py::TreeBase.predict", "data_structures/tree_base.py::TreeBase.fit", "data_structures/node.py::Node.split", "data_structures/forest_base.py::ForestBase.predict"]}
{"id": "C121", "title": "Boosting on whole-number targets", "statement": "Training a boosted regression forest on targets that are stored as integers gives the same forest, and leaves the same residuals, as training on the same targets stored as floats.", "quantifier": "for all training sets, whole-number targets, learning rates, numbers of trees, options and seeds", "why_tests_cant": "Whether a residual is a whole number depends on the leaf means of every tree before it; test targets are floats or happen to have whole residuals.", "anchors": ["data_structures/forest_base.py::ForestBase.fit", "data_structures/forest_base.py::ForestBase.predict", "utils/boosting.py::get_next_targets"]}
{"id": "C122", "title": "The caller owns the answers", "statement": "What the caller does with an answer does not matter to later answers: after any sequence of single and batch predictions, with any changes the caller makes to the arrays received, a fitted tree or forest answers every point as it did at first; and a later prediction never changes an array handed out before.", "quantifier": "for all fitted trees and forests, sequences of predictions, and contents written into the received arrays", "why_tests_cant": "Sharing of arrays shows up only when a caller modifies an answer in place and asks again about a point of the same leaf; tests read answers and throw them away.", "anchors": ["data_structures/tree_base.py::TreeBase.predict", "data_structures/forest_base.py::ForestBase.predict", "data_structures/classifier.py::Classifier.predict_batch", "data_structures/regressor.py::Regressor.predict_batch"]}
{"id": "C123", "title": "A comparison of two solvers is fair", "statement": "In every round of compare_budgets and compare_runtimes, what is reported about each of the two models (training score, test score, queries, number of trees) is what the model of the same kind, settings and seed reports that is built, fitted to the caller's targets and measured on its own; the two differ in the solver only, and the caller's targets are the same after the comparison as before.", "quantifier": "for all of the nine kinds of model, settings, data, targets, seeds, numbers of rounds, and states of the process before", "why_tests_cant": "Both models are built before either is fitted and share the target array and the process-wide generators; a test that looks at one comparison has no reference to hold the second model against.", "anchors": ["experiments/budget_exps/compare_budgets.py::compare_budgets", "experiments/runtime_exps/compare_runtimes.py::compare_runtimes"]}
{"id": "C124", "title": "Reported overlaps are overlaps", "statement": "The verdicts of the experiments (overlap in compare_budgets and compare_runtimes, and in the heart experiment, is_overlap in the stability test) are true exactly when the two reported intervals around the means have a point in common.", "quantifier": "for all lists of results of the two models and all confidence multipliers", "why_tests_cant": "A verdict is a single bit derived from many random runs; no test states what it should be, and each of the three formulas is right on part of the inputs.", "anchors": ["experiments/budget_exps/compare_budgets.py::compare_budgets", "experiments/runtime_exps/compare_runtimes.py::compare_runtimes", "experiments/heart/compare_experiment.py::experiment_cf", "experiments/feature_stability/feature_importance_tests.py::run_stability_stats_test"]}
{"id": "C125", "title": "The stability test compares like with like", "statement": "run_stability_stats_test compares, in each trial, two new importance objects with the same settings but for the solver, whose seeds come from the seed of the test alone; its result does not depend on what happened in the process before; it succeeds exactly if the intervals it computes do not overlap; and it leaves the caller's data alone.", "quantifier": "for all settings, data, labels, seeds, numbers of trials and states of the process", "why_tests_cant": "The settings of the two objects are written out twice in the source and trees of both are thrown away; only their stabilities are seen.", "anchors": ["experiments/feature_stability/feature_importance_tests.py::run_stability_stats_test", "data_structures/permutation.py::PermutationImportance.run_baseline"]}
{"id": "C126", "title": "The error is split into noise, bias and variance", "statement": "For each test point, the error that bias_variance_analysis returns is the sum of the noise, the squared bias and the variance it returns; every row of predictions comes from a model that is fitted to the sample of this trial only, under the limits the model was given.", "quantifier": "for all models, samples, numbers of trials and test points, Bayes predictions and noisy targets", "why_tests_cant": "The identity is about exact numbers and needs a quantifier over all predictions; earlier trials can leak into a later one only through state that reset() forgets to clear.", "anchors": ["experiments/bias_variance/bias_variance_analysis.py::bias_variance_analysis", "data_structures/forest_base.py::ForestBase.reset"]}
{"id": "C127", "title": "A point with missing or infinite values is answered like one with large and small numbers", "statement": "predict() accepts points with NaN and infinite entries: a fitted tree or forest answers as if NaN and +inf were replaced by any sufficiently large number and -inf by any sufficiently small one, and it answers every point that is long enough.", "quantifier": "for all fitted trees and forests, histories of predictions, points of floats including NaN and both infinities, and all large and small numbers beyond the thresholds of the tree(s)", "why_tests_cant": "The answer depends on how every comparison on the path treats NaN; the equality must hold for all trees, all points and all replacement numbers.", "anchors": ["data_structures/tree_base.py::TreeBase.predict", "data_structures/forest_base.py::ForestBase.predict"]}
{"id": "C128", "title": "Missing values in the training data lose no rows", "statement": "With NaN entries in the training data (IDENTITY bins), fit() returns a tree in which every training row is in exactly one leaf, and the answer of a leaf is the mean (the class frequencies) of the targets of its rows; without missing values nothing changes.", "quantifier": "for all data with missing values in any places, targets, settings of trees with the default splitter, random choices, and all points asked", "why_tests_cant": "Which rows are lost depends on the splits chosen and on the places of the missing values in all rows.", "anchors": ["data_structures/node.py::Node.split", "data_structures/tree_base.py::TreeBase.fit", "data_structures/tree_base.py::TreeBase.predict", "data_structures/histogram.py::Histogram.__init__"]}
{"id": "C129", "title": "Interrupting a forest's fit() leaves a usable forest", "statement": "If an exception (Ctrl-C, MemoryError, an error of the code itself) leaves a forest's fit() at any point, the forest has its old trees, or only completely fitted trees: it answers like the first trees of the forest that the undisturbed fit() would have given. The caller's label array is unchanged, the queries of the trees are counted and charged to the budget, and calling fit(data, labels) again works as on a forest that was never interrupted.", "quantifier": "for all forests (new or fitted before), data, labels, settings, random choices, all points of fit() at which the exception is raised, and all points asked afterwards", "why_tests_cant": "The exception can come between any two statements, in any pass of the loop; tests cannot raise it at every point for every forest.", "anchors": ["data_structures/forest_base.py::ForestBase.fit", "data_structures/forest_base.py::ForestBase.predict"]}
{"id": "C130", "title": "Interrupting a tree's fit() leaves a usable tree", "statement": "If an exception (Ctrl-C, MemoryError, an error of the code itself) leaves a tree's fit() at any point, the tree that is left behind can be used: every training row is in exactly one leaf, every point is answered with the mean (the class frequencies) of the training targets in the leaf to which it is sent, the tree is the one that the undisturbed fit() would have given with some subtrees replaced by leaves, and fit() can be called again.", "quantifier": "for all training sets, settings, random choices, all points of fit() at which the exception is raised, and all points asked afterwards", "why_tests_cant": "The exception can come between any two statements, at any node; tests cannot raise it at every point for every tree.", "anchors": ["data_structures/tree_base.py::TreeBase.fit", "data_structures/node.py::Node.split", "data_structures/tree_base.py::TreeBase.predict"]}
{"id": "C131", "title": "Threads can predict with one forest or regression tree at the same time", "statement": "If several threads call predict or predict_batch of the same fitted forest (classifier or regressor) or of the same fitted regression tree at the same time, every call that returns gives exactly what it would give if nobody else used the forest, and no call is held up by the others: each needs a bounded number of its own steps. This stays true if some of the calls are interrupted for good at any point.", "quantifier": "for all fitted forests and regression trees, all numbers of threads, all points each of them asks, all earlier calls, all orders in which the steps of the calls are interleaved, all points at which a call is interrupted", "why_tests_cant": "The interleavings cannot be enumerated, and a race that a test does not hit shows nothing; predict writes to the shared leaves.", "anchors": ["data_structures/tree_base.py::TreeBase.predict", "data_structures/forest_base.py::ForestBase.predict"]}
{"id": "C132", "title": "Threads can predict with one classification tree at the same time", "statement": "If several threads call predict or predict_batch of the same fitted classification tree at the same time, or if a call is interrupted (Ctrl-C) and others follow, every call that returns gives exactly the label and the probabilities it would give if nobody else used the tree.", "quantifier": "for all fitted classification trees, all numbers of threads, all points each of them asks, all earlier calls, all orders in which the steps of the calls are interleaved, all points at which a call is interrupted", "why_tests_cant": "The interleavings cannot be enumerated, and a race that a test does not hit shows nothing; predict writes two attributes of a shared leaf, one after the other.", "anchors": ["data_structures/tree_base.py::TreeBase.predict", "data_structures/classifier.py::Classifier.predict_batch"]}
{"id": "C133", "title": "MABSplit decides a node of a classification tree from one batch", "statement": "In a classification tree with MABSplit and the default (linear) bins, a node whose labels are not all the same is decided from one batch of its rows: batch_size rows drawn at random, or the whole node if it is not larger. The split returned is a best one for exactly these rows, among all candidate thresholds, the reduction reported is theirs, and no split is returned only if no candidate lowers their impurity. The number of histogram insertions is at most batch_size times the number of features, whatever the size of the node, the budget and the error probability.", "quantifier": "for all data, labels with at least two classes, numbers of features and bins with more than five candidates, batch sizes, budgets, error probabilities, with and without replacement, all states of the generators", "why_tests_cant": "The adaptive loop has many branches that depend on the data and on random draws. That it always stops after one batch follows from the NaN in the confidence bounds of thresholds that separate nothing, which no example shows for all data.", "anchors": ["utils/solvers.py::solve_mab", "utils/criteria.py::get_gini", "utils/criteria.py::get_entropy"]}
{"id": "C134", "title": "How likely MABSplit is to find an almost best split", "statement": "In a classification tree with the Gini criterion, MABSplit and the default (linear) bins, if the rows of a batch are drawn uniformly at random, then the split MABSplit returns for a node is, on the whole node, within eta of the best candidate with probability at least 1 - 128 * classes * candidates / (batch_size * eta^2), with and without replacement. This does not depend on the size of the node. A node that is not larger than a batch always gets a best split.", "quantifier": "for all nodes with at least two labels and more than five candidate thresholds, all sizes of the node, batch sizes, accuracies eta > 0, budgets and error probabilities", "why_tests_cant": "A probability over all draws of a batch from nodes of any size cannot be measured by tests, and the paper's guarantee is for confidence intervals that the code does not compute (C113, C116).", "anchors": ["utils/solvers.py::solve_mab", "utils/solvers.py::sample_targets", "utils/criteria.py::get_gini"]}
{"id": "C135", "title": "MABSplit finds a split with the certainty the caller asks for", "statement": "If a node has a split that the exact solver takes, then MABSplit returns a split of it too, except with the error probability that the caller passes.", "quantifier": "for all nodes, all sizes of the node, batch sizes, numbers of bins, budgets and error probabilities, all outcomes of the draws", "why_tests_cant": "A probability over all draws from nodes of any size cannot be measured by tests; the failures are rare labels, which small test data do not have.", "anchors": ["utils/solvers.py::solve_mab", "utils/solvers.py::solve_exactly"]}
{"id": "C136", "title": "The cost of training a classifier with MABSplit does not depend on the number of rows", "statement": "Training a classification tree with MABSplit and linear bins costs, in histogram insertions as reported by num_queries, at most the number of searched nodes times the number of columns times batch_size. So with max_depth = d a tree costs at most (2^d - 1)\u00b7columns\u00b7batch_size, with max_leaf_nodes = m at most (2m - 1)\u00b7columns\u00b7batch_size, and fitting a random forest classifier with max_depth = d costs at most n_estimators\u00b7(2^d - 1)\u00b7columns\u00b7batch_size, for training sets of any size. (Regression has no such bound.)", "quantifier": "for all training sets, labels, row and feature subsets, seeds, budgets, batch sizes, error probabilities and limits, with and without replacement, with and without precomputed bounds; for forests also from every earlier state of the object", "why_tests_cant": "The claim is about training sets that grow without bound; a test sees a few sizes, and the adaptive loop could sample for much longer on data a test does not contain.", "anchors": ["utils/solvers.py::solve_mab", "data_structures/tree_base.py::TreeBase.fit", "data_structures/forest_base.py::ForestBase.fit"]}
{"id": "C137", "title": "Threads that fit their own exact models at the same time do not disturb each other", "statement": "Let several threads construct and fit models at the same time, each with label arrays of its own. A thread whose trees use the exact solver without RANDOM bins, and whose forests in addition look at all columns in every node, makes under every schedule exactly what it would make in a program without other threads: the same trees node for node, forests that answer every batch of points in the same way, and the same exception. Every thread ends after a bounded number of its own turns, whatever the others do.", "quantifier": "for all numbers of threads, all lists of jobs (trees, forests, boosted forests, calls that seed or use the process-wide generators), all data, parameters and seeds, and all schedules", "why_tests_cant": "The number of schedules is exponential, and the generators that all threads share are reseeded by every constructor; a test runs a few schedules chosen by the operating system.", "anchors": ["data_structures/tree_base.py::TreeBase.fit", "data_structures/forest_base.py::ForestBase.fit", "utils/utils.py::set_seed"]}
{"id": "C138", "title": "Threads that fit at the same time never corrupt a model", "statement": "Whatever models several threads fit at the same time (also with MABSplit, RANDOM bins, columns drawn for each node, boosting, budgets), and whatever the schedule, every model that a thread has finished is sound: the leaves of each tree share out its training rows and every training row is sent to the leaf that holds it; every split obeys min_samples_split, is on a column given to the tree and improves by at least min_impurity_decrease; no node is deeper than max_depth; the queries are accounted for; every answer is the class shares or the mean of the training labels in one leaf; a forest has at most n_estimators trees, with its parameters, on its rows, and, unless it is boosted, on its targets. A thread that ends without an exception has finished all its models.", "quantifier": "for all numbers of threads, all lists of jobs with label arrays of their own, all data, parameters, seeds and budgets, and all schedules", "why_tests_cant": "Another thread may reseed the generators between any two draws; no test can try all points at which that happens.", "anchors": ["data_structures/tree_base.py::TreeBase.fit", "data_structures/forest_base.py::ForestBase.fit", "utils/utils.py::set_seed"]}
{"id": "C139", "title": "random_state makes a fit reproducible whatever other threads do", "statement": "A model that is constructed with a given random_state and fitted to given data answers in the same way, whatever other threads of the program do at the same time.", "quantifier": "for all models, data and seeds, all programs of the other threads and all schedules", "why_tests_cant": "The disturbance needs another thread to use or reseed the process-wide generators between two particular steps of the fit; tests with one thread never show it.", "anchors": ["data_structures/tree_base.py::TreeBase.fit", "data_structures/forest_base.py::ForestBase.fit", "utils/utils.py::set_seed"]}
{"id": "C140", "title": "Weaker limits never make the fit on the training rows worse", "statement": "Two trees are fitted to the same rows and targets with the same parameters, except that one is allowed at least as many leaves; with any solver, bins and seed, its squared error on the training rows is not larger (regression), and it is right on at least as many training rows (classification). With the exact solver the same holds when max_depth is larger, min_samples_split is smaller or min_impurity_decrease is weaker, provided no leaf limit is reached.", "quantifier": "for all data, targets and parameters, all pairs of limits, all seeds and states of the generators", "why_tests_cant": "A user who tunes these parameters relies on the direction in which the training error moves; tests compare a few values on a few data sets.", "anchors": ["data_structures/tree_base.py::TreeBase.fit", "data_structures/tree_base.py::TreeBase.recursive_split", "data_structures/tree_base.py::TreeBase.check_splittable", "data_structures/tree_base.py::TreeBase.predict"]}
{"id": "C141", "title": "A tree without limits reproduces the training labels when one column determines them", "statement": "A tree is fitted with the exact solver, IDENTITY bins, Gini or squared error, min_impurity_decrease 0 and all columns, without a limit on depth or queries, and does not reach its leaf limit. If rows that agree in one column have equal labels, then every leaf has at most min_samples_split rows or only one label. If moreover min_samples_split is at most 1, predict gives every training row exactly its target (regression), or its label with probability 1 (classification). It is not enough that the columns together determine the label: fitted to an exclusive or, the tree has a single leaf.", "quantifier": "for all data, targets and columns, all bootstrap samples of the rows, all seeds and states of the generators, after any earlier predictions", "why_tests_cant": "Users take a fully grown tree to fit its training data; whether it does depends on the data, and tests look at a few data sets.", "anchors": ["data_structures/tree_base.py::TreeBase.fit", "data_structures/tree_base.py::TreeBase.check_splittable", "data_structures/tree_base.py::TreeBase.predict", "utils/solvers.py::solve_exactly"]}
{"id": "C142", "title": "Training costs at most one query for each row, column and level", "statement": "With the exact solver, or with MABSplit without replacement, the number of queries that a fitted tree reports is at most max_depth times the number of training rows times the number of columns given to the tree (for any limits: the number of levels of the tree in place of max_depth). A fit of a forest adds at most n_estimators times max_depth times rows times columns. This holds for classification and regression, boosting, all bins and budgets.", "quantifier": "for all data, targets, seeds, states of the generators and parameters with these solvers (LINEAR or automatic bins: not exactly one bin)", "why_tests_cant": "The number of queries is the paper's measure of cost; tests measure it on a few data sets, a bound must hold for all of them.", "anchors": ["data_structures/tree_base.py::TreeBase.fit", "data_structures/forest_base.py::ForestBase.fit", "utils/solvers.py::solve_exactly", "utils/solvers.py::solve_mab"]}
{"id": "C143", "title": "Averaging trees does not make the error larger", "statement": "On any test points and targets, the squared error of a regression forest without boosting equals the mean squared error of its trees less the mean squared distance between the trees' answers and the forest's; so it is never larger than the mean error of the trees. For a classification forest the same holds for the Brier score of the predicted probabilities. It does not hold for the number of right labels: a fitted forest can be right on fewer points than every one of its trees.", "quantifier": "for all training data, parameters and seeds, all test sets, after any earlier predictions", "why_tests_cant": "This is the reason to use a forest; tests compare scores on a few data sets.", "anchors": ["data_structures/forest_base.py::ForestBase.predict", "data_structures/forest_base.py::ForestBase.fit", "data_structures/tree_base.py::TreeBase.predict"]}
{"id": "C144", "title": "The Gini criterion works in floating-point arithmetic", "statement": "With every operation rounded as in double precision, the exact solver with the Gini criterion reports a split only if it lowers the weighted Gini index, and the split it reports is a best one.", "quantifier": "for all training labels and feature values, all numbers of classes, rows and candidates, every order in which sums are taken and every rule for ties", "why_tests_cant": "A test compares a few results with a tolerance; it does not show which data sets make rounding errors change the decision.", "anchors": ["utils/criteria.py::get_gini", "utils/criteria.py::get_impurity_reductions", "utils/solvers.py::solve_exactly"]}
{"id": "C145", "title": "Regression works in floating-point arithmetic", "statement": "With every operation rounded as in double precision, the exact solver for regression reports a split only if it lowers the weighted variance of the targets, in particular never for a node whose targets are all equal; the split it reports is a best one.", "quantifier": "for all targets and feature values, all numbers of rows and candidates, every order in which sums are taken and every rule for ties", "why_tests_cant": "A test compares a few results with a tolerance; it does not show which targets make rounding errors change the decision.", "anchors": ["utils/criteria.py::get_mse", "utils/criteria.py::get_impurity_reductions", "data_structures/histogram.py::Histogram.update_bins", "utils/solvers.py::solve_exactly"]}
{"id": "C146", "title": "The order of the columns matters only for ties", "statement": "Training an exactly solved tree, or a forest without sampling, on a table whose columns are in another order gives the same questions about the renamed columns and the same answers to points with their features in that order, provided that no two columns offer equally good splits where a question is asked. With ties the first question is still asked or not asked alike and lowers the impurity by the same amount, but answers may differ.", "quantifier": "for all tables, labels, permutations of the columns, seeds, numbers of trees and points", "why_tests_cant": "A test tries a few permutations of one table; whether a table has ties, and what follows from them, is not visible in it.", "anchors": ["data_structures/tree_base.py::TreeBase.fit", "data_structures/tree_base.py::TreeBase.predict", "data_structures/forest_base.py::ForestBase.fit", "data_structures/forest_base.py::ForestBase.predict", "utils/solvers.py::solve_exactly"]}
{"id": "C147", "title": "Answers are right in floating-point arithmetic", "statement": "With every operation rounded as in double precision, a tree answers the first most frequent class of its leaf with probabilities between 0 and 1, and the assertion that they sum to 1 never fails; a forest answers a class whose averaged probability is largest; regression answers lie in the range of the targets.", "quantifier": "for all leaves, numbers of trees, classes and targets, every order in which sums are taken and every rule for ties", "why_tests_cant": "A test compares a few answers with a tolerance; it does not show that no leaf makes the assertion fail or that no rounding changes a label.", "anchors": ["data_structures/tree_base.py::TreeBase.predict", "data_structures/forest_base.py::ForestBase.predict"]}
{"id": "C148", "title": "Preprocessing a table loses nothing", "statement": "preprocess_heart returns the columns of the table with the label last; the race becomes one column of zeros and ones for each value, features with an order become whole numbers in that order, and numbers are left as they are. Rows that differ before differ afterwards, and no row is lost.", "quantifier": "for all tables with at least one row, distinct column names and the label first, whatever the cells are", "why_tests_cant": "A test looks at one table; it does not show that no two different rows are merged, or that a column that is last or next to the label is handled.", "anchors": ["experiments/heart/preprocess_heart.py::preprocess_heart", "experiments/heart/preprocess_heart.py::swap_columns"]}
{"id": "C149", "title": "The direction of a feature matters only for ties and new points", "statement": "If a feature is measured in the opposite direction (temperature as cold instead of heat), an exactly solved model without binning asks about the same features, separates the training rows in the same way and gives them the same answers, unless two splits are equally good. Points between the values of training rows may be answered differently.", "quantifier": "for all training sets, all sets of features that change direction, all limits, seeds and numbers of trees", "why_tests_cant": "A test compares two fits on one data set; it does not show for which data sets the comparison operator or the order of thresholds decides.", "anchors": ["utils/solvers.py::solve_exactly", "data_structures/tree_base.py::TreeBase.fit", "data_structures/tree_base.py::TreeBase.predict", "data_structures/forest_base.py::ForestBase.fit"]}
{"id": "C150", "title": "A budget cuts a forest off; it does not change it", "statement": "If a forest is fitted twice with the same seed and the second budget is larger, or there is none, every tree of the first forest except its last is also the tree at that place in the second forest, and the last one too if some of the first budget is left. A single exactly solved tree whose budget or limit on leaves ends the fit early is the unlimited tree with some branches cut off. A larger budget need not give a tree that contains the tree of the smaller one. With the exact solver a larger budget never gives a larger impurity of the leaves, nor a larger squared error on the training rows; the number of right answers of a classification tree may fall.", "quantifier": "for all training sets, kinds of forests and solvers, settings, seeds and pairs of budgets", "why_tests_cant": "The effect of a budget depends on where in which tree it runs out; a test can only try some of these places.", "anchors": ["data_structures/forest_base.py::ForestBase.fit", "data_structures/tree_base.py::TreeBase.fit", "utils/solvers.py::solve_exactly", "utils/solvers.py::solve_mab"]}
{"id": "C151", "title": "The tables show the results of the experiments", "statement": "The reproduction script runs the experiments and prints tables of what they computed: every experiment has two lines, the exact solver's above ours, and each cell shows the mean of the quantity its column is called after, rounded to three digits, and its standard error over all the seeds.", "quantifier": "for all results of the experiments, numbers of seeds, contents of the disk before the script is run, and prefixes of files the experiments get to write", "why_tests_cant": "A table can only be compared with numbers one knows; which log a table is made from depends on what lies on the disk, and a test does not run experiments that take days.", "anchors": ["experiments/produce_tables.py::produce_table1", "experiments/produce_tables.py::produce_table5", "experiments/produce_tables.py::produce_table6", "experiments/produce_tables.py::write_runtime_data", "experiments/produce_tables.py::write_budget_data", "experiments/produce_tables.py::print_table", "experiments/produce_tables.py::ordinal_num", "repro_script.sh::cd ../experiments/sklearn_exps", "experiments/budget_exps/compare_budgets.py::compare_budgets", "experiments/runtime_exps/compare_runtimes.py::compare_runtimes"]}
{"id": "C152", "title": "The scaling experiment", "statement": "The scaling experiment records for every sample size the mean cost over all the trials, and the plot shows each of these once, in the order of the sizes. The line fitted to them is a best one, and the number printed as R-squared lies between 0 and 1, is 1 exactly if all the points lie on one line and does not depend on units, unless all costs are equal, when it is NaN. The costs of the classifier stay below a bound that does not depend on the sample size.", "quantifier": "for all data sets, sample sizes, numbers of trials, costs and random generators", "why_tests_cant": "The claim that the cost does not grow with the size is about all sizes; a plot shows a few.", "anchors": ["experiments/scaling_exps/investigate_scaling.py::main", "experiments/scaling_exps/make_scaling_plot.py::main", "experiments/runtime_exps/compare_runtimes.py::compare_runtimes"]}
{"id": "C153", "title": "Rows that are kept back are kept back", "statement": "Splitting data for the heart experiments, the housing data and the regression comparisons puts every row, with its own label, into at most one of the training, validation and test parts. The parts have the sizes asked for. Which rows are kept back depends on the number of rows, the ratio, the size of the subset and the seed (and, if the data is balanced first, on the labels), not on what is in the rows; so what is kept back has no influence on what is trained on. Balancing takes of every class as many rows as the rarest has, none twice.", "quantifier": "for all data sets, ratios, subset sizes, seeds and random generators", "why_tests_cant": "A leak between training and test rows gives better numbers, not an error; tests compare sizes of parts on one data set.", "anchors": ["experiments/heart/fit_heart.py::get_subset", "experiments/heart/fit_heart.py::split_data", "experiments/exp_utils.py::load_housing", "experiments/runtime_exps/compare_runtimes.py::main", "experiments/budget_exps/compare_budgets.py::main"]}
{"id": "C154", "title": "The heart experiment reports balanced accuracies of both algorithms", "statement": "The balanced accuracy gives every class the same weight and every point of a class the same: it lies between 0 and 1, is 1 exactly if all answers are right and 0 exactly if none is, gives a constant answer one over the number of classes, and is the share of right answers on balanced data. The heart experiment measures it for both algorithms, logs it, and the hyperparameters used are those of the first logged run with the best validation accuracy.", "quantifier": "for all labels, answers and logs", "why_tests_cant": "The identities are about all lists of labels and answers; the second algorithm of the experiment is not run by any test.", "anchors": ["experiments/heart/fit_heart.py::fit", "experiments/heart/compare_experiment.py::find_best_hyper", "experiments/heart/compare_experiment.py::experiment_single", "experiments/heart/compare_experiment.py::experiment_cf"]}
{"id": "C155", "title": "Boosting makes progress as long as one split can", "statement": "In a boosted regression forest without sampling and without a budget, with the exact solver, a threshold at every value, no demand on the decrease and limits that allow a first split, one more tree lowers the squared error on the training rows by at least the share lr(2-lr) of what any one split of the training rows would take away from the residuals of the trees before. So for a learning rate strictly between 0 and 2 the error stays the same only if the residuals have mean 0 and no split of any column at any threshold lowers their variance. If one column tells the n rows apart, every tree takes away at least the share lr(2-lr)/n^2 of the error, which falls geometrically towards 0.", "quantifier": "for all training data, targets, learning rates in [0, 2], numbers of trees, columns and thresholds", "why_tests_cant": "A rate of convergence for every data set and every number of trees is a quantitative statement no finite set of runs can establish.", "anchors": ["data_structures/forest_base.py::ForestBase.fit", "data_structures/forest_base.py::ForestBase.predict", "utils/boosting.py::get_next_targets", "data_structures/tree_base.py::TreeBase.fit"]}
{"id": "C156", "title": "What the log analysis prints belongs to the runs in the log", "statement": "The script that summarises the log of an experiment reads every round count into the row of its size, in the order of the log, whatever other lines there are. For every size with the expected number of counts it prints the mean and the standard deviation of exactly these counts, at the position of the size. It stops with an IndexError if a size has too many counts or there are counts for too many sizes. It warns if and only if counts are missing.", "quantifier": "for all logs: all sizes, numbers of rounds, other lines, and numbers of runs of each size", "why_tests_cant": "A wrong row or column shows only for particular lengths of the blocks of a log; the one log in the repository exercises a single shape.", "anchors": ["experiments/snappy_analysis/analyze_output.py::main", "utils/solvers.py::solve_mab"]}
{"id": "C157", "title": "On data no larger than a batch, MABSplit grows the same tree as the exact solver, up to ties", "statement": "A tree fitted with the MAB solver, LINEAR bins (at least six) and no budget on at most batch_size rows is a greedy tree: every node that the limits allow to split is split at a candidate that no other candidate beats, if that is worth it, whatever the seed. If at the questions of the exact solver's tree all equally good candidates separate the training rows into the same two groups, then both solvers put the training rows into the same leaves and answer alike for every training row.", "quantifier": "for all tables with at most batch_size rows, labels, limits, numbers of bins from six up, seeds, generators and contents of uninitialised memory", "why_tests_cant": "The repository's tests compare the two solvers on a few sets by accuracy; that no node of any tree ever gets a worse split than the best one needs every table, every seed and every order of the random draws.", "anchors": ["utils/solvers.py::solve_mab", "utils/solvers.py::solve_exactly", "data_structures/node.py::Node.calculate_best_split", "data_structures/tree_base.py::TreeBase.fit"]}
{"id": "C158", "title": "A tree knows nothing about rows it was not given; out-of-bag votes are honest", "statement": "Replacing the features and the target of any rows that a tree was not given (same number of rows and columns, no pre-binning of the table) leaves the fitted tree, its query count and all its answers unchanged, for every solver, bin type and budget. In a bagged forest with the exact solver, bins that are not RANDOM, no budget and no precomputed ranges, changing one row (the set of classes staying the same) changes neither which rows the trees draw nor the answers of the trees trained without it, so the out-of-bag vote on a row never depends on that row's own features and target. With RANDOM bins, or with precomputed ranges, it does.", "quantifier": "for all tables, labels, replaced rows, row samples, parameters, seeds, generators and contents of uninitialised memory", "why_tests_cant": "It compares two runs on tables that differ in arbitrary values; a leak through a shared generator, a range or an index appears only for particular pairs of tables.", "anchors": ["data_structures/tree_base.py::TreeBase.fit", "data_structures/node.py::Node.calculate_best_split", "data_structures/forest_base.py::ForestBase.fit", "data_structures/forest_base.py::ForestBase.get_oob_score"]}
{"id": "C159", "title": "The comparison with the other library compares like with like", "statement": "compare_accuracies gives the two models the same settings (task, trees, depth, limits, seed, bootstrapping, columns, boosting, learning rate, thresholds), trains both on the caller's targets, measures both against the caller's targets and leaves all arrays of the caller as they were; overlap says whether the intervals of one standard deviation around the average test scores meet; a second call in the same process finds the stored results reproduced and leaves the file. False for GBRFR: fitting our model overwrites the targets with its residuals, on which the other library is then trained and both are measured, and a second call does not reproduce the first. False for GBHRFR: the settings differ, and with more than two rows and targets that are not all equal it always raises an exception.", "quantifier": "for all data, targets, numbers of seeds, stored files, process states, generators and every deterministic other library that leaves its arguments alone", "why_tests_cant": "It must hold whatever the other library answers and whatever happened in the process before; a target array changed on the way shows only as plausible scores.", "anchors": ["experiments/sklearn_exps/compare_baseline_implementations.py::compare_accuracies"]}
{"id": "C160", "title": "How large a tree can get", "statement": "A fitted tree with n leaves has exactly 2n - 1 nodes, n - 1 of them splits. It has at most as many leaves as there are different datapoints among its training rows (rows drawn again and equal rows add none), and at most 2^d if its depth, or max_depth, is d; its depth is smaller than the number of leaves. So with the exact solver, or MABSplit without replacement, fit costs even without a depth limit at most one query for each row, column and different datapoint. If all training rows have the same label the tree is a single leaf, costs no query and answers the label for every datapoint, with certainty. No tree of a forest has more leaves than the training table has different rows, or than 2^max_depth.", "quantifier": "for all training sets, parameters, solvers, seeds and process states; for forests also for boosting and repeated calls of fit", "why_tests_cant": "The bounds must hold for every training set; an unbounded or degenerate tree appears only on particular data.", "anchors": ["data_structures/tree_base.py::TreeBase.fit", "data_structures/node.py::Node.split"]}
{"id": "C161", "title": "What exact training costs", "statement": "With the exact solver, all columns in every node, no budget and fewer leaves than max_leaf_nodes allows, the number of queries of a fitted tree is exactly what growing the textbook greedy tree costs: every node that the depth, size and purity limits allow to split is searched once, at one query for each of its rows and each feature with a threshold there (unbinned: each column); also if no split is made in the end; no other node costs anything. So the number does not depend on seeds, generators or the order in which nodes are split; repeating every row k times, as make_huge does, multiplies it by k (if min_samples_split is adapted); and a forest without sampling costs its number of trees times as much.", "quantifier": "for all training sets, thresholds unbinned or linear, criteria, limits, seeds and process states; for copies in any order", "why_tests_cant": "Query counts are the quantity the paper compares; a test sees the count on one data set and cannot tell that no work is counted twice or missed.", "anchors": ["utils/solvers.py::solve_exactly", "data_structures/tree_base.py::TreeBase.fit", "data_structures/node.py::Node.calculate_best_split"]}
{"id": "C162", "title": "When MABSplit is cheaper; what the first exploration reports", "statement": "For classification over LINEAR bins with max_depth d: as soon as the exact search of the root costs more than (2^d - 1) \u00b7 columns \u00b7 batch_size queries, a MABSplit tree costs fewer queries than the exact tree of the same data and settings, whatever it samples; a forest that samples neither rows nor columns likewise. The script initial_exploration.py reports, for each of its four trees, the shares of training and test points that this tree answers with their label, and its queries. On the training points no constant answer beats a reported tree. The training accuracies printed for the 16-fold data are the shares of the original points. If the training labels are mixed, no column is constant and 16 copies of the training points are more than three batches, MABSplit is cheaper on the 16-fold data, as the script's comment says.", "quantifier": "for all data, labels, depth limits, batch sizes, seeds, sampled rows, process states and memory contents", "why_tests_cant": "The comment of the script (\"MAB should now be faster\") is about every data set that is large enough; a run shows one.", "anchors": ["experiments/initial_exploration.py::ours_ng_perf", "experiments/initial_exploration.py::main", "experiments/exp_utils.py::make_huge", "data_structures/tree_base.py::TreeBase.fit"]}
{"id": "C163", "title": "Labels that one question tells apart", "statement": "If one question that can be asked at the root (feature at most threshold) has one label on each side, then a tree of the exact solver, or of MABSplit on data no larger than a batch, asks exactly one question; this question has one label on each side too, and every training row is answered with its own label. With a threshold at every value any real threshold counts as a question that can be asked; with B evenly spaced thresholds it is enough that the gap between the two groups is at least 1/(B-1) of the range. So the toy data of create_data is split \"by the first feature at 0.5\", as its documentation says, provided no normal draw is as large as 2.5 standard deviations: the tree answers every row right, and a question about the first feature separates the rows as 0.5 does.", "quantifier": "for all training sets, classification (Gini) and regression, all draws of the generators, seeds and process states; the limits must allow a split that removes all impurity", "why_tests_cant": "A test sees one toy data set; that no other question can be preferred to a perfect one holds for every data set or not at all.", "anchors": ["utils/data_generator.py::create_data", "utils/solvers.py::solve_exactly", "utils/solvers.py::solve_mab", "data_structures/tree_base.py::TreeBase.fit"]}
{"id": "C164", "title": "Stored profiles belong to the runs they are named after", "statement": "profile_rf.py stores, for each combination of algorithm, number of trees, data set and seed that it accepts, the profile of the last run with exactly this combination: different combinations have different file names, a run that fails leaves all stored profiles alone, a run that succeeds changes one file. True for the other library. False for the forests of this repository, the default: every such run raises a NameError before anything is stored.", "quantifier": "for all sequences of runs, numbers of trees and seeds of any size and sign, all outcomes of the other library, all previous contents of the folder", "why_tests_cant": "Names for numbers of any length and histories of any length cannot be tried out.", "anchors": ["utils/profile_rf.py::main", "utils/profile_rf.py::fit_forest", "utils/profile_rf.py::get_filename", "utils/profile_rf.py::parse_args"]}
{"id": "C165", "title": "How the trees of a forest vote", "statement": "A label that every tree of a classification forest answers is the answer of the forest. If more than half of the trees are sure of a label (give it probability 1), the forest answers it. Asking for more trees does not change an answer that the further trees agree with. The probability of a class lies between the smallest and the largest one that the trees give it. Without boosting, the order of the trees does not matter, and exchanging one of n trees moves the answer by one n-th of the difference of the two trees. (Labels are not counted by heads: two of three trees can say 1 and the forest 0; with boosting the order matters.)", "quantifier": "for all data, configurations, numbers of trees, generators and seeds, all points, all orders of the trees", "why_tests_cant": "The answer is a maximum of averages over any number of trees and classes; examples show single votes only.", "anchors": ["data_structures/forest_base.py::ForestBase.predict", "data_structures/tree_base.py::TreeBase.predict"]}
{"id": "C166", "title": "Answers are right on average on the training rows", "statement": "On the rows it was trained on, the answers of a regression tree have the same mean as the targets, and the probabilities a classification tree gives a class have the share of that class as their mean; also in every leaf, and for all weights that treat the rows of a leaf alike. So the share of the variance that a tree explains lies between 0 and 1. Forests whose trees get all rows have this too on the table, with and without boosting, for any learning rate and after every tree; without boosting their squared error is at most that of any constant answer. (Forests with bootstrap samples do not, and the labels that are answered do not: both shown by examples.)", "quantifier": "for all data, configurations, solvers, generators and seeds, all numbers of trees, all learning rates, all weights", "why_tests_cant": "Sums over any number of rows, leaves and trees; boosting changes the targets after every tree.", "anchors": ["data_structures/forest_base.py::ForestBase.fit", "data_structures/forest_base.py::ForestBase.predict", "data_structures/tree_base.py::TreeBase.fit", "data_structures/tree_base.py::TreeBase.predict", "data_structures/node.py::Node.calculate_best_split"]}
{"id": "C167", "title": "Logged results are read back under their own names", "statement": "The experiments append each result as a row to a csv log, which they start with the names of the first result. Reading the log gives all results, each value under its own name, for any number of results and whatever characters the names and values contain (commas, quotes, line ends). True if all results in a log have the same names in the same order. False in general, as the header of an existing log is not looked at: sweeps whose online tracking adds its own entries (as in the log in the repository) and sweeps where it does not share one log, and the parameters used afterwards are then read from the wrong columns; the two stability tests can be given the same file. An interruption while a result is written leaves all earlier results readable, with at most one damaged row after them; but the next result is then put on the line of the damaged row, and after an interruption before the names were written the next result is taken for the names.", "quantifier": "for all sequences of results, all names and values, all texts, all points of interruption", "why_tests_cant": "Every combination of special characters and every history of runs with one log would have to be tried.", "anchors": ["experiments/heart/fit_heart.py::append_dict_as_row", "experiments/heart/fit_heart.py::fit", "experiments/feature_stability/feature_importance_tests.py::test_stability_with_budget", "experiments/feature_stability/feature_importance_tests.py::run_stability_stats_test", "experiments/heart/compare_experiment.py::find_best_hyper"]}
{"id": "C168", "title": "Every training keeps its own profile and results", "statement": "The runtime comparison writes a profile of every training and its results to files. After a comparison over any number of seeds the profile of every training, ours and theirs, can be read under its own name, and in the scaling experiment the results of every trial can; no two of them share a file. True of the names, of a comparison, and of the results of the scaling experiment. False for the profiles of the scaling experiment: the name has the seed of the comparison, always 0, and a fixed size, so that all trials of all sizes write one file and only the profile of the last is left.", "quantifier": "for all names of models, sizes, seeds, numbers of seeds and trials, all earlier contents of the disk", "why_tests_cant": "Two names coincide only for particular models, sizes and seeds, and what is lost depends on all later writes.", "anchors": ["experiments/runtime_exps/compare_runtimes.py::time_measured_fit", "experiments/runtime_exps/compare_runtimes.py::compare_runtimes", "experiments/scaling_exps/investigate_scaling.py::main"]}
{"id": "C169", "title": "Announced reproductions of the stability table", "statement": "The stability experiment announces a line of its table as reproduced exactly if the runs of this and all earlier lines ended, the four ends of their confidence intervals are within the tolerance of the log, and the intervals do not overlap. It announces a line as produced exactly if the runs up to it ended and their intervals are not known to overlap; every announced line is in its file. It should also hold that the files show announced lines only, and that an announced line has intervals that do not overlap. False: the line that fails is written before it is rejected, the files of later lines stay from earlier runs, and a line whose stability is NaN is announced as produced.", "quantifier": "for all results of the runs, all logs, tolerances, names of files and earlier contents of the disk, all points at which a run fails", "why_tests_cant": "What is left on the disk depends on which run fails and on every earlier run of the program.", "anchors": ["experiments/feature_stability/feature_importance_tests.py::reproduce_stability", "experiments/feature_stability/feature_importance_tests.py::produce_test", "experiments/feature_stability/feature_importance_tests.py::produce_stability", "experiments/feature_stability/feature_importance_tests.py::run_stability_stats_test"]}
