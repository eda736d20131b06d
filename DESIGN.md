# A machine-checked model of FastForest

`/repo` (python, read only, never run here) is modelled function by function in Lean 4 under `lean/Verif/Model`.
Specifications that do not mention the model's helpers are in `lean/Verif/Spec`, helper lemmas in `lean/Verif/Proofs`
and the property theorems, each beside a concrete non-vacuity example, in `lean/Verif/Props`.

## Trusted base

* Lean 4.33.0's kernel and Mathlib's definitions. Every property theorem depends on at most `propext`,
  `Classical.choice` and `Quot.sound`. No axioms of our own, no `sorry`, no `native_decide`, no `bv_decide`.
* The reading of the python source that produced the model (each definition cites file and lines).
* The reading of the numpy / python primitives listed below.
* The specifications in `Verif/Spec`.

## How the code is modelled

* **Numbers.** Floats are an arbitrary linearly ordered field `K` with a floor function (theorems hold for ℚ and ℝ
  at once), i.e. exact arithmetic, extended by `nan`, `inf`, `-inf` with IEEE comparison and arithmetic rules (`XF K`)
  where the code can produce them: impurities, variances, estimates, confidence bounds. **Rounding is modelled
  only for the LINEAR bins** (C113, the code's own TODO at `histogram.py:79`; `Model/Rounding.lean` rounds every operation of
  the lookup to nearest) **and for the reductions of the exact solver** (Gini: C144, `Model/RoundGini.lean`; squared error: C145, `Model/RoundMse.lean`) **and for answers** (C147, `Model/RoundAnswers.lean`). Everywhere else arithmetic is exact. Not modelled are
  overflow, underflow, signed zeros (a zero divisor counts as +0; in every place where the code can divide by zero the numerator is
  0 or the sign does not matter because the result goes through `nan_to_num`) or integer wrap-around.
* **`np.sqrt`, `np.log`** are parameters of the model (class `NpFun`) with the laws `sqrt 0 = 0` and `0 ≤ sqrt x`.
* **Exceptions** are values (`Except Err`). The state after an exception is not observed, except in C129 (a forest whose `fit` is left by
  an exception at any statement), C130 (a tree) and C132 (a call of `predict`).
* **Threads.** Every call runs alone, except in C131, C132 and C137-C139: there calls of `predict` by any number of threads are interleaved, one read or
  write of an attribute of a leaf per step (`Model/Threads.lean`). Threads that call `fit` interleave single leaves, splits, draws of
  seeds and constructors (`Model/FitThreads.lean`).
* **Loops** are folds or structural recursion; `while` loops take fuel, and the termination theorems show the fuel never
  runs out (`Err.outOfFuel` is never produced).
* **Randomness.** A generator is a record of functions (`Rng`) with the promises of numpy's documentation as fields
  (lengths, ranges, no repeats). Theorems quantify over all such generators. The tree's own generator, the process-wide
  `np.random` and python's `random` are separate states, threaded explicitly. Probabilities appear only in C114–C116, C134 and C135: there a
  random sample is an outcome of a finite set of equally likely shuffles or sequences of draws (`Spec/Sampling.lean`).
* **Uninitialised memory** (`np.empty` in `solve_mab` / `solve_exactly`) is an arbitrary oracle (`Junk`).
* **Objects.** Nodes live in a per-tree heap and refer to each other by position; label arrays live in a process heap so
  that aliasing (`org_targets`, `new_targets`, the caller's array) is visible.
* **Data** are lists of rows of finite numbers. NaN and infinite *inputs* are modelled for `predict` (C127) and, NaN only, for
  the fit of one tree with IDENTITY bins (C128); elsewhere they are not. Class labels are numbers.
* **Wrapper forests** (`wrappers/`) are the forest model with the parameters each wrapper passes on (`Model/Wrappers.lean`).
* `VECTORIZE` is `False` in the repository; the vectorised branches are modelled only for C77 and C92.
* `get_subset_2d` is numba-compiled without bounds checks; the model raises IndexError instead.

Of `experiments/`, the comparisons of two solvers, the stability test, the bias-variance analysis and the verdicts are modelled (`Model/Compare.lean`,
C123–C126), without printing, files, profiles and clock times; so are the preprocessing of the heart data (`Model/Heart.lean`, C148) and the
tables of the paper with the script that makes them (`Model/Tables.lean`, C151), the scaling experiment (`Model/Scaling.lean`, C152), the splits of
the data and the balanced accuracy (`Model/Holdout.lean`, C153, C154), the analysis of a log (`Model/LogRead.lean`, C156), the comparison with scikit-learn, the
other library being an arbitrary function (`Model/Baseline.lean`, C159), our half of the first exploration (`Model/Explore.lean`, C162), the csv logs character by character
(`Model/CsvLog.lean`, C167), the names of the files of the runtime and scaling experiments (`Model/RunFiles.lean`, C168; their contents are arbitrary) and the
announcements of the stability experiment (`Model/Reproduce.lean`, C169; the results of its runs are arbitrary).

Not modelled: the characters of printed text (the lines are), timing, the other scripts in `experiments/`, `tests/`, the generators behind the toy data (`Model/Toy.lean`, C163: the draws are arguments), scikit-learn
itself, memory use, the python type of numbers (int/float) except where said (the
integer target array of C121, `astype(np.int32)` of the class labels).

## Defects found while modelling

Each is proved as a negation with a concrete witness or as a universal characterisation, beside the positive part.

1. `welford_variance_calc` returns the other variance when one variance is 0, even if the means differ (C04).
2. `get_entropy` uses `log_p[-1]` (last row) for the last column and raises for three or more classes (C09).
3. Gini/entropy variance is NaN for one-sided edges; `ucbs.min()` is then NaN, all candidates are dropped and MABSplit stops
   after a single round with LINEAR bins (C24).
4. With at most five arms MABSplit never samples and its answer is read from uninitialised memory (C23).
5. With LINEAR bins and only constant features both solvers raise (C27).
6. `tree.fit(data, labels)` keeps the root built in the constructor (C45); a second `fit` appends the root again.
7. Boosting writes residuals into the caller's label array (C54), and so the "original" targets are lost.
8. `get_oob_score` compares labels with class indices and, for regression, divides twice by the counts (C56).
9. `recursive_mdi_helper` counts reductions of leaves that were evaluated but never split (C57); the importances are cached
   across refits (C58).
10. `reset(budget)` sets an attribute nobody reads (C59); refitting accumulates `num_queries` (C50).
11. `criterion` and `splitter` are never passed to the trees (C60).
12. The global generators are reseeded in constructors, so interleaving other work changes a forest (C61).
13. Wrappers default to `max_depth=None`, which raises TypeError in `fit` (C64); RandomPatches wrappers predict on the wrong
    columns of a full-width datapoint (C65).
14. Jaccard stability of identical rankings is (L-1)/L (C67).
15. `data_to_discrete` ignores `n` (C73) and stores sets, which `discrete_bin` cannot subscript (C74).
16. `TOLERANCE = -0.1` makes `verify_reduction` true for every two-sided split (C76).
17. A LINEAR histogram with exactly one bin puts every value into that bin's left pile, whatever the edge (C01, restricted to
    two or more bins; `C01_one_linear_bin` describes the other case).
18. An arm whose interval is a single point eliminates itself (`lcb < min ucb` is then false), even if it is the best (C25,
    restricted to intervals of positive width).
19. `make_histograms` overwrites its local `num_bins` for a discrete feature, so later LINEAR features get that number of bins (C79).
20. The vectorised `add` counts an unknown label that is below the largest class as the first class (C77); an empty batch raises only
    in the scalar branch.
21. `rankdata` gives the *least* important feature rank 1, and the pairwise measures compare prefixes of the rank vectors in the order of
    the feature numbers (Spearman skips feature 0), so the stability depends on the numbering of the features (C82). The Kuncheva
    measure of identical rankings is negative (C67).
22. The permutation importance subtracts an accuracy from a *number* of correct predictions (C84).
23. `get_importance_array` trains `num_forests` more forests on every call, so a second call returns twice as many rows (C71).
24. With boosting and bootstrapping only the sampled rows get new targets, so equal rows with equal labels get different targets, and a
    forest with LINEAR bins then raises IndexError although the training set is consistent (C85).
25. The boosted classifier wrappers pass `boosting` and `boosting_lr` to `ForestClassifier.__init__`, which has no such parameters: their
    constructors always raise. The boosted extremely-random forests default to `num_bins=None`, with which `fit` raises (C64).
26. The vectorised reductions return a tuple even with `ret_vars=False`, and for the entropy they use the logarithms of the last requested bin
    in the variances of all bins (C92).
27. Boosting with bootstrapping (or row subsampling) updates the targets of the sampled rows only, although the new tree also answers for the
    others: the error on the training rows can grow with every tree (`C94_refuted_bootstrap`).
28. The boosting step for classification adds its smoothing constant to the square and not to the prediction, and then cancels the targets:
    the new targets depend on the predictions alone (C109). `find_gradient` creates a NotImplementedError and does not raise it.
29. In double precision the LINEAR lookup can count a value equal to an edge as larger, and the maximum as larger than the last edge; the exact
    solver can then choose a threshold that all rows satisfy, and `Node.split` raises (C113).
30. `get_gini` adds the variances of the frequencies of all classes but the last and leaves out their correlations: for three or more classes
    the reported variance depends on the numbering of the classes and can be smaller than the true one (C116).
31. `get_mse` with a population size reports the variance of the sample variance, not of the estimate, which is scaled by `(N-1)/N`: the
    report is too large by the factor `N²/(N-1)²` (C114).
32. `Node.__init__` renumbers the dictionary of discrete values for the columns the node looks at (node.py:55-58) and then overwrites the result
    with the dictionary of the whole tree (line 75): with a subset of the columns, a column is binned by the values listed for another one (C119).
33. Boosting writes the residuals into the caller's array; if that array holds integers numpy truncates them, and once all residuals are below
    1 every later tree answers 0 (C121).
34. `predict` of a classification tree hands out the array of class probabilities it keeps in the leaf (tree_base.py:358, 368): a caller who
    changes the answer in place changes the later answers for all points of that leaf, though not the class label (C122).
35. `compare_budgets` and `compare_runtimes` build both models before fitting either. A boosted first model overwrites the caller's targets; the
    second is fitted to what is left, and both are scored against that: the "training error" of a boosted forest is the mean of
    `(2 F(x) - y)²` (C123). The second extremely random forest continues the random numbers of the first, so the same seed gives another model (C123).
36. Both functions raise NameError when the second model is run without test scores (compare_budgets.py:575; C123).
37. With one round (the default) or constant results the reported `overlap` is always False; the heart experiment reports an overlap only when
    the intervals are far apart; the stability test reports an overlap when the exact solver is clearly more stable (C124).
38. The stability test gives `max_leaf_nodes` to the exact object only (feature_importance_tests.py:225-239; C125).
39. The noise and the bias of `bias_variance_analysis` are computed against one noisy target per point, so that the parts do not add up to the
    error; a budget is not given back between the trials (C126).
40. A training row with NaN in the column of a split goes to neither child (node.py:216-221): it is in no leaf, although it was counted when the
    split was chosen; if the split separates just the NaN values, `fit` raises. `predict` sends NaN to the right (C128).
41. A tree is appended to the forest (forest_base.py:290) before its queries are counted and charged (324-326): an exception in between leaves
    a tree that was not paid for (C129).
42. A node gets its left child before the right one is made (node.py:230-231), and `predict` goes by the left child alone (tree_base.py:349-353): an exception
    in between leaves a tree that raises an `AttributeError` for some of its training rows; and `fit()` puts the root among the leaves again
    (tree_base.py:226), so a tree whose fit was interrupted cannot be fitted again (C130).
43. `predict` of a classification tree writes the probabilities of a leaf before its label and takes the probabilities as the sign that both
    are there (tree_base.py:357-364): another thread in between gets the label `None`, and after an interruption in between every later call
    for that leaf does (C132). Forests use only the probabilities and are not affected (C131).
44. The variance of an empty side is `0/0` (criteria.py:36), and 0² times NaN is NaN (242): with LINEAR bins the largest threshold of a feature
    has an empty right side, so `ucbs.min()` is NaN after the first batch and no arm stays a candidate (solvers.py:384 and the line after the
    sampling). For classification `solve_mab` therefore decides every node from one batch, the error probability and the budget play no
    part (C133), and a label that is rare in the node is overlooked with high probability (C135).
45. Reductions are compared with 0 without a tolerance (solvers.py:257): in double precision the exact solver splits on a feature that says nothing
    about the label (C144) and splits nodes whose targets are all equal, such as three times 0.1 (C145). A forest can answer a class whose true average is not the largest, and a leaf a value outside the range of its targets (C147).
46. `preprocess_heart` compares a cell with the type `float` (preprocess_heart.py:38), so columns of numbers are replaced by ranks, and answers such as "Fair" and
    "Good" are numbered by the alphabet (C148).
47. The loop of `fit` stops looking at leaves when the budget is spent, also at leaves whose split is already known (tree_base.py:261): a tree whose
    budget is exactly the number of queries of the unlimited fit pays for all searches and leaves the last split undone (C150).
48. `compare_runtimes` and `compare_budgets` write into `logs/`, the stability test into its own directory; `produce_tables.py` reads other directories, so
   `repro_script.sh` never shows a new result, and on the repository it prints no table at all. Its `cd ../experiments/sklearn_exps` fails (C151).
49. Table 6 shows training scores under "Test Performance", with standard deviations where the other tables have standard errors; Table 4 is titled
   "Classification" (C151).
50. `Forest` is imported neither in `heart/fit_heart.py` nor in `heart/compare_experiment.py`: the heart experiment raises NameError as soon as it comes to
   our forest (C154).
51. `Forest` is not defined in `utils/profile_rf.py` either: profiling FASTFOREST, the default, raises NameError and stores nothing (C164).
52. `snappy_analysis/analyze_output.py` warns about missing runs by looking at the last cell of its table: a complete log of fewer sizes raises a false alarm, a
   short earlier size raises none and is averaged as if the missing runs had taken 0 rounds (C156).
53. `compare_baseline_implementations.py`: after our boosted forest was trained, the labels are our residuals, and the other library is trained and both are
   measured on them; GBHRFR raises always, and the settings of its two models differ (C159).
54. The seeds of the trees, the samples of MABSplit and RANDOM bins come from process-wide generators that other threads use and reseed (C139).
55. `append_dict_as_row` writes the values in the order of the result's own names and never looks at the header of the log (fit_heart.py:118-120): results with
   other names, such as sweeps with and without tracking, land in the wrong columns, and `find_best_hyper` reads its parameters there (C167).
   After an interrupted write the next result is put on the line of the damaged row, or taken for the names if the log was still empty (C167).
56. `time_measured_fit` names a profile by model, side and seed, with a fixed `5k` for the size: all trials of the scaling experiment write the same file
   (compare_runtimes.py:91; C168).
57. `run_stability_stats_test` writes its file before it rejects overlapping intervals, and NaN intervals are not rejected (feature_importance_tests.py:255,
   294-298): the table can show a rejected line, and later lines of an earlier run (C169).

## Plan per property

For every property the theorem(s) live in `Verif/Props`; "neg" marks a proved refutation of the stated property, with the part
that does hold proved as `_partial`.

| id | modelled by | proof idea |
|----|-------------|------------|
| C01 | `Hist.add`, `getBin` | invariant over the list of `add` calls: tables = counts of the samples with value ≤ / > edge |
| C02 | same | corollary of C01: counting is invariant under permutation and concatenation |
| C03 | `updateBins` | invariant: n·mean = sum of the inserted targets |
| C04 | `welford` | neg (two batches with zero variance and different means); partial: a single batch, or all batch variances nonzero; exact criterion for one more `add` (`Mergeable`) |
| C05 | `getBin` LINEAR | ⌈x⌉ ≤ b ↔ x ≤ b, clipping cases |
| C06 | `getGini` | algebra on sums of squares, Cauchy–Schwarz for the upper bound |
| C07 | `clsReductions` | C01 + algebra; convexity (Σ (a+b)²/(n+m) ≤ Σ a²/n + Σ b²/m) |
| C08 | `regReductions`, `mseEst` | full population makes the corrections cancel; variance decomposition |
| C09 | `getEntropy` | neg for every number of classes ≥ 3; partial for ≤ 2 classes |
| C10 | `impurityReductions` | the empty side has weight 0, the other side equals the node |
| C11 | `mseVar` | sign analysis of 3c₁+c₃; the `nan_to_num` cases |
| C12 | `mabSamplePart` | sqrt ≥ 0; variance 0 at n = N |
| C13–C16 | `solveExactly` | characterisation of the estimate matrix, `nanmin`, first match; C01/C07/C08 for the values |
| C14 | IDENTITY bins | every real threshold induces the partition of some bin edge, or a one-sided one |
| C17 | `groupArms`, `sampleLoop` | grouping a feature-sorted arm list and concatenating is the identity |
| C18 | `mabLoop` | measure: remaining population / sample counts of non-exact arms |
| C19 | `mabLoop` | each round costs (#features of candidates)·(batch drawn); batches partition the population |
| C20 | `mabLoop` | total before the last step is below the budget |
| C21 | `mabLoop` with batch ≥ n | first round equals the exact computation |
| C22 | `solveMab` | C10 + invariant "histogram = some multiset of node rows" |
| C23 | `solveMab` | neg with ≤ 5 arms; partial: with > 5 candidate arms the result does not depend on the junk |
| C24 | `mabStep` | neg: universal theorem that Gini with LINEAR bins stops after one round |
| C25 | elimination filter | order reasoning |
| C26 | `drawSamples` | invariant: drawn ++ remaining is a permutation of the population |
| C27 | solvers | neg (constant features, LINEAR); partial: IDENTITY/EXACT never raises |
| C28 | `fitLoop` | leaves are non-empty and disjoint: #leaves ≤ #rows |
| C29–C33, C46, C47 | `fitLoop` | one tree invariant, proved once for every step |
| C34, C39, C40 | `scanLeaves`, `fitStep` | properties of the scan |
| C35–C38 | `walk`, `Tree.predict` | descent invariant, cache invariant |
| C41, C42 | `scanLeaf` | accounting invariant |
| C43 | `fitLoop` EXACT | telescoping with C13 and C47 |
| C44 | whole fit | progress: no branch of the model returns an error |
| C45 | `Tree.fit` | neg by witness; partial: passing the same data |
| C48–C50 | `forestLoop` | loop invariants; neg for the refit clause |
| C51, C52 | `Forest.predict` | averages |
| C53, C54 | `boostStep` | loop invariant on the target array (for row subsets: `Props/Sampled.lean`); neg witness |
| C55 | `getOutOfBag` | direct |
| C56 | `Forest.oobScore` | neg witness; partial for classes 0..k-1 / each row out of bag once |
| C57, C58 | `calculateMdi` | neg witness; partial: sums of recorded reductions over visited nodes |
| C59, C60, C61, C62 | `Forest.reset`, `treeCfg`, `Forest.init`, `subsets` | direct / neg |
| C63 | `predictBatch` | from C38 |
| C64, C65 | `Wrapper.init`, `WrapObj.fit`, `WrapObj.predict` | neg, universally (no depth; prefix of the columns); partial: with a depth, from C85; trained columns first, from C83 |
| C66–C70 | permutation importance | set cardinalities, sums of squares, symmetric functions |
| C71 | `importanceVec`, `importanceArray` | invariant over reachable PermutationImportance objects, with C57 |
| C72, C73, C75, C78 | utils | direct |
| C74 | `makeHistograms`, `Forest.fit` | neg, universally: a solved root contradicts the TypeError of `discrete_bin` on a set; partial: other bin types, from C85 |
| C76 | `verifyReduction` | universal characterisation + neg witness |
| C77 | vectorised add | both equal the counts of C01 |
| C79 | `makeHistLoop` without a bin type | loop invariant on the carried bin count; neg: a discrete feature before a LINEAR one changes its number of bins, to exactly its own (`Props/AutoBins.lean`) |
| C80 | `Node.init`, `calcBestSplit` | node invariant, choice without replacement |
| C81 | whole fit, binned solvers | progress, using that a node with two different labels has a feature that varies |
| C82 | stability measures | partial: the frequency measure is a function of the selected sets; neg witness for the pairwise ones |
| C83 | `walk`, `Tree.predict`, `Forest.predict`, `oobLoop` | induction on the walk and on the loops |
| C84 | `importanceVec` | partial: from C83; neg witness |
| C85 | `Forest.init`, `Forest.fit` | every pass succeeds: from C44/C81 for the trees, generalised to precomputed minima/maxima |
| C86 | `Wrapper.init` of the patches wrappers | draws without replacement; C54 for the labels |
| C87 | `fitStep`, `fitLoop`, `calcBestSplit` | every step of the growing relation keeps searched nodes; induction over the loop |
| C88 | `Forest.fit`, `treeCfg`, `fitLoop` | every tree of a forest is a fitted tree with the limits of the forest; C37–C40 |
| C89 | `nodeMinmax`, `makeHistograms`, `solveExactly`, `solveMab`, `colMinMax` | a returned threshold is an edge of a histogram built from the rows of the node; adaptive search never changes edges. Automatic choice by C79 (`Props/AutoBins.lean`); DISCRETE is left to C74 and C119 |
| C90 | `nodeBins`, `nodeEpsilon`, `calcBestSplit` | invariant of a searched node |
| C91 | `pairwiseStability`, `denseRank`, `stabilityPairwise` | ranks without ties are a permutation of 1..n, so their sums are known; the sums of squares of `a-b` and `a+b` give the bounds |
| C92 | `getReductions`, `getReductionsVec` | inversion of the loop, row totals are the same for all bins; neg: variances of the entropy, `ret_vars=False` |
| C93 | `Tree.fit`, `Tree.predict` | leaves partition the rows (C29), answers are leaf means / most frequent classes (C35-C37), the mean is the best constant |
| C94 | `forestLoop`, `boostStep`, `Forest.predict` | induction over the passes: taking away a fraction in [0,2] of the leaf means does not increase the sum of squares; neg: bootstrapping, learning rate > 2 |
| C95 | `Tree.fit`, `forestLoop`, `solveExactly` | simulation of two runs: nodes with the same number hold the same multiset of samples, so histograms, reductions and choices agree |
| C96 | the same, `linearBin`, `identityBin`, `colMinMax` | the same simulation; edges of a mapped column are the mapped edges, comparisons commute with increasing maps; MABSplit: the states of the two searches agree round by round, on the same memory |
| C97 | the same, `boostStep`, `classToIdx` | the same simulation; impurities are invariant (classes) or scale with a² (targets); boosting: residuals scale with a; MABSplit: samples drawn in the two searches correspond, so do histograms and confidence bounds; neg: offset with boosting on random rows. That both runs of C95–C97, C103 and C104 return: `Props/RecodeTotal.lean`, from C44 and C85 |
| C98 | `importanceVec`, `permLoop`, `shuffleCol` | inversion of the loop; a shuffled order is a permutation of the rows |
| C99 | `Forest.fit`, `forestStep`, `spent` | inversion of the first pass |
| C100 | `Forest.fit`, `Forest.reset` | unfolding: every field that differs is overwritten before it is read |
| C101 | `Tree.fit`, `solveExactly`, `Tree.predict` | spec `Spec/Cart.lean`: recursive greedy tree, shown unique; the facts kept by the best-first loop (`GrowFacts`) give by induction on the node heap that the fitted tree reads as it |
| C102 | `Tree.fit` | induction on the greedy tree of C101 for the stronger limits |
| C103 | `Tree.fit` | the two loops run in step until the smaller limit is reached; afterwards `TreeKept` of the remaining rounds |
| C104 | `Forest.fit` | `fit` is a preamble, which does not read `n_estimators`, and a loop over `range n`; a longer range continues the shorter one |
| C105 | `solveMab`, `Tree.fit`, `Forest.fit` | the runs go in step: each place that consults the budget sees more than 0 left in both; counts of queries only grow |
| C106 | `Node.n_print`, `Tree.print` (as a list of lines: indentation depth and content, not characters) | specification of how a reader follows an outline (`Spec/Outline.lean`); induction on the height of the node, along with `predict` |
| C107 | `Forest.init`, `Forest.fit`, `Forest.predict` | C101 for each tree, whose arguments agree up to the seed; mean of equal answers (C51, C52) |
| C108 | `Model/Recursive.lean` (recursive_split, check_splittable) | simulation by the small steps of fit on the tree with another list of leaves; then C101's uniqueness of the textbook tree. `Proofs/Recursive.lean`, `Props/Recursive.lean` |
| C109 | `Model/Boosting.lean` (find_gradient, find_hessian, get_next_targets) | Mathlib's derivatives of the loss `smoothedCE`, cancellation in the field. Partial: the hessian and the dependence on the targets are refuted. `Spec/Boosting.lean`, `Props/Boosting.lean` |
| C110 | `Model/Wrappers.lean` against the table of name parts in `Spec/Wrappers.lean` | C48, C51–C53, C62, C80, C88, C89 for the forest that the constructor builds. `Props/Kinds.lean` |
| C111 | `Model/Importance.lean` | induction over the forests of a call and over the calls of an object (`PermRun`); C54 for the labels. `Spec/Experiment.lean`, `Props/Experiment.lean` |
| C112 | `Model/Solvers.lean` | invariant of the loop: exact arms hold the true value, classification estimates come from a list of rows; final choice minimises the last estimates. `Proofs/MabEst.lean`, `Props/Regret.lean` |
| C113 | `Model/Rounding.lean` | refuted (a value equal to an edge; the maximum beyond the last edge, which makes the best split one-sided); proved: monotone, minimum in the first bin, wrong side only within `2^-p (9 (hi - lo) + abs lo)` of an edge. `Spec/Rounding.lean`, `Proofs/Rounding.lean`, `Props/Rounding.lean` |
| C114 | `Model/Criteria.lean` | joint moments up to order four of draws with and without replacement at once, from the law of the next draw. `Spec/Sampling.lean`, `Proofs/Sampling.lean`, `Proofs/SamplingMse.lean`, `Props/Sampling.lean` |
| C115 | `Model/Criteria.lean` | variance of sample means from the law of the next draw. `Proofs/SamplingGini.lean`, `Props/SamplingGini.lean` |
| C116 | `Model/Criteria.lean` | variance of weighted sample frequencies; counterexample with three classes. `Proofs/SamplingGini.lean`, `Props/SamplingGini.lean` |
| C117 | `Model/Tree.lean`, `Model/Forest.lean`, `makeHuge` | a relation between the greedy tree problems of the two tables, closed under splitting; transferred by C101 and C107. `Spec/CartMore.lean`, `Proofs/CartMore.lean`, `Props/CartMore.lean`, `Props/Huge.lean` (`make_huge`) |
| C118 | `Model/Tree.lean`, `Model/Forest.lean` | every new candidate has the score of an old one or does not improve; ties go to the first candidate; transferred by C101 and C107. `Spec/CartMore.lean`, `Proofs/CartMore.lean`, `Props/CartMore.lean` |
| C119 | `Model/Node.lean`, `Model/Utils.lean` | refuted by a tree that may use column 1 only; it holds when all columns are used; in general the list is that of the position of the column in the node; the renumbering that is thrown away is right. `Spec/Listed.lean`, `Props/Listed.lean` |
| C120 | `walk`, `Tree.predict`, `Forest.predict` | induction from a node to its parent; the boxes of the leaves, the rows of a leaf as a filter. `Spec/Box.lean`, `Props/Box.lean` |
| C121 | `Forest.fitInt` (the loop with truncation of what is written) | neg: `C121_refuted`, and `C121_stuck` (once the first tree is within 1 of all targets the others answer 0). Part: same run when all contributions are whole numbers; `C121_drift`: the stored residual is off by less than the number of trees. `Model/IntTargets.lean`, `Props/IntTargets.lean` |
| C122 | `SharedTree`, `SharedForest` (arrays of class probabilities are positions in a heap) | `C122_forest`, `C122_forest_batch`, `C122_kept`, `C122_kept_tree`: heap invariant (arrays held by leaves are never among the caller's). neg: `C122_refuted`, `C122_overwritten` (a classification tree hands out its own array). Part: labels and regression values, and callers that only change the arrays of `predict_batch`. `Model/Answers.lean`, `Props/Answers.lean` |
| C123 | `cmpRound`, `cmpRounds`, `compareModels` (experiments on the forest model) | `C123_fair_partial`, `C123_ours`, `C123_reproducible`: a relation between two runs of `fit` on target arrays at different places (`Props/Frame.lean`). neg: `C123_refuted_targets` (boosted forests: the second model is fitted to, and both are measured against, what the first left of the targets), `C123_refuted_draws` (extremely random forests: the second model starts with the random numbers the first left), `C123_boosted` (what the reported error of a boosted forest is), `C123_no_test`. `Model/Compare.lean`, `Spec/Compare.lean`, `Props/Compare.lean` |
| C124 | `cmpOverlap`, `heartOverlap`, `stabOverlap`, `confInterval` | ordered-field arithmetic: two intervals meet iff the distance of the centres is at most (less than) the sum of the radii. `C124_overlap_partial` (positive spreads), `C124_symmetric`, `C124_stability_partial` (second mean not below the first). neg: `C124_refuted_constant`, `C124_one_round`, `C124_refuted_heart`, `C124_refuted_heart_equal`, `C124_refuted_stability`. `Props/Verdict.lean` |
| C125 | `stabOne`, `stabTrials`, `stabilityTest` | `C125_success`, `C125_reproducible`, `C125_same_settings_partial`: induction over the trials with the invariant that the caller's arrays are a prefix of the arrays; C111 for each object. neg: `C125_refuted_limits` (the second object is not given `max_leaf_nodes`), `C125_refuted_one_sided` (fails with "overlaps" when the exact solver is clearly more stable). `Spec/StabTest.lean`, `Props/StabTest.lean` |
| C126 | `bvTrials`, `biasVar`, `biasVarAll` | `C126_error`, `C126_decomposition_partial`, `C126_exact_iff`, `C126_nonneg`: sums of squares around the mean; `C126_trials`: induction over the trials with C63 and C54. neg: `C126_refuted` (the product of noise and bias is left out), `C126_refuted_budget` (a budget is not given back between the trials). `Spec/BiasVar.lean`, `Props/BiasVar.lean` |
| C127 | `Model/Missing.lean`: `leX`, `walkX`, `Tree.predictX`, `Forest.predictX` on floats with special values | `C127_tree`, `C127_forest`, `C127_finite`, `C127_total`: a comparison `v <= threshold` has the same outcome after the replacement; induction over the walk and over the trees. `Spec/Missing.lean`, `Props/Missing.lean` |
| C128 | `splitIdcsNaN` … `runTreeNaN`: the fit with a largest number in the place of NaN and the two comparisons of `Node.split` false for it | `C128_rows_partial`, `C128_leaf_or_lost_partial` (a row is in exactly one leaf, or it was tested for a missing value and is in none), `C128_answers_partial`, `C128_none_missing_partial` (the same run as `runTree` if nothing is missing): invariant `NInv` of the growing tree. neg: `C128_refuted` (a row in no leaf), `C128_refuted_fit` (the best split separates the missing values: `fit` raises AttributeError). `Proofs/Missing.lean`, `Props/MissingFit.lean` |
| C129 | `FitLeft`, `PassLeft`: the states of the forest and of the process between the statements of `fit` | `C129_trees_partial`, `C129_prefix_partial`, `C129_labels_partial` (without boosting), `C129_accounting_partial` (all trees but perhaps the last), `C129_refit_partial` (without a budget): `fit` is `prepare` and the loop, a pass is determined by the state it is entered with. neg: `C129_refuted_uncounted`, `C129_refuted`: the last tree is kept before its queries are counted and charged. `Model/Interrupt.lean`, `Props/Interrupt.lean` |
| C130 | `TreeLeft`, `TreeHalf`: the states of the tree between the statements of `fit` and of `Node.split` | `C130_answers_partial`, `C130_rows_partial`, `C130_pruned_partial` (no node has only one child), `C130_half_partial`, `C130_half_pruned_partial` (a node has only one child: every point that does not need the other one is answered): the trees left behind look like states of the loop, to which the invariants of `fit` apply. neg: `C130_refuted_half`, `C130_refuted`: `predict` raises for a training row; `C130_refuted_resume`: a second `fit()` raises. `Model/InterruptTree.lean`, `Props/InterruptTree.lean` |
| C131 | `Machine`: threads that read or write one attribute of a leaf per step, in the order of any schedule | `C131_forest`, `C131_ends`, `C131_regression_tree`: invariant of the machine (attributes are `None` or right, and stay so), a measure for the steps left; the forest uses only the probabilities. `Model/Threads.lean`, `Proofs/Threads.lean`, `Props/Threads.lean` |
| C132 | `Machine` as for C131 | `C132_tree_partial` (the probabilities are right, and the label is right or `None`), `C132_warm_partial` (the label is right if the point was asked before), `C132_ends_partial`. neg: `C132_refuted_always`, `C132_refuted`: the label is `None` when the probabilities of the leaf are there and its label is not yet. `Model/Threads.lean`, `Props/Threads.lean` |
| C133 | `solve_mab` and all it calls, as for C24 and C112 | `C133_one_batch` (any bins, if some candidate has no row above it), `C133_linear` (linear bins: the largest threshold is such a candidate): the variance of the idle candidate is NaN, so the minimum upper bound is NaN and no arm survives the first pass. `Spec/OneBatch.lean`, `Proofs/OneBatch.lean`, `Props/OneBatch.lean` |
| C134 | `solve_mab` as for C133; outcomes are the shuffles of the rows (or the sequences of rows), all equally likely | `C134_without`, `C134_with`, `C134_small`: C133, a Lipschitz bound for the change of the Gini index in terms of the shares of the labels on both sides, second moments of the shares, Chebyshev, union over the candidates. `Spec/Chance.lean`, `Proofs/GiniError.lean`, `Proofs/Chance.lean`, `Props/Chance.lean` |
| C135 | as for C134 | `C135_partial`: the probability that no split is returned is at most 128 * classes * candidates / (batch * eta^2) if the best candidate lowers the Gini index by more than eta. neg: `C135_rare`, `C135_refuted`: with one row of another label among n + 1, which the exact solver always separates, no split is returned with probability at least 1 - batch/(n + 1), whatever the error probability passed. `Props/Chance.lean` |
| C136 | the whole path from `ForestBase.fit` to `solve_mab`, as for C41, C49 and C133 | `C136_node` (C133 also for few candidates), `C136_tree` (with the accounting of C41), `C136_depth` (at most 2^k nodes at depth k, and nodes at depth d are not searched), `C136_leaves`, `C136_forest`; `C136_not_regression` shows that the bound fails for regression. `Spec/MabCost.lean`, `Props/MabCost.lean` |
| C137 | `fit` as a machine of single steps (one leaf, one split, one seed, one constructor) that threads interleave; shared are the process-wide generators and the label arrays (`Model/FitThreads.lean`) | a step of such a fit does not depend on the process-wide generators (`Proofs/FitQuiet.lean`), the steps one after the other are `fit` (`Proofs/FitResume.lean`), and a simulation between the thread and a program with one thread survives the steps of all threads (`Proofs/FitThreads.lean`, `Proofs/FitMachine.lean`): `C137_threads`, `C137_tree`, `C137_same_answers`; `C137_ends` by a measure. `Spec/FitThreads.lean`, `Props/FitThreads.lean` |
| C138 | as for C137 | an invariant of every phase of `fit` of every thread that does not mention the generators, from the growth invariants behind C29-C46; kept by the steps of all threads: `C138_sound`, `C138_tree`. `Spec/FitThreads.lean` (`SoundTree`, `SoundForest`), `Proofs/FitSound.lean`, `Props/FitSound.lean` |
| C139 | as for C137 | holds for exact forests that look at all columns (`C139_exact_partial`, from C137); false for forests that draw columns for each node, for MABSplit, for RANDOM bins and for targets shared between boosted forests: `C139_refuted_forest`, `C139_refuted_bandit`, `C139_refuted_random_bins`, `C139_refuted_shared_targets` |
| C140 | trees as for C29; two runs | by C102 and C103 the leaves of the tree under weaker limits divide the leaves of the other tree, and by C93 each tree gives the best answers for its leaves: `C140_leaf_limit_regression`, `C140_leaf_limit_classification`, `C140_limits_regression`, `C140_limits_classification`. `Props/MoreLeaves.lean` |
| C141 | trees as for C29 | C40 for IDENTITY bins, with strictness: a split with no decrease has equal class shares (equal means) on both sides, so the smallest value with another label gives a decrease: `C141_leaf_pure`, `C141_regression`, `C141_classification`; the exclusive or: `C141_two_columns`. `Props/Memorise.lean` |
| C142 | trees as for C29, the query counts of C41 | the rows of the nodes at one depth are disjoint (induction on the depth), a node costs at most rows times columns (C16, C19): `C142_depth`, `C142_levels`, `C142_forest`. `Props/CostBound.lean` |
| C143 | forests as for C48 | the forest's answer is the mean of its trees' answers (C51, C52); an identity about squares of means, summed over points and classes: `C143_regression`, `C143_classification`; the counterexample: `C143_not_accuracy`. `Props/Average.lean` |
| C144 | `get_gini`, the reduction of an edge and the final choice with a rounding after each operation (`Model/RoundGini.lean`); sums in any order (`SumsTo`, `Spec/RoundGini.lean`) | forward error analysis, for all `k` classes: the computed reduction is within `giniErr p k` (at most `4(k+8)/2^p`) of the true change, `C144_reduction_partial`; the choice is best up to twice that, `C144_choice_partial`; a pure node is never split, `C144_pure`; without rounding exact, `C144_exact`; false of the code: `C144_refuted` gives 15 rows on which a useless split is reported. `Props/RoundGini.lean` |
| C145 | `np.mean`, `np.var`, `get_mse` for the whole population and the reduction of an edge with a rounding after each operation (`Model/RoundMse.lean`) | forward error analysis, for all `n` targets of size at most `M`: within `mseErr p n M` (at most `16 M²(3n+9)/2^p`), `C145_reduction_partial`; the choice is best up to twice that, `C145_choice_partial`; equal targets `m * 2^e` with `n * abs m < 2^p` are not split, `C145_equal_partial`; without rounding exact, `C145_exact`; false of the code: `C145_refuted` (three targets 0.1 are split). `Props/RoundMse.lean` |
| C146 | the tree and forest models, the textbook tree of C101 and C107 and a table with reordered columns (`Spec/ColOrder.lean`) | the best score is the same for both orders; without ties between columns the first best candidate is the renamed one; induction over the tree: `C146_tree`, `C146_forest`, with ties `C146_first_question`; ties matter: `C146_ties`. `Props/ColOrder.lean` |
| C147 | the answer of a leaf, the averages of a forest and the boosted sum with a rounding after each operation (`Model/RoundAnswers.lean`) | trees: proved for leaves of at most `2^(p-1)` rows, `C147_leaf`; forests: averages within `avgErr p T` (at most `2(T+9)/2^p`) and the label best up to twice that, `C147_forest_partial`; regression within `((1+2^-p)^(T+N)-1) M` of the true answer and of the range, `C147_value_partial`, boosted `C147_boosted_partial`; without rounding exact, `C147_exact`; false of the code: `C147_refuted` (a tie that is none), `C147_refuted_value` (mean of three times 0.1). `Spec/RoundAnswers.lean`, `Props/RoundAnswers.lean` |
| C148 | data frames as named columns; `swap_columns`, label encoding, one-hot encoding, `join`, reordering (`Model/Heart.lean`) | every step by membership of named columns, ranks in sorted lists: `C148_preprocess`, `C148_order`; false of the code: numbers are replaced by their ranks (`C148_refuted`), texts are ordered by the alphabet (`C148_refuted_words`). `Spec/Heart.lean`, `Props/Heart.lean` |
| C149 | the greedy tree problem of C101 with opposite signs in some columns | every improving split of one problem is a split of the other seen from the other side (the next larger value becomes the threshold), uniqueness of the greedy tree: `C149_tree`, `C149_forest`; the two exceptions are needed: `C149_between`, `C149_ties`. `Spec/Mirror.lean`, `Props/Mirror.lean` |
| C150 | the fits of trees and forests with their budgets | two runs that differ in the budget are followed until the smaller one is spent, after which the first adds nothing: `C150_forest`; every split of a budgeted exact tree is the first best split of its node: `C150_tree` (with C101); two finite budgets with incomparable trees, and a search that is paid for and not used: `C150_not_monotone`; where the smaller budget ends a pass early the larger one finds a split at least as good, and afterwards the first run does nothing: `C150_impurity`, `C150_error`; `C150_accuracy_may_fall`. `Props/MoreBudget.lean`, `Proofs/BudgetScan.lean`, `Props/BudgetError.lean` |
| C151 | logs, rounding, the six tables, the shell script with its working directory and a disk (`Model/Tables.lean`) | Tables 1 to 5 show the means and standard errors of the logs they read: `C151_tables`, `C151_table5`, `C151_all_seeds`, `C151_round`; the script prints the tables of the old logs whatever the experiments compute: `C151_script_stale`; Table 6 shows training scores: `C151_refuted_table6`. `Props/Tables.lean` |
| C152 | the trials on samples with replacement, the dictionary of costs, the least-squares line and R-squared (`Model/Scaling.lean`) | the error of a line is expanded around the means: `C152_best_line`, `C152_between`, `C152_correlation`, `C152_units`; C136 for the forests of the experiment: `C152_classifier_flat`. `Props/Scaling.lean` |
| C153 | the subset, the two splits, under-sampling, the housing and the 80/20 split (`Model/Holdout.lean`) | each step selects row numbers; numbers of numbers compose: `C153_three`, `C153_no_leak`, `C153_balanced`, `C153_three_balanced`, `C153_housing`, `C153_eighty`. `Props/Holdout.lean` |
| C154 | the balanced accuracy, the branches of `fit`, the log and the choice of its best line (`Model/Holdout.lean`) | double counting over classes and points: `C154_weights`, `C154_between`, `C154_constant`, `C154_balanced_plain`; induction over the log: `C154_best`; our branch raises NameError: `C154_refuted`. `Props/Balanced.lean` |
| C155 | the forest loop and the trees as they are | each tree is at least as good as the best first split (`C155_tree`), per leaf the step leaves a convex combination (`Kept.sqError_gain`), induction over the loop; for the rate the prefix sums of the residuals along the column: `Proofs/SplitGain.lean`, `C155_boosting`, `C155_stuck`, `C155_rate`, `C155_converges`. `Props/BoostProgress.lean` |
| C156 | a log is a list of lines, a line a list of characters: `Model/LogRead.lean`; what a log says: `Spec/LogRead.lean` | round trip of the numbers through text, loop invariant that the table holds the counts read so far: `logLoop_spec`, `C156_table`, `C156_complete`, `C156_refuses`, `C156_warning`. The claim about the warning is false of the code: it looks at one cell (`C156_refuted_alarm`, `C156_refuted_silent`), and short sizes get a mean that is too low (`C156_short`). `Props/LogRead.lean` |
| C157 | `Model/Mab.lean`, `Model/Tree.lean`; greedy trees up to ties: `Spec/Greedy.lean` | one batch covers the node, so every estimate is exact and the loop ends with a minimum (`C157_node`); then induction over the tree as for C101 (`C157_greedy`), and over two greedy trees at once (`C157_same`, `C157_answers`). With ties that matter the answers may differ: `C157_refuted_ties`. `Props/SmallData.lean` |
| C158 | `Model/Tree.lean`, `Model/Forest.lean`; tables that agree in some rows: `Spec/Blind.lean` | the rows of every node are among those of the root, and nodes read the table only in their rows (`C158_tree`, `C158_answers`); two runs of the forest loop in step, as fits leave the process-wide generators alone (`C158_forest`, `C158_oob`). Where it fails: `C158_refuted_random`, `C158_refuted_minmax`. `Props/Blind.lean` |
| C159 | `Model/Baseline.lean`, the other library as an arbitrary function; a round as one expects it: `Spec/Baseline.lean` | the settings are compared field by field (`C159_settings`); our model is the one built in a process of its own (as C123), theirs is a function of unchanged targets (`C159_fair_partial`, `C159_call_partial`), so a round is determined (`C159_again_partial`); `C159_overlap`. Where it fails: `C159_boosted`, `C159_refuted_gbrfr`, `C159_refuted_gbhrfr`, `C159_gbhrfr_raises`. `Props/Baseline.lean` |
| C160 | as C30–C33, C41; counting and different points: `Spec/Size.lean` | every leaf holds a row, which is routed to it only (C35), so leaves differ in a point; leaves below a node by induction over the levels; depth by induction over the order in which nodes are made; cost from C142; one label from the constraints checked before a search; forests through C62. `Props/Size.lean` |
| C161 | as C101, C117; the cost of the textbook tree is a relation: `Spec/ExactCost.lean` | sum over the nodes split along the links (no node is below both children); cost of a node from C16; leaves computed iff the limits allow; copies by induction over the textbook tree; forests through C107. `Props/ExactCost.lean` |
| C162 | `Model/Explore.lean`; `Spec/Explore.lean` | upper bound for MABSplit (C136) below the cost of the root in the exact tree (C161); shares by counting; doubled data by C117. `Props/Explore.lean` |
| C163 | `Model/Toy.lean`; `Spec/Separable.lean` | a score is minus the impurity iff the question separates (impurity 0 iff one label); greedy trees of C101 and C157; grid points between the groups. forests without sampling by C107. `Props/Separable.lean`, `Props/SeparableForest.lean` |
| C164 | `Model/Profile.lean`: folder as a function from names; the other library an arbitrary function; profiles opaque; `Spec/Profile.lean` | names are read back digit by digit (C156); induction over the runs. `Props/Profile.lean` |
| C165 | the forest model; `Spec/Voting.lean` says winning, voting and being sure without sums | a class that wins in every summand wins in the mean; sums of sure trees; prefix of the trees (C104); permutations of the fold. `Props/Voting.lean` |
| C166 | as C93, C94; `Spec/Balance.lean` | leaf by leaf (mean times size is the sum), leaves partition the rows (C29); mean of the trees; boosting: each tree takes its share of the sum of the remaining targets away, the first one all of it. `Props/Balance.lean` |
| C167 | `Model/CsvLog.lean`: files as text; the csv writer character by character; `Spec/CsvLog.lean`: a csv reader with five states | the reader undoes the writer, field by field and row by row; the names come from the header (`C167_rows`), so results with other names are never read back (`C167_refuted_shared`); a longer text has at least as many rows, so an interrupted one adds at most one (`C167_interrupted`). `Props/CsvLog.lean` |
| C168 | `Model/RunFiles.lean`: a disk as a map from names to contents, the names as text, the writes in order | names are split at their last underscore, decimals are injective (`C168_profile_names`, `C168_result_names`, `C168_kinds`); induction over the writes. neg: `C168_refuted_scaling`. `Props/RunFiles.lean` |
| C169 | `Model/Reproduce.lean`: a run gives two intervals with ends that may be NaN, or raises; a disk as a map; `Spec/Reproduce.lean`: near, better | induction over the lines (`C169_reproduced`, `C169_produced`, `C169_files_partial`). neg: `C169_refuted_files`, `C169_refuted_nan`. `Props/Reproduce.lean` |

No property is excluded as inexpressible; the runtime parts (rounding outside LINEAR bins and the reductions of the exact solver, memory) are named above.
