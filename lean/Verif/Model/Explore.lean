import Verif.Model.Compare

/-!
# `experiments/initial_exploration.py`

The first exploration: single trees of both solvers on a text classification task, then on the same data made larger. Loading and
transforming the texts (`load_pca_ng`, `exp_utils.py:12-47`) and the models of the other library (`sklearn_ng_perf`,
`initial_exploration.py:12-35`) are not modelled; neither is the clock.
-/

namespace FF

variable {K : Type} [Field K] [LinearOrder K] [FloorRing K] [NpFun K] {G : Type}

/-- What `ours_ng_perf` prints, without the time — `initial_exploration.py:60-69`. -/
structure ExploreReport (K : Type) where
  train : K
  test : K
  queries : Nat
  deriving DecidableEq, Repr

/-- The settings of the tree — `initial_exploration.py:48-56` with the default values of `tree_classifier.py:16-44` (`constants.py:2,39`). `batch` is `BATCH_SIZE`,
which is 1000. -/
def exploreCfg (batch : Nat) (classes : ClassDict K) (maxDepth : Nat) (solver : Solver) : TreeCfg K where
  isCls := true
  maxDepth := .some maxDepth
  classes := classes
  featSub := .none
  minSamplesSplit := 2
  minImpDec := -(1 / 1000000)
  maxLeafNodes := none
  binType := some .linear
  numBins := some 11
  criterion := .gini
  splitter := .best
  solver := solver
  withRep := false
  makeDiscrete := false
  minmax := none
  useLog := false
  useDynEps := false
  epsilon := 0
  batch := batch

/-- `ours_ng_perf` — `initial_exploration.py:38-71`. The constructor seeds the process-wide generators (`random_state=0`), so that their
state before does not matter. `np.mean(a == b)` is `cmpScore`. -/
def oursNgPerf (R : Rng K G) (mem : Nat → Junk K) (batch : Nat) (train : List (List K)) (labels : List K) (test : List (List K)) (testLabels : List K)
    (classes : ClassDict K) (maxDepth : Nat) (solver : Solver) : Except Err (ExploreReport K) :=
  match Tree.init R (exploreCfg batch classes maxDepth solver) train labels none none 0 none none with
  | .error e => .error e
  | .ok (tc, glob) =>
    match Tree.fit R mem tc glob none none with
    | .error e => .error e
    | .ok (tc, _) =>
      match tc.predictBatch train with
      | .error e => .error e
      | .ok (ps, tc) =>
        match cmpScore true ps labels with
        | .error e => .error e
        | .ok a =>
          match tc.predictBatch test with
          | .error e => .error e
          | .ok (qs, tc) =>
            match cmpScore true qs testLabels with
            | .error e => .error e
            | .ok b => .ok ⟨a, b, tc.numQueries⟩

/-- What the four calls in `main` print. -/
structure Explored (K : Type) where
  exact : ExploreReport K
  mab : ExploreReport K
  hugeExact : ExploreReport K
  hugeMab : ExploreReport K
  deriving DecidableEq, Repr

/-- `main` after loading the data — `initial_exploration.py:73-124`; `classes` as in `exp_utils.py:41-42`; `make_huge` doubles four times
(`exp_utils.py:50`). -/
def explore (R : Rng K G) (mem : Nat → Nat → Junk K) (batch : Nat) (train : List (List K)) (labels : List K) (test : List (List K)) (testLabels : List K) :
    Except Err (Explored K) :=
  let classes := classToIdx (npUnique labels)
  match oursNgPerf R (mem 0) batch train labels test testLabels classes 5 .exact with
  | .error e => .error e
  | .ok r1 =>
    match oursNgPerf R (mem 1) batch train labels test testLabels classes 5 .mab with
    | .error e => .error e
    | .ok r2 =>
      let huge := makeHuge 4 train
      let hugeLabels := makeHuge 4 labels
      match oursNgPerf R (mem 2) batch huge hugeLabels test testLabels classes 2 .exact with
      | .error e => .error e
      | .ok r3 =>
        match oursNgPerf R (mem 3) batch huge hugeLabels test testLabels classes 2 .mab with
        | .error e => .error e
        | .ok r4 => .ok ⟨r1, r2, r3, r4⟩

end FF
