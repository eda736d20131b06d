import Verif.Model.Compare

/-!
# Data that is kept back: `experiments/heart/fit_heart.py`, `experiments/exp_utils.py`

The experiments keep rows back for testing. A data set is a list of rows with their labels. `train_test_split` and
`balanced_accuracy_score` are sklearn's, `RandomUnderSampler` is imblearn's: they are modelled by what they compute (`fit_sample`, `fit_heart.py:72`, is the name of the method in
imblearn before 0.8).
-/

namespace FF

variable {K : Type} [Field K] [LinearOrder K] [FloorRing K] [NpFun K] {G : Type}

/-- `get_subset` — `heart/fit_heart.py:31-48`: rows drawn without replacement by a generator of its own; `X` and `Y` are cut with the same numbers. -/
def getSubset (R : Rng K G) (X : List (List K)) (Y : List K) (size seed : Nat) : Except Err (List (List K) × List K) :=
  if Y.length < size then .error (.assertion "Invalid subset_size of dataframe")
  else if X.length ≠ Y.length then .error (.assertion "Invalid dimension size of dataset")
  else
    let idcs := (R.choice (R.seed seed) Y.length size).1
    match takeE X [] idcs, takeE Y 0 idcs with
    | .ok a, .ok b => .ok (a, b)
    | .error e, _ => .error e
    | _, .error e => .error e

/-- What a split returns: `X_train, X_test, Y_train, Y_test`. -/
structure TwoParts (K : Type) where
  xTrain : List (List K)
  yTrain : List K
  xTest : List (List K)
  yTest : List K
  deriving DecidableEq, Repr

/-- `sklearn.model_selection.train_test_split(X, Y, test_size=p, random_state=seed)` for a fraction `p`: a random order of the rows; the first
`ceil(p * n)` are the test set, the others the training set. A share outside (0, 1), or an empty training set, is a ValueError. -/
def trainTestSplit (R : Rng K G) (X : List (List K)) (Y : List K) (p : K) (seed : Nat) : Except Err (TwoParts K) :=
  if X.length ≠ Y.length then .error .valueError
  else if p ≤ 0 ∨ 1 ≤ p then .error .valueError
  else
    let nTest := ⌈p * (X.length : K)⌉.toNat
    if X.length ≤ nTest then .error .valueError
    else
      let perm := (R.shuffle (R.seed seed) X.length).1
      let test := perm.take nTest
      let train := perm.drop nTest
      .ok ⟨train.map (fun i => X.getD i []), train.map (fun i => Y.getD i 0), test.map (fun i => X.getD i []), test.map (fun i => Y.getD i 0)⟩

/-- What `split_data` returns. -/
structure ThreeParts (K : Type) where
  xTrain : List (List K)
  xVal : List (List K)
  xTest : List (List K)
  yTrain : List K
  yVal : List K
  yTest : List K
  deriving DecidableEq, Repr

/-- The rows with label `c` (`np.flatnonzero(y == c)`). -/
def rowsWith (c : K) (Y : List K) : List Nat := (List.range Y.length).filter (fun i => decide (Y.getD i 0 = c))

/-- The size of the smallest class. -/
def smallest (Y : List K) : Nat := ((npUnique Y).map (fun c => Y.count c)).foldr min Y.length

/-- The rows `RandomUnderSampler` takes from the classes `cs`: all of class `least`, and as many (`m`) of each other class, drawn without replacement. -/
def underRows (R : Rng K G) (Y : List K) (least : Option K) (m : Nat) : List K → G → List Nat
  | [], _ => []
  | c :: cs, g =>
    if least = some c then rowsWith c Y ++ underRows R Y least m cs g
    else
      let d := R.choice g (rowsWith c Y).length m
      d.1.map (fun j => (rowsWith c Y).getD j 0) ++ underRows R Y least m cs d.2

/-- `RandomUnderSampler(random_state=seed).fit_sample(X, Y)` — `heart/fit_heart.py:71-72`: the classes in order, `least` the first with the fewest
rows. One class only, or a wrong number of labels, is a ValueError. -/
def underSample (R : Rng K G) (X : List (List K)) (Y : List K) (seed : Nat) : Except Err (List (List K) × List K) :=
  if X.length ≠ Y.length ∨ (npUnique Y).length < 2 then .error .valueError
  else
    let m := smallest Y
    let least := (npUnique Y).find? (fun c => decide (Y.count c = m))
    let idcs := underRows R Y least m (npUnique Y) (R.seed seed)
    .ok (idcs.map (fun i => X.getD i []), idcs.map (fun i => Y.getD i 0))

/-- `heart/fit_heart.py:78-79`; `size = none` is `subset_size = -1`. -/
def subsetOrAll (R : Rng K G) (X : List (List K)) (Y : List K) (size : Option Nat) (seed : Nat) : Except Err (List (List K) × List K) :=
  match size with
  | none => .ok (X, Y)
  | some m => getSubset R X Y m seed

/-- `split_data` — `heart/fit_heart.py:51-87`; `size = none` is `subset_size = -1`. The ratio is divided by its sum; a ratio of whole numbers cannot be
divided in place (a TypeError) and is not modelled. -/
def splitData (R : Rng K G) (X : List (List K)) (Y : List K) (r0 r1 r2 : K) (size : Option Nat) (seed : Nat) (balanced : Bool) :
    Except Err (ThreeParts K) :=
  match (if balanced then underSample R X Y seed else .ok (X, Y)) with
  | .error e => .error e
  | .ok (X1, Y1) =>
    let s := r0 + r1 + r2
    match subsetOrAll R X1 Y1 size seed with
    | .error e => .error e
    | .ok (X2, Y2) =>
      match trainTestSplit R X2 Y2 (r2 / s) seed with
      | .error e => .error e
      | .ok a =>
        match trainTestSplit R a.xTrain a.yTrain ((r1 / s) / (r0 / s + r1 / s)) seed with
        | .error e => .error e
        | .ok b => .ok ⟨b.xTrain, b.xTest, a.xTest, b.yTrain, b.yTest, a.yTest⟩

/-- `load_housing` after the download — `exp_utils.py:62-77`; `cut` is 16000. -/
def housingSplit (R : Rng K G) (X : List (List K)) (Y : List K) (cut : Nat) : TwoParts K :=
  let idcs := (R.choice (R.seed 0) X.length X.length).1
  let X' := idcs.map (fun i => X.getD i [])
  let Y' := idcs.map (fun i => Y.getD i 0)
  ⟨X'.take cut, Y'.take cut, X'.drop cut, Y'.drop cut⟩

/-- The regression data of the comparisons — `runtime_exps/compare_runtimes.py:647-652`, `budget_exps/compare_budgets.py:701-706`: `int(0.8 * n)`, in exact
arithmetic. -/
def eightyTwenty (X : List (List K)) (Y : List K) : TwoParts K :=
  let cut := 8 * X.length / 10
  ⟨X.take cut, Y.take cut, X.drop cut, Y.drop cut⟩

/-- The share of the points of a class that get this class. -/
def recall (c : K) (truth answers : List K) : K :=
  (((truth.zip answers).countP (fun p => decide (p.1 = c) && decide (p.2 = c)) : Nat) : K) / ((truth.count c : Nat) : K)

/-- `balanced_accuracy_score(Y, answers)` — used in `heart/fit_heart.py:166-178`, `heart/compare_experiment.py:53-54,113-114`: the mean of the shares of the classes
that occur in `Y`. -/
def balancedAccuracy (truth answers : List K) : K := npMean ((npUnique truth).map (fun c => recall c truth answers))

/-- The branches of `fit` — `heart/fit_heart.py:159-180`. Our branch, and `experiment_single` and `experiment_cf` (`heart/compare_experiment.py:44,89`), call
`Forest`, a name that is imported nowhere; `sklearn` is what the other branch returns. -/
def fitHeart (algorithm : String) (sklearn : Except Err (K × K)) : Except Err (K × K) :=
  if algorithm = "SKLEARN" then sklearn
  else if algorithm = "FASTFOREST" then .error .nameError
  else .error .notImplemented

/-- `np.argmax(a)`: the first place of the greatest number; an empty array is a ValueError. -/
def firstMax : List K → Option Nat
  | [] => none
  | a :: l =>
    match firstMax l with
    | none => some 0
    | some i => if l.getD i 0 ≤ a then some 0 else some (i + 1)

/-- `find_best_hyper` — `heart/compare_experiment.py:15-27`: the line of the log with the best `val_acc`; a line holds the algorithm, `val_acc` and
`test_acc`, the hyperparameters are left out. -/
def findBest (log : List (String × K × K)) : Except Err (String × K × K) :=
  match (firstMax (log.map (fun r => r.2.1))).bind (fun i => log[i]?) with
  | none => .error .valueError
  | some r => .ok r

/-- The log after a call of `fit` — `heart/fit_heart.py:188-209`: a call that raises writes nothing. -/
def sweepLog (log : List (String × K × K)) (algorithm : String) (sklearn : Except Err (K × K)) : List (String × K × K) :=
  match fitHeart algorithm sklearn with
  | .error _ => log
  | .ok r => log ++ [(algorithm, r.1, r.2)]

end FF
