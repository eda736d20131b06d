import Verif.Model.Wrappers
import Verif.Model.Importance

/-!
# The experiments: `experiments/`

`compare_budgets` and `compare_runtimes` train two models that differ in the solver and compare them; `run_stability_stats_test` compares
the stability of importances; `experiment_cf` compares accuracies; `bias_variance_analysis` splits an error into parts. Printing, files,
profiles and clock times are not modelled.
-/

namespace FF

variable {K : Type} [Field K] [LinearOrder K] [FloorRing K] [NpFun K] {G : Type}

/-- The nine values of `compare` — `compare_budgets.py:118,149,184,223,258,295,330,367,406`, `compare_runtimes.py:131,162,197,236,271,308,343,380,419`. -/
def Wrapper.compared : Wrapper → Bool
  | .histC | .extraC | .histPatchesC | .extraR | .gbExtraR | .histR | .gbHistR | .histPatchesR | .gbHistPatchesR => true
  | _ => false

/-- The parameters of both models in `compare_budgets`, but for `solver` and `random_state` — `compare_budgets.py:99-115`, `118-446`.
`HRFC` is constructed without `num_bins` and `with_replacement`; their default values are the ones given here. The default alphas are 0.6 and
0.8 (`constants.py:7-8`). -/
def budgetArgs (k : Wrapper) (budget : Option Int) (depth : Option Nat) (alphaN alphaF : Option K) : WrapArgs K where
  nEstimators := 100
  maxDepth := .some (depth.getD 2)
  numBins := some 11
  minSamplesSplit := 2
  minImpDec := 100
  maxLeafNodes := none
  budget := budget
  criterion := if k.isCls then .gini else .mse
  splitter := .best
  solver := .exact
  randomState := 0
  withRep := false
  boostingLr := if k.boosts then some (1 / 10) else none
  alphaN := if k.needsAlphas then some (alphaN.getD (6 / 10)) else none
  alphaF := if k.needsAlphas then some (alphaF.getD (8 / 10)) else none
  bootstrap := false

/-- The parameters of both models in `compare_runtimes` — `compare_runtimes.py:122-128`, `131-459`, `exp_constants.py:11-14`, `constants.py:6`. -/
def runtimeArgs (k : Wrapper) : WrapArgs K where
  nEstimators := 5
  maxDepth := .some 5
  numBins := match k with
    | .gbExtraR => none
    | _ => some 11
  minSamplesSplit := 2
  minImpDec := 5 / 1000
  maxLeafNodes := none
  budget := none
  criterion := if k.isCls then .gini else .mse
  splitter := .best
  solver := .exact
  randomState := 0
  withRep := false
  boostingLr := if k.boosts then some (1 / 10) else none
  alphaN := if k.needsAlphas then some (7 / 10) else none
  alphaF := if k.needsAlphas then some (85 / 100) else none
  bootstrap := false

/-- The arguments of a comparison — `compare_budgets.py:70-85`, `compare_runtimes.py:95-106`. `ref` and `testRef` refer to the caller's target
arrays; `args` are the parameters above. -/
structure Cmp (K : Type) where
  kind : Wrapper
  args : WrapArgs K
  data : List (List K)
  ref : Nat
  testData : List (List K)
  testRef : Nat
  predict : Bool
  runTheirs : Bool

/-- The accuracy, or the mean squared error — `compare_budgets.py:474-515`. Means of nothing, and arrays of different lengths (which numpy
would broadcast or refuse) are not modelled. -/
def cmpScore (isCls : Bool) (preds : List (Pred K)) (targets : List K) : Except Err K :=
  if preds.length ≠ targets.length ∨ preds = [] then .error (.unmodelled "score of arrays that are empty or do not match")
  else if isCls then .ok (npMean (List.zipWith (fun (p : Pred K) y => if p.value = y then 1 else 0) preds targets))
  else .ok (npMean (List.zipWith (fun (p : Pred K) y => (p.value - y) * (p.value - y)) preds targets))

/-- What is kept of one model in one round — the lists of `compare_budgets.py:88-97`. -/
structure CmpSide (K : Type) where
  train : K
  test : Option K
  queries : Nat
  trees : Nat
  deriving DecidableEq, Repr

/-- One round. -/
structure CmpRow (K : Type) where
  ours : CmpSide K
  theirs : Option (CmpSide K)
  deriving DecidableEq, Repr

/-- The scores of a fitted model — `compare_budgets.py:455-456`, `474-515`. -/
def cmpMeasure (c : Cmp K) (w : World K G) (f : Forest K G) : Except Err (CmpSide K) :=
  match f.predictBatch c.data with
  | .error e => .error e
  | .ok (ps, f1) =>
    match cmpScore c.kind.isCls ps (w.arrays.getD c.ref []) with
    | .error e => .error e
    | .ok train =>
      if c.predict then
        match f1.predictBatch c.testData with
        | .error e => .error e
        | .ok (ps2, _) =>
          match cmpScore c.kind.isCls ps2 (w.arrays.getD c.testRef []) with
          | .error e => .error e
          | .ok test => .ok ⟨train, some test, f.numQueries, f.trees.length⟩
      else .ok ⟨train, none, f.numQueries, f.trees.length⟩

/-- The parameters of one of the two models. -/
def Cmp.side (c : Cmp K) (s : Solver) (seed : Nat) : WrapArgs K := { c.args with solver := s, randomState := seed }

/-- One round of the loop over the seeds — `compare_budgets.py:117-541`, `compare_runtimes.py:130-556`: both models are constructed, then ours
is fitted, then (perhaps) theirs. `mem true` is the uninitialised memory our model may read, `mem false` theirs. -/
def cmpRound (R : Rng K G) (mem : Bool → Nat → Nat → Junk K) (c : Cmp K) (seed : Nat) (w : World K G) :
    Except Err (CmpRow K × World K G) :=
  if c.kind.compared = false then .error .notImplemented
  else
    match Wrapper.init R c.kind (c.side .mab seed) w (some c.data) (some c.ref) with
    | .error e => .error e
    | .ok (ours, w1) =>
      match Wrapper.init R c.kind (c.side .exact seed) w1 (some c.data) (some c.ref) with
      | .error e => .error e
      | .ok (theirs, w2) =>
        match ours.fit R (mem true) w2 none none with
        | .error e => .error e
        | .ok (ours', w3) =>
          if c.runTheirs then
            match theirs.fit R (mem false) w3 none none with
            | .error e => .error e
            | .ok (theirs', w4) =>
              match cmpMeasure c w4 ours'.forest with
              | .error e => .error e
              | .ok s =>
                match cmpMeasure c w4 theirs'.forest with
                | .error e => .error e
                | .ok s' => .ok (⟨s, some s'⟩, w4)
          else
            match cmpMeasure c w3 ours'.forest with
            | .error e => .error e
            | .ok s => .ok (⟨s, none⟩, w3)

/-- The loop over the seeds — `compare_budgets.py:117`, `compare_runtimes.py:130`. -/
def cmpRounds (R : Rng K G) (mem : Nat → Bool → Nat → Nat → Junk K) (c : Cmp K) :
    List Nat → World K G → Except Err (List (CmpRow K) × World K G)
  | [], w => .ok ([], w)
  | seed :: seeds, w =>
    match cmpRound R (mem seed) c seed w with
    | .error e => .error e
    | .ok (row, w1) =>
      match cmpRounds R mem c seeds w1 with
      | .error e => .error e
      | .ok (rows, w2) => .ok (row :: rows, w2)

/-- `np.std(a) / np.sqrt(len(a))` — `compare_budgets.py:545,571`. -/
def stdErr (l : List K) : K := NpFun.sqrt (npVar l) / NpFun.sqrt (l.length : K)

/-- `overlap` — `compare_budgets.py:575`, `compare_runtimes.py:590`. -/
def cmpOverlap (ours theirs : List K) : Bool := decide (|npMean theirs - npMean ours| < stdErr theirs + stdErr ours)

/-- The result of a comparison: the lists, and `overlap`. The averages and standard errors of the lists are in the dictionary too
(`compare_budgets.py:577-604`). -/
structure CmpResult (K : Type) where
  rows : List (CmpRow K)
  overlap : Option Bool
  deriving DecidableEq, Repr

/-- `compare_budgets` and `compare_runtimes`. Without test scores `their_avg_test` is an unbound local variable (`compare_budgets.py:575`). No
rounds at all (averages of nothing) are not modelled. -/
def compareModels (R : Rng K G) (mem : Nat → Bool → Nat → Nat → Junk K) (c : Cmp K) (numSeeds : Nat) (w : World K G) :
    Except Err (CmpResult K × World K G) :=
  match cmpRounds R mem c (List.range numSeeds) w with
  | .error e => .error e
  | .ok (rows, w') =>
    if rows = [] then .error (.unmodelled "averages of no rounds")
    else if c.runTheirs then
      if c.predict then
        .ok (⟨rows, some (cmpOverlap (rows.filterMap (fun r => r.ours.test)) (rows.filterMap (fun r => r.theirs.bind CmpSide.test)))⟩, w')
      else .error .nameError
    else .ok (⟨rows, none⟩, w')

/-- The verdict of `experiment_cf` — `heart/compare_experiment.py:135-156`; `z` is the quantile taken from scipy. -/
def heartOverlap (z : K) (ff sk : List K) : Bool := decide (2 * (z * stdErr ff + z * stdErr sk) < npMean ff - npMean sk)

/-- A confidence interval — `feature_importance_tests.py:248-254`. -/
def confInterval (z : K) (l : List K) : K × K := (npMean l - stdErr l * z, npMean l + stdErr l * z)

/-- `is_overlap` — `feature_importance_tests.py:255`. -/
def stabOverlap (z : K) (exact mab : List K) : Bool := decide ((confInterval z mab).1 ≤ (confInterval z exact).2)

/-- The arguments of `run_stability_stats_test` — `feature_importance_tests.py:146-169`. `cfg` holds the parameters of the importances (its
solver is not used), `best` is `best_k_feature`, `z` the `conf_multiplier`. The data sets come from scikit-learn. -/
structure StabTest (K : Type) where
  cfg : PermCfg K
  score : ImpScore
  seed : Nat
  trials : Nat
  best : Option Int
  z : K

/-- The two objects of a trial — `feature_importance_tests.py:205-220`, `225-239`: the second is constructed without `max_leaf_nodes`, which
then is `None` (`permutation.py:42`). -/
def StabTest.exactCfg (s : StabTest K) : PermCfg K := { s.cfg with solver := .exact }

/-- See `StabTest.exactCfg`. -/
def StabTest.mabCfg (s : StabTest K) : PermCfg K := { s.cfg with solver := .mab, maxLeafNodes := none }

/-- The stability of one new object — `feature_importance_tests.py:205-221`. Values that are not finite are not modelled. -/
def stabOne (R : Rng K G) (mem : Nat → Nat → Nat → Junk K) (sortIdx : List K → List Nat) (s : StabTest K) (cfg : PermCfg K) (seed : Nat)
    (data : List (List K)) (ref : Nat) (w : World K G) : Except Err (K × World K G) :=
  match PermImp.init R w cfg s.score seed data ref with
  | .error e => .error e
  | .ok (p, w1) =>
    match PermImp.runBaseline R mem sortIdx p w1 s.best with
    | .error e => .error e
    | .ok (.fin x, _, w2) => .ok (x, w2)
    | .ok _ => .error (.unmodelled "stability that is not finite")

/-- The loop over the trials — `feature_importance_tests.py:201-241`. `g` is the generator the seeds come from. -/
def stabTrials (R : Rng K G) (mem : Nat → Bool → Nat → Nat → Nat → Junk K) (sortIdx : List K → List Nat) (s : StabTest K)
    (data : List (List K)) (ref : Nat) : List Nat → G → World K G → Except Err (List (K × K) × World K G)
  | [], _, w => .ok ([], w)
  | i :: is, g, w =>
    let d1 := R.randint g maxSeed
    let d2 := R.randint d1.2 maxSeed
    match stabOne R (mem i false) sortIdx s s.exactCfg d1.1 data ref w with
    | .error e => .error e
    | .ok (x, w1) =>
      match stabOne R (mem i true) sortIdx s s.mabCfg d2.1 data ref w1 with
      | .error e => .error e
      | .ok (y, w2) =>
        match stabTrials R mem sortIdx s data ref is d2.2 w2 with
        | .error e => .error e
        | .ok (l, w3) => .ok ((x, y) :: l, w3)

/-- `run_stability_stats_test` — `feature_importance_tests.py:199-302`: the two intervals, or an AssertionError if they overlap. No trials are
not modelled. -/
def stabilityTest (R : Rng K G) (mem : Nat → Bool → Nat → Nat → Nat → Junk K) (sortIdx : List K → List Nat) (s : StabTest K)
    (data : List (List K)) (ref : Nat) (w : World K G) : Except Err (((K × K) × (K × K)) × World K G) :=
  match stabTrials R mem sortIdx s data ref (List.range s.trials) (R.seed s.seed) { w with glob := { w.glob with np := R.seed s.seed } } with
  | .error e => .error e
  | .ok (l, w') =>
    if l = [] then .error (.unmodelled "averages of no trials")
    else if stabOverlap s.z (l.map Prod.fst) (l.map Prod.snd) then .error (.assertion "Exact and MABs stability overlaps")
    else .ok ((confInterval s.z (l.map Prod.fst), confInterval s.z (l.map Prod.snd)), w')

/-- The loop of `bias_variance_analysis` — `bias_variance_analysis.py:60-72`, for a forest: `fit` on a sample, `predict_batch`, `reset()`. `draws`
are the row numbers `rng.choice` returned in each trial. The result is `model_predict_array`. -/
def bvTrials (R : Rng K G) (mem : Nat → Nat → Nat → Junk K) (X : List (List K)) (Y : List K) (Xtest : List (List K)) :
    List (List Nat) → Forest K G → World K G → Except Err (List (List K) × Forest K G × World K G)
  | [], f, w => .ok ([], f, w)
  | idcs :: draws, f, w =>
    match takeE X [] idcs with
    | .error e => .error e
    | .ok xs =>
      match takeE Y 0 idcs with
      | .error e => .error e
      | .ok ys =>
        match Forest.fit R (mem draws.length) f { w with arrays := w.arrays ++ [ys] } (some xs) (some w.arrays.length) with
        | .error e => .error e
        | .ok (f1, w1) =>
          match f1.predictBatch Xtest with
          | .error e => .error e
          | .ok (ps, f2) =>
            match bvTrials R mem X Y Xtest draws (f2.reset none) w1 with
            | .error e => .error e
            | .ok (rows, f3, w2) => .ok (ps.map Pred.value :: rows, f3, w2)

/-- The four numbers of one test point — `bias_variance_analysis.py:73-79`: `b` is the prediction of the Bayes model, `y` the noisy target, `ps`
are the predictions of the trials. -/
structure BiasVar (K : Type) where
  noise : K
  bias2 : K
  variance : K
  error : K
  deriving DecidableEq, Repr

/-- See `BiasVar`. -/
def biasVar (b y : K) (ps : List K) : BiasVar K where
  noise := (b - y) ^ 2
  bias2 := (b - npMean ps) ^ 2
  variance := npMean (ps.map (fun p => (npMean ps - p) ^ 2))
  error := npMean (ps.map (fun p => (p - y) ^ 2))

/-- The arrays `bias_variance_analysis` returns: one entry per test point — `bias_variance_analysis.py:73-79`. -/
def biasVarAll (bayes ys : List K) (preds : List (List K)) : List (BiasVar K) :=
  (List.range ys.length).map (fun j => biasVar (bayes.getD j 0) (ys.getD j 0) (preds.map (fun row => row.getD j 0)))

/-- `make_huge` — `exp_utils.py:50-59`, for the rows or the labels: every step doubles the list. -/
def makeHuge {α : Type} : Nat → List α → List α
  | 0, l => l
  | n + 1, l => makeHuge n (l ++ l)

end FF
