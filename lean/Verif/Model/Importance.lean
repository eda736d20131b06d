import Verif.Model.Forest

/-!
# `data_structures/permutation.py`

Importances and ranks that the stability measures work on are finite numbers here (`K`); a matrix is a list of rows of equal
length. Python float arithmetic raises ZeroDivisionError, numpy arithmetic returns special values.
-/

namespace FF

variable {K : Type} [Field K] [LinearOrder K] [FloorRing K] [NpFun K] {G : Type}

/-- `stability_metric`: `"JACCARD"`, `"SPEARMAN"`, `"KUNCHEVA"` or any other string — `constants.py:59-61`. -/
inductive Metric where
  | jaccard
  | spearman
  | kuncheva
  | other
  deriving DecidableEq, Repr

/-- `np.intersect1d(a, b)`: the sorted distinct common elements. -/
def npInter (a b : List K) : List K := (npUnique a).filter (fun x => decide (x ∈ b))

/-- `np.union1d(a, b)`: the sorted distinct elements of both. -/
def npUnion (a b : List K) : List K := npUnique (a ++ b)

/-- One summand for JACCARD — `permutation.py:175-180`. -/
def jaccardTerm (v1 v2 : List K) (i : Nat) : K :=
  ((npInter (v1.take (i + 1)) (v2.take (i + 1))).length : K) / ((npUnion (v1.take (i + 1)) (v2.take (i + 1))).length : K)

/-- One summand for SPEARMAN — `permutation.py:185`. -/
def spearmanTerm (v1 v2 : List K) (i : Nat) : K := (v1.getD i 0 - v2.getD i 0) ^ 2

/-- One summand for KUNCHEVA — `permutation.py:191-197`. -/
def kunchevaTerm (v1 v2 : List K) (i : Nat) : K :=
  (((npInter (v1.take (i + 1)) (v2.take (i + 1))).length : K) - (i : K) ^ 2 / (v1.length : K)) / ((i : K) - (i : K) ^ 2 * (v1.length : K))

/-- `range(1, length)`. -/
def fromOne (n : Nat) : List Nat := (List.range (n - 1)).map (· + 1)

/-- `get_pairwise_stability` — `permutation.py:162-201`. -/
def pairwiseStability (m : Metric) (v1 v2 : List K) : Except Err K :=
  match m with
  | .jaccard =>
    if v1.length = 0 then .error .zeroDivision
    else .ok (((fromOne v1.length).map (jaccardTerm v1 v2)).sum / (v1.length : K))
  | .spearman =>
    if (fromOne v1.length).any (fun i => decide (v2.length ≤ i)) then .error .indexError
    else if (v1.length : K) * ((v1.length : K) ^ 2 - 1) = 0 then .error .zeroDivision
    else .ok (1 - 6 * ((fromOne v1.length).map (spearmanTerm v1 v2)).sum / ((v1.length : K) * ((v1.length : K) ^ 2 - 1)))
  | .kuncheva =>
    if v1.length = 0 then .error .zeroDivision
    else .ok (((fromOne v1.length).map (kunchevaTerm v1 v2)).sum / (v1.length : K))
  | .other => .error .notImplemented

/-- `rankdata(row, method="dense")`: one plus the number of distinct smaller values (so rank 1 is the *smallest*) —
`permutation.py:209-211`. -/
def denseRank (row : List K) : List K :=
  row.map (fun x => ((((npUnique row).filter (fun y => decide (y < x))).length + 1 : Nat) : K))

/-- Adds the stabilities of one row with all later rows — `permutation.py:214-217`. -/
def rowStability (m : Metric) (v : List K) : List (List K) → Except Err K
  | [] => .ok 0
  | u :: us =>
    match pairwiseStability m v u with
    | .error e => .error e
    | .ok s =>
      match rowStability m v us with
      | .error e => .error e
      | .ok t => .ok (s + t)

/-- The double loop — `permutation.py:213-217`. -/
def allStability (m : Metric) : List (List K) → Except Err K
  | [] => .ok 0
  | v :: vs =>
    match rowStability m v vs with
    | .error e => .error e
    | .ok s =>
      match allStability m vs with
      | .error e => .error e
      | .ok t => .ok (s + t)

/-- `get_stability_pairwise` — `permutation.py:203-218`. `rankdata(…, axis=1)` raises ValueError (AxisError) for an array
without rows, which is 1-dimensional. -/
def stabilityPairwise (m : Metric) (imp : List (List K)) : Except Err K :=
  if imp = [] then .error .valueError
  else
    match allStability m (imp.map denseRank) with
    | .error e => .error e
    | .ok s =>
      if imp.length = 1 then .error .zeroDivision
      else .ok (2 * s / ((imp.length : K) * ((imp.length : K) - 1)))

/-- What the documentation of `np.argsort` promises about `np.argsort(-row)`: a permutation of the positions that lists the
largest values first. The default sort is not stable, so the order of ties is left open. -/
structure IsArgsortDesc (sortIdx : List K → List Nat) : Prop where
  perm : ∀ row, (sortIdx row).Perm (List.range row.length)
  sorted : ∀ row, (sortIdx row).Pairwise (fun a b => row.getD b 0 ≤ row.getD a 0)

/-- The column slice `[:, :k]` of a row of length `n` keeps this many entries (a negative `k` counts from the end). -/
def sliceLen (n : Nat) (k : Int) : Nat := if 0 ≤ k then k.toNat else (n + k).toNat

/-- The selected features of one row, `none` standing for the index `-1` — `permutation.py:232-236`, with
`MIN_IMPORTANCE = 0.0` (`constants.py:62`). -/
def topIdcs (sortIdx : List K → List Nat) (k : Int) (row : List K) : List (Option Nat) :=
  ((sortIdx row).take (sliceLen row.length k)).map (fun i => if 0 ≤ row.getD i 0 then some i else none)

/-- `np.sum(np.where(best_idcs == i, 1, 0)) / N` — `permutation.py:240`. -/
def selFreq (best : List (List (Option Nat))) (i : Nat) : K :=
  (((best.map (fun r => r.countP (fun x => decide (x = some i)))).sum : Nat) : K) / (best.length : K)

/-- `get_stability_freq` — `permutation.py:221-249`. -/
def stabilityFreq (sortIdx : List K → List Nat) (imp : List (List K)) (k : Int) : Except Err (XF K) :=
  match imp with
  | [] => .error .indexError
  | row0 :: _ =>
    let N := imp.length
    let F := row0.length
    if ¬ (k < (F : Int)) then .error (.assertion "Feature subset size should be less than feature dimension")
    else if F = 0 then .error .zeroDivision
    else
      let best := imp.map (topIdcs sortIdx k)
      let cvar : XF K := XF.sum ((List.range F).map (fun i =>
        (XF.fin ((N : K) * selFreq best i * (1 - selFreq best i))).div (.fin ((N : K) - 1))))
      let dbar : K := (((best.map (fun r => r.countP Option.isSome)).sum : Nat) : K) / (N : K)
      let numer := cvar.div (.fin (F : K))
      let denom : XF K := .fin (dbar * (1 - dbar / (F : K)) / (F : K))
      .ok ((XF.fin 1).sub (numer.div denom))

/-! ### Training the forests -/

/-- `PermutationImportance` — `permutation.py:30-66`. `budget` is `budget_per_forest`. -/
structure PermCfg (K : Type) where
  maxDepth : MaxDepth
  numForests : Nat
  numTrees : Nat
  isCls : Bool
  solver : Solver
  metric : Metric
  budget : Option Int
  featSub : FeatSub K
  maxLeafNodes : Option Nat
  epsilon : K

/-- `importance_score`: `"permutation"`, `"impurity"` or any other string. -/
inductive ImpScore where
  | permutation
  | impurity
  | other
  deriving DecidableEq, Repr

/-- The state of a `PermutationImportance` object — `permutation.py:47-66`. `labelsRef` refers to the caller's labels. -/
structure PermImp (K G : Type) where
  cfg : PermCfg K
  score : ImpScore
  data : List (List K)
  labelsRef : Nat
  rng : G
  forests : List (Forest K G)

/-- `__init__` — `permutation.py:30-66`. -/
def PermImp.init (R : Rng K G) (w : World K G) (cfg : PermCfg K) (score : ImpScore) (seed : Nat) (data : List (List K)) (labelsRef : Nat) :
    Except Err (PermImp K G × World K G) :=
  if 1 < cfg.numForests then
    .ok ({ cfg, score, data, labelsRef, rng := R.seed seed, forests := [] }, { w with glob := setSeed R seed })
  else .error (.assertion "we need at least two forests")

/-- The parameters `train_forest` passes, with the defaults of the forest for the others — `permutation.py:72-101`,
`forest_classifier.py:14-44`, `forest_regressor.py:13-44`. -/
def PermCfg.forestCfg (c : PermCfg K) (seed : Nat) : ForestCfg K :=
  { isCls := c.isCls, nEstimators := c.numTrees, maxDepth := c.maxDepth, bootstrap := true, featSub := c.featSub
    minSamplesSplit := 2, minImpDec := 0, maxLeafNodes := c.maxLeafNodes, binType := some .linear, numBins := some 11
    criterion := .gini, splitter := .best, solver := c.solver, randomState := seed, withRep := false
    boosting := false, boostingLr := none, makeDiscrete := false, precompMinmax := false, useLog := false
    useDynEps := false, epsilon := c.epsilon, oobScore := true, batch := 1000, alphaF := 1, alphaN := 1 }

/-- `train_forest` — `permutation.py:68-106`: constructs a forest, fits it and appends it. -/
def PermImp.trainForest (R : Rng K G) (mem : Nat → Nat → Junk K) (p : PermImp K G) (w : World K G) (seed : Nat) :
    Except Err (PermImp K G × World K G) :=
  match Forest.init R w (p.cfg.forestCfg seed) none (some p.data) (some p.labelsRef) p.cfg.budget with
  | .error e => .error e
  | .ok (f, w1) =>
    match Forest.fit R mem f w1 none none with
    | .error e => .error e
    | .ok (f', w2) => .ok ({ p with forests := p.forests ++ [f'] }, w2)

/-- `train_forests` — `permutation.py:108-116`. `mem j` is the uninitialised memory seen while forest `j` is trained. -/
def PermImp.trainForests (R : Rng K G) (mem : Nat → Nat → Nat → Junk K) :
    Nat → PermImp K G → World K G → Except Err (PermImp K G × World K G)
  | 0, p, w => .ok (p, w)
  | n + 1, p, w =>
    match PermImp.trainForest R (mem p.forests.length) { p with rng := (R.randint p.rng maxSeed).2 } w (R.randint p.rng maxSeed).1 with
    | .error e => .error e
    | .ok (p', w') => PermImp.trainForests R mem n p' w'

/-- `rng.shuffle(data_copy[:, feature_idx])` — `permutation.py:131-132`. -/
def shuffleCol (data : List (List K)) (j : Nat) (order : List Nat) : List (List K) :=
  List.zipWith (fun row i => row.set j ((data.getD i []).getD j 0)) data order

/-- `model_score` — `permutation.py:129`: for classification the *number* of correct predictions; for regression
`predict_batch(…)[0]` is the first prediction, and the number of equal targets is counted. An array comparison of unequal
lengths is `False`. -/
def modelScore (isCls : Bool) (preds : List (Pred K)) (labels : List K) : Except Err Nat :=
  if isCls then
    if preds.length = labels.length then
      .ok ((List.zipWith (fun (p : Pred K) y => decide (p.value = y)) preds labels).countP id)
    else .ok 0
  else
    match preds with
    | [] => .error .indexError
    | p :: _ => .ok (labels.countP (fun y => decide (p.value = y)))

/-- The loop over the features — `permutation.py:130-134`. -/
def permLoop (R : Rng K G) (w : World K G) (data : List (List K)) (score : Nat) :
    List Nat → Forest K G → G → Except Err (List (XF K) × Forest K G × G)
  | [], f, g => .ok ([], f, g)
  | j :: js, f, g =>
    match f.oobScore w (some (shuffleCol data j (R.shuffle g data.length).1)) with
    | .error e => .error e
    | .ok (s, f1) =>
      match permLoop R w data score js f1 (R.shuffle g data.length).2 with
      | .error e => .error e
      | .ok (v, f2, g2) => .ok (((xnat score).sub s).abs :: v, f2, g2)

/-- `compute_importance_vec` — `permutation.py:118-140`, on the trained forest `f`. -/
def importanceVec (R : Rng K G) (w : World K G) (p : PermImp K G) (f : Forest K G) (g : G) :
    Except Err (List (XF K) × Forest K G × G) :=
  match p.score with
  | .permutation =>
    match f.predictBatch p.data with
    | .error e => .error e
    | .ok (ps, f1) =>
      match modelScore p.cfg.isCls ps (w.arrays.getD p.labelsRef []) with
      | .error e => .error e
      | .ok sc => permLoop R w p.data sc (List.range (p.data.getD 0 []).length) f1 g
  | .impurity =>
    match f.calculateMdi with
    | .error e => .error e
    | .ok (a, f1) => .ok (a.map XF.neg, f1, g)
  | .other => .error .notImplemented

/-- The importance vectors of all forests, with the forests' caches updated — `permutation.py:153-160`. -/
def importanceRows (R : Rng K G) (w : World K G) (p : PermImp K G) :
    List (Forest K G) → G → Except Err (List (List (XF K)) × List (Forest K G) × G)
  | [], g => .ok ([], [], g)
  | f :: fs, g =>
    match importanceVec R w p f g with
    | .error e => .error e
    | .ok (v, f1, g1) =>
      match importanceRows R w p fs g1 with
      | .error e => .error e
      | .ok (vs, fs1, g2) => .ok (v :: vs, f1 :: fs1, g2)

/-- `get_importance_array` — `permutation.py:142-160`: trains `num_forests` *more* forests, then computes the vectors of all.
Stacking skips empty vectors (data without columns). -/
def PermImp.importanceArray (R : Rng K G) (mem : Nat → Nat → Nat → Junk K) (p : PermImp K G) (w : World K G) :
    Except Err (List (List (XF K)) × PermImp K G × World K G) :=
  match PermImp.trainForests R mem p.cfg.numForests p w with
  | .error e => .error e
  | .ok (p1, w1) =>
    match importanceRows R w1 p1 p1.forests p1.rng with
    | .error e => .error e
    | .ok (vs, fs, g) => .ok (vs.filter (fun v => !v.isEmpty), { p1 with forests := fs, rng := g }, w1)

/-- The finite value of a number, if it has one (used by `runBaseline` only). -/
def XF.toFin : XF K → Option K
  | .fin x => some x
  | _ => none

/-- `run_baseline` — `permutation.py:251-256`. Stability of importances that are not all finite is not modelled. -/
def PermImp.runBaseline (R : Rng K G) (mem : Nat → Nat → Nat → Junk K) (sortIdx : List K → List Nat) (p : PermImp K G) (w : World K G)
    (best : Option Int) : Except Err (XF K × PermImp K G × World K G) :=
  match PermImp.importanceArray R mem p w with
  | .error e => .error e
  | .ok (a, p1, w1) =>
    match a.mapM (fun row => row.mapM XF.toFin) with
    | none => .error (.unmodelled "stability of importances that are not finite")
    | some imp =>
      match best with
      | none =>
        match stabilityPairwise p.cfg.metric imp with
        | .error e => .error e
        | .ok s => .ok (.fin s, p1, w1)
      | some k =>
        match stabilityFreq sortIdx imp k with
        | .error e => .error e
        | .ok s => .ok (s, p1, w1)

end FF
