import Verif.Model.Tree

/-!
# `data_structures/forest_base.py`, `forest_classifier.py`, `forest_regressor.py`, `utils/boosting.py`

Label arrays live in a heap (`World.arrays`) because the forest keeps references to the caller's array and boosting writes
through them; all label arrays are float arrays (integer arrays: `Model/IntTargets.lean`).
-/

namespace FF

variable {K : Type} [Field K] [LinearOrder K] [FloorRing K] [NpFun K] {G : Type}

/-- The parameters of a forest — `forest_base.py:30-122`, `forest_classifier.py:14-51`, `forest_regressor.py:13-44`.
`classes` is the dictionary computed by `ForestClassifier.__init__`. -/
structure ForestCfg (K : Type) where
  isCls : Bool
  nEstimators : Nat
  maxDepth : MaxDepth
  bootstrap : Bool
  featSub : FeatSub K
  minSamplesSplit : Nat
  minImpDec : K
  maxLeafNodes : Option Nat
  binType : Option BinType
  numBins : Option Nat
  criterion : Criterion
  splitter : Splitter
  solver : Solver
  randomState : Nat
  withRep : Bool
  boosting : Bool
  boostingLr : Option K
  makeDiscrete : Bool
  precompMinmax : Bool
  useLog : Bool
  useDynEps : Bool
  epsilon : K
  oobScore : Bool
  batch : Nat
  alphaF : K
  alphaN : K
  deriving Repr

/-- The process: generators and label arrays. -/
structure World (K G : Type) where
  glob : Glob G
  arrays : List (List K)

/-- `ForestBase` object state — `forest_base.py:63-122`. `orgRef`/`newRef` are references into `World.arrays`. -/
structure Forest (K G : Type) where
  cfg : ForestCfg K
  classes : ClassDict K
  data : Option (List (List K))
  orgRef : Option Nat
  newRef : Option Nat
  trees : List (Tree K G)
  discrete : DiscDict K
  minmax : Option (List K × List K)
  remaining : Option Int
  numQueries : Nat
  rng : G
  oobList : Option (List (List Nat))
  mdi : Option (List (XF K))
  budgetAttr : Option Int

/-- `MAX_SEED` — `constants.py:50`. -/
def maxSeed : Nat := 2 ^ 31

/-- `BUFFER` — `constants.py:5`. -/
def buffer : Int := 1000000

/-- `ForestClassifier.__init__` / `ForestRegressor.__init__` — `forest_classifier.py:45-81`, `forest_regressor.py:45-76`,
`forest_base.py:63-122`. `labelsRef` refers to the caller's label array. Without labels and classes the dictionary is
`{None: 0}`, on which every later lookup fails; here it is empty. -/
def Forest.init (R : Rng K G) (w : World K G) (cfg : ForestCfg K) (classes : Option (ClassDict K))
    (data : Option (List (List K))) (labelsRef : Option Nat) (budget : Option Int) :
    Except Err (Forest K G × World K G) :=
  let classes : ClassDict K :=
    if cfg.isCls then
      match classes with
      | some c => c
      | none =>
        match labelsRef with
        | some r => classToIdx (npUnique (w.arrays.getD r []))
        | none => []
    else []
  if cfg.boosting ∧ cfg.boostingLr = none then .error (.exception "Need to set boosting_lr when using boosting")
  else if cfg.boosting ∧ cfg.isCls then .error .notImplemented
  else if cfg.oobScore ∧ ¬ cfg.bootstrap then
    .error (.assertion "out of bag score can be used only when bootstrapping")
  else
    .ok ({ cfg := { cfg with makeDiscrete :=
              if cfg.binType = some .linear ∨ cfg.binType = some .identity then false else cfg.makeDiscrete }
           classes, data, orgRef := labelsRef, newRef := labelsRef, trees := [], discrete := none, minmax := none
           remaining := budget, numQueries := 0, rng := R.seed cfg.randomState
           oobList := none, mdi := none, budgetAttr := none },
         { w with glob := setSeed R cfg.randomState })

/-- `get_out_of_bag` — `forest_base.py:136-144`. -/
def getOutOfBag (boot : List Nat) (n : Nat) : List Nat := (List.range n).filter (fun i => !(boot.contains i))

/-- The parameters the forest hands to each tree — `forest_base.py:229-281`. `criterion` and `splitter` are *not* passed, so
the tree uses its own defaults (GINI / MSE, BEST). -/
def Forest.treeCfg (f : Forest K G) : TreeCfg K :=
  { isCls := f.cfg.isCls
    maxDepth := f.cfg.maxDepth
    classes := f.classes
    featSub := f.cfg.featSub
    minSamplesSplit := f.cfg.minSamplesSplit
    minImpDec := f.cfg.minImpDec
    maxLeafNodes := f.cfg.maxLeafNodes
    binType := f.cfg.binType
    numBins := f.cfg.numBins
    criterion := if f.cfg.isCls then .gini else .mse
    splitter := .best
    solver := f.cfg.solver
    withRep := f.cfg.withRep
    makeDiscrete := false
    minmax := f.minmax
    useLog := f.cfg.useLog
    useDynEps := f.cfg.useDynEps
    epsilon := f.cfg.epsilon
    batch := f.cfg.batch }

/-- `self.rng.choice(n, int(n * alpha), replace=False)` — `forest_base.py:195-200`. -/
def subsetIdcs (R : Rng K G) (g : G) (n : Nat) (alpha : K) : Except Err (List Nat × G) :=
  if ⌊(n : K) * alpha⌋ < 0 then .error .valueError
  else rngChoice R g (List.range n) 0 (⌊(n : K) * alpha⌋).toNat

/-- Rows and features for one tree — `forest_base.py:194-203`. -/
def subsets (R : Rng K G) (g : G) (N F : Nat) (cfg : ForestCfg K) : Except Err (List Nat × List Nat × G) :=
  if cfg.alphaN < 1 ∨ cfg.alphaF < 1 then
    match subsetIdcs R g N cfg.alphaN with
    | .error e => .error e
    | .ok (rows, g1) =>
      match subsetIdcs R g1 F cfg.alphaF with
      | .error e => .error e
      | .ok (feats, g2) => .ok (rows, feats, g2)
  else .ok (List.range N, List.range F, g)

/-- The bootstrap draw — `forest_base.py:215-221`. -/
def bootstrapIdcs (R : Rng K G) (g : G) (N : Nat) (cfg : ForestCfg K) (rows : List Nat) :
    Except Err (List Nat × G) :=
  if cfg.bootstrap then rngChoiceRep R g rows 0 N else .ok (rows, g)

/-- `a[idcs] = vals` — `forest_base.py:316`. -/
def setIdcs {α : Type} (a : List α) (idcs : List Nat) (vals : List α) : List α :=
  (idcs.zip vals).foldl (fun a p => a.set p.1 p.2) a

/-- The value of a regression prediction. -/
def Pred.value : Pred K → K
  | .reg v => v
  | .cls l _ => l

/-- The class probabilities of a prediction. -/
def Pred.probs : Pred K → List K
  | .reg _ => []
  | .cls _ p => p

/-- Boosting: new targets after tree number `i` — `forest_base.py:294-321`, `boosting.py:60-65` (regression):
`targets - predictions`, the predictions scaled by the learning rate except for the first tree. -/
def boostTargets (lr : K) (i : Nat) (targets preds : List K) : List K :=
  List.zipWith (fun y p => y - (if i = 0 then p else p * lr)) targets preds

/-- The boosting update of the label array — `forest_base.py:294-321`. Returns the tree with its prediction cache filled. -/
def boostUpdate (cfg : ForestCfg K) (data : List (List K)) (tree : Tree K G) (i : Nat) (rows : List Nat)
    (arr : List K) : Except Err (List K × Tree K G) :=
  match takeE data [] rows with
  | .error e => .error e
  | .ok cur =>
    match tree.predictBatch cur with
    | .error e => .error e
    | .ok (preds, tree') =>
      match takeE arr 0 rows with
      | .error e => .error e
      | .ok tg => .ok (setIdcs arr rows (boostTargets (cfg.boostingLr.getD 0) i tg (preds.map Pred.value)), tree')

/-- The boosting part of the loop — `forest_base.py:294-321`: writes through the reference `new_targets`. -/
def boostStep (f : Forest K G) (data : List (List K)) (tree : Tree K G) (i : Nat) (rows : List Nat) (w : World K G) :
    Except Err (World K G × Tree K G) :=
  if f.cfg.boosting then
    match f.newRef with
    | none => .error .typeError
    | some nr =>
      match boostUpdate f.cfg data tree i rows (w.arrays.getD nr []) with
      | .error e => .error e
      | .ok (arr, tree') => .ok ({ w with arrays := w.arrays.set nr arr }, tree')
  else .ok (w, tree)

/-- `a budget is set and used up` — `forest_base.py:205`. -/
def spent (r : Option Int) : Bool :=
  match r with
  | none => false
  | some b => decide (b ≤ 0)

/-- `self.remaining_budget is None or 0 < tree.num_queries < self.remaining_budget + BUFFER` — `forest_base.py:286-289`. -/
def keepTree (r : Option Int) (q : Nat) : Bool :=
  match r with
  | none => true
  | some b => decide (0 < q) && decide ((q : Int) < b + buffer)

/-- One pass of the loop of `fit` — `forest_base.py:193-327`; `true` = go on, `false` = `break`.
`mem i id` is the uninitialised memory seen by node `id` of tree `i`. -/
def forestStep (R : Rng K G) (mem : Nat → Nat → Junk K) (data : List (List K)) (F : Nat) (i : Nat)
    (f : Forest K G) (w : World K G) : Except Err (Bool × Forest K G × World K G) :=
  let N := data.length
  match subsets R f.rng N F f.cfg with
  | .error e => .error e
  | .ok (rows, feats, g1) =>
    if spent f.remaining then .ok (false, { f with rng := g1 }, w)
    else
      match (if f.cfg.boosting then f.newRef else f.orgRef) with
      | none => .error .typeError
      | some ref =>
        match bootstrapIdcs R g1 N f.cfg rows with
        | .error e => .error e
        | .ok (rows, g2) =>
          let oob := if f.cfg.bootstrap ∧ f.cfg.oobScore then
            f.oobList.map (fun l => l ++ [getOutOfBag rows N]) else f.oobList
          let ri := R.randint w.glob.np maxSeed
          match Tree.init R f.treeCfg data (w.arrays.getD ref []) f.discrete f.remaining ri.1 (some rows) (some feats) with
          | .error e => .error e
          | .ok (tree0, glob0) =>
            match Tree.fit R (mem i) tree0 glob0 none none with
            | .error e => .error e
            | .ok (tree, glob1) =>
              let w1 : World K G := { w with glob := glob1 }
              if keepTree f.remaining tree.numQueries then
                match boostStep f data tree i rows w1 with
                | .error e => .error e
                | .ok (w2, tree') =>
                  .ok (true, { f with
                    trees := f.trees ++ [tree'], rng := g2, oobList := oob
                    numQueries := f.numQueries + tree.numQueries
                    remaining := f.remaining.map (fun b => b - (tree.numQueries : Int)) }, w2)
              else .ok (false, { f with rng := g2, oobList := oob }, w1)

/-- The loop of `fit` — `forest_base.py:193`. The assertion `remaining_budget > -BUFFER` (327) follows from the guard and is
checked here too. -/
def forestLoop (R : Rng K G) (mem : Nat → Nat → Junk K) (data : List (List K)) (F : Nat) :
    List Nat → Forest K G → World K G → Except Err (Forest K G × World K G)
  | [], f, w => .ok (f, w)
  | i :: is, f, w =>
    match forestStep R mem data F i f w with
    | .error e => .error e
    | .ok (false, f', w') => .ok (f', w')
    | .ok (true, f', w') =>
      if (match f'.remaining with | none => true | some b => decide (-buffer < b)) then
        forestLoop R mem data F is f' w'
      else .error (.assertion "Error: went over budget")

/-- The arrays the trees are trained on — `forest_base.py:168-177`. For classification the labels are copied by
`astype(np.int32)`. -/
def fitTargets (f : Forest K G) (w : World K G) : Except Err (Forest K G × World K G) :=
  if f.cfg.isCls then
    match f.orgRef, f.newRef with
    | some a, some b =>
      .ok ({ f with orgRef := some w.arrays.length, newRef := some (w.arrays.length + 1) },
           { w with arrays := w.arrays ++ [(w.arrays.getD a []).map truncInt, (w.arrays.getD b []).map truncInt] })
    | _, _ => .error (.attributeError "astype")
  else .ok (f, w)

/-- `self.data.min(axis=0)` and `.max(axis=0)` — `forest_base.py:182-185`. -/
def colMinMax (data : List (List K)) (F : Nat) : List K × List K :=
  ((List.range F).map (fun j => (npMin (data.map (fun r => r.getD j 0))).getD 0),
   (List.range F).map (fun j => (npMax (data.map (fun r => r.getD j 0))).getD 0))

/-- `ForestBase.fit` — `forest_base.py:160-327`. `labels` is a reference to the caller's array. -/
def Forest.fit (R : Rng K G) (mem : Nat → Nat → Junk K) (f : Forest K G) (w : World K G)
    (data : Option (List (List K))) (labels : Option Nat) : Except Err (Forest K G × World K G) :=
  match bothOrNeither data labels with
  | .error e => .error e
  | .ok passed =>
    let f : Forest K G := match passed with
      | none => f
      | some (d, l) => { f with data := some d, orgRef := some l, newRef := some l }
    match f.data with
    | none => .error .typeError
    | some [] => .error .indexError
    | some (row :: rows) =>
      match fitTargets f w with
      | .error e => .error e
      | .ok (f, w) =>
        match maybeDiscrete f.cfg.makeDiscrete (row :: rows) f.discrete with
        | .error e => .error e
        | .ok dd =>
          let f := { f with discrete := dd }
          let f := if f.cfg.precompMinmax then { f with minmax := some (colMinMax (row :: rows) row.length) } else f
          let f := if f.cfg.oobScore then { f with oobList := some [] } else f
          forestLoop R mem (row :: rows) row.length (List.range f.cfg.nEstimators) { f with trees := [] } w

/-- The predictions of all trees for one point, with the trees' caches updated. -/
def treesPredict : List (Tree K G) → List K → Except Err (List (Pred K) × List (Tree K G))
  | [], _ => .ok ([], [])
  | t :: ts, x =>
    match t.predict x with
    | .error e => .error e
    | .ok (p, t') =>
      match treesPredict ts x with
      | .error e => .error e
      | .ok (ps, ts') => .ok (p :: ps, t' :: ts')

/-- Column means of the class probabilities — `forest_base.py:344`. -/
def avgProbs (nc : Nat) (ps : List (List K)) : List K :=
  (List.range nc).map (fun j => npMean (ps.map (fun p => p.getD j 0)))

/-- Boosted prediction — `forest_base.py:348-354`. -/
def boostSum (lr : K) : List K → K
  | [] => 0
  | v :: vs => vs.foldl (fun a p => a + lr * p) v

/-- `ForestBase.predict` — `forest_base.py:329-359`. Without trees the averages are NaN (not modelled), and the boosted
prediction is an unbound local variable. -/
def Forest.predict (f : Forest K G) (x : List K) : Except Err (Pred K × Forest K G) :=
  match treesPredict f.trees x with
  | .error e => .error e
  | .ok (ps, ts) =>
    let f' := { f with trees := ts }
    if f.cfg.isCls then
      if ps = [] then .error (.unmodelled "average over no trees")
      else
        let avg := avgProbs f.classes.length (ps.map Pred.probs)
        match npArgmax avg with
        | none => .error .valueError
        | some i =>
          match f.classes[i]? with
          | none => .error .indexError
          | some c => .ok (.cls c.1 avg, f')
    else if f.cfg.boosting then
      if ps = [] then .error .nameError
      else .ok (.reg (boostSum (f.cfg.boostingLr.getD 0) (ps.map Pred.value)), f')
    else
      if ps = [] then .error (.unmodelled "average over no trees")
      else .ok (.reg (npMean (ps.map Pred.value)), f')

/-- `predict_batch` of a forest — `classifier.py:7-18`, `regressor.py:7-17`. -/
def Forest.predictBatch (f : Forest K G) : List (List K) → Except Err (List (Pred K) × Forest K G)
  | [] => .ok ([], f)
  | x :: xs =>
    match f.predict x with
    | .error e => .error e
    | .ok (p, f') =>
      match Forest.predictBatch f' xs with
      | .error e => .error e
      | .ok (ps, f'') => .ok (p :: ps, f'')

/-- `a[idcs] += vals` for distinct indices. -/
def addIdcs {α : Type} (add : α → α → α) (a : List α) (idcs : List Nat) (vals : List α) : List α :=
  (idcs.zip vals).foldl (fun a p => a.modify p.1 (fun x => add x p.2)) a

/-- What `get_oob_score` adds up: the class probabilities, or the regression value (as a one-element vector). -/
def Pred.vec : Pred K → List K
  | .cls _ pr => pr
  | .reg v => [v]

/-- The loop of `get_oob_score` — `forest_base.py:375-382`: sums of the predictions (vectors of class probabilities, or a
one-element vector for regression) and counts per data point. -/
def oobLoop (data : List (List K)) (oobList : List (List Nat)) :
    Nat → List (Tree K G) → List (List K) → List Nat → Except Err (List (List K) × List Nat × List (Tree K G))
  | _, [], sums, counts => .ok (sums, counts, [])
  | i, t :: ts, sums, counts =>
    match oobList[i]? with
    | none => .error .indexError
    | some idcs =>
      match takeE data [] idcs with
      | .error e => .error e
      | .ok pts =>
        match t.predictBatch pts with
        | .error e => .error e
        | .ok (ps, t') =>
          if idcs.any (fun j => decide (counts.length ≤ j)) then .error .indexError else
          let vals : List (List K) := ps.map Pred.vec
          let sums' := addIdcs (List.zipWith (· + ·)) sums idcs vals
          let counts' := addIdcs (· + ·) counts idcs (idcs.map (fun _ => 1))
          match oobLoop data oobList (i + 1) ts sums' counts' with
          | .error e => .error e
          | .ok (s, c, ts') => .ok (s, c, t' :: ts')

/-- The data points that are out of bag for at least one tree — `forest_base.py:385`. -/
def oobPoints (counts : List Nat) : List Nat := (List.range counts.length).filter (fun i => decide (counts.getD i 0 ≠ 0))

/-- `get_oob_score` — `forest_base.py:361-397`. Classification compares the label with the *index* of the best class;
regression divides the summed predictions by the counts twice. The result is NaN without out-of-bag points. -/
def Forest.oobScore (f : Forest K G) (w : World K G) (data : Option (List (List K))) :
    Except Err (XF K × Forest K G) :=
  match (match data with | some d => some d | none => f.data), f.orgRef with
  | some d, some ref =>
    let org := w.arrays.getD ref []
    match f.oobList with
    | none => if f.trees.isEmpty then .ok (.nan, f) else .error (.attributeError "oob_list")
    | some ol =>
      let zero : List K := if f.cfg.isCls then List.replicate f.classes.length 0 else [0]
      match oobLoop d ol 0 f.trees (org.map (fun _ => zero)) (org.map (fun _ => 0)) with
      | .error e => .error e
      | .ok (sums, counts, ts) =>
        let pts := oobPoints counts
        let f' := { f with trees := ts }
        if f.cfg.isCls then
          if f.classes.length = 0 ∧ pts ≠ [] then .error .valueError
          else
            let ok := (pts.filter (fun i =>
              decide (org.getD i 0 = (((npArgmax (sums.getD i [])).getD 0 : Nat) : K)))).length
            .ok ((xnat ok).div (xnat pts.length), f')
        else
          let err := (pts.map (fun i =>
            let c : K := ((counts.getD i 0 : Nat) : K)
            let e := org.getD i 0 - ((sums.getD i []).getD 0 0 / c) / c
            e * e)).sum
          .ok ((XF.fin err).div (xnat pts.length), f')
  | _, _ => .error .typeError

/-- `mdg_array[node.split_feature] += node.split_reduction` if there is one — `forest_base.py:415-416`. -/
def mdiAdd (node : Node K) (arr : List (XF K)) : Except Err (List (XF K)) :=
  match node.splitReduction with
  | none => .ok arr
  | some red =>
    match node.splitFeature with
    | none => .error .indexError
    | some j => if j < arr.length then .ok (arr.modify j (fun x => x.add red)) else .error .indexError

/-- `recursive_mdi_helper` — `forest_base.py:411-421`. -/
def mdiHelper (nodes : List (Node K)) : Nat → Nat → List (XF K) → Except Err (List (XF K))
  | 0, _, _ => .error .outOfFuel
  | fuel + 1, id, arr =>
    match nodes[id]? with
    | none => .error .indexError
    | some node =>
      match mdiAdd node arr with
      | .error e => .error e
      | .ok arr =>
        match node.left with
        | none => .ok arr
        | some l =>
          match mdiHelper nodes fuel l arr with
          | .error e => .error e
          | .ok arr =>
            match node.right with
            | none => .error (.attributeError "split_reduction")
            | some r => mdiHelper nodes fuel r arr

/-- The loop of `calculate_mdi` over the trees — `forest_base.py:406-408`. -/
def mdiLoop : List (Tree K G) → List (XF K) → Except Err (List (XF K))
  | [], arr => .ok arr
  | t :: ts, arr =>
    match mdiHelper t.nodes t.nodes.length 0 arr with
    | .error e => .error e
    | .ok arr' => mdiLoop ts arr'

/-- `calculate_mdi` — `forest_base.py:399-409`; the result is cached in the forest and never invalidated. -/
def Forest.calculateMdi (f : Forest K G) : Except Err (List (XF K) × Forest K G) :=
  match f.mdi with
  | some a => .ok (a, f)
  | none =>
    match f.data with
    | none => .error .typeError
    | some [] => .error .indexError
    | some (row :: _) =>
      match mdiLoop f.trees (List.replicate row.length (.fin 0)) with
      | .error e => .error e
      | .ok arr => .ok (arr, { f with mdi := some arr })

/-- `reset` — `forest_base.py:423-429`. It stores the budget in a new attribute and leaves `remaining_budget`, `new_targets`
and the cached importances alone. -/
def Forest.reset (f : Forest K G) (budget : Option Int) : Forest K G :=
  { f with data := none, orgRef := none, trees := [], numQueries := 0, budgetAttr := budget
           oobList := if f.cfg.oobScore then some [] else f.oobList }

end FF
