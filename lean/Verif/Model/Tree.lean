import Verif.Model.Solvers

/-!
# `data_structures/node.py`, `data_structures/tree_base.py`, `tree_classifier.py`, `tree_regressor.py`

Python objects that reference each other become entries of a heap: a tree owns a list of nodes and refers to them by
position (position 0 is the root). Printing (`verbose`, `n_print`, `tree_print`) is not modelled, nor is the attribute
`Node.parent`, which nothing reads. After an exception the state is not observed.
-/

namespace FF

variable {K : Type} [Field K] [LinearOrder K] [FloorRing K] [NpFun K] {G : Type}

/-- The parameter `max_depth`: `None`, `float("inf")` or an integer. -/
inductive MaxDepth where
  | none
  | inf
  | some (d : Nat)
  deriving DecidableEq, Repr

/-- `solver`: `"MAB"`, `"EXACT"` or any other string. -/
inductive Solver where
  | mab
  | exact
  | other
  deriving DecidableEq, Repr

/-- `splitter`: `"BEST"`, `"DEPTH"` or any other string. -/
inductive Splitter where
  | best
  | depth
  | other
  deriving DecidableEq, Repr

/-- The parameters a tree keeps for its whole life — `tree_base.py:35-109`. -/
structure TreeCfg (K : Type) where
  isCls : Bool
  maxDepth : MaxDepth
  classes : ClassDict K
  featSub : FeatSub K
  minSamplesSplit : Nat
  minImpDec : K
  maxLeafNodes : Option Nat
  binType : Option BinType
  numBins : Option Nat
  criterion : Criterion
  splitter : Splitter
  solver : Solver
  withRep : Bool
  makeDiscrete : Bool
  minmax : Option (List K × List K)
  useLog : Bool
  useDynEps : Bool
  epsilon : K
  batch : Nat
  deriving Repr

/-- `Node` object state — `node.py:47-106`. `data = none` / `labels = none`: deleted by `split` (`node.py:239`).
`cacheCls`/`cacheReg` are the cached predictions (`prediction_probs` with `predicted_label`, `predicted_value`). -/
structure Node (K : Type) where
  idcs : List Nat
  featIdcs : List Nat
  data : Option (List (List K))
  labels : Option (List K)
  nData : Nat
  numBins : Option Nat
  depth : Nat
  proportion : K
  discrete : DiscDict K
  minmax : Option (List K × List K)
  counts : List Nat
  left : Option Nat
  right : Option Nat
  alreadySplit : Bool
  splitFeature : Option Nat
  prevSplitFeature : Nat
  splitValue : K
  computed : Bool
  numQueries : Nat
  splitReduction : Option (XF K)
  isSplittable : Option Bool
  cacheCls : Option (K × List K)
  cacheReg : Option K
  deriving Repr

/-- `TreeBase` object state — `tree_base.py:65-142`. -/
structure Tree (K G : Type) where
  cfg : TreeCfg K
  data : List (List K)
  labels : List K
  nData : Nat
  discrete : DiscDict K
  featIdcs : List Nat
  remaining : Option Int
  rng : G
  nodes : List (Node K)
  leaves : List Nat
  depth : Nat
  numSplits : Nat
  numQueries : Nat

/-- `Node.minmax` — `node.py:79-85`. -/
def nodeMinmax (minmax : Option (List K × List K)) (feats : List Nat) : Except Err (Option (List K × List K)) :=
  match minmax with
  | none => .ok none
  | some (mins, maxs) =>
    match takeE mins 0 feats, takeE maxs 0 feats with
    | .ok a, .ok b => .ok (some (a, b))
    | _, _ => .error .indexError

/-- `Node.__init__` — `node.py:30-106`. The result of `remap_discrete_features` (55-58) is overwritten by line 75, so only
line 75 is kept. Returns the node and the advanced generator of the tree. -/
def Node.init (R : Rng K G) (g : G) (cfg : TreeCfg K) (tdata : List (List K)) (tlabels : List K) (tfeats : List Nat)
    (tdisc : DiscDict K) (idcs : List Nat) (depth : Nat) (proportion : K) (numBins : Option Nat) :
    Except Err (Node K × G) :=
  match chooseFeatures R g tfeats cfg.featSub with
  | .error e => .error e
  | .ok (feats, g') =>
    match getSubset2d tdata idcs feats with
    | .error e => .error e
    | .ok sub =>
      match takeE tlabels 0 idcs with
      | .error e => .error e
      | .ok labels =>
        match nodeMinmax cfg.minmax feats with
        | .error e => .error e
        | .ok mm =>
          match (if cfg.isCls then countsOfLabels cfg.classes labels else .ok []) with
          | .error e => .error e
          | .ok counts =>
            .ok ({ idcs, featIdcs := feats, data := some sub, labels := some labels, nData := labels.length
                   numBins, depth, proportion, discrete := tdisc, minmax := mm, counts
                   left := none, right := none, alreadySplit := false, splitFeature := none
                   prevSplitFeature := 0, splitValue := 0, computed := false, numQueries := 0
                   splitReduction := none, isSplittable := none, cacheCls := none, cacheReg := none }, g')

/-- The number of bins used for a node — `node.py:117-118`, `int(np.log2(n_data)) + 1` with `use_logarithmic_split`
(`int(-inf)` for an empty node is an OverflowError). -/
def nodeBins (cfg : TreeCfg K) (node : Node K) : Except Err (Option Nat) :=
  if cfg.useLog then
    if node.nData = 0 then .error (.exception "OverflowError") else .ok (some (Nat.log2 node.nData + 1))
  else .ok node.numBins

/-- The tolerance used for a node — `node.py:119-122`. -/
def nodeEpsilon (cfg : TreeCfg K) (node : Node K) : K :=
  if cfg.useDynEps then cfg.epsilon * NpFun.sqrt (node.depth : K) else cfg.epsilon

/-- The call of the configured solver — `node.py:124-153`. -/
def nodeSolve (R : Rng K G) (g : G) (glob : Glob G) (junk : Junk K) (cfg : TreeCfg K) (node : Node K)
    (data : List (List K)) (labels : List K) (budget : Option Int) :
    Except Err (Option (SplitRes K) × Nat × G × Glob G) :=
  match cfg.solver with
  | .mab =>
    match solveMab R g glob junk data labels node.minmax node.discrete cfg.binType node.numBins cfg.isCls cfg.criterion
        (nodeEpsilon cfg node) cfg.withRep budget cfg.batch with
    | .error e => .error e
    | .ok out => .ok (out.split, out.total, out.g, out.glob)
  | .exact =>
    match solveExactly R glob.np junk.est data labels node.minmax node.discrete cfg.binType node.numBins cfg.isCls
        cfg.criterion with
    | .error e => .error e
    | .ok (r, q, np) => .ok (r, q, g, { glob with np := np })
  | .other => .error (.exception "Invalid solver specified, must be MAB or EXACT")

/-- Recording the solver's answer in the node — `node.py:155-177`. `feature_idcs[feat]` cannot be out of range. -/
def nodeRecord (node : Node K) (r : Option (SplitRes K)) (q : Nat) : Node K :=
  match r with
  | some s =>
    { node with
      computed := true, numQueries := q
      prevSplitFeature := s.feat
      splitFeature := some (node.featIdcs.getD s.feat 0)
      splitValue := s.value
      splitReduction := some (s.red.mul (.fin node.proportion)) }
  | none => { node with computed := true, numQueries := q }

/-- `Node.calculate_best_split` — `node.py:108-177`. The value it returns is always `node.splitReduction` of the updated
node (`None` when no split was found). -/
def calcBestSplit (R : Rng K G) (g : G) (glob : Glob G) (junk : Junk K) (cfg : TreeCfg K) (node : Node K)
    (budget : Option Int) : Except Err (Node K × G × Glob G) :=
  if node.computed then .ok (node, g, glob)
  else
    match nodeBins cfg node with
    | .error e => .error e
    | .ok nb =>
      let node := { node with numBins := nb }
      match node.data, node.labels with
      | some data, some labels =>
        match nodeSolve R g glob junk cfg node data labels budget with
        | .error e => .error e
        | .ok (r, q, g', glob') => .ok (nodeRecord node r q, g', glob')
      | _, _ => .error (.attributeError "data")

/-- The two index lists of a split — `node.py:216-221`. -/
def splitIdcs (idcs : List Nat) (col : List K) (v : K) : List Nat × List Nat :=
  (((idcs.zip col).filter (fun p => decide (p.2 ≤ v))).map Prod.fst,
   ((idcs.zip col).filter (fun p => decide (v < p.2))).map Prod.fst)

/-- `Node.create_child_node` — `node.py:179-195`. -/
def childNode (R : Rng K G) (g : G) (t : Tree K G) (node : Node K) (nlabels : Nat) (idcs : List Nat) :
    Except Err (Node K × G) :=
  Node.init R g t.cfg t.data t.labels t.featIdcs t.discrete idcs (node.depth + 1)
    (node.proportion * ((idcs.length : K) / (nlabels : K))) node.numBins

/-- `Node.split` on node `id` of the tree, once its best split is known — `node.py:203-239`. A node without a split found
(`split_reduction is None`) is left as it is. -/
def splitNodeCore (R : Rng K G) (t : Tree K G) (id : Nat) (node : Node K) : Except Err (Tree K G) :=
  match node.splitReduction with
  | none => .ok t
  | some red =>
    if !(red.lt (.fin 0)) then .error (.assertion "splitting this node would increase impurity")
    else
      match node.data, node.labels with
      | some data, some labels =>
        match colE data node.prevSplitFeature with
        | .error e => .error e
        | .ok col =>
          let lr := splitIdcs node.idcs col node.splitValue
          if lr.1.length = 0 ∨ lr.2.length = 0 then .error (.attributeError "Wrong split!!")
          else
            match childNode R t.rng t node labels.length lr.1 with
            | .error e => .error e
            | .ok (l, g1) =>
              match childNode R g1 t node labels.length lr.2 with
              | .error e => .error e
              | .ok (r, g2) =>
                let node' := { node with
                  left := some t.nodes.length, right := some (t.nodes.length + 1)
                  cacheCls := none, cacheReg := none, alreadySplit := true, data := none, labels := none }
                .ok { t with nodes := t.nodes.set id node' ++ [l, r], rng := g2 }
      | _, _ => .error (.attributeError "data")

/-- `Node.split` — `node.py:197-239`. -/
def splitNode (R : Rng K G) (glob : Glob G) (junk : Junk K) (t : Tree K G) (id : Nat) :
    Except Err (Tree K G × Glob G) :=
  match t.nodes[id]? with
  | none => .error .indexError
  | some node =>
    if node.alreadySplit then .error (.exception "Error: this node is already split")
    else
      match (if node.splitFeature = none then calcBestSplit R t.rng glob junk t.cfg node none
             else .ok (node, t.rng, glob)) with
      | .error e => .error e
      | .ok (node1, g, glob') =>
        match splitNodeCore R { t with nodes := t.nodes.set id node1, rng := g } id node1 with
        | .error e => .error e
        | .ok t' => .ok (t', glob')

/-- `feature_idcs if feature_idcs is not None else np.arange(len(self.data[0]))` — `tree_base.py:107-109`. -/
def defaultFeats (data : List (List K)) (featIdcs : Option (List Nat)) : Except Err (List Nat) :=
  match featIdcs with
  | some f => .ok f
  | none =>
    match data with
    | [] => .error .indexError
    | row :: _ => .ok (List.range row.length)

/-- `TreeBase.__init__` — `tree_base.py:35-142`. `set_seed` also reseeds the process-wide generators. `feature_idcs` and
`idcs` default to all columns / rows. -/
def Tree.init (R : Rng K G) (cfg : TreeCfg K) (data : List (List K)) (labels : List K) (disc : DiscDict K)
    (budget : Option Int) (randomState : Nat) (idcs : Option (List Nat)) (featIdcs : Option (List Nat)) :
    Except Err (Tree K G × Glob G) :=
  if data.length ≠ labels.length then .error (.assertion "Data and labels must have the same size")
  else
    let cfg : TreeCfg K :=
      { cfg with makeDiscrete :=
          if cfg.binType = some .linear ∨ cfg.binType = some .identity then false else cfg.makeDiscrete }
    match defaultFeats data featIdcs with
    | .error e => .error e
    | .ok feats =>
      match Node.init R (R.seed randomState) cfg data labels feats disc (idcs.getD (List.range labels.length)) 0 1
          cfg.numBins with
      | .error e => .error e
      | .ok (root, g) =>
        .ok ({ cfg, data, labels, nData := labels.length, discrete := disc, featIdcs := feats, remaining := budget
               rng := g, nodes := [root], leaves := [], depth := 1, numSplits := 0, numQueries := 0 },
             setSeed R randomState)

/-- `self.max_depth > node.depth` — `tree_base.py:161`; comparing `None` is a TypeError. -/
def depthOk (md : MaxDepth) (d : Nat) : Except Err Bool :=
  match md with
  | .none => .error .typeError
  | .inf => .ok true
  | .some m => .ok (decide (d < m))

/-- `check_splittable_constraints` — `tree_base.py:151-164` (with python's short-circuit `and`). -/
def splittableConstraints (cfg : TreeCfg K) (node : Node K) : Except Err Bool :=
  match depthOk cfg.maxDepth node.depth with
  | .error e => .error e
  | .ok false => .ok false
  | .ok true =>
    if cfg.minSamplesSplit < node.nData then
      match node.labels with
      | none => .error (.attributeError "labels")
      | some ls => .ok (decide (1 < (npUnique ls).length))
    else .ok false

/-- `check_splittable_impurity` on a node whose best split is already computed — `tree_base.py:166-179`. -/
def splittableImpurity (cfg : TreeCfg K) (treeN : Nat) (node : Node K) : Bool :=
  match node.splitReduction with
  | none => false
  | some red => ((red.mul (xnat node.nData)).div (xnat treeN)).lt (.fin cfg.minImpDec)

/-- State of the scan over the leaves — `tree_base.py:239-284`: the tree, the process-wide generators and the best leaf so
far (position in `leaves`, node, reduction). -/
structure Scan (K G : Type) where
  t : Tree K G
  glob : Glob G
  best : Option (Nat × Nat × XF K)

/-- `best_leaf_reduction`, initially `inf`. -/
def Scan.bestRed (s : Scan K G) : XF K :=
  match s.best with
  | none => .pinf
  | some b => b.2.2

/-- The budget is used up: `remaining_budget is not None and not remaining_budget > 0` — `tree_base.py:257-265`. -/
def noBudget (remaining : Option Int) : Bool :=
  match remaining with
  | none => false
  | some b => decide (b ≤ 0)

/-- One leaf of the scan — `tree_base.py:248-284`. `none` = `break` (budget used up). -/
def scanLeaf (R : Rng K G) (mem : Nat → Junk K) (pos id : Nat) (s : Scan K G) : Except Err (Option (Scan K G)) :=
  match s.t.nodes[id]? with
  | none => .error .indexError
  | some leaf =>
    match splittableConstraints s.t.cfg leaf with
    | .error e => .error e
    | .ok false =>
      .ok (some { s with t := { s.t with nodes := s.t.nodes.set id { leaf with isSplittable := some false } } })
    | .ok true =>
      if noBudget s.t.remaining then .ok none
      else
        match calcBestSplit R s.t.rng s.glob (mem id) s.t.cfg leaf s.t.remaining with
        | .error e => .error e
        | .ok (leaf1, g, glob) =>
          let q := if leaf.computed then 0 else leaf1.numQueries
          let sp : Bool := match leaf1.isSplittable with
            | some b => b
            | none => splittableImpurity s.t.cfg s.t.nData leaf1
          let leaf2 := { leaf1 with isSplittable := some sp }
          let t := { s.t with
            nodes := s.t.nodes.set id leaf2, rng := g
            numQueries := s.t.numQueries + q
            remaining := s.t.remaining.map (fun b => b - (q : Int)) }
          let best := match leaf2.splitReduction with
            | none => s.best
            | some red => if red.lt s.bestRed && sp then some (pos, id, red) else s.best
          .ok (some { t := t, glob := glob, best := best })

/-- The scan over all leaves (positions count from `pos`) — `tree_base.py:248-284`. -/
def scanLeaves (R : Rng K G) (mem : Nat → Junk K) : Nat → List Nat → Scan K G → Except Err (Scan K G)
  | _, [], s => .ok s
  | pos, id :: ids, s =>
    match scanLeaf R mem pos id s with
    | .error e => .error e
    | .ok none => .ok s
    | .ok (some s') => scanLeaves R mem (pos + 1) ids s'

/-- `get_depth` — `tree_base.py:144-149`; `max([])` is a ValueError. -/
def getDepth (t : Tree K G) : Except Err Nat :=
  match t.leaves.map (fun id => ((t.nodes[id]?).map Node.depth).getD 0) with
  | [] => .error .valueError
  | d :: ds => .ok (ds.foldl max d)

/-- Splitting the best leaf and replacing it in `leaves` — `tree_base.py:290-303`. -/
def performSplit (R : Rng K G) (mem : Nat → Junk K) (s : Scan K G) (pos id : Nat) :
    Except Err (Tree K G × Glob G) :=
  match splitNode R s.glob (mem id) s.t id with
  | .error e => .error e
  | .ok (t, glob) =>
    let leaves := t.leaves.eraseIdx pos
    let leaves := match (t.nodes[id]?).bind Node.left, (t.nodes[id]?).bind Node.right with
      | some l, some r => leaves ++ [l, r]
      | _, _ => leaves
    .ok ({ t with numSplits := t.numSplits + 1, leaves := leaves }, glob)

/-- Splitting the best leaf if it is good enough — `tree_base.py:286-305`; `true` = a split was made. -/
def splitBest (R : Rng K G) (mem : Nat → Junk K) (s : Scan K G) : Except Err (Bool × Tree K G × Glob G) :=
  match s.best with
  | some (pos, id, red) =>
    if red.lt (.fin s.t.cfg.minImpDec) then
      match performSplit R mem s pos id with
      | .error e => .error e
      | .ok (t', glob') => .ok (true, t', glob')
    else .ok (false, s.t, s.glob)
  | none => .ok (false, s.t, s.glob)

/-- The test on the number of leaves — `tree_base.py:230-237`; `true` = `break`. -/
def leafLimit (maxLeafNodes : Option Nat) (n : Nat) : Except Err Bool :=
  match maxLeafNodes with
  | none => .ok false
  | some m =>
    if n = m then .ok true
    else if n > m then .error (.exception "Somehow created too many leaves")
    else .ok false

/-- One pass of the `while` loop of `fit` — `tree_base.py:229-307`; `true` = go on. -/
def fitStep (R : Rng K G) (mem : Nat → Junk K) (t : Tree K G) (glob : Glob G) :
    Except Err (Bool × Tree K G × Glob G) :=
  match leafLimit t.cfg.maxLeafNodes t.leaves.length with
  | .error e => .error e
  | .ok true => .ok (false, t, glob)
  | .ok false =>
    match scanLeaves R mem 0 t.leaves { t := t, glob := glob, best := none } with
    | .error e => .error e
    | .ok s =>
      match splitBest R mem s with
      | .error e => .error e
      | .ok (again, t', glob') =>
        match getDepth t' with
        | .error e => .error e
        | .ok d => .ok (again, { t' with depth := d }, glob')

/-- The `while` loop of `fit` — `tree_base.py:229`. -/
def fitLoop (R : Rng K G) (mem : Nat → Junk K) : Nat → Tree K G → Glob G → Except Err (Tree K G × Glob G)
  | 0, _, _ => .error .outOfFuel
  | fuel + 1, t, glob =>
    match fitStep R mem t glob with
    | .error e => .error e
    | .ok (false, t', glob') => .ok (t', glob')
    | .ok (true, t', glob') => fitLoop R mem fuel t' glob'

/-- Passes of the loop that always suffice: one per data point of the leaves, plus one (see the termination theorem). -/
def fitFuel (t : Tree K G) : Nat :=
  (t.leaves.map (fun id => ((t.nodes[id]?).map Node.nData).getD 0)).sum + 2

/-- `check_both_or_neither` — `tree_base.py:193-205`, `forest_base.py:146-158`. -/
def bothOrNeither {α β : Type} (a : Option α) (b : Option β) : Except Err (Option (α × β)) :=
  match a, b with
  | some x, some y => .ok (some (x, y))
  | none, none => .ok none
  | _, _ => .error (.exception "Need to pass both data and labels to .fit()")

/-- `if self.make_discrete: self.discrete_features = data_to_discrete(self.data, n=10)` — `tree_base.py:222-223`,
`forest_base.py:179-180`. -/
def maybeDiscrete (make : Bool) (data : List (List K)) (d : DiscDict K) : Except Err (DiscDict K) :=
  if make then
    match dataToDiscrete data 10 with
    | .error e => .error e
    | .ok dd => .ok (some dd)
  else .ok d

/-- `TreeBase.fit` — `tree_base.py:207-319`. `mem id` is the content of the uninitialised arrays when node `id` is solved. -/
def Tree.fit (R : Rng K G) (mem : Nat → Junk K) (t : Tree K G) (glob : Glob G)
    (data : Option (List (List K))) (labels : Option (List K)) : Except Err (Tree K G × Glob G) :=
  match bothOrNeither data labels with
  | .error e => .error e
  | .ok passed =>
    let t : Tree K G := match passed with
      | none => t
      | some (d, l) => { t with data := d, labels := l, nData := l.length }
    match maybeDiscrete t.cfg.makeDiscrete t.data t.discrete with
    | .error e => .error e
    | .ok dd =>
      let t := { t with discrete := dd }
      match t.cfg.splitter with
      | .best =>
        let t := { t with leaves := t.leaves ++ [0] }
        fitLoop R mem (fitFuel t) t glob
      | .depth => .error (.exception "Budget tracking in recursive splitting is not yet supported")
      | .other => .error (.exception "Invalid splitter choice")

/-- A prediction: label and class probabilities, or a value. -/
inductive Pred (K : Type) where
  | cls (label : K) (probs : List K)
  | reg (v : K)
  deriving DecidableEq, Repr

/-- The walk from the root to a leaf — `tree_base.py:349-353`. Children have larger positions than their parent, so
`fuel = number of nodes` suffices. -/
def walk (nodes : List (Node K)) (x : List K) : Nat → Nat → Except Err Nat
  | 0, _ => .error .outOfFuel
  | fuel + 1, id =>
    match nodes[id]? with
    | none => .error .indexError
    | some node =>
      match node.left with
      | none => if node.right = none then .ok id else .error (.assertion "Tree is malformed")
      | some l =>
        match node.splitFeature with
        | none => .error .indexError
        | some f =>
          match x[f]? with
          | none => .error .indexError
          | some v =>
            if v ≤ node.splitValue then walk nodes x fuel l
            else
              match node.right with
              | none => .error (.attributeError "left")
              | some r => walk nodes x fuel r

/-- `idx_to_class[i]`: the reversed dictionary (the last key with that index wins) — `tree_base.py:78`. -/
def idxToClass (d : ClassDict K) (i : Nat) : Option K := ((d.filter (fun p => p.2 = i)).getLast?).map Prod.fst

/-- `TreeBase.predict` — `tree_base.py:338-373`. Also returns the tree with the prediction cached in the leaf. A leaf without
samples gives NaN probabilities (the assertion fails) or a NaN mean, which the model does not follow. -/
def Tree.predict (t : Tree K G) (x : List K) : Except Err (Pred K × Tree K G) :=
  match walk t.nodes x t.nodes.length 0 with
  | .error e => .error e
  | .ok id =>
    match t.nodes[id]? with
    | none => .error .indexError
    | some node =>
      if t.cfg.isCls then
        match node.cacheCls with
        | some (l, p) => .ok (.cls l p, t)
        | none =>
          if node.counts.sum = 0 then .error (.assertion "Probabilities don't sum to 1")
          else
            let p : List K := node.counts.map (fun (c : Nat) => (c : K) / ((node.counts.sum : Nat) : K))
            match npArgmax p with
            | none => .error .valueError
            | some i =>
              match idxToClass t.cfg.classes i with
              | none => .error .keyError
              | some l =>
                .ok (.cls l p, { t with nodes := t.nodes.set id { node with cacheCls := some (l, p) } })
      else
        match node.cacheReg with
        | some v => .ok (.reg v, t)
        | none =>
          match node.labels with
          | none => .error (.attributeError "labels")
          | some [] => .error (.unmodelled "mean of an empty leaf")
          | some ls =>
            .ok (.reg (npMean ls), { t with nodes := t.nodes.set id { node with cacheReg := some (npMean ls) } })

/-- `predict_batch` — `classifier.py:7-18`, `regressor.py:7-17`. -/
def Tree.predictBatch (t : Tree K G) : List (List K) → Except Err (List (Pred K) × Tree K G)
  | [] => .ok ([], t)
  | x :: xs =>
    match t.predict x with
    | .error e => .error e
    | .ok (p, t') =>
      match Tree.predictBatch t' xs with
      | .error e => .error e
      | .ok (ps, t'') => .ok (p :: ps, t'')

end FF
