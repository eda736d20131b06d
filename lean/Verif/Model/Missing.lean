import Verif.Model.Forest

/-!
# Missing and infinite values

`predict` for points with NaN or infinite entries, and `fit` on training data in which one number stands for NaN.
-/

namespace FF

variable {K : Type} [Field K] [LinearOrder K] [FloorRing K] [NpFun K] {G : Type}

/-! ### Points -/

/-- `feature_value <= node.split_value` for a float — `tree_base.py:352`: false for NaN. -/
def leX (v : XF K) (s : K) : Bool :=
  match v with
  | .nan => false
  | .ninf => true
  | .fin x => decide (x ≤ s)
  | .pinf => false

/-- The walk of `predict` for a point of floats — `tree_base.py:349-353`. -/
def walkX (nodes : List (Node K)) (x : List (XF K)) : Nat → Nat → Except Err Nat
  | 0, _ => .error .outOfFuel
  | fuel + 1, id =>
    match nodes[id]? with
    | none => .error .indexError
    | some node =>
      match node.left with
      | none => if node.right = none then .ok id else .error (.assertion "Tree is malformed")
      | some l =>
        match node.splitFeature with
        | none => .error .indexError
        | some f =>
          match x[f]? with
          | none => .error .indexError
          | some v =>
            if leX v node.splitValue then walkX nodes x fuel l
            else
              match node.right with
              | none => .error (.attributeError "left")
              | some r => walkX nodes x fuel r

/-- The answer of a leaf — `tree_base.py:355-373`; as in `Tree.predict`. -/
def Tree.answerAt (t : Tree K G) (id : Nat) : Except Err (Pred K × Tree K G) :=
  match t.nodes[id]? with
  | none => .error .indexError
  | some node =>
    if t.cfg.isCls then
      match node.cacheCls with
      | some (l, p) => .ok (.cls l p, t)
      | none =>
        if node.counts.sum = 0 then .error (.assertion "Probabilities don't sum to 1")
        else
          let p : List K := node.counts.map (fun (c : Nat) => (c : K) / ((node.counts.sum : Nat) : K))
          match npArgmax p with
          | none => .error .valueError
          | some i =>
            match idxToClass t.cfg.classes i with
            | none => .error .keyError
            | some l =>
              .ok (.cls l p, { t with nodes := t.nodes.set id { node with cacheCls := some (l, p) } })
    else
      match node.cacheReg with
      | some v => .ok (.reg v, t)
      | none =>
        match node.labels with
        | none => .error (.attributeError "labels")
        | some [] => .error (.unmodelled "mean of an empty leaf")
        | some ls =>
          .ok (.reg (npMean ls), { t with nodes := t.nodes.set id { node with cacheReg := some (npMean ls) } })

/-- `TreeBase.predict` for a point of floats — `tree_base.py:338-373`. -/
def Tree.predictX (t : Tree K G) (x : List (XF K)) : Except Err (Pred K × Tree K G) :=
  match walkX t.nodes x t.nodes.length 0 with
  | .error e => .error e
  | .ok id => t.answerAt id

/-- The predictions of the trees for a point of floats — `forest_base.py:336-350`. -/
def treesPredictX : List (Tree K G) → List (XF K) → Except Err (List (Pred K) × List (Tree K G))
  | [], _ => .ok ([], [])
  | t :: ts, x =>
    match t.predictX x with
    | .error e => .error e
    | .ok (p, t') =>
      match treesPredictX ts x with
      | .error e => .error e
      | .ok (ps, ts') => .ok (p :: ps, t' :: ts')

/-- `ForestBase.predict` for a point of floats — `forest_base.py:329-359`; as in `Forest.predict`. -/
def Forest.predictX (f : Forest K G) (x : List (XF K)) : Except Err (Pred K × Forest K G) :=
  match treesPredictX f.trees x with
  | .error e => .error e
  | .ok (ps, ts) =>
    let f' := { f with trees := ts }
    if f.cfg.isCls then
      if ps = [] then .error (.unmodelled "average over no trees")
      else
        let avg := avgProbs f.classes.length (ps.map Pred.probs)
        match npArgmax avg with
        | none => .error .valueError
        | some i =>
          match f.classes[i]? with
          | none => .error .indexError
          | some c => .ok (.cls c.1 avg, f')
    else if f.cfg.boosting then
      if ps = [] then .error .nameError
      else .ok (.reg (boostSum (f.cfg.boostingLr.getD 0) (ps.map Pred.value)), f')
    else
      if ps = [] then .error (.unmodelled "average over no trees")
      else .ok (.reg (npMean (ps.map Pred.value)), f')

/-! ### Training data

The number `nan`, larger than all others in the data, stands for NaN. With IDENTITY bins this is faithful up to the split: `np.unique`
(numpy 1.21 or later) puts a single NaN at the end of the bin edges, and `np.searchsorted` looks for NaN there. The two comparisons of a split
are both false for NaN. -/

/-- The two index lists of a split — `node.py:216-221`: NaN is neither `<=` nor `>` the threshold, nor is anything if the threshold is NaN. -/
def splitIdcsNaN (nan : K) (idcs : List Nat) (col : List K) (v : K) : List Nat × List Nat :=
  (((idcs.zip col).filter (fun p => decide (p.2 ≠ nan ∧ v ≠ nan ∧ p.2 ≤ v))).map Prod.fst,
   ((idcs.zip col).filter (fun p => decide (p.2 ≠ nan ∧ v ≠ nan ∧ v < p.2))).map Prod.fst)

/-- `Node.split` once the best split is known — `node.py:203-239`; as `splitNodeCore`. -/
def splitNodeCoreNaN (nan : K) (R : Rng K G) (t : Tree K G) (id : Nat) (node : Node K) : Except Err (Tree K G) :=
  match node.splitReduction with
  | none => .ok t
  | some red =>
    if !(red.lt (.fin 0)) then .error (.assertion "splitting this node would increase impurity")
    else
      match node.data, node.labels with
      | some data, some labels =>
        match colE data node.prevSplitFeature with
        | .error e => .error e
        | .ok col =>
          let lr := splitIdcsNaN nan node.idcs col node.splitValue
          if lr.1.length = 0 ∨ lr.2.length = 0 then .error (.attributeError "Wrong split!!")
          else
            match childNode R t.rng t node labels.length lr.1 with
            | .error e => .error e
            | .ok (l, g1) =>
              match childNode R g1 t node labels.length lr.2 with
              | .error e => .error e
              | .ok (r, g2) =>
                let node' := { node with
                  left := some t.nodes.length, right := some (t.nodes.length + 1)
                  cacheCls := none, cacheReg := none, alreadySplit := true, data := none, labels := none }
                .ok { t with nodes := t.nodes.set id node' ++ [l, r], rng := g2 }
      | _, _ => .error (.attributeError "data")

/-- `Node.split` — `node.py:197-239`; as `splitNode`. -/
def splitNodeNaN (nan : K) (R : Rng K G) (glob : Glob G) (junk : Junk K) (t : Tree K G) (id : Nat) :
    Except Err (Tree K G × Glob G) :=
  match t.nodes[id]? with
  | none => .error .indexError
  | some node =>
    if node.alreadySplit then .error (.exception "Error: this node is already split")
    else
      match (if node.splitFeature = none then calcBestSplit R t.rng glob junk t.cfg node none
             else .ok (node, t.rng, glob)) with
      | .error e => .error e
      | .ok (node1, g, glob') =>
        match splitNodeCoreNaN nan R { t with nodes := t.nodes.set id node1, rng := g } id node1 with
        | .error e => .error e
        | .ok t' => .ok (t', glob')

/-- Splitting the best leaf and replacing it in `leaves` — `tree_base.py:290-303`; as `performSplit`. -/
def performSplitNaN (nan : K) (R : Rng K G) (mem : Nat → Junk K) (s : Scan K G) (pos id : Nat) :
    Except Err (Tree K G × Glob G) :=
  match splitNodeNaN nan R s.glob (mem id) s.t id with
  | .error e => .error e
  | .ok (t, glob) =>
    let leaves := t.leaves.eraseIdx pos
    let leaves := match (t.nodes[id]?).bind Node.left, (t.nodes[id]?).bind Node.right with
      | some l, some r => leaves ++ [l, r]
      | _, _ => leaves
    .ok ({ t with numSplits := t.numSplits + 1, leaves := leaves }, glob)

/-- Splitting the best leaf if it is good enough — `tree_base.py:286-305`; as `splitBest`. -/
def splitBestNaN (nan : K) (R : Rng K G) (mem : Nat → Junk K) (s : Scan K G) : Except Err (Bool × Tree K G × Glob G) :=
  match s.best with
  | some (pos, id, red) =>
    if red.lt (.fin s.t.cfg.minImpDec) then
      match performSplitNaN nan R mem s pos id with
      | .error e => .error e
      | .ok (t', glob') => .ok (true, t', glob')
    else .ok (false, s.t, s.glob)
  | none => .ok (false, s.t, s.glob)

/-- One pass of the `while` loop of `fit` — `tree_base.py:229-307`; as `fitStep`. -/
def fitStepNaN (nan : K) (R : Rng K G) (mem : Nat → Junk K) (t : Tree K G) (glob : Glob G) :
    Except Err (Bool × Tree K G × Glob G) :=
  match leafLimit t.cfg.maxLeafNodes t.leaves.length with
  | .error e => .error e
  | .ok true => .ok (false, t, glob)
  | .ok false =>
    match scanLeaves R mem 0 t.leaves { t := t, glob := glob, best := none } with
    | .error e => .error e
    | .ok s =>
      match splitBestNaN nan R mem s with
      | .error e => .error e
      | .ok (again, t', glob') =>
        match getDepth t' with
        | .error e => .error e
        | .ok d => .ok (again, { t' with depth := d }, glob')

/-- The `while` loop of `fit` — `tree_base.py:229`; as `fitLoop`. -/
def fitLoopNaN (nan : K) (R : Rng K G) (mem : Nat → Junk K) : Nat → Tree K G → Glob G → Except Err (Tree K G × Glob G)
  | 0, _, _ => .error .outOfFuel
  | fuel + 1, t, glob =>
    match fitStepNaN nan R mem t glob with
    | .error e => .error e
    | .ok (false, t', glob') => .ok (t', glob')
    | .ok (true, t', glob') => fitLoopNaN nan R mem fuel t' glob'

/-- Construct a tree with IDENTITY bins and call `fit()` — `tree_base.py:35-142, 207-319` with the default splitter. -/
def runTreeNaN (nan : K) (R : Rng K G) (mem : Nat → Junk K) (cfg : TreeCfg K) (data : List (List K)) (labels : List K) (disc : DiscDict K)
    (budget : Option Int) (randomState : Nat) (idcs : Option (List Nat)) (featIdcs : Option (List Nat)) (glob : Glob G) :
    Except Err (Tree K G) :=
  match Tree.init R cfg data labels disc budget randomState idcs featIdcs with
  | .error e => .error e
  | .ok (t, _) =>
    match maybeDiscrete t.cfg.makeDiscrete t.data t.discrete with
    | .error e => .error e
    | .ok dd =>
      let t := { t with discrete := dd, leaves := t.leaves ++ [0] }
      match fitLoopNaN nan R mem (fitFuel t) t glob with
      | .error e => .error e
      | .ok (t', _) => .ok t'

end FF
