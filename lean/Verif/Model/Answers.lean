import Verif.Model.Forest

/-!
# Arrays handed to the caller

`Tree.predict` and `Forest.predict` answer with values. Here an answer of class probabilities is an array object: a position in a heap of
arrays, which the caller can read and change later. `TreeBase.predict` hands out the very array it keeps in the leaf
(`tree_base.py:358`, `:368`); `ForestBase.predict` and `predict_batch` copy. Numbers (class labels, regression values) are immutable.
-/

namespace FF

variable {K : Type} [Field K] [LinearOrder K] [FloorRing K] [NpFun K] {G : Type}

/-- An answer of `predict`: a class label with the position of the array of class probabilities, or a number. -/
inductive Answer (K : Type) where
  | cls (label : K) (pos : Nat)
  | reg (v : K)
  deriving DecidableEq, Repr

/-- The arrays in an answer. -/
def Answer.arrays : Answer K → List Nat
  | .cls _ a => [a]
  | .reg _ => []

/-- What the caller sees in the answer when the arrays have the contents `h`. -/
def Answer.read (h : List (List K)) : Answer K → Pred K
  | .cls l a => .cls l (h.getD a [])
  | .reg v => .reg v

/-- A tree whose leaves keep positions of arrays: `probs` gives the `predicted_label` of a node and the position of its
`prediction_probs` (`none` for `None`). The field `cacheCls` of the nodes of `base` is not used. -/
structure SharedTree (K G : Type) where
  base : Tree K G
  probs : Nat → Option (K × Nat)

/-- A tree as `fit` leaves it: no class probabilities are kept yet — `node.py:103`. -/
def Tree.share (t : Tree K G) : SharedTree K G := ⟨t, fun _ => none⟩

/-- `TreeBase.predict` with array objects — `tree_base.py:338-373`. -/
def SharedTree.predict (t : SharedTree K G) (h : List (List K)) (x : List K) :
    Except Err (Answer K × SharedTree K G × List (List K)) :=
  match walk t.base.nodes x t.base.nodes.length 0 with
  | .error e => .error e
  | .ok id =>
    match t.base.nodes[id]? with
    | none => .error .indexError
    | some node =>
      if t.base.cfg.isCls then
        match t.probs id with
        | some (l, a) => .ok (.cls l a, t, h)
        | none =>
          if node.counts.sum = 0 then .error (.assertion "Probabilities don't sum to 1")
          else
            let p : List K := node.counts.map (fun (c : Nat) => (c : K) / ((node.counts.sum : Nat) : K))
            match npArgmax p with
            | none => .error .valueError
            | some i =>
              match idxToClass t.base.cfg.classes i with
              | none => .error .keyError
              | some l =>
                .ok (.cls l h.length, { t with probs := fun j => if j = id then some (l, h.length) else t.probs j }, h ++ [p])
      else
        match t.base.predict x with
        | .error e => .error e
        | .ok (p, t') => .ok (.reg p.value, { t with base := t' }, h)

/-- The assignment of an answer to an entry of `pred_probs` and `pred_labels` copies it — `classifier.py:17`, `regressor.py:16`. -/
def Answer.copy (h : List (List K)) : Answer K → Answer K × List (List K)
  | .cls l a => (.cls l h.length, h ++ [h.getD a []])
  | .reg v => (.reg v, h)

/-- `predict_batch` of a tree with array objects — `classifier.py:7-18`, `regressor.py:7-17`. A row of the array `pred_probs` is an array of
its own here. -/
def SharedTree.predictBatch (t : SharedTree K G) (h : List (List K)) :
    List (List K) → Except Err (List (Answer K) × SharedTree K G × List (List K))
  | [] => .ok ([], t, h)
  | x :: xs =>
    match t.predict h x with
    | .error e => .error e
    | .ok (a, t', h') =>
      let (a', h'') := a.copy h'
      match SharedTree.predictBatch t' h'' xs with
      | .error e => .error e
      | .ok (as, r) => .ok (a' :: as, r)

/-- A forest of such trees. The trees of `base` are not used. -/
structure SharedForest (K G : Type) where
  base : Forest K G
  trees : List (SharedTree K G)

/-- A forest as `fit` leaves it. -/
def Forest.share (f : Forest K G) : SharedForest K G := ⟨f, f.trees.map Tree.share⟩

/-- `agg_preds[tree_idx] = tree.predict(datapoint)[1]` for all trees: the answers are copied — `forest_base.py:341-343`, `:349-352`,
`:357-358`. -/
def sharedTreesPredict : List (SharedTree K G) → List (List K) → List K →
    Except Err (List (Pred K) × List (SharedTree K G) × List (List K))
  | [], h, _ => .ok ([], [], h)
  | t :: ts, h, x =>
    match t.predict h x with
    | .error e => .error e
    | .ok (a, t', h') =>
      match sharedTreesPredict ts h' x with
      | .error e => .error e
      | .ok (ps, ts', h'') => .ok (a.read h' :: ps, t' :: ts', h'')

/-- `ForestBase.predict` with array objects — `forest_base.py:329-359`. `agg_preds.mean(axis=0)` is a new array. -/
def SharedForest.predict (f : SharedForest K G) (h : List (List K)) (x : List K) :
    Except Err (Answer K × SharedForest K G × List (List K)) :=
  match sharedTreesPredict f.trees h x with
  | .error e => .error e
  | .ok (ps, ts, h') =>
    let f' := { f with trees := ts }
    if f.base.cfg.isCls then
      if ps = [] then .error (.unmodelled "average over no trees")
      else
        let avg := avgProbs f.base.classes.length (ps.map Pred.probs)
        match npArgmax avg with
        | none => .error .valueError
        | some i =>
          match f.base.classes[i]? with
          | none => .error .indexError
          | some c => .ok (.cls c.1 h'.length, f', h' ++ [avg])
    else if f.base.cfg.boosting then
      if ps = [] then .error .nameError
      else .ok (.reg (boostSum (f.base.cfg.boostingLr.getD 0) (ps.map Pred.value)), f', h')
    else
      if ps = [] then .error (.unmodelled "average over no trees")
      else .ok (.reg (npMean (ps.map Pred.value)), f', h')

/-- `predict_batch` of a forest with array objects — `classifier.py:7-18`, `regressor.py:7-17`. -/
def SharedForest.predictBatch (f : SharedForest K G) (h : List (List K)) :
    List (List K) → Except Err (List (Answer K) × SharedForest K G × List (List K))
  | [] => .ok ([], f, h)
  | x :: xs =>
    match f.predict h x with
    | .error e => .error e
    | .ok (a, f', h') =>
      let (a', h'') := a.copy h'
      match SharedForest.predictBatch f' h'' xs with
      | .error e => .error e
      | .ok (as, r) => .ok (a' :: as, r)

end FF
