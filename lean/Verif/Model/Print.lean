import Verif.Model.Tree

/-!
# Printing a tree — `node.py:241-277`, `tree_base.py:375-380`

What is printed is modelled as a list of lines; how python turns the numbers into text is not modelled.
-/

namespace FF

variable {K : Type} [Field K] [LinearOrder K] [FloorRing K] [NpFun K] {G : Type}

/-- A printed line: `depth` times `"|   "`, then `"|--- "` and one of `feature_f <= v`, `feature_f > v`, `class: c` and `value:  v`. -/
inductive Line (K : Type) where
  | le (depth : Nat) (f : Option Nat) (v : K)
  | gt (depth : Nat) (f : Option Nat) (v : K)
  | cls (depth : Nat) (c : K)
  | value (depth : Nat) (v : K)
  deriving DecidableEq, Repr

/-- The line of a leaf — `node.py:264-277`. The mean of no labels is NaN, which the model does not follow. -/
def leafLine (t : Tree K G) (node : Node K) : Except Err (Line K) :=
  if t.cfg.isCls then
    match npArgmax (node.counts.map (fun (c : Nat) => (c : K))) with
    | none => .error .valueError
    | some i =>
      match idxToClass t.cfg.classes i with
      | none => .error .keyError
      | some l => .ok (.cls node.depth l)
  else
    match node.labels with
    | none => .error (.attributeError "labels")
    | some [] => .error (.unmodelled "mean of an empty leaf")
    | some ls => .ok (.value node.depth (npMean ls))

/-- `Node.n_print` — `node.py:241-277`. Children have larger positions than their parent, so `fuel = number of nodes` suffices. -/
def nPrint (t : Tree K G) : Nat → Nat → Except Err (List (Line K))
  | 0, _ => .error .outOfFuel
  | fuel + 1, id =>
    match t.nodes[id]? with
    | none => .error .indexError
    | some node =>
      match node.left, node.right with
      | none, none =>
        match leafLine t node with
        | .error e => .error e
        | .ok l => .ok [l]
      | some l, some r =>
        match nPrint t fuel l with
        | .error e => .error e
        | .ok ls =>
          match nPrint t fuel r with
          | .error e => .error e
          | .ok rs =>
            .ok (.le node.depth node.splitFeature node.splitValue :: ls ++ .gt node.depth node.splitFeature node.splitValue :: rs)
      | _, _ => .error (.assertion "Error: split is malformed")

/-- `TreeBase.tree_print` — `tree_base.py:375-380` (without the two empty lines at the end). -/
def Tree.print (t : Tree K G) : Except Err (List (Line K)) := nPrint t t.nodes.length 0

end FF
