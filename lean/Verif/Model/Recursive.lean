import Verif.Model.Tree

/-!
# Depth-first growth

`TreeBase.recursive_split` (`data_structures/tree_base.py:321-336`). `fit` refuses the splitter DEPTH before it would call it
(`tree_base.py:311-315`), so only a caller who calls the method on a tree's root grows a tree in this way.
-/

namespace FF

variable {K : Type} [Field K] [LinearOrder K] [FloorRing K] [NpFun K] {G : Type}

/-- `check_splittable` — `tree_base.py:181-191`, with python's short-circuit `and`; `check_splittable_impurity`
(`tree_base.py:166-179`) first calls `node.calculate_best_split()`, without a budget. Returns the node as that call leaves it. -/
def checkSplittable (R : Rng K G) (g : G) (glob : Glob G) (junk : Junk K) (cfg : TreeCfg K) (treeN : Nat) (node : Node K) :
    Except Err (Bool × Node K × G × Glob G) :=
  match splittableConstraints cfg node with
  | .error e => .error e
  | .ok false => .ok (false, node, g, glob)
  | .ok true =>
    match calcBestSplit R g glob junk cfg node none with
    | .error e => .error e
    | .ok (node1, g1, glob1) => .ok (splittableImpurity cfg treeN node1, node1, g1, glob1)

/-- `node.is_splittable = ...` and `self.num_queries += node.num_queries` — `tree_base.py:327-328`; `node1` is the node as the check left
it. -/
def noteSplittable (t : Tree K G) (id : Nat) (node1 : Node K) (sp : Bool) (g : G) : Tree K G :=
  { t with
    nodes := t.nodes.set id { node1 with isSplittable := some sp }, rng := g
    numQueries := t.numQueries + node1.numQueries }

/-- `TreeBase.recursive_split` — `tree_base.py:321-336`. The second call of `node.calculate_best_split()` (line 333) finds the split
computed and does nothing. A node that `node.split()` leaves without children would make the recursive calls fail on `None`. Python's
limit on the depth of the recursion is not modelled. -/
def recursiveSplit (R : Rng K G) (mem : Nat → Junk K) : Nat → Nat → Tree K G → Glob G → Except Err (Tree K G × Glob G)
  | 0, _, _, _ => .error .outOfFuel
  | fuel + 1, id, t, glob =>
    match t.nodes[id]? with
    | none => .error .indexError
    | some node =>
      match checkSplittable R t.rng glob (mem id) t.cfg t.nData node with
      | .error e => .error e
      | .ok (sp, node1, g, glob1) =>
        let t := noteSplittable t id node1 sp g
        if sp then
          match splitNode R glob1 (mem id) { t with numSplits := t.numSplits + 1 } id with
          | .error e => .error e
          | .ok (t, glob2) =>
            match (t.nodes[id]?).bind Node.left, (t.nodes[id]?).bind Node.right with
            | some l, some r =>
              match recursiveSplit R mem fuel l t glob2 with
              | .error e => .error e
              | .ok (t, glob3) => recursiveSplit R mem fuel r t glob3
            | _, _ => .error (.attributeError "depth")
        else .ok ({ t with leaves := t.leaves ++ [id] }, glob1)

end FF
