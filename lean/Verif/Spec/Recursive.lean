import Verif.Spec.Grow

/-!
# Leaves from left to right
-/

namespace FF

variable {K G : Type}

/-- The leaves of the subtree at node `id`, from left to right. -/
inductive LeavesBelow (nodes : List (Node K)) : Nat → List Nat → Prop
  | leaf {id : Nat} {nd : Node K} (hn : nodes[id]? = some nd) (hl : nd.left = none) (hr : nd.right = none) : LeavesBelow nodes id [id]
  | node {id l r : Nat} {nd : Node K} {ls rs : List Nat} (hn : nodes[id]? = some nd) (hl : nd.left = some l) (hr : nd.right = some r)
      (hls : LeavesBelow nodes l ls) (hrs : LeavesBelow nodes r rs) : LeavesBelow nodes id (ls ++ rs)

end FF
