import Verif.Spec.Grow

/-!
# Specification of the cost of training (C136)
-/

namespace FF

variable {K : Type} [Field K] [LinearOrder K] {G : Type}

/-- The precomputed maxima of the columns, if there are any, are at least the values of the training rows of the tree. -/
def MaximaCover (A : TreeArgs K) : Prop :=
  ∀ mins maxs, A.cfg.minmax = some (mins, maxs) → ∀ j ∈ A.cols, ∀ i ∈ A.rows, (A.data.getD i []).getD j 0 ≤ maxs.getD j 0

/-- How many nodes of the tree were searched for a split. -/
def searched (t : Tree K G) : Nat := t.nodes.countP (fun nd => nd.computed)

end FF
