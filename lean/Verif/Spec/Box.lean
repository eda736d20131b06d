import Verif.Spec.Grow

/-!
# Specification for C120: boxes
-/

namespace Spec

variable {K : Type} [LinearOrder K]

/-- A box with sides parallel to the axes: for each column an optional lower bound (exclusive) and an optional upper bound (inclusive). -/
structure Box (K : Type) where
  lo : Nat → Option K
  hi : Nat → Option K

/-- The point `x` lies in the box. -/
def Box.Has (b : Box K) (x : List K) : Prop :=
  ∀ (j : Nat) (v : K), x[j]? = some v → (∀ a, b.lo j = some a → a < v) ∧ (∀ c, b.hi j = some c → v ≤ c)

open Classical in
/-- Those of the given rows of the data that lie in the box. -/
noncomputable def Box.rowsIn (b : Box K) (data : List (List K)) (rows : List Nat) : List Nat :=
  rows.filter (fun i => decide (b.Has (data.getD i [])))

/-- Both points have column `j`, on the same side of the threshold `v`; or neither has it. -/
def SameSide (x y : List K) (j : Nat) (v : K) : Prop :=
  (x[j]? = none ∧ y[j]? = none) ∨ ∃ a b, x[j]? = some a ∧ y[j]? = some b ∧ (a ≤ v ↔ b ≤ v)

end Spec

namespace FF

variable {K : Type} {G : Type}

/-- The tree has an inner node that splits column `j` at the threshold `v`. -/
def SplitsAt (t : Tree K G) (j : Nat) (v : K) : Prop := ∃ nd ∈ t.nodes, nd.left ≠ none ∧ nd.splitFeature = some j ∧ nd.splitValue = v

end FF
