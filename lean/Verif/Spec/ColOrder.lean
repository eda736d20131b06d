import Verif.Spec.Cart

/-!
# The order of the columns of a table

Specification for C146. Nothing here mentions the model.
-/

namespace Spec

variable {K : Type} [Field K] [LinearOrder K]

/-- A row of a table whose columns are put into another order: number `j` of the new row is number `order[j]` of the old one. -/
def reorderRow (order : List Nat) (row : List K) : List K := order.map (fun j => row.getD j 0)

/-- The decision tree that asks for feature `g f` where the given one asks for feature `f`. -/
def DTree.rename (g : Nat → Nat) : DTree K → DTree K
  | .leaf rows => .leaf rows
  | .node f v yes no => .node (g f) v (yes.rename g) (no.rename g)

/-- No ties between columns: wherever the tree asks for a column, every candidate of every other column is worse. Candidates of the same
column may be equally good. -/
def CartProblem.ClearCut (P : CartProblem K) : List Nat → DTree K → Prop
  | _, .leaf _ => True
  | rows, .node f v yes no =>
    (∀ c ∈ P.candidates rows, c.1 ≠ f → P.score rows (f, v) < P.score rows c) ∧
      CartProblem.ClearCut P (rows.filter (fun i => decide (P.value i f ≤ v))) yes ∧
      CartProblem.ClearCut P (rows.filter (fun i => decide (v < P.value i f))) no

end Spec
