import Mathlib.Data.List.Dedup
import Mathlib.Order.Defs.LinearOrder

/-!
# What the preprocessing of a table should do
-/

namespace Spec

variable {V : Type} [LinearOrder V]

/-- The number of different values in the column that are smaller than `v`. -/
def rankIn (vs : List V) (v : V) : Nat := (vs.dedup.filter (fun w => decide (w < v))).length

/-- Rows `i` and `j` of a table given by its columns are the same. -/
def SameRow {N W : Type} (table : List (N × List W)) (i j : Nat) : Prop := ∀ p ∈ table, p.2[i]? = p.2[j]?

end Spec
