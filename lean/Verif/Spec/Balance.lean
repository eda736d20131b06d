import Verif.Spec.Forest

/-!
# Being right on average (C166)
-/

namespace Spec

variable {K : Type} [Field K]

/-- On the given rows the answers `v` have the same sum, and so the same mean, as the targets `y`: errors in one direction cancel those in the other. -/
def RightOnAverage (rows : List Nat) (y v : Nat → K) : Prop := (rows.map v).sum = (rows.map y).sum

/-- The same for the rows weighted with `g`: the errors have nothing to do with `g`. -/
def RightWeighted (rows : List Nat) (g y v : Nat → K) : Prop := (rows.map (fun i => g i * v i)).sum = (rows.map (fun i => g i * y i)).sum

/-- 1 for the rows that have the label `c`, 0 for the others. -/
def isLabel [DecidableEq K] (y : Nat → K) (c : K) (i : Nat) : K := if y i = c then 1 else 0

end Spec
