import Verif.Spec.Basic

/-!
# What the averages of a classification forest should be
-/

namespace Spec

variable {K : Type} [Field K]

/-- The true average of the frequencies of class number `j` in the leaves of the trees. -/
def trueAvg (counts : List (List Nat)) (j : Nat) : K := mean (counts.map (fun c => ((c.getD j 0 : Nat) : K) / ((c.sum : Nat) : K)))

/-- Bound of the rounding errors in the averages of `T` trees, in arithmetic with `p` bits. -/
def avgErr (p T : Nat) : K := (1 + 1 / 2 ^ p) ^ (T + 1) - 1

end Spec
