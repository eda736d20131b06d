import Verif.Model.Reproduce

/-!
# What an announcement should mean
-/

namespace Spec

variable {K : Type} [Field K] [LinearOrder K]

/-- Both are numbers, and they differ by less than `eps`. -/
def Near (eps : K) (a b : Option K) : Prop := ∃ x y, a = some x ∧ b = some y ∧ x < y + eps ∧ y < x + eps

/-- All four ends of the intervals are near to those in the log. -/
def Reproduced (eps : K) (r l : FF.StabLine K) : Prop :=
  Near eps r.lbExact l.lbExact ∧ Near eps r.ubExact l.ubExact ∧ Near eps r.lbMab l.lbMab ∧ Near eps r.ubMab l.ubMab

/-- The second interval begins above the end of the first. -/
def Better (l : FF.StabLine K) : Prop := ∃ x y, l.ubExact = some x ∧ l.lbMab = some y ∧ x < y

/-- The second interval is known to begin at or below the end of the first. -/
def NotBetter (l : FF.StabLine K) : Prop := ∃ x y, l.ubExact = some x ∧ l.lbMab = some y ∧ y ≤ x

end Spec
