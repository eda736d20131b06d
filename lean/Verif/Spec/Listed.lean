import Verif.Spec.Grow

/-!
# Specification for C119: listed values of a column
-/

namespace FF

variable {K : Type}

/-- The value `v` is one of those listed for column `f` in a dictionary from columns to lists of values. -/
def ListedFor (d : DiscDict K) (f : Nat) (v : K) : Prop := ∃ l u, d = some l ∧ l.lookup f = some u ∧ v ∈ u.vals

end FF
