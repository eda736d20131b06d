import Mathlib.Algebra.Ring.Defs

/-!
# Whole numbers (C121)
-/

namespace Spec

/-- `y` is a whole number. -/
def IsWhole {K : Type} [Ring K] (y : K) : Prop := ∃ z : Int, y = (z : K)

end Spec
