import Mathlib.Analysis.SpecialFunctions.Log.Deriv

/-!
# The smoothed cross-entropy loss
-/

namespace Spec

/-- Cross-entropy of a prediction `p` for the target `t`, both moved by `s` so that the logarithm exists at 0. -/
noncomputable def smoothedCE (s t p : ℝ) : ℝ := -(t + s) * Real.log (p + s)

/-- Its first derivative in `p`. -/
noncomputable def smoothedCE' (s t : ℝ) : ℝ → ℝ := deriv (smoothedCE s t)

end Spec
