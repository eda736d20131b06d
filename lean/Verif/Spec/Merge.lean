import Verif.Spec.Basic

/-! # When the pairwise variance update of the code is right -/

namespace Spec

variable {K : Type} [Field K]

/-- The two groups for which the Welford update gives the variance of their union: one of them is empty, or both are
spread out, or the group that is constant is as far from the other as hides the mistake. -/
def Mergeable (old new : List K) : Prop :=
  old = [] ∨ new = [] ∨ (variance old ≠ 0 ∧ variance new ≠ 0) ∨
    (variance old = 0 ∧ (mean old - mean new) ^ 2 * (new.length : K) = ((old.length : K) + new.length) * variance new) ∨
    (variance new = 0 ∧ (mean old - mean new) ^ 2 * (old.length : K) = ((old.length : K) + new.length) * variance old)

end Spec
