import Mathlib.Algebra.Order.Field.Basic
import Mathlib.Algebra.Order.Ring.Abs
import Mathlib.Algebra.Order.AbsoluteValue.Basic

/-!
# Rounding to nearest

Floating-point numbers with a significand of `p` bits and unbounded exponents (no overflow, no underflow); `p = 53` is the
double precision of numpy. How ties are broken is left open.
-/

namespace FF

variable {K : Type} [Field K] [LinearOrder K]

/-- A floating-point number with `p` significant bits. -/
def FloatNum (p : Nat) (x : K) : Prop := ∃ m e : ℤ, |m| < 2 ^ p ∧ x = (m : K) * 2 ^ e

/-- `rnd` rounds to a nearest floating-point number. -/
structure Nearest (p : Nat) (rnd : K → K) : Prop where
  float : ∀ x, FloatNum p (rnd x)
  near : ∀ x z, FloatNum p z → |x - rnd x| ≤ |x - z|

end FF
