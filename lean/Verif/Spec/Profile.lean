import Verif.Model.Profile

/-!
# Stored profiles (C164)
-/

namespace FF

/-- A run with these arguments gets a profile: they are accepted, numpy takes the seed, and training succeeds in the other library. -/
structure Profiled {P : Type} (lib : ProfArgs → Except Err P) (a : ProfArgs) (p : P) : Prop where
  algorithm : a.algorithm = "SKLEARN".toList
  dataset : a.dataset = "IRIS".toList ∨ a.dataset = "DIGITS".toList
  seed : 0 ≤ a.seed ∧ a.seed < 2 ^ 32
  trained : lib a = .ok p

end FF
