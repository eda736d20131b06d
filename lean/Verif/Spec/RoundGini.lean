import Mathlib.Algebra.Order.Field.Basic
import Mathlib.Data.List.Perm.Basic

/-!
# Sums in rounded arithmetic
-/

namespace FF

variable {K : Type} [Field K] [LinearOrder K]

/-- `s` is a result of adding up the numbers `l` in rounded arithmetic, in some order and with some bracketing (one after the other, in
pairs, in blocks: `np.sum` chooses by the length of the array). -/
inductive SumsTo (rnd : K → K) : List K → K → Prop
  | one (x : K) : SumsTo rnd [x] x
  | add {a b l : List K} {s t : K} : SumsTo rnd a s → SumsTo rnd b t → l.Perm (a ++ b) → SumsTo rnd l (rnd (s + t))

/-- A way to add up every array that has an entry. -/
def SumFn (rnd : K → K) (sum : List K → K) : Prop := ∀ l, l ≠ [] → SumsTo rnd l (sum l)

/-- Bound of the rounding errors in a Gini reduction with `k` classes, in arithmetic with `p` bits. -/
def giniErr (p k : Nat) : K := 2 * ((1 + 1 / 2 ^ p) ^ (k + 8) - 1)

end FF
