import Verif.Model.Holdout

/-!
# Rows that are kept back
-/

namespace Spec

variable {K : Type}

/-- `x` and `y` are the rows with the numbers `I` and their own labels, in this order. -/
def RowsOf (X : List (List K)) (Y : List K) (I : List Nat) (x : List (List K)) (y : List K) : Prop :=
  x.map some = I.map (fun i => X[i]?) ∧ y.map some = I.map (fun i => Y[i]?)

/-- Three sets of row numbers below `n`, no row twice. -/
def Apart (n : Nat) (I J L : List Nat) : Prop := (I ++ J ++ L).Nodup ∧ ∀ i ∈ I ++ J ++ L, i < n

section
variable [Field K] [LinearOrder K]

/-- `N` rows in three parts: the last is the share `r2` of them, the middle one the share `r1` of what is left, both rounded up, and the first is not empty. -/
def SplitSizes [FloorRing K] (r0 r1 r2 : K) (N : Nat) (I J L : List Nat) : Prop :=
  I.length + J.length + L.length = N ∧ I ≠ [] ∧ (L.length : ℤ) = ⌈r2 / (r0 + r1 + r2) * (N : K)⌉ ∧
    (J.length : ℤ) = ⌈r1 / (r0 + r1) * ((N : K) - (L.length : K))⌉

/-- What a right answer for a point of class `c` is worth if all classes together are worth 1 and each the same. -/
def worth (truth : List K) (c : K) : K := 1 / ((truth.dedup.length : K) * (truth.count c : K))

/-- The worth of all the right answers. -/
def rightWorth (truth answers : List K) : K :=
  ((truth.zip answers).map (fun p : K × K => if p.2 = p.1 then worth truth p.1 else 0)).sum

end

end Spec
