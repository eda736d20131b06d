import Verif.Model.Histogram
import Verif.Spec.Basic

/-!
# Running a sequence of `add` calls, and the samples inserted by it
-/

namespace FF

variable {K : Type} [Field K] [LinearOrder K] [FloorRing K]

/-- The effect of a sequence of `Histogram.add(X, Y)` calls. -/
def Hist.addAll (h : Hist K) : List (List (List K) × List K) → Except Err (Hist K)
  | [] => .ok h
  | B :: Bs =>
    match h.add B.1 B.2 with
    | .error e => .error e
    | .ok h' => Hist.addAll h' Bs

/-- The samples (value of feature `f`, label) in one batch. -/
def batchSamples (f : Nat) (B : List (List K) × List K) : List (K × K) := (B.1.map (fun row => row.getD f 0)).zip B.2

/-- All samples of a sequence of batches. -/
def samplesOf (f : Nat) (Bs : List (List (List K) × List K)) : List (K × K) := Bs.flatMap (batchSamples f)

/-- Well-formed constructor arguments: LINEAR bins with `min ≤ max` and not exactly one bin; sorted DISCRETE values. -/
structure BinArgs (bt : BinType) (uf : Option (DiscVals K)) (nb : Nat) (lo hi : K) : Prop where
  linear : bt = .linear → lo ≤ hi ∧ nb ≠ 1
  discrete : bt = .discrete → ∀ u, uf = some u → u.vals.Pairwise (· ≤ ·)

end FF
