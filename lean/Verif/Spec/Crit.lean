import Verif.Spec.Hist
import Verif.Model.Utils

/-!
# The impurity that a criterion stands for, and the samples of a node
-/

namespace FF

open Spec

variable {K : Type} [Field K] [LinearOrder K] [FloorRing K] [NpFun K]

/-- Gini impurity, entropy or variance of a list of labels. -/
def critImp : Criterion → List K → K
  | .gini => gini
  | .entropy => entropy NpFun.log
  | .mse => variance

/-- The criterion fits the task: Gini or entropy for classification, MSE for regression. -/
def CritFits (isCls : Bool) (m : Criterion) : Prop := if isCls then m = .gini ∨ m = .entropy else m = .mse

/-- The samples (value of feature `f`, label) of a node. -/
def nodeSamples (data : List (List K)) (labels : List K) (f : Nat) : List (K × K) := batchSamples f (data, labels)

/-- The sample (value of feature `f`, label) of row `i`. -/
def rowSample (data : List (List K)) (labels : List K) (f i : Nat) : K × K :=
  ((data.getD i []).getD f 0, labels.getD i 0)

/-- Well-formed binning arguments: precomputed minima do not exceed the maxima, caller-supplied discrete values are sorted, and
no LINEAR histogram has exactly one bin (see `C01_one_linear_bin` for what happens then). Nothing is asked of IDENTITY or RANDOM
binning. -/
structure BinningOK (minmax : Option (List K × List K)) (d : DiscDict K) (binType : Option BinType) (B : Nat) : Prop where
  minmax_le : ∀ mins maxs, minmax = some (mins, maxs) → ∀ (f : Nat) (lo hi : K), mins[f]? = some lo → maxs[f]? = some hi → lo ≤ hi
  sorted : ∀ f u, discLookup d f = some u → u.isSet = false → u.vals.Pairwise (· ≤ ·)
  linear_bins : binType = some .linear → B ≠ 1
  auto_bins : binType = none → B ≠ 1 ∧ ∀ f u, discLookup d f = some u → u.isSet = false → u.vals.length ≠ 1

/-- The bin edges of histogram `f`, none if it has no edges. -/
def edgesOf (hists : List (Hist K)) (f : Nat) : List K :=
  match hists[f]? with
  | none => []
  | some h => h.edges.getD []

end FF
