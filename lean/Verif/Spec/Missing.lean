import Verif.Spec.Forest
import Verif.Model.Missing

/-!
# Missing and infinite values
-/

namespace FF

variable {K : Type} [Field K] [LinearOrder K] [FloorRing K] [NpFun K] {G : Type}

/-- The number that can stand in for a float in a point: a large one `hi` for NaN and for `+inf`, a small one `lo` for `-inf`. -/
def standIn (lo hi : K) : XF K → K
  | .nan => hi
  | .ninf => lo
  | .fin v => v
  | .pinf => hi

/-- A training row `x` comes down to node `id` of the tree, and all the values that were tested on the way are known (`nan` stands for a
value that is missing). -/
inductive Reaches (nan : K) (t : Tree K G) (x : List K) : Nat → Prop
  | root : Reaches nan t x 0
  | left {p c f : Nat} {v : K} {nd : Node K} (hp : Reaches nan t x p) (hn : NodeAt t p nd) (hl : nd.left = some c)
      (hf : nd.splitFeature = some f) (hx : x[f]? = some v) (hk : v ≠ nan) (hv : v ≤ nd.splitValue) : Reaches nan t x c
  | right {p c f : Nat} {v : K} {nd : Node K} (hp : Reaches nan t x p) (hn : NodeAt t p nd) (hr : nd.right = some c)
      (hf : nd.splitFeature = some f) (hx : x[f]? = some v) (hk : v ≠ nan) (hv : nd.splitValue < v) : Reaches nan t x c

/-- On its way down the row `x` is tested for a value that is missing. -/
def MeetsMissing (nan : K) (t : Tree K G) (x : List K) : Prop :=
  ∃ (p f : Nat) (nd : Node K), Reaches nan t x p ∧ NodeAt t p nd ∧ nd.left ≠ none ∧ nd.splitFeature = some f ∧ x[f]? = some nan

/-- `t` is a tree with IDENTITY bins, constructed from the arguments `A`, on which `fit()` has returned. In the data the number `nan`, which
is larger than all others, stands for a missing value. -/
structure FittedNaN (nan : K) (R : Rng K G) (mem : Nat → Junk K) (A : TreeArgs K) (t : Tree K G) : Prop where
  run : ∃ glob, runTreeNaN nan R mem A.cfg A.data A.labels A.disc A.budget A.seed A.idcs A.feats glob = .ok t
  bins : A.cfg.binType = some .identity
  last : ∀ row ∈ A.data, ∀ v ∈ row, v ≤ nan

end FF
