import Verif.Spec.Crit
import Verif.Spec.Reach
import Verif.Spec.Loop
import Verif.Spec.Sampling

/-!
# The best split on a batch of rows

Used to say which split a node gets when only one batch of its rows was looked at.
-/

namespace FF

open Spec

variable {K : Type} [Field K] [LinearOrder K] [FloorRing K] [NpFun K] {G : Type}

/-- The rows of the first batch: the whole node if it is not larger than a batch, else `batch` rows drawn with the tree's generator. -/
def firstBatch (R : Rng K G) (g : G) (N batch : Nat) (withRep : Bool) : List Nat :=
  if N ≤ batch then List.range N
  else if withRep then (R.choiceRep g N batch).1 else (R.choice g N batch).1

/-- The change of the weighted impurity of the rows `S` (each counted as often as it occurs) when they are split at `v`. -/
def changeOn (m : Criterion) (data : List (List K)) (labels : List K) (S : List Nat) (f : Nat) (v : K) : K :=
  change (critImp m) (S.map (rowSample data labels f)) v

/-- `r` is a best split of the rows `S` among the candidate thresholds: it lowers the impurity, no candidate lowers it more, and the
reported reduction is the true one for these rows. No split is returned only if no candidate lowers the impurity. -/
def BestOn (m : Criterion) (data : List (List K)) (labels : List K) (hists : List (Hist K)) (B : Nat) (S : List Nat) :
    Option (SplitRes K) → Prop
  | some r => (∃ b, IsCand hists B r.feat b r.value) ∧ r.red = .fin (changeOn m data labels S r.feat r.value) ∧
      changeOn m data labels S r.feat r.value < 0 ∧
      ∀ f b v, IsCand hists B f b v → changeOn m data labels S r.feat r.value ≤ changeOn m data labels S f v
  | none => ∀ f b v, IsCand hists B f b v → 0 ≤ changeOn m data labels S f v

/-- Some candidate threshold separates nothing: no row of the node lies above it. -/
def IdleCand (data : List (List K)) (hists : List (Hist K)) (B : Nat) : Prop :=
  ∃ f b v, IsCand hists B f b v ∧ ∀ x ∈ data, x.getD f 0 ≤ v

end FF
