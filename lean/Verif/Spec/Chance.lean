import Verif.Spec.OneBatch
import Mathlib.Data.Fintype.Card

/-!
# How likely a node gets a good split

All outcomes are equally likely: the chance of an event is the share of the outcomes in which it happens.
-/

namespace FF

open Spec

/-- The chance of an event. -/
noncomputable def chance (K : Type) [Field K] {Ω : Type} [Fintype Ω] (P : Ω → Prop) : K :=
  open Classical in ((Finset.univ.filter P).card : K) / (Fintype.card Ω : K)

variable {K : Type} [Field K] [LinearOrder K] [FloorRing K] [NpFun K]

/-- The returned split is, on the whole node, within `η` of the best candidate. No split is within `η` of the best if no candidate
lowers the impurity of the node by more than `η`. -/
def NearBest (m : Criterion) (data : List (List K)) (labels : List K) (hists : List (Hist K)) (B : Nat) (η : K) :
    Option (SplitRes K) → Prop
  | some r => (∃ b, IsCand hists B r.feat b r.value) ∧ ∀ f b v, IsCand hists B f b v →
      change (critImp m) (nodeSamples data labels r.feat) r.value ≤ change (critImp m) (nodeSamples data labels f) v + η
  | none => ∀ f b v, IsCand hists B f b v → -η ≤ change (critImp m) (nodeSamples data labels f) v

/-- `n + 1` rows of one feature: the first row has the value 1 and label 1, all others have the value 0 and label 0. -/
def rareRows (K : Type) [Field K] (n : Nat) : List (List K) := List.replicate n [0]

/-- The labels of these rows. -/
def rareLabels (K : Type) [Field K] (n : Nat) : List K := 1 :: List.replicate n 0

end FF
