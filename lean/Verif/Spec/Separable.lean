import Verif.Spec.Cart

/-!
# Labels that one question tells apart (C163)
-/

namespace Spec

variable {K : Type} [Field K] [LinearOrder K]

/-- On each side of the question "is feature `f` at most `v`?" all rows have the same label. -/
def CartProblem.Separates (P : CartProblem K) (rows : List Nat) (f : Nat) (v : K) : Prop :=
  (∀ i ∈ rows, ∀ j ∈ rows, P.value i f ≤ v → P.value j f ≤ v → P.label i = P.label j) ∧
  ∀ i ∈ rows, ∀ j ∈ rows, v < P.value i f → v < P.value j f → P.label i = P.label j

/-- The tree that asks one question. -/
def CartProblem.stump (P : CartProblem K) (rows : List Nat) (f : Nat) (v : K) : DTree K :=
  .node f v (.leaf (rows.filter (fun i => decide (P.value i f ≤ v)))) (.leaf (rows.filter (fun i => decide (v < P.value i f))))

end Spec
