import Verif.Spec.Cart

/-!
# Features measured in the opposite direction

Specification for C149. Nothing here mentions the model.
-/

namespace Spec

variable {K : Type} [Field K] [LinearOrder K]

/-- A row with the opposite sign in the columns `s`. -/
def mirrorRow (s : List Nat) (row : List K) : List K := row.mapIdx (fun j x => if j ∈ s then -x else x)

/-- No ties: wherever the tree asks a question, every other candidate is worse. -/
def CartProblem.NoTies (P : CartProblem K) : List Nat → DTree K → Prop
  | _, .leaf _ => True
  | rows, .node f v yes no =>
    (∀ c ∈ P.candidates rows, c ≠ (f, v) → P.score rows (f, v) < P.score rows c) ∧
      CartProblem.NoTies P (rows.filter (fun i => decide (P.value i f ≤ v))) yes ∧
      CartProblem.NoTies P (rows.filter (fun i => decide (v < P.value i f))) no

/-- The two trees separate the training rows in the same way, with questions about the same features; for the features `s` the answers yes and
no have changed places. -/
inductive DTree.SameParts (s : List Nat) : DTree K → DTree K → Prop
  | leaf (rows : List Nat) : SameParts s (.leaf rows) (.leaf rows)
  | same {f : Nat} (v : K) {y n y' n' : DTree K} (hf : f ∉ s) (hy : SameParts s y y') (hn : SameParts s n n') :
      SameParts s (.node f v y n) (.node f v y' n')
  | flip {f : Nat} (v v' : K) {y n y' n' : DTree K} (hf : f ∈ s) (hy : SameParts s y n') (hn : SameParts s n y') :
      SameParts s (.node f v y n) (.node f v' y' n')

end Spec
