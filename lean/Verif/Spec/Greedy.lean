import Verif.Spec.Cart

/-!
# Greedy decision trees, up to ties

Specification for C157. Nothing here mentions the model.
-/

namespace Spec

variable {K : Type} [Field K] [LinearOrder K]

namespace CartProblem

variable (P : CartProblem K)

/-- One of the best candidates. -/
def Best (rows : List Nat) (c : Nat × K) : Prop := c ∈ P.candidates rows ∧ ∀ x ∈ P.candidates rows, P.score rows c ≤ P.score rows x

/-- A greedy tree for some rows at some depth: like `IsCart`, but among equally good candidates any may be chosen. -/
inductive IsGreedy : Nat → List Nat → DTree K → Prop
  | leaf {depth : Nat} {rows : List Nat}
      (h : P.MaySplit depth rows → ∀ c, P.Best rows c → ¬ P.Worth rows (P.score rows c)) : IsGreedy depth rows (.leaf rows)
  | node {depth : Nat} {rows : List Nat} {f : Nat} {v : K} {yes no : DTree K} (hm : P.MaySplit depth rows)
      (hb : P.Best rows (f, v)) (hw : P.Worth rows (P.score rows (f, v)))
      (hy : IsGreedy (depth + 1) (rows.filter (fun i => decide (P.value i f ≤ v))) yes)
      (hn : IsGreedy (depth + 1) (rows.filter (fun i => decide (v < P.value i f))) no) : IsGreedy depth rows (.node f v yes no)

/-- Ties do not matter to the training rows: wherever the tree asks a question, every equally good candidate separates the rows there into the same
two groups. -/
def ClearParts : List Nat → DTree K → Prop
  | _, .leaf _ => True
  | rows, .node f v yes no =>
    (∀ c ∈ P.candidates rows, P.score rows c = P.score rows (f, v) →
      (∀ i ∈ rows, (P.value i c.1 ≤ c.2 ↔ P.value i f ≤ v)) ∨ ∀ i ∈ rows, (P.value i c.1 ≤ c.2 ↔ v < P.value i f)) ∧
      ClearParts (rows.filter (fun i => decide (P.value i f ≤ v))) yes ∧
      ClearParts (rows.filter (fun i => decide (v < P.value i f))) no

end CartProblem

/-- Two decision trees of the same form, up to an exchange of the two answers to a question, with the same rows in their leaves; the questions may
differ. -/
inductive DTree.SameGroups : DTree K → DTree K → Prop
  | leaf (rows : List Nat) : SameGroups (.leaf rows) (.leaf rows)
  | node (f : Nat) (v : K) (f' : Nat) (v' : K) {y n y' n' : DTree K} (hy : SameGroups y y') (hn : SameGroups n n') :
      SameGroups (.node f v y n) (.node f' v' y' n')
  | turned (f : Nat) (v : K) (f' : Nat) (v' : K) {y n y' n' : DTree K} (hy : SameGroups y n') (hn : SameGroups n y') :
      SameGroups (.node f v y n) (.node f' v' y' n')

end Spec
