import Verif.Spec.Cart

/-!
# Changes of a training set that should not matter

Repeating all rows the same number of times, and adding columns that bring no new way to separate the rows. Nothing here mentions the
model.
-/

namespace Spec

variable {K : Type} [LinearOrder K]

/-- A list repeated `k` times. -/
def copies {α : Type} (k : Nat) (l : List α) : List α := (List.replicate k l).flatten

/-- Two decision trees with the same questions in the same places. -/
inductive DTree.SameQuestions : DTree K → DTree K → Prop
  | leaf (rows rows' : List Nat) : SameQuestions (.leaf rows) (.leaf rows')
  | node (f : Nat) (v : K) {y n y' n' : DTree K} (hy : SameQuestions y y') (hn : SameQuestions n n') :
      SameQuestions (.node f v y n) (.node f v y' n')

/-- A column that separates the given rows in no new way, given columns `0, …, F - 1`: it is constant, or a (weakly) increasing or
decreasing function of one of these columns. -/
def NothingNew (value : Nat → Nat → K) (rows : List Nat) (F f : Nat) : Prop :=
  (∀ i ∈ rows, ∀ j ∈ rows, value i f = value j f) ∨
  ∃ g < F, (∀ i ∈ rows, ∀ j ∈ rows, value i g ≤ value j g → value i f ≤ value j f) ∨
    ∀ i ∈ rows, ∀ j ∈ rows, value i g ≤ value j g → value j f ≤ value i f

/-- A column that is constant, or a copy of one of the columns `0, …, F - 1`, on the given rows. -/
def ConstantOrCopy (value : Nat → Nat → K) (rows : List Nat) (F f : Nat) : Prop :=
  (∀ i ∈ rows, ∀ j ∈ rows, value i f = value j f) ∨ ∃ g < F, ∀ i ∈ rows, value i f = value i g

end Spec
