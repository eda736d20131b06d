import Verif.Spec.Grow

/-!
# Tables that agree in some rows

Specification for C158.
-/

namespace FF

/-- Two tables (or label arrays) of the same length that agree in the rows `rows`; elsewhere they may hold anything. -/
def SameAt {α : Type} (rows : List Nat) (a a' : List α) : Prop := a'.length = a.length ∧ ∀ i ∈ rows, a'[i]? = a[i]?

variable {K : Type} [Field K] [LinearOrder K] [FloorRing K] [NpFun K] {G : Type}

/-- The tree with another table and other labels attached; the questions and the leaves stay. -/
def Tree.seeing (d : List (List K)) (l : List K) (t : Tree K G) : Tree K G := { t with data := d, labels := l }

end FF
