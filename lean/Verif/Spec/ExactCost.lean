import Verif.Spec.Cart

/-!
# What growing the textbook tree costs (C161)
-/

namespace Spec

variable {K : Type} [Field K] [LinearOrder K]

namespace CartProblem

variable (P : CartProblem K)

/-- Searching a node looks once at every row for every feature that has a threshold there. -/
def searchCost (rows : List Nat) : Nat :=
  rows.length * (P.cols.filter (fun f => !(P.grid f (rows.map (fun i => P.value i f))).isEmpty)).length

/-- Growing the tree `D` from some rows at some depth costs `n`: every node that the limits allow to split is searched once, also if no
split is made in the end; no other node is searched. -/
inductive Costs : Nat → List Nat → DTree K → Nat → Prop
  | closed {depth : Nat} {rows l : List Nat} (h : ¬ P.MaySplit depth rows) : Costs depth rows (.leaf l) 0
  | searched {depth : Nat} {rows l : List Nat} (h : P.MaySplit depth rows) : Costs depth rows (.leaf l) (P.searchCost rows)
  | node {depth : Nat} {rows : List Nat} {f : Nat} {v : K} {yes no : DTree K} {a b : Nat}
      (hy : Costs (depth + 1) (rows.filter (fun i => decide (P.value i f ≤ v))) yes a)
      (hn : Costs (depth + 1) (rows.filter (fun i => decide (v < P.value i f))) no b) :
      Costs depth rows (.node f v yes no) (P.searchCost rows + a + b)

end CartProblem

end Spec
