import Verif.Spec.Basic

/-!
# The textbook greedy decision tree

A problem (rows, labels, columns, limits, impurity) and the decision trees that solve it greedily from the top: a node that may be
split is split at the best candidate, and then its two halves are treated in the same way. There is no order in which nodes are
treated, no queue, no cache, no randomness. Nothing here mentions the model.
-/

namespace Spec

variable {K : Type} [Field K] [LinearOrder K]

/-- A decision tree: a leaf with the numbers of its training rows, or the question "is feature `f` at most `v`?". -/
inductive DTree (K : Type) where
  | leaf (rows : List Nat)
  | node (f : Nat) (v : K) (yes no : DTree K)
  deriving DecidableEq, Repr

/-- The training rows in the leaf where the point `x` ends; none if a feature asked for is missing in `x`. -/
def DTree.rowsAt (x : List K) : DTree K → List Nat
  | .leaf rows => rows
  | .node f v yes no =>
    match x[f]? with
    | none => []
    | some a => if a ≤ v then yes.rowsAt x else no.rowsAt x

/-- `D'` asks all the questions of `D`, and perhaps more where `D` has leaves. -/
inductive DTree.Refines : DTree K → DTree K → Prop
  | leaf (D' : DTree K) (rows : List Nat) : Refines D' (.leaf rows)
  | node (f : Nat) (v : K) {y n y' n' : DTree K} (hy : Refines y' y) (hn : Refines n' n) :
      Refines (.node f v y' n') (.node f v y n)

/-- A greedy tree problem. `value i f` is the value of feature `f` in row `i`. `grid f vals` are the thresholds tried for feature `f`, in
order, in a node where its values are `vals`. `total` is the number of training rows, `size` the size of the table they come from. -/
structure CartProblem (K : Type) where
  value : Nat → Nat → K
  label : Nat → K
  cols : List Nat
  grid : Nat → List K → List K
  imp : List K → K
  total : Nat
  size : Nat
  maxDepth : Option Nat
  minSamples : Nat
  minDecrease : K

namespace CartProblem

variable (P : CartProblem K)

/-- The candidate splits of a node, in order. -/
def candidates (rows : List Nat) : List (Nat × K) :=
  P.cols.flatMap (fun f => (P.grid f (rows.map (fun i => P.value i f))).map (fun v => (f, v)))

/-- The change of the weighted impurity of a node by a split. -/
def score (rows : List Nat) (c : Nat × K) : K := change P.imp (rows.map (fun i => (P.value i c.1, P.label i))) c.2

/-- The first of the best candidates. -/
def FirstBest (rows : List Nat) (c : Nat × K) : Prop :=
  ∃ before after, P.candidates rows = before ++ c :: after ∧
    (∀ x ∈ before, P.score rows c < P.score rows x) ∧ ∀ x ∈ after, P.score rows c ≤ P.score rows x

/-- The limits allow to split a node. -/
structure MaySplit (depth : Nat) (rows : List Nat) : Prop where
  depth : ∀ d, P.maxDepth = some d → depth < d
  size : P.minSamples < rows.length
  mixed : ∃ i ∈ rows, ∃ j ∈ rows, P.label i ≠ P.label j

/-- A split with score `s` is worth making: it decreases the impurity, and the decrease, weighted by the share of the training rows in
the node, passes the limit; also when it is weighted a second time, by the share of the table in the node (as this library does). -/
structure Worth (rows : List Nat) (s : K) : Prop where
  neg : s < 0
  once : s * ((rows.length : K) / (P.total : K)) < P.minDecrease
  twice : s * ((rows.length : K) / (P.total : K)) * (rows.length : K) / (P.size : K) < P.minDecrease

/-- The greedy tree for some rows at some depth. -/
inductive IsCart : Nat → List Nat → DTree K → Prop
  | leaf {depth : Nat} {rows : List Nat}
      (h : P.MaySplit depth rows → ∀ c, P.FirstBest rows c → ¬ P.Worth rows (P.score rows c)) : IsCart depth rows (.leaf rows)
  | node {depth : Nat} {rows : List Nat} {f : Nat} {v : K} {yes no : DTree K} (hm : P.MaySplit depth rows)
      (hb : P.FirstBest rows (f, v)) (hw : P.Worth rows (P.score rows (f, v)))
      (hy : IsCart (depth + 1) (rows.filter (fun i => decide (P.value i f ≤ v))) yes)
      (hn : IsCart (depth + 1) (rows.filter (fun i => decide (v < P.value i f))) no) : IsCart depth rows (.node f v yes no)

end CartProblem

/-- Thresholds: every value that occurs, in increasing order. -/
def valueGrid (vals : List K) : List K := vals.dedup.insertionSort (· ≤ ·)

/-- Thresholds: `B` equally spaced points from `lo` to `hi`; none for a constant feature. -/
def evenGrid (lo hi : K) (B : Nat) : List K :=
  if lo = hi then [] else (List.range B).map (fun (i : Nat) => lo + (i : K) * ((hi - lo) / ((B : K) - 1)))

end Spec
