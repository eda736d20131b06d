import Verif.Model.RoundMse

/-!
# Answers in rounded arithmetic

`predict` of trees and forests with a rounding after each operation. The walk to the leaf compares stored numbers and needs no arithmetic.
Counts are exact. `sum` stands for `np.sum`, also for the sums in `mean(axis=0)`.
-/

namespace FF

variable {K : Type} [Field K] [LinearOrder K] [FloorRing K]

/-- `node.prediction_probs = node.counts / np.sum(node.counts)` — `tree_base.py:361`. -/
def leafProbsR (rnd : K → K) (counts : List Nat) : List K := counts.map (fun c : Nat => rnd ((c : K) / ((counts.sum : Nat) : K)))

/-- The answer of a leaf of a classification tree with at least one row: number of the class and probabilities — `tree_base.py:361-368`. The
assertion `np.allclose(probs.sum(), 1)` asks for `abs(probs.sum() - 1) <= 1e-08 + 1e-05 * abs(1)`; this comparison is not rounded here. -/
def leafR (rnd : K → K) (sum : List K → K) (counts : List Nat) : Except Err (Nat × List K) :=
  match npArgmax (leafProbsR rnd counts) with
  | none => .error .valueError
  | some i =>
    if |sum (leafProbsR rnd counts) - 1| ≤ 1 / 10 ^ 8 + 1 / 10 ^ 5 then .ok (i, leafProbsR rnd counts)
    else .error (.assertion "Probabilities don't sum to 1")

/-- `agg_preds.mean(axis=0)` and its `argmax` — `forest_base.py:344-345`: number of the class and averaged probabilities, from the
probabilities that the trees answer. -/
def forestR (rnd : K → K) (sum : List K → K) (nc : Nat) (ps : List (List K)) : Option (Nat × List K) :=
  let avg := (List.range nc).map (fun j => meanR rnd sum (ps.map (fun p => p.getD j 0)))
  (npArgmax avg).map (fun i => (i, avg))

/-- The answer of a regression forest with boosting, from the answers of its trees — `forest_base.py:348-354`. Without boosting it is the
`meanR` of the answers, `forest_base.py:356-359`; the answer of a leaf is the `meanR` of its labels, `tree_base.py:372-373`. -/
def boostR (rnd : K → K) (lr : K) : List K → K
  | [] => 0
  | v :: vs => vs.foldl (fun a p => rnd (a + rnd (lr * p))) v

end FF
