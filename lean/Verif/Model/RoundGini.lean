import Verif.Model.Rounding
import Verif.Model.Criteria

/-!
# Gini reductions in rounded arithmetic

The rest of the model computes reductions exactly. Here the operations of `get_gini` and of `get_impurity_reductions` are rounded one by
one by a function `rnd`, as floating-point arithmetic does. Counts are exact (they are integers far below `2^53`). `sum` stands for
`np.sum`, which adds in an order of its own.
-/

namespace FF

variable {K : Type} [Field K] [LinearOrder K] [FloorRing K] {G : Type}

/-- `p = nan_to_num(counts / n)` — `criteria.py:32-33`: with `n = 0` the quotients are NaN, replaced by 0. -/
def probsR (rnd : K → K) (counts : List Nat) (n : Nat) : List K := counts.map (fun c : Nat => if n = 0 then 0 else rnd ((c : K) / (n : K)))

/-- `G = 1 - np.sum(p * p)` — `criteria.py:34`. -/
def giniR (rnd : K → K) (sum : List K → K) (counts : List Nat) : K :=
  rnd (1 - sum ((probsR rnd counts counts.sum).map (fun x => rnd (x * x))))

/-- The reduction of one bin edge with class counts `l` on the left and `r` on the right — `criteria.py:258-318` for Gini, without the
variances. The vectorised code (`criteria.py:193-248`) does the same operations in the same order. -/
def reductionR (rnd : K → K) (sum : List K → K) (l r : List Nat) : K :=
  let n := l.sum + r.sum
  let left := rnd (rnd ((l.sum : K) / (n : K)) * giniR rnd sum l)
  let right := rnd (rnd ((r.sum : K) / (n : K)) * giniR rnd sum r)
  rnd (rnd (left + right) - giniR rnd sum (addRows l r))

/-- The end of `solve_exactly` — `solvers.py:249-260`, with `min_impurity_reduction = 0`: the first candidate with the smallest value,
if this value is negative. `vals` are the entries of `estimates`, feature by feature. -/
def pickR (vals : List K) : Option (Nat × K) :=
  match npMin vals with
  | none => none
  | some m => if m < 0 then some (vals.findIdx (fun v => decide (v = m)), m) else none

end FF
