import Verif.Model.RoundGini

/-!
# Regression in rounded arithmetic

The operations with which the exact solver finds the reduction of a bin edge for regression, rounded one by one. Products of two counts
are exact (integers below `2^53`).
-/

namespace FF

variable {K : Type} [Field K] [LinearOrder K] [FloorRing K]

/-- `np.mean(labels)`: the sum, divided. Also the answer of a leaf, `tree_base.py:372`. -/
def meanR (rnd : K → K) (sum : List K → K) (ys : List K) : K := rnd (sum ys / (ys.length : K))

/-- `np.var(labels)`: the mean of the squared distances from the mean. With one `add` to an empty pile this is the variance that
`update_bins` stores (`histogram.py:224-240`: `var1 == 0`, so `welford_variance_calc` returns `var2`); an empty batch leaves 0. -/
def varR (rnd : K → K) (sum : List K → K) (ys : List K) : K :=
  if ys.length = 0 then 0
  else rnd (sum (ys.map (fun y => rnd (rnd (y - meanR rnd sum ys) * rnd (y - meanR rnd sum ys)))) / (ys.length : K))

/-- `get_mse` when the whole population has been sampled, `n = pop_size` — `criteria.py:110-122`:
`second_moment * (n * (pop_size - 1)) / ((n - 1) * pop_size)`; for `n ≤ 1` the quotient is NaN or infinite and replaced by 0. -/
def mseR (rnd : K → K) (sum : List K → K) (ys : List K) : K :=
  if ys.length ≤ 1 then 0
  else rnd (rnd (varR rnd sum ys * ((ys.length : K) * ((ys.length : K) - 1))) / (((ys.length : K) - 1) * (ys.length : K)))

/-- The reduction of one bin edge with the labels `l` on the left, `r` on the right and `a` in the node — `criteria.py:262-318` for
MSE, without the variances. -/
def mseReductionR (rnd : K → K) (sum : List K → K) (l r a : List K) : K :=
  let n := l.length + r.length
  let left := rnd (rnd ((l.length : K) / (n : K)) * mseR rnd sum l)
  let right := rnd (rnd ((r.length : K) / (n : K)) * mseR rnd sum r)
  rnd (rnd (left + right) - mseR rnd sum a)

end FF
