import Verif.Model.Histogram

/-!
# LINEAR bins in rounded arithmetic

The rest of the model computes exactly. Here the operations of `Histogram.linear_bin` and of the LINEAR branch of
`Histogram.get_bin` are rounded one by one by a function `rnd`, as floating-point arithmetic does. Number of bins and bin indices
are exact (they are far below `2^53`), and so is `np.ceil`.
-/

namespace FF

variable {K : Type} [Field K] [LinearOrder K] [FloorRing K] {G : Type}

/-- `bin_width` of `Histogram.get_bin` — `histogram.py:81`; the same expression is `step` in `np.linspace`. -/
def binWidthR (rnd : K → K) (lo hi : K) (n : Nat) : K := rnd (rnd (hi - lo) / ((n : K) - 1))

/-- `np.linspace(lo, hi, n)` of `Histogram.linear_bin` — `histogram.py:180-184`: `arange(n) * step + lo`, then the last entry is
overwritten by `hi`. -/
def linspaceR (rnd : K → K) (lo hi : K) (n : Nat) : List K :=
  if n = 1 then [lo]
  else (List.range n).map (fun i => if i + 1 = n then hi else rnd (rnd ((i : K) * binWidthR rnd lo hi n) + lo))

/-- `Histogram.get_bin`, LINEAR, for one value — `histogram.py:79-86`. With `num_bins = 1` the width is `x/0 = inf`, the quotient 0. -/
def linearBinR (rnd : K → K) (lo hi : K) (n : Nat) (v : K) : Nat :=
  if n = 1 then 0
  else
    let idx : Int := ⌈rnd (rnd (v - lo) / binWidthR rnd lo hi n)⌉
    let idx : Int := if idx < 0 then 0 else idx
    if idx > (n : Int) - 1 then n else idx.toNat

/-- The tables `left` and `right` of a classification histogram after `add` — `histogram.py:154-162` — with the rounded lookup:
`fvals` are the values of the feature, `ys` the class indices. -/
def tablesR (rnd : K → K) (lo hi : K) (n k : Nat) (fvals : List K) (ys : List Nat) : List (List Nat) × List (List Nat) :=
  ((fvals.map (linearBinR rnd lo hi n)).zip ys).foldl addOne
    (List.replicate n (List.replicate k 0), List.replicate n (List.replicate k 0))

end FF
