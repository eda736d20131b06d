import Verif.Model.Num

/-!
# `data_structures/histogram.py` and `utils/utils_histogram.py`
-/

namespace FF

variable {K : Type} [Field K] [LinearOrder K] [FloorRing K] {G : Type}

/-- Bin types — `utils/constants.py:34-38`. The string `""` (choose automatically) is `none : Option BinType`. -/
inductive BinType where
  | linear
  | discrete
  | identity
  | random
  deriving DecidableEq, Repr

/-- Unique feature values handed to a DISCRETE histogram. `data_to_discrete` stores python *sets*
(`utils/utils.py:99,110`), a caller may also supply sequences; only sequences can be subscripted. -/
structure DiscVals (K : Type) where
  isSet : Bool
  vals : List K
  deriving DecidableEq, Repr

/-- One pile of a regression histogram, `[number, mean, variance]` — `histogram.py:61-65`. The number is a float in the
code but always a count, so it is a `Nat` here. -/
structure Pile (K : Type) where
  n : Nat
  mean : K
  var : K
  deriving DecidableEq, Repr

/-- `np.zeros(3)` — `histogram.py:63-65`. -/
def Pile.zero : Pile K := { n := 0, mean := 0, var := 0 }

/-- `Histogram` object state — `histogram.py:16-65`. `edges = none` means that the attribute `bin_edges` was never set
(the early `return` at `histogram.py:43-45`, which also leaves the tables unset). -/
structure Hist (K : Type) where
  isCls : Bool
  featureIdx : Nat
  classes : List K
  numBins : Nat
  minBin : K
  maxBin : K
  binType : BinType
  edges : Option (List K)
  left : List (List Nat)
  right : List (List Nat)
  leftPile : List (Pile K)
  rightPile : List (Pile K)
  currPile : Pile K
  deriving DecidableEq, Repr

/-- `Histogram.discrete_bin` — `histogram.py:186-199`. `width = int(len(unique_fvals)/num_bins)`; subscripting a set is a
TypeError, `num_bins = 0` a ZeroDivisionError. -/
def discreteBin (uf : DiscVals K) (numBins : Nat) : Except Err (List K) :=
  if numBins = 0 then .error .zeroDivision
  else if uf.isSet then .error .typeError
  else takeE uf.vals 0 ((List.range numBins).map (fun i => (uf.vals.length / numBins) * i))

/-- The bin edges and the final number of bins chosen by `Histogram.__init__` — `histogram.py:42-54`, with `linear_bin`
(180-184), `discrete_bin` (186-199), `identity_bin` (201-210) and `random_bin` (212-221, which draws from the global
`np.random`). `none` = early return, no edges. -/
def makeEdges (R : Rng K G) (g : G) (binType : BinType) (uf : Option (DiscVals K)) (fData : List K)
    (numBins : Nat) (minBin maxBin : K) : Except Err (Option (List K) × Nat × G) :=
  match binType with
  | .linear =>
    if minBin = maxBin then .ok (none, 0, g)
    else .ok (some (linspace minBin maxBin numBins), numBins, g)
  | .discrete =>
    match uf with
    | none => .error .typeError
    | some u =>
      match discreteBin u numBins with
      | .error e => .error e
      | .ok es => .ok (some es, numBins, g)
  | .identity => .ok (some (npUnique fData), (npUnique fData).length, g)
  | .random =>
    .ok (some ((R.uniform g minBin maxBin numBins).1.insertionSort (· ≤ ·)), numBins,
      (R.uniform g minBin maxBin numBins).2)

/-- `Histogram.__init__` — `histogram.py:16-65`. Fresh tables of zeros; no tables after the early return. -/
def Hist.mk' (isCls : Bool) (featureIdx : Nat) (classes : List K) (binType : BinType) (minBin maxBin : K)
    (edges : Option (List K)) (numBins : Nat) : Hist K :=
  { isCls, featureIdx, classes, numBins, minBin, maxBin, binType, edges
    left := if isCls then List.replicate numBins (List.replicate classes.length 0) else []
    right := if isCls then List.replicate numBins (List.replicate classes.length 0) else []
    leftPile := if isCls then [] else List.replicate numBins Pile.zero
    rightPile := if isCls then [] else List.replicate numBins Pile.zero
    currPile := Pile.zero }

/-- `Histogram.__init__` — `histogram.py:16-65`. -/
def Hist.init (R : Rng K G) (g : G) (isCls : Bool) (featureIdx : Nat) (uf : Option (DiscVals K)) (fData : List K)
    (classes : List K) (numBins : Nat) (minBin maxBin : K) (binType : BinType) : Except Err (Hist K × G) :=
  match makeEdges R g binType uf fData numBins minBin maxBin with
  | .error e => .error e
  | .ok (edges, nb, g') => .ok (Hist.mk' isCls featureIdx classes binType minBin maxBin edges nb, g')

/-- `Histogram.get_bin` for one value — `histogram.py:67-89`. LINEAR: `ceil((v - min) / width)` clipped below to 0 and, when
larger than `num_bins - 1`, set to `num_bins`. With `num_bins = 1` the width is `x/0 = inf` and the quotient 0. Other types:
`np.searchsorted`. -/
def Hist.getBin (h : Hist K) (edges : List K) (v : K) : Nat :=
  if h.binType = .linear then
    if h.numBins = 1 then 0
    else
      let width := (h.maxBin - h.minBin) / ((h.numBins : K) - 1)
      let idx : Int := ⌈(v - h.minBin) / width⌉
      let idx : Int := if idx < 0 then 0 else idx
      if idx > (h.numBins : Int) - 1 then h.numBins else idx.toNat
  else searchsorted edges v

/-- `row[y] += 1`. -/
def bump (row : List Nat) (y : Nat) : List Nat := row.modify y (· + 1)

/-- Insert one sample in bin `idx`, class index `y` — `histogram.py:157-162`:
`right[:idx, y] += 1; left[idx:, y] += 1`. -/
def addOne (lr : List (List Nat) × List (List Nat)) (s : Nat × Nat) : List (List Nat) × List (List Nat) :=
  (lr.1.mapIdx (fun i row => if s.1 ≤ i then bump row s.2 else row),
   lr.2.mapIdx (fun i row => if i < s.1 then bump row s.2 else row))

/-- `classes.index(y)` on every label (`np.vectorize(self.classes.index)`, `histogram.py:155-156`): ValueError for a label
that is not in the tuple, and for an empty array (numpy: "cannot call `vectorize` on size 0 inputs"). -/
def classIdxE (classes : List K) (ys : List K) : Except Err (List Nat) :=
  if ys = [] then .error .valueError
  else if ys.all (fun y => classes.contains y) then .ok (ys.map (fun y => classes.idxOf y))
  else .error .valueError

/-- `welford_variance_calc` — `utils/utils_histogram.py:2-19`. -/
def welford (n1 : Nat) (mean1 var1 : K) (n2 : Nat) (mean2 var2 : K) : K :=
  if var1 = 0 then var2
  else if var2 = 0 then var1
  else
    let n : K := (n1 : K) + n2
    let delta := mean1 - mean2
    let M1 := (n1 : K) * var1
    let M2 := (n2 : K) * var2
    let M := M1 + M2 + delta * delta * ((n1 : K) * n2) / n
    M / n

/-- `Histogram.update_bins` — `histogram.py:223-240`. -/
def updateBins (prev : Pile K) (curr : List K) : Pile K :=
  if curr.length = 0 then prev
  else
    let num2 := curr.length
    let mean2 := npMean curr
    let var2 := npVar curr
    let newNum := prev.n + num2
    { n := newNum
      mean := ((prev.n : K) * prev.mean + (num2 : K) * mean2) / (newNum : K)
      var := welford prev.n prev.mean prev.var num2 mean2 var2 }

/-- `Y[mask]` for a mask computed from the bins of the samples. -/
def maskSel (bins : List Nat) (ys : List K) (p : Nat → Bool) : List K :=
  ((bins.zip ys).filter (fun q => p q.1)).map Prod.snd

/-- `Histogram.add` — `histogram.py:110-178`, with `VECTORIZE = False` (`constants.py:10`). -/
def Hist.add (h : Hist K) (X : List (List K)) (Y : List K) : Except Err (Hist K) :=
  match colE X h.featureIdx with
  | .error e => .error e
  | .ok fvals =>
    match h.edges with
    | none => .error (.attributeError "bin_edges")
    | some edges =>
      if h.isCls then
        if ¬(edges.length = h.left.length ∧ h.left.length = h.right.length ∧ h.right.length = h.numBins) then
          .error (.assertion "histogram is malformed")
        else if X.length ≠ Y.length then .error (.assertion "sample sizes and label sizes must be the same")
        else
          match classIdxE h.classes Y with
          | .error e => .error e
          | .ok newY =>
            let bins := fvals.map (h.getBin edges)
            let lr := (bins.zip newY).foldl addOne (h.left, h.right)
            .ok { h with left := lr.1, right := lr.2 }
      else
        if ¬(edges.length = h.leftPile.length ∧ h.leftPile.length = h.rightPile.length ∧
              h.rightPile.length = h.numBins) then
          .error (.assertion "histogram is malformed")
        else if X.length ≠ Y.length then .error .indexError
        else
          let bins := fvals.map (h.getBin edges)
          .ok { h with
            leftPile := h.leftPile.mapIdx (fun b p => updateBins p (maskSel bins Y (fun i => decide (i ≤ b))))
            rightPile := h.rightPile.mapIdx (fun b p => updateBins p (maskSel bins Y (fun i => decide (b < i))))
            currPile := updateBins h.currPile Y }

/-- `Histogram.empty_samples(range(num_bins))` — `histogram.py:94-108`, the only call (`utils/utils.py:269`). -/
def Hist.emptySamples (h : Hist K) : Hist K :=
  if h.isCls then
    { h with left := h.left.map (fun _ => List.replicate h.classes.length 0)
             right := h.right.map (fun _ => List.replicate h.classes.length 0) }
  else
    { h with leftPile := h.leftPile.map (fun _ => Pile.zero)
             rightPile := h.rightPile.map (fun _ => Pile.zero)
             currPile := Pile.zero }

end FF
