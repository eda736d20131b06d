import Verif.Model.Histogram

/-!
# The vectorised branch of `Histogram.add`

The code runs it if the constant `VECTORIZE` is set (`constants.py:10` clears it).
-/

namespace FF

variable {K : Type} [Field K] [LinearOrder K] [FloorRing K]

/-- A label used as an array index. Non-integers are rejected by numpy. Simplification: negative integers are rejected here, numpy counts
them from the end of the array. -/
def asIndex (y : K) : Option Nat := if 0 ≤ y ∧ ((⌊y⌋ : Int) : K) = y then some (⌊y⌋).toNat else none

/-- All labels as array indices. -/
def asIndices : List K → Except Err (List Nat)
  | [] => .ok []
  | y :: ys =>
    match asIndex y with
    | none => .error .indexError
    | some i =>
      match asIndices ys with
      | .error e => .error e
      | .ok is => .ok (i :: is)

/-- `mapping_ar[keys] = values` with `values = 0, 1, …` — `histogram.py:255-258`. -/
def mappingArray (keys : List Nat) : List Nat :=
  (keys.zip (List.range keys.length)).foldl (fun a p => a.set p.1 p.2) (List.replicate (keys.foldl max 0 + 1) 0)

/-- `replace_array(Y, class_to_idx)` — `histogram.py:242-259`. The maximum of no keys is a ValueError. -/
def replaceArray (classes ys : List K) : Except Err (List Nat) :=
  match asIndices classes with
  | .error e => .error e
  | .ok [] => .error .valueError
  | .ok keys =>
    match asIndices ys with
    | .error e => .error e
    | .ok is => takeE (mappingArray keys) 0 is

/-- `np.bincount`. -/
def bincount (l : List Nat) : List Nat :=
  if l = [] then [] else (List.range (l.foldl max 0 + 1)).map (fun j => l.count j)

/-- `hist[b]` after `hist -= 1` — `histogram.py:134-150`. -/
def binRow (k : Nat) (bins newY : List Nat) (b : Nat) : List Nat :=
  (bincount ((((bins.zip newY).filter (fun p => decide (p.1 = b))).map Prod.snd) ++ List.range k)).map (fun c => c - 1)

/-- `right[:b] += hist[b]; left[b:] += hist[b]` — `histogram.py:151-153`. -/
def addRow (lr : List (List Nat) × List (List Nat)) (b : Nat) (row : List Nat) : List (List Nat) × List (List Nat) :=
  (lr.1.mapIdx (fun i r => if b ≤ i then List.zipWith (· + ·) r row else r),
   lr.2.mapIdx (fun i r => if i < b then List.zipWith (· + ·) r row else r))

/-- `Histogram.add` with `VECTORIZE = True` — `histogram.py:110-178`. A row of counts that does not have one entry per class cannot be
stored (ValueError). Regression does not look at the constant. -/
def Hist.addVec (h : Hist K) (X : List (List K)) (Y : List K) : Except Err (Hist K) :=
  if h.isCls then
    match colE X h.featureIdx with
    | .error e => .error e
    | .ok fvals =>
      match h.edges with
      | none => .error (.attributeError "bin_edges")
      | some edges =>
        if ¬(edges.length = h.left.length ∧ h.left.length = h.right.length ∧ h.right.length = h.numBins) then
          .error (.assertion "histogram is malformed")
        else if X.length ≠ Y.length then .error (.assertion "sample sizes and label sizes must be the same")
        else
          match replaceArray h.classes Y with
          | .error e => .error e
          | .ok newY =>
            let bins := fvals.map (h.getBin edges)
            let rows := (List.range (h.numBins + 1)).map (binRow h.classes.length bins newY)
            if rows.all (fun r => r.length = h.classes.length) then
              let lr := (List.range (h.numBins + 1)).foldl (fun lr b => addRow lr b (rows.getD b [])) (h.left, h.right)
              .ok { h with left := lr.1, right := lr.2 }
            else .error .valueError
  else h.add X Y

end FF
