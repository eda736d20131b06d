import Verif.Model.Num
import Mathlib.Data.List.Sort
import Mathlib.Data.List.Dedup

/-!
# Preprocessing of the heart data: `experiments/heart/preprocess_heart.py`

A data frame is a list of named columns. Cells and names belong to one ordered type `V` (in the experiment, strings; numbers are compared
with numbers). Names are distinct in a frame that `pd.read_csv` has made. Files are not modelled.
-/

namespace FF

variable {V : Type} [LinearOrder V]

/-- A data frame: named columns in order. -/
abbrev Frame (V W : Type) := List (V × List W)

/-- `df[name]`. -/
def Frame.col {W : Type} (df : Frame V W) (c : V) : Except Err (List W) :=
  match df.find? (fun p => decide (p.1 = c)) with
  | none => .error .keyError
  | some p => .ok p.2

/-- `df[list of names]`. -/
def Frame.select {W : Type} (df : Frame V W) : List V → Except Err (Frame V W)
  | [] => .ok []
  | c :: cs =>
    match df.col c with
    | .error e => .error e
    | .ok v =>
      match df.select cs with
      | .error e => .error e
      | .ok vs => .ok ((c, v) :: vs)

/-- `list.index(name)`. -/
def nameIndex (names : List V) (c : V) : Except Err Nat :=
  match names.findIdx? (fun a => decide (a = c)) with
  | none => .error .valueError
  | some i => .ok i

/-- `swap_columns` — `preprocess_heart.py:6-19`. -/
def swapColumns {W : Type} (df : Frame V W) (c1 c2 : V) : Except Err (Frame V W) :=
  let names := df.map Prod.fst
  match nameIndex names c1, nameIndex names c2 with
  | .ok x, .ok y =>
    match names[x]?, names[y]? with
    | some a, some b => df.select ((names.set y a).set x b)
    | _, _ => .error .indexError
  | .error e, _ => .error e
  | _, .error e => .error e

/-- `np.unique` of a column. -/
def uniqueSorted (l : List V) : List V := l.dedup.insertionSort (· ≤ ·)

/-- The body of the loop for one column — `preprocess_heart.py:36-41`. `df[column][0]` raises without rows; it is a cell, and `float` is a
type, so they always differ and every column is recoded. `dict(zip(cf, range(len(cf))))` maps a value to its position in `cf`. -/
def encodeColumn (vs : List V) : Except Err (List Nat) :=
  match vs with
  | [] => .error .keyError
  | _ :: _ => .ok (vs.map (fun v => (uniqueSorted vs).idxOf v))

/-- The loop over all columns but the last — `preprocess_heart.py:36-41`. -/
def encodeColumns : Frame V V → Except Err (Frame V Nat)
  | [] => .ok []
  | (c, vs) :: df =>
    match encodeColumn vs with
    | .error e => .error e
    | .ok codes =>
      match encodeColumns df with
      | .error e => .error e
      | .ok rest => .ok ((c, codes) :: rest)

/-- `pd.get_dummies` of a column: a column of zeros and ones for each value, named after it. -/
def getDummies (vs : List V) : Frame V Nat := (uniqueSorted vs).map (fun r => (r, vs.map (fun v => if v = r then 1 else 0)))

/-- `preprocess_heart` — `preprocess_heart.py:22-51`; `race` is the name "Race". `join` refuses names that both sides have. -/
def preprocessHeart (race : V) (df : Frame V V) : Except Err (Frame V Nat) :=
  match df.getLast? with
  | none => .error .indexError
  | some last =>
    match swapColumns df race last.1 with
    | .error e => .error e
    | .ok df =>
      match encodeColumns df.dropLast with
      | .error e => .error e
      | .ok enc =>
        match df.col race with
        | .error e => .error e
        | .ok rs =>
          let left := enc.filter (fun p => decide (p.1 ≠ race))
          let hot := getDummies rs
          if left.any (fun p => (hot.map Prod.fst).contains p.1) then .error .valueError
          else
            match (left ++ hot).map Prod.fst with
            | [] => .error .indexError
            | first :: names => Frame.select (left ++ hot) (names ++ [first])

end FF
