import Verif.Model.Num
import Mathlib.Data.List.Infix

/-!
# Reading the log of a scaling experiment: `experiments/snappy_analysis/analyze_output.py`

`solve_mab` prints a line `Round count: n` for every run (`solvers.py:479`, with `verbose`), and the experiment prints a line
`Results for  s  above` after the runs on samples of size `s` (`with_repl_results_filtered.csv`). The script reads these lines into a table with one
row for every size and prints the table, the sizes and the mean and the standard deviation of every row. A line is a list of characters. How numpy
lays out a printed table is not modelled.
-/

namespace FF

variable {K : Type} [Field K] [LinearOrder K] [FloorRing K] [NpFun K]

/-- `sub in line` — `analyze_output.py:13,16`. -/
def lineHas (sub line : List Char) : Bool := decide (sub <:+: line)

/-- `line.strip().split()` — `analyze_output.py:14,19`: the pieces between white space, without empty ones (`strip` changes nothing about them). -/
def pyTokens (line : List Char) : List (List Char) := (line.splitOnP Char.isWhitespace).filter (fun t => !t.isEmpty)

/-- The digits of `int(text)`; python also allows `_` between digits and digits of other scripts, which are errors here. -/
def pyNat (ds : List Char) : Except Err Nat :=
  if ds ≠ [] ∧ ds.all Char.isDigit then .ok (Nat.ofDigitChars 10 ds 0) else .error .valueError

/-- `int(text)` — `analyze_output.py:14,19`. -/
def pyInt : List Char → Except Err Int
  | '-' :: ds => (pyNat ds).map (fun n => -(n : Int))
  | '+' :: ds => (pyNat ds).map (fun n => (n : Int))
  | ds => (pyNat ds).map (fun n => (n : Int))

/-- `int(line.strip().split()[-k])` for `k ≥ 1` — `analyze_output.py:14` (`k = 1`) and `19` (`k = 2`). -/
def intFromEnd (k : Nat) (line : List Char) : Except Err Int :=
  match (pyTokens line).reverse[k - 1]? with
  | none => .error .indexError
  | some t => pyInt t

/-- `results[i, j] = v` — `analyze_output.py:14`. -/
def setCell (cells : List (List Int)) (i j : Nat) (v : Int) : Except Err (List (List Int)) :=
  match cells[i]? with
  | none => .error .indexError
  | some row => if j < row.length then .ok (cells.set i (row.set j v)) else .error .indexError

/-- `sizes`, `results`, `size_idx` and `rc_idx` — `analyze_output.py:6-11`. -/
structure LogState where
  sizes : List Int
  cells : List (List Int)
  sizeIdx : Nat
  rcIdx : Nat
  deriving DecidableEq

/-- `analyze_output.py:6-11`; the two numbers are `NUM_SIZES` and `NUM_TRIALS`. -/
def logStart (numSizes numTrials : Nat) : LogState := ⟨[], List.replicate numSizes (List.replicate numTrials 0), 0, 0⟩

/-- The body of the loop — `analyze_output.py:13-19`. -/
def logStep (st : LogState) (line : List Char) : Except Err LogState :=
  if lineHas "Round count:".toList line then
    match intFromEnd 1 line with
    | .error e => .error e
    | .ok v =>
      match setCell st.cells st.sizeIdx st.rcIdx v with
      | .error e => .error e
      | .ok cells => .ok { st with cells := cells, rcIdx := st.rcIdx + 1 }
  else if lineHas "Results for".toList line then
    match intFromEnd 2 line with
    | .error e => .error e
    | .ok v => .ok { st with sizes := st.sizes ++ [v], sizeIdx := st.sizeIdx + 1, rcIdx := 0 }
  else .ok st

/-- The loop — `analyze_output.py:12-19`. -/
def logLoop : List (List Char) → LogState → Except Err LogState
  | [], st => .ok st
  | line :: rest, st =>
    match logStep st line with
    | .error e => .error e
    | .ok st' => logLoop rest st'

/-- What is printed: the warning, `results`, `sizes`, the means and the standard deviations. -/
structure LogReport (K : Type) where
  warning : Bool
  cells : List (List Int)
  sizes : List Int
  means : List K
  stds : List K

/-- `results[-1, -1]` — `analyze_output.py:21`. -/
def lastCell (cells : List (List Int)) : Except Err Int :=
  match cells.getLast? with
  | none => .error .indexError
  | some row =>
    match row.getLast? with
    | none => .error .indexError
    | some v => .ok v

/-- `main()` — `analyze_output.py:4-30`, for given numbers of sizes and trials. -/
def analyzeLog (numSizes numTrials : Nat) (lines : List (List Char)) : Except Err (LogReport K) :=
  match logLoop lines (logStart numSizes numTrials) with
  | .error e => .error e
  | .ok st =>
    match lastCell st.cells with
    | .error e => .error e
    | .ok v => .ok ⟨decide (v = 0), st.cells, st.sizes, st.cells.map (fun row => npMean (row.map (fun (n : Int) => (n : K)))),
        st.cells.map (fun row => NpFun.sqrt (npVar (row.map (fun (n : Int) => (n : K)))))⟩

/-- `main()` with the numbers of the script — `analyze_output.py:7-8`. -/
def analyzeOutput (lines : List (List Char)) : Except Err (LogReport K) := analyzeLog 30 20 lines

end FF
