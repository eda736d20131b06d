import Mathlib.Data.List.Basic

/-!
# Reading a csv file (C167)

The usual rules: fields are separated by commas and rows by line ends; a field may be put in quotes, and then holds commas and line ends as they are, and two
quotes for one; empty lines are skipped.
-/

namespace Spec

/-- Where the reader is: at the start of a row; at the start of a field after the given fields; in a field without quotes; in a field with quotes; behind a
quote in such a field. -/
inductive CsvState where
  | row
  | start (fields : List (List Char))
  | plain (fields : List (List Char)) (cur : List Char)
  | quoted (fields : List (List Char)) (cur : List Char)
  | closed (fields : List (List Char)) (cur : List Char)

/-- One character: the next state, and the row that has been completed, if any. -/
def CsvState.step : CsvState → Char → CsvState × Option (List (List Char))
  | .row, c =>
    if c = '\n' ∨ c = '\r' then (.row, none) else if c = ',' then (.start [[]], none) else if c = '"' then (.quoted [] [], none) else (.plain [] [c], none)
  | .start fs, c =>
    if c = '\n' ∨ c = '\r' then (.row, some (fs ++ [[]])) else if c = ',' then (.start (fs ++ [[]]), none)
    else if c = '"' then (.quoted fs [], none) else (.plain fs [c], none)
  | .plain fs cur, c =>
    if c = '\n' ∨ c = '\r' then (.row, some (fs ++ [cur])) else if c = ',' then (.start (fs ++ [cur]), none) else (.plain fs (cur ++ [c]), none)
  | .quoted fs cur, c => if c = '"' then (.closed fs cur, none) else (.quoted fs (cur ++ [c]), none)
  | .closed fs cur, c =>
    if c = '\n' ∨ c = '\r' then (.row, some (fs ++ [cur])) else if c = ',' then (.start (fs ++ [cur]), none)
    else if c = '"' then (.quoted fs (cur ++ ['"']), none) else (.plain fs (cur ++ [c]), none)

/-- The row that the end of the file completes. -/
def CsvState.finish : CsvState → List (List (List Char))
  | .row => []
  | .start fs => [fs ++ [[]]]
  | .plain fs cur | .quoted fs cur | .closed fs cur => [fs ++ [cur]]

/-- The rows of a text. -/
def CsvState.read : CsvState → List Char → List (List (List Char))
  | s, [] => s.finish
  | s, c :: cs =>
    match s.step c with
    | (s', none) => s'.read cs
    | (s', some r) => r :: s'.read cs

/-- The rows of a csv file. -/
def readRows (t : List Char) : List (List (List Char)) := CsvState.row.read t

/-- The file as a table: the first row has the names of the columns; each further row gives values to names. Rows that are too
long are cut here; a reader may refuse such a file altogether (`pandas` does), and then nothing at all is read. -/
def readTable (t : List Char) : List (List (List Char × List Char)) :=
  match readRows t with
  | [] => []
  | names :: rows => rows.map (fun r => names.zip r)

end Spec
