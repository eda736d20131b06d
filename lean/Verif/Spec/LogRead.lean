import Mathlib.Data.List.Infix

/-!
# Logs of an experiment, without reference to the script that reads them
-/

namespace Spec

/-- A line of a log: the number of rounds of one run, the end of the runs of one size, or something else. -/
inductive LogLine where
  | rounds (n : Nat)
  | done (size : Nat)
  | other (text : List Char)

/-- How a line is written, with the line break at its end. -/
def LogLine.text : LogLine → List Char
  | .rounds n => "Round count: ".toList ++ Nat.toDigits 10 n ++ ['\n']
  | .done size => "Results for  ".toList ++ Nat.toDigits 10 size ++ "  above\n".toList
  | .other t => t

/-- The other lines do not look like the first two kinds. -/
def LogLine.Plain : LogLine → Prop
  | .other t => ¬ "Round count:".toList <:+: t ∧ ¬ "Results for".toList <:+: t
  | _ => True

/-- The sizes in the log, each with the round counts written since the size before it; `seen` are counts already written. -/
def runsOf : List Nat → List LogLine → List (Nat × List Nat)
  | _, [] => []
  | seen, .rounds n :: rest => runsOf (seen ++ [n]) rest
  | seen, .done size :: rest => (size, seen) :: runsOf [] rest
  | seen, .other _ :: rest => runsOf seen rest

/-- The round counts written since the last size. -/
def unfinished : List Nat → List LogLine → List Nat
  | seen, [] => seen
  | seen, .rounds n :: rest => unfinished (seen ++ [n]) rest
  | _, .done _ :: rest => unfinished [] rest
  | seen, .other _ :: rest => unfinished seen rest

/-- The counts of an experiment, size after size, with those of the unfinished one at the end. -/
def allRuns (log : List LogLine) : List (List Nat) := (runsOf [] log).map Prod.snd ++ [unfinished [] log]

end Spec

namespace Spec

/-- A row of a table of the given width: the counts, and zeros behind them. -/
def padRow (width : Nat) (counts : List Nat) : List Int := counts.map (fun n : Nat => (n : Int)) ++ List.replicate (width - counts.length) 0

/-- The table of the given height whose rows are the given ones; missing rows are rows of zeros. -/
def padTable (height width : Nat) (rows : List (List Nat)) : List (List Int) :=
  (List.range height).map (fun i => padRow width (rows[i]?.getD []))

/-- The rows have their place in a table: none is too long, and those below the last line are empty. -/
def Fits (height width : Nat) (rows : List (List Nat)) : Prop :=
  ∀ (i : Nat) (row : List Nat), rows[i]? = some row → row.length ≤ width ∧ (row ≠ [] → i < height)

end Spec
