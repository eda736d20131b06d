import Verif.Model.Compare
import Mathlib.Data.String.Basic

/-!
# The tables of the paper: `experiments/produce_tables.py` and `repro_script.sh`

The experiments write their results into files, `produce_tables.py` reads files and prints six tables, and `repro_script.sh` runs everything.
A file is the dictionary that was written into it, a disk says which files there are. How a number is turned into text, the padding of
the columns and the plots (`produce_figure1`) are not modelled; neither are exceptions while the experiments are trained, except that an
experiment may stop after any of its files.
-/

namespace FF

variable {K : Type} [Field K] [LinearOrder K] [FloorRing K] [NpFun K] {G : Type}

/-! ## Cells -/

/-- `round(value, 3)`, of which `s` makes a text — `produce_tables.py:11-12`: the nearest multiple of a thousandth, the even one of two. -/
def round3 (x : K) : K :=
  let f := ⌊x * 1000⌋
  let d := x * 1000 - (f : K)
  if d < 1 / 2 then (f : K) / 1000
  else if 1 / 2 < d then ((f : K) + 1) / 1000
  else if f % 2 = 0 then (f : K) / 1000 else ((f : K) + 1) / 1000

/-- `ordinal_num` — `produce_tables.py:15-27`. -/
def ordinalNum (n : Nat) : Except Err String :=
  if n = 0 then .error (.assertion "number should be greater than 0")
  else if n = 1 then .ok "1st"
  else if n = 2 then .ok "2nd"
  else if n = 3 then .ok "3rd"
  else .ok (toString n ++ "th")

/-- A cell of a table: a text, or two numbers with a plus-minus sign between them. -/
inductive TableCell (K : Type) where
  | text (s : String)
  | pm (avg dev : K)
  deriving DecidableEq, Repr

/-- What is printed of a table: `print("Table …")`, then `print_table`. -/
structure Table (K : Type) where
  title : String
  headers : List String
  rows : List (String × List (TableCell K))
  deriving DecidableEq, Repr

/-- The loop of `print_table` from line `i` on — `produce_tables.py:33-34`. -/
def printRows (i : Nat) : List (List (TableCell K)) → Except Err (List (String × List (TableCell K)))
  | [] => .ok []
  | row :: rows =>
    match ordinalNum (i / 2 + 1) with
    | .error e => .error e
    | .ok o =>
      match printRows (i + 1) rows with
      | .error e => .error e
      | .ok rest => .ok ((o ++ " row", row) :: rest)

/-! ## Logs -/

/-- The dictionary in a file, as far as its entries are numbers or `None`. -/
abbrev LogDict (K : Type) := List (String × Option K)

/-- `log_dict[key]` inside `s(…)`: no such key is a KeyError, and `None` cannot be rounded. -/
def logNum (log : LogDict K) (key : String) : Except Err K :=
  match log.lookup key with
  | none => .error .keyError
  | some none => .error .typeError
  | some (some v) => .ok v

/-- `s(log_dict[a]) + pm + s(log_dict[b])` — e.g. `produce_tables.py:43-45`. -/
def pmCell (log : LogDict K) (a b : String) : Except Err (TableCell K) :=
  match logNum log a with
  | .error e => .error e
  | .ok x =>
    match logNum log b with
    | .error e => .error e
    | .ok y => .ok (.pm (round3 x) (round3 y))

/-- `filename[: filename.find("_")]` — `produce_tables.py:42`. All the file names contain a `_`. -/
def modelName (filename : String) : String := String.ofList (filename.toList.takeWhile (fun c => decide (c ≠ '_')))

/-- `"RFR" in filename` — `produce_tables.py:169,212`. -/
def isRFR (filename : String) : Bool := decide ("RFR".toList <:+: filename.toList)

/-- `write_runtime_data` — `produce_tables.py:37-66`: their line, then ours. -/
def runtimeLines (log : LogDict K) (filename : String) : Except Err (List (List (TableCell K))) :=
  match pmCell log "our_avg_train_time" "our_std_train_time", pmCell log "our_avg_num_queries" "our_std_num_queries",
      pmCell log "our_avg_test" "our_std_test" with
  | .ok a, .ok b, .ok c =>
    match pmCell log "their_avg_train_time" "their_std_train_time", pmCell log "their_avg_num_queries" "their_std_num_queries",
        pmCell log "their_avg_test" "their_std_test" with
    | .ok a', .ok b', .ok c' => .ok [[.text (modelName filename), a', b', c'], [.text (modelName filename ++ " + MABSplit"), a, b, c]]
    | .error e, _, _ => .error e
    | _, .error e, _ => .error e
    | _, _, .error e => .error e
  | .error e, _, _ => .error e
  | _, .error e, _ => .error e
  | _, _, .error e => .error e

/-- `write_budget_data` — `produce_tables.py:69-92`. -/
def budgetLines (log : LogDict K) (filename : String) : Except Err (List (List (TableCell K))) :=
  match pmCell log "our_avg_num_trees" "our_std_num_trees", pmCell log "our_avg_test" "our_std_test" with
  | .ok a, .ok b =>
    match pmCell log "their_avg_num_trees" "their_std_num_trees", pmCell log "their_avg_test" "their_std_test" with
    | .ok a', .ok b' => .ok [[.text (modelName filename), a', b'], [.text (modelName filename ++ " + MABSplit"), a, b]]
    | .error e, _ => .error e
    | _, .error e => .error e
  | .error e, _ => .error e
  | _, .error e => .error e

/-- `s((lb + ub) / 2) + pm + s(abs(lb - ub) / 2)` — `produce_tables.py:173-188`. -/
def intervalCell (lb ub : K) : TableCell K := .pm (round3 ((lb + ub) / 2)) (round3 (|lb - ub| / 2))

/-- The body of the loop of `produce_table5` — `produce_tables.py:168-198`. -/
def stabilityLines (log : LogDict K) (filename : String) : Except Err (List (List (TableCell K))) :=
  let dataset := if isRFR filename then "Random Regression" else "Random Classification"
  match logNum log "lb_mab", logNum log "ub_mab", logNum log "lb_exact", logNum log "ub_exact" with
  | .ok l, .ok u, .ok l', .ok u' =>
    .ok [[.text (modelName filename), .text dataset, intervalCell l' u'],
      [.text (modelName filename ++ " + MABSplit"), .text dataset, intervalCell l u]]
  | .error e, _, _, _ => .error e
  | _, .error e, _, _ => .error e
  | _, _, .error e, _ => .error e
  | _, _, _, .error e => .error e

/-- The body of the loop of `produce_table6` — `produce_tables.py:211-235`. -/
def baselineLines (log : LogDict K) (filename : String) : Except Err (List (List (TableCell K))) :=
  let dataset := if isRFR filename then "Regression: California Housing" else "Classification: 20 Newsgroups"
  let metric := if isRFR filename then "MSE" else "Accuracy"
  match pmCell log "our_avg_train" "our_std_train" with
  | .error e => .error e
  | .ok a =>
    match pmCell log "their_avg_train" "their_std_train" with
    | .error e => .error e
    | .ok a' =>
      .ok [[.text (modelName filename ++ "(Sklearn)"), .text dataset, .text metric, a'],
        [.text (modelName filename ++ "(Ours)"), .text dataset, .text metric, a]]

/-! ## Files -/

/-- A path, from the directory of the repository on. -/
abbrev DirPath := List String

/-- A disk: the directories, the programs, and the logs, the last one written first. -/
structure Disk (K : Type) where
  dirs : List DirPath
  programs : List DirPath
  logs : List (DirPath × LogDict K)

/-- `open(path, "r")` and `ast.literal_eval` — e.g. `produce_tables.py:101-102`. -/
def Disk.read (d : Disk K) (p : DirPath) : Except Err (LogDict K) :=
  match d.logs.lookup p with
  | none => .error (.exception "FileNotFoundError")
  | some log => .ok log

/-- `open(path, "w+")` and `fout.write(str(results))` — e.g. `compare_runtimes.py:619-620`. -/
def Disk.write (d : Disk K) (p : DirPath) (log : LogDict K) : Disk K := { d with logs := (p, log) :: d.logs }

/-- The loop over the file names — e.g. `produce_tables.py:100-103`. -/
def tableLines (d : Disk K) (dir : DirPath) (lines : LogDict K → String → Except Err (List (List (TableCell K)))) :
    List String → Except Err (List (List (TableCell K)))
  | [] => .ok []
  | f :: fs =>
    match d.read (dir ++ [f]) with
    | .error e => .error e
    | .ok log =>
      match lines log f with
      | .error e => .error e
      | .ok l =>
        match tableLines d dir lines fs with
        | .error e => .error e
        | .ok rest => .ok (l ++ rest)

/-- What the six functions have in common — `produce_tables.py:95-238`. -/
def makeTable (d : Disk K) (dir : DirPath) (lines : LogDict K → String → Except Err (List (List (TableCell K)))) (files : List String)
    (headers : List String) (title : String) : Except Err (Table K) :=
  match tableLines d dir lines files with
  | .error e => .error e
  | .ok l =>
    match printRows 0 l with
    | .error e => .error e
    | .ok rows => .ok ⟨title, headers, rows⟩

/-- `produce_table1` — `produce_tables.py:95-106`, run in the directory `cwd`. -/
def produceTable1 (cwd : DirPath) (d : Disk K) : Except Err (Table K) :=
  makeTable d (cwd ++ ["runtime_exps"]) runtimeLines ["HRFC_dict", "ERFC_dict", "HRPC_dict"] ["Model", "Time(s)", "# insertions", "Accuracy"]
    "Table 1 Classification: MNIST"

/-- `produce_table2` — `produce_tables.py:109-120`. -/
def produceTable2 (cwd : DirPath) (d : Disk K) : Except Err (Table K) :=
  makeTable d (cwd ++ ["runtime_exps"]) runtimeLines ["HRFR_dict", "ERFR_dict", "HRPR_dict"] ["Model", "Time(s)", "# insertions", "MSE"]
    "Table 2 Regression: Random Linear Model"

/-- `produce_table3` — `produce_tables.py:123-134`. -/
def produceTable3 (cwd : DirPath) (d : Disk K) : Except Err (Table K) :=
  makeTable d (cwd ++ ["budget_exps"]) budgetLines ["HRFC_dict", "ERFC_dict", "HRPC_dict"] ["Model", "# trees", "Accuracy"]
    "Table 3 Classification: MNIST (budget = 10M)"

/-- `produce_table4` — `produce_tables.py:137-148`. -/
def produceTable4 (cwd : DirPath) (d : Disk K) : Except Err (Table K) :=
  makeTable d (cwd ++ ["budget_exps"]) budgetLines ["HRFR_dict", "ERFR_dict", "HRPR_dict"] ["Model", "# trees", "MSE"]
    "Table 4 Classification: Random Linear (budget = Q * 24M)"

/-- `produce_table5` — `produce_tables.py:151-201`. The directory is found from the path of the program, which lies in `cwd`. -/
def produceTable5 (cwd : DirPath) (d : Disk K) : Except Err (Table K) :=
  makeTable d ((cwd ++ ["produce_tables.py"]).dropLast.dropLast ++ ["tests", "stat_test_stability_log"]) stabilityLines
    ["HRFC+MID_dict", "HRFR+MID_dict", "HRFC+Perm_dict", "HRFR+Perm_dict"] ["Importance Model", "Dataset", "Stability"]
    "Table 5 Stability Model (Budget: Q * 100000)"

/-- `produce_table6` — `produce_tables.py:204-238`. -/
def produceTable6 (cwd : DirPath) (d : Disk K) : Except Err (Table K) :=
  makeTable d (cwd ++ ["sklearn_exps"]) baselineLines ["RFC_dict", "ERFC_dict", "RFR_dict", "ERFR_dict"]
    ["Model", "Task and Dataset", "Performance Metric", "Test Performance"] "Table 6 Compare our model vs sklearn"

/-- One table after the other: the tables printed, and the exception that ended the program, if any. -/
def printTables : List (Except Err (Table K)) → List (Table K) × Option Err
  | [] => ([], none)
  | .error e :: _ => ([], some e)
  | .ok t :: ts => (t :: (printTables ts).1, (printTables ts).2)

/-- The main program — `produce_tables.py:248-254`. The plot that follows is not modelled. -/
def produceTables (cwd : DirPath) (d : Disk K) : List (Table K) × Option Err :=
  printTables [produceTable1 cwd d, produceTable2 cwd d, produceTable3 cwd d, produceTable4 cwd d, produceTable5 cwd d, produceTable6 cwd d]

/-! ## What the experiments write -/

/-- The numbers of queries, trees and the scores of our models / of theirs, in the order of the seeds. -/
def ourTests (rows : List (CmpRow K)) : List K := rows.filterMap (fun r => r.ours.test)
def theirTests (rows : List (CmpRow K)) : List K := rows.filterMap (fun r => r.theirs.bind CmpSide.test)
def ourQueries (rows : List (CmpRow K)) : List K := rows.map (fun r => (r.ours.queries : K))
def theirQueries (rows : List (CmpRow K)) : List K := rows.filterMap (fun r => r.theirs.map (fun s => (s.queries : K)))
def ourTrees (rows : List (CmpRow K)) : List K := rows.map (fun r => (r.ours.trees : K))
def theirTrees (rows : List (CmpRow K)) : List K := rows.filterMap (fun r => r.theirs.map (fun s => (s.trees : K)))

/-- An entry that is `None` unless `b`. -/
def ifRun (b : Bool) (x : K) : Option K := if b then some x else none

/-- The dictionary of `compare_runtimes`, without the lists and the training scores — `compare_runtimes.py:557-616`; `ours` and `theirs` are
the times the clock showed. -/
def runtimeLog (predict runTheirs : Bool) (rows : List (CmpRow K)) (ours theirs : List K) : LogDict K :=
  [("our_avg_test", ifRun predict (npMean (ourTests rows))),
    ("our_std_test", ifRun predict (stdErr (ourTests rows))),
    ("their_avg_test", ifRun (runTheirs && predict) (npMean (theirTests rows))),
    ("their_std_test", ifRun (runTheirs && predict) (stdErr (theirTests rows))),
    ("our_avg_train_time", some (npMean ours)),
    ("our_std_train_time", some (stdErr ours)),
    ("our_avg_num_queries", some (npMean (ourQueries rows))),
    ("our_std_num_queries", some (stdErr (ourQueries rows))),
    ("their_avg_train_time", ifRun runTheirs (npMean theirs)),
    ("their_std_train_time", ifRun runTheirs (stdErr theirs)),
    ("their_avg_num_queries", ifRun runTheirs (npMean (theirQueries rows))),
    ("their_std_num_queries", ifRun runTheirs (stdErr (theirQueries rows)))]

/-- The dictionary of `compare_budgets`, without the lists and the training scores — `compare_budgets.py:542-604`. -/
def budgetLog (predict runTheirs : Bool) (rows : List (CmpRow K)) : LogDict K :=
  [("our_avg_test", ifRun predict (npMean (ourTests rows))),
    ("our_std_test", ifRun predict (stdErr (ourTests rows))),
    ("their_avg_test", ifRun (runTheirs && predict) (npMean (theirTests rows))),
    ("their_std_test", ifRun (runTheirs && predict) (stdErr (theirTests rows))),
    ("our_avg_num_queries", some (npMean (ourQueries rows))),
    ("our_std_num_queries", some (stdErr (ourQueries rows))),
    ("our_avg_num_trees", some (npMean (ourTrees rows))),
    ("our_std_num_trees", some (stdErr (ourTrees rows))),
    ("their_avg_num_queries", ifRun runTheirs (npMean (theirQueries rows))),
    ("their_std_num_queries", ifRun runTheirs (stdErr (theirQueries rows))),
    ("their_avg_num_trees", ifRun runTheirs (npMean (theirTrees rows))),
    ("their_std_num_trees", ifRun runTheirs (stdErr (theirTrees rows)))]

/-- The dictionary of `run_stability_stats_test`, as far as the table reads it — `feature_importance_tests.py:247-283`. -/
def stabilityLog (z : K) (exact mab : List K) : LogDict K :=
  [("lb_exact", some (confInterval z exact).1), ("ub_exact", some (confInterval z exact).2),
    ("lb_mab", some (confInterval z mab).1), ("ub_mab", some (confInterval z mab).2)]

/-- The scores of one model in `compare_accuracies`, one per seed. -/
structure BaseScores (K : Type) where
  train : List K
  test : List K

/-- The dictionary of `compare_accuracies`, without the lists — `compare_baseline_implementations.py:272-300`. Here the deviations are not
divided by the square root of the number of seeds. -/
def baselineLog (ours theirs : BaseScores K) : LogDict K :=
  [("our_avg_train", some (npMean ours.train)), ("our_std_train", some (NpFun.sqrt (npVar ours.train))),
    ("our_avg_test", some (npMean ours.test)), ("our_std_test", some (NpFun.sqrt (npVar ours.test))),
    ("their_avg_train", some (npMean theirs.train)), ("their_std_train", some (NpFun.sqrt (npVar theirs.train))),
    ("their_avg_test", some (npMean theirs.test)), ("their_std_test", some (NpFun.sqrt (npVar theirs.test)))]

/-! ## The script -/

/-- What the programs compute when they are run: the files they get to write, with their contents. -/
structure Runs (K : Type) where
  runtimes : List (String × LogDict K)
  budgets : List (String × LogDict K)
  stability : List (String × LogDict K)
  baselines : List (String × LogDict K)

/-- Files written into one directory, one after the other. -/
def Disk.writeAll (d : Disk K) (dir : DirPath) : List (String × LogDict K) → Disk K
  | [] => d
  | f :: fs => (d.write (dir ++ [f.1]) f.2).writeAll dir fs

/-- `os.makedirs(dir, exist_ok=True)` — `compare_runtimes.py:618`. -/
def Disk.makeDir (d : Disk K) (p : DirPath) : Disk K := { d with dirs := p :: d.dirs }

/-- A shell: the working directory, the disk, and what `produce_tables.py` has printed. -/
structure Shell (K : Type) where
  cwd : DirPath
  disk : Disk K
  out : Option (List (Table K) × Option Err)

/-- The lines of the script. -/
inductive ShellCmd where
  | cd (path : List String)
  | python (program : String)
  deriving DecidableEq, Repr

/-- Where a relative path leads. -/
def resolvePath (cwd : DirPath) (path : List String) : DirPath :=
  path.foldl (fun p s => if s = ".." then p.dropLast else p ++ [s]) cwd

/-- One of the programs, run in the directory in which it lies: `compare_runtimes.py:618-620` and `compare_budgets.py:601-603` write into
`logs/`, `feature_importance_tests.py:294-295` and `compare_baseline_implementations.py:301-311` into the working directory (the latter does
not write a file again that has the same contents), `investigate_scaling.py` writes other files and `make_scaling_plot.py` none. -/
def runProgram (runs : Runs K) (sh : Shell K) (program : String) : Shell K :=
  if program = "compare_runtimes.py" then
    { sh with disk := (sh.disk.makeDir (sh.cwd ++ ["logs"])).writeAll (sh.cwd ++ ["logs"]) runs.runtimes }
  else if program = "compare_budgets.py" then
    { sh with disk := (sh.disk.makeDir (sh.cwd ++ ["logs"])).writeAll (sh.cwd ++ ["logs"]) runs.budgets }
  else if program = "feature_importance_tests.py" then { sh with disk := sh.disk.writeAll sh.cwd runs.stability }
  else if program = "compare_baseline_implementations.py" then { sh with disk := sh.disk.writeAll sh.cwd runs.baselines }
  else if program = "produce_tables.py" then { sh with out := some (produceTables sh.cwd sh.disk) }
  else sh

/-- One line of the script. `cd` to a directory that does not exist, and `python` on a program that does not, print an error message; the script
goes on (it does not say `set -e`). -/
def shellStep (runs : Runs K) (sh : Shell K) : ShellCmd → Shell K
  | .cd path => if resolvePath sh.cwd path ∈ sh.disk.dirs then { sh with cwd := resolvePath sh.cwd path } else sh
  | .python program => if sh.cwd ++ [program] ∈ sh.disk.programs then runProgram runs sh program else sh

/-- `repro_script.sh:4-16`. -/
def reproCmds : List ShellCmd :=
  [.cd ["experiments", "runtime_exps"], .python "compare_runtimes.py",
    .cd ["..", "budget_exps"], .python "compare_budgets.py",
    .cd ["..", "scaling_exps"], .python "investigate_scaling.py", .python "make_scaling_plot.py",
    .cd ["..", "feature_stability"], .python "feature_importance_tests.py",
    .cd ["..", "experiments", "sklearn_exps"], .python "compare_baseline_implementations.py",
    .cd [".."], .python "produce_tables.py"]

/-- The script, started in the directory of the repository. -/
def reproScript (runs : Runs K) (d : Disk K) : Shell K := reproCmds.foldl (shellStep runs) ⟨[], d, none⟩

end FF
