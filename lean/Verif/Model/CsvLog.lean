import Mathlib.Data.List.Basic

/-!
# The csv logs of the experiments

`append_dict_as_row` (`experiments/heart/fit_heart.py:101-120`) and its three callers. Text is a list of characters; values are given as the text that
`csv` writes for them (`str(value)`). A file is its text, or `none` if it does not exist.
An interruption leaves a part of what was to be written, from its beginning.
-/

namespace FF

/-- Characters. -/
abbrev Text := List Char

/-- A python dict of names and values (as text), in the order of insertion. -/
abbrev CsvDict := List (Text × Text)

/-- The characters that make `csv.writer` put a field in quotes (`QUOTE_MINIMAL`, the default of `DictWriter`). -/
def csvSpecial (c : Char) : Bool := c == ',' || c == '"' || c == '\n' || c == '\r'

/-- Quotes in a quoted field are doubled (`doublequote=True`). -/
def csvDouble : Text → Text
  | [] => []
  | c :: cs => if c = '"' then '"' :: '"' :: csvDouble cs else c :: csvDouble cs

/-- One field as `csv.writer` writes it. -/
def csvField (x : Text) : Text := if x.any csvSpecial then '"' :: (csvDouble x ++ ['"']) else x

/-- The fields of a row, separated by commas. -/
def csvFields : List Text → Text
  | [] => []
  | [x] => csvField x
  | x :: y :: r => csvField x ++ ',' :: csvFields (y :: r)

/-- A row as `csv.writer` writes it; a single empty field is put in quotes, so that the line is not empty. -/
def csvLine (ending : Text) (xs : List Text) : Text := (if xs = [[]] then ['"', '"'] else csvFields xs) ++ ending

/-- `pd.DataFrame(columns=names).to_csv(file, index=False)` — `fit_heart.py:207-208`, `feature_importance_tests.py:139-140, 291-292`: the header. -/
def csvHeader (names : List Text) : Text := csvLine ['\n'] names

/-- `append_dict_as_row(file, d, d.keys())` — `fit_heart.py:118-120`: opening with `"a+"` keeps what is there; the row holds the values in the order of the
dict's own names; the header of the file is not read. -/
def appendDictAsRow (file : Text) (d : CsvDict) : Text := file ++ csvLine ['\r', '\n'] (d.map Prod.snd)

/-- How the experiments log a result — `fit_heart.py:204-209`, `feature_importance_tests.py:137-141, 289-293`: a file that does not exist gets a header
with the names of this result. -/
def logResult (file : Option Text) (d : CsvDict) : Text :=
  match file with
  | none => appendDictAsRow (csvHeader (d.map Prod.fst)) d
  | some t => appendDictAsRow t d

/-- Some results, one after the other. -/
def logResults : Option Text → List CsvDict → Option Text
  | file, [] => file
  | file, d :: ds => logResults (some (logResult file d)) ds

/-- Logging is interrupted (the process is killed, the disk is full) after `k` characters of what it writes: first the header, for a file that does not exist,
and then the row — `fit_heart.py:204-209` and `:118-120`. The file exists from the moment `to_csv` opens it. Simplified: what is written is cut at a character;
nothing is written out of order. -/
def logInterrupted (file : Option Text) (d : CsvDict) (k : Nat) : Text :=
  match file with
  | none => (csvHeader (d.map Prod.fst) ++ csvLine ['\r', '\n'] (d.map Prod.snd)).take k
  | some t => t ++ (csvLine ['\r', '\n'] (d.map Prod.snd)).take k

/-- The dict that `fit` of the heart experiment logs — `fit_heart.py:188-203`. `tracked` is what `wandb.log(log_dict)` leaves in the dict in addition to the
two accuracies: `_timestamp` and `_runtime` in the runs whose log is in the repository (`hyperparams_sweep/sweep_log.csv`), nothing without `wandb`. -/
def sweepDict (valAcc testAcc : Text) (tracked : CsvDict) (algorithm bootstrap dataset subSize seed maxDepth nEstimators verbose balanced : Text) :
    CsvDict :=
  [("val_acc".toList, valAcc), ("test_acc".toList, testAcc)] ++ tracked ++
    [("algorithm".toList, algorithm), ("bootstrap".toList, bootstrap), ("dataset".toList, dataset), ("sub_size".toList, subSize), ("seed".toList, seed),
      ("max_depth".toList, maxDepth), ("n_estimators".toList, nEstimators), ("verbose".toList, verbose), ("is_balanced".toList, balanced)]

/-- The names that `test_stability_with_budget` logs — `feature_importance_tests.py:118-134`. -/
def budgetNames : List Text :=
  ["stability_diff", "dataset", "data_size", "budget", "num_forests", "num_trees", "best_k", "max_depth", "max_leaf_nodes", "feature_subsampling",
    "epsilon", "seed", "num_features", "num_informative", "importance_score"].map String.toList

/-- The names that `run_stability_stats_test` logs — `feature_importance_tests.py:259-283`. -/
def statNames : List Text :=
  ["stability_diff", "mab stability", "is_overlap", "dataset", "data_size", "n_features", "n_informative", "budget", "num_forests", "num_trees", "best_k",
    "max_depth", "max_leaf_nodes", "feature_subsampling", "epsilon", "seed", "conf_multiplier", "num_trials", "lb_exact", "ub_exact", "lb_mab", "ub_mab",
    "f_importance"].map String.toList

/-- The file that `test_stability_with_budget` logs to — `feature_importance_tests.py:136-137`: a given name is used as it is. -/
def budgetFile (name : Option Text) : Text := name.getD "stability_log.csv".toList

/-- The file that `run_stability_stats_test` logs to — `feature_importance_tests.py:286-288`: in the folder `stat_test_stability_log`. -/
def statFile (name : Option Text) : Text := "stat_test_stability_log/".toList ++ name.getD "statistics_log_tables.csv".toList

end FF
