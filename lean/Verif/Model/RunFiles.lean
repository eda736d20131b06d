import Mathlib.Data.List.Basic

/-!
# The files of the runtime and scaling experiments

Which files `compare_runtimes` and `investigate_scaling.main` write, and in which order. A disk maps names to contents; writing replaces a file. What is written
(a profile of the training, the results) is arbitrary: a function of the trained model's place in the experiment.
-/

namespace FF

/-- A disk: the contents of the files that exist. -/
abbrev RunDisk (α : Type) := List Char → Option α

/-- Opening a file with `w+`, or `dump_stats`, and writing it. -/
def RunDisk.write {α : Type} (disk : RunDisk α) (name : List Char) (x : α) : RunDisk α := fun f => if f = name then some x else disk f

/-- `ours_or_theirs` — `compare_runtimes.py:468` and `:481`. -/
def whoText (theirs : Bool) : List Char := if theirs then "theirs".toList else "ours".toList

/-- The name of a profile — `time_measured_fit`, `compare_runtimes.py:91`; `str(seed)` is decimal. -/
def profileName (compare : List Char) (theirs : Bool) (seed : Nat) : List Char :=
  compare ++ ['_'] ++ whoText theirs ++ "_5k_".toList ++ Nat.toDigits 10 seed ++ "_profile".toList

/-- The results of a call — `compare_runtimes.py:619`, `os.path.join("logs", filename)`. Simplified: `filename` does not begin with a slash. -/
def resultName (filename : List Char) : List Char := "logs/".toList ++ filename

/-- `filename` in the scaling experiment — `investigate_scaling.py:66-70`. -/
def scalingFile (model : List Char) (size seed : Nat) : List Char :=
  model ++ ['_'] ++ Nat.toDigits 10 size ++ "_profile_".toList ++ Nat.toDigits 10 seed

/-- What `compare_runtimes` writes — `compare_runtimes.py:130` (the loop), `:467-469`, `:479-482` and `:617-620`: the profiles of each seed, ours before theirs, and
at the end the results. `prof theirs seed` is the profile of the training of that model. -/
def compareFiles {α : Type} (compare filename : List Char) (numSeeds : Nat) (runTheirs : Bool) (prof : Bool → Nat → α) (results : α) (disk : RunDisk α) :
    RunDisk α :=
  let disk := (List.range numSeeds).foldl (fun disk seed =>
    let disk := disk.write (profileName compare false seed) (prof false seed)
    if runTheirs then disk.write (profileName compare true seed) (prof true seed) else disk) disk
  disk.write (resultName filename) results

/-- What the scaling experiment writes for one model in its trials, given as sizes and fitting seeds — `investigate_scaling.py:48-71`: `compare_runtimes` with its
default of one seed and without the second model. The two dicts written at the end (`:79-82`) are left out. -/
def scalingFiles {α : Type} (model : List Char) (prof results : Nat → Nat → α) (trials : List (Nat × Nat)) (disk : RunDisk α) : RunDisk α :=
  trials.foldl (fun disk t => compareFiles model (scalingFile model t.1 t.2) 1 false (fun _ _ => prof t.1 t.2) (results t.1 t.2) disk) disk

/-- The trials, in order — `investigate_scaling.py:49-54`. -/
def scalingTrialList (sizes : List Nat) (numSeeds : Nat) : List (Nat × Nat) := sizes.flatMap (fun s => (List.range numSeeds).map (fun k => (s, k)))

end FF
