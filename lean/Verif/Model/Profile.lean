import Verif.Model.Num
import Mathlib.Data.Nat.Digits.Defs

/-!
# `utils/profile_rf.py`

The profile itself (what `cProfile` measured) is an opaque value; the other library is an arbitrary function. Strings are lists of characters.
-/

namespace FF

/-- The arguments of the script — `profile_rf.py:76-106`, without `--verbose`, which only decides about printing. -/
structure ProfArgs where
  algorithm : List Char
  nEstimators : Int
  dataset : List Char
  seed : Int
  deriving DecidableEq, Repr

/-- `parse_args` accepts the arguments: the `choices` — `profile_rf.py:78-101`. -/
def ProfArgs.accepted (a : ProfArgs) : Bool :=
  (a.algorithm == "FASTFOREST".toList || a.algorithm == "SKLEARN".toList) && (a.dataset == "IRIS".toList || a.dataset == "DIGITS".toList)

/-- `str(n)` of a python int. -/
def pyStr : Int → List Char
  | .ofNat n => Nat.toDigits 10 n
  | .negSucc n => '-' :: Nat.toDigits 10 (n + 1)

/-- `get_filename` — `profile_rf.py:58-72`. -/
def profName (a : ProfArgs) : List Char :=
  "-a-".toList ++ a.algorithm ++ "-n-".toList ++ pyStr a.nEstimators ++ "-d-".toList ++ a.dataset ++ "-s-".toList ++ pyStr a.seed

/-- `fit_forest` — `profile_rf.py:34-55`. `lib` is the forest of the other library; the name `Forest` (line 48) is not defined in the module,
which imports `ForestClassifier`. -/
def profFit {P : Type} (lib : ProfArgs → Except Err P) (a : ProfArgs) : Except Err P :=
  if a.dataset = "IRIS".toList ∨ a.dataset = "DIGITS".toList then
    if a.algorithm = "FASTFOREST".toList then .error .nameError
    else if a.algorithm = "SKLEARN".toList then lib a
    else .error (.exception "Invalid random foreset algorithm")
  else .error (.exception "Invalid choice of dataset")

/-- The folder `profiles`: what is stored under a name. -/
abbrev Profiles (P : Type) := List Char → Option P

/-- `main` — `profile_rf.py:13-31`: what the call raises or `none`, and the folder afterwards. `argparse` ends the program if it does not accept the
arguments (`SystemExit`, modelled as `ValueError`), `np.random.seed` raises on a negative seed or one that needs more than 32 bits. -/
def profMain {P : Type} (lib : ProfArgs → Except Err P) (a : ProfArgs) (fs : Profiles P) : Option Err × Profiles P :=
  if a.accepted = false then (some .valueError, fs)
  else if a.seed < 0 ∨ 2 ^ 32 ≤ a.seed then (some .valueError, fs)
  else
    match profFit lib a with
    | .error e => (some e, fs)
    | .ok p => (none, fun name => if name = profName a then some p else fs name)

/-- Calling the script again and again; the other library may answer differently every time. -/
def profRuns {P : Type} : List (ProfArgs × (ProfArgs → Except Err P)) → Profiles P → Profiles P
  | [], fs => fs
  | (a, lib) :: rest, fs => profRuns rest (profMain lib a fs).2

end FF
