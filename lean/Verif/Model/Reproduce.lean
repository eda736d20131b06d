import Mathlib.Algebra.Order.Group.Abs
import Mathlib.Algebra.Order.Field.Basic

/-!
# Announcements of the stability experiment

`reproduce_stability` and `produce_stability` (`experiments/feature_stability/feature_importance_tests.py:302-367`) run the stability test once for each line of
Table 5. What a run computes (C125) is arbitrary here. A number is `none` if it is NaN.
-/

namespace FF

/-- The two intervals of a run, or of a row of the log — `lb_exact`, `ub_exact`, `lb_mab`, `ub_mab`. -/
structure StabLine (K : Type) where
  lbExact : Option K
  ubExact : Option K
  lbMab : Option K
  ubMab : Option K
  deriving DecidableEq

section
variable {K : Type} [Field K] [LinearOrder K]

/-- `abs(a - b) < epsilon` — `feature_importance_tests.py:316`. Comparisons with NaN are false. -/
def closeTo (eps : K) (a b : Option K) : Bool :=
  match a, b with
  | some x, some y => decide (|x - y| < eps)
  | _, _ => false

/-- The asserted condition — `feature_importance_tests.py:315-320` (and `:324-329`, `:333-338`, `:342-347`): `r` is the row of the log. -/
def lineMatches (eps : K) (r l : StabLine K) : Bool :=
  closeTo eps r.lbExact l.lbExact && closeTo eps r.ubExact l.ubExact && closeTo eps r.lbMab l.lbMab && closeTo eps r.ubMab l.ubMab

/-- `is_overlap` — `feature_importance_tests.py:255`, `exact_CI[1] >= mab_CI[0]`. -/
def lineOverlap (l : StabLine K) : Bool :=
  match l.ubExact, l.lbMab with
  | some x, some y => decide (y ≤ x)
  | _, _ => false

/-- `reproduce_stability` — `feature_importance_tests.py:302-349`: how many lines it announces before it ends or raises. `rows` are the rows of the log, `runs` the
runs in order; a run is `none` if it raises before it has its intervals. A run whose intervals overlap raises (`:298`), as does a missing row. -/
def reproduceLines (eps : K) : List (StabLine K) → List (Option (StabLine K)) → Nat
  | r :: rows, some l :: runs => if lineOverlap l then 0 else if lineMatches eps r l then reproduceLines eps rows runs + 1 else 0
  | _, _ => 0

/-- `produce_stability` — `feature_importance_tests.py:352-367`: how many lines it announces, and the files afterwards. Each run writes its file (`:294-296`; as `is_log` and not `csv_log`) before it
raises if the intervals overlap (`:298`). -/
def produceLines {N : Type} [DecidableEq N] : List (N × Option (StabLine K)) → (N → Option (StabLine K)) → Nat × (N → Option (StabLine K))
  | (n, some l) :: runs, disk =>
    let disk := fun f => if f = n then some l else disk f
    if lineOverlap l then (0, disk)
    else
      let rest := produceLines runs disk
      (rest.1 + 1, rest.2)
  | _, disk => (0, disk)

end

end FF
