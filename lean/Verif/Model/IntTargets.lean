import Verif.Model.Forest

/-!
# Boosting when the caller's target array is an integer array

`forest_base.py:316-321` writes the residuals into the caller's array, `self.new_targets[data_subset_idcs] = ...`. `Model/Forest.lean`
has float arrays only. If the array has an integer type (targets given as whole numbers, e.g. `np.array([1, 2, 4])`), numpy silently
truncates what is written toward zero. Everything else is unchanged, so the loop below is `forestLoop` with that cast after each pass.
-/

namespace FF

variable {K : Type} [Field K] [LinearOrder K] [FloorRing K] [NpFun K] {G : Type}

/-- Writing into an integer array — `forest_base.py:316-321`. Only the written entries are cast in python; the others hold whole numbers
already, so casting the whole array is the same. -/
def castArray (ref : Option Nat) (w : World K G) : World K G :=
  match ref with
  | none => w
  | some r => { w with arrays := w.arrays.set r ((w.arrays.getD r []).map truncInt) }

/-- The loop of `fit` — `forest_base.py:193-327` — when `new_targets` is an integer array. -/
def forestLoopInt (R : Rng K G) (mem : Nat → Nat → Junk K) (data : List (List K)) (F : Nat) :
    List Nat → Forest K G → World K G → Except Err (Forest K G × World K G)
  | [], f, w => .ok (f, w)
  | i :: is, f, w =>
    match forestStep R mem data F i f w with
    | .error e => .error e
    | .ok (false, f', w') => .ok (f', w')
    | .ok (true, f', w') =>
      if (match f'.remaining with | none => true | some b => decide (-buffer < b)) then
        forestLoopInt R mem data F is f' (castArray f'.newRef w')
      else .error (.assertion "Error: went over budget")

/-- `ForestBase.fit` — `forest_base.py:160-327` — with the loop as a parameter (see `fitWith_forestLoop`). -/
def Forest.fitWith (loop : List (List K) → Nat → List Nat → Forest K G → World K G → Except Err (Forest K G × World K G))
    (f : Forest K G) (w : World K G) (data : Option (List (List K))) (labels : Option Nat) : Except Err (Forest K G × World K G) :=
  match bothOrNeither data labels with
  | .error e => .error e
  | .ok passed =>
    let f : Forest K G := match passed with
      | none => f
      | some (d, l) => { f with data := some d, orgRef := some l, newRef := some l }
    match f.data with
    | none => .error .typeError
    | some [] => .error .indexError
    | some (row :: rows) =>
      match fitTargets f w with
      | .error e => .error e
      | .ok (f, w) =>
        match maybeDiscrete f.cfg.makeDiscrete (row :: rows) f.discrete with
        | .error e => .error e
        | .ok dd =>
          let f := { f with discrete := dd }
          let f := if f.cfg.precompMinmax then { f with minmax := some (colMinMax (row :: rows) row.length) } else f
          let f := if f.cfg.oobScore then { f with oobList := some [] } else f
          loop (row :: rows) row.length (List.range f.cfg.nEstimators) { f with trees := [] } w

/-- `ForestBase.fit` — `forest_base.py:160-327` — on an integer array of targets. -/
def Forest.fitInt (R : Rng K G) (mem : Nat → Nat → Junk K) (f : Forest K G) (w : World K G) (data : Option (List (List K)))
    (labels : Option Nat) : Except Err (Forest K G × World K G) :=
  Forest.fitWith (forestLoopInt R mem) f w data labels

/-- With the loop of `Model/Forest.lean` it is the `fit` of `Model/Forest.lean`. -/
theorem fitWith_forestLoop (R : Rng K G) (mem : Nat → Nat → Junk K) (f : Forest K G) (w : World K G) (data : Option (List (List K)))
    (labels : Option Nat) : Forest.fitWith (forestLoop R mem) f w data labels = Forest.fit R mem f w data labels := rfl

end FF
