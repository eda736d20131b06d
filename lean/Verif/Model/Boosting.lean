import Verif.Model.Forest

/-!
# `utils/boosting.py`

`ForestBase` only calls `get_next_targets` for regression (`forest_base.py:108-111` refuses boosted classification); for that case
`Model/Forest.lean` has `boostTargets`. Arrays of different lengths are a ValueError (numpy would repeat an array of length 1). Division
is the field's, so the entries stand for python's only where the denominators are not zero; for probabilities they are positive.
-/

namespace FF

variable {K : Type} [Field K]

/-- `loss_type`, compared with `DEFAULT_CLASSIFIER_LOSS = "CELoss"` — `constants.py:45-46`. -/
inductive Loss where
  | ce
  | other
  deriving DecidableEq, Repr

/-- `DEFAULT_GRAD_SMOOTHING_VAL = 1e-5` — `constants.py:47`. -/
def gradSmooth : K := 1 / 100000

/-- `find_gradient` — `boosting.py:9-26`. For another loss the exception is created and not raised, so the result is `None`. -/
def findGradient (loss : Loss) (preds targets : List K) : Except Err (Option (List K)) :=
  match loss with
  | .ce =>
    if targets.length = preds.length then .ok (some (List.zipWith (fun t p => -(t + gradSmooth) / (p + gradSmooth)) targets preds))
    else .error .valueError
  | .other => .ok none

/-- `find_hessian` — `boosting.py:29-44`. -/
def findHessian (loss : Loss) (preds targets : List K) : Except Err (Option (List K)) :=
  match loss with
  | .ce =>
    if targets.length = preds.length then .ok (some (List.zipWith (fun t p => (t + gradSmooth) / (p ^ 2 + gradSmooth)) targets preds))
    else .error .valueError
  | .other => .ok none

/-- `get_next_targets` — `boosting.py:47-65`; `-None` is a TypeError. -/
def getNextTargets (loss : Loss) (isCls : Bool) (targets preds : List K) : Except Err (List K) :=
  if isCls then
    match findGradient loss preds targets with
    | .error e => .error e
    | .ok none => .error .typeError
    | .ok (some g) =>
      match findHessian loss preds targets with
      | .error e => .error e
      | .ok none => .error .typeError
      | .ok (some h) => .ok (List.zipWith (fun a b => -a / b) g h)
  else if targets.length = preds.length then .ok (List.zipWith (fun t p => t - p) targets preds)
  else .error .valueError

end FF
