import Verif.Spec.Compare

/-!
# Error, bias and variance
-/

namespace FF

variable {K : Type} [Field K] [LinearOrder K] [FloorRing K] [NpFun K] {G : Type}

/-- The rows with the given numbers. -/
def Picks {α : Type} (l : List α) (idcs : List Nat) (out : List α) : Prop := List.Forall₂ (fun (i : Nat) (x : α) => l[i]? = some x) idcs out

/-- One trial as one expects it: the model `f` (its settings and classes) is fitted to the rows `idcs` and their targets and nothing else, and the
row of predictions are its answers to the test points. -/
def TrialOf (R : Rng K G) (f : Forest K G) (X : List (List K)) (Y : List K) (Xtest : List (List K)) (idcs : List Nat) (row : List K) : Prop :=
  ∃ (mem : Nat → Nat → Junk K) (f0 f' : Forest K G) (w w' : World K G) (ref : Nat) (xs : List (List K)) (ps : List (Pred K)),
    f0.cfg = f.cfg ∧ f0.classes = f.classes ∧ (f.remaining = none → f0.remaining = none) ∧
    Picks X idcs xs ∧ Picks Y idcs (w.arrays.getD ref []) ∧
    Forest.fit R mem f0 w (some xs) (some ref) = .ok (f', w') ∧ AnswersTo f' Xtest ps ∧ row = ps.map Pred.value

end FF
