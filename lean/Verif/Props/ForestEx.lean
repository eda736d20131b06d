import Verif.Model.Instances

/-!
# Forests used in examples
-/

namespace FF

variable {K : Type} [Field K] [LinearOrder K] [FloorRing K] [NpFun K] {G : Type}

/-- A process in which nothing has been drawn, with one label array. -/
def exWorld : World ℚ Nat := { glob := ⟨0, 0⟩, arrays := [[0, 1, 1, 0, 1, 0]] }

/-- Six rows with two columns. -/
def exData : List (List ℚ) := [[0, 5], [1, 3], [2, 8], [3, 1], [4, 9], [5, 2]]

/-- Constructing a forest and fitting it right away. -/
def runForest (R : Rng K G) (mem : Nat → Nat → Junk K) (w : World K G) (cfg : ForestCfg K) (data : List (List K)) (labels : Nat)
    (budget : Option Int) : Except Err (Forest K G × World K G) := do
  let (f, w1) ← Forest.init R w cfg none (some data) (some labels) budget
  Forest.fit R mem f w1 none none

/-- Some contents of uninitialised memory. -/
def exMems : Nat → Nat → Junk ℚ := fun _ _ => junkQ

/-- A boosted regression forest. -/
def fcfgBoost : ForestCfg ℚ :=
  { fcfgQ with isCls := false, bootstrap := false, boosting := true, boostingLr := some (1 / 2), maxDepth := .some 2 }

/-- A process with a label array of targets. -/
def exWorldReg : World ℚ Nat := { glob := ⟨0, 0⟩, arrays := [[1, 2, 4, 7, 11, 16]] }

end FF
