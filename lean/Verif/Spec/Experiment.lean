import Verif.Model.Importance

/-!
# Importance experiments: seeds and histories
-/

namespace FF

variable {K : Type} [Field K] [LinearOrder K] [FloorRing K] [NpFun K] {G : Type}

/-- The generator after `n` draws of a seed. -/
def seedGen (R : Rng K G) (g : G) : Nat → G
  | 0 => g
  | n + 1 => (R.randint (seedGen R g n) maxSeed).2

/-- The draw number `n` (from 0) of a seed. -/
def seedAt (R : Rng K G) (g : G) (n : Nat) : Nat := (R.randint (seedGen R g n) maxSeed).1

/-- `f` is the forest that is built with the given seed and fitted right away, when the label array holds `labels`. -/
def BuiltWith (R : Rng K G) (cfg : PermCfg K) (data : List (List K)) (labelsRef : Nat) (labels : List K) (seed : Nat) (f : Forest K G) : Prop :=
  ∃ (mem : Nat → Nat → Junk K) (f0 : Forest K G) (w w1 w2 : World K G), w.arrays.getD labelsRef [] = labels ∧
    Forest.init R w (cfg.forestCfg seed) none (some data) (some labelsRef) cfg.budget = .ok (f0, w1) ∧
    Forest.fit R mem f0 w1 none none = .ok (f, w2)

/-- The histories of an object that was constructed with the given arguments: any number of calls of `get_importance_array`, in any state of
the process. -/
inductive PermRun (R : Rng K G) (cfg : PermCfg K) (score : ImpScore) (seed : Nat) (data : List (List K)) (ref : Nat) : PermImp K G → Prop
  | init {w w' : World K G} {p : PermImp K G} (h : PermImp.init R w cfg score seed data ref = .ok (p, w')) : PermRun R cfg score seed data ref p
  | call {p p' : PermImp K G} {w w' : World K G} {mem : Nat → Nat → Nat → Junk K} {a : List (List (XF K))}
      (hp : PermRun R cfg score seed data ref p) (h : PermImp.importanceArray R mem p w = .ok (a, p', w')) : PermRun R cfg score seed data ref p'

end FF
