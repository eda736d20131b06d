import Verif.Model.Explore
import Verif.Spec.Grow

/-!
# The first exploration (C162)
-/

namespace FF

variable {K : Type} [Field K] [LinearOrder K] [FloorRing K] [NpFun K] {G : Type}

/-- The tree answers the share `s` of the points with their label. -/
def RightShare (t : Tree K G) (points : List (List K)) (labels : List K) (s : K) : Prop :=
  points ≠ [] ∧ points.length = labels.length ∧
  ∃ answers : List K, List.Forall₂ (fun (x : List K) (a : K) => ∃ probs t', t.predict x = .ok (.cls a probs, t')) points answers ∧
    s * (points.length : K) = (((answers.zip labels).countP (fun q => decide (q.1 = q.2)) : Nat) : K)

/-- The tree that a call of `ours_ng_perf` is about: all rows, all columns, no budget, seed 0. -/
def exploreArgs (batch : Nat) (train : List (List K)) (labels : List K) (classes : ClassDict K) (maxDepth : Nat) (solver : Solver) : TreeArgs K where
  cfg := exploreCfg batch classes maxDepth solver
  data := train
  labels := labels
  disc := none
  budget := none
  seed := 0
  idcs := none
  feats := none

/-- The report shows how the tree fitted with `A` answers `points` and `test`, and what it cost. -/
def Shows (R : Rng K G) (mem : Nat → Junk K) (A : TreeArgs K) (points : List (List K)) (labels : List K) (test : List (List K)) (testLabels : List K)
    (r : ExploreReport K) : Prop :=
  ∃ t : Tree K G, Fitted R mem A t ∧ RightShare t points labels r.train ∧ RightShare t test testLabels r.test ∧ r.queries = t.numQueries

/-- Some two rows differ in the column. -/
def Varies (data : List (List K)) (f : Nat) : Prop := ∃ x ∈ data, ∃ y ∈ data, x.getD f 0 ≠ y.getD f 0

end FF
