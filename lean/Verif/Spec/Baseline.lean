import Verif.Model.Baseline
import Verif.Spec.Compare

/-!
# Comparisons with another library
-/

namespace FF

variable {K : Type} [Field K] [LinearOrder K] [FloorRing K] [NpFun K] {G : Type}

/-- The settings of a forest of this repository and those of a model of the other library say the same. -/
structure LikeWithLike (f : ForestCfg K) (l : LibArgs K) : Prop where
  task : f.isCls = l.isCls
  trees : f.nEstimators = l.trees
  depth : f.maxDepth = .some l.maxDepth
  split : f.minSamplesSplit = l.minSamplesSplit
  decrease : f.minImpDec = l.minImpDec
  leaves : f.maxLeafNodes = l.maxLeafNodes
  seed : f.randomState = l.seed
  bootstrap : f.bootstrap = l.bootstrap
  columns : f.featSub = if l.sqrtFeatures then .sqrt else .none
  boosting : f.boosting = true ↔ l.family = .boosting
  rate : f.boostingLr = l.lr
  thresholds : f.binType = some (if l.family = .extraTrees then .random else .identity)
  oneThreshold : l.family = .extraTrees → f.numBins = some 1

/-- The answers of a model of the other library, as predictions. -/
def libAnswers (m : List K → K) (xs : List (List K)) : List (Pred K) := xs.map (fun x => Pred.reg (m x))

/-- A round of the comparison as one expects it: our model is the one that is built from the settings, the seed, the data and the targets in a process
of its own, theirs is the one the other library makes of the same data and targets, and both are measured against the caller's targets. -/
structure FairBaseRow (R : Rng K G) (mem : Nat → Nat → Junk K) (lib : Lib K) (c : BaseCmp K) (seed : Nat) (targets testTargets : List K)
    (row : BaseRow K) : Prop where
  ours : ∀ g, ∃ f ps qs, BuiltAlone R mem c.kind.wrapper (c.kind.args seed) g none c.data targets f ∧
    AnswersTo f c.data ps ∧ ScoreIs c.kind.wrapper.isCls ps targets row.ourTrain ∧
    AnswersTo f c.testData qs ∧ ScoreIs c.kind.wrapper.isCls qs testTargets row.ourTest
  theirTrain : ScoreIs c.kind.wrapper.isCls (libAnswers (lib (c.kind.libArgs seed) c.data targets) c.data) targets row.theirTrain
  theirTest : ScoreIs c.kind.wrapper.isCls (libAnswers (lib (c.kind.libArgs seed) c.data targets) c.testData) testTargets row.theirTest

/-- What the answers leave of the targets. -/
def answersLeave (ps : List (Pred K)) (ys : List K) : List K := List.zipWith (fun (p : Pred K) y => y - p.value) ps ys

end FF
