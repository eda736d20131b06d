import Verif.Spec.Grow
import Verif.Model.Forest

/-!
# Forests as they come out of `fit`, and their histories
-/

namespace FF

variable {K : Type} [Field K] [LinearOrder K] [FloorRing K] [NpFun K] {G : Type}

/-- A forest object: constructed with the parameters `cfg` and the budget `budget`, then used in any way, with any other things
happening in the process in between (so the generators and label arrays may be anything when a method is called). -/
inductive ForestObj (R : Rng K G) (cfg : ForestCfg K) (budget : Option Int) : Forest K G → Prop
  | new {w w' : World K G} {classes : Option (ClassDict K)} {data : Option (List (List K))} {labels : Option Nat} {f : Forest K G}
      (h : Forest.init R w cfg classes data labels budget = .ok (f, w')) : ForestObj R cfg budget f
  | fit {mem : Nat → Nat → Junk K} {w w' : World K G} {data : Option (List (List K))} {labels : Option Nat} {f f' : Forest K G}
      (h : ForestObj R cfg budget f) (hf : Forest.fit R mem f w data labels = .ok (f', w')) : ForestObj R cfg budget f'
  | predict {x : List K} {p : Pred K} {f f' : Forest K G}
      (h : ForestObj R cfg budget f) (hf : f.predict x = .ok (p, f')) : ForestObj R cfg budget f'
  | oob {w : World K G} {data : Option (List (List K))} {s : XF K} {f f' : Forest K G}
      (h : ForestObj R cfg budget f) (hf : f.oobScore w data = .ok (s, f')) : ForestObj R cfg budget f'
  | mdi {a : List (XF K)} {f f' : Forest K G}
      (h : ForestObj R cfg budget f) (hf : f.calculateMdi = .ok (a, f')) : ForestObj R cfg budget f'
  | reset {f : Forest K G} (b : Option Int) (h : ForestObj R cfg budget f) : ForestObj R cfg budget (f.reset b)

/-- `f'` is the forest `f` after some calls of `predict`, `get_oob_score` and `calculate_mdi`. -/
inductive AfterReads (f : Forest K G) : Forest K G → Prop
  | none : AfterReads f f
  | predict {x : List K} {p : Pred K} {f1 f2 : Forest K G}
      (h : AfterReads f f1) (hf : f1.predict x = .ok (p, f2)) : AfterReads f f2
  | oob {w : World K G} {data : Option (List (List K))} {s : XF K} {f1 f2 : Forest K G}
      (h : AfterReads f f1) (hf : f1.oobScore w data = .ok (s, f2)) : AfterReads f f2
  | mdi {a : List (XF K)} {f1 f2 : Forest K G}
      (h : AfterReads f f1) (hf : f1.calculateMdi = .ok (a, f2)) : AfterReads f f2

/-- The loop of `fit` without the assertion that the budget is kept. -/
def forestLoopUnchecked (R : Rng K G) (mem : Nat → Nat → Junk K) (data : List (List K)) (F : Nat) :
    List Nat → Forest K G → World K G → Except Err (Forest K G × World K G)
  | [], f, w => .ok (f, w)
  | i :: is, f, w =>
    match forestStep R mem data F i f w with
    | .error e => .error e
    | .ok (false, f', w') => .ok (f', w')
    | .ok (true, f', w') => forestLoopUnchecked R mem data F is f' w'

/-- The training data of a call `fit(data, labels)`: the argument, or what the forest holds. -/
def trainData (f : Forest K G) (data : Option (List (List K))) : List (List K) := (data.getD (f.data.getD []))

/-- The label array of a call `fit(data, labels)`: the argument, or what the forest holds. -/
def trainLabels (f : Forest K G) (w : World K G) (labels : Option Nat) : List K :=
  match labels.or f.orgRef with
  | some r => w.arrays.getD r []
  | none => []

/-- One tree of a forest: its number, the arguments of its constructor, and the tree as its `fit` left it. -/
structure Made (K G : Type) where
  num : Nat
  args : TreeArgs K
  tree : Tree K G

/-- A random subset of `range n` of the advertised size `int(n * alpha)`. -/
structure SubsetDrawn (n : Nat) (alpha : K) (l : List Nat) : Prop where
  size : (l.length : Int) = ⌊(n : K) * alpha⌋
  distinct : l.Nodup
  range : ∀ i ∈ l, i < n

/-- `⌈alpha·n⌉` different numbers below `n`: the rows (or columns) a random-patches wrapper keeps. -/
structure PatchDrawn (n : Nat) (alpha : K) (l : List Nat) : Prop where
  size : (l.length : Int) = ⌈alpha * (n : K)⌉
  distinct : l.Nodup
  range : ∀ i ∈ l, i < n

/-- The training rows of a tree of the forest, as advertised: `n` rows drawn from a subset when bootstrapping, else a subset. -/
def RowsDrawn (cfg : ForestCfg K) (n : Nat) (rows : List Nat) : Prop :=
  ∃ sub, SubsetDrawn n cfg.alphaN sub ∧ if cfg.bootstrap then rows.length = n ∧ ∀ i ∈ rows, i ∈ sub else rows = sub

/-- The labels the trees of a forest without boosting are trained on: the caller's labels, converted to integers for classification. -/
def treeLabels (f : Forest K G) (w : World K G) (labels : Option Nat) : List K :=
  if f.cfg.isCls then (trainLabels f w labels).map truncInt else trainLabels f w labels

/-- A training set and limits that make sense for a forest: a rectangular non-empty table with as many labels as rows, limits that can be
met, fractions `alpha_N`, `alpha_F` that are at most 1 and leave at least one row and one column. -/
structure ForestDataOK (cfg : ForestCfg K) (data : List (List K)) (labels : List K) : Prop where
  data_ne : data ≠ []
  rect : ∀ row ∈ data, row.length = (data.getD 0 []).length
  lens : data.length = labels.length
  depth : cfg.maxDepth ≠ .none
  leaves : ∀ m, cfg.maxLeafNodes = some m → 1 ≤ m
  alphaN : cfg.alphaN ≤ 1 ∧ 1 ≤ (data.length : K) * cfg.alphaN
  alphaF : cfg.alphaF ≤ 1 ∧ 1 ≤ (((data.getD 0 []).length : Nat) : K) * cfg.alphaF
  featSub : ∀ k : Nat, (k : Int) = ⌊(((data.getD 0 []).length : Nat) : K) * cfg.alphaF⌋ → FeatSubOK k cfg.featSub

/-- Such a training set, for a forest that knows all its classes. -/
structure ForestTrainOK (cfg : ForestCfg K) (classes : ClassDict K) (data : List (List K)) (labels : List K) : Prop
    extends ForestDataOK cfg data labels where
  classes : cfg.isCls = true → ClassesOK classes ∧ ∀ y ∈ labels, truncInt y ∈ classes.map Prod.fst

/-- LINEAR bins: either the minima and maxima are precomputed and every column varies, or every node sees all columns and rows that can
get different labels differ. (With boosting the labels change, so all rows must differ.) -/
def LinearOK (cfg : ForestCfg K) (data : List (List K)) (labels : List K) : Prop :=
  (cfg.precompMinmax = true ∧ ∀ j < (data.getD 0 []).length, ∃ r ∈ data, ∃ s ∈ data, r.getD j 0 ≠ s.getD j 0) ∨
  (cfg.precompMinmax = false ∧ cfg.featSub = .none ∧ cfg.alphaF = 1 ∧
    (data.Nodup ∨ (cfg.boosting = false ∧
      ∀ i j, i < data.length → j < data.length → labels.getD i 0 ≠ labels.getD j 0 → data.getD i [] ≠ data.getD j [])))

/-- Combinations of solver, bin type and number of bins that never make the split search raise. -/
def ForestSolvable (cfg : ForestCfg K) (data : List (List K)) (labels : List K) : Prop :=
  match cfg.solver, cfg.binType with
  | .exact, some .identity => True
  | .exact, some .random => cfg.useLog = true ∨ ∃ B, cfg.numBins = some B ∧ 1 ≤ B
  | .exact, some .linear => (cfg.useLog = true ∨ ∃ B, cfg.numBins = some B ∧ 2 ≤ B) ∧ LinearOK cfg data labels
  | .mab, some .random => cfg.useLog = false ∧ (∃ B, cfg.numBins = some B ∧ 6 ≤ B) ∧ 0 < cfg.batch
  | .mab, some .linear => cfg.useLog = false ∧ (∃ B, cfg.numBins = some B ∧ 6 ≤ B) ∧ 0 < cfg.batch ∧ LinearOK cfg data labels
  | _, _ => False

end FF
