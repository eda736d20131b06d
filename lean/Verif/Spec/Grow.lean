import Verif.Spec.Loop
import Verif.Spec.Crit
import Verif.Model.Tree

/-!
# The `while` loop of `TreeBase.fit` as a relation, and trees as they come out of it

The model runs the loop with a bound on the number of passes (`fitLoop`). Here is the loop without any bound.
-/

namespace FF

variable {K : Type} [Field K] [LinearOrder K] [FloorRing K] [NpFun K] {G : Type}

/-- The tree `t` (with process-wide generators `glob`) can be there at the head of the loop, starting from `t0`. -/
inductive FitHead (R : Rng K G) (mem : Nat → Junk K) (t0 : Tree K G) (glob0 : Glob G) : Tree K G → Glob G → Prop
  | init : FitHead R mem t0 glob0 t0 glob0
  | step {t t' : Tree K G} {glob glob' : Glob G} (h : FitHead R mem t0 glob0 t glob)
      (hs : fitStep R mem t glob = .ok (true, t', glob')) : FitHead R mem t0 glob0 t' glob'

/-- The loop, started in `t`, ends with `r` after exactly `n` splits. -/
inductive FitRuns (R : Rng K G) (mem : Nat → Junk K) :
    Tree K G → Glob G → Nat → Except Err (Tree K G × Glob G) → Prop
  | raise {t : Tree K G} {glob : Glob G} {e : Err} (hs : fitStep R mem t glob = .error e) :
      FitRuns R mem t glob 0 (.error e)
  | stop {t t' : Tree K G} {glob glob' : Glob G} (hs : fitStep R mem t glob = .ok (false, t', glob')) :
      FitRuns R mem t glob 0 (.ok (t', glob'))
  | again {t t' : Tree K G} {glob glob' : Glob G} {n : Nat} {r : Except Err (Tree K G × Glob G)}
      (hs : fitStep R mem t glob = .ok (true, t', glob')) (hr : FitRuns R mem t' glob' n r) :
      FitRuns R mem t glob (n + 1) r

/-- What `fit(data, labels)` does before the loop: it raises, or the loop starts with the tree that is returned here. -/
def loopStart (t : Tree K G) (data : Option (List (List K))) (labels : Option (List K)) : Except Err (Tree K G) := do
  let passed ← bothOrNeither data labels
  let t : Tree K G := match passed with
    | none => t
    | some (d, l) => { t with data := d, labels := l, nData := l.length }
  let dd ← maybeDiscrete t.cfg.makeDiscrete t.data t.discrete
  match t.cfg.splitter with
  | .best => .ok { t with discrete := dd, leaves := t.leaves ++ [0] }
  | .depth => .error (.exception "Budget tracking in recursive splitting is not yet supported")
  | .other => .error (.exception "Invalid splitter choice")

/-- The call `t.fit(data, labels)` ends with `r` after exactly `n` splits. -/
inductive FitCall (R : Rng K G) (mem : Nat → Junk K) (t : Tree K G) (glob : Glob G) (data : Option (List (List K)))
    (labels : Option (List K)) : Nat → Except Err (Tree K G × Glob G) → Prop
  | early {e : Err} (h : loopStart t data labels = .error e) : FitCall R mem t glob data labels 0 (.error e)
  | loop {t' : Tree K G} {n : Nat} {r : Except Err (Tree K G × Glob G)} (h : loopStart t data labels = .ok t')
      (hr : FitRuns R mem t' glob n r) : FitCall R mem t glob data labels n r

/-- The constructor arguments of a tree. -/
structure TreeArgs (K : Type) where
  cfg : TreeCfg K
  data : List (List K)
  labels : List K
  disc : DiscDict K
  budget : Option Int
  seed : Nat
  idcs : Option (List Nat)
  feats : Option (List Nat)

/-- The training rows given to the tree: `idcs`, by default all of them. -/
def TreeArgs.rows (A : TreeArgs K) : List Nat := A.idcs.getD (List.range A.labels.length)

/-- The columns given to the tree: `feature_idcs`, by default all of them. -/
def TreeArgs.cols (A : TreeArgs K) : List Nat := A.feats.getD (List.range (A.data.getD 0 []).length)

/-- `t0` is a tree just constructed from the arguments `A`. -/
def Constructed (R : Rng K G) (A : TreeArgs K) (t0 : Tree K G) : Prop :=
  ∃ glob, Tree.init R A.cfg A.data A.labels A.disc A.budget A.seed A.idcs A.feats = .ok (t0, glob)

/-- `t` is a tree constructed from the arguments `A` on which `fit()` has returned (whatever the state of the process-wide
generators, and whatever the uninitialised arrays contained). -/
def Fitted (R : Rng K G) (mem : Nat → Junk K) (A : TreeArgs K) (t : Tree K G) : Prop :=
  ∃ t0 glob glob', Constructed R A t0 ∧ Tree.fit R mem t0 glob none none = .ok (t, glob')

/-- `t` can be there at the head of the `while` loop of `fit()`, called on a tree constructed from the arguments `A`. -/
def Growing (R : Rng K G) (mem : Nat → Junk K) (A : TreeArgs K) (t : Tree K G) (glob : Glob G) : Prop :=
  ∃ t0 glob0 dd, Constructed R A t0 ∧ maybeDiscrete t0.cfg.makeDiscrete t0.data t0.discrete = .ok dd ∧
    FitHead R mem { t0 with discrete := dd, leaves := t0.leaves ++ [0] } glob0 t glob

/-- Node number `id` of the tree is `nd`. -/
def NodeAt (t : Tree K G) (id : Nat) (nd : Node K) : Prop := t.nodes[id]? = some nd

/-- Nodes that can be reached from the root by following child references. -/
inductive InTree (t : Tree K G) : Nat → Prop
  | root : InTree t 0
  | left {p c : Nat} {nd : Node K} (hp : InTree t p) (hn : NodeAt t p nd) (hl : nd.left = some c) : InTree t c
  | right {p c : Nat} {nd : Node K} (hp : InTree t p) (hn : NodeAt t p nd) (hr : nd.right = some c) : InTree t c

/-- Node `id` is a leaf of the tree: reachable and without children. -/
def IsLeaf (t : Tree K G) (id : Nat) : Prop := InTree t id ∧ ∃ nd, NodeAt t id nd ∧ nd.left = none ∧ nd.right = none

/-- The training rows held by node `id`. -/
def rowsOf (t : Tree K G) (id : Nat) : List Nat := ((t.nodes[id]?).map Node.idcs).getD []

/-- The datapoint `x`, starting at node `id`, is sent to node `leaf`: at a split on feature `f` with threshold `v` it goes left
if `x[f] ≤ v` and right otherwise. -/
inductive Routes (t : Tree K G) (x : List K) : Nat → Nat → Prop
  | stop {id : Nat} {nd : Node K} (hn : NodeAt t id nd) (hl : nd.left = none) (hr : nd.right = none) : Routes t x id id
  | left {id l leaf f : Nat} {v : K} {nd : Node K} (hn : NodeAt t id nd) (hl : nd.left = some l)
      (hf : nd.splitFeature = some f) (hx : x[f]? = some v) (hv : v ≤ nd.splitValue) (h : Routes t x l leaf) : Routes t x id leaf
  | right {id r leaf f : Nat} {v : K} {nd : Node K} (hn : NodeAt t id nd) (hr : nd.right = some r)
      (hf : nd.splitFeature = some f) (hx : x[f]? = some v) (hv : nd.splitValue < v) (h : Routes t x r leaf) : Routes t x id leaf

/-- A class dictionary that numbers distinct class names `0, 1, 2, …`, as the forest makes it. -/
def ClassesOK (d : ClassDict K) : Prop := (d.map Prod.fst).Nodup ∧ d.map Prod.snd = List.range d.length

/-- `t'` is the tree `t` after some calls of `predict`. -/
inductive AfterPredicts (t : Tree K G) : Tree K G → Prop
  | none : AfterPredicts t t
  | call {t1 t2 : Tree K G} {x : List K} {p : Pred K} (h : AfterPredicts t t1) (hp : t1.predict x = .ok (p, t2)) :
      AfterPredicts t t2

/-- Well-formed arguments of a tree: the criterion fits the task, precomputed minima do not exceed the maxima, discrete values given by
the caller are sorted lists, and no LINEAR histogram is asked to have exactly one bin. -/
structure ArgsOK (A : TreeArgs K) : Prop where
  crit : CritFits A.cfg.isCls A.cfg.criterion
  minmax_le : ∀ mins maxs, A.cfg.minmax = some (mins, maxs) → ∀ (f : Nat) (lo hi : K), mins[f]? = some lo → maxs[f]? = some hi → lo ≤ hi
  sorted : ∀ f u, discLookup A.disc f = some u → u.isSet = false → u.vals.Pairwise (· ≤ ·)
  linear_bins : A.cfg.binType = some .linear → A.cfg.useLog = false → A.cfg.numBins ≠ some 1
  auto_bins : A.cfg.binType = none → (A.cfg.useLog = false → A.cfg.numBins ≠ some 1) ∧
    ∀ f u, discLookup A.disc f = some u → u.isSet = false → u.vals.length ≠ 1

/-- A request for feature subsampling that can be met with `F` columns. -/
def FeatSubOK (F : Nat) : FeatSub K → Prop
  | .none => True
  | .sqrt => True
  | .int k => 1 ≤ k ∧ k ≤ F
  | .float x => 0 < x ∧ x ≤ 1

/-- How many of `F` features a value of `feature_subsampling` asks for: all, the least `k` with `F ≤ k²`, `k`, or `⌈x·F⌉`. -/
def AsksFor (F : Nat) (sub : FeatSub K) (k : Int) : Prop :=
  match sub with
  | .none => k = F
  | .sqrt => 0 ≤ k ∧ (F : Int) ≤ k * k ∧ ∀ j : Int, 0 ≤ j → (F : Int) ≤ j * j → k ≤ j
  | .int m => k = m
  | .float x => (k : K) - 1 < x * (F : K) ∧ x * (F : K) ≤ (k : K)

/-- A training set and limits that make sense: a rectangular non-empty table with as many labels as rows, rows and columns in range,
known classes, limits that can be met. -/
structure TrainOK (A : TreeArgs K) : Prop where
  data_ne : A.data ≠ []
  rect : ∀ row ∈ A.data, row.length = (A.data.getD 0 []).length
  lens : A.data.length = A.labels.length
  rows : ∀ i ∈ A.rows, i < A.data.length
  cols : ∀ j ∈ A.cols, j < (A.data.getD 0 []).length
  cols_ne : A.cols ≠ []
  classes : A.cfg.isCls = true → ClassesOK A.cfg.classes ∧ ∀ y ∈ A.labels, y ∈ A.cfg.classes.map Prod.fst
  depth : A.cfg.maxDepth ≠ .none
  leaves : ∀ m, A.cfg.maxLeafNodes = some m → 1 ≤ m
  featSub : FeatSubOK A.cols.length A.cfg.featSub
  minmax : ∀ mins maxs, A.cfg.minmax = some (mins, maxs) →
    mins.length = (A.data.getD 0 []).length ∧ maxs.length = (A.data.getD 0 []).length
  splitter : A.cfg.splitter = .best

/-- The labels of some rows. -/
def labelsOf (labels : List K) (rows : List Nat) : List K := rows.map (fun i => labels.getD i 0)

/-- The node's part of the data: its rows, restricted to its features. -/
def subRows (data : List (List K)) (rows feats : List Nat) : List (List K) :=
  rows.map (fun i => feats.map (fun j => (data.getD i []).getD j 0))

/-- The samples (value of column `f` of the training data, label) of some training rows. -/
def rowSamples (A : TreeArgs K) (rows : List Nat) (f : Nat) : List (K × K) := rows.map (rowSample A.data A.labels f)

/-- The impurity of the labels in a node, weighted by the node's share of the training rows. -/
def weightedImp (A : TreeArgs K) (t : Tree K G) (id : Nat) : K :=
  ((rowsOf t id).length : K) / (A.rows.length : K) * critImp A.cfg.criterion (labelsOf A.labels (rowsOf t id))

/-- The (finite) reduction recorded by a node that was split; 0 for a leaf. -/
def splitRed (nd : Node K) : K :=
  if nd.left = none then 0
  else
    match nd.splitReduction with
    | some (.fin x) => x
    | _ => 0

/-- What `check_splittable_constraints` asks of a node, in terms of the training set. -/
structure CanSplit (cfg : TreeCfg K) (labels : List K) (nd : Node K) : Prop where
  depth : cfg.maxDepth = .inf ∨ ∃ d, cfg.maxDepth = .some d ∧ nd.depth < d
  size : cfg.minSamplesSplit < nd.idcs.length
  labels : 1 < (labelsOf labels nd.idcs).dedup.length

/-- The configured solver, run on the rows and the features of the node (in some state of the generators, of memory and of the
budget), answers `r` and reports `q` queries. -/
def SolverSays (R : Rng K G) (A : TreeArgs K) (nd : Node K) (r : Option (SplitRes K)) (q : Nat) : Prop :=
  ∃ g glob junk budget g' glob', nodeSolve R g glob junk A.cfg nd (subRows A.data nd.idcs nd.featIdcs)
    (labelsOf A.labels nd.idcs) budget = .ok (r, q, g', glob')

/-- The recorded reduction of a node passes the `min_impurity_decrease` test (`N` is the number of training rows): it is multiplied
by the node's share of the rows again before it is compared, as in the code. -/
def EnoughDecrease (cfg : TreeCfg K) (N : Nat) (nd : Node K) (red : XF K) : Prop :=
  ((red.mul (xnat nd.idcs.length)).div (xnat N)).lt (.fin cfg.minImpDec) = true ∧ red.lt (.fin cfg.minImpDec) = true

end FF
