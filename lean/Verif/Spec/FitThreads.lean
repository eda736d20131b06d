import Verif.Model.FitThreads
/-!
# Models that are fitted in threads: what they should be

The yardstick is a program with one thread: the same jobs, done one after the other, each by the functions of `Verif/Model/Tree.lean` and
`Verif/Model/Forest.lean`.
-/
namespace FF
variable {K : Type} [Field K] [LinearOrder K] [FloorRing K] [NpFun K] {G : Type}

/-- A tree with these parameters never uses the process-wide generators: the exact solver, and no RANDOM bins. -/
def QuietTree (cfg : TreeCfg K) : Prop := cfg.solver = .exact ∧ cfg.binType ≠ some .random

/-- A forest with these parameters uses the process-wide generators only for the seeds of its trees, and its trees never use their own
generators: the exact solver, no RANDOM bins, and every node looks at all columns of its tree. -/
def QuietForest (cfg : ForestCfg K) : Prop := cfg.solver = .exact ∧ cfg.binType ≠ some .random ∧ cfg.featSub = .none

/-- The jobs that come out the same in a program with many threads. -/
def QuietJob : FitJob K G → Prop
  | .tree A _ => QuietTree A.cfg
  | .forest cfg _ _ _ _ => QuietForest cfg
  | .other _ => True

/-- One job without other threads. -/
def FitJob.alone (R : Rng K G) (w : World K G) : FitJob K G → Except Err (FitOut K G × World K G)
  | .tree A mem =>
    match Tree.init R A.cfg A.data A.labels A.disc A.budget A.seed A.idcs A.feats with
    | .error e => .error e
    | .ok (t0, glob0) =>
      match Tree.fit R mem t0 glob0 none none with
      | .error e => .error e
      | .ok (t, glob) => .ok (.tree t, { w with glob := glob })
  | .forest cfg data labels budget mem =>
    match Forest.init R w cfg none (some data) (some labels) budget with
    | .error e => .error e
    | .ok (f0, w0) =>
      match Forest.fit R mem f0 w0 none none with
      | .error e => .error e
      | .ok (f, w') => .ok (.forest f, w')
  | .other h => .ok (.nothing, { w with glob := h w.glob })

/-- The jobs one after the other, without other threads: what they leave, and the exception that ends the program. -/
def runAlone (R : Rng K G) : World K G → List (FitJob K G) → List (FitOut K G) × Option Err
  | _, [] => ([], none)
  | w, j :: js =>
    match j.alone R w with
    | .error e => ([], some e)
    | .ok (o, w') => (o :: (runAlone R w' js).1, (runAlone R w' js).2)

/-- Two trees that differ at most in the state of the generator they hold. -/
def SameButRng (t t' : Tree K G) : Prop := ∃ g : G, t = { t' with rng := g }

/-- Two forests that differ at most in the generators their trees hold and in where their label arrays are stored. -/
structure SameForest (f f' : Forest K G) : Prop where
  trees : List.Forall₂ SameButRng f.trees f'.trees
  rest : ∃ ts o n, f = { f' with trees := ts, orgRef := o, newRef := n }

/-- The same result. -/
def SameOut : FitOut K G → FitOut K G → Prop
  | .tree t, .tree t' => t = t'
  | .forest f, .forest f' => SameForest f f'
  | .nothing, .nothing => True
  | _, _ => False

/-- The label array a boosted forest writes to. -/
def FitJob.writes : FitJob K G → Option Nat
  | .forest cfg _ labels _ _ => if cfg.boosting then some labels else none
  | _ => none

/-- The label array a forest is given. -/
def FitJob.reads : FitJob K G → Option Nat
  | .forest _ _ labels _ _ => some labels
  | _ => none

/-- The label arrays are there, and no thread is given an array that a boosted forest of another thread writes to. -/
structure Apart (w : World K G) (jobs : List (List (FitJob K G))) : Prop where
  there : ∀ js ∈ jobs, ∀ j ∈ js, ∀ r, j.reads = some r → r < w.arrays.length
  own : ∀ (a b : Nat) (ja jb : List (FitJob K G)), jobs[a]? = some ja → jobs[b]? = some jb → a ≠ b →
    ∀ x ∈ ja, ∀ y ∈ jb, ∀ r, x.writes = some r → y.reads ≠ some r

/-- The thread has nothing left to do. -/
def FitThread.Ended (th : FitThread K G) : Prop := th.raised ≠ none ∨ (th.now = none ∧ th.todo = [])

/-! ### Sound models -/

/-- What a user expects of a tree grown from the arguments `A`, whatever was drawn on the way: its leaves share out the training rows, every
training row is sent to the leaf that holds it, every split obeys the limits and improves, no node is too deep, the queries are accounted for,
and every answer comes from the training labels in one leaf. -/
structure SoundTree (A : TreeArgs K) (t : Tree K G) : Prop where
  partition : t.leaves.Nodup ∧ (∀ id, id ∈ t.leaves ↔ IsLeaf t id) ∧ (t.leaves.flatMap (rowsOf t)).Perm A.rows
  home : ∀ i ∈ A.rows, ∃ leaf, IsLeaf t leaf ∧ i ∈ rowsOf t leaf ∧ Routes t (A.data.getD i []) 0 leaf
  splits : ∀ (id : Nat) (nd : Node K), NodeAt t id nd → nd.left ≠ none →
    A.cfg.minSamplesSplit < nd.idcs.length ∧ (∃ f ∈ A.cols, nd.splitFeature = some f) ∧
      ∃ red, nd.splitReduction = some red ∧ red.lt (.fin 0) = true ∧ red.lt (.fin A.cfg.minImpDec) = true
  depth : ∀ d, A.cfg.maxDepth = .some d → ∀ (id : Nat) (nd : Node K), NodeAt t id nd → nd.depth ≤ d
  spent : t.numQueries = (t.nodes.map Node.numQueries).sum ∧ t.remaining = A.budget.map (fun b => b - (t.numQueries : Int))
  answers : (A.cfg.isCls = true → ClassesOK A.cfg.classes) → A.rows ≠ [] → ∀ t1, AfterPredicts t t1 →
    ∀ x : List K, (∀ f ∈ A.cols, f < x.length) →
      ∃ leaf p t2, IsLeaf t leaf ∧ Routes t x 0 leaf ∧ t1.predict x = .ok (p, t2) ∧
        (A.cfg.isCls = true → ∃ label,
          p = .cls label (A.cfg.classes.map (fun c => Spec.freq (labelsOf A.labels (rowsOf t leaf)) c.1))) ∧
        (A.cfg.isCls = false → p = .reg (Spec.mean (labelsOf A.labels (rowsOf t leaf))))

/-- What a user expects of a forest with the parameters `cfg` fitted to the rows `data` within the budget: its classes are numbered, it has no
more trees than asked for, the queries are accounted for, and each of its trees is a sound tree with the parameters of the forest on some of
the rows, perhaps after some predictions. Unless the forest is boosted, all trees are trained on the targets `ys`. -/
structure SoundForest (cfg : ForestCfg K) (data : List (List K)) (ys : List K) (budget : Option Int) (f : Forest K G) : Prop where
  params : ∃ b, f.cfg = { cfg with makeDiscrete := b }
  classes : cfg.isCls = true → ClassesOK f.classes
  size : f.trees.length ≤ cfg.nEstimators
  spent : f.numQueries = (f.trees.map Tree.numQueries).sum ∧ f.remaining = budget.map (fun b => b - (f.numQueries : Int))
  trees : ∀ t ∈ f.trees, ∃ A t1, SoundTree A t1 ∧ AfterPredicts t1 t ∧ A.cfg = f.treeCfg ∧ A.data = data ∧
    A.rows.length ≤ data.length ∧ (∀ i ∈ A.rows, i < data.length) ∧ (cfg.boosting = false → A.labels = ys)

/-- The targets a forest makes of the label array: classes are truncated to integers. -/
def targetsOf (cfg : ForestCfg K) (labels : List K) : List K := if cfg.isCls then labels.map truncInt else labels

/-- The arrays that boosted forests write to. -/
def writtenBy (jobs : List (List (FitJob K G))) : List Nat := jobs.flatMap (fun js => js.filterMap FitJob.writes)

/-- What a user expects of the outcome of a job. The arrays are those at the start of the program. If a boosted forest writes to the label
array, the targets may be others, but they are the same for all trees. -/
def SoundOut (w : World K G) (shared : List Nat) : FitJob K G → FitOut K G → Prop
  | .tree A _, .tree t => SoundTree A t
  | .forest cfg data labels budget _, .forest f =>
    ∃ ys, SoundForest cfg data ys budget f ∧ (labels ∉ shared → ys = targetsOf cfg (w.arrays.getD labels []))
  | .other _, .nothing => True
  | _, _ => False

end FF
