import Verif.Spec.Grow
import Verif.Model.Forest
/-!
# Several threads that fit models at the same time

`TreeBase.fit` and `ForestBase.fit` (`tree_base.py:207-319`, `forest_base.py:160-327`) run in one go in `Verif/Model/Tree.lean` and
`Verif/Model/Forest.lean`. Here a call is a sequence of steps, so that the steps of several threads may be interleaved in any order. What the
threads share are the process-wide generators, which every constructor reseeds (`set_seed`, `utils.py:35-37`), and the label arrays.

A step looks at one leaf, or splits one leaf, or draws one seed, or constructs one object. A search with the exact solver and without RANDOM
bins does not use the process-wide generators at all, so for such trees finer steps make no difference; for the others, every order of these
steps is one of the orders the code allows. A step that raises leaves the generators as they were.

A tree keeps a reference to the label array and reads it again for every new node; here it keeps the labels it was given. The two differ
only if another thread writes to the array while the tree grows.
-/
namespace FF
variable {K : Type} [Field K] [LinearOrder K] [FloorRing K] [NpFun K] {G : Type}

/-! ### Trees -/

/-- Where a call of `tree.fit()` is — `tree_base.py:229-307`. The fuel is that of `fitLoop`. -/
inductive TreePhase (K G : Type) where
  /-- At the head of the `while` loop — `tree_base.py:229`. -/
  | pass (fuel : Nat) (t : Tree K G)
  /-- About to look at the next leaf — `tree_base.py:248`. -/
  | scan (fuel : Nat) (t : Tree K G) (best : Option (Nat × Nat × XF K)) (pos : Nat) (ids : List Nat)
  /-- All leaves seen, about to split the best one — `tree_base.py:286`. -/
  | split (fuel : Nat) (t : Tree K G) (best : Option (Nat × Nat × XF K))

/-- `tree.fit()` up to the loop — `tree_base.py:207-228`. -/
def TreePhase.start (t : Tree K G) : Except Err (TreePhase K G) :=
  match maybeDiscrete t.cfg.makeDiscrete t.data t.discrete with
  | .error e => .error e
  | .ok dd =>
    match t.cfg.splitter with
    | .best => .ok (.pass (fitFuel { t with discrete := dd, leaves := t.leaves ++ [0] }) { t with discrete := dd, leaves := t.leaves ++ [0] })
    | .depth => .error (.exception "Budget tracking in recursive splitting is not yet supported")
    | .other => .error (.exception "Invalid splitter choice")

/-- The next step of a call of `tree.fit()` — `tree_base.py:229-307`: the next phase or the fitted tree, and the generators. -/
def TreePhase.step (R : Rng K G) (mem : Nat → Junk K) (glob : Glob G) : TreePhase K G → Except Err ((TreePhase K G ⊕ Tree K G) × Glob G)
  | .pass 0 _ => .error .outOfFuel
  | .pass (n + 1) t =>
    match leafLimit t.cfg.maxLeafNodes t.leaves.length with
    | .error e => .error e
    | .ok true => .ok (.inr t, glob)
    | .ok false => .ok (.inl (.scan n t none 0 t.leaves), glob)
  | .scan n t best _ [] => .ok (.inl (.split n t best), glob)
  | .scan n t best pos (id :: ids) =>
    match scanLeaf R mem pos id { t := t, glob := glob, best := best } with
    | .error e => .error e
    | .ok none => .ok (.inl (.split n t best), glob)
    | .ok (some s) => .ok (.inl (.scan n s.t s.best (pos + 1) ids), s.glob)
  | .split n t best =>
    match splitBest R mem { t := t, glob := glob, best := best } with
    | .error e => .error e
    | .ok (again, t', glob') =>
      match getDepth t' with
      | .error e => .error e
      | .ok d => .ok (if again then .inl (.pass n { t' with depth := d }) else .inr { t' with depth := d }, glob')

/-! ### Forests -/

/-- The local variables of a pass of the loop of `forest.fit()` — `forest_base.py:193-227`: the data, the number of columns, the passes
still to come, the forest at the start of the pass, the number of the pass, the rows and columns of the new tree, the generator of the
forest and the out-of-bag lists after the draws, and the label array of the tree. -/
structure ForestPass (K G : Type) where
  data : List (List K)
  F : Nat
  rest : List Nat
  f : Forest K G
  i : Nat
  rows : List Nat
  feats : List Nat
  g : G
  oob : Option (List (List Nat))
  ref : Nat

/-- Where a call of `forest.fit()` is — `forest_base.py:193-327`. -/
inductive ForestPhase (K G : Type) where
  /-- At the head of the `for` loop — `forest_base.py:193`. -/
  | pass (data : List (List K)) (F : Nat) (is : List Nat) (f : Forest K G)
  /-- About to draw the seed of the tree — `forest_base.py:227`. -/
  | seed (c : ForestPass K G)
  /-- About to construct the tree — `forest_base.py:229-281`. -/
  | build (c : ForestPass K G) (seed : Nat)
  /-- In `tree.fit()` — `forest_base.py:282`. -/
  | grow (c : ForestPass K G) (ph : TreePhase K G)
  /-- The tree is fitted — `forest_base.py:284-327`. -/
  | keep (c : ForestPass K G) (tree : Tree K G)

/-- `forest.fit()` up to the loop — `forest_base.py:160-192`. -/
def ForestPhase.start (f : Forest K G) (w : World K G) : Except Err (ForestPhase K G × World K G) :=
  match f.data with
  | none => .error .typeError
  | some [] => .error .indexError
  | some (row :: rows) =>
    match fitTargets f w with
    | .error e => .error e
    | .ok (f, w) =>
      match maybeDiscrete f.cfg.makeDiscrete (row :: rows) f.discrete with
      | .error e => .error e
      | .ok dd =>
        let f := { f with discrete := dd }
        let f := if f.cfg.precompMinmax then { f with minmax := some (colMinMax (row :: rows) row.length) } else f
        let f := if f.cfg.oobScore then { f with oobList := some [] } else f
        .ok (.pass (row :: rows) row.length (List.range f.cfg.nEstimators) { f with trees := [] }, w)

/-- The next step of a call of `forest.fit()` — `forest_base.py:193-327`: the next phase or the fitted forest, and what is shared. -/
def ForestPhase.step (R : Rng K G) (mem : Nat → Nat → Junk K) (w : World K G) :
    ForestPhase K G → Except Err ((ForestPhase K G ⊕ Forest K G) × World K G)
  | .pass _ _ [] f => .ok (.inr f, w)
  | .pass data F (i :: is) f =>
    match subsets R f.rng data.length F f.cfg with
    | .error e => .error e
    | .ok (rows, feats, g1) =>
      if spent f.remaining then .ok (.inr { f with rng := g1 }, w)
      else
        match (if f.cfg.boosting then f.newRef else f.orgRef) with
        | none => .error .typeError
        | some ref =>
          match bootstrapIdcs R g1 data.length f.cfg rows with
          | .error e => .error e
          | .ok (rows, g2) =>
            .ok (.inl (.seed { data := data, F := F, rest := is, f := f, i := i, rows := rows, feats := feats, g := g2
                               oob := if f.cfg.bootstrap ∧ f.cfg.oobScore then
                                 f.oobList.map (fun l => l ++ [getOutOfBag rows data.length]) else f.oobList
                               ref := ref }), w)
  | .seed c =>
    .ok (.inl (.build c (R.randint w.glob.np maxSeed).1), { w with glob := { w.glob with np := (R.randint w.glob.np maxSeed).2 } })
  | .build c s =>
    match Tree.init R c.f.treeCfg c.data (w.arrays.getD c.ref []) c.f.discrete c.f.remaining s (some c.rows) (some c.feats) with
    | .error e => .error e
    | .ok (tree, glob) =>
      match TreePhase.start tree with
      | .error e => .error e
      | .ok ph => .ok (.inl (.grow c ph), { w with glob := glob })
  | .grow c ph =>
    match ph.step R (mem c.i) w.glob with
    | .error e => .error e
    | .ok (.inl ph', glob) => .ok (.inl (.grow c ph'), { w with glob := glob })
    | .ok (.inr tree, glob) => .ok (.inl (.keep c tree), { w with glob := glob })
  | .keep c tree =>
    if keepTree c.f.remaining tree.numQueries then
      match boostStep c.f c.data tree c.i c.rows w with
      | .error e => .error e
      | .ok (w', tree') =>
        if (match c.f.remaining.map (fun b => b - (tree.numQueries : Int)) with | none => true | some b => decide (-buffer < b)) then
          .ok (.inl (.pass c.data c.F c.rest { c.f with
            trees := c.f.trees ++ [tree'], rng := c.g, oobList := c.oob
            numQueries := c.f.numQueries + tree.numQueries
            remaining := c.f.remaining.map (fun b => b - (tree.numQueries : Int)) }), w')
        else .error (.assertion "Error: went over budget")
    else .ok (.inr { c.f with rng := c.g, oobList := c.oob }, w)

/-! ### Threads -/

/-- One thing a thread does: construct a tree and fit it (`tree_base.py:35-142,207-319`), construct a forest and fit it
(`forest_base.py:30-122,160-327`), or anything else that uses or seeds the process-wide generators, such as `np.random.seed(0)` or a library. -/
inductive FitJob (K G : Type) where
  | tree (A : TreeArgs K) (mem : Nat → Junk K)
  | forest (cfg : ForestCfg K) (data : List (List K)) (labels : Nat) (budget : Option Int) (mem : Nat → Nat → Junk K)
  | other (h : Glob G → Glob G)

/-- What a job leaves: a fitted tree, a fitted forest or nothing. -/
inductive FitOut (K G : Type) where
  | tree (t : Tree K G)
  | forest (f : Forest K G)
  | nothing

/-- Where a thread is within a job: the tree or forest is constructed and `fit()` not yet called, or it is inside `fit()`. -/
inductive FitWork (K G : Type) where
  | tree (mem : Nat → Junk K) (t : Tree K G)
  | treeFit (mem : Nat → Junk K) (ph : TreePhase K G)
  | forest (mem : Nat → Nat → Junk K) (f : Forest K G)
  | forestFit (mem : Nat → Nat → Junk K) (ph : ForestPhase K G)

/-- A thread: the jobs it still has to do, in order, the job it is in, what the finished jobs left and the exception that ended it. -/
structure FitThread (K G : Type) where
  todo : List (FitJob K G)
  now : Option (FitWork K G) := none
  got : List (FitOut K G) := []
  raised : Option Err := none

/-- The first step of a job: the constructor — `tree_base.py:35-142`, `forest_base.py:63-122`. -/
def FitJob.start (R : Rng K G) (w : World K G) : FitJob K G → Except Err ((FitWork K G ⊕ FitOut K G) × World K G)
  | .tree A mem =>
    match Tree.init R A.cfg A.data A.labels A.disc A.budget A.seed A.idcs A.feats with
    | .error e => .error e
    | .ok (t, glob) => .ok (.inl (.tree mem t), { w with glob := glob })
  | .forest cfg data labels budget mem =>
    match Forest.init R w cfg none (some data) (some labels) budget with
    | .error e => .error e
    | .ok (f, w') => .ok (.inl (.forest mem f), w')
  | .other h => .ok (.inr .nothing, { w with glob := h w.glob })

/-- The next step within a job. -/
def FitWork.step (R : Rng K G) (w : World K G) : FitWork K G → Except Err ((FitWork K G ⊕ FitOut K G) × World K G)
  | .tree mem t =>
    match TreePhase.start t with
    | .error e => .error e
    | .ok ph => .ok (.inl (.treeFit mem ph), w)
  | .treeFit mem ph =>
    match ph.step R mem w.glob with
    | .error e => .error e
    | .ok (.inl ph', glob) => .ok (.inl (.treeFit mem ph'), { w with glob := glob })
    | .ok (.inr t, glob) => .ok (.inr (.tree t), { w with glob := glob })
  | .forest mem f =>
    match ForestPhase.start f w with
    | .error e => .error e
    | .ok (ph, w') => .ok (.inl (.forestFit mem ph), w')
  | .forestFit mem ph =>
    match ph.step R mem w with
    | .error e => .error e
    | .ok (.inl ph', w') => .ok (.inl (.forestFit mem ph'), w')
    | .ok (.inr f, w') => .ok (.inr (.forest f), w')

/-- A thread after a step of its job. -/
def FitThread.after (th : FitThread K G) (todo : List (FitJob K G)) (w : World K G) :
    Except Err ((FitWork K G ⊕ FitOut K G) × World K G) → FitThread K G × World K G
  | .error e => ({ th with todo := todo, now := none, raised := some e }, w)
  | .ok (.inl k, w') => ({ th with todo := todo, now := some k }, w')
  | .ok (.inr o, w') => ({ th with todo := todo, now := none, got := th.got ++ [o] }, w')

/-- The next step of a thread. `none`: the thread has ended. -/
def FitThread.step (R : Rng K G) (w : World K G) (th : FitThread K G) : Option (FitThread K G × World K G) :=
  match th.raised with
  | some _ => none
  | none =>
    match th.now with
    | some k => some (th.after th.todo w (k.step R w))
    | none =>
      match th.todo with
      | [] => none
      | j :: js => some (th.after js w (j.start R w))

/-- All threads and what they share. -/
structure FitMachine (K G : Type) where
  world : World K G
  threads : List (FitThread K G)

/-- Thread `i` makes its next step; nothing happens if it has ended. -/
def FitMachine.step (R : Rng K G) (m : FitMachine K G) (i : Nat) : FitMachine K G :=
  match m.threads[i]? with
  | none => m
  | some th =>
    match th.step R m.world with
    | none => m
    | some (th', w') => ⟨w', m.threads.set i th'⟩

/-- The threads run in the order of the schedule. -/
def FitMachine.run (R : Rng K G) (m : FitMachine K G) : List Nat → FitMachine K G
  | [] => m
  | i :: is => FitMachine.run R (m.step R i) is

/-- The threads before their first step, thread `i` with the jobs `jobs[i]`. -/
def FitMachine.start (w : World K G) (jobs : List (List (FitJob K G))) : FitMachine K G :=
  ⟨w, jobs.map (fun js => { todo := js })⟩

end FF
