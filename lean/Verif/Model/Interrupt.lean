import Verif.Model.Forest

/-!
# An exception leaves `ForestBase.fit`

Ctrl-C (`KeyboardInterrupt`), a `MemoryError` or one of the code's own exceptions can leave `fit` between any two statements. What stays are
the attributes assigned so far. The relations below list these states; a single assignment is not divided (python handles signals between
bytecodes only, numpy's array assignment is one of them).
-/

namespace FF

variable {K : Type} [Field K] [LinearOrder K] [FloorRing K] [NpFun K] {G : Type}

/-- The part of `fit` before its loop, once the arguments are stored — `forest_base.py:171-191`. -/
def Forest.prepareHeld (f : Forest K G) (w : World K G) : Except Err (List (List K) × Forest K G × World K G) :=
  match f.data with
  | none => .error .typeError
  | some [] => .error .indexError
  | some (row :: rows) =>
    match fitTargets f w with
    | .error e => .error e
    | .ok (f, w) =>
      match maybeDiscrete f.cfg.makeDiscrete (row :: rows) f.discrete with
      | .error e => .error e
      | .ok dd => .ok (row :: rows, { f with
          discrete := dd
          minmax := if f.cfg.precompMinmax then some (colMinMax (row :: rows) row.length) else f.minmax
          oobList := if f.cfg.oobScore then some [] else f.oobList
          trees := [] }, w)

/-- The part of `fit` before its loop — `forest_base.py:167-191`. -/
def Forest.prepare (f : Forest K G) (w : World K G) (data : Option (List (List K))) (labels : Option Nat) :
    Except Err (List (List K) × Forest K G × World K G) :=
  match bothOrNeither data labels with
  | .error e => .error e
  | .ok none => f.prepareHeld w
  | .ok (some (d, l)) => Forest.prepareHeld { f with data := some d, orgRef := some l, newRef := some l } w

/-- The list of out-of-bag rows once the rows of a tree are drawn — `forest_base.py:220-221`. -/
def oobWith (f : Forest K G) (rows : List Nat) (N : Nat) : Option (List (List Nat)) :=
  if f.cfg.bootstrap ∧ f.cfg.oobScore then f.oobList.map (fun l => l ++ [getOutOfBag rows N]) else f.oobList

/-- A pass of the loop has drawn the rows and columns of its tree — `forest_base.py:193-221`. -/
structure PassDrawn (R : Rng K G) (data : List (List K)) (F : Nat) (f : Forest K G) (rows feats : List Nat) (g : G) : Prop where
  ex : ∃ rows0 g1, subsets R f.rng data.length F f.cfg = .ok (rows0, feats, g1) ∧ bootstrapIdcs R g1 data.length f.cfg rows0 = .ok (rows, g)
  go : spent f.remaining = false

/-- A pass of the loop has trained its tree and wants to keep it — `forest_base.py:193-289`. -/
structure PassTrained (R : Rng K G) (mem : Nat → Nat → Junk K) (data : List (List K)) (F : Nat) (i : Nat) (f : Forest K G) (w : World K G)
    (rows : List Nat) (g : G) (tree : Tree K G) (glob : Glob G) : Prop where
  ex : ∃ feats ref tree0 glob0, PassDrawn R data F f rows feats g ∧ (if f.cfg.boosting then f.newRef else f.orgRef) = some ref ∧
    Tree.init R f.treeCfg data (w.arrays.getD ref []) f.discrete f.remaining (R.randint w.glob.np maxSeed).1 (some rows) (some feats) =
      .ok (tree0, glob0) ∧
    Tree.fit R (mem i) tree0 glob0 none none = .ok (tree, glob)
  keep : keepTree f.remaining tree.numQueries = true

/-- What is left of pass `i` of the loop, entered with `f` and `w`, if an exception leaves it — `forest_base.py:193-327`. Simplified: a
generator that has been used may be in any state. -/
inductive PassLeft (R : Rng K G) (mem : Nat → Nat → Junk K) (data : List (List K)) (F : Nat) (i : Nat) (f : Forest K G) (w : World K G) :
    Forest K G → World K G → Prop
  /-- Lines 193-219: only the generator of the forest has been used. -/
  | drawing (g : G) : PassLeft R mem data F i f w { f with rng := g } w
  /-- Lines 221-283: the out-of-bag rows are noted; the tree, which is a local variable, is lost. -/
  | training {rows feats : List Nat} {g : G} (h : PassDrawn R data F f rows feats g) (glob : Glob G) :
      PassLeft R mem data F i f w { f with rng := g, oobList := oobWith f rows data.length } { w with glob := glob }
  /-- Lines 290-305: the tree is kept; the predictions for boosting are under way (`n` of them are made). -/
  | kept {rows : List Nat} {g : G} {tree tree' : Tree K G} {glob : Glob G} (h : PassTrained R mem data F i f w rows g tree glob)
      {cur : List (List K)} (hc : takeE data [] rows = .ok cur) (n : Nat) {ps : List (Pred K)}
      (hp : (if f.cfg.boosting then tree.predictBatch (cur.take n) else .ok ([], tree)) = .ok (ps, tree')) :
      PassLeft R mem data F i f w { f with
        rng := g
        oobList := oobWith f rows data.length
        trees := f.trees ++ [tree'] } { w with glob := glob }
  /-- Lines 306-323: the new targets are written. -/
  | written {rows : List Nat} {g : G} {tree tree' : Tree K G} {glob : Glob G} (h : PassTrained R mem data F i f w rows g tree glob)
      {w' : World K G} (hb : boostStep f data tree i rows { w with glob := glob } = .ok (w', tree')) :
      PassLeft R mem data F i f w { f with
        rng := g
        oobList := oobWith f rows data.length
        trees := f.trees ++ [tree'] } w'
  /-- Line 324: the queries are counted, the budget is not yet charged. -/
  | counted {rows : List Nat} {g : G} {tree tree' : Tree K G} {glob : Glob G} (h : PassTrained R mem data F i f w rows g tree glob)
      {w' : World K G} (hb : boostStep f data tree i rows { w with glob := glob } = .ok (w', tree')) :
      PassLeft R mem data F i f w { f with
        rng := g
        oobList := oobWith f rows data.length
        trees := f.trees ++ [tree']
        numQueries := f.numQueries + tree.numQueries } w'
  /-- Lines 325-327: the pass is complete (the last assertion may fail). -/
  | complete {f' : Forest K G} {w' : World K G} (h : forestStep R mem data F i f w = .ok (true, f', w')) : PassLeft R mem data F i f w f' w'

/-- What is left if an exception leaves `fit(data, labels)`, called on `f` — `forest_base.py:160-327`. -/
inductive FitLeft (R : Rng K G) (mem : Nat → Nat → Junk K) (f : Forest K G) (w : World K G) (data : Option (List (List K)))
    (labels : Option Nat) : Forest K G → World K G → Prop
  /-- Lines 167-188: some attributes are assigned, the old trees are still there. Simplified: the attributes may have got any value; for
  classification copies of the labels have been made. -/
  | entering (d : Option (List (List K))) (o n : Option Nat) (dd : DiscDict K) (hd : f.cfg.makeDiscrete = false → dd = f.discrete)
      (mm : Option (List K × List K)) (hm : f.cfg.precompMinmax = false → mm = f.minmax)
      (ol : Option (List (List Nat))) (ho : f.cfg.oobScore = false → ol = f.oobList) (copies : List (List K)) :
      FitLeft R mem f w data labels { f with
        data := d
        orgRef := o
        newRef := n
        discrete := dd
        minmax := mm
        oobList := ol } { w with arrays := w.arrays ++ copies }
  /-- Lines 191-327: `k` passes of the loop are complete, each has kept its tree, and the next one is left. -/
  | looping {dat : List (List K)} {f0 fk f' : Forest K G} {w0 wk w' : World K G} {k : Nat} (hp : f.prepare w data labels = .ok (dat, f0, w0))
      (hk : k < f.cfg.nEstimators) (hl : forestLoop R mem dat (dat.getD 0 []).length (List.range k) f0 w0 = .ok (fk, wk))
      (hn : fk.trees.length = k) (h : PassLeft R mem dat (dat.getD 0 []).length k fk wk f' w') : FitLeft R mem f w data labels f' w'

end FF
