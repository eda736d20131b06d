import Verif.Model.Forest
/-!
# Several threads that predict with the same trees

`TreeBase.predict` (`tree_base.py:338-373`) is not a pure function: it keeps the prediction of a leaf in the leaf. `Tree.predict`
(`Verif/Model/Tree.lean`) runs such a call in one go. Here a call is a sequence of steps, and a step reads or writes at most one attribute of
a leaf, so that the steps of several threads (a web server, `joblib` with threads) may be interleaved in any order. A thread that is never
scheduled again is one that was interrupted (Ctrl-C, an exception raised by a signal handler) at that point.

Threads that call `fit` at the same time are in `Verif/Model/FitThreads.lean`. What is not modelled: a Python without a lock around single
attribute accesses.
-/
namespace FF
variable {K : Type} [Field K] [LinearOrder K] [FloorRing K] [NpFun K] {G : Type}

/-- The attributes of a leaf that `predict` writes — `node.prediction_probs`, `node.predicted_label` and `node.predicted_value`,
`tree_base.py:357-371`. They are `None` at first (`node.py:73-76`). -/
structure LeafCache (K : Type) where
  probs : Option (List K) := none
  label : Option K := none
  value : Option K := none
  deriving DecidableEq, Repr

/-- What one call of `tree.predict` returns: the pair `(node.predicted_label, node.prediction_probs)` of `tree_base.py:358,368` or the number
of `tree_base.py:371,373`, as read, so that each may be `None`. -/
inductive Got (K : Type) where
  | cls (label : Option K) (probs : Option (List K))
  | reg (v : Option K)
  deriving DecidableEq, Repr

/-- Where a call is, once it has found its leaf — `tree_base.py:355-373`. -/
inductive Phase (K : Type) where
  /-- About to read `node.prediction_probs` — `tree_base.py:357`. -/
  | check
  /-- It was not `None`: about to read `node.predicted_label` — `tree_base.py:358`. -/
  | hitLabel
  /-- About to read `node.prediction_probs` and to return — `tree_base.py:358`. -/
  | hitProbs (l : Option K)
  /-- It was `None`: about to write `node.prediction_probs` — `tree_base.py:361`. -/
  | setProbs
  /-- About to read `node.prediction_probs` for its `argmax` — `tree_base.py:363`. -/
  | argmax
  /-- About to write `node.predicted_label` — `tree_base.py:362`. -/
  | setLabel (l : K)
  /-- About to read `node.prediction_probs` for the assertion — `tree_base.py:365-367`. -/
  | asserting
  /-- About to read `node.predicted_label` — `tree_base.py:368`. -/
  | retLabel
  /-- About to read `node.prediction_probs` and to return — `tree_base.py:368`. -/
  | retProbs (l : Option K)
  /-- About to read `node.predicted_value` — `tree_base.py:370`. -/
  | checkValue
  /-- It was not `None`: about to read it again and to return — `tree_base.py:371`. -/
  | hitValue
  /-- It was `None`: about to write it — `tree_base.py:372`. -/
  | setValue
  /-- About to read it and to return — `tree_base.py:373`. -/
  | retValue
  deriving DecidableEq, Repr

/-- The next step of a call at a leaf with the attributes `c` — `tree_base.py:355-373`: the next phase or the answer, and the attributes
after the step. As in `Tree.predict`, a leaf without samples stops at the division (in the code: NaN, and the assertion three lines later),
and the assertion itself holds for the exact quotients. -/
def phaseStep (cfg : TreeCfg K) (node : Node K) (c : LeafCache K) : Phase K → Except Err (Phase K ⊕ Got K) × LeafCache K
  | .check => (.ok (.inl (if c.probs.isSome then .hitLabel else .setProbs)), c)
  | .hitLabel => (.ok (.inl (.hitProbs c.label)), c)
  | .hitProbs l => (.ok (.inr (.cls l c.probs)), c)
  | .setProbs =>
    if node.counts.sum = 0 then (.error (.assertion "Probabilities don't sum to 1"), c)
    else (.ok (.inl .argmax), { c with probs := some (node.counts.map (fun (n : Nat) => (n : K) / ((node.counts.sum : Nat) : K))) })
  | .argmax =>
    match c.probs with
    | none => (.error (.attributeError "argmax"), c)
    | some p =>
      match npArgmax p with
      | none => (.error .valueError, c)
      | some i =>
        match idxToClass cfg.classes i with
        | none => (.error .keyError, c)
        | some l => (.ok (.inl (.setLabel l)), c)
  | .setLabel l => (.ok (.inl .asserting), { c with label := some l })
  | .asserting =>
    match c.probs with
    | none => (.error (.attributeError "sum"), c)
    | some p => if p.sum = 1 then (.ok (.inl .retLabel), c) else (.error (.assertion "Probabilities don't sum to 1"), c)
  | .retLabel => (.ok (.inl (.retProbs c.label)), c)
  | .retProbs l => (.ok (.inr (.cls l c.probs)), c)
  | .checkValue => (.ok (.inl (if c.value.isSome then .hitValue else .setValue)), c)
  | .hitValue => (.ok (.inr (.reg c.value)), c)
  | .setValue =>
    match node.labels with
    | none => (.error (.attributeError "labels"), c)
    | some [] => (.error (.unmodelled "mean of an empty leaf"), c)
    | some ls => (.ok (.inl .retValue), { c with value := some (npMean ls) })
  | .retValue =>
    match c.value with
    | none => (.error .typeError, c)
    | some v => (.ok (.inr (.reg (some v))), c)

/-- A call that has found its leaf: the tree it asks, the point, the leaf and the phase. -/
structure Call (K : Type) where
  tree : Nat
  point : List K
  leaf : Nat
  phase : Phase K
  deriving DecidableEq, Repr

/-- A thread: the calls `trees[k].predict(x)` it still has to make, in order, the call it is in, the answers it has (with the calls they
answer) and the exception that ended it. A thread that calls `predict_batch` of a tree (`classifier.py:7-18`, `regressor.py:7-17`) asks the
same tree about one point after the other; a thread that calls `predict` of a forest asks all trees of the forest about the same point
(`forest_base.py:341-343,351-358`). -/
structure Thread (K : Type) where
  todo : List (Nat × List K)
  now : Option (Call K) := none
  got : List ((Nat × List K) × Got K) := []
  raised : Option Err := none
  deriving DecidableEq, Repr

/-- The attributes of all leaves of all trees. -/
abbrev Caches (K : Type) := Nat → Nat → LeafCache K

/-- The attributes as the trees have them. -/
def cachesOf (trees : List (Tree K G)) : Caches K := fun k id =>
  match trees[k]? with
  | none => {}
  | some t =>
    match t.nodes[id]? with
    | none => {}
    | some nd => ⟨nd.cacheCls.map Prod.snd, nd.cacheCls.map Prod.fst, nd.cacheReg⟩

/-- The next step of a thread — `tree_base.py:346-373`. The walk to the leaf (`tree_base.py:349-353`) reads only what no call of `predict`
changes and is therefore one step. `none`: the thread has ended. -/
def Thread.step (trees : List (Tree K G)) (c : Caches K) (th : Thread K) : Option (Thread K × Caches K) :=
  match th.raised with
  | some _ => none
  | none =>
    match th.now with
    | none =>
      match th.todo with
      | [] => none
      | (k, x) :: rest =>
        match trees[k]? with
        | none => some ({ th with raised := some .indexError }, c)
        | some t =>
          match walk t.nodes x t.nodes.length 0 with
          | .error e => some ({ th with raised := some e }, c)
          | .ok id => some ({ th with todo := rest, now := some ⟨k, x, id, if t.cfg.isCls then .check else .checkValue⟩ }, c)
    | some call =>
      match trees[call.tree]? with
      | none => some ({ th with raised := some .indexError }, c)
      | some t =>
        match t.nodes[call.leaf]? with
        | none => some ({ th with raised := some .indexError }, c)
        | some nd =>
          let s := phaseStep t.cfg nd (c call.tree call.leaf) call.phase
          let c' : Caches K := fun k id => if k = call.tree ∧ id = call.leaf then s.2 else c k id
          match s.1 with
          | .error e => some ({ th with raised := some e }, c')
          | .ok (.inl p) => some ({ th with now := some { call with phase := p } }, c')
          | .ok (.inr a) => some ({ th with now := none, got := th.got ++ [((call.tree, call.point), a)] }, c')

/-- All threads, and the attributes they share. -/
structure Machine (K : Type) where
  caches : Caches K
  threads : List (Thread K)

/-- Thread `i` makes its next step. -/
def Machine.step (trees : List (Tree K G)) (m : Machine K) (i : Nat) : Option (Machine K) :=
  match m.threads[i]? with
  | none => none
  | some th =>
    match th.step trees m.caches with
    | none => none
    | some (th', c') => some ⟨c', m.threads.set i th'⟩

/-- The threads run in the order of the schedule; an entry for a thread that has ended changes nothing. -/
def Machine.run (trees : List (Tree K G)) (m : Machine K) : List Nat → Machine K
  | [] => m
  | i :: is => Machine.run trees ((m.step trees i).getD m) is

/-- The threads before their first step, thread `i` with the calls `jobs[i]`. -/
def Machine.start (trees : List (Tree K G)) (jobs : List (List (Nat × List K))) : Machine K :=
  ⟨cachesOf trees, jobs.map (fun js => { todo := js })⟩

/-- The probabilities of an answer: `tree.predict(datapoint)[1]`, `forest_base.py:343`. -/
def Got.probs : Got K → Option (List K)
  | .cls _ p => p
  | .reg _ => none

/-- The number of an answer, `forest_base.py:350,352,358`. -/
def Got.value : Got K → Option K
  | .reg v => v
  | .cls _ _ => none

/-- What `ForestBase.predict` makes of the answers of its trees — `forest_base.py:338-359`. Nothing in it is shared with other threads.
Answers that are `None` are not followed. -/
def Forest.combine (f : Forest K G) (as : List (Got K)) : Except Err (Pred K) :=
  if f.cfg.isCls then
    match as.mapM Got.probs with
    | none => .error (.unmodelled "None as probabilities")
    | some ps =>
      if ps = [] then .error (.unmodelled "average over no trees")
      else
        match npArgmax (avgProbs f.classes.length ps) with
        | none => .error .valueError
        | some i =>
          match f.classes[i]? with
          | none => .error .indexError
          | some c => .ok (.cls c.1 (avgProbs f.classes.length ps))
  else
    match as.mapM Got.value with
    | none => .error (.unmodelled "None as a value")
    | some vs =>
      if f.cfg.boosting then
        if vs = [] then .error .nameError
        else .ok (.reg (boostSum (f.cfg.boostingLr.getD 0) vs))
      else
        if vs = [] then .error (.unmodelled "average over no trees")
        else .ok (.reg (npMean vs))

/-- The calls one `forest.predict(x)` makes — `forest_base.py:341-343,347-352,356-358`. -/
def forestCalls (f : Forest K G) (x : List K) : List (Nat × List K) := (List.range f.trees.length).map (fun k => (k, x))

end FF
