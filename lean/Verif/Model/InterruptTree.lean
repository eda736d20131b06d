import Verif.Spec.Grow

/-!
# An exception leaves `TreeBase.fit`

As `Model/Interrupt.lean`, for the `fit()` of a single tree: the attributes of the tree and of its nodes between any two statements.
-/

namespace FF

variable {K : Type} [Field K] [LinearOrder K] [FloorRing K] [NpFun K] {G : Type}

/-- A leaf whose split is being calculated, or that is about to be split: the attributes that `calculate_best_split`, the scan over the
leaves and the first lines of `split` assign — `node.py:114-177`, `node.py:203-228`, `tree_base.py:250`, `tree_base.py:274`. Simplified:
they may have got any value (those of `e`). -/
def Node.touched (nd e : Node K) : Node K :=
  { nd with
    numBins := e.numBins
    alreadySplit := e.alreadySplit
    splitFeature := e.splitFeature
    prevSplitFeature := e.prevSplitFeature
    splitValue := e.splitValue
    computed := e.computed
    numQueries := e.numQueries
    splitReduction := e.splitReduction
    isSplittable := e.isSplittable }

/-- The loop of `fit()`, called on `t`, has found the best leaf of a pass: node `id`, number `pos` of the leaves, is to be split —
`tree_base.py:225-290`. -/
structure AboutToSplit (R : Rng K G) (mem : Nat → Junk K) (t : Tree K G) (glob : Glob G) (s : Scan K G) (pos id : Nat) : Prop where
  ex : ∃ dd t1 glob1 red, maybeDiscrete t.cfg.makeDiscrete t.data t.discrete = .ok dd ∧
    FitHead R mem { t with discrete := dd, leaves := t.leaves ++ [0] } glob t1 glob1 ∧
    leafLimit t1.cfg.maxLeafNodes t1.leaves.length = .ok false ∧
    scanLeaves R mem 0 t1.leaves { t := t1, glob := glob1, best := none } = .ok s ∧
    s.best = some (pos, id, red) ∧ red.lt (.fin s.t.cfg.minImpDec) = true

/-- What is left of the tree if an exception leaves `fit()` and no node is half split — `tree_base.py:207-319`. -/
inductive TreeLeft (R : Rng K G) (mem : Nat → Junk K) (t : Tree K G) (glob : Glob G) : Tree K G → Prop
  /-- Lines 216-226, before the loop. Simplified: `discrete_features` and `leaves` may have got any value. -/
  | entering (dd : DiscDict K) (L : List Nat) : TreeLeft R mem t glob { t with discrete := dd, leaves := L }
  /-- Lines 229-290: some passes of the loop are complete, in the next one some leaves are scanned (all of them, if the best leaf is about to
  be split), and the attributes of one leaf are being assigned. Simplified: the generator, the number of queries and the budget of the tree
  may have got any value. -/
  | scanning {dd : DiscDict K} {t1 : Tree K G} {glob1 : Glob G} {s : Scan K G}
      (hd : maybeDiscrete t.cfg.makeDiscrete t.data t.discrete = .ok dd)
      (hh : FitHead R mem { t with discrete := dd, leaves := t.leaves ++ [0] } glob t1 glob1)
      (hm : leafLimit t1.cfg.maxLeafNodes t1.leaves.length = .ok false) (n : Nat)
      (hs : scanLeaves R mem 0 (t1.leaves.take n) { t := t1, glob := glob1, best := none } = .ok s)
      {id : Nat} (hid : id ∈ t1.leaves) {nd : Node K} (hn : s.t.nodes[id]? = some nd) (e : Node K) (g : G) (q : Nat) (b : Option Int) :
      TreeLeft R mem t glob { s.t with
        nodes := s.t.nodes.set id (nd.touched e)
        rng := g
        numQueries := q
        remaining := b }
  /-- `node.py:231-239`, `tree_base.py:291-307`: both children are there. Simplified: the other attributes that are assigned or deleted after
  that may be in any state. -/
  | split {s : Scan K G} {pos id : Nat} (h : AboutToSplit R mem t glob s pos id) {t2 : Tree K G} {glob2 : Glob G}
      (hp : performSplit R mem s pos id = .ok (t2, glob2)) {nd : Node K} (hn : t2.nodes[id]? = some nd) (data : Option (List (List K)))
      (labels : Option (List K)) (cacheCls : Option (K × List K)) (cacheReg : Option K) (already : Bool) (L : List Nat) (n d : Nat) :
      TreeLeft R mem t glob { t2 with
        nodes := t2.nodes.set id { nd with
          data := data
          labels := labels
          cacheCls := cacheCls
          cacheReg := cacheReg
          alreadySplit := already }
        leaves := L
        numSplits := n
        depth := d }

/-- What is left of the tree if an exception leaves `fit()` between `self.left = …` and `self.right = …` — `node.py:230-231`: node `id` has
its left child only. (The exception may come from the construction of the right child.) Simplified: the generator of the tree may be in
any state. -/
inductive TreeHalf (R : Rng K G) (mem : Nat → Junk K) (t : Tree K G) (glob : Glob G) : Nat → Tree K G → Prop
  | half {s : Scan K G} {pos id : Nat} (h : AboutToSplit R mem t glob s pos id) {nd l : Node K} {data : List (List K)} {labels col : List K}
      {g1 : G} (hn : s.t.nodes[id]? = some nd) (hd : nd.data = some data) (hl : nd.labels = some labels)
      (hc : colE data nd.prevSplitFeature = .ok col)
      (h1 : (splitIdcs nd.idcs col nd.splitValue).1 ≠ []) (h2 : (splitIdcs nd.idcs col nd.splitValue).2 ≠ [])
      (hcl : childNode R s.t.rng s.t nd labels.length (splitIdcs nd.idcs col nd.splitValue).1 = .ok (l, g1)) (g : G) :
      TreeHalf R mem t glob id { s.t with
        nodes := s.t.nodes.set id { nd with left := some s.t.nodes.length } ++ [l]
        rng := g }

end FF
