import Verif.Props.ForestEx
import Verif.Props.Tree2
import Verif.Proofs.Forest

/-!
# Growing only adds (C87), and the limits given to a forest (C88)
-/

namespace FF

set_option linter.unusedSectionVars false

open Spec

variable {K : Type} [Field K] [LinearOrder K] [IsStrictOrderedRing K] [FloorRing K] [NpFun K] {G : Type}

/-! ### C87 -/

/-- What a later state `nd'` of a node has in common with an earlier state `nd`: rows, columns and depth always; once the best split
has been searched, its outcome and its cost; once the node has been split, its children. -/
structure NodeKept (nd nd' : Node K) : Prop where
  rows : nd'.idcs = nd.idcs
  feats : nd'.featIdcs = nd.featIdcs
  depth : nd'.depth = nd.depth
  found : nd.computed = true → nd'.computed = true ∧ nd'.numQueries = nd.numQueries ∧ nd'.splitFeature = nd.splitFeature ∧
    nd'.splitValue = nd.splitValue ∧ nd'.splitReduction = nd.splitReduction
  left : nd.left ≠ none → nd'.left = nd.left
  right : nd.right ≠ none → nd'.right = nd.right

theorem NodeKept.refl (nd : Node K) : NodeKept nd nd := ⟨rfl, rfl, rfl, fun h => ⟨h, rfl, rfl, rfl, rfl⟩, fun _ => rfl, fun _ => rfl⟩

theorem NodeKept.trans {a b c : Node K} (h1 : NodeKept a b) (h2 : NodeKept b c) : NodeKept a c := by
  refine ⟨h2.rows.trans h1.rows, h2.feats.trans h1.feats, h2.depth.trans h1.depth, ?_, ?_, ?_⟩
  · intro h
    obtain ⟨a1, a2, a3, a4, a5⟩ := h1.found h
    obtain ⟨b1, b2, b3, b4, b5⟩ := h2.found a1
    exact ⟨b1, b2.trans a2, b3.trans a3, b4.trans a4, b5.trans a5⟩
  · intro h
    have e := h1.left h
    exact (h2.left (e ▸ h)).trans e
  · intro h
    have e := h1.right h
    exact (h2.right (e ▸ h)).trans e

variable {R : Rng K G} {mem : Nat → Junk K} {A : TreeArgs K}

/-- Every node of `t` is in `t'`, in a later state. -/
def TreeKept (t t' : Tree K G) : Prop := ∀ id nd, NodeAt t id nd → ∃ nd', NodeAt t' id nd' ∧ NodeKept nd nd'

theorem TreeKept.set {t t' : Tree K G} {id : Nat} {nd nd' : Node K} {l : List (Node K)} (hn : t.nodes[id]? = some nd)
    (hk : NodeKept nd nd') (ht : t'.nodes = t.nodes.set id nd' ++ l) : TreeKept t t' := by
  intro j a ha
  have hlt : j < (t.nodes.set id nd').length := by rw [List.length_set]; exact (List.getElem?_eq_some_iff.1 ha).1
  by_cases hj : id = j
  · subst hj
    obtain rfl := Option.some.inj (hn.symm.trans ha)
    exact ⟨nd', by rw [NodeAt, ht, List.getElem?_append_left hlt, getElem?_set_eq hn], hk⟩
  · exact ⟨a, by rw [NodeAt, ht, List.getElem?_append_left hlt, List.getElem?_set_ne hj]; exact ha, .refl a⟩

theorem TSteps.kept {dd : DiscDict K} {t0 t t' : Tree K G} (hf : GrowFacts R mem A dd t0 t) (h : TSteps R mem t t') :
    TreeKept t t' := by
  induction h with
  | refl => exact fun id nd hn => ⟨nd, hn, .refl nd⟩
  | @step t1 t2 h1 hs ih =>
    intro id nd hn
    obtain ⟨nd1, hn1, hk1⟩ := ih id nd hn
    have hf1 := hf.next h1
    have key : TreeKept t1 t2 := by
      cases hs with
      | mark hl hm hc =>
        refine .set hm ?_ (List.append_nil _).symm
        exact ⟨rfl, rfl, rfl, fun h => ⟨h, rfl, rfl, rfl, rfl⟩, fun _ => rfl, fun _ => rfl⟩
      | solve hl hm hc hb hcomp hsp hnb hd hls hs =>
        refine .set hm ?_ (List.append_nil _).symm
        have hst := nodeRecord_static (K := K)
        refine ⟨?_, ?_, ?_, fun h => (by rw [hcomp] at h; cases h), ?_, ?_⟩
        · exact (hst _ _ _).1
        · exact (hst _ _ _).2.1
        · exact (hst _ _ _).2.2.2.2.2.1
        · exact fun _ => (hst _ _ _).2.2.2.2.2.2.2.2.1
        · exact fun _ => (hst _ _ _).2.2.2.2.2.2.2.2.2.1
      | split hl hm hc hcomp hsp hred hneg himp hd hls hcol hne1 hne2 hcl hcr =>
        have hleaf := (hf1.shape.leaves _).1 (List.mem_of_getElem? hl)
        obtain ⟨nd', a1, a2⟩ := hleaf
        obtain rfl := Option.some.inj (hm.symm.trans a1)
        have a3 := (hf1.nodes _ _ hm).right_none a2
        refine .set hm ?_ rfl
        exact ⟨rfl, rfl, rfl, fun h => ⟨h, rfl, rfl, rfl, rfl⟩, fun h => absurd a2 h, fun h => absurd a3.1 h⟩
      | depth h => exact fun id nd hn => ⟨nd, hn, .refl nd⟩
    obtain ⟨nd2, hn2, hk2⟩ := key id nd1 hn1
    exact ⟨nd2, hn2, hk1.trans hk2⟩

variable (R mem A)

/-- The queries spent on nodes (second list) that had not been searched, or did not exist, in the earlier state (first list). -/
def newQueries : List (Node K) → List (Node K) → Nat
  | [], ms => (ms.map Node.numQueries).sum
  | _ :: _, [] => 0
  | n :: ns, m :: ms => (if n.computed then 0 else m.numQueries) + newQueries ns ms

theorem newQueries_sum : ∀ (ns ms : List (Node K)),
    (∀ (i : Nat) (nd : Node K), ns[i]? = some nd → ∃ nd', ms[i]? = some nd' ∧ NodeKept nd nd') →
    (∀ nd ∈ ns, nd.computed = false → nd.numQueries = 0) →
    (ms.map Node.numQueries).sum = (ns.map Node.numQueries).sum + newQueries ns ms
  | [], ms, _, _ => by simp [newQueries]
  | n :: ns, [], h, _ => by
    obtain ⟨_, h1, _⟩ := h 0 n rfl
    cases h1
  | n :: ns, m :: ms, h, h0 => by
    have ih := newQueries_sum ns ms (fun i nd hi => h (i + 1) nd hi) (fun nd hm => h0 nd (List.mem_cons_of_mem _ hm))
    obtain ⟨nd', h1, h2⟩ := h 0 n rfl
    rw [List.getElem?_cons_zero] at h1
    cases h1
    rw [List.map_cons, List.map_cons, List.sum_cons, List.sum_cons, ih, newQueries]
    cases hc : n.computed with
    | true => rw [if_pos rfl, (h2.found hc).2.1]; omega
    | false => rw [if_neg (by simp), h0 n List.mem_cons_self hc]; omega

/-- C87. One pass of the loop of `fit`: every node stays, with its rows, columns and depth; a split that has been found is not
searched again and does not change; children are not replaced. -/
theorem C87_pass (t t' : Tree K G) (glob glob' : Glob G) (b : Bool) (h : Growing R mem A t glob)
    (hs : fitStep R mem t glob = .ok (b, t', glob')) : TreeKept t t' := by
  obtain ⟨dd, t0, hf⟩ := h.facts
  exact TSteps.kept hf (fitStep_sim hf.sim hs)

/-- C87, cost: a pass spends queries only on nodes that had not been searched before. -/
theorem C87_cost (t t' : Tree K G) (glob glob' : Glob G) (b : Bool) (h : Growing R mem A t glob)
    (hs : fitStep R mem t glob = .ok (b, t', glob')) : t'.numQueries = t.numQueries + newQueries t.nodes t'.nodes := by
  have hk := C87_pass R mem A t t' glob glob' b h hs
  obtain ⟨dd, t0, hf⟩ := h.facts
  have hf' := hf.next (fitStep_sim hf.sim hs)
  rw [hf'.steps.queries hf'.start, hf.steps.queries hf.start]
  refine newQueries_sum _ _ hk ?_
  intro nd hm hc
  obtain ⟨i, hi⟩ := List.mem_iff_getElem?.1 hm
  exact ((hf.nodes _ _ hi).fresh hc).2.2.1

/-- C87 for the rest of the call: whatever the state at the head of the loop, the tree that is finally returned keeps it. -/
theorem C87_final (t t' : Tree K G) (glob glob' : Glob G) (n : Nat) (h : Growing R mem A t glob)
    (hr : FitRuns R mem t glob n (.ok (t', glob'))) : TreeKept t t' := by
  generalize hres : (Except.ok (t', glob') : Except Err (Tree K G × Glob G)) = res at hr
  induction hr with
  | raise hs => cases hres
  | stop hs =>
    cases hres
    exact C87_pass R mem A _ _ _ _ _ h hs
  | again hs hr ih =>
    obtain ⟨t0, glob0, dd, hc, hdd, hh⟩ := h
    have h1 : TreeKept _ _ := C87_pass R mem A _ _ _ _ _ ⟨t0, glob0, dd, hc, hdd, hh⟩ hs
    have h2 := ih ⟨t0, glob0, dd, hc, hdd, hh.step hs⟩ hres
    intro id nd hn
    obtain ⟨nd1, a1, a2⟩ := h1 id nd hn
    obtain ⟨nd2, b1, b2⟩ := h2 id nd1 a1
    exact ⟨nd2, b1, a2.trans b2⟩

example : ∃ (t : Tree ℚ Nat) (glob : Glob Nat) (q : Bool × Tree ℚ Nat × Glob Nat), Growing rngQ exMem exArgsMab t glob ∧
    fitStep rngQ exMem t glob = .ok q ∧
    (t.nodes.map Node.computed == [true, false, false] && q.2.1.nodes.map Node.computed == [true, true, false, false, false] &&
      q.2.1.nodes.map Node.numQueries == [12, 8, 0, 0, 0] && newQueries t.nodes q.2.1.nodes == 8) = true := by
  have h : (((runHead rngQ exMem exArgsMab exGlob 1).toOption.bind
      (fun p => (fitStep rngQ exMem p.1 p.2).toOption.map (fun q => (p, q)))).any (fun x =>
        x.1.1.nodes.map Node.computed == [true, false, false] && x.2.2.1.nodes.map Node.computed == [true, true, false, false, false] &&
      x.2.2.1.nodes.map Node.numQueries == [12, 8, 0, 0, 0] && newQueries x.1.1.nodes x.2.2.1.nodes == 8)) = true := by decide +kernel
  rcases h1 : runHead rngQ exMem exArgsMab exGlob 1 with _ | p
  · rw [h1] at h; cases h
  · rw [h1] at h
    rcases h2 : fitStep rngQ exMem p.1 p.2 with _ | q
    · simp [Except.toOption, h2] at h
    · refine ⟨p.1, p.2, q, runHead_growing (glob' := p.2) h1, h2, ?_⟩
      simpa [Except.toOption, h2] using h

/-! ### C88 -/

/-- A tree of a forest object is a fitted tree, up to cached predictions, and its parameters are those of the forest. -/
theorem ForestObj.trees_made {cfg : ForestCfg K} {budget : Option Int} {f : Forest K G} (h : ForestObj R cfg budget f) :
    ∀ t ∈ f.trees, ∃ (mem : Nat → Junk K) (A : TreeArgs K) (t0 : Tree K G), Fitted R mem A t0 ∧ AfterPredicts t0 t ∧
      A.cfg.isCls = cfg.isCls ∧ A.cfg.maxDepth = cfg.maxDepth ∧ A.cfg.maxLeafNodes = cfg.maxLeafNodes ∧
      A.cfg.minSamplesSplit = cfg.minSamplesSplit ∧ A.cfg.minImpDec = cfg.minImpDec ∧ A.cfg.featSub = cfg.featSub := by
  have after : ∀ {ts ts' : List (Tree K G)}, List.Forall₂ AfterPredicts ts ts' → ∀ t ∈ ts', ∃ t0 ∈ ts, AfterPredicts t0 t := by
    intro ts ts' h2
    induction h2 with
    | nil => intro t ht; cases ht
    | cons h1 _ ih =>
      intro t ht
      rcases List.mem_cons.1 ht with rfl | ht
      · exact ⟨_, List.mem_cons_self, h1⟩
      · obtain ⟨t0, a1, a2⟩ := ih t ht
        exact ⟨t0, List.mem_cons_of_mem _ a1, a2⟩
  induction h with
  | new h =>
    obtain ⟨_, _, _, h4, _⟩ := Forest_init_fields h
    rw [h4]
    intro t ht
    cases ht
  | @fit mem w w' data labels f f' h0 hf ih =>
    intro t ht
    have hcfg := (Forest_fit_same hf).1.trans h0.facts.1
    obtain ⟨i, hi⟩ := List.mem_iff_getElem?.1 ht
    obtain ⟨ms, _, _, hm⟩ := Forest_fit_made hf
    obtain ⟨m, _, h2, _⟩ := hm i t hi
    refine ⟨_, m.args, m.tree, h2.fitted, h2.after, ?_⟩
    rw [h2.cfg]
    unfold Forest.treeCfg
    rw [hcfg]
    exact ⟨rfl, rfl, rfl, rfl, rfl, rfl⟩
  | predict _ hf ih =>
    obtain ⟨ts, rfl, h2⟩ := Forest_predict_same hf
    intro t ht
    obtain ⟨t1, a1, a2⟩ := after h2 t ht
    obtain ⟨mem, A, t0, b1, b2, b3⟩ := ih t1 a1
    exact ⟨mem, A, t0, b1, b2.trans a2, b3⟩
  | oob _ hf ih =>
    obtain ⟨ts, rfl, h2⟩ := Forest_oob_same hf
    intro t ht
    obtain ⟨t1, a1, a2⟩ := after h2 t ht
    obtain ⟨mem, A, t0, b1, b2, b3⟩ := ih t1 a1
    exact ⟨mem, A, t0, b1, b2.trans a2, b3⟩
  | mdi _ hf ih =>
    rw [Forest_mdi_same hf]
    exact ih
  | reset b _ ih =>
    intro t ht
    cases ht

/-- C88. The limits given to the constructor of a forest hold in each of its trees, at any time in the life of the forest: no node is
deeper than `max_depth`, there are at most `max_leaf_nodes` leaves, a node that was split had more than `min_samples_split` rows and
two children, and the change of impurity recorded for it is negative and below `min_impurity_decrease`. -/
theorem C88_limits (cfg : ForestCfg K) (budget : Option Int) (f : Forest K G) (h : ForestObj R cfg budget f) (t : Tree K G)
    (ht : t ∈ f.trees) :
    (∀ d, cfg.maxDepth = .some d → ∀ id nd, InTree t id → NodeAt t id nd → nd.depth ≤ d) ∧
    (∀ m, cfg.maxLeafNodes = some m → 1 ≤ m → t.nodes.countP (fun nd => nd.left.isNone) ≤ m) ∧
    (∀ id nd, NodeAt t id nd → nd.left ≠ none → cfg.minSamplesSplit < nd.idcs.length ∧
      ∃ red, nd.splitReduction = some red ∧ red.lt (.fin 0) = true ∧ red.lt (.fin cfg.minImpDec) = true) := by
  obtain ⟨mem, A, t0, hfit, hafter, _, e2, e3, e4, e5, _⟩ := ForestObj.trees_made R h t ht
  obtain ⟨dd, t00, hf⟩ := hfit.facts
  have hc := hafter.cache hf.cache
  have node : ∀ (id : Nat) (nd : Node K), NodeAt t id nd → ∃ nd0, NodeAt t0 id nd0 ∧ nd.left = nd0.left ∧ nd.depth = nd0.depth ∧
      nd.idcs = nd0.idcs ∧ nd.splitReduction = nd0.splitReduction := by
    intro id nd hn
    have hlt := (List.getElem?_eq_some_iff.1 hn).1
    rw [hc.len] at hlt
    have h0 : t0.nodes[id]? = some t0.nodes[id] := List.getElem?_eq_getElem hlt
    have he := (hc.nodes _ _ _ h0 hn).eq
    exact ⟨_, h0, by rw [he], by rw [he], by rw [he], by rw [he]⟩
  refine ⟨?_, ?_, ?_⟩
  · intro d hd id nd _ hn
    obtain ⟨nd0, h0, _, e, _⟩ := node id nd hn
    rw [e]
    exact hf.depth_le (e2.trans hd) h0
  · intro m hm h1
    obtain ⟨a1, a2, a3⟩ := C32_leaf_limit R mem A t0 hfit
    have hle := a1 m (e3.trans hm) h1
    have e : t.nodes.map (fun nd => nd.left) = t0.nodes.map (fun nd => nd.left) := by
      apply List.ext_getElem?
      intro i
      rw [List.getElem?_map, List.getElem?_map]
      rcases hn : t.nodes[i]? with _ | nd
      · rw [List.getElem?_eq_none_iff, hc.len, ← List.getElem?_eq_none_iff] at hn
        rw [hn]
      · obtain ⟨nd0, h0, e, _⟩ := node i nd hn
        rw [h0, Option.map_some, Option.map_some, e]
    have e' : ∀ l : List (Node K), l.countP (fun nd => nd.left.isNone) = (l.map (fun nd => nd.left)).countP Option.isNone := by
      intro l
      rw [List.countP_map]
      rfl
    have hlen : t0.nodes.length = 2 * t0.numSplits + 1 := hf.shape.numNodes
    have hsum := List.length_eq_countP_add_countP (fun nd : Node K => nd.left.isSome) (l := t0.nodes)
    rw [a3] at hsum
    have e'' : t0.nodes.countP (fun nd => decide (¬ nd.left.isSome = true)) = t0.nodes.countP (fun nd => nd.left.isNone) := by
      congr 1
      funext nd
      cases nd.left <;> rfl
    rw [e'', hlen] at hsum
    rw [e', e, ← e']
    omega
  · intro id nd hn hl
    obtain ⟨nd0, h0, b1, _, b3, b4⟩ := node id nd hn
    rw [b1] at hl
    rw [b3, b4, ← e4, ← e5]
    exact ⟨(C33_min_samples R mem A t0 hfit id nd0 h0 hl).1, C34_improving R mem A t0 hfit id nd0 h0 hl⟩

/-- A forest with the limits `max_depth=2`, `max_leaf_nodes=3`, `min_samples_split=2`. -/
def fcfgLimits : ForestCfg ℚ := { fcfgQ with maxDepth := .some 2, maxLeafNodes := some 3, minSamplesSplit := 2 }

/-- Both limits are reached in the first tree. -/
example : ∃ f : Forest ℚ Nat, ForestObj rngQ fcfgLimits none f ∧
    f.trees.map (fun t => t.nodes.map (fun nd => (nd.depth, nd.left.isSome, nd.idcs.length))) =
      [[(0, true, 6), (1, false, 1), (1, true, 5), (2, false, 1), (2, false, 4)], [(0, true, 6), (1, false, 4), (1, false, 2)]] := by
  have h : ((runForest rngQ exMems exWorld fcfgLimits exData 0 none).toOption.any (fun p => decide
      (p.1.trees.map (fun t => t.nodes.map (fun nd => (nd.depth, nd.left.isSome, nd.idcs.length))) =
      [[(0, true, 6), (1, false, 1), (1, true, 5), (2, false, 1), (2, false, 4)], [(0, true, 6), (1, false, 4), (1, false, 2)]]))) = true := by
    decide +kernel
  rcases hr : runForest rngQ exMems exWorld fcfgLimits exData 0 none with _ | p
  · rw [hr] at h; cases h
  · rw [hr] at h
    unfold runForest at hr
    rcases hi : Forest.init rngQ exWorld fcfgLimits none (some exData) (some 0) none with _ | q
    · rw [hi] at hr; cases hr
    · rw [hi] at hr
      exact ⟨p.1, .fit (mem := exMems) (w := q.2) (w' := p.2) (data := none) (labels := none) (.new (w' := q.2) hi) hr, of_decide_eq_true h⟩

end FF
