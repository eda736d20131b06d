import Verif.Proofs.TreeFacts
import Verif.Model.Instances

/-!
# Properties C28–C33, C46, C47: growing a tree
-/

namespace FF

open Spec

set_option linter.unusedSectionVars false

variable {K : Type} [Field K] [LinearOrder K] [IsStrictOrderedRing K] [FloorRing K] [NpFun K] {G : Type}

theorem countP_range {α : Type} (l : List α) (p : α → Bool) :
    l.countP p = (List.range l.length).countP (fun i => ((l[i]?).map p).getD false) := by
  induction l with
  | nil => rfl
  | cons a as ih =>
    rw [List.length_cons, List.range_succ_eq_map, List.countP_cons, List.countP_cons, List.countP_map, ih]
    simp [Function.comp_def]

/-! ### Example trees -/

/-- Construct a tree and fit it. -/
def runTree (R : Rng K G) (mem : Nat → Junk K) (A : TreeArgs K) (glob : Glob G) : Except Err (Tree K G) := do
  let (t0, _) ← Tree.init R A.cfg A.data A.labels A.disc A.budget A.seed A.idcs A.feats
  let (t, _) ← Tree.fit R mem t0 glob none none
  .ok t

theorem runTree_fitted {R : Rng K G} {mem : Nat → Junk K} {A : TreeArgs K} {glob : Glob G} {t : Tree K G}
    (h : runTree R mem A glob = .ok t) : Fitted R mem A t := by
  unfold runTree at h
  cases h1 : Tree.init R A.cfg A.data A.labels A.disc A.budget A.seed A.idcs A.feats with
  | error e => rw [h1] at h; cases h
  | ok p =>
    obtain ⟨t0, g0⟩ := p
    rw [h1] at h
    simp only [Bind.bind, Except.bind] at h
    cases h2 : Tree.fit R mem t0 glob none none with
    | error e => rw [h2] at h; cases h
    | ok q =>
      obtain ⟨t', g'⟩ := q
      rw [h2] at h
      cases h
      exact ⟨t0, glob, g', ⟨g0, h1⟩, h2⟩

theorem runTree_exists {R : Rng K G} {mem : Nat → Junk K} {A : TreeArgs K} {glob : Glob G} {p : Tree K G → Bool}
    (h : (runTree R mem A glob).toOption.any p = true) : ∃ t, Fitted R mem A t ∧ p t = true := by
  rw [Option.any_eq_true] at h
  obtain ⟨t, ht, hp⟩ := h
  cases hr : runTree R mem A glob with
  | error e => rw [hr] at ht; cases ht
  | ok t' =>
    rw [hr] at ht
    cases ht
    exact ⟨t, runTree_fitted hr, hp⟩

/-- Six rows, two classes, exact solver: the fitted tree has three splits. -/
def exArgs : TreeArgs ℚ :=
  { cfg := cfgQ, data := [[0, 1], [1, 1], [2, 5], [3, 5], [4, 2], [5, 2]], labels := [0, 0, 1, 1, 0, 1], disc := none
    budget := none, seed := 0, idcs := none, feats := none }

/-- The same with a bootstrap sample of the rows, a feature drawn at random for each node, and at most three leaves. -/
def exArgsBoot : TreeArgs ℚ :=
  { exArgs with cfg := { cfgQ with featSub := .int 1, maxLeafNodes := some 3 }, idcs := some [3, 0, 5, 5, 0, 2, 4, 4] }

/-- Regression. -/
def exArgsReg : TreeArgs ℚ := { exArgs with cfg := cfgQr, labels := [0, 3, 1, 7, 2, 1] }

/-- The bandit solver with four LINEAR bins and a budget. -/
def exArgsMab : TreeArgs ℚ :=
  { exArgs with cfg := { cfgQ with solver := .mab, binType := some .linear, numBins := some 4 }, budget := some 30 }

/-- The generator state and memory used in examples. -/
def exGlob : Glob Nat := { np := 7, py := 2 }

/-- The uninitialised memory used in examples. -/
def exMem : Nat → Junk ℚ := fun _ => junkQ

/-! ### C28 -/

section
variable (R : Rng K G) (mem : Nat → Junk K) (A : TreeArgs K)

/-- C28. `fit`, with or without new data and labels, on a tree constructed from any arguments, ends (normally or with an
exception) after at most as many splits as the tree has rows; for every solver, budget, state of the generators and content of
uninitialised memory. `FitCall` is `fit` without any bound on the number of passes through its loop. -/
theorem C28_fit_terminates (t0 : Tree K G) (hc : Constructed R A t0) (glob : Glob G) (data : Option (List (List K)))
    (labels : Option (List K)) :
    ∃ n, n ≤ A.rows.length ∧ FitCall R mem t0 glob data labels n (Tree.fit R mem t0 glob data labels) :=
  hc.fit_runs glob data labels

omit [IsStrictOrderedRing K] in
/-- The loop is deterministic: the number of splits and the outcome of `C28_fit_terminates` are unique. -/
theorem C28_unique (t0 : Tree K G) (glob : Glob G) (n n' : Nat)
    (r r' : Except Err (Tree K G × Glob G)) (h : FitRuns R mem t0 glob n r) (h' : FitRuns R mem t0 glob n' r') :
    n = n' ∧ r = r' := by
  induction h generalizing n' with
  | raise hs => cases h' with
    | raise hs' => rw [hs] at hs'; cases hs'; exact ⟨rfl, rfl⟩
    | stop hs' => rw [hs] at hs'; cases hs'
    | again hs' => rw [hs] at hs'; cases hs'
  | stop hs => cases h' with
    | raise hs' => rw [hs] at hs'; cases hs'
    | stop hs' => rw [hs] at hs'; cases hs'; exact ⟨rfl, rfl⟩
    | again hs' => rw [hs] at hs'; cases hs'
  | again hs hr ih => cases h' with
    | raise hs' => rw [hs] at hs'; cases hs'
    | stop hs' => rw [hs] at hs'; cases hs'
    | again hs' hr' =>
      rw [hs] at hs'
      cases hs'
      obtain ⟨h1, h2⟩ := ih _ hr'
      exact ⟨by rw [h1], h2⟩

example : ∃ t0, Constructed rngQ exArgs t0 := by
  obtain ⟨t, ⟨t0, _, _, h, _⟩, _⟩ := runTree_exists (R := rngQ) (mem := exMem) (A := exArgs) (glob := exGlob)
    (p := fun _ => true) (by decide +kernel)
  exact ⟨t0, h⟩

example : ∃ t, Fitted rngQ exMem exArgs t ∧ decide (t.numSplits = 3 ∧ t.leaves = [1, 3, 5, 6] ∧ t.depth = 3) = true :=
  runTree_exists (glob := exGlob) (by decide +kernel)

/-! ### C29 -/

/-- C29. After `fit`, `leaves` lists every leaf once, and the rows held by the leaves are, with multiplicity, the rows given to
the tree. -/
theorem C29_partition (t : Tree K G) (h : Fitted R mem A t) :
    t.leaves.Nodup ∧ (∀ id, id ∈ t.leaves ↔ IsLeaf t id) ∧ (t.leaves.flatMap (rowsOf t)).Perm A.rows := by
  obtain ⟨dd, t0, hf⟩ := h.facts
  exact ⟨hf.sim.nodup, hf.shape.isLeaf, hf.shape.perm⟩

/-- A bootstrap sample in which rows repeat. -/
example : ∃ t, Fitted rngQ exMem exArgsBoot t ∧
    decide (t.leaves.map (rowsOf t) = [[0, 0], [3, 2], [5, 5, 4, 4]] ∧ t.numSplits = 2) = true :=
  runTree_exists (glob := exGlob) (by decide +kernel)

/-- Regression. -/
example : ∃ t, Fitted rngQ exMem exArgsReg t ∧ decide (t.leaves.map (rowsOf t) = [[2], [3], [0], [1], [4, 5]]) = true :=
  runTree_exists (glob := exGlob) (by decide +kernel)

/-- The bandit solver. -/
example : ∃ t, Fitted rngQ exMem exArgsMab t ∧ decide (t.leaves.map (rowsOf t) = [[2, 3], [0, 1], [4, 5]]) = true :=
  runTree_exists (glob := exGlob) (by decide +kernel)

/-! ### C30 -/

/-- C30. After `fit` on a non-empty training set every node, in particular every leaf, holds a row, and every node is a leaf or has
two different children in the tree. -/
theorem C30_no_empty_leaf (t : Tree K G) (h : Fitted R mem A t) (hr : A.rows ≠ []) (id : Nat) (hid : InTree t id) :
    rowsOf t id ≠ [] ∧ (IsLeaf t id ∨ ∃ nd l r, NodeAt t id nd ∧ nd.left = some l ∧ nd.right = some r ∧ l ≠ r ∧
      InTree t l ∧ InTree t r) := by
  obtain ⟨dd, t0, hf⟩ := h.facts
  obtain ⟨nd, hn⟩ := nodeAt_of_lt ((hf.shape.inTree id).1 hid)
  constructor
  · have := hf.shape.rows_ne hr hn
    unfold rowsOf
    rw [show t.nodes[id]? = some nd from hn]
    exact this
  · rcases hf.shape.links _ _ hn with ⟨h1, h2⟩ | ⟨l, r, nl, nr, h1, h2, _, _, h5, h6, h7, _⟩
    · exact Or.inl ⟨hid, nd, hn, h1, h2⟩
    · exact Or.inr ⟨nd, l, r, hn, h1, h2, h5, (hf.shape.inTree l).2 (nodeAt_lt h6), (hf.shape.inTree r).2 (nodeAt_lt h7)⟩

/-- C30, second half: every node except the root is the child of exactly one node, on one side only. -/
theorem C30_one_parent (t : Tree K G) (h : Fitted R mem A t) (id : Nat) (hid : InTree t id) (h0 : id ≠ 0) :
    ∃ p nd, InTree t p ∧ NodeAt t p nd ∧ (nd.left = some id ∧ nd.right ≠ some id ∨ nd.left ≠ some id ∧ nd.right = some id) ∧
      ∀ q nq, NodeAt t q nq → (nq.left = some id ∨ nq.right = some id) → q = p := by
  obtain ⟨dd, t0, hf⟩ := h.facts
  obtain ⟨p, nd, h1, h2, h3⟩ := hf.shape.parents id (by omega) ((hf.shape.inTree id).1 hid)
  refine ⟨p, nd, (hf.shape.inTree p).2 (nodeAt_lt h2), h2, ?_, fun q nq hq hc => hf.shape.uniq q p nq nd id hq h2 hc h3⟩
  rcases hf.shape.links _ _ h2 with ⟨a1, a2⟩ | ⟨l, r, nl, nr, a1, a2, _, _, a5, _⟩
  · rw [a1, a2] at h3
    rcases h3 with h3 | h3 <;> cases h3
  · rw [a1, a2] at h3 ⊢
    simp only [Option.some.injEq, ne_eq] at h3 ⊢
    omega

/-! ### C31 -/

/-- C31. After `fit` the root has depth 0, every child is one deeper than its parent, no node is deeper than `max_depth`, and
`get_depth()` is the largest depth of a node. (The attribute `depth` holds the same number, except that it stays at its initial
value 1 when `max_leaf_nodes = 1` keeps `fit` from entering the scan.) -/
theorem C31_depth (t : Tree K G) (h : Fitted R mem A t) :
    (∀ nd, NodeAt t 0 nd → nd.depth = 0) ∧
    (∀ id nd c cn, InTree t id → NodeAt t id nd → (nd.left = some c ∨ nd.right = some c) → NodeAt t c cn →
      cn.depth = nd.depth + 1) ∧
    (∀ d, A.cfg.maxDepth = .some d → ∀ id nd, InTree t id → NodeAt t id nd → nd.depth ≤ d) ∧
    (∃ D, getDepth t = .ok D ∧ (∃ id nd, InTree t id ∧ NodeAt t id nd ∧ nd.depth = D) ∧
      (∀ id nd, InTree t id → NodeAt t id nd → nd.depth ≤ D) ∧ (A.cfg.maxLeafNodes ≠ some 1 → t.depth = D)) := by
  obtain ⟨dd, t0, hf⟩ := h.facts
  refine ⟨?_, ?_, ?_, ?_⟩
  · intro nd hn
    obtain ⟨nd', h1, _, h3⟩ := hf.shape.root
    have := hn.symm.trans h1
    cases this
    exact h3
  · intro id nd c cn _ hn hc hcn
    rcases hf.shape.links _ _ hn with ⟨h1, h2⟩ | ⟨l, r, nl, nr, h1, h2, _, _, _, h6, h7, h8⟩
    · rw [h1, h2] at hc
      rcases hc with hc | hc <;> cases hc
    · rw [h1, h2] at hc
      rcases hc with hc | hc
      · cases hc
        have := hcn.symm.trans h6
        cases this
        exact h8.left_depth
      · cases hc
        have := hcn.symm.trans h7
        cases this
        exact h8.right_depth
  · intro d hd id nd _ hn
    exact hf.depth_le hd hn
  · have hne : t.leaves ≠ [] := by
      intro h0
      have := hf.shape.numLeaves
      rw [h0] at this
      simp at this
    have hex : ∃ D, getDepth t = .ok D := by
      unfold getDepth
      obtain ⟨x, xs, hx⟩ := List.exists_cons_of_ne_nil hne
      rw [hx]
      exact ⟨_, rfl⟩
    obtain ⟨D, hD⟩ := hex
    obtain ⟨h1, id, h2, h3⟩ := getDepth_spec hD
    refine ⟨D, hD, ?_, ?_, ?_⟩
    · obtain ⟨nd, hn, _⟩ := (hf.shape.leaves id).1 h2
      rw [hn] at h3
      exact ⟨id, nd, (hf.shape.inTree id).2 (nodeAt_lt hn), hn, h3⟩
    · intro id' nd' _ hn'
      obtain ⟨id2, nd2, a1, a2, a3⟩ := hf.shape.deep_leaf _ id' nd' (le_refl _) hn'
      have := h1 id2 a1
      rw [show t.nodes[id2]? = some nd2 from a2] at this
      exact le_trans a3 this
    · intro hml
      rcases h.depth with ⟨_, h4⟩ | h4
      · exact absurd h4 hml
      · rw [hD] at h4
        exact (Except.ok.inj h4).symm

example : ∃ t, Fitted rngQ exMem exArgs t ∧
    (decide (getDepth t = .ok 3) && (t.nodes.map Node.depth == [0, 1, 1, 2, 2, 3, 3]) && exArgs.rows.length == 6) = true :=
  runTree_exists (glob := exGlob) (by decide +kernel)

/-! ### C32 -/

/-- C32. With `max_leaf_nodes = m ≥ 1` the fitted tree has at most `m` leaves. The number of leaves is always one more than
`num_splits`, which is the number of nodes with children. -/
theorem C32_leaf_limit (t : Tree K G) (h : Fitted R mem A t) :
    (∀ m, A.cfg.maxLeafNodes = some m → 1 ≤ m → t.leaves.length ≤ m) ∧ t.leaves.length = t.numSplits + 1 ∧
    (t.nodes.countP (fun nd => nd.left.isSome)) = t.numSplits := by
  obtain ⟨dd, t0, hf⟩ := h.facts
  refine ⟨?_, hf.shape.numLeaves, ?_⟩
  · intro m hm h1
    obtain ⟨t1, glob1, glob', hg, hs⟩ := h.growing
    have hle := hg.leaves_le hm h1
    rcases fitStep_false hs with ⟨_, rfl, _⟩ | ⟨s, d, _, hscan, _, _, rfl, _⟩
    · exact hle
    · obtain ⟨k, _, hsc, _⟩ := scan_full hg.sim hscan
      rw [hsc.ok.leaves]
      exact hle
  · have e1 := hf.shape.numNodes
    have e2 := hf.shape.numLeaves
    have hcount : (t.nodes.countP (fun nd => nd.left.isNone)) = t.leaves.length := by
      have hp : t.leaves.Perm ((List.range t.nodes.length).filter
          (fun i => ((t.nodes[i]?).map (fun nd => nd.left.isNone)).getD false)) := by
        rw [List.perm_ext_iff_of_nodup hf.sim.nodup (List.nodup_range.filter _)]
        intro id
        rw [hf.shape.leaves, List.mem_filter, List.mem_range]
        constructor
        · rintro ⟨nd, h1, h2⟩
          refine ⟨nodeAt_lt h1, ?_⟩
          rw [h1]
          simp [h2]
        · rintro ⟨h1, h2⟩
          obtain ⟨nd, hn⟩ := nodeAt_of_lt h1
          rw [show t.nodes[id]? = some nd from hn] at h2
          exact ⟨nd, hn, by simpa using h2⟩
      rw [hp.length_eq, ← List.countP_eq_length_filter]
      exact countP_range t.nodes (fun nd => nd.left.isNone)
    have := List.length_eq_countP_add_countP (fun nd : Node K => nd.left.isNone) (l := t.nodes)
    have e3 : (t.nodes.countP (fun nd => nd.left.isSome)) = t.nodes.countP (fun nd => ¬ nd.left.isNone = true) := by
      apply List.countP_congr
      intro nd _
      cases nd.left <;> simp
    omega

/-- C32: at the head of the loop the test for too many leaves never raises if `m ≥ 1`. -/
theorem C32_no_exception (t : Tree K G) (glob : Glob G) (h : Growing R mem A t glob) (m : Nat)
    (hm : A.cfg.maxLeafNodes = some m) (h1 : 1 ≤ m) : t.leaves.length ≤ m ∧ ∃ b, leafLimit t.cfg.maxLeafNodes t.leaves.length = .ok b := by
  have hle := h.leaves_le hm h1
  refine ⟨hle, ?_⟩
  unfold leafLimit
  split
  · exact ⟨_, rfl⟩
  · rename_i m' hm'
    obtain ⟨dd, t0, hf⟩ := h.facts
    rw [hf.cfg_eq] at hm'
    simp only [hm] at hm'
    cases hm'
    by_cases h2 : t.leaves.length = m
    · exact ⟨true, by rw [if_pos h2]⟩
    · exact ⟨false, by rw [if_neg h2, if_neg (by omega)]⟩

/-- The limit of three leaves is reached. -/
example : ∃ t, Fitted rngQ exMem exArgsBoot t ∧
    decide (exArgsBoot.cfg.maxLeafNodes = some 3 ∧ t.leaves.length = 3) = true :=
  runTree_exists (glob := exGlob) (by decide +kernel)

/-! ### C33 -/

/-- C33. Every node that was split holds more than `min_samples_split` rows and rows with two different labels. -/
theorem C33_min_samples (t : Tree K G) (h : Fitted R mem A t) (id : Nat) (nd : Node K) (hn : NodeAt t id nd)
    (hs : nd.left ≠ none) :
    A.cfg.minSamplesSplit < nd.idcs.length ∧ ∃ i ∈ nd.idcs, ∃ j ∈ nd.idcs, A.labels.getD i 0 ≠ A.labels.getD j 0 := by
  obtain ⟨dd, t0, hf⟩ := h.facts
  have hok := hf.nodes _ _ hn
  have hcan := hf.canSplit_iff.1 (hok.solved (hok.split hs).1).can
  refine ⟨hcan.size, ?_⟩
  by_contra hcon
  push Not at hcon
  obtain ⟨a, b, hab⟩ : ∃ a b, a ∈ labelsOf A.labels nd.idcs ∧ b ∈ labelsOf A.labels nd.idcs ∧ a ≠ b := by
    have h1 := hcan.labels
    match hd : (labelsOf A.labels nd.idcs).dedup, h1 with
    | a :: b :: _, _ =>
      have hnd := List.nodup_dedup (labelsOf A.labels nd.idcs)
      rw [hd] at hnd
      refine ⟨a, b, ?_, ?_, ?_⟩
      · rw [← List.mem_dedup, hd]; simp
      · rw [← List.mem_dedup, hd]; simp
      · intro h
        rw [h] at hnd
        simp at hnd
  obtain ⟨ha, hb, hne⟩ := hab
  obtain ⟨i, hi, rfl⟩ := List.mem_map.1 ha
  obtain ⟨j, hj, rfl⟩ := List.mem_map.1 hb
  exact hne (hcon i hi j hj)

example : ∃ t, Fitted rngQ exMem exArgs t ∧
    (t.nodes.map (fun nd => (nd.left.isSome, nd.idcs.length)) == [(true, 6), (false, 2), (true, 4), (false, 2), (true, 2), (false, 1), (false, 1)]) = true :=
  runTree_exists (glob := exGlob) (by decide +kernel)

/-! ### C46, C47 -/

/-- C46. Every split is on a column given to the tree, and it separates the rows of the node by that column of the training data:
the left child holds the rows with a value of at most the threshold, the right child the others. -/
theorem C46_split_columns (t : Tree K G) (h : Fitted R mem A t) (id : Nat) (nd : Node K) (hn : NodeAt t id nd)
    (hs : nd.left ≠ none) :
    ∃ f l r, nd.splitFeature = some f ∧ f ∈ A.cols ∧ nd.left = some l ∧ nd.right = some r ∧
      (∀ i ∈ nd.idcs, i < A.data.length ∧ f < (A.data.getD i []).length) ∧
      rowsOf t l = nd.idcs.filter (fun i => decide ((A.data.getD i []).getD f 0 ≤ nd.splitValue)) ∧
      rowsOf t r = nd.idcs.filter (fun i => decide (nd.splitValue < (A.data.getD i []).getD f 0)) := by
  obtain ⟨dd, t0, hf⟩ := h.facts
  have hok := hf.nodes _ _ hn
  rcases hf.shape.links _ _ hn with ⟨h1, _⟩ | ⟨l, r, nl, nr, h1, h2, _, _, _, h6, h7, h8⟩
  · exact absurd h1 hs
  · obtain ⟨f, f1, f2, f3, f4⟩ := h8.feat
    refine ⟨f, l, r, f1, hok.feats_sub f f2, h1, h2, fun i hi => ⟨(hok.rows_lt i hi).1, (hok.rows_lt i hi).2 f f2⟩, ?_, ?_⟩
    · unfold rowsOf; rw [h6]; exact f3
    · unfold rowsOf; rw [h7]; exact f4

/-- C47. The proportion of a node is its share of the training rows. -/
theorem C47_proportion (t : Tree K G) (h : Fitted R mem A t) (hr : A.rows ≠ []) (id : Nat) (nd : Node K) (hn : NodeAt t id nd) :
    nd.proportion = ((rowsOf t id).length : K) / ((rowsOf t 0).length : K) := by
  obtain ⟨dd, t0, hf⟩ := h.facts
  have hok := hf.nodes _ _ hn
  obtain ⟨root, h1, h2, _⟩ := hf.shape.root
  unfold rowsOf
  rw [show t.nodes[id]? = some nd from hn, h1]
  simp only [Option.map_some, Option.getD_some, h2]
  exact hok.prop_eq (fun h0 => hr (List.length_eq_zero_iff.1 h0))

example : ∃ t, Fitted rngQ exMem exArgsBoot t ∧
    (t.nodes.map (fun nd => (nd.splitFeature, nd.splitValue, nd.proportion)) == [(some 0, 0, 1), (none, 0, 1 / 4), (some 0, 3, 3 / 4), (none, 0, 1 / 4), (none, 0, 1 / 2)]) = true :=
  runTree_exists (glob := exGlob) (by decide +kernel)

end

end FF
