import Verif.Proofs.Cart

/-!
# Properties C101 and C102: the exact solver grows the textbook greedy tree
-/

namespace FF

open Spec

set_option linter.unusedSectionVars false

variable {K : Type} [Field K] [LinearOrder K] [IsStrictOrderedRing K] [FloorRing K] [NpFun K] {G G' : Type}

/-- Arguments for which a tree has no choice: the exact solver looks at every column in every node, with one threshold per value
(IDENTITY) or evenly spaced ones (LINEAR), and there is no budget. -/
structure NoChoice (A : TreeArgs K) : Prop where
  args : ArgsOK A
  solver : A.cfg.solver = .exact
  binning : A.cfg.binType = some .identity ∨ A.cfg.binType = some .linear
  features : A.cfg.featSub = .none
  budget : A.budget = none
  depth : A.cfg.maxDepth ≠ .none

section
variable {R : Rng K G} {mem : Nat → Junk K} {A : TreeArgs K} {dd : DiscDict K} {t0 t : Tree K G}

theorem maySplit_iff (hd : A.cfg.maxDepth ≠ .none) (nd : Node K) : A.problem.MaySplit nd.depth nd.idcs ↔ CanSplit A.cfg A.labels nd := by
  have hlab : (∃ i ∈ nd.idcs, ∃ j ∈ nd.idcs, A.problem.label i ≠ A.problem.label j) ↔ 1 < (labelsOf A.labels nd.idcs).dedup.length := by
    constructor
    · rintro ⟨i, hi, j, hj, hne⟩
      by_contra hle
      have hi' : A.labels.getD i 0 ∈ (labelsOf A.labels nd.idcs).dedup := List.mem_dedup.2 (List.mem_map.2 ⟨i, hi, rfl⟩)
      have hj' : A.labels.getD j 0 ∈ (labelsOf A.labels nd.idcs).dedup := List.mem_dedup.2 (List.mem_map.2 ⟨j, hj, rfl⟩)
      generalize (labelsOf A.labels nd.idcs).dedup = l at hle hi' hj'
      match l with
      | [] => cases hi'
      | [a] =>
        rw [List.mem_singleton] at hi' hj'
        exact hne (hi'.trans hj'.symm)
      | a :: b :: l => simp at hle
    · intro hlt
      have hnd := List.nodup_dedup (labelsOf A.labels nd.idcs)
      have hsub : ∀ y ∈ (labelsOf A.labels nd.idcs).dedup, ∃ i ∈ nd.idcs, A.labels.getD i 0 = y := by
        intro y hy
        exact List.mem_map.1 (List.mem_dedup.1 hy)
      generalize (labelsOf A.labels nd.idcs).dedup = l at hlt hnd hsub
      match l with
      | [] => simp at hlt
      | [a] => simp at hlt
      | a :: b :: l =>
        obtain ⟨i, hi, e1⟩ := hsub a (by simp)
        obtain ⟨j, hj, e2⟩ := hsub b (by simp)
        refine ⟨i, hi, j, hj, ?_⟩
        show A.labels.getD i 0 ≠ A.labels.getD j 0
        rw [e1, e2]
        rintro rfl
        simp at hnd
  constructor
  · rintro ⟨h1, h2, h3⟩
    refine ⟨?_, h2, hlab.1 h3⟩
    cases hm : A.cfg.maxDepth with
    | none => exact absurd hm hd
    | inf => exact Or.inl rfl
    | some d => exact Or.inr ⟨d, rfl, h1 d (by simp [TreeArgs.problem, hm])⟩
  · rintro ⟨h1, h2, h3⟩
    refine ⟨?_, h2, hlab.2 h3⟩
    intro d hdd
    rcases h1 with h1 | ⟨d', h1, h4⟩
    · simp [TreeArgs.problem, h1] at hdd
    · simp [TreeArgs.problem, h1] at hdd
      omega

theorem enough_iff {nd : Node K} {s : K} (hs : s < 0) (hlab : A.labels ≠ []) :
    EnoughDecrease A.cfg A.labels.length nd ((XF.fin s).mul (.fin ((nd.idcs.length : K) / (A.rows.length : K)))) ↔
      A.problem.Worth nd.idcs s := by
  have hN : ((A.labels.length : Nat) : K) ≠ 0 := by
    have := List.length_pos_iff.2 hlab
    exact_mod_cast this.ne'
  unfold EnoughDecrease xnat
  simp only [XF.mul, XF.div, if_neg hN, XF.lt, decide_eq_true_eq]
  exact ⟨fun h => ⟨hs, h.2, h.1⟩, fun h => ⟨h.twice, h.once⟩⟩

theorem GrowFacts.labels_ne (h : GrowFacts R mem A dd t0 t) {id : Nat} {nd : Node K} (hn : NodeAt t id nd) (hne : nd.idcs ≠ []) :
    A.labels ≠ [] := by
  obtain ⟨i, is, hi⟩ := List.exists_cons_of_ne_nil hne
  have := (h.nodes _ _ hn).labels_lt i (by rw [hi]; simp)
  rintro e
  rw [e] at this
  simp at this

theorem GrowFacts.rows_pos (h : GrowFacts R mem A dd t0 t) {id : Nat} {nd : Node K} (hn : NodeAt t id nd) (hne : nd.idcs ≠ []) :
    A.rows.length ≠ 0 := by
  have h3 := (h.rows_sublist hn).length_le
  have h4 := List.length_pos_iff.2 hne
  omega

/-- A node that was split was split at the first of the best candidates, and that was worth it; with a budget or without. -/
theorem GrowFacts.split_first_best (h : GrowFacts R mem A dd t0 t) (hargs : ArgsOK A) (hs : A.cfg.solver = .exact)
    (hbin : A.cfg.binType = some .identity ∨ A.cfg.binType = some .linear) (hfeat : A.cfg.featSub = .none) (hd : A.cfg.maxDepth ≠ .none) {id : Nat} {nd : Node K} (hn : NodeAt t id nd)
    (hl : nd.left ≠ none) : ∃ f, nd.splitFeature = some f ∧ A.problem.MaySplit nd.depth nd.idcs ∧
      A.problem.FirstBest nd.idcs (f, nd.splitValue) ∧ A.problem.Worth nd.idcs (A.problem.score nd.idcs (f, nd.splitValue)) := by
  have hok := h.nodes _ _ hn
  obtain ⟨hc, hsp, hne, red, hr1, hr2, hr3⟩ := hok.split hl
  obtain ⟨r, hsay, hrec, _⟩ := h.says hn hc
  cases r with
  | none =>
    rw [hrec.1] at hr1
    cases hr1
  | some s =>
    obtain ⟨e1, _, e3, e4⟩ := hrec
    obtain ⟨hb, hred, hneg⟩ := (h.solver_best hargs hbin hs hfeat hn hc hsay).1 s rfl
    have hcan := h.canSplit_iff.1 (hok.solved hc).can
    refine ⟨_, e4, (maySplit_iff hd nd).2 hcan, by rw [e3]; exact hb, ?_⟩
    rw [e3, ← enough_iff hneg (h.labels_ne hn hne)]
    have hsplit := (hok.solved hc).splittable
    rw [hsp] at hsplit
    unfold splittableImpurity at hsplit
    rw [hr1] at hsplit
    rw [hred, hok.prop_eq (h.rows_pos hn hne)] at e1
    rw [e1] at hr1
    cases hr1
    rw [h.cfg_eq] at hr3 hsplit
    rw [hok.nData_eq] at hsplit
    exact ⟨(Option.some.inj hsplit).symm, hr3⟩

theorem GrowFacts.split_best (h : GrowFacts R mem A dd t0 t) (hA : NoChoice A) {id : Nat} {nd : Node K} (hn : NodeAt t id nd)
    (hl : nd.left ≠ none) : ∃ f, nd.splitFeature = some f ∧ A.problem.MaySplit nd.depth nd.idcs ∧
      A.problem.FirstBest nd.idcs (f, nd.splitValue) ∧ A.problem.Worth nd.idcs (A.problem.score nd.idcs (f, nd.splitValue)) :=
  h.split_first_best hA.args hA.solver hA.binning hA.features hA.depth hn hl

/-- What is known about a leaf that will not be split: the limits forbid it, or the solver found no split that is worth it. -/
def LeafDone (R : Rng K G) (A : TreeArgs K) (nd : Node K) : Prop :=
  ¬ CanSplit A.cfg A.labels nd ∨ nd.computed = true ∧ ∃ r q, SolverSays R A nd r q ∧ Recorded nd r ∧ ∀ s, r = some s →
    ¬ EnoughDecrease A.cfg A.labels.length nd (s.red.mul (.fin ((nd.idcs.length : K) / (A.rows.length : K))))

/-- A leaf of a finished tree was not worth splitting. -/
theorem GrowFacts.leaf_final (h : GrowFacts R mem A dd t0 t) (hf : ∀ (id : Nat) (nd : Node K), IsLeaf t id → NodeAt t id nd → LeafDone R A nd)
    (hA : NoChoice A) {id : Nat} {nd : Node K} (hn : NodeAt t id nd) (hl : nd.left = none)
    (hmay : A.problem.MaySplit nd.depth nd.idcs) (c : Nat × K) (hb : A.problem.FirstBest nd.idcs c) :
    ¬ A.problem.Worth nd.idcs (A.problem.score nd.idcs c) := by
  have hleaf : IsLeaf t id := (h.shape.isLeaf id).1 ((h.shape.leaves id).2 ⟨nd, hn, hl⟩)
  rcases hf id nd hleaf hn with h1 | ⟨hc, r, q, hsay, hrec, hno⟩
  · exact absurd ((maySplit_iff hA.depth nd).1 hmay) h1
  · intro hw
    obtain ⟨h2, h3⟩ := h.solver_best hA.args hA.binning hA.solver hA.features hn hc hsay
    cases r with
    | none =>
      obtain ⟨a, b, e, _⟩ := hb
      have := h3 rfl c (by rw [e]; simp)
      exact absurd hw.neg (not_lt.2 this)
    | some s =>
      obtain ⟨hb', hred, hneg⟩ := h2 s rfl
      obtain rfl := hb.unique hb'
      apply hno s rfl
      rw [hred]
      have hne : nd.idcs ≠ [] := by
        intro e
        have := hmay.size
        rw [e] at this
        simp at this
      exact (enough_iff hneg (h.labels_ne hn hne)).2 hw

theorem GrowFacts.isCart (h : GrowFacts R mem A dd t0 t) (hf : ∀ (id : Nat) (nd : Node K), IsLeaf t id → NodeAt t id nd → LeafDone R A nd)
    (hA : NoChoice A) : ∀ (k id : Nat) (nd : Node K), t.nodes.length - id ≤ k → NodeAt t id nd →
      ∃ D, ReadsAs t id D ∧ A.problem.IsCart nd.depth nd.idcs D := by
  intro k
  induction k with
  | zero =>
    intro id nd hk hn
    have := nodeAt_lt hn
    omega
  | succ k ih =>
    intro id nd hk hn
    have hlt := nodeAt_lt hn
    rcases h.shape.links _ _ hn with ⟨h1, h2⟩ | ⟨l, r, nl, nr, h1, h2, h3, h4, _, h6, h7, h8⟩
    · exact ⟨_, .leaf hn h1 h2, .leaf fun hmay c hb => h.leaf_final hf hA hn h1 hmay c hb⟩
    · obtain ⟨f, hf1, hmay, hb, hw⟩ := h.split_best hA hn (by rw [h1]; simp)
      obtain ⟨f', hf2, _, e1, e2⟩ := h8.feat
      rw [hf1] at hf2
      cases hf2
      obtain ⟨y, hy1, hy2⟩ := ih l nl (by omega) h6
      obtain ⟨n, hn1, hn2⟩ := ih r nr (by omega) h7
      rw [h8.left_depth, e1] at hy2
      rw [h8.right_depth, e2] at hn2
      exact ⟨_, .node hn h1 h2 hf1 hy1 hn1, .node hmay hb hw hy2 hn2⟩

theorem ReadsAs.rowsAt {id leaf : Nat} {D : DTree K} (h : ReadsAs t id D) {x : List K} (hr : Routes t x id leaf) :
    D.rowsAt x = rowsOf t leaf := by
  induction h generalizing leaf with
  | leaf hn hl hr' =>
    cases hr with
    | stop hn' _ _ =>
      unfold rowsOf
      rw [hn]
      rfl
    | left hn' hl' _ _ _ _ =>
      obtain rfl := Option.some.inj (hn.symm.trans hn')
      rw [hl] at hl'
      cases hl'
    | right hn' hr'' _ _ _ _ =>
      obtain rfl := Option.some.inj (hn.symm.trans hn')
      rw [hr'] at hr''
      cases hr''
  | node hn hl hr' hf _ _ ihy ihn =>
    cases hr with
    | stop hn' hl' _ =>
      obtain rfl := Option.some.inj (hn.symm.trans hn')
      rw [hl] at hl'
      cases hl'
    | left hn' hl' hf' hx hv h =>
      obtain rfl := Option.some.inj (hn.symm.trans hn')
      rw [hl] at hl'
      rw [hf] at hf'
      cases hl'
      cases hf'
      unfold DTree.rowsAt
      rw [hx]
      simp only [if_pos hv]
      exact ihy h
    | right hn' hr'' hf' hx hv h =>
      obtain rfl := Option.some.inj (hn.symm.trans hn')
      rw [hr'] at hr''
      rw [hf] at hf'
      cases hr''
      cases hf'
      unfold DTree.rowsAt
      rw [hx]
      simp only [if_neg (not_le.2 hv)]
      exact ihn h

/-- The answer of a leaf depends only on the rows in it. -/
theorem nodePred_rows {R' : Rng K G'} {mem' : Nat → Junk K} {A' : TreeArgs K} {dd' : DiscDict K} {t0' t' : Tree K G'}
    (h : GrowFacts R mem A dd t0 t) (h' : GrowFacts R' mem' A' dd' t0' t') (e1 : A'.cfg.isCls = A.cfg.isCls)
    (e2 : A'.cfg.classes = A.cfg.classes) (e3 : A'.labels = A.labels) {id id' : Nat} {nd nd' : Node K} (hn : NodeAt t id nd)
    (hn' : NodeAt t' id' nd') (hl : nd.left = none) (hl' : nd'.left = none) (hi : nd'.idcs = nd.idcs) :
    nodePred t'.cfg nd' = nodePred t.cfg nd := by
  have hok := h.nodes _ _ hn
  have hok' := h'.nodes _ _ hn'
  have hc : t.cfg.isCls = A.cfg.isCls := by rw [h.cfg_eq]
  have hc' : t'.cfg.isCls = A.cfg.isCls := by rw [h'.cfg_eq]; exact e1
  have hd : t.cfg.classes = A.cfg.classes := by rw [h.cfg_eq]
  have hd' : t'.cfg.classes = A.cfg.classes := by rw [h'.cfg_eq]; exact e2
  unfold nodePred
  rw [hok.open_labels hl, hok'.open_labels hl', e3, hi, hc, hc', hd, hd']
  cases hcl : A.cfg.isCls with
  | false => rfl
  | true =>
    have h1 := hok.counts_cls (by rw [hc]; exact hcl)
    have h2 := hok'.counts_cls (by rw [hc']; exact hcl)
    rw [e3, hi, hd', ← hd, h1] at h2
    rw [Except.ok.inj h2]

end

/-! ### C101 -/

/-- C101. A tree fitted by the exact solver on all columns, without a budget and with fewer leaves than `max_leaf_nodes` allows, is the
textbook greedy tree of its training set: starting with all training rows, a node is split if the limits allow it and the first of the
best candidate splits is worth it, and its two halves are treated in the same way. -/
theorem C101_greedy_tree (R : Rng K G) (mem : Nat → Junk K) (A : TreeArgs K) (hA : NoChoice A) (t : Tree K G) (h : Fitted R mem A t)
    (hm : A.cfg.maxLeafNodes ≠ some t.leaves.length) :
    ∃ D, ReadsAs t 0 D ∧ A.problem.IsCart 0 A.rows D ∧ ∀ D', A.problem.IsCart 0 A.rows D' → D' = D := by
  obtain ⟨dd, t0, hf⟩ := h.facts
  obtain ⟨root, h1, h2, h3⟩ := hf.shape.root
  obtain ⟨D, e1, e2⟩ := hf.isCart (fun id nd hl hn => leaf_done R mem A h hA.budget hm id hl nd hn) hA t.nodes.length 0 root (by omega) h1
  rw [h2, h3] at e2
  exact ⟨D, e1, e2, fun D' h' => h'.unique e2⟩

/-- C101, what the tree answers: the mean of the targets, or the class frequencies and the first most frequent class, of the training rows
in the leaf of the textbook tree where the point ends. -/
theorem C101_answers (R : Rng K G) (mem : Nat → Junk K) (A : TreeArgs K) (hA : NoChoice A) (t t1 t2 : Tree K G) (h : Fitted R mem A t)
    (hm : A.cfg.maxLeafNodes ≠ some t.leaves.length) (hd : A.cfg.isCls = true → ClassesOK A.cfg.classes) (D : DTree K)
    (hD : A.problem.IsCart 0 A.rows D) (ha : AfterPredicts t t1) (x : List K) (p : Pred K) (hp : t1.predict x = .ok (p, t2)) :
    (A.cfg.isCls = false → p = .reg (mean (labelsOf A.labels (D.rowsAt x)))) ∧
    (A.cfg.isCls = true → ∃ label i, p = .cls label (A.cfg.classes.map (fun c => freq (labelsOf A.labels (D.rowsAt x)) c.1)) ∧
      A.cfg.classes[i]? = some (label, i) ∧ ∀ (j : Nat) (c : K × Nat), A.cfg.classes[j]? = some c →
        freq (labelsOf A.labels (D.rowsAt x)) c.1 ≤ freq (labelsOf A.labels (D.rowsAt x)) label ∧
        (j < i → freq (labelsOf A.labels (D.rowsAt x)) c.1 < freq (labelsOf A.labels (D.rowsAt x)) label)) := by
  obtain ⟨D0, hr, hc, hu⟩ := C101_greedy_tree R mem A hA t h hm
  obtain rfl := hu D hD
  constructor
  · intro hcl
    obtain ⟨leaf, v, _, e2, _, e4, e5, _⟩ := C37_leaf_mean R mem A t t1 t2 h hcl ha x p hp
    rw [e4, e5, hr.rowsAt e2]
  · intro hcl
    obtain ⟨leaf, ys, label, probs, i, _, e2, e3, e4, e5, _, _, _, e9, e10⟩ := C36_leaf_frequencies R mem A t t1 t2 h hcl (hd hcl) ha x p hp
    rw [hr.rowsAt e2, ← e3]
    exact ⟨label, i, by rw [e4, e5], e9, e10⟩

/-- C101, no randomness: two such trees that were given the same training set and limits answer alike, whatever their generators, their
seeds, the order in which their nodes were split and the content of uninitialised memory. -/
theorem C101_no_randomness (R : Rng K G) (R' : Rng K G') (mem mem' : Nat → Junk K) (A : TreeArgs K) (seed : Nat) (hA : NoChoice A)
    (t : Tree K G) (t' : Tree K G') (h : Fitted R mem A t) (h' : Fitted R' mem' { A with seed := seed } t')
    (hm : A.cfg.maxLeafNodes ≠ some t.leaves.length) (hm' : A.cfg.maxLeafNodes ≠ some t'.leaves.length)
    (hd : A.cfg.isCls = true → ClassesOK A.cfg.classes) (hrows : A.rows ≠ []) (x : List K) (hx : ∀ f ∈ A.cols, f < x.length) :
    ∃ p t2 t2', t.predict x = .ok (p, t2) ∧ t'.predict x = .ok (p, t2') := by
  have hA' : NoChoice { A with seed := seed } :=
    ⟨⟨hA.args.crit, hA.args.minmax_le, hA.args.sorted, hA.args.linear_bins, hA.args.auto_bins⟩, hA.solver, hA.binning, hA.features,
      hA.budget, hA.depth⟩
  obtain ⟨D, hr, hc, _⟩ := C101_greedy_tree R mem A hA t h hm
  obtain ⟨D', hr', hc', _⟩ := C101_greedy_tree R' mem' _ hA' t' h' hm'
  obtain rfl : D' = D := CartProblem.IsCart.unique hc' hc
  obtain ⟨p, t2, hp⟩ := C36_predict_total R mem A t t h hd hrows .none x hx
  obtain ⟨p', t2', hp'⟩ := C36_predict_total R' mem' _ t' t' h' hd hrows .none x hx
  obtain ⟨leaf, nd, _, a2, a3, a4, a5, a6⟩ := h.predict_parts .none hp
  obtain ⟨leaf', nd', _, b2, b3, b4, b5, b6⟩ := h'.predict_parts .none hp'
  obtain ⟨dd, t0, hf⟩ := h.facts
  obtain ⟨dd', t0', hf'⟩ := h'.facts
  have e : nd'.idcs = nd.idcs := by rw [← a5, ← b5, ← hr.rowsAt a2, ← hr'.rowsAt b2]
  have := nodePred_rows hf hf' rfl rfl rfl a3 b3 a4 b4 e
  rw [a6, b6] at this
  cases this
  exact ⟨p, t2, t2', hp, hp'⟩

/-! ### C102 -/

/-- The arguments `A'` are the arguments `A` with weaker limits (`max_depth`, `min_samples_split`, `min_impurity_decrease`). -/
structure WeakerLimits (A A' : TreeArgs K) : Prop where
  same : A' = { A with seed := A'.seed, cfg := { A.cfg with maxDepth := A'.cfg.maxDepth, minSamplesSplit := A'.cfg.minSamplesSplit
                                                            minImpDec := A'.cfg.minImpDec } }
  maxDepth : A'.cfg.maxDepth = .inf ∨ ∃ d d', A.cfg.maxDepth = .some d ∧ A'.cfg.maxDepth = .some d' ∧ d ≤ d'
  minSamples : A'.cfg.minSamplesSplit ≤ A.cfg.minSamplesSplit
  minDecrease : A.cfg.minImpDec ≤ A'.cfg.minImpDec

/-- C102. With the exact solver on all columns, weaker limits only refine the tree: all questions of the tree grown under the stronger
limits are asked, at the same places, in the tree grown under the weaker ones. -/
theorem C102_limits_refine (R : Rng K G) (R' : Rng K G') (mem mem' : Nat → Junk K) (A A' : TreeArgs K) (hA : NoChoice A)
    (hw : WeakerLimits A A') (t : Tree K G) (t' : Tree K G') (h : Fitted R mem A t) (h' : Fitted R' mem' A' t')
    (hm : A.cfg.maxLeafNodes ≠ some t.leaves.length) (hm' : A.cfg.maxLeafNodes ≠ some t'.leaves.length) :
    ∃ D D', ReadsAs t 0 D ∧ ReadsAs t' 0 D' ∧ D'.Refines D := by
  have hs := hw.same
  have hA' : NoChoice A' := by
    rw [hs]
    refine ⟨⟨hA.args.crit, hA.args.minmax_le, hA.args.sorted, hA.args.linear_bins, hA.args.auto_bins⟩, hA.solver, hA.binning,
      hA.features, hA.budget, ?_⟩
    show A'.cfg.maxDepth ≠ .none
    rcases hw.maxDepth with e | ⟨_, d', _, e, _⟩
    · rw [e]; simp
    · rw [e]; simp
  obtain ⟨D, hr, hc, _⟩ := C101_greedy_tree R mem A hA t h hm
  obtain ⟨D', hr', hc', _⟩ := C101_greedy_tree R' mem' A' hA' t' h' (by rw [hs]; exact hm')
  refine ⟨D, D', hr, hr', ?_⟩
  have hrel : CartProblem.Relaxed A.problem A'.problem := by
    refine ⟨?_, ?_, ?_, ?_, ?_, ?_, ?_, ?_, hw.minSamples, hw.minDecrease⟩
    · rw [hs]; rfl
    · rw [hs]; rfl
    · rw [hs]; rfl
    · rw [hs]; rfl
    · rw [hs]; rfl
    · rw [hs]; rfl
    · rw [hs]; rfl
    · intro d' hd'
      rcases hw.maxDepth with e | ⟨d, d'', e1, e2, hle⟩
      · simp [TreeArgs.problem, e] at hd'
      · simp [TreeArgs.problem, e2] at hd'
        exact ⟨d, by simp [TreeArgs.problem, e1], by omega⟩
  have : A'.rows = A.rows := by rw [hs]; rfl
  rw [this] at hc'
  exact hrel.refines hc hc'

/-! ### Examples -/

theorem exArgs_noChoice : NoChoice exArgs :=
  ⟨exArgs_ok, rfl, Or.inl rfl, rfl, rfl, by simp [exArgs, cfgQ]⟩

/-- Reading off a tree, for examples. -/
def readTree (t : Tree ℚ Nat) : Nat → Nat → DTree ℚ
  | 0, _ => .leaf []
  | fuel + 1, id =>
    match t.nodes[id]? with
    | none => .leaf []
    | some nd =>
      match nd.left, nd.right with
      | some l, some r => .node (nd.splitFeature.getD 0) nd.splitValue (readTree t fuel l) (readTree t fuel r)
      | _, _ => .leaf nd.idcs

/-- The hypotheses of C101 hold in the example; the tree asks three questions. -/
example : ∃ t, Fitted rngQ exMem exArgs t ∧ (decide (exArgs.cfg.maxLeafNodes ≠ some t.leaves.length) &&
    readTree t 9 0 == .node 0 1 (.leaf [0, 1]) (.node 0 3 (.leaf [2, 3]) (.node 0 4 (.leaf [4]) (.leaf [5])))) = true :=
  runTree_exists (glob := exGlob) (by decide +kernel)

/-- Regression on a bootstrap sample of the rows. -/
def exArgsRegBoot : TreeArgs ℚ := { exArgsReg with idcs := some [3, 0, 5, 5, 0, 2, 4, 4] }

theorem exArgsRegBoot_noChoice : NoChoice exArgsRegBoot :=
  ⟨⟨rfl, fun _ _ h => (by cases h), fun _ _ h => (by cases h), fun h => (by cases h), fun h => by cases h⟩, rfl, Or.inl rfl, rfl, rfl,
    by simp [exArgsRegBoot, exArgsReg, exArgs, cfgQr, cfgQ]⟩

example : ∃ t, Fitted rngQ exMem exArgsRegBoot t ∧ (decide (exArgsRegBoot.cfg.maxLeafNodes ≠ some t.leaves.length) &&
    readTree t 9 0 == .node 1 2 (.node 0 0 (.leaf [0, 0]) (.node 0 4 (.leaf [4, 4]) (.leaf [5, 5]))) (.node 0 2 (.leaf [2]) (.leaf [3]))) = true :=
  runTree_exists (glob := exGlob) (by decide +kernel)

/-- LINEAR bins. -/
def exArgsLin : TreeArgs ℚ := { exArgs with cfg := { cfgQ with binType := some .linear, numBins := some 4 } }

theorem exArgsLin_noChoice : NoChoice exArgsLin :=
  ⟨⟨by simp [CritFits, exArgsLin, cfgQ], fun _ _ h => (by cases h), fun _ _ h => (by cases h), fun _ _ h => (by cases h), fun h => by cases h⟩,
    rfl, Or.inr rfl, rfl, rfl, by simp [exArgsLin, cfgQ]⟩

example : ∃ t, Fitted rngQ exMem exArgsLin t ∧ (decide (exArgsLin.cfg.maxLeafNodes ≠ some t.leaves.length) &&
    readTree t 9 0 == .node 0 (5 / 3) (.leaf [0, 1]) (.node 0 3 (.leaf [2, 3]) (.node 0 4 (.leaf [4]) (.leaf [5])))) = true :=
  runTree_exists (glob := exGlob) (by decide +kernel)

/-- Weaker limits: depth 1 and no limit. -/
example : WeakerLimits { exArgs with cfg := { exArgs.cfg with maxDepth := .some 1 } } { exArgs with seed := 5, cfg := { exArgs.cfg with maxDepth := .inf } } :=
  ⟨rfl, Or.inl rfl, le_refl _, le_refl _⟩

example : ∃ t, Fitted rngQ exMem { exArgs with cfg := { exArgs.cfg with maxDepth := .some 1 } } t ∧
    (readTree t 9 0 == .node 0 1 (.leaf [0, 1]) (.leaf [2, 3, 4, 5])) = true :=
  runTree_exists (glob := exGlob) (by decide +kernel)

example : ∃ t, Fitted rngQ exMem { exArgs with seed := 5, cfg := { exArgs.cfg with maxDepth := .inf } } t ∧
    (readTree t 9 0 == .node 0 1 (.leaf [0, 1]) (.node 0 3 (.leaf [2, 3]) (.node 0 4 (.leaf [4]) (.leaf [5])))) = true :=
  runTree_exists (glob := exGlob) (by decide +kernel)

end FF
