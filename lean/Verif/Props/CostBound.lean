import Verif.Props.MabCost

/-!
# C142: training costs at most one query for each row, column and level

The rows of the nodes at one depth are disjoint, so a level of the tree costs no more than the root.
-/

namespace FF

open Spec

set_option linter.unusedSectionVars false

variable {K : Type} [Field K] [LinearOrder K] [IsStrictOrderedRing K] [FloorRing K] [NpFun K] {G : Type}

/-- A solver that looks at a row at most once for each feature: the exact one, or MABSplit without replacement. -/
def Thrifty (cfg : TreeCfg K) : Prop := cfg.solver = .exact ∨ cfg.solver = .mab ∧ cfg.withRep = false

section tree
variable {R : Rng K G} {mem : Nat → Junk K} {A : TreeArgs K} {t : Tree K G} {dd : DiscDict K} {t0 : Tree K G}

theorem GrowFacts.node_cost_rows (h : GrowFacts R mem A dd t0 t) (hA : ArgsOK A) (hsol : Thrifty A.cfg) {id : Nat} {nd : Node K}
    (hn : NodeAt t id nd) : nd.numQueries ≤ if nd.computed then nd.featIdcs.length * nd.idcs.length else 0 := by
  have hok := h.nodes _ _ hn
  split_ifs with hc
  swap
  · exact (hok.fresh ((Bool.not_eq_true _).mp hc)).2.2.1.le
  obtain ⟨r, ⟨g, glob, junk, budget, g', glob', hs⟩, _⟩ := h.says hn hc
  have hlen : (subRows A.data nd.idcs nd.featIdcs).length = nd.idcs.length := by simp [subRows]
  have hrow : ∀ row ∈ subRows A.data nd.idcs nd.featIdcs, row.length = nd.featIdcs.length := by
    intro row hr
    obtain ⟨i, _, rfl⟩ := List.mem_map.1 hr
    simp
  have hfl : ∀ (n : Nat) (p : Nat → Bool), ((List.range n).filter p).length ≤ n := fun n p =>
    (List.length_filter_le _ _).trans (by simp)
  unfold nodeSolve at hs
  rcases hsol with hsol | ⟨hsol, hrep⟩
  · rw [hsol] at hs
    simp only [] at hs
    split at hs
    · cases hs
    rename_i r' q' np hex
    simp only [Except.ok.injEq, Prod.mk.injEq] at hs
    obtain ⟨_, hq, _⟩ := hs
    cases hdata : subRows A.data nd.idcs nd.featIdcs with
    | nil =>
      have hne := (hok.solved hc).can.rows_ne
      rw [hdata] at hlen
      have := List.length_pos_iff.2 hne
      simp at hlen
      omega
    | cons row rest =>
      rw [hdata] at hex hlen hrow
      have hb : ∀ B, exactBins (row :: rest) A.cfg.binType nd.numBins = some B → BinningOK nd.minmax nd.discrete A.cfg.binType B := by
        intro B hB
        apply h.binning hA hn hc B
        unfold exactBins at hB
        split_ifs at hB with hid
        · exact Or.inl hid
        · exact Or.inr hB
      obtain ⟨_, hs', _, _, hnq⟩ := C16_exact_cost R _ _ _ row rest _ _ _ _ _ _ _ _ _ hA.crit hb hex
      rw [← hq, hnq, hlen, Nat.mul_comm]
      exact Nat.mul_le_mul_right _ ((hfl _ _).trans (hrow row List.mem_cons_self).le)
  · rw [hsol] at hs
    simp only [] at hs
    split at hs
    · cases hs
    rename_i out hout
    simp only [Except.ok.injEq, Prod.mk.injEq] at hs
    obtain ⟨_, hq, _⟩ := hs
    obtain ⟨row, rest, B, _, _, hdata, hB, _⟩ := solveMab_parts hout
    have hbin := h.binning hA hn hc B (Or.inr hB)
    rw [hdata] at hout hlen hrow
    rw [hB, hrep] at hout
    obtain ⟨hs', _, hle⟩ := C19_cost_bound R g glob junk row rest _ _ _ _ B _ _ _ _ _ out hA.crit hbin hout
    rw [← hq]
    refine hle.trans ?_
    rw [hlen, Nat.mul_comm]
    exact Nat.mul_le_mul_right _ ((hfl _ _).trans (hrow row List.mem_cons_self).le)

/-- Number of rows of node `id`. -/
def nodeSize (t : Tree K G) (id : Nat) : Nat := (rowsOf t id).length

theorem nodeSize_eq {id : Nat} {nd : Node K} (hn : NodeAt t id nd) : nodeSize t id = nd.idcs.length := by
  have : t.nodes[id]? = some nd := hn
  simp [nodeSize, rowsOf, this]

/-- The nodes at one depth have, together, at most as many rows as the root. -/
theorem TShape.level_rows {data : List (List K)} {rows : List Nat} (h : TShape data rows t) (k : Nat) :
    ∑ id ∈ depthSet t k, nodeSize t id ≤ rows.length := by
  obtain ⟨n0, r1, r2, r3⟩ := h.root
  have hup : ∀ (id : Nat) (nd : Node K), 0 < id → NodeAt t id nd → ∃ p np, NodeAt t p np ∧ nd.depth = np.depth + 1 ∧
      (np.left = some id ∨ np.right = some id) := by
    intro id nd h0 hn
    obtain ⟨p, np, _, h2, h3⟩ := h.parents id h0 (nodeAt_lt hn)
    refine ⟨p, np, h2, ?_, h3⟩
    rcases h.links _ _ h2 with ⟨a1, a2⟩ | ⟨l, r, nl, nr, a1, a2, _, _, _, a6, a7, a8⟩
    · rw [a1, a2] at h3
      rcases h3 with h3 | h3 <;> cases h3
    · rw [a1, a2] at h3
      rcases h3 with h3 | h3
      · cases h3
        have := hn.symm.trans a6
        cases this
        exact a8.left_depth
      · cases h3
        have := hn.symm.trans a7
        cases this
        exact a8.right_depth
  induction k with
  | zero =>
    have hsub : depthSet t 0 ⊆ {0} := by
      intro id hid
      obtain ⟨nd, h1, h2⟩ := mem_depthSet.1 hid
      rw [Finset.mem_singleton]
      by_contra hne
      obtain ⟨p, np, _, h3, _⟩ := hup id nd (by omega) h1
      omega
    refine (Finset.sum_le_sum_of_subset hsub).trans ?_
    rw [Finset.sum_singleton, nodeSize_eq r1, r2]
  | succ k ih =>
    have hsub : depthSet t (k + 1) ⊆
        ((depthSet t k).filter (fun id => ((t.nodes[id]?).bind Node.left).isSome = true)).image
          (fun id => ((t.nodes[id]?).bind Node.left).getD 0) ∪
        ((depthSet t k).filter (fun id => ((t.nodes[id]?).bind Node.left).isSome = true)).image
          (fun id => ((t.nodes[id]?).bind Node.right).getD 0) := by
      intro id hid
      obtain ⟨nd, h1, h2⟩ := mem_depthSet.1 hid
      have h0 : 0 < id := by
        by_contra hc
        have : id = 0 := by omega
        subst this
        have := h1.symm.trans r1
        cases this
        omega
      obtain ⟨p, np, h3, h4, h5⟩ := hup id nd h0 h1
      have h3' : t.nodes[p]? = some np := h3
      have hp : p ∈ (depthSet t k).filter (fun id => ((t.nodes[id]?).bind Node.left).isSome = true) := by
        rw [Finset.mem_filter]
        refine ⟨mem_depthSet.2 ⟨np, h3, by omega⟩, ?_⟩
        rw [h3']
        rcases h.links _ _ h3 with ⟨a1, a2⟩ | ⟨l, r, nl, nr, a1, _⟩
        · rw [a1, a2] at h5
          rcases h5 with h5 | h5 <;> cases h5
        · simp [a1]
      rw [Finset.mem_union, Finset.mem_image, Finset.mem_image]
      rcases h5 with h5 | h5
      · exact Or.inl ⟨p, hp, by rw [h3']; simp [h5]⟩
      · exact Or.inr ⟨p, hp, by rw [h3']; simp [h5]⟩
    refine (Finset.sum_le_sum_of_subset hsub).trans ?_
    have hun : ∀ s s' : Finset Nat, ∑ id ∈ s ∪ s', nodeSize t id ≤ ∑ id ∈ s, nodeSize t id + ∑ id ∈ s', nodeSize t id := by
      intro s s'
      have := Finset.sum_union_inter (s₁ := s) (s₂ := s') (f := nodeSize t)
      omega
    refine (hun _ _).trans ?_
    refine (Nat.add_le_add (Finset.sum_image_le_of_nonneg (fun _ _ => Nat.zero_le _))
      (Finset.sum_image_le_of_nonneg (fun _ _ => Nat.zero_le _))).trans ?_
    rw [← Finset.sum_add_distrib]
    refine le_trans ?_ ih
    refine le_trans (Finset.sum_le_sum (g := nodeSize t) ?_) (Finset.sum_le_sum_of_subset (Finset.filter_subset _ _))
    intro p hp
    obtain ⟨hp1, hp2⟩ := Finset.mem_filter.1 hp
    obtain ⟨np, h3, _⟩ := mem_depthSet.1 hp1
    have h3' : t.nodes[p]? = some np := h3
    rw [h3'] at hp2 ⊢
    rcases h.links _ _ h3 with ⟨a1, a2⟩ | ⟨l, r, nl, nr, a1, a2, _, _, _, a6, a7, a8⟩
    · simp [a1] at hp2
    · simp only [Option.bind_some, a1, a2, Option.getD_some]
      rw [nodeSize_eq a6, nodeSize_eq a7, nodeSize_eq h3]
      obtain ⟨f, _, _, e1, e2⟩ := a8.feat
      rw [e1, e2]
      have hp := (List.filter_append_perm (fun i => decide ((data.getD i []).getD f 0 ≤ np.splitValue)) np.idcs).length_eq
      rw [List.length_append] at hp
      have hc : np.idcs.filter (fun i => decide (np.splitValue < (data.getD i []).getD f 0)) =
          np.idcs.filter (fun i => !decide ((data.getD i []).getD f 0 ≤ np.splitValue)) := by
        apply List.filter_congr
        intro i _
        by_cases hx : (data.getD i []).getD f 0 ≤ np.splitValue
        · rw [decide_eq_true hx, decide_eq_false (not_lt.2 hx)]
          rfl
        · rw [decide_eq_false hx, decide_eq_true (not_le.1 hx)]
          rfl
      rw [hc]
      omega

theorem sum_nodes_eq (l : List (Node K)) (w : Node K → Nat) :
    (l.map w).sum = ∑ id ∈ Finset.range l.length, ((l[id]?).map w).getD 0 := by
  induction l using List.reverseRecOn with
  | nil => simp
  | append_singleton l nd ih =>
    rw [List.map_append, List.sum_append, ih, List.length_append, List.length_singleton, Finset.sum_range_succ]
    congr 1
    · apply Finset.sum_congr rfl
      intro id hid
      rw [List.getElem?_append_left (Finset.mem_range.1 hid)]
    · simp

/-- If every node that was searched is above depth `d`, the tree costs at most `d · columns · rows`. -/
theorem GrowFacts.cost_levels (h : GrowFacts R mem A dd t0 t) (hA : ArgsOK A) (hsol : Thrifty A.cfg) (d : Nat)
    (hd : ∀ (id : Nat) (nd : Node K), NodeAt t id nd → nd.computed = true → nd.depth < d) :
    (t.nodes.map Node.numQueries).sum ≤ d * (A.cols.length * A.rows.length) := by
  rw [sum_nodes_eq]
  have h1 : ∑ id ∈ Finset.range t.nodes.length, ((t.nodes[id]?).map Node.numQueries).getD 0 ≤
      ∑ k ∈ Finset.range d, ∑ id ∈ depthSet t k, A.cols.length * nodeSize t id := by
    rw [← Finset.sum_biUnion]
    · rw [← Finset.sum_filter_add_sum_filter_not (Finset.range t.nodes.length)
        (fun id => ((t.nodes[id]?).any (fun nd : Node K => nd.computed)) = true)]
      have hz : ∑ id ∈ (Finset.range t.nodes.length).filter (fun id => ¬ ((t.nodes[id]?).any (fun nd : Node K => nd.computed)) = true),
          ((t.nodes[id]?).map Node.numQueries).getD 0 = 0 := by
        apply Finset.sum_eq_zero
        intro id hid
        obtain ⟨hid1, hid2⟩ := Finset.mem_filter.1 hid
        obtain ⟨nd, hn⟩ := nodeAt_of_lt (Finset.mem_range.1 hid1)
        have hn' : t.nodes[id]? = some nd := hn
        rw [hn'] at hid2 ⊢
        have hc : nd.computed = false := by simpa using hid2
        have := h.node_cost_rows hA hsol hn
        rw [hc] at this
        simpa using this
      rw [hz, Nat.add_zero]
      refine le_trans (Finset.sum_le_sum (g := fun id => A.cols.length * nodeSize t id) ?_) (Finset.sum_le_sum_of_subset ?_)
      · intro id hid
        obtain ⟨hid1, hid2⟩ := Finset.mem_filter.1 hid
        obtain ⟨nd, hn⟩ := nodeAt_of_lt (Finset.mem_range.1 hid1)
        have hn' : t.nodes[id]? = some nd := hn
        rw [nodeSize_eq hn]
        rw [hn'] at hid2 ⊢
        have hc : nd.computed = true := by simpa using hid2
        have := h.node_cost_rows hA hsol hn
        rw [if_pos hc] at this
        exact this.trans (Nat.mul_le_mul_right _ (h.nodes _ _ hn).feats_num.le)
      · intro id hid
        obtain ⟨hid1, hid2⟩ := Finset.mem_filter.1 hid
        obtain ⟨nd, hn⟩ := nodeAt_of_lt (Finset.mem_range.1 hid1)
        have hn' : t.nodes[id]? = some nd := hn
        rw [hn'] at hid2
        have hc : nd.computed = true := by simpa using hid2
        exact Finset.mem_biUnion.2 ⟨nd.depth, Finset.mem_range.2 (hd id nd hn hc), mem_depthSet.2 ⟨nd, hn, rfl⟩⟩
    · intro k _ k' _ hne
      rw [Function.onFun, Finset.disjoint_left]
      intro id a1 a2
      obtain ⟨nd, b1, b2⟩ := mem_depthSet.1 a1
      obtain ⟨nd', b3, b4⟩ := mem_depthSet.1 a2
      have := b1.symm.trans b3
      cases this
      exact hne (b2.symm.trans b4)
  refine h1.trans ?_
  refine (Finset.sum_le_card_nsmul _ _ (A.cols.length * A.rows.length) ?_).trans (by simp)
  intro k _
  rw [← Finset.mul_sum]
  exact Nat.mul_le_mul_left _ (h.shape.level_rows k)

/-- C142. Exact solver, or MABSplit without replacement: a tree costs at most one query for each training row, each column and each level
above `max_depth`. -/
theorem C142_depth (R : Rng K G) (mem : Nat → Junk K) (A : TreeArgs K) (t : Tree K G) (h : Fitted R mem A t) (hA : ArgsOK A)
    (hsol : Thrifty A.cfg) (d : Nat) (hd : A.cfg.maxDepth = .some d) : t.numQueries ≤ d * (A.cols.length * A.rows.length) := by
  obtain ⟨hq, _, _⟩ := C41_query_accounting R mem A t h
  obtain ⟨dd, t0, hf⟩ := h.facts
  rw [hq]
  apply hf.cost_levels hA hsol d
  intro id nd hn hc
  have hcan := ((hf.nodes _ _ hn).solved hc).can.depth
  rw [hf.cfg_eq] at hcan
  rcases hcan with hcan | ⟨d', h3, h4⟩
  · simp only [hd] at hcan
    cases hcan
  · simp only [hd] at h3
    cases h3
    exact h4

/-- C142 for any limits: the levels are those of the tree that was grown. -/
theorem C142_levels (R : Rng K G) (mem : Nat → Junk K) (A : TreeArgs K) (t : Tree K G) (h : Fitted R mem A t) (hA : ArgsOK A)
    (hsol : Thrifty A.cfg) (d : Nat) (hd : ∀ (id : Nat) (nd : Node K), NodeAt t id nd → nd.depth ≤ d) :
    t.numQueries ≤ (d + 1) * (A.cols.length * A.rows.length) := by
  obtain ⟨hq, _, _⟩ := C41_query_accounting R mem A t h
  obtain ⟨dd, t0, hf⟩ := h.facts
  rw [hq]
  exact hf.cost_levels hA hsol (d + 1) (fun id nd hn _ => Nat.lt_succ_of_le (hd id nd hn))

end tree

/-! ### Forests -/

theorem forest_cost_rows {R : Rng K G} {mem : Nat → Nat → Junk K} {f f' : Forest K G}
    {w w' : World K G} {data : Option (List (List K))} {labels : Option Nat} (i1 : SetsOnly f.discrete)
    (i2 : f.cfg.precompMinmax = false → f.minmax = none) {cfg : ForestCfg K} (hcfg : f.cfg = cfg)
    (hf : Forest.fit R mem f w data labels = .ok (f', w')) (hsol : cfg.solver = .exact ∨ cfg.solver = .mab ∧ cfg.withRep = false)
    (hbins : cfg.binType = some .linear ∨ cfg.binType = none → cfg.useLog = false → cfg.numBins ≠ some 1)
    (haN : cfg.alphaN ≤ 1) (haF : cfg.alphaF ≤ 1) (d : Nat) (hd : cfg.maxDepth = .some d) :
    f'.numQueries ≤ f.numQueries +
      cfg.nEstimators * (d * (((trainData f data).getD 0 []).length * (trainData f data).length)) := by
  have hcfg' : f'.cfg = cfg := (Forest_fit_same hf).1.trans hcfg
  obtain ⟨hq, _, hlen, _⟩ := Forest_fit_accounting hf
  obtain ⟨ms, _, hne, hm⟩ := Forest_fit_made hf
  have hset : SetsOnly f'.discrete ∧ f'.minmax = (if cfg.precompMinmax then
      some (colMinMax (trainData f data) ((trainData f data).getD 0 []).length) else f.minmax) := by
    obtain ⟨dat, f0, w0, hs, hl⟩ := Forest_fit_start hf
    obtain ⟨l, hr⟩ := forestLoop_run hl
    have hdat := hs.dat_eq
    rw [hr.same, hs.eq]
    refine ⟨setsOnly_maybe i1 hs.disc, ?_⟩
    simp only []
    rw [hcfg, hdat]
  rw [hq]
  apply Nat.add_le_add_left
  have hcard : ∀ (l : List Nat) (n : Nat), l.Nodup → (∀ i ∈ l, i < n) → l.length ≤ n := by
    intro l n h1 h2
    have : l.toFinset ⊆ Finset.range n := fun x hx => Finset.mem_range.2 (h2 x (List.mem_toFinset.1 hx))
    have := Finset.card_le_card this
    rw [List.toFinset_card_of_nodup h1, Finset.card_range] at this
    exact this
  have hall : ∀ q ∈ f'.trees.map Tree.numQueries,
      q ≤ d * (((trainData f data).getD 0 []).length * (trainData f data).length) := by
    intro q hq'
    obtain ⟨t, ht, rfl⟩ := List.mem_map.1 hq'
    obtain ⟨i, hi⟩ := List.mem_iff_getElem?.1 ht
    obtain ⟨m, _, h2, _⟩ := hm i t hi
    obtain ⟨rows0, rows, cols, g, g1, g2, a1, a2, a3, a4⟩ := h2.draw
    rw [hcfg'] at a1 a2
    obtain ⟨b1, b2⟩ := subsets_ok haN haF a1
    have b3 := bootstrapIdcs_ok b1 a2
    have hrl : m.args.rows.length ≤ (trainData f data).length := by
      unfold TreeArgs.rows
      rw [a3]
      obtain ⟨sub, c1, c2⟩ := b3
      split_ifs at c2
      · exact c2.1.le
      · subst c2
        exact hcard _ _ c1.distinct c1.range
    have hcl : m.args.cols.length ≤ ((trainData f data).getD 0 []).length := by
      unfold TreeArgs.cols
      rw [a4]
      exact hcard _ _ b2.distinct b2.range
    have hmmx : ∀ mins maxs, m.args.cfg.minmax = some (mins, maxs) →
        (mins, maxs) = colMinMax (trainData f data) ((trainData f data).getD 0 []).length := by
      intro mins maxs h
      rw [h2.cfg] at h
      change f'.minmax = _ at h
      rw [hset.2] at h
      split_ifs at h with hp
      · exact (Option.some.inj h).symm
      · rw [i2 (by rw [hcfg]; simpa using hp)] at h
        cases h
    have hA : ArgsOK m.args := by
      refine ⟨?_, ?_, ?_, ?_, ?_⟩
      · rw [h2.cfg]
        unfold Forest.treeCfg CritFits
        simp only []
        cases f'.cfg.isCls <;> simp
      · intro mins maxs hmm j lo hi hlo hhi
        exact (colMinMax_le hne (hmmx _ _ hmm).symm j hlo hhi).1
      · intro j u hu hset'
        rw [h2.disc] at hu
        rw [hset.1 j u hu] at hset'
        cases hset'
      · intro hl hu
        rw [h2.cfg] at hl hu ⊢
        change f'.cfg.binType = _ at hl
        change f'.cfg.useLog = false at hu
        change f'.cfg.numBins ≠ some 1
        rw [hcfg'] at hl hu ⊢
        exact hbins (Or.inl hl) hu
      · intro hn
        rw [h2.cfg] at hn
        change f'.cfg.binType = none at hn
        rw [hcfg'] at hn
        refine ⟨?_, ?_⟩
        · intro hu
          rw [h2.cfg] at hu ⊢
          change f'.cfg.useLog = false at hu
          change f'.cfg.numBins ≠ some 1
          rw [hcfg'] at hu ⊢
          exact hbins (Or.inr hn) hu
        · intro j u hu hset'
          rw [h2.disc] at hu
          rw [hset.1 j u hu] at hset'
          cases hset'
    have e1 : Thrifty m.args.cfg := by
      rw [h2.cfg]
      change f'.cfg.solver = _ ∨ f'.cfg.solver = _ ∧ f'.cfg.withRep = _
      rw [hcfg']
      exact hsol
    have e4 : m.args.cfg.maxDepth = .some d := by rw [h2.cfg]; change f'.cfg.maxDepth = _; rw [hcfg', hd]
    obtain ⟨ns, he⟩ := h2.after.same
    rw [he]
    refine (C142_depth R _ m.args m.tree h2.fitted hA e1 d e4).trans ?_
    exact Nat.mul_le_mul_left _ (Nat.mul_le_mul hcl hrl)
  have hsum := List.sum_le_card_nsmul _ _ hall
  rw [List.length_map, smul_eq_mul] at hsum
  rw [hcfg] at hlen
  exact hsum.trans (Nat.mul_le_mul_right _ hlen)

/-- C142 for forests. One `fit` with the exact solver, or MABSplit without replacement, and `max_depth = d`, from any state of the object:
the number of queries grows by at most `n_estimators · d · columns · rows`. -/
theorem C142_forest (R : Rng K G) (mem : Nat → Nat → Junk K) (cfg : ForestCfg K) (budget : Option Int) (f f' : Forest K G)
    (w w' : World K G) (data : Option (List (List K))) (labels : Option Nat) (hobj : ForestObj R cfg budget f)
    (hf : Forest.fit R mem f w data labels = .ok (f', w')) (hsol : cfg.solver = .exact ∨ cfg.solver = .mab ∧ cfg.withRep = false)
    (hbins : cfg.binType = some .linear ∨ cfg.binType = none → cfg.useLog = false → cfg.numBins ≠ some 1)
    (haN : cfg.alphaN ≤ 1) (haF : cfg.alphaF ≤ 1) (d : Nat) (hd : cfg.maxDepth = .some d) :
    f'.numQueries ≤ f.numQueries +
      cfg.nEstimators * (d * (((trainData f data).getD 0 []).length * (trainData f data).length)) := by
  obtain ⟨i1, i2, _⟩ := hobj.facts2
  have hcfg := hobj.facts.1
  exact forest_cost_rows i1 i2 hcfg hf hsol hbins haN haF d hd

/-! ### Examples -/

/-- What the trees of the examples cost (exact solver, regression, MABSplit without replacement), and the cost of one level; all of them
have `max_depth = 3`. -/
example : ([exArgs, exArgsReg, exArgsMab].all (fun A => decide (A.cols.length * A.rows.length = 12)) &&
    [exArgs, exArgsReg, exArgsMab].map (fun A => ((runTree rngQ exMem A exGlob).toOption.map Tree.numQueries).getD 0) == [24, 30, 20]) = true := by
  decide +kernel

/-- A forest of two trees of depth at most 3, on 6 rows with 2 columns. -/
example : ((runForest rngQ exMems exWorld fcfgQ exData 0 none).toOption.any (fun p => decide (p.1.numQueries = 34))) = true := by
  decide +kernel

end FF
