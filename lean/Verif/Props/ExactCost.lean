import Verif.Spec.ExactCost
import Verif.Props.Size
import Verif.Props.Huge

/-!
# What training with the exact solver costs (C161)
-/

namespace Spec

variable {K : Type} [Field K] [LinearOrder K] {P P' : CartProblem K}

namespace CartProblem

theorem Costs.unique {d : Nat} {rows : List Nat} {D : DTree K} {m n : Nat} (h : P.Costs d rows D m) (h' : P.Costs d rows D n) : m = n := by
  induction h generalizing n with
  | closed h =>
    cases h' with
    | closed => rfl
    | searched h1 => exact absurd h1 h
  | searched h =>
    cases h' with
    | closed h1 => exact absurd h h1
    | searched => rfl
  | node _ _ ihy ihn =>
    cases h' with
    | node hy hn => rw [ihy hy, ihn hn]

section
variable {k : Nat}

theorem RowCopies.maySplit (hP : KTimes k P P') (hk : k ≠ 0) {d : Nat} {r r' : List Nat} (hS : RowCopies k P P' r r') :
    P'.MaySplit d r' ↔ P.MaySplit d r := by
  have hmem : ∀ y, y ∈ r'.map P'.label ↔ y ∈ r.map P.label := by
    intro y
    have := (hS.map (fun s => s.2)).mem_iff (a := y)
    rw [mem_copies hk] at this
    exact this
  have hmix : (∃ i ∈ r', ∃ j ∈ r', P'.label i ≠ P'.label j) ↔ ∃ i ∈ r, ∃ j ∈ r, P.label i ≠ P.label j := by
    constructor
    · rintro ⟨i, hi, j, hj, hne⟩
      obtain ⟨i', hi', ei⟩ := List.mem_map.1 ((hmem _).1 (List.mem_map.2 ⟨i, hi, rfl⟩))
      obtain ⟨j', hj', ej⟩ := List.mem_map.1 ((hmem _).1 (List.mem_map.2 ⟨j, hj, rfl⟩))
      exact ⟨i', hi', j', hj', by rw [ei, ej]; exact hne⟩
    · rintro ⟨i, hi, j, hj, hne⟩
      obtain ⟨i', hi', ei⟩ := List.mem_map.1 ((hmem _).2 (List.mem_map.2 ⟨i, hi, rfl⟩))
      obtain ⟨j', hj', ej⟩ := List.mem_map.1 ((hmem _).2 (List.mem_map.2 ⟨j, hj, rfl⟩))
      exact ⟨i', hi', j', hj', by rw [ei, ej]; exact hne⟩
  have htwo : (∃ i ∈ r, ∃ j ∈ r, P.label i ≠ P.label j) → 2 ≤ r.length := by
    rintro ⟨i, hi, j, hj, hne⟩
    match r, hi, hj with
    | [a], hi, hj =>
      rw [List.mem_singleton] at hi hj
      rw [hi, hj] at hne
      exact absurd rfl hne
    | _ :: _ :: _, _, _ => simp
  constructor
  · rintro ⟨a, b, c⟩
    refine ⟨fun d hd => a d (by rw [hP.maxDepth]; exact hd), ?_, hmix.1 c⟩
    rw [hS.length] at b
    exact (hP.minSamples _ (htwo (hmix.1 c))).1 b
  · rintro ⟨a, b, c⟩
    refine ⟨fun d hd => a d (by rw [← hP.maxDepth]; exact hd), ?_, hmix.2 c⟩
    rw [hS.length]
    exact (hP.minSamples _ (htwo c)).2 b

theorem RowCopies.searchCost (hP : KTimes k P P') {r r' : List Nat} (hS : RowCopies k P P' r r') :
    P'.searchCost r' = k * P.searchCost r := by
  unfold CartProblem.searchCost
  rw [hS.length, hP.cols, Nat.mul_assoc]
  congr 3
  apply List.filter_congr
  intro f hf
  rw [hP.grid f hf _ _ (hS.map (fun s => s.1 f))]

/-- The tree with the same questions on `k` copies of every row costs `k` times as much. -/
theorem Costs.copies (hP : KTimes k P P') (hk : k ≠ 0) {d : Nat} {rows : List Nat} {D : DTree K} {n : Nat} (h : P.Costs d rows D n) :
    ∀ {rows' : List Nat} {D' : DTree K}, RowCopies k P P' rows rows' → D.SameQuestions D' → P'.Costs d rows' D' (k * n) := by
  induction h with
  | closed h =>
    intro rows' D' hS hq
    cases hq
    exact .closed (fun hc => h ((hS.maySplit hP hk).1 hc))
  | searched h =>
    intro rows' D' hS hq
    cases hq
    rw [← hS.searchCost hP]
    exact .searched ((hS.maySplit hP hk).2 h)
  | @node depth rows f v yes no a b _ _ ihy ihn =>
    intro rows' D' hS hq
    cases hq with
    | node _ _ hqy hqn =>
      rw [Nat.mul_add, Nat.mul_add, ← hS.searchCost hP]
      exact .node (ihy (hS.filter (fun s => decide (s.1 f ≤ v))) hqy) (ihn (hS.filter (fun s => decide (v < s.1 f))) hqn)

end

theorem Alike.costs (hP : P.Alike P') {d : Nat} {rows : List Nat} {D : DTree K} {n : Nat} (h : P.Costs d rows D n) : P'.Costs d rows D n := by
  have hmay : ∀ d rows, P'.MaySplit d rows ↔ P.MaySplit d rows := by
    intro d rows
    constructor
    · rintro ⟨a, b, c⟩
      rw [hP.maxDepth] at a
      rw [hP.minSamples] at b
      rw [hP.label] at c
      exact ⟨a, b, c⟩
    · rintro ⟨a, b, c⟩
      rw [← hP.maxDepth] at a
      rw [← hP.minSamples] at b
      rw [← hP.label] at c
      exact ⟨a, b, c⟩
  have hcost : ∀ rows, P'.searchCost rows = P.searchCost rows := by
    intro rows
    unfold CartProblem.searchCost
    rw [hP.cols, hP.value]
    congr 2
    exact List.filter_congr (fun f hf => by rw [hP.grid f hf])
  induction h with
  | closed h => exact .closed (fun hc => h ((hmay _ _).1 hc))
  | @searched d rows l h =>
    rw [← hcost]
    exact .searched ((hmay _ _).2 h)
  | node _ _ ihy ihn =>
    rw [← hcost]
    rw [← hP.value] at ihy ihn
    exact .node ihy ihn

end CartProblem

end Spec

namespace FF

open Spec

set_option linter.unusedSectionVars false

variable {K : Type} [Field K] [LinearOrder K] [IsStrictOrderedRing K] [FloorRing K] [NpFun K] {G G' : Type}

/-! ### Sums over the nodes of a tree -/

section shape
variable {data : List (List K)} {rows : List Nat} {t : Tree K G}

theorem TShape.child_lt (h : TShape data rows t) {p c : Nat} {pn : Node K} (hp : t.nodes[p]? = some pn)
    (hc : pn.left = some c ∨ pn.right = some c) : p < c := by
  rcases h.links p pn hp with ⟨a1, a2⟩ | ⟨a, b, na, nb, a1, a2, a3, a4, _⟩
  · rw [a1, a2] at hc
    rcases hc with hc | hc <;> cases hc
  · rw [a1, a2] at hc
    rcases hc with hc | hc <;> (cases hc; assumption)

theorem Under.le (h : TShape data rows t) {a c : Nat} (hu : Under t a c) : a ≤ c := by
  induction hu with
  | self => exact le_refl _
  | left hn hl _ ih => exact (h.child_lt hn (Or.inl hl)).le.trans ih
  | right hn hl _ ih => exact (h.child_lt hn (Or.inr hl)).le.trans ih

theorem Under.parent {a c : Nat} (hu : Under t a c) :
    a = c ∨ ∃ (p : Nat) (pn : Node K), t.nodes[p]? = some pn ∧ (pn.left = some c ∨ pn.right = some c) ∧ Under t a p := by
  induction hu with
  | self => exact Or.inl rfl
  | left hn hl _ ih =>
    right
    rcases ih with rfl | ⟨p, pn, h1, h2, h3⟩
    · exact ⟨_, _, hn, Or.inl hl, .self⟩
    · exact ⟨p, pn, h1, h2, .left hn hl h3⟩
  | right hn hl _ ih =>
    right
    rcases ih with rfl | ⟨p, pn, h1, h2, h3⟩
    · exact ⟨_, _, hn, Or.inr hl, .self⟩
    · exact ⟨p, pn, h1, h2, .right hn hl h3⟩

/-- Nothing is below both children of a node. -/
theorem TShape.under_disjoint (h : TShape data rows t) {id l r : Nat} {nd : Node K} (hn : t.nodes[id]? = some nd) (hl : nd.left = some l)
    (hr : nd.right = some r) (hne : l ≠ r) : ∀ c, Under t l c → Under t r c → False := by
  intro c
  induction c using Nat.strong_induction_on with
  | _ c ih =>
    intro h1 h2
    rcases h1.parent with rfl | ⟨p, pn, a1, a2, a3⟩
    · rcases h2.parent with rfl | ⟨q, qn, b1, b2, b3⟩
      · exact hne rfl
      · obtain rfl := h.uniq q id qn nd l b1 hn b2 (Or.inl hl)
        have := b3.le h
        have := h.child_lt hn (Or.inr hr)
        omega
    · rcases h2.parent with rfl | ⟨q, qn, b1, b2, b3⟩
      · obtain rfl := h.uniq p id pn nd r a1 hn a2 (Or.inr hr)
        have := a3.le h
        have := h.child_lt hn (Or.inl hl)
        omega
      · obtain rfl := h.uniq p q pn qn c a1 b1 a2 b2
        exact ih p (h.child_lt a1 a2) a3 b3

open Classical in
/-- The sum of `w` over the nodes from `id` downwards. -/
noncomputable def underSum (t : Tree K G) (w : Node K → Nat) (id : Nat) : Nat :=
  ∑ c ∈ (Finset.range t.nodes.length).filter (Under t id), ((t.nodes[c]?).map w).getD 0

theorem TShape.underSum_root (h : TShape data rows t) (w : Node K → Nat) : underSum t w 0 = (t.nodes.map w).sum := by
  classical
  rw [sum_nodes_eq]
  unfold underSum
  rw [Finset.filter_true_of_mem]
  intro c hc
  exact under_root ((h.inTree c).2 (Finset.mem_range.1 hc))

theorem underSum_leaf (w : Node K → Nat) {id : Nat} {nd : Node K} (hn : t.nodes[id]? = some nd)
    (hl : nd.left = none) (hr : nd.right = none) : underSum t w id = w nd := by
  classical
  unfold underSum
  have : (Finset.range t.nodes.length).filter (Under t id) = {id} := by
    ext c
    rw [Finset.mem_filter, Finset.mem_singleton, Finset.mem_range]
    constructor
    · rintro ⟨_, hu⟩
      cases hu with
      | self => rfl
      | left hn' hl' _ =>
        rw [hn] at hn'
        obtain rfl := Option.some.inj hn'
        rw [hl] at hl'
        cases hl'
      | right hn' hl' _ =>
        rw [hn] at hn'
        obtain rfl := Option.some.inj hn'
        rw [hr] at hl'
        cases hl'
    · rintro rfl
      exact ⟨(List.getElem?_eq_some_iff.1 hn).1, .self⟩
  rw [this, Finset.sum_singleton, hn]
  rfl

theorem TShape.underSum_node (h : TShape data rows t) (w : Node K → Nat) {id l r : Nat} {nd : Node K} (hn : t.nodes[id]? = some nd)
    (hl : nd.left = some l) (hr : nd.right = some r) (hne : l ≠ r) : underSum t w id = w nd + underSum t w l + underSum t w r := by
  classical
  unfold underSum
  have e : (Finset.range t.nodes.length).filter (Under t id) =
      insert id ((Finset.range t.nodes.length).filter (Under t l) ∪ (Finset.range t.nodes.length).filter (Under t r)) := by
    ext c
    simp only [Finset.mem_filter, Finset.mem_insert, Finset.mem_union, Finset.mem_range]
    constructor
    · rintro ⟨hc, hu⟩
      cases hu with
      | self => exact Or.inl rfl
      | left hn' hl' hu' =>
        rw [hn] at hn'
        obtain rfl := Option.some.inj hn'
        rw [hl] at hl'
        obtain rfl := Option.some.inj hl'
        exact Or.inr (Or.inl ⟨hc, hu'⟩)
      | right hn' hl' hu' =>
        rw [hn] at hn'
        obtain rfl := Option.some.inj hn'
        rw [hr] at hl'
        obtain rfl := Option.some.inj hl'
        exact Or.inr (Or.inr ⟨hc, hu'⟩)
    · rintro (rfl | ⟨hc, hu⟩ | ⟨hc, hu⟩)
      · exact ⟨(List.getElem?_eq_some_iff.1 hn).1, .self⟩
      · exact ⟨hc, .left hn hl hu⟩
      · exact ⟨hc, .right hn hr hu⟩
  rw [e, Finset.sum_insert, Finset.sum_union, hn, Nat.add_assoc]
  · rfl
  · rw [Finset.disjoint_left]
    intro c h1 h2
    exact h.under_disjoint hn hl hr hne c (Finset.mem_filter.1 h1).2 (Finset.mem_filter.1 h2).2
  · intro hc
    have h1 := h.child_lt hn (Or.inl hl)
    have h2 := h.child_lt hn (Or.inr hr)
    rcases Finset.mem_union.1 hc with hc | hc
    · have := (Finset.mem_filter.1 hc).2.le h
      omega
    · have := (Finset.mem_filter.1 hc).2.le h
      omega

end shape

/-! ### The cost of a node -/

theorem filter_range_getD (l : List Nat) (p : Nat → Bool) :
    ((List.range l.length).filter (fun j => p (l.getD j 0))).length = (l.filter p).length := by
  have e : l = (List.range l.length).map (fun j => l.getD j 0) := by
    apply List.ext_getElem
    · simp
    · intro i h1 h2
      rw [List.getElem_map, List.getElem_range, List.getD_eq_getElem _ _ h1]
  conv_rhs => rw [e, List.filter_map, List.length_map]
  rfl

section tree
variable {R : Rng K G} {mem : Nat → Junk K} {A : TreeArgs K} {t : Tree K G} {dd : DiscDict K} {t0 : Tree K G}

theorem GrowFacts.node_cost_exact (h : GrowFacts R mem A dd t0 t) (hA : NoChoice A) {id : Nat} {nd : Node K} (hn : NodeAt t id nd) :
    nd.numQueries = if nd.computed then A.problem.searchCost nd.idcs else 0 := by
  have hok := h.nodes _ _ hn
  split_ifs with hc
  swap
  · exact (hok.fresh ((Bool.not_eq_true _).mp hc)).2.2.1
  have hcols : nd.featIdcs = A.cols := hok.feats_num.all (by rw [h.cfg_eq]; exact hA.features)
  obtain ⟨r, ⟨g, glob, junk, budget, g', glob', hs⟩, _⟩ := h.says hn hc
  have hne := (hok.solved hc).can.rows_ne
  unfold nodeSolve at hs
  rw [hA.solver] at hs
  simp only [] at hs
  split at hs
  · cases hs
  rename_i r' q' np hex
  simp only [Except.ok.injEq, Prod.mk.injEq] at hs
  obtain ⟨_, hq, _⟩ := hs
  obtain ⟨i, is, hi⟩ := List.exists_cons_of_ne_nil hne
  have hbin : ∀ B, exactBins (subRows A.data nd.idcs nd.featIdcs) A.cfg.binType nd.numBins = some B →
      BinningOK nd.minmax nd.discrete A.cfg.binType B := by
    intro B hB
    refine h.binning hA.args hn hc B ?_
    unfold exactBins at hB
    split_ifs at hB with hi
    · exact Or.inl hi
    · exact Or.inr hB
  have hsub : subRows A.data nd.idcs nd.featIdcs =
      nd.featIdcs.map (fun j => (A.data.getD i []).getD j 0) :: subRows A.data is nd.featIdcs := by rw [hi]; rfl
  have hgrid : ∀ (B : Nat) (hs : Hists K G), exactBins (subRows A.data nd.idcs nd.featIdcs) A.cfg.binType nd.numBins = some B →
      makeHistograms R glob.np A.cfg.isCls (subRows A.data nd.idcs nd.featIdcs) (labelsOf A.labels nd.idcs) nd.minmax nd.discrete
        A.cfg.binType B = .ok hs → ∀ j f, nd.featIdcs[j]? = some f →
      edgesOf hs.hists j = A.problem.grid f (nd.idcs.map (fun i => A.problem.value i f)) :=
    fun B hs hB hmake j f hj => (h.edges_grid hA.args hA.binning hn hc hB hmake hj).1
  rw [hsub] at hex hbin hgrid
  obtain ⟨B, hs, hB, hmake, hcost⟩ := C16_exact_cost R _ _ _ _ _ _ _ _ _ _ _ _ _ _ hA.args.crit hbin hex
  rw [← hq, hcost]
  unfold CartProblem.searchCost
  have hlen : (nd.featIdcs.map (fun j => (A.data.getD i []).getD j 0) :: subRows A.data is nd.featIdcs).length = nd.idcs.length := by
    rw [← hsub]; simp [subRows]
  rw [hlen, List.length_map]
  congr 1
  have hp : A.problem.cols = nd.featIdcs := hcols.symm
  rw [hp, ← filter_range_getD nd.featIdcs]
  congr 1
  apply List.filter_congr
  intro j hj
  have hj' := List.mem_range.1 hj
  rw [hgrid B hs hB hmake j _ (List.getElem?_eq_getElem hj'), List.getD_eq_getElem _ _ hj']

theorem GrowFacts.costs (h : GrowFacts R mem A dd t0 t) (hf : ∀ (id : Nat) (nd : Node K), IsLeaf t id → NodeAt t id nd → LeafDone R A nd)
    (hA : NoChoice A) : ∀ (id : Nat) (D : DTree K), ReadsAs t id D → ∀ nd, NodeAt t id nd →
      A.problem.Costs nd.depth nd.idcs D (underSum t Node.numQueries id) := by
  intro id D hr
  induction hr with
  | @leaf id nd hn hl hrt =>
    intro nd' hn'
    obtain rfl := Option.some.inj (hn.symm.trans hn')
    rw [underSum_leaf _ hn hl hrt, h.node_cost_exact hA hn]
    have hok := h.nodes _ _ hn
    have hleaf : IsLeaf t id := (h.shape.isLeaf id).1 ((h.shape.leaves id).2 ⟨nd, hn, hl⟩)
    split_ifs with hc
    · exact .searched ((maySplit_iff hA.depth nd).2 (h.canSplit_iff.1 (hok.solved hc).can))
    · rcases hf id nd hleaf hn with h1 | ⟨h1, _⟩
      · exact .closed (fun hm => h1 ((maySplit_iff hA.depth nd).1 hm))
      · exact absurd h1 hc
  | @node id l r f nd y n hn hl hrt hsf _ _ ihy ihn =>
    intro nd' hn'
    obtain rfl := Option.some.inj (hn.symm.trans hn')
    rcases h.shape.links _ _ hn with ⟨h1, _⟩ | ⟨l', r', nl, nr, h1, h2, _, _, h5, h6, h7, h8⟩
    · rw [hl] at h1; cases h1
    rw [hl] at h1
    rw [hrt] at h2
    cases h1
    cases h2
    have hok := h.nodes _ _ hn
    rw [h.shape.underSum_node _ hn hl hrt h5, h.node_cost_exact hA hn, if_pos (hok.split (by rw [hl]; simp)).1]
    obtain ⟨f', hf2, _, e1, e2⟩ := h8.feat
    rw [hsf] at hf2
    cases hf2
    have hy := ihy nl h6
    have hno := ihn nr h7
    rw [h8.left_depth, e1] at hy
    rw [h8.right_depth, e2] at hno
    exact .node hy hno

end tree

/-! ### C161 -/

/-- **C161**. A tree fitted by the exact solver on all columns, without a budget and with fewer leaves than `max_leaf_nodes` allows, costs
what growing the textbook greedy tree costs: every node that the limits allow to split is searched once, at the price of one query for
each of its rows and each feature with a threshold there. -/
theorem C161_cost (R : Rng K G) (mem : Nat → Junk K) (A : TreeArgs K) (hA : NoChoice A) (t : Tree K G) (h : Fitted R mem A t)
    (hm : A.cfg.maxLeafNodes ≠ some t.leaves.length) (D : DTree K) (hD : A.problem.IsCart 0 A.rows D) :
    A.problem.Costs 0 A.rows D t.numQueries ∧ ∀ n, A.problem.Costs 0 A.rows D n → n = t.numQueries := by
  obtain ⟨D0, hr, _, hu⟩ := C101_greedy_tree R mem A hA t h hm
  obtain rfl := hu D hD
  obtain ⟨hq, _, _⟩ := C41_query_accounting R mem A t h
  obtain ⟨dd, t0, hf⟩ := h.facts
  obtain ⟨root, h1, h2, h3⟩ := hf.shape.root
  have := hf.costs (fun id nd hl hn => leaf_done R mem A h hA.budget hm id hl nd hn) hA 0 D hr root h1
  rw [h2, h3, hf.shape.underSum_root, ← hq] at this
  exact ⟨this, fun n hn => hn.unique this⟩

/-- **C161** (no randomness). Two such trees with the same training set and limits cost the same, whatever their generators, seeds, the order
in which their nodes were split and the content of uninitialised memory. -/
theorem C161_same (R : Rng K G) (R' : Rng K G') (mem mem' : Nat → Junk K) (A : TreeArgs K) (seed : Nat) (hA : NoChoice A)
    (t : Tree K G) (t' : Tree K G') (h : Fitted R mem A t) (h' : Fitted R' mem' { A with seed := seed } t')
    (hm : A.cfg.maxLeafNodes ≠ some t.leaves.length) (hm' : A.cfg.maxLeafNodes ≠ some t'.leaves.length) :
    t'.numQueries = t.numQueries := by
  have hA' : NoChoice { A with seed := seed } :=
    ⟨⟨hA.args.crit, hA.args.minmax_le, hA.args.sorted, hA.args.linear_bins, hA.args.auto_bins⟩, hA.solver, hA.binning, hA.features,
      hA.budget, hA.depth⟩
  obtain ⟨D, _, hc, _⟩ := C101_greedy_tree R mem A hA t h hm
  have h1 := (C161_cost R mem A hA t h hm D hc).1
  have h2 := (C161_cost R' mem' _ hA' t' h' hm' D hc).1
  exact h2.unique h1

/-- **C161** (unbinned). With one threshold per value every feature has a threshold, so that a search costs one query for each row and
each column. -/
theorem C161_unbinned (A : TreeArgs K) (hb : A.cfg.binType = some .identity) (rows : List Nat) (hr : rows ≠ []) :
    A.problem.searchCost rows = rows.length * A.cols.length := by
  unfold CartProblem.searchCost
  congr 2
  apply List.filter_eq_self.2
  intro f _
  have hg : A.problem.grid f (rows.map (fun i => A.problem.value i f)) = valueGrid (rows.map (fun i => A.problem.value i f)) := by
    show gridOf A.cfg f _ = _
    unfold gridOf
    rw [hb]
  obtain ⟨i, hi⟩ := List.exists_mem_of_ne_nil _ hr
  have hmem : A.problem.value i f ∈ valueGrid (rows.map (fun i => A.problem.value i f)) := mem_valueGrid.2 (List.mem_map.2 ⟨i, hi, rfl⟩)
  rw [hg]
  cases hv : valueGrid (rows.map (fun i => A.problem.value i f)) with
  | nil => rw [hv] at hmem; cases hmem
  | cons => rfl

/-- **C161** (copies). Repeating every training row `k` times, in any order, makes the exact solver `k` times as expensive, if the limit on
the number of rows of a node treats `n` rows and their `k·n` copies alike. -/
theorem C161_copies (R : Rng K G) (R' : Rng K G') (mem mem' : Nat → Junk K) (A : TreeArgs K) (hA : NoChoice A)
    (hlog : A.cfg.useLog = false ∨ A.cfg.binType = some .identity) (hall : A.idcs = none) (F : Nat)
    (hrect : ∀ row ∈ A.data, row.length = F) (hlen : A.data.length = A.labels.length) (k : Nat) (hk : 1 ≤ k)
    (data' : List (List K)) (labels' : List K) (hlen' : data'.length = labels'.length)
    (hperm : (data'.zip labels').Perm (copies k (A.data.zip A.labels))) (ms seed : Nat)
    (hms : ∀ n, 2 ≤ n → (ms < k * n ↔ A.cfg.minSamplesSplit < n)) (t : Tree K G) (t' : Tree K G') (h : Fitted R mem A t)
    (h' : Fitted R' mem' { A with data := data', labels := labels', seed := seed, cfg := { A.cfg with minSamplesSplit := ms } } t')
    (hm : A.cfg.maxLeafNodes ≠ some t.leaves.length) (hm' : A.cfg.maxLeafNodes ≠ some t'.leaves.length) :
    t'.numQueries = k * t.numQueries := by
  set A' : TreeArgs K := { A with data := data', labels := labels', seed := seed, cfg := { A.cfg with minSamplesSplit := ms } } with hA'def
  have hk0 : k ≠ 0 := by omega
  have hdp := copies_zip_left hlen hlen' hperm
  have hlp := copies_zip_right hlen hlen' hperm
  have hA' : NoChoice A' :=
    ⟨⟨hA.args.crit, hA.args.minmax_le, hA.args.sorted, hA.args.linear_bins, hA.args.auto_bins⟩, hA.solver, hA.binning, hA.features,
      hA.budget, hA.depth⟩
  have hrows : A.rows = List.range A.labels.length := by unfold TreeArgs.rows; rw [hall]; rfl
  have hrows' : A'.rows = List.range labels'.length := by unfold TreeArgs.rows; rw [hA'def, hall]; rfl
  have hll : labels'.length = k * A.labels.length := by rw [hlp.length_eq, copies_length]
  have hcols : A'.cols = A.cols := by
    unfold TreeArgs.cols
    show A.feats.getD _ = A.feats.getD _
    rw [copies_first hk hdp hrect]
  obtain ⟨D, _, hc, _⟩ := C101_greedy_tree R mem A hA t h hm
  obtain ⟨D', _, hc', _⟩ := C101_greedy_tree R' mem' A' hA' t' h' hm'
  have hP : CartProblem.KTimes k A.problem A'.problem := {
    cols := hcols
    grid := by
      intro f _ vals vals' hv
      have hmem : ∀ a, a ∈ vals' ↔ a ∈ vals := fun a => by rw [hv.mem_iff, mem_copies hk0]
      show gridOf _ f vals' = gridOf _ f vals
      unfold gridOf
      rcases hA.binning with hb | hb
      · rw [show A'.cfg.binType = some .identity from hb]
        exact valueGrid_congr hmem
      · have hul : A.cfg.useLog = false := by
          rcases hlog with q | q
          · exact q
          · rw [hb] at q; cases q
        rw [show A'.cfg.binType = some .linear from hb]
        dsimp only
        rw [show A'.cfg.useLog = false from hul, min?_congr hmem, max?_congr hmem]
        rfl
    imp := rfl
    perm := fun hp => critImp_perm _ hp
    copies := fun l => critImp_copies _ hk0 l
    total := by
      show A'.rows.length = k * A.rows.length
      rw [hrows, hrows', List.length_range, List.length_range, hll]
    size := hll
    maxDepth := rfl
    minSamples := hms
    minDecrease := rfl }
  have hS : CartProblem.RowCopies k A.problem A'.problem A.rows A'.rows := by
    unfold CartProblem.RowCopies
    rw [hrows, hrows']
    show ((List.range labels'.length).map (fun i => ((fun f => (data'.getD i []).getD f 0), labels'.getD i 0))).Perm
      (copies k ((List.range A.labels.length).map (fun i => ((fun f => (A.data.getD i []).getD f 0), A.labels.getD i 0))))
    rw [zip_rows hlen, zip_rows hlen', ← copies_map]
    exact hperm.map _
  obtain ⟨D'', h1, h2⟩ := hP.isCart hk0 hc hS
  obtain rfl := CartProblem.IsCart.unique h1 hc'
  have e1 := (C161_cost R mem A hA t h hm D hc).1
  have e2 := (C161_cost R' mem' A' hA' t' h' hm' D'' hc').1
  exact e2.unique (e1.copies hP hk0 hS h2.same)

/-- **C161** (`make_huge`). Doubling the data `d` times, which is what `make_huge` does, makes the exact solver `2 ^ d` times as
expensive. -/
theorem C161_make_huge (R : Rng K G) (R' : Rng K G') (mem mem' : Nat → Junk K) (A : TreeArgs K) (hA : NoChoice A)
    (hlog : A.cfg.useLog = false ∨ A.cfg.binType = some .identity) (hall : A.idcs = none) (F : Nat)
    (hrect : ∀ row ∈ A.data, row.length = F) (hlen : A.data.length = A.labels.length) (d ms seed : Nat)
    (hms : ∀ n, 2 ≤ n → (ms < 2 ^ d * n ↔ A.cfg.minSamplesSplit < n)) (t : Tree K G) (t' : Tree K G') (h : Fitted R mem A t)
    (h' : Fitted R' mem'
      { A with data := makeHuge d A.data, labels := makeHuge d A.labels, seed := seed, cfg := { A.cfg with minSamplesSplit := ms } } t')
    (hm : A.cfg.maxLeafNodes ≠ some t.leaves.length) (hm' : A.cfg.maxLeafNodes ≠ some t'.leaves.length) :
    t'.numQueries = 2 ^ d * t.numQueries :=
  C161_copies R R' mem mem' A hA hlog hall F hrect hlen (2 ^ d) Nat.one_le_two_pow _ _
    (by rw [makeHuge_length, makeHuge_length, hlen]) (by rw [makeHuge_zip d _ _ hlen, C117_make_huge]) ms seed hms t t' h h' hm hm'

/-- **C161** (forests). A forest without sampling costs as many times the textbook tree as it has trees. -/
theorem C161_forest (R : Rng K G) (mem : Nat → Nat → Junk K) (w w1 : World K G) (cfg : ForestCfg K) (hp : PlainForest cfg)
    (data : List (List K)) (ref : Nat) (f : Forest K G) (h : runForest R mem w cfg data ref none = .ok (f, w1)) (D : DTree K) (n : Nat)
    (hD : (forestProblem cfg data (w.arrays.getD ref [])).IsCart 0 (List.range data.length) D)
    (hn : (forestProblem cfg data (w.arrays.getD ref [])).Costs 0 (List.range data.length) D n) :
    f.numQueries = cfg.nEstimators * n := by
  obtain ⟨f0, w0, hi, hf⟩ := runForest_parts h
  obtain ⟨i1, i2, i3, _⟩ := Forest_init_fields hi
  have hlen : f.trees.length = cfg.nEstimators := by rw [(Forest_fit_accounting hf).2.2.2 i2, i1]
  rw [(Forest_fit_accounting hf).1, i3, Nat.zero_add, ← hlen]
  have : ∀ t ∈ f.trees, t.numQueries = n := by
    intro t ht
    obtain ⟨A, t0, hpt⟩ := plain_trees hp hi hf ht
    obtain ⟨i, hfit⟩ := hpt.fitted
    have h1 : A.problem.IsCart 0 A.rows D := by rw [hpt.rows]; exact hpt.alike.isCart hD
    have h2 : A.problem.Costs 0 A.rows D n := by rw [hpt.rows]; exact hpt.alike.costs hn
    obtain ⟨dd, t00, hg⟩ := hfit.facts
    have e : t.numQueries = t0.numQueries := by rw [(hpt.after.cache hg.cache).eq]
    rw [e]
    exact ((C161_cost R (mem i) A hpt.noChoice t0 hfit (by rw [hpt.leaves]; simp) D h1).2 n h2).symm
  rw [List.map_congr_left this]
  simp

/-! ### The hypotheses can be met -/

/-- Six rows with two columns: the root costs 12, the node on its right 8, the node below 4. -/
example : NoChoice exArgs ∧ exArgs.cfg.binType = some .identity ∧ ∃ t, Fitted rngQ exMem exArgs t ∧
    (decide (exArgs.cfg.maxLeafNodes ≠ some t.leaves.length) && t.numQueries == 24 &&
      readTree t 9 0 == .node 0 1 (.leaf [0, 1]) (.node 0 3 (.leaf [2, 3]) (.node 0 4 (.leaf [4]) (.leaf [5])))) = true :=
  ⟨exArgs_noChoice, rfl, runTree_exists (glob := exGlob) (by decide +kernel)⟩

/-- Every row twice: twice the price. -/
example : (∀ n, 2 ≤ n → (2 < 2 * n ↔ exArgs.cfg.minSamplesSplit < n)) ∧ exArgs.idcs = none ∧
    (exArgsDouble.data.zip exArgsDouble.labels).Perm (copies 2 (exArgs.data.zip exArgs.labels)) ∧
    ∃ t, Fitted rngQ exMem exArgsDouble t ∧
      (decide (exArgs.cfg.maxLeafNodes ≠ some t.leaves.length) && t.numQueries == 2 * 24) = true :=
  ⟨fun n hn => (by show 2 < 2 * n ↔ 1 < n; omega), rfl, by decide +kernel, runTree_exists (glob := exGlob) (by decide +kernel)⟩

/-- A search that ends in a leaf is paid for: the columns are constant, the labels are not. -/
def exArgsVain : TreeArgs ℚ := { exArgs with data := [[1, 2], [1, 2], [1, 2], [1, 2], [1, 2], [1, 2]] }

example : NoChoice exArgsVain ∧ exArgsVain.problem.Costs 0 exArgsVain.rows (.leaf exArgsVain.rows) 12 ∧ ∃ t, Fitted rngQ exMem exArgsVain t ∧
    (decide (exArgsVain.cfg.maxLeafNodes ≠ some t.leaves.length) && t.numQueries == 12 && readTree t 9 0 == .leaf [0, 1, 2, 3, 4, 5]) = true := by
  refine ⟨⟨⟨exArgs_noChoice.args.crit, exArgs_noChoice.args.minmax_le, exArgs_noChoice.args.sorted, exArgs_noChoice.args.linear_bins,
    exArgs_noChoice.args.auto_bins⟩, rfl, exArgs_noChoice.binning, rfl, rfl, exArgs_noChoice.depth⟩, ?_,
    runTree_exists (glob := exGlob) (by decide +kernel)⟩
  have := C161_unbinned exArgsVain rfl exArgsVain.rows (by decide)
  rw [show (12 : Nat) = exArgsVain.problem.searchCost exArgsVain.rows from this.symm]
  refine .searched ⟨fun d hd => ?_, by decide, 0, by decide, 5, by decide, by decide +kernel⟩
  have : exArgsVain.problem.maxDepth = some 3 := by decide +kernel
  rw [this] at hd
  cases hd
  decide

/-- A forest of three regression trees. -/
example : PlainForest fcfgPlainReg ∧
    (runForest rngQ exMems exWorldReg fcfgPlainReg exData 0 none).toOption.map (fun r => (r.1.numQueries, r.1.trees.map Tree.numQueries)) =
      some (96, [32, 32, 32]) :=
  ⟨⟨rfl, .inr rfl, fun _ => by decide, rfl, by decide, rfl, rfl, rfl, rfl, rfl⟩, by decide +kernel⟩

end FF
