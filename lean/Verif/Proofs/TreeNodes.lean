import Verif.Proofs.TreeSim

/-!
# What every node of a growing tree satisfies
-/

namespace FF

open Spec

set_option linter.unusedSectionVars false

variable {K : Type} [Field K] [LinearOrder K] [IsStrictOrderedRing K] [FloorRing K] [NpFun K] {G : Type}

/-- The answer `r` of the solver is what the node has recorded. -/
def Recorded (nd : Node K) : Option (SplitRes K) → Prop
  | none => nd.splitReduction = none ∧ nd.splitFeature = none
  | some s => nd.splitReduction = some (s.red.mul (.fin nd.proportion)) ∧ nd.prevSplitFeature = s.feat ∧
      nd.splitValue = s.value ∧ nd.splitFeature = some (nd.featIdcs.getD s.feat 0)

/-- The solver was called on this node and its answer recorded. -/
structure Solved (R : Rng K G) (cfg : TreeCfg K) (data : List (List K)) (labels : List K) (budget0 : Option Int)
    (treeN : Nat) (nd : Node K) : Prop where
  can : CanSplit cfg labels nd
  bins : nodeBins cfg nd = .ok nd.numBins
  run : ∃ g glob junk budget r g' glob', nodeSolve R g glob junk cfg nd (subRows data nd.idcs nd.featIdcs)
      (labelsOf labels nd.idcs) budget = .ok (r, nd.numQueries, g', glob') ∧ Recorded nd r ∧
      (∀ b, budget = some b → 0 < b ∧ ∃ b0, budget0 = some b0 ∧ b ≤ b0) ∧ (budget = none → budget0 = none)
  splittable : nd.isSplittable = some (splittableImpurity cfg treeN nd)

/-- Invariant of every node. `n0` is the number of rows of the root. -/
structure TNodeOK (R : Rng K G) (cfg : TreeCfg K) (data : List (List K)) (labels : List K) (feats : List Nat)
    (disc0 disc : DiscDict K) (budget0 : Option Int) (treeN n0 : Nat) (nd : Node K) : Prop where
  feats_sub : ∀ f ∈ nd.featIdcs, f ∈ feats
  feats_num : FeatsNum cfg.featSub feats nd.featIdcs
  rows_lt : ∀ i ∈ nd.idcs, i < data.length ∧ ∀ j ∈ nd.featIdcs, j < (data.getD i []).length
  labels_lt : ∀ i ∈ nd.idcs, i < labels.length
  nData_eq : nd.nData = nd.idcs.length
  disc_eq : nd.discrete = disc0 ∨ nd.discrete = disc
  minmax_eq : nodeMinmax cfg.minmax nd.featIdcs = .ok nd.minmax
  counts_cls : cfg.isCls = true → countsOfLabels cfg.classes (labelsOf labels nd.idcs) = .ok nd.counts
  bins_eq : cfg.useLog = false → nd.numBins = cfg.numBins
  prop_eq : n0 ≠ 0 → nd.proportion = (nd.idcs.length : K) / (n0 : K)
  open_data : nd.left = none → nd.data = some (subRows data nd.idcs nd.featIdcs)
  open_labels : nd.left = none → nd.labels = some (labelsOf labels nd.idcs)
  right_none : nd.left = none → nd.right = none ∧ nd.alreadySplit = false
  cache : nd.cacheCls = none ∧ nd.cacheReg = none
  fresh : nd.computed = false → nd.splitFeature = none ∧ nd.splitReduction = none ∧ nd.numQueries = 0 ∧
    (nd.isSplittable = none ∨ ¬ CanSplit cfg labels nd)
  solved : nd.computed = true → Solved R cfg data labels budget0 treeN nd
  split : nd.left ≠ none → nd.computed = true ∧ nd.isSplittable = some true ∧ nd.idcs ≠ [] ∧
    ∃ red, nd.splitReduction = some red ∧ red.lt (.fin 0) = true ∧ red.lt (.fin cfg.minImpDec) = true

theorem npUnique_length (l : List K) : (npUnique l).length = l.dedup.length := by
  unfold npUnique
  exact (List.perm_insertionSort _ _).length_eq

theorem constraints_true {cfg : TreeCfg K} {labels : List K} {nd : Node K} (hn : nd.nData = nd.idcs.length)
    (hl : nd.labels = some (labelsOf labels nd.idcs)) (h : splittableConstraints cfg nd = .ok true) :
    CanSplit cfg labels nd := by
  unfold splittableConstraints at h
  split at h
  · cases h
  · cases h
  · rename_i hd
    by_cases hs : cfg.minSamplesSplit < nd.nData
    swap
    · rw [if_neg hs] at h
      cases h
    rw [if_pos hs, hl] at h
    simp only [Except.ok.injEq, decide_eq_true_eq] at h
    refine ⟨?_, by rw [← hn]; exact hs, by rw [← npUnique_length]; exact h⟩
    unfold depthOk at hd
    split at hd
    · cases hd
    · exact Or.inl (by assumption)
    · rename_i m hm
      exact Or.inr ⟨m, hm, by simpa using hd⟩

theorem constraints_false {cfg : TreeCfg K} {labels : List K} {nd : Node K} (hn : nd.nData = nd.idcs.length)
    (hl : nd.labels = some (labelsOf labels nd.idcs)) (h : splittableConstraints cfg nd = .ok false) :
    ¬ CanSplit cfg labels nd := by
  intro hc
  unfold splittableConstraints at h
  have hd : depthOk cfg.maxDepth nd.depth = .ok true := by
    rcases hc.depth with h1 | ⟨d, h1, h2⟩
    · rw [h1]; rfl
    · rw [h1]; simp [depthOk, h2]
  rw [hd] at h
  simp only [] at h
  rw [if_pos (by rw [hn]; exact hc.size), hl] at h
  simp only [Except.ok.injEq, decide_eq_false_iff_not] at h
  exact h (by rw [npUnique_length]; exact hc.labels)

theorem CanSplit.congr {cfg : TreeCfg K} {labels : List K} {a b : Node K} (h : CanSplit cfg labels a)
    (h1 : b.depth = a.depth) (h2 : b.idcs = a.idcs) : CanSplit cfg labels b :=
  ⟨by rw [h1]; exact h.depth, by rw [h2]; exact h.size, by rw [h2]; exact h.labels⟩

theorem nodeSolve_congr {R : Rng K G} {g : G} {glob : Glob G} {junk : Junk K} {cfg : TreeCfg K} {a b : Node K}
    {data : List (List K)} {labels : List K} {budget : Option Int} (h1 : a.minmax = b.minmax)
    (h2 : a.discrete = b.discrete) (h3 : a.numBins = b.numBins) (h4 : a.depth = b.depth) :
    nodeSolve R g glob junk cfg a data labels budget = nodeSolve R g glob junk cfg b data labels budget := by
  unfold nodeSolve nodeEpsilon
  rw [h1, h2, h3, h4]

theorem nodeBins_congr {cfg : TreeCfg K} {a b : Node K} (h1 : a.nData = b.nData) (h2 : cfg.useLog = false → a.numBins = b.numBins) :
    nodeBins cfg a = nodeBins cfg b := by
  unfold nodeBins
  cases hu : cfg.useLog
  · simp [h2 hu]
  · simp [h1]

theorem splittableImpurity_congr {cfg : TreeCfg K} {n : Nat} {a b : Node K} (h1 : a.splitReduction = b.splitReduction)
    (h2 : a.nData = b.nData) : splittableImpurity cfg n a = splittableImpurity cfg n b := by
  unfold splittableImpurity
  rw [h1, h2]

/-- A solved node stays solved when fields that do not matter change. -/
theorem Solved.congr {R : Rng K G} {cfg : TreeCfg K} {data : List (List K)} {labels : List K} {budget0 : Option Int}
    {treeN : Nat} {a b : Node K} (h : Solved R cfg data labels budget0 treeN a)
    (h1 : b.idcs = a.idcs) (h2 : b.featIdcs = a.featIdcs) (h3 : b.nData = a.nData) (h4 : b.numBins = a.numBins)
    (h5 : b.depth = a.depth) (h6 : b.proportion = a.proportion) (h7 : b.discrete = a.discrete) (h8 : b.minmax = a.minmax)
    (h9 : b.splitFeature = a.splitFeature) (h10 : b.prevSplitFeature = a.prevSplitFeature)
    (h11 : b.splitValue = a.splitValue) (h12 : b.numQueries = a.numQueries) (h13 : b.splitReduction = a.splitReduction)
    (h14 : b.isSplittable = a.isSplittable) : Solved R cfg data labels budget0 treeN b := by
  obtain ⟨h, hb, ⟨g, glob, junk, budget, r, g', glob', hrun, hrec, hbud⟩, hsp⟩ := h
  refine ⟨h.congr h5 h1, ?_, ⟨g, glob, junk, budget, r, g', glob', ?_, ?_, hbud⟩, ?_⟩
  · rw [h4, ← hb]
    exact nodeBins_congr h3 (fun _ => h4)
  · rw [h1, h2, h12, ← hrun]
    exact nodeSolve_congr h8 h7 h4 h5
  · cases r with
    | none => exact ⟨h13.trans hrec.1, h9.trans hrec.2⟩
    | some s =>
      obtain ⟨e1, e2, e3, e4⟩ := hrec
      exact ⟨by rw [h13, h6]; exact e1, h10.trans e2, h11.trans e3, by rw [h9, h2]; exact e4⟩
  · rw [h14, hsp]
    exact congrArg some (splittableImpurity_congr h13.symm h3.symm)

theorem TNodeOK.of_fresh {R : Rng K G} {cfg : TreeCfg K} {data : List (List K)} {labels : List K} {feats : List Nat}
    {disc0 disc d : DiscDict K} {budget0 : Option Int} {treeN n0 : Nat} {idcs : List Nat} {depth : Nat} {proportion : K}
    {numBins : Option Nat} {nd : Node K}
    (h : Fresh cfg data labels feats d idcs depth proportion numBins nd) (hd : d = disc0 ∨ d = disc)
    (hb : cfg.useLog = false → numBins = cfg.numBins)
    (hp : n0 ≠ 0 → proportion = (idcs.length : K) / (n0 : K)) :
    TNodeOK R cfg data labels feats disc0 disc budget0 treeN n0 nd where
  feats_sub := h.feats_sub
  feats_num := h.feats_num
  rows_lt := by rw [h.idcs_eq]; exact h.rows_lt
  labels_lt := by rw [h.idcs_eq]; exact h.labels_lt
  nData_eq := by rw [h.idcs_eq]; exact h.nData_eq
  disc_eq := by rw [h.disc_eq]; exact hd
  minmax_eq := h.minmax_eq
  counts_cls := fun hc => by rw [h.idcs_eq]; exact h.counts_cls hc
  bins_eq := fun hu => by rw [h.numBins_eq]; exact hb hu
  prop_eq := fun hn => by rw [h.prop_eq, h.idcs_eq]; exact hp hn
  open_data := fun _ => by rw [h.idcs_eq]; exact h.data_eq
  open_labels := fun _ => by rw [h.idcs_eq]; exact h.labels_eq
  right_none := fun _ => ⟨h.right_eq, h.split_eq⟩
  cache := ⟨h.cacheCls_eq, h.cacheReg_eq⟩
  fresh := fun _ => ⟨h.feat_eq, h.red_eq, h.q_eq, Or.inl h.splittable_eq⟩
  solved := fun hc => by rw [h.comp_eq] at hc; cases hc
  split := fun hl => absurd h.left_eq hl

/-- The fields of a tree that `fit` does not change. -/
structure SameBase (t t' : Tree K G) : Prop where
  cfg : t'.cfg = t.cfg
  data : t'.data = t.data
  labels : t'.labels = t.labels
  nData : t'.nData = t.nData
  discrete : t'.discrete = t.discrete
  feats : t'.featIdcs = t.featIdcs

theorem TStep.base {R : Rng K G} {mem : Nat → Junk K} {t t' : Tree K G} (h : TStep R mem t t') : SameBase t t' := by
  cases h <;> exact ⟨rfl, rfl, rfl, rfl, rfl, rfl⟩

theorem TSteps.base {R : Rng K G} {mem : Nat → Junk K} {t t' : Tree K G} (h : TSteps R mem t t') : SameBase t t' := by
  induction h with
  | refl => exact ⟨rfl, rfl, rfl, rfl, rfl, rfl⟩
  | step _ hs ih =>
    have := hs.base
    exact ⟨this.cfg.trans ih.cfg, this.data.trans ih.data, this.labels.trans ih.labels, this.nData.trans ih.nData,
      this.discrete.trans ih.discrete, this.feats.trans ih.feats⟩

/-- The queries spent are subtracted from the budget. -/
theorem TSteps.remaining {R : Rng K G} {mem : Nat → Junk K} {t t' : Tree K G} (h : TSteps R mem t t') :
    t.numQueries ≤ t'.numQueries ∧
    t'.remaining = t.remaining.map (fun b => b - ((t'.numQueries : Int) - (t.numQueries : Int))) := by
  induction h with
  | refl => exact ⟨le_refl _, by cases t.remaining <;> simp⟩
  | step _ hs ih =>
    cases hs with
    | mark _ _ _ => exact ih
    | split _ _ _ _ _ _ _ _ _ _ _ _ _ _ _ => exact ih
    | depth _ => exact ih
    | solve _ _ _ _ _ _ _ _ _ _ =>
      refine ⟨by simp only []; omega, ?_⟩
      simp only []
      rw [ih.2]
      cases t.remaining
      · rfl
      · simp only [Option.map_some, Option.some.injEq]
        push_cast
        ring

theorem splitIdcs_map (idcs : List Nat) (f : Nat → K) (v : K) :
    splitIdcs idcs (idcs.map f) v = (idcs.filter (fun i => decide (f i ≤ v)), idcs.filter (fun i => decide (v < f i))) := by
  unfold splitIdcs
  congr 1
  · induction idcs with
    | nil => rfl
    | cons i is ih =>
      simp only [List.map_cons, List.zip_cons_cons, List.filter_cons]
      split_ifs <;> simp_all
  · induction idcs with
    | nil => rfl
    | cons i is ih =>
      simp only [List.map_cons, List.zip_cons_cons, List.filter_cons]
      split_ifs <;> simp_all

theorem subRows_col {data : List (List K)} {rows feats : List Nat} {f : Nat} {col : List K}
    (h : colE (subRows data rows feats) f = .ok col) (hne : rows ≠ []) :
    f < feats.length ∧ col = rows.map (fun i => (data.getD i []).getD (feats.getD f 0) 0) := by
  obtain ⟨h1, h2⟩ := colE_ok h
  have hf : f < feats.length := by
    obtain ⟨i, is, rfl⟩ := List.exists_cons_of_ne_nil hne
    have := h2 (feats.map (fun j => (data.getD i []).getD j 0)) (by simp [subRows])
    simpa using this
  refine ⟨hf, ?_⟩
  rw [h1, subRows, List.map_map]
  apply List.map_congr_left
  intro i _
  simp only [Function.comp_apply]
  rw [List.getD_eq_getElem _ _ (by simpa using hf), List.getElem_map, List.getD_eq_getElem _ _ hf]

section
variable {R : Rng K G} {mem : Nat → Junk K} {A : TreeArgs K} {dd : DiscDict K} {t0 : Tree K G}

/-- All nodes of the tree satisfy the node invariant. -/
def NodesOK (R : Rng K G) (A : TreeArgs K) (dd : DiscDict K) (t : Tree K G) : Prop :=
  ∀ (id : Nat) (nd : Node K), t.nodes[id]? = some nd →
    TNodeOK R t.cfg A.data A.labels A.cols A.disc dd A.budget A.labels.length A.rows.length nd

theorem Start.nodesOK (h : Start R A dd t0) : NodesOK R A dd t0 := by
  intro id nd hn
  obtain ⟨root, hroot, hf⟩ := h.root
  rw [hroot] at hn
  have : nd = root := by
    match id, hn with
    | 0, hn => simpa using hn.symm
    | k + 1, hn => simp at hn
  subst this
  refine TNodeOK.of_fresh hf (Or.inl rfl) (fun _ => by rw [h.cfg]) (fun hn => ?_)
  rw [div_self]
  exact_mod_cast hn

theorem TSteps.nodesOK {t : Tree K G} (h0 : Start R A dd t0) (h : TSteps R mem t0 t) : NodesOK R A dd t := by
  induction h with
  | refl => exact h0.nodesOK
  | step hprev hs ih =>
    have hbase := hprev.base
    have hrem := hprev.remaining
    have hsim := h0.sim.steps hprev
    cases hs with
    | mark hl hn hc =>
      rename_i t1 id leaf
      intro j nd hj
      rcases getElem?_set_cases hj with ⟨rfl, rfl⟩ | ⟨_, hj'⟩
      · have ho := ih _ _ hn
        obtain ⟨nd', hnd', hok⟩ := hsim.leaf _ hl
        rw [hn] at hnd'
        obtain rfl := Option.some.inj hnd'
        have hcan := constraints_false ho.nData_eq (ho.open_labels hok.left_eq) hc
        exact { ho with
          open_data := ho.open_data, open_labels := ho.open_labels, right_none := ho.right_none
          fresh := fun hf => ⟨(ho.fresh hf).1, (ho.fresh hf).2.1, (ho.fresh hf).2.2.1,
            Or.inr (fun hcs => hcan (hcs.congr rfl rfl))⟩
          solved := fun hf => absurd (ho.solved hf).can hcan
          split := fun hf => absurd hok.left_eq hf }
      · exact ih _ _ hj'
    | solve hl hn hc hb hcomp hsp hnb hd hls hs =>
      rename_i t1 id leaf glob glob' nb data labels r q g'
      intro j nd hj
      rcases getElem?_set_cases hj with ⟨rfl, rfl⟩ | ⟨_, hj'⟩
      · have ho := ih _ _ hn
        obtain ⟨nd', hnd', hok⟩ := hsim.leaf _ hl
        rw [hn] at hnd'
        obtain rfl := Option.some.inj hnd'
        obtain ⟨e1, e2, e3, e4, e5, e6, e7, e8, e9, e10, e11, e12, e13, e14, e15, e16, e17, e18, e19⟩ :=
          nodeRecord_static { leaf with numBins := nb } r q
        have hcan := constraints_true ho.nData_eq (ho.open_labels hok.left_eq) hc
        have hd' := ho.open_data hok.left_eq
        have hl' := ho.open_labels hok.left_eq
        rw [hd] at hd'
        rw [hls] at hl'
        obtain rfl := Option.some.inj hd'
        obtain rfl := Option.some.inj hl'
        have hfr := ho.fresh hcomp
        simp only []
        exact {
          feats_sub := by simp only [e2]; exact ho.feats_sub
          feats_num := by simp only [e2]; exact ho.feats_num
          rows_lt := by simp only [e1, e2]; exact ho.rows_lt
          labels_lt := by simp only [e1]; exact ho.labels_lt
          nData_eq := by simp only [e5, e1]; exact ho.nData_eq
          disc_eq := by simp only [e17]; exact ho.disc_eq
          minmax_eq := by simp only [e2, e18]; exact ho.minmax_eq
          counts_cls := by simp only [e1, e8]; exact ho.counts_cls
          bins_eq := fun hu => by
            simp only [e19]
            unfold nodeBins at hnb
            rw [if_neg (by rw [hu]; simp)] at hnb
            cases hnb
            exact ho.bins_eq hu
          prop_eq := by simp only [e7, e1]; exact ho.prop_eq
          open_data := by simp only [e9, e3, e1, e2]; exact ho.open_data
          open_labels := by simp only [e9, e4, e1]; exact ho.open_labels
          right_none := by simp only [e9, e10, e11]; exact ho.right_none
          cache := by simp only [e15, e16]; exact ho.cache
          fresh := fun hf => by simp only [e12] at hf; cases hf
          solved := fun _ => {
            can := hcan.congr e6 e1
            bins := by
              simp only [e19]
              rw [← hnb]
              apply nodeBins_congr
              · exact e5
              · intro hu
                unfold nodeBins at hnb
                rw [if_neg (by rw [hu]; simp)] at hnb
                cases hnb
                rfl
            run := by
              refine ⟨t1.rng, glob, mem id, t1.remaining, r, g', glob', ?_, ?_, ?_⟩
              · simp only [e1, e2, e13]
                refine (nodeSolve_congr ?_ ?_ ?_ ?_).trans hs
                · exact e18
                · exact e17
                · exact e19
                · exact e6
              · cases r with
                | none => exact ⟨hfr.2.1, hfr.1⟩
                | some s => exact ⟨rfl, rfl, rfl, rfl⟩
              · rw [hrem.2, h0.remaining]
                have h1 := hrem.1
                constructor
                · intro b hbb
                  refine ⟨hb b (by rw [hrem.2, h0.remaining]; exact hbb), ?_⟩
                  cases hA : A.budget with
                  | none => rw [hA] at hbb; cases hbb
                  | some b0 =>
                    rw [hA] at hbb
                    simp only [Option.map_some, Option.some.injEq] at hbb
                    exact ⟨b0, rfl, by omega⟩
                · intro hnn
                  cases hA : A.budget with
                  | none => rfl
                  | some b0 => rw [hA] at hnn; cases hnn
            splittable := by
              simp only [Option.some.injEq]
              rw [hbase.nData, h0.nData]
              exact splittableImpurity_congr rfl rfl }
          split := fun hf => by
            simp only [e9] at hf
            exact absurd hok.left_eq hf }
      · exact ih _ _ hj'
    | split hl hn hc hcomp hsp hred hneg himp hd hls hcol hne1 hne2 hcl hcr =>
      rename_i t1 pos id leaf l r red data labels col g1 g2
      have ho := ih _ _ hn
      obtain ⟨nd', hnd', hok⟩ := hsim.leaf _ (List.mem_of_getElem? hl)
      rw [hn] at hnd'
      obtain rfl := Option.some.inj hnd'
      have hd' := ho.open_data hok.left_eq
      have hl' := ho.open_labels hok.left_eq
      rw [hd] at hd'
      rw [hls] at hl'
      obtain rfl := Option.some.inj hd'
      obtain rfl := Option.some.inj hl'
      have hne : leaf.idcs ≠ [] := by
        intro h
        rw [h] at hne1
        exact hne1 (by simp [splitIdcs])
      have hchild : ∀ (g : G) (g' : G) (idcs : List Nat) (nd : Node K),
          childNode R g t1 leaf (labelsOf A.labels leaf.idcs).length idcs = .ok (nd, g') →
          TNodeOK R t1.cfg A.data A.labels A.cols A.disc dd A.budget A.labels.length A.rows.length nd := by
        intro g g' idcs nd hch
        have hf := Node_init_fresh hch
        rw [hbase.data, h0.data, hbase.labels, h0.labels, hbase.feats, h0.feats, hbase.discrete, h0.discrete] at hf
        refine TNodeOK.of_fresh hf (Or.inr rfl) ho.bins_eq (fun hn0 => ?_)
        rw [ho.prop_eq hn0]
        have h1 : (labelsOf A.labels leaf.idcs).length = leaf.idcs.length := by simp [labelsOf]
        rw [h1]
        have h2 : (leaf.idcs.length : K) ≠ 0 := by
          rw [Nat.cast_ne_zero]
          exact fun h => hne (List.length_eq_zero_iff.1 h)
        have h3 : (A.rows.length : K) ≠ 0 := by rw [Nat.cast_ne_zero]; exact hn0
        field_simp
      intro j nd hj
      rcases getElem?_append_cases hj with hj' | ⟨_, rfl⟩ | ⟨_, rfl⟩
      · rcases getElem?_set_cases hj' with ⟨rfl, rfl⟩ | ⟨_, hj'⟩
        · simp only []
          exact { ho with
            open_data := fun hf => by cases hf
            open_labels := fun hf => by cases hf
            right_none := fun hf => by cases hf
            cache := ⟨rfl, rfl⟩
            fresh := fun hf => by simp only [hcomp] at hf; cases hf
            solved := fun hf => (ho.solved hf).congr rfl rfl rfl rfl rfl rfl rfl rfl rfl rfl rfl rfl rfl rfl
            split := fun _ => ⟨hcomp, hsp, hne, red, hred, hneg, himp⟩ }
        · exact ih _ _ hj'
      · exact hchild _ _ _ _ hcl
      · exact hchild _ _ _ _ hcr
    | depth hd => exact ih

end

end FF
