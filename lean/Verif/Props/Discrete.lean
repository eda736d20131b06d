import Verif.Props.ForestTotal
import Verif.Props.Used
import Verif.Props.Utils
import Verif.Props.Binning

/-!
# Property C74: discrete binning
-/

set_option linter.unusedSectionVars false

namespace FF

open Spec

variable {K : Type} [Field K] [LinearOrder K] [IsStrictOrderedRing K] [FloorRing K] [NpFun K] {G : Type}

section
variable {R : Rng K G}

/-- The bin type of the first column of a node with `N` rows will be DISCRETE. -/
def FirstDiscrete (d : DiscDict K) (binType : Option BinType) (N B : Nat) : Prop :=
  binType = some .discrete ∨ binType = none ∧ ∃ u, discLookup d 0 = some u ∧ u.vals.length ≤ min N B

theorem makeHistograms_sets {g : G} {isCls : Bool} {row : List K} {rest : List (List K)} {labels : List K}
    {minmax : Option (List K × List K)} {d : DiscDict K} {bt : Option BinType} {B : Nat} (hrow : row ≠ []) (hset : SetsOnly d)
    (hd : FirstDiscrete d bt (row :: rest).length B) (hs : Hists K G) :
    makeHistograms R g isCls (row :: rest) labels minmax d bt B ≠ .ok hs := by
  intro h
  obtain ⟨x, xs, rfl⟩ := List.exists_cons_of_ne_nil hrow
  unfold makeHistograms at h
  simp only [List.length_cons, List.range_succ_eq_map] at h
  unfold makeHistLoop at h
  rw [makeHistStep_eq] at h
  have hbt : binTypeFor d bt ((x :: xs) :: rest).length B 0 = .discrete := by
    unfold binTypeFor
    rcases hd with rfl | ⟨rfl, u, hu, hl⟩
    · rfl
    · simp only [hu, Option.map_some, chooseBinType]
      rw [if_pos hl]
  cases hc : colE ((x :: xs) :: rest) 0 with
  | error e => rw [hc] at h; cases h
  | ok fData =>
    rw [hc] at h
    simp only [hbt, binParams] at h
    cases d with
    | none => cases h
    | some l =>
      cases hu : discLookup (some l) 0 with
      | none => rw [hu] at h; cases h
      | some u =>
        have hu' := hset 0 u hu
        rw [hu] at h
        simp only [Hist.init, makeEdges, discreteBin, hu'] at h
        by_cases h0 : u.vals.length = 0
        · rw [if_pos h0] at h; cases h
        · rw [if_neg h0] at h; cases h

theorem nodeSolve_sets {g : G} {glob : Glob G} {junk : Junk K} {cfg : TreeCfg K} {nd : Node K} {data : List (List K)} {labels : List K}
    {budget : Option Int} {row : List K} {rest : List (List K)} (hdata : data = row :: rest) (hrow : row ≠ []) (hset : SetsOnly nd.discrete)
    (hd : ∀ B, nd.numBins = some B → FirstDiscrete nd.discrete cfg.binType data.length B)
    (hnone : cfg.binType = some .discrete ∨ cfg.binType = none)
    (r : Option (SplitRes K) × Nat × G × Glob G) : nodeSolve R g glob junk cfg nd data labels budget ≠ .ok r := by
  subst hdata
  intro h
  have hid : cfg.binType ≠ some .identity := by rcases hnone with h | h <;> rw [h] <;> simp
  unfold nodeSolve at h
  cases hs : cfg.solver with
  | mab =>
    rw [hs] at h
    simp only [solveMab, if_neg hid] at h
    cases hB : nd.numBins with
    | none => rw [hB] at h; cases h
    | some B =>
      rw [hB] at h
      simp only [] at h
      cases hm : makeHistograms R glob.np cfg.isCls (row :: rest) labels nd.minmax nd.discrete cfg.binType B with
      | error e => rw [hm] at h; cases h
      | ok hs => exact makeHistograms_sets hrow hset (hd B hB) hs hm
  | exact =>
    rw [hs] at h
    simp only [solveExactly, if_neg hid] at h
    cases hB : nd.numBins with
    | none => rw [hB] at h; cases h
    | some B =>
      rw [hB] at h
      simp only [] at h
      cases hm : makeHistograms R glob.np cfg.isCls (row :: rest) labels nd.minmax nd.discrete cfg.binType B with
      | error e => rw [hm] at h; cases h
      | ok hs => exact makeHistograms_sets hrow hset (hd B hB) hs hm
  | other => rw [hs] at h; cases h

/-- A tree that was given sets of discrete values has not solved its root, if the first column is binned by them. -/
theorem root_unsolved {mem : Nat → Junk K} {A : TreeArgs K} {t : Tree K G} (h : Fitted R mem A t) (hmd : A.cfg.makeDiscrete = false)
    (hset : SetsOnly A.disc) (hd : A.cfg.binType = some .discrete ∨ A.cfg.binType = none ∧ A.cfg.useLog = false ∧ ∀ B, A.cfg.numBins = some B →
      FirstDiscrete A.disc A.cfg.binType A.rows.length B) (nd : Node K) (hn : NodeAt t 0 nd) (hf : nd.featIdcs ≠ []) :
    nd.computed = false := by
  obtain ⟨dd, t0, hg⟩ := h.facts
  have hok := hg.nodes _ _ hn
  rw [Bool.eq_false_iff]
  intro hc
  have hsol := hok.solved hc
  obtain ⟨g, glob, junk, budget, r, g', glob', hrun, _⟩ := hsol.run
  have hne : nd.idcs ≠ [] := by
    intro h0
    have := hsol.can.labels
    rw [h0] at this
    simp [labelsOf] at this
  obtain ⟨root, h1, h2, _⟩ := hg.shape.root
  obtain rfl : nd = root := Option.some.inj (hn.symm.trans h1)
  have hdd : dd = A.disc := by
    have := hg.disc
    rw [hg.start.cfg] at this
    simp only [hmd, ite_self, maybeDiscrete] at this
    exact (Except.ok.inj this).symm
  have hdisc : nd.discrete = A.disc := by rcases hok.disc_eq with e | e <;> rw [e]; exact hdd
  have hbt : t.cfg.binType = A.cfg.binType := by rw [hg.cfg_eq]
  obtain ⟨i, is, hi⟩ := List.exists_cons_of_ne_nil hne
  refine nodeSolve_sets (row := nd.featIdcs.map (fun j => (A.data.getD i []).getD j 0)) (rest := subRows A.data is nd.featIdcs)
    (by rw [hi]; rfl) (by simpa using hf) (by rw [hdisc]; exact hset) ?_ (by rw [hbt]; exact hd.imp id And.left) _ hrun
  intro B hB
  rw [hdisc, hbt]
  rcases hd with hd | ⟨_, hl, hd⟩
  · exact Or.inl hd
  · have hb := hok.bins_eq (by rw [hg.cfg_eq]; exact hl)
    rw [hg.cfg_eq] at hb
    have := hd B (hb.symm.trans hB)
    simpa [subRows, h2] using this

/-- The trees of a forest with discrete features are single leaves. -/
theorem no_splits {mem : Nat → Junk K} {A : TreeArgs K} {t : Tree K G} (h : Fitted R mem A t) (hmd : A.cfg.makeDiscrete = false)
    (hset : SetsOnly A.disc) (hd : A.cfg.binType = some .discrete ∨ A.cfg.binType = none ∧ A.cfg.useLog = false ∧ ∀ B, A.cfg.numBins = some B →
      FirstDiscrete A.disc A.cfg.binType A.rows.length B) : t.nodes.length = 1 ∧ ∀ nd, NodeAt t 0 nd → nd.left = none := by
  obtain ⟨dd, t0, hg⟩ := h.facts
  obtain ⟨root, h1, h2, _⟩ := hg.shape.root
  have hleft : root.left = none := by
    by_contra hl
    obtain ⟨_, _, _, _, b5⟩ := C80_node_features R mem A t h 0 root h1
    obtain ⟨f, hf1, _⟩ := b5 hl
    have := root_unsolved h hmd hset hd root h1 (List.ne_nil_of_mem hf1)
    rw [((hg.nodes _ _ h1).split hl).1] at this
    cases this
  have hpos : 0 < t.nodes.length := nodeAt_lt h1
  refine ⟨?_, fun nd hn => by rw [Option.some.inj (hn.symm.trans h1)]; exact hleft⟩
  by_contra hne
  obtain ⟨p, pn, hp, h4, h5⟩ := hg.shape.parents 1 (by omega) (by omega)
  obtain rfl : p = 0 := by omega
  obtain rfl : pn = root := Option.some.inj (h4.symm.trans h1)
  rw [hleft, ((hg.nodes _ _ h1).right_none hleft).1] at h5
  rcases h5 with h5 | h5 <;> cases h5

end

section
variable (R : Rng K G) (mem : Nat → Nat → Junk K)

/-- The bin type of a forest and data with which the discrete values of the first column matter: DISCRETE, or automatic binning and a first
column with at most ten different values, no more than bins and rows. -/
def UsesDiscrete (cfg : ForestCfg K) (data : List (List K)) : Prop :=
  cfg.binType = some .discrete ∨
    cfg.binType = none ∧ cfg.useLog = false ∧ 0 < (data.getD 0 []).length ∧ (data.map (fun r => r.getD 0 0)).dedup.length ≤ 10 ∧
      (∀ B, cfg.numBins = some B → (data.map (fun r => r.getD 0 0)).dedup.length ≤ B) ∧
      (cfg.bootstrap = true ∨ ((data.map (fun r => r.getD 0 0)).dedup.length : Int) ≤ ⌊(data.length : K) * cfg.alphaN⌋)

/-- The setting of `no_splits` for the trees of a forest. -/
theorem discrete_tree {cfg : ForestCfg K} (hmd : cfg.makeDiscrete = true) (hN : cfg.alphaN ≤ 1) (hF : cfg.alphaF ≤ 1)
    {classes : Option (ClassDict K)} {data dat : Option (List (List K))}
    {ref labels : Option Nat} {budget : Option Int} {w w1 w2 w' : World K G} {f f' : Forest K G}
    (hi : Forest.init R w cfg classes data ref budget = .ok (f, w1)) (hfit : Forest.fit R mem f w2 dat labels = .ok (f', w'))
    (hd : UsesDiscrete cfg (trainData f dat)) (i : Nat) (m : Made K G) (t : Tree K G)
    (hm : TreeMade R mem (trainData f dat) ((trainData f dat).getD 0 []).length f' i m t) :
    m.args.cfg.makeDiscrete = false ∧ SetsOnly m.args.disc ∧
    (m.args.cfg.binType = some .discrete ∨ m.args.cfg.binType = none ∧ m.args.cfg.useLog = false ∧ ∀ B, m.args.cfg.numBins = some B →
      FirstDiscrete m.args.disc m.args.cfg.binType m.args.rows.length B) := by
  have hbt : cfg.binType = some .discrete ∨ cfg.binType = none := hd.imp id And.left
  have e1 := (Forest_init_fields hi).1
  rw [if_neg (by rcases hbt with h | h <;> rw [h] <;> simp)] at e1
  obtain ⟨dd, f0, w0, hs, hl⟩ := Forest_fit_start hfit
  obtain ⟨l, hrun⟩ := forestLoop_run hl
  have hcfg : f'.cfg = cfg := by rw [hrun.same, hs.eq]; exact e1
  have hdisc : f'.discrete = f0.discrete := by rw [hrun.same]
  have hset0 := hs.disc
  have hcm : f.cfg.makeDiscrete = true := by rw [e1]; exact hmd
  rw [hcm] at hset0
  have hset : SetsOnly f0.discrete := setsOnly_maybe (b := true) (data := dd) (d := none) (fun f u h => by cases h) (by exact hset0)
  refine ⟨by rw [hm.cfg]; rfl, by rw [hm.disc, hdisc]; exact hset, ?_⟩
  rw [hm.cfg, hm.disc, hdisc]
  have hcb : f'.treeCfg.binType = cfg.binType := by rw [← hcfg]; rfl
  have hcl : f'.treeCfg.useLog = cfg.useLog := by rw [← hcfg]; rfl
  have hcn : f'.treeCfg.numBins = cfg.numBins := by rw [← hcfg]; rfl
  rw [hcb, hcl, hcn]
  rcases hd with hd | ⟨hd, hul, hw, h10, hB, hrows⟩
  · exact Or.inl hd
  · refine Or.inr ⟨hd, hul, fun B hb => Or.inr ⟨hd, ?_⟩⟩
    obtain ⟨d, hd1, hd2⟩ := C73_ten_partial (trainData f dat) 10 (hs.dat_eq ▸ hs.ne)
    have hdd : f0.discrete = some d := by
      unfold maybeDiscrete at hset0
      rw [hs.dat_eq, hd1] at hset0
      exact (Except.ok.inj hset0).symm
    obtain ⟨v, hv1, hv2, hv3⟩ := (hd2 0).1 ⟨hw, h10⟩
    have hlen : v.vals.length = ((trainData f dat).map (fun r => r.getD 0 0)).dedup.length := by
      apply List.Perm.length_eq
      rw [List.perm_ext_iff_of_nodup hv2 (List.nodup_dedup _)]
      intro x
      rw [hv3, List.mem_dedup]
    have hne : trainData f dat ≠ [] := hs.dat_eq ▸ hs.ne
    have hv0 : v.vals ≠ [] := by
      obtain ⟨r, rs, hr⟩ := List.exists_cons_of_ne_nil hne
      exact List.ne_nil_of_mem ((hv3 (r.getD 0 0)).2 (by rw [hr]; simp))
    refine ⟨v, ?_, ?_⟩
    · rw [hdd]
      unfold discLookup
      simp only [hv1, if_neg hv0]
    · rw [hlen]
      refine le_min ?_ (hB B hb)
      obtain ⟨rows0, rows, cols, g, g1, g2, a1, a2, a3, a4⟩ := hm.draw
      rw [hcfg] at a1 a2
      have hr := bootstrapIdcs_ok (subsets_ok hN hF a1).1 a2
      have hrw : m.args.rows = rows := by unfold TreeArgs.rows; rw [a3]; rfl
      rw [hrw]
      obtain ⟨sub, hsub, hr⟩ := hr
      by_cases hbs : cfg.bootstrap = true
      · rw [if_pos hbs] at hr
        rw [hr.1]
        exact (List.dedup_sublist _).length_le.trans (by simp)
      · rw [if_neg hbs] at hr
        rw [hr]
        have := hrows.resolve_left hbs
        rw [← hsub.size] at this
        exact_mod_cast this

/-- C74 fails. A forest with `make_discrete=True` and the DISCRETE bin type — or automatic binning and a discrete first column — never splits: if
`fit` returns at all, every tree is a single leaf, and the forest predicts the same for all datapoints. -/
theorem C74_never_splits (cfg : ForestCfg K) (hmd : cfg.makeDiscrete = true) (hN : cfg.alphaN ≤ 1) (hF : cfg.alphaF ≤ 1)
    (classes : Option (ClassDict K)) (data dat : Option (List (List K))) (ref labels : Option Nat) (budget : Option Int)
    (w w1 w2 w' : World K G) (f f' : Forest K G) (hi : Forest.init R w cfg classes data ref budget = .ok (f, w1))
    (hfit : Forest.fit R mem f w2 dat labels = .ok (f', w')) (hd : UsesDiscrete cfg (trainData f dat)) :
    (∀ t ∈ f'.trees, ∀ j, ¬ SplitsOn t j) ∧ ∀ x y, f'.predict x = f'.predict y := by
  have hno : ∀ t ∈ f'.trees, ∀ j, ¬ SplitsOn t j := by
    intro t ht j hj
    obtain ⟨ms, _, _, hm⟩ := Forest_fit_made hfit
    obtain ⟨i, hi', hti⟩ := List.getElem_of_mem ht
    obtain ⟨m, _, hmade, _⟩ := hm i t (by rw [List.getElem?_eq_getElem hi', hti])
    obtain ⟨a1, a2, a3⟩ := discrete_tree R mem hmd hN hF hi hfit hd i m t hmade
    obtain ⟨b1, b2⟩ := no_splits hmade.fitted a1 a2 a3
    have hsp : SplitsOn m.tree j := by
      have := hmade.after
      clear hm hmade hti ht
      induction this with
      | none => exact hj
      | call _ hp ih => exact ih (predict_splitsOn hp hj)
    obtain ⟨nd, hnd, hl, _⟩ := hsp
    obtain ⟨id, hid, rfl⟩ := List.getElem_of_mem hnd
    obtain rfl : id = 0 := by omega
    exact hl (b2 _ (List.getElem?_eq_getElem hid))
  exact ⟨hno, fun x y => C83_forest f' x y (fun t ht j hj => absurd hj (hno t ht j))⟩

/-- C74 fails: on data that could be split (labels that differ, more rows than `min_samples_split`, depth and leaf limits above the root,
all rows and columns used, no budget), fitting such a forest raises. -/
theorem C74_refuted (cfg : ForestCfg K) (hmd : cfg.makeDiscrete = true) (hN : cfg.alphaN = 1) (hF : cfg.alphaF = 1)
    (hboot : cfg.bootstrap = false) (hbst : cfg.boosting = false) (hsub : cfg.featSub = .none) (hn : cfg.nEstimators ≠ 0)
    (hdep : cfg.maxDepth = .inf ∨ ∃ d, cfg.maxDepth = .some d ∧ 0 < d) (hleaf : cfg.maxLeafNodes ≠ some 1)
    (w w1 : World K G) (data : List (List K)) (ref : Nat) (f : Forest K G)
    (hi : Forest.init R w cfg none (some data) (some ref) none = .ok (f, w1))
    (hwid : 0 < (data.getD 0 []).length) (hms : cfg.minSamplesSplit < data.length)
    (hlen : data.length = (w.arrays.getD ref []).length) (hint : cfg.isCls = true → ∀ y ∈ w.arrays.getD ref [], ∃ n : Int, y = n)
    (hlab : ∃ y ∈ w.arrays.getD ref [], ∃ z ∈ w.arrays.getD ref [], y ≠ z) (hd : UsesDiscrete cfg data) :
    ∃ e, Forest.fit R mem f w1 none none = .error e := by
  cases h : Forest.fit R mem f w1 none none with
  | error e => exact ⟨e, rfl⟩
  | ok p =>
    obtain ⟨f', w'⟩ := p
    exfalso
    obtain ⟨e1, e2, _, _, _, e3, _, e4, _, e5⟩ := Forest_init_fields hi
    have htd : trainData f none = data := by unfold trainData; rw [e4]; rfl
    obtain ⟨_, k2, _, k4⟩ := Forest_fit_accounting h
    obtain ⟨ms, _, hne, hm⟩ := Forest_fit_made h
    have h0 : 0 < f'.trees.length := by
      rw [k4 e2, e1]
      exact Nat.pos_of_ne_zero hn
    obtain ⟨m, _, hmade, hml⟩ := hm 0 _ (List.getElem?_eq_getElem h0)
    obtain ⟨a1, a2, a3⟩ := discrete_tree R mem hmd hN.le hF.le hi h (by rw [htd]; exact hd) 0 m _ hmade
    obtain ⟨b1, b2⟩ := no_splits hmade.fitted a1 a2 a3
    rw [htd] at hmade hne
    have hlabels := hml (by rw [e1]; exact hbst)
    have hcfg : f'.cfg = { cfg with makeDiscrete := f.cfg.makeDiscrete } := by
      obtain ⟨dat, f0, w0, hs, hl⟩ := Forest_fit_start h
      obtain ⟨l, hrun⟩ := forestLoop_run hl
      rw [hrun.same, hs.eq]
      simp only [e1]
    have htl : m.args.labels = w.arrays.getD ref [] := by
      rw [hlabels]
      have : trainLabels f w1 none = w.arrays.getD ref [] := by unfold trainLabels; rw [e3, e5]; rfl
      unfold treeLabels
      rw [this]
      split_ifs with hc
      · rw [e1] at hc
        conv_rhs => rw [← List.map_id (w.arrays.getD ref [])]
        apply List.map_congr_left
        intro y hy
        obtain ⟨n, rfl⟩ := hint hc y hy
        unfold truncInt
        split_ifs <;> simp
      · rfl
    -- the rows and columns of the tree
    obtain ⟨rows0, rows, cols, g, g1, g2, c1, c2, c3, c4⟩ := hmade.draw
    rw [hcfg] at c1 c2
    have hr0 : rows0 = List.range data.length ∧ cols = List.range (data.getD 0 []).length := by
      unfold subsets at c1
      rw [if_neg (by simp [hN, hF])] at c1
      cases c1
      exact ⟨rfl, rfl⟩
    have hr1 : rows = rows0 := by
      unfold bootstrapIdcs at c2
      rw [if_neg (by simp [hboot])] at c2
      cases c2
      rfl
    have hrows : m.args.rows = List.range data.length := by unfold TreeArgs.rows; rw [c3, hr1, hr0.1]; rfl
    have hcols : m.args.cols = List.range (data.getD 0 []).length := by unfold TreeArgs.cols; rw [c4, hr0.2]; rfl
    -- the root
    obtain ⟨dd, t0, hg⟩ := hmade.fitted.facts
    obtain ⟨root, h1, h2, h3⟩ := hg.shape.root
    have hleft := b2 root h1
    have hright := ((hg.nodes _ _ h1).right_none hleft).1
    have hfeat : root.featIdcs ≠ [] := by
      obtain ⟨_, _, _, hall, _⟩ := C80_node_features R (mem 0) m.args m.tree hmade.fitted 0 root h1
      have hsb : m.args.cfg.featSub = .none := by
        rw [hmade.cfg]
        change f'.cfg.featSub = _
        rw [hcfg]
        exact hsub
      rw [hall hsb, hcols]
      intro hz
      have := congrArg List.length hz
      rw [List.length_range, List.length_nil] at this
      omega
    have hunc := root_unsolved hmade.fitted a1 a2 a3 root h1 hfeat
    have hleaves := hg.shape.numLeaves
    have hnum := hg.shape.numNodes
    rcases leaf_done R (mem 0) m.args hmade.fitted (hmade.budget (by rw [k2, e2]; rfl))
      (by
        rw [hmade.cfg, show m.tree.leaves.length = 1 by omega]
        change f'.cfg.maxLeafNodes ≠ _
        rw [hcfg]
        exact hleaf) 0 ⟨.root, root, h1, hleft, hright⟩ root h1 with hno | ⟨hyes, _⟩
    · apply hno
      refine ⟨?_, ?_, ?_⟩
      · rw [hmade.cfg]
        change f'.cfg.maxDepth = _ ∨ ∃ d, f'.cfg.maxDepth = _ ∧ _
        rw [hcfg, h3]
        exact hdep
      · rw [hmade.cfg, h2, hrows, List.length_range]
        change f'.cfg.minSamplesSplit < _
        rw [hcfg]
        exact hms
      · rw [h2, hrows, htl, hlen]
        have : labelsOf (w.arrays.getD ref []) (List.range (w.arrays.getD ref []).length) = w.arrays.getD ref [] := by
          unfold labelsOf
          generalize w.arrays.getD ref [] = l
          apply List.ext_getElem (by simp)
          intro i h1 h2
          rw [List.getElem_map, List.getElem_range, List.getD_eq_getElem _ _ h2]
        rw [this]
        obtain ⟨y, hy, z, hz, hyz⟩ := hlab
        by_contra hcon
        have hy' := List.mem_dedup.2 hy
        have hz' := List.mem_dedup.2 hz
        match hdd : (w.arrays.getD ref []).dedup with
        | [] => rw [hdd] at hy'; cases hy'
        | [a] =>
          rw [hdd] at hy' hz'
          simp at hy' hz'
          exact hyz (hy'.trans hz'.symm)
        | a :: b :: l => rw [hdd] at hcon; simp at hcon
    · rw [hunc] at hyes
      cases hyes

/-- C74, the part that holds: with the other bin types `make_discrete=True` does no harm. A forest with `make_discrete=True` and LINEAR, IDENTITY
or RANDOM bins can be built and fitted on a well-formed training set if the split search can always produce candidates (see C85). -/
theorem C74_other_types_partial (cfg : ForestCfg K) (_hmd : cfg.makeDiscrete = true)
    (_hbt : cfg.binType = some .linear ∨ cfg.binType = some .identity ∨ cfg.binType = some .random) (budget : Option Int) (w : World K G)
    (data : List (List K)) (ref : Nat)
    (hlr : cfg.boosting = true → cfg.boostingLr ≠ none ∧ cfg.isCls = false) (hoob : cfg.oobScore = true → cfg.bootstrap = true)
    (hint : cfg.isCls = true → ∀ y ∈ w.arrays.getD ref [], ∃ n : Int, y = n)
    (hok : ForestDataOK cfg data (w.arrays.getD ref [])) (hsolv : ForestSolvable cfg data (w.arrays.getD ref [])) :
    ∃ f w1 f' w', Forest.init R w cfg none (some data) (some ref) budget = .ok (f, w1) ∧ Forest.fit R mem f w1 none none = .ok (f', w') :=
  C85_constructed R mem cfg budget w data ref hlr hoob hint hok hsolv

/-- A forest with automatic binning and discrete features. -/
def fcfgAuto : ForestCfg ℚ := { fcfgQ with bootstrap := false, binType := none, numBins := some 6, makeDiscrete := true }

/-- Forests with automatic binning and with DISCRETE bins cannot be fitted on six rows with two discrete columns, unless nothing is to be split. -/
example : (match runForest rngQ exMems exWorld fcfgAuto exData 0 none with
      | .error e => some e | .ok _ => none) = some .typeError ∧
    (match runForest rngQ exMems exWorld { fcfgQ with binType := some .discrete, numBins := some 6, makeDiscrete := true } exData 0 none with
      | .error e => some e | .ok _ => none) = some .typeError ∧
    (match runForest rngQ exMems exWorld { fcfgQ with binType := some .discrete, numBins := some 6, makeDiscrete := true, minSamplesSplit := 6 }
      exData 0 none with
      | .error _ => none | .ok p => some (p.1.trees.map (fun t : Tree ℚ Nat => t.nodes.length))) = some [1, 1] := by
  refine ⟨?_, ?_, ?_⟩ <;> decide +kernel

/-- The hypotheses of `C74_refuted` are met. -/
example : ∃ f w1, Forest.init rngQ exWorld fcfgAuto none (some exData) (some 0) none = .ok (f, w1) ∧
    ∃ e, Forest.fit rngQ exMems f w1 none none = .error e := by
  refine ⟨_, _, rfl, C74_refuted rngQ exMems fcfgAuto rfl rfl rfl rfl rfl rfl (by decide) (Or.inr ⟨3, rfl, by decide⟩) (by simp [fcfgAuto, fcfgQ]) exWorld _ exData 0 _ rfl
    (by decide) (by decide) rfl (fun _ => ?_) ⟨0, by decide, 1, by decide, by decide⟩ (Or.inr ⟨rfl, rfl, by decide, by decide +kernel, ?_, Or.inr ?_⟩)⟩
  · have : ∀ y ∈ exWorld.arrays.getD 0 [], y = ((⌊y⌋ : Int) : ℚ) := by decide +kernel
    exact fun y hy => ⟨_, this y hy⟩
  · intro B hB
    cases hB
    decide +kernel
  · decide +kernel

end

end FF
