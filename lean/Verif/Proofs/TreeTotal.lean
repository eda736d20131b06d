import Verif.Proofs.TreeGrow
import Verif.Proofs.Counts

/-!
# Fitting does not raise, if the solver does not
-/

namespace FF

open Spec

set_option linter.unusedSectionVars false

variable {K : Type} [Field K] [LinearOrder K] [IsStrictOrderedRing K] [FloorRing K] [NpFun K] {G : Type}

theorem ceilSqrt_spec (n : Nat) : n ≤ ceilSqrt n * ceilSqrt n ∧ ∀ k, n ≤ k * k → ceilSqrt n ≤ k := by
  unfold ceilSqrt
  cases h : (List.range (n + 1)).find? (fun k => decide (n ≤ k * k)) with
  | none =>
    rw [List.find?_eq_none] at h
    have := h n (by simp)
    simp only [decide_eq_true_eq, not_le] at this
    nlinarith
  | some k =>
    have h1 := List.find?_some h
    refine ⟨by simpa using h1, fun j hj => ?_⟩
    by_contra hlt
    simp only [Option.getD_some, not_le] at hlt
    rw [List.find?_eq_some_iff_getElem] at h
    obtain ⟨_, i, hi, h2, h3⟩ := h
    rw [List.getElem_range] at h2
    subst h2
    have := h3 j hlt
    rw [List.getElem_range] at this
    simp only [Bool.not_eq_eq_eq_not, Bool.not_true, decide_eq_false_iff_not] at this
    exact this hj

theorem ceilSqrt_le (n : Nat) : ceilSqrt n ≤ n := (ceilSqrt_spec n).2 n (by nlinarith [Nat.zero_le n, Nat.le_mul_self n])

theorem ceilSqrt_pos {n : Nat} (h : 0 < n) : 0 < ceilSqrt n := by
  have h1 := (ceilSqrt_spec n).1
  by_contra h0
  have h2 : ceilSqrt n = 0 := by omega
  rw [h2] at h1
  omega

/-- A sensible request gives at least one and at most all features. -/
theorem featCount_ok {F : Nat} (hF : 0 < F) {sub : FeatSub K} (h : FeatSubOK F sub) :
    ∃ c, featCount F sub = .ok c ∧ 1 ≤ c.getD F ∧ c.getD F ≤ F := by
  cases sub with
  | none => exact ⟨none, rfl, hF, le_refl _⟩
  | sqrt => exact ⟨_, rfl, ceilSqrt_pos hF, ceilSqrt_le F⟩
  | int k => exact ⟨_, rfl, h.1, h.2⟩
  | float x =>
    obtain ⟨h0, h1⟩ := h
    have hF' : (0 : K) < F := by exact_mod_cast hF
    have hpos : 0 < ⌈x * (F : K)⌉ := Int.ceil_pos.2 (mul_pos h0 hF')
    have hle : ⌈x * (F : K)⌉ ≤ (F : Int) := by
      rw [Int.ceil_le]
      push_cast
      nlinarith
    refine ⟨some (⌈x * (F : K)⌉).toNat, ?_, ?_, ?_⟩
    · unfold featCount
      simp only []
      rw [if_neg (by omega)]
    · simp only [Option.getD_some]; omega
    · simp only [Option.getD_some]; omega

theorem chooseFeatures_total {R : Rng K G} {g : G} {feats : List Nat} {sub : FeatSub K} (hF : feats ≠ [])
    (h : FeatSubOK feats.length sub) : ∃ r g', chooseFeatures R g feats sub = .ok (r, g') ∧ r ≠ [] := by
  obtain ⟨c, hc, h1, h2⟩ := featCount_ok (List.length_pos_iff.2 hF) h
  unfold chooseFeatures
  rw [hc]
  cases c with
  | none => exact ⟨_, _, rfl, hF⟩
  | some k =>
    simp only [Option.getD_some] at h1 h2
    have e : ∃ r g', rngChoice R g feats 0 k = .ok (r, g') := by
      unfold rngChoice
      rw [if_pos h2]
      exact ⟨_, _, rfl⟩
    obtain ⟨r, g', e⟩ := e
    refine ⟨r, g', e, ?_⟩
    have := (rngChoice_ok e).2.1
    intro h0
    rw [h0] at this
    simp at this
    omega

theorem takeE_total {α : Type} {a : List α} {d : α} {idcs : List Nat} (h : ∀ i ∈ idcs, i < a.length) :
    takeE a d idcs = .ok (idcs.map (fun i => a.getD i d)) := by
  unfold takeE
  rw [if_pos (by simpa using h)]

theorem colE_total {X : List (List K)} {f : Nat} (h : ∀ row ∈ X, f < row.length) :
    colE X f = .ok (X.map (fun row => row.getD f 0)) := by
  unfold colE
  rw [if_pos (by simpa using h)]

theorem getSubset2d_total {src : List (List K)} {rows cols : List Nat}
    (h : ∀ i ∈ rows, i < src.length ∧ ∀ j ∈ cols, j < (src.getD i []).length) :
    ∃ sub, getSubset2d src rows cols = .ok sub := by
  unfold getSubset2d
  rw [if_pos]
  · exact ⟨_, rfl⟩
  · rw [List.all_eq_true]
    intro i hi
    rw [Bool.and_eq_true, decide_eq_true_eq, List.all_eq_true]
    exact ⟨(h i hi).1, fun j hj => by simpa using (h i hi).2 j hj⟩

theorem countsLoop_total {d : ClassDict K} (hd : ClassesOK d) (labels : List K) {us : List K} {c : List Nat} (hc : c.length = d.length)
    (h : ∀ u ∈ us, u ∈ d.map Prod.fst) : ∃ c', countsLoop d labels us c = .ok c' := by
  induction us generalizing c with
  | nil => exact ⟨c, rfl⟩
  | cons u us ih =>
    obtain ⟨⟨a, i⟩, hp, rfl⟩ := List.mem_map.1 (h u List.mem_cons_self)
    have hl := lookup_of_mem hd.1 hp
    have hi : i < d.length := by
      have : i ∈ d.map Prod.snd := List.mem_map.2 ⟨(a, i), hp, rfl⟩
      rw [hd.2] at this
      simpa using this
    unfold countsLoop
    rw [hl]
    simp only []
    rw [if_pos (by omega)]
    exact ih (by rw [List.length_set]; exact hc) (fun v hv => h v (List.mem_cons_of_mem _ hv))

theorem countsOfLabels_total {d : ClassDict K} (hd : ClassesOK d) {labels : List K} (h : ∀ y ∈ labels, y ∈ d.map Prod.fst) :
    ∃ c, countsOfLabels d labels = .ok c := by
  unfold countsOfLabels
  refine countsLoop_total hd labels (by simp) (fun u hu => h u ?_)
  unfold npUnique at hu
  rwa [List.mem_insertionSort, List.mem_dedup] at hu

theorem getD_mem {α : Type} {l : List α} {i : Nat} {d : α} (h : i < l.length) : l.getD i d ∈ l := by
  rw [List.getD_eq_getElem _ _ h]
  exact List.getElem_mem h

section
variable {R : Rng K G} {mem : Nat → Junk K} {A : TreeArgs K} {t : Tree K G} {dd : DiscDict K} {t0 : Tree K G}

/-- Building a node does not raise. -/
theorem Node_init_total (hT : TrainOK A) {g : G} {cfg : TreeCfg K} {d : DiscDict K} {idcs : List Nat} {depth : Nat} {p : K}
    {nb : Option Nat} (h1 : cfg.featSub = A.cfg.featSub) (h2 : cfg.minmax = A.cfg.minmax) (h3 : cfg.isCls = A.cfg.isCls)
    (h4 : cfg.classes = A.cfg.classes) (hr : ∀ i ∈ idcs, i < A.data.length) :
    ∃ nd g', Node.init R g cfg A.data A.labels A.cols d idcs depth p nb = .ok (nd, g') := by
  obtain ⟨feats, g1, hf, _⟩ := chooseFeatures_total (R := R) (g := g) hT.cols_ne hT.featSub
  have hfs := chooseFeatures_sub hf
  obtain ⟨sub, hsub⟩ := getSubset2d_total (src := A.data) (rows := idcs) (cols := feats) (fun i hi =>
    ⟨hr i hi, fun j hj => by rw [hT.rect _ (getD_mem (hr i hi))]; exact hT.cols j (hfs j hj)⟩)
  have hlab := takeE_total (a := A.labels) (d := 0) (idcs := idcs) (fun i hi => by rw [← hT.lens]; exact hr i hi)
  have hmm : ∃ mm, nodeMinmax A.cfg.minmax feats = .ok mm := by
    unfold nodeMinmax
    rcases Option.eq_none_or_eq_some A.cfg.minmax with e | ⟨⟨mins, maxs⟩, e⟩
    · rw [e]
      exact ⟨_, rfl⟩
    · obtain ⟨l1, l2⟩ := hT.minmax _ _ e
      rw [e]
      simp only []
      rw [takeE_total (fun i hi => by rw [l1]; exact hT.cols i (hfs i hi)), takeE_total (fun i hi => by rw [l2]; exact hT.cols i (hfs i hi))]
      exact ⟨_, rfl⟩
  obtain ⟨mm, hmm⟩ := hmm
  have hcount : ∃ c, (if A.cfg.isCls = true then countsOfLabels A.cfg.classes (idcs.map (fun i => A.labels.getD i 0)) else .ok []) = .ok c := by
    by_cases hc : A.cfg.isCls = true
    · rw [if_pos hc]
      refine countsOfLabels_total (hT.classes hc).1 (fun y hy => ?_)
      obtain ⟨i, hi, rfl⟩ := List.mem_map.1 hy
      exact (hT.classes hc).2 _ (getD_mem (by rw [← hT.lens]; exact hr i hi))
    · rw [if_neg hc]
      exact ⟨_, rfl⟩
  obtain ⟨c, hcount⟩ := hcount
  unfold Node.init
  rw [h1, h2, h3, h4]
  simp only [hf, hsub, hlab, hmm, hcount]
  exact ⟨_, _, rfl⟩

/-- The solver answers on every node of the growing tree that may be split. -/
def SolverTotal (R : Rng K G) (mem : Nat → Junk K) (A : TreeArgs K) : Prop :=
  ∀ (dd : DiscDict K) (t0 t : Tree K G), GrowFacts R mem A dd t0 t → ∀ (id : Nat) (nd : Node K) (nb : Option Nat), NodeAt t id nd →
    CanSplit t.cfg A.labels nd → nodeBins t.cfg nd = .ok nb → ∀ (g : G) (glob : Glob G) (junk : Junk K) (budget : Option Int),
    ∃ r q g' glob', nodeSolve R g glob junk A.cfg { nd with numBins := nb } (subRows A.data nd.idcs nd.featIdcs)
      (labelsOf A.labels nd.idcs) budget = .ok (r, q, g', glob')

/-- The splits the solver reports separate the rows of the node. -/
def SolverSeparates (R : Rng K G) (mem : Nat → Junk K) (A : TreeArgs K) : Prop :=
  ∀ (dd : DiscDict K) (t0 t : Tree K G), GrowFacts R mem A dd t0 t → ∀ (id : Nat) (nd : Node K) (red : XF K), NodeAt t id nd →
    nd.computed = true → nd.splitReduction = some red → nd.prevSplitFeature < nd.featIdcs.length ∧
    (∃ i ∈ nd.idcs, (A.data.getD i []).getD (nd.featIdcs.getD nd.prevSplitFeature 0) 0 ≤ nd.splitValue) ∧
    (∃ i ∈ nd.idcs, nd.splitValue < (A.data.getD i []).getD (nd.featIdcs.getD nd.prevSplitFeature 0) 0)

theorem GrowFacts.leaf_open (h : GrowFacts R mem A dd t0 t) {id : Nat} (hid : id ∈ t.leaves) :
    ∃ nd, t.nodes[id]? = some nd ∧ nd.left = none ∧ nd.data = some (subRows A.data nd.idcs nd.featIdcs) ∧
      nd.labels = some (labelsOf A.labels nd.idcs) := by
  obtain ⟨nd, h1, h2⟩ := (h.shape.leaves id).1 hid
  exact ⟨nd, h1, h2, (h.nodes _ _ h1).open_data h2, (h.nodes _ _ h1).open_labels h2⟩

theorem calcBestSplit_some {g g' : G} {glob glob' : Glob G} {junk : Junk K} {cfg : TreeCfg K} {node : Node K}
    {budget : Option Int} {nb : Option Nat} {data : List (List K)} {labels : List K} {r : Option (SplitRes K)} {q : Nat}
    (hnb : nodeBins cfg node = .ok nb) (hd : node.data = some data) (hl : node.labels = some labels)
    (hs : nodeSolve R g glob junk cfg { node with numBins := nb } data labels budget = .ok (r, q, g', glob')) :
    ∃ x, calcBestSplit R g glob junk cfg node budget = .ok x := by
  unfold calcBestSplit
  split
  · exact ⟨_, rfl⟩
  rw [hnb]
  simp only []
  split
  · rename_i data' labels' hd' hl'
    obtain rfl := Option.some.inj (hd.symm.trans hd')
    obtain rfl := Option.some.inj (hl.symm.trans hl')
    rw [hs]
    exact ⟨_, rfl⟩
  · rename_i hno
    exact absurd hl (hno _ _ hd)

/-- Looking at one leaf does not raise. -/
theorem scanLeaf_total (hT : TrainOK A) (hsolve : SolverTotal R mem A) {pos id : Nat} {s : Scan K G}
    (h : GrowFacts R mem A dd t0 s.t) (hid : id ∈ s.t.leaves) : ∃ r, scanLeaf R mem pos id s = .ok r := by
  obtain ⟨nd, hn, hleft, hdata, hlabels⟩ := h.leaf_open hid
  have hok := h.nodes _ _ hn
  have hcfg := h.cfg_eq
  have hdep : ∃ b, depthOk s.t.cfg.maxDepth nd.depth = .ok b := by
    rw [hcfg]
    simp only []
    cases hm : A.cfg.maxDepth with
    | none => exact absurd hm hT.depth
    | inf => exact ⟨_, rfl⟩
    | some d => exact ⟨_, rfl⟩
  have hcon : ∃ b, splittableConstraints s.t.cfg nd = .ok b := by
    obtain ⟨b, hb⟩ := hdep
    unfold splittableConstraints
    rw [hb]
    cases b with
    | false => exact ⟨_, rfl⟩
    | true =>
      simp only []
      rw [hlabels]
      split
      · exact ⟨_, rfl⟩
      · exact ⟨_, rfl⟩
  unfold scanLeaf
  rw [hn]
  obtain ⟨b, hb⟩ := hcon
  simp only [hb]
  cases b with
  | false => exact ⟨_, rfl⟩
  | true =>
    simp only []
    split
    · exact ⟨_, rfl⟩
    · have hcan := constraints_true hok.nData_eq hlabels hb
      have hcalc : ∃ x, calcBestSplit R s.t.rng s.glob (mem id) s.t.cfg nd s.t.remaining = .ok x := by
        by_cases hcomp : nd.computed = true
        · exact ⟨_, calcBestSplit_computed hcomp⟩
        · have hnb : ∃ nb, nodeBins s.t.cfg nd = .ok nb := by
            unfold nodeBins
            split
            · rw [if_neg]
              · exact ⟨_, rfl⟩
              · rw [hok.nData_eq]
                exact fun h0 => hcan.rows_ne (List.length_eq_zero_iff.1 h0)
            · exact ⟨_, rfl⟩
          obtain ⟨nb, hnb⟩ := hnb
          obtain ⟨r, q, g', glob', hs⟩ := hsolve _ _ _ h id nd nb hn hcan hnb s.t.rng s.glob (mem id) s.t.remaining
          rw [← nodeSolve_cfg hcfg] at hs
          exact calcBestSplit_some hnb hdata hlabels hs
      obtain ⟨⟨leaf1, g, glob⟩, hcalc⟩ := hcalc
      rw [hcalc]
      exact ⟨_, rfl⟩

theorem scanLeaves_total (hT : TrainOK A) (hsolve : SolverTotal R mem A) {ts : Tree K G} {ids : List Nat} {pos : Nat} {s : Scan K G}
    (h : GrowFacts R mem A dd t0 s.t) (hs : ScanOK ts s) (hpos : ∀ i (hi : i < ids.length), ts.leaves[pos + i]? = some ids[i]) :
    ∃ s', scanLeaves R mem pos ids s = .ok s' := by
  induction ids generalizing pos s with
  | nil => exact ⟨s, rfl⟩
  | cons id ids ih =>
    have h0 : ts.leaves[pos]? = some id := by have := hpos 0 (by simp); rw [Nat.add_zero] at this; exact this
    obtain ⟨r, hr⟩ := scanLeaf_total (pos := pos) hT hsolve h (id := id) (by rw [hs.leaves]; exact List.mem_of_getElem? h0)
    unfold scanLeaves
    rw [hr]
    cases r with
    | none => exact ⟨s, rfl⟩
    | some s1 =>
      obtain ⟨h1, h2⟩ := scanLeaf_sim hs h0 hr
      exact ih (h.next h1) h2 (fun i hi => by
        have := hpos (i + 1) (by simpa using hi)
        rw [Nat.add_assoc, Nat.add_comm 1 i]
        simpa using this)

/-- Splitting a node whose recorded split separates its rows does not raise. -/
theorem performSplit_total (hT : TrainOK A) (hsep : SolverSeparates R mem A) {s : Scan K G} {pos id : Nat} {red : XF K}
    (h : GrowFacts R mem A dd t0 s.t) (hbest : BestOK s.t.cfg s.t.leaves s.t.nodes (pos, id, red)) :
    ∃ r, performSplit R mem s pos id = .ok r := by
  obtain ⟨hpos, nd, hnd, hc, hcomp, hsp, hred⟩ := hbest
  simp only [] at hpos hnd hred
  have hid := List.mem_of_getElem? hpos
  obtain ⟨nd', hn', hleft, hdata, hlabels⟩ := h.leaf_open hid
  obtain rfl := Option.some.inj (hnd.symm.trans hn')
  obtain ⟨nd2, hn2, hok⟩ := h.sim.leaf id hid
  obtain rfl := Option.some.inj (hnd.symm.trans hn2)
  obtain ⟨_, hneg⟩ := h.red_neg hnd hred
  obtain ⟨hf, ⟨i, hi, hi'⟩, ⟨j, hj, hj'⟩⟩ := hsep _ _ _ h id nd red hnd hcomp hred
  have hcol := colE_total (X := subRows A.data nd.idcs nd.featIdcs) (f := nd.prevSplitFeature) (by
    intro row hrow
    unfold subRows at hrow
    obtain ⟨i, _, rfl⟩ := List.mem_map.1 hrow
    simpa using hf)
  have hcol2 := (subRows_col hcol (List.ne_nil_of_mem hi)).2
  have hspl : splitIdcs nd.idcs ((subRows A.data nd.idcs nd.featIdcs).map (fun row => row.getD nd.prevSplitFeature 0)) nd.splitValue =
      (nd.idcs.filter (fun i => decide ((A.data.getD i []).getD (nd.featIdcs.getD nd.prevSplitFeature 0) 0 ≤ nd.splitValue)),
       nd.idcs.filter (fun i => decide (nd.splitValue < (A.data.getD i []).getD (nd.featIdcs.getD nd.prevSplitFeature 0) 0))) := by
    rw [hcol2]
    exact splitIdcs_map nd.idcs _ nd.splitValue
  have hrows : ∀ i ∈ nd.idcs, i < A.data.length := fun i hi => ((h.nodes _ _ hnd).rows_lt i hi).1
  have hcfg := h.cfg_eq
  have hb := h.base
  have hst := h.start
  have child : ∀ (t : Tree K G) (g : G) (rows : List Nat), t.cfg = s.t.cfg → t.data = s.t.data → t.labels = s.t.labels →
      t.featIdcs = s.t.featIdcs → (∀ i ∈ rows, i ∈ nd.idcs) →
      ∃ x g', childNode R g t nd (labelsOf A.labels nd.idcs).length rows = .ok (x, g') := by
    intro t g rows e1 e2 e3 e4 hr
    unfold childNode
    rw [e1, e2, e3, e4, hb.data, hb.labels, hb.feats, hst.data, hst.labels, hst.feats]
    exact Node_init_total hT (by rw [hcfg]) (by rw [hcfg]) (by rw [hcfg]) (by rw [hcfg]) (fun i hi => hrows i (hr i hi))
  unfold performSplit splitNode
  rw [hnd]
  simp only [hok.split_eq, Bool.false_eq_true, if_false]
  rw [if_neg (hok.comp_feat red hred).2]
  simp only []
  unfold splitNodeCore
  rw [hred]
  simp only [hneg, Bool.not_true, Bool.false_eq_true, if_false, hdata, hlabels, hcol, hspl]
  rw [if_neg]
  swap
  · rw [not_or]
    constructor
    · have : i ∈ nd.idcs.filter (fun i => decide ((A.data.getD i []).getD (nd.featIdcs.getD nd.prevSplitFeature 0) 0 ≤ nd.splitValue)) :=
        List.mem_filter.2 ⟨hi, by simpa using hi'⟩
      exact fun h0 => by rw [List.length_eq_zero_iff.1 h0] at this; cases this
    · have : j ∈ nd.idcs.filter (fun i => decide (nd.splitValue < (A.data.getD i []).getD (nd.featIdcs.getD nd.prevSplitFeature 0) 0)) :=
        List.mem_filter.2 ⟨hj, by simpa using hj'⟩
      exact fun h0 => by rw [List.length_eq_zero_iff.1 h0] at this; cases this
  obtain ⟨l, g1, hl⟩ := child { s.t with nodes := s.t.nodes.set id nd, rng := s.t.rng } s.t.rng _ rfl rfl rfl rfl
    (fun i hi => List.mem_of_mem_filter (p := fun i => decide ((A.data.getD i []).getD (nd.featIdcs.getD nd.prevSplitFeature 0) 0 ≤ nd.splitValue)) hi)
  rw [hl]
  obtain ⟨r, g2, hr⟩ := child { s.t with nodes := s.t.nodes.set id nd, rng := s.t.rng } g1 _ rfl rfl rfl rfl
    (fun i hi => List.mem_of_mem_filter (p := fun i => decide (nd.splitValue < (A.data.getD i []).getD (nd.featIdcs.getD nd.prevSplitFeature 0) 0)) hi)
  simp only []
  rw [hr]
  exact ⟨_, rfl⟩

theorem getDepth_total (h : t.leaves ≠ []) : ∃ d, getDepth t = .ok d := by
  unfold getDepth
  obtain ⟨a, l, e⟩ := List.exists_cons_of_ne_nil h
  rw [e]
  exact ⟨_, rfl⟩

/-- One pass of the loop does not raise. -/
theorem fitStep_total (hT : TrainOK A) (hsolve : SolverTotal R mem A) (hsep : SolverSeparates R mem A) {glob : Glob G}
    (h : GrowFacts R mem A dd t0 t) (hl : ∀ m, A.cfg.maxLeafNodes = some m → t.leaves.length ≤ m) :
    ∃ r, fitStep R mem t glob = .ok r := by
  have hcfg := h.cfg_eq
  have hlim : ∃ b, leafLimit t.cfg.maxLeafNodes t.leaves.length = .ok b := by
    rw [hcfg]
    simp only []
    unfold leafLimit
    rcases Option.eq_none_or_eq_some A.cfg.maxLeafNodes with e | ⟨m, e⟩
    · rw [e]
      exact ⟨_, rfl⟩
    · have := hl m e
      rw [e]
      simp only []
      split
      · exact ⟨_, rfl⟩
      · rw [if_neg (by omega)]
        exact ⟨_, rfl⟩
  obtain ⟨b, hb⟩ := hlim
  unfold fitStep
  rw [hb]
  cases b with
  | true => exact ⟨_, rfl⟩
  | false =>
    simp only []
    have hs0 : ScanOK t { t := t, glob := glob, best := none } := ⟨h.sim, rfl, rfl, fun b hb => by cases hb⟩
    have hp0 : ∀ i (hi : i < t.leaves.length), t.leaves[0 + i]? = some t.leaves[i] := fun i hi => by
      rw [Nat.zero_add]; exact List.getElem?_eq_getElem hi
    obtain ⟨s, hs⟩ := scanLeaves_total (s := { t := t, glob := glob, best := none }) hT hsolve h hs0 hp0
    obtain ⟨hst, hsok⟩ := scanLeaves_sim hs0 hp0 hs
    have hf := h.next hst
    rw [hs]
    have hne : ∀ t' : Tree K G, GrowFacts R mem A dd t0 t' → t'.leaves ≠ [] := by
      intro t' hf' h0
      have := hf'.shape.numLeaves
      rw [h0] at this
      simp at this
    have hsplit : ∃ r, splitBest R mem s = .ok r := by
      unfold splitBest
      split
      · rename_i pos id red hbest
        split
        · obtain ⟨⟨t', glob'⟩, hp⟩ := performSplit_total hT hsep hf (hsok.best _ hbest)
          rw [hp]
          exact ⟨_, rfl⟩
        · exact ⟨_, rfl⟩
      · exact ⟨_, rfl⟩
    obtain ⟨⟨again, t', glob'⟩, hr⟩ := hsplit
    simp only []
    rw [hr]
    simp only []
    obtain ⟨d, hd⟩ := getDepth_total (hne t' (hf.next (splitBest_sim hsok hr)))
    rw [hd]
    exact ⟨_, rfl⟩

theorem maybeDiscrete_total (h : A.data ≠ []) (b : Bool) (d : DiscDict K) : ∃ dd, maybeDiscrete b A.data d = .ok dd := by
  unfold maybeDiscrete
  split
  · obtain ⟨r, rs, e⟩ := List.exists_cons_of_ne_nil h
    rw [e]
    exact ⟨_, rfl⟩
  · exact ⟨_, rfl⟩

/-- Constructing a tree does not raise. -/
theorem Tree_init_total (hT : TrainOK A) : ∃ t0, Constructed R A t0 := by
  unfold Constructed Tree.init
  rw [if_neg (by simpa using hT.lens)]
  have hcols : defaultFeats A.data A.feats = .ok A.cols := by
    unfold defaultFeats TreeArgs.cols
    rcases Option.eq_none_or_eq_some A.feats with e | ⟨f, e⟩
    · rw [e]
      obtain ⟨r, rs, e2⟩ := List.exists_cons_of_ne_nil hT.data_ne
      rw [e2]
      rfl
    · rw [e]
      rfl
  simp only [hcols]
  obtain ⟨nd, g', hn⟩ := Node_init_total (R := R) (g := R.seed A.seed) (cfg := { A.cfg with makeDiscrete :=
          (if A.cfg.binType = some BinType.linear ∨ A.cfg.binType = some BinType.identity then false else A.cfg.makeDiscrete) })
    (d := A.disc) (idcs := A.idcs.getD (List.range A.labels.length)) (depth := 0) (p := 1) (nb := A.cfg.numBins) hT rfl rfl rfl rfl hT.rows
  simp only [] at hn
  rw [hn]
  exact ⟨_, _, rfl⟩

/-- If the solver answers on every node and its splits separate, `fit` returns. -/
theorem fit_total (hT : TrainOK A) (hsolve : SolverTotal R mem A) (hsep : SolverSeparates R mem A) {t1 : Tree K G}
    (hc : Constructed R A t1) (glob : Glob G) : ∃ t glob', Tree.fit R mem t1 glob none none = .ok (t, glob') := by
  obtain ⟨dd, hdd⟩ := maybeDiscrete_total hT.data_ne t1.cfg.makeDiscrete t1.discrete
  obtain ⟨hst, hdisc⟩ := hc.start dd
  have hdata : t1.data = A.data := hst.data
  have hcfg : t1.cfg.splitter = .best := by
    have := hst.cfg
    simp only [] at this
    rw [this]
    exact hT.splitter
  obtain ⟨n, _, hcall⟩ := hc.fit_runs (mem := mem) glob none none
  have hstart : loopStart t1 none none = .ok { t1 with discrete := dd, leaves := t1.leaves ++ [0] } := by
    unfold loopStart
    simp only [bothOrNeither, Bind.bind, Except.bind]
    rw [hdata, hdd]
    simp only [hcfg]
  have hdd' : maybeDiscrete t1.cfg.makeDiscrete t1.data t1.discrete = .ok dd := by rw [hdata]; exact hdd
  generalize Tree.fit R mem t1 glob none none = res at hcall ⊢
  cases hcall with
  | early h => rw [hstart] at h; cases h
  | loop h hr =>
    rw [hstart] at h
    cases h
    have hg : FitHead R mem { t1 with discrete := dd, leaves := t1.leaves ++ [0] } glob
      { t1 with discrete := dd, leaves := t1.leaves ++ [0] } glob := .init
    have key : ∀ (t : Tree K G) (gl : Glob G) (n : Nat) (r : Except Err (Tree K G × Glob G)), FitRuns R mem t gl n r →
        FitHead R mem { t1 with discrete := dd, leaves := t1.leaves ++ [0] } glob t gl → ∃ t glob', r = .ok (t, glob') := by
      intro t gl n r hr
      have htot : ∀ t gl, FitHead R mem { t1 with discrete := dd, leaves := t1.leaves ++ [0] } glob t gl →
          ∃ r, fitStep R mem t gl = .ok r := by
        intro t gl hh
        have hgr : Growing R mem A t gl := ⟨t1, glob, dd, hc, hdd', hh⟩
        have hf : GrowFacts R mem A dd { t1 with discrete := dd, leaves := t1.leaves ++ [0] } t :=
          .of_steps hst (by rw [hdisc] at hdd; exact hdd) (hh.sim hst.sim)
        exact fitStep_total hT hsolve hsep hf (fun m hm => hgr.leaves_le hm (hT.leaves m hm))
      induction hr with
      | raise hs =>
        intro hh
        obtain ⟨r, hr⟩ := htot _ _ hh
        rw [hs] at hr
        cases hr
      | stop hs => exact fun _ => ⟨_, _, rfl⟩
      | again hs _ ih => exact fun hh => ih (.step hh hs)
    exact key _ _ _ _ hr hg

end

end FF
