import Verif.Props.Cart
import Verif.Props.ForestPredict
import Verif.Props.ForestTotal

/-!
# Property C107: a forest without sampling is one textbook tree
-/

namespace Spec.CartProblem

variable {K : Type} [Field K] [LinearOrder K] {P P' : CartProblem K}

/-- Two problems that differ at most in the thresholds for columns that are never looked at. -/
structure Alike (P P' : CartProblem K) : Prop where
  value : P'.value = P.value
  label : P'.label = P.label
  cols : P'.cols = P.cols
  grid : ∀ f ∈ P.cols, P'.grid f = P.grid f
  imp : P'.imp = P.imp
  total : P'.total = P.total
  size : P'.size = P.size
  maxDepth : P'.maxDepth = P.maxDepth
  minSamples : P'.minSamples = P.minSamples
  minDecrease : P'.minDecrease = P.minDecrease

theorem Alike.isCart (h : Alike P P') {d : Nat} {rows : List Nat} {D : DTree K} (hD : P.IsCart d rows D) : P'.IsCart d rows D := by
  have hcand : ∀ rows, P'.candidates rows = P.candidates rows := by
    intro rows
    unfold candidates
    rw [h.cols, h.value]
    exact List.flatMap_congr (fun f hf => by rw [h.grid f hf])
  have hscore : ∀ rows c, P'.score rows c = P.score rows c := by
    intro rows c
    unfold score
    rw [h.value, h.label, h.imp]
  have hmay : ∀ d rows, P'.MaySplit d rows ↔ P.MaySplit d rows := by
    intro d rows
    constructor
    · rintro ⟨a, b, c⟩
      exact ⟨h.maxDepth ▸ a, h.minSamples ▸ b, h.label ▸ c⟩
    · rintro ⟨a, b, c⟩
      exact ⟨h.maxDepth.symm ▸ a, h.minSamples.symm ▸ b, h.label.symm ▸ c⟩
  have hbest : ∀ rows c, P'.FirstBest rows c ↔ P.FirstBest rows c := by
    intro rows c
    unfold FirstBest
    simp only [hcand, hscore]
  have hworth : ∀ rows s, P'.Worth rows s ↔ P.Worth rows s := by
    intro rows s
    constructor
    · rintro ⟨a, b, c⟩
      rw [h.total, h.minDecrease] at b c
      rw [h.size] at c
      exact ⟨a, b, c⟩
    · rintro ⟨a, b, c⟩
      refine ⟨a, ?_, ?_⟩
      · rw [h.total, h.minDecrease]; exact b
      · rw [h.total, h.size, h.minDecrease]; exact c
  induction hD with
  | leaf h1 =>
    refine .leaf (fun hm c hc => ?_)
    rw [hscore, hworth]
    exact h1 ((hmay _ _).1 hm) c ((hbest _ _).1 hc)
  | node hm hb hw _ _ ihy ihn =>
    refine .node ((hmay _ _).2 hm) ((hbest _ _).2 hb) (by rw [hscore, hworth]; exact hw) ?_ ?_
    · rw [h.value]; exact ihy
    · rw [h.value]; exact ihn

end Spec.CartProblem

namespace FF

open Spec

set_option linter.unusedSectionVars false

variable {K : Type} [Field K] [LinearOrder K] [FloorRing K] [NpFun K] {G G' : Type}

/-- Settings of a forest that leave nothing to chance: the exact solver, one threshold per value (IDENTITY) or evenly spaced ones
(LINEAR), all columns in every node, no bootstrap and no subsets of rows or columns, no boosting, no leaf limit. -/
structure PlainForest (cfg : ForestCfg K) : Prop where
  solver : cfg.solver = .exact
  binning : cfg.binType = some .identity ∨ cfg.binType = some .linear
  bins : cfg.useLog = false → cfg.numBins ≠ some 1
  features : cfg.featSub = .none
  depth : cfg.maxDepth ≠ .none
  leaves : cfg.maxLeafNodes = none
  bootstrap : cfg.bootstrap = false
  boosting : cfg.boosting = false
  alphaN : cfg.alphaN = 1
  alphaF : cfg.alphaF = 1

/-- The labels as the trees see them: classes are truncated to integers. -/
def seenLabels (cfg : ForestCfg K) (labels : List K) : List K := if cfg.isCls then labels.map truncInt else labels

/-- The greedy tree problem of a training set and the settings of a forest. Equally spaced thresholds go from the smallest to the
largest value, in the node, or in the whole column if so asked (`use_precomputed_minmax`). -/
def forestProblem (cfg : ForestCfg K) (data : List (List K)) (labels : List K) : CartProblem K where
  value i f := (data.getD i []).getD f 0
  label i := (seenLabels cfg labels).getD i 0
  cols := List.range (data.getD 0 []).length
  grid f vals :=
    match cfg.binType with
    | some .identity => valueGrid vals
    | some .linear =>
      let B := if cfg.useLog then Nat.log2 vals.length + 1 else cfg.numBins.getD 0
      let span := if cfg.precompMinmax then data.map (fun row => row.getD f 0) else vals
      evenGrid (span.min?.getD 0) (span.max?.getD 0) B
    | _ => []
  imp := if cfg.isCls then gini else variance
  total := data.length
  size := labels.length
  maxDepth := match cfg.maxDepth with
    | .some d => some d
    | _ => none
  minSamples := cfg.minSamplesSplit
  minDecrease := cfg.minImpDec

variable [IsStrictOrderedRing K]

theorem npMin_min? (l : List K) : npMin l = l.min? := by cases l <;> rfl
theorem npMax_max? (l : List K) : npMax l = l.max? := by cases l <;> rfl

theorem ReadsAs.cached {t t' : Tree K G} (h : CacheOf t t') {id : Nat} {D : DTree K} (hr : ReadsAs t id D) : ReadsAs t' id D := by
  have key : ∀ (id : Nat) (nd : Node K), NodeAt t id nd → ∃ nd', NodeAt t' id nd' ∧ nd'.left = nd.left ∧ nd'.right = nd.right ∧
      nd'.splitFeature = nd.splitFeature ∧ nd'.splitValue = nd.splitValue ∧ nd'.idcs = nd.idcs := by
    intro id nd hn
    have := (List.getElem?_eq_some_iff.1 hn).1
    rw [← h.len] at this
    have h2 := List.getElem?_eq_getElem this
    have hc := (h.nodes _ _ _ hn h2).eq
    refine ⟨_, h2, ?_⟩
    rw [hc]
    exact ⟨rfl, rfl, rfl, rfl, rfl⟩
  induction hr with
  | leaf hn hl hr =>
    obtain ⟨nd', e1, e2, e3, _, _, e6⟩ := key _ _ hn
    rw [← e6]
    exact .leaf e1 (e2.trans hl) (e3.trans hr)
  | node hn hl hr hf _ _ ihy ihn =>
    obtain ⟨nd', e1, e2, e3, e4, e5, _⟩ := key _ _ hn
    rw [← e5]
    exact .node e1 (e2.trans hl) (e3.trans hr) (e4.trans hf) ihy ihn

/-- What one tree of a forest without sampling was given. -/
structure PlainTree (R : Rng K G) (mem : Nat → Nat → Junk K) (cfg : ForestCfg K) (data : List (List K)) (labels : List K) (classes : ClassDict K)
    (A : TreeArgs K) (t0 t : Tree K G) : Prop where
  fitted : ∃ i, Fitted R (mem i) A t0
  after : AfterPredicts t0 t
  rows : A.rows = List.range data.length
  labels_eq : A.labels = seenLabels cfg labels
  cols : A.cols = List.range (data.getD 0 []).length
  isCls : A.cfg.isCls = cfg.isCls
  classes_eq : A.cfg.classes = classes
  leaves : A.cfg.maxLeafNodes = none
  noChoice : NoChoice A
  alike : (forestProblem cfg data labels).Alike A.problem
  ne : data ≠ []

theorem plain_trees {R : Rng K G} {mem : Nat → Nat → Junk K} {w w1 w2 : World K G} {cfg : ForestCfg K} (hp : PlainForest cfg)
    {data : List (List K)} {ref : Nat} {f0 f : Forest K G} (hi : Forest.init R w cfg none (some data) (some ref) none = .ok (f0, w1))
    (h : Forest.fit R mem f0 w1 none none = .ok (f, w2)) {t : Tree K G} (ht : t ∈ f.trees) :
    ∃ A t0, PlainTree R mem cfg data (w.arrays.getD ref []) f0.classes A t0 t := by
  obtain ⟨i, hti⟩ := List.mem_iff_getElem?.1 ht
  obtain ⟨i1, i2, _, _, _, i6, i7, i8, i9, i10⟩ := Forest_init_fields hi
  obtain ⟨ms, _, hne, hmade⟩ := Forest_fit_made h
  obtain ⟨m, _, hm, hlab⟩ := hmade i t hti
  obtain ⟨hcfg, hcls, _⟩ := Forest_fit_same h
  obtain ⟨dat, fs, ws, hs, hl⟩ := Forest_fit_start h
  obtain ⟨l, hr⟩ := forestLoop_run hl
  have hdat : trainData f0 none = data := by
    unfold trainData
    rw [i8]
    rfl
  have hdat' : dat = data := hs.dat_eq.trans hdat
  rw [hdat] at hm hne
  have hc : f.cfg = { cfg with makeDiscrete := false } := by
    rw [hcfg, i1, if_pos]
    exact hp.binning.symm
  have hdisc0 : f0.discrete = none := by
    unfold Forest.init at hi
    simp only [] at hi
    split_ifs at hi <;> (cases hi; rfl)
  have hdisc : f.discrete = none := by
    have e1 : f.discrete = fs.discrete := by rw [hr.same]
    have e2 := hs.disc
    have e3 : f0.cfg.makeDiscrete = false := by rw [← hcfg, hc]
    rw [e3, hdisc0] at e2
    rw [e1]
    unfold maybeDiscrete at e2
    exact (Except.ok.inj e2).symm
  have hmm : f.minmax = if cfg.precompMinmax then some (colMinMax data (data.getD 0 []).length) else none := by
    have e1 : f.minmax = fs.minmax := by rw [hr.same]
    have e3 : f0.cfg.precompMinmax = cfg.precompMinmax := by rw [← hcfg, hc]
    rw [e1, hs.eq, hdat', ← e3, ← i9]
  have hlabels : m.args.labels = seenLabels cfg (w.arrays.getD ref []) := by
    rw [hlab (by rw [← hcfg, hc]; exact hp.boosting)]
    unfold treeLabels seenLabels trainLabels
    rw [i6, i10, ← hcfg, hc]
    rfl
  have hrem : f.remaining = none := by
    have := (Forest_fit_accounting h).2.1
    rw [this, i2]
    rfl
  obtain ⟨rows0, rows, cols, g, g1, g2, d1, d2, d3, d4⟩ := hm.draw
  have hsub : rows0 = List.range data.length ∧ cols = List.range (data.getD 0 []).length := by
    unfold subsets at d1
    rw [hc, if_neg (by simp only [hp.alphaN, hp.alphaF]; simp)] at d1
    simp only [Except.ok.injEq, Prod.mk.injEq] at d1
    exact ⟨d1.1.symm, d1.2.1.symm⟩
  have hrows : rows = rows0 := by
    unfold bootstrapIdcs at d2
    rw [hc] at d2
    simp only [hp.bootstrap] at d2
    cases d2
    rfl
  have hArows : m.args.rows = List.range data.length := by
    unfold TreeArgs.rows
    rw [d3, hrows, hsub.1]
    rfl
  have hAcols : m.args.cols = List.range (data.getD 0 []).length := by
    unfold TreeArgs.cols
    rw [d4, hsub.2]
    rfl
  have hlen : m.args.labels.length = (w.arrays.getD ref []).length := by
    rw [hlabels]
    unfold seenLabels
    split_ifs <;> simp
  have hmcfg : m.args.cfg = f.treeCfg := hm.cfg
  refine ⟨m.args, m.tree, {
    fitted := ⟨i, hm.fitted⟩
    after := hm.after
    rows := hArows
    labels_eq := hlabels
    cols := hAcols
    isCls := by rw [hmcfg]; show f.cfg.isCls = _; rw [hc]
    classes_eq := by rw [hmcfg]; exact hcls
    leaves := by rw [hmcfg]; show f.cfg.maxLeafNodes = _; rw [hc]; exact hp.leaves
    noChoice := ⟨⟨?_, ?_, ?_, ?_, ?_⟩, ?_, ?_, ?_, hm.budget hrem, ?_⟩
    alike := ?_
    ne := hne }⟩
  · rw [hmcfg]
    show CritFits f.cfg.isCls (if f.cfg.isCls then .gini else .mse)
    cases f.cfg.isCls <;> simp [CritFits]
  · intro mins maxs hmm' j lo hi' hlo hhi
    rw [hmcfg] at hmm'
    change f.minmax = _ at hmm'
    rw [hmm] at hmm'
    split_ifs at hmm'
    exact (colMinMax_le hne (Option.some.inj hmm') j hlo hhi).1
  · intro j u hu
    rw [hm.disc, hdisc] at hu
    cases hu
  · intro _
    rw [hmcfg]
    show f.cfg.useLog = false → f.cfg.numBins ≠ _
    rw [hc]
    exact hp.bins
  · intro hb
    rw [hmcfg] at hb
    change f.cfg.binType = none at hb
    rw [hc] at hb
    change cfg.binType = none at hb
    rcases hp.binning with q | q <;> (rw [q] at hb; cases hb)
  · rw [hmcfg]; show f.cfg.solver = _; rw [hc]; exact hp.solver
  · rw [hmcfg]; show f.cfg.binType = _ ∨ f.cfg.binType = _; rw [hc]; exact hp.binning
  · rw [hmcfg]; show f.cfg.featSub = _; rw [hc]; exact hp.features
  · rw [hmcfg]; show f.cfg.maxDepth ≠ _; rw [hc]; exact hp.depth
  · exact {
      value := by
        show (fun i f => (m.args.data.getD i []).getD f 0) = _
        rw [hm.data_eq]
        rfl
      label := by
        show (fun i => m.args.labels.getD i 0) = _
        rw [hlabels]
        rfl
      cols := hAcols
      grid := by
        intro j hj
        have hj' : j < (data.getD 0 []).length := List.mem_range.1 hj
        funext vals
        show gridOf m.args.cfg j vals = (match cfg.binType with
          | some .identity => valueGrid vals
          | some .linear =>
            let B := if cfg.useLog then Nat.log2 vals.length + 1 else cfg.numBins.getD 0
            let span := if cfg.precompMinmax then data.map (fun row => row.getD j 0) else vals
            evenGrid (span.min?.getD 0) (span.max?.getD 0) B
          | _ => [])
        unfold gridOf
        have a1 : m.args.cfg.binType = cfg.binType := by rw [hmcfg]; show f.cfg.binType = _; rw [hc]
        have a2 : m.args.cfg.useLog = cfg.useLog := by rw [hmcfg]; show f.cfg.useLog = _; rw [hc]
        have a3 : m.args.cfg.numBins = cfg.numBins := by rw [hmcfg]; show f.cfg.numBins = _; rw [hc]
        have a4 : m.args.cfg.minmax = if cfg.precompMinmax then some (colMinMax data (data.getD 0 []).length) else none := by
          rw [hmcfg]; exact hmm
        rw [a1, a2, a3, a4]
        rcases hp.binning with q | q
        · simp only [q]
        · simp only [q]
          cases cfg.precompMinmax with
          | false => rfl
          | true =>
            simp only [if_true, colMinMax]
            have look : ∀ (c : Nat → K) (F : Nat), j < F → ((List.range F).map c).getD j 0 = c j := by
              intro c F hF
              rw [List.getD_eq_getElem _ _ (by simpa using hF), List.getElem_map, List.getElem_range]
            rw [look _ _ hj', look _ _ hj', npMin_min?, npMax_max?]
      imp := by
        show critImp m.args.cfg.criterion = _
        rw [hmcfg]
        show critImp (if f.cfg.isCls then .gini else .mse) = if cfg.isCls then gini else variance
        have : f.cfg.isCls = cfg.isCls := by rw [hc]
        rw [this]
        cases cfg.isCls <;> rfl
      total := by
        show m.args.rows.length = data.length
        rw [hArows, List.length_range]
      size := hlen
      maxDepth := by
        have : m.args.cfg.maxDepth = cfg.maxDepth := by rw [hmcfg]; show f.cfg.maxDepth = _; rw [hc]
        show (match m.args.cfg.maxDepth with
          | .some d => some d
          | _ => none) = (match cfg.maxDepth with
          | .some d => some d
          | _ => none)
        rw [this]
      minSamples := by
        show m.args.cfg.minSamplesSplit = _
        rw [hmcfg]; show f.cfg.minSamplesSplit = _; rw [hc]; rfl
      minDecrease := by
        show m.args.cfg.minImpDec = _
        rw [hmcfg]; show f.cfg.minImpDec = _; rw [hc]; rfl }

theorem runForest_parts {R : Rng K G} {mem : Nat → Nat → Junk K} {w w1 : World K G} {cfg : ForestCfg K} {data : List (List K)} {ref : Nat}
    {budget : Option Int} {f : Forest K G} (h : runForest R mem w cfg data ref budget = .ok (f, w1)) :
    ∃ f0 w0, Forest.init R w cfg none (some data) (some ref) budget = .ok (f0, w0) ∧ Forest.fit R mem f0 w0 none none = .ok (f, w1) := by
  unfold runForest at h
  cases hi : Forest.init R w cfg none (some data) (some ref) budget with
  | error e => rw [hi] at h; cases h
  | ok q =>
    rw [hi] at h
    exact ⟨q.1, q.2, rfl, h⟩

theorem PlainTree.reads {R : Rng K G} {mem : Nat → Nat → Junk K} {cfg : ForestCfg K} {data : List (List K)} {labels : List K}
    {classes : ClassDict K} {A : TreeArgs K} {t0 t : Tree K G} (h : PlainTree R mem cfg data labels classes A t0 t) :
    ∃ D, (forestProblem cfg data labels).IsCart 0 (List.range data.length) D ∧ ReadsAs t 0 D := by
  obtain ⟨i, hf⟩ := h.fitted
  obtain ⟨D, e1, e2, _⟩ := C101_greedy_tree R (mem i) A h.noChoice t0 hf (by rw [h.leaves]; simp)
  obtain ⟨dd, t00, hg⟩ := hf.facts
  have ha := h.alike
  have hback : A.problem.Alike (forestProblem cfg data labels) :=
    ⟨ha.value.symm, ha.label.symm, ha.cols.symm, fun f hf => (ha.grid f (ha.cols ▸ hf)).symm, ha.imp.symm, ha.total.symm, ha.size.symm,
      ha.maxDepth.symm, ha.minSamples.symm, ha.minDecrease.symm⟩
  refine ⟨D, ?_, e1.cached (h.after.cache hg.cache)⟩
  rw [← h.rows]
  exact hback.isCart e2

/-- C107. A forest without sampling has as many trees as asked for, and each of them is the textbook greedy tree of the whole training
set (there is only one such tree). -/
theorem C107_one_tree (R : Rng K G) (mem : Nat → Nat → Junk K) (w w1 : World K G) (cfg : ForestCfg K) (hp : PlainForest cfg)
    (data : List (List K)) (ref : Nat) (f : Forest K G) (h : runForest R mem w cfg data ref none = .ok (f, w1)) (hn : 1 ≤ cfg.nEstimators) :
    f.trees.length = cfg.nEstimators ∧
    ∃ D, (forestProblem cfg data (w.arrays.getD ref [])).IsCart 0 (List.range data.length) D ∧
      (∀ D', (forestProblem cfg data (w.arrays.getD ref [])).IsCart 0 (List.range data.length) D' → D' = D) ∧
      ∀ t ∈ f.trees, ReadsAs t 0 D := by
  obtain ⟨f0, w0, hi, hf⟩ := runForest_parts h
  have hlen : f.trees.length = cfg.nEstimators := by
    obtain ⟨i1, i2, _⟩ := Forest_init_fields hi
    rw [(Forest_fit_accounting hf).2.2.2 i2, i1]
  refine ⟨hlen, ?_⟩
  have key : ∀ t ∈ f.trees, ∃ D, (forestProblem cfg data (w.arrays.getD ref [])).IsCart 0 (List.range data.length) D ∧ ReadsAs t 0 D := by
    intro t ht
    obtain ⟨A, t0, hpt⟩ := plain_trees hp hi hf ht
    exact hpt.reads
  obtain ⟨t, ht⟩ : ∃ t, t ∈ f.trees := List.exists_mem_of_ne_nil _ (by intro q; rw [q] at hlen; simp at hlen; omega)
  obtain ⟨D, hD, _⟩ := key t ht
  refine ⟨D, hD, fun D' h' => h'.unique hD, ?_⟩
  intro t' ht'
  obtain ⟨D', hD', hr'⟩ := key t' ht'
  rw [← CartProblem.IsCart.unique hD' hD]
  exact hr'

theorem mean_const {l : List K} (hne : l ≠ []) {c : K} (h : ∀ a ∈ l, a = c) : mean l = c := by
  have hl : l = List.replicate l.length c := List.eq_replicate_iff.2 ⟨rfl, h⟩
  have hpos : (l.length : K) ≠ 0 := by
    have := List.length_pos_of_ne_nil hne
    exact_mod_cast this.ne'
  unfold mean
  rw [hl, List.sum_replicate, List.length_replicate, nsmul_eq_mul]
  field_simp

/-- C107, what the forest answers, before and after other predictions: the mean of the targets, or the class frequencies and the first
most frequent class, of the training rows in the leaf of the textbook tree where the point ends. -/
theorem C107_answers (R : Rng K G) (mem : Nat → Nat → Junk K) (w w1 : World K G) (cfg : ForestCfg K) (hp : PlainForest cfg)
    (data : List (List K)) (ref : Nat) (f f1 f2 : Forest K G) (h : runForest R mem w cfg data ref none = .ok (f, w1)) (D : DTree K)
    (hD : (forestProblem cfg data (w.arrays.getD ref [])).IsCart 0 (List.range data.length) D) (ha : AfterReads f f1)
    (x : List K) (p : Pred K) (hx : f1.predict x = .ok (p, f2)) :
    let ys := labelsOf (seenLabels cfg (w.arrays.getD ref [])) (D.rowsAt x)
    let classes := classToIdx (npUnique (w.arrays.getD ref []))
    (cfg.isCls = false → p = .reg (mean ys)) ∧
    (cfg.isCls = true → ∃ label i, p = .cls label (classes.map (fun c => freq ys c.1)) ∧ classes[i]? = some (label, i) ∧
      ∀ (j : Nat) (c : K × Nat), classes[j]? = some c → freq ys c.1 ≤ freq ys label ∧ (j < i → freq ys c.1 < freq ys label)) := by
  dsimp only
  obtain ⟨f0, w0, hi, hf⟩ := runForest_parts h
  obtain ⟨i1, _⟩ := Forest_init_fields hi
  have tree : ∀ t ∈ f.trees, ∀ q t2, t.predict x = .ok (q, t2) → ∃ A t0,
      PlainTree R mem cfg data (w.arrays.getD ref []) f0.classes A t0 t ∧ A.problem.IsCart 0 A.rows D := by
    intro t ht q t2 hq
    obtain ⟨A, t0, hpt⟩ := plain_trees hp hi hf ht
    exact ⟨A, t0, hpt, by rw [hpt.rows]; exact hpt.alike.isCart hD⟩
  constructor
  · intro hc
    obtain ⟨vs, e1, e2, e3, _⟩ := C52_mean_in_range R mem f0 f f1 f2 w0 w1 none none hf (by rw [i1]; exact hc)
      (by rw [i1]; exact hp.boosting) (by rw [i1]; exact hp.alphaN.le) (by rw [i1]; exact hp.alphaF.le) ha x p hx
    rw [e3, mean_const e2]
    intro v hv
    obtain ⟨j, hj⟩ := List.mem_iff_getElem?.1 hv
    obtain ⟨t, ht, hans⟩ := forall₂_getElem e1 hj
    cases htp : t.predict x with
    | error e => rw [htp] at hans; cases hans
    | ok r =>
      obtain ⟨q, t2⟩ := r
      rw [htp] at hans
      obtain ⟨A, t0, hpt, hDA⟩ := tree t (List.mem_of_getElem? ht) q t2 htp
      obtain ⟨i, hfit⟩ := hpt.fitted
      have := (C101_answers R (mem i) A hpt.noChoice t0 t t2 hfit (by rw [hpt.leaves]; simp)
        (fun hcl => by rw [hpt.isCls, hc] at hcl; cases hcl) D hDA hpt.after x q htp).1 (hpt.isCls.trans hc)
      rw [hpt.labels_eq] at this
      rw [this] at hans
      cases hans
      rfl
  · intro hc
    obtain ⟨hok, _⟩ := C51_default_classes R w w0 cfg hc (some data) ref none f0 hi
    have hcl : f0.classes = classToIdx (npUnique (w.arrays.getD ref [])) := by
      unfold Forest.init at hi
      simp only [] at hi
      split_ifs at hi <;> (cases hi; rfl)
    obtain ⟨qs, label, avg, i, e1, e2, e3, e4, e5, _, _, e8, top, e9, e10⟩ :=
      C51_average R mem f0 f f1 f2 w0 w1 none none hf (by rw [i1]; exact hc) hok ha x p hx
    rw [← hcl]
    set ys := labelsOf (seenLabels cfg (w.arrays.getD ref [])) (D.rowsAt x) with hys
    have hq : ∀ q ∈ qs, q = f0.classes.map (fun c => freq ys c.1) := by
      intro q hq
      obtain ⟨j, hj⟩ := List.mem_iff_getElem?.1 hq
      obtain ⟨t, ht, l, hans⟩ := forall₂_getElem e1 hj
      cases htp : t.predict x with
      | error e => rw [htp] at hans; cases hans
      | ok r =>
        obtain ⟨q', t2⟩ := r
        rw [htp] at hans
        obtain ⟨A, t0, hpt, hDA⟩ := tree t (List.mem_of_getElem? ht) q' t2 htp
        obtain ⟨i', hfit⟩ := hpt.fitted
        obtain ⟨l', _, h1, _⟩ := (C101_answers R (mem i') A hpt.noChoice t0 t t2 hfit (by rw [hpt.leaves]; simp)
          (fun _ => by rw [hpt.classes_eq]; exact hok) D hDA hpt.after x q' htp).2 (hpt.isCls.trans hc)
        rw [h1, hpt.labels_eq, hpt.classes_eq] at hans
        cases hans
        rfl
    have havg : avg = f0.classes.map (fun c => freq ys c.1) := by
      apply List.ext_getElem?
      intro j
      by_cases hj : j < f0.classes.length
      · rw [e5 j hj, List.getElem?_map, List.getElem?_eq_getElem hj, Option.map_some]
        congr 1
        apply mean_const (by simpa using e2)
        intro a ha'
        obtain ⟨q, hq', rfl⟩ := List.mem_map.1 ha'
        rw [hq q hq', List.getD_eq_getElem _ _ (by simpa using hj), List.getElem_map]
      · rw [List.getElem?_eq_none (by omega), List.getElem?_eq_none (by simpa using hj)]
    refine ⟨label, i, by rw [e3, havg], e8, ?_⟩
    have htop : top = freq ys label := by
      rw [havg, List.getElem?_map, e8] at e9
      exact (Option.some.inj e9).symm
    intro j c hjc
    have := e10 j (freq ys c.1) (by rw [havg, List.getElem?_map, hjc]; rfl)
    rw [htop] at this
    exact this

/-- C107, nothing else matters: two such forests, with the same data, labels and settings except for the number of trees and the seed,
answer alike for every point with enough columns. -/
theorem C107_seed_and_size (R : Rng K G) (R' : Rng K G') (mem mem' : Nat → Nat → Junk K) (w w1 : World K G) (w' w1' : World K G')
    (cfg : ForestCfg K) (hp : PlainForest cfg) (n seed : Nat) (data : List (List K)) (ref ref' : Nat)
    (hl : w'.arrays.getD ref' [] = w.arrays.getD ref []) (f f1 : Forest K G) (f' f1' : Forest K G')
    (h : runForest R mem w cfg data ref none = .ok (f, w1))
    (h' : runForest R' mem' w' { cfg with nEstimators := n, randomState := seed } data ref' none = .ok (f', w1'))
    (hn : 1 ≤ cfg.nEstimators) (hn' : 1 ≤ n) (ha : AfterReads f f1) (ha' : AfterReads f' f1') (x : List K)
    (hx : (data.getD 0 []).length ≤ x.length) :
    ∃ p f2 f2', f1.predict x = .ok (p, f2) ∧ f1'.predict x = .ok (p, f2') := by
  have hp' : PlainForest { cfg with nEstimators := n, randomState := seed } :=
    ⟨hp.solver, hp.binning, hp.bins, hp.features, hp.depth, hp.leaves, hp.bootstrap, hp.boosting, hp.alphaN, hp.alphaF⟩
  obtain ⟨hlen, D, hD, _⟩ := C107_one_tree R mem w w1 cfg hp data ref f h hn
  obtain ⟨hlen', _⟩ := C107_one_tree R' mem' w' w1' _ hp' data ref' f' h' hn'
  have hD' : (forestProblem { cfg with nEstimators := n, randomState := seed } data (w'.arrays.getD ref' [])).IsCart 0
      (List.range data.length) D := by
    rw [hl]
    exact hD
  have total : ∀ {G : Type} (R : Rng K G) (mem : Nat → Nat → Junk K) (w w1 : World K G) (cfg : ForestCfg K) (_ : PlainForest cfg) (ref : Nat)
      (f f1 : Forest K G) (_ : runForest R mem w cfg data ref none = .ok (f, w1)) (_ : f.trees ≠ []) (_ : AfterReads f f1),
      ∃ p f2, f1.predict x = .ok (p, f2) := by
    intro G R mem w w1 cfg hp ref f f1 h hne ha
    obtain ⟨f0, w0, hi, hf⟩ := runForest_parts h
    obtain ⟨i1, _, _, _, _, _, _, i8, _⟩ := Forest_init_fields hi
    have hdat : trainData f0 none = data := by
      unfold trainData
      rw [i8]
      rfl
    obtain ⟨_, _, hdne, _⟩ := Forest_fit_made hf
    rw [hdat] at hdne
    refine C51_predict_total R mem f0 f f1 w0 w1 none none hf ?_ (by rw [i1]; exact hp.alphaN.le) (by rw [i1]; exact hp.alphaF.le) ?_ hne ha x
      (by rw [hdat]; exact hx)
    · intro hc
      rw [i1] at hc
      exact (C51_default_classes R w w0 cfg hc (some data) ref none f0 hi).1
    · rw [i1, hdat]
      show 1 ≤ (data.length : K) * cfg.alphaN
      rw [hp.alphaN, mul_one]
      have := List.length_pos_of_ne_nil hdne
      exact_mod_cast this
  obtain ⟨p, f2, hpred⟩ := total R mem w w1 cfg hp ref f f1 h (by intro q; rw [q] at hlen; simp at hlen; omega) ha
  obtain ⟨p', f2', hpred'⟩ := total R' mem' w' w1' _ hp' ref' f' f1' h' (by intro q; rw [q] at hlen'; simp at hlen'; omega) ha'
  have e := C107_answers R mem w w1 cfg hp data ref f f1 f2 h D hD ha x p hpred
  have e' := C107_answers R' mem' w' w1' _ hp' data ref' f' f1' f2' h' D hD' ha' x p' hpred'
  rw [hl] at e'
  dsimp only at e e'
  refine ⟨p, f2, f2', hpred, ?_⟩
  suffices p' = p by rw [hpred', this]
  cases hc : cfg.isCls with
  | false =>
    rw [e.1 hc, e'.1 hc]
    rfl
  | true =>
    obtain ⟨l, i, a1, a2, a3⟩ := e.2 hc
    obtain ⟨l', i', b1, b2, b3⟩ := e'.2 hc
    have hii : i' = i := by
      rcases Nat.lt_trichotomy i i' with q | q | q
      · exact absurd ((b3 i _ a2).2 q) (not_lt.2 (a3 i' _ b2).1)
      · exact q.symm
      · exact absurd ((a3 i' _ b2).2 q) (not_lt.2 (b3 i _ a2).1)
    subst hii
    rw [a2] at b2
    cases b2
    rw [a1, b1]
    rfl

/-- A classification forest without sampling. -/
def fcfgPlain : ForestCfg ℚ := { fcfgQ with bootstrap := false }

/-- A regression forest without sampling, with thresholds spaced evenly over the whole columns. -/
def fcfgPlainReg : ForestCfg ℚ :=
  { fcfgQ with isCls := false, bootstrap := false, binType := some .linear, numBins := some 3, precompMinmax := true, nEstimators := 3 }

/-- The hypotheses of C107 are met: both trees ask the same two questions. -/
example : PlainForest fcfgPlain ∧ 1 ≤ fcfgPlain.nEstimators ∧
    (runForest rngQ exMems exWorld fcfgPlain exData 0 none).toOption.map (fun r => r.1.trees.map (fun t => readTree t 9 0)) =
      some [.node 1 2 (.leaf [3, 5]) (.node 0 0 (.leaf [0]) (.leaf [1, 2, 4])),
        .node 1 2 (.leaf [3, 5]) (.node 0 0 (.leaf [0]) (.leaf [1, 2, 4]))] :=
  ⟨⟨rfl, .inl rfl, fun _ => by decide, rfl, by decide, rfl, rfl, rfl, rfl, rfl⟩, by decide, by decide +kernel⟩

/-- The same for the regression forest, and what it answers with another seed and another number of trees. -/
example : PlainForest fcfgPlainReg ∧
    [(3, 3), (1, 8), (2, 0)].map (fun s => (runForest rngQ exMems exWorldReg { fcfgPlainReg with nEstimators := s.1, randomState := s.2 }
      exData 0 none).toOption.map (fun r => [[0, 2], [4, 1], [4, 9]].map (fun x => (r.1.predict x).toOption.map Prod.fst))) =
      List.replicate 3 (some [some (.reg 1), some (.reg 7), some (.reg 11)]) :=
  ⟨⟨rfl, .inr rfl, fun _ => by decide, rfl, by decide, rfl, rfl, rfl, rfl, rfl⟩, by decide +kernel⟩

end FF
