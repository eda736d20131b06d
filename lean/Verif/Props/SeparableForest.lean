import Verif.Props.Separable
import Verif.Props.OneTree

/-!
# C163 for forests without sampling
-/

set_option linter.unusedSectionVars false

namespace FF

open Spec

variable {K : Type} [Field K] [LinearOrder K] [IsStrictOrderedRing K] [FloorRing K] [NpFun K] {G : Type}

theorem forestProblem_sound (cfg : ForestCfg K) (data : List (List K)) (labels : List K) : SoundImp (forestProblem cfg data labels).imp := by
  show SoundImp (if cfg.isCls then gini else variance)
  by_cases h : cfg.isCls = true
  · rw [if_pos h]
    exact ⟨gini_ge_zero, fun _ h => gini_eq_zero_iff h⟩
  · rw [if_neg h]
    exact ⟨variance_nonneg, fun _ h => variance_eq_zero_iff h⟩

/-- Rows that a separating question sends the same way have the same label. -/
theorem CartProblem.Separates.sameLabel {P : CartProblem K} {rows : List Nat} {f : Nat} {v : K} (hs : P.Separates rows f v) (x : List K) {i j : Nat}
    (hi : i ∈ (P.stump rows f v).rowsAt x) (hj : j ∈ (P.stump rows f v).rowsAt x) : P.label j = P.label i := by
  unfold CartProblem.stump at hi hj
  simp only [DTree.rowsAt] at hi hj
  split at hj
  · cases hj
  rename_i a hfa
  rw [hfa] at hi
  dsimp only at hi
  by_cases hav : a ≤ v
  · rw [if_pos hav] at hi hj
    rw [List.mem_filter, decide_eq_true_eq] at hi hj
    exact hs.1 j hj.1 i hi.1 hj.2 hi.2
  · rw [if_neg hav] at hi hj
    rw [List.mem_filter, decide_eq_true_eq] at hi hj
    exact hs.2 j hj.1 i hi.1 hj.2 hi.2

/-- C163, forests without sampling: if one question tells the labels apart and the limits allow it, all the trees ask the same single question, and it
tells the labels apart. -/
theorem C163_forest (R : Rng K G) (mem : Nat → Nat → Junk K) (w w1 : World K G) (cfg : ForestCfg K) (hp : PlainForest cfg) (data : List (List K))
    (ref : Nat) (f : Forest K G) (h : runForest R mem w cfg data ref none = .ok (f, w1)) (hn : 1 ≤ cfg.nEstimators)
    (hmay : (forestProblem cfg data (w.arrays.getD ref [])).MaySplit 0 (List.range data.length))
    (hworth : (forestProblem cfg data (w.arrays.getD ref [])).Worth (List.range data.length)
      (-((if cfg.isCls then gini else variance) (labelsOf (seenLabels cfg (w.arrays.getD ref [])) (List.range data.length)))))
    (j : Nat) (v : K) (hc : (j, v) ∈ (forestProblem cfg data (w.arrays.getD ref [])).candidates (List.range data.length))
    (hs : (forestProblem cfg data (w.arrays.getD ref [])).Separates (List.range data.length) j v) :
    ∃ j' v', (j', v') ∈ (forestProblem cfg data (w.arrays.getD ref [])).candidates (List.range data.length) ∧
      (forestProblem cfg data (w.arrays.getD ref [])).Separates (List.range data.length) j' v' ∧ f.trees.length = cfg.nEstimators ∧
      (forestProblem cfg data (w.arrays.getD ref [])).IsCart 0 (List.range data.length)
        ((forestProblem cfg data (w.arrays.getD ref [])).stump (List.range data.length) j' v') ∧
      ∀ t ∈ f.trees, ReadsAs t 0 ((forestProblem cfg data (w.arrays.getD ref [])).stump (List.range data.length) j' v') := by
  obtain ⟨hlen, D, hD, _, hall⟩ := C107_one_tree R mem w w1 cfg hp data ref f h hn
  obtain ⟨j', v', e1, e2, e3⟩ := hD.greedy.separated (forestProblem_sound cfg data _) hmay hworth hc hs
  rw [e3] at hD hall
  exact ⟨j', v', e1, e2, hlen, hD, hall⟩

/-- C163, answers of such a forest: every training row gets its own label (in classification with probability 1), before and after
other calls of `predict`. -/
theorem C163_forest_answers (R : Rng K G) (mem : Nat → Nat → Junk K) (w w1 : World K G) (cfg : ForestCfg K) (hp : PlainForest cfg) (data : List (List K))
    (ref : Nat) (f f1 : Forest K G) (h : runForest R mem w cfg data ref none = .ok (f, w1)) (hn : 1 ≤ cfg.nEstimators)
    (hmay : (forestProblem cfg data (w.arrays.getD ref [])).MaySplit 0 (List.range data.length))
    (hworth : (forestProblem cfg data (w.arrays.getD ref [])).Worth (List.range data.length)
      (-((if cfg.isCls then gini else variance) (labelsOf (seenLabels cfg (w.arrays.getD ref [])) (List.range data.length)))))
    (j : Nat) (v : K) (hc : (j, v) ∈ (forestProblem cfg data (w.arrays.getD ref [])).candidates (List.range data.length))
    (hs : (forestProblem cfg data (w.arrays.getD ref [])).Separates (List.range data.length) j v) (ha : AfterReads f f1) (i : Nat)
    (hi : i < data.length) (hwide : (data.getD 0 []).length ≤ (data.getD i []).length) :
    ∃ p f2, f1.predict (data.getD i []) = .ok (p, f2) ∧
      (cfg.isCls = false → p = .reg ((w.arrays.getD ref []).getD i 0)) ∧
      (cfg.isCls = true → p = .cls ((seenLabels cfg (w.arrays.getD ref [])).getD i 0)
        ((classToIdx (npUnique (w.arrays.getD ref []))).map (fun c => if c.1 = (seenLabels cfg (w.arrays.getD ref [])).getD i 0 then 1 else 0))) := by
  obtain ⟨j', v', hcand, hs', hlen, hD, hall⟩ := C163_forest R mem w w1 cfg hp data ref f h hn hmay hworth j v hc hs
  obtain ⟨f0, w0, hinit, hfit⟩ := runForest_parts h
  obtain ⟨i1, i2, _, _, _, i6, i7, i8, i9, i10⟩ := Forest_init_fields hinit
  have hne : f.trees ≠ [] := by
    intro h0
    rw [h0] at hlen
    simp at hlen
    omega
  have htd : trainData f0 none = data := by unfold trainData; rw [i8]; rfl
  have hdne : data ≠ [] := by rintro rfl; simp at hi
  have hone : (1 : K) ≤ ((trainData f0 none).length : K) * f0.cfg.alphaN := by
    rw [htd, i1, hp.alphaN, mul_one]
    exact_mod_cast List.length_pos_iff.2 hdne
  have hcls : f0.cfg.isCls = true → ClassesOK f0.classes := fun hcl =>
    (C51_default_classes R w w0 cfg (by rw [i1] at hcl; exact hcl) (some data) ref none f0 hinit).1
  obtain ⟨p, f2, hpred⟩ := C51_predict_total R mem f0 f f1 w0 w1 none none hfit hcls (by rw [i1]; exact hp.alphaN.le) (by rw [i1]; exact hp.alphaF.le)
    hone hne ha (data.getD i []) (by rw [htd]; exact hwide)
  refine ⟨p, f2, hpred, ?_⟩
  have hans := C107_answers R mem w w1 cfg hp data ref f f1 f2 h _ hD ha (data.getD i []) p hpred
  dsimp only at hans
  set D := (forestProblem cfg data (w.arrays.getD ref [])).stump (List.range data.length) j' v' with hDdef
  -- the row is in its own leaf
  have hmem : i ∈ D.rowsAt (data.getD i []) := by
    have hj' : j' < (data.getD i []).length := by
      obtain ⟨k, hk, hk'⟩ := List.mem_flatMap.1 hcand
      obtain ⟨u, _, hu⟩ := List.mem_map.1 hk'
      cases hu
      exact lt_of_lt_of_le (List.mem_range.1 hk) hwide
    have hval : (forestProblem cfg data (w.arrays.getD ref [])).value i j' = (data.getD i [])[j'] := by
      show (data.getD i []).getD j' 0 = _
      rw [List.getD_eq_getElem _ _ hj']
    rw [hDdef]
    unfold CartProblem.stump
    simp only [DTree.rowsAt]
    rw [List.getElem?_eq_getElem hj']
    dsimp only
    by_cases hav : (data.getD i [])[j'] ≤ v'
    · rw [if_pos hav, List.mem_filter, decide_eq_true_eq, hval]
      exact ⟨List.mem_range.2 hi, hav⟩
    · rw [if_neg hav, List.mem_filter, decide_eq_true_eq, hval]
      exact ⟨List.mem_range.2 hi, not_le.1 hav⟩
  set ys := labelsOf (seenLabels cfg (w.arrays.getD ref [])) (D.rowsAt (data.getD i [])) with hys
  have hyall : ∀ y ∈ ys, y = (seenLabels cfg (w.arrays.getD ref [])).getD i 0 := by
    intro y hy
    obtain ⟨k, hk, rfl⟩ := List.mem_map.1 hy
    exact CartProblem.Separates.sameLabel hs' (data.getD i []) hmem hk
  have hyne : ys ≠ [] := List.ne_nil_of_mem (List.mem_map.2 ⟨i, hmem, rfl⟩)
  refine ⟨fun hr => ?_, fun hc' => ?_⟩
  · rw [hans.1 hr]
    rw [mean_const hyne hyall]
    unfold seenLabels
    rw [if_neg (by rw [hr]; simp)]
  · obtain ⟨label, k, e1, e2, e3⟩ := hans.2 hc'
    have hfreq : ∀ c : K, freq ys c = if c = (seenLabels cfg (w.arrays.getD ref [])).getD i 0 then 1 else 0 := by
      intro c
      by_cases hk : c = (seenLabels cfg (w.arrays.getD ref [])).getD i 0
      · rw [if_pos hk]
        exact (freq_eq_one_iff hyne _).2 (fun y hy => by rw [hk]; exact hyall y hy)
      · rw [if_neg hk]
        unfold freq
        rw [List.count_eq_zero.2 (fun hk' => hk (hyall _ hk'))]
        simp
    have hprobs : (classToIdx (npUnique (w.arrays.getD ref []))).map (fun c => freq ys c.1) =
        (classToIdx (npUnique (w.arrays.getD ref []))).map (fun c => if c.1 = (seenLabels cfg (w.arrays.getD ref [])).getD i 0 then 1 else 0) :=
      List.map_congr_left (fun c _ => hfreq c.1)
    obtain ⟨qs, label', avg, k', _, _, q3, _, _, _, q7, _⟩ :=
      C51_average R mem f0 f f1 f2 w0 w1 none none hfit (by rw [i1]; exact hc') (hcls (by rw [i1]; exact hc')) ha (data.getD i []) p hpred
    rw [e1] at q3
    cases q3
    have hlabel : label = (seenLabels cfg (w.arrays.getD ref [])).getD i 0 := by
      by_contra hne'
      have h0 : freq ys label = 0 := by rw [hfreq, if_neg hne']
      have hz : ∀ a ∈ (classToIdx (npUnique (w.arrays.getD ref []))).map (fun c => freq ys c.1), a = 0 := by
        intro a ha'
        obtain ⟨c, hc1, rfl⟩ := List.mem_map.1 ha'
        obtain ⟨n, hn'⟩ := List.mem_iff_getElem?.1 hc1
        have := (e3 n c hn').1
        rw [h0] at this
        refine le_antisymm this ?_
        rw [hfreq]
        split <;> simp
      rw [List.sum_eq_zero hz] at q7
      exact zero_ne_one q7
    rw [e1, hprobs, hlabel]

/-! ### Forests on bootstrap samples -/

/-- A forest of the exact solver with a threshold at every value; its trees see all columns, and all rows or bootstrap samples of them. -/
structure BaggedForest (cfg : ForestCfg K) : Prop where
  solver : cfg.solver = .exact
  binning : cfg.binType = some .identity
  bins : cfg.useLog = false → cfg.numBins ≠ some 1
  features : cfg.featSub = .none
  depth : cfg.maxDepth ≠ .none
  leaves : cfg.maxLeafNodes = none
  boosting : cfg.boosting = false
  alphaN : cfg.alphaN = 1
  alphaF : cfg.alphaF = 1

/-- If a question separates the labels, a greedy tree asks at most one question, whatever the limits are. -/
theorem greedy_separated_or_leaf {P : CartProblem K} (hi : SoundImp P.imp) {d : Nat} {rows : List Nat} {D : DTree K} (h : P.IsGreedy d rows D) {f : Nat}
    {v : K} (hc : (f, v) ∈ P.candidates rows) (hs : P.Separates rows f v) :
    D = .leaf rows ∨ ∃ f' v', P.Separates rows f' v' ∧ D = P.stump rows f' v' := by
  cases h with
  | leaf hl => exact Or.inl rfl
  | @node _ _ f' v' yes no hm hb hw hy hn =>
    have hr : rows ≠ [] := by obtain ⟨i, hi, _⟩ := hm.mixed; exact List.ne_nil_of_mem hi
    have hsc := (CartProblem.score_separates hi hr f v).2.2 hs
    have hsc' : P.score rows (f', v') = -(P.imp (rows.map P.label)) :=
      le_antisymm (by rw [← hsc]; exact hb.2 _ hc) (CartProblem.score_separates hi hr f' v').1
    obtain ⟨f2, v2, _, e2, e3⟩ := (CartProblem.IsGreedy.node hm hb hw hy hn).separated hi hm (by rw [← hsc']; exact hw) hc hs
    exact Or.inr ⟨f2, v2, e2, e3⟩

/-- C163, whatever the limits: if a question on a column of the tree separates the labels of its rows, a tree of the exact solver with IDENTITY bins is
a single leaf or asks one question, which then separates them. -/
theorem C163_at_most_one (R : Rng K G) (mem : Nat → Junk K) (A : TreeArgs K) (hA : NoChoice A) (hb : A.cfg.binType = some .identity)
    (hcrit : A.cfg.criterion ≠ .entropy) (t : Tree K G) (h : Fitted R mem A t) (hm : A.cfg.maxLeafNodes ≠ some t.leaves.length) (f : Nat)
    (hf : f ∈ A.cols) (s : K) (hs : A.problem.Separates A.rows f s) :
    ReadsAs t 0 (.leaf A.rows) ∨ ∃ f' v', A.problem.Separates A.rows f' v' ∧ ReadsAs t 0 (A.problem.stump A.rows f' v') := by
  obtain ⟨D, h1, h2, _⟩ := C101_greedy_tree R mem A hA t h hm
  by_cases hmixed : ∃ i ∈ A.rows, ∃ j ∈ A.rows, A.labels.getD i 0 ≠ A.labels.getD j 0
  · obtain ⟨v, hc, hv⟩ := C163_identity A hb hmixed f hf s hs
    rcases greedy_separated_or_leaf (critImp_sound hA.args.crit hcrit) h2.greedy hc hv with e | ⟨f', v', e1, e2⟩
    · exact Or.inl (e ▸ h1)
    · exact Or.inr ⟨f', v', e1, e2 ▸ h1⟩
  · cases h2 with
    | leaf _ => exact Or.inl h1
    | node hm' _ _ _ _ => exact absurd hm'.mixed hmixed

/-- **C163 for bagged forests**: if one question separates the labels of the training rows, every tree of the forest is a single leaf or asks one
question, and this question separates the labels of the rows that the tree was given (which are training rows). -/
theorem C163_bagged (R : Rng K G) (mem : Nat → Nat → Junk K) (w w1 : World K G) (cfg : ForestCfg K) (hp : BaggedForest cfg) (data : List (List K))
    (ref : Nat) (f : Forest K G) (h : runForest R mem w cfg data ref none = .ok (f, w1)) (j : Nat) (hj : j < (data.getD 0 []).length) (s : K)
    (hs : (forestProblem cfg data (w.arrays.getD ref [])).Separates (List.range data.length) j s) (t : Tree K G) (ht : t ∈ f.trees) :
    ∃ rows, rows.length = data.length ∧ (∀ i ∈ rows, i < data.length) ∧ (ReadsAs t 0 (.leaf rows) ∨
      ∃ j' v', (forestProblem cfg data (w.arrays.getD ref [])).Separates rows j' v' ∧
        ReadsAs t 0 ((forestProblem cfg data (w.arrays.getD ref [])).stump rows j' v')) := by
  obtain ⟨f0, w0, hi, hfit⟩ := runForest_parts h
  obtain ⟨i, hti⟩ := List.mem_iff_getElem?.1 ht
  obtain ⟨i1, i2, _, _, _, i6, i7, i8, i9, i10⟩ := Forest_init_fields hi
  obtain ⟨ms, _, hne, hmade⟩ := Forest_fit_made hfit
  obtain ⟨m, _, hm, hlab⟩ := hmade i t hti
  obtain ⟨hcfg, hcls, _⟩ := Forest_fit_same hfit
  obtain ⟨dat, fs, ws, hst, hl⟩ := Forest_fit_start hfit
  obtain ⟨l, hr⟩ := forestLoop_run hl
  have hdat : trainData f0 none = data := by unfold trainData; rw [i8]; rfl
  have hdat' : dat = data := hst.dat_eq.trans hdat
  rw [hdat] at hm hne
  have hc : f.cfg = { cfg with makeDiscrete := false } := by
    rw [hcfg, i1, if_pos]
    exact Or.inr hp.binning
  have hdisc0 : f0.discrete = none := by
    unfold Forest.init at hi
    simp only [] at hi
    split_ifs at hi <;> (cases hi; rfl)
  have hdisc : f.discrete = none := by
    have e1 : f.discrete = fs.discrete := by rw [hr.same]
    have e2 := hst.disc
    have e3 : f0.cfg.makeDiscrete = false := by rw [← hcfg, hc]
    rw [e3, hdisc0] at e2
    rw [e1]
    unfold maybeDiscrete at e2
    exact (Except.ok.inj e2).symm
  have hmm : f.minmax = if cfg.precompMinmax then some (colMinMax data (data.getD 0 []).length) else none := by
    have e1 : f.minmax = fs.minmax := by rw [hr.same]
    have e3 : f0.cfg.precompMinmax = cfg.precompMinmax := by rw [← hcfg, hc]
    rw [e1, hst.eq, hdat', ← e3, ← i9]
  have hlabels : m.args.labels = seenLabels cfg (w.arrays.getD ref []) := by
    rw [hlab (by rw [← hcfg, hc]; exact hp.boosting)]
    unfold treeLabels seenLabels trainLabels
    rw [i6, i10, ← hcfg, hc]
    rfl
  have hrem : f.remaining = none := by
    have := (Forest_fit_accounting hfit).2.1
    rw [this, i2]
    rfl
  obtain ⟨rows0, rows, cols, g, g1, g2, d1, d2, d3, d4⟩ := hm.draw
  have hsub : rows0 = List.range data.length ∧ cols = List.range (data.getD 0 []).length := by
    unfold subsets at d1
    rw [hc, if_neg (by simp only [hp.alphaN, hp.alphaF]; simp)] at d1
    simp only [Except.ok.injEq, Prod.mk.injEq] at d1
    exact ⟨d1.1.symm, d1.2.1.symm⟩
  have hrows : rows.length = data.length ∧ ∀ k ∈ rows, k < data.length := by
    unfold bootstrapIdcs at d2
    split_ifs at d2
    · obtain ⟨q1, q2⟩ := rngChoiceRep_ok d2
      exact ⟨q1, fun k hk => by
        have := q2 k hk
        rw [hsub.1] at this
        simpa using this⟩
    · cases d2
      rw [hsub.1]
      exact ⟨List.length_range, fun k hk => List.mem_range.1 hk⟩
  have hArows : m.args.rows = rows := by unfold TreeArgs.rows; rw [d3]; rfl
  have hAcols : m.args.cols = List.range (data.getD 0 []).length := by
    unfold TreeArgs.cols
    rw [d4, hsub.2]
    rfl
  have hmcfg : m.args.cfg = f.treeCfg := hm.cfg
  have hA : NoChoice m.args := by
    refine ⟨⟨?_, ?_, ?_, ?_, ?_⟩, ?_, ?_, ?_, hm.budget hrem, ?_⟩
    · rw [hmcfg]
      show CritFits f.cfg.isCls (if f.cfg.isCls then .gini else .mse)
      cases f.cfg.isCls <;> simp [CritFits]
    · intro mins maxs hmm' j lo hi' hlo hhi
      rw [hmcfg] at hmm'
      change f.minmax = _ at hmm'
      rw [hmm] at hmm'
      split_ifs at hmm'
      exact (colMinMax_le hne (Option.some.inj hmm') j hlo hhi).1
    · intro j u hu
      rw [hm.disc, hdisc] at hu
      cases hu
    · intro _
      rw [hmcfg]
      show f.cfg.useLog = false → f.cfg.numBins ≠ _
      rw [hc]
      exact hp.bins
    · intro hb
      rw [hmcfg] at hb
      change f.cfg.binType = none at hb
      rw [hc] at hb
      change cfg.binType = none at hb
      rw [hp.binning] at hb
      cases hb
    · rw [hmcfg]; show f.cfg.solver = _; rw [hc]; exact hp.solver
    · rw [hmcfg]; show f.cfg.binType = _ ∨ _; rw [hc]; exact Or.inl hp.binning
    · rw [hmcfg]; show f.cfg.featSub = _; rw [hc]; exact hp.features
    · rw [hmcfg]; show f.cfg.maxDepth ≠ _; rw [hc]; exact hp.depth
  have hvalue : m.args.problem.value = (forestProblem cfg data (w.arrays.getD ref [])).value := by
    show (fun i f => (m.args.data.getD i []).getD f 0) = _
    rw [hm.data_eq]
    rfl
  have hlabel : m.args.problem.label = (forestProblem cfg data (w.arrays.getD ref [])).label := by
    show (fun i => m.args.labels.getD i 0) = _
    rw [hlabels]
    rfl
  have hsep : ∀ (j : Nat) (v : K), m.args.problem.Separates m.args.rows j v ↔
      (forestProblem cfg data (w.arrays.getD ref [])).Separates rows j v := by
    intro j v
    unfold CartProblem.Separates
    rw [hvalue, hlabel, hArows]
  have hstump : ∀ (j : Nat) (v : K), m.args.problem.stump m.args.rows j v =
      (forestProblem cfg data (w.arrays.getD ref [])).stump rows j v := by
    intro j v
    unfold CartProblem.stump
    rw [hvalue, hArows]
  have hsub' : (forestProblem cfg data (w.arrays.getD ref [])).Separates rows j s :=
    ⟨fun a ha b hb => hs.1 a (List.mem_range.2 (hrows.2 a ha)) b (List.mem_range.2 (hrows.2 b hb)),
      fun a ha b hb => hs.2 a (List.mem_range.2 (hrows.2 a ha)) b (List.mem_range.2 (hrows.2 b hb))⟩
  obtain ⟨dd, t00, hg⟩ := hm.fitted.facts
  have hcache := hm.after.cache hg.cache
  refine ⟨rows, hrows.1, hrows.2, ?_⟩
  have hlv : m.args.cfg.maxLeafNodes = none := by rw [hmcfg]; show f.cfg.maxLeafNodes = _; rw [hc]; exact hp.leaves
  rcases C163_at_most_one R (mem i) m.args hA (by rw [hmcfg]; show f.cfg.binType = _; rw [hc]; exact hp.binning)
    (by rw [hmcfg]; show (if f.cfg.isCls then Criterion.gini else .mse) ≠ _; split <;> decide) m.tree hm.fitted
    (by rw [hlv]; simp) j (by rw [hAcols]; exact List.mem_range.2 hj) s ((hsep j s).2 hsub') with e | ⟨j', v', e1, e2⟩
  · left
    rw [hArows] at e
    exact e.cached hcache
  · right
    refine ⟨j', v', (hsep j' v').1 e1, ?_⟩
    rw [hstump] at e2
    exact e2.cached hcache

/-! ### The hypotheses can be met -/

/-- Labels that "is the second number at most 2?" tells apart. -/
def exWorldSep : World ℚ Nat := { exWorld with arrays := [[5, 5, 5, 2, 5, 2]] }

/-- The limits allow the split, and the question can be asked. -/
example : PlainForest fcfgPlain ∧ 1 ≤ fcfgPlain.nEstimators ∧
    (forestProblem fcfgPlain exData (exWorldSep.arrays.getD 0 [])).MaySplit 0 (List.range exData.length) ∧
    (forestProblem fcfgPlain exData (exWorldSep.arrays.getD 0 [])).Worth (List.range exData.length)
      (-((if fcfgPlain.isCls then gini else variance) (labelsOf (seenLabels fcfgPlain (exWorldSep.arrays.getD 0 [])) (List.range exData.length)))) ∧
    (1, 2) ∈ (forestProblem fcfgPlain exData (exWorldSep.arrays.getD 0 [])).candidates (List.range exData.length) ∧
    (forestProblem fcfgPlain exData (exWorldSep.arrays.getD 0 [])).Separates (List.range exData.length) 1 2 :=
  ⟨⟨rfl, .inl rfl, fun _ => by decide, rfl, by decide, rfl, rfl, rfl, rfl, rfl⟩, by decide,
    ⟨fun d hd => by revert d; decide +kernel, by decide, 0, by decide, 3, by decide, by decide +kernel⟩,
    ⟨by decide +kernel, by decide +kernel, by decide +kernel⟩, by decide +kernel, by decide +kernel⟩

/-- Both trees ask one question, and the forest answers the training rows with their labels. -/
example : (runForest rngQ exMems exWorldSep fcfgPlain exData 0 none).toOption.map (fun r => (r.1.trees.map (fun t => readTree t 9 0),
      exData.map (fun x => (r.1.predict x).toOption.map Prod.fst))) =
    some ([.node 1 2 (.leaf [3, 5]) (.leaf [0, 1, 2, 4]), .node 1 2 (.leaf [3, 5]) (.leaf [0, 1, 2, 4])],
      [5, 5, 5, 2, 5, 2].map (fun y => some (.cls y [if (2 : ℚ) = y then 1 else 0, if (5 : ℚ) = y then 1 else 0]))) := by
  decide +kernel

/-- Bootstrap samples: the trees ask different questions, each of them one. -/
example : BaggedForest fcfgQ ∧ fcfgQ.bootstrap = true ∧
    (forestProblem fcfgQ exData (exWorldSep.arrays.getD 0 [])).Separates (List.range exData.length) 1 2 ∧
    (runForest rngQ exMems exWorldSep fcfgQ exData 0 none).toOption.map (fun r => r.1.trees.map (fun t => readTree t 9 0)) =
      some [.node 1 1 (.leaf [3]) (.leaf [4, 1, 0, 1, 4]), .node 0 4 (.leaf [4, 2, 1, 2]) (.leaf [5, 5])] :=
  ⟨⟨rfl, rfl, fun _ => by decide, rfl, by decide, rfl, rfl, rfl, rfl⟩, rfl, by decide +kernel, by decide +kernel⟩

end FF
