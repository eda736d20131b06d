import Verif.Proofs.CartMore
import Verif.Props.OneTree

/-!
# Properties C117 and C118: repeated rows and columns that bring nothing new
-/

namespace FF

open Spec

set_option linter.unusedSectionVars false

variable {K : Type} [Field K] [LinearOrder K] [IsStrictOrderedRing K] [FloorRing K] [NpFun K] {G G' : Type}

/-- The value of feature `f` in row `i` of a table. -/
def cellAt (data : List (List K)) (i f : Nat) : K := (data.getD i []).getD f 0

theorem critImp_copies (m : Criterion) {k : Nat} (hk : k ≠ 0) (l : List K) : critImp m (copies k l) = critImp m l := by
  cases m with
  | gini => exact gini_copies hk l
  | entropy => exact entropy_copies hk _ l
  | mse => exact variance_copies hk l

theorem zip_rows {data : List (List K)} {labels : List K} (hlen : data.length = labels.length) :
    (List.range labels.length).map (fun i => ((fun f => (data.getD i []).getD f 0), labels.getD i 0)) =
      (data.zip labels).map (fun p => ((fun f => p.1.getD f 0), p.2)) := by
  apply List.ext_getElem?
  intro i
  by_cases hi : i < labels.length
  · have hi' : i < data.length := by omega
    simp [List.getElem?_eq_getElem, hi, hi', List.getElem_zip, List.getD_eq_getElem]
  · rw [List.getElem?_eq_none (by simpa using hi), List.getElem?_eq_none (by simp; omega)]

theorem copies_zip_left {k : Nat} {data data' : List (List K)} {labels labels' : List K} (hlen : data.length = labels.length)
    (hlen' : data'.length = labels'.length) (hperm : (data'.zip labels').Perm (copies k (data.zip labels))) :
    data'.Perm (copies k data) := by
  have := hperm.map Prod.fst
  rwa [List.map_fst_zip hlen'.le, copies_map, List.map_fst_zip hlen.le] at this

theorem copies_zip_right {k : Nat} {data data' : List (List K)} {labels labels' : List K} (hlen : data.length = labels.length)
    (hlen' : data'.length = labels'.length) (hperm : (data'.zip labels').Perm (copies k (data.zip labels))) :
    labels'.Perm (copies k labels) := by
  have := hperm.map Prod.snd
  rwa [List.map_snd_zip hlen'.ge, copies_map, List.map_snd_zip hlen.ge] at this

/-- All rows of a table with `k` copies of every row have the length of the rows of the original table. -/
theorem copies_first {k : Nat} (hk : 1 ≤ k) {data data' : List (List K)} (hperm : data'.Perm (copies k data)) {F : Nat}
    (hrect : ∀ row ∈ data, row.length = F) : (data'.getD 0 []).length = (data.getD 0 []).length := by
  cases data with
  | nil =>
    rw [copies_nil] at hperm
    rw [hperm.eq_nil]
  | cons a l =>
    cases data' with
    | nil =>
      have := hperm.length_eq
      rw [copies_length] at this
      simp at this
      omega
    | cons b l' =>
      have hb : b ∈ a :: l := (mem_copies (by omega)).1 (hperm.mem_iff.1 (by simp))
      simp only [List.getD_cons_zero]
      rw [hrect b hb, hrect a (by simp)]

section
variable {R : Rng K G} {R' : Rng K G'} {mem mem' : Nat → Junk K} {A A' : TreeArgs K} {t t1 : Tree K G} {t' t1' : Tree K G'}

/-- Two textbook trees answer alike where their leaves have the same mean and the same frequencies. -/
theorem trees_alike (hA : NoChoice A) (hA' : NoChoice A') (h : Fitted R mem A t) (h' : Fitted R' mem' A' t')
    (hm : A.cfg.maxLeafNodes ≠ some t.leaves.length) (hm' : A'.cfg.maxLeafNodes ≠ some t'.leaves.length)
    (hd : A.cfg.isCls = true → ClassesOK A.cfg.classes) (hcls : A'.cfg.isCls = A.cfg.isCls) (hdict : A'.cfg.classes = A.cfg.classes)
    {D D' : DTree K} (hD : A.problem.IsCart 0 A.rows D) (hD' : A'.problem.IsCart 0 A'.rows D') (hrows : A.rows ≠ []) (hrows' : A'.rows ≠ [])
    {x x' : List K} (hx : ∀ f ∈ A.cols, f < x.length) (hx' : ∀ f ∈ A'.cols, f < x'.length)
    (hmean : mean (labelsOf A'.labels (D'.rowsAt x')) = mean (labelsOf A.labels (D.rowsAt x)))
    (hfreq : ∀ c, freq (labelsOf A'.labels (D'.rowsAt x')) c = freq (labelsOf A.labels (D.rowsAt x)) c)
    (ha : AfterPredicts t t1) (ha' : AfterPredicts t' t1') :
    ∃ p t2 t2', t1.predict x = .ok (p, t2) ∧ t1'.predict x' = .ok (p, t2') := by
  have hd' : A'.cfg.isCls = true → ClassesOK A'.cfg.classes := by rw [hcls, hdict]; exact hd
  obtain ⟨p, t2, hp⟩ := C36_predict_total R mem A t t1 h hd hrows ha x hx
  obtain ⟨p', t2', hp'⟩ := C36_predict_total R' mem' A' t' t1' h' hd' hrows' ha' x' hx'
  have e := C101_answers R mem A hA t t1 t2 h hm hd D hD ha x p hp
  have e' := C101_answers R' mem' A' hA' t' t1' t2' h' hm' hd' D' hD' ha' x' p' hp'
  refine ⟨p, t2, t2', hp, ?_⟩
  suffices p' = p by rw [hp', this]
  cases hc : A.cfg.isCls with
  | false => rw [e.1 hc, e'.1 (hcls.trans hc), hmean]
  | true =>
    obtain ⟨l, i, a1, a2, a3⟩ := e.2 hc
    obtain ⟨l', i', b1, b2, b3⟩ := e'.2 (hcls.trans hc)
    simp only [hfreq, hdict] at b1 b2 b3
    have hii : i' = i := by
      rcases Nat.lt_trichotomy i i' with q | q | q
      · exact absurd ((b3 i _ a2).2 q) (not_lt.2 (a3 i' _ b2).1)
      · exact q.symm
      · exact absurd ((a3 i' _ b2).2 q) (not_lt.2 (b3 i _ a2).1)
    subst hii
    rw [a2] at b2
    cases b2
    rw [a1, b1]

end

section
variable {R : Rng K G} {R' : Rng K G'} {mem mem' : Nat → Nat → Junk K} {w w1 : World K G} {w' w1' : World K G'} {cfg cfg' : ForestCfg K}
  {data data' : List (List K)} {ref ref' : Nat} {f f1 : Forest K G} {f' f1' : Forest K G'}

theorem plain_predict_total (hp : PlainForest cfg) (h : runForest R mem w cfg data ref none = .ok (f, w1)) (hn : 1 ≤ cfg.nEstimators)
    (ha : AfterReads f f1) {x : List K} (hx : (data.getD 0 []).length ≤ x.length) : ∃ p f2, f1.predict x = .ok (p, f2) := by
  obtain ⟨hlen, _⟩ := C107_one_tree R mem w w1 cfg hp data ref f h hn
  have hne : f.trees ≠ [] := by intro q; rw [q] at hlen; simp at hlen; omega
  obtain ⟨f0, w0, hi, hf⟩ := runForest_parts h
  obtain ⟨i1, _, _, _, _, _, _, i8, _⟩ := Forest_init_fields hi
  have hdat : trainData f0 none = data := by
    unfold trainData
    rw [i8]
    rfl
  obtain ⟨_, _, hdne, _⟩ := Forest_fit_made hf
  rw [hdat] at hdne
  refine C51_predict_total R mem f0 f f1 w0 w1 none none hf ?_ (by rw [i1]; exact hp.alphaN.le) (by rw [i1]; exact hp.alphaF.le) ?_ hne ha x
    (by rw [hdat]; exact hx)
  · intro hc
    rw [i1] at hc
    exact (C51_default_classes R w w0 cfg hc (some data) ref none f0 hi).1
  · rw [i1, hdat]
    show 1 ≤ (data.length : K) * cfg.alphaN
    rw [hp.alphaN, mul_one]
    have := List.length_pos_of_ne_nil hdne
    exact_mod_cast this

/-- Two forests without sampling answer alike where the leaves of their trees have the same mean and the same frequencies. -/
theorem forests_alike (hp : PlainForest cfg) (hp' : PlainForest cfg') (h : runForest R mem w cfg data ref none = .ok (f, w1))
    (h' : runForest R' mem' w' cfg' data' ref' none = .ok (f', w1')) (hn : 1 ≤ cfg.nEstimators) (hn' : 1 ≤ cfg'.nEstimators)
    (hcls : cfg'.isCls = cfg.isCls) (hdict : npUnique (w'.arrays.getD ref' []) = npUnique (w.arrays.getD ref []))
    {D D' : DTree K} (hD : (forestProblem cfg data (w.arrays.getD ref [])).IsCart 0 (List.range data.length) D)
    (hD' : (forestProblem cfg' data' (w'.arrays.getD ref' [])).IsCart 0 (List.range data'.length) D') {x x' : List K}
    (hx : (data.getD 0 []).length ≤ x.length) (hx' : (data'.getD 0 []).length ≤ x'.length)
    (hmean : mean (labelsOf (seenLabels cfg' (w'.arrays.getD ref' [])) (D'.rowsAt x')) =
      mean (labelsOf (seenLabels cfg (w.arrays.getD ref [])) (D.rowsAt x)))
    (hfreq : ∀ c, freq (labelsOf (seenLabels cfg' (w'.arrays.getD ref' [])) (D'.rowsAt x')) c =
      freq (labelsOf (seenLabels cfg (w.arrays.getD ref [])) (D.rowsAt x)) c)
    (ha : AfterReads f f1) (ha' : AfterReads f' f1') : ∃ p f2 f2', f1.predict x = .ok (p, f2) ∧ f1'.predict x' = .ok (p, f2') := by
  obtain ⟨p, f2, hpred⟩ := plain_predict_total hp h hn ha hx
  obtain ⟨p', f2', hpred'⟩ := plain_predict_total hp' h' hn' ha' hx'
  have e := C107_answers R mem w w1 cfg hp data ref f f1 f2 h D hD ha x p hpred
  have e' := C107_answers R' mem' w' w1' cfg' hp' data' ref' f' f1' f2' h' D' hD' ha' x' p' hpred'
  dsimp only at e e'
  refine ⟨p, f2, f2', hpred, ?_⟩
  suffices p' = p by rw [hpred', this]
  cases hc : cfg.isCls with
  | false => rw [e.1 hc, e'.1 (hcls.trans hc), hmean]
  | true =>
    obtain ⟨l, i, a1, a2, a3⟩ := e.2 hc
    obtain ⟨l', i', b1, b2, b3⟩ := e'.2 (hcls.trans hc)
    simp only [hfreq, hdict] at b1 b2 b3
    have hii : i' = i := by
      rcases Nat.lt_trichotomy i i' with q | q | q
      · exact absurd ((b3 i _ a2).2 q) (not_lt.2 (a3 i' _ b2).1)
      · exact q.symm
      · exact absurd ((a3 i' _ b2).2 q) (not_lt.2 (b3 i _ a2).1)
    subst hii
    rw [a2] at b2
    cases b2
    rw [a1, b1]

end

/-! ### C117 -/

/-- C117, trees. Repeating every training row `k` times (in any order) changes neither the questions nor the answers of an exactly solved
tree, if the limit on the number of rows of a node treats `n` rows and their `k·n` copies alike. -/
theorem C117_tree (R : Rng K G) (R' : Rng K G') (mem mem' : Nat → Junk K) (A : TreeArgs K) (hA : NoChoice A)
    (hlog : A.cfg.useLog = false ∨ A.cfg.binType = some .identity) (hall : A.idcs = none) (F : Nat)
    (hrect : ∀ row ∈ A.data, row.length = F) (hlen : A.data.length = A.labels.length) (hne : A.data ≠ []) (k : Nat) (hk : 1 ≤ k)
    (data' : List (List K)) (labels' : List K) (hlen' : data'.length = labels'.length)
    (hperm : (data'.zip labels').Perm (copies k (A.data.zip A.labels))) (ms seed : Nat)
    (hms : ∀ n, 2 ≤ n → (ms < k * n ↔ A.cfg.minSamplesSplit < n)) (t t1 : Tree K G) (t' t1' : Tree K G') (h : Fitted R mem A t)
    (h' : Fitted R' mem' { A with data := data', labels := labels', seed := seed, cfg := { A.cfg with minSamplesSplit := ms } } t')
    (hm : A.cfg.maxLeafNodes ≠ some t.leaves.length) (hm' : A.cfg.maxLeafNodes ≠ some t'.leaves.length) :
    (∃ D D', ReadsAs t 0 D ∧ ReadsAs t' 0 D' ∧ D.SameQuestions D') ∧
    ((A.cfg.isCls = true → ClassesOK A.cfg.classes) → AfterPredicts t t1 → AfterPredicts t' t1' → ∀ x : List K,
      (∀ f ∈ A.cols, f < x.length) → ∃ p t2 t2', t1.predict x = .ok (p, t2) ∧ t1'.predict x = .ok (p, t2')) := by
  set A' : TreeArgs K := { A with data := data', labels := labels', seed := seed, cfg := { A.cfg with minSamplesSplit := ms } } with hA'def
  have hk0 : k ≠ 0 := by omega
  have hdp := copies_zip_left hlen hlen' hperm
  have hlp := copies_zip_right hlen hlen' hperm
  have hA' : NoChoice A' :=
    ⟨⟨hA.args.crit, hA.args.minmax_le, hA.args.sorted, hA.args.linear_bins, hA.args.auto_bins⟩, hA.solver, hA.binning, hA.features,
      hA.budget, hA.depth⟩
  have hrows : A.rows = List.range A.labels.length := by unfold TreeArgs.rows; rw [hall]; rfl
  have hrows' : A'.rows = List.range labels'.length := by unfold TreeArgs.rows; rw [hA'def, hall]; rfl
  have hll : labels'.length = k * A.labels.length := by rw [hlp.length_eq, copies_length]
  have hcols : A'.cols = A.cols := by
    unfold TreeArgs.cols
    show A.feats.getD _ = A.feats.getD _
    rw [copies_first hk hdp hrect]
  obtain ⟨D, hr, hc, _⟩ := C101_greedy_tree R mem A hA t h hm
  obtain ⟨D', hr', hc', _⟩ := C101_greedy_tree R' mem' A' hA' t' h' hm'
  have hP : CartProblem.KTimes k A.problem A'.problem := {
    cols := hcols
    grid := by
      intro f _ vals vals' hv
      have hmem : ∀ a, a ∈ vals' ↔ a ∈ vals := fun a => by rw [hv.mem_iff, mem_copies hk0]
      show gridOf _ f vals' = gridOf _ f vals
      unfold gridOf
      rcases hA.binning with hb | hb
      · rw [show A'.cfg.binType = some .identity from hb]
        exact valueGrid_congr hmem
      · have hul : A.cfg.useLog = false := by
          rcases hlog with q | q
          · exact q
          · rw [hb] at q; cases q
        rw [show A'.cfg.binType = some .linear from hb]
        dsimp only
        rw [show A'.cfg.useLog = false from hul, min?_congr hmem, max?_congr hmem]
        rfl
    imp := rfl
    perm := fun hp => critImp_perm _ hp
    copies := fun l => critImp_copies _ hk0 l
    total := by
      show A'.rows.length = k * A.rows.length
      rw [hrows, hrows', List.length_range, List.length_range, hll]
    size := hll
    maxDepth := rfl
    minSamples := hms
    minDecrease := rfl }
  have hS : CartProblem.RowCopies k A.problem A'.problem A.rows A'.rows := by
    unfold CartProblem.RowCopies
    rw [hrows, hrows']
    show ((List.range labels'.length).map (fun i => ((fun f => (data'.getD i []).getD f 0), labels'.getD i 0))).Perm
      (copies k ((List.range A.labels.length).map (fun i => ((fun f => (A.data.getD i []).getD f 0), A.labels.getD i 0))))
    rw [zip_rows hlen, zip_rows hlen', ← copies_map]
    exact hperm.map _
  obtain ⟨D'', h1, h2⟩ := hP.isCart hk0 hc hS
  obtain rfl := CartProblem.IsCart.unique h1 hc'
  refine ⟨⟨D, D'', hr, hr', h2.same⟩, ?_⟩
  intro hd ha ha' x hx
  have hlab := (h2.rowsAt (by unfold CartProblem.RowCopies; rw [List.map_nil, List.map_nil, copies_nil]) x).map (fun s => s.2)
  have hlab' : (labelsOf labels' (D''.rowsAt x)).Perm (copies k (labelsOf A.labels (D.rowsAt x))) := hlab
  have hpos : 0 < A.labels.length := by
    have := List.length_pos_of_ne_nil hne
    omega
  refine trees_alike hA hA' h h' hm hm' hd rfl rfl hc h1 ?_ ?_ hx (by rw [hcols]; exact hx) ?_ ?_ ha ha'
  · rw [hrows]
    intro q
    have := congrArg List.length q
    rw [List.length_range, List.length_nil] at this
    omega
  · rw [hrows']
    intro q
    have := congrArg List.length q
    rw [List.length_range, hll, List.length_nil] at this
    have h3 : 1 ≤ k * A.labels.length := Nat.mul_pos (by omega) hpos
    omega
  · exact (mean_perm hlab').trans (mean_copies hk0 _)
  · exact fun c => (freq_perm hlab' c).trans (freq_copies hk0 _ c)

theorem npUnique_congr {l l' : List K} (h : ∀ a, a ∈ l' ↔ a ∈ l) : npUnique l' = npUnique l := valueGrid_congr h

/-- C117, forests without sampling: the same, for any seeds and numbers of trees. -/
theorem C117_forest (R : Rng K G) (R' : Rng K G') (mem mem' : Nat → Nat → Junk K) (w w1 : World K G) (w' w1' : World K G')
    (cfg : ForestCfg K) (hp : PlainForest cfg) (hlog : cfg.useLog = false ∨ cfg.binType = some .identity) (data data' : List (List K))
    (ref ref' F : Nat) (hrect : ∀ row ∈ data, row.length = F) (hlen : data.length = (w.arrays.getD ref []).length)
    (hlen' : data'.length = (w'.arrays.getD ref' []).length) (k : Nat) (hk : 1 ≤ k)
    (hperm : (data'.zip (w'.arrays.getD ref' [])).Perm (copies k (data.zip (w.arrays.getD ref [])))) (ms n seed : Nat)
    (hms : ∀ n, 2 ≤ n → (ms < k * n ↔ cfg.minSamplesSplit < n)) (f f1 : Forest K G) (f' f1' : Forest K G')
    (h : runForest R mem w cfg data ref none = .ok (f, w1))
    (h' : runForest R' mem' w' { cfg with minSamplesSplit := ms, nEstimators := n, randomState := seed } data' ref' none = .ok (f', w1'))
    (hn : 1 ≤ cfg.nEstimators) (hn' : 1 ≤ n) (ha : AfterReads f f1) (ha' : AfterReads f' f1') (x : List K) (hx : F ≤ x.length) :
    ∃ p f2 f2', f1.predict x = .ok (p, f2) ∧ f1'.predict x = .ok (p, f2') := by
  set cfg' : ForestCfg K := { cfg with minSamplesSplit := ms, nEstimators := n, randomState := seed } with hcfg'
  set labels := w.arrays.getD ref [] with hlabels
  set labels' := w'.arrays.getD ref' [] with hlabels'
  have hp' : PlainForest cfg' :=
    ⟨hp.solver, hp.binning, hp.bins, hp.features, hp.depth, hp.leaves, hp.bootstrap, hp.boosting, hp.alphaN, hp.alphaF⟩
  have hk0 : k ≠ 0 := by omega
  have hdp := copies_zip_left hlen hlen' hperm
  have hlp := copies_zip_right hlen hlen' hperm
  have hdl : data'.length = k * data.length := by rw [hdp.length_eq, copies_length]
  have hfirst := copies_first hk hdp hrect
  have hF : (data.getD 0 []).length ≤ F := by
    cases data with
    | nil => simp
    | cons a l => exact (hrect a (by simp)).le
  have hseen : seenLabels cfg' labels' = labels'.map (if cfg.isCls then truncInt else id) := by
    unfold seenLabels
    show (if cfg.isCls = true then _ else _) = _
    split <;> simp
  have hseen0 : seenLabels cfg labels = labels.map (if cfg.isCls then truncInt else id) := by
    unfold seenLabels
    split <;> simp
  have hperm' : (data'.zip (seenLabels cfg' labels')).Perm (copies k (data.zip (seenLabels cfg labels))) := by
    rw [hseen, hseen0, List.zip_map_right, List.zip_map_right, ← copies_map]
    exact hperm.map _
  have hsl : data.length = (seenLabels cfg labels).length := by rw [hseen0, List.length_map]; exact hlen
  have hsl' : data'.length = (seenLabels cfg' labels').length := by rw [hseen, List.length_map]; exact hlen'
  obtain ⟨_, D, hD, _⟩ := C107_one_tree R mem w w1 cfg hp data ref f h hn
  have hP : CartProblem.KTimes k (forestProblem cfg data labels) (forestProblem cfg' data' labels') := {
    cols := by
      show List.range _ = List.range _
      rw [hfirst]
    grid := by
      intro f _ vals vals' hv
      have hmem : ∀ a, a ∈ vals' ↔ a ∈ vals := fun a => by rw [hv.mem_iff, mem_copies hk0]
      have hmem' : ∀ a, a ∈ data'.map (fun row => row.getD f 0) ↔ a ∈ data.map (fun row => row.getD f 0) := by
        intro a
        have := (hdp.map (fun row : List K => row.getD f 0)).mem_iff (a := a)
        rwa [copies_map, mem_copies hk0] at this
      show (match cfg.binType with
        | some .identity => valueGrid vals'
        | some .linear =>
          let B := if cfg.useLog then Nat.log2 vals'.length + 1 else cfg.numBins.getD 0
          let span := if cfg.precompMinmax then data'.map (fun row : List K => row.getD f 0) else vals'
          evenGrid (span.min?.getD 0) (span.max?.getD 0) B
        | _ => []) = (match cfg.binType with
        | some .identity => valueGrid vals
        | some .linear =>
          let B := if cfg.useLog then Nat.log2 vals.length + 1 else cfg.numBins.getD 0
          let span := if cfg.precompMinmax then data.map (fun row : List K => row.getD f 0) else vals
          evenGrid (span.min?.getD 0) (span.max?.getD 0) B
        | _ => [])
      rcases hp.binning with hb | hb
      · rw [hb]
        exact valueGrid_congr hmem
      · have hul : cfg.useLog = false := by
          rcases hlog with q | q
          · exact q
          · rw [hb] at q; cases q
        rw [hb]
        dsimp only
        rw [hul]
        cases cfg.precompMinmax with
        | true => simp only [if_true]; rw [min?_congr hmem', max?_congr hmem']; rfl
        | false => simp only [Bool.false_eq_true, if_false]; rw [min?_congr hmem, max?_congr hmem]
    imp := rfl
    perm := by
      intro a b hab
      show (if cfg.isCls = true then gini else variance) a = (if cfg.isCls = true then gini else variance) b
      split
      · exact gini_perm hab
      · exact variance_perm hab
    copies := by
      intro l
      show (if cfg.isCls = true then gini else variance) (copies k l) = (if cfg.isCls = true then gini else variance) l
      split
      · exact gini_copies hk0 l
      · exact variance_copies hk0 l
    total := hdl
    size := by
      show labels'.length = k * labels.length
      rw [← hlen', ← hlen, hdl]
    maxDepth := rfl
    minSamples := hms
    minDecrease := rfl }
  have hS : CartProblem.RowCopies k (forestProblem cfg data labels) (forestProblem cfg' data' labels') (List.range data.length)
      (List.range data'.length) := by
    unfold CartProblem.RowCopies
    rw [hsl, hsl']
    show ((List.range (seenLabels cfg' labels').length).map (fun i => ((fun f => (data'.getD i []).getD f 0), (seenLabels cfg' labels').getD i 0))).Perm
      (copies k ((List.range (seenLabels cfg labels).length).map
        (fun i => ((fun f => (data.getD i []).getD f 0), (seenLabels cfg labels).getD i 0))))
    rw [zip_rows hsl, zip_rows hsl', ← copies_map]
    exact hperm'.map _
  obtain ⟨D', h1, h2⟩ := hP.isCart hk0 hD hS
  have hlab := (h2.rowsAt (by unfold CartProblem.RowCopies; rw [List.map_nil, List.map_nil, copies_nil]) x).map (fun s => s.2)
  have hlab' : (labelsOf (seenLabels cfg' labels') (D'.rowsAt x)).Perm (copies k (labelsOf (seenLabels cfg labels) (D.rowsAt x))) := hlab
  refine forests_alike hp hp' h h' hn hn' rfl ?_ hD h1 (by omega) (by rw [hfirst]; omega) ?_ ?_ ha ha'
  · exact npUnique_congr (fun a => by rw [hlp.mem_iff, mem_copies hk0])
  · exact (mean_perm hlab').trans (mean_copies hk0 _)
  · exact fun c => (freq_perm hlab' c).trans (freq_copies hk0 _ c)

/-! ### C118 -/

/-- The table `data` with further columns: row `i` is extended by row `i` of `extra`. -/
def widen (data extra : List (List K)) : List (List K) := List.zipWith (fun row more => row ++ more) data extra

/-- The new columns `F, …, F + E - 1` of a table bring nothing new for the given rows: with one threshold per value (IDENTITY) each of them is
constant or a monotone function of an old column, with equally spaced thresholds (LINEAR) each of them is constant or a copy of an old
column. -/
def NewColsUseless (binType : Option BinType) (data : List (List K)) (rows : List Nat) (F E : Nat) : Prop :=
  ∀ f, F ≤ f → f < F + E →
    if binType = some .identity then NothingNew (cellAt data) rows F f else ConstantOrCopy (cellAt data) rows F f

section
variable {data extra : List (List K)} {F E : Nat}

theorem widen_length (hl : extra.length = data.length) : (widen data extra).length = data.length := by
  unfold widen
  rw [List.length_zipWith, hl, Nat.min_self]

theorem widen_getD (hl : extra.length = data.length) (i : Nat) : (widen data extra).getD i [] = data.getD i [] ++ extra.getD i [] := by
  unfold widen
  by_cases hi : i < data.length
  · have hi' : i < extra.length := by omega
    rw [List.getD_eq_getElem _ _ (by simp; omega), List.getD_eq_getElem _ _ hi, List.getD_eq_getElem _ _ hi', List.getElem_zipWith]
  · rw [List.getD_eq_default _ _ (by simp; omega), List.getD_eq_default _ _ (by omega), List.getD_eq_default _ _ (by omega)]
    rfl

theorem widen_cell (hl : extra.length = data.length) (hrect : ∀ row ∈ data, row.length = F) {i f : Nat} (hi : i < data.length)
    (hf : f < F) : ((widen data extra).getD i []).getD f 0 = (data.getD i []).getD f 0 := by
  rw [widen_getD hl, List.getD_append]
  rw [hrect _ (by rw [List.getD_eq_getElem _ _ hi]; exact List.getElem_mem hi)]
  exact hf

theorem first_length (hrect : ∀ row ∈ data, row.length = F) (hne : data ≠ []) : (data.getD 0 []).length = F := by
  cases data with
  | nil => exact absurd rfl hne
  | cons a l => exact hrect a (by simp)

theorem widen_first (hl : extra.length = data.length) (hrect : ∀ row ∈ data, row.length = F) (hrect' : ∀ row ∈ extra, row.length = E)
    (hne : data ≠ []) : ((widen data extra).getD 0 []).length = F + E := by
  have hne' : extra ≠ [] := by
    intro q
    rw [q] at hl
    exact hne (List.length_eq_zero_iff.1 hl.symm)
  rw [widen_getD hl, List.length_append, first_length hrect hne, first_length hrect' hne']

end

/-- C118, trees. Columns that bring nothing new, appended to the training table, change nothing: an exactly solved tree asks the same
questions and answers the same. -/
theorem C118_tree (R : Rng K G) (R' : Rng K G') (mem mem' : Nat → Junk K) (A : TreeArgs K) (hA : NoChoice A) (hfeats : A.feats = none)
    (hmm : A.cfg.minmax = none) (F E : Nat) (hrect : ∀ row ∈ A.data, row.length = F) (hne : A.data ≠ []) (extra : List (List K))
    (hl : extra.length = A.data.length) (hrect' : ∀ row ∈ extra, row.length = E) (hrows : A.rows ≠ []) (hlt : ∀ i ∈ A.rows, i < A.data.length)
    (huse : NewColsUseless A.cfg.binType (widen A.data extra) A.rows F E) (seed : Nat) (t t1 : Tree K G) (t' t1' : Tree K G')
    (h : Fitted R mem A t) (h' : Fitted R' mem' { A with data := widen A.data extra, seed := seed } t')
    (hm : A.cfg.maxLeafNodes ≠ some t.leaves.length) (hm' : A.cfg.maxLeafNodes ≠ some t'.leaves.length) :
    (∃ D, ReadsAs t 0 D ∧ ReadsAs t' 0 D) ∧
    ((A.cfg.isCls = true → ClassesOK A.cfg.classes) → AfterPredicts t t1 → AfterPredicts t' t1' → ∀ x more : List K,
      x.length = F → more.length = E → ∃ p t2 t2', t1.predict x = .ok (p, t2) ∧ t1'.predict (x ++ more) = .ok (p, t2')) := by
  set A' : TreeArgs K := { A with data := widen A.data extra, seed := seed } with hA'def
  have hA' : NoChoice A' :=
    ⟨⟨hA.args.crit, hA.args.minmax_le, hA.args.sorted, hA.args.linear_bins, hA.args.auto_bins⟩, hA.solver, hA.binning, hA.features,
      hA.budget, hA.depth⟩
  have hcols : A.cols = List.range F := by
    unfold TreeArgs.cols
    rw [hfeats, first_length hrect hne]
    rfl
  have hcols' : A'.cols = List.range (F + E) := by
    unfold TreeArgs.cols
    show A.feats.getD _ = _
    rw [hfeats, widen_first hl hrect hrect' hne]
    rfl
  obtain ⟨D, hr, hc, _⟩ := C101_greedy_tree R mem A hA t h hm
  obtain ⟨D', hr', hc', _⟩ := C101_greedy_tree R' mem' A' hA' t' h' hm'
  have hmore : CartProblem.MoreCols A.problem A'.problem A.rows := {
    cols := by
      refine ⟨(List.range E).map (fun i => F + i), ?_, ?_⟩
      · show A'.cols = A.cols ++ _
        rw [hcols, hcols', List.range_add]
      · intro f hf
        obtain ⟨j, hj, rfl⟩ := List.mem_map.1 hf
        rw [List.mem_range] at hj
        have hu := huse (F + j) (by omega) (by omega)
        have hF : ∀ g < F, g ∈ A.problem.cols := by
          intro g hg
          show g ∈ A.cols
          rw [hcols, List.mem_range]
          exact hg
        rcases hA.binning with hb | hb
        · rw [if_pos hb] at hu
          refine CartProblem.addsNothing_value (fun f vals => ?_) hF hu
          show gridOf A.cfg f vals = _
          unfold gridOf
          rw [hb]
        · rw [if_neg (by rw [hb]; simp)] at hu
          refine CartProblem.addsNothing_copy hF (fun g _ _ vals => ?_) hu
          show gridOf A.cfg _ vals = gridOf A.cfg _ vals
          unfold gridOf
          rw [hb, hmm]
    value := by
      intro i hi f hf
      have hf' : f ∈ A.cols := hf
      rw [hcols, List.mem_range] at hf'
      exact widen_cell hl hrect (hlt i hi) hf'
    label := fun _ _ => rfl
    grid := fun _ _ => rfl
    imp := rfl
    total := rfl
    size := rfl
    maxDepth := rfl
    minSamples := rfl
    minDecrease := rfl }
  have h1 := hmore.isCart hc
  obtain rfl := CartProblem.IsCart.unique h1 hc'
  refine ⟨⟨D, hr, hr'⟩, ?_⟩
  intro hd ha ha' x more hx hmo
  have hrow : D.rowsAt (x ++ more) = D.rowsAt x := by
    refine hc.rowsAt_congr (fun f hf => ?_)
    have hf' : f ∈ A.cols := hf
    rw [hcols, List.mem_range] at hf'
    rw [List.getElem?_append_left (by omega)]
  refine trees_alike hA hA' h h' hm hm' hd rfl rfl hc h1 hrows hrows ?_ ?_ ?_ ?_ ha ha'
  · intro f hf
    rw [hcols, List.mem_range] at hf
    omega
  · intro f hf
    rw [hcols', List.mem_range] at hf
    rw [List.length_append]
    omega
  · rw [hrow]
  · intro c
    rw [hrow]

/-- C118, forests without sampling: the same, for any seeds and numbers of trees. -/
theorem C118_forest (R : Rng K G) (R' : Rng K G') (mem mem' : Nat → Nat → Junk K) (w w1 : World K G) (w' w1' : World K G')
    (cfg : ForestCfg K) (hp : PlainForest cfg) (data extra : List (List K)) (ref ref' F E : Nat) (hrect : ∀ row ∈ data, row.length = F)
    (hne : data ≠ []) (hl : extra.length = data.length) (hrect' : ∀ row ∈ extra, row.length = E)
    (hlab : w'.arrays.getD ref' [] = w.arrays.getD ref [])
    (huse : NewColsUseless cfg.binType (widen data extra) (List.range data.length) F E) (n seed : Nat) (f f1 : Forest K G)
    (f' f1' : Forest K G') (h : runForest R mem w cfg data ref none = .ok (f, w1))
    (h' : runForest R' mem' w' { cfg with nEstimators := n, randomState := seed } (widen data extra) ref' none = .ok (f', w1'))
    (hn : 1 ≤ cfg.nEstimators) (hn' : 1 ≤ n) (ha : AfterReads f f1) (ha' : AfterReads f' f1') (x more : List K) (hx : x.length = F)
    (hmo : more.length = E) : ∃ p f2 f2', f1.predict x = .ok (p, f2) ∧ f1'.predict (x ++ more) = .ok (p, f2') := by
  set cfg' : ForestCfg K := { cfg with nEstimators := n, randomState := seed } with hcfg'
  have hp' : PlainForest cfg' :=
    ⟨hp.solver, hp.binning, hp.bins, hp.features, hp.depth, hp.leaves, hp.bootstrap, hp.boosting, hp.alphaN, hp.alphaF⟩
  obtain ⟨_, D, hD, _⟩ := C107_one_tree R mem w w1 cfg hp data ref f h hn
  have hfst := first_length hrect hne
  have hfst' := widen_first hl hrect hrect' hne
  set P := forestProblem cfg data (w.arrays.getD ref []) with hPdef
  set P' := forestProblem cfg' (widen data extra) (w'.arrays.getD ref' []) with hPdef'
  have hcols : P.cols = List.range F := by
    show List.range _ = _
    rw [hfst]
  have hcell : ∀ i ∈ List.range data.length, ∀ f < F, P'.value i f = P.value i f := fun i hi f hf =>
    widen_cell hl hrect (List.mem_range.1 hi) hf
  have hspan : ∀ (data : List (List K)) (f : Nat), data.map (fun row => row.getD f 0) =
      (List.range data.length).map (fun i => (data.getD i []).getD f 0) := by
    intro data f
    apply List.ext_getElem?
    intro i
    by_cases hi : i < data.length
    · simp [hi, List.getD_eq_getElem]
    · rw [List.getElem?_eq_none (by simpa using hi), List.getElem?_eq_none (by simpa using hi)]
  have hgrid : ∀ f vals, P'.grid f vals = match cfg.binType with
      | some .identity => valueGrid vals
      | some .linear =>
        let B := if cfg.useLog then Nat.log2 vals.length + 1 else cfg.numBins.getD 0
        let span := if cfg.precompMinmax then (List.range data.length).map (fun i => P'.value i f) else vals
        evenGrid (span.min?.getD 0) (span.max?.getD 0) B
      | _ => [] := by
    intro f vals
    show (match cfg.binType with
      | some .identity => valueGrid vals
      | some .linear =>
        let B := if cfg.useLog then Nat.log2 vals.length + 1 else cfg.numBins.getD 0
        let span := if cfg.precompMinmax then (widen data extra).map (fun row : List K => row.getD f 0) else vals
        evenGrid (span.min?.getD 0) (span.max?.getD 0) B
      | _ => []) = _
    rw [hspan, widen_length hl]
    rfl
  have hgrid0 : ∀ f vals, P.grid f vals = match cfg.binType with
      | some .identity => valueGrid vals
      | some .linear =>
        let B := if cfg.useLog then Nat.log2 vals.length + 1 else cfg.numBins.getD 0
        let span := if cfg.precompMinmax then (List.range data.length).map (fun i => P.value i f) else vals
        evenGrid (span.min?.getD 0) (span.max?.getD 0) B
      | _ => [] := by
    intro f vals
    show (match cfg.binType with
      | some .identity => valueGrid vals
      | some .linear =>
        let B := if cfg.useLog then Nat.log2 vals.length + 1 else cfg.numBins.getD 0
        let span := if cfg.precompMinmax then data.map (fun row : List K => row.getD f 0) else vals
        evenGrid (span.min?.getD 0) (span.max?.getD 0) B
      | _ => []) = _
    rw [hspan]
    rfl
  have hmore : CartProblem.MoreCols P P' (List.range data.length) := {
    cols := by
      refine ⟨(List.range E).map (fun i => F + i), ?_, ?_⟩
      · rw [hcols, ← List.range_add]
        show List.range _ = _
        rw [hfst']
      · intro f hf
        obtain ⟨j, hj, rfl⟩ := List.mem_map.1 hf
        rw [List.mem_range] at hj
        have hu := huse (F + j) (by omega) (by omega)
        have hF : ∀ g < F, g ∈ P.cols := by
          intro g hg
          rw [hcols, List.mem_range]
          exact hg
        rcases hp.binning with hb | hb
        · rw [if_pos hb] at hu
          refine CartProblem.addsNothing_value (fun f vals => ?_) hF hu
          rw [hgrid, hb]
        · rw [if_neg (by rw [hb]; simp)] at hu
          refine CartProblem.addsNothing_copy hF (fun g _ hcopy vals => ?_) hu
          rw [hgrid, hgrid, hb]
          dsimp only
          rw [List.map_congr_left hcopy]
    value := by
      intro i hi f hf
      rw [hcols, List.mem_range] at hf
      exact hcell i hi f hf
    label := by
      intro i _
      show (seenLabels cfg (w'.arrays.getD ref' [])).getD i 0 = (seenLabels cfg (w.arrays.getD ref [])).getD i 0
      rw [hlab]
    grid := by
      intro f hf
      rw [hcols, List.mem_range] at hf
      funext vals
      rw [hgrid, hgrid0, List.map_congr_left (fun i hi => hcell i hi f hf)]
    imp := rfl
    total := widen_length hl
    size := by
      show (w'.arrays.getD ref' []).length = (w.arrays.getD ref []).length
      rw [hlab]
    maxDepth := rfl
    minSamples := rfl
    minDecrease := rfl }
  have h1 := hmore.isCart hD
  have hrow : D.rowsAt (x ++ more) = D.rowsAt x := by
    refine hD.rowsAt_congr (fun f hf => ?_)
    rw [hcols, List.mem_range] at hf
    rw [List.getElem?_append_left (by omega)]
  refine forests_alike hp hp' h h' hn hn' rfl (by rw [hlab]) hD (by rw [widen_length hl]; exact h1) (by omega)
    (by rw [hfst', List.length_append]; omega) ?_ ?_ ha ha'
  · rw [hrow, hlab]
    rfl
  · intro c
    rw [hrow, hlab]
    rfl

/-! ### Examples -/

/-- The example tree on two copies of every row. -/
def exArgsDouble : TreeArgs ℚ :=
  { exArgs with data := copies 2 exArgs.data, labels := copies 2 exArgs.labels, cfg := { exArgs.cfg with minSamplesSplit := 2 } }

/-- The hypotheses of `C117_tree` hold: the limit is 1 row for the tree and 2 rows for the tree on two copies. The trees ask the same three
questions. -/
example : (∀ n, 2 ≤ n → (2 < 2 * n ↔ exArgs.cfg.minSamplesSplit < n)) ∧ exArgs.idcs = none ∧
    (exArgsDouble.data.zip exArgsDouble.labels).Perm (copies 2 (exArgs.data.zip exArgs.labels)) ∧
    ∃ t, Fitted rngQ exMem exArgsDouble t ∧ (decide (exArgs.cfg.maxLeafNodes ≠ some t.leaves.length) &&
      readTree t 9 0 == .node 0 1 (.leaf [0, 1, 6, 7]) (.node 0 3 (.leaf [2, 3, 8, 9]) (.node 0 4 (.leaf [4, 10]) (.leaf [5, 11])))) = true :=
  ⟨fun n hn => (by show 2 < 2 * n ↔ 1 < n; omega), rfl, by decide +kernel, runTree_exists (glob := exGlob) (by decide +kernel)⟩

/-- The limit must be adapted: with `min_samples_split = 2`, which stops at two rows, the last question is asked only when every row is
there twice. -/
example : (∃ t, Fitted rngQ exMem { exArgs with cfg := { exArgs.cfg with minSamplesSplit := 2 } } t ∧
      (readTree t 9 0 == .node 0 1 (.leaf [0, 1]) (.node 0 3 (.leaf [2, 3]) (.leaf [4, 5]))) = true) ∧
    ∃ t, Fitted rngQ exMem exArgsDouble t ∧
      (readTree t 9 0 == .node 0 1 (.leaf [0, 1, 6, 7]) (.node 0 3 (.leaf [2, 3, 8, 9]) (.node 0 4 (.leaf [4, 10]) (.leaf [5, 11])))) = true :=
  ⟨runTree_exists (glob := exGlob) (by decide +kernel), runTree_exists (glob := exGlob) (by decide +kernel)⟩

/-- Three columns that bring nothing new to the example: a constant, a decreasing function of the first column and an increasing function of
the second column. -/
def exExtra : List (List ℚ) := [[7, 9, 0], [7, 9, 0], [7, 4, 3], [7, 3, 3], [7, 3, 0], [7, -1, 0]]

/-- The hypotheses of `C118_tree` hold, and the tree asks its three questions. -/
example : NewColsUseless exArgs.cfg.binType (widen exArgs.data exExtra) exArgs.rows 2 3 ∧
    (∃ t, Fitted rngQ exMem { exArgs with data := widen exArgs.data exExtra, seed := 4 } t ∧
      (decide (exArgs.cfg.maxLeafNodes ≠ some t.leaves.length) &&
        readTree t 9 0 == .node 0 1 (.leaf [0, 1]) (.node 0 3 (.leaf [2, 3]) (.node 0 4 (.leaf [4]) (.leaf [5])))) = true) := by
  refine ⟨?_, runTree_exists (glob := exGlob) (by decide +kernel)⟩
  intro f h1 h2
  rw [if_pos (show exArgs.cfg.binType = some .identity from rfl)]
  obtain rfl | rfl | rfl : f = 2 ∨ f = 3 ∨ f = 4 := by omega
  · left
    decide +kernel
  · right
    exact ⟨0, by omega, Or.inr (by decide +kernel)⟩
  · right
    exact ⟨1, by omega, Or.inl (by decide +kernel)⟩

/-- Forests: the answers before and after repeating the rows three times, and with a copy of a column and a constant column. -/
example : PlainForest fcfgPlainReg ∧ NewColsUseless fcfgPlainReg.binType (widen exData (exData.map (fun r => [r.getD 1 0, 8]))) (List.range 6) 2 2 ∧
    (runForest rngQ exMems exWorldReg fcfgPlainReg exData 0 none).toOption.map
        (fun r => [[0, 2], [4, 1], [4, 9]].map (fun x => (r.1.predict x).toOption.map Prod.fst)) =
      some [some (.reg 1), some (.reg 7), some (.reg 11)] ∧
    (runForest rngQ exMems { glob := ⟨0, 0⟩, arrays := [copies 3 [1, 2, 4, 7, 11, 16]] } { fcfgPlainReg with minSamplesSplit := 3, nEstimators := 1 }
        (copies 3 exData) 0 none).toOption.map
        (fun r => [[0, 2], [4, 1], [4, 9]].map (fun x => (r.1.predict x).toOption.map Prod.fst)) =
      some [some (.reg 1), some (.reg 7), some (.reg 11)] ∧
    (runForest rngQ exMems exWorldReg fcfgPlainReg (widen exData (exData.map (fun r => [r.getD 1 0, 8]))) 0 none).toOption.map
        (fun r => [[0, 2, 6, 6], [4, 1, 0, 2], [4, 9, 1, 1]].map (fun x => (r.1.predict x).toOption.map Prod.fst)) =
      some [some (.reg 1), some (.reg 7), some (.reg 11)] := by
  refine ⟨⟨rfl, .inr rfl, fun _ => by decide, rfl, by decide, rfl, rfl, rfl, rfl, rfl⟩, ?_, by decide +kernel, by decide +kernel,
    by decide +kernel⟩
  intro f h1 h2
  rw [if_neg (by decide)]
  obtain rfl | rfl : f = 2 ∨ f = 3 := by omega
  · right
    exact ⟨1, by omega, by decide +kernel⟩
  · left
    decide +kernel

end FF
