import Verif.Spec.Explore
import Verif.Props.ExactCost
import Verif.Props.MabCost
import Verif.Props.Compare
import Verif.Props.TrainError
import Verif.Props.Unspent

set_option linter.unusedSectionVars false

/-!
# The first exploration, and when MABSplit is cheaper (C162)
-/

namespace Spec

variable {K : Type} [Field K] [LinearOrder K] {P : CartProblem K}

/-- The root is paid for. -/
theorem CartProblem.Costs.root_le {d : Nat} {rows : List Nat} {D : DTree K} {n : Nat} (h : P.Costs d rows D n) (hm : P.MaySplit d rows) :
    P.searchCost rows ≤ n := by
  cases h with
  | closed h => exact absurd hm h
  | searched => exact le_refl _
  | node => omega

end Spec

namespace FF

open Spec

variable {K : Type} [Field K] [LinearOrder K] [IsStrictOrderedRing K] [FloorRing K] [NpFun K] {G G' : Type}

/-! ### When MABSplit is cheaper -/

/-- **C162** (costs). Classification over LINEAR bins with `max_depth = d`: as soon as searching the root exactly costs more than
`(2^d - 1) · columns · batch_size`, a tree grown by MABSplit costs less than the exact tree of the same data and settings. -/
theorem C162_cheaper (R : Rng K G) (R' : Rng K G') (mem mem' : Nat → Junk K) (A : TreeArgs K) (hA : NoChoice A)
    (hb : A.cfg.binType = some .linear) (hcls : A.cfg.isCls = true) (hmax : MaximaCover A) (d : Nat) (hd : A.cfg.maxDepth = .some d)
    (t : Tree K G) (t' : Tree K G') (h : Fitted R mem A t) (h' : Fitted R' mem' { A with cfg := { A.cfg with solver := .mab } } t')
    (hm : A.cfg.maxLeafNodes ≠ some t.leaves.length) (hd0 : 0 < d) (hsize : A.cfg.minSamplesSplit < A.rows.length)
    (hmixed : ∃ i ∈ A.rows, ∃ j ∈ A.rows, A.labels.getD i 0 ≠ A.labels.getD j 0)
    (hbig : (2 ^ d - 1) * (A.cols.length * A.cfg.batch) < A.problem.searchCost A.rows) : t'.numQueries < t.numQueries := by
  obtain ⟨D, _, hc, _⟩ := C101_greedy_tree R mem A hA t h hm
  have h1 := (C161_cost R mem A hA t h hm D hc).1
  have hmay : A.problem.MaySplit 0 A.rows := by
    refine ⟨?_, hsize, hmixed⟩
    intro e he
    have : A.problem.maxDepth = some d := by
      show (match A.cfg.maxDepth with
        | .some d => some d
        | _ => none) = some d
      rw [hd]
    rw [this] at he
    cases he
    exact hd0
  have h2 := h1.root_le hmay
  have h3 := C136_depth R' mem' { A with cfg := { A.cfg with solver := .mab } } t' h'
    ⟨hA.args.crit, hA.args.minmax_le, hA.args.sorted, hA.args.linear_bins, hA.args.auto_bins⟩ rfl hb hcls hmax d hd
  exact lt_of_le_of_lt h3 (lt_of_lt_of_le hbig h2)

/-- **C162** (forests). The same for a classification forest over LINEAR bins that samples neither rows nor columns: as soon as searching
the root exactly costs more than `(2^d - 1) · columns · batch_size`, the forest of MABSplit trees costs less than the one of exact trees. -/
theorem C162_forest (R : Rng K G) (R' : Rng K G') (mem mem' : Nat → Nat → Junk K) (w w1 : World K G) (v v1 : World K G') (cfg : ForestCfg K)
    (hp : PlainForest cfg) (hb : cfg.binType = some .linear) (hcls : cfg.isCls = true) (d : Nat) (hd : cfg.maxDepth = .some d)
    (hn : 1 ≤ cfg.nEstimators) (data : List (List K)) (ref ref' : Nat) (f : Forest K G) (f' : Forest K G')
    (h : runForest R mem w cfg data ref none = .ok (f, w1)) (h' : runForest R' mem' v { cfg with solver := .mab } data ref' none = .ok (f', v1))
    (hmay : (forestProblem cfg data (w.arrays.getD ref [])).MaySplit 0 (List.range data.length))
    (hbig : (2 ^ d - 1) * ((data.getD 0 []).length * cfg.batch) <
      (forestProblem cfg data (w.arrays.getD ref [])).searchCost (List.range data.length)) : f'.numQueries < f.numQueries := by
  obtain ⟨f0, w0, hi, hf⟩ := runForest_parts h
  obtain ⟨i1, i2, i3, _⟩ := Forest_init_fields hi
  have hlen : f.trees.length = cfg.nEstimators := by rw [(Forest_fit_accounting hf).2.2.2 i2, i1]
  obtain ⟨g0, v0, hi', hf'⟩ := runForest_parts h'
  obtain ⟨_, _, j3, _, _, _, _, j6, _⟩ := Forest_init_fields hi'
  have hup := C136_forest R' mem' _ none g0 f' v0 v1 none none (.new hi') hf' rfl hb hcls hp.bins (le_of_eq hp.alphaN) (le_of_eq hp.alphaF) d hd
  have htrain : trainData g0 none = data := by
    unfold trainData
    simp [j6]
  rw [j3, Nat.zero_add, htrain] at hup
  have hlow : ∀ t ∈ f.trees, (forestProblem cfg data (w.arrays.getD ref [])).searchCost (List.range data.length) ≤ t.numQueries := by
    intro t ht
    obtain ⟨A, t0, hpt⟩ := plain_trees hp hi hf ht
    obtain ⟨i, hfit⟩ := hpt.fitted
    have hm : A.cfg.maxLeafNodes ≠ some t0.leaves.length := by rw [hpt.leaves]; simp
    obtain ⟨D, _, hc, _⟩ := C101_greedy_tree R (mem i) A hpt.noChoice t0 hfit hm
    have h1 := (C161_cost R (mem i) A hpt.noChoice t0 hfit hm D hc).1
    rw [hpt.rows] at h1
    have hmay' : A.problem.MaySplit 0 (List.range data.length) := by
      obtain ⟨a, b, c⟩ := hmay
      rw [← hpt.alike.maxDepth] at a
      rw [← hpt.alike.minSamples] at b
      rw [← hpt.alike.label] at c
      exact ⟨a, b, c⟩
    have hcost : A.problem.searchCost (List.range data.length) =
        (forestProblem cfg data (w.arrays.getD ref [])).searchCost (List.range data.length) := by
      unfold CartProblem.searchCost
      rw [hpt.alike.cols, hpt.alike.value]
      congr 2
      exact List.filter_congr (fun f hf => by rw [hpt.alike.grid f hf])
    obtain ⟨dd, t00, hg⟩ := hfit.facts
    rw [← hcost, show t.numQueries = t0.numQueries by rw [(hpt.after.cache hg.cache).eq]]
    exact h1.root_le hmay'
  have hsum : cfg.nEstimators * (forestProblem cfg data (w.arrays.getD ref [])).searchCost (List.range data.length) ≤ f.numQueries := by
    rw [(Forest_fit_accounting hf).1, i3, Nat.zero_add, ← hlen]
    have := List.card_nsmul_le_sum (f.trees.map (fun t => t.numQueries)) _
      (fun q hq => by obtain ⟨t, ht, rfl⟩ := List.mem_map.1 hq; exact hlow t ht)
    simpa using this
  refine lt_of_le_of_lt hup (lt_of_lt_of_le ?_ hsum)
  exact Nat.mul_lt_mul_of_pos_left hbig hn

/-- A column with two different values has thresholds. -/
theorem evenGrid_nonempty {vals : List K} {B : Nat} (hB : B ≠ 0) {x y : K} (hx : x ∈ vals) (hy : y ∈ vals) (hne : x ≠ y) :
    evenGrid (vals.min?.getD 0) (vals.max?.getD 0) B ≠ [] := by
  unfold evenGrid
  have hn : vals ≠ [] := List.ne_nil_of_mem hx
  obtain ⟨lo, hlo⟩ : ∃ lo, vals.min? = some lo := Option.ne_none_iff_exists'.1 (by rw [ne_eq, List.min?_eq_none_iff]; exact hn)
  obtain ⟨hi, hhi⟩ : ∃ hi, vals.max? = some hi := Option.ne_none_iff_exists'.1 (by rw [ne_eq, List.max?_eq_none_iff]; exact hn)
  rw [hlo, hhi]
  simp only [Option.getD_some]
  rw [if_neg]
  · simp [hB]
  · intro e
    have hle := (List.min?_eq_some_iff.1 hlo).2
    have hge := (List.max?_eq_some_iff.1 hhi).2
    apply hne
    have a1 := hle x hx
    have a2 := hle y hy
    have a3 := hge x hx
    have a4 := hge y hy
    rw [e] at a1 a2
    exact (le_antisymm a3 a1).trans (le_antisymm a4 a2).symm

/-- Searching the rows costs one query for each row and column, if no column is constant. -/
theorem explore_searchCost {batch : Nat} {train : List (List K)} {labels : List K} {classes : ClassDict K} {d : Nat} {s : Solver}
    (hlen : train.length = labels.length) (hv : ∀ f < (train.getD 0 []).length, Varies train f) :
    (exploreArgs batch train labels classes d s).problem.searchCost (exploreArgs batch train labels classes d s).rows =
      labels.length * (train.getD 0 []).length := by
  have hrows : (exploreArgs batch train labels classes d s).rows = List.range labels.length := rfl
  have hcols : (exploreArgs batch train labels classes d s).problem.cols = List.range (train.getD 0 []).length := rfl
  unfold CartProblem.searchCost
  rw [hrows, hcols, List.length_range]
  congr 1
  rw [List.filter_eq_self.2, List.length_range]
  intro f hf
  obtain ⟨x, hx, y, hy, hne⟩ := hv f (List.mem_range.1 hf)
  have hin : ∀ x ∈ train, x.getD f 0 ∈ (List.range labels.length).map (fun i => (exploreArgs batch train labels classes d s).problem.value i f) := by
    intro x hx
    obtain ⟨i, hi, rfl⟩ := List.mem_iff_getElem.1 hx
    refine List.mem_map.2 ⟨i, List.mem_range.2 (hlen ▸ hi), ?_⟩
    show (train.getD i []).getD f 0 = _
    rw [List.getD_eq_getElem _ _ hi]
  have := evenGrid_nonempty (B := 11) (by decide) (hin x hx) (hin y hy) hne
  have e : (exploreArgs batch train labels classes d s).problem.grid f
      ((List.range labels.length).map (fun i => (exploreArgs batch train labels classes d s).problem.value i f)) ≠ [] := this
  simpa [List.isEmpty_iff] using e

theorem explore_noChoice (batch : Nat) (train : List (List K)) (labels : List K) (classes : ClassDict K) (d : Nat) :
    NoChoice (exploreArgs batch train labels classes d .exact) :=
  ⟨⟨Or.inl rfl, fun _ _ h => (by cases h), fun _ _ h => (by cases h), fun _ _ h => (by cases h), fun h => (by cases h)⟩, rfl, Or.inr rfl,
    rfl, rfl, fun h => (by cases h)⟩

/-! ### The reports -/

section
variable {R : Rng K G} {mem : Nat → Junk K}

theorem batch_share {A : TreeArgs K} {t t1 t2 : Tree K G} (h : Fitted R mem A t) (hc : A.cfg.isCls = true) (hd : ClassesOK A.cfg.classes)
    (ha : AfterPredicts t t1)    {xs : List (List K)} {ys : List K} {ps : List (Pred K)} {s : K} (hp : t1.predictBatch xs = .ok (ps, t2))
    (hs : cmpScore true ps ys = .ok s) : RightShare t xs ys s := by
  have hb := C38_batch R mem A t t1 h ha xs
  rw [hp] at hb
  have h2 := mapM_ok (show xs.mapM (fun x => (t.predict x).map Prod.fst) = .ok ps from hb.symm)
  have hsc := cmpScore_is hs
  have hl := h2.length_eq
  refine ⟨?_, hl.trans hsc.length, ps.map Pred.value, ?_, ?_⟩
  · intro e
    rw [e] at hl
    exact hsc.some (List.length_eq_zero_iff.1 hl.symm)
  · rw [List.forall₂_map_right_iff]
    refine h2.imp ?_
    intro x p hxp
    cases hq : t.predict x with
    | error e => rw [hq] at hxp; cases hxp
    | ok r =>
      obtain ⟨p', t'⟩ := r
      rw [hq] at hxp
      cases hxp
      obtain ⟨_, _, label, probs, _, _, _, _, e, _⟩ := C36_leaf_frequencies R mem A t t t' h hc hd .none x p' hq
      exact ⟨probs, t', by rw [e]; rfl⟩
  · rw [hl, hsc.accuracy rfl, List.zip_map_left, List.countP_map]
    rfl

/-- The parts of a call. -/
theorem oursNgPerf_parts {batch : Nat} {train test : List (List K)} {labels testLabels : List K} {classes : ClassDict K} {d : Nat} {solver : Solver}
    {r : ExploreReport K} (hd : ClassesOK classes) (h : oursNgPerf R mem batch train labels test testLabels classes d solver = .ok r) :
    train.length = labels.length ∧ ∃ t : Tree K G, Fitted R mem (exploreArgs batch train labels classes d solver) t ∧
      RightShare t train labels r.train ∧ RightShare t test testLabels r.test ∧ r.queries = t.numQueries := by
  unfold oursNgPerf at h
  cases h1 : Tree.init R (exploreCfg batch classes d solver) train labels none none 0 none none with
  | error e => rw [h1] at h; cases h
  | ok q1 =>
    obtain ⟨t0, g⟩ := q1
    rw [h1] at h
    dsimp only at h
    cases h2 : Tree.fit R mem t0 g none none with
    | error e => rw [h2] at h; cases h
    | ok q2 =>
      obtain ⟨t, g'⟩ := q2
      rw [h2] at h
      dsimp only at h
      have hfit : Fitted R mem (exploreArgs batch train labels classes d solver) t := ⟨t0, g, g', ⟨g, h1⟩, h2⟩
      cases h3 : t.predictBatch train with
      | error e => rw [h3] at h; cases h
      | ok q3 =>
        obtain ⟨ps, t1⟩ := q3
        rw [h3] at h
        dsimp only at h
        cases h4 : cmpScore true ps labels with
        | error e => rw [h4] at h; cases h
        | ok a =>
          rw [h4] at h
          dsimp only at h
          cases h5 : t1.predictBatch test with
          | error e => rw [h5] at h; cases h
          | ok q5 =>
            obtain ⟨qs, t2⟩ := q5
            rw [h5] at h
            dsimp only at h
            cases h6 : cmpScore true qs testLabels with
            | error e => rw [h6] at h; cases h
            | ok b =>
              rw [h6] at h
              cases h
              have s1 := batch_share hfit rfl hd .none h3 h4
              refine ⟨s1.2.1, t, hfit, s1, batch_share hfit rfl hd (predictBatch_after h3) h5 h6, ?_⟩
              rw [predictBatch_queries _ h5, predictBatch_queries _ h3]

end

theorem RightShare.range {t : Tree K G} {xs : List (List K)} {ys : List K} {s : K} (h : RightShare t xs ys s) : 0 ≤ s ∧ s ≤ 1 := by
  obtain ⟨h1, h2, as, h3, h4⟩ := h
  have hpos : (0 : K) < (xs.length : K) := by exact_mod_cast List.length_pos_of_ne_nil h1
  have hle : ((as.zip ys).countP (fun q => decide (q.1 = q.2))) ≤ xs.length := by
    refine List.countP_le_length.trans ?_
    rw [List.length_zip, h3.length_eq]
    exact min_le_left _ _
  have hle' : (((as.zip ys).countP (fun q => decide (q.1 = q.2)) : Nat) : K) ≤ (xs.length : K) := by exact_mod_cast hle
  rw [← h4] at hle'
  constructor
  · have : 0 ≤ s * (xs.length : K) := by rw [h4]; exact Nat.cast_nonneg _
    by_contra hc
    exact absurd this (not_le.2 (mul_neg_of_neg_of_pos (not_le.1 hc) hpos))
  · by_contra hc
    have := mul_lt_mul_of_pos_right (not_le.1 hc) hpos
    rw [one_mul] at this
    exact absurd this (not_lt.2 hle')

theorem forall₂_append_inv {α β : Type} {r : α → β → Prop} (l : List α) {l' : List α} : ∀ {m : List β}, List.Forall₂ r (l ++ l') m →
    ∃ a b, m = a ++ b ∧ List.Forall₂ r l a ∧ List.Forall₂ r l' b := by
  induction l with
  | nil => intro m h; exact ⟨[], m, rfl, .nil, h⟩
  | cons x l ih =>
    intro m h
    cases h with
    | cons hx h =>
      obtain ⟨a, b, rfl, h1, h2⟩ := ih h
      exact ⟨_ :: a, b, rfl, .cons hx h1, h2⟩

theorem forall₂_fun {α β : Type} {r : α → β → Prop} (hr : ∀ x p q, r x p → r x q → p = q) {l : List α} {a : List β}
    (h : List.Forall₂ r l a) : ∀ {b : List β}, List.Forall₂ r l b → a = b := by
  induction h with
  | nil => intro b h'; cases h'; rfl
  | cons hx _ ih =>
    intro b h'
    cases h' with
    | cons hy h' => rw [hr _ _ _ hx hy, ih h']

theorem RightShare.half {t : Tree K G} {xs : List (List K)} {ys : List K} (hlen : xs.length = ys.length) {s : K}
    (h : RightShare t (xs ++ xs) (ys ++ ys) s) : RightShare t xs ys s := by
  obtain ⟨h1, _, as, h3, h4⟩ := h
  obtain ⟨a, b, rfl, ha, hb⟩ := forall₂_append_inv xs h3
  obtain rfl := forall₂_fun (fun x p q hp hq => by
    obtain ⟨_, _, hp⟩ := hp
    obtain ⟨_, _, hq⟩ := hq
    rw [hp] at hq
    cases hq
    rfl) ha hb
  refine ⟨fun e => h1 (by rw [e]; rfl), hlen, a, ha, ?_⟩
  rw [List.zip_append (ha.length_eq.symm.trans hlen), List.countP_append, List.length_append] at h4
  push_cast at h4 ⊢
  linarith

theorem RightShare.original {t : Tree K G} (d : Nat) : ∀ {xs : List (List K)} {ys : List K}, xs.length = ys.length → ∀ {s : K},
    RightShare t (makeHuge d xs) (makeHuge d ys) s → RightShare t xs ys s := by
  induction d with
  | zero => intro xs ys _ s h; exact h
  | succ d ih =>
    intro xs ys hlen s h
    exact (ih (by simp [hlen]) h).half hlen

/-! ### C162 -/

/-- **C162** (reports). What a call of `ours_ng_perf` prints: the shares of the training and the test points that the fitted tree answers with
their label, and the queries it cost. The shares lie between 0 and 1, and on the training points no constant answer is better. -/
theorem C162_report (R : Rng K G) (mem : Nat → Junk K) (batch : Nat) (train test : List (List K)) (labels testLabels : List K) (classes : ClassDict K)
    (d : Nat) (solver : Solver) (r : ExploreReport K) (hd : ClassesOK classes)
    (h : oursNgPerf R mem batch train labels test testLabels classes d solver = .ok r) :
    ∃ t : Tree K G, Fitted R mem (exploreArgs batch train labels classes d solver) t ∧ RightShare t train labels r.train ∧
      RightShare t test testLabels r.test ∧ r.queries = t.numQueries ∧ 0 ≤ r.train ∧ r.train ≤ 1 ∧ 0 ≤ r.test ∧ r.test ≤ 1 ∧
      ∀ c : K, ((labels.count c : Nat) : K) ≤ r.train * (labels.length : K) := by
  obtain ⟨hlen, t, h1, h2, h3, h4⟩ := oursNgPerf_parts hd h
  refine ⟨t, h1, h2, h3, h4, h2.range.1, h2.range.2, h3.range.1, h3.range.2, ?_⟩
  intro c
  obtain ⟨l, e1, e2⟩ := C93_classification_const R mem _ t t h1 rfl hd .none
  obtain ⟨_, _, as, e3, e4⟩ := h2
  rw [← hlen, e4]
  have hrows : (exploreArgs batch train labels classes d solver).rows = List.range labels.length := rfl
  have hlab : labelsOf labels (List.range labels.length) = labels := by
    unfold labelsOf
    apply List.ext_getElem
    · simp
    · intro i q1 q2
      rw [List.getElem_map, List.getElem_range, List.getD_eq_getElem _ _ q2]
  have := e2 c
  rw [hrows] at this e1
  change (labelsOf labels (List.range labels.length)).count c ≤ _ at this
  rw [hlab] at this
  have has : as = (List.range labels.length).map l := by
    apply List.ext_getElem
    · rw [← e3.length_eq, hlen]; simp
    · intro i q1 q2
      have q3 : i < train.length := by rw [e3.length_eq]; exact q1
      obtain ⟨x, hx, probs, t', hp⟩ := forall₂_getElem e3 (List.getElem?_eq_getElem q1)
      obtain ⟨probs', t'', hp'⟩ := e1 i (List.mem_range.2 (hlen ▸ q3))
      change t.predict (train.getD i []) = _ at hp'
      rw [List.getD_eq_getElem?_getD, hx, Option.getD_some, hp] at hp'
      simp only [Except.ok.injEq, Prod.mk.injEq, Pred.cls.injEq] at hp'
      rw [List.getElem_map, List.getElem_range]
      exact hp'.1.1
  have hz : (as.zip labels).countP (fun q => decide (q.1 = q.2)) = numRight (List.range labels.length) (fun i => labels.getD i 0) l := by
    have : as.zip labels = (List.range labels.length).map (fun i => (l i, labels.getD i 0)) := by
      rw [← List.zip_map', ← has]
      exact congrArg _ hlab.symm
    rw [this, List.countP_map]
    rfl
  rw [hz]
  exact_mod_cast this

/-- **C162** (the script). The four reports are about the trees with depth limits 5 and 2 and the two solvers. The training accuracies
printed for the data that was made larger are the shares of the original points that these trees answer right. If the training labels are
not all the same, no column is constant and sixteen copies of the training points are more than three batches (with 1000 rows in a batch:
there are more than 187 training points), MABSplit costs less than the exact solver on the data that was made larger. -/
theorem C162_script (R : Rng K G) (mem : Nat → Nat → Junk K) (batch : Nat) (train test : List (List K)) (labels testLabels : List K) (r : Explored K)
    (h : explore R mem batch train labels test testLabels = .ok r) :
    (∃ classes : ClassDict K, ClassesOK classes ∧
      Shows R (mem 0) (exploreArgs batch train labels classes 5 .exact) train labels test testLabels r.exact ∧
      Shows R (mem 1) (exploreArgs batch train labels classes 5 .mab) train labels test testLabels r.mab ∧
      Shows R (mem 2) (exploreArgs batch (copies 16 train) (copies 16 labels) classes 2 .exact) train labels test testLabels r.hugeExact ∧
      Shows R (mem 3) (exploreArgs batch (copies 16 train) (copies 16 labels) classes 2 .mab) train labels test testLabels r.hugeMab) ∧
    ((∃ y ∈ labels, ∃ y' ∈ labels, y ≠ y') → train.getD 0 [] ≠ [] → (∀ f < (train.getD 0 []).length, Varies train f) →
      3 * batch < 16 * train.length → r.hugeMab.queries < r.hugeExact.queries) := by
  have hcls : ClassesOK (classToIdx (npUnique labels)) := classToIdx_ok (npUnique_nodup labels)
  unfold explore at h
  dsimp only at h
  cases h1 : oursNgPerf R (mem 0) batch train labels test testLabels (classToIdx (npUnique labels)) 5 .exact with
  | error e => rw [h1] at h; cases h
  | ok r1 =>
  rw [h1] at h
  dsimp only at h
  cases h2 : oursNgPerf R (mem 1) batch train labels test testLabels (classToIdx (npUnique labels)) 5 .mab with
  | error e => rw [h2] at h; cases h
  | ok r2 =>
  rw [h2] at h
  dsimp only at h
  cases h3 : oursNgPerf R (mem 2) batch (makeHuge 4 train) (makeHuge 4 labels) test testLabels (classToIdx (npUnique labels)) 2 .exact with
  | error e => rw [h3] at h; cases h
  | ok r3 =>
  rw [h3] at h
  dsimp only at h
  cases h4 : oursNgPerf R (mem 3) batch (makeHuge 4 train) (makeHuge 4 labels) test testLabels (classToIdx (npUnique labels)) 2 .mab with
  | error e => rw [h4] at h; cases h
  | ok r4 =>
  rw [h4] at h
  cases h
  obtain ⟨hlen, p1⟩ := oursNgPerf_parts hcls h1
  obtain ⟨_, p2⟩ := oursNgPerf_parts hcls h2
  obtain ⟨hlen3, t, e1, e2, e2', e3⟩ := oursNgPerf_parts hcls h3
  obtain ⟨_, t', f1, f2, f2', f3⟩ := oursNgPerf_parts hcls h4
  have h16 : ∀ {α : Type} (l : List α), copies 16 l = makeHuge 4 l := fun l => (C117_make_huge 4 l).symm
  refine ⟨⟨_, hcls, p1, p2, ?_, ?_⟩, ?_⟩
  · rw [h16 train, h16 labels]
    exact ⟨t, e1, e2.original 4 hlen, e2', e3⟩
  · rw [h16 train, h16 labels]
    exact ⟨t', f1, f2.original 4 hlen, f2', f3⟩
  rintro ⟨y, hy, y', hy', hne⟩ hw hv hn
  show r4.queries < r3.queries
  rw [e3, f3]
  have hmem : ∀ {α : Type} (l : List α) (a : α), a ∈ makeHuge 4 l ↔ a ∈ l := by
    intro α l a
    rw [C117_make_huge, mem_copies (by decide)]
  have hfirst : (makeHuge 4 train).getD 0 [] = train.getD 0 [] := by
    cases train with
    | nil => rfl
    | cons x l => rfl
  have hlen4 : (makeHuge 4 labels).length = 16 * train.length := by rw [makeHuge_length, hlen]; norm_num
  have hin : ∀ y ∈ labels, ∃ i ∈ List.range (makeHuge 4 labels).length, (makeHuge 4 labels).getD i 0 = y := by
    intro y hy
    obtain ⟨i, hi, rfl⟩ := List.mem_iff_getElem.1 ((hmem labels y).2 hy)
    exact ⟨i, List.mem_range.2 hi, List.getD_eq_getElem _ _ hi⟩
  obtain ⟨i, hi, ei⟩ := hin y hy
  obtain ⟨j, hj, ej⟩ := hin y' hy'
  refine C162_cheaper R R (mem 2) (mem 3) (exploreArgs batch (makeHuge 4 train) (makeHuge 4 labels) (classToIdx (npUnique labels)) 2 .exact)
    (explore_noChoice _ _ _ _ _) rfl rfl (fun _ _ h => by cases h) 2 rfl t t' e1 f1 (by intro h; cases h) (by decide) ?_
    ⟨i, hi, j, hj, by show (makeHuge 4 labels).getD i 0 ≠ (makeHuge 4 labels).getD j 0; rw [ei, ej]; exact hne⟩ ?_
  · show 2 < (List.range (makeHuge 4 labels).length).length
    have := List.length_pos_of_mem hy
    rw [List.length_range, hlen4]
    omega
  · rw [explore_searchCost hlen3, hfirst, hlen4]
    · show (2 ^ 2 - 1) * ((List.range ((makeHuge 4 train).getD 0 []).length).length * batch) < _
      rw [List.length_range, hfirst]
      have hpos := List.length_pos_of_ne_nil hw
      have e : (2 ^ 2 - 1) * ((train.getD 0 []).length * batch) = (3 * batch) * (train.getD 0 []).length := by norm_num; ring
      rw [e]
      exact Nat.mul_lt_mul_of_pos_right hn hpos
    · rw [hfirst]
      intro f hf
      obtain ⟨x, hx, z, hz, hxz⟩ := hv f hf
      exact ⟨x, (hmem _ _).2 hx, z, (hmem _ _).2 hz, hxz⟩

/-! ### The hypotheses can be met -/

/-- Six points. -/
def exPoints : List (List ℚ) := [[0, 3], [1, 1], [2, 4], [3, 1], [4, 5], [5, 9]]

/-- The whole script with batches of four rows: the labels differ, no column is constant, and sixteen copies of six points are more than
three batches. The exact solver costs sixteen times as much on the larger data, MABSplit as much as before. -/
example : (∃ y ∈ ([0, 0, 1, 1, 0, 1] : List ℚ), ∃ y' ∈ ([0, 0, 1, 1, 0, 1] : List ℚ), y ≠ y') ∧ exPoints.getD 0 [] ≠ [] ∧
    (∀ f < (exPoints.getD 0 []).length, Varies exPoints f) ∧ 3 * 4 < 16 * exPoints.length ∧
    (explore rngQ exMems 4 exPoints [0, 0, 1, 1, 0, 1] [[1, 1], [5, 5]] [0, 1]).toOption =
      some ⟨⟨5 / 6, 1 / 2, 20⟩, ⟨5 / 6, 1 / 2, 16⟩, ⟨5 / 6, 1 / 2, 320⟩, ⟨5 / 6, 1 / 2, 16⟩⟩ := by
  refine ⟨⟨0, by simp, 1, by simp, by decide⟩, by decide, ?_, by decide, by decide +kernel⟩
  intro f hf
  have : f = 0 ∨ f = 1 := by
    have h2 : (exPoints.getD 0 []).length = 2 := rfl
    omega
  rcases this with rfl | rfl <;> exact ⟨[0, 3], by simp [exPoints], [1, 1], by simp [exPoints], by decide⟩

/-- Twelve rows with batches of three: searching the root exactly costs 24, the bound for MABSplit is `(2^2 - 1)·2·3 = 18`; the trees cost 48
and 18. -/
def exArgsDear : TreeArgs ℚ := { exArgsCost with cfg := { exArgsCost.cfg with batch := 3, solver := .exact } }

example : NoChoice exArgsDear ∧ exArgsDear.cfg.binType = some .linear ∧ exArgsDear.cfg.isCls = true ∧ MaximaCover exArgsDear ∧
    exArgsDear.cfg.maxDepth = .some 2 ∧ exArgsDear.cfg.minSamplesSplit < exArgsDear.rows.length ∧
    (2 ^ 2 - 1) * (exArgsDear.cols.length * exArgsDear.cfg.batch) < exArgsDear.problem.searchCost exArgsDear.rows ∧
    (∃ t, Fitted rngQ exMem exArgsDear t ∧ (decide (exArgsDear.cfg.maxLeafNodes ≠ some t.leaves.length) && t.numQueries == 48) = true) ∧
    ∃ t, Fitted rngQ exMem { exArgsDear with cfg := { exArgsDear.cfg with solver := .mab } } t ∧ (t.numQueries == 18) = true :=
  ⟨⟨⟨Or.inl rfl, fun _ _ h => (by cases h), fun _ _ h => (by cases h), fun _ _ h => (by cases h), fun h => (by cases h)⟩, rfl, Or.inr rfl,
    rfl, rfl, fun h => (by cases h)⟩, rfl, rfl, fun _ _ h => (by cases h), rfl, by decide, by decide +kernel,
    runTree_exists (glob := exGlob) (by decide +kernel), runTree_exists (glob := exGlob) (by decide +kernel)⟩

/-- Two trees of six rows, batches of one row: searching the root exactly costs 12, the bound is `(2^2 - 1)·2·1 = 6`; the forests cost 40 and 4. -/
def fcfgDear : ForestCfg ℚ := { fcfgPlain with binType := some .linear, numBins := some 3, maxDepth := .some 2, batch := 1 }

example : PlainForest fcfgDear ∧ fcfgDear.binType = some .linear ∧ fcfgDear.isCls = true ∧ fcfgDear.maxDepth = .some 2 ∧ 1 ≤ fcfgDear.nEstimators ∧
    (forestProblem fcfgDear exData (exWorld.arrays.getD 0 [])).MaySplit 0 (List.range exData.length) ∧
    (2 ^ 2 - 1) * ((exData.getD 0 []).length * fcfgDear.batch) <
      (forestProblem fcfgDear exData (exWorld.arrays.getD 0 [])).searchCost (List.range exData.length) ∧
    (runForest rngQ exMems exWorld fcfgDear exData 0 none).toOption.map (fun r => r.1.numQueries) = some 40 ∧
    (runForest rngQ exMems exWorld { fcfgDear with solver := .mab } exData 0 none).toOption.map (fun r => r.1.numQueries) = some 4 :=
  ⟨⟨rfl, .inr rfl, fun _ => by decide, rfl, by decide, rfl, rfl, rfl, rfl, rfl⟩, rfl, rfl, rfl, by decide,
    ⟨fun e he => (by cases he; decide), by decide, 0, by decide, 1, by decide, by decide +kernel⟩, by decide +kernel, by decide +kernel,
    by decide +kernel⟩

end FF
