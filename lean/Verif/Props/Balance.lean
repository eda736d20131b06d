import Verif.Props.TrainError
import Verif.Props.ForestPredict
import Verif.Props.Average
import Verif.Props.ForestEx
import Verif.Spec.Balance

/-!
# C166: answers are right on average on the training rows
-/

namespace FF

open Spec

set_option linter.unusedSectionVars false

variable {K : Type} [Field K] [LinearOrder K] [IsStrictOrderedRing K] [FloorRing K] [NpFun K] {G : Type}

theorem sum_flatMap (ls : List Nat) (f : Nat → List Nat) (u : Nat → K) :
    ((ls.flatMap f).map u).sum = (ls.map (fun a => ((f a).map u).sum)).sum := by
  induction ls with
  | nil => rfl
  | cons a ls ih => rw [List.flatMap_cons, List.map_append, List.sum_append, ih, List.map_cons, List.sum_cons]

theorem sum_congr_mem {α : Type} {l : List α} {u v : α → K} (h : ∀ i ∈ l, u i = v i) : (l.map u).sum = (l.map v).sum :=
  congrArg List.sum (List.map_congr_left h)

theorem sum_const_mul (l : List Nat) (c : K) (u : Nat → K) : (l.map (fun i => c * u i)).sum = c * (l.map u).sum := by
  induction l with
  | nil => simp
  | cons a l ih => simp only [List.map_cons, List.sum_cons, ih]; ring

theorem sum_mean (l : List Nat) (u : Nat → K) : (l.map (fun _ => mean (l.map u))).sum = (l.map u).sum := by
  by_cases h : l = []
  · subst h; rfl
  have h1 := mean_mul_length (ys := l.map u) (by simpa using h)
  rw [List.length_map] at h1
  rw [← h1, List.map_const', List.sum_replicate, nsmul_eq_mul]

theorem sum_isLabel (l : List Nat) (y : Nat → K) (c : K) : (l.map (isLabel y c)).sum = ((l.map y).count c : K) := by
  induction l with
  | nil => simp
  | cons a l ih =>
    rw [List.map_cons, List.sum_cons, ih, List.map_cons, List.count_cons]
    unfold isLabel
    by_cases h : y a = c
    · simp [h]; ring
    · simp [h]

theorem freq_isLabel (l : List Nat) (y : Nat → K) (c : K) : freq (l.map y) c = mean (l.map (isLabel y c)) := by
  unfold freq mean
  rw [sum_isLabel, List.length_map, List.length_map]

/-! ### Trees -/

section

variable {R : Rng K G} {mem : Nat → Junk K} {A : TreeArgs K}

/-- The class probabilities a classification tree returns on its training rows. -/
theorem Fitted.classProbs {t t1 : Tree K G} (h : Fitted R mem A t) (hc : A.cfg.isCls = true) (hd : ClassesOK A.cfg.classes)
    (ha : AfterPredicts t t1) :
    ∃ q : Nat → List K, (∀ i ∈ A.rows, ∃ label t2, t1.predict (A.data.getD i []) = .ok (.cls label (q i), t2)) ∧
      ∀ leaf ∈ t.leaves, ∀ i ∈ rowsOf t leaf, q i = A.cfg.classes.map (fun c => freq (labelsOf A.labels (rowsOf t leaf)) c.1) := by
  classical
  obtain ⟨_, hl, hp⟩ := C29_partition R mem A t h
  have h1 : ∀ i, i ∈ A.rows → ∃ probs label t2, t1.predict (A.data.getD i []) = .ok (.cls label probs, t2) ∧
      ∀ leaf, IsLeaf t leaf → i ∈ rowsOf t leaf → probs = A.cfg.classes.map (fun c => freq (labelsOf A.labels (rowsOf t leaf)) c.1) := by
    intro i hi
    obtain ⟨leaf, a, b, hr, c⟩ := C35_training_row R mem A t h i hi
    obtain ⟨p, t2, hp⟩ := h.predict_of_route (fun _ => hd) (List.ne_nil_of_mem hi) ha hr
    obtain ⟨leaf2, ys, label, probs, k, b1, b2, b3, rfl, b5, _⟩ := C36_leaf_frequencies R mem A t t1 t2 h hc hd ha _ p hp
    obtain ⟨dd, t0, hf⟩ := h.facts
    obtain rfl := Routes.det hf.shape hr b2
    refine ⟨probs, label, t2, hp, ?_⟩
    intro leaf' hl' hi'
    obtain rfl := c leaf' hl' hi'
    rw [← b3]
    exact b5
  refine ⟨fun i => if hi : i ∈ A.rows then (h1 i hi).choose else [], ?_, ?_⟩
  · intro i hi
    obtain ⟨label, t2, e, _⟩ := (h1 i hi).choose_spec
    refine ⟨label, t2, ?_⟩
    beta_reduce
    rw [dif_pos hi]
    exact e
  · intro leaf hleaf i hi
    have hir : i ∈ A.rows := hp.subset (List.mem_flatMap.2 ⟨leaf, hleaf, hi⟩)
    obtain ⟨_, _, _, e⟩ := (h1 i hir).choose_spec
    beta_reduce
    rw [dif_pos hir]
    exact e leaf ((hl leaf).1 hleaf) hi

/-- Answers that are leaf means are right in every leaf, and so for all weights that treat the rows of a leaf alike. -/
theorem leaf_means_weighted {t : Tree K G} (h : Fitted R mem A t) {u v g : Nat → K} (hg : LeafWise t g)
    (hv : ∀ leaf ∈ t.leaves, ∀ i ∈ rowsOf t leaf, v i = mean ((rowsOf t leaf).map u)) : RightWeighted A.rows g u v := by
  obtain ⟨_, hl, hp⟩ := C29_partition R mem A t h
  unfold RightWeighted
  rw [← (hp.map (fun i => g i * v i)).sum_eq, ← (hp.map (fun i => g i * u i)).sum_eq, sum_flatMap, sum_flatMap]
  refine congrArg List.sum (List.map_congr_left (fun leaf hleaf => ?_))
  cases hr : rowsOf t leaf with
  | nil => rfl
  | cons i0 rest =>
    have hi0 : i0 ∈ rowsOf t leaf := by rw [hr]; exact List.mem_cons_self ..
    have hgl : ∀ i ∈ rowsOf t leaf, g i = g i0 := fun i hi => hg leaf ((hl leaf).1 hleaf) i hi i0 hi0
    rw [← hr, sum_congr_mem (v := fun i => g i0 * mean ((rowsOf t leaf).map u)) (fun i hi => by rw [hgl i hi, hv leaf hleaf i hi]),
      sum_congr_mem (u := fun i => g i * u i) (v := fun i => g i0 * u i) (fun i hi => by rw [hgl i hi]), sum_const_mul, sum_const_mul, sum_mean]

theorem right_average {rows : List Nat} {y v : Nat → K} (h : RightWeighted rows (fun _ => 1) y v) : RightOnAverage rows y v := by
  unfold RightWeighted at h
  unfold RightOnAverage
  simpa using h

end

section

variable (R : Rng K G) (mem : Nat → Junk K) (A : TreeArgs K)

/-- **C166, regression tree**. On its training rows, weighted with anything that treats the rows of a leaf alike, a fitted regression tree is right on
average. -/
theorem C166_regression (t t1 : Tree K G) (h : Fitted R mem A t) (hc : A.cfg.isCls = false) (ha : AfterPredicts t t1) (v : Nat → K)
    (hv : ∀ i ∈ A.rows, (t1.predict (A.data.getD i [])).map Prod.fst = .ok (.reg (v i))) (g : Nat → K) (hg : LeafWise t g) :
    RightWeighted A.rows g (fun i => A.labels.getD i 0) v := by
  obtain ⟨v', h1, h2⟩ := h.values hc ha
  obtain ⟨_, hl, hp⟩ := C29_partition R mem A t h
  apply leaf_means_weighted h hg
  intro leaf hleaf i hi
  have hir : i ∈ A.rows := hp.subset (List.mem_flatMap.2 ⟨leaf, hleaf, hi⟩)
  obtain ⟨t2, e⟩ := h1 i hir
  have := hv i hir
  rw [e] at this
  have e' : v' i = v i := by simpa [Except.map] using this
  rw [← e', h2 leaf hleaf i hi]
  rfl

/-- **C166, classification tree**. The probabilities that a fitted classification tree gives a class on its training rows are right on average, for the
same weights: without weights they add up to the number of rows in the class. -/
theorem C166_classification (t t1 : Tree K G) (h : Fitted R mem A t) (hc : A.cfg.isCls = true) (hd : ClassesOK A.cfg.classes) (ha : AfterPredicts t t1)
    (q : Nat → List K) (hq : ∀ i ∈ A.rows, ∃ label, (t1.predict (A.data.getD i [])).map Prod.fst = .ok (.cls label (q i))) (j : Nat)
    (hj : j < A.cfg.classes.length) (g : Nat → K) (hg : LeafWise t g) :
    RightWeighted A.rows g (isLabel (fun i => A.labels.getD i 0) (A.cfg.classes[j]).1) (fun i => (q i).getD j 0) := by
  obtain ⟨q', h1, h2⟩ := h.classProbs hc hd ha
  obtain ⟨_, hl, hp⟩ := C29_partition R mem A t h
  apply leaf_means_weighted h hg
  intro leaf hleaf i hi
  have hir : i ∈ A.rows := hp.subset (List.mem_flatMap.2 ⟨leaf, hleaf, hi⟩)
  obtain ⟨label, t2, e⟩ := h1 i hir
  obtain ⟨label', this⟩ := hq i hir
  rw [e] at this
  have e' : q' i = q i := by
    have h3 : (Pred.cls label (q' i)) = .cls label' (q i) := Except.ok.inj this
    injection h3
  beta_reduce
  rw [← e', h2 leaf hleaf i hi, ← freq_isLabel, List.getD_eq_getElem _ _ (by simpa using hj), List.getElem_map]
  rfl

end

/-- Squared distances add up when the errors have nothing to do with the answers. -/
theorem sqError_split {rows : List Nat} {y v : Nat → K} (c : K) (h : RightWeighted rows (fun i => v i - c) y v) :
    sqError rows y (fun _ => c) = sqError rows y v + sqError rows v (fun _ => c) := by
  unfold RightWeighted at h
  have h1 : sqError rows y (fun _ => c) - (sqError rows y v + sqError rows v (fun _ => c)) =
      2 * ((rows.map (fun i => (v i - c) * y i)).sum - (rows.map (fun i => (v i - c) * v i)).sum) := by
    unfold sqError
    clear h
    induction rows with
    | nil => simp
    | cons a l ih =>
      simp only [List.map_cons, List.sum_cons] at ih ⊢
      linear_combination ih
  rw [h, sub_self, mul_zero] at h1
  exact sub_eq_zero.1 h1

section

variable (R : Rng K G) (mem : Nat → Junk K) (A : TreeArgs K)

/-- C166, what a regression tree explains. The squared distance of the targets from any constant is the squared error of the tree plus the squared distance
of its answers from that constant; with the mean for the constant, the share of the variance that the tree explains lies between 0 and 1. -/
theorem C166_explained (t t1 : Tree K G) (h : Fitted R mem A t) (hc : A.cfg.isCls = false) (ha : AfterPredicts t t1) (v : Nat → K)
    (hv : ∀ i ∈ A.rows, (t1.predict (A.data.getD i [])).map Prod.fst = .ok (.reg (v i))) (c : K) :
    sqError A.rows (fun i => A.labels.getD i 0) (fun _ => c) =
      sqError A.rows (fun i => A.labels.getD i 0) v + sqError A.rows v (fun _ => c) := by
  apply sqError_split
  apply C166_regression R mem A t t1 h hc ha v hv
  obtain ⟨v', h1, h2⟩ := h.values hc ha
  obtain ⟨_, hl, hp⟩ := C29_partition R mem A t h
  have hval : ∀ leaf, IsLeaf t leaf → ∀ i ∈ rowsOf t leaf, v i = mean (labelsOf A.labels (rowsOf t leaf)) := by
    intro leaf hleaf i hi
    have hir : i ∈ A.rows := hp.subset (List.mem_flatMap.2 ⟨leaf, (hl leaf).2 hleaf, hi⟩)
    obtain ⟨t2, e⟩ := h1 i hir
    have := hv i hir
    rw [e] at this
    have e' : v' i = v i := by simpa [Except.map] using this
    rw [← e', h2 leaf ((hl leaf).2 hleaf) i hi]
  intro leaf hleaf i hi j hj
  beta_reduce
  rw [hval leaf hleaf i hi, hval leaf hleaf j hj]

/-- C166, what a classification tree explains: the same for the probability of each class. -/
theorem C166_explained_class (t t1 : Tree K G) (h : Fitted R mem A t) (hc : A.cfg.isCls = true) (hd : ClassesOK A.cfg.classes)
    (ha : AfterPredicts t t1) (q : Nat → List K)
    (hq : ∀ i ∈ A.rows, ∃ label, (t1.predict (A.data.getD i [])).map Prod.fst = .ok (.cls label (q i))) (j : Nat)
    (hj : j < A.cfg.classes.length) (c : K) :
    sqError A.rows (isLabel (fun i => A.labels.getD i 0) (A.cfg.classes[j]).1) (fun _ => c) =
      sqError A.rows (isLabel (fun i => A.labels.getD i 0) (A.cfg.classes[j]).1) (fun i => (q i).getD j 0) +
      sqError A.rows (fun i => (q i).getD j 0) (fun _ => c) := by
  apply sqError_split
  apply C166_classification R mem A t t1 h hc hd ha q hq j hj
  obtain ⟨q', h1, h2⟩ := h.classProbs hc hd ha
  obtain ⟨_, hl, hp⟩ := C29_partition R mem A t h
  have hval : ∀ leaf, IsLeaf t leaf → ∀ i ∈ rowsOf t leaf, q i = A.cfg.classes.map (fun c => freq (labelsOf A.labels (rowsOf t leaf)) c.1) := by
    intro leaf hleaf i hi
    have hir : i ∈ A.rows := hp.subset (List.mem_flatMap.2 ⟨leaf, (hl leaf).2 hleaf, hi⟩)
    obtain ⟨label, t2, e⟩ := h1 i hir
    obtain ⟨label', this⟩ := hq i hir
    rw [e] at this
    have e' : q' i = q i := by
      have h3 : (Pred.cls label (q' i)) = .cls label' (q i) := Except.ok.inj this
      injection h3
    rw [← e', h2 leaf ((hl leaf).2 hleaf) i hi]
  intro leaf hleaf i hi k hk
  beta_reduce
  rw [hval leaf hleaf i hi, hval leaf hleaf k hk]

end

/-! ### Forests -/

section

variable (R : Rng K G) (mem : Nat → Nat → Junk K)

/-- A forest whose trees get all rows of the table, each once. -/
structure AllRows (cfg : ForestCfg K) : Prop where
  bootstrap : cfg.bootstrap = false
  rows : cfg.alphaN = 1
  cols : cfg.alphaF ≤ 1

theorem TreeMade.allRows {data : List (List K)} {F : Nat} {f : Forest K G} {i : Nat} {m : Made K G} {t : Tree K G}
    (hm : TreeMade R mem data F f i m t) (ha : AllRows f.cfg) : m.args.rows.Perm (List.range data.length) := by
  obtain ⟨rows0, rows, cols, g, g1, g2, d1, d2, d3, d4⟩ := hm.draw
  obtain ⟨s1, s2⟩ := subsets_ok (by rw [ha.rows]) ha.cols d1
  have hrr : m.args.rows = rows := by unfold TreeArgs.rows; rw [d3]; rfl
  unfold bootstrapIdcs at d2
  rw [ha.bootstrap, if_neg (by simp)] at d2
  cases d2
  rw [hrr]
  rw [ha.rows] at s1
  have hsub : rows0.Subperm (List.range data.length) := s1.distinct.subperm (fun i hi => List.mem_range.2 (s1.range i hi))
  have hlen : rows0.length = data.length := by
    have := s1.size
    rw [mul_one, Int.floor_natCast] at this
    exact_mod_cast this
  exact hsub.perm_of_length_le (by rw [List.length_range, hlen])

theorem right_perm {l l' : List Nat} (hp : l.Perm l') {y v : Nat → K} (h : RightOnAverage l y v) : RightOnAverage l' y v := by
  unfold RightOnAverage at h ⊢
  rw [← (hp.map v).sum_eq, ← (hp.map y).sum_eq, h]

/-- The mean of answers that are right on average is right on average. -/
theorem average_of_trees {n : Nat} {y u : Nat → K} {W : Nat → List K} {T : Nat} (hT : T ≠ 0) (hlen : ∀ j < n, (W j).length = T)
    (hu : ∀ j < n, u j = mean (W j)) (hk : ∀ k < T, RightOnAverage (List.range n) y (fun j => (W j).getD k 0)) : RightOnAverage (List.range n) y u := by
  unfold RightOnAverage at hk ⊢
  have h1 : ∀ j ∈ List.range n, u j = mean ((List.range T).map (fun k => (W j).getD k 0)) := by
    intro j hj
    have hj := List.mem_range.1 hj
    rw [hu j hj]
    congr 1
    apply List.ext_getElem
    · rw [List.length_map, List.length_range, hlen j hj]
    · intro k a b
      rw [List.getElem_map, List.getElem_range, List.getD_eq_getElem _ _ a]
  rw [sum_congr_mem h1, ← mean_sum_comm, List.map_congr_left (g := fun _ => ((List.range n).map y).sum) (fun k hk' => hk k (List.mem_range.1 hk'))]
  unfold mean
  rw [List.length_map, List.length_range, List.map_const', List.sum_replicate, nsmul_eq_mul, List.length_range]
  have : (T : K) ≠ 0 := by exact_mod_cast hT
  field_simp

/-- The answers of the trees of a regression forest on the table: column `k` of `W` belongs to tree `k`. -/
theorem forest_tree_values {f f' f1 : Forest K G} {w w' : World K G} {data : Option (List (List K))} {labels : Option Nat}
    (hf : Forest.fit R mem f w data labels = .ok (f', w')) (hc : f.cfg.isCls = false) (hb : f.cfg.boosting = false) (hall : AllRows f.cfg)
    (ha : AfterReads f' f1) (u : Nat → K)
    (hu : ∀ j < (trainData f data).length, ∃ g, f1.predict ((trainData f data).getD j []) = .ok (.reg (u j), g)) :
    ∃ (T : Nat) (W : Nat → List K), T ≠ 0 ∧ (∀ j < (trainData f data).length, (W j).length = T) ∧
      (∀ j < (trainData f data).length, u j = mean (W j)) ∧
      ∀ k < T, RightOnAverage (List.range (trainData f data).length) (fun j => (trainLabels f w labels).getD j 0) (fun j => (W j).getD k 0) ∧
        ∀ c : K, sqError (List.range (trainData f data).length) (fun j => (trainLabels f w labels).getD j 0) (fun j => (W j).getD k 0) ≤
          sqError (List.range (trainData f data).length) (fun j => (trainLabels f w labels).getD j 0) (fun _ => c) := by
  classical
  obtain ⟨ms, hms, hne, hmade⟩ := Forest_fit_made hf
  have hcfg := (Forest_fit_same hf).1
  have h1 : ∀ j, j < (trainData f data).length → ∃ vs, List.Forall₂ (fun (t : Tree K G) v =>
      (t.predict ((trainData f data).getD j [])).map Prod.fst = .ok (.reg v)) f'.trees vs ∧ vs ≠ [] ∧ u j = mean vs := by
    intro j hj
    obtain ⟨g, hg⟩ := hu j hj
    obtain ⟨vs, a1, a2, a3, _⟩ := C52_mean_in_range R mem f f' f1 g w w' data labels hf hc hb (by rw [hall.rows]) hall.cols ha _ _ hg
    exact ⟨vs, a1, a2, by injection a3⟩
  have hT : f'.trees.length ≠ 0 := by
    obtain ⟨vs, a1, a2, _⟩ := h1 0 (List.length_pos_iff.2 hne)
    rw [a1.length_eq]
    exact fun h0 => a2 (List.length_eq_zero_iff.1 h0)
  choose! W hW using h1
  refine ⟨_, W, hT, fun j hj => (hW j hj).1.length_eq.symm, fun j hj => (hW j hj).2.2, ?_⟩
  intro k hk
  obtain ⟨m, _, hm, hlab⟩ := hmade k _ (List.getElem?_eq_getElem hk)
  have hci : m.args.cfg.isCls = false := by rw [hm.cfg]; show f'.cfg.isCls = false; rw [hcfg]; exact hc
  have hrows := hm.allRows R mem (by rw [hcfg]; exact hall)
  have hl : m.args.labels = trainLabels f w labels := by
    rw [hlab hb]; unfold treeLabels; rw [hc]; rfl
  have hans : ∀ i ∈ m.args.rows, (f'.trees[k].predict (m.args.data.getD i [])).map Prod.fst = .ok (.reg ((W i).getD k 0)) := by
    intro i hi
    have hin : i < (trainData f data).length := List.mem_range.1 (hrows.subset hi)
    rw [hm.data_eq]
    have hkl : k < (W i).length := by rw [← (hW i hin).1.length_eq]; exact hk
    have hw := (List.forall₂_iff_get.1 (hW i hin).1).2 k hk hkl
    rw [List.getD_eq_getElem _ _ hkl]
    exact hw
  rw [← hl]
  constructor
  · exact right_perm hrows (right_average (C166_regression R (mem k) m.args m.tree _ hm.fitted hci hm.after _ hans (fun _ => 1) (fun _ _ _ _ _ _ => rfl)))
  · intro c
    have := C166_explained R (mem k) m.args m.tree _ hm.fitted hci hm.after _ hans c
    rw [sqError_perm hrows, sqError_perm hrows, sqError_perm hrows] at this
    rw [this]
    refine le_add_of_nonneg_right (List.sum_nonneg ?_)
    intro x hx
    obtain ⟨i, _, rfl⟩ := List.mem_map.1 hx
    exact sq_nonneg _

/-- **C166, regression forest**. A regression forest without boosting whose trees get all rows is right on average on them. -/
theorem C166_forest (f f' f1 : Forest K G) (w w' : World K G) (data : Option (List (List K))) (labels : Option Nat)
    (hf : Forest.fit R mem f w data labels = .ok (f', w')) (hc : f.cfg.isCls = false) (hb : f.cfg.boosting = false) (hall : AllRows f.cfg)
    (ha : AfterReads f' f1) (u : Nat → K)
    (hu : ∀ j < (trainData f data).length, ∃ g, f1.predict ((trainData f data).getD j []) = .ok (.reg (u j), g)) :
    RightOnAverage (List.range (trainData f data).length) (fun j => (trainLabels f w labels).getD j 0) u := by
  obtain ⟨T, W, hT, h1, h2, h3⟩ := forest_tree_values R mem hf hc hb hall ha u hu
  exact average_of_trees hT h1 h2 (fun k hk => (h3 k hk).1)

/-- The squared error of a mean is at most the largest squared error. -/
theorem sqError_average {n : Nat} {y u : Nat → K} {W : Nat → List K} {T : Nat} {e : K} (hT : T ≠ 0) (hlen : ∀ j < n, (W j).length = T)
    (hu : ∀ j < n, u j = mean (W j)) (hk : ∀ k < T, sqError (List.range n) y (fun j => (W j).getD k 0) ≤ e) : sqError (List.range n) y u ≤ e := by
  have hTne : List.range T ≠ [] := by simpa using hT
  have h1 : sqError (List.range n) y u ≤
      ((List.range n).map (fun j => mean ((List.range T).map (fun k => (y j - (W j).getD k 0) ^ 2)))).sum := by
    unfold sqError
    apply list_sum_mono
    intro j hj
    have hj := List.mem_range.1 hj
    have h2 := sq_mean_eq (List.range T) hTne (fun k => (W j).getD k 0) (y j)
    rw [← list_eq_range (W j) (hlen j hj), ← hu j hj] at h2
    have h3 : 0 ≤ mean ((List.range T).map (fun k => ((W j).getD k 0 - u j) ^ 2)) := by
      apply mean_nonneg'
      intro x hx
      obtain ⟨k, _, rfl⟩ := List.mem_map.1 hx
      exact sq_nonneg _
    have h4 : (y j - u j) ^ 2 = (u j - y j) ^ 2 := by ring
    have h5 : ∀ k ∈ List.range T, (y j - (W j).getD k 0) ^ 2 = ((W j).getD k 0 - y j) ^ 2 := fun k _ => by ring
    rw [h4, h2, List.map_congr_left h5]
    linarith
  rw [← mean_sum_comm] at h1
  refine le_trans h1 (mean_between (lo := 0) ?_ ?_).2
  · simpa using hT
  · intro x hx
    obtain ⟨k, hk', rfl⟩ := List.mem_map.1 hx
    refine ⟨List.sum_nonneg ?_, hk k (List.mem_range.1 hk')⟩
    intro x hx
    obtain ⟨i, _, rfl⟩ := List.mem_map.1 hx
    exact sq_nonneg _

/-- C166, forests explain something: a regression forest whose trees get all rows has at most the squared error of any constant answer on them. -/
theorem C166_forest_constant (f f' f1 : Forest K G) (w w' : World K G) (data : Option (List (List K))) (labels : Option Nat)
    (hf : Forest.fit R mem f w data labels = .ok (f', w')) (hc : f.cfg.isCls = false) (hb : f.cfg.boosting = false) (hall : AllRows f.cfg)
    (ha : AfterReads f' f1) (u : Nat → K)
    (hu : ∀ j < (trainData f data).length, ∃ g, f1.predict ((trainData f data).getD j []) = .ok (.reg (u j), g)) (c : K) :
    sqError (List.range (trainData f data).length) (fun j => (trainLabels f w labels).getD j 0) u ≤
      sqError (List.range (trainData f data).length) (fun j => (trainLabels f w labels).getD j 0) (fun _ => c) := by
  obtain ⟨T, W, hT, h1, h2, h3⟩ := forest_tree_values R mem hf hc hb hall ha u hu
  exact sqError_average hT h1 h2 (fun k hk => (h3 k hk).2 c)

/-- **C166, classification forest**. The probabilities that a classification forest, whose trees get all rows, gives a class on them add up to the number
of rows in that class. -/
theorem C166_forest_classes (f f' f1 : Forest K G) (w w' : World K G) (data : Option (List (List K))) (labels : Option Nat)
    (hf : Forest.fit R mem f w data labels = .ok (f', w')) (hc : f.cfg.isCls = true) (hb : f.cfg.boosting = false) (hd : ClassesOK f.classes)
    (hall : AllRows f.cfg) (ha : AfterReads f' f1) (q : Nat → List K)
    (hq : ∀ i < (trainData f data).length, ∃ label g, f1.predict ((trainData f data).getD i []) = .ok (.cls label (q i), g)) (j : Nat)
    (hj : j < f.classes.length) :
    RightOnAverage (List.range (trainData f data).length) (isLabel (fun i => (treeLabels f w labels).getD i 0) (f.classes[j]).1)
      (fun i => (q i).getD j 0) := by
  classical
  obtain ⟨ms, hms, hne, hmade⟩ := Forest_fit_made hf
  have hcfg := (Forest_fit_same hf).1
  have h1 : ∀ i, i < (trainData f data).length → ∃ qs : List (List K), List.Forall₂ (fun (t : Tree K G) p =>
      ∃ l, (t.predict ((trainData f data).getD i [])).map Prod.fst = .ok (.cls l p)) f'.trees qs ∧ qs ≠ [] ∧
      (q i).getD j 0 = mean (qs.map (fun p => p.getD j 0)) := by
    intro i hi
    obtain ⟨label, g, hg⟩ := hq i hi
    obtain ⟨qs, label', avg, k, a1, a2, a3, _, a5, _⟩ := C51_average R mem f f' f1 g w w' data labels hf hc hd ha _ _ hg
    have h3 : q i = avg := by injection a3
    refine ⟨qs, a1, a2, ?_⟩
    rw [h3, List.getD_eq_getElem?_getD, a5 j hj]
    rfl
  have hT : f'.trees.length ≠ 0 := by
    obtain ⟨vs, a1, a2, _⟩ := h1 0 (List.length_pos_iff.2 hne)
    rw [a1.length_eq]
    exact fun h0 => a2 (List.length_eq_zero_iff.1 h0)
  choose! W hW using h1
  refine average_of_trees (W := fun i => (W i).map (fun p => p.getD j 0)) hT
    (fun i hi => by rw [List.length_map]; exact (hW i hi).1.length_eq.symm) (fun i hi => (hW i hi).2.2) ?_
  intro k hk
  obtain ⟨m, _, hm, hlab⟩ := hmade k _ (List.getElem?_eq_getElem hk)
  have hci : m.args.cfg.isCls = true := by rw [hm.cfg]; show f'.cfg.isCls = true; rw [hcfg]; exact hc
  have hcl : m.args.cfg.classes = f.classes := by rw [hm.cfg]; exact (Forest_fit_same hf).2.1
  have hrows := hm.allRows R mem (by rw [hcfg]; exact hall)
  have := right_average (C166_classification R (mem k) m.args m.tree _ hm.fitted hci (by rw [hcl]; exact hd) hm.after (fun i => (W i).getD k []) (by
    intro i hi
    have hin : i < (trainData f data).length := List.mem_range.1 (hrows.subset hi)
    rw [hm.data_eq]
    have hkl : k < (W i).length := by rw [← (hW i hin).1.length_eq]; exact hk
    have hw := (List.forall₂_iff_get.1 (hW i hin).1).2 k hk hkl
    beta_reduce
    rw [List.getD_eq_getElem _ _ hkl]
    exact hw) j (by rw [hcl]; exact hj) (fun _ => 1) (fun _ _ _ _ _ _ => rfl))
  have h2 := right_perm hrows this
  rw [hlab hb] at h2
  unfold RightOnAverage at h2 ⊢
  have hcj : (m.args.cfg.classes[j]'(by rw [hcl]; exact hj)).1 = (f.classes[j]).1 := by
    congr 1
    exact List.getElem_of_eq hcl _
  rw [hcj] at h2
  rw [← h2]
  apply sum_congr_mem
  intro i hi
  have hin := List.mem_range.1 hi
  have hkl : k < (W i).length := by rw [← (hW i hin).1.length_eq]; exact hk
  rw [List.getD_eq_getElem _ _ (by rw [List.length_map]; exact hkl), List.getElem_map, List.getD_eq_getElem _ _ hkl]

end

/-! ### Boosting -/

section

variable {R : Rng K G} {mem : Nat → Nat → Junk K} {data : List (List K)} {F : Nat}

/-- One pass of boosting takes the share `boostWeight` of the sum of the targets away. -/
theorem Kept.sum_targets {i : Nat} {f f' : Forest K G} {w w' : World K G} {m : Made K G} {t : Tree K G}
    (h : Kept R mem data F i f w f' w' m t) (hne : data ≠ []) (hc : f.cfg.isCls = false) (hb : f.cfg.boosting = true) (r : Nat)
    (hr : f.newRef = some r) (hrows : m.args.rows.Perm (List.range data.length)) :
    ∃ v : Nat → K, (∀ j < data.length, (t.predict (data.getD j [])).map Prod.fst = .ok (.reg (v j))) ∧
      (∀ j < data.length, (w'.arrays.getD r []).getD j 0 = (w.arrays.getD r []).getD j 0 - boostWeight f.cfg i * v j) ∧
      RightOnAverage (List.range data.length) (fun j => (w.arrays.getD r []).getD j 0) v := by
  obtain ⟨arr, arr', a1, a2, _, _, a5⟩ := h.boosted hne hc hb r hr
  have hci : m.args.cfg.isCls = false := by rw [h.cfg]; exact hc
  obtain ⟨v, v1, v2⟩ := h.fitted.values hci .none
  obtain ⟨ref, hr1, hlab⟩ := h.labels
  rw [hb, if_pos rfl, hr] at hr1
  obtain rfl := Option.some.inj hr1
  have hmem : ∀ j < data.length, j ∈ m.args.rows := fun j hj => hrows.symm.subset (List.mem_range.2 hj)
  have hv : ∀ j < data.length, (t.predict (data.getD j [])).map Prod.fst = .ok (.reg (v j)) := by
    intro j hj
    obtain ⟨t2, e⟩ := v1 j (hmem j hj)
    rw [C38_history_independent R (mem i) m.args m.tree t h.fitted h.after, ← h.data_eq, e]
    rfl
  refine ⟨v, hv, ?_, ?_⟩
  · intro j hj
    obtain ⟨u, e1, e2⟩ := a5 j (hmem j hj)
    rw [hv j hj] at e1
    cases e1
    simp only [List.getD_eq_getElem?_getD, a1, a2, Option.getD_some] at e2 ⊢
    exact e2
  · have := right_average (C166_regression R (mem i) m.args m.tree m.tree h.fitted hci .none v (by
      intro j hj
      obtain ⟨t2, e⟩ := v1 j hj
      rw [e]
      rfl) (fun _ => 1) (fun _ _ _ _ _ _ => rfl))
    have := right_perm hrows this
    rw [hlab] at this
    exact this

/-- The whole loop. -/
theorem ForestRun.sum_targets {is : List Nat} {f f' : Forest K G} {w w' : World K G} {l : List (Made K G × Tree K G)}
    (h : ForestRun R mem data F is f w l f' w') (hne : data ≠ []) (hc : f.cfg.isCls = false) (hb : f.cfg.boosting = true) (r : Nat)
    (hr : f.newRef = some r) (hrows : ∀ p ∈ l, p.1.args.rows.Perm (List.range data.length)) :
    ∃ V : List (Nat → K),
      List.Forall₂ (fun (p : Made K G × Tree K G) v => ∀ j < data.length, (p.2.predict (data.getD j [])).map Prod.fst = .ok (.reg (v j))) l V ∧
      ∀ q < V.length,
        ((List.range data.length).map (leftOver f.cfg is (V.take (q + 1)) (fun j => (w.arrays.getD r []).getD j 0))).sum =
        (1 - boostWeight f.cfg (is.getD q 0)) *
          ((List.range data.length).map (leftOver f.cfg is (V.take q) (fun j => (w.arrays.getD r []).getD j 0))).sum := by
  induction h with
  | done => exact ⟨[], .nil, fun q hq => by simp at hq⟩
  | stop _ hw => exact ⟨[], .nil, fun q hq => by simp at hq⟩
  | @keep i is f f1 f' w w1 w' m t l hk _ ih =>
    obtain ⟨_, _, c3, _, c5⟩ := hk.next_cfg
    obtain ⟨V, e1, e2⟩ := ih (by rw [c3]; exact hc) (by rw [c3]; exact hb) (by rw [c5]; exact hr)
      (fun p hp => hrows p (List.mem_cons_of_mem _ hp))
    obtain ⟨v, v1, v2, v3⟩ := hk.sum_targets hne hc hb r hr (hrows _ (List.mem_cons_self ..))
    have hstep : ∀ q, ((List.range data.length).map
        (leftOver f.cfg (i :: is) ((v :: V).take (q + 1)) (fun j => (w.arrays.getD r []).getD j 0))).sum =
        ((List.range data.length).map (leftOver f1.cfg is (V.take q) (fun j => (w1.arrays.getD r []).getD j 0))).sum := by
      intro q
      apply sum_congr_mem
      intro j hj
      unfold leftOver
      beta_reduce
      rw [List.take_succ_cons, List.zipWith_cons_cons, List.sum_cons, v2 j (List.mem_range.1 hj), c3]
      ring
    refine ⟨v :: V, .cons v1 e1, ?_⟩
    intro q hq
    cases q with
    | zero =>
      unfold RightOnAverage at v3
      have h1 : ((List.range data.length).map
          (leftOver f.cfg (i :: is) ((v :: V).take (0 + 1)) (fun j => (w.arrays.getD r []).getD j 0))).sum =
          ((List.range data.length).map (fun j => (w.arrays.getD r []).getD j 0)).sum -
            boostWeight f.cfg i * ((List.range data.length).map v).sum := by
        rw [← sum_const_mul, sum_map_minus]
        apply sum_congr_mem
        intro j _
        simp [leftOver]
      have h2 : ((List.range data.length).map (leftOver f.cfg (i :: is) ((v :: V).take 0) (fun j => (w.arrays.getD r []).getD j 0))).sum =
          ((List.range data.length).map (fun j => (w.arrays.getD r []).getD j 0)).sum := by
        apply sum_congr_mem
        intro j _
        simp [leftOver]
      rw [h1, h2, v3, List.getD_cons_zero]
      ring
    | succ q =>
      rw [hstep, hstep, e2 q (by simpa using hq), c3, List.getD_cons_succ]

end

section

variable (R : Rng K G) (mem : Nat → Nat → Junk K)

/-- **C166, boosting**. A boosted regression forest whose trees get all rows is right on average on them, whatever the learning rate, and so is the forest
of its first `k` trees. -/
theorem C166_boosted (f f' : Forest K G) (w w' : World K G) (data : Option (List (List K))) (labels : Option Nat)
    (hf : Forest.fit R mem f w data labels = .ok (f', w')) (hc : f.cfg.isCls = false) (hb : f.cfg.boosting = true) (lr : K)
    (hlr : f.cfg.boostingLr = some lr) (hall : AllRows f.cfg) (r : Nat) (hr : labels.or f.newRef = some r) (k : Nat) (hk : 1 ≤ k)
    (hkm : k ≤ f'.trees.length) :
    ∃ u : Nat → K,
      (∀ j < (trainData f data).length, ∃ g, (firstTrees f' k).predict ((trainData f data).getD j []) = .ok (.reg (u j), g)) ∧
      RightOnAverage (List.range (trainData f data).length) (fun j => (w.arrays.getD r []).getD j 0) u := by
  obtain ⟨dat, f0, w0, hs, hl⟩ := Forest_fit_start hf
  obtain ⟨l, hrun⟩ := forestLoop_run hl
  have htr : f'.trees = l.map Prod.snd := by rw [hrun.trees, hs.eq]; rfl
  have hcfg0 : f0.cfg = f.cfg := by rw [hs.eq]
  have hcfg' : f'.cfg = f.cfg := (Forest_fit_same hf).1
  obtain ⟨_, e2, e3⟩ := hs.reg hc
  have hrows : ∀ p ∈ l, p.1.args.rows.Perm (List.range dat.length) := by
    intro p hp
    obtain ⟨k, hk⟩ := List.mem_iff_getElem?.1 hp
    obtain ⟨i, _, hm⟩ := hrun.made k p.1 p.2 hk
    exact hm.allRows R mem (by rw [hcfg0]; exact hall)
  have hdat := hs.dat_eq
  rw [← hdat]
  obtain ⟨V, h3, h4⟩ := hrun.sum_targets hs.ne (by rw [hcfg0]; exact hc) (by rw [hcfg0]; exact hb) r (by rw [e2]; exact hr) hrows
  rw [hcfg0, e3] at h4
  have hVlen : V.length = f'.trees.length := by rw [htr, List.length_map, h3.length_eq]
  have hle : l.length ≤ f.cfg.nEstimators := by
    have := hrun.length.1
    rw [List.length_range] at this
    exact this
  have hlV := h3.length_eq
  have hzero : ∀ q, 1 ≤ q → q ≤ V.length →
      ((List.range dat.length).map (leftOver f.cfg (List.range f.cfg.nEstimators) (V.take q) (fun j => (w.arrays.getD r []).getD j 0))).sum = 0 := by
    intro q
    induction q with
    | zero => intro h; omega
    | succ q ih =>
      intro _ hq
      rw [h4 q (by omega)]
      cases q with
      | zero =>
        have : (List.range f.cfg.nEstimators).getD 0 0 = 0 := by
          rw [List.getD_eq_getElem _ _ (by rw [List.length_range]; omega), List.getElem_range]
        rw [this]
        unfold boostWeight
        simp
      | succ q => rw [ih (by omega) (by omega), mul_zero]
  have hpre : ∀ j, boostSum lr ((V.map (fun v => v j)).take k) =
        (List.zipWith (fun i v => boostWeight f.cfg i * v j) (List.range f.cfg.nEstimators) (V.take k)).sum := by
    intro j
    cases V with
    | nil =>
      simp only [List.length_nil] at hVlen
      omega
    | cons v0 V =>
      obtain ⟨q, rfl⟩ : ∃ q', k = q' + 1 := ⟨k - 1, by omega⟩
      rw [List.length_cons] at hlV
      rw [List.map_cons, List.take_succ_cons, List.take_succ_cons, boostSum_eq]
      have := boostWeight_sum f.cfg f.cfg.nEstimators (v0 j) ((V.take q).map (fun v => v j)) (by
        rw [List.length_map, List.length_take]; omega)
      rw [hlr] at this
      rw [← List.map_cons (f := fun v : Nat → K => v j), List.zipWith_map_right] at this
      rw [this, List.map_take]
      rfl
  refine ⟨fun j => boostSum lr ((V.map (fun v => v j)).take k), ?_, ?_⟩
  · intro j hj
    have hans : List.Forall₂ (fun (t : Tree K G) v => (t.predict (dat.getD j [])).map Prod.fst = .ok (.reg v)) f'.trees (V.map (fun v => v j)) := by
      rw [htr, List.forall₂_map_left_iff, List.forall₂_map_right_iff]
      exact h3.imp (fun p v h => h j hj)
    have hne : (V.map (fun v => v j)).take k ≠ [] := by
      intro h0
      have := congrArg List.length h0
      rw [List.length_take, List.length_map] at this
      simp only [List.length_nil] at this
      omega
    have := firstTrees_predict (by rw [hcfg']; exact hc) (by rw [hcfg']; exact hb) hans k hne
    rw [hcfg', hlr] at this
    exact this
  · unfold RightOnAverage
    have := hzero k hk (by omega)
    unfold leftOver at this
    rw [← sum_map_minus, sub_eq_zero] at this
    rw [this]
    exact sum_congr_mem (fun j _ => hpre j)

end

/-! ### Examples -/

/-- Sum of the errors on the training rows of the first 1, 2, … trees of a regression forest. -/
def sumErrors (cfg : ForestCfg ℚ) : Option (List ℚ) :=
  (do let (f, _) ← runForest rngQ exMems exWorldReg cfg exData 0 none
      let ps ← (List.range f.trees.length).mapM (fun k => ((firstTrees f (k + 1)).predictBatch exData).map Prod.fst)
      pure (ps.map (fun (p : List (Pred ℚ)) => ((List.range exData.length).map (fun i => (exWorldReg.arrays.getD 0 []).getD i 0 -
        (p.map Pred.value).getD i 0)).sum))).toOption

/-- Three boosted trees, also with a learning rate that is far too large, and three trees without boosting; the answers are not simply the targets. -/
example : AllRows fcfgBoost ∧ fcfgBoost.boosting = true ∧ sumErrors { fcfgBoost with nEstimators := 3 } = some [0, 0, 0] ∧
    sumErrors { fcfgBoost with nEstimators := 3, boostingLr := some 3 } = some [0, 0, 0] ∧
    sumErrors { fcfgBoost with nEstimators := 3, boosting := false } = some [0, 0, 0] ∧
    boostErrors { fcfgBoost with nEstimators := 3, boosting := false } = some [14 / 3, 14 / 3, 14 / 3] :=
  ⟨⟨rfl, rfl, by decide +kernel⟩, rfl, by decide +kernel, by decide +kernel, by decide +kernel, by decide +kernel⟩

/-- Answers of a classification forest on the training rows. -/
def rowAnswers (cfg : ForestCfg ℚ) : Option (List (Pred ℚ)) :=
  ((runForest rngQ exMems exWorld cfg exData 0 none).toOption.bind (fun r => (r.1.predictBatch exData).toOption)).map Prod.fst

/-- A classification forest of stumps on all rows: the probabilities of class 1 add up to 3, the number of rows in class 1. The labels it answers
do not: four rows are answered with 1. -/
theorem C166_not_labels : AllRows ({ fcfgQ with bootstrap := false, maxDepth := .some 1 } : ForestCfg ℚ) ∧
    rowAnswers { fcfgQ with bootstrap := false, maxDepth := .some 1 } = some [.cls 1 [1 / 4, 3 / 4], .cls 1 [1 / 4, 3 / 4], .cls 1 [1 / 4, 3 / 4],
      .cls 0 [1, 0], .cls 1 [1 / 4, 3 / 4], .cls 0 [1, 0]] ∧ (exWorld.arrays.getD 0 []).count 1 = 3 :=
  ⟨⟨rfl, rfl, by decide +kernel⟩, by decide +kernel, by decide +kernel⟩

/-- C166 needs all rows: with bootstrap samples a forest is not right on average on the table, with boosting or without. -/
theorem C166_refuted_bootstrap :
    sumErrors { fcfgBoost with nEstimators := 3, bootstrap := true, randomState := 1 } = some [-5, -9, -11] ∧
    sumErrors { fcfgBoost with nEstimators := 3, bootstrap := true, boosting := false } = some [2, -3 / 2, -13 / 3] :=
  ⟨by decide +kernel, by decide +kernel⟩

/-- Trees, on their own rows: a regression tree, and a classification tree on a bootstrap sample with repeated rows. -/
example : ∃ t, Fitted rngQ exMem exArgsReg t ∧
    decide (exArgsReg.cfg.isCls = false ∧ (t.predictBatch (exArgsReg.rows.map (fun i => exArgsReg.data.getD i []))).toOption.map
      (fun q => (q.1.map Pred.value).sum) = some (labelsOf exArgsReg.labels exArgsReg.rows).sum) = true :=
  runTree_exists (glob := exGlob) (by decide +kernel)

example : ∃ t, Fitted rngQ exMem exArgsBoot t ∧
    decide (exArgsBoot.cfg.isCls = true ∧ (t.predictBatch (exArgsBoot.rows.map (fun i => exArgsBoot.data.getD i []))).toOption.map
      (fun q => (q.1.map (fun p => p.probs.getD 0 0)).sum) = some 4 ∧ (labelsOf exArgsBoot.labels exArgsBoot.rows).count 0 = 4) = true :=
  runTree_exists (glob := exGlob) (by decide +kernel)

end FF
