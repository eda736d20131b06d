import Verif.Props.Boost

/-!
# Training error (C93, C94)

How well a fitted tree, and a boosted forest, answers on the rows it was trained on.
-/

namespace FF

open Spec

set_option linter.unusedSectionVars false

variable {K : Type} [Field K] [LinearOrder K] [IsStrictOrderedRing K] [FloorRing K] [NpFun K] {G : Type}

/-- Sum of the squared errors of the answers `v` on the rows, for the targets `y`. -/
def sqError (rows : List Nat) (y v : Nat → K) : K := (rows.map (fun i => (y i - v i) ^ 2)).sum

/-- Number of rows (with repetitions) on which the answer `l` is the label `y`. -/
def numRight (rows : List Nat) (y l : Nat → K) : Nat := rows.countP (fun i => decide (l i = y i))

/-- A way to answer on the training rows that treats rows in the same leaf alike. -/
def LeafWise (t : Tree K G) (g : Nat → K) : Prop :=
  ∀ leaf, IsLeaf t leaf → ∀ i ∈ rowsOf t leaf, ∀ j ∈ rowsOf t leaf, g i = g j

theorem sqError_perm {l l' : List Nat} (h : l.Perm l') (y v : Nat → K) : sqError l y v = sqError l' y v :=
  (h.map _).sum_eq

theorem sqError_flatMap (ls : List Nat) (f : Nat → List Nat) (y v : Nat → K) :
    sqError (ls.flatMap f) y v = (ls.map (fun a => sqError (f a) y v)).sum := by
  induction ls with
  | nil => rfl
  | cons a ls ih =>
    rw [List.flatMap_cons, List.map_cons, List.sum_cons, ← ih]
    unfold sqError
    rw [List.map_append, List.sum_append]

theorem list_sum_mono {α : Type} (l : List α) (f g : α → K) (h : ∀ a ∈ l, f a ≤ g a) : (l.map f).sum ≤ (l.map g).sum := by
  induction l with
  | nil => exact le_refl _
  | cons a l ih =>
    rw [List.map_cons, List.map_cons, List.sum_cons, List.sum_cons]
    exact add_le_add (h a (List.mem_cons_self ..)) (ih (fun b hb => h b (List.mem_cons_of_mem _ hb)))

/-- Expanding the square around a constant. -/
theorem sqError_const (l : List Nat) (y : Nat → K) (c : K) :
    sqError l y (fun _ => c) = (l.map (fun i => y i ^ 2)).sum - 2 * c * (l.map y).sum + (l.length : K) * c ^ 2 := by
  unfold sqError
  induction l with
  | nil => simp
  | cons i l ih =>
    simp only [List.map_cons, List.sum_cons, List.length_cons, ih]
    push_cast
    ring

theorem sqError_congr {l : List Nat} {y v v' : Nat → K} (h : ∀ i ∈ l, v i = v' i) : sqError l y v = sqError l y v' := by
  unfold sqError
  congr 1
  exact List.map_congr_left (fun i hi => by rw [h i hi])

theorem mean_mul_length {ys : List K} (h : ys ≠ []) : (ys.length : K) * mean ys = ys.sum := by
  unfold mean
  have : (ys.length : K) ≠ 0 := by
    have := List.length_pos_iff.2 h
    exact_mod_cast this.ne'
  field_simp

/-- The mean is the best constant answer. -/
theorem sqError_mean_le (l : List Nat) (y : Nat → K) (c : K) : sqError l y (fun _ => mean (l.map y)) ≤ sqError l y (fun _ => c) := by
  by_cases h : l = []
  · subst h; exact le_refl _
  have h1 := mean_mul_length (ys := l.map y) (by simpa using h)
  rw [List.length_map] at h1
  rw [sqError_const, sqError_const, ← h1]
  have : 0 ≤ (l.length : K) * (mean (l.map y) - c) ^ 2 := by positivity
  nlinarith

/-- Taking away a part of the mean does not increase the sum of squares. -/
theorem sqError_step_le (l : List Nat) (y : Nat → K) (a : K) (h0 : 0 ≤ a) (h2 : a ≤ 2) :
    sqError l y (fun _ => a * mean (l.map y)) ≤ sqError l y (fun _ => 0) := by
  by_cases h : l = []
  · subst h; exact le_refl _
  have h1 := mean_mul_length (ys := l.map y) (by simpa using h)
  rw [List.length_map] at h1
  rw [sqError_const, sqError_const, ← h1]
  have h3 : 0 ≤ a * (2 - a) := mul_nonneg h0 (by linarith)
  have : 0 ≤ (l.length : K) * mean (l.map y) ^ 2 * (a * (2 - a)) := by positivity
  nlinarith

section

variable {R : Rng K G} {mem : Nat → Junk K} {A : TreeArgs K}

/-- The answers of a regression tree on its training rows. -/
theorem Fitted.values {t t1 : Tree K G} (h : Fitted R mem A t) (hc : A.cfg.isCls = false) (ha : AfterPredicts t t1) :
    ∃ v : Nat → K, (∀ i ∈ A.rows, ∃ t2, t1.predict (A.data.getD i []) = .ok (.reg (v i), t2)) ∧
      ∀ leaf ∈ t.leaves, ∀ i ∈ rowsOf t leaf, v i = mean (labelsOf A.labels (rowsOf t leaf)) := by
  classical
  obtain ⟨_, hl, hp⟩ := C29_partition R mem A t h
  have h1 : ∀ i, i ∈ A.rows → ∃ leaf, IsLeaf t leaf ∧ i ∈ rowsOf t leaf ∧ ∀ leaf', IsLeaf t leaf' → i ∈ rowsOf t leaf' → leaf' = leaf := by
    intro i hi
    obtain ⟨leaf, a, b, _, c⟩ := C35_training_row R mem A t h i hi
    exact ⟨leaf, a, b, c⟩
  refine ⟨fun i => if hi : i ∈ A.rows then mean (labelsOf A.labels (rowsOf t (h1 i hi).choose)) else 0, ?_, ?_⟩
  · intro i hi
    obtain ⟨a, b, _⟩ := (h1 i hi).choose_spec
    obtain ⟨p, t2, hp, _, hr⟩ := C35_predict_training_row R mem A t t1 h (by rw [hc]; simp) ha i hi _ a b
    refine ⟨t2, ?_⟩
    beta_reduce
    rw [hp, hr hc, dif_pos hi]
  · intro leaf hleaf i hi
    have hir : i ∈ A.rows := hp.subset (List.mem_flatMap.2 ⟨leaf, hleaf, hi⟩)
    obtain ⟨_, _, c⟩ := (h1 i hir).choose_spec
    beta_reduce
    rw [dif_pos hir, ← c leaf ((hl leaf).1 hleaf) hi]

/-- The labels a classification tree returns on its training rows. -/
theorem Fitted.classLabels {t t1 : Tree K G} (h : Fitted R mem A t) (hc : A.cfg.isCls = true) (hd : ClassesOK A.cfg.classes)
    (ha : AfterPredicts t t1) :
    ∃ l : Nat → K, (∀ i ∈ A.rows, ∃ probs t2, t1.predict (A.data.getD i []) = .ok (.cls (l i) probs, t2)) ∧
      ∀ leaf ∈ t.leaves, ∀ i ∈ rowsOf t leaf, ∀ c,
        (labelsOf A.labels (rowsOf t leaf)).count c ≤ (labelsOf A.labels (rowsOf t leaf)).count (l i) := by
  classical
  obtain ⟨_, hl, hp⟩ := C29_partition R mem A t h
  have h1 : ∀ i, i ∈ A.rows → ∃ label probs t2, t1.predict (A.data.getD i []) = .ok (.cls label probs, t2) ∧
      ∀ leaf, IsLeaf t leaf → i ∈ rowsOf t leaf → ∀ c,
        (labelsOf A.labels (rowsOf t leaf)).count c ≤ (labelsOf A.labels (rowsOf t leaf)).count label := by
    intro i hi
    obtain ⟨leaf, a, b, hr, c⟩ := C35_training_row R mem A t h i hi
    obtain ⟨p, t2, hp⟩ := h.predict_of_route (fun _ => hd) (List.ne_nil_of_mem hi) ha hr
    obtain ⟨leaf2, ys, label, probs, k, b1, b2, b3, rfl, b5, b6, b7, b8, b9, b10⟩ :=
      C36_leaf_frequencies R mem A t t1 t2 h hc hd ha _ p hp
    obtain ⟨dd, t0, hf⟩ := h.facts
    obtain rfl := Routes.det hf.shape hr b2
    refine ⟨label, probs, t2, hp, ?_⟩
    intro leaf' hl' hi' q
    obtain rfl := c leaf' hl' hi'
    rw [← b3]
    by_cases hq : q ∈ ys
    · have hmem : q ∈ A.cfg.classes.map Prod.fst := by
        obtain ⟨leaf3, nd, e1, e2, e3, _, e5, e6⟩ := h.predict_parts ha hp
        obtain rfl := Routes.det hf.shape hr e2
        obtain ⟨_, _, _, _, d3, _⟩ := hf.nodePred_cls hc hd e3 e6
        apply d3
        rw [← e5, ← b3]
        exact hq
      obtain ⟨cc, hc1, hc2⟩ := List.mem_map.1 hmem
      obtain ⟨j, hj⟩ := List.mem_iff_getElem?.1 hc1
      have := (b10 j cc hj).1
      rw [hc2] at this
      unfold freq at this
      have hpos : (0 : K) < ys.length := by exact_mod_cast List.length_pos_of_mem hq
      rw [div_le_div_iff_of_pos_right hpos] at this
      exact_mod_cast this
    · rw [List.count_eq_zero_of_not_mem hq]
      exact Nat.zero_le _
  refine ⟨fun i => if hi : i ∈ A.rows then (h1 i hi).choose else 0, ?_, ?_⟩
  · intro i hi
    obtain ⟨probs, t2, e, _⟩ := (h1 i hi).choose_spec
    refine ⟨probs, t2, ?_⟩
    beta_reduce
    rw [dif_pos hi]
    exact e
  · intro leaf hleaf i hi c
    have hir : i ∈ A.rows := hp.subset (List.mem_flatMap.2 ⟨leaf, hleaf, hi⟩)
    obtain ⟨_, _, _, e⟩ := (h1 i hir).choose_spec
    beta_reduce
    rw [dif_pos hir]
    exact e leaf ((hl leaf).1 hleaf) hi c

end

section

variable (R : Rng K G) (mem : Nat → Junk K) (A : TreeArgs K)

/-- C93, regression. On its training rows a fitted regression tree answers with the least squared error possible for answers that treat
the rows of a leaf alike. -/
theorem C93_regression (t t1 : Tree K G) (h : Fitted R mem A t) (hc : A.cfg.isCls = false) (ha : AfterPredicts t t1) :
    ∃ v : Nat → K, (∀ i ∈ A.rows, ∃ t2, t1.predict (A.data.getD i []) = .ok (.reg (v i), t2)) ∧
      ∀ g : Nat → K, LeafWise t g →
        sqError A.rows (fun i => A.labels.getD i 0) v ≤ sqError A.rows (fun i => A.labels.getD i 0) g := by
  obtain ⟨v, h1, h2⟩ := h.values hc ha
  obtain ⟨_, hl, hp⟩ := C29_partition R mem A t h
  refine ⟨v, h1, ?_⟩
  intro g hg
  rw [← sqError_perm hp, ← sqError_perm hp, sqError_flatMap, sqError_flatMap]
  apply list_sum_mono
  intro leaf hleaf
  cases hr : rowsOf t leaf with
  | nil => exact le_refl _
  | cons i0 rest =>
    have e1 : sqError (rowsOf t leaf) (fun i => A.labels.getD i 0) v =
        sqError (rowsOf t leaf) (fun i => A.labels.getD i 0) (fun _ => mean ((rowsOf t leaf).map (fun i => A.labels.getD i 0))) :=
      sqError_congr (fun i hi => h2 leaf hleaf i hi)
    have e2 : sqError (rowsOf t leaf) (fun i => A.labels.getD i 0) g =
        sqError (rowsOf t leaf) (fun i => A.labels.getD i 0) (fun _ => g i0) :=
      sqError_congr (fun i hi => hg leaf ((hl leaf).1 hleaf) i hi i0 (by rw [hr]; exact List.mem_cons_self ..))
    rw [← hr, e1, e2]
    exact sqError_mean_le _ _ _

/-- C93, regression: no constant answer is better on the training rows, in particular not their mean. -/
theorem C93_regression_const (t t1 : Tree K G) (h : Fitted R mem A t) (hc : A.cfg.isCls = false) (ha : AfterPredicts t t1) :
    ∃ v : Nat → K, (∀ i ∈ A.rows, ∃ t2, t1.predict (A.data.getD i []) = .ok (.reg (v i), t2)) ∧
      ∀ c : K, sqError A.rows (fun i => A.labels.getD i 0) v ≤ sqError A.rows (fun i => A.labels.getD i 0) (fun _ => c) := by
  obtain ⟨v, h1, h2⟩ := C93_regression R mem A t t1 h hc ha
  exact ⟨v, h1, fun c => h2 _ (fun _ _ _ _ _ _ => rfl)⟩

/-- C93, classification. On its training rows a fitted classification tree is right as often as is possible for answers that treat the
rows of a leaf alike. -/
theorem C93_classification (t t1 : Tree K G) (h : Fitted R mem A t) (hc : A.cfg.isCls = true) (hd : ClassesOK A.cfg.classes)
    (ha : AfterPredicts t t1) :
    ∃ l : Nat → K, (∀ i ∈ A.rows, ∃ probs t2, t1.predict (A.data.getD i []) = .ok (.cls (l i) probs, t2)) ∧
      ∀ g : Nat → K, LeafWise t g →
        numRight A.rows (fun i => A.labels.getD i 0) g ≤ numRight A.rows (fun i => A.labels.getD i 0) l := by
  obtain ⟨l, h1, h2⟩ := h.classLabels hc hd ha
  obtain ⟨_, hl, hp⟩ := C29_partition R mem A t h
  refine ⟨l, h1, ?_⟩
  intro g hg
  have hlw : ∀ leaf ∈ t.leaves, ∀ i ∈ rowsOf t leaf, ∀ j ∈ rowsOf t leaf, l i = l j := by
    intro leaf hleaf i hi j hj
    have hir : i ∈ A.rows := hp.subset (List.mem_flatMap.2 ⟨leaf, hleaf, hi⟩)
    have hjr : j ∈ A.rows := hp.subset (List.mem_flatMap.2 ⟨leaf, hleaf, hj⟩)
    obtain ⟨pr, t2, e1⟩ := h1 i hir
    obtain ⟨pr', t2', e2⟩ := h1 j hjr
    have r1 : Routes t (A.data.getD i []) 0 leaf := by
      obtain ⟨lf, _, _, hr, hu⟩ := C35_training_row R mem A t h i hir
      obtain rfl := hu leaf ((hl leaf).1 hleaf) hi
      exact hr
    have r2 : Routes t (A.data.getD j []) 0 leaf := by
      obtain ⟨lf, _, _, hr, hu⟩ := C35_training_row R mem A t h j hjr
      obtain rfl := hu leaf ((hl leaf).1 hleaf) hj
      exact hr
    obtain ⟨dd, t0, hf⟩ := h.facts
    obtain ⟨l1, nd1, _, b2, b3, _, _, b6⟩ := h.predict_parts ha e1
    obtain ⟨l2, nd2, _, c2, c3, _, _, c6⟩ := h.predict_parts ha e2
    obtain rfl := Routes.det hf.shape r1 b2
    obtain rfl := Routes.det hf.shape r2 c2
    obtain rfl := Option.some.inj (b3.symm.trans c3)
    rw [b6] at c6
    have := Except.ok.inj c6
    injection this
  have hcount : ∀ (ls : List Nat) (k : Nat → K), numRight (ls.flatMap (rowsOf t)) (fun i => A.labels.getD i 0) k =
      (ls.map (fun a => numRight (rowsOf t a) (fun i => A.labels.getD i 0) k)).sum := by
    intro ls k
    induction ls with
    | nil => rfl
    | cons a ls ih =>
      rw [List.flatMap_cons, List.map_cons, List.sum_cons, ← ih]
      unfold numRight
      rw [List.countP_append]
  have hperm : ∀ k : Nat → K, numRight A.rows (fun i => A.labels.getD i 0) k =
      numRight (t.leaves.flatMap (rowsOf t)) (fun i => A.labels.getD i 0) k := fun k => (hp.countP_eq _).symm
  rw [hperm, hperm, hcount, hcount]
  apply List.sum_le_sum
  intro leaf hleaf
  cases hr : rowsOf t leaf with
  | nil => exact le_refl _
  | cons i0 rest =>
    have hi0 : i0 ∈ rowsOf t leaf := by rw [hr]; exact List.mem_cons_self ..
    have key : ∀ k : Nat → K, (∀ i ∈ rowsOf t leaf, k i = k i0) → numRight (rowsOf t leaf) (fun i => A.labels.getD i 0) k =
        (labelsOf A.labels (rowsOf t leaf)).count (k i0) := by
      intro k hk
      unfold numRight labelsOf List.count
      rw [List.countP_map]
      apply List.countP_congr
      intro i hi
      simp only [hk i hi, Function.comp, decide_eq_true_eq, beq_iff_eq]
      exact eq_comm
    rw [← hr, key g (fun i hi => hg leaf ((hl leaf).1 hleaf) i hi i0 hi0), key l (fun i hi => hlw leaf hleaf i hi i0 hi0)]
    exact h2 leaf hleaf i0 hi0 _

/-- C93, classification: no constant answer is right more often on the training rows, in particular not the most frequent class. -/
theorem C93_classification_const (t t1 : Tree K G) (h : Fitted R mem A t) (hc : A.cfg.isCls = true) (hd : ClassesOK A.cfg.classes)
    (ha : AfterPredicts t t1) :
    ∃ l : Nat → K, (∀ i ∈ A.rows, ∃ probs t2, t1.predict (A.data.getD i []) = .ok (.cls (l i) probs, t2)) ∧
      ∀ c : K, (labelsOf A.labels A.rows).count c ≤ numRight A.rows (fun i => A.labels.getD i 0) l := by
  obtain ⟨l, h1, h2⟩ := C93_classification R mem A t t1 h hc hd ha
  refine ⟨l, h1, fun c => ?_⟩
  have := h2 (fun _ => c) (fun _ _ _ _ _ _ => rfl)
  refine le_trans (le_of_eq ?_) this
  unfold numRight labelsOf List.count
  rw [List.countP_map]
  apply List.countP_congr
  intro i _
  simp only [Function.comp, decide_eq_true_eq, beq_iff_eq]
  exact eq_comm

end

/-! ### Boosting -/

section

variable {R : Rng K G} {mem : Nat → Nat → Junk K} {data : List (List K)} {F : Nat}

theorem boostWeight_range (cfg : ForestCfg K) (h0 : 0 ≤ cfg.boostingLr.getD 0) (h2 : cfg.boostingLr.getD 0 ≤ 2) (i : Nat) :
    0 ≤ boostWeight cfg i ∧ boostWeight cfg i ≤ 2 := by
  unfold boostWeight
  split_ifs
  · exact ⟨zero_le_one, one_le_two⟩
  · exact ⟨h0, h2⟩

/-- The residuals after one pass: not larger in the sum of squares than before. -/
theorem Kept.sqError_le {i : Nat} {f f' : Forest K G} {w w' : World K G} {m : Made K G} {t : Tree K G}
    (h : Kept R mem data F i f w f' w' m t) (hne : data ≠ []) (hc : f.cfg.isCls = false) (hb : f.cfg.boosting = true) (r : Nat)
    (hr : f.newRef = some r) (hrows : m.args.rows.Perm (List.range data.length)) (h0 : 0 ≤ f.cfg.boostingLr.getD 0)
    (h2 : f.cfg.boostingLr.getD 0 ≤ 2) :
    ∃ v : Nat → K, (∀ j < data.length, (t.predict (data.getD j [])).map Prod.fst = .ok (.reg (v j))) ∧
      (∀ j < data.length, (w'.arrays.getD r []).getD j 0 = (w.arrays.getD r []).getD j 0 - boostWeight f.cfg i * v j) ∧
      sqError (List.range data.length) (fun j => (w.arrays.getD r []).getD j 0) (fun j => boostWeight f.cfg i * v j) ≤
        sqError (List.range data.length) (fun j => (w.arrays.getD r []).getD j 0) (fun _ => 0) := by
  obtain ⟨arr, arr', a1, a2, _, _, a5⟩ := h.boosted hne hc hb r hr
  have hci : m.args.cfg.isCls = false := by rw [h.cfg]; exact hc
  obtain ⟨v, v1, v2⟩ := h.fitted.values hci .none
  obtain ⟨ref, hr1, hlab⟩ := h.labels
  rw [hb, if_pos rfl, hr] at hr1
  obtain rfl := Option.some.inj hr1
  have hmem : ∀ j < data.length, j ∈ m.args.rows := fun j hj => hrows.symm.subset (List.mem_range.2 hj)
  have hv : ∀ j < data.length, (t.predict (data.getD j [])).map Prod.fst = .ok (.reg (v j)) := by
    intro j hj
    obtain ⟨t2, e⟩ := v1 j (hmem j hj)
    rw [C38_history_independent R (mem i) m.args m.tree t h.fitted h.after, ← h.data_eq, e]
    rfl
  refine ⟨v, hv, ?_, ?_⟩
  · intro j hj
    obtain ⟨u, e1, e2⟩ := a5 j (hmem j hj)
    rw [hv j hj] at e1
    cases e1
    simp only [List.getD_eq_getElem?_getD, a1, a2, Option.getD_some] at e2 ⊢
    exact e2
  · obtain ⟨_, hl, hp⟩ := C29_partition R (mem i) m.args m.tree h.fitted
    have hp' := hp.trans hrows
    rw [← sqError_perm hp', ← sqError_perm hp', sqError_flatMap, sqError_flatMap]
    apply list_sum_mono
    intro leaf hleaf
    obtain ⟨b0, b2⟩ := boostWeight_range f.cfg h0 h2 i
    have := sqError_step_le (rowsOf m.tree leaf) (fun j => (w.arrays.getD r []).getD j 0) _ b0 b2
    refine le_trans (le_of_eq (sqError_congr ?_)) this
    intro j hj
    rw [v2 leaf hleaf j hj, hlab]
    rfl

/-- What is left of the target `y j` after the trees with numbers `is` and answers `V`. -/
def leftOver (cfg : ForestCfg K) (is : List Nat) (V : List (Nat → K)) (y : Nat → K) (j : Nat) : K :=
  y j - (List.zipWith (fun i v => boostWeight cfg i * v j) is V).sum

/-- The whole loop: the answers of the trees, and the sums of squares along the way. -/
theorem ForestRun.sqError_le {is : List Nat} {f f' : Forest K G} {w w' : World K G} {l : List (Made K G × Tree K G)}
    (h : ForestRun R mem data F is f w l f' w') (hne : data ≠ []) (hc : f.cfg.isCls = false) (hb : f.cfg.boosting = true) (r : Nat)
    (hr : f.newRef = some r) (hrows : ∀ p ∈ l, p.1.args.rows.Perm (List.range data.length)) (h0 : 0 ≤ f.cfg.boostingLr.getD 0)
    (h2 : f.cfg.boostingLr.getD 0 ≤ 2) :
    ∃ V : List (Nat → K),
      List.Forall₂ (fun (p : Made K G × Tree K G) v => ∀ j < data.length, (p.2.predict (data.getD j [])).map Prod.fst = .ok (.reg (v j))) l V ∧
      ∀ q < V.length,
        sqError (List.range data.length) (leftOver f.cfg is (V.take (q + 1)) (fun j => (w.arrays.getD r []).getD j 0)) (fun _ => 0) ≤
        sqError (List.range data.length) (leftOver f.cfg is (V.take q) (fun j => (w.arrays.getD r []).getD j 0)) (fun _ => 0) := by
  induction h with
  | done => exact ⟨[], .nil, fun q hq => by simp at hq⟩
  | stop _ hw => exact ⟨[], .nil, fun q hq => by simp at hq⟩
  | @keep i is f f1 f' w w1 w' m t l hk _ ih =>
    obtain ⟨_, _, c3, _, c5⟩ := hk.next_cfg
    obtain ⟨V, e1, e2⟩ := ih (by rw [c3]; exact hc) (by rw [c3]; exact hb) (by rw [c5]; exact hr)
      (fun p hp => hrows p (List.mem_cons_of_mem _ hp)) (by rw [c3]; exact h0) (by rw [c3]; exact h2)
    obtain ⟨v, v1, v2, v3⟩ := hk.sqError_le hne hc hb r hr (hrows _ (List.mem_cons_self ..)) h0 h2
    have hstep : ∀ q, sqError (List.range data.length)
        (leftOver f.cfg (i :: is) ((v :: V).take (q + 1)) (fun j => (w.arrays.getD r []).getD j 0)) (fun _ => 0) =
        sqError (List.range data.length) (leftOver f1.cfg is (V.take q) (fun j => (w1.arrays.getD r []).getD j 0)) (fun _ => 0) := by
      intro q
      unfold sqError
      congr 1
      apply List.map_congr_left
      intro j hj
      unfold leftOver
      beta_reduce
      rw [List.take_succ_cons, List.zipWith_cons_cons, List.sum_cons, v2 j (List.mem_range.1 hj), c3]
      ring
    refine ⟨v :: V, .cons v1 e1, ?_⟩
    intro q hq
    cases q with
    | zero =>
      refine le_trans (le_of_eq ?_) (le_trans v3 (le_of_eq ?_))
      · unfold sqError leftOver
        simp
      · unfold sqError leftOver
        simp
    | succ q =>
      rw [hstep, hstep]
      exact e2 q (by simpa using hq)

end

section

variable (R : Rng K G) (mem : Nat → Nat → Junk K)

/-- The forest with only its first `k` trees. -/
def firstTrees (f : Forest K G) (k : Nat) : Forest K G := { f with trees := f.trees.take k }

theorem firstTrees_predict {f : Forest K G} {x : List K} {vs : List K} (hc : f.cfg.isCls = false) (hb : f.cfg.boosting = true)
    (h : List.Forall₂ (fun (t : Tree K G) v => (t.predict x).map Prod.fst = .ok (.reg v)) f.trees vs) (k : Nat) (hk : vs.take k ≠ []) :
    ∃ f2, (firstTrees f k).predict x = .ok (.reg (boostSum (f.cfg.boostingLr.getD 0) (vs.take k)), f2) := by
  have hm : (firstTrees f k).trees.mapM (fun (t : Tree K G) => (t.predict x).map Prod.fst) = .ok ((vs.take k).map Pred.reg) := by
    have h' := List.forall₂_take k h
    show (f.trees.take k).mapM _ = _
    revert h'
    generalize f.trees.take k = ts
    generalize vs.take k = us
    intro h'
    induction h' with
    | nil => rfl
    | cons h _ ih => rw [List.mapM_cons, h, ih]; rfl
  have hp : ((firstTrees f k).predict x).map Prod.fst = .ok (.reg (boostSum (f.cfg.boostingLr.getD 0) (vs.take k))) := by
    rw [Forest_predict_fst, hm]
    show forestAnswer f.cfg f.classes _ = _
    unfold forestAnswer
    rw [if_neg (by rw [hc]; simp), if_pos hb, if_neg (by simpa using hk), List.map_map]
    show Except.ok (Pred.reg (boostSum _ (List.map id _))) = _
    rw [List.map_id]
  cases hq : (firstTrees f k).predict x with
  | error e => rw [hq] at hp; cases hp
  | ok q =>
    rw [hq] at hp
    obtain ⟨q1, q2⟩ := q
    cases hp
    exact ⟨q2, rfl⟩

/-- C94. A boosted regression forest, fitted without row subsampling and with a learning rate between 0 and 2: on the training rows the
answers of its first `m` trees have a squared error that is at most that of its first `k ≤ m` trees. -/
theorem C94_training_error (f f' : Forest K G) (w w' : World K G) (data : Option (List (List K))) (labels : Option Nat)
    (hf : Forest.fit R mem f w data labels = .ok (f', w')) (hc : f.cfg.isCls = false) (hb : f.cfg.boosting = true) (lr : K)
    (hlr : f.cfg.boostingLr = some lr) (h0 : 0 ≤ lr) (h2 : lr ≤ 2) (hboot : f.cfg.bootstrap = false) (hN : f.cfg.alphaN = 1)
    (hF : f.cfg.alphaF ≤ 1) (r : Nat) (hr : labels.or f.newRef = some r) (k m : Nat) (hk : 1 ≤ k) (hkm : k ≤ m)
    (hm : m ≤ f'.trees.length) :
    ∃ u v : Nat → K,
      (∀ j < (trainData f data).length, ∃ g, (firstTrees f' k).predict ((trainData f data).getD j []) = .ok (.reg (u j), g)) ∧
      (∀ j < (trainData f data).length, ∃ g, (firstTrees f' m).predict ((trainData f data).getD j []) = .ok (.reg (v j), g)) ∧
      sqError (List.range (trainData f data).length) (fun j => (w.arrays.getD r []).getD j 0) v ≤
        sqError (List.range (trainData f data).length) (fun j => (w.arrays.getD r []).getD j 0) u := by
  obtain ⟨dat, f0, w0, hs, hl⟩ := Forest_fit_start hf
  obtain ⟨l, hrun⟩ := forestLoop_run hl
  have htr : f'.trees = l.map Prod.snd := by rw [hrun.trees, hs.eq]; rfl
  have hcfg0 : f0.cfg = f.cfg := by rw [hs.eq]
  have hcfg' : f'.cfg = f.cfg := (Forest_fit_same hf).1
  obtain ⟨_, e2, e3⟩ := hs.reg hc
  have hlr' : f0.cfg.boostingLr.getD 0 = lr := by rw [hcfg0, hlr]; rfl
  have hrows : ∀ p ∈ l, p.1.args.rows.Perm (List.range dat.length) := by
    intro p hp
    obtain ⟨k, hk⟩ := List.mem_iff_getElem?.1 hp
    obtain ⟨i, _, hm⟩ := hrun.made k p.1 p.2 hk
    obtain ⟨rows0, rows, cols, g, g1, g2, d1, d2, d3, d4⟩ := hm.draw
    rw [hcfg0] at d1 d2
    obtain ⟨s1, s2⟩ := subsets_ok (by rw [hN]) hF d1
    have hrr : p.1.args.rows = rows := by unfold TreeArgs.rows; rw [d3]; rfl
    unfold bootstrapIdcs at d2
    rw [hboot, if_neg (by simp)] at d2
    cases d2
    rw [hrr]
    rw [hN] at s1
    have hsub : rows0.Subperm (List.range dat.length) := s1.distinct.subperm (fun i hi => List.mem_range.2 (s1.range i hi))
    have hlen : rows0.length = dat.length := by
      have := s1.size
      rw [mul_one, Int.floor_natCast] at this
      exact_mod_cast this
    exact hsub.perm_of_length_le (by rw [List.length_range, hlen])
  have hdat := hs.dat_eq
  rw [← hdat]
  obtain ⟨V, h3, h4⟩ := hrun.sqError_le hs.ne (by rw [hcfg0]; exact hc) (by rw [hcfg0]; exact hb) r (by rw [e2]; exact hr) hrows
    (by rw [hlr']; exact h0) (by rw [hlr']; exact h2)
  rw [hcfg0, e3] at h4
  have hVlen : V.length = f'.trees.length := by rw [htr, List.length_map, h3.length_eq]
  have hans : ∀ j < dat.length, List.Forall₂ (fun (t : Tree K G) v => (t.predict (dat.getD j [])).map Prod.fst = .ok (.reg v)) f'.trees
      (V.map (fun v => v j)) := by
    intro j hj
    rw [htr, List.forall₂_map_left_iff, List.forall₂_map_right_iff]
    exact h3.imp (fun p v h => h j hj)
  have hpre : ∀ q, 1 ≤ q → q ≤ f'.trees.length → ∀ j,
      boostSum lr ((V.map (fun v => v j)).take q) =
        (List.zipWith (fun i v => boostWeight f.cfg i * v j) (List.range f.cfg.nEstimators) (V.take q)).sum := by
    intro q hq1 hq2 j
    cases V with
    | nil =>
      simp only [List.length_nil] at hVlen
      omega
    | cons v0 V =>
      obtain ⟨q, rfl⟩ : ∃ q', q = q' + 1 := ⟨q - 1, by omega⟩
      have hle : l.length ≤ f.cfg.nEstimators := by
        have := hrun.length.1
        rw [List.length_range] at this
        exact this
      have hlen := h3.length_eq
      rw [List.length_cons] at hlen
      rw [List.map_cons, List.take_succ_cons, List.take_succ_cons, boostSum_eq]
      have := boostWeight_sum f.cfg f.cfg.nEstimators (v0 j) ((V.take q).map (fun v => v j)) (by
        rw [List.length_map, List.length_take]; omega)
      rw [hlr] at this
      rw [← List.map_cons (f := fun v : Nat → K => v j), List.zipWith_map_right] at this
      rw [this, List.map_take]
      rfl
  have hchain : ∀ d q, q + d ≤ V.length →
      sqError (List.range dat.length) (leftOver f.cfg (List.range f.cfg.nEstimators) (V.take (q + d)) (fun j => (w.arrays.getD r []).getD j 0))
        (fun _ => 0) ≤
      sqError (List.range dat.length) (leftOver f.cfg (List.range f.cfg.nEstimators) (V.take q) (fun j => (w.arrays.getD r []).getD j 0))
        (fun _ => 0) := by
    intro d
    induction d with
    | zero => intro q _; exact le_refl _
    | succ d ih =>
      intro q hq
      have := h4 (q + d) (by omega)
      exact le_trans this (ih q (by omega))
  have hbase : ∀ q, 1 ≤ q → q ≤ f'.trees.length →
      sqError (List.range dat.length) (fun j => (w.arrays.getD r []).getD j 0) (fun j => boostSum lr ((V.map (fun v => v j)).take q)) =
      sqError (List.range dat.length) (leftOver f.cfg (List.range f.cfg.nEstimators) (V.take q) (fun j => (w.arrays.getD r []).getD j 0))
        (fun _ => 0) := by
    intro q hq1 hq2
    unfold sqError leftOver
    congr 1
    apply List.map_congr_left
    intro j _
    beta_reduce
    rw [hpre q hq1 hq2 j, sub_zero]
  have hpred : ∀ q, 1 ≤ q → q ≤ f'.trees.length → ∀ j < dat.length, ∃ g,
      (firstTrees f' q).predict (dat.getD j []) = .ok (.reg (boostSum lr ((V.map (fun v => v j)).take q)), g) := by
    intro q hq1 hq2 j hj
    have hne : (V.map (fun v => v j)).take q ≠ [] := by
      intro h0
      have := congrArg List.length h0
      rw [List.length_take, List.length_map] at this
      simp only [List.length_nil] at this
      omega
    have := firstTrees_predict (by rw [hcfg']; exact hc) (by rw [hcfg']; exact hb) (hans j hj) q hne
    rw [hcfg', hlr] at this
    exact this
  refine ⟨_, _, hpred k hk (by omega), hpred m (by omega) hm, ?_⟩
  rw [hbase k hk (by omega), hbase m (by omega) hm]
  have := hchain (m - k) k (by omega)
  rwa [Nat.add_sub_cancel' hkm] at this

end

/-! ### Examples -/

/-- A classification tree on a bootstrap sample: right on 6 of its 8 rows; the most frequent class would be right on 4. -/
example : ∃ t, Fitted rngQ exMem exArgsBoot t ∧
    decide (exArgsBoot.cfg.isCls = true ∧
      (exArgsBoot.rows.map (fun i => (t.predict (exArgsBoot.data.getD i [])).toOption.map (fun q => decide (q.1.value = exArgsBoot.labels.getD i 0)))).count
        (some true) = 6 ∧ (labelsOf exArgsBoot.labels exArgsBoot.rows).count 0 = 4 ∧ exArgsBoot.rows.length = 8) = true :=
  runTree_exists (glob := exGlob) (by decide +kernel)

/-- A regression tree with squared error 1/2; the mean of the targets has squared error 94/3. -/
example : ∃ t, Fitted rngQ exMem exArgsReg t ∧
    decide (exArgsReg.cfg.isCls = false ∧
      (t.predictBatch exArgsReg.data).toOption.map (fun q => sqError exArgsReg.rows (fun i => exArgsReg.labels.getD i 0)
        (fun i => (q.1.map Pred.value).getD i 0)) = some (1 / 2) ∧
      sqError exArgsReg.rows (fun i => exArgsReg.labels.getD i 0) (fun _ => mean exArgsReg.labels) = 94 / 3) = true :=
  runTree_exists (glob := exGlob) (by decide +kernel)

/-- Squared errors on the training rows of the first 1, 2, … trees of the forest fitted with these parameters. -/
def boostErrors (cfg : ForestCfg ℚ) : Option (List ℚ) :=
  (do let (f, _) ← runForest rngQ exMems exWorldReg cfg exData 0 none
      let ps ← (List.range f.trees.length).mapM (fun k => ((firstTrees f (k + 1)).predictBatch exData).map Prod.fst)
      pure (ps.map (fun (p : List (Pred ℚ)) => sqError (List.range exData.length) (fun i => (exWorldReg.arrays.getD 0 []).getD i 0)
        (fun i => (p.map Pred.value).getD i 0)))).toOption

/-- Four boosted trees with learning rate 1/2. -/
example : fcfgBoost.isCls = false ∧ fcfgBoost.bootstrap = false ∧ fcfgBoost.alphaN = 1 ∧
    (boostErrors { fcfgBoost with nEstimators := 4 } == some [14 / 3, 163 / 72, 439 / 648, 91 / 324]) = true := by
  decide +kernel

/-- With bootstrapping the error on the training rows can grow with every tree, although the learning rate is 1/2: the new targets of
rows outside the sample do not take the new tree into account. -/
theorem C94_refuted_bootstrap : (boostErrors { fcfgBoost with nEstimators := 3, bootstrap := true, randomState := 1 } ==
    some [17, 117 / 2, 709 / 8]) = true := by
  decide +kernel

/-- With a learning rate larger than 2 too. -/
theorem C94_refuted_large_rate : (boostErrors { fcfgBoost with nEstimators := 3, boostingLr := some 3 } ==
    some [14 / 3, 257 / 18, 7831 / 144]) = true := by
  decide +kernel

end FF
