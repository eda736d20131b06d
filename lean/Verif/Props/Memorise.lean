import Verif.Props.TrainError
import Verif.Props.Tree2
import Verif.Props.Cart
import Verif.Props.MoreLeaves

/-!
# Reproducing the training labels (C141)

A tree that may grow without limits, with the exact solver and a threshold at every value, goes on splitting as long as one column tells
rows with different labels apart. If one column determines the label, every leaf that is large enough to be split is pure.
-/

namespace FF

open Spec

set_option linter.unusedSectionVars false

variable {K : Type} [Field K] [LinearOrder K] [IsStrictOrderedRing K] [FloorRing K] [NpFun K] {G : Type}

/-- Equal values of the feature come with equal labels. -/
def Determines (S : List (K × K)) : Prop := ∀ s ∈ S, ∀ s' ∈ S, s.1 = s'.1 → s.2 = s'.2

/-- A sample with the smallest value among those that meet a condition. -/
theorem exists_least (S : List (K × K)) (p : K × K → Prop) (h : ∃ s ∈ S, p s) : ∃ s ∈ S, p s ∧ ∀ s' ∈ S, p s' → s.1 ≤ s'.1 := by
  classical
  induction S with
  | nil => obtain ⟨s, hs, _⟩ := h; cases hs
  | cons a S ih =>
    by_cases hS : ∃ s ∈ S, p s
    · obtain ⟨s, hs, hp, hm⟩ := ih hS
      by_cases ha : p a ∧ a.1 ≤ s.1
      · refine ⟨a, List.mem_cons_self .., ha.1, ?_⟩
        intro s' hs' hp'
        rcases List.mem_cons.1 hs' with rfl | hs'
        · exact le_refl _
        · exact ha.2.trans (hm s' hs' hp')
      · refine ⟨s, List.mem_cons_of_mem _ hs, hp, ?_⟩
        intro s' hs' hp'
        rcases List.mem_cons.1 hs' with rfl | hs'
        · by_contra hlt
          exact ha ⟨hp', (not_le.1 hlt).le⟩
        · exact hm s' hs' hp'
    · obtain ⟨s, hs, hp⟩ := h
      rcases List.mem_cons.1 hs with rfl | hs
      · refine ⟨s, List.mem_cons_self .., hp, ?_⟩
        intro s' hs' hp'
        rcases List.mem_cons.1 hs' with rfl | hs'
        · exact le_refl _
        · exact absurd ⟨s', hs', hp'⟩ hS
      · exact absurd ⟨s, hs, hp⟩ hS

theorem mem_labelsLe_iff {S : List (K × K)} {v y : K} : y ∈ labelsLe S v ↔ ∃ s ∈ S, s.1 ≤ v ∧ s.2 = y := by
  unfold labelsLe
  simp only [List.mem_map, List.mem_filter, decide_eq_true_eq, and_assoc]

theorem mem_labelsGt_iff {S : List (K × K)} {v y : K} : y ∈ labelsGt S v ↔ ∃ s ∈ S, v < s.1 ∧ s.2 = y := by
  unfold labelsGt
  simp only [List.mem_map, List.mem_filter, decide_eq_true_eq, and_assoc]

theorem freq_eq_one_iff {ys : List K} (h : ys ≠ []) (c : K) : freq ys c = 1 ↔ ∀ y ∈ ys, y = c := by
  have hlen : (0 : K) < (ys.length : K) := by exact_mod_cast List.length_pos_iff.2 h
  unfold freq
  rw [div_eq_one_iff_eq hlen.ne', Nat.cast_inj, List.count_eq_length]
  exact ⟨fun a y hy => (a y hy).symm, fun a y hy => (a y hy).symm⟩

/-- A split that does not decrease the Gini impurity leaves the shares of all classes as they are. -/
theorem gini_change_strict (a b c : List K) (hp : c.Perm (a ++ b)) (ha : a ≠ []) (hb : b ≠ [])
    (h0 : 0 ≤ (a.length : K) / (c.length : K) * gini a + (b.length : K) / (c.length : K) * gini b - gini c) (d : K) (hd : d ∈ c) :
    freq a d = freq b d := by
  have hpa : (0 : K) < (a.length : K) := by exact_mod_cast List.length_pos_iff.2 ha
  have hpb : (0 : K) < (b.length : K) := by exact_mod_cast List.length_pos_iff.2 hb
  have hlen : (c.length : K) = (a.length : K) + b.length := by
    rw [hp.length_eq]; push_cast [List.length_append]; rfl
  have D : ∀ y, y ∈ c → y ∈ c.dedup := fun y hy => List.mem_dedup.2 hy
  rw [gini_eq (List.nodup_dedup c) (ys := a) (fun y hy => D y (hp.mem_iff.2 (List.mem_append_left _ hy))),
    gini_eq (List.nodup_dedup c) (ys := b) (fun y hy => D y (hp.mem_iff.2 (List.mem_append_right _ hy))),
    gini_eq (List.nodup_dedup c) (ys := c) D] at h0
  obtain ⟨gap, hgap⟩ : ∃ gap : K → K, ∀ d, gap d = (a.length : K) / (c.length : K) * freq a d ^ 2 +
      (b.length : K) / (c.length : K) * freq b d ^ 2 - freq c d ^ 2 := ⟨_, fun _ => rfl⟩
  have hform : ∀ d : K, gap d = (a.length : K) * b.length / (c.length : K) ^ 2 * (freq a d - freq b d) ^ 2 := by
    intro d
    have hcnt : (c.count d : K) = (a.count d : K) + b.count d := by
      rw [hp.count_eq, List.count_append]; push_cast; rfl
    rw [hgap]
    unfold freq
    rw [hcnt, hlen]
    set p := (a.length : K)
    set q := (b.length : K)
    set x := (a.count d : K)
    set y := (b.count d : K)
    have : p + q ≠ 0 := by positivity
    field_simp
    ring
  have hsum : ∀ l : List K, (l.map gap).sum = (a.length : K) / (c.length : K) * (l.map (fun d => freq a d ^ 2)).sum
      + (b.length : K) / (c.length : K) * (l.map (fun d => freq b d ^ 2)).sum - (l.map (fun d => freq c d ^ 2)).sum := by
    intro l
    induction l with
    | nil => simp
    | cons e l ih => simp only [List.map_cons, List.sum_cons, ih, hgap]; ring
  have hone : (a.length : K) / (c.length : K) + (b.length : K) / (c.length : K) = 1 := by
    rw [← add_div, ← hlen]
    exact div_self (by rw [hlen]; positivity)
  have hnn : ∀ x ∈ c.dedup.map gap, 0 ≤ x := by
    intro x hx
    obtain ⟨d, _, rfl⟩ := List.mem_map.1 hx
    rw [hform]
    positivity
  have hle : (c.dedup.map gap).sum ≤ 0 := by
    rw [hsum]
    nlinarith [h0, hone]
  have hz := List.single_le_sum hnn _ (List.mem_map.2 ⟨d, D d hd, rfl⟩)
  have hz2 : gap d = 0 := le_antisymm (hz.trans hle) (hnn _ (List.mem_map.2 ⟨d, D d hd, rfl⟩))
  rw [hform] at hz2
  have hpos : (a.length : K) * b.length / (c.length : K) ^ 2 ≠ 0 := by
    have : (0 : K) < c.length := by rw [hlen]; positivity
    positivity
  have := pow_eq_zero_iff (two_ne_zero) |>.1 ((mul_eq_zero.1 hz2).resolve_left hpos)
  linarith

/-- A split that does not decrease the variance has the same mean on both sides. -/
theorem variance_change_strict (a b c : List K) (hp : c.Perm (a ++ b)) (ha : a ≠ []) (hb : b ≠ [])
    (h0 : 0 ≤ (a.length : K) / (c.length : K) * variance a + (b.length : K) / (c.length : K) * variance b - variance c) :
    mean a = mean b := by
  have hpa : (0 : K) < (a.length : K) := by exact_mod_cast List.length_pos_iff.2 ha
  have hpb : (0 : K) < (b.length : K) := by exact_mod_cast List.length_pos_iff.2 hb
  have hlen : (c.length : K) = (a.length : K) + b.length := by
    rw [hp.length_eq]; push_cast [List.length_append]; rfl
  have hpos : (0 : K) < (c.length : K) := by rw [hlen]; positivity
  have hva := variance_append a b
  rw [← variance_perm hp, ← hp.length_eq] at hva
  have e : (a.length : K) / (c.length : K) * variance a + (b.length : K) / (c.length : K) * variance b - variance c
      = -((mean a - mean b) ^ 2 * ((a.length : K) * b.length / (c.length : K) ^ 2)) := by
    field_simp
    field_simp at hva
    linarith
  rw [e] at h0
  have h1 : 0 ≤ (mean a - mean b) ^ 2 * ((a.length : K) * b.length / (c.length : K) ^ 2) := by positivity
  have h2 : (mean a - mean b) ^ 2 * ((a.length : K) * b.length / (c.length : K) ^ 2) = 0 := by linarith
  have hne : (a.length : K) * b.length / (c.length : K) ^ 2 ≠ 0 := by positivity
  have := pow_eq_zero_iff (two_ne_zero) |>.1 ((mul_eq_zero.1 h2).resolve_right hne)
  linarith

/-- If the feature determines the label and no threshold decreases the Gini impurity, all labels are equal. -/
theorem gini_pure {S : List (K × K)} (hd : Determines S) (h0 : ∀ v, 0 ≤ change gini S v) : ∀ s ∈ S, ∀ s' ∈ S, s.2 = s'.2 := by
  intro s hs s' hs'
  obtain ⟨m, hm, _, hmin⟩ := exists_least S (fun _ => True) ⟨s, hs, trivial⟩
  have hleft : ∀ y ∈ labelsLe S m.1, y = m.2 := by
    intro y hy
    obtain ⟨r, hr, hle, rfl⟩ := mem_labelsLe_iff.1 hy
    exact hd r hr m hm (le_antisymm hle (hmin r hr trivial))
  have hmem : m.2 ∈ labelsLe S m.1 := mem_labelsLe_iff.2 ⟨m, hm, le_refl _, rfl⟩
  have hne : labelsLe S m.1 ≠ [] := List.ne_nil_of_mem hmem
  have hright : ∀ y ∈ labelsGt S m.1, y = m.2 := by
    intro y hy
    have hne' : labelsGt S m.1 ≠ [] := List.ne_nil_of_mem hy
    have h1 := h0 m.1
    unfold change at h1
    have h2 := gini_change_strict _ _ (S.map Prod.snd) (labels_perm S m.1) hne hne' (by rw [List.length_map]; exact h1) m.2
      (List.mem_map.2 ⟨m, hm, rfl⟩)
    rw [(freq_eq_one_iff hne m.2).2 hleft] at h2
    exact (freq_eq_one_iff hne' m.2).1 h2.symm y hy
  have hall : ∀ r ∈ S, r.2 = m.2 := by
    intro r hr
    rcases le_or_gt r.1 m.1 with h | h
    · exact hleft _ (mem_labelsLe_iff.2 ⟨r, hr, h, rfl⟩)
    · exact hright _ (mem_labelsGt_iff.2 ⟨r, hr, h, rfl⟩)
  rw [hall s hs, hall s' hs']

theorem sum_sub_const (l : List K) (c : K) : (l.map (fun y => y - c)).sum = l.sum - (l.length : K) * c := by
  induction l with
  | nil => simp
  | cons a l ih => simp only [List.map_cons, List.sum_cons, List.length_cons, ih]; push_cast; ring

/-- If the feature determines the label and no threshold decreases the variance, all labels are equal. -/
theorem variance_pure {S : List (K × K)} (hd : Determines S) (h0 : ∀ v, 0 ≤ change variance S v) : ∀ s ∈ S, ∀ s' ∈ S, s.2 = s'.2 := by
  set μ := mean (S.map Prod.snd) with hμ
  -- the labels on the left of any threshold have the mean of all labels
  have hmean : ∀ v, labelsLe S v ≠ [] → (labelsLe S v).sum = ((labelsLe S v).length : K) * μ := by
    intro v hne
    have hS : S.map Prod.snd ≠ [] := by
      intro e
      have := labels_perm S v
      rw [e] at this
      exact hne (List.append_eq_nil_iff.1 (List.nil_perm.1 this)).1
    have hall := mean_mul_length hS
    rw [← hμ] at hall
    by_cases hne' : labelsGt S v = []
    · have hp := labels_perm S v
      rw [hne', List.append_nil] at hp
      rw [← hp.sum_eq, ← hp.length_eq]
      exact hall.symm
    · have h1 := h0 v
      unfold change at h1
      have h2 := variance_change_strict _ _ (S.map Prod.snd) (labels_perm S v) hne hne' (by rw [List.length_map]; exact h1)
      have h3 := mean_mul_length hne
      have h4 := mean_mul_length hne'
      have h5 := (labels_perm S v).sum_eq
      have h6 := (labels_perm S v).length_eq
      rw [List.sum_append] at h5
      rw [List.length_append] at h6
      rw [← h2] at h4
      have h7 : ((S.map Prod.snd).length : K) = (labelsLe S v).length + (labelsGt S v).length := by rw [h6]; push_cast; rfl
      have hpos : (0 : K) < ((S.map Prod.snd).length : K) := by exact_mod_cast List.length_pos_iff.2 hS
      have h8 : μ = mean (labelsLe S v) := by
        apply mul_left_cancel₀ hpos.ne'
        rw [hall, h5, ← h3, ← h4, h7]
        ring
      rw [h8, h3]
  have hall : ∀ r ∈ S, r.2 = μ := by
    by_contra hex
    push Not at hex
    obtain ⟨m, hm, hmne, hmin⟩ := exists_least S (fun r => r.2 ≠ μ) hex
    have hmem : m.2 ∈ labelsLe S m.1 := mem_labelsLe_iff.2 ⟨m, hm, le_refl _, rfl⟩
    have h1 := hmean m.1 (List.ne_nil_of_mem hmem)
    -- every label on the left is the mean, or the label of `m`
    have h2 : ∀ y ∈ labelsLe S m.1, y = μ ∨ y = m.2 := by
      intro y hy
      obtain ⟨r, hr, hle, rfl⟩ := mem_labelsLe_iff.1 hy
      by_cases hrm : r.2 = μ
      · exact Or.inl hrm
      · exact Or.inr (hd r hr m hm (le_antisymm hle (hmin r hr hrm)))
    have h3 : ((labelsLe S m.1).map (fun y => (y - μ) * (m.2 - μ))).sum = 0 := by
      have : ∀ l : List K, (l.map (fun y => (y - μ) * (m.2 - μ))).sum = (l.map (fun y => y - μ)).sum * (m.2 - μ) := by
        intro l
        induction l with
        | nil => simp
        | cons a l ih => simp only [List.map_cons, List.sum_cons, ih]; ring
      rw [this, sum_sub_const, h1]
      ring
    have hnn : ∀ x ∈ (labelsLe S m.1).map (fun y => (y - μ) * (m.2 - μ)), 0 ≤ x := by
      intro x hx
      obtain ⟨y, hy, rfl⟩ := List.mem_map.1 hx
      beta_reduce
      rcases h2 y hy with rfl | rfl
      · simp
      · exact mul_self_nonneg _
    have h4 := List.single_le_sum hnn _ (List.mem_map.2 ⟨m.2, hmem, rfl⟩)
    rw [h3] at h4
    have h5 : (m.2 - μ) * (m.2 - μ) = 0 := le_antisymm h4 (mul_self_nonneg _)
    exact hmne (sub_eq_zero.1 (mul_self_eq_zero.1 h5))
  intro s hs s' hs'
  rw [hall s hs, hall s' hs']

section

variable (R : Rng K G) (mem : Nat → Junk K) (A : TreeArgs K)

/-- A fit that nothing holds back: exact solver, a threshold at every value of a node, Gini or squared error, every column, no limit on the
depth or the queries, every decrease of the impurity is enough. -/
structure Unlimited (A : TreeArgs K) : Prop where
  args : ArgsOK A
  solver : A.cfg.solver = .exact
  bins : A.cfg.binType = some .identity
  crit : A.cfg.criterion ≠ .entropy
  decrease : A.cfg.minImpDec = 0
  features : A.cfg.featSub = .none
  budget : A.budget = none
  depth : A.cfg.maxDepth = .inf

/-- C141: if one column of the training data determines the label, every leaf of an unlimited tree (that did not reach its leaf limit) is
too small to be split or has only one label. -/
theorem C141_leaf_pure (t : Tree K G) (h : Fitted R mem A t) (hU : Unlimited A) (hm : A.cfg.maxLeafNodes ≠ some t.leaves.length)
    (c : Nat) (hc : c ∈ A.cols) (hdet : ∀ i ∈ A.rows, ∀ j ∈ A.rows, (A.data.getD i []).getD c 0 = (A.data.getD j []).getD c 0 →
      A.labels.getD i 0 = A.labels.getD j 0) (leaf : Nat) (hl : IsLeaf t leaf) :
    (rowsOf t leaf).length ≤ A.cfg.minSamplesSplit ∨
      ∀ i ∈ rowsOf t leaf, ∀ j ∈ rowsOf t leaf, A.labels.getD i 0 = A.labels.getD j 0 := by
  obtain ⟨dd, t0, hf⟩ := h.facts
  obtain ⟨nd, hn, _⟩ := (hf.shape.leaves leaf).1 ((hf.shape.isLeaf leaf).2 hl)
  have hok := hf.nodes _ _ hn
  have hrows : rowsOf t leaf = nd.idcs := by
    have : t.nodes[leaf]? = some nd := hn
    simp [rowsOf, this]
  rw [hrows]
  have hsub : ∀ i ∈ nd.idcs, i ∈ A.rows := fun i hi => (hf.rows_sublist hn).subset hi
  rcases C40_exact_identity R mem A t h hU.args hU.solver hU.bins hU.decrease hU.budget hm leaf hl nd hn with h1 | h1
  · by_cases hsz : nd.idcs.length ≤ A.cfg.minSamplesSplit
    · exact Or.inl hsz
    right
    have h2 : ¬ 1 < (labelsOf A.labels nd.idcs).dedup.length := fun h3 => h1 ⟨Or.inl hU.depth, not_le.1 hsz, h3⟩
    intro i hi j hj
    have hmi : A.labels.getD i 0 ∈ (labelsOf A.labels nd.idcs).dedup := List.mem_dedup.2 (List.mem_map.2 ⟨i, hi, rfl⟩)
    have hmj : A.labels.getD j 0 ∈ (labelsOf A.labels nd.idcs).dedup := List.mem_dedup.2 (List.mem_map.2 ⟨j, hj, rfl⟩)
    generalize (labelsOf A.labels nd.idcs).dedup = l at h2 hmi hmj
    match l, h2 with
    | [], _ => cases hmi
    | [a], _ => rw [List.mem_singleton.1 hmi, List.mem_singleton.1 hmj]
    | _ :: _ :: _, h2 => exact absurd (by simp) h2
  · right
    have hcols : nd.featIdcs = A.cols := hok.feats_num.all (by rw [hf.cfg_eq]; exact hU.features)
    have h2 := h1 c (by rw [hcols]; exact hc)
    have hd : Determines (rowSamples A nd.idcs c) := by
      intro s hs s' hs' e
      obtain ⟨i, hi, rfl⟩ := List.mem_map.1 hs
      obtain ⟨j, hj, rfl⟩ := List.mem_map.1 hs'
      exact hdet i (hsub i hi) j (hsub j hj) e
    have key : ∀ s ∈ rowSamples A nd.idcs c, ∀ s' ∈ rowSamples A nd.idcs c, s.2 = s'.2 := by
      cases hcr : A.cfg.criterion with
      | gini => rw [hcr] at h2; exact gini_pure hd h2
      | mse => rw [hcr] at h2; exact variance_pure hd h2
      | entropy => exact absurd hcr hU.crit
    intro i hi j hj
    exact key _ (List.mem_map.2 ⟨i, hi, rfl⟩) _ (List.mem_map.2 ⟨j, hj, rfl⟩)

/-- Any two rows of a leaf of an unlimited tree with `min_samples_split` at most 1 have the same label. -/
theorem Fitted.leaf_labels {t : Tree K G} (h : Fitted R mem A t) (hU : Unlimited A) (hs : A.cfg.minSamplesSplit ≤ 1)
    (hm : A.cfg.maxLeafNodes ≠ some t.leaves.length) {c : Nat} (hc : c ∈ A.cols)
    (hdet : ∀ i ∈ A.rows, ∀ j ∈ A.rows, (A.data.getD i []).getD c 0 = (A.data.getD j []).getD c 0 →
      A.labels.getD i 0 = A.labels.getD j 0) {leaf : Nat} (hl : IsLeaf t leaf) {i : Nat} (hi : i ∈ rowsOf t leaf) :
    ∀ y ∈ labelsOf A.labels (rowsOf t leaf), y = A.labels.getD i 0 := by
  intro y hy
  obtain ⟨j, hj, rfl⟩ := List.mem_map.1 hy
  rcases C141_leaf_pure R mem A t h hU hm c hc hdet leaf hl with h1 | h1
  · generalize rowsOf t leaf = l at h1 hi hj
    match l, h1 with
    | [], _ => cases hi
    | [a], _ => rw [List.mem_singleton.1 hi, List.mem_singleton.1 hj]
    | _ :: _ :: _, h1 => simp at h1; omega
  · exact h1 j hj i hi

/-- C141, regression: if `min_samples_split` is at most 1, the tree answers every training row with its target. -/
theorem C141_regression (t t1 : Tree K G) (h : Fitted R mem A t) (hr : A.cfg.isCls = false) (hU : Unlimited A)
    (hs : A.cfg.minSamplesSplit ≤ 1) (hm : A.cfg.maxLeafNodes ≠ some t.leaves.length) (c : Nat) (hc : c ∈ A.cols)
    (hdet : ∀ i ∈ A.rows, ∀ j ∈ A.rows, (A.data.getD i []).getD c 0 = (A.data.getD j []).getD c 0 →
      A.labels.getD i 0 = A.labels.getD j 0) (ha : AfterPredicts t t1) (i : Nat) (hi : i ∈ A.rows) :
    ∃ t2, t1.predict (A.data.getD i []) = .ok (.reg (A.labels.getD i 0), t2) := by
  obtain ⟨leaf, hl, hmem, _, _⟩ := C35_training_row R mem A t h i hi
  obtain ⟨p, t2, hp, _, hv⟩ := C35_predict_training_row R mem A t t1 h (by rw [hr]; simp) ha i hi leaf hl hmem
  refine ⟨t2, ?_⟩
  rw [hp, hv hr]
  have hall := Fitted.leaf_labels R mem A h hU hs hm hc hdet hl hmem
  have hne : labelsOf A.labels (rowsOf t leaf) ≠ [] := List.ne_nil_of_mem (List.mem_map.2 ⟨i, hmem, rfl⟩)
  have hmean : mean (labelsOf A.labels (rowsOf t leaf)) = A.labels.getD i 0 := by
    have h1 := mean_mul_length hne
    rw [List.eq_replicate_of_mem hall, List.sum_replicate, List.length_replicate, nsmul_eq_mul] at h1
    have hpos : ((labelsOf A.labels (rowsOf t leaf)).length : K) ≠ 0 := by
      have := List.length_pos_iff.2 hne
      exact_mod_cast this.ne'
    have h2 := mul_left_cancel₀ hpos h1
    rw [← List.eq_replicate_of_mem hall] at h2
    exact h2
  rw [hmean]

/-- C141, classification: if `min_samples_split` is at most 1, the tree answers every training row with its label, and with probability 1. -/
theorem C141_classification (t t1 : Tree K G) (h : Fitted R mem A t) (hr : A.cfg.isCls = true) (hd : ClassesOK A.cfg.classes)
    (hU : Unlimited A) (hs : A.cfg.minSamplesSplit ≤ 1) (hm : A.cfg.maxLeafNodes ≠ some t.leaves.length) (c : Nat) (hc : c ∈ A.cols)
    (hdet : ∀ i ∈ A.rows, ∀ j ∈ A.rows, (A.data.getD i []).getD c 0 = (A.data.getD j []).getD c 0 →
      A.labels.getD i 0 = A.labels.getD j 0) (ha : AfterPredicts t t1) (i : Nat) (hi : i ∈ A.rows) :
    ∃ t2, t1.predict (A.data.getD i []) = .ok (.cls (A.labels.getD i 0)
      (A.cfg.classes.map (fun c => if c.1 = A.labels.getD i 0 then 1 else 0)), t2) := by
  obtain ⟨leaf, hl, hmem, _, _⟩ := C35_training_row R mem A t h i hi
  obtain ⟨p, t2, hp, hv, _⟩ := C35_predict_training_row R mem A t t1 h (fun _ => hd) ha i hi leaf hl hmem
  obtain ⟨label, rfl⟩ := hv hr
  have hall := Fitted.leaf_labels R mem A h hU hs hm hc hdet hl hmem
  have hne : labelsOf A.labels (rowsOf t leaf) ≠ [] := List.ne_nil_of_mem (List.mem_map.2 ⟨i, hmem, rfl⟩)
  obtain ⟨l, hl1, hl2⟩ := h.classLabels hr hd ha
  obtain ⟨probs, t3, hp'⟩ := hl1 i hi
  rw [hp] at hp'
  cases hp'
  have hlabel : l i = A.labels.getD i 0 := by
    have hcnt := hl2 leaf ((C29_partition R mem A t h).2.1 leaf |>.2 hl) i hmem (A.labels.getD i 0)
    have hpos : 0 < (labelsOf A.labels (rowsOf t leaf)).count (A.labels.getD i 0) :=
      List.count_pos_iff.2 (List.mem_map.2 ⟨i, hmem, rfl⟩)
    exact hall _ (List.count_pos_iff.1 (lt_of_lt_of_le hpos hcnt))
  refine ⟨t2, ?_⟩
  rw [hp, hlabel]
  congr 3
  apply List.map_congr_left
  intro k _
  by_cases hk : k.1 = A.labels.getD i 0
  · rw [if_pos hk]
    exact (freq_eq_one_iff hne _).2 (fun y hy => by rw [hk]; exact hall y hy)
  · rw [if_neg hk]
    unfold freq
    rw [List.count_eq_zero.2 (fun hk' => hk (hall _ hk'))]
    simp

end

/-! ### Examples -/

/-- The arguments of the examples without a limit on the depth. -/
def exArgsFree : TreeArgs ℚ := { exArgs with cfg := { cfgQ with maxDepth := .inf } }

/-- The same for regression. -/
def exArgsRegFree : TreeArgs ℚ := { exArgsReg with cfg := { cfgQr with maxDepth := .inf } }

theorem exArgsFree_unlimited : Unlimited exArgsFree :=
  ⟨⟨by simp [exArgsFree, exArgs, cfgQ, CritFits], by simp [exArgsFree, exArgs, cfgQ], by simp [exArgsFree, exArgs, discLookup],
    by simp [exArgsFree, exArgs, cfgQ], by simp [exArgsFree, exArgs, cfgQ]⟩, rfl, rfl, by simp [exArgsFree, exArgs, cfgQ], rfl, rfl, rfl, rfl⟩

theorem exArgsRegFree_unlimited : Unlimited exArgsRegFree :=
  ⟨⟨by simp [exArgsRegFree, exArgsReg, cfgQr, cfgQ, CritFits], by simp [exArgsRegFree, exArgsReg, exArgs, cfgQr, cfgQ],
    by simp [exArgsRegFree, exArgsReg, exArgs, discLookup], by simp [exArgsRegFree, exArgsReg, cfgQr, cfgQ],
    by simp [exArgsRegFree, exArgsReg, cfgQr, cfgQ]⟩, rfl, rfl, by simp [exArgsRegFree, exArgsReg, cfgQr, cfgQ], rfl, rfl, rfl, rfl⟩

/-- The first column has different values in all rows. -/
example : 0 ∈ exArgsFree.cols ∧ ∀ i ∈ exArgsFree.rows, ∀ j ∈ exArgsFree.rows,
    (exArgsFree.data.getD i []).getD 0 0 = (exArgsFree.data.getD j []).getD 0 0 → exArgsFree.labels.getD i 0 = exArgsFree.labels.getD j 0 := by
  decide +kernel

/-- All six labels are right; the squared error is 0. With `min_samples_split = 2` a leaf with two different labels may remain. -/
example : (trainScore exArgsFree == some 6 && trainScore exArgsRegFree == some 0 &&
    trainScore { exArgsRegFree with cfg := { exArgsRegFree.cfg with minSamplesSplit := 2 } } == some (37 / 2)) = true := by
  decide +kernel

/-- One column has to determine the label. Here both columns together do (it is their exclusive or), but no split on one of them decreases
the impurity: the tree has one leaf. -/
def exArgsXor : TreeArgs ℚ := { exArgsFree with data := [[0, 0], [0, 1], [1, 0], [1, 1]], labels := [0, 1, 1, 0] }

theorem C141_two_columns : ∃ t, runTree rngQ exMem exArgsXor exGlob = .ok t ∧ t.leaves = [0] ∧ rowsOf t 0 = [0, 1, 2, 3] := by
  have h : (match runTree rngQ exMem exArgsXor exGlob with
      | .ok t => t.leaves == [0] && rowsOf t 0 == [0, 1, 2, 3]
      | .error _ => false) = true := by decide +kernel
  split at h
  · rename_i t ht
    simp only [Bool.and_eq_true, beq_iff_eq] at h
    exact ⟨t, ht, h.1, h.2⟩
  · cases h

end FF
