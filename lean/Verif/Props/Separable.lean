import Verif.Props.SmallData
import Verif.Props.Memorise
import Verif.Props.Chance
import Verif.Model.Toy
import Verif.Spec.Separable
import Mathlib.Algebra.Order.Floor.Semiring

/-!
# C163: labels that one question tells apart
-/

set_option linter.unusedSectionVars false

namespace Spec

variable {K : Type} [Field K] [LinearOrder K] [IsStrictOrderedRing K] {P : CartProblem K}

/-- An impurity is never negative, and zero for lists of equal labels only. -/
structure SoundImp (imp : List K → K) : Prop where
  nonneg : ∀ ys, 0 ≤ imp ys
  zero : ∀ ys, ys ≠ [] → (imp ys = 0 ↔ ∃ c, ∀ y ∈ ys, y = c)

namespace CartProblem

theorem labelsLe_at (P : CartProblem K) (rows : List Nat) (f : Nat) (v : K) :
    labelsLe (rows.map (fun i => (P.value i f, P.label i))) v = (rows.filter (fun i => decide (P.value i f ≤ v))).map P.label := by
  unfold labelsLe
  rw [List.filter_map, List.map_map]
  rfl

theorem labelsGt_at (P : CartProblem K) (rows : List Nat) (f : Nat) (v : K) :
    labelsGt (rows.map (fun i => (P.value i f, P.label i))) v = (rows.filter (fun i => decide (v < P.value i f))).map P.label := by
  unfold labelsGt
  rw [List.filter_map, List.map_map]
  rfl

/-- The part of a score that a side contributes: zero iff the side is empty or has one label. -/
theorem side_zero {imp : List K → K} (hi : SoundImp imp) {n : Nat} (hn : 0 < n) (ys : List K) :
    0 ≤ (ys.length : K) / (n : K) * imp ys ∧ ((ys.length : K) / (n : K) * imp ys = 0 ↔ ∀ y ∈ ys, ∀ y' ∈ ys, y = y') := by
  have hnK : (0 : K) < (n : K) := by exact_mod_cast hn
  refine ⟨mul_nonneg (div_nonneg (by exact_mod_cast Nat.zero_le _) hnK.le) (hi.nonneg ys), ?_⟩
  by_cases hy : ys = []
  · subst hy; simp
  have hl : (ys.length : K) / (n : K) ≠ 0 := by
    have : (0 : K) < (ys.length : K) := by exact_mod_cast List.length_pos_iff.2 hy
    positivity
  rw [mul_eq_zero, or_iff_right hl, hi.zero ys hy]
  constructor
  · rintro ⟨c, hc⟩ y h y' h'
    rw [hc y h, hc y' h']
  · intro h
    obtain ⟨c, hc⟩ := List.exists_mem_of_ne_nil _ hy
    exact ⟨c, fun y hy' => h y hy' c hc⟩

/-- No score is below minus the impurity; the score is minus the impurity iff the question separates the labels. -/
theorem score_separates (hi : SoundImp P.imp) {rows : List Nat} (hr : rows ≠ []) (f : Nat) (v : K) :
    -(P.imp (rows.map P.label)) ≤ P.score rows (f, v) ∧ (P.score rows (f, v) = -(P.imp (rows.map P.label)) ↔ P.Separates rows f v) := by
  have hn : 0 < (rows.map (fun i => (P.value i f, P.label i))).length := by rw [List.length_map]; exact List.length_pos_iff.2 hr
  have hall : (rows.map (fun i => (P.value i f, P.label i))).map Prod.snd = rows.map P.label := by rw [List.map_map]; rfl
  obtain ⟨a1, a2⟩ := side_zero hi hn (labelsLe (rows.map (fun i => (P.value i f, P.label i))) v)
  obtain ⟨b1, b2⟩ := side_zero hi hn (labelsGt (rows.map (fun i => (P.value i f, P.label i))) v)
  unfold score change
  dsimp only
  rw [hall]
  refine ⟨by linarith, ?_⟩
  have hle : (∀ y ∈ labelsLe (rows.map (fun i => (P.value i f, P.label i))) v, ∀ y' ∈ labelsLe (rows.map (fun i => (P.value i f, P.label i))) v, y = y') ↔
      ∀ i ∈ rows, ∀ j ∈ rows, P.value i f ≤ v → P.value j f ≤ v → P.label i = P.label j := by
    rw [labelsLe_at]
    simp only [List.mem_map, List.mem_filter, decide_eq_true_eq]
    constructor
    · intro h i hi' j hj e1 e2
      exact h _ ⟨i, ⟨hi', e1⟩, rfl⟩ _ ⟨j, ⟨hj, e2⟩, rfl⟩
    · rintro h _ ⟨i, ⟨h1, h2⟩, rfl⟩ _ ⟨j, ⟨h3, h4⟩, rfl⟩
      exact h i h1 j h3 h2 h4
  have hgt : (∀ y ∈ labelsGt (rows.map (fun i => (P.value i f, P.label i))) v, ∀ y' ∈ labelsGt (rows.map (fun i => (P.value i f, P.label i))) v, y = y') ↔
      ∀ i ∈ rows, ∀ j ∈ rows, v < P.value i f → v < P.value j f → P.label i = P.label j := by
    rw [labelsGt_at]
    simp only [List.mem_map, List.mem_filter, decide_eq_true_eq]
    constructor
    · intro h i hi' j hj e1 e2
      exact h _ ⟨i, ⟨hi', e1⟩, rfl⟩ _ ⟨j, ⟨hj, e2⟩, rfl⟩
    · rintro h _ ⟨i, ⟨h1, h2⟩, rfl⟩ _ ⟨j, ⟨h3, h4⟩, rfl⟩
      exact h i h1 j h3 h2 h4
  unfold Separates
  rw [← hle, ← hgt, ← a2, ← b2]
  constructor
  · intro h; constructor <;> linarith
  · rintro ⟨h1, h2⟩; rw [h1, h2]; ring

/-- A side of a separating question is not split again. -/
theorem IsGreedy.pure_leaf {d : Nat} {rows : List Nat} {D : DTree K} (h : P.IsGreedy d rows D)
    (hp : ∀ i ∈ rows, ∀ j ∈ rows, P.label i = P.label j) : D = .leaf rows := by
  cases h with
  | leaf => rfl
  | node hm =>
    obtain ⟨i, hi, j, hj, hne⟩ := hm.mixed
    exact absurd (hp i hi j hj) hne

/-- If a candidate separates the labels, the greedy tree asks one question, and it separates the labels. -/
theorem IsGreedy.separated (hi : SoundImp P.imp) {d : Nat} {rows : List Nat} {D : DTree K} (h : P.IsGreedy d rows D) (hm : P.MaySplit d rows)
    (hw : P.Worth rows (-(P.imp (rows.map P.label)))) {f : Nat} {v : K} (hc : (f, v) ∈ P.candidates rows) (hs : P.Separates rows f v) :
    ∃ f' v', (f', v') ∈ P.candidates rows ∧ P.Separates rows f' v' ∧ D = P.stump rows f' v' := by
  have hr : rows ≠ [] := by obtain ⟨i, hi, _⟩ := hm.mixed; exact List.ne_nil_of_mem hi
  have hsc := (score_separates hi hr f v).2.2 hs
  have hbest : P.Best rows (f, v) := ⟨hc, fun x _ => by rw [hsc]; exact (score_separates hi hr x.1 x.2).1⟩
  cases h with
  | leaf hl =>
    refine absurd ?_ (hl hm (f, v) hbest)
    rw [hsc]
    exact hw
  | @node _ _ f' v' yes no hm' hb hw' hy hn =>
    have hsc' : P.score rows (f', v') = -(P.imp (rows.map P.label)) :=
      le_antisymm (by rw [← hsc]; exact hb.2 _ hc) (score_separates hi hr f' v').1
    have hs' := (score_separates hi hr f' v').2.1 hsc'
    refine ⟨f', v', hb.1, hs', ?_⟩
    unfold stump
    rw [hy.pure_leaf, hn.pure_leaf]
    · intro i hi' j hj
      rw [List.mem_filter, decide_eq_true_eq] at hi' hj
      exact hs'.2 i hi'.1 j hj.1 hi'.2 hj.2
    · intro i hi' j hj
      rw [List.mem_filter, decide_eq_true_eq] at hi' hj
      exact hs'.1 i hi'.1 j hj.1 hi'.2 hj.2

end CartProblem

end Spec

namespace FF

open Spec

variable {K : Type} [Field K] [LinearOrder K] [IsStrictOrderedRing K] [FloorRing K] [NpFun K] {G : Type}

theorem variance_eq_zero_iff {ys : List K} (hy : ys ≠ []) : variance ys = 0 ↔ ∃ c, ∀ y ∈ ys, y = c := by
  have hpos : (0 : K) < (ys.length : K) := by exact_mod_cast List.length_pos_iff.2 hy
  have hv : variance ys = (ys.map (fun y => (y - mean ys) ^ 2)).sum / (ys.length : K) := by
    show (ys.map (fun y => (y - mean ys) ^ 2)).sum / ((ys.map (fun y => (y - mean ys) ^ 2)).length : K) = _
    rw [List.length_map]
  rw [hv, div_eq_zero_iff, or_iff_left hpos.ne']
  constructor
  · intro h
    refine ⟨mean ys, fun y hy' => ?_⟩
    have h1 := List.single_le_sum (l := ys.map (fun y => (y - mean ys) ^ 2)) (by
      intro x hx; obtain ⟨z, _, rfl⟩ := List.mem_map.1 hx; exact sq_nonneg _) _ (List.mem_map.2 ⟨y, hy', rfl⟩)
    rw [h] at h1
    exact sub_eq_zero.1 ((pow_eq_zero_iff (by decide)).1 (le_antisymm h1 (sq_nonneg _)))
  · rintro ⟨c, hc⟩
    have hm : mean ys = c := by
      unfold mean
      rw [List.eq_replicate_of_mem hc, List.sum_replicate, List.length_replicate, nsmul_eq_mul, mul_div_cancel_left₀ _ hpos.ne']
    apply List.sum_eq_zero
    intro x hx
    obtain ⟨z, hz, rfl⟩ := List.mem_map.1 hx
    rw [hm, hc z hz]; simp

theorem critImp_sound {isCls : Bool} {m : Criterion} (hf : CritFits isCls m) (he : m ≠ .entropy) : SoundImp (critImp (K := K) m) := by
  cases m with
  | gini => exact ⟨gini_ge_zero, fun _ h => gini_eq_zero_iff h⟩
  | entropy => exact absurd rfl he
  | mse => exact ⟨variance_nonneg, fun _ h => variance_eq_zero_iff h⟩

/-! ### Trees -/

section
variable (R : Rng K G) (mem : Nat → Junk K) (A : TreeArgs K)

/-- The leaf of a training row has one label only: the row gets its own label as answer. -/
theorem Fitted.pure_answer {R : Rng K G} {mem : Nat → Junk K} {A : TreeArgs K} {t t1 : Tree K G} (h : Fitted R mem A t)
    (hd : A.cfg.isCls = true → ClassesOK A.cfg.classes) (ha : AfterPredicts t t1) {i leaf : Nat} (hi : i ∈ A.rows) (hl : IsLeaf t leaf)
    (hmem : i ∈ rowsOf t leaf) (hall : ∀ y ∈ labelsOf A.labels (rowsOf t leaf), y = A.labels.getD i 0) :
    ∃ t2, t1.predict (A.data.getD i []) = .ok (if A.cfg.isCls then
      .cls (A.labels.getD i 0) (A.cfg.classes.map (fun c => if c.1 = A.labels.getD i 0 then 1 else 0)) else .reg (A.labels.getD i 0), t2) := by
  have hne : labelsOf A.labels (rowsOf t leaf) ≠ [] := List.ne_nil_of_mem (List.mem_map.2 ⟨i, hmem, rfl⟩)
  by_cases hr : A.cfg.isCls = true
  · obtain ⟨p, t2, hp, hv, _⟩ := C35_predict_training_row R mem A t t1 h hd ha i hi leaf hl hmem
    obtain ⟨label, rfl⟩ := hv hr
    obtain ⟨l, hl1, hl2⟩ := h.classLabels hr (hd hr) ha
    obtain ⟨probs, t3, hp'⟩ := hl1 i hi
    rw [hp] at hp'
    cases hp'
    have hlabel : l i = A.labels.getD i 0 := by
      have hcnt := hl2 leaf ((C29_partition R mem A t h).2.1 leaf |>.2 hl) i hmem (A.labels.getD i 0)
      have hpos : 0 < (labelsOf A.labels (rowsOf t leaf)).count (A.labels.getD i 0) :=
        List.count_pos_iff.2 (List.mem_map.2 ⟨i, hmem, rfl⟩)
      exact hall _ (List.count_pos_iff.1 (lt_of_lt_of_le hpos hcnt))
    refine ⟨t2, ?_⟩
    rw [hp, hlabel, if_pos hr]
    congr 3
    apply List.map_congr_left
    intro k _
    by_cases hk : k.1 = A.labels.getD i 0
    · rw [if_pos hk]
      exact (freq_eq_one_iff hne _).2 (fun y hy => by rw [hk]; exact hall y hy)
    · rw [if_neg hk]
      unfold freq
      rw [List.count_eq_zero.2 (fun hk' => hk (hall _ hk'))]
      simp
  · have hr' : A.cfg.isCls = false := by simpa using hr
    obtain ⟨p, t2, hp, _, hv⟩ := C35_predict_training_row R mem A t t1 h (by rw [hr']; simp) ha i hi leaf hl hmem
    refine ⟨t2, ?_⟩
    rw [hp, hv hr', if_neg hr]
    have hmean : mean (labelsOf A.labels (rowsOf t leaf)) = A.labels.getD i 0 := by
      have h1 := mean_mul_length hne
      rw [List.eq_replicate_of_mem hall, List.sum_replicate, List.length_replicate, nsmul_eq_mul] at h1
      have hpos : ((labelsOf A.labels (rowsOf t leaf)).length : K) ≠ 0 := by
        have := List.length_pos_iff.2 hne
        exact_mod_cast this.ne'
      have h2 := mul_left_cancel₀ hpos h1
      rw [← List.eq_replicate_of_mem hall] at h2
      exact h2
    rw [hmean]

/-- **C163**. A tree grown by the exact solver (IDENTITY or LINEAR bins), or by MABSplit on data no larger than a batch: if one of the questions
that can be asked at the root has one label on each side, and the limits allow a split that removes all impurity, then the tree asks exactly one question, and this
question has one label on each side. -/
theorem C163_separated (hA : NoChoice A ∨ SmallMab A) (hcrit : A.cfg.criterion ≠ .entropy) (t : Tree K G) (h : Fitted R mem A t)
    (hm : A.cfg.maxLeafNodes ≠ some t.leaves.length) (hmay : A.problem.MaySplit 0 A.rows)
    (hworth : A.problem.Worth A.rows (-(critImp A.cfg.criterion (labelsOf A.labels A.rows)))) (f : Nat) (v : K)
    (hc : (f, v) ∈ A.problem.candidates A.rows) (hs : A.problem.Separates A.rows f v) :
    ∃ f' v', (f', v') ∈ A.problem.candidates A.rows ∧ A.problem.Separates A.rows f' v' ∧ ReadsAs t 0 (A.problem.stump A.rows f' v') := by
  have hg : ∃ D, ReadsAs t 0 D ∧ A.problem.IsGreedy 0 A.rows D := by
    rcases hA with hA | hA
    · obtain ⟨D, h1, h2, _⟩ := C101_greedy_tree R mem A hA t h hm
      exact ⟨D, h1, h2.greedy⟩
    · exact C157_greedy R mem A hA t h hm
  have hok : ArgsOK A := by
    rcases hA with hA | hA
    · exact hA.args
    · exact hA.args
  obtain ⟨D, hr, hD⟩ := hg
  obtain ⟨f', v', e1, e2, e3⟩ := hD.separated (critImp_sound hok.crit hcrit) hmay hworth hc hs
  exact ⟨f', v', e1, e2, e3 ▸ hr⟩

/-- C163, answers: such a tree answers every training row with its own label. -/
theorem C163_answers (hA : NoChoice A ∨ SmallMab A) (hcrit : A.cfg.criterion ≠ .entropy) (t t1 : Tree K G) (h : Fitted R mem A t)
    (hm : A.cfg.maxLeafNodes ≠ some t.leaves.length) (hmay : A.problem.MaySplit 0 A.rows)
    (hworth : A.problem.Worth A.rows (-(critImp A.cfg.criterion (labelsOf A.labels A.rows)))) (f : Nat) (v : K)
    (hc : (f, v) ∈ A.problem.candidates A.rows) (hs : A.problem.Separates A.rows f v) (hd : A.cfg.isCls = true → ClassesOK A.cfg.classes)
    (ha : AfterPredicts t t1) (i : Nat) (hi : i ∈ A.rows) :
    ∃ t2, t1.predict (A.data.getD i []) = .ok (if A.cfg.isCls then
      .cls (A.labels.getD i 0) (A.cfg.classes.map (fun c => if c.1 = A.labels.getD i 0 then 1 else 0)) else .reg (A.labels.getD i 0), t2) := by
  obtain ⟨f', v', _, hs', hr⟩ := C163_separated R mem A hA hcrit t h hm hmay hworth f v hc hs
  obtain ⟨leaf, hl, hmem, hroute, _⟩ := C35_training_row R mem A t h i hi
  refine h.pure_answer hd ha hi hl hmem ?_
  have hrows := hr.rowsAt hroute
  rw [← hrows] at hmem ⊢
  intro y hy
  obtain ⟨j, hj, rfl⟩ := List.mem_map.1 hy
  unfold CartProblem.stump at hmem hj
  simp only [DTree.rowsAt] at hmem hj
  split at hj
  · cases hj
  rename_i a hfa
  rw [hfa] at hmem
  dsimp only at hmem
  by_cases hav : a ≤ v'
  · rw [if_pos hav] at hmem hj
    rw [List.mem_filter, decide_eq_true_eq] at hmem hj
    exact hs'.1 j hj.1 i hmem.1 hj.2 hmem.2
  · rw [if_neg hav] at hmem hj
    rw [List.mem_filter, decide_eq_true_eq] at hmem hj
    exact hs'.2 j hj.1 i hmem.1 hj.2 hmem.2

end

/-! ### When a candidate separates -/

/-- With a threshold at every value, every separating question can be asked in an equivalent form. -/
theorem C163_identity (A : TreeArgs K) (hb : A.cfg.binType = some .identity) (hmixed : ∃ i ∈ A.rows, ∃ j ∈ A.rows, A.labels.getD i 0 ≠ A.labels.getD j 0)
    (f : Nat) (hf : f ∈ A.cols) (s : K) (hs : A.problem.Separates A.rows f s) :
    ∃ v, (f, v) ∈ A.problem.candidates A.rows ∧ A.problem.Separates A.rows f v := by
  have hex : ((A.rows.filter (fun i => decide (A.problem.value i f ≤ s))).map (fun i => A.problem.value i f)) ≠ [] := by
    intro he
    rw [List.map_eq_nil_iff, List.filter_eq_nil_iff] at he
    obtain ⟨i, hi, j, hj, hne⟩ := hmixed
    have h1 := he i hi
    have h2 := he j hj
    rw [decide_eq_true_eq, not_le] at h1 h2
    exact hne (hs.2 i hi j hj h1 h2)
  obtain ⟨v, hv⟩ : ∃ v, ((A.rows.filter (fun i => decide (A.problem.value i f ≤ s))).map (fun i => A.problem.value i f)).max? = some v :=
    Option.ne_none_iff_exists'.1 (by rw [ne_eq, List.max?_eq_none_iff]; exact hex)
  obtain ⟨h1, h2⟩ := List.max?_eq_some_iff.1 hv
  obtain ⟨k, hk, hkv⟩ := List.mem_map.1 h1
  rw [List.mem_filter, decide_eq_true_eq] at hk
  have hle : ∀ i ∈ A.rows, (A.problem.value i f ≤ v ↔ A.problem.value i f ≤ s) := by
    intro i hi
    constructor
    · intro h; exact h.trans (hkv ▸ hk.2)
    · intro h
      exact h2 _ (List.mem_map.2 ⟨i, List.mem_filter.2 ⟨hi, by simpa using h⟩, rfl⟩)
  refine ⟨v, ?_, ?_, ?_⟩
  · refine List.mem_flatMap.2 ⟨f, hf, List.mem_map.2 ⟨v, ?_, rfl⟩⟩
    show v ∈ gridOf A.cfg f _
    unfold gridOf
    rw [hb]
    show v ∈ valueGrid _
    unfold valueGrid
    rw [List.mem_insertionSort, List.mem_dedup]
    exact List.mem_map.2 ⟨k, hk.1, hkv⟩
  · intro i hi j hj a b
    exact hs.1 i hi j hj ((hle i hi).1 a) ((hle j hj).1 b)
  · intro i hi j hj a b
    exact hs.2 i hi j hj (not_le.1 (fun c => not_le.2 a ((hle i hi).2 c))) (not_le.1 (fun c => not_le.2 b ((hle j hj).2 c)))

/-- With `B` evenly spaced thresholds it is enough that the two groups are farther apart than neighbouring thresholds. -/
theorem C163_linear (A : TreeArgs K) (hb : A.cfg.binType = some .linear) (hmm : A.cfg.minmax = none) (hlog : A.cfg.useLog = false) (B : Nat)
    (hB : A.cfg.numBins = some B) (hB2 : 2 ≤ B) (hmixed : ∃ i ∈ A.rows, ∃ j ∈ A.rows, A.labels.getD i 0 ≠ A.labels.getD j 0)
    (f : Nat) (hf : f ∈ A.cols) (s : K) (hs : A.problem.Separates A.rows f s)
    (hgap : ∀ i ∈ A.rows, ∀ j ∈ A.rows, A.problem.value i f ≤ s → s < A.problem.value j f →
      ∀ k ∈ A.rows, ∀ l ∈ A.rows, A.problem.value k f - A.problem.value l f ≤ ((B : K) - 1) * (A.problem.value j f - A.problem.value i f)) :
    ∃ v, (f, v) ∈ A.problem.candidates A.rows ∧ A.problem.Separates A.rows f v := by
  set val : Nat → K := fun i => A.problem.value i f with hval
  have hlow : ∃ i ∈ A.rows, val i ≤ s := by
    by_contra hno
    push Not at hno
    obtain ⟨i, hi, j, hj, hne⟩ := hmixed
    exact hne (hs.2 i hi j hj (hno i hi) (hno j hj))
  have hhigh : ∃ i ∈ A.rows, s < val i := by
    by_contra hno
    push Not at hno
    obtain ⟨i, hi, j, hj, hne⟩ := hmixed
    exact hne (hs.1 i hi j hj (hno i hi) (hno j hj))
  have hBK : (0 : K) < (B : K) - 1 := by
    have : (2 : K) ≤ (B : K) := by exact_mod_cast hB2
    linarith
  -- the largest value below and the smallest value above the threshold
  obtain ⟨p, hp⟩ : ∃ p, ((A.rows.filter (fun i => decide (val i ≤ s))).map val).max? = some p := by
    obtain ⟨i, hi, h⟩ := hlow
    exact Option.ne_none_iff_exists'.1 (by
      rw [ne_eq, List.max?_eq_none_iff]
      exact List.ne_nil_of_mem (List.mem_map.2 ⟨i, List.mem_filter.2 ⟨hi, by simpa using h⟩, rfl⟩))
  obtain ⟨q, hq⟩ : ∃ q, ((A.rows.filter (fun i => decide (s < val i))).map val).min? = some q := by
    obtain ⟨i, hi, h⟩ := hhigh
    exact Option.ne_none_iff_exists'.1 (by
      rw [ne_eq, List.min?_eq_none_iff]
      exact List.ne_nil_of_mem (List.mem_map.2 ⟨i, List.mem_filter.2 ⟨hi, by simpa using h⟩, rfl⟩))
  obtain ⟨p1, p2⟩ := List.max?_eq_some_iff.1 hp
  obtain ⟨q1, q2⟩ := List.min?_eq_some_iff.1 hq
  obtain ⟨a, ha, rfl⟩ := List.mem_map.1 p1
  obtain ⟨b, hb', rfl⟩ := List.mem_map.1 q1
  rw [List.mem_filter, decide_eq_true_eq] at ha hb'
  obtain ⟨lo, hlo⟩ : ∃ lo, (A.rows.map val).min? = some lo :=
    Option.ne_none_iff_exists'.1 (by rw [ne_eq, List.min?_eq_none_iff]; exact List.ne_nil_of_mem (List.mem_map.2 ⟨a, ha.1, rfl⟩))
  obtain ⟨hi, hhi⟩ : ∃ hi, (A.rows.map val).max? = some hi :=
    Option.ne_none_iff_exists'.1 (by rw [ne_eq, List.max?_eq_none_iff]; exact List.ne_nil_of_mem (List.mem_map.2 ⟨a, ha.1, rfl⟩))
  obtain ⟨l1, l2⟩ := List.min?_eq_some_iff.1 hlo
  obtain ⟨u1, u2⟩ := List.max?_eq_some_iff.1 hhi
  have hla : lo ≤ val a := l2 _ (List.mem_map.2 ⟨a, ha.1, rfl⟩)
  have hbu : val b ≤ hi := u2 _ (List.mem_map.2 ⟨b, hb'.1, rfl⟩)
  have hab : val a < val b := lt_of_le_of_lt ha.2 hb'.2
  have hspan : 0 < hi - lo := by linarith
  have hstep : 0 < (hi - lo) / ((B : K) - 1) := div_pos hspan hBK
  have hwide : (hi - lo) / ((B : K) - 1) ≤ val b - val a := by
    obtain ⟨k, hk, rfl⟩ := List.mem_map.1 u1
    obtain ⟨l, hl, rfl⟩ := List.mem_map.1 l1
    rw [div_le_iff₀ hBK, mul_comm]
    exact hgap a ha.1 b hb'.1 ha.2 hb'.2 k hk l hl
  set h := (hi - lo) / ((B : K) - 1) with hh
  set n := ⌈(val a - lo) / h⌉₊ with hn
  have hn1 : (val a - lo) / h ≤ (n : K) := Nat.le_ceil _
  have hn2 : (n : K) < (val a - lo) / h + 1 := Nat.ceil_lt_add_one (div_nonneg (by linarith) hstep.le)
  have hv1 : val a ≤ lo + (n : K) * h := by
    rw [div_le_iff₀ hstep] at hn1
    linarith
  have hv2 : lo + (n : K) * h < val b := by
    have : (n : K) * h < ((val a - lo) / h + 1) * h := by exact mul_lt_mul_of_pos_right hn2 hstep
    rw [add_mul, div_mul_cancel₀ _ hstep.ne', one_mul] at this
    linarith
  have hnB : n < B := by
    have h1 : (n : K) * h < ((B : K) - 1) * h := by
      have : ((B : K) - 1) * h = hi - lo := by rw [hh, mul_div_cancel₀ _ hBK.ne']
      rw [this]
      linarith
    have h2 : (n : K) < (B : K) - 1 := lt_of_mul_lt_mul_right h1 hstep.le
    have h3 : (n : K) < (B : K) := by linarith
    exact_mod_cast h3
  have hle : ∀ i ∈ A.rows, (val i ≤ lo + (n : K) * h ↔ val i ≤ s) := by
    intro i hi'
    constructor
    · intro hi1
      by_contra hc
      have := q2 _ (List.mem_map.2 ⟨i, List.mem_filter.2 ⟨hi', by simpa using hc⟩, rfl⟩)
      linarith
    · intro hi1
      have := p2 _ (List.mem_map.2 ⟨i, List.mem_filter.2 ⟨hi', by simpa using hi1⟩, rfl⟩)
      linarith
  refine ⟨lo + (n : K) * h, ?_, ?_, ?_⟩
  · refine List.mem_flatMap.2 ⟨f, hf, List.mem_map.2 ⟨_, ?_, rfl⟩⟩
    show _ ∈ gridOf A.cfg f (A.rows.map val)
    unfold gridOf
    rw [hb, hmm, hlog, hB, hlo, hhi]
    show _ ∈ evenGrid lo hi B
    unfold evenGrid
    rw [if_neg (by intro e; rw [e] at hspan; simp at hspan)]
    exact List.mem_map.2 ⟨n, List.mem_range.2 hnB, rfl⟩
  · intro i hi' j hj x y
    exact hs.1 i hi' j hj ((hle i hi').1 x) ((hle j hj).1 y)
  · intro i hi' j hj x y
    exact hs.2 i hi' j hj (not_le.1 (fun c => not_le.2 x ((hle i hi').2 c))) (not_le.1 (fun c => not_le.2 y ((hle j hj).2 c)))

/-! ### The toy data -/

/-- The settings for the toy data (`create_data`): the exact solver, a threshold at every value, all rows and columns. -/
structure OnToy (A : TreeArgs K) (N : Nat) (coin : Nat → Bool) (z u : Nat → K) : Prop where
  noChoice : NoChoice A
  bins : A.cfg.binType = some .identity
  crit : A.cfg.criterion ≠ .entropy
  data : A.data = toyPoints (createData N coin z u)
  labels : A.labels = toyLabels (createData N coin z u)
  idcs : A.idcs = none
  feats : A.feats = none

section
variable {A : TreeArgs K} {N : Nat} {coin : Nat → Bool} {z u : Nat → K}

theorem OnToy.rows (hT : OnToy A N coin z u) : A.rows = List.range N := by
  unfold TreeArgs.rows
  rw [hT.idcs, hT.labels]
  simp [toyLabels, createData]

theorem OnToy.value (hT : OnToy A N coin z u) {i : Nat} (hi : i < N) :
    A.problem.value i 0 = (if coin i then 1 else 0) + 1 / 5 * z i := by
  show (A.data.getD i []).getD 0 0 = _
  rw [hT.data]
  simp [toyPoints, createData, hi]

theorem OnToy.label (hT : OnToy A N coin z u) {i : Nat} (hi : i < N) : A.problem.label i = if coin i then 1 else 0 := by
  show A.labels.getD i 0 = _
  rw [hT.labels]
  simp [toyLabels, createData, hi]

theorem OnToy.cols (hT : OnToy A N coin z u) (hN : 0 < N) : 0 ∈ A.cols := by
  unfold TreeArgs.cols
  rw [hT.feats, hT.data]
  simp [toyPoints, createData, hN]

/-- **C163** (toy data). If no normal draw is as large as 2.5 in size, the labels of the toy data are separated "by the first feature at 0.5": the exact tree
asks one question, and answers every training row with its label. If the question is about the first feature, it separates the rows as the threshold 0.5
does. -/
theorem C163_toy (R : Rng K G) (mem : Nat → Junk K) (hT : OnToy A N coin z u) (hz : ∀ i < N, |z i| < 5 / 2) (t t1 : Tree K G) (h : Fitted R mem A t)
    (hm : A.cfg.maxLeafNodes ≠ some t.leaves.length) (hmay : A.problem.MaySplit 0 A.rows)
    (hworth : A.problem.Worth A.rows (-(critImp A.cfg.criterion (labelsOf A.labels A.rows)))) (hd : A.cfg.isCls = true → ClassesOK A.cfg.classes)
    (ha : AfterPredicts t t1) :
    (∀ i < N, ∃ p t2, t1.predict ((toyPoints (createData N coin z u)).getD i []) = .ok (p, t2) ∧
      (p = .reg (if coin i then 1 else 0) ∨ ∃ probs, p = .cls (if coin i then 1 else 0) probs)) ∧
    ∃ f v, ReadsAs t 0 (A.problem.stump A.rows f v) ∧ (f = 0 → ∀ i < N, (A.problem.value i 0 ≤ v ↔ A.problem.value i 0 ≤ 1 / 2)) := by
  have hN : 0 < N := by
    obtain ⟨i, hi, _⟩ := hmay.mixed
    rw [hT.rows, List.mem_range] at hi
    omega
  have hside : ∀ i < N, (coin i = false → A.problem.value i 0 < 1 / 2) ∧ (coin i = true → 1 / 2 < A.problem.value i 0) := by
    intro i hi
    have hzi := abs_lt.1 (hz i hi)
    rw [hT.value hi]
    constructor
    · intro hc
      rw [hc]
      simp only [Bool.false_eq_true, if_false]
      linarith [hzi.2]
    · intro hc
      rw [hc]
      simp only [if_true]
      linarith [hzi.1]
  have hs : A.problem.Separates A.rows 0 (1 / 2) := by
    rw [hT.rows]
    constructor
    · intro i hi j hj a b
      rw [List.mem_range] at hi hj
      have hci : coin i = false := by
        by_contra hc
        exact absurd ((hside i hi).2 (by simpa using hc)) (not_lt.2 a)
      have hcj : coin j = false := by
        by_contra hc
        exact absurd ((hside j hj).2 (by simpa using hc)) (not_lt.2 b)
      rw [hT.label hi, hT.label hj, hci, hcj]
    · intro i hi j hj a b
      rw [List.mem_range] at hi hj
      have hci : coin i = true := by
        by_contra hc
        exact absurd ((hside i hi).1 (by simpa using hc)) (not_lt.2 a.le)
      have hcj : coin j = true := by
        by_contra hc
        exact absurd ((hside j hj).1 (by simpa using hc)) (not_lt.2 b.le)
      rw [hT.label hi, hT.label hj, hci, hcj]
  obtain ⟨v0, hc0, hs0⟩ := C163_identity A hT.bins hmay.mixed 0 (hT.cols hN) (1 / 2) hs
  refine ⟨?_, ?_⟩
  · intro i hi
    obtain ⟨t2, hp⟩ := C163_answers R mem A (.inl hT.noChoice) hT.crit t t1 h hm hmay hworth 0 v0 hc0 hs0 hd ha i (by rw [hT.rows]; exact List.mem_range.2 hi)
    rw [show A.labels.getD i 0 = if coin i then 1 else 0 from hT.label hi, hT.data] at hp
    refine ⟨_, t2, hp, ?_⟩
    by_cases hcl : A.cfg.isCls = true
    · rw [if_pos hcl]; exact Or.inr ⟨_, rfl⟩
    · rw [if_neg hcl]; exact Or.inl rfl
  · obtain ⟨f, v, _, hsf, hr⟩ := C163_separated R mem A (.inl hT.noChoice) hT.crit t h hm hmay hworth 0 v0 hc0 hs0
    refine ⟨f, v, hr, ?_⟩
    rintro rfl i hi
    obtain ⟨a, ha', b, hb', hab⟩ := hmay.mixed
    obtain ⟨lo, hlo, hi', hhi', clo, chi⟩ : ∃ lo < N, ∃ hi' < N, coin lo = false ∧ coin hi' = true := by
      rw [hT.rows, List.mem_range] at ha' hb'
      rw [hT.label ha', hT.label hb'] at hab
      cases ca : coin a <;> cases cb : coin b <;> rw [ca, cb] at hab
      · exact absurd rfl hab
      · exact ⟨a, ha', b, hb', ca, cb⟩
      · exact ⟨b, hb', a, ha', cb, ca⟩
      · exact absurd rfl hab
    have mem' : ∀ {k : Nat}, k < N → k ∈ A.rows := fun hk => by rw [hT.rows]; exact List.mem_range.2 hk
    have hdiff : ∀ {k l : Nat}, k < N → l < N → coin k = false → coin l = true → A.problem.label k ≠ A.problem.label l := by
      intro k l hk hl ck cl
      rw [hT.label hk, hT.label hl, ck, cl]
      simp
    have h1 := (hside lo hlo).1 clo
    have h2 := (hside hi' hhi').2 chi
    have hlv : A.problem.value lo 0 ≤ v := by
      by_contra hc
      have hc := not_le.1 hc
      exact hdiff hlo hhi' clo chi (hsf.2 lo (mem' hlo) hi' (mem' hhi') hc (by linarith))
    have hvh : v < A.problem.value hi' 0 := by
      by_contra hc
      exact hdiff hlo hhi' clo chi (hsf.1 lo (mem' hlo) hi' (mem' hhi') hlv (not_lt.1 hc))
    cases hc : coin i with
    | false =>
      have h3 := (hside i hi).1 hc
      refine ⟨fun _ => h3.le, fun _ => ?_⟩
      by_contra hn
      exact hdiff hi hhi' hc chi (hsf.2 i (mem' hi) hi' (mem' hhi') (not_le.1 hn) hvh)
    | true =>
      have h3 := (hside i hi).2 hc
      refine ⟨fun hv => ?_, fun hn => absurd h3 (not_lt.2 hn)⟩
      exact absurd (hsf.1 lo (mem' hlo) i (mem' hi) hlv hv) (hdiff hlo hi clo hc)

end

/-! ### The hypotheses can be met -/

/-- Six labels. -/
def toyCoin : Nat → Bool := fun i => [false, false, true, true, false, true].getD i false

/-- Six normal draws. -/
def toyZ : Nat → ℚ := fun i => [0, 1, -1, 0, 2, -2].getD i 0

/-- Six uniform draws. -/
def toyU : Nat → ℚ := fun i => [1 / 2, 1 / 4, 1 / 3, 3 / 4, 2 / 3, 1 / 5].getD i 0

def exArgsToy : TreeArgs ℚ :=
  { exArgs with data := toyPoints (createData 6 toyCoin toyZ toyU), labels := toyLabels (createData 6 toyCoin toyZ toyU) }

/-- MABSplit with batches of six rows and six LINEAR bins on the same data. -/
def exArgsToyMab : TreeArgs ℚ :=
  { exArgsToy with cfg := { cfgQ with solver := .mab, binType := some .linear, numBins := some 6, batch := 6 } }

theorem exArgsToy_ok : OnToy exArgsToy 6 toyCoin toyZ toyU :=
  ⟨⟨⟨by simp [exArgsToy, exArgs, cfgQ, CritFits], by simp [exArgsToy, exArgs, cfgQ], by simp [exArgsToy, exArgs, discLookup],
    by simp [exArgsToy, exArgs, cfgQ], by simp [exArgsToy, exArgs, cfgQ]⟩, rfl, Or.inl rfl, rfl, rfl, by simp [exArgsToy, exArgs, cfgQ]⟩,
    rfl, by simp [exArgsToy, exArgs, cfgQ], rfl, rfl, rfl, rfl⟩

example : SmallMab exArgsToyMab :=
  ⟨⟨by simp [exArgsToyMab, exArgsToy, exArgs, cfgQ, CritFits], by simp [exArgsToyMab, exArgsToy, exArgs, cfgQ],
    by simp [exArgsToyMab, exArgsToy, exArgs, discLookup], by simp [exArgsToyMab, exArgsToy, exArgs, cfgQ],
    by simp [exArgsToyMab, exArgsToy, exArgs, cfgQ]⟩, rfl, rfl, rfl, ⟨6, by decide, rfl⟩, rfl, rfl, by simp [exArgsToyMab, exArgsToy, exArgs, cfgQ],
    by decide⟩

instance separatesDec (P : CartProblem ℚ) (rows : List Nat) (f : Nat) (v : ℚ) : Decidable (P.Separates rows f v) :=
  inferInstanceAs (Decidable (_ ∧ _))

/-- The limits allow the split, no draw is too large, and the gap is as wide as needed for six LINEAR bins. -/
example : exArgsToy.problem.MaySplit 0 exArgsToy.rows ∧
    exArgsToy.problem.Worth exArgsToy.rows (-(critImp exArgsToy.cfg.criterion (labelsOf exArgsToy.labels exArgsToy.rows))) ∧
    (∀ i < 6, |toyZ i| < 5 / 2) ∧ exArgsToy.problem.Separates exArgsToy.rows 0 (1 / 2) ∧
    ∀ i ∈ exArgsToyMab.rows, ∀ j ∈ exArgsToyMab.rows, exArgsToyMab.problem.value i 0 ≤ 1 / 2 → 1 / 2 < exArgsToyMab.problem.value j 0 →
      ∀ k ∈ exArgsToyMab.rows, ∀ l ∈ exArgsToyMab.rows, exArgsToyMab.problem.value k 0 - exArgsToyMab.problem.value l 0 ≤
        (((6 : Nat) : ℚ) - 1) * (exArgsToyMab.problem.value j 0 - exArgsToyMab.problem.value i 0) :=
  ⟨⟨fun d hd => by cases hd; decide, by decide, 0, by decide, 2, by decide, by decide +kernel⟩,
    ⟨by decide +kernel, by decide +kernel, by decide +kernel⟩, by decide +kernel, by decide +kernel, by decide +kernel⟩

/-- Both trees are grown. -/
example : (∃ t, Fitted rngQ exMem exArgsToy t ∧ (decide (exArgsToy.cfg.maxLeafNodes ≠ some t.leaves.length) &&
      readTree t 9 0 == .node 0 (2 / 5) (.leaf [0, 1, 4]) (.leaf [2, 3, 5])) = true) ∧
    ∃ t, Fitted rngQ exMem exArgsToyMab t ∧ (decide (exArgsToyMab.cfg.maxLeafNodes ≠ some t.leaves.length) &&
      readTree t 9 0 == .node 0 (2 / 5) (.leaf [0, 1, 4]) (.leaf [2, 3, 5])) = true :=
  ⟨runTree_exists (glob := exGlob) (by decide +kernel), runTree_exists (glob := exGlob) (by decide +kernel)⟩

end FF
