import Verif.Props.Memorise
import Verif.Props.Grid
import Verif.Proofs.CartMore
import Verif.Proofs.SplitGain

/-!
# Boosting makes progress as long as one split can (C155)

C94 says that one more boosted tree never gives a larger error on the training rows. Here is by how much the error falls at least: by a
share of what the best single split of the whole training set, on any column at any threshold, would take away from the variance of
what the trees so far have left over.
-/

namespace FF

open Spec

set_option linter.unusedSectionVars false

variable {K : Type} [Field K] [LinearOrder K] [IsStrictOrderedRing K] [FloorRing K] [NpFun K] {G : Type}

/-! ### Sums of squares -/

theorem sqError_mean_eq (l : List Nat) (y : Nat → K) : sqError l y (fun _ => mean (l.map y)) = (l.length : K) * variance (l.map y) := by
  by_cases h : l = []
  · subst h; simp [sqError]
  have h1 := mean_mul_length (ys := l.map y) (by simpa using h)
  have h2 := len_mul_variance (l.map y)
  rw [List.length_map, List.map_map] at h2
  rw [List.length_map] at h1
  rw [sqError_const, ← h1, h2]
  simp only [Function.comp_def]
  ring

theorem sqError_mean_zero (l : List Nat) (y : Nat → K) :
    sqError l y (fun _ => mean (l.map y)) = sqError l y (fun _ => 0) - (l.length : K) * mean (l.map y) ^ 2 := by
  by_cases h : l = []
  · subst h; simp [sqError]
  have h1 := mean_mul_length (ys := l.map y) (by simpa using h)
  rw [List.length_map] at h1
  rw [sqError_const, sqError_const, ← h1]
  ring

/-- Taking away a part of the mean: what is left is between nothing taken away and the whole mean. -/
theorem sqError_step_eq (l : List Nat) (y : Nat → K) (a : K) :
    sqError l y (fun _ => a * mean (l.map y)) =
      (1 - a * (2 - a)) * sqError l y (fun _ => 0) + a * (2 - a) * sqError l y (fun _ => mean (l.map y)) := by
  by_cases h : l = []
  · subst h; simp [sqError]
  have h1 := mean_mul_length (ys := l.map y) (by simpa using h)
  rw [List.length_map] at h1
  rw [sqError_const, sqError_const, sqError_const, ← h1]
  ring

/-- The mean of each side of a threshold as the answer. -/
def sideMeans (x y : Nat → K) (rows : List Nat) (v : K) (i : Nat) : K :=
  if x i ≤ v then mean ((rows.filter (fun j => decide (x j ≤ v))).map y) else mean ((rows.filter (fun j => decide (v < x j))).map y)

theorem labelsLe_rows (x y : Nat → K) (rows : List Nat) (v : K) :
    labelsLe (rows.map (fun i => (x i, y i))) v = (rows.filter (fun j => decide (x j ≤ v))).map y := by
  unfold labelsLe
  rw [List.filter_map, List.map_map]
  rfl

theorem labelsGt_rows (x y : Nat → K) (rows : List Nat) (v : K) :
    labelsGt (rows.map (fun i => (x i, y i))) v = (rows.filter (fun j => decide (v < x j))).map y := by
  unfold labelsGt
  rw [List.filter_map, List.map_map]
  rfl

theorem sqError_sideMeans (x y : Nat → K) (rows : List Nat) (hne : rows ≠ []) (v : K) :
    sqError rows y (sideMeans x y rows v) = sqError rows y (fun _ => mean (rows.map y)) +
      (rows.length : K) * change variance (rows.map (fun i => (x i, y i))) v := by
  have hl : (rows.length : K) ≠ 0 := by
    have := List.length_pos_iff.2 hne
    exact_mod_cast this.ne'
  rw [← sqError_perm (filter_le_gt_perm rows x v), sqError_mean_eq]
  have happ : ∀ (a b : List Nat) (g : Nat → K), sqError (a ++ b) y g = sqError a y g + sqError b y g := by
    intro a b g
    unfold sqError
    rw [List.map_append, List.sum_append]
  rw [happ]
  have h1 : sqError (rows.filter (fun i => decide (x i ≤ v))) y (sideMeans x y rows v) =
      sqError (rows.filter (fun i => decide (x i ≤ v))) y (fun _ => mean ((rows.filter (fun j => decide (x j ≤ v))).map y)) := by
    apply sqError_congr
    intro i hi
    have : x i ≤ v := by simpa using (List.mem_filter.1 hi).2
    unfold sideMeans
    rw [if_pos this]
  have h2 : sqError (rows.filter (fun i => decide (v < x i))) y (sideMeans x y rows v) =
      sqError (rows.filter (fun i => decide (v < x i))) y (fun _ => mean ((rows.filter (fun j => decide (v < x j))).map y)) := by
    apply sqError_congr
    intro i hi
    have : v < x i := by simpa using (List.mem_filter.1 hi).2
    unfold sideMeans
    rw [if_neg (not_le.2 this)]
  rw [h1, h2, sqError_mean_eq, sqError_mean_eq]
  unfold change
  rw [labelsLe_rows, labelsGt_rows, List.length_map, List.length_map, List.length_map, List.map_map]
  have e : (Prod.snd ∘ fun i => (x i, y i)) = y := rfl
  rw [e]
  field_simp
  ring

theorem change_variance_perm (x y : Nat → K) {rows rows' : List Nat} (h : rows.Perm rows') (v : K) :
    change variance (rows.map (fun i => (x i, y i))) v = change variance (rows'.map (fun i => (x i, y i))) v := by
  have h1 := h.map (fun i => (x i, y i))
  have hle : (labelsLe (rows.map (fun i => (x i, y i))) v).Perm (labelsLe (rows'.map (fun i => (x i, y i))) v) := by
    unfold labelsLe
    exact (h1.filter _).map _
  have hgt : (labelsGt (rows.map (fun i => (x i, y i))) v).Perm (labelsGt (rows'.map (fun i => (x i, y i))) v) := by
    unfold labelsGt
    exact (h1.filter _).map _
  unfold change
  rw [hle.length_eq, hgt.length_eq, h1.length_eq, variance_perm hle, variance_perm hgt, variance_perm (h1.map Prod.snd)]

/-! ### One tree -/

/-- A regression tree that may split its root wherever it pays: exact solver, a threshold at every value of a node, every column, no
budget, every decrease of the variance is enough, and the limits on depth, size and leaves allow one split. -/
structure MayStart (A : TreeArgs K) : Prop where
  args : ArgsOK A
  solver : A.cfg.solver = .exact
  bins : A.cfg.binType = some .identity
  reg : A.cfg.isCls = false
  decrease : A.cfg.minImpDec = 0
  features : A.cfg.featSub = .none
  budget : A.budget = none
  depth : A.cfg.maxDepth = .inf ∨ ∃ d, A.cfg.maxDepth = .some d ∧ 0 < d
  size : A.cfg.minSamplesSplit < A.rows.length
  leaves : A.cfg.maxLeafNodes ≠ some 1

section

variable (R : Rng K G) (mem : Nat → Junk K) (A : TreeArgs K)

/-- C155, one tree: on its training rows the tree is at least as good as the mean of the targets after any one split of the training
rows, of any column at any threshold. -/
theorem C155_tree (t t1 : Tree K G) (h : Fitted R mem A t) (hA : MayStart A) (ha : AfterPredicts t t1) :
    ∃ u : Nat → K, (∀ i ∈ A.rows, ∃ t2, t1.predict (A.data.getD i []) = .ok (.reg (u i), t2)) ∧
      ∀ f ∈ A.cols, ∀ v : K,
        sqError A.rows (fun i => A.labels.getD i 0) u ≤ sqError A.rows (fun i => A.labels.getD i 0) (fun _ => mean (labelsOf A.labels A.rows)) +
          (A.rows.length : K) * change variance (rowSamples A A.rows f) v := by
  obtain ⟨u, hu, hbest⟩ := C93_regression R mem A t t1 h hA.reg ha
  refine ⟨u, hu, fun f hf v => ?_⟩
  obtain ⟨dd, t0, hg⟩ := h.facts
  have hne : A.rows ≠ [] := by
    intro h0
    have := hA.size
    rw [h0] at this
    simp at this
  have hcrit : A.cfg.criterion = .mse := by
    have := hA.args.crit
    unfold CritFits at this
    rw [hA.reg] at this
    simpa using this
  have hn : (0 : K) ≤ (A.rows.length : K) := Nat.cast_nonneg _
  obtain ⟨nd, hn0, hidcs, hdep⟩ := hg.shape.root
  have hrow0 : rowsOf t 0 = A.rows := by
    simp [rowsOf, hn0, hidcs]
  have hconst : sqError A.rows (fun i => A.labels.getD i 0) u ≤
      sqError A.rows (fun i => A.labels.getD i 0) (fun _ => mean (labelsOf A.labels A.rows)) := hbest _ (fun _ _ _ _ _ _ => rfl)
  rcases hg.shape.links 0 nd hn0 with ⟨hl, _⟩ | ⟨l, r, nl, nr, hl, hr, _, _, _, hnl, hnr, hsplit⟩
  · -- the root is the only leaf
    have hleaf : IsLeaf t 0 := (hg.shape.isLeaf 0).1 ((hg.shape.leaves 0).2 ⟨nd, hn0, hl⟩)
    have hlen : t.leaves.length = 1 := by
      by_contra hcon
      have h1 := hg.shape.numLeaves
      have h2 := hg.shape.numNodes
      have h3 : 1 < t.nodes.length := by omega
      obtain ⟨p, np, hp, hnp, hch⟩ := hg.shape.parents 1 one_pos h3
      obtain rfl : p = 0 := by omega
      obtain rfl := Option.some.inj (hn0.symm.trans hnp)
      rcases hch with e | e
      · rw [hl] at e; cases e
      · rcases hg.shape.links 0 nd hn0 with ⟨_, e2⟩ | ⟨_, _, _, _, e2, _⟩
        · rw [e2] at e; cases e
        · rw [hl] at e2; cases e2
    suffices hz : 0 ≤ change variance (rowSamples A A.rows f) v by
      have := mul_nonneg hn hz
      linarith
    rcases C40_exact_identity R mem A t h hA.args hA.solver hA.bins hA.decrease hA.budget (by rw [hlen]; exact hA.leaves) 0 hleaf nd hn0
      with h1 | h1
    · have h2 : ¬ 1 < (labelsOf A.labels nd.idcs).dedup.length := by
        intro h3
        refine h1 ⟨?_, by rw [hidcs]; exact hA.size, h3⟩
        rw [hdep]
        exact hA.depth
      rw [hidcs] at h2
      -- one label only: nothing to gain
      obtain ⟨i0, hi0⟩ := List.exists_mem_of_ne_nil _ hne
      have hall : ∀ i ∈ A.rows, A.labels.getD i 0 = A.labels.getD i0 0 := by
        intro i hi
        have hmi : A.labels.getD i 0 ∈ (labelsOf A.labels A.rows).dedup := List.mem_dedup.2 (List.mem_map.2 ⟨i, hi, rfl⟩)
        have hmj : A.labels.getD i0 0 ∈ (labelsOf A.labels A.rows).dedup := List.mem_dedup.2 (List.mem_map.2 ⟨i0, hi0, rfl⟩)
        generalize (labelsOf A.labels A.rows).dedup = l at h2 hmi hmj
        match l, h2 with
        | [], _ => cases hmi
        | [a], _ => rw [List.mem_singleton.1 hmi, List.mem_singleton.1 hmj]
        | _ :: _ :: _, h2 => exact absurd (by simp) h2
      have hzero : variance (labelsOf A.labels A.rows) = 0 := by
        have e := sqError_mean_eq A.rows (fun i => A.labels.getD i 0)
        have e2 : sqError A.rows (fun i => A.labels.getD i 0) (fun _ => A.labels.getD i0 0) = 0 := by
          unfold sqError
          apply List.sum_eq_zero
          intro x hx
          obtain ⟨i, hi, rfl⟩ := List.mem_map.1 hx
          beta_reduce
          rw [hall i hi, sub_self]
          ring
        have e3 := sqError_mean_le A.rows (fun i => A.labels.getD i 0) (A.labels.getD i0 0)
        rw [e2, e] at e3
        have hp : (0 : K) < (A.rows.length : K) := by exact_mod_cast List.length_pos_iff.2 hne
        refine le_antisymm ?_ (variance_nonneg _)
        by_contra hc
        exact absurd e3 (not_le.2 (mul_pos hp (not_le.1 hc)))
      unfold change
      have e : (rowSamples A A.rows f).map Prod.snd = labelsOf A.labels A.rows := by
        unfold rowSamples labelsOf
        rw [List.map_map]
        rfl
      rw [e, hzero, sub_zero]
      have := variance_nonneg (labelsLe (rowSamples A A.rows f) v)
      have := variance_nonneg (labelsGt (rowSamples A A.rows f) v)
      positivity
    · have hcols : nd.featIdcs = A.cols := (hg.nodes _ _ hn0).feats_num.all (by rw [hg.cfg_eq]; exact hA.features)
      have := h1 f (by rw [hcols]; exact hf) v
      rw [hcrit, hidcs] at this
      exact this
  · -- the root is split at the best candidate
    have hmd : A.cfg.maxDepth ≠ .none := by
      intro h0
      rcases hA.depth with e | ⟨d, e, _⟩ <;> (rw [h0] at e; cases e)
    obtain ⟨f0, hf0, _, hfb, hw⟩ := hg.split_first_best hA.args hA.solver (Or.inl hA.bins) hA.features hmd hn0 (by rw [hl]; simp)
    rw [hidcs] at hfb hw
    have hscore : ∀ c : Nat × K, A.problem.score A.rows c = change variance (rowSamples A A.rows c.1) c.2 := by
      intro c
      unfold CartProblem.score TreeArgs.problem
      simp only [hcrit]
      rfl
    have hmin : ∀ c ∈ A.problem.candidates A.rows, A.problem.score A.rows (f0, nd.splitValue) ≤ A.problem.score A.rows c := by
      intro c hc
      obtain ⟨b, a, e, h1, h2⟩ := hfb
      rw [e] at hc
      rcases List.mem_append.1 hc with hc | hc
      · exact (h1 c hc).le
      · rcases List.mem_cons.1 hc with rfl | hc
        · exact le_refl _
        · exact h2 c hc
    have hkey : change variance (rowSamples A A.rows f0) nd.splitValue ≤ change variance (rowSamples A A.rows f) v := by
      have hSne : rowSamples A A.rows f ≠ [] := by
        unfold rowSamples
        simpa using hne
      rcases threshold_cases (rowSamples A A.rows f) v with hv | ⟨w, hw', hv⟩
      · have ho : OneSided (rowSamples A A.rows f) v := by
          right
          intro s hs
          by_contra hle
          have : s.2 ∈ labelsLe (rowSamples A A.rows f) v := by
            unfold labelsLe
            exact List.mem_map.2 ⟨s, List.mem_filter.2 ⟨hs, by simpa using hle⟩, rfl⟩
          rw [hv] at this
          simp at this
        rw [change_oneSided _ hSne ho]
        have := hw.neg
        rw [hscore] at this
        exact this.le
      · rw [change_congr variance hv]
        have hmem : (f, w) ∈ A.problem.candidates A.rows := by
          unfold CartProblem.candidates
          refine List.mem_flatMap.2 ⟨f, hf, List.mem_map.2 ⟨w, ?_, rfl⟩⟩
          show w ∈ gridOf A.cfg f _
          unfold gridOf
          rw [hA.bins]
          simp only []
          rw [mem_valueGrid]
          unfold rowSamples at hw'
          rw [List.map_map] at hw'
          exact hw'
        have := hmin _ hmem
        rw [hscore, hscore] at this
        exact this
    obtain ⟨f1, e1, _, hL, hR⟩ := hsplit.feat
    obtain rfl := Option.some.inj (hf0.symm.trans e1)
    have hlw : LeafWise t (sideMeans (fun i => (A.data.getD i []).getD f0 0) (fun i => A.labels.getD i 0) A.rows nd.splitValue) := by
      intro leaf hlf i hi j hj
      obtain ⟨hir, hroute⟩ := h.leaf_route hlf hi
      have hside : ∀ c (nc : Node K), t.nodes[c]? = some nc → Routes t (A.data.getD i []) c leaf → i ∈ nc.idcs ∧ j ∈ nc.idcs := by
        intro c nc hc hro
        have hs := Routes.rows_subset hg.shape hro
        have e : rowsOf t c = nc.idcs := by simp [rowsOf, hc]
        rw [e] at hs
        exact ⟨hs i hi, hs j hj⟩
      have hLR : (i ∈ nl.idcs ∧ j ∈ nl.idcs) ∨ (i ∈ nr.idcs ∧ j ∈ nr.idcs) := by
        cases hroute with
        | stop hlf' =>
          exact absurd ((hg.shape.leaves 0).1 ((hg.shape.isLeaf 0).2 hlf)) (by
            rintro ⟨nd', e, e2⟩
            obtain rfl := Option.some.inj (hn0.symm.trans e)
            rw [hl] at e2
            cases e2)
        | left hn' hl' _ _ _ hro =>
          obtain rfl := Option.some.inj (hn0.symm.trans hn')
          obtain rfl := Option.some.inj (hl.symm.trans hl')
          exact Or.inl (hside _ _ hnl hro)
        | right hn' hr' _ _ _ hro =>
          obtain rfl := Option.some.inj (hn0.symm.trans hn')
          obtain rfl := Option.some.inj (hr.symm.trans hr')
          exact Or.inr (hside _ _ hnr hro)
      unfold sideMeans
      beta_reduce
      rcases hLR with ⟨p, q⟩ | ⟨p, q⟩
      · rw [hL] at p q
        rw [if_pos (by simpa using (List.mem_filter.1 p).2), if_pos (by simpa using (List.mem_filter.1 q).2)]
      · rw [hR] at p q
        rw [if_neg (by simpa using (List.mem_filter.1 p).2), if_neg (by simpa using (List.mem_filter.1 q).2)]
    have h3 := hbest _ hlw
    rw [sqError_sideMeans _ _ _ hne] at h3
    have h4 := mul_le_mul_of_nonneg_left hkey hn
    exact le_trans h3 (by
      refine add_le_add (le_refl _) ?_
      exact h4)

end

/-! ### One pass of boosting -/

section

variable {R : Rng K G} {mem : Nat → Nat → Junk K} {data : List (List K)} {F : Nat}

/-- What one pass takes away from the sum of squares. -/
theorem Kept.sqError_gain {i : Nat} {f f' : Forest K G} {w w' : World K G} {m : Made K G} {t : Tree K G}
    (h : Kept R mem data F i f w f' w' m t) (hne : data ≠ []) (hc : f.cfg.isCls = false) (hb : f.cfg.boosting = true) (r : Nat)
    (hr : f.newRef = some r) (hrows : m.args.rows.Perm (List.range data.length)) (hM : MayStart m.args) (h0 : 0 ≤ f.cfg.boostingLr.getD 0)
    (h2 : f.cfg.boostingLr.getD 0 ≤ 2) :
    ∃ v : Nat → K, (∀ j < data.length, (t.predict (data.getD j [])).map Prod.fst = .ok (.reg (v j))) ∧
      (∀ j < data.length, (w'.arrays.getD r []).getD j 0 = (w.arrays.getD r []).getD j 0 - boostWeight f.cfg i * v j) ∧
      ∀ c ∈ m.args.cols, ∀ z : K,
        sqError (List.range data.length) (fun j => (w.arrays.getD r []).getD j 0) (fun j => boostWeight f.cfg i * v j) ≤
          sqError (List.range data.length) (fun j => (w.arrays.getD r []).getD j 0) (fun _ => 0) +
          boostWeight f.cfg i * (2 - boostWeight f.cfg i) * ((data.length : K) * (change variance
            ((List.range data.length).map (fun j => ((data.getD j []).getD c 0, (w.arrays.getD r []).getD j 0))) z -
            mean ((List.range data.length).map (fun j => (w.arrays.getD r []).getD j 0)) ^ 2)) := by
  obtain ⟨arr, arr', a1, a2, _, _, a5⟩ := h.boosted hne hc hb r hr
  have hci : m.args.cfg.isCls = false := by rw [h.cfg]; exact hc
  obtain ⟨v, v1, v2⟩ := h.fitted.values hci .none
  obtain ⟨ref, hr1, hlab⟩ := h.labels
  rw [hb, if_pos rfl, hr] at hr1
  obtain rfl := Option.some.inj hr1
  have hmem : ∀ j < data.length, j ∈ m.args.rows := fun j hj => hrows.symm.subset (List.mem_range.2 hj)
  have hv : ∀ j < data.length, (t.predict (data.getD j [])).map Prod.fst = .ok (.reg (v j)) := by
    intro j hj
    obtain ⟨t2, e⟩ := v1 j (hmem j hj)
    rw [C38_history_independent R (mem i) m.args m.tree t h.fitted h.after, ← h.data_eq, e]
    rfl
  refine ⟨v, hv, ?_, ?_⟩
  · intro j hj
    obtain ⟨u, e1, e2⟩ := a5 j (hmem j hj)
    rw [hv j hj] at e1
    cases e1
    simp only [List.getD_eq_getElem?_getD, a1, a2, Option.getD_some] at e2 ⊢
    exact e2
  · intro c hcol z
    obtain ⟨_, hl, hp⟩ := C29_partition R (mem i) m.args m.tree h.fitted
    set y : Nat → K := fun j => (w.arrays.getD r []).getD j 0 with hy
    set b := boostWeight f.cfg i with hbw
    obtain ⟨b0, b2⟩ := boostWeight_range f.cfg h0 h2 i
    have hk : 0 ≤ b * (2 - b) := mul_nonneg b0 (by linarith)
    have hyl : (fun j => m.args.labels.getD j 0) = y := by rw [hlab]
    -- the answers of the tree, and its error
    obtain ⟨u, u1, u2⟩ := C155_tree R (mem i) m.args m.tree m.tree h.fitted hM .none
    have huv : ∀ j ∈ m.args.rows, u j = v j := by
      intro j hj
      obtain ⟨_, e1⟩ := u1 j hj
      obtain ⟨_, e2⟩ := v1 j hj
      rw [e1] at e2
      injection e2 with e3
      injection e3 with e4
      injection e4
    have h3 := u2 c hcol z
    rw [hyl, sqError_congr huv] at h3
    have h4 := sqError_mean_zero m.args.rows y
    have h5 : labelsOf m.args.labels m.args.rows = m.args.rows.map y := by rw [← hyl]; rfl
    rw [h5] at h3
    -- the step, leaf by leaf
    have h6 : sqError m.args.rows y (fun j => b * v j) =
        (1 - b * (2 - b)) * sqError m.args.rows y (fun _ => 0) + b * (2 - b) * sqError m.args.rows y v := by
      rw [← sqError_perm hp, ← sqError_perm hp, ← sqError_perm hp, sqError_flatMap, sqError_flatMap, sqError_flatMap]
      have key : ∀ ls : List Nat, (∀ a ∈ ls, a ∈ m.tree.leaves) →
          (ls.map (fun a => sqError (rowsOf m.tree a) y (fun j => b * v j))).sum =
          (1 - b * (2 - b)) * (ls.map (fun a => sqError (rowsOf m.tree a) y (fun _ => 0))).sum +
            b * (2 - b) * (ls.map (fun a => sqError (rowsOf m.tree a) y v)).sum := by
        intro ls
        induction ls with
        | nil => intro _; simp
        | cons a ls ih =>
          intro ha
          simp only [List.map_cons, List.sum_cons]
          rw [ih (fun q hq => ha q (List.mem_cons_of_mem _ hq))]
          have hm : ∀ j ∈ rowsOf m.tree a, v j = mean ((rowsOf m.tree a).map y) := by
            intro j hj
            rw [v2 a (ha a (List.mem_cons_self ..)) j hj, ← hyl]
            rfl
          have e1 : sqError (rowsOf m.tree a) y (fun j => b * v j) =
              sqError (rowsOf m.tree a) y (fun _ => b * mean ((rowsOf m.tree a).map y)) :=
            sqError_congr (fun j hj => by rw [hm j hj])
          rw [e1, sqError_step_eq, sqError_congr hm]
          ring
      exact key _ (fun _ h => h)
    have h7 : rowSamples m.args m.args.rows c = m.args.rows.map (fun j => ((data.getD j []).getD c 0, y j)) := by
      unfold rowSamples
      apply List.map_congr_left
      intro j _
      show ((m.args.data.getD j []).getD c 0, m.args.labels.getD j 0) = _
      rw [h.data_eq, hlab]
    rw [h7, change_variance_perm _ _ hrows] at h3
    have hlen : m.args.rows.length = data.length := by rw [hrows.length_eq, List.length_range]
    rw [hlen] at h3 h4
    rw [h4, mean_perm (hrows.map y)] at h3
    rw [← sqError_perm hrows, ← sqError_perm hrows, h6]
    have h8 := mul_le_mul_of_nonneg_left h3 hk
    refine le_trans (add_le_add (le_refl _) h8) (le_of_eq ?_)
    ring

/-- The whole loop: what each tree takes away from the sum of squares. -/
theorem ForestRun.sqError_gain {is : List Nat} {f f' : Forest K G} {w w' : World K G} {l : List (Made K G × Tree K G)}
    (h : ForestRun R mem data F is f w l f' w') (hne : data ≠ []) (hc : f.cfg.isCls = false) (hb : f.cfg.boosting = true) (r : Nat)
    (hr : f.newRef = some r) (hrows : ∀ p ∈ l, p.1.args.rows.Perm (List.range data.length)) (hM : ∀ p ∈ l, MayStart p.1.args)
    (h0 : 0 ≤ f.cfg.boostingLr.getD 0) (h2 : f.cfg.boostingLr.getD 0 ≤ 2) (c : Nat) (hcol : ∀ p ∈ l, c ∈ p.1.args.cols) :
    ∃ V : List (Nat → K),
      List.Forall₂ (fun (p : Made K G × Tree K G) v => ∀ j < data.length, (p.2.predict (data.getD j [])).map Prod.fst = .ok (.reg (v j))) l V ∧
      ∀ q < V.length, ∀ z : K,
        sqError (List.range data.length) (leftOver f.cfg is (V.take (q + 1)) (fun j => (w.arrays.getD r []).getD j 0)) (fun _ => 0) ≤
        sqError (List.range data.length) (leftOver f.cfg is (V.take q) (fun j => (w.arrays.getD r []).getD j 0)) (fun _ => 0) +
        boostWeight f.cfg (is.getD q 0) * (2 - boostWeight f.cfg (is.getD q 0)) * ((data.length : K) * (change variance
          ((List.range data.length).map (fun j => ((data.getD j []).getD c 0,
            leftOver f.cfg is (V.take q) (fun j => (w.arrays.getD r []).getD j 0) j))) z -
          mean ((List.range data.length).map (leftOver f.cfg is (V.take q) (fun j => (w.arrays.getD r []).getD j 0))) ^ 2)) := by
  induction h with
  | done => exact ⟨[], .nil, fun q hq => by simp at hq⟩
  | stop _ hw => exact ⟨[], .nil, fun q hq => by simp at hq⟩
  | @keep i is f f1 f' w w1 w' m t l hk _ ih =>
    obtain ⟨_, _, c3, _, c5⟩ := hk.next_cfg
    obtain ⟨V, e1, e2⟩ := ih (by rw [c3]; exact hc) (by rw [c3]; exact hb) (by rw [c5]; exact hr)
      (fun p hp => hrows p (List.mem_cons_of_mem _ hp)) (fun p hp => hM p (List.mem_cons_of_mem _ hp)) (by rw [c3]; exact h0)
      (by rw [c3]; exact h2) (fun p hp => hcol p (List.mem_cons_of_mem _ hp))
    obtain ⟨v, v1, v2, v3⟩ := hk.sqError_gain hne hc hb r hr (hrows _ (List.mem_cons_self ..)) (hM _ (List.mem_cons_self ..)) h0 h2
    have hleft : ∀ q, ∀ j ∈ List.range data.length,
        leftOver f.cfg (i :: is) ((v :: V).take (q + 1)) (fun j => (w.arrays.getD r []).getD j 0) j =
        leftOver f1.cfg is (V.take q) (fun j => (w1.arrays.getD r []).getD j 0) j := by
      intro q j hj
      unfold leftOver
      beta_reduce
      rw [List.take_succ_cons, List.zipWith_cons_cons, List.sum_cons, v2 j (List.mem_range.1 hj), c3]
      ring
    have hstep : ∀ q, sqError (List.range data.length)
        (leftOver f.cfg (i :: is) ((v :: V).take (q + 1)) (fun j => (w.arrays.getD r []).getD j 0)) (fun _ => 0) =
        sqError (List.range data.length) (leftOver f1.cfg is (V.take q) (fun j => (w1.arrays.getD r []).getD j 0)) (fun _ => 0) := by
      intro q
      unfold sqError
      congr 1
      apply List.map_congr_left
      intro j hj
      rw [hleft q j hj]
    refine ⟨v :: V, .cons v1 e1, ?_⟩
    intro q hq z
    cases q with
    | zero =>
      have h3 := v3 c (hcol _ (List.mem_cons_self ..)) z
      have a1 : sqError (List.range data.length) (leftOver f.cfg (i :: is) ((v :: V).take (0 + 1)) (fun j => (w.arrays.getD r []).getD j 0))
          (fun _ => 0) = sqError (List.range data.length) (fun j => (w.arrays.getD r []).getD j 0) (fun j => boostWeight f.cfg i * v j) := by
        unfold sqError leftOver
        simp
      have a2 : leftOver f.cfg (i :: is) ((v :: V).take 0) (fun j => (w.arrays.getD r []).getD j 0) =
          fun j => (w.arrays.getD r []).getD j 0 := by
        funext j
        unfold leftOver
        simp
      rw [a1, a2]
      exact h3
    | succ q =>
      have h3 := e2 q (by simpa using hq) z
      have a1 : (List.range data.length).map (fun j => ((data.getD j []).getD c 0,
          leftOver f.cfg (i :: is) ((v :: V).take (q + 1)) (fun j => (w.arrays.getD r []).getD j 0) j)) =
          (List.range data.length).map (fun j => ((data.getD j []).getD c 0,
          leftOver f1.cfg is (V.take q) (fun j => (w1.arrays.getD r []).getD j 0) j)) := by
        apply List.map_congr_left
        intro j hj
        rw [hleft q j hj]
      rw [hstep, hstep, a1, List.map_congr_left (hleft q), List.getD_cons_succ, ← c3]
      exact h3

end

/-- Settings with which every boosted tree may make its first split wherever it pays, on `n` training rows. -/
structure Progressing (cfg : ForestCfg K) (n : Nat) : Prop where
  solver : cfg.solver = .exact
  bins : cfg.binType = some .identity
  reg : cfg.isCls = false
  boosting : cfg.boosting = true
  bootstrap : cfg.bootstrap = false
  alphaN : cfg.alphaN = 1
  alphaF : cfg.alphaF = 1
  features : cfg.featSub = .none
  decrease : cfg.minImpDec = 0
  depth : cfg.maxDepth = .inf ∨ ∃ d, cfg.maxDepth = .some d ∧ 0 < d
  size : cfg.minSamplesSplit < n
  leaves : cfg.maxLeafNodes ≠ some 1

section

variable (R : Rng K G) (mem : Nat → Nat → Junk K)

/-- C155. A boosted regression forest with the exact solver, a threshold at every value, no sampling, no budget and no limit that forbids
the first split: one more tree lowers the squared error on the training rows by at least the share `lr · (2 - lr)` of what any one split
of the training rows, of any column at any threshold, would take away from the squares of what the trees before have left over. -/
theorem C155_boosting (cfg : ForestCfg K) (f f' : Forest K G) (hobj : ForestObj R cfg none f) (w w' : World K G)
    (data : Option (List (List K))) (labels : Option Nat) (hf : Forest.fit R mem f w data labels = .ok (f', w'))
    (hp : Progressing cfg (trainData f data).length) (lr : K) (hlr : cfg.boostingLr = some lr) (h0 : 0 ≤ lr) (h2 : lr ≤ 2) (r : Nat)
    (hr : labels.or f.newRef = some r) (k : Nat) (hk : 1 ≤ k) (hkn : k < cfg.nEstimators) (c : Nat)
    (hcol : c < ((trainData f data).getD 0 []).length) :
    ∃ u v : Nat → K,
      (∀ j < (trainData f data).length, ∃ g, (firstTrees f' k).predict ((trainData f data).getD j []) = .ok (.reg (u j), g)) ∧
      (∀ j < (trainData f data).length, ∃ g, (firstTrees f' (k + 1)).predict ((trainData f data).getD j []) = .ok (.reg (v j), g)) ∧
      ∀ z : K,
        sqError (List.range (trainData f data).length) (fun j => (w.arrays.getD r []).getD j 0) v ≤
          sqError (List.range (trainData f data).length) (fun j => (w.arrays.getD r []).getD j 0) u +
          lr * (2 - lr) * (((trainData f data).length : K) * (change variance ((List.range (trainData f data).length).map
            (fun j => (((trainData f data).getD j []).getD c 0, (w.arrays.getD r []).getD j 0 - u j))) z -
            mean ((List.range (trainData f data).length).map (fun j => (w.arrays.getD r []).getD j 0 - u j)) ^ 2)) := by
  obtain ⟨dat, f0, w0, hs, hl⟩ := Forest_fit_start hf
  obtain ⟨l, hrun⟩ := forestLoop_run hl
  have hdat := hs.dat_eq
  rw [← hdat] at hp hcol ⊢
  have htr : f'.trees = l.map Prod.snd := by rw [hrun.trees, hs.eq]; rfl
  have hcf := hobj.facts.1
  have hcfg0 : f0.cfg = f.cfg := by rw [hs.eq]
  have hcfg' : f'.cfg = f.cfg := (Forest_fit_same hf).1
  have hc : f.cfg.isCls = false := by rw [hcf]; exact hp.reg
  have hb : f.cfg.boosting = true := by rw [hcf]; exact hp.boosting
  have hlrf : f.cfg.boostingLr = some lr := by rw [hcf]; exact hlr
  have hest : f.cfg.nEstimators = cfg.nEstimators := by rw [hcf]
  have hrem : f.remaining = none := hobj.facts.2.1 rfl
  have hnum : f'.trees.length = cfg.nEstimators := by rw [(Forest_fit_accounting hf).2.2.2 hrem, hest]
  have hrem0 : f0.remaining = none := by rw [hs.eq]; exact hrem
  obtain ⟨_, e2, e3⟩ := hs.reg hc
  have hlr' : f0.cfg.boostingLr.getD 0 = lr := by rw [hcfg0, hlrf]; rfl
  have hset : SetsOnly f'.discrete := (ForestObj.facts2 (.fit hobj hf)).1
  have hmm : f0.minmax = if cfg.precompMinmax then some (colMinMax dat (dat.getD 0 []).length) else none := by
    rw [hs.eq]
    have h3 := hobj.facts2.2.1
    have e : f.cfg.precompMinmax = cfg.precompMinmax := by rw [hcf]
    rw [e] at h3
    simp only [e]
    cases hp : cfg.precompMinmax with
    | true => rfl
    | false => simpa [hp] using h3 hp
  have hfacts : ∀ p ∈ l, p.1.args.rows = List.range dat.length ∧ p.1.args.cols = List.range (dat.getD 0 []).length ∧ MayStart p.1.args := by
    intro p hpl
    obtain ⟨q, hq⟩ := List.mem_iff_getElem?.1 hpl
    obtain ⟨i, _, hm⟩ := hrun.made q p.1 p.2 hq
    obtain ⟨rows0, rows, cols, g, g1, g2, d1, d2, d3, d4⟩ := hm.draw
    rw [hcfg0, hcf] at d1 d2
    have hsub : rows0 = List.range dat.length ∧ cols = List.range (dat.getD 0 []).length := by
      unfold subsets at d1
      rw [if_neg (by simp only [hp.alphaN, hp.alphaF]; simp)] at d1
      simp only [Except.ok.injEq, Prod.mk.injEq] at d1
      exact ⟨d1.1.symm, d1.2.1.symm⟩
    have hrows : rows = rows0 := by
      unfold bootstrapIdcs at d2
      simp only [hp.bootstrap] at d2
      cases d2
      rfl
    have hArows : p.1.args.rows = List.range dat.length := by
      unfold TreeArgs.rows
      rw [d3, hrows, hsub.1]
      rfl
    have hAcols : p.1.args.cols = List.range (dat.getD 0 []).length := by
      unfold TreeArgs.cols
      rw [d4, hsub.2]
      rfl
    have hmcfg : p.1.args.cfg = f0.treeCfg := hm.cfg
    have hce : f0.cfg = _ := hcfg0.trans hcf
    have hbin : p.1.args.cfg.binType = some .identity := by rw [hmcfg]; show f0.cfg.binType = _; rw [hce]; exact hp.bins
    refine ⟨hArows, hAcols, {
      args := ⟨?_, ?_, ?_, ?_, ?_⟩
      solver := by rw [hmcfg]; show f0.cfg.solver = _; rw [hce]; exact hp.solver
      bins := hbin
      reg := by rw [hmcfg]; show f0.cfg.isCls = _; rw [hce]; exact hp.reg
      decrease := by rw [hmcfg]; show f0.cfg.minImpDec = _; rw [hce]; exact hp.decrease
      features := by rw [hmcfg]; show f0.cfg.featSub = _; rw [hce]; exact hp.features
      budget := hm.budget hrem0
      depth := by rw [hmcfg]; show f0.cfg.maxDepth = _ ∨ ∃ d, f0.cfg.maxDepth = _ ∧ _; rw [hce]; exact hp.depth
      size := by rw [hmcfg, hArows, List.length_range]; show f0.cfg.minSamplesSplit < _; rw [hce]; exact hp.size
      leaves := by rw [hmcfg]; show f0.cfg.maxLeafNodes ≠ _; rw [hce]; exact hp.leaves }⟩
    · rw [hmcfg]
      unfold Forest.treeCfg CritFits
      simp only []
      cases f0.cfg.isCls <;> simp
    · intro mins maxs hm' q lo hi hlo hhi
      rw [hmcfg] at hm'
      change f0.minmax = _ at hm'
      rw [hmm] at hm'
      split_ifs at hm'
      exact (colMinMax_le hs.ne (Option.some.inj hm') q hlo hhi).1
    · intro q u hu hset'
      rw [hm.disc] at hu
      have e : f'.discrete = f0.discrete := by rw [hrun.same]
      rw [← e] at hu
      rw [hset q u hu] at hset'
      cases hset'
    · intro hlin
      rw [hbin] at hlin
      cases hlin
    · intro hnone
      rw [hbin] at hnone
      cases hnone
  obtain ⟨V, h3, h4⟩ := hrun.sqError_gain hs.ne (by rw [hcfg0]; exact hc) (by rw [hcfg0]; exact hb) r (by rw [e2]; exact hr)
    (fun p hp => by rw [(hfacts p hp).1]) (fun p hp => (hfacts p hp).2.2) (by rw [hlr']; exact h0) (by rw [hlr']; exact h2) c
    (fun p hp => by rw [(hfacts p hp).2.1]; exact List.mem_range.2 hcol)
  rw [hcfg0, e3] at h4
  have hVlen : V.length = f'.trees.length := by rw [htr, List.length_map, h3.length_eq]
  have hans : ∀ j < dat.length, List.Forall₂ (fun (t : Tree K G) v => (t.predict (dat.getD j [])).map Prod.fst = .ok (.reg v)) f'.trees
      (V.map (fun v => v j)) := by
    intro j hj
    rw [htr, List.forall₂_map_left_iff, List.forall₂_map_right_iff]
    exact h3.imp (fun p v h => h j hj)
  have hpre : ∀ q, 1 ≤ q → q ≤ f'.trees.length → ∀ j,
      boostSum lr ((V.map (fun v => v j)).take q) =
        (List.zipWith (fun i v => boostWeight f.cfg i * v j) (List.range f.cfg.nEstimators) (V.take q)).sum := by
    intro q hq1 hq2 j
    cases V with
    | nil =>
      simp only [List.length_nil] at hVlen
      omega
    | cons v0 V =>
      obtain ⟨q, rfl⟩ : ∃ q', q = q' + 1 := ⟨q - 1, by omega⟩
      rw [List.length_cons] at hVlen
      rw [List.map_cons, List.take_succ_cons, List.take_succ_cons, boostSum_eq]
      have := boostWeight_sum f.cfg f.cfg.nEstimators (v0 j) ((V.take q).map (fun v => v j)) (by
        rw [List.length_map, List.length_take]; omega)
      rw [hlrf] at this
      rw [← List.map_cons (f := fun v : Nat → K => v j), List.zipWith_map_right] at this
      rw [this, List.map_take]
      rfl
  have hres : ∀ q, 1 ≤ q → q ≤ f'.trees.length → ∀ j,
      leftOver f.cfg (List.range f.cfg.nEstimators) (V.take q) (fun j => (w.arrays.getD r []).getD j 0) j =
        (w.arrays.getD r []).getD j 0 - boostSum lr ((V.map (fun v => v j)).take q) := by
    intro q hq1 hq2 j
    unfold leftOver
    rw [hpre q hq1 hq2 j]
  have hbase : ∀ q, 1 ≤ q → q ≤ f'.trees.length →
      sqError (List.range dat.length) (fun j => (w.arrays.getD r []).getD j 0) (fun j => boostSum lr ((V.map (fun v => v j)).take q)) =
      sqError (List.range dat.length) (leftOver f.cfg (List.range f.cfg.nEstimators) (V.take q) (fun j => (w.arrays.getD r []).getD j 0))
        (fun _ => 0) := by
    intro q hq1 hq2
    unfold sqError
    congr 1
    apply List.map_congr_left
    intro j _
    beta_reduce
    rw [hres q hq1 hq2 j, sub_zero]
  have hpred : ∀ q, 1 ≤ q → q ≤ f'.trees.length → ∀ j < dat.length, ∃ g,
      (firstTrees f' q).predict (dat.getD j []) = .ok (.reg (boostSum lr ((V.map (fun v => v j)).take q)), g) := by
    intro q hq1 hq2 j hj
    have hne : (V.map (fun v => v j)).take q ≠ [] := by
      intro h0
      have := congrArg List.length h0
      rw [List.length_take, List.length_map] at this
      simp only [List.length_nil] at this
      omega
    have := firstTrees_predict (by rw [hcfg']; exact hc) (by rw [hcfg']; exact hb) (hans j hj) q hne
    rw [hcfg', hlrf] at this
    exact this
  refine ⟨_, _, hpred k hk (by omega), hpred (k + 1) (by omega) (by omega), fun z => ?_⟩
  rw [hbase k hk (by omega), hbase (k + 1) (by omega) (by omega)]
  have h5 := h4 k (by omega) z
  have h6 : (List.range f.cfg.nEstimators).getD k 0 = k := by
    rw [List.getD_eq_getElem _ _ (by rw [List.length_range]; omega), List.getElem_range]
  have h7 : boostWeight f.cfg k = lr := by
    unfold boostWeight
    rw [if_neg (by omega), hlrf]
    rfl
  rw [h6, h7] at h5
  have h9 : leftOver f.cfg (List.range f.cfg.nEstimators) (V.take k) (fun j => (w.arrays.getD r []).getD j 0) =
      fun j => (w.arrays.getD r []).getD j 0 - boostSum lr ((V.map (fun v => v j)).take k) := by
    funext j
    rw [hres k hk (by omega) j]
  rw [h9] at h5
  rw [h9]
  exact h5

theorem firstAnswers_unique {f : Forest K G} {k n : Nat} {rows : List (List K)} {u u' : Nat → K}
    (h : ∀ j < n, ∃ g, (firstTrees f k).predict (rows.getD j []) = .ok (.reg (u j), g))
    (h' : ∀ j < n, ∃ g, (firstTrees f k).predict (rows.getD j []) = .ok (.reg (u' j), g)) : ∀ j < n, u j = u' j := by
  intro j hj
  obtain ⟨_, e1⟩ := h j hj
  obtain ⟨_, e2⟩ := h' j hj
  rw [e1] at e2
  injection e2 with e3
  injection e3 with e4
  injection e4

/-- The squares of what is left over, by their mean and their variance. -/
theorem sqError_parts (l : List Nat) (y u : Nat → K) :
    sqError l y u = (l.length : K) * variance (l.map (fun j => y j - u j)) + (l.length : K) * mean (l.map (fun j => y j - u j)) ^ 2 := by
  have h1 := sqError_mean_eq l (fun j => y j - u j)
  have h2 := sqError_mean_zero l (fun j => y j - u j)
  have h3 : sqError l (fun j => y j - u j) (fun _ => 0) = sqError l y u := by
    unfold sqError
    simp
  rw [← h1, h2, h3]
  ring

/-- C155: if one more tree does not lower the error, although the learning rate is strictly between 0 and 2, then what is left over has
mean 0, and no split of the training rows, of any column at any threshold, would take anything away from its variance. -/
theorem C155_stuck (cfg : ForestCfg K) (f f' : Forest K G) (hobj : ForestObj R cfg none f) (w w' : World K G)
    (data : Option (List (List K))) (labels : Option Nat) (hf : Forest.fit R mem f w data labels = .ok (f', w'))
    (hp : Progressing cfg (trainData f data).length) (lr : K) (hlr : cfg.boostingLr = some lr) (h0 : 0 < lr) (h2 : lr < 2) (r : Nat)
    (hr : labels.or f.newRef = some r) (k : Nat) (hk : 1 ≤ k) (hkn : k < cfg.nEstimators) (u v : Nat → K)
    (hu : ∀ j < (trainData f data).length, ∃ g, (firstTrees f' k).predict ((trainData f data).getD j []) = .ok (.reg (u j), g))
    (hv : ∀ j < (trainData f data).length, ∃ g, (firstTrees f' (k + 1)).predict ((trainData f data).getD j []) = .ok (.reg (v j), g))
    (hstuck : ¬ sqError (List.range (trainData f data).length) (fun j => (w.arrays.getD r []).getD j 0) v <
      sqError (List.range (trainData f data).length) (fun j => (w.arrays.getD r []).getD j 0) u) (c : Nat)
    (hcol : c < ((trainData f data).getD 0 []).length) :
    mean ((List.range (trainData f data).length).map (fun j => (w.arrays.getD r []).getD j 0 - u j)) = 0 ∧
      ∀ z : K, change variance ((List.range (trainData f data).length).map
        (fun j => (((trainData f data).getD j []).getD c 0, (w.arrays.getD r []).getD j 0 - u j))) z = 0 := by
  obtain ⟨u', v', a1, a2, a3⟩ := C155_boosting R mem cfg f f' hobj w w' data labels hf hp lr hlr h0.le h2.le r hr k hk hkn c hcol
  have eu := firstAnswers_unique hu a1
  have ev := firstAnswers_unique hv a2
  have hu' : (List.range (trainData f data).length).map (fun j => (w.arrays.getD r []).getD j 0 - u' j) =
      (List.range (trainData f data).length).map (fun j => (w.arrays.getD r []).getD j 0 - u j) :=
    List.map_congr_left (fun j hj => by rw [eu j (List.mem_range.1 hj)])
  have hs' : (List.range (trainData f data).length).map (fun j => (((trainData f data).getD j []).getD c 0, (w.arrays.getD r []).getD j 0 - u' j)) =
      (List.range (trainData f data).length).map (fun j => (((trainData f data).getD j []).getD c 0, (w.arrays.getD r []).getD j 0 - u j)) :=
    List.map_congr_left (fun j hj => by rw [eu j (List.mem_range.1 hj)])
  rw [hu', hs', ← sqError_congr (fun j hj => eu j (List.mem_range.1 hj)), ← sqError_congr (fun j hj => ev j (List.mem_range.1 hj))] at a3
  have hL : 0 < lr * (2 - lr) := mul_pos h0 (by linarith)
  have hn : (0 : K) < ((trainData f data).length : K) := by
    have : 0 < (trainData f data).length := lt_of_le_of_lt (Nat.zero_le _) hp.size
    exact_mod_cast this
  set m := mean ((List.range (trainData f data).length).map (fun j => (w.arrays.getD r []).getD j 0 - u j))
  have key : ∀ z, m ^ 2 ≤ change variance ((List.range (trainData f data).length).map
      (fun j => (((trainData f data).getD j []).getD c 0, (w.arrays.getD r []).getD j 0 - u j))) z := by
    intro z
    by_contra hcon
    have h3 := a3 z
    have h4 := mul_pos hL (mul_pos hn (sub_pos.2 (not_le.1 hcon)))
    apply hstuck
    refine lt_of_le_of_lt h3 ?_
    nlinarith
  have hneg : ∀ z, change variance ((List.range (trainData f data).length).map
      (fun j => (((trainData f data).getD j []).getD c 0, (w.arrays.getD r []).getD j 0 - u j))) z ≤ 0 := by
    intro z
    have := variance_change_nonpos _ _ _ (labels_perm ((List.range (trainData f data).length).map
      (fun j => (((trainData f data).getD j []).getD c 0, (w.arrays.getD r []).getD j 0 - u j))) z)
    rw [List.length_map] at this
    exact this
  refine ⟨?_, fun z => le_antisymm (hneg z) (le_trans (sq_nonneg m) (key z))⟩
  have := le_antisymm (le_trans (key 0) (hneg 0)) (sq_nonneg m)
  exact pow_eq_zero_iff (two_ne_zero) |>.1 this

/-- Column `c` tells the rows apart: rows with the same value there are the same row, with the same target. -/
def TellsApart (data : List (List K)) (y : Nat → K) (c : Nat) : Prop :=
  ∀ i < data.length, ∀ j < data.length, (data.getD i []).getD c 0 = (data.getD j []).getD c 0 → data.getD i [] = data.getD j [] ∧ y i = y j

/-- C155: if one column tells the rows apart, one more tree takes away at least the share `lr · (2 - lr) / n²` of the error. -/
theorem C155_rate (cfg : ForestCfg K) (f f' : Forest K G) (hobj : ForestObj R cfg none f) (w w' : World K G)
    (data : Option (List (List K))) (labels : Option Nat) (hf : Forest.fit R mem f w data labels = .ok (f', w'))
    (hp : Progressing cfg (trainData f data).length) (lr : K) (hlr : cfg.boostingLr = some lr) (h0 : 0 ≤ lr) (h2 : lr ≤ 2) (r : Nat)
    (hr : labels.or f.newRef = some r) (k : Nat) (hk : 1 ≤ k) (hkn : k < cfg.nEstimators) (c : Nat)
    (hcol : c < ((trainData f data).getD 0 []).length) (hc : TellsApart (trainData f data) (fun j => (w.arrays.getD r []).getD j 0) c) :
    ∃ u v : Nat → K,
      (∀ j < (trainData f data).length, ∃ g, (firstTrees f' k).predict ((trainData f data).getD j []) = .ok (.reg (u j), g)) ∧
      (∀ j < (trainData f data).length, ∃ g, (firstTrees f' (k + 1)).predict ((trainData f data).getD j []) = .ok (.reg (v j), g)) ∧
      sqError (List.range (trainData f data).length) (fun j => (w.arrays.getD r []).getD j 0) v ≤
        (1 - lr * (2 - lr) / ((trainData f data).length : K) ^ 2) *
          sqError (List.range (trainData f data).length) (fun j => (w.arrays.getD r []).getD j 0) u := by
  obtain ⟨u, v, a1, a2, a3⟩ := C155_boosting R mem cfg f f' hobj w w' data labels hf hp lr hlr h0 h2 r hr k hk hkn c hcol
  refine ⟨u, v, a1, a2, ?_⟩
  have hpos : 0 < (trainData f data).length := lt_of_le_of_lt (Nat.zero_le _) hp.size
  generalize trainData f data = dat at *
  have hL : 0 ≤ lr * (2 - lr) := mul_nonneg h0 (by linarith)
  have hn : (1 : K) ≤ (dat.length : K) := by exact_mod_cast hpos
  have hparts := sqError_parts (List.range dat.length) (fun j => (w.arrays.getD r []).getD j 0) u
  rw [List.length_range] at hparts
  rcases hL.eq_or_lt with hz | hL
  · have := a3 0
    rw [← hz, zero_mul, add_zero] at this
    rw [← hz, zero_div, sub_zero, one_mul]
    exact this
  set S := (List.range dat.length).map (fun j => ((dat.getD j []).getD c 0, (w.arrays.getD r []).getD j 0 - u j)) with hS
  have hSl : S.length = dat.length := by rw [hS]; simp
  have hSne : S ≠ [] := by
    intro e
    rw [e] at hSl
    simp at hSl
    omega
  have hsnd : S.map Prod.snd = (List.range dat.length).map (fun j => (w.arrays.getD r []).getD j 0 - u j) := by
    rw [hS, List.map_map]
    rfl
  have hdet : Determines S := by
    intro s hs s' hs' e
    obtain ⟨i, hi, rfl⟩ := List.mem_map.1 hs
    obtain ⟨j, hj, rfl⟩ := List.mem_map.1 hs'
    have hi' := List.mem_range.1 hi
    have hj' := List.mem_range.1 hj
    obtain ⟨e1, e2⟩ := hc i hi' j hj' e
    obtain ⟨_, p1⟩ := a1 i hi'
    obtain ⟨_, p2⟩ := a1 j hj'
    rw [e1, p2] at p1
    injection p1 with p3
    injection p3 with p4
    injection p4 with p5
    beta_reduce at e2
    beta_reduce
    rw [e2, p5]
  set E := sqError (List.range dat.length) (fun j => (w.arrays.getD r []).getD j 0) u
  set E' := sqError (List.range dat.length) (fun j => (w.arrays.getD r []).getD j 0) v
  set m := mean ((List.range dat.length).map (fun j => (w.arrays.getD r []).getD j 0 - u j))
  have hgain := variance_le_gain hSne hdet (g := (E - E') / (lr * (2 - lr)) - (dat.length : K) * m ^ 2) (by
    intro z
    rw [hSl]
    have := a3 z
    rw [le_sub_iff_add_le, le_div_iff₀ hL]
    nlinarith)
  rw [hSl, hsnd] at hgain
  set V := variance ((List.range dat.length).map (fun j => (w.arrays.getD r []).getD j 0 - u j))
  set n := (dat.length : K)
  have hn0 : 0 < n := lt_of_lt_of_le one_pos hn
  have hm : n * m ^ 2 ≤ n ^ 2 * (n * m ^ 2) := by
    have : 0 ≤ n * m ^ 2 := by positivity
    have h1 : 1 ≤ n ^ 2 := one_le_pow₀ hn
    nlinarith
  have hE : E ≤ n ^ 2 * ((E - E') / (lr * (2 - lr))) := by
    rw [mul_sub] at hgain
    refine le_trans (le_of_eq hparts) ?_
    linarith
  have h5 : E * (lr * (2 - lr)) ≤ n ^ 2 * (E - E') := by
    have := mul_le_mul_of_nonneg_right hE hL.le
    rwa [mul_assoc, div_mul_cancel₀ _ hL.ne'] at this
  have h6 : E * (lr * (2 - lr)) / n ^ 2 ≤ E - E' := by
    rw [div_le_iff₀ (by positivity)]
    linarith
  have h7 : (1 - lr * (2 - lr) / n ^ 2) * E = E - E * (lr * (2 - lr)) / n ^ 2 := by ring
  rw [h7]
  linarith

/-- C155: if one column tells the rows apart, the error on the training rows falls geometrically with the number of trees. -/
theorem C155_converges (cfg : ForestCfg K) (f f' : Forest K G) (hobj : ForestObj R cfg none f) (w w' : World K G)
    (data : Option (List (List K))) (labels : Option Nat) (hf : Forest.fit R mem f w data labels = .ok (f', w'))
    (hp : Progressing cfg (trainData f data).length) (lr : K) (hlr : cfg.boostingLr = some lr) (h0 : 0 ≤ lr) (h2 : lr ≤ 2) (r : Nat)
    (hr : labels.or f.newRef = some r) (c : Nat)
    (hcol : c < ((trainData f data).getD 0 []).length) (hc : TellsApart (trainData f data) (fun j => (w.arrays.getD r []).getD j 0) c)
    (d : Nat) (hd : d < cfg.nEstimators) :
    ∃ u v : Nat → K,
      (∀ j < (trainData f data).length, ∃ g, (firstTrees f' 1).predict ((trainData f data).getD j []) = .ok (.reg (u j), g)) ∧
      (∀ j < (trainData f data).length, ∃ g, (firstTrees f' (d + 1)).predict ((trainData f data).getD j []) = .ok (.reg (v j), g)) ∧
      sqError (List.range (trainData f data).length) (fun j => (w.arrays.getD r []).getD j 0) v ≤
        (1 - lr * (2 - lr) / ((trainData f data).length : K) ^ 2) ^ d *
          sqError (List.range (trainData f data).length) (fun j => (w.arrays.getD r []).getD j 0) u := by
  induction d with
  | zero =>
    have hcf := hobj.facts.1
    have hnum : f'.trees.length = cfg.nEstimators := by
      rw [(Forest_fit_accounting hf).2.2.2 (hobj.facts.2.1 rfl), hcf]
    obtain ⟨u, v, b1, b2, b3⟩ := C94_training_error R mem f f' w w' data labels hf (by rw [hcf]; exact hp.reg) (by rw [hcf]; exact hp.boosting)
      lr (by rw [hcf]; exact hlr) h0 h2 (by rw [hcf]; exact hp.bootstrap) (by rw [hcf]; exact hp.alphaN)
      (by rw [hcf]; exact hp.alphaF.le) r hr 1 1 le_rfl le_rfl (by omega)
    refine ⟨u, v, b1, b2, ?_⟩
    rw [pow_zero, one_mul]
    exact b3
  | succ d ih =>
    obtain ⟨u, v, b1, b2, b3⟩ := ih (by omega)
    obtain ⟨v', x, c1, c2, c3⟩ := C155_rate R mem cfg f f' hobj w w' data labels hf hp lr hlr h0 h2 r hr (d + 1) (by omega) hd c hcol hc
    refine ⟨u, x, b1, c2, ?_⟩
    have e := firstAnswers_unique b2 c1
    rw [← sqError_congr (fun j hj => e j (List.mem_range.1 hj))] at c3
    have hpos : 0 < (trainData f data).length := lt_of_le_of_lt (Nat.zero_le _) hp.size
    have hn : (1 : K) ≤ ((trainData f data).length : K) := by exact_mod_cast hpos
    have hq : 0 ≤ 1 - lr * (2 - lr) / ((trainData f data).length : K) ^ 2 := by
      rw [sub_nonneg, div_le_one (by positivity)]
      have : 1 ≤ ((trainData f data).length : K) ^ 2 := one_le_pow₀ hn
      nlinarith [sq_nonneg (lr - 1)]
    refine le_trans c3 (le_trans (mul_le_mul_of_nonneg_left b3 hq) (le_of_eq ?_))
    rw [pow_succ]
    ring

end

/-! ### Examples -/

/-- Four boosted trees with a single split each. -/
def fcfgStumps : ForestCfg ℚ := { fcfgBoost with nEstimators := 4, maxDepth := .some 1 }

theorem fcfgStumps_progressing : Progressing fcfgStumps exData.length where
  solver := rfl
  bins := rfl
  reg := rfl
  boosting := rfl
  bootstrap := rfl
  alphaN := rfl
  alphaF := rfl
  features := rfl
  decrease := rfl
  depth := Or.inr ⟨1, rfl, one_pos⟩
  size := by decide
  leaves := by decide

instance (data : List (List ℚ)) (y : Nat → ℚ) (c : Nat) : Decidable (TellsApart data y c) := by
  unfold TellsApart
  infer_instance

/-- The settings meet the hypotheses, both columns tell the rows apart, and the errors on the training rows fall with every tree. -/
example : Progressing fcfgStumps exData.length ∧ fcfgStumps.boostingLr = some (1 / 2) ∧
    TellsApart exData (fun j => (exWorldReg.arrays.getD 0 []).getD j 0) 0 ∧ TellsApart exData (fun j => (exWorldReg.arrays.getD 0 []).getD j 0) 1 ∧
    (boostErrors fcfgStumps == some [67 / 2, 53 / 4, 131 / 16, 1655 / 256]) = true :=
  ⟨fcfgStumps_progressing, rfl, by decide +kernel, by decide +kernel, by decide +kernel⟩

/-- Without the limits in the hypotheses boosting can stop early: with a positive demand on the decrease (a negative number here) the third
tree is a single leaf, although the third tree of `fcfgStumps` still took away more than a third of the error. -/
theorem C155_refuted_decrease : (boostErrors { fcfgStumps with minImpDec := -2 } == some [67 / 2, 53 / 4, 53 / 4, 53 / 4]) = true := by
  decide +kernel

/-- With a node size that forbids the first split nothing is learnt after the mean. -/
theorem C155_refuted_size : (boostErrors { fcfgStumps with minSamplesSplit := 6 } == some [1001 / 6, 1001 / 6, 1001 / 6, 1001 / 6]) = true := by
  decide +kernel

end FF
