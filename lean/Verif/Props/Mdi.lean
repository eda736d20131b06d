import Verif.Proofs.Mdi
import Verif.Props.Tree2
import Verif.Props.ForestEx

/-!
# Importances from recorded reductions (C57, C58)

`f'` is a forest as `fit` left it, on a forest `f` with any history; `f1` is that forest after any number of predictions, out-of-bag
scores and importances.
-/

namespace FF

open Spec

set_option linter.unusedSectionVars false

variable {K : Type} [Field K] [LinearOrder K] [IsStrictOrderedRing K] [FloorRing K] [NpFun K] {G : Type}
variable (R : Rng K G) (mem : Nat → Nat → Junk K)

/-- The reductions recorded by the performed splits on feature `j` (the nodes of the tree that have children). -/
def splitReductions (t : Tree K G) (j : Nat) : List (XF K) :=
  (t.nodes.filter (fun nd => nd.left.isSome && decide (nd.splitFeature = some j))).filterMap Node.splitReduction

/-- The reductions recorded by all nodes whose best split is on feature `j`, performed or not. -/
def allReductions (t : Tree K G) (j : Nat) : List (XF K) :=
  (t.nodes.filter (fun nd => decide (nd.splitFeature = some j))).filterMap Node.splitReduction

theorem allReductions_eq (t : Tree K G) (j : Nat) : allReductions t j = t.nodes.filterMap (redAt j) := by
  unfold allReductions
  rw [List.filterMap_filter]
  apply List.filterMap_congr
  intro nd _
  unfold redAt
  by_cases h : nd.splitFeature = some j <;> simp [h]

/-- The trees of a fitted forest, later on. -/
theorem fitted_keys {f f' f1 : Forest K G} {w w' : World K G} {data : Option (List (List K))} {labels : Option Nat}
    (hf : Forest.fit R mem f w data labels = .ok (f', w')) (ha : AfterReads f' f1) :
    List.Forall₂ (fun (a b : Tree K G) => a.nodes.map mdiKey = b.nodes.map mdiKey) f1.trees f'.trees := by
  obtain ⟨ms, _, _, h⟩ := Forest_fit_made hf
  obtain ⟨ts, m, rfl, h1, _⟩ := ha.same
  rw [List.forall₂_iff_get] at h1 ⊢
  refine ⟨h1.1.symm, ?_⟩
  intro i hi1 hi2
  have h2 := h1.2 i hi2 hi1
  obtain ⟨m, _, hm, _⟩ := h i _ (List.getElem?_eq_getElem hi2)
  obtain ⟨dd, t0, hg⟩ := hm.fitted.facts
  have e1 := (hm.after.cache hg.cache).key
  have e2 := ((hm.after.trans h2).cache hg.cache).key
  exact e2.trans e1.symm

theorem Linked.congr {n1 n2 : List (Node K)} (h : n1.map mdiKey = n2.map mdiKey) (h2 : Linked n2) : Linked n1 := by
  have hlen : n1.length = n2.length := by simpa using congrArg List.length h
  have key : ∀ (i : Nat) (a : Node K), n1[i]? = some a → ∃ b, n2[i]? = some b ∧ b.left = a.left ∧ b.right = a.right := by
    intro i a ha
    have hk : (n1[i]?).map mdiKey = (n2[i]?).map mdiKey := by rw [← List.getElem?_map, ← List.getElem?_map, h]
    rw [ha] at hk
    cases hb : n2[i]? with
    | none => rw [hb] at hk; cases hk
    | some b =>
      rw [hb] at hk
      simp only [Option.map_some, Option.some.injEq, mdiKey, Prod.mk.injEq] at hk
      exact ⟨b, rfl, hk.1.symm, hk.2.1.symm⟩
  have key' : ∀ (i : Nat) (b : Node K), n2[i]? = some b → ∃ a, n1[i]? = some a ∧ b.left = a.left ∧ b.right = a.right := by
    intro i b hb
    have hi := (List.getElem?_eq_some_iff.1 hb).1
    have ha := List.getElem?_eq_getElem (show i < n1.length by omega)
    obtain ⟨b', h1, h2⟩ := key i _ ha
    rw [hb] at h1
    obtain rfl := Option.some.inj h1
    exact ⟨_, ha, h2⟩
  refine ⟨?_, ?_, ?_⟩
  · intro id nd hn
    obtain ⟨b, hb, e1, e2⟩ := key id nd hn
    rw [← e1, ← e2, hlen]
    exact h2.links id b hb
  · intro id h0 hid
    obtain ⟨p, b, a1, a2, a3⟩ := h2.parents id h0 (by omega)
    obtain ⟨a, c1, c2, c3⟩ := key' p b a2
    exact ⟨p, a, a1, c1, by rw [← c2, ← c3]; exact a3⟩
  · intro p q np nq c hp hq h3 h4
    obtain ⟨bp, e1, e2, e3⟩ := key p np hp
    obtain ⟨bq, e4, e5, e6⟩ := key q nq hq
    exact h2.uniq p q bp bq c e1 e4 (by rw [e2, e3]; exact h3) (by rw [e5, e6]; exact h4)

/-- The nodes of a tree of the forest are those of the tree right after its own `fit`. -/
theorem TreeMade.key {data : List (List K)} {F i : Nat} {f : Forest K G} {m : Made K G} {t : Tree K G}
    (h : TreeMade R mem data F f i m t) : t.nodes.map mdiKey = m.tree.nodes.map mdiKey := by
  obtain ⟨dd, t0, hg⟩ := h.fitted.facts
  exact (h.after.cache hg.cache).key

theorem TreeMade.linked {data : List (List K)} {F i : Nat} {f : Forest K G} {m : Made K G} {t : Tree K G}
    (h : TreeMade R mem data F f i m t) : Linked t.nodes := by
  obtain ⟨dd, t0, hg⟩ := h.fitted.facts
  exact Linked.congr h.key hg.shape.linked

theorem node_of_key {n1 n2 : List (Node K)} (h : n1.map mdiKey = n2.map mdiKey) {i : Nat} {a : Node K} (ha : n1[i]? = some a) :
    ∃ b, n2[i]? = some b ∧ mdiKey b = mdiKey a := by
  have hk : (n1[i]?).map mdiKey = (n2[i]?).map mdiKey := by rw [← List.getElem?_map, ← List.getElem?_map, h]
  rw [ha] at hk
  cases hb : n2[i]? with
  | none => rw [hb] at hk; cases hk
  | some b =>
    rw [hb] at hk
    exact ⟨b, rfl, (Option.some.inj hk).symm⟩

theorem allReductions_neg {data : List (List K)} {F i : Nat} {f : Forest K G} {m : Made K G} {t : Tree K G}
    (h : TreeMade R mem data F f i m t) (j : Nat) : ∀ a ∈ allReductions t j, a.lt (.fin 0) = true := by
  intro a ha
  unfold allReductions at ha
  rw [List.mem_filterMap] at ha
  obtain ⟨nd, hnd, hr⟩ := ha
  obtain ⟨id, hid⟩ := List.mem_iff_getElem?.1 (List.mem_filter.1 hnd).1
  obtain ⟨b, hb, hk⟩ := node_of_key h.key hid
  obtain ⟨dd, t0, hg⟩ := h.fitted.facts
  simp only [mdiKey, Prod.mk.injEq] at hk
  exact (hg.red_neg hb (hk.2.2.2.trans hr)).2

theorem Forest_fit_data {f f' : Forest K G} {w w' : World K G} {data : Option (List (List K))} {labels : Option Nat}
    (h : Forest.fit R mem f w data labels = .ok (f', w')) : f'.data = some (trainData f data) := by
  obtain ⟨dat, f0, w0, hs, hl⟩ := Forest_fit_start h
  obtain ⟨l, hr⟩ := forestLoop_run hl
  rw [hr.same, hs.eq, hs.dat_eq]

theorem calculateMdi_eq {f : Forest K G} {row : List K} {rows : List (List K)} (h1 : f.mdi = none) (h2 : f.data = some (row :: rows)) :
    f.calculateMdi.map Prod.fst = mdiLoop f.trees (List.replicate row.length (.fin 0)) := by
  unfold Forest.calculateMdi
  rw [h1, h2]
  simp only []
  split <;> (rename_i h; rw [h]; rfl)

/-! ### C57 -/

/-- C57. The importances, computed for the first time after `fit`: one number per column, and entry `j` is the sum over all trees of the
recorded reductions of all nodes whose best split is on feature `j`; it is at most 0 (and not NaN). -/
theorem C57_value (f f' f1 f2 : Forest K G) (w w' : World K G) (data : Option (List (List K))) (labels : Option Nat)
    (hf : Forest.fit R mem f w data labels = .ok (f', w')) (ha : AfterReads f' f1) (hm : f1.mdi = none) (a : List (XF K))
    (hc : f1.calculateMdi = .ok (a, f2)) :
    a.length = ((trainData f data).getD 0 []).length ∧ ∀ (j : Nat) (x : XF K), a[j]? = some x →
      x = XF.sum (f'.trees.flatMap (fun (t : Tree K G) => allReductions t j)) ∧ (x = .fin 0 ∨ x.lt (.fin 0) = true) := by
  obtain ⟨ms, _, hne, hmade⟩ := Forest_fit_made hf
  have hd : f1.data = some (trainData f data) := by
    have h0 := Forest_fit_data R mem hf
    obtain ⟨ts, m, rfl, _⟩ := ha.same
    exact h0
  obtain ⟨row, rows, hrow⟩ := List.exists_cons_of_ne_nil hne
  rw [hrow] at hd ⊢
  have h1 := calculateMdi_eq hm hd
  rw [hc, mdiLoop_congr (fitted_keys R mem hf ha)] at h1
  have hl : ∀ t ∈ f'.trees, Linked t.nodes := by
    intro t ht
    obtain ⟨i, hi⟩ := List.mem_iff_getElem?.1 ht
    obtain ⟨m, _, hm, _⟩ := hmade i t hi
    exact hm.linked
  obtain ⟨h2, h3⟩ := mdiLoop_ok hl h1.symm
  rw [List.length_replicate] at h2
  refine ⟨h2, ?_⟩
  intro j x hx
  have hj : j < row.length := by
    have := (List.getElem?_eq_some_iff.1 hx).1
    simp only [] at this h2
    omega
  have h4 := h3 j (.fin 0) (by rw [List.getElem?_replicate, if_pos hj])
  rw [XF.zero_add'] at h4
  have h5 : x = XF.sum (f'.trees.flatMap (fun (t : Tree K G) => allReductions t j)) := by
    have h6 : (fun (t : Tree K G) => allReductions t j) = (fun (t : Tree K G) => t.nodes.filterMap (redAt j)) :=
      funext (fun t => allReductions_eq t j)
    rw [h6]
    exact Option.some.inj (hx.symm.trans h4)
  refine ⟨h5, ?_⟩
  rw [h5]
  apply XF.sum_neg
  intro b hb
  obtain ⟨t, ht, hb⟩ := List.mem_flatMap.1 hb
  obtain ⟨i, hi⟩ := List.mem_iff_getElem?.1 ht
  obtain ⟨m, _, hm, _⟩ := hmade i t hi
  exact allReductions_neg R mem hm j b hb

/-- C57. `calculate_mdi` does not fail on a fitted forest (whose data has at least one column). -/
theorem C57_total (f f' f1 : Forest K G) (w w' : World K G) (data : Option (List (List K))) (labels : Option Nat)
    (hf : Forest.fit R mem f w data labels = .ok (f', w')) (ha : AfterReads f' f1) (hN : f.cfg.alphaN ≤ 1) (hF : f.cfg.alphaF ≤ 1)
    (hcol : (trainData f data).getD 0 [] ≠ []) : ∃ a f2, f1.calculateMdi = .ok (a, f2) := by
  rcases Option.eq_none_or_eq_some f1.mdi with hm | ⟨b, hm⟩
  swap
  · exact ⟨b, f1, by unfold Forest.calculateMdi; rw [hm]⟩
  obtain ⟨ms, _, hne, hmade⟩ := Forest_fit_made hf
  have hd : f1.data = some (trainData f data) := by
    have h0 := Forest_fit_data R mem hf
    obtain ⟨ts, m, rfl, _⟩ := ha.same
    exact h0
  obtain ⟨row, rows, hrow⟩ := List.exists_cons_of_ne_nil hne
  rw [hrow] at hd hcol hmade
  have h1 := calculateMdi_eq hm hd
  rw [mdiLoop_congr (fitted_keys R mem hf ha)] at h1
  obtain ⟨arr, h2⟩ : ∃ arr, mdiLoop f'.trees (List.replicate row.length (.fin 0)) = .ok arr := by
    apply mdiLoop_total
    · intro t ht
      obtain ⟨i, hi⟩ := List.mem_iff_getElem?.1 ht
      obtain ⟨m, _, hm, _⟩ := hmade i t hi
      refine ⟨hm.linked, ?_⟩
      obtain ⟨dd, t0, hg⟩ := hm.fitted.facts
      have h3 := hg.shape.numNodes
      have h4 := congrArg List.length hm.key
      rw [List.length_map, List.length_map, h3] at h4
      intro h0
      rw [h0] at h4
      simp at h4
    · intro t ht id nd hn hr
      obtain ⟨i, hi⟩ := List.mem_iff_getElem?.1 ht
      obtain ⟨m, _, hm, _⟩ := hmade i t hi
      obtain ⟨b, hb, hk⟩ := node_of_key hm.key hn
      obtain ⟨dd, t0, hg⟩ := hm.fitted.facts
      simp only [mdiKey, Prod.mk.injEq] at hk
      obtain ⟨red, hred⟩ := Option.ne_none_iff_exists'.1 hr
      have hcmp := (hg.red_neg hb (hk.2.2.2.trans hred)).1
      obtain ⟨s, _, h5, _⟩ := hg.says hb hcmp
      rw [← hk.2.2.1, List.length_replicate]
      cases s with
      | none => rw [h5.1] at hk; rw [hred] at hk; simp at hk
      | some s =>
        refine ⟨_, h5.2.2.2, ?_⟩
        by_cases hs : s.feat < b.featIdcs.length
        · rw [List.getD_eq_getElem _ _ hs]
          have h6 := (hg.nodes _ _ hb).feats_sub _ (List.getElem_mem hs)
          obtain ⟨rows0, rws, cols, g, g1, g2, d1, _, _, d4⟩ := hm.draw
          have hcfg := (Forest_fit_same hf).1
          have h7 := (subsets_ok (by rw [hcfg]; exact hN) (by rw [hcfg]; exact hF) d1).2.range
          have h8 : m.args.cols = cols := by unfold TreeArgs.cols; rw [d4]; rfl
          rw [h8] at h6
          exact h7 _ h6
        · rw [List.getD_eq_default _ _ (by omega)]
          exact List.length_pos_iff.2 hcol
  rw [h2] at h1
  cases h3 : f1.calculateMdi with
  | error e => rw [h3] at h1; cases h1
  | ok p => exact ⟨p.1, p.2, rfl⟩

/-- Without a leaf limit, a budget and a minimal decrease, only performed splits record a reduction. -/
theorem leaf_no_red {mem : Nat → Junk K} {A : TreeArgs K} {t : Tree K G} (h : Fitted R mem A t) (hb : A.budget = none)
    (hm : A.cfg.maxLeafNodes = none) (hmin : A.cfg.minImpDec = 0) {id : Nat} {nd : Node K} (hn : NodeAt t id nd) (hl : nd.left = none) :
    nd.splitReduction = none := by
  obtain ⟨dd, t0, hf⟩ := h.facts
  have hok := hf.nodes _ _ hn
  have hid : IsLeaf t id := (hf.shape.isLeaf id).1 ((hf.shape.leaves id).2 ⟨nd, hn, hl⟩)
  by_contra hcon
  obtain ⟨red, hred⟩ := Option.ne_none_iff_exists'.1 hcon
  obtain ⟨hc, hneg⟩ := hf.red_neg hn hred
  rcases leaf_done R mem A h hb (by rw [hm]; simp) id hid nd hn with h1 | ⟨_, r, q, _, h2, h3⟩
  · exact h1 (hf.canSplit_iff.1 (hok.solved hc).can)
  · cases r with
    | none => rw [h2.1] at hred; cases hred
    | some s =>
      have hne := (hok.solved hc).can.rows_ne
      have hlen := List.length_pos_iff.2 hne
      have hrows : 0 < A.rows.length := lt_of_lt_of_le hlen (hf.rows_sublist hn).length_le
      apply h3 s rfl
      rw [h2.1] at hred
      obtain rfl := Option.some.inj hred
      rw [hok.prop_eq (by omega)] at hneg
      have h5 : (0 : K) < nd.idcs.length := by exact_mod_cast hlen
      have h6 : (0 : K) < A.labels.length := by
        obtain ⟨i, is, hi⟩ := List.exists_cons_of_ne_nil hne
        have := hok.labels_lt i (by rw [hi]; simp)
        exact_mod_cast (by omega : 0 < A.labels.length)
      refine ⟨?_, by rw [hmin]; exact hneg⟩
      rw [hmin]
      exact XF.div_pos_neg (XF.mul_pos_neg hneg h5) h6

/-- C57, in part. For a forest without a leaf limit, a budget and a minimal decrease, the importance of feature `j` is the sum of the
recorded reductions over the performed splits on `j` in all trees. (In general leaves may have recorded a reduction too, see
`C57_refuted`.) -/
theorem C57_performed_partial (f f' f1 f2 : Forest K G) (w w' : World K G) (data : Option (List (List K))) (labels : Option Nat)
    (hf : Forest.fit R mem f w data labels = .ok (f', w')) (ha : AfterReads f' f1) (hm : f1.mdi = none) (a : List (XF K))
    (hc : f1.calculateMdi = .ok (a, f2)) (hleaf : f.cfg.maxLeafNodes = none) (hbud : f.remaining = none) (hmin : f.cfg.minImpDec = 0) :
    a.length = ((trainData f data).getD 0 []).length ∧ ∀ (j : Nat) (x : XF K), a[j]? = some x →
      x = XF.sum (f'.trees.flatMap (fun (t : Tree K G) => splitReductions t j)) := by
  obtain ⟨h1, h2⟩ := C57_value R mem f f' f1 f2 w w' data labels hf ha hm a hc
  refine ⟨h1, fun j x hx => ?_⟩
  rw [(h2 j x hx).1]
  congr 1
  rw [List.flatMap_def, List.flatMap_def]
  congr 1
  apply List.map_congr_left
  intro t ht
  obtain ⟨ms, _, _, hmade⟩ := Forest_fit_made hf
  obtain ⟨i, hi⟩ := List.mem_iff_getElem?.1 ht
  obtain ⟨m, _, hm, _⟩ := hmade i t hi
  unfold allReductions splitReductions
  rw [List.filterMap_filter, List.filterMap_filter]
  apply List.filterMap_congr
  intro nd hnd
  obtain ⟨id, hid⟩ := List.mem_iff_getElem?.1 hnd
  obtain ⟨b, hb, hk⟩ := node_of_key hm.key hid
  simp only [mdiKey, Prod.mk.injEq] at hk
  cases hl : nd.left with
  | some l => simp
  | none =>
    have hr : f'.remaining = none := by
      rw [(Forest_fit_accounting hf).2.1, hbud]
      rfl
    have h3 := leaf_no_red R hm.fitted (hm.budget hr) (by rw [hm.cfg]; show f'.cfg.maxLeafNodes = none; rw [(Forest_fit_same hf).1]; exact hleaf)
      (by rw [hm.cfg]; show f'.cfg.minImpDec = 0; rw [(Forest_fit_same hf).1]; exact hmin) hb (hk.1.trans hl)
    rw [hk.2.2.2] at h3
    simp [h3]

/-- A forest of two trees with the same two splits, one on each feature: its importances. -/
example :
    (do let (f, _) ← runForest rngQ exMems exWorld { fcfgQ with bootstrap := false } exData 0 none
        let (a, _) ← f.calculateMdi
        pure (f.mdi, f.remaining, [a, f.trees.flatMap (fun (t : Tree ℚ Nat) => splitReductions t 0), f.trees.flatMap (fun (t : Tree ℚ Nat) => splitReductions t 1)])).toOption
      = some (none, none, [[.fin (-1 / 2), .fin (-1 / 2)], [.fin (-1 / 4), .fin (-1 / 4)], [.fin (-1 / 4), .fin (-1 / 4)]]) := by
  decide +kernel

/-- C57 fails in general: with `max_leaf_nodes = 3` the tree has two splits, with reductions that sum to `-449/18`, but the importance also
counts the reduction that a leaf has recorded. -/
theorem C57_refuted :
    (do let (f, _) ← runForest rngQ exMems exWorldReg
          { fcfgBoost with boosting := false, nEstimators := 1, maxLeafNodes := some 3, maxDepth := .some 5 } exData 0 none
        let (a, _) ← f.calculateMdi
        pure (f.trees.map (fun (t : Tree ℚ Nat) => t.leaves.length),
          [a, f.trees.flatMap (fun (t : Tree ℚ Nat) => splitReductions t 0), f.trees.flatMap (fun (t : Tree ℚ Nat) => splitReductions t 1)])).toOption
      = some ([3], [[.fin (-973 / 36), .fin 0], [.fin (-200 / 9), .fin (-49 / 18)], []]) := by
  decide +kernel

/-! ### C58 -/

/-- The importances are computed once. -/
theorem mdi_cached {g g' g2 g2' : Forest K G} {c d : List (XF K)} (e1 : g.calculateMdi = .ok (c, g')) (e2 : AfterReads g' g2)
    (e3 : g2.calculateMdi = .ok (d, g2')) : d = c := by
  have e4 := Forest_mdi_same e1
  obtain ⟨ts, m, rfl, _, e5⟩ := e2.same
  rw [e4] at e5
  have e6 := e5 (by simp)
  simp only [] at e6
  subst e6
  unfold Forest.calculateMdi at e3
  simp only [Except.ok.injEq, Prod.mk.injEq] at e3
  exact e3.1.symm

/-- `C57_value` after any reads, if the importances had not been computed before `fit`. -/
theorem mdi_any {f f' f1 f2 : Forest K G} {w w' : World K G} {data : Option (List (List K))} {labels : Option Nat}
    (hf : Forest.fit R mem f w data labels = .ok (f', w')) (hnew : f.mdi = none) (h1 : AfterReads f' f1) {a : List (XF K)}
    (ha : f1.calculateMdi = .ok (a, f2)) :
    a.length = ((trainData f data).getD 0 []).length ∧ ∀ (j : Nat) (x : XF K), a[j]? = some x →
      x = XF.sum (f'.trees.flatMap (fun (t : Tree K G) => allReductions t j)) ∧ (x = .fin 0 ∨ x.lt (.fin 0) = true) := by
  -- the first call after `fit` is the one that matters
  have hfirst : ∀ {g : Forest K G}, AfterReads f' g → g.mdi = none ∨ ∃ g1 g2 c, AfterReads f' g1 ∧ g1.mdi = none ∧
      g1.calculateMdi = .ok (c, g2) ∧ AfterReads g2 g := by
    intro g hg
    induction hg with
    | none => exact Or.inl ((Forest_fit_same hf).2.2.trans hnew)
    | predict hg hp ih =>
      rcases ih with ih | ⟨g1, g2, c, e1, e2, e3, e4⟩
      · obtain ⟨ts, rfl, _⟩ := Forest_predict_same hp
        exact Or.inl ih
      · exact Or.inr ⟨g1, g2, c, e1, e2, e3, e4.predict hp⟩
    | oob hg hp ih =>
      rcases ih with ih | ⟨g1, g2, c, e1, e2, e3, e4⟩
      · obtain ⟨ts, rfl, _⟩ := Forest_oob_same hp
        exact Or.inl ih
      · exact Or.inr ⟨g1, g2, c, e1, e2, e3, e4.oob hp⟩
    | mdi hg hp ih =>
      rcases ih with ih | ⟨g1, g2, c, e1, e2, e3, e4⟩
      · exact Or.inr ⟨_, _, _, hg, ih, hp, .none⟩
      · exact Or.inr ⟨g1, g2, c, e1, e2, e3, e4.mdi hp⟩
  rcases hfirst h1 with h3 | ⟨g1, g2, c, e1, e2, e3, e4⟩
  · exact C57_value R mem f f' f1 f2 w w' data labels hf h1 h3 a ha
  · obtain rfl := mdi_cached e3 e4 ha
    exact C57_value R mem f f' g1 g2 w w' data labels hf e1 e2 _ e3

/-- C58, in part. If the importances had not been computed before `fit`, they describe the trees of that `fit` when they are computed, and
every later call, after any predictions and scores, returns the same. -/
theorem C58_first_partial (f f' f1 f2 f3 f4 : Forest K G) (w w' : World K G) (data : Option (List (List K))) (labels : Option Nat)
    (hf : Forest.fit R mem f w data labels = .ok (f', w')) (hnew : f.mdi = none) (h1 : AfterReads f' f1) (a b : List (XF K))
    (ha : f1.calculateMdi = .ok (a, f2)) (h2 : AfterReads f2 f3) (hb : f3.calculateMdi = .ok (b, f4)) :
    b = a ∧ ∀ (j : Nat) (x : XF K), a[j]? = some x → x = XF.sum (f'.trees.flatMap (fun (t : Tree K G) => allReductions t j)) := by
  exact ⟨mdi_cached ha h2 hb, fun j x hx => ((mdi_any R mem hf hnew h1 ha).2 j x hx).1⟩

/-- C58. What happens otherwise: once computed, the importances never change again, whatever is fitted later. -/
theorem C58_stale (f f' f1 f2 : Forest K G) (w w' : World K G) (data : Option (List (List K))) (labels : Option Nat) (a b : List (XF K))
    (hf : Forest.fit R mem f w data labels = .ok (f', w')) (hold : f.mdi = some a) (h1 : AfterReads f' f1)
    (hb : f1.calculateMdi = .ok (b, f2)) : b = a := by
  have h0 := (Forest_fit_same hf).2.2
  obtain ⟨ts, m, rfl, _, h2⟩ := h1.same
  have h3 := h2 (by rw [h0, hold]; simp)
  rw [h0, hold] at h3
  subst h3
  unfold Forest.calculateMdi at hb
  simp only [Except.ok.injEq, Prod.mk.injEq] at hb
  exact hb.1.symm

/-- C58 fails for a second `fit`: the forest is fitted, its importances are read, and it is fitted to other data, of one column; now the
trees split on that column only, with the reduction `-1/2` each, but the importances are those of the first data. -/
theorem C58_refuted :
    (do let (f, w) ← runForest rngQ exMems exWorld { fcfgQ with bootstrap := false } exData 0 none
        let (a, f) ← f.calculateMdi
        let (f, _) ← Forest.fit rngQ exMems f w (some [[0], [1], [1], [0], [1], [0]]) (some 0)
        let (b, f) ← f.calculateMdi
        pure [a, b, f.trees.flatMap (fun (t : Tree ℚ Nat) => splitReductions t 0), f.trees.flatMap (fun (t : Tree ℚ Nat) => splitReductions t 1)]).toOption
      = some [[.fin (-1 / 2), .fin (-1 / 2)], [.fin (-1 / 2), .fin (-1 / 2)], [.fin (-1 / 2), .fin (-1 / 2)], []] := by
  decide +kernel

end FF
