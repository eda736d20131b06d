import Verif.Props.Wrappers
import Verif.Props.Grid
import Verif.Props.Limits
import Verif.Props.Boost
import Verif.Props.ForestPredict
import Verif.Props.Binning
import Verif.Spec.Wrappers

/-!
# Property C110: what the ready-made classes train
-/

set_option linter.unusedSectionVars false

namespace FF

open Spec

variable {K : Type} [Field K] [LinearOrder K] [IsStrictOrderedRing K] [FloorRing K] [NpFun K] {G : Type}

instance (p : NameParts) (b : Bool) : Decidable (Bagged p b) := by unfold Bagged; infer_instance
instance (p : NameParts) : Decidable (SubsetPerTree p) := by unfold SubsetPerTree; infer_instance
instance (p : NameParts) : Decidable (FewFeatures p) := by unfold FewFeatures; infer_instance
instance (p : NameParts) : Decidable (GlobalBins p) := by unfold GlobalBins; infer_instance

theorem WrapObj_fit_ok {R : Rng K G} {mem : Nat → Nat → Junk K} {o o' : WrapObj K G} {w w' : World K G} {data : Option (List (List K))}
    {labels : Option Nat} (h : o.fit R mem w data labels = .ok (o', w')) : Forest.fit R mem o.forest w data labels = .ok (o'.forest, w') := by
  unfold WrapObj.fit at h
  cases hf : Forest.fit R mem o.forest w data labels with
  | error e => rw [hf] at h; cases h
  | ok p =>
    rw [hf] at h
    cases h
    rfl

theorem Wrapper_init_obj {R : Rng K G} {k : Wrapper} {a : WrapArgs K} {w w1 : World K G} {data : Option (List (List K))} {ref : Option Nat}
    {o : WrapObj K G} (h : Wrapper.init R k a w data ref = .ok (o, w1)) :
    ¬ (k.isCls = true ∧ k.boosts = true) ∧ ForestObj R (k.cfg a) a.budget o.forest ∧ o.forest.cfg = k.cfg a ∧ o.forest.newRef = o.forest.orgRef := by
  obtain ⟨w0, d', r', fe, hs⟩ := Wrapper_init_super h
  obtain ⟨h1, _, h2⟩ := Wrapper_super_ok hs
  obtain ⟨e1, _, _, _, _, e2, e3, _⟩ := Forest_init_fields h2
  refine ⟨h1, ForestObj.new h2, ?_, by rw [e2, e3]⟩
  rw [e1]
  unfold Wrapper.cfg
  simp

section
variable (R : Rng K G) (mem : Nat → Nat → Junk K) (k : Wrapper) (a : WrapArgs K) (w w1 w2 w3 : World K G)
  (data : Option (List (List K))) (ref : Option Nat) (o o' : WrapObj K G) (dat : Option (List (List K))) (labels : Option Nat)

/-- C110, thresholds. In a fitted extremely random forest every threshold lies between the extremes of its column in the rows of the node;
in a histogram forest with `B ≥ 2` bins it is one of `B` equally spaced values; in the other classes it is a value of the column in the
rows of the node. -/
theorem C110_thresholds (hi : Wrapper.init R k a w data ref = .ok (o, w1)) (hf : o.fit R mem w2 dat labels = .ok (o', w3))
    (t : Tree K G) (ht : t ∈ o'.forest.trees) (id : Nat) (nd : Node K) (hn : NodeAt t id nd) (j : Nat) (hj : nd.splitFeature = some j) :
    let rows := trainData o.forest dat
    let p := nameParts k
    (p.extremely = true → ∃ lo hi, Extremes rows nd.idcs j lo hi ∧ lo ≤ nd.splitValue ∧ nd.splitValue ≤ hi) ∧
    (p.histogram = true → ∀ B, a.numBins = some B → B ≠ 1 → ∃ lo hi, Spaced B lo hi nd.splitValue ∧
      Extremes rows (if GlobalBins p then List.range rows.length else nd.idcs) j lo hi) ∧
    (p.extremely = false → p.histogram = false → ∃ i ∈ nd.idcs, cellOf rows i j = nd.splitValue) := by
  obtain ⟨_, hobj, hcfg, _⟩ := Wrapper_init_obj hi
  have hfit := WrapObj_fit_ok hf
  have key := fun hlin => C89_forest R mem (k.cfg a) a.budget o.forest o'.forest hobj w2 w3 dat labels hfit (by cases k <;> simp [Wrapper.cfg])
    hlin t ht id nd hn j hj
  refine ⟨fun hp => ?_, fun hp B hB hB1 => ?_, fun hp1 hp2 => ?_⟩
  · have hk : k.binType = .random := by revert hp; cases k <;> decide
    have := key (by simp [Wrapper.cfg, hk])
    simpa [Allowed, Wrapper.cfg, hk] using this
  · have hk : k.binType = .linear := by revert hp; cases k <;> decide
    have hpre : (k.cfg a).precompMinmax = decide (GlobalBins (nameParts k)) := by revert hp; cases k <;> intro _ <;> rfl
    have := key (by simp [Wrapper.cfg, hk, hB, hB1])
    rw [hpre] at this
    simpa [Allowed, Wrapper.cfg, hk, BinsAt, hB] using this
  · have hk : k.binType = .identity := by revert hp1 hp2; cases k <;> decide
    have := key (by simp [Wrapper.cfg, hk])
    simpa [Allowed, Wrapper.cfg, hk] using this

/-- C110, rows and columns. With the rows and columns a class was given (for the patches: chosen in the constructor, see C86), every tree is
fitted to the columns and to the bootstrap sample, or all, of the rows that its name announces; without boosting it is fitted to the labels;
and its nodes look at ⌈√F⌉ of the columns, or all of them, as the name announces. -/
theorem C110_samples (hi : Wrapper.init R k a w data ref = .ok (o, w1)) (hf : o.fit R mem w2 dat labels = .ok (o', w3))
    (hN : ∀ x, a.alphaN = some x → x ≤ 1) (hF : ∀ x, a.alphaF = some x → x ≤ 1) (i : Nat) (t : Tree K G) (ht : o'.forest.trees[i]? = some t) :
    let n := (trainData o.forest dat).length
    let F := ((trainData o.forest dat).getD 0 []).length
    let p := nameParts k
    ∃ A t0 sub, Fitted R (mem i) A t0 ∧ AfterPredicts t0 t ∧ A.data = trainData o.forest dat ∧
      SubsetDrawn n (if SubsetPerTree p then a.alphaN.getD 1 else 1) sub ∧
      SubsetDrawn F (if SubsetPerTree p then a.alphaF.getD 1 else 1) A.cols ∧
      (Bagged p a.bootstrap → ∃ g, A.rows = (R.choiceRep g sub.length n).1.map (fun i => sub.getD i 0)) ∧
      (¬ Bagged p a.bootstrap → A.rows = sub) ∧
      (p.gradientBoosted = false → A.labels = treeLabels o.forest w2 labels) ∧
      ∀ (id : Nat) (nd : Node K), NodeAt t0 id nd → (∀ f ∈ nd.featIdcs, f ∈ A.cols) ∧ nd.featIdcs.Nodup ∧
        (FewFeatures p → A.cols.length ≤ nd.featIdcs.length * nd.featIdcs.length ∧
          ∀ j : Nat, A.cols.length ≤ j * j → nd.featIdcs.length ≤ j) ∧
        (¬ FewFeatures p → nd.featIdcs = A.cols) := by
  intro n F p
  obtain ⟨hcls, hobj, hcfg, _⟩ := Wrapper_init_obj hi
  have hfit := WrapObj_fit_ok hf
  obtain ⟨ms, _, _, hm⟩ := Forest_fit_made hfit
  obtain ⟨m, _, hm, hlab⟩ := hm i t ht
  obtain ⟨rows0, rows, cols, g, g1, g2, d1, d2, d3, d4⟩ := hm.draw
  have hcfg' : o'.forest.cfg = k.cfg a := (Forest_fit_same hfit).1.trans hcfg
  rw [hcfg'] at d1 d2
  have eN : (k.cfg a).alphaN = if SubsetPerTree p then a.alphaN.getD 1 else 1 := by
    cases k <;> rfl
  have eF : (k.cfg a).alphaF = if SubsetPerTree p then a.alphaF.getD 1 else 1 := by
    cases k <;> rfl
  have eB : (k.cfg a).bootstrap = decide (Bagged p a.bootstrap) := by
    cases hb : a.bootstrap <;> revert hcls <;> cases k <;> simp [Wrapper.cfg, Wrapper.bootstraps, Wrapper.isCls, Wrapper.boosts, hb, p] <;> decide
  have eS : (k.cfg a).featSub = if FewFeatures p then .sqrt else .none := by
    revert hcls
    cases k <;> simp [Wrapper.cfg, Wrapper.featSub, Wrapper.isCls, Wrapper.boosts, p, FewFeatures, nameParts]
  have le1 : ∀ {x : Option K}, (∀ y, x = some y → y ≤ 1) → x.getD 1 ≤ 1 := by
    intro x hx
    cases x with
    | none => exact le_refl _
    | some y => exact hx y rfl
  obtain ⟨s1, s2⟩ := subsets_ok (by rw [eN]; split_ifs; exacts [le1 hN, le_refl _]) (by rw [eF]; split_ifs; exacts [le1 hF, le_refl _]) d1
  have hrows : m.args.rows = rows := by unfold TreeArgs.rows; rw [d3]; rfl
  have hcols : m.args.cols = cols := by unfold TreeArgs.cols; rw [d4]; rfl
  refine ⟨m.args, m.tree, rows0, hm.fitted, hm.after, hm.data_eq, eN ▸ s1, by rw [hcols]; exact eF ▸ s2, fun hb => ?_, fun hb => ?_, fun hb => ?_, ?_⟩
  · unfold bootstrapIdcs at d2
    rw [eB, if_pos (by simpa using hb)] at d2
    unfold rngChoiceRep at d2
    split_ifs at d2
    cases d2
    exact ⟨g1, hrows⟩
  · unfold bootstrapIdcs at d2
    rw [eB, if_neg (by simpa using hb)] at d2
    cases d2
    exact hrows
  · refine hlab ?_
    rw [hcfg]
    revert hb
    cases k <;> simp [Wrapper.cfg, Wrapper.boosts, p, nameParts]
  · intro id nd hn
    obtain ⟨c1, c2, c3, c4, _⟩ := C80_node_features R (mem i) m.args m.tree hm.fitted id nd hn
    have hsub : m.args.cfg.featSub = if FewFeatures p then .sqrt else .none := by
      rw [hm.cfg, ← eS, ← hcfg']
      rfl
    refine ⟨c1, c3 (by rw [hcols]; exact s2.distinct), fun hp => ?_, fun hp => c4 (by rw [hsub, if_neg hp])⟩
    rw [hsub, if_pos hp] at c2
    obtain ⟨_, h1, h2⟩ := c2
    refine ⟨by exact_mod_cast h1, fun j hj => ?_⟩
    have := h2 j (Int.natCast_nonneg _) (by exact_mod_cast hj)
    exact_mod_cast this

/-- C110, answers. A boosted regressor answers with the first tree plus the learning rate times the sum of the others; the other regressors
with the mean of the trees; a classifier with the class of the largest mean probability. Boosted classifiers cannot be built (C64). -/
theorem C110_answers (hi : Wrapper.init R k a w data ref = .ok (o, w1)) (hf : o.fit R mem w2 dat labels = .ok (o', w3))
    (hN : ∀ x, a.alphaN = some x → x ≤ 1) (hF : ∀ x, a.alphaF = some x → x ≤ 1) (f1 f2 : Forest K G) (ha : AfterReads o'.forest f1) (x : List K) (q : Pred K)
    (hq : f1.predict x = .ok (q, f2)) :
    let p := nameParts k
    ¬ (p.gradientBoosted = true ∧ p.classifier = true) ∧
    (p.gradientBoosted = true → ∀ lr, a.boostingLr = some lr → ∃ v vs,
      List.Forall₂ (fun (t : Tree K G) u => (t.predict x).map Prod.fst = .ok (.reg u)) o'.forest.trees (v :: vs) ∧ q = .reg (v + lr * vs.sum)) ∧
    (p.gradientBoosted = false → p.classifier = false → ∃ vs,
      List.Forall₂ (fun (t : Tree K G) u => (t.predict x).map Prod.fst = .ok (.reg u)) o'.forest.trees vs ∧ q = .reg (mean vs)) ∧
    (p.classifier = true → ClassesOK o.forest.classes → ∃ qs label avg, ∃ i : Nat,
      List.Forall₂ (fun (t : Tree K G) q => ∃ l, (t.predict x).map Prod.fst = .ok (.cls l q)) o'.forest.trees qs ∧ q = .cls label avg ∧
      (∀ j < o.forest.classes.length, avg[j]? = some (mean (qs.map (fun q => q.getD j 0)))) ∧ o.forest.classes[i]? = some (label, i) ∧
      ∃ top, avg[i]? = some top ∧ ∀ (j : Nat) (b : K), avg[j]? = some b → b ≤ top) := by
  intro p
  obtain ⟨hcls, hobj, hcfg, _⟩ := Wrapper_init_obj hi
  have hfit := WrapObj_fit_ok hf
  have eI : o.forest.cfg.isCls = p.classifier := by rw [hcfg]; cases k <;> rfl
  have eG : o.forest.cfg.boosting = p.gradientBoosted := by rw [hcfg]; cases k <;> rfl
  have le1 : ∀ {x : Option K}, (∀ y, x = some y → y ≤ 1) → x.getD 1 ≤ 1 := by
    intro x hx
    cases x with
    | none => exact le_refl _
    | some y => exact hx y rfl
  have hnot : ¬ (p.gradientBoosted = true ∧ p.classifier = true) := by
    rw [← eI, ← eG, hcfg]
    exact fun h => hcls ⟨h.2, h.1⟩
  refine ⟨hnot, fun hg lr hlr => ?_, fun hg hc => ?_, fun hc hd => ?_⟩
  · refine C53_boosted_prediction R mem o.forest o'.forest f1 f2 w2 w3 dat labels hfit ?_ (eG.trans hg) lr ?_ ha x q hq
    · rw [eI]
      exact Bool.eq_false_iff.2 (fun h => hnot ⟨hg, h⟩)
    · have : k.boosts = true := by rw [← eG, hcfg] at hg; exact hg
      rw [hcfg]
      simp [Wrapper.cfg, this, hlr]
  · have eN : o.forest.cfg.alphaN ≤ 1 := by
      rw [hcfg]; cases k <;> first | exact le_refl _ | exact le1 hN
    have eF : o.forest.cfg.alphaF ≤ 1 := by
      rw [hcfg]; cases k <;> first | exact le_refl _ | exact le1 hF
    obtain ⟨vs, h1, _, h2, _⟩ := C52_mean_in_range R mem o.forest o'.forest f1 f2 w2 w3 dat labels hfit (eI.trans hc) (eG.trans hg) eN eF ha x q hq
    exact ⟨vs, h1, h2⟩
  · obtain ⟨qs, label, avg, i, h1, _, h2, _, h3, _, _, h4, top, h5, h6⟩ :=
      C51_average R mem o.forest o'.forest f1 f2 w2 w3 dat labels hfit (eI.trans hc) hd ha x q hq
    exact ⟨qs, label, avg, i, h1, h2, h3, h4, top, h5, fun j b hb => (h6 j b hb).1⟩

/-- C110, boosting. A boosted class that is not bagged leaves the residuals in the label array it was fitted to: the targets minus the answers of
the whole ensemble. -/
theorem C110_residuals (hi : Wrapper.init R k a w data ref = .ok (o, w1)) (hf : o.fit R mem w2 dat labels = .ok (o', w3))
    (hg : (nameParts k).gradientBoosted = true) (hb : ¬ Bagged (nameParts k) a.bootstrap) (lr : K) (hlr : a.boostingLr = some lr)
    (hne : o'.forest.trees ≠ []) (r : Nat) (hr : labels.or o.forest.newRef = some r) (j : Nat) (hj : j < (trainData o.forest dat).length) :
    ∃ v f2, o'.forest.predict ((trainData o.forest dat).getD j []) = .ok (.reg v, f2) ∧
      (w3.arrays.getD r []).getD j 0 = (w2.arrays.getD r []).getD j 0 - v := by
  obtain ⟨hcls, hobj, hcfg, _⟩ := Wrapper_init_obj hi
  have hfit := WrapObj_fit_ok hf
  have hk : k.boosts = true := by revert hg; cases k <;> decide
  have hc : k.isCls = false := Bool.eq_false_iff.2 (fun h => hcls ⟨h, hk⟩)
  have hbo : k.bootstraps a = false := by
    cases hab : a.bootstrap <;> rw [hab] at hb <;> revert hb hc hg <;>
      cases k <;> simp [Bagged, nameParts, Wrapper.isCls, Wrapper.bootstraps, hab]
  have h1 : (k.cfg a).alphaN = 1 ∧ (k.cfg a).alphaF = 1 := by
    revert hg; cases k <;> simp [nameParts, Wrapper.cfg]
  refine C53_residuals R mem o.forest o'.forest o'.forest w2 w3 dat labels hfit ?_ ?_ lr ?_ ?_ ?_ ?_ hne AfterReads.none r hr j hj
  · rw [hcfg]; exact hc
  · rw [hcfg]; exact hk
  · rw [hcfg]; simp [Wrapper.cfg, hk, hlr]
  · rw [hcfg]; exact hbo
  · rw [hcfg]; exact h1.1
  · rw [hcfg, h1.2]

/-- C110, limits. The number of trees and the limits on the trees are the ones given to the class. -/
theorem C110_limits (hi : Wrapper.init R k a w data ref = .ok (o, w1)) (hf : o.fit R mem w2 dat labels = .ok (o', w3)) :
    o'.forest.trees.length ≤ a.nEstimators ∧ (a.budget = none → o'.forest.trees.length = a.nEstimators) ∧
    ∀ t ∈ o'.forest.trees,
      (∀ d, a.maxDepth = .some d → ∀ id nd, InTree t id → NodeAt t id nd → nd.depth ≤ d) ∧
      (∀ m, a.maxLeafNodes = some m → 1 ≤ m → t.nodes.countP (fun nd => nd.left.isNone) ≤ m) ∧
      (∀ id nd, NodeAt t id nd → nd.left ≠ none → a.minSamplesSplit < nd.idcs.length ∧
        ∃ red, nd.splitReduction = some red ∧ red.lt (.fin 0) = true ∧ red.lt (.fin a.minImpDec) = true) := by
  obtain ⟨_, hobj, _, _⟩ := Wrapper_init_obj hi
  have hfit := WrapObj_fit_ok hf
  obtain ⟨h1, h2⟩ := C48_number_of_trees R mem (k.cfg a) a.budget o.forest hobj w2 w3 dat labels o'.forest hfit
  exact ⟨h1, h2, fun t ht => C88_limits R (k.cfg a) a.budget o'.forest (ForestObj.fit hobj hfit) t ht⟩

end

/-! ### Concrete cases -/

/-- Two trees of depth 1, three bins. -/
def exArgsKind : WrapArgs ℚ :=
  { (Wrapper.forestC.defaults : WrapArgs ℚ) with
    maxDepth := .some 1, nEstimators := 2, boostingLr := some (1 / 2), alphaN := some (2 / 3), alphaF := some 1, numBins := some 3 }

/-- The rows of each tree with the feature and threshold of its root, and the label arrays, after building and fitting. -/
def exKind (k : Wrapper) (w : World ℚ Nat) : Option (List (List Nat × Option (Option Nat × ℚ)) × List (List ℚ)) :=
  (do let (o, w) ← Wrapper.init rngQ k exArgsKind w (some exData) (some 0)
      let (o, w) ← o.fit rngQ exMems w none none
      pure (o.forest.trees.map (fun (t : Tree ℚ Nat) => (rowsOf t 0, (t.nodes.map (fun (nd : Node ℚ) => (nd.splitFeature, nd.splitValue))).head?)),
        w.arrays)).toOption

/-- Extremely random: all rows, thresholds that are no values of the column. -/
example : (exKind .extraR exWorldReg ==
    some ([([0, 1, 2, 3, 4, 5], some (some 0, 5 / 2)), ([0, 1, 2, 3, 4, 5], some (some 0, 15 / 4))], [[1, 2, 4, 7, 11, 16]])) = true := by decide +kernel

/-- Histogram: bootstrap samples, thresholds on the grid 0, 5/2, 5 of column 0. -/
example : (exKind .histR exWorldReg ==
    some ([([0, 1, 4, 3, 4, 1], some (some 0, 5 / 2)), ([1, 2, 5, 4, 5, 2], some (some 0, 5 / 2))], [[1, 2, 4, 7, 11, 16]])) = true := by decide +kernel

/-- Boosted: all rows, thresholds that are values of the column, residuals in the label array. -/
example : (exKind .gbForestR exWorldReg ==
    some ([([0, 1, 2, 3, 4, 5], some (some 0, 3)), ([0, 1, 2, 3, 4, 5], some (some 1, 2))], [[-7 / 4, -3 / 4, 5 / 4, 2, -7 / 4, 1]])) = true := by
  decide +kernel

/-- Histogram patches: six draws from a subset of four rows. -/
example : (exKind .histPatchesC exWorld).map (fun x => x.1.map Prod.fst) = some [[0, 1, 0, 1, 0, 1], [4, 5, 4, 5, 4, 5]] := by decide +kernel

/-- Patches: the same four rows for both trees; the residuals go to a copy of the labels. -/
example : (exKind .gbPatchesR exWorldReg ==
    some ([([0, 1, 2, 3], some (some 0, 1)), ([0, 1, 2, 3], some (some 0, 5))], [[1, 2, 4, 7, 11, 16], [-19 / 18, -1 / 18, 5 / 6, 5 / 18]])) = true := by
  decide +kernel

end FF
