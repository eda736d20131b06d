import Verif.Model.Wrappers
import Verif.Props.ForestTotal
import Verif.Props.Binning
import Verif.Props.Forest
import Verif.Props.Used

/-!
# Properties C64, C65, C86: the wrapper classes
-/

set_option linter.unusedSectionVars false

namespace FF

open Spec

variable {K : Type} [Field K] [LinearOrder K] [IsStrictOrderedRing K] [FloorRing K] [NpFun K] {G : Type}

section
variable {R : Rng K G}

/-- Without a maximal depth the first comparison of `fit` fails. -/
theorem Tree_fit_noDepth {A : TreeArgs K} {memT : Nat → Junk K} {t : Tree K G} (hd : A.cfg.maxDepth = .none)
    (hl : A.cfg.maxLeafNodes ≠ some 1) : ¬ Fitted R memT A t := by
  rintro ⟨t0, glob, glob', ⟨g, hi⟩, hf⟩
  have h0 : ∃ root, t0.nodes = [root] ∧ t0.leaves = [] ∧ t0.cfg.maxDepth = .none ∧ t0.cfg.maxLeafNodes ≠ some 1 := by
    unfold Tree.init at hi
    rw [ite_eq_iff'] at hi
    by_cases hn : A.data.length ≠ A.labels.length
    · cases hi.1 hn
    · have hi := hi.2 hn
      simp only [] at hi
      split at hi
      · cases hi
      · split at hi
        · cases hi
        · cases hi
          exact ⟨_, rfl, rfl, hd, hl⟩
  obtain ⟨root, h1, h2, h3, h4⟩ := h0
  unfold Tree.fit at hf
  simp only [bothOrNeither] at hf
  split at hf
  · cases hf
  · split at hf
    · rw [h2, List.nil_append] at hf
      unfold fitFuel fitLoop fitStep at hf
      simp only [] at hf
      have hlim : leafLimit t0.cfg.maxLeafNodes [0].length = .ok false ∨ ∃ e, leafLimit t0.cfg.maxLeafNodes [0].length = .error e := by
        unfold leafLimit
        cases hm : t0.cfg.maxLeafNodes with
        | none => exact Or.inl rfl
        | some m =>
          simp only []
          rw [hm] at h4
          rw [if_neg (fun h => h4 (by rw [← h]; rfl))]
          split_ifs
          · exact Or.inr ⟨_, rfl⟩
          · exact Or.inl rfl
      have hscan : ∀ g dd, scanLeaves R memT 0 [0] { t := { t0 with discrete := dd, leaves := [0] }, glob := g, best := none } =
          .error .typeError := by
        intro g dd
        unfold scanLeaves scanLeaf splittableConstraints
        simp only [h1, List.getElem?_cons_zero, h3, depthOk]
      rcases hlim with hlim | ⟨e, hlim⟩
      · rw [hlim] at hf
        simp only [hscan] at hf
        cases hf
      · rw [hlim] at hf
        cases hf
    · cases hf
    · cases hf

theorem Forest_fit_noDepth {mem : Nat → Nat → Junk K} {f : Forest K G} (hd : f.cfg.maxDepth = .none) (hl : f.cfg.maxLeafNodes ≠ some 1)
    (hn : f.cfg.nEstimators ≠ 0) (hr : f.remaining = none) (w : World K G) (data : Option (List (List K))) (labels : Option Nat) :
    ∃ e, Forest.fit R mem f w data labels = .error e := by
  cases h : Forest.fit R mem f w data labels with
  | error e => exact ⟨e, rfl⟩
  | ok p =>
    obtain ⟨f', w'⟩ := p
    exfalso
    obtain ⟨_, _, _, h4⟩ := Forest_fit_accounting h
    have hlen := h4 hr
    obtain ⟨ms, _, _, hm⟩ := Forest_fit_made h
    have h0 : 0 < f'.trees.length := by omega
    obtain ⟨m, _, hmade, _⟩ := hm 0 _ (List.getElem?_eq_getElem h0)
    have hcfg : f'.cfg = f.cfg := by
      obtain ⟨dat, f0, w0, hs, hl⟩ := Forest_fit_start h
      obtain ⟨l, hrun⟩ := forestLoop_run hl
      rw [hrun.same, hs.eq]
    refine Tree_fit_noDepth ?_ ?_ hmade.fitted
    · rw [hmade.cfg]
      change f'.cfg.maxDepth = _
      rw [hcfg]
      exact hd
    · rw [hmade.cfg]
      change f'.cfg.maxLeafNodes ≠ _
      rw [hcfg]
      exact hl

theorem Wrapper_init_super {k : Wrapper} {a : WrapArgs K} {w w1 : World K G} {data : Option (List (List K))} {ref : Option Nat} {o : WrapObj K G}
    (h : Wrapper.init R k a w data ref = .ok (o, w1)) :
    ∃ w0 data' ref' feats, Wrapper.super R k a w0 data' ref' feats = .ok (o, w1) := by
  unfold Wrapper.init at h
  split_ifs at h
  · repeat' split at h
    all_goals first | cases h | exact ⟨_, _, _, _, h⟩
  · exact ⟨_, _, _, _, h⟩

theorem Wrapper_super_ok {k : Wrapper} {a : WrapArgs K} {w w1 : World K G} {data : Option (List (List K))} {ref : Option Nat}
    {feats : Option (List Nat)} {o : WrapObj K G} (h : Wrapper.super R k a w data ref feats = .ok (o, w1)) :
    ¬ (k.isCls = true ∧ k.boosts = true) ∧ o.featIdcs = feats ∧ Forest.init R w (k.cfg a) none data ref a.budget = .ok (o.forest, w1) := by
  unfold Wrapper.super at h
  split_ifs at h with hb
  cases hi : Forest.init R w (k.cfg a) none data ref a.budget with
  | error e => rw [hi] at h; cases h
  | ok p =>
    rw [hi] at h
    cases h
    exact ⟨hb, rfl, rfl⟩

end

section
variable (R : Rng K G) (mem : Nat → Nat → Junk K)

/-- C64 fails. Every wrapper forest built without a maximal depth — it defaults to `None` — and without a budget cannot be fitted: whatever the
data, the seed and the other parameters (except `max_leaf_nodes=1`, or no trees at all), `fit` raises. -/
theorem C64_no_depth (k : Wrapper) (a : WrapArgs K) (hd : a.maxDepth = .none) (hb : a.budget = none) (hn : a.nEstimators ≠ 0)
    (hl : a.maxLeafNodes ≠ some 1) (w w1 w2 : World K G) (data dat : Option (List (List K))) (ref labels : Option Nat) (o : WrapObj K G)
    (hi : Wrapper.init R k a w data ref = .ok (o, w1)) : ∃ e, o.fit R mem w2 dat labels = .error e := by
  obtain ⟨w0, data', ref', feats, hs⟩ := Wrapper_init_super hi
  obtain ⟨_, _, hf⟩ := Wrapper_super_ok hs
  obtain ⟨e1, e2, _⟩ := Forest_init_fields hf
  obtain ⟨e, he⟩ := Forest_fit_noDepth (R := R) (mem := mem) (f := o.forest) (by rw [e1]; exact hd) (by rw [e1]; exact hl) (by rw [e1]; exact hn)
    (by rw [e2]; exact hb) w2 dat labels
  exact ⟨e, by unfold WrapObj.fit; rw [he]⟩

/-- C64 fails: a wrapper forest constructed with only data and labels cannot be fitted, whatever the wrapper and the data. -/
theorem C64_refuted (k : Wrapper) (w w1 : World K G) (data : List (List K)) (ref : Nat) (o : WrapObj K G)
    (hi : Wrapper.init R k k.defaults w (some data) (some ref) = .ok (o, w1)) : ∃ e, o.fit R mem w1 none none = .error e :=
  C64_no_depth R mem k k.defaults rfl rfl (by simp [Wrapper.defaults]) (by simp [Wrapper.defaults]) w w1 w1 _ _ _ _ o hi

/-- C64 fails earlier for the five boosted classifiers: no parameters make their constructors return. -/
theorem C64_boosted_classifiers (k : Wrapper) (hc : k.isCls = true) (hb : k.boosts = true) (a : WrapArgs K) (w : World K G)
    (data : Option (List (List K))) (ref : Option Nat) : ∃ e, Wrapper.init R k a w data ref = .error e := by
  cases hi : Wrapper.init R k a w data ref with
  | error e => exact ⟨e, rfl⟩
  | ok p =>
    obtain ⟨o, w1⟩ := p
    obtain ⟨w0, data', ref', feats, hs⟩ := Wrapper_init_super hi
    exact absurd ⟨hc, hb⟩ (Wrapper_super_ok hs).1

/-- C64, the part that holds: with a maximal depth (and a learning rate, and fractions, where they are needed) the wrappers that train on
all of the data can be built and fitted on a well-formed training set, if the split search can always produce candidates (see C85). -/
theorem C64_depth_partial (k : Wrapper) (hk : k.isCls = true → k.boosts = false) (hsub : k.subsamples = false) (a : WrapArgs K)
    (hlr : k.boosts = true → a.boostingLr ≠ none) (ha : k.needsAlphas = true → a.alphaN ≠ none ∧ a.alphaF ≠ none)
    (w : World K G) (data : List (List K)) (ref : Nat) (hint : k.isCls = true → ∀ y ∈ w.arrays.getD ref [], ∃ n : Int, y = n)
    (hok : ForestDataOK (k.cfg a) data (w.arrays.getD ref [])) (hsolv : ForestSolvable (k.cfg a) data (w.arrays.getD ref [])) :
    ∃ o w1 o' w', Wrapper.init R k a w (some data) (some ref) = .ok (o, w1) ∧ o.fit R mem w1 none none = .ok (o', w') := by
  obtain ⟨f, w1, f', w', hi, hf⟩ := C85_constructed R mem (k.cfg a) a.budget w data ref
    (fun hb => ⟨by
      have hb' : k.boosts = true := hb
      change (if k.boosts = true then a.boostingLr else none) ≠ none
      rw [if_pos hb']
      exact hlr hb', by
      have hb' : k.boosts = true := hb
      change k.isCls = false
      by_contra hc
      rw [hk (by simpa using hc)] at hb'
      cases hb'⟩) (fun h => by cases h) hint hok hsolv
  refine ⟨⟨f, none⟩, w1, ⟨f', none⟩, w', ?_, ?_⟩
  · unfold Wrapper.init
    rw [if_neg (by
      rintro ⟨h1, h2 | h2⟩
      · exact (ha h1).1 h2
      · exact (ha h1).2 h2), if_neg (by
      rintro ⟨h1, h2⟩
      refine hlr ?_ h2
      revert h1
      cases k <;> simp [Wrapper.needsLr, Wrapper.boosts]), if_neg (by simp [hsub])]
    unfold Wrapper.super
    rw [if_neg (by
      rintro ⟨h1, h2⟩
      rw [hk h1] at h2
      cases h2), hi]
  · unfold WrapObj.fit
    rw [hf]

end

section
variable {R : Rng K G}

theorem patchIdcs_ok {g g' : G} {n : Nat} {alpha : K} {l : List Nat} (h : patchIdcs R g n alpha = .ok (l, g')) : PatchDrawn n alpha l := by
  unfold patchIdcs at h
  split_ifs at h with h0
  obtain ⟨h1, h2, h3, h4⟩ := rngChoice_ok h
  exact ⟨by rw [h2]; omega, h4 List.nodup_range, fun i hi => by simpa using h3 i hi⟩

theorem patchIdcs_total {g : G} {n : Nat} {alpha : K} (h0 : 0 < alpha) (h1 : alpha ≤ 1) : ∃ l g', patchIdcs R g n alpha = .ok (l, g') := by
  have hn : (0 : K) ≤ (n : K) := Nat.cast_nonneg n
  have hge : (0 : Int) ≤ ⌈alpha * (n : K)⌉ := Int.ceil_nonneg (mul_nonneg h0.le hn)
  have hle : ⌈alpha * (n : K)⌉ ≤ (n : Int) := by
    rw [Int.ceil_le]
    have := mul_le_mul_of_nonneg_right h1 hn
    simpa using this
  unfold patchIdcs
  rw [if_neg (by omega)]
  exact rngChoice_total (by rw [List.length_range]; omega)

theorem PatchDrawn.ne {n : Nat} {alpha : K} {l : List Nat} (h : PatchDrawn n alpha l) (h0 : 0 < alpha) (hn : 0 < n) : l ≠ [] := by
  have : (0 : Int) < ⌈alpha * (n : K)⌉ := Int.ceil_pos.2 (mul_pos h0 (by exact_mod_cast hn))
  intro hl
  have h1 := h.size
  rw [hl] at h1
  simp at h1
  omega

theorem patchDraw_ok {seed : Nat} {data : List (List K)} {aN aF : K} {rs cs : List Nat} (h : patchDraw R seed data aN aF = .ok (rs, cs)) :
    data ≠ [] ∧ PatchDrawn data.length aN rs ∧ PatchDrawn (data.getD 0 []).length aF cs := by
  unfold patchDraw at h
  split at h
  · cases h
  · next row rows =>
    split at h
    · cases h
    · next g1 h1 =>
      split at h
      · cases h
      · next h2 =>
        cases h
        exact ⟨by simp, patchIdcs_ok h1, patchIdcs_ok h2⟩

theorem patchDraw_total {seed : Nat} {data : List (List K)} {aN aF : K} (hd : data ≠ []) (hN : 0 < aN ∧ aN ≤ 1) (hF : 0 < aF ∧ aF ≤ 1) :
    ∃ rs cs, patchDraw R seed data aN aF = .ok (rs, cs) := by
  obtain ⟨row, rows, rfl⟩ := List.exists_cons_of_ne_nil hd
  unfold patchDraw
  obtain ⟨rs, g, e1⟩ := patchIdcs_total (R := R) (g := R.seed seed) (n := rows.length + 1) hN.1 hN.2
  obtain ⟨cs, g2, e2⟩ := patchIdcs_total (R := R) (g := g) (n := row.length) hF.1 hF.2
  simp only [e1, e2]
  exact ⟨_, _, rfl⟩

/-- What a patches wrapper is built from. -/
theorem Wrapper_init_patch {k : Wrapper} (hk : k.subsamples = true) {a : WrapArgs K} {w w1 : World K G} {data : Option (List (List K))}
    {ref : Option Nat} {o : WrapObj K G} (h : Wrapper.init R k a w data ref = .ok (o, w1)) :
    ∃ d r aN aF rs cs, data = some d ∧ ref = some r ∧ a.alphaN = some aN ∧ a.alphaF = some aF ∧
      patchDraw R a.randomState d aN aF = .ok (rs, cs) ∧ (∀ i ∈ rs, i < (w.arrays.getD r []).length) ∧ o.featIdcs = some cs ∧
      Forest.init R { w with arrays := w.arrays ++ [rs.map (fun i => (w.arrays.getD r []).getD i 0)] } (k.cfg a) none
        (some (takePatch d rs cs)) (some w.arrays.length) a.budget = .ok (o.forest, w1) := by
  have hna : k.needsAlphas = true := by revert hk; cases k <;> simp [Wrapper.needsAlphas, Wrapper.subsamples]
  have hnl : ¬ (k.needsLr = true ∧ a.boostingLr = none) := by
    rintro ⟨h1, _⟩
    revert hk h1
    cases k <;> simp [Wrapper.needsLr, Wrapper.subsamples]
  unfold Wrapper.init at h
  by_cases h0 : a.alphaN = none ∨ a.alphaF = none
  · rw [if_pos ⟨hna, h0⟩] at h
    cases h
  · rw [if_neg (fun hh => h0 hh.2), if_neg hnl, if_pos hk] at h
    rw [not_or] at h0
    obtain ⟨aN, hN⟩ := Option.ne_none_iff_exists'.1 h0.1
    obtain ⟨aF, hF⟩ := Option.ne_none_iff_exists'.1 h0.2
    cases data with
    | none => cases h
    | some d =>
      simp only [hN, hF, Option.getD_some] at h
      cases hp : patchDraw R a.randomState d aN aF with
      | error e => rw [hp] at h; cases h
      | ok p =>
        obtain ⟨rs, cs⟩ := p
        rw [hp] at h
        simp only [] at h
        cases ref with
        | none => cases h
        | some r =>
          simp only [] at h
          cases ht : takeE (w.arrays.getD r []) 0 rs with
          | error e => rw [ht] at h; cases h
          | ok ls =>
            rw [ht] at h
            simp only [] at h
            obtain ⟨h1, h2⟩ := takeE_ok ht
            obtain ⟨_, h3, h4⟩ := Wrapper_super_ok h
            rw [h1] at h4
            exact ⟨d, r, aN, aF, rs, cs, rfl, rfl, hN, hF, hp, h2, h3, h4⟩

theorem takePatch_getD {data : List (List K)} {rs cs : List Nat} {i : Nat} (hi : i < rs.length) :
    (takePatch data rs cs).getD i [] = cs.map (fun j => (data.getD (rs.getD i 0) []).getD j 0) := by
  unfold takePatch
  rw [List.getD_eq_getElem _ _ (by simpa using hi), List.getElem_map, List.getD_eq_getElem _ _ hi]

theorem takePatch_width {data : List (List K)} {rs cs : List Nat} (h : rs ≠ []) : ((takePatch data rs cs).getD 0 []).length = cs.length := by
  rw [takePatch_getD (List.length_pos_of_ne_nil h), List.length_map]

/-- The trees of a fitted patches wrapper only split on the columns of the reduced data. -/
theorem patch_splits {k : Wrapper} (hk : k.subsamples = true) {a : WrapArgs K} {w w1 w2 : World K G} {data : Option (List (List K))}
    {ref : Option Nat} {o o' : WrapObj K G} {mem : Nat → Nat → Junk K} (hi : Wrapper.init R k a w data ref = .ok (o, w1))
    (hf : o.fit R mem w1 none none = .ok (o', w2)) {cs : List Nat} (hcs : o'.featIdcs = some cs) (t : Tree K G) (ht : t ∈ o'.forest.trees)
    (j : Nat) (hj : SplitsOn t j) : j < cs.length := by
  obtain ⟨d, r, aN, aF, rs, cs', _, _, _, _, hp, hrs, ho, hinit⟩ := Wrapper_init_patch hk hi
  unfold WrapObj.fit at hf
  cases hff : Forest.fit R mem o.forest w1 none none with
  | error e => rw [hff] at hf; cases hf
  | ok p =>
    obtain ⟨f', w'⟩ := p
    rw [hff] at hf
    cases hf
    simp only [] at hcs ht
    rw [ho] at hcs
    obtain rfl := Option.some.inj hcs
    obtain ⟨ms, _, hne, hm⟩ := Forest_fit_made hff
    obtain ⟨e1, _, _, _, _, _, _, e4, _⟩ := Forest_init_fields hinit
    have htd : trainData o.forest none = takePatch d rs cs' := by
      unfold trainData
      rw [e4]
      rfl
    rw [htd] at hne hm
    have hrne : rs ≠ [] := by
      intro h0
      rw [h0] at hne
      exact hne rfl
    obtain ⟨i, hi', hti⟩ := List.getElem_of_mem ht
    obtain ⟨m, _, hmade, _⟩ := hm i t (by rw [List.getElem?_eq_getElem hi', hti])
    rw [takePatch_width hrne] at hmade
    obtain ⟨rows0, rows, cols, g, g1, g2, a1, a2, a3, a4⟩ := hmade.draw
    have hcfg : f'.cfg.alphaN = 1 ∧ f'.cfg.alphaF = 1 := by
      obtain ⟨dat, f0, w0, hs, hl⟩ := Forest_fit_start hff
      obtain ⟨l, hrun⟩ := forestLoop_run hl
      rw [hrun.same, hs.eq]
      simp only []
      rw [e1]
      revert hk
      cases k <;> simp [Wrapper.cfg, Wrapper.subsamples]
    obtain ⟨_, hcols⟩ := subsets_ok hcfg.1.le hcfg.2.le a1
    -- a split of `t` is a split of the tree as it was fitted
    have hsp : SplitsOn m.tree j := by
      have := hmade.after
      clear hm hmade hti ht
      induction this with
      | none => exact hj
      | call _ hp ih => exact ih (predict_splitsOn hp hj)
    obtain ⟨nd, hnd, hl, hs⟩ := hsp
    obtain ⟨id, hid⟩ := List.mem_iff_getElem?.1 hnd
    obtain ⟨b1, _, _, _, b5⟩ := C80_node_features R (mem i) m.args m.tree hmade.fitted id nd hid
    obtain ⟨f, hf1, hf2⟩ := b5 hl
    rw [hs] at hf2
    obtain rfl := Option.some.inj hf2
    have hA : m.args.cols = cols := by unfold TreeArgs.cols; rw [a4]; rfl
    exact hcols.range _ (hA ▸ b1 _ hf1)

end

section
variable (R : Rng K G) (mem : Nat → Nat → Junk K)

/-- C86. A random-patches wrapper that could be built keeps `⌈alpha_N·N⌉` different rows and `⌈alpha_F·F⌉` different columns of the data it was
given, with the labels of these rows; it works on copies: building and fitting it leaves all label arrays of the caller as they were, also
when it boosts. -/
theorem C86_patch (k : Wrapper) (hk : k.subsamples = true) (a : WrapArgs K) (w w1 : World K G) (data : List (List K)) (ref : Nat)
    (o : WrapObj K G) (hi : Wrapper.init R k a w (some data) (some ref) = .ok (o, w1)) :
    ∃ aN aF rs cs ref', a.alphaN = some aN ∧ a.alphaF = some aF ∧ PatchDrawn data.length aN rs ∧ PatchDrawn (data.getD 0 []).length aF cs ∧
      o.featIdcs = some cs ∧ o.forest.orgRef = some ref' ∧
      o.forest.data = some (rs.map (fun i => cs.map (fun j => (data.getD i []).getD j 0))) ∧
      w1.arrays.getD ref' [] = rs.map (fun i => (w.arrays.getD ref []).getD i 0) ∧
      (∀ r < w.arrays.length, w1.arrays[r]? = w.arrays[r]?) ∧
      ∀ o' w2, o.fit R mem w1 none none = .ok (o', w2) → ∀ r < w.arrays.length, w2.arrays[r]? = w.arrays[r]? := by
  obtain ⟨d, r, aN, aF, rs, cs, hd, hr, hN, hF, hp, hrs, ho, hinit⟩ := Wrapper_init_patch hk hi
  obtain rfl := Option.some.inj hd
  obtain rfl := Option.some.inj hr
  obtain ⟨_, h1, h2⟩ := patchDraw_ok hp
  obtain ⟨e1, _, _, _, _, e2, e3, e4, _, e5⟩ := Forest_init_fields hinit
  have harr : ∀ r < w.arrays.length, w1.arrays[r]? = w.arrays[r]? := by
    intro r hr
    rw [e5]
    exact List.getElem?_append_left hr
  refine ⟨aN, aF, rs, cs, w.arrays.length, hN, hF, h1, h2, ho, e2, e4, by rw [e5]; simp, harr, ?_⟩
  intro o' w2 hf r hr
  unfold WrapObj.fit at hf
  cases hff : Forest.fit R mem o.forest w1 none none with
  | error e => rw [hff] at hf; cases hf
  | ok p =>
    obtain ⟨f', w'⟩ := p
    rw [hff] at hf
    cases hf
    rw [C54_labels_unchanged_partial R mem w1 _ none none o.forest f' hff r (by rw [e5]; simp; omega) (Or.inr (by
      rw [e3]
      intro h
      simp at h
      omega))]
    exact harr r hr

/-- C65 fails: a random-patches wrapper trained on the columns `cs` reads column `j` of a datapoint for what was column `cs[j]` in training.
Two datapoints that agree in their first `cs.length` entries get the same prediction, whatever `cs` is. -/
theorem C65_reads_prefix (k : Wrapper) (hk : k.subsamples = true) (a : WrapArgs K) (w w1 w2 : World K G) (data : List (List K)) (ref : Nat)
    (o o' : WrapObj K G) (hi : Wrapper.init R k a w (some data) (some ref) = .ok (o, w1)) (hf : o.fit R mem w1 none none = .ok (o', w2))
    (cs : List Nat) (hcs : o'.featIdcs = some cs) (x y : List K) (hxy : ∀ j < cs.length, x[j]? = y[j]?) : o'.predict x = o'.predict y := by
  unfold WrapObj.predict
  rw [C83_forest o'.forest x y (fun t ht j hj => hxy j (patch_splits hk hi hf hcs t ht j hj))]

/-- C65, the part that holds: when the datapoint has, in each of its first `cs.length` positions `j`, the value of column `cs[j]` — for example
when `cs` is `0, 1, …` — the prediction is the one for the columns the wrapper was trained on. -/
theorem C65_partial (k : Wrapper) (hk : k.subsamples = true) (a : WrapArgs K) (w w1 w2 : World K G) (data : List (List K)) (ref : Nat)
    (o o' : WrapObj K G) (hi : Wrapper.init R k a w (some data) (some ref) = .ok (o, w1)) (hf : o.fit R mem w1 none none = .ok (o', w2))
    (cs : List Nat) (hcs : o'.featIdcs = some cs) (x : List K) (hx : ∀ c ∈ cs, c < x.length)
    (hxc : ∀ j < cs.length, x[j]? = x[cs.getD j 0]?) : o'.predict x = o'.predict (cs.map (fun c => x.getD c 0)) := by
  apply C65_reads_prefix R mem k hk a w w1 w2 data ref o o' hi hf cs hcs
  intro j hj
  rw [hxc j hj, List.getElem?_map, List.getElem?_eq_getElem hj, List.getD_eq_getElem _ _ hj, Option.map_some]
  have := hx _ (List.getElem_mem hj)
  rw [List.getElem?_eq_getElem this, List.getD_eq_getElem _ _ this]

/-- C64, the part that holds for the random patches: with a maximal depth and fractions in (0, 1] (and a learning rate for the boosted ones) they
can be built and fitted on a well-formed training set; with LINEAR bins, if every column has pairwise different values. -/
theorem C64_patches_partial (k : Wrapper) (hk : k.isCls = true → k.boosts = false) (hsub : k.subsamples = true) (a : WrapArgs K)
    (hlr : k.boosts = true → a.boostingLr ≠ none) (aN aF : K) (hN : a.alphaN = some aN) (hF : a.alphaF = some aF)
    (hN' : 0 < aN ∧ aN ≤ 1) (hF' : 0 < aF ∧ aF ≤ 1) (hs : a.solver = .exact) (hd : a.maxDepth ≠ .none)
    (hl : ∀ m, a.maxLeafNodes = some m → 1 ≤ m) (w : World K G) (data : List (List K)) (ref : Nat)
    (hint : k.isCls = true → ∀ y ∈ w.arrays.getD ref [], ∃ n : Int, y = n)
    (hne : data ≠ []) (hwid : 0 < (data.getD 0 []).length) (hlen : data.length = (w.arrays.getD ref []).length)
    (hlin : k.binType = .linear → (∃ B, a.numBins = some B ∧ 2 ≤ B) ∧
      ∀ j < (data.getD 0 []).length, (data.map (fun r => r.getD j 0)).Nodup) :
    ∃ o w1 o' w', Wrapper.init R k a w (some data) (some ref) = .ok (o, w1) ∧ o.fit R mem w1 none none = .ok (o', w') := by
  obtain ⟨rs, cs, hp⟩ := patchDraw_total (R := R) (seed := a.randomState) hne hN' hF'
  obtain ⟨_, hr, hc⟩ := patchDraw_ok hp
  have hrne := hr.ne hN'.1 (List.length_pos_of_ne_nil hne)
  have hcne := hc.ne hF'.1 hwid
  have hlab : takeE (w.arrays.getD ref []) 0 rs = .ok (rs.map (fun i => (w.arrays.getD ref []).getD i 0)) :=
    takeE_total (fun i hi => hlen ▸ hr.range i hi)
  let w0 : World K G := { w with arrays := w.arrays ++ [rs.map (fun i => (w.arrays.getD ref []).getD i 0)] }
  have hw0 : w0.arrays.getD w.arrays.length [] = rs.map (fun i => (w.arrays.getD ref []).getD i 0) := by simp [w0]
  have hfs : k.featSub = (FeatSub.none : FeatSub K) ∧ (k.cfg a).alphaN = 1 ∧ (k.cfg a).alphaF = 1 ∧ (k.cfg a).precompMinmax = false := by
    revert hsub
    cases k <;> simp [Wrapper.cfg, Wrapper.subsamples, Wrapper.featSub]
  have hok : ForestDataOK (k.cfg a) (takePatch data rs cs) (w0.arrays.getD w.arrays.length []) := by
    refine ⟨?_, ?_, ?_, hd, hl, ⟨hfs.2.1.le, ?_⟩, ⟨hfs.2.2.1.le, ?_⟩, ?_⟩
    · unfold takePatch; simpa using hrne
    · intro row hrow
      rw [takePatch_width hrne]
      obtain ⟨i, _, rfl⟩ := List.mem_map.1 hrow
      simp
    · rw [hw0]; simp [takePatch]
    · rw [hfs.2.1, mul_one]
      have := List.length_pos_of_ne_nil hrne
      simp only [takePatch, List.length_map]
      exact_mod_cast this
    · rw [hfs.2.2.1, mul_one, takePatch_width hrne]
      exact_mod_cast List.length_pos_of_ne_nil hcne
    · intro _ _
      change FeatSubOK _ k.featSub
      rw [hfs.1]
      trivial
  have hsolv : ForestSolvable (k.cfg a) (takePatch data rs cs) (w0.arrays.getD w.arrays.length []) := by
    unfold ForestSolvable
    have e1 : (k.cfg a).solver = .exact := hs
    have e2 : (k.cfg a).binType = some k.binType := rfl
    rw [e1, e2]
    by_cases hbt : k.binType = .linear
    · rw [hbt]
      simp only []
      obtain ⟨⟨B, hB, hB2⟩, hdist⟩ := hlin hbt
      refine ⟨Or.inr ⟨B, ?_, hB2⟩, Or.inr ⟨hfs.2.2.2, hfs.1, hfs.2.2.1, Or.inl ?_⟩⟩
      · change (if k.binType = .identity then none else a.numBins) = _
        rw [hbt, if_neg (by simp)]
        exact hB
      · unfold takePatch
        refine List.Nodup.map_on ?_ hr.distinct
        intro i hi j hj hij
        have hc0 : cs.getD 0 0 ∈ cs := by
          rw [List.getD_eq_getElem _ _ (List.length_pos_of_ne_nil hcne)]
          exact List.getElem_mem _
        have h1 : ∀ c ∈ cs, (data.getD i []).getD c 0 = (data.getD j []).getD c 0 := by
          rw [List.map_inj_left] at hij
          exact hij
        have h2 := h1 _ hc0
        have h3 := hdist _ (hc.range _ hc0)
        have key : ∀ n (hn : n < data.length), (data.getD n []).getD (cs.getD 0 0) 0 =
            (data.map (fun r => r.getD (cs.getD 0 0) 0))[n]'(by simpa using hn) := by
          intro n hn
          rw [List.getElem_map, List.getD_eq_getElem _ _ hn]
        rw [key i (hr.range i hi), key j (hr.range j hj)] at h2
        exact (List.Nodup.getElem_inj_iff h3).1 h2
    · have : k.binType = .identity := by
        revert hsub hbt
        cases k <;> simp [Wrapper.subsamples, Wrapper.binType]
      rw [this]
      trivial
  obtain ⟨f, w1, f', w', hi, hf⟩ := C85_constructed R mem (k.cfg a) a.budget w0 (takePatch data rs cs) w.arrays.length
    (fun hb => ⟨by
      have hb' : k.boosts = true := hb
      change (if k.boosts = true then a.boostingLr else none) ≠ none
      rw [if_pos hb']
      exact hlr hb', by
      have hb' : k.boosts = true := hb
      change k.isCls = false
      by_contra hc
      rw [hk (by simpa using hc)] at hb'
      cases hb'⟩) (fun h => by cases h) (by
      intro hcl y hy
      rw [hw0] at hy
      obtain ⟨i, hi, rfl⟩ := List.mem_map.1 hy
      refine hint hcl _ ?_
      have hi' : i < (w.arrays.getD ref []).length := hlen ▸ hr.range i hi
      rw [List.getD_eq_getElem (w.arrays.getD ref []) _ hi']
      exact List.getElem_mem _) hok hsolv
  refine ⟨⟨f, some cs⟩, w1, ⟨f', some cs⟩, w', ?_, ?_⟩
  · unfold Wrapper.init
    rw [if_neg (by
      rintro ⟨_, h2 | h2⟩
      · rw [hN] at h2; cases h2
      · rw [hF] at h2; cases h2), if_neg (by
      rintro ⟨h1, h2⟩
      refine hlr ?_ h2
      revert h1
      cases k <;> simp [Wrapper.needsLr, Wrapper.boosts]), if_pos hsub]
    simp only [hN, hF, Option.getD_some, hp, hlab]
    unfold Wrapper.super
    rw [if_neg (by
      rintro ⟨h1, h2⟩
      rw [hk h1] at h2
      cases h2)]
    change (match Forest.init R w0 _ _ _ _ _ with | .error e => _ | .ok (f, w') => _) = _
    rw [hi]
  · unfold WrapObj.fit
    rw [hf]

end

section

/-- A process with four labels. -/
def exWorldPatch : World ℚ Nat := { glob := ⟨0, 0⟩, arrays := [[0, 0, 1, 1]] }

/-- Four rows whose second column decides the label. -/
def exDataPatch : List (List ℚ) := [[5, 0], [5, 1], [5, 2], [5, 3]]

/-- A random-patches classifier with one tree on half of the columns. -/
def exArgsPatch : WrapArgs ℚ :=
  { (Wrapper.patchesC.defaults : WrapArgs ℚ) with maxDepth := .some 3, nEstimators := 1, alphaN := some 1, alphaF := some (1 / 2) }

/-- C65 fails: trained on column 1, the wrapper predicts class 1 for the training row (5, 0) of class 0, because it reads column 0; for the row
reduced to column 1 it predicts class 0. -/
theorem C65_refuted :
    (do let (o, w) ← Wrapper.init rngQ .patchesC exArgsPatch exWorldPatch (some exDataPatch) (some 0)
        let (o, _) ← o.fit rngQ exMems w none none
        let (p, o) ← o.predict [5, 0]
        let (q, o) ← o.predict [0]
        pure (o.featIdcs, p, q)).toOption = some (some [1], .cls 1 [0, 1], .cls 0 [1, 0]) := by
  decide +kernel

/-- The hypotheses of `C65_partial` are met by the datapoint (0, 0), of `C65_reads_prefix` by (5, 0) and (5, 3). -/
example :
    (do let (o, w) ← Wrapper.init rngQ .patchesC exArgsPatch exWorldPatch (some exDataPatch) (some 0)
        let (o, _) ← o.fit rngQ exMems w none none
        let (p, o) ← o.predict [0, 0]
        let (q, o) ← o.predict [5, 3]
        pure (o.featIdcs, p, q)).toOption = some (some [1], .cls 0 [1, 0], .cls 1 [0, 1]) := by
  decide +kernel

/-- C64 fails also for the number of bins: with a depth and a learning rate, but the default `num_bins=None`, a boosted extremely-random forest
cannot be fitted to the example data; with three bins it can. -/
theorem C64_default_bins :
    let a : WrapArgs ℚ := { (Wrapper.gbExtraR.defaults : WrapArgs ℚ) with maxDepth := .some 3, nEstimators := 1, boostingLr := some (1 / 2) }
    (do let (o, w) ← Wrapper.init rngQ .gbExtraR a exWorldReg (some exData) (some 0)
        let (_, w) ← o.fit rngQ exMems w none none
        pure w.arrays).toOption = none ∧
    (do let (o, w) ← Wrapper.init rngQ .gbExtraR { a with numBins := some 3 } exWorldReg (some exData) (some 0)
        let (_, w) ← o.fit rngQ exMems w none none
        pure w.arrays).toOption = some [[0, 0, 4, 0, 0, 16]] := by
  decide +kernel

/-- The constructors return with the defaults, so that `C64_refuted` is about something: a random forest. -/
example : (Wrapper.init rngQ .forestC Wrapper.forestC.defaults exWorld (some exData) (some 0)).toOption.isSome = true := by decide +kernel

/-- The hypotheses of `C64_depth_partial` are met: a random forest of depth 3. -/
example :
    let a : WrapArgs ℚ := { (Wrapper.forestC.defaults : WrapArgs ℚ) with maxDepth := .some 3 }
    ForestDataOK (Wrapper.forestC.cfg a) exData (exWorld.arrays.getD 0 []) ∧
      ForestSolvable (Wrapper.forestC.cfg a) exData (exWorld.arrays.getD 0 []) :=
  ⟨⟨by decide, by decide, by decide, by decide, fun m h => (by cases h), by decide +kernel, by decide +kernel, fun _ _ => trivial⟩, trivial⟩

/-- The hypotheses of `C64_depth_partial` are met: a histogram random forest of depth 3 with the default eleven bins. -/
example :
    let a : WrapArgs ℚ := { (Wrapper.histC.defaults : WrapArgs ℚ) with maxDepth := .some 3 }
    ForestDataOK (Wrapper.histC.cfg a) exData (exWorld.arrays.getD 0 []) ∧
      ForestSolvable (Wrapper.histC.cfg a) exData (exWorld.arrays.getD 0 []) :=
  ⟨⟨by decide, by decide, by decide, by decide, fun m h => (by cases h), by decide +kernel, by decide +kernel, fun _ _ => trivial⟩,
    Or.inr ⟨11, rfl, by omega⟩, Or.inl ⟨rfl, by decide +kernel⟩⟩

/-- The hypotheses of `C64_patches_partial` and of `C86_patch` are met: the random-patches classifier above, and a boosted one that leaves the
caller's labels alone. -/
example :
    let a : WrapArgs ℚ := { exArgsPatch with boostingLr := some 1, alphaF := some 1, alphaN := some (3 / 4) }
    (∀ j < 2, (exData.map (fun r => r.getD j 0)).Nodup) ∧
    (do let (o, w) ← Wrapper.init rngQ .gbHistPatchesR a exWorldReg (some exData) (some 0)
        let (o, w) ← o.fit rngQ exMems w none none
        pure (o.featIdcs, w.arrays.map List.length, w.arrays.getD 0 [])).toOption = some (some [0, 1], [6, 5], [1, 2, 4, 7, 11, 16]) := by
  decide +kernel

end

end FF
