import Verif.Proofs.Blind

/-!
# Rows a tree was not given have no influence on it (C158)

`A` are the arguments of a tree; `d'`, `l'` another table and other labels that agree with those of `A` in the rows `A` gives to the tree
(`SameAt`) and hold anything elsewhere. For a forest the two runs are `runForest … data` and `runForest … data'` with the same parameters.
-/

namespace FF

open Spec

set_option linter.unusedSectionVars false

variable {K : Type} [Field K] [LinearOrder K] [IsStrictOrderedRing K] [FloorRing K] [NpFun K] {G : Type}

/-- The tree grown on the other table asks the same questions and has the same leaves (or both calls raise alike), for every solver and bin
type, with and without a budget. -/
theorem C158_tree (R : Rng K G) (mem : Nat → Junk K) (A : TreeArgs K) (glob : Glob G) (d' : List (List K)) (l' : List K)
    (hd : SameAt A.rows A.data d') (hl : SameAt A.rows A.labels l')
    (hf : A.feats ≠ none ∨ (d'.getD 0 []).length = (A.data.getD 0 []).length)
    (hmd : A.cfg.makeDiscrete = false ∨ A.cfg.binType = some .linear ∨ A.cfg.binType = some .identity) :
    runTree R mem { A with data := d', labels := l' } glob = (runTree R mem A glob).map (Tree.seeing d' l') := by
  have hdf : defaultFeats d' A.feats = defaultFeats A.data A.feats := by
    unfold defaultFeats
    cases hfe : A.feats with
    | some f => rfl
    | none =>
      have hw := hf.resolve_left (fun h => h hfe)
      have hn := hd.1
      dsimp only
      cases h1 : A.data with
      | nil =>
        rw [h1] at hn
        rw [List.length_eq_zero_iff.1 hn]
      | cons row rows =>
        cases h2 : d' with
        | nil => rw [h1, h2] at hn; simp at hn
        | cons row' rows' =>
          rw [h1, h2] at hw
          simp only [List.getD_cons_zero] at hw
          dsimp only
          rw [hw]
  obtain ⟨c1, c2⟩ := treeRun_seeing (R := R) (mem := mem) hmd hd hl (disc := A.disc) (budget := A.budget) (seed := A.seed) hdf
    (idcs := A.idcs) rfl
  unfold runTree
  dsimp only
  rw [c1]
  cases h0 : Tree.init R A.cfg A.data A.labels A.disc A.budget A.seed A.idcs A.feats with
  | error e => rfl
  | ok p =>
    obtain ⟨t0, g0⟩ := p
    simp only [Except.map, Bind.bind, Except.bind]
    rw [c2 t0 g0 h0 glob]
    cases Tree.fit R mem t0 glob none none <;> rfl

/-- So it answers every point alike. -/
theorem C158_answers (R : Rng K G) (mem : Nat → Junk K) (A : TreeArgs K) (glob : Glob G) (d' : List (List K)) (l' : List K)
    (hd : SameAt A.rows A.data d') (hl : SameAt A.rows A.labels l')
    (hf : A.feats ≠ none ∨ (d'.getD 0 []).length = (A.data.getD 0 []).length)
    (hmd : A.cfg.makeDiscrete = false ∨ A.cfg.binType = some .linear ∨ A.cfg.binType = some .identity) (t : Tree K G)
    (h : runTree R mem A glob = .ok t) :
    ∃ t', runTree R mem { A with data := d', labels := l' } glob = .ok t' ∧ t'.nodes = t.nodes ∧ t'.numQueries = t.numQueries ∧
      ∀ x, (t'.predict x).map Prod.fst = (t.predict x).map Prod.fst := by
  refine ⟨t.seeing d' l', ?_, rfl, rfl, ?_⟩
  · rw [C158_tree R mem A glob d' l' hd hl hf hmd, h]
    rfl
  · intro x
    rw [predict_seeing]
    cases t.predict x <;> rfl

theorem SameAt.map {α β : Type} {rows : List Nat} {a a' : List α} (f : α → β) (h : SameAt rows a a') : SameAt rows (a.map f) (a'.map f) :=
  ⟨by rw [List.length_map, List.length_map, h.1], fun i hi => by rw [List.getElem?_map, List.getElem?_map, h.2 i hi]⟩

theorem runForest_start {R : Rng K G} {mem : Nat → Nat → Junk K} {w w1 : World K G} {cfg : ForestCfg K} {data : List (List K)} {r : Nat}
    {f : Forest K G} (h : runForest R mem w cfg data r none = .ok (f, w1))
    (hmd : cfg.makeDiscrete = false ∨ cfg.binType = some .linear ∨ cfg.binType = some .identity) (hmm : cfg.precompMinmax = false) :
    ∃ (c : ForestCfg K) (f0 : Forest K G) (w0 : World K G),
      c = { cfg with makeDiscrete := false } ∧ f0.cfg = c ∧
      f0.classes = (if cfg.isCls then classToIdx (npUnique (w.arrays.getD r [])) else []) ∧
      f0.rng = R.seed cfg.randomState ∧ f0.oobList = (if cfg.oobScore then some [] else none) ∧ f0.discrete = none ∧ f0.minmax = none ∧
      f0.remaining = none ∧ w0.glob = setSeed R cfg.randomState ∧ f0.trees = [] ∧
      (∃ r0, f0.orgRef = some r0 ∧ w0.arrays.getD r0 [] =
        if cfg.isCls then (w.arrays.getD r []).map truncInt else w.arrays.getD r []) ∧
      forestLoop R mem data (data.getD 0 []).length (List.range cfg.nEstimators) f0 w0 = .ok (f, w1) := by
  have hmk : (if cfg.binType = some .linear ∨ cfg.binType = some .identity then false else cfg.makeDiscrete) = false := by
    rcases hmd with h | h
    · rw [h]; split_ifs <;> rfl
    · rw [if_pos h]
  unfold runForest at h
  cases hi : Forest.init R w cfg none (some data) (some r) none with
  | error e => rw [hi] at h; cases h
  | ok p =>
    obtain ⟨fi, wi⟩ := p
    rw [hi] at h
    simp only [Bind.bind, Except.bind] at h
    have hfi : fi = { cfg := { cfg with makeDiscrete := false }
                      classes := if cfg.isCls then classToIdx (npUnique (w.arrays.getD r [])) else []
                      data := some data, orgRef := some r, newRef := some r, trees := [], discrete := none, minmax := none
                      remaining := none, numQueries := 0, rng := R.seed cfg.randomState
                      oobList := none, mdi := none, budgetAttr := none } ∧ wi = { w with glob := setSeed R cfg.randomState } := by
      unfold Forest.init at hi
      simp only [hmk] at hi
      split at hi
      · cases hi
      split at hi
      · cases hi
      split at hi
      · cases hi
      simp only [Except.ok.injEq, Prod.mk.injEq] at hi
      exact ⟨hi.1.symm, hi.2.symm⟩
    obtain ⟨rfl, rfl⟩ := hfi
    obtain ⟨dat, f0, w0, hs, hl⟩ := Forest_fit_start h
    have hdat : dat = data := by rw [hs.dat_eq]; rfl
    subst hdat
    have hdisc : f0.discrete = none := by
      have := hs.disc
      simp only [maybeDiscrete, Bool.false_eq_true, if_false, Except.ok.injEq] at this
      exact this.symm
    refine ⟨_, f0, w0, rfl, by rw [hs.eq], by rw [hs.eq], by rw [hs.eq], by rw [hs.eq], hdisc, ?_, by rw [hs.eq], hs.glob, by rw [hs.eq], ?_, hl⟩
    · rw [hs.eq]
      simp [hmm]
    · by_cases hc : cfg.isCls = true
      · obtain ⟨a, b, e1, _, e3, _, e5⟩ := hs.cls hc
        cases e1
        refine ⟨_, e3, ?_⟩
        rw [e5, if_pos hc]
        simp
      · obtain ⟨e1, _, e3⟩ := hs.reg ((Bool.not_eq_true _).mp hc)
        refine ⟨r, e1, ?_⟩
        rw [e3, if_neg hc]

/-- Two runs of a bagged forest (exact solver, no RANDOM bins, no budget, no precomputed ranges) on tables with the same shape and the same
classes: the trees get the same rows, and a tree whose rows are the same in both tables is the same. -/
theorem C158_forest (R : Rng K G) (mem : Nat → Nat → Junk K) (w w1 w' w1' : World K G) (cfg : ForestCfg K) (data data' : List (List K))
    (r r' : Nat) (f f' : Forest K G)
    (hb : cfg.boosting = false) (hs : cfg.solver = .exact) (hbin : cfg.binType ≠ some .random)
    (hmd : cfg.makeDiscrete = false ∨ cfg.binType = some .linear ∨ cfg.binType = some .identity) (hmm : cfg.precompMinmax = false)
    (hlen : data'.length = data.length) (hwid : (data'.getD 0 []).length = (data.getD 0 []).length)
    (hcl : cfg.isCls = true → npUnique (w'.arrays.getD r' []) = npUnique (w.arrays.getD r []))
    (h : runForest R mem w cfg data r none = .ok (f, w1)) (h' : runForest R mem w' cfg data' r' none = .ok (f', w1')) :
    f'.trees.length = f.trees.length ∧ f'.oobList = f.oobList ∧
    ∀ (k : Nat) (t t' : Tree K G), f.trees[k]? = some t → f'.trees[k]? = some t' → rowsOf t' 0 = rowsOf t 0 ∧
      (SameAt (rowsOf t 0) data data' → SameAt (rowsOf t 0) (w.arrays.getD r []) (w'.arrays.getD r' []) →
        t'.nodes = t.nodes ∧ ∀ x, (t'.predict x).map Prod.fst = (t.predict x).map Prod.fst) := by
  obtain ⟨c, f0, w0, rfl, a1, a2, a3, a4, a5, a6, a7, a8, a9, a10, a11⟩ := runForest_start h hmd hmm
  obtain ⟨c', f0', w0', rfl, b1, b2, b3, b4, b5, b6, b7, b8, b9, b10, b11⟩ := runForest_start h' hmd hmm
  have hT : Twins data data' _ _ f0 f0' w0 w0' :=
    ⟨b1.trans a1.symm, by
      rw [b2, a2]
      by_cases hc : cfg.isCls = true
      · rw [hcl hc]
      · rw [if_neg hc, if_neg hc], b3.trans a3.symm, b4.trans a4.symm, b5.trans a5.symm, b6.trans a6.symm, a7, b7, b8.trans a8.symm,
      a10, b10, by rw [a9, b9]; exact List.Forall₂.nil⟩
  rw [hwid] at b11
  have hTe := forestLoop_twins hT hlen (by rw [a1]; exact hb) (by
    unfold QuietTree Forest.treeCfg
    rw [a1]
    exact ⟨hs, hbin⟩) a11 b11
  refine ⟨hTe.trees.length_eq.symm, hTe.oob, ?_⟩
  intro k t t' ht ht'
  obtain ⟨hk, rfl⟩ := List.getElem?_eq_some_iff.1 ht
  obtain ⟨hk', rfl⟩ := List.getElem?_eq_some_iff.1 ht'
  have htw := List.Forall₂.get hTe.trees hk hk'
  refine ⟨htw.1, ?_⟩
  intro hd hl
  have := htw.2 hd (by
    by_cases hc : cfg.isCls = true
    · rw [if_pos hc, if_pos hc]
      exact hl.map _
    · rw [if_neg hc, if_neg hc]
      exact hl)
  have e : f'.trees[k] = f.trees[k].seeing _ _ := this
  rw [e]
  refine ⟨rfl, fun x => ?_⟩
  rw [predict_seeing]
  cases f.trees[k].predict x <;> rfl

theorem ansVec_congr {t t' : Tree K G} {x : List K} (h : (t'.predict x).map Prod.fst = (t.predict x).map Prod.fst) : ansVec t' x = ansVec t x := by
  unfold ansVec
  cases e1 : t'.predict x with
  | error e =>
    rw [e1] at h
    cases e2 : t.predict x with
    | error e' => rfl
    | ok q => rw [e2] at h; cases h
  | ok p =>
    rw [e1] at h
    cases e2 : t.predict x with
    | error e' => rw [e2] at h; cases h
    | ok q => rw [e2] at h; simp only [Except.map, Except.ok.injEq] at h; simp only [h]

/-- The out-of-bag vote on row `i` is honest: whatever row `i` of the table and its target are changed to (the classes staying the same), the
trees trained without row `i` are as many and give every point the same sum of answers. -/
theorem C158_oob (R : Rng K G) (mem : Nat → Nat → Junk K) (w w1 w' w1' : World K G) (cfg : ForestCfg K) (data data' : List (List K))
    (r r' : Nat) (f f' : Forest K G)
    (hb : cfg.boosting = false) (hs : cfg.solver = .exact) (hbin : cfg.binType ≠ some .random)
    (hmd : cfg.makeDiscrete = false ∨ cfg.binType = some .linear ∨ cfg.binType = some .identity) (hmm : cfg.precompMinmax = false)
    (hlen : data'.length = data.length) (hwid : (data'.getD 0 []).length = (data.getD 0 []).length)
    (hll : (w'.arrays.getD r' []).length = (w.arrays.getD r []).length)
    (hcl : cfg.isCls = true → npUnique (w'.arrays.getD r' []) = npUnique (w.arrays.getD r []))
    (i : Nat) (hd : ∀ j : Nat, j ≠ i → data'[j]? = data[j]?)
    (hl : ∀ j : Nat, j ≠ i → (w'.arrays.getD r' [])[j]? = (w.arrays.getD r [])[j]?)
    (h : runForest R mem w cfg data r none = .ok (f, w1)) (h' : runForest R mem w' cfg data' r' none = .ok (f', w1')) :
    (oobTrees f' i).length = (oobTrees f i).length ∧ ∀ (x : List K) (c : Nat), oobVote f' x i c = oobVote f x i c := by
  obtain ⟨e1, _, e3⟩ := C158_forest R mem w w1 w' w1' cfg data data' r r' f f' hb hs hbin hmd hmm hlen hwid hcl h h'
  have key : List.Forall₂ (fun t t' : Tree K G => rowsOf t' 0 = rowsOf t 0 ∧ (i ∉ rowsOf t 0 → ∀ x, ansVec t' x = ansVec t x)) f.trees f'.trees := by
    rw [List.forall₂_iff_get]
    refine ⟨e1.symm, ?_⟩
    intro k hk hk'
    obtain ⟨h1, h2⟩ := e3 k (f.trees.get ⟨k, hk⟩) (f'.trees.get ⟨k, hk'⟩) (by simp) (by simp)
    refine ⟨h1, fun hi x => ansVec_congr ?_⟩
    exact (h2 ⟨hlen, fun j hj => hd j (fun hji => hi (hji ▸ hj))⟩ ⟨hll, fun j hj => hl j (fun hji => hi (hji ▸ hj))⟩).2 x
  unfold oobVote oobTrees
  clear e1 e3 h h'
  generalize f.trees = ts at key
  generalize f'.trees = ts' at key
  induction key with
  | nil => exact ⟨rfl, fun _ _ => rfl⟩
  | @cons t t' ts ts' h1 _ ih =>
    by_cases hi : i ∉ rowsOf t 0
    · have hi' : i ∉ rowsOf t' 0 := by rw [h1.1]; exact hi
      rw [List.filter_cons_of_pos (by simpa using hi'), List.filter_cons_of_pos (by simpa using hi)]
      refine ⟨by rw [List.length_cons, List.length_cons, ih.1], fun x c => ?_⟩
      rw [List.map_cons, List.map_cons, List.sum_cons, List.sum_cons, ih.2 x c, h1.2 hi x]
    · have hi' : ¬ i ∉ rowsOf t' 0 := by rw [h1.1]; exact hi
      rw [List.filter_cons_of_neg (by simpa using hi'), List.filter_cons_of_neg (by simpa using hi)]
      exact ih

/-! ### Examples and refutations -/

/-- A process with the given labels. -/
def blindWorld (l : List ℚ) : World ℚ Nat := { exWorld with arrays := [l] }

/-- The out-of-bag votes on row 0 for class 0 at some points. -/
def blindVotes (cfg : ForestCfg ℚ) (l : List ℚ) (d xs : List (List ℚ)) : Option (List ℚ) :=
  match runForest rngQ exMems (blindWorld l) cfg d 0 none with
  | .error _ => none
  | .ok (f, _) => some (xs.map (fun x => oobVote f x 0 0))

/-- Row 0 is replaced and its label flipped: both forests are built, with a tree that never saw row 0, and its votes are as before. -/
example : blindVotes { fcfgQ with oobScore := true } [0, 1, 1, 0, 1, 0] exData [[0, 5], [4, 1], [5, 1]] = some [0, 0, 1] ∧
    blindVotes { fcfgQ with oobScore := true } [1, 1, 1, 0, 1, 0] (exData.set 0 [100, 100]) [[0, 5], [4, 1], [5, 1]] = some [0, 0, 1] := by
  decide +kernel

example : (∀ j : Nat, j ≠ 0 → (exData.set 0 [100, 100])[j]? = exData[j]?) ∧ npUnique ([1, 1, 1, 0, 1, 0] : List ℚ) = npUnique [0, 1, 1, 0, 1, 0] :=
  ⟨fun j hj => by rw [List.getElem?_set_ne (Ne.symm hj)], by decide +kernel⟩

/-- A bootstrap sample that misses row 1: the table and the labels may hold anything there. -/
example : SameAt exArgsBoot.rows exArgsBoot.data (exArgsBoot.data.set 1 [77, 77]) ∧
    SameAt exArgsBoot.rows exArgsBoot.labels (exArgsBoot.labels.set 1 5) ∧
    (runTree rngQ exMem exArgsBoot exGlob).isOk = true := by
  refine ⟨⟨by simp, ?_⟩, ⟨by simp, ?_⟩, by decide +kernel⟩ <;> decide +kernel

/-- RANDOM bins: flipping the label of row 0 changes the out-of-bag vote on row 0. The number of random edges the first tree draws depends on
the label, and the second tree's seed comes from the same generator. -/
theorem C158_refuted_random :
    blindVotes { fcfgQ with oobScore := true, binType := some .random, numBins := some 6 } [0, 1, 1, 0, 1, 0] exData [[41 / 10, 0]] = some [0] ∧
    blindVotes { fcfgQ with oobScore := true, binType := some .random, numBins := some 6 } [1, 1, 1, 0, 1, 0] exData [[41 / 10, 0]] = some [1] := by
  decide +kernel

/-- Precomputed ranges with LINEAR bins: changing the features of row 0 changes the out-of-bag vote on row 0 at a fixed point, because the
edges of every tree are laid over the range of the whole table. -/
theorem C158_refuted_minmax :
    blindVotes { fcfgQ with oobScore := true, binType := some .linear, numBins := some 4, precompMinmax := true } [0, 1, 1, 0, 1, 0] exData
      [[2, 5]] = some [0] ∧
    blindVotes { fcfgQ with oobScore := true, binType := some .linear, numBins := some 4, precompMinmax := true } [0, 1, 1, 0, 1, 0]
      (exData.set 0 [100, 100]) [[2, 5]] = some [2 / 5] := by
  decide +kernel

end FF
