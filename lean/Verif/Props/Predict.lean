import Verif.Proofs.TreePredict
import Verif.Props.Tree

/-!
# C35 – C38: predictions of a fitted tree

`predict` also stores its answer in the leaf it ends in, so the statements speak about `t1`, the fitted tree `t` after any number of
calls of `predict` (`AfterPredicts`).
-/

namespace FF

open Spec

set_option linter.unusedSectionVars false

variable {K : Type} [Field K] [LinearOrder K] [IsStrictOrderedRing K] [FloorRing K] [NpFun K] {G : Type}
variable (R : Rng K G) (mem : Nat → Junk K) (A : TreeArgs K)

theorem GrowFacts.predict_parts {R : Rng K G} {mem : Nat → Junk K} {A : TreeArgs K} {dd : DiscDict K} {t0 t t1 t2 : Tree K G}
    (hf : GrowFacts R mem A dd t0 t)
    (ha : AfterPredicts t t1) {x : List K} {p : Pred K} (hp : t1.predict x = .ok (p, t2)) :
    ∃ leaf nd, IsLeaf t leaf ∧ Routes t x 0 leaf ∧ NodeAt t leaf nd ∧ nd.left = none ∧ rowsOf t leaf = nd.idcs ∧
      nodePred t.cfg nd = .ok p := by
  have h1 := (predict_cache (ha.cache hf.cache) x).1
  rw [hp] at h1
  unfold purePredict at h1
  cases hw : walk t.nodes x t.nodes.length 0 with
  | error e => rw [hw] at h1; cases h1
  | ok leaf =>
    rw [hw] at h1
    simp only [] at h1
    cases hn : t.nodes[leaf]? with
    | none => rw [hn] at h1; cases h1
    | some nd =>
      rw [hn] at h1
      have hr := walk_routes hw
      have hl := hr.isLeaf .root
      obtain ⟨_, nd', hn', hl', _⟩ := id hl
      obtain rfl := Option.some.inj (hn'.symm.trans hn)
      exact ⟨leaf, nd', hl, hr, hn', hl', by unfold rowsOf; rw [hn]; rfl, h1.symm⟩

theorem Fitted.predict_parts {R : Rng K G} {mem : Nat → Junk K} {A : TreeArgs K} {t t1 t2 : Tree K G} (h : Fitted R mem A t)
    (ha : AfterPredicts t t1) {x : List K} {p : Pred K} (hp : t1.predict x = .ok (p, t2)) :
    ∃ leaf nd, IsLeaf t leaf ∧ Routes t x 0 leaf ∧ NodeAt t leaf nd ∧ nd.left = none ∧ rowsOf t leaf = nd.idcs ∧
      nodePred t.cfg nd = .ok p := by
  obtain ⟨dd, t0, hf⟩ := h.facts
  exact hf.predict_parts ha hp

theorem GrowFacts.predict_of_route {R : Rng K G} {mem : Nat → Junk K} {A : TreeArgs K} {dd : DiscDict K} {t0 t t1 : Tree K G}
    (hf : GrowFacts R mem A dd t0 t)
    (hd : A.cfg.isCls = true → ClassesOK A.cfg.classes) (hrows : A.rows ≠ [])
    (ha : AfterPredicts t t1) {x : List K} {leaf : Nat} (hr : Routes t x 0 leaf) : ∃ p t2, t1.predict x = .ok (p, t2) := by
  have h1 := (predict_cache (ha.cache hf.cache) x).1
  obtain ⟨_, nd, hn, hl, _⟩ := hr.isLeaf .root
  obtain ⟨p, hp⟩ := hf.nodePred_total hd hn hl (hf.shape.rows_ne hrows hn)
  unfold purePredict at h1
  rw [routes_walk hf.shape hr _ (by omega)] at h1
  simp only [] at h1
  rw [show t.nodes[leaf]? = some nd from hn] at h1
  simp only [] at h1
  rw [hp] at h1
  cases ht : t1.predict x with
  | error e => rw [ht] at h1; cases h1
  | ok q => exact ⟨q.1, q.2, rfl⟩

theorem Fitted.predict_of_route {R : Rng K G} {mem : Nat → Junk K} {A : TreeArgs K} {t t1 : Tree K G} (h : Fitted R mem A t)
    (hd : A.cfg.isCls = true → ClassesOK A.cfg.classes) (hrows : A.rows ≠ [])
    (ha : AfterPredicts t t1) {x : List K} {leaf : Nat} (hr : Routes t x 0 leaf) : ∃ p t2, t1.predict x = .ok (p, t2) := by
  obtain ⟨dd, t0, hf⟩ := h.facts
  exact hf.predict_of_route hd hrows ha hr

/-! ### C36 -/

/-- C36. Whatever was predicted before, a classification tree answers with the class frequencies of the training labels in the leaf to
which the point is sent. They are non-negative and sum to 1. The label returned is a class that occurs in the leaf, no class is more
frequent there, and the classes listed before it are less frequent. -/
theorem C36_leaf_frequencies (t t1 t2 : Tree K G) (h : Fitted R mem A t) (hc : A.cfg.isCls = true) (hd : ClassesOK A.cfg.classes)
    (ha : AfterPredicts t t1) (x : List K) (p : Pred K) (hp : t1.predict x = .ok (p, t2)) :
    ∃ leaf ys label probs i, IsLeaf t leaf ∧ Routes t x 0 leaf ∧ ys = labelsOf A.labels (rowsOf t leaf) ∧ p = .cls label probs ∧
      probs = A.cfg.classes.map (fun c => freq ys c.1) ∧ (∀ q ∈ probs, 0 ≤ q) ∧ probs.sum = 1 ∧ label ∈ ys ∧
      A.cfg.classes[i]? = some (label, i) ∧
      ∀ (j : Nat) (c : K × Nat), A.cfg.classes[j]? = some c → freq ys c.1 ≤ freq ys label ∧ (j < i → freq ys c.1 < freq ys label) := by
  obtain ⟨dd, t0, hf⟩ := h.facts
  obtain ⟨leaf, nd, h1, h2, h3, _, h5, h6⟩ := h.predict_parts ha hp
  obtain ⟨label, i, e1, e2, e3, e4, e5⟩ := hf.nodePred_cls hc hd h3 h6
  have hlen : (labelsOf A.labels nd.idcs).length = nd.idcs.length := List.length_map ..
  have hpos : (0 : K) < (labelsOf A.labels nd.idcs).length := by
    rw [hlen]
    exact_mod_cast List.length_pos_iff.2 e2
  refine ⟨leaf, labelsOf A.labels nd.idcs, label, _, i, h1, h2, by rw [h5], e1, rfl, ?_, ?_, ?_, e4, e5⟩
  · intro q hq
    obtain ⟨c, _, rfl⟩ := List.mem_map.1 hq
    unfold freq
    positivity
  · have hs := sum_count_eq_length (A.cfg.classes.map Prod.fst) hd.1 _ e3
    rw [List.map_map] at hs
    have : (A.cfg.classes.map (fun c => freq (labelsOf A.labels nd.idcs) c.1)).sum =
        (((A.cfg.classes.map ((fun k => (labelsOf A.labels nd.idcs).count k) ∘ Prod.fst)).sum : Nat) : K) /
          ((labelsOf A.labels nd.idcs).length : K) := by
      generalize A.cfg.classes = cs
      induction cs with
      | nil => simp
      | cons c cs ih =>
        rw [List.map_cons, List.sum_cons, ih, List.map_cons, List.sum_cons, Nat.cast_add, add_div]
        rfl
    rw [this, hs, div_self hpos.ne']
  · obtain ⟨y, hy⟩ := List.exists_mem_of_ne_nil _ (List.length_pos_iff.1 (by exact_mod_cast hpos) : labelsOf A.labels nd.idcs ≠ [])
    obtain ⟨c, hc1, hc2⟩ := List.mem_map.1 (e3 y hy)
    obtain ⟨j, hj⟩ := List.mem_iff_getElem?.1 hc1
    have h7 := (e5 j c hj).1
    rw [hc2] at h7
    have h8 : 0 < freq (labelsOf A.labels nd.idcs) y := by
      unfold freq
      have : (0 : K) < ((labelsOf A.labels nd.idcs).count y : Nat) := by exact_mod_cast List.count_pos_iff.2 hy
      exact div_pos this hpos
    by_contra hno
    have : freq (labelsOf A.labels nd.idcs) label = 0 := by
      unfold freq
      rw [List.count_eq_zero_of_not_mem hno]
      simp
    rw [this] at h7
    exact absurd h8 (not_lt.2 h7)

/-- C36 and C37, no exception: a fitted tree that has training rows answers for every point that has all its columns. -/
theorem C36_predict_total (t t1 : Tree K G) (h : Fitted R mem A t) (hd : A.cfg.isCls = true → ClassesOK A.cfg.classes)
    (hrows : A.rows ≠ []) (ha : AfterPredicts t t1) (x : List K) (hx : ∀ f ∈ A.cols, f < x.length) :
    ∃ p t2, t1.predict x = .ok (p, t2) := by
  obtain ⟨dd, t0, hf⟩ := h.facts
  obtain ⟨leaf, hr⟩ := hf.routes_total hx t.nodes.length 0 (by omega) ((hf.shape.inTree 0).1 .root)
  exact h.predict_of_route hd hrows ha hr

/-! ### C37 -/

/-- C37. Whatever was predicted before, a regression tree answers with the mean of the training targets in the leaf to which the point
is sent, which is between any bounds of the targets of the training rows. -/
theorem C37_leaf_mean (t t1 t2 : Tree K G) (h : Fitted R mem A t) (hc : A.cfg.isCls = false)
    (ha : AfterPredicts t t1) (x : List K) (p : Pred K) (hp : t1.predict x = .ok (p, t2)) :
    ∃ leaf v, IsLeaf t leaf ∧ Routes t x 0 leaf ∧ rowsOf t leaf ≠ [] ∧ p = .reg v ∧ v = mean (labelsOf A.labels (rowsOf t leaf)) ∧
      ∀ lo hi, (∀ y ∈ labelsOf A.labels A.rows, lo ≤ y ∧ y ≤ hi) → lo ≤ v ∧ v ≤ hi := by
  obtain ⟨dd, t0, hf⟩ := h.facts
  obtain ⟨leaf, nd, h1, h2, h3, h4, h5, h6⟩ := h.predict_parts ha hp
  obtain ⟨e1, e2⟩ := hf.nodePred_reg hc h3 h4 h6
  refine ⟨leaf, _, h1, h2, by rw [h5]; exact e2, e1, by rw [h5], ?_⟩
  intro lo hi hb
  apply mean_between
  · intro e
    exact e2 (List.map_eq_nil_iff.1 e)
  · intro y hy
    obtain ⟨i, hi1, hi2⟩ := List.mem_map.1 hy
    exact hb y (List.mem_map.2 ⟨i, hf.shape.perm.subset (List.mem_flatMap.2 ⟨leaf, (hf.shape.isLeaf leaf).2 h1, by rw [h5]; exact hi1⟩), hi2⟩)

/-! ### C38 -/

/-- C38. The answer for `x` (or the exception raised) does not depend on the calls of `predict` made before. -/
theorem C38_history_independent (t t1 : Tree K G) (h : Fitted R mem A t) (ha : AfterPredicts t t1) (x : List K) :
    (t1.predict x).map Prod.fst = (t.predict x).map Prod.fst := by
  obtain ⟨dd, t0, hf⟩ := h.facts
  rw [(predict_cache (ha.cache hf.cache) x).1, (predict_cache hf.cache x).1]

/-- C38 for `predict_batch`: the answers for a batch are the answers for its points one by one. -/
theorem C38_batch (t t1 : Tree K G) (h : Fitted R mem A t) (ha : AfterPredicts t t1) (xs : List (List K)) :
    (t1.predictBatch xs).map Prod.fst = xs.mapM (fun x => (t.predict x).map Prod.fst) := by
  induction xs generalizing t1 with
  | nil => rfl
  | cons x xs ih =>
    have h1 := C38_history_independent R mem A t t1 h ha x
    rw [Tree.predictBatch, List.mapM_cons, ← h1]
    cases hp : t1.predict x with
    | error e => rfl
    | ok q =>
      obtain ⟨p, t2⟩ := q
      have h2 := ih t2 (.call ha hp)
      simp only [Except.map, bind, Except.bind, pure, Except.pure] at h2 ⊢
      rw [← h2]
      cases t2.predictBatch xs with
      | error e => rfl
      | ok r => rfl

/-! ### C35 -/

/-- C35. Every training row is sent to a leaf that holds it. It is the only leaf that holds the row (a row drawn several times by the
bootstrap is held several times by that one leaf). -/
theorem C35_training_row (t : Tree K G) (h : Fitted R mem A t) (i : Nat) (hi : i ∈ A.rows) :
    ∃ leaf, IsLeaf t leaf ∧ i ∈ rowsOf t leaf ∧ Routes t (A.data.getD i []) 0 leaf ∧
      ∀ leaf', IsLeaf t leaf' → i ∈ rowsOf t leaf' → leaf' = leaf := by
  obtain ⟨dd, t0, hf⟩ := h.facts
  obtain ⟨nd, h1, h2, _⟩ := hf.shape.root
  obtain ⟨leaf, hr, hm⟩ := hf.routes_row t.nodes.length 0 nd (by omega) h1 (by rw [h2]; exact hi)
  refine ⟨leaf, hr.isLeaf .root, hm, hr, ?_⟩
  rintro leaf' ⟨_, nd', hn', hl', hr'⟩ hm'
  have hm'' : i ∈ nd'.idcs := by
    unfold rowsOf at hm'
    rw [show t.nodes[leaf']? = some nd' from hn'] at hm'
    exact hm'
  exact Routes.det hf.shape (hf.routes_up leaf' nd' leaf' hn' hm'' (.stop hn' hl' hr')) hr

/-- C35 in terms of answers: `predict` on a training row answers from the leaf that holds the row, with the frequencies (the mean) of
the labels there. -/
theorem C35_predict_training_row (t t1 : Tree K G) (h : Fitted R mem A t) (hd : A.cfg.isCls = true → ClassesOK A.cfg.classes)
    (ha : AfterPredicts t t1) (i : Nat) (hi : i ∈ A.rows) (leaf : Nat) (hl : IsLeaf t leaf) (hm : i ∈ rowsOf t leaf) :
    ∃ p t2, t1.predict (A.data.getD i []) = .ok (p, t2) ∧
      (A.cfg.isCls = true → ∃ label, p = .cls label (A.cfg.classes.map (fun c => freq (labelsOf A.labels (rowsOf t leaf)) c.1))) ∧
      (A.cfg.isCls = false → p = .reg (mean (labelsOf A.labels (rowsOf t leaf)))) := by
  obtain ⟨leaf', _, _, h3, h4⟩ := C35_training_row R mem A t h i hi
  obtain rfl := h4 leaf hl hm
  obtain ⟨p, t2, hp⟩ := h.predict_of_route hd (List.ne_nil_of_mem hi) ha h3
  obtain ⟨dd, t0, hf⟩ := h.facts
  obtain ⟨leaf2, nd, b1, b2, b3, b4, b5, b6⟩ := h.predict_parts ha hp
  obtain rfl := Routes.det hf.shape h3 b2
  refine ⟨p, t2, hp, ?_, ?_⟩
  · intro hc
    obtain ⟨label, _, e1, _⟩ := hf.nodePred_cls hc (hd hc) b3 b6
    exact ⟨label, by rw [b5]; exact e1⟩
  · intro hc
    rw [b5]
    exact (hf.nodePred_reg hc b3 b4 b6).1

/-! ### Examples -/

theorem cfgQ_classes : ClassesOK exArgs.cfg.classes := by
  refine ⟨?_, ?_⟩ <;> decide +kernel

/-- A classification tree with a mixed leaf, asked four times; the first and the last question are the same. -/
example : ∃ t, Fitted rngQ exMem exArgsMab t ∧
    ((t.predictBatch [[0, 2], [4, 1], [4, 9], [0, 2]]).toOption.map Prod.fst ==
      some [.cls 0 [1 / 2, 1 / 2], .cls 0 [1, 0], .cls 1 [0, 1], .cls 0 [1 / 2, 1 / 2]]) = true :=
  runTree_exists (glob := exGlob) (by decide +kernel)

/-- A regression tree. -/
example : ∃ t, Fitted rngQ exMem exArgsReg t ∧
    ((t.predictBatch [[0, 2], [4, 1], [4, 9], [0, 2]]).toOption.map Prod.fst == some [.reg 0, .reg (3 / 2), .reg 7, .reg 0]) = true :=
  runTree_exists (glob := exGlob) (by decide +kernel)

/-- A tree grown from a bootstrap sample with repeated rows, one random feature per node: the rows of the sample end in the leaves that
hold them. -/
example : ∃ t, Fitted rngQ exMem exArgsBoot t ∧
    ((t.leaves.map (rowsOf t) == [[0, 0], [3, 2], [5, 5, 4, 4]]) && exArgsBoot.rows.map (fun i =>
      (walk t.nodes (exArgsBoot.data.getD i []) t.nodes.length 0).toOption.map (rowsOf t)) ==
        [some [3, 2], some [0, 0], some [5, 5, 4, 4], some [5, 5, 4, 4], some [0, 0], some [3, 2], some [5, 5, 4, 4],
          some [5, 5, 4, 4]]) = true :=
  runTree_exists (glob := exGlob) (by decide +kernel)

/-- The hypotheses of the statements are met together: a tree asked about a training row after another call. -/
example : ∃ t t1 p t2, Fitted rngQ exMem exArgsReg t ∧ AfterPredicts t t1 ∧ t1.predict (exArgsReg.data.getD 4 []) = .ok (p, t2) := by
  obtain ⟨t, ht, _⟩ := runTree_exists (R := rngQ) (mem := exMem) (A := exArgsReg) (glob := exGlob) (p := fun _ => true) (by decide +kernel)
  have hr : exArgsReg.rows ≠ [] := by decide
  have hc : exArgsReg.cfg.isCls = true → ClassesOK exArgsReg.cfg.classes := fun h => by cases h
  obtain ⟨p1, t1, h1⟩ := C36_predict_total rngQ exMem exArgsReg t t ht hc hr .none [0, 2] (by decide)
  obtain ⟨p2, t2, h2⟩ := C36_predict_total rngQ exMem exArgsReg t t1 ht hc hr (.call .none h1) (exArgsReg.data.getD 4 []) (by decide)
  exact ⟨t, t1, p2, t2, ht, .call .none h1, h2⟩

end FF
