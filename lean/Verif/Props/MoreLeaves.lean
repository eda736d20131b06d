import Verif.Props.TrainError
import Verif.Props.Prefix
import Verif.Props.Cart

/-!
# Weaker limits and the training error (C140)

A tree that is grown under weaker limits is at least as good on the training rows: by C102 and C103 it only divides the leaves of the other
tree further, and by C93 a tree gives the best answers that its leaves allow.
-/

namespace FF

open Spec

set_option linter.unusedSectionVars false

variable {K : Type} [Field K] [LinearOrder K] [IsStrictOrderedRing K] [FloorRing K] [NpFun K] {G G' : Type}

/-- Rows that are together in a leaf of `t'` are together in a leaf of `t`. -/
def Finer (t : Tree K G) (t' : Tree K G') : Prop :=
  ∀ leaf', IsLeaf t' leaf' → ∀ i ∈ rowsOf t' leaf', ∀ j ∈ rowsOf t' leaf', ∃ leaf, IsLeaf t leaf ∧ i ∈ rowsOf t leaf ∧ j ∈ rowsOf t leaf

theorem rowsOf_node {t : Tree K G} {id : Nat} {nd : Node K} (h : t.nodes[id]? = some nd) : rowsOf t id = nd.idcs := by
  simp [rowsOf, h]

/-- The rows of a node are rows of every node on the way to it. -/
theorem Routes.rows_subset {data : List (List K)} {rows : List Nat} {t : Tree K G} (hs : TShape data rows t) {x : List K} {id leaf : Nat}
    (h : Routes t x id leaf) : ∀ i ∈ rowsOf t leaf, i ∈ rowsOf t id := by
  induction h with
  | stop => exact fun i hi => hi
  | @left id l leaf f v nd hn hl hf hx hv h ih =>
    intro i hi
    rcases hs.links id nd hn with ⟨h1, _⟩ | ⟨l', r', nl, nr, h1, h2, _, _, _, h3, h4, h5⟩
    · rw [hl] at h1; cases h1
    · obtain rfl := Option.some.inj (hl.symm.trans h1)
      obtain ⟨f', _, _, e1, _⟩ := h5.feat
      have := ih i hi
      rw [rowsOf_node h3, e1] at this
      rw [rowsOf_node hn]
      exact (List.mem_filter.1 this).1
  | @right id r leaf f v nd hn hr hf hx hv h ih =>
    intro i hi
    rcases hs.links id nd hn with ⟨_, h1⟩ | ⟨l', r', nl, nr, h1, h2, _, _, _, h3, h4, h5⟩
    · rw [hr] at h1; cases h1
    · obtain rfl := Option.some.inj (hr.symm.trans h2)
      obtain ⟨f', _, _, _, e1⟩ := h5.feat
      have := ih i hi
      rw [rowsOf_node h4, e1] at this
      rw [rowsOf_node hn]
      exact (List.mem_filter.1 this).1

/-- `L` are the rows in a leaf of `D`. -/
inductive LeafRows : DTree K → List Nat → Prop
  | leaf (L : List Nat) : LeafRows (.leaf L) L
  | yes {f : Nat} {v : K} {y n : DTree K} {L : List Nat} (h : LeafRows y L) : LeafRows (.node f v y n) L
  | no {f : Nat} {v : K} {y n : DTree K} {L : List Nat} (h : LeafRows n L) : LeafRows (.node f v y n) L

theorem ReadsAs.of_route {t : Tree K G} {x : List K} {id leaf : Nat} (h : Routes t x id leaf) :
    ∀ {D : DTree K}, ReadsAs t id D → LeafRows D (rowsOf t leaf) := by
  induction h with
  | stop hn hl hr =>
    intro D hD
    cases hD with
    | leaf hn' =>
      obtain rfl := Option.some.inj (hn.symm.trans hn')
      rw [rowsOf_node hn]
      exact .leaf _
    | node hn' hl' =>
      obtain rfl := Option.some.inj (hn.symm.trans hn')
      rw [hl] at hl'; cases hl'
  | left hn hl hf hx hv h ih =>
    intro D hD
    cases hD with
    | leaf hn' hl' =>
      obtain rfl := Option.some.inj (hn.symm.trans hn')
      rw [hl] at hl'; cases hl'
    | node hn' hl' hr' hf' hy hno =>
      obtain rfl := Option.some.inj (hn.symm.trans hn')
      obtain rfl := Option.some.inj (hl.symm.trans hl')
      exact .yes (ih hy)
  | right hn hr hf hx hv h ih =>
    intro D hD
    cases hD with
    | leaf hn' hl' hr' =>
      obtain rfl := Option.some.inj (hn.symm.trans hn')
      rw [hr] at hr'; cases hr'
    | node hn' hl' hr' hf' hy hno =>
      obtain rfl := Option.some.inj (hn.symm.trans hn')
      obtain rfl := Option.some.inj (hr.symm.trans hr')
      exact .no (ih hno)

theorem ReadsAs.leafRows {data : List (List K)} {rows : List Nat} {t : Tree K G} (hs : TShape data rows t) {id : Nat} {D : DTree K}
    (h : ReadsAs t id D) : InTree t id → ∀ {L : List Nat}, LeafRows D L →
      (∀ i ∈ L, i ∈ rowsOf t id) ∧ ∃ leaf, IsLeaf t leaf ∧ rowsOf t leaf = L := by
  induction h with
  | @leaf id nd hn hl hr =>
    intro hid L hL
    cases hL
    refine ⟨fun i hi => ?_, id, ⟨hid, nd, hn, hl, hr⟩, rowsOf_node hn⟩
    rw [rowsOf_node hn]; exact hi
  | @node id l r f nd y n hn hl hr hf hy hno ihy ihn =>
    intro hid L hL
    rcases hs.links id nd hn with ⟨h1, _⟩ | ⟨l', r', nl, nr, h1, h2, _, _, _, h3, h4, h5⟩
    · rw [hl] at h1; cases h1
    · obtain rfl := Option.some.inj (hl.symm.trans h1)
      obtain rfl := Option.some.inj (hr.symm.trans h2)
      obtain ⟨f', _, _, e1, e2⟩ := h5.feat
      cases hL with
      | yes hL =>
        obtain ⟨a1, a2⟩ := ihy (.left hid hn hl) hL
        refine ⟨fun i hi => ?_, a2⟩
        have := a1 i hi
        rw [rowsOf_node h3, e1] at this
        rw [rowsOf_node hn]
        exact (List.mem_filter.1 this).1
      | no hL =>
        obtain ⟨a1, a2⟩ := ihn (.right hid hn hr) hL
        refine ⟨fun i hi => ?_, a2⟩
        have := a1 i hi
        rw [rowsOf_node h4, e2] at this
        rw [rowsOf_node hn]
        exact (List.mem_filter.1 this).1

theorem ReadsAs.inv {data : List (List K)} {rows : List Nat} {t : Tree K G} (hs : TShape data rows t) {id f : Nat} {v : K}
    {y n : DTree K} (h : ReadsAs t id (.node f v y n)) : ∃ l r nd, NodeAt t id nd ∧ nd.left = some l ∧ nd.right = some r ∧
      ReadsAs t l y ∧ ReadsAs t r n ∧ rowsOf t l = (rowsOf t id).filter (fun i => decide ((data.getD i []).getD f 0 ≤ v)) ∧
      rowsOf t r = (rowsOf t id).filter (fun i => decide (v < (data.getD i []).getD f 0)) := by
  generalize hD : DTree.node f v y n = D at h
  cases h with
  | leaf => cases hD
  | @node _ l r f nd y n hn hl hr hf hy hno =>
    cases hD
    rcases hs.links _ _ hn with ⟨h1, _⟩ | ⟨_, _, nl, nr, h1, h2, _, _, _, h3, h4, h5⟩
    · rw [hl] at h1; cases h1
    obtain rfl := Option.some.inj (hl.symm.trans h1)
    obtain rfl := Option.some.inj (hr.symm.trans h2)
    obtain ⟨g, eg, _, e1, e2⟩ := h5.feat
    obtain rfl := Option.some.inj (hf.symm.trans eg)
    exact ⟨l, r, nd, hn, hl, hr, hy, hno, by rw [rowsOf_node h3, rowsOf_node hn, e1], by rw [rowsOf_node h4, rowsOf_node hn, e2]⟩

/-- A leaf of a refinement is part of a leaf. -/
theorem ReadsAs.refine {data : List (List K)} {rows rows' : List Nat} {t : Tree K G} {t' : Tree K G'} (hs : TShape data rows t)
    (hs' : TShape data rows' t') {D D' : DTree K} (hD : D'.Refines D) : ∀ {id id' : Nat}, ReadsAs t id D → ReadsAs t' id' D' →
      InTree t' id' → rowsOf t' id' = rowsOf t id → ∀ {L' : List Nat}, LeafRows D' L' → ∃ L, LeafRows D L ∧ ∀ i ∈ L', i ∈ L := by
  induction hD with
  | leaf D' L =>
    intro id id' h h' hid he L' hL'
    refine ⟨L, .leaf L, fun i hi => ?_⟩
    have := (h'.leafRows hs' hid hL').1 i hi
    cases h with
    | leaf hn => rw [he, rowsOf_node hn] at this; exact this
  | node f v hy hn ihy ihn =>
    intro id id' h h' hid he L' hL'
    obtain ⟨l, r, nd, hn, hl, hr, hy1, hn1, e1, e2⟩ := h.inv hs
    obtain ⟨l', r', nd', hn', hl', hr', hy1', hn1', e1', e2'⟩ := h'.inv hs'
    cases hL' with
    | yes hL' =>
      obtain ⟨L, hL, hsub⟩ := ihy hy1 hy1' (.left hid hn' hl') (by rw [e1, e1', he]) hL'
      exact ⟨L, .yes hL, hsub⟩
    | no hL' =>
      obtain ⟨L, hL, hsub⟩ := ihn hn1 hn1' (.right hid hn' hr') (by rw [e2, e2', he]) hL'
      exact ⟨L, .no hL, hsub⟩

section
variable {R : Rng K G} {R' : Rng K G'} {mem mem' : Nat → Junk K} {A A' : TreeArgs K} {t : Tree K G} {t' : Tree K G'}

theorem Fitted.leaf_route (h : Fitted R mem A t) {leaf i : Nat} (hl : IsLeaf t leaf) (hi : i ∈ rowsOf t leaf) :
    i ∈ A.rows ∧ Routes t (A.data.getD i []) 0 leaf := by
  obtain ⟨_, hlv, hp⟩ := C29_partition R mem A t h
  have hir : i ∈ A.rows := hp.subset (List.mem_flatMap.2 ⟨leaf, (hlv leaf).2 hl, hi⟩)
  obtain ⟨lf, _, _, hr, hu⟩ := C35_training_row R mem A t h i hir
  obtain rfl := hu leaf hl hi
  exact ⟨hir, hr⟩

/-- A finer tree has no larger squared error on the training rows. -/
theorem Finer.sqError_le (hfin : Finer t t') (h : Fitted R mem A t) (h' : Fitted R' mem' A' t') (hc : A.cfg.isCls = false)
    (hc' : A'.cfg.isCls = false) (hd : A'.data = A.data) (hl : A'.labels = A.labels) (hr : A'.rows = A.rows) :
    ∃ v v' : Nat → K, (∀ i ∈ A.rows, ∃ t2, t.predict (A.data.getD i []) = .ok (.reg (v i), t2)) ∧
      (∀ i ∈ A.rows, ∃ t2, t'.predict (A.data.getD i []) = .ok (.reg (v' i), t2)) ∧
      sqError A.rows (fun i => A.labels.getD i 0) v' ≤ sqError A.rows (fun i => A.labels.getD i 0) v := by
  obtain ⟨v, a1, a2⟩ := h.values hc .none
  obtain ⟨v', b1, b2⟩ := C93_regression R' mem' A' t' t' h' hc' .none
  rw [hd, hr] at b1
  rw [hr, hl] at b2
  refine ⟨v, v', a1, b1, b2 v ?_⟩
  intro leaf' hleaf i hi j hj
  obtain ⟨leaf, e1, e2, e3⟩ := hfin leaf' hleaf i hi j hj
  obtain ⟨_, hlv, _⟩ := C29_partition R mem A t h
  rw [a2 leaf ((hlv leaf).2 e1) i e2, a2 leaf ((hlv leaf).2 e1) j e3]

theorem Fitted.leafLabel (h : Fitted R mem A t) (hc : A.cfg.isCls = true) (hd : ClassesOK A.cfg.classes) :
    ∃ l : Nat → K, (∀ i ∈ A.rows, ∃ probs t2, t.predict (A.data.getD i []) = .ok (.cls (l i) probs, t2)) ∧ LeafWise t l := by
  obtain ⟨l, h1, _⟩ := h.classLabels hc hd .none
  refine ⟨l, h1, ?_⟩
  intro leaf hleaf i hi j hj
  obtain ⟨hir, r1⟩ := h.leaf_route hleaf hi
  obtain ⟨hjr, r2⟩ := h.leaf_route hleaf hj
  obtain ⟨pr, t2, e1⟩ := h1 i hir
  obtain ⟨pr', t2', e2⟩ := h1 j hjr
  obtain ⟨dd, t0, hf⟩ := h.facts
  obtain ⟨l1, nd1, _, b2, b3, _, _, b6⟩ := h.predict_parts .none e1
  obtain ⟨l2, nd2, _, c2, c3, _, _, c6⟩ := h.predict_parts .none e2
  obtain rfl := Routes.det hf.shape r1 b2
  obtain rfl := Routes.det hf.shape r2 c2
  obtain rfl := Option.some.inj (b3.symm.trans c3)
  rw [b6] at c6
  have := Except.ok.inj c6
  injection this

/-- A finer tree is right at least as often on the training rows. -/
theorem Finer.numRight_le (hfin : Finer t t') (h : Fitted R mem A t) (h' : Fitted R' mem' A' t') (hc : A.cfg.isCls = true)
    (hc' : A'.cfg.isCls = true) (hcl : ClassesOK A.cfg.classes) (hcl' : ClassesOK A'.cfg.classes) (hd : A'.data = A.data)
    (hl : A'.labels = A.labels) (hr : A'.rows = A.rows) :
    ∃ l l' : Nat → K, (∀ i ∈ A.rows, ∃ probs t2, t.predict (A.data.getD i []) = .ok (.cls (l i) probs, t2)) ∧
      (∀ i ∈ A.rows, ∃ probs t2, t'.predict (A.data.getD i []) = .ok (.cls (l' i) probs, t2)) ∧
      numRight A.rows (fun i => A.labels.getD i 0) l ≤ numRight A.rows (fun i => A.labels.getD i 0) l' := by
  obtain ⟨l, a1, a2⟩ := h.leafLabel hc hcl
  obtain ⟨l', b1, b2⟩ := C93_classification R' mem' A' t' t' h' hc' hcl' .none
  rw [hd, hr] at b1
  rw [hr, hl] at b2
  refine ⟨l, l', a1, b1, b2 l ?_⟩
  intro leaf' hleaf i hi j hj
  obtain ⟨leaf, e1, e2, e3⟩ := hfin leaf' hleaf i hi j hj
  exact a2 leaf e1 i e2 j e3

/-- Weaker limits give a finer tree. -/
theorem WeakerLimits.finer (hA : NoChoice A) (hw : WeakerLimits A A') (h : Fitted R mem A t) (h' : Fitted R' mem' A' t')
    (hm : A.cfg.maxLeafNodes ≠ some t.leaves.length) (hm' : A.cfg.maxLeafNodes ≠ some t'.leaves.length) : Finer t t' := by
  obtain ⟨D, D', hD, hD', href⟩ := C102_limits_refine R R' mem mem' A A' hA hw t t' h h' hm hm'
  obtain ⟨dd, t0, hf⟩ := h.facts
  obtain ⟨dd', t0', hf'⟩ := h'.facts
  have ed : A'.data = A.data := by rw [hw.same]
  have er : A'.rows = A.rows := by rw [hw.same]; rfl
  have hs' : TShape A.data A.rows t' := by rw [← ed, ← er]; exact hf'.shape
  intro leaf' hleaf i hi j hj
  obtain ⟨_, r⟩ := h'.leaf_route hleaf hi
  obtain ⟨nd, n1, n2, _⟩ := hf.shape.root
  obtain ⟨nd', n1', n2', _⟩ := hs'.root
  obtain ⟨L, hL, hsub⟩ := hD.refine hf.shape hs' href hD' .root (by rw [rowsOf_node n1, rowsOf_node n1', n2, n2']) (hD'.of_route r)
  obtain ⟨_, leaf, e1, e2⟩ := hD.leafRows hf.shape .root hL
  exact ⟨leaf, e1, by rw [e2]; exact hsub i hi, by rw [e2]; exact hsub j hj⟩
end

/-- A weaker leaf limit gives a finer tree. -/
theorem limited_finer {R : Rng K G} {mem : Nat → Junk K} {A : TreeArgs K} {m : Option Nat} (hm : LimitLe A.cfg.maxLeafNodes m)
    {glob : Glob G} {t t' : Tree K G} (h : runTree R mem A glob = .ok t) (h' : runTree R mem (A.limited m) glob = .ok t') : Finer t t' := by
  obtain ⟨hk, hroute, _⟩ := C103_leaf_limit R mem A m hm glob t t' h h'
  have hf := runTree_fitted h
  have hf' := runTree_fitted h'
  obtain ⟨dd', t0', hg'⟩ := hf'.facts
  intro leaf' hleaf i hi j hj
  obtain ⟨hir, r⟩ := hf'.leaf_route hleaf hi
  obtain ⟨leaf, hl, hil, hr, _⟩ := C35_training_row R mem A t hf i hir
  have hr' := hroute _ _ _ hr r
  have hsub := hr'.rows_subset hg'.shape j hj
  obtain ⟨nd, hn, _⟩ := hl.2
  obtain ⟨nd', hn', hkn⟩ := hk _ _ hn
  refine ⟨leaf, hl, hil, ?_⟩
  rw [rowsOf_node hn', hkn.rows] at hsub
  rw [rowsOf_node hn]
  exact hsub

/-! ### C140 -/

/-- C140, regression, leaf limit, any solver. Fit twice with the same seed, the second time with a weaker leaf limit (or none): the second
tree has no larger squared error on the training rows. -/
theorem C140_leaf_limit_regression (R : Rng K G) (mem : Nat → Junk K) (A : TreeArgs K) (hc : A.cfg.isCls = false) (m : Option Nat)
    (hm : LimitLe A.cfg.maxLeafNodes m) (glob : Glob G) (t t' : Tree K G) (h : runTree R mem A glob = .ok t)
    (h' : runTree R mem (A.limited m) glob = .ok t') :
    ∃ v v' : Nat → K, (∀ i ∈ A.rows, ∃ t2, t.predict (A.data.getD i []) = .ok (.reg (v i), t2)) ∧
      (∀ i ∈ A.rows, ∃ t2, t'.predict (A.data.getD i []) = .ok (.reg (v' i), t2)) ∧
      sqError A.rows (fun i => A.labels.getD i 0) v' ≤ sqError A.rows (fun i => A.labels.getD i 0) v :=
  (limited_finer hm h h').sqError_le (runTree_fitted h) (runTree_fitted h') hc hc rfl rfl rfl

/-- C140, classification, leaf limit, any solver: the second tree is right on at least as many training rows. -/
theorem C140_leaf_limit_classification (R : Rng K G) (mem : Nat → Junk K) (A : TreeArgs K) (hc : A.cfg.isCls = true)
    (hd : ClassesOK A.cfg.classes) (m : Option Nat) (hm : LimitLe A.cfg.maxLeafNodes m) (glob : Glob G) (t t' : Tree K G)
    (h : runTree R mem A glob = .ok t) (h' : runTree R mem (A.limited m) glob = .ok t') :
    ∃ l l' : Nat → K, (∀ i ∈ A.rows, ∃ probs t2, t.predict (A.data.getD i []) = .ok (.cls (l i) probs, t2)) ∧
      (∀ i ∈ A.rows, ∃ probs t2, t'.predict (A.data.getD i []) = .ok (.cls (l' i) probs, t2)) ∧
      numRight A.rows (fun i => A.labels.getD i 0) l ≤ numRight A.rows (fun i => A.labels.getD i 0) l' :=
  (limited_finer hm h h').numRight_le (runTree_fitted h) (runTree_fitted h') hc hc hd hd rfl rfl rfl

/-- C140, regression, the other limits, exact solver: with a larger `max_depth`, a smaller `min_samples_split` or a weaker
`min_impurity_decrease` the squared error on the training rows is not larger. -/
theorem C140_limits_regression (R : Rng K G) (R' : Rng K G') (mem mem' : Nat → Junk K) (A A' : TreeArgs K) (hA : NoChoice A)
    (hw : WeakerLimits A A') (hc : A.cfg.isCls = false) (t : Tree K G) (t' : Tree K G') (h : Fitted R mem A t) (h' : Fitted R' mem' A' t')
    (hm : A.cfg.maxLeafNodes ≠ some t.leaves.length) (hm' : A.cfg.maxLeafNodes ≠ some t'.leaves.length) :
    ∃ v v' : Nat → K, (∀ i ∈ A.rows, ∃ t2, t.predict (A.data.getD i []) = .ok (.reg (v i), t2)) ∧
      (∀ i ∈ A.rows, ∃ t2, t'.predict (A.data.getD i []) = .ok (.reg (v' i), t2)) ∧
      sqError A.rows (fun i => A.labels.getD i 0) v' ≤ sqError A.rows (fun i => A.labels.getD i 0) v :=
  (hw.finer hA h h' hm hm').sqError_le h h' hc (by rw [hw.same]; exact hc) (by rw [hw.same]) (by rw [hw.same]) (by rw [hw.same]; rfl)

/-- C140, classification, the other limits, exact solver: the tree under the weaker limits is right on at least as many training rows. -/
theorem C140_limits_classification (R : Rng K G) (R' : Rng K G') (mem mem' : Nat → Junk K) (A A' : TreeArgs K) (hA : NoChoice A)
    (hw : WeakerLimits A A') (hc : A.cfg.isCls = true) (hd : ClassesOK A.cfg.classes) (t : Tree K G) (t' : Tree K G')
    (h : Fitted R mem A t) (h' : Fitted R' mem' A' t')
    (hm : A.cfg.maxLeafNodes ≠ some t.leaves.length) (hm' : A.cfg.maxLeafNodes ≠ some t'.leaves.length) :
    ∃ l l' : Nat → K, (∀ i ∈ A.rows, ∃ probs t2, t.predict (A.data.getD i []) = .ok (.cls (l i) probs, t2)) ∧
      (∀ i ∈ A.rows, ∃ probs t2, t'.predict (A.data.getD i []) = .ok (.cls (l' i) probs, t2)) ∧
      numRight A.rows (fun i => A.labels.getD i 0) l ≤ numRight A.rows (fun i => A.labels.getD i 0) l' :=
  (hw.finer hA h h' hm hm').numRight_le h h' hc (by rw [hw.same]; exact hc) hd (by rw [hw.same]; exact hd) (by rw [hw.same])
    (by rw [hw.same]) (by rw [hw.same]; rfl)

/-! ### Examples -/

/-- Squared error of a fitted regression tree on its training rows, or number of training rows on which a classification tree is right. -/
def trainScore (A : TreeArgs ℚ) : Option ℚ :=
  (runTree rngQ exMem A exGlob).toOption.bind (fun (t : Tree ℚ Nat) =>
    (A.rows.mapM (fun i =>
      match t.predict (A.data.getD i []) with
      | .ok (.reg v, _) => some ((A.labels.getD i 0 - v) ^ 2)
      | .ok (.cls l _, _) => some (if l = A.labels.getD i 0 then 1 else 0)
      | .error _ => none)).map List.sum)

/-- More leaves: 1, 2, 3 and any number, with the exact solver and with MABSplit. -/
example : ([some 1, some 2, some 3, none].map (fun m => trainScore (exArgsReg.limited m)) == [some (94 / 3), some 23, some 5, some (1 / 2)] &&
    [some 1, some 2, some 3, none].map (fun m => trainScore (exArgsMab.limited m)) == [some 3, some 5, some 5, some 5] &&
    [some 1, some 2, some 3, none].map (fun m => trainScore (exArgs.limited m)) == [some 3, some 5, some 5, some 6]) = true := by
  decide +kernel

/-- Deeper trees. -/
example : [0, 1, 2].map (fun d => trainScore { exArgsReg with cfg := { exArgsReg.cfg with maxDepth := .some d } }) ==
    [some (94 / 3), some 23, some 2] := by
  decide +kernel

end FF
