import Verif.Model.InterruptTree
import Verif.Props.Predict
import Verif.Proofs.TreeGrow
import Verif.Props.Tree2

/-!
# Interrupted fits of a tree (C130)
-/

namespace FF

open Spec

set_option linter.unusedSectionVars false

variable {K : Type} [Field K] [LinearOrder K] [IsStrictOrderedRing K] [FloorRing K] [NpFun K] {G : Type}

/-- `nd'` differs from `nd` only in what `predict` does not read. -/
structure ReadsLike (nd nd' : Node K) : Prop where
  left : nd'.left = nd.left
  right : nd'.right = nd.right
  idcs : nd'.idcs = nd.idcs
  inner : nd.left ≠ none ∨ nd.right ≠ none → nd'.splitFeature = nd.splitFeature ∧ nd'.splitValue = nd.splitValue
  leaf : nd.left = none → nd'.labels = nd.labels ∧ nd'.counts = nd.counts ∧ nd'.cacheCls = nd.cacheCls ∧ nd'.cacheReg = nd.cacheReg

theorem ReadsLike.refl (nd : Node K) : ReadsLike nd nd := ⟨rfl, rfl, rfl, fun _ => ⟨rfl, rfl⟩, fun _ => ⟨rfl, rfl, rfl, rfl⟩⟩

/-- `t` differs from `u` only in what `predict` does not read. -/
structure LooksLike (u t : Tree K G) : Prop where
  isCls : t.cfg.isCls = u.cfg.isCls
  classes : t.cfg.classes = u.cfg.classes
  len : t.nodes.length = u.nodes.length
  nodes : ∀ (id : Nat) (nd nd' : Node K), u.nodes[id]? = some nd → t.nodes[id]? = some nd' → ReadsLike nd nd'

namespace LooksLike

theorem of_nodes {u t : Tree K G} (h1 : t.cfg.isCls = u.cfg.isCls) (h1' : t.cfg.classes = u.cfg.classes) (h2 : t.nodes = u.nodes) : LooksLike u t := by
  refine ⟨h1, h1', by rw [h2], fun id nd nd' a b => ?_⟩
  rw [h2, a] at b
  cases b
  exact .refl _

theorem of_set {u t : Tree K G} {id : Nat} {nd nd' : Node K} (h1 : t.cfg.isCls = u.cfg.isCls) (h1' : t.cfg.classes = u.cfg.classes)
    (hn : u.nodes[id]? = some nd)
    (h2 : t.nodes = u.nodes.set id nd') (h : ReadsLike nd nd') : LooksLike u t := by
  refine ⟨h1, h1', by rw [h2, List.length_set], fun j a b ha hb => ?_⟩
  rw [h2] at hb
  by_cases hj : id = j
  · subst hj
    rw [getElem?_set_eq hn] at hb
    cases hb
    obtain rfl := Option.some.inj (hn.symm.trans ha)
    exact h
  · rw [List.getElem?_set_ne hj] at hb
    obtain rfl := Option.some.inj (ha.symm.trans hb)
    exact .refl _

variable {u t : Tree K G} (h : LooksLike u t)
include h

theorem get {id : Nat} {nd : Node K} (hn : u.nodes[id]? = some nd) : ∃ nd', t.nodes[id]? = some nd' ∧ ReadsLike nd nd' := by
  have := (List.getElem?_eq_some_iff.1 hn).1
  rw [← h.len] at this
  exact ⟨_, List.getElem?_eq_getElem this, h.nodes id nd _ hn (List.getElem?_eq_getElem this)⟩

theorem get' {id : Nat} {nd' : Node K} (hn : t.nodes[id]? = some nd') : ∃ nd, u.nodes[id]? = some nd ∧ ReadsLike nd nd' := by
  have := (List.getElem?_eq_some_iff.1 hn).1
  rw [h.len] at this
  exact ⟨_, List.getElem?_eq_getElem this, h.nodes id _ nd' (List.getElem?_eq_getElem this) hn⟩

theorem routes {x : List K} {id leaf : Nat} (hr : Routes u x id leaf) : Routes t x id leaf := by
  induction hr with
  | stop hn hl hr =>
    obtain ⟨nd', h1, h2⟩ := h.get hn
    exact .stop h1 (by rw [h2.left, hl]) (by rw [h2.right, hr])
  | left hn hl hf hx hv _ ih =>
    obtain ⟨nd', h1, h2⟩ := h.get hn
    have := h2.inner (by rw [hl]; simp)
    exact .left h1 (by rw [h2.left, hl]) (by rw [this.1, hf]) hx (by rw [this.2]; exact hv) ih
  | @right id r leaf f v nd hn hr hf hx hv _ ih =>
    obtain ⟨nd', h1, h2⟩ := h.get hn
    have := h2.inner (by rw [hr]; simp)
    exact .right h1 (by rw [h2.right, hr]) (by rw [this.1, hf]) hx (by rw [this.2]; exact hv) ih

theorem inTree {id : Nat} : InTree t id ↔ InTree u id := by
  constructor
  · intro q
    induction q with
    | root => exact .root
    | left _ hn hl ih =>
      obtain ⟨nd, h1, h2⟩ := h.get' hn
      exact .left ih h1 (by rw [← h2.left, hl])
    | right _ hn hl ih =>
      obtain ⟨nd, h1, h2⟩ := h.get' hn
      exact .right ih h1 (by rw [← h2.right, hl])
  · intro q
    induction q with
    | root => exact .root
    | left _ hn hl ih =>
      obtain ⟨nd, h1, h2⟩ := h.get hn
      exact .left ih h1 (by rw [h2.left, hl])
    | right _ hn hl ih =>
      obtain ⟨nd, h1, h2⟩ := h.get hn
      exact .right ih h1 (by rw [h2.right, hl])

theorem isLeaf {id : Nat} : IsLeaf t id ↔ IsLeaf u id := by
  constructor
  · rintro ⟨h1, nd', h2, h3, h4⟩
    obtain ⟨nd, e1, e2⟩ := h.get' h2
    exact ⟨h.inTree.1 h1, nd, e1, by rw [← e2.left, h3], by rw [← e2.right, h4]⟩
  · rintro ⟨h1, nd, h2, h3, h4⟩
    obtain ⟨nd', e1, e2⟩ := h.get h2
    exact ⟨h.inTree.2 h1, nd', e1, by rw [e2.left, h3], by rw [e2.right, h4]⟩

theorem rowsOf_eq (id : Nat) : rowsOf t id = rowsOf u id := by
  unfold rowsOf
  cases hu : u.nodes[id]? with
  | none =>
    have : t.nodes[id]? = none := by
      rw [List.getElem?_eq_none_iff] at hu ⊢
      rw [h.len]
      exact hu
    rw [this]
  | some nd =>
    obtain ⟨nd', h1, h2⟩ := h.get hu
    rw [h1]
    simp [h2.idcs]

theorem walk_eq (x : List K) (fuel id : Nat) : walk t.nodes x fuel id = walk u.nodes x fuel id := by
  induction fuel generalizing id with
  | zero => rfl
  | succ fuel ih =>
    unfold walk
    cases hu : u.nodes[id]? with
    | none =>
      have : t.nodes[id]? = none := by
        rw [List.getElem?_eq_none_iff] at hu ⊢
        rw [h.len]
        exact hu
      rw [this]
    | some nd =>
      obtain ⟨nd', h1, h2⟩ := h.get hu
      rw [h1]
      simp only [h2.left, h2.right]
      cases hl : nd.left with
      | none => rfl
      | some l =>
        have := h2.inner (by rw [hl]; simp)
        simp only [this.1, this.2, ih]

/-- One call of `predict` on both. -/
theorem predict_eq (x : List K) : (t.predict x).map Prod.fst = (u.predict x).map Prod.fst ∧
    ∀ p t2, t.predict x = .ok (p, t2) → ∃ u2, u.predict x = .ok (p, u2) ∧ LooksLike u2 t2 := by
  unfold Tree.predict
  rw [h.walk_eq, h.len, h.isCls, h.classes]
  cases hw : walk u.nodes x u.nodes.length 0 with
  | error e => exact ⟨rfl, fun p t2 q => by cases q⟩
  | ok id =>
    dsimp only
    cases hu : u.nodes[id]? with
    | none =>
      have : t.nodes[id]? = none := by
        rw [List.getElem?_eq_none_iff] at hu ⊢
        rw [h.len]
        exact hu
      rw [this]
      exact ⟨rfl, fun p t2 q => by cases q⟩
    | some nd =>
      obtain ⟨nd', h1, h2⟩ := h.get hu
      rw [h1]
      dsimp only
      have hl : nd.left = none := by
        obtain ⟨_, nd2, e1, e2, _⟩ := (walk_routes hw).isLeaf .root
        obtain rfl := Option.some.inj (e1.symm.trans hu)
        exact e2
      obtain ⟨q1, q2, q3, q4⟩ := h2.leaf hl
      rw [q1, q2, q3, q4]
      have key : ∀ (nd1 nd1' : Node K), ReadsLike nd1 nd1' →
          LooksLike { u with nodes := u.nodes.set id nd1 } { t with nodes := t.nodes.set id nd1' } := by
        intro nd1 nd1' hr
        refine ⟨h.isCls, h.classes, by simp only [List.length_set]; exact h.len, fun j a b ha hb => ?_⟩
        dsimp only at ha hb
        by_cases hj : id = j
        · subst hj
          rw [getElem?_set_eq hu] at ha
          rw [getElem?_set_eq h1] at hb
          cases ha
          cases hb
          exact hr
        · rw [List.getElem?_set_ne hj] at ha hb
          exact h.nodes j a b ha hb
      cases u.cfg.isCls with
      | true =>
        simp only [if_true]
        cases nd.cacheCls with
        | some c =>
          refine ⟨rfl, fun p t2 q => ?_⟩
          cases q
          exact ⟨u, rfl, h⟩
        | none =>
          dsimp only
          by_cases hs : nd.counts.sum = 0
          · rw [if_pos hs, if_pos hs]
            exact ⟨rfl, fun p t2 q => by cases q⟩
          · rw [if_neg hs, if_neg hs]
            cases npArgmax (nd.counts.map (fun (c : Nat) => (c : K) / ((nd.counts.sum : Nat) : K))) with
            | none => exact ⟨rfl, fun p t2 q => by cases q⟩
            | some i =>
              dsimp only
              cases idxToClass u.cfg.classes i with
              | none => exact ⟨rfl, fun p t2 q => by cases q⟩
              | some l =>
                refine ⟨rfl, fun p t2 q => ?_⟩
                cases q
                refine ⟨_, rfl, key _ _ ?_⟩
                refine ⟨h2.left, h2.right, h2.idcs, h2.inner, fun q => ?_⟩
                exact ⟨rfl, rfl, rfl, rfl⟩
      | false =>
        simp only [Bool.false_eq_true, if_false]
        cases nd.cacheReg with
        | some c =>
          refine ⟨rfl, fun p t2 q => ?_⟩
          cases q
          exact ⟨u, rfl, h⟩
        | none =>
          dsimp only
          rcases hls : nd.labels with _ | ⟨_ | ⟨y, ys⟩⟩
          · exact ⟨rfl, fun p t2 q => by cases q⟩
          · exact ⟨rfl, fun p t2 q => by cases q⟩
          · refine ⟨rfl, fun p t2 q => ?_⟩
            cases q
            refine ⟨_, rfl, key _ _ ?_⟩
            refine ⟨h2.left, h2.right, h2.idcs, h2.inner, fun q => ?_⟩
            exact ⟨rfl, rfl, rfl, rfl⟩

theorem after {t1 : Tree K G} (ha : AfterPredicts t t1) : ∃ u1, AfterPredicts u u1 ∧ LooksLike u1 t1 := by
  induction ha with
  | none => exact ⟨u, .none, h⟩
  | call _ hp ih =>
    obtain ⟨u1, a1, a2⟩ := ih
    obtain ⟨u2, b1, b2⟩ := (a2.predict_eq _).2 _ _ hp
    exact ⟨u2, .call a1 b1, b2⟩

end LooksLike

/-- `make_discrete` has no effect before `fit`. -/
theorem Constructed.plain {R : Rng K G} {A : TreeArgs K} {t : Tree K G} (h : Constructed R A t) :
    Constructed R { A with cfg := { A.cfg with makeDiscrete := false } } { t with cfg := { t.cfg with makeDiscrete := false } } := by
  obtain ⟨glob, h⟩ := h
  refine ⟨glob, ?_⟩
  unfold Tree.init at h ⊢
  dsimp only at h ⊢
  by_cases hlen : A.data.length ≠ A.labels.length
  · rw [if_pos hlen] at h
    cases h
  rw [if_neg hlen] at h ⊢
  cases hf : defaultFeats A.data A.feats with
  | error e => rw [hf] at h; cases h
  | ok feats =>
    rw [hf] at h
    dsimp only at h ⊢
    split at h
    · cases h
    · rename_i root g hroot
      cases h
      have : ∀ (g : G) (b : Bool) (rows : List Nat), Node.init R g ({ A.cfg with makeDiscrete := b } : TreeCfg K) A.data A.labels feats A.disc
          rows 0 1 A.cfg.numBins = Node.init R g A.cfg A.data A.labels feats A.disc rows 0 1 A.cfg.numBins := fun _ _ _ => rfl
      rw [this] at hroot ⊢
      rw [hroot]
      simp only [ite_self]

theorem TreeLeft.looks {R : Rng K G} {mem : Nat → Junk K} {A : TreeArgs K} {t t' : Tree K G} {glob : Glob G} (hc : Constructed R A t)
    (h : TreeLeft R mem t glob t') : ∃ (A' : TreeArgs K) (dd : DiscDict K) (t0 u : Tree K G), A'.data = A.data ∧ A'.labels = A.labels ∧
      A'.rows = A.rows ∧ A'.cols = A.cols ∧ A'.cfg.isCls = A.cfg.isCls ∧ A'.cfg.classes = A.cfg.classes ∧
      GrowFacts R mem A' dd t0 u ∧ LooksLike u t' := by
  cases h with
  | entering dd L =>
    refine ⟨{ A with cfg := { A.cfg with makeDiscrete := false } }, A.disc, _, _, rfl, rfl, rfl, rfl, rfl, rfl,
      .of_steps (hc.plain.start A.disc).1 ?_ .refl, .of_nodes rfl rfl rfl⟩
    rfl
  | scanning hd hh hm n hs hid hn e g q b =>
    rename_i dd t1 glob1 s id nd
    obtain ⟨hst, hdisc⟩ := hc.start dd
    have hdata : t.data = A.data := hst.data
    rw [hdata, hdisc] at hd
    have h1 := hh.sim hst.sim
    obtain ⟨h2, h3⟩ := scanLeaves_sim (t0 := t1) ⟨hst.sim.steps h1, rfl, rfl, fun b hb => by cases hb⟩
      (fun i hi => by
        rw [Nat.zero_add, List.getElem_take]
        rw [List.length_take] at hi
        exact List.getElem?_eq_getElem (by omega)) hs
    have hf : GrowFacts R mem A dd _ s.t := .of_steps hst hd (h1.trans h2)
    refine ⟨A, dd, _, s.t, rfl, rfl, rfl, rfl, rfl, rfl, hf, .of_set rfl rfl hn rfl ?_⟩
    have hleaf : id ∈ s.t.leaves := by rw [h3.leaves]; exact hid
    obtain ⟨nd2, e1, e2⟩ := (hf.shape.leaves id).1 hleaf
    obtain rfl := Option.some.inj (e1.symm.trans hn)
    have e3 : nd2.right = none := by
      rcases hf.shape.links _ _ hn with ⟨_, q⟩ | ⟨l, r, _, _, q, _⟩
      · exact q
      · rw [e2] at q; cases q
    refine ⟨rfl, rfl, rfl, fun q => ?_, fun _ => ⟨rfl, rfl, rfl, rfl⟩⟩
    rw [e2, e3] at q
    simp at q
  | split h hp hn data labels cacheCls cacheReg already L n d =>
    rename_i s pos id t2 glob2 nd
    obtain ⟨dd, t1, glob1, red, hd, hh, hm, hs, hb, himp⟩ := h.ex
    obtain ⟨hst, hdisc⟩ := hc.start dd
    have hdata : t.data = A.data := hst.data
    rw [hdata, hdisc] at hd
    have h1 := hh.sim hst.sim
    obtain ⟨h2, h3⟩ := scanLeaves_sim (t0 := t1) ⟨hst.sim.steps h1, rfl, rfl, fun b hb => by cases hb⟩
      (fun i hi => by
        rw [Nat.zero_add]
        exact List.getElem?_eq_getElem hi) hs
    have h4 := performSplit_sim h3.sim (h3.best _ hb) himp hp
    have hf : GrowFacts R mem A dd _ t2 := .of_steps hst hd ((h1.trans h2).step h4)
    refine ⟨A, dd, _, t2, rfl, rfl, rfl, rfl, rfl, rfl, hf, .of_set rfl rfl hn rfl ?_⟩
    obtain ⟨nd0, _, _, _, l, r, _, g2, _, a2, _, _, _, _, _, _, _, _, _, _, _, _, _, rfl⟩ := performSplit_parts h3.sim (h3.best _ hb) hp
    have hlt := (List.getElem?_eq_some_iff.1 a2).1
    rw [List.getElem?_append_left (by rw [List.length_set]; exact hlt), getElem?_set_eq a2] at hn
    cases hn
    refine ⟨rfl, rfl, rfl, fun _ => ⟨rfl, rfl⟩, fun q => by cases q⟩

section
variable (R : Rng K G) (mem : Nat → Junk K) (A : TreeArgs K)

/-- C130, in part. Whenever an exception leaves the `fit()` of a tree, and no node has only one child: the tree answers for every point that
has all its columns, with the mean (the class frequencies) of the training targets in the leaf to which the point is sent. -/
theorem C130_answers_partial (t t' t1 : Tree K G) (glob : Glob G) (hc : Constructed R A t) (h : TreeLeft R mem t glob t')
    (hd : A.cfg.isCls = true → ClassesOK A.cfg.classes) (hrows : A.rows ≠ []) (ha : AfterPredicts t' t1) (x : List K)
    (hx : ∀ f ∈ A.cols, f < x.length) :
    ∃ leaf p t2, IsLeaf t' leaf ∧ Routes t' x 0 leaf ∧ rowsOf t' leaf ≠ [] ∧ t1.predict x = .ok (p, t2) ∧
      (A.cfg.isCls = true → ∃ label ∈ labelsOf A.labels (rowsOf t' leaf),
        p = .cls label (A.cfg.classes.map (fun c => freq (labelsOf A.labels (rowsOf t' leaf)) c.1)) ∧
        ∀ c ∈ A.cfg.classes, freq (labelsOf A.labels (rowsOf t' leaf)) c.1 ≤ freq (labelsOf A.labels (rowsOf t' leaf)) label) ∧
      (A.cfg.isCls = false → p = .reg (mean (labelsOf A.labels (rowsOf t' leaf)))) := by
  obtain ⟨A', dd, t0, u, a1, a2, a3, a4, a5, a6, hf, hl⟩ := h.looks hc
  obtain ⟨u1, b1, b2⟩ := hl.after ha
  have hd' : A'.cfg.isCls = true → ClassesOK A'.cfg.classes := by rw [a5, a6]; exact hd
  have hrows' : A'.rows ≠ [] := by rw [a3]; exact hrows
  obtain ⟨leaf, hr⟩ := hf.routes_total (by rw [a4]; exact hx) u.nodes.length 0 (by omega) ((hf.shape.inTree 0).1 .root)
  obtain ⟨p, u2, hp⟩ := hf.predict_of_route hd' hrows' b1 hr
  obtain ⟨leaf', nd, c1, c2, c3, c4, c5, c6⟩ := hf.predict_parts b1 hp
  obtain rfl := Routes.det hf.shape c2 hr
  obtain ⟨t2, hp2⟩ : ∃ t2, t1.predict x = .ok (p, t2) := by
    have := (b2.predict_eq x).1
    rw [hp] at this
    cases hq : t1.predict x with
    | error e => rw [hq] at this; cases this
    | ok q =>
      rw [hq] at this
      obtain ⟨p', t2⟩ := q
      cases this
      exact ⟨t2, rfl⟩
  have hidcs : rowsOf t' leaf' = nd.idcs := by rw [hl.rowsOf_eq, c5]
  have hne : nd.idcs ≠ [] := hf.shape.rows_ne hrows' c3
  refine ⟨leaf', p, t2, hl.isLeaf.2 c1, hl.routes c2, by rw [hidcs]; exact hne, hp2, ?_, ?_⟩
  · intro hcls
    obtain ⟨label, i, e1, e2, e3, e4, e5⟩ := hf.nodePred_cls (by rw [a5]; exact hcls) (hd' (by rw [a5]; exact hcls)) c3 c6
    rw [a2] at e1 e3 e5
    rw [a6] at e1 e3 e4 e5
    rw [hidcs]
    refine ⟨label, ?_, e1, fun c hc => ?_⟩
    · obtain ⟨y, hy⟩ := List.exists_mem_of_ne_nil (labelsOf A.labels nd.idcs) (fun q => e2 (List.map_eq_nil_iff.1 q))
      obtain ⟨c, hc1, hc2⟩ := List.mem_map.1 (e3 y hy)
      obtain ⟨j, hj⟩ := List.mem_iff_getElem?.1 hc1
      have h7 := (e5 j c hj).1
      rw [hc2] at h7
      have h8 : 0 < freq (labelsOf A.labels nd.idcs) y := by
        unfold freq
        have h9 : (0 : K) < ((labelsOf A.labels nd.idcs).count y : Nat) := by exact_mod_cast List.count_pos_iff.2 hy
        have h10 : (0 : K) < (labelsOf A.labels nd.idcs).length := by exact_mod_cast List.length_pos_of_mem hy
        exact div_pos h9 h10
      by_contra hno
      have : freq (labelsOf A.labels nd.idcs) label = 0 := by
        unfold freq
        rw [List.count_eq_zero_of_not_mem hno]
        simp
      rw [this] at h7
      exact absurd h8 (not_lt.2 h7)
    · obtain ⟨j, hj⟩ := List.mem_iff_getElem?.1 hc
      exact (e5 j c hj).1
  · intro hcls
    rw [hidcs, ← a2]
    exact (hf.nodePred_reg (by rw [a5]; exact hcls) c3 c4 c6).1

/-- C130, in part. Every training row is in exactly one leaf of the tree, and is sent to it. -/
theorem C130_rows_partial (t t' : Tree K G) (glob : Glob G) (hc : Constructed R A t) (h : TreeLeft R mem t glob t') (i : Nat)
    (hi : i ∈ A.rows) :
    ∃ leaf, IsLeaf t' leaf ∧ i ∈ rowsOf t' leaf ∧ Routes t' (A.data.getD i []) 0 leaf ∧
      ∀ leaf', IsLeaf t' leaf' → i ∈ rowsOf t' leaf' → leaf' = leaf := by
  obtain ⟨A', dd, t0, u, a1, a2, a3, a4, a5, a6, hf, hl⟩ := h.looks hc
  obtain ⟨nd, h1, h2, _⟩ := hf.shape.root
  obtain ⟨leaf, hr, hm⟩ := hf.routes_row u.nodes.length 0 nd (by omega) h1 (by rw [h2, a3]; exact hi)
  rw [a1] at hr
  refine ⟨leaf, hl.isLeaf.2 (hr.isLeaf .root), by rw [hl.rowsOf_eq]; exact hm, hl.routes hr, ?_⟩
  intro leaf' hl' hm'
  rw [hl.rowsOf_eq] at hm'
  obtain ⟨_, nd', hn', hl', hr'⟩ := hl.isLeaf.1 hl'
  have hm'' : i ∈ nd'.idcs := by
    unfold rowsOf at hm'
    rw [show u.nodes[leaf']? = some nd' from hn'] at hm'
    exact hm'
  have := hf.routes_up leaf' nd' leaf' hn' hm'' (.stop hn' hl' hr')
  rw [a1] at this
  exact Routes.det hf.shape this hr

end

/-- The answer of a new leaf. -/
theorem Fresh.answer {cfg : TreeCfg K} {tdata : List (List K)} {tlabels : List K} {tfeats : List Nat} {tdisc : DiscDict K} {idcs : List Nat}
    {depth : Nat} {proportion : K} {numBins : Option Nat} {nd : Node K}
    (h : Fresh cfg tdata tlabels tfeats tdisc idcs depth proportion numBins nd) (hd : cfg.isCls = true → ClassesOK cfg.classes)
    (hne : idcs ≠ []) : ∃ p, nodePred cfg nd = .ok p ∧
      (cfg.isCls = true → ∃ label, p = .cls label (cfg.classes.map (fun c => freq (labelsOf tlabels idcs) c.1))) ∧
      (cfg.isCls = false → p = .reg (mean (labelsOf tlabels idcs))) := by
  cases hc : cfg.isCls with
  | false =>
    refine ⟨.reg (mean (labelsOf tlabels idcs)), ?_, (fun q => by cases q), fun _ => rfl⟩
    unfold nodePred
    rw [hc, if_neg (by simp), h.labels_eq]
    cases hy : labelsOf tlabels idcs with
    | nil => exact absurd (List.map_eq_nil_iff.1 hy) hne
    | cons y ys => rfl
  | true =>
    have hd := hd hc
    have hcounts := h.counts_cls hc
    obtain ⟨hce, hmem⟩ := countsOfLabels_spec hd hcounts
    have hsum : nd.counts.sum = (labelsOf tlabels idcs).length := by
      rw [hce]
      have := sum_count_eq_length (cfg.classes.map Prod.fst) hd.1 _ hmem
      rw [List.map_map] at this
      exact this
    have hlen : (labelsOf tlabels idcs).length = idcs.length := List.length_map ..
    have hpos : nd.counts.sum ≠ 0 := by
      rw [hsum, hlen]
      exact fun e => hne (List.length_eq_zero_iff.1 e)
    have hprobs : nd.counts.map (fun (c : Nat) => (c : K) / ((nd.counts.sum : Nat) : K)) =
        cfg.classes.map (fun c => freq (labelsOf tlabels idcs) c.1) := by
      rw [hsum, hce, List.map_map]
      rfl
    have hnn : nd.counts.map (fun (c : Nat) => (c : K) / ((nd.counts.sum : Nat) : K)) ≠ [] := by
      intro e
      rw [List.map_eq_nil_iff.1 e] at hpos
      exact hpos rfl
    obtain ⟨i, hi⟩ := npArgmax_total hnn
    obtain ⟨m, hm, _⟩ := npArgmax_spec hi
    have hlt := (List.getElem?_eq_some_iff.1 hm).1
    rw [List.length_map, hce, List.length_map] at hlt
    have hci : cfg.classes[i]? = some (cfg.classes[i].1, i) := by
      rw [List.getElem?_eq_getElem hlt]
      have := hd.snd (List.getElem?_eq_getElem hlt)
      exact congrArg some (Prod.ext rfl this)
    have := (hd.idxToClass i _).2 hci
    refine ⟨.cls cfg.classes[i].1 (cfg.classes.map (fun c => freq (labelsOf tlabels idcs) c.1)), ?_, fun _ => ⟨_, rfl⟩, (fun q => by cases q)⟩
    unfold nodePred
    rw [hc, if_pos rfl, if_neg hpos, hi]
    dsimp only
    rw [this, hprobs]

/-- The walk in a tree of which one leaf has been changed. -/
theorem walk_to {u : Tree K G} {data : List (List K)} {rows : List Nat} {ns : List (Node K)} {id : Nat} {nd : Node K}
    (hs : TShape data rows u) (hid : u.nodes[id]? = some nd) (hl : nd.left = none) (hr : nd.right = none)
    (hsame : ∀ (j : Nat) (nd' : Node K), j ≠ id → u.nodes[j]? = some nd' → ns[j]? = some nd') {x : List K} {j leaf : Nat}
    (h : Routes u x j leaf) : ∀ fuel, u.nodes.length + 1 ≤ fuel + j → ∃ fuel', u.nodes.length + 1 ≤ fuel' + leaf ∧
      walk ns x fuel j = walk ns x fuel' leaf := by
  induction h with
  | stop hn _ _ => exact fun fuel hf => ⟨fuel, hf, rfl⟩
  | @left j l leaf f v nd' hn hl' hf hx hv _ ih =>
    intro fuel hfuel
    have hj := nodeAt_lt hn
    obtain ⟨k, rfl⟩ : ∃ k, fuel = k + 1 := ⟨fuel - 1, by omega⟩
    have hlt : j < l := by
      rcases hs.links _ _ hn with ⟨h1, _⟩ | ⟨l', r', _, _, h1, _, h3, _⟩
      · rw [hl'] at h1; cases h1
      · rw [hl'] at h1; cases h1; exact h3
    have hne : j ≠ id := by
      rintro rfl
      obtain rfl := Option.some.inj (hid.symm.trans hn)
      rw [hl] at hl'
      cases hl'
    obtain ⟨fuel', h1, h2⟩ := ih k (by omega)
    refine ⟨fuel', h1, ?_⟩
    rw [← h2]
    conv_lhs => unfold walk
    rw [hsame j nd' hne hn]
    simp only [hl', hf, hx, if_pos hv]
  | @right j r leaf f v nd' hn hr' hf hx hv _ ih =>
    intro fuel hfuel
    have hj := nodeAt_lt hn
    obtain ⟨k, rfl⟩ : ∃ k, fuel = k + 1 := ⟨fuel - 1, by omega⟩
    have hne : j ≠ id := by
      rintro rfl
      obtain rfl := Option.some.inj (hid.symm.trans hn)
      rw [hr] at hr'
      cases hr'
    rcases hs.links _ _ hn with ⟨_, h1⟩ | ⟨l', r', _, _, h1, h2, _, h4, _⟩
    · rw [hr'] at h1; cases h1
    rw [hr'] at h2; cases h2
    obtain ⟨fuel', h5, h6⟩ := ih k (by omega)
    refine ⟨fuel', h5, ?_⟩
    rw [← h6]
    conv_lhs => unfold walk
    rw [hsame j nd' hne hn]
    simp only [h1, hr', hf, hx, if_neg (not_le.2 hv)]

theorem AboutToSplit.facts {R : Rng K G} {mem : Nat → Junk K} {A : TreeArgs K} {t : Tree K G} {glob : Glob G} {s : Scan K G} {pos id : Nat}
    (hc : Constructed R A t) (h : AboutToSplit R mem t glob s pos id) :
    ∃ dd t0 red, GrowFacts R mem A dd t0 s.t ∧ BestOK s.t.cfg s.t.leaves s.t.nodes (pos, id, red) := by
  obtain ⟨dd, t1, glob1, red, hd, hh, hm, hs, hb, himp⟩ := h.ex
  obtain ⟨hst, hdisc⟩ := hc.start dd
  have hdata : t.data = A.data := hst.data
  rw [hdata, hdisc] at hd
  have h1 := hh.sim hst.sim
  obtain ⟨h2, h3⟩ := scanLeaves_sim (t0 := t1) ⟨hst.sim.steps h1, rfl, rfl, fun b hb => by cases hb⟩
    (fun i hi => by
      rw [Nat.zero_add]
      exact List.getElem?_eq_getElem hi) hs
  exact ⟨dd, _, red, .of_steps hst hd (h1.trans h2), h3.best _ hb⟩

/-- A node with one child. -/
structure HalfSplit (R : Rng K G) (mem : Nat → Junk K) (A : TreeArgs K) (id : Nat) (t' : Tree K G) : Prop where
  ex : ∃ (dd : DiscDict K) (t0 u : Tree K G) (nd l : Node K) (f : Nat) (g : G), GrowFacts R mem A dd t0 u ∧ u.nodes[id]? = some nd ∧
    nd.left = none ∧ nd.right = none ∧ nd.splitFeature = some f ∧ f ∈ nd.featIdcs ∧
    (nd.idcs.filter (fun i => decide ((A.data.getD i []).getD f 0 ≤ nd.splitValue))) ≠ [] ∧
    (nd.idcs.filter (fun i => decide (nd.splitValue < (A.data.getD i []).getD f 0))) ≠ [] ∧
    (∃ (n : Nat) (q : K) (b : Option Nat), Fresh u.cfg A.data A.labels A.cols u.discrete
      (nd.idcs.filter (fun i => decide ((A.data.getD i []).getD f 0 ≤ nd.splitValue))) n q b l) ∧
    t' = { u with
      nodes := u.nodes.set id { nd with left := some u.nodes.length } ++ [l]
      rng := g }

theorem TreeHalf.facts {R : Rng K G} {mem : Nat → Junk K} {A : TreeArgs K} {t t' : Tree K G} {glob : Glob G} {id : Nat}
    (hc : Constructed R A t) (h : TreeHalf R mem t glob id t') : HalfSplit R mem A id t' := by
  cases h with
  | half h hn hd hl hcol h1 h2 hcl g =>
    rename_i s pos nd l data labels col g1
    obtain ⟨dd, t0, red, hf, hb⟩ := h.facts hc
    obtain ⟨nd', hn', hcon, hcomp, hsp, hred⟩ := hb.node
    dsimp only at hn' hred
    obtain rfl := Option.some.inj (hn.symm.trans hn')
    have ho := hf.nodes _ _ hn
    obtain ⟨nd2, e1, e2⟩ := (hf.shape.leaves id).1 (List.mem_of_getElem? hb.pos)
    obtain rfl := Option.some.inj (e1.symm.trans hn)
    have e3 : nd2.right = none := by
      rcases hf.shape.links _ _ hn with ⟨_, q⟩ | ⟨l, r, _, _, q, _⟩
      · exact q
      · rw [e2] at q; cases q
    have hd' := ho.open_data e2
    rw [hd] at hd'
    obtain rfl := Option.some.inj hd'
    have hne : nd2.idcs ≠ [] := by
      intro h
      rw [h] at h1
      exact h1 (by simp [splitIdcs])
    obtain ⟨hff, hcol'⟩ := subRows_col hcol hne
    have hfeat : nd2.splitFeature = some (nd2.featIdcs.getD nd2.prevSplitFeature 0) := by
      obtain ⟨_, _, ⟨_, _, _, _, r, _, _, _, hrec, _⟩, _⟩ := ho.solved hcomp
      cases r with
      | none => rw [hrec.1] at hred; cases hred
      | some s => rw [hrec.2.2.2, hrec.2.1]
    have hi := splitIdcs_map nd2.idcs (fun i => (A.data.getD i []).getD (nd2.featIdcs.getD nd2.prevSplitFeature 0) 0) nd2.splitValue
    rw [← hcol'] at hi
    have hfl := Node_init_fresh hcl
    rw [hi] at h1 h2 hfl
    have hdata : s.t.data = A.data := by rw [hf.base.data, hf.start.data]
    have hlabels : s.t.labels = A.labels := by rw [hf.base.labels, hf.start.labels]
    have hfeats : s.t.featIdcs = A.cols := by rw [hf.base.feats, hf.start.feats]
    rw [hdata, hlabels, hfeats] at hfl
    exact ⟨dd, t0, s.t, nd2, l, _, g, hf, hn, e2, e3, hfeat, by rw [List.getD_eq_getElem _ _ hff]; exact List.getElem_mem _, h1, h2,
      ⟨_, _, _, hfl⟩, rfl⟩

/-- A node whose caches are empty has correct caches; so a half-split tree answers as without caches. -/
theorem HalfSplit.cache {R : Rng K G} {mem : Nat → Junk K} {A : TreeArgs K} {id : Nat} {t' : Tree K G} (h : HalfSplit R mem A id t') :
    CacheOf t' t' := by
  obtain ⟨dd, t0, u, nd, l, f, g, hf, hn, h1, h2, h3, h4, h5, h6, ⟨_, _, _, hl⟩, rfl⟩ := h.ex
  refine .refl (fun j nd' hj => ?_)
  dsimp only at hj
  rcases List.mem_append.1 (List.mem_of_getElem? hj) with hj | hj
  · obtain ⟨i, hi⟩ := List.mem_iff_getElem?.1 hj
    rcases getElem?_set_cases hi with ⟨_, rfl⟩ | ⟨_, hi⟩
    · exact (hf.nodes _ _ hn).cache
    · exact (hf.nodes _ _ hi).cache
  · obtain rfl := List.mem_singleton.1 hj
    exact ⟨hl.cacheCls_eq, hl.cacheReg_eq⟩

section
variable (R : Rng K G) (mem : Nat → Junk K) (A : TreeArgs K)

/-- C130, in part. If the exception comes between the making of the two children of a node: that node has a left child only. For every point
that has all its columns, either the tree answers with the mean (the class frequencies) of the training targets in the leaf to which the point
is sent, or the value of the point in the split feature of that node is above the split value, and `predict` raises an `AttributeError`. -/
theorem C130_half_partial (t t' t1 : Tree K G) (glob : Glob G) (id : Nat) (hc : Constructed R A t) (h : TreeHalf R mem t glob id t')
    (hd : A.cfg.isCls = true → ClassesOK A.cfg.classes) (hrows : A.rows ≠ []) (ha : AfterPredicts t' t1) :
    ∃ nd f l, NodeAt t' id nd ∧ nd.left = some l ∧ nd.right = none ∧ nd.splitFeature = some f ∧ ∀ x : List K,
      (∀ f ∈ A.cols, f < x.length) →
      (∃ leaf p t2, Routes t' x 0 leaf ∧ rowsOf t' leaf ≠ [] ∧ t1.predict x = .ok (p, t2) ∧
        (A.cfg.isCls = true → ∃ label, p = .cls label (A.cfg.classes.map (fun c => freq (labelsOf A.labels (rowsOf t' leaf)) c.1))) ∧
        (A.cfg.isCls = false → p = .reg (mean (labelsOf A.labels (rowsOf t' leaf))))) ∨
      (nd.splitValue < x.getD f 0 ∧ t1.predict x = .error (.attributeError "left")) := by
  have hh := h.facts hc
  have hcache := ha.cache hh.cache
  obtain ⟨dd, t0, u, nd, l, f, g, hf, hn, h1, h2, h3, h4, h5, h6, ⟨_, _, _, hl⟩, rfl⟩ := hh.ex
  have hid := nodeAt_lt hn
  have hnew : (u.nodes.set id { nd with left := some u.nodes.length } ++ [l])[id]? = some { nd with left := some u.nodes.length } := by
    rw [List.getElem?_append_left (by rw [List.length_set]; exact hid), getElem?_set_eq hn]
  have hlast : (u.nodes.set id { nd with left := some u.nodes.length } ++ [l])[u.nodes.length]? = some l := by
    rw [List.getElem?_append_right (by rw [List.length_set]), List.length_set, Nat.sub_self]
    rfl
  have hsame : ∀ (j : Nat) (nd' : Node K), j ≠ id → u.nodes[j]? = some nd' →
      (u.nodes.set id { nd with left := some u.nodes.length } ++ [l])[j]? = some nd' := by
    intro j nd' hj hnj
    rw [List.getElem?_append_left (by rw [List.length_set]; exact nodeAt_lt hnj), List.getElem?_set_ne (Ne.symm hj), hnj]
  have hcfg := hf.cfg_eq
  have c1 : u.cfg.isCls = A.cfg.isCls := by rw [hcfg]
  have c2 : u.cfg.classes = A.cfg.classes := by rw [hcfg]
  refine ⟨_, f, _, hnew, rfl, h2, h3, fun x hx => ?_⟩
  obtain ⟨leaf, hr⟩ := hf.routes_total hx u.nodes.length 0 (by omega) ((hf.shape.inTree 0).1 .root)
  obtain ⟨fuel', e1, e2⟩ := walk_to hf.shape hn h1 h2 hsame hr
    (u.nodes.set id { nd with left := some u.nodes.length } ++ [l]).length (by rw [List.length_append, List.length_set]; simp)
  have hpc := (predict_cache hcache x).1
  unfold purePredict at hpc
  dsimp only at hpc
  rw [e2] at hpc
  by_cases hleaf : leaf = id
  · subst hleaf
    have hfx : f < x.length := hx _ ((hf.nodes _ _ hn).feats_sub f h4)
    obtain ⟨k, rfl⟩ : ∃ k, fuel' = k + 2 := ⟨fuel' - 2, by omega⟩
    by_cases hv : x[f] ≤ nd.splitValue
    · refine .inl ?_
      have hw : walk (u.nodes.set leaf { nd with left := some u.nodes.length } ++ [l]) x (k + 2) leaf = .ok u.nodes.length := by
        generalize u.nodes.set leaf { nd with left := some u.nodes.length } ++ [l] = ns at hnew hlast
        unfold walk
        rw [hnew]
        simp only [h3, List.getElem?_eq_getElem hfx, if_pos hv]
        unfold walk
        rw [hlast]
        simp only [hl.left_eq, hl.right_eq, if_true]
      obtain ⟨p, p1, p2, p3⟩ := hl.answer (by rw [c1, c2]; exact hd) h5
      rw [hw] at hpc
      dsimp only at hpc
      rw [hlast] at hpc
      dsimp only at hpc
      rw [p1] at hpc
      have hrow : rowsOf { u with
          nodes := u.nodes.set leaf { nd with left := some u.nodes.length } ++ [l]
          rng := g } u.nodes.length = l.idcs := by
        unfold rowsOf
        dsimp only
        rw [hlast]
        rfl
      rw [c1, c2] at p2
      rw [c1] at p3
      cases hq : t1.predict x with
      | error e => rw [hq] at hpc; cases hpc
      | ok q =>
        obtain ⟨p', t2⟩ := q
        rw [hq] at hpc
        cases hpc
        refine ⟨u.nodes.length, p', t2, walk_routes (e2.trans hw), ?_, rfl, ?_, ?_⟩
        · rw [hrow, hl.idcs_eq]; exact h5
        · rw [hrow, hl.idcs_eq]; exact p2
        · rw [hrow, hl.idcs_eq]; exact p3
    · refine .inr ⟨?_, ?_⟩
      · rw [List.getD_eq_getElem _ _ hfx]
        exact not_le.1 hv
      · have hw : walk (u.nodes.set leaf { nd with left := some u.nodes.length } ++ [l]) x (k + 2) leaf = .error (.attributeError "left") := by
          unfold walk
          rw [hnew]
          simp only [h3, List.getElem?_eq_getElem hfx, if_neg hv, h2]
        rw [hw] at hpc
        cases hq : t1.predict x with
        | error e => rw [hq] at hpc; cases hpc; rfl
        | ok q => rw [hq] at hpc; cases hpc
  · refine .inl ?_
    obtain ⟨k, rfl⟩ : ∃ k, fuel' = k + 1 := by
      obtain ⟨_, nd', hn', _⟩ := hr.isLeaf .root
      have := nodeAt_lt hn'
      exact ⟨fuel' - 1, by omega⟩
    obtain ⟨_, nd', hn', hl', hr'⟩ := hr.isLeaf .root
    have hnn := hsame _ _ hleaf hn'
    have hw : walk (u.nodes.set id { nd with left := some u.nodes.length } ++ [l]) x (k + 1) leaf = .ok leaf := by
      unfold walk
      rw [hnn]
      simp only [hl', hr', if_true]
    have hne := hf.shape.rows_ne hrows hn'
    obtain ⟨p, hp⟩ := hf.nodePred_total hd hn' hl' hne
    rw [hw] at hpc
    dsimp only at hpc
    rw [hnn] at hpc
    dsimp only at hpc
    rw [hp] at hpc
    have hrow : rowsOf { u with
        nodes := u.nodes.set id { nd with left := some u.nodes.length } ++ [l]
        rng := g } leaf = nd'.idcs := by
      unfold rowsOf
      dsimp only
      rw [hnn]
      rfl
    cases hq : t1.predict x with
    | error e => rw [hq] at hpc; cases hpc
    | ok q =>
      obtain ⟨p', t2⟩ := q
      rw [hq] at hpc
      cases hpc
      refine ⟨leaf, p', t2, walk_routes (e2.trans hw), ?_, rfl, ?_, ?_⟩
      · rw [hrow]; exact hne
      · intro hcls
        obtain ⟨label, _, q, _⟩ := hf.nodePred_cls hcls (hd hcls) hn' hp
        rw [hrow]
        exact ⟨label, q⟩
      · intro hcls
        rw [hrow]
        exact (hf.nodePred_reg hcls hn' hl' hp).1

/-- C130 is false of the code as it stands: whenever the exception comes between the making of the two children of a node, there is a training
row for which `predict` raises afterwards. -/
theorem C130_refuted_half (t t' : Tree K G) (glob : Glob G) (id : Nat) (hc : Constructed R A t) (h : TreeHalf R mem t glob id t') :
    ∃ i ∈ A.rows, t'.predict (A.data.getD i []) = .error (.attributeError "left") := by
  have hh := h.facts hc
  obtain ⟨dd, t0, u, nd, l, f, g, hf, hn, h1, h2, h3, h4, h5, h6, ⟨_, _, _, hl⟩, rfl⟩ := hh.ex
  have hid := nodeAt_lt hn
  have hnew : (u.nodes.set id { nd with left := some u.nodes.length } ++ [l])[id]? = some { nd with left := some u.nodes.length } := by
    rw [List.getElem?_append_left (by rw [List.length_set]; exact hid), getElem?_set_eq hn]
  have hsame : ∀ (j : Nat) (nd' : Node K), j ≠ id → u.nodes[j]? = some nd' →
      (u.nodes.set id { nd with left := some u.nodes.length } ++ [l])[j]? = some nd' := by
    intro j nd' hj hnj
    rw [List.getElem?_append_left (by rw [List.length_set]; exact nodeAt_lt hnj), List.getElem?_set_ne (Ne.symm hj), hnj]
  obtain ⟨i, hi⟩ := List.exists_mem_of_ne_nil _ h6
  obtain ⟨him, hv⟩ := List.mem_filter.1 hi
  have hv := of_decide_eq_true hv
  have hr := hf.routes_up id nd id hn him (.stop hn h1 h2)
  have hir : i ∈ A.rows := (hf.rows_sublist hn).subset him
  obtain ⟨fuel', e1, e2⟩ := walk_to hf.shape hn h1 h2 hsame hr
    (u.nodes.set id { nd with left := some u.nodes.length } ++ [l]).length (by rw [List.length_append, List.length_set]; simp)
  have hfx : f < (A.data.getD i []).length := ((hf.nodes _ _ hn).rows_lt i him).2 f h4
  obtain ⟨k, rfl⟩ : ∃ k, fuel' = k + 1 := ⟨fuel' - 1, by omega⟩
  refine ⟨i, hir, ?_⟩
  rw [List.getD_eq_getElem _ _ hfx] at hv
  have hw : walk (u.nodes.set id { nd with left := some u.nodes.length } ++ [l]) (A.data.getD i []) (k + 1) id =
      .error (.attributeError "left") := by
    unfold walk
    rw [hnew]
    simp only [h3, List.getElem?_eq_getElem hfx, if_neg (not_le.2 hv), h2]
  unfold Tree.predict
  dsimp only
  rw [e2, hw]

end

/-! ### The tree left behind and the tree that the fit would have made -/

/-- Every node of `t` is a node of `t'`, with the same rows, and with the same split and the same child on each side on which it has one. -/
def PartOf (t t' : Tree K G) : Prop :=
  ∀ id nd, NodeAt t id nd → ∃ nd', NodeAt t' id nd' ∧ nd'.idcs = nd.idcs ∧
    (∀ c, nd.left = some c → nd'.left = some c ∧ nd'.splitFeature = nd.splitFeature ∧ nd'.splitValue = nd.splitValue) ∧
    (∀ c, nd.right = some c → nd'.right = some c ∧ nd'.splitFeature = nd.splitFeature ∧ nd'.splitValue = nd.splitValue)

theorem PartOf.refl (t : Tree K G) : PartOf t t := fun _ nd h => ⟨nd, h, rfl, fun _ q => ⟨q, rfl, rfl⟩, fun _ q => ⟨q, rfl, rfl⟩⟩

theorem PartOf.trans {t1 t2 t3 : Tree K G} (h : PartOf t1 t2) (h' : PartOf t2 t3) : PartOf t1 t3 := by
  intro id nd hn
  obtain ⟨nd1, a1, a2, a3, a4⟩ := h id nd hn
  obtain ⟨nd2, b1, b2, b3, b4⟩ := h' id nd1 a1
  refine ⟨nd2, b1, b2.trans a2, fun c q => ?_, fun c q => ?_⟩
  · obtain ⟨c1, c2, c3⟩ := a3 c q
    obtain ⟨d1, d2, d3⟩ := b3 c c1
    exact ⟨d1, d2.trans c2, d3.trans c3⟩
  · obtain ⟨c1, c2, c3⟩ := a4 c q
    obtain ⟨d1, d2, d3⟩ := b4 c c1
    exact ⟨d1, d2.trans c2, d3.trans c3⟩

/-- Changing a leaf, perhaps with new nodes. -/
theorem PartOf.of_leaf {t t' : Tree K G} {id : Nat} {nd nd' : Node K} {new : List (Node K)} (hn : t.nodes[id]? = some nd)
    (ht : t'.nodes = t.nodes.set id nd' ++ new) (hi : nd'.idcs = nd.idcs) (hl : nd.left = none) (hr : nd.right = none) : PartOf t t' := by
  intro j a ha
  have hlt := nodeAt_lt ha
  have hj : t'.nodes[j]? = (t.nodes.set id nd')[j]? := by
    rw [ht, List.getElem?_append_left (by rw [List.length_set]; exact hlt)]
  by_cases h : id = j
  · subst h
    obtain rfl := Option.some.inj (hn.symm.trans ha)
    refine ⟨nd', by unfold NodeAt; rw [hj, getElem?_set_eq hn], hi, fun c q => ?_, fun c q => ?_⟩
    · rw [hl] at q; cases q
    · rw [hr] at q; cases q
  · rw [List.getElem?_set_ne h] at hj
    exact ⟨a, hj.trans ha, rfl, fun _ q => ⟨q, rfl, rfl⟩, fun _ q => ⟨q, rfl, rfl⟩⟩

theorem GrowFacts.leaf_childless {R : Rng K G} {mem : Nat → Junk K} {A : TreeArgs K} {dd : DiscDict K} {t0 t : Tree K G}
    (hf : GrowFacts R mem A dd t0 t) {id : Nat} (hid : id ∈ t.leaves) {nd : Node K} (hn : t.nodes[id]? = some nd) :
    nd.left = none ∧ nd.right = none := by
  obtain ⟨nd', e1, e2⟩ := (hf.shape.leaves id).1 hid
  obtain rfl := Option.some.inj (e1.symm.trans hn)
  rcases hf.shape.links _ _ hn with q | ⟨l, r, _, _, q, _⟩
  · exact q
  · rw [e2] at q; cases q

theorem GrowFacts.partOf {R : Rng K G} {mem : Nat → Junk K} {A : TreeArgs K} {dd : DiscDict K} {t0 t t' : Tree K G}
    (hf : GrowFacts R mem A dd t0 t) (h : TSteps R mem t t') : PartOf t t' := by
  induction h with
  | refl => exact .refl _
  | @step t1 t2 h hs ih =>
    refine ih.trans ?_
    have hf1 := hf.next h
    cases hs with
    | mark hl hn _ =>
      obtain ⟨a, b⟩ := hf1.leaf_childless hl hn
      exact .of_leaf hn (List.append_nil _).symm rfl a b
    | @solve id leaf glob glob' nb data labels r q g' hl hn _ _ _ _ _ _ _ _ =>
      obtain ⟨a, b⟩ := hf1.leaf_childless hl hn
      refine .of_leaf hn (List.append_nil _).symm ?_ a b
      exact (nodeRecord_static { leaf with numBins := nb } r q).1
    | split hl hn _ _ _ _ _ _ _ _ _ _ _ _ _ =>
      obtain ⟨a, b⟩ := hf1.leaf_childless (List.mem_of_getElem? hl) hn
      exact .of_leaf hn rfl rfl a b
    | depth _ => exact .refl _

theorem fitLoop_from {R : Rng K G} {mem : Nat → Junk K} {t0 t t' : Tree K G} {glob0 glob glob' : Glob G} (h : FitHead R mem t0 glob0 t glob)
    {fuel : Nat} (hr : fitLoop R mem fuel t0 glob0 = .ok (t', glob')) : ∃ fuel', fitLoop R mem fuel' t glob = .ok (t', glob') := by
  induction h with
  | init => exact ⟨fuel, hr⟩
  | step _ hs ih =>
    obtain ⟨k, hk⟩ := ih
    cases k with
    | zero => cases hk
    | succ k =>
      unfold fitLoop at hk
      rw [hs] at hk
      exact ⟨k, hk⟩

theorem fitLoop_steps {R : Rng K G} {mem : Nat → Junk K} {t t' : Tree K G} {glob glob' : Glob G} {fuel : Nat} (hsim : SimInv t)
    (hr : fitLoop R mem fuel t glob = .ok (t', glob')) : TSteps R mem t t' := by
  obtain ⟨t1, g1, h1, h2⟩ := fitLoop_head hr
  have h3 := h1.sim hsim
  exact h3.trans (fitStep_sim (hsim.steps h3) h2)

theorem scanLeaves_append {R : Rng K G} {mem : Nat → Junk K} {ids js : List Nat} {pos : Nat} {s s1 s' : Scan K G}
    (h1 : scanLeaves R mem pos ids s = .ok s1) (h2 : scanLeaves R mem pos (ids ++ js) s = .ok s') :
    s' = s1 ∨ scanLeaves R mem (pos + ids.length) js s1 = .ok s' := by
  induction ids generalizing pos s with
  | nil =>
    cases h1
    exact .inr h2
  | cons id ids ih =>
    rw [List.cons_append] at h2
    unfold scanLeaves at h1 h2
    cases hs : scanLeaf R mem pos id s with
    | error e => rw [hs] at h1; cases h1
    | ok o =>
      rw [hs] at h1 h2
      cases o with
      | none =>
        cases h1
        cases h2
        exact .inl rfl
      | some s2 =>
        rcases ih h1 h2 with h | h
        · exact .inl h
        · refine .inr ?_
          rw [← h]
          congr 1
          simp only [List.length_cons]
          omega

/-- The run of `fit` from the head of the loop at which it is interrupted. -/
theorem fit_resumes {R : Rng K G} {mem : Nat → Junk K} {t tf t1 : Tree K G} {glob glob' glob1 : Glob G} {dd : DiscDict K}
    (hd : maybeDiscrete t.cfg.makeDiscrete t.data t.discrete = .ok dd)
    (hh : FitHead R mem { t with discrete := dd, leaves := t.leaves ++ [0] } glob t1 glob1)
    (hfit : t.fit R mem glob none none = .ok (tf, glob')) : ∃ fuel, fitLoop R mem fuel t1 glob1 = .ok (tf, glob') := by
  unfold Tree.fit at hfit
  simp only [bothOrNeither, hd] at hfit
  split at hfit
  · exact fitLoop_from hh hfit
  · cases hfit
  · cases hfit

/-- … and what it does in the pass in which it is interrupted. -/
theorem fit_pass {R : Rng K G} {mem : Nat → Junk K} {A : TreeArgs K} {dd : DiscDict K} {t0 tf t1 : Tree K G} {glob' glob1 : Glob G} {fuel : Nat}
    (hf : GrowFacts R mem A dd t0 t1) (hm : leafLimit t1.cfg.maxLeafNodes t1.leaves.length = .ok false)
    (h : fitLoop R mem fuel t1 glob1 = .ok (tf, glob')) :
    ∃ s b t2 glob2, scanLeaves R mem 0 t1.leaves { t := t1, glob := glob1, best := none } = .ok s ∧ splitBest R mem s = .ok (b, t2, glob2) ∧
      GrowFacts R mem A dd t0 t2 ∧ TSteps R mem t2 tf := by
  cases fuel with
  | zero => cases h
  | succ k =>
    unfold fitLoop at h
    unfold fitStep at h
    rw [hm] at h
    cases hs : scanLeaves R mem 0 t1.leaves { t := t1, glob := glob1, best := none } with
    | error e => rw [hs] at h; cases h
    | ok s =>
      rw [hs] at h
      dsimp only at h
      cases hb : splitBest R mem s with
      | error e => rw [hb] at h; cases h
      | ok q =>
        obtain ⟨b, t2, glob2⟩ := q
        rw [hb] at h
        dsimp only at h
        obtain ⟨h2, h3⟩ := scanLeaves_sim (t0 := t1) ⟨hf.sim, rfl, rfl, fun b hb => by cases hb⟩
          (fun i hi => by
            rw [Nat.zero_add]
            exact List.getElem?_eq_getElem hi) hs
        have hf2 := hf.next (h2.trans (splitBest_sim h3 hb))
        refine ⟨s, b, t2, glob2, rfl, hb, hf2, ?_⟩
        cases hg : getDepth t2 with
        | error e => rw [hg] at h; cases h
        | ok d =>
          rw [hg] at h
          have h4 : TSteps R mem t2 { t2 with depth := d } := .one (.depth hg)
          cases b with
          | false => cases h; exact h4
          | true => exact h4.trans (fitLoop_steps (hf2.next h4).sim h)

/-- Changing what a node does not show. -/
theorem PartOf.set_left {t t1 t' : Tree K G} {id : Nat} {nd nd' : Node K} (h : PartOf t t') (hn : t.nodes[id]? = some nd)
    (ht : t1.nodes = t.nodes.set id nd') (hi : nd'.idcs = nd.idcs) (hl : nd'.left = nd.left) (hr : nd'.right = nd.right)
    (hs : nd.left ≠ none ∨ nd.right ≠ none → nd'.splitFeature = nd.splitFeature ∧ nd'.splitValue = nd.splitValue) : PartOf t1 t' := by
  intro j a ha
  have ha : t1.nodes[j]? = some a := ha
  rw [ht] at ha
  rcases getElem?_set_cases ha with ⟨rfl, rfl⟩ | ⟨_, ha⟩
  · obtain ⟨b, b1, b2, b3, b4⟩ := h _ nd hn
    refine ⟨b, b1, b2.trans hi.symm, fun c q => ?_, fun c q => ?_⟩
    · rw [hl] at q
      obtain ⟨e1, e2⟩ := hs (.inl (by rw [q]; simp))
      rw [e1, e2]
      exact b3 c q
    · rw [hr] at q
      obtain ⟨e1, e2⟩ := hs (.inr (by rw [q]; simp))
      rw [e1, e2]
      exact b4 c q
  · exact h _ _ ha

section
variable (R : Rng K G) (mem : Nat → Junk K) (A : TreeArgs K)

/-- C130, in part. If the fit would have returned a tree, then the tree that is left behind is that tree with some of its subtrees replaced by
leaves: each of its nodes is there, with the same rows, the same split and the same children. -/
theorem C130_pruned_partial (t t' tf : Tree K G) (glob glob' : Glob G) (hc : Constructed R A t) (h : TreeLeft R mem t glob t')
    (hfit : t.fit R mem glob none none = .ok (tf, glob')) : PartOf t' tf := by
  cases h with
  | entering dd' L =>
    have hd : ∃ dd, maybeDiscrete t.cfg.makeDiscrete t.data t.discrete = .ok dd := by
      cases hq : maybeDiscrete t.cfg.makeDiscrete t.data t.discrete with
      | ok dd => exact ⟨dd, rfl⟩
      | error e =>
        unfold Tree.fit at hfit
        simp only [bothOrNeither, hq] at hfit
        cases hfit
    obtain ⟨dd, hd⟩ := hd
    obtain ⟨fuel, hr⟩ := fit_resumes hd .init hfit
    obtain ⟨hst, hdisc⟩ := hc.start dd
    have hdata : t.data = A.data := hst.data
    rw [hdata, hdisc] at hd
    have hf : GrowFacts R mem A dd _ _ := .of_steps hst hd .refl
    exact hf.partOf (fitLoop_steps hf.sim hr)
  | @scanning dd t1 glob1 s hd hh hm n hs id hid nd hn e g q b =>
    obtain ⟨fuel, hr⟩ := fit_resumes hd hh hfit
    obtain ⟨hst, hdisc⟩ := hc.start dd
    have hdata : t.data = A.data := hst.data
    rw [hdata, hdisc] at hd
    have h1 := hh.sim hst.sim
    have hf : GrowFacts R mem A dd _ t1 := .of_steps hst hd h1
    obtain ⟨s', b', t2, glob2, k1, k2, k3, k4⟩ := fit_pass hf hm hr
    have h0 : ScanOK t1 { t := t1, glob := glob1, best := none } := ⟨hf.sim, rfl, rfl, fun b hb => by cases hb⟩
    obtain ⟨m1, m2⟩ := scanLeaves_sim h0 (fun i hi => by
      rw [Nat.zero_add, List.getElem_take]
      exact List.getElem?_eq_getElem _) hs
    obtain ⟨n1, n2⟩ := scanLeaves_sim h0 (fun i hi => by
      rw [Nat.zero_add]
      exact List.getElem?_eq_getElem hi) k1
    have hfs := hf.next m1
    have hst : TSteps R mem s.t s'.t := by
      rw [← List.take_append_drop n t1.leaves] at k1
      rcases scanLeaves_append hs k1 with rfl | hx
      · exact .refl
      · refine (scanLeaves_sim m2 (fun i hi => ?_) hx).1
        rw [List.getElem_drop]
        rw [List.length_drop] at hi
        rw [List.getElem?_eq_getElem (by rw [List.length_take]; omega)]
        congr 1
        simp only [List.length_take]
        congr 1
        omega
    have hfin : TSteps R mem s.t tf := (hst.trans (splitBest_sim n2 k2)).trans k4
    obtain ⟨a, b⟩ := hfs.leaf_childless (by rw [m2.leaves]; exact hid) hn
    refine (hfs.partOf hfin).set_left hn rfl rfl rfl rfl (fun q => ?_)
    rw [a, b] at q
    simp at q
  | @split s pos id h t2 glob2 hp nd hn data labels cacheCls cacheReg already L n d =>
    obtain ⟨dd, t1, glob1, red, hd, hh, hm, hs, hb, himp⟩ := h.ex
    obtain ⟨fuel, hr⟩ := fit_resumes hd hh hfit
    obtain ⟨hst, hdisc⟩ := hc.start dd
    have hdata : t.data = A.data := hst.data
    rw [hdata, hdisc] at hd
    have hf : GrowFacts R mem A dd _ t1 := .of_steps hst hd (hh.sim hst.sim)
    obtain ⟨s', b', t2', glob2', k1, k2, k3, k4⟩ := fit_pass hf hm hr
    obtain rfl := Except.ok.inj (hs.symm.trans k1)
    unfold splitBest at k2
    rw [hb] at k2
    dsimp only at k2
    rw [if_pos himp, hp] at k2
    cases k2
    exact (k3.partOf k4).set_left hn rfl rfl rfl rfl (fun _ => ⟨rfl, rfl⟩)

/-- C130, in part: also when the exception comes between the making of the two children of a node. -/
theorem C130_half_pruned_partial (t t' tf : Tree K G) (glob glob' : Glob G) (id : Nat) (hc : Constructed R A t)
    (h : TreeHalf R mem t glob id t') (hfit : t.fit R mem glob none none = .ok (tf, glob')) : PartOf t' tf := by
  cases h with
  | @half s pos id h nd l data labels col g1 hn hd' hl hcol h1 h2 hcl g =>
    obtain ⟨dd, t1, glob1, red, hd, hh, hm, hs, hb, himp⟩ := h.ex
    obtain ⟨fuel, hr⟩ := fit_resumes hd hh hfit
    obtain ⟨hst, hdisc⟩ := hc.start dd
    have hdata : t.data = A.data := hst.data
    rw [hdata, hdisc] at hd
    have hf : GrowFacts R mem A dd _ t1 := .of_steps hst hd (hh.sim hst.sim)
    obtain ⟨s', b', t2', glob2', k1, k2, k3, k4⟩ := fit_pass hf hm hr
    obtain rfl := Except.ok.inj (hs.symm.trans k1)
    obtain ⟨n1, n2⟩ := scanLeaves_sim (t0 := t1) ⟨hf.sim, rfl, rfl, fun b hb => by cases hb⟩ (fun i hi => by
      rw [Nat.zero_add]
      exact List.getElem?_eq_getElem hi) hs
    unfold splitBest at k2
    rw [hb] at k2
    dsimp only at k2
    rw [if_pos himp] at k2
    cases hp : performSplit R mem s pos id with
    | error e => rw [hp] at k2; cases k2
    | ok q =>
      obtain ⟨t3, glob3⟩ := q
      rw [hp] at k2
      cases k2
      obtain ⟨nd0, data0, labels0, col0, l0, r0, g10, g20, a1, a2, a3, a4, a5, a6, a7, a8, a9, a10, a11, a12, a13, a14, _, rfl⟩ :=
        performSplit_parts n2.sim (n2.best _ hb) hp
      obtain rfl := Option.some.inj (a2.symm.trans hn)
      rw [hd'] at a8
      cases a8
      rw [hl] at a9
      cases a9
      rw [hcol] at a10
      cases a10
      rw [hcl] at a13
      cases a13
      refine PartOf.trans ?_ (k3.partOf k4)
      obtain ⟨o1, o2⟩ := (hf.next n1).leaf_childless (List.mem_of_getElem? a1) hn
      intro j a ha
      have ha : (s.t.nodes.set id { nd0 with left := some s.t.nodes.length } ++ [l])[j]? = some a := ha
      have hlt := nodeAt_lt hn
      have hnodes : ∀ m : Node K, (s.t.nodes.set id m ++ [l, r0])[j]? = ((s.t.nodes.set id m ++ [l]) ++ [r0])[j]? := fun m => by simp
      unfold NodeAt
      dsimp only
      rw [hnodes]
      have hj : j < (s.t.nodes.set id { nd0 with left := some s.t.nodes.length } ++ [l]).length := (List.getElem?_eq_some_iff.1 ha).1
      rw [List.length_append, List.length_set] at hj
      rw [List.getElem?_append_left (by rw [List.length_append, List.length_set]; exact hj)]
      by_cases hjl : j < s.t.nodes.length
      · rw [List.getElem?_append_left (by rw [List.length_set]; exact hjl)] at ha ⊢
        by_cases hji : id = j
        · subst hji
          rw [getElem?_set_eq hn] at ha ⊢
          cases ha
          exact ⟨_, rfl, rfl, fun c q => ⟨q, rfl, rfl⟩, fun c q => by rw [show nd0.right = some c from q] at o2; cases o2⟩
        · rw [List.getElem?_set_ne hji] at ha ⊢
          exact ⟨a, ha, rfl, fun c q => ⟨q, rfl, rfl⟩, fun c q => ⟨q, rfl, rfl⟩⟩
      · rw [List.getElem?_append_right (by rw [List.length_set]; omega), List.length_set] at ha ⊢
        exact ⟨a, ha, rfl, fun c q => ⟨q, rfl, rfl⟩, fun c q => ⟨q, rfl, rfl⟩⟩

end

/-! ### Examples -/

/-- Constructs a tree, makes `n` passes of the loop of `fit()`, and finds the node to be split next. -/
def stopAt (R : Rng K G) (mem : Nat → Junk K) (A : TreeArgs K) (glob : Glob G) (n : Nat) : Option (Tree K G × Scan K G × Nat × Nat) :=
  match Tree.init R A.cfg A.data A.labels A.disc A.budget A.seed A.idcs A.feats with
  | .error _ => none
  | .ok (t, _) =>
    match maybeDiscrete t.cfg.makeDiscrete t.data t.discrete with
    | .error _ => none
    | .ok dd =>
      match runHead.go R mem n { t with discrete := dd, leaves := t.leaves ++ [0] } glob with
      | .error _ => none
      | .ok (t1, glob1) =>
        match leafLimit t1.cfg.maxLeafNodes t1.leaves.length with
        | .ok false =>
          match scanLeaves R mem 0 t1.leaves { t := t1, glob := glob1, best := none } with
          | .error _ => none
          | .ok s =>
            match s.best with
            | none => none
            | some (pos, id, red) => if red.lt (.fin s.t.cfg.minImpDec) then some (t, s, pos, id) else none
        | _ => none

theorem stopAt_about {R : Rng K G} {mem : Nat → Junk K} {A : TreeArgs K} {glob : Glob G} {n : Nat} {t : Tree K G} {s : Scan K G}
    {pos id : Nat} (h : stopAt R mem A glob n = some (t, s, pos, id)) : Constructed R A t ∧ AboutToSplit R mem t glob s pos id := by
  unfold stopAt at h
  cases h1 : Tree.init R A.cfg A.data A.labels A.disc A.budget A.seed A.idcs A.feats with
  | error e => rw [h1] at h; cases h
  | ok p =>
    obtain ⟨t0, g0⟩ := p
    rw [h1] at h
    dsimp only at h
    cases h2 : maybeDiscrete t0.cfg.makeDiscrete t0.data t0.discrete with
    | error e => rw [h2] at h; cases h
    | ok dd =>
      rw [h2] at h
      dsimp only at h
      cases h3 : runHead.go R mem n { t0 with discrete := dd, leaves := t0.leaves ++ [0] } glob with
      | error e => rw [h3] at h; cases h
      | ok p =>
        obtain ⟨t1, glob1⟩ := p
        rw [h3] at h
        dsimp only at h
        cases h4 : leafLimit t1.cfg.maxLeafNodes t1.leaves.length with
        | error e => rw [h4] at h; cases h
        | ok b =>
          rw [h4] at h
          cases b with
          | true => cases h
          | false =>
            dsimp only at h
            cases h5 : scanLeaves R mem 0 t1.leaves { t := t1, glob := glob1, best := none } with
            | error e => rw [h5] at h; cases h
            | ok s1 =>
              rw [h5] at h
              dsimp only at h
              cases h6 : s1.best with
              | none => rw [h6] at h; cases h
              | some b =>
                obtain ⟨pos1, id1, red⟩ := b
                rw [h6] at h
                dsimp only at h
                by_cases h7 : red.lt (.fin s1.t.cfg.minImpDec) = true
                · rw [if_pos h7] at h
                  cases h
                  exact ⟨⟨g0, h1⟩, dd, t1, glob1, red, h2, runHead_go n .init h3, h4, h5, h6, h7⟩
                · rw [if_neg h7] at h
                  cases h

/-- The tree with the left child of node `id` only. -/
def halfOf (R : Rng K G) (s : Scan K G) (id : Nat) : Option (Tree K G) :=
  match s.t.nodes[id]? with
  | none => none
  | some nd =>
    match nd.data, nd.labels with
    | some data, some labels =>
      match colE data nd.prevSplitFeature with
      | .error _ => none
      | .ok col =>
        if (splitIdcs nd.idcs col nd.splitValue).1 ≠ [] ∧ (splitIdcs nd.idcs col nd.splitValue).2 ≠ [] then
          match childNode R s.t.rng s.t nd labels.length (splitIdcs nd.idcs col nd.splitValue).1 with
          | .error _ => none
          | .ok (l, _) => some { s.t with nodes := s.t.nodes.set id { nd with left := some s.t.nodes.length } ++ [l] }
        else none
    | _, _ => none

theorem halfOf_half {R : Rng K G} {mem : Nat → Junk K} {glob : Glob G} {t t' : Tree K G} {s : Scan K G} {pos id : Nat}
    (h : AboutToSplit R mem t glob s pos id) (h' : halfOf R s id = some t') : TreeHalf R mem t glob id t' := by
  unfold halfOf at h'
  cases h1 : s.t.nodes[id]? with
  | none => rw [h1] at h'; cases h'
  | some nd =>
    rw [h1] at h'
    dsimp only at h'
    cases h2 : nd.data with
    | none => rw [h2] at h'; cases h'
    | some data =>
      cases h3 : nd.labels with
      | none => rw [h2, h3] at h'; cases h'
      | some labels =>
        rw [h2, h3] at h'
        dsimp only at h'
        cases h4 : colE data nd.prevSplitFeature with
        | error e => rw [h4] at h'; cases h'
        | ok col =>
          rw [h4] at h'
          dsimp only at h'
          by_cases h5 : (splitIdcs nd.idcs col nd.splitValue).1 ≠ [] ∧ (splitIdcs nd.idcs col nd.splitValue).2 ≠ []
          · rw [if_pos h5] at h'
            cases h6 : childNode R s.t.rng s.t nd labels.length (splitIdcs nd.idcs col nd.splitValue).1 with
            | error e => rw [h6] at h'; cases h'
            | ok p =>
              obtain ⟨l, g⟩ := p
              rw [h6] at h'
              cases h'
              have key := TreeHalf.half h h1 h2 h3 h4 h5.1 h5.2 h6 s.t.rng
              simp only [h2, h3] at key
              exact key
          · rw [if_neg h5] at h'
            cases h'

/-- The example tree, interrupted between the making of the two children of its second split. -/
def exHalf : Option (Tree ℚ Nat × Tree ℚ Nat × Nat) :=
  match stopAt rngQ exMem exArgs exGlob 1 with
  | none => none
  | some (t, s, _, id) =>
    match halfOf rngQ s id with
    | none => none
    | some t' => some (t, t', id)

theorem exHalf_half {t t' : Tree ℚ Nat} {id : Nat} (h : exHalf = some (t, t', id)) :
    Constructed rngQ exArgs t ∧ TreeHalf rngQ exMem t exGlob id t' := by
  unfold exHalf at h
  cases h1 : stopAt rngQ exMem exArgs exGlob 1 with
  | none => rw [h1] at h; cases h
  | some p =>
    obtain ⟨t0, s, pos, id0⟩ := p
    rw [h1] at h
    dsimp only at h
    cases h2 : halfOf rngQ s id0 with
    | none => rw [h2] at h; cases h
    | some t1 =>
      rw [h2] at h
      cases h
      obtain ⟨a, b⟩ := stopAt_about h1
      exact ⟨a, halfOf_half b h2⟩

/-- In the example the root is split at 1 and its right child, node 2, has only its left child; rows 0 to 3 get the answers of pure leaves and
rows 4 and 5 an exception. -/
theorem exHalf_answers : (exHalf.map (fun p : Tree ℚ Nat × Tree ℚ Nat × Nat =>
    (p.2.2, p.2.1.nodes.map (fun n : Node ℚ => (n.idcs, n.left, n.right)),
      exArgs.data.map (fun x => (p.2.1.predict x).map Prod.fst)) ==
    (2, [([0, 1, 2, 3, 4, 5], some 1, some 2), ([0, 1], none, none), ([2, 3, 4, 5], some 3, none), ([2, 3], none, none)],
      [.ok (.cls 0 [1, 0]), .ok (.cls 0 [1, 0]), .ok (.cls 1 [0, 1]), .ok (.cls 1 [0, 1]), .error (.attributeError "left"),
        .error (.attributeError "left")]))) = some true := by
  decide +kernel

/-- C130 is false of the code as it stands: an exception can leave `fit()` in such a way that the tree raises for a row on which it was
being trained. -/
theorem C130_refuted : ∃ (A : TreeArgs ℚ) (t t' : Tree ℚ Nat) (glob : Glob Nat) (id : Nat), Constructed rngQ A t ∧
    TreeHalf rngQ exMem t glob id t' ∧ ∃ i ∈ A.rows, t'.predict (A.data.getD i []) = .error (.attributeError "left") := by
  have h := exHalf_answers
  cases hx : exHalf with
  | none => rw [hx] at h; cases h
  | some p =>
    obtain ⟨t, t', id⟩ := p
    obtain ⟨a, b⟩ := exHalf_half hx
    exact ⟨exArgs, t, t', exGlob, id, a, b, C130_refuted_half rngQ exMem exArgs t t' exGlob id a b⟩

/-- The example tree, interrupted when it is about to make its second split. -/
theorem exStop_left {t : Tree ℚ Nat} {s : Scan ℚ Nat} {pos id : Nat} (h : stopAt rngQ exMem exArgs exGlob 1 = some (t, s, pos, id)) :
    TreeLeft rngQ exMem t exGlob s.t := by
  obtain ⟨_, ⟨dd, t1, glob1, red, hd, hh, hm, hs, hb, himp⟩⟩ := stopAt_about h
  obtain ⟨hc, _⟩ := stopAt_about h
  obtain ⟨hst, _⟩ := hc.start dd
  obtain ⟨h2, h3⟩ := scanLeaves_sim (R := rngQ) (mem := exMem) (t0 := t1) ⟨hst.sim.steps (hh.sim hst.sim), rfl, rfl, fun b hb => by cases hb⟩
    (fun i hi => by
      rw [Nat.zero_add]
      exact List.getElem?_eq_getElem hi) hs
  obtain ⟨nd, hn, _⟩ := (h3.best _ hb).node
  have hpos := (h3.best _ hb).pos
  rw [h3.leaves] at hpos
  have key := TreeLeft.scanning hd hh hm t1.leaves.length (by rw [List.take_length]; exact hs) (List.mem_of_getElem? hpos) hn nd s.t.rng
    s.t.numQueries s.t.remaining
  have e : s.t.nodes.set id (nd.touched nd) = s.t.nodes := by
    have : nd.touched nd = nd := rfl
    rw [this]
    exact List.ext_getElem? fun j => by
      by_cases hj : id = j
      · subst hj
        rw [getElem?_set_eq hn]
        exact hn.symm
      · rw [List.getElem?_set_ne hj]
  rw [e] at key
  exact key

/-- In the example the tree left behind has one split and answers with the frequencies in its two leaves, and a second call of `fit()` raises an
`AttributeError`. -/
theorem exStop_answers : ((stopAt rngQ exMem exArgs exGlob 1).map (fun p : Tree ℚ Nat × Scan ℚ Nat × Nat × Nat =>
    (p.2.1.t.nodes.map (fun n : Node ℚ => (n.idcs, n.left, n.right)), exArgs.data.map (fun x => (p.2.1.t.predict x).map Prod.fst),
      (p.2.1.t.fit rngQ exMem exGlob none none).map (fun q : Tree ℚ Nat × Glob Nat => q.1.leaves)) ==
    ([([0, 1, 2, 3, 4, 5], some 1, some 2), ([0, 1], none, none), ([2, 3, 4, 5], none, none)],
      [.ok (.cls 0 [1, 0]), .ok (.cls 0 [1, 0]), .ok (.cls 1 [1 / 4, 3 / 4]), .ok (.cls 1 [1 / 4, 3 / 4]), .ok (.cls 1 [1 / 4, 3 / 4]),
        .ok (.cls 1 [1 / 4, 3 / 4])], .error (.attributeError "labels")))) = some true := by
  decide +kernel

/-- C130 is false of the code as it stands in another way: a tree whose `fit()` was interrupted cannot always be fitted again. -/
theorem C130_refuted_resume : ∃ (A : TreeArgs ℚ) (t t' : Tree ℚ Nat) (glob : Glob Nat) (e : Err), Constructed rngQ A t ∧
    TreeLeft rngQ exMem t glob t' ∧ t'.fit rngQ exMem glob none none = .error e ∧ ∃ tf, t.fit rngQ exMem glob none none = .ok tf := by
  have h := exStop_answers
  cases hx : stopAt rngQ exMem exArgs exGlob 1 with
  | none => rw [hx] at h; cases h
  | some p =>
    obtain ⟨t, s, pos, id⟩ := p
    have hl := exStop_left hx
    obtain ⟨hc, _⟩ := stopAt_about hx
    refine ⟨exArgs, t, s.t, exGlob, .attributeError "labels", hc, hl, ?_, ?_⟩
    · rw [hx] at h
      simp only [Option.map_some, Option.some.injEq, beq_iff_eq, Prod.mk.injEq] at h
      have h := h.2.2
      cases hq : s.t.fit rngQ exMem exGlob none none with
      | error e => rw [hq] at h; cases h; rfl
      | ok q => rw [hq] at h; cases h
    · have h2 : ((stopAt rngQ exMem exArgs exGlob 1).map (fun p : Tree ℚ Nat × Scan ℚ Nat × Nat × Nat =>
          (p.1.fit rngQ exMem exGlob none none).toOption.isSome)) = some true := by decide +kernel
      rw [hx] at h2
      simp only [Option.map_some, Option.some.injEq] at h2
      cases hq : t.fit rngQ exMem exGlob none none with
      | error e => rw [hq] at h2; cases h2
      | ok q => exact ⟨q, rfl⟩

end FF
