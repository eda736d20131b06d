import Verif.Spec.Box
import Verif.Props.Predict
import Verif.Props.Used

/-!
# C120: a tree divides the space of points into boxes and has one answer for each of them
-/

namespace FF

open Spec

set_option linter.unusedSectionVars false

variable {K : Type} [Field K] [LinearOrder K] [IsStrictOrderedRing K] [FloorRing K] [NpFun K] {G : Type}

/-! ### Thresholds -/

theorem walk_side (nodes : List (Node K)) (x y : List K)
    (h : ∀ nd ∈ nodes, nd.left ≠ none → ∀ j, nd.splitFeature = some j → SameSide x y j nd.splitValue) :
    ∀ fuel id, walk nodes x fuel id = walk nodes y fuel id := by
  intro fuel
  induction fuel with
  | zero => intro id; rfl
  | succ n ih =>
    intro id
    rw [walk, walk]
    cases hn : nodes[id]? with
    | none => rfl
    | some node =>
      simp only []
      cases hl : node.left with
      | none => rfl
      | some l =>
        simp only []
        cases hf : node.splitFeature with
        | none => rfl
        | some f =>
          simp only []
          rcases h node (List.mem_of_getElem? hn) (by rw [hl]; simp) f hf with ⟨h1, h2⟩ | ⟨a, b, h1, h2, h3⟩
          · rw [h1, h2]
          · rw [h1, h2]
            simp only []
            rw [ih l]
            by_cases hb : b ≤ node.splitValue
            · rw [if_pos hb, if_pos (h3.2 hb)]
            · have ha : ¬ a ≤ node.splitValue := fun ha => hb (h3.1 ha)
              rw [if_neg hb, if_neg ha]
              cases node.right with
              | none => rfl
              | some r => simp only []; rw [ih r]

/-- C120, trees: two points that lie on the same side of every threshold of the tree get the same answer (or the same error). -/
theorem C120_threshold_tree (t : Tree K G) (x y : List K) (h : ∀ j v, SplitsAt t j v → SameSide x y j v) : t.predict x = t.predict y := by
  unfold Tree.predict
  rw [walk_side t.nodes x y (fun nd hnd hl j hj => h j _ ⟨nd, hnd, hl, hj, rfl⟩)]

theorem treesPredict_side (x y : List K) : ∀ (ts : List (Tree K G)), (∀ t ∈ ts, ∀ j v, SplitsAt t j v → SameSide x y j v) →
    treesPredict ts x = treesPredict ts y := by
  intro ts
  induction ts with
  | nil => intro _; rfl
  | cons t ts ih =>
    intro h
    rw [treesPredict, treesPredict, C120_threshold_tree t x y (h t (by simp)), ih (fun t ht => h t (by simp [ht]))]

/-- C120, forests: the same with the thresholds of all trees. -/
theorem C120_threshold_forest (f : Forest K G) (x y : List K) (h : ∀ t ∈ f.trees, ∀ j v, SplitsAt t j v → SameSide x y j v) :
    f.predict x = f.predict y := by
  unfold Forest.predict
  rw [treesPredict_side x y f.trees h]

/-! ### Boxes -/

/-- The point is sent through node `id`. -/
inductive Goes (t : Tree K G) (x : List K) : Nat → Prop
  | root : Goes t x 0
  | left {p l f : Nat} {v : K} {nd : Node K} (h : Goes t x p) (hn : NodeAt t p nd) (hl : nd.left = some l)
      (hf : nd.splitFeature = some f) (hx : x[f]? = some v) (hv : v ≤ nd.splitValue) : Goes t x l
  | right {p r f : Nat} {v : K} {nd : Node K} (h : Goes t x p) (hn : NodeAt t p nd) (hr : nd.right = some r)
      (hf : nd.splitFeature = some f) (hx : x[f]? = some v) (hv : nd.splitValue < v) : Goes t x r

theorem Goes.routes_root {t : Tree K G} {x : List K} {id : Nat} (h : Goes t x id) {leaf : Nat} (hr : Routes t x id leaf) :
    Routes t x 0 leaf := by
  induction h with
  | root => exact hr
  | left _ hn hl hf hx hv ih => exact ih (.left hn hl hf hx hv hr)
  | right _ hn hl hf hx hv ih => exact ih (.right hn hl hf hx hv hr)

theorem Routes.goes {t : Tree K G} {x : List K} {id leaf : Nat} (hr : Routes t x id leaf) (h : Goes t x id) : Goes t x leaf := by
  induction hr with
  | stop => exact h
  | left hn hl hf hx hv _ ih => exact ih (.left h hn hl hf hx hv)
  | right hn hl hf hx hv _ ih => exact ih (.right h hn hl hf hx hv)

/-- The part of the box with `x[j] ≤ v`. -/
def boxBelow (b : Box K) (j : Nat) (v : K) : Box K :=
  { b with hi := fun k => if k = j then some (match b.hi j with | none => v | some c => min c v) else b.hi k }

/-- The part of the box with `v < x[j]`. -/
def boxAbove (b : Box K) (j : Nat) (v : K) : Box K :=
  { b with lo := fun k => if k = j then some (match b.lo j with | none => v | some c => max c v) else b.lo k }

theorem boxBelow_has (b : Box K) (j : Nat) (v : K) (x : List K) :
    (boxBelow b j v).Has x ↔ b.Has x ∧ ∀ a, x[j]? = some a → a ≤ v := by
  constructor
  · intro h
    refine ⟨fun k a ha => ⟨(h k a ha).1, fun c hc => ?_⟩, fun a ha => ?_⟩
    · have h2 := (h k a ha).2
      by_cases hk : k = j
      · subst hk
        have := h2 (min c v) (by simp [boxBelow, hc])
        exact le_trans this (min_le_left _ _)
      · exact h2 c (by simp [boxBelow, hk, hc])
    · have h2 := (h j a ha).2
      cases hb : b.hi j with
      | none => exact h2 v (by simp [boxBelow, hb])
      | some c => exact le_trans (h2 (min c v) (by simp [boxBelow, hb])) (min_le_right _ _)
  · rintro ⟨h1, h2⟩ k a ha
    refine ⟨(h1 k a ha).1, fun c hc => ?_⟩
    by_cases hk : k = j
    · subst hk
      have hc' : (match b.hi k with | none => v | some c => min c v) = c := by simpa [boxBelow] using hc
      cases hb : b.hi k with
      | none => rw [hb] at hc'; subst hc'; exact h2 a ha
      | some d => rw [hb] at hc'; subst hc'; exact le_min ((h1 k a ha).2 d hb) (h2 a ha)
    · exact (h1 k a ha).2 c (by simpa [boxBelow, hk] using hc)

theorem boxAbove_has (b : Box K) (j : Nat) (v : K) (x : List K) :
    (boxAbove b j v).Has x ↔ b.Has x ∧ ∀ a, x[j]? = some a → v < a := by
  constructor
  · intro h
    refine ⟨fun k a ha => ⟨fun c hc => ?_, (h k a ha).2⟩, fun a ha => ?_⟩
    · have h2 := (h k a ha).1
      by_cases hk : k = j
      · subst hk
        have := h2 (max c v) (by simp [boxAbove, hc])
        exact lt_of_le_of_lt (le_max_left _ _) this
      · exact h2 c (by simp [boxAbove, hk, hc])
    · have h2 := (h j a ha).1
      cases hb : b.lo j with
      | none => exact h2 v (by simp [boxAbove, hb])
      | some c => exact lt_of_le_of_lt (le_max_right _ _) (h2 (max c v) (by simp [boxAbove, hb]))
  · rintro ⟨h1, h2⟩ k a ha
    refine ⟨fun c hc => ?_, (h1 k a ha).2⟩
    by_cases hk : k = j
    · subst hk
      have hc' : (match b.lo k with | none => v | some c => max c v) = c := by simpa [boxAbove] using hc
      cases hb : b.lo k with
      | none => rw [hb] at hc'; subst hc'; exact h2 a ha
      | some d => rw [hb] at hc'; subst hc'; exact max_lt ((h1 k a ha).1 d hb) (h2 a ha)
    · exact (h1 k a ha).1 c (by simpa [boxAbove, hk] using hc)

/-- The bounds of the box are thresholds of the tree. -/
def BoundsIn (t : Tree K G) (b : Box K) : Prop := ∀ j v, (b.lo j = some v ∨ b.hi j = some v) → SplitsAt t j v

theorem BoundsIn.below {t : Tree K G} {b : Box K} (h : BoundsIn t b) {j : Nat} {v : K} (hs : SplitsAt t j v) : BoundsIn t (boxBelow b j v) := by
  rintro k c (hc | hc)
  · exact h k c (Or.inl hc)
  · by_cases hk : k = j
    · subst hk
      have hc' : (match b.hi k with | none => v | some c => min c v) = c := by simpa [boxBelow] using hc
      cases hb : b.hi k with
      | none => rw [hb] at hc'; subst hc'; exact hs
      | some d =>
        rw [hb] at hc'
        rcases min_choice d v with e | e
        · have : d = c := by rw [← hc']; exact e.symm
          exact h k c (Or.inr (by rw [hb, this]))
        · have : v = c := by rw [← hc']; exact e.symm
          rw [← this]; exact hs
    · exact h k c (Or.inr (by simpa [boxBelow, hk] using hc))

theorem BoundsIn.above {t : Tree K G} {b : Box K} (h : BoundsIn t b) {j : Nat} {v : K} (hs : SplitsAt t j v) : BoundsIn t (boxAbove b j v) := by
  rintro k c (hc | hc)
  · by_cases hk : k = j
    · subst hk
      have hc' : (match b.lo k with | none => v | some c => max c v) = c := by simpa [boxAbove] using hc
      cases hb : b.lo k with
      | none => rw [hb] at hc'; subst hc'; exact hs
      | some d =>
        rw [hb] at hc'
        rcases max_choice d v with e | e
        · have : d = c := by rw [← hc']; exact e.symm
          exact h k c (Or.inl (by rw [hb, this]))
        · have : v = c := by rw [← hc']; exact e.symm
          rw [← this]; exact hs
    · exact h k c (Or.inl (by simpa [boxAbove, hk] using hc))
  · exact h k c (Or.inr hc)

/-- The point has the column of every split on its way. -/
def HasCols (t : Tree K G) (x : List K) : Prop :=
  ∀ (id : Nat) (nd : Node K) (f : Nat), Goes t x id → NodeAt t id nd → nd.left ≠ none → nd.splitFeature = some f → f < x.length

section
variable {R : Rng K G} {mem : Nat → Junk K} {A : TreeArgs K} {t : Tree K G} {dd : DiscDict K} {t0 : Tree K G}

theorem GrowFacts.box (h : GrowFacts R mem A dd t0 t) : ∀ id, id < t.nodes.length →
    ∃ b : Box K, BoundsIn t b ∧ ∀ x, HasCols t x → (Goes t x id ↔ b.Has x) := by
  intro id
  induction id using Nat.strong_induction_on with
  | _ id ih =>
    intro hid
    rcases Nat.eq_zero_or_pos id with rfl | hpos
    · refine ⟨⟨fun _ => none, fun _ => none⟩, ?_, fun x _ => ⟨fun _ => ?_, fun _ => .root⟩⟩
      · rintro j v (e | e) <;> cases e
      · intro j v _
        exact ⟨fun a ha => (by cases ha), fun a ha => (by cases ha)⟩
    obtain ⟨p, pn, h1, h2, h3⟩ := h.shape.parents id hpos hid
    obtain ⟨b, hb, hgo⟩ := ih p h1 (by omega)
    rcases h.shape.links _ _ h2 with ⟨a1, a2⟩ | ⟨l, r, nl, nr, a1, a2, _, _, alr, a6, a7, a8⟩
    · rw [a1, a2] at h3
      rcases h3 with h3 | h3 <;> cases h3
    obtain ⟨f, hf, hff, _, _⟩ := a8.feat
    have hs : SplitsAt t f pn.splitValue := ⟨pn, List.mem_of_getElem? h2, by rw [a1]; simp, hf, rfl⟩
    -- the parent of a node is the one found above
    have hup : ∀ (q : Nat) (qn : Node K), NodeAt t q qn → (qn.left = some id ∨ qn.right = some id) → q = p ∧ qn = pn := by
      intro q qn hq hc
      have := h.shape.uniq q p qn pn id hq h2 hc h3
      subst this
      exact ⟨rfl, Option.some.inj ((show t.nodes[q]? = some qn from hq).symm.trans h2)⟩
    rcases h3 with h3 | h3
    · refine ⟨boxBelow b f pn.splitValue, hb.below hs, fun x hx => ?_⟩
      rw [boxBelow_has, ← hgo x hx]
      constructor
      · intro hg
        cases hg with
        | root => omega
        | left h' hn hl hf' hx' hv =>
          obtain ⟨rfl, rfl⟩ := hup _ _ hn (Or.inl hl)
          rw [hf] at hf'; cases hf'
          exact ⟨h', fun a ha => by rw [hx'] at ha; cases ha; exact hv⟩
        | right h' hn hr hf' hx' hv =>
          obtain ⟨rfl, rfl⟩ := hup _ _ hn (Or.inr hr)
          rw [h3] at a1; rw [hr] at a2; cases a1; cases a2
          exact absurd rfl alr
      · rintro ⟨h', hv⟩
        have hlt := hx p pn f h' h2 (by rw [a1]; simp) hf
        exact .left h' h2 h3 hf (List.getElem?_eq_getElem hlt) (hv _ (List.getElem?_eq_getElem hlt))
    · refine ⟨boxAbove b f pn.splitValue, hb.above hs, fun x hx => ?_⟩
      rw [boxAbove_has, ← hgo x hx]
      constructor
      · intro hg
        cases hg with
        | root => omega
        | left h' hn hl hf' hx' hv =>
          obtain ⟨rfl, rfl⟩ := hup _ _ hn (Or.inl hl)
          rw [hl] at a1; rw [h3] at a2; cases a1; cases a2
          exact absurd rfl alr
        | right h' hn hr hf' hx' hv =>
          obtain ⟨rfl, rfl⟩ := hup _ _ hn (Or.inr hr)
          rw [hf] at hf'; cases hf'
          exact ⟨h', fun a ha => by rw [hx'] at ha; cases ha; exact hv⟩
      · rintro ⟨h', hv⟩
        have hlt := hx p pn f h' h2 (by rw [a1]; simp) hf
        exact .right h' h2 h3 hf (List.getElem?_eq_getElem hlt) (hv _ (List.getElem?_eq_getElem hlt))

theorem GrowFacts.hasCols (h : GrowFacts R mem A dd t0 t) {x : List K} (hx : ∀ f ∈ A.cols, f < x.length) : HasCols t x := by
  intro id nd f _ hn hl hf
  rcases h.shape.links _ _ hn with ⟨a1, _⟩ | ⟨l, r, nl, nr, a1, a2, _, _, alr, a6, a7, a8⟩
  · exact absurd a1 hl
  · obtain ⟨f', hf', hff, _⟩ := a8.feat
    rw [hf] at hf'; cases hf'
    exact hx f ((h.nodes _ _ hn).feats_sub f hff)

/-- A training row is in a node exactly if it is sent through it. -/
theorem GrowFacts.goes_row (h : GrowFacts R mem A dd t0 t) {i : Nat} (hi : i ∈ A.rows) :
    ∀ (id : Nat), Goes t (A.data.getD i []) id → ∀ nd, NodeAt t id nd → i ∈ nd.idcs := by
  intro id hg
  induction hg with
  | root =>
    intro nd hn
    obtain ⟨rt, e1, e2, _⟩ := h.shape.root
    obtain rfl := Option.some.inj (e1.symm.trans hn)
    rw [e2]; exact hi
  | left h' hn hl hf hx hv ih =>
    intro nd hnd
    rcases h.shape.links _ _ hn with ⟨a1, _⟩ | ⟨l, r, nl, nr, a1, a2, _, _, alr, a6, a7, a8⟩
    · rw [a1] at hl; cases hl
    · rw [hl] at a1; cases a1
      obtain rfl := Option.some.inj (a6.symm.trans hnd)
      obtain ⟨f', hf', hff, hli, _⟩ := a8.feat
      rw [hf] at hf'; cases hf'
      rw [hli, List.mem_filter]
      refine ⟨ih _ hn, ?_⟩
      rw [List.getD_eq_getElem?_getD, hx]
      simpa using hv
  | right h' hn hr hf hx hv ih =>
    intro nd hnd
    rcases h.shape.links _ _ hn with ⟨_, a1⟩ | ⟨l, r, nl, nr, a1, a2, _, _, alr, a6, a7, a8⟩
    · rw [a1] at hr; cases hr
    · rw [hr] at a2; cases a2
      obtain rfl := Option.some.inj (a7.symm.trans hnd)
      obtain ⟨f', hf', hff, _, hri⟩ := a8.feat
      rw [hf] at hf'; cases hf'
      rw [hri, List.mem_filter]
      refine ⟨ih _ hn, ?_⟩
      rw [List.getD_eq_getElem?_getD, hx]
      simpa using hv

theorem GrowFacts.row_hasCols (h : GrowFacts R mem A dd t0 t) {i : Nat} (hi : i ∈ A.rows) : HasCols t (A.data.getD i []) := by
  intro id nd f hg hn hl hf
  rcases h.shape.links _ _ hn with ⟨a1, _⟩ | ⟨l, r, nl, nr, a1, a2, _, _, alr, a6, a7, a8⟩
  · exact absurd a1 hl
  · obtain ⟨f', hf', hff, _⟩ := a8.feat
    rw [hf] at hf'; cases hf'
    exact ((h.nodes _ _ hn).rows_lt i (h.goes_row hi id hg nd hn)).2 f hff

/-- The rows of a node, in the order of the training rows. -/
theorem GrowFacts.rows_filter (h : GrowFacts R mem A dd t0 t) : ∀ (id : Nat) (nd : Node K), NodeAt t id nd →
    ∃ p : Nat → Bool, nd.idcs = A.rows.filter p := by
  intro id
  induction id using Nat.strong_induction_on with
  | _ id ih =>
    intro nd hn
    rcases Nat.eq_zero_or_pos id with rfl | hpos
    · obtain ⟨rt, e1, e2, _⟩ := h.shape.root
      obtain rfl := Option.some.inj (e1.symm.trans hn)
      exact ⟨fun _ => true, by rw [e2, List.filter_true]⟩
    obtain ⟨p, pn, h1, h2, h3⟩ := h.shape.parents id hpos (nodeAt_lt hn)
    obtain ⟨q, hq⟩ := ih p h1 pn h2
    rcases h.shape.links _ _ h2 with ⟨a1, a2⟩ | ⟨l, r, nl, nr, a1, a2, _, _, alr, a6, a7, a8⟩
    · rw [a1, a2] at h3
      rcases h3 with h3 | h3 <;> cases h3
    obtain ⟨f, hf, hff, hli, hri⟩ := a8.feat
    rcases h3 with h3 | h3
    · rw [h3] at a1; cases a1
      obtain rfl := Option.some.inj (a6.symm.trans hn)
      exact ⟨_, by rw [hli, hq, List.filter_filter]⟩
    · rw [h3] at a2; cases a2
      obtain rfl := Option.some.inj (a7.symm.trans hn)
      exact ⟨_, by rw [hri, hq, List.filter_filter]⟩

theorem GrowFacts.idcs_box (h : GrowFacts R mem A dd t0 t) {leaf : Nat} {nd : Node K} (hn : NodeAt t leaf nd) (hl : nd.left = none)
    (hr : nd.right = none) {b : Box K} (hb : ∀ x, HasCols t x → (Goes t x leaf ↔ b.Has x)) : nd.idcs = b.rowsIn A.data A.rows := by
  obtain ⟨p, hp⟩ := h.rows_filter leaf nd hn
  unfold Box.rowsIn
  rw [hp]
  apply List.filter_congr
  intro i hi
  have key : p i = true ↔ b.Has (A.data.getD i []) := by
    rw [← hb _ (h.row_hasCols hi)]
    constructor
    · intro hpi
      have hm : i ∈ nd.idcs := by rw [hp, List.mem_filter]; exact ⟨hi, hpi⟩
      exact (h.routes_up leaf nd leaf hn hm (.stop hn hl hr)).goes .root
    · intro hg
      have hm := h.goes_row hi leaf hg nd hn
      rw [hp, List.mem_filter] at hm
      exact hm.2
  rw [Bool.eq_iff_iff, key]
  exact (@decide_eq_true_iff _ (Classical.propDecidable _)).symm

end

/-- C120. A fitted tree divides the space of points into as many boxes as it has leaves. Every point that has the columns of the tree lies in
exactly one of them, every box contains a training row, and the sides of the boxes are thresholds of the tree. Whatever was predicted before,
for a point in a box the tree answers with the mean of the training targets in the box, or with the class frequencies there and the
first most frequent class. -/
theorem C120_boxes (R : Rng K G) (mem : Nat → Junk K) (A : TreeArgs K) (t : Tree K G) (h : Fitted R mem A t)
    (hd : A.cfg.isCls = true → ClassesOK A.cfg.classes) (hrows : A.rows ≠ []) :
    ∃ boxes : List (Box K), boxes.length = t.leaves.length ∧
      (∀ x : List K, (∀ f ∈ A.cols, f < x.length) → ∃ (k : Nat) (b : Box K), boxes[k]? = some b ∧ b.Has x ∧
        ∀ (k' : Nat) (b' : Box K), boxes[k']? = some b' → b'.Has x → k' = k) ∧
      (∀ b ∈ boxes, b.rowsIn A.data A.rows ≠ [] ∧ ∀ j v, (b.lo j = some v ∨ b.hi j = some v) → SplitsAt t j v) ∧
      ∀ b ∈ boxes, ∀ x : List K, (∀ f ∈ A.cols, f < x.length) → b.Has x → ∀ t1, AfterPredicts t t1 → ∃ p t2, t1.predict x = .ok (p, t2) ∧
        (A.cfg.isCls = false → p = .reg (mean (labelsOf A.labels (b.rowsIn A.data A.rows)))) ∧
        (A.cfg.isCls = true → ∃ label i, p = .cls label (A.cfg.classes.map (fun c => freq (labelsOf A.labels (b.rowsIn A.data A.rows)) c.1)) ∧
          A.cfg.classes[i]? = some (label, i) ∧
          ∀ (j : Nat) (c : K × Nat), A.cfg.classes[j]? = some c →
            freq (labelsOf A.labels (b.rowsIn A.data A.rows)) c.1 ≤ freq (labelsOf A.labels (b.rowsIn A.data A.rows)) label ∧
            (j < i → freq (labelsOf A.labels (b.rowsIn A.data A.rows)) c.1 < freq (labelsOf A.labels (b.rowsIn A.data A.rows)) label)) := by
  obtain ⟨dd, t0, hf⟩ := h.facts
  have hleaf : ∀ id, id ∈ t.leaves → ∃ nd, NodeAt t id nd ∧ nd.left = none ∧ nd.right = none := by
    intro id hid
    obtain ⟨nd, h1, h2⟩ := (hf.shape.leaves id).1 hid
    refine ⟨nd, h1, h2, ?_⟩
    rcases hf.shape.links _ _ h1 with ⟨_, a⟩ | ⟨l, _, _, _, a, _⟩
    · exact a
    · rw [a] at h2; cases h2
  have hbox : ∀ id, ∃ b : Box K, id ∈ t.leaves → BoundsIn t b ∧ ∀ x, HasCols t x → (Goes t x id ↔ b.Has x) := by
    intro id
    by_cases hid : id ∈ t.leaves
    · obtain ⟨nd, h1, _⟩ := hleaf id hid
      obtain ⟨b, hb⟩ := hf.box id (nodeAt_lt h1)
      exact ⟨b, fun _ => hb⟩
    · exact ⟨⟨fun _ => none, fun _ => none⟩, fun h => absurd h hid⟩
  choose box hbox using hbox
  have hroute : ∀ x, HasCols t x → ∀ id ∈ t.leaves, (box id).Has x → Routes t x 0 id := by
    intro x hx id hid hb
    obtain ⟨nd, h1, h2, h3⟩ := hleaf id hid
    exact (((hbox id hid).2 x hx).2 hb).routes_root (.stop h1 h2 h3)
  have hidcs : ∀ id (nd : Node K), NodeAt t id nd → id ∈ t.leaves → nd.idcs = (box id).rowsIn A.data A.rows := by
    intro id nd hn hid
    obtain ⟨nd', h1, h2, h3⟩ := hleaf id hid
    obtain rfl := Option.some.inj ((show t.nodes[id]? = some nd' from h1).symm.trans hn)
    exact hf.idcs_box h1 h2 h3 (hbox id hid).2
  refine ⟨t.leaves.map box, List.length_map .., ?_, ?_, ?_⟩
  · intro x hx
    have hc := hf.hasCols hx
    obtain ⟨leaf, hr⟩ := hf.routes_total hx t.nodes.length 0 (by omega) ((hf.shape.inTree 0).1 .root)
    have hl : leaf ∈ t.leaves := (hf.shape.isLeaf leaf).2 (hr.isLeaf .root)
    obtain ⟨k, hk⟩ := List.mem_iff_getElem?.1 hl
    refine ⟨k, box leaf, by rw [List.getElem?_map, hk]; rfl, ((hbox leaf hl).2 x hc).1 (hr.goes .root), ?_⟩
    intro k' b' hk' hb'
    rw [List.getElem?_map] at hk'
    cases hk2 : t.leaves[k']? with
    | none => rw [hk2] at hk'; cases hk'
    | some leaf' =>
      rw [hk2] at hk'
      obtain rfl := Option.some.inj hk'
      have := Routes.det hf.shape (hroute x hc leaf' (List.mem_of_getElem? hk2) hb') hr
      subst this
      obtain ⟨l1, e1⟩ := List.getElem?_eq_some_iff.1 hk2
      obtain ⟨l2, e2⟩ := List.getElem?_eq_some_iff.1 hk
      exact (List.Nodup.getElem_inj_iff hf.sim.nodup).1 (e1.trans e2.symm)
  · intro b hb
    obtain ⟨id, hid, rfl⟩ := List.mem_map.1 hb
    refine ⟨?_, (hbox id hid).1⟩
    obtain ⟨nd, h1, _, _⟩ := hleaf id hid
    rw [← hidcs id nd h1 hid]
    exact hf.shape.rows_ne hrows h1
  · intro b hb x hx hbx t1 ha
    obtain ⟨id, hid, rfl⟩ := List.mem_map.1 hb
    have hr := hroute x (hf.hasCols hx) id hid hbx
    obtain ⟨p, t2, hp⟩ := h.predict_of_route hd hrows ha hr
    obtain ⟨leaf, nd, _, b2, b3, b4, _, b6⟩ := h.predict_parts ha hp
    obtain rfl := Routes.det hf.shape hr b2
    rw [← hidcs _ nd b3 hid]
    refine ⟨p, t2, hp, fun hc => (hf.nodePred_reg hc b3 b4 b6).1, fun hc => ?_⟩
    obtain ⟨label, i, e1, _, _, e4, e5⟩ := hf.nodePred_cls hc (hd hc) b3 b6
    exact ⟨label, i, e1, e4, e5⟩

/-- C120, number of answers: on any list of points on which it gives pairwise different answers, a fitted tree has at least as many leaves as
there are points; so there are at most `max_leaf_nodes` different answers. -/
theorem C120_answers (R : Rng K G) (mem : Nat → Junk K) (A : TreeArgs K) (t t1 : Tree K G) (h : Fitted R mem A t)
    (hd : A.cfg.isCls = true → ClassesOK A.cfg.classes) (hrows : A.rows ≠ []) (ha : AfterPredicts t t1) (xs : List (List K))
    (hx : ∀ x ∈ xs, ∀ f ∈ A.cols, f < x.length)
    (hdiff : (xs.map (fun x => (t1.predict x).toOption.map (fun (r : Pred K × Tree K G) => r.1))).Nodup) :
    xs.length ≤ t.leaves.length ∧ ∀ m, A.cfg.maxLeafNodes = some m → 1 ≤ m → xs.length ≤ m := by
  obtain ⟨dd, t0, hf⟩ := h.facts
  have hleaf : ∀ x : List K, ∃ leaf, x ∈ xs → leaf ∈ t.leaves ∧ Routes t x 0 leaf := by
    intro x
    by_cases hm : x ∈ xs
    · obtain ⟨leaf, hr⟩ := hf.routes_total (hx x hm) t.nodes.length 0 (by omega) ((hf.shape.inTree 0).1 .root)
      exact ⟨leaf, fun _ => ⟨(hf.shape.isLeaf leaf).2 (hr.isLeaf .root), hr⟩⟩
    · exact ⟨0, fun h => absurd h hm⟩
  choose leaf hleaf using hleaf
  have hans : ∀ x ∈ xs, ∀ y ∈ xs, leaf x = leaf y →
      (t1.predict x).toOption.map (fun (r : Pred K × Tree K G) => r.1) = (t1.predict y).toOption.map (fun (r : Pred K × Tree K G) => r.1) := by
    intro x hxm y hym e
    obtain ⟨p, t2, hp⟩ := h.predict_of_route hd hrows ha (hleaf x hxm).2
    obtain ⟨q, t3, hq⟩ := h.predict_of_route hd hrows ha (hleaf y hym).2
    obtain ⟨l1, n1, _, b2, b3, _, _, b6⟩ := h.predict_parts ha hp
    obtain ⟨l2, n2, _, c2, c3, _, _, c6⟩ := h.predict_parts ha hq
    obtain rfl := Routes.det hf.shape (hleaf x hxm).2 b2
    obtain rfl := Routes.det hf.shape (hleaf y hym).2 c2
    rw [e] at b3
    obtain rfl := Option.some.inj ((show t.nodes[_]? = some n1 from b3).symm.trans c3)
    rw [b6] at c6
    rw [hp, hq, Except.ok.inj c6]
    rfl
  have hnd : (xs.map leaf).Nodup := by
    have h0 : xs.Nodup := hdiff.of_map _
    refine (List.nodup_map_iff_inj_on h0).2 ?_
    intro x hxm y hym e
    exact List.inj_on_of_nodup_map hdiff hxm hym (hans x hxm y hym e)
  have hle : xs.length ≤ t.leaves.length := by
    rw [← List.length_map (f := leaf)]
    refine (hnd.subperm ?_).length_le
    intro l hl
    obtain ⟨x, hxm, rfl⟩ := List.mem_map.1 hl
    exact (hleaf x hxm).1
  exact ⟨hle, fun m hm h1 => le_trans hle ((C32_leaf_limit R mem A t h).1 m hm h1)⟩

/-- A tree with four thresholds and five boxes. The first five points lie in different boxes and get different answers. The sixth lies exactly
on the upper side of the first one's box, the seventh beyond it, and the eighth on the same side of every threshold as the seventh. -/
example : ∃ t, Fitted rngQ exMem exArgsReg t ∧
    ((t.leaves.length == 5) &&
      (t.nodes.filter (fun (nd : Node ℚ) => nd.left.isSome)).map (fun (nd : Node ℚ) => (nd.splitFeature, nd.splitValue)) ==
        [(some 1, 2), (some 0, 0), (some 0, 2), (some 0, 1)] &&
      ((t.predictBatch [[0, 1], [1, 1], [2, 5], [3, 5], [4, 2], [0, 2], [1 / 9, 2], [1, -5]]).toOption.map Prod.fst ==
        some [.reg 0, .reg 3, .reg 1, .reg 7, .reg (3 / 2), .reg 0, .reg 3, .reg 3])) = true :=
  runTree_exists (glob := exGlob) (by decide +kernel)

/-- The hypotheses are met together, also by a tree that classifies. -/
example : ∃ t, Fitted rngQ exMem exArgs t ∧ (exArgs.cfg.isCls = true → ClassesOK exArgs.cfg.classes) ∧ exArgs.rows ≠ [] := by
  obtain ⟨t, ht, _⟩ := runTree_exists (R := rngQ) (mem := exMem) (A := exArgs) (glob := exGlob) (p := fun _ => true) (by decide +kernel)
  exact ⟨t, ht, fun _ => ⟨by decide, by decide⟩, by decide⟩

end FF
