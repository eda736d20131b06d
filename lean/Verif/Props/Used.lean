import Verif.Props.ForestEx
import Verif.Proofs.Forest
import Verif.Props.Stability

/-!
# Features that are not used in a split (C83)
-/

namespace FF

set_option linter.unusedSectionVars false

variable {K : Type} [Field K] [LinearOrder K] [IsStrictOrderedRing K] [FloorRing K] [NpFun K] {G : Type}

/-- The tree has an inner node that splits on feature `j`. -/
def SplitsOn (t : Tree K G) (j : Nat) : Prop := ∃ nd ∈ t.nodes, nd.left ≠ none ∧ nd.splitFeature = some j

theorem walk_congr (nodes : List (Node K)) (x y : List K)
    (h : ∀ nd ∈ nodes, nd.left ≠ none → ∀ j, nd.splitFeature = some j → x[j]? = y[j]?) :
    ∀ fuel id, walk nodes x fuel id = walk nodes y fuel id := by
  intro fuel
  induction fuel with
  | zero => intro id; rfl
  | succ n ih =>
    intro id
    rw [walk, walk]
    cases hn : nodes[id]? with
    | none => rfl
    | some node =>
      simp only []
      cases hl : node.left with
      | none => rfl
      | some l =>
        simp only []
        cases hf : node.splitFeature with
        | none => rfl
        | some f =>
          simp only []
          rw [h node (List.mem_of_getElem? hn) (by rw [hl]; simp) f hf]
          cases y[f]? with
          | none => rfl
          | some v =>
            simp only []
            rw [ih l]
            cases node.right with
            | none => rfl
            | some r => simp only []; rw [ih r]

/-- C83, trees. Two points that agree on every feature the tree splits on get the same prediction (or error). -/
theorem C83_tree (t : Tree K G) (x y : List K) (h : ∀ j, SplitsOn t j → x[j]? = y[j]?) : t.predict x = t.predict y := by
  unfold Tree.predict
  rw [walk_congr t.nodes x y (fun nd hnd hl j hj => h j ⟨nd, hnd, hl, hj⟩)]

/-- A prediction does not change the splits of the tree. -/
theorem predict_splitsOn {t t' : Tree K G} {x : List K} {p : Pred K} (h : t.predict x = .ok (p, t')) {j : Nat} (hj : SplitsOn t' j) :
    SplitsOn t j := by
  have hset : ∀ (id : Nat) (node nd : Node K), t.nodes[id]? = some node → nd.left = node.left → nd.splitFeature = node.splitFeature →
      SplitsOn { t with nodes := t.nodes.set id nd } j → SplitsOn t j := by
    rintro id node nd hn h1 h2 ⟨m, hm, h3, h4⟩
    rcases List.mem_or_eq_of_mem_set hm with hm | rfl
    · exact ⟨m, hm, h3, h4⟩
    · exact ⟨node, List.mem_of_getElem? hn, by rw [← h1]; exact h3, by rw [← h2]; exact h4⟩
  unfold Tree.predict at h
  cases hw : walk t.nodes x t.nodes.length 0 with
  | error e => rw [hw] at h; cases h
  | ok id =>
    rw [hw] at h
    simp only [] at h
    cases hn : t.nodes[id]? with
    | none => rw [hn] at h; cases h
    | some node =>
      rw [hn] at h
      simp only [] at h
      split at h
      · split at h
        · cases h; exact hj
        · split at h
          · cases h
          · split at h
            · cases h
            · split at h
              · cases h
              · cases h; refine hset id node _ hn ?_ ?_ hj <;> rfl
      · split at h
        · cases h; exact hj
        · split at h
          · cases h
          · cases h
          · cases h; refine hset id node _ hn ?_ ?_ hj <;> rfl

theorem AfterPredicts.splitsOn {t t' : Tree K G} (h : AfterPredicts t t') {j : Nat} (hj : SplitsOn t' j) : SplitsOn t j := by
  induction h with
  | none => exact hj
  | call _ hp ih => exact ih (predict_splitsOn hp hj)

theorem predictBatch_congr : ∀ (xs ys : List (List K)) (t : Tree K G),
    List.Forall₂ (fun x y => ∀ j, SplitsOn t j → x[j]? = y[j]?) xs ys → t.predictBatch xs = t.predictBatch ys := by
  intro xs
  induction xs with
  | nil => intro ys t h; cases h; rfl
  | cons x xs ih =>
    intro ys t h
    cases h with
    | @cons _ y _ ys h1 h2 =>
      rw [Tree.predictBatch, Tree.predictBatch, C83_tree t x y h1]
      cases hp : t.predict y with
      | error e => rfl
      | ok q =>
        obtain ⟨p, t'⟩ := q
        simp only []
        rw [ih ys t' (h2.imp (fun a b hab j hj => hab j (predict_splitsOn hp hj)))]

theorem treesPredict_congr (x y : List K) : ∀ (ts : List (Tree K G)), (∀ t ∈ ts, ∀ j, SplitsOn t j → x[j]? = y[j]?) →
    treesPredict ts x = treesPredict ts y := by
  intro ts
  induction ts with
  | nil => intro _; rfl
  | cons t ts ih =>
    intro h
    rw [treesPredict, treesPredict, C83_tree t x y (h t (by simp)), ih (fun t ht => h t (by simp [ht]))]

/-- C83, forests. Two points that agree on every feature some tree splits on get the same prediction (or error). -/
theorem C83_forest (f : Forest K G) (x y : List K) (h : ∀ t ∈ f.trees, ∀ j, SplitsOn t j → x[j]? = y[j]?) : f.predict x = f.predict y := by
  unfold Forest.predict
  rw [treesPredict_congr x y f.trees h]

theorem takeE_congr {α : Type} {a b : List α} {d : α} {P : α → α → Prop} (h : List.Forall₂ P a b) (idcs : List Nat) :
    (∃ e, takeE a d idcs = .error e ∧ takeE b d idcs = .error e) ∨
    ∃ p q, takeE a d idcs = .ok p ∧ takeE b d idcs = .ok q ∧ List.Forall₂ P p q := by
  unfold takeE
  rw [h.length_eq]
  by_cases hi : (idcs.all (fun i => decide (i < b.length))) = true
  · right
    rw [if_pos hi, if_pos hi]
    refine ⟨_, _, rfl, rfl, ?_⟩
    rw [List.all_eq_true] at hi
    rw [List.forall₂_map_left_iff, List.forall₂_map_right_iff, List.forall₂_same]
    intro i hi'
    have h1 := of_decide_eq_true (hi i hi')
    rw [List.getD_eq_getElem a d (by rw [h.length_eq]; exact h1), List.getD_eq_getElem b d h1]
    exact h.get (by rw [h.length_eq]; exact h1) h1
  · left
    rw [if_neg hi, if_neg hi]
    exact ⟨_, rfl, rfl⟩

theorem oobLoop_congr {D D' : List (List K)} (ol : List (List Nat)) : ∀ (ts : List (Tree K G)) (i : Nat) (s : List (List K)) (c : List Nat),
    (∀ t ∈ ts, List.Forall₂ (fun x y => ∀ j, SplitsOn t j → x[j]? = y[j]?) D D') →
    oobLoop D ol i ts s c = oobLoop D' ol i ts s c := by
  intro ts
  induction ts with
  | nil => intro i s c _; rfl
  | cons t ts ih =>
    intro i s c h
    rw [oobLoop, oobLoop]
    cases ol[i]? with
    | none => rfl
    | some idcs =>
      simp only []
      rcases takeE_congr (d := []) (h t (by simp)) idcs with ⟨e, h1, h2⟩ | ⟨p, q, h1, h2, h3⟩
      · rw [h1, h2]
      · rw [h1, h2]
        simp only []
        rw [predictBatch_congr p q t h3]
        cases t.predictBatch q with
        | error e => rfl
        | ok r =>
          simp only []
          rw [ih _ _ _ (fun t ht => h t (by simp [ht]))]

/-- C83, out-of-bag score: it is the same for two data sets that agree in the columns some tree splits on. -/
theorem C83_oob (f : Forest K G) (w : World K G) (D D' : List (List K)) (hlen : D.length = D'.length)
    (h : ∀ r < D.length, ∀ t ∈ f.trees, ∀ j, SplitsOn t j → (D.getD r [])[j]? = (D'.getD r [])[j]?) :
    f.oobScore w (some D) = f.oobScore w (some D') := by
  unfold Forest.oobScore
  simp only []
  cases f.orgRef with
  | none => rfl
  | some ref =>
    simp only []
    cases f.oobList with
    | none => rfl
    | some ol =>
      simp only []
      rw [oobLoop_congr (D := D) (D' := D') ol]
      intro t ht
      rw [List.forall₂_iff_get]
      refine ⟨hlen, fun i h1 h2 j hj => ?_⟩
      have := h i h1 t ht j hj
      rw [List.getD_eq_getElem _ _ h1, List.getD_eq_getElem _ _ h2] at this
      exact this

/-- A forest whose trees split on column 0 only predicts the same whatever is in column 1. -/
example :
    (do let (f, _) ← runForest rngQ exMems exWorld fcfgQ [[0, 7], [1, 7], [1, 7], [0, 7], [1, 7], [0, 7]] 0 none
        let (p, _) ← f.predict [1, 3]
        let (q, _) ← f.predict [1, -8]
        pure (f.trees.map (fun (t : Tree ℚ Nat) => t.nodes.map (fun (n : Node ℚ) => n.splitFeature)), [p.value, q.value])).toOption
      = some ([[some 0, none, none], [some 0, none, none]], [1, 1]) := by
  decide +kernel

end FF
