import Verif.Spec.Mirror
import Verif.Props.ColOrder

/-!
# Property C149: the direction in which a feature is measured
-/

set_option linter.unusedSectionVars false

namespace Spec

variable {K : Type} [Field K] [LinearOrder K] [IsStrictOrderedRing K]

namespace CartProblem

variable {P P' : CartProblem K} {s : List Nat} {rows : List Nat}

/-- `P'` is the problem `P` with the opposite sign in the columns `s`; in both all values that occur are thresholds. -/
structure Mirrored (s : List Nat) (P P' : CartProblem K) (rows : List Nat) : Prop where
  cols : P'.cols = P.cols
  value : ∀ i ∈ rows, ∀ j ∈ P.cols, P'.value i j = if j ∈ s then -P.value i j else P.value i j
  label : ∀ i ∈ rows, P'.label i = P.label i
  grid : ∀ j ∈ P.cols, P.grid j = valueGrid
  grid' : ∀ j ∈ P.cols, P'.grid j = valueGrid
  imp : P'.imp = P.imp
  total : P'.total = P.total
  size : P'.size = P.size
  maxDepth : P'.maxDepth = P.maxDepth
  minSamples : P'.minSamples = P.minSamples
  minDecrease : P'.minDecrease = P.minDecrease

theorem Mirrored.symm (h : Mirrored s P P' rows) : Mirrored s P' P rows where
  cols := h.cols.symm
  value := by
    intro i hi j hj
    rw [h.cols] at hj
    rw [h.value i hi j hj]
    split_ifs
    · rw [neg_neg]
    · rfl
  label := fun i hi => (h.label i hi).symm
  grid := fun j hj => h.grid' j (h.cols ▸ hj)
  grid' := fun j hj => h.grid j (h.cols ▸ hj)
  imp := h.imp.symm
  total := h.total.symm
  size := h.size.symm
  maxDepth := h.maxDepth.symm
  minSamples := h.minSamples.symm
  minDecrease := h.minDecrease.symm

theorem mem_valueGrid {vals : List K} {v : K} : v ∈ valueGrid vals ↔ v ∈ vals := by
  unfold valueGrid
  rw [(List.perm_insertionSort _ _).mem_iff, List.mem_dedup]

/-- The score of a split depends only on how it separates the rows. -/
theorem score_eq (r : List Nat) (c : Nat × K) : P.score r c =
    (((r.filter (fun i => decide (P.value i c.1 ≤ c.2))).length : Nat) : K) / ((r.length : Nat) : K) *
        P.imp ((r.filter (fun i => decide (P.value i c.1 ≤ c.2))).map P.label) +
      (((r.filter (fun i => decide (c.2 < P.value i c.1))).length : Nat) : K) / ((r.length : Nat) : K) *
        P.imp ((r.filter (fun i => decide (c.2 < P.value i c.1))).map P.label) - P.imp (r.map P.label) := by
  unfold CartProblem.score change
  rw [labelsLe_rows, labelsGt_rows]
  simp only [List.length_map, List.map_map]
  rfl

/-- A split that improves something has rows on its right side. -/
theorem right_side {r : List Nat} (hr : r ≠ []) {c : Nat × K} (h : P.score r c < 0) : ∃ i ∈ r, c.2 < P.value i c.1 := by
  by_contra hno
  push Not at hno
  have h1 : r.filter (fun i => decide (P.value i c.1 ≤ c.2)) = r := by
    rw [List.filter_eq_self]
    intro i hi
    simpa using hno i hi
  have h2 : r.filter (fun i => decide (c.2 < P.value i c.1)) = [] := by
    rw [List.filter_eq_nil_iff]
    intro i hi
    simpa using hno i hi
  rw [score_eq, h1, h2] at h
  have hn : ((r.length : Nat) : K) ≠ 0 := by
    have := List.length_pos_iff.2 hr
    exact_mod_cast this.ne'
  rw [div_self hn] at h
  simp at h

/-- Every split of one problem that improves something is a split of the other one, seen from the other side. -/
theorem Mirrored.cand (h : Mirrored s P P' rows) {r : List Nat} (hr : r ⊆ rows) {c : Nat × K} (hc : c ∈ P.candidates r)
    (hneg : P.score r c < 0) : ∃ v', (c.1, v') ∈ P'.candidates r ∧ P'.score r (c.1, v') = P.score r c ∧
      ((c.1 ∉ s ∧ v' = c.2) ∨ (c.1 ∈ s ∧ ∀ i ∈ r, (P'.value i c.1 ≤ v' ↔ c.2 < P.value i c.1))) := by
  obtain ⟨f, v⟩ := c
  obtain ⟨h1, h2⟩ := mem_candidates.1 hc
  dsimp only at h1 h2 ⊢
  have hlab : ∀ q : List Nat, q ⊆ r → q.map P'.label = q.map P.label := fun q hq => List.map_congr_left (fun i hi => h.label i (hr (hq hi)))
  by_cases hf : f ∈ s
  · have hrne : r ≠ [] := by
      rw [h.grid f h1, mem_valueGrid] at h2
      obtain ⟨i, hi, _⟩ := List.mem_map.1 h2
      exact List.ne_nil_of_mem hi
    obtain ⟨i0, hi0, hlt0⟩ := right_side hrne hneg
    dsimp only at hlt0
    have hne : r.filter (fun i => decide (v < P.value i f)) ≠ [] :=
      List.ne_nil_of_mem (List.mem_filter.2 ⟨hi0, by simpa using hlt0⟩)
    obtain ⟨k, u, w, e, k1, k2⟩ := exists_first_best (fun i => P.value i f) _ hne
    have hk : k ∈ r.filter (fun i => decide (v < P.value i f)) := by
      rw [e]
      simp
    have hmin : ∀ i ∈ r, v < P.value i f → P.value k f ≤ P.value i f := by
      intro i hi hlt
      have hi' : i ∈ r.filter (fun i => decide (v < P.value i f)) := List.mem_filter.2 ⟨hi, by simpa using hlt⟩
      rw [e] at hi'
      rcases List.mem_append.1 hi' with q | q
      · exact (k1 i q).le
      · rcases List.mem_cons.1 q with rfl | q
        exacts [le_rfl, k2 i q]
    obtain ⟨hkr, hkv⟩ := List.mem_filter.1 hk
    simp only [decide_eq_true_eq] at hkv
    have hv' : ∀ i ∈ r, P'.value i f = -P.value i f := by
      intro i hi
      rw [h.value i (hr hi) f h1, if_pos hf]
    have hiff : ∀ i ∈ r, (P'.value i f ≤ -P.value k f ↔ v < P.value i f) := by
      intro i hi
      rw [hv' i hi, neg_le_neg_iff]
      exact ⟨fun q => lt_of_lt_of_le hkv q, hmin i hi⟩
    have e1 : r.filter (fun i => decide (P'.value i f ≤ -P.value k f)) = r.filter (fun i => decide (v < P.value i f)) :=
      List.filter_congr (fun i hi => by rw [decide_eq_decide]; exact hiff i hi)
    have e2 : r.filter (fun i => decide (-P.value k f < P'.value i f)) = r.filter (fun i => decide (P.value i f ≤ v)) :=
      List.filter_congr (fun i hi => by
        rw [decide_eq_decide, ← not_le, hiff i hi, not_lt])
    refine ⟨-P.value k f, mem_candidates.2 ⟨h.cols ▸ h1, ?_⟩, ?_, Or.inr ⟨hf, hiff⟩⟩
    · dsimp only
      rw [h.grid' f h1, mem_valueGrid]
      exact List.mem_map.2 ⟨k, hkr, hv' k hkr⟩
    · rw [score_eq, score_eq]
      dsimp only
      rw [e1, e2, h.imp, hlab r (fun _ q => q), hlab _ (fun _ q => List.mem_of_mem_filter q), hlab _ (fun _ q => List.mem_of_mem_filter q)]
      ring
  · have hv' : ∀ i ∈ r, P'.value i f = P.value i f := by
      intro i hi
      rw [h.value i (hr hi) f h1, if_neg hf]
    refine ⟨v, mem_candidates.2 ⟨h.cols ▸ h1, ?_⟩, ?_, Or.inl ⟨hf, rfl⟩⟩
    · dsimp only
      rw [h.grid' f h1, List.map_congr_left hv', ← h.grid f h1]
      exact h2
    · have e1 : r.filter (fun i => decide (P'.value i f ≤ v)) = r.filter (fun i => decide (P.value i f ≤ v)) :=
        List.filter_congr (fun i hi => by rw [hv' i hi])
      have e2 : r.filter (fun i => decide (v < P'.value i f)) = r.filter (fun i => decide (v < P.value i f)) :=
        List.filter_congr (fun i hi => by rw [hv' i hi])
      rw [score_eq, score_eq]
      dsimp only
      rw [e1, e2, h.imp, hlab r (fun _ q => q), hlab _ (fun _ q => List.mem_of_mem_filter q), hlab _ (fun _ q => List.mem_of_mem_filter q)]

/-- A candidate that is better than all others is the first of the best. -/
theorem firstBest_of_strict {r : List Nat} {c : Nat × K} (hc : c ∈ P.candidates r) (h : ∀ x ∈ P.candidates r, x ≠ c → P.score r c < P.score r x) :
    P.FirstBest r c := by
  obtain ⟨a, b, e, ha⟩ := List.eq_append_cons_of_mem hc
  refine ⟨a, b, e, fun x hx => h x (by rw [e]; simp [hx]) (fun q => ha (q ▸ hx)), fun x hx => ?_⟩
  by_cases q : x = c
  · rw [q]
  · exact (h x (by rw [e]; simp [hx]) q).le

/-- The best improving score is the same. -/
theorem Mirrored.best_score (h : Mirrored s P P' rows) {r : List Nat} (hr : r ⊆ rows) {c : Nat × K} (hb : P'.FirstBest r c)
    (hneg : P'.score r c < 0) : ∃ c', P.FirstBest r c' ∧ P.score r c' = P'.score r c := by
  obtain ⟨v, m1, m2, _⟩ := h.symm.cand hr hb.mem hneg
  obtain ⟨c', u, w, e, h1, h2⟩ := exists_first_best (P.score r) (P.candidates r) (List.ne_nil_of_mem m1)
  have hb' : P.FirstBest r c' := ⟨u, w, e, h1, h2⟩
  have hle : P.score r c' ≤ P'.score r c := by
    rw [← m2]
    exact hb'.least _ m1
  refine ⟨c', hb', le_antisymm hle ?_⟩
  obtain ⟨v', n1, n2, _⟩ := h.cand hr hb'.mem (lt_of_le_of_lt hle hneg)
  rw [← n2]
  exact hb.least _ n1

theorem Mirrored.may (hP : Mirrored s P P' rows) {r : List Nat} (hr : r ⊆ rows) {d : Nat} (h : P.MaySplit d r) : P'.MaySplit d r := by
  obtain ⟨a, b, i, hi, j, hj, hne⟩ := h
  refine ⟨hP.maxDepth.symm ▸ a, hP.minSamples.symm ▸ b, i, hi, j, hj, ?_⟩
  rwa [hP.label i (hr hi), hP.label j (hr hj)]

theorem Mirrored.worth (hP : Mirrored s P P' rows) {r : List Nat} {x : K} (h : P.Worth r x) : P'.Worth r x := by
  obtain ⟨a, b, c⟩ := h
  refine ⟨a, ?_, ?_⟩
  · rw [hP.total, hP.minDecrease]; exact b
  · rw [hP.total, hP.minDecrease, hP.size]; exact c

theorem Mirrored.isCart (h : Mirrored s P P' rows) {d : Nat} {r : List Nat} {D : DTree K} (hD : P.IsCart d r D) (hr : r ⊆ rows)
    (hties : P.NoTies r D) : ∃ D', P'.IsCart d r D' ∧ D.SameParts s D' ∧ ∀ i ∈ r, ∀ x x' : List K,
      (∀ f ∈ P.cols, x[f]? = some (P.value i f)) → (∀ f ∈ P.cols, x'[f]? = some (P'.value i f)) → D'.rowsAt x' = D.rowsAt x := by
  induction hD with
  | leaf h1 =>
    refine ⟨_, .leaf (fun hm c hc hw => ?_), .leaf _, fun _ _ _ _ _ _ => rfl⟩
    obtain ⟨c', e1, e2⟩ := h.best_score hr hc hw.neg
    refine h1 (h.symm.may hr hm) c' e1 ?_
    rw [e2]
    exact h.symm.worth hw
  | @node depth r f v yes no hm hb hw _ _ ihy ihn =>
    obtain ⟨c1, c2, c3⟩ := hties
    obtain ⟨y, y1, y2, y3⟩ := ihy (fun i hi => hr (List.mem_of_mem_filter hi)) c2
    obtain ⟨n, n1, n2, n3⟩ := ihn (fun i hi => hr (List.mem_of_mem_filter hi)) c3
    obtain ⟨v', m1, m2, m3⟩ := h.cand hr hb.mem hw.neg
    dsimp only at m1 m2 m3
    have hstrict : ∀ x ∈ P'.candidates r, x ≠ (f, v') → P'.score r (f, v') < P'.score r x := by
      intro x hx hne
      rw [m2]
      rcases lt_or_ge (P'.score r x) 0 with hn | hn
      · obtain ⟨u, k1, k2, k3⟩ := h.symm.cand hr hx hn
        rw [← k2]
        refine c1 _ k1 (fun q => hne ?_)
        obtain ⟨x1, x2⟩ := x
        simp only [Prod.mk.injEq] at q
        dsimp only at k3
        obtain ⟨rfl, rfl⟩ := q
        rw [Prod.mk.injEq]
        refine ⟨rfl, ?_⟩
        rcases m3 with ⟨a1, a2⟩ | ⟨a1, a2⟩ <;> rcases k3 with ⟨b1, b2⟩ | ⟨b1, b2⟩
        · rw [a2, b2]
        · exact absurd b1 a1
        · exact absurd a1 b1
        · have hsame : ∀ i ∈ r, (P'.value i x1 ≤ x2 ↔ P'.value i x1 ≤ v') := by
            intro i hi
            rw [a2 i hi, ← not_lt, ← b2 i hi, not_le]
          have occurs : ∀ z, (x1, z) ∈ P'.candidates r → ∃ i ∈ r, P'.value i x1 = z := by
            intro z hz
            obtain ⟨q1, q2⟩ := mem_candidates.1 hz
            dsimp only at q1 q2
            rw [h.grid' _ (h.cols ▸ q1), mem_valueGrid] at q2
            obtain ⟨i, hi, e⟩ := List.mem_map.1 q2
            exact ⟨i, hi, e⟩
          obtain ⟨i, hi, ei⟩ := occurs _ hx
          obtain ⟨j, hj, ej⟩ := occurs _ m1
          refine le_antisymm ?_ ?_
          · rw [← ei]
            exact (hsame i hi).1 ei.le
          · rw [← ej]
            exact (hsame j hj).2 ej.le
      · exact lt_of_lt_of_le hw.neg hn
    have hfb := firstBest_of_strict m1 hstrict
    have hw' : P'.Worth r (P'.score r (f, v')) := by
      rw [m2]
      exact h.worth hw
    rcases m3 with ⟨a1, a2⟩ | ⟨a1, a2⟩
    · subst a2
      have hv' : ∀ i ∈ r, P'.value i f = P.value i f := by
        intro i hi
        rw [h.value i (hr hi) f hb.mem_cols, if_neg a1]
      refine ⟨.node f v' y n, .node (h.may hr hm) hfb hw' ?_ ?_, .same v' a1 y2 n2, ?_⟩
      · rw [show r.filter (fun i => decide (P'.value i f ≤ v')) = r.filter (fun i => decide (P.value i f ≤ v')) from
          List.filter_congr (fun i hi => by rw [hv' i hi])]
        exact y1
      · rw [show r.filter (fun i => decide (v' < P'.value i f)) = r.filter (fun i => decide (v' < P.value i f)) from
          List.filter_congr (fun i hi => by rw [hv' i hi])]
        exact n1
      · intro i hi x x' hx hx'
        unfold DTree.rowsAt
        rw [hx f hb.mem_cols, hx' f hb.mem_cols]
        dsimp only
        rw [hv' i hi]
        split_ifs with hle
        · exact y3 i (List.mem_filter.2 ⟨hi, by simpa using hle⟩) x x' hx hx'
        · exact n3 i (List.mem_filter.2 ⟨hi, by simpa using hle⟩) x x' hx hx'
    · refine ⟨.node f v' n y, .node (h.may hr hm) hfb hw' ?_ ?_, .flip v v' a1 y2 n2, ?_⟩
      · rw [show r.filter (fun i => decide (P'.value i f ≤ v')) = r.filter (fun i => decide (v < P.value i f)) from
          List.filter_congr (fun i hi => by rw [decide_eq_decide]; exact a2 i hi)]
        exact n1
      · rw [show r.filter (fun i => decide (v' < P'.value i f)) = r.filter (fun i => decide (P.value i f ≤ v)) from
          List.filter_congr (fun i hi => by rw [decide_eq_decide, ← not_le, a2 i hi, not_lt])]
        exact y1
      · intro i hi x x' hx hx'
        unfold DTree.rowsAt
        rw [hx f hb.mem_cols, hx' f hb.mem_cols]
        dsimp only
        by_cases hle : P.value i f ≤ v
        · rw [if_pos hle, if_neg (fun q => absurd ((a2 i hi).1 q) (not_lt.2 hle))]
          exact y3 i (List.mem_filter.2 ⟨hi, by simpa using hle⟩) x x' hx hx'
        · rw [if_neg hle, if_pos ((a2 i hi).2 (not_le.1 hle))]
          exact n3 i (List.mem_filter.2 ⟨hi, by simpa using hle⟩) x x' hx hx'

end CartProblem

end Spec

namespace FF

open Spec

set_option linter.unusedSectionVars false

variable {K : Type} [Field K] [LinearOrder K] [IsStrictOrderedRing K] [FloorRing K] [NpFun K] {G G' : Type}

/-- The table with the opposite sign in the columns `s`. -/
def mirror (s : List Nat) (data : List (List K)) : List (List K) := data.map (mirrorRow s)

/-- The arguments of a tree with the opposite sign in the columns `s` of the table, and with precomputed ranges of the columns to match; also
with another seed. -/
def TreeArgs.mirror (A : TreeArgs K) (s : List Nat) (seed : Nat) : TreeArgs K :=
  { A with
    data := FF.mirror s A.data
    seed := seed
    cfg := { A.cfg with
      minmax := A.cfg.minmax.map (fun m =>
        (m.1.mapIdx (fun j a => if j ∈ s then -(m.2.getD j 0) else a), m.2.mapIdx (fun j a => if j ∈ s then -(m.1.getD j 0) else a))) } }

theorem mirrorRow_getD (s : List Nat) (row : List K) (j : Nat) :
    (mirrorRow s row).getD j 0 = if j ∈ s then -(row.getD j 0) else row.getD j 0 := by
  unfold mirrorRow
  by_cases hj : j < row.length
  · rw [List.getD_eq_getElem _ _ (by rw [List.length_mapIdx]; exact hj), List.getElem_mapIdx, List.getD_eq_getElem _ _ hj]
  · rw [List.getD_eq_default _ _ (by rw [List.length_mapIdx]; omega), List.getD_eq_default _ _ (by omega), neg_zero, ite_self]

theorem mirror_cell (s : List Nat) (data : List (List K)) (i j : Nat) :
    ((mirror s data).getD i []).getD j 0 = if j ∈ s then -((data.getD i []).getD j 0) else (data.getD i []).getD j 0 := by
  unfold mirror
  by_cases hi : i < data.length
  · rw [List.getD_eq_getElem (data.map _) _ (by rw [List.length_map]; exact hi), List.getElem_map, List.getD_eq_getElem data [] hi,
      mirrorRow_getD]
  · rw [List.getD_eq_default (data.map _) _ (by rw [List.length_map]; omega), List.getD_eq_default data _ (by omega)]
    simp

theorem mirror_first (s : List Nat) (data : List (List K)) : ((mirror s data).getD 0 []).length = (data.getD 0 []).length := by
  cases data with
  | nil => rfl
  | cons a l => simp [mirror, mirrorRow]

theorem mirrorRow_length (s : List Nat) (row : List K) : (mirrorRow s row).length = row.length := List.length_mapIdx

section
variable {A : TreeArgs K} (s : List Nat) (seed : Nat)

theorem NoChoice.mirror (hA : NoChoice A) : NoChoice (A.mirror s seed) := by
  refine ⟨⟨hA.args.crit, ?_, hA.args.sorted, hA.args.linear_bins, hA.args.auto_bins⟩, hA.solver, hA.binning, hA.features,
    hA.budget, hA.depth⟩
  intro mins' maxs' e f lo hi h1 h2
  obtain ⟨⟨mins, maxs⟩, e1, e2⟩ := Option.map_eq_some_iff.1 (show A.cfg.minmax.map _ = some (mins', maxs') from e)
  simp only [Prod.mk.injEq] at e2
  obtain ⟨rfl, rfl⟩ := e2
  rw [List.getElem?_mapIdx] at h1 h2
  obtain ⟨a, a1, rfl⟩ := Option.map_eq_some_iff.1 h1
  obtain ⟨b, b1, rfl⟩ := Option.map_eq_some_iff.1 h2
  have hle := hA.args.minmax_le _ _ e1 _ _ _ a1 b1
  have ea : mins.getD f 0 = a := by rw [List.getD_eq_getElem?_getD, a1]; rfl
  have eb : maxs.getD f 0 = b := by rw [List.getD_eq_getElem?_getD, b1]; rfl
  split_ifs
  · rw [ea, eb]
    exact neg_le_neg hle
  · exact hle

theorem cols_mirror : (A.mirror s seed).cols = A.cols := by
  unfold TreeArgs.cols
  show A.feats.getD (List.range ((FF.mirror s A.data).getD 0 []).length) = _
  rw [mirror_first]

theorem problem_mirror (hb : A.cfg.binType = some .identity) :
    CartProblem.Mirrored s A.problem (A.mirror s seed).problem A.rows where
  cols := cols_mirror s seed
  value := fun i _ j _ => mirror_cell s A.data i j
  label := fun _ _ => rfl
  grid := by
    intro j _
    funext vals
    show gridOf A.cfg j vals = _
    unfold gridOf
    rw [hb]
  grid' := by
    intro j _
    funext vals
    show gridOf (A.mirror s seed).cfg j vals = _
    unfold gridOf
    rw [show (A.mirror s seed).cfg.binType = some .identity from hb]
  imp := rfl
  total := rfl
  size := rfl
  maxDepth := rfl
  minSamples := rfl
  minDecrease := rfl

end

/-- C149, trees. With some features measured in the opposite direction, an exactly solved tree without binning asks about the same features, separates
the training rows in the same way, and gives the same answers to the training rows; provided that no two splits are equally good
where the tree asks a question. -/
theorem C149_tree (R : Rng K G) (R' : Rng K G') (mem mem' : Nat → Junk K) (A : TreeArgs K) (hA : NoChoice A)
    (hb : A.cfg.binType = some .identity) (s : List Nat) (seed : Nat) (t t1 : Tree K G) (t' t1' : Tree K G') (h : Fitted R mem A t)
    (h' : Fitted R' mem' (A.mirror s seed) t') (hm : A.cfg.maxLeafNodes ≠ some t.leaves.length)
    (hm' : A.cfg.maxLeafNodes ≠ some t'.leaves.length) (hties : ∀ D, ReadsAs t 0 D → A.problem.NoTies A.rows D) :
    (∃ D D', ReadsAs t 0 D ∧ ReadsAs t' 0 D' ∧ D.SameParts s D') ∧
    ((A.cfg.isCls = true → ClassesOK A.cfg.classes) → AfterPredicts t t1 → AfterPredicts t' t1' → ∀ i ∈ A.rows, ∀ x : List K,
      A.data[i]? = some x → (∀ f ∈ A.cols, f < x.length) →
      ∃ p t2 t2', t1.predict x = .ok (p, t2) ∧ t1'.predict (mirrorRow s x) = .ok (p, t2')) := by
  have hA' := hA.mirror s seed
  obtain ⟨D, hr, hc, _⟩ := C101_greedy_tree R mem A hA t h hm
  obtain ⟨D', hr', hc', _⟩ := C101_greedy_tree R' mem' _ hA' t' h' hm'
  have hP := problem_mirror (A := A) s seed hb
  obtain ⟨E, hE, hsame, hrow⟩ := hP.isCart hc (fun _ hi => hi) (hties D hr)
  have hEc : (A.mirror s seed).problem.IsCart 0 (A.mirror s seed).rows E := hE
  obtain rfl := CartProblem.IsCart.unique hEc hc'
  refine ⟨⟨D, E, hr, hr', hsame⟩, ?_⟩
  intro hd ha ha' i hi x hx hw
  have hrows : A.rows ≠ [] := List.ne_nil_of_mem hi
  have hget : A.data.getD i [] = x := by rw [List.getD_eq_getElem?_getD, hx]; rfl
  have e := hrow i hi x (mirrorRow s x) (by
    intro f hf
    show x[f]? = some ((A.data.getD i []).getD f 0)
    rw [hget, List.getElem?_eq_getElem (hw f hf), List.getD_eq_getElem _ _ (hw f hf)]) (by
    intro f hf
    have hlt : f < (mirrorRow s x).length := by
      rw [mirrorRow_length]
      exact hw f hf
    show (mirrorRow s x)[f]? = some (((FF.mirror s A.data).getD i []).getD f 0)
    rw [mirror_cell, hget, ← mirrorRow_getD, List.getElem?_eq_getElem hlt, List.getD_eq_getElem _ _ hlt])
  refine trees_alike hA hA' h h' hm hm' hd rfl rfl hc hEc hrows hrows hw ?_ ?_ ?_ ha ha'
  · intro f hf
    rw [cols_mirror] at hf
    rw [mirrorRow_length]
    exact hw f hf
  · rw [e]
    rfl
  · intro c
    rw [e]
    rfl

/-- C149, forests without sampling and without binning: the same, for any seeds and numbers of trees. -/
theorem C149_forest (R : Rng K G) (R' : Rng K G') (mem mem' : Nat → Nat → Junk K) (w w1 : World K G) (w' w1' : World K G')
    (cfg : ForestCfg K) (hp : PlainForest cfg) (hb : cfg.binType = some .identity) (data : List (List K)) (ref ref' F : Nat)
    (hrect : ∀ row ∈ data, row.length = F) (hlab : w'.arrays.getD ref' [] = w.arrays.getD ref []) (s : List Nat)
    (n seed : Nat) (f f1 : Forest K G) (f' f1' : Forest K G') (h : runForest R mem w cfg data ref none = .ok (f, w1))
    (h' : runForest R' mem' w' { cfg with nEstimators := n, randomState := seed } (mirror s data) ref' none = .ok (f', w1'))
    (hn : 1 ≤ cfg.nEstimators) (hn' : 1 ≤ n)
    (hties : ∀ D, (forestProblem cfg data (w.arrays.getD ref [])).IsCart 0 (List.range data.length) D →
      (forestProblem cfg data (w.arrays.getD ref [])).NoTies (List.range data.length) D)
    (ha : AfterReads f f1) (ha' : AfterReads f' f1') (x : List K) (hx : x ∈ data) :
    ∃ p f2 f2', f1.predict x = .ok (p, f2) ∧ f1'.predict (mirrorRow s x) = .ok (p, f2') := by
  set cfg' : ForestCfg K := { cfg with nEstimators := n, randomState := seed } with hcfg'
  have hp' : PlainForest cfg' :=
    ⟨hp.solver, hp.binning, hp.bins, hp.features, hp.depth, hp.leaves, hp.bootstrap, hp.boosting, hp.alphaN, hp.alphaF⟩
  obtain ⟨_, D, hD, _⟩ := C107_one_tree R mem w w1 cfg hp data ref f h hn
  have hfst := first_length hrect (List.ne_nil_of_mem hx)
  have hdl : (mirror s data).length = data.length := List.length_map _
  set P := forestProblem cfg data (w.arrays.getD ref []) with hPdef
  set P' := forestProblem cfg' (mirror s data) (w'.arrays.getD ref' []) with hPdef'
  have hP : CartProblem.Mirrored s P P' (List.range data.length) := {
    cols := by
      show List.range _ = List.range _
      rw [mirror_first]
    value := fun i _ j _ => mirror_cell s data i j
    label := by
      intro i _
      show (seenLabels cfg (w'.arrays.getD ref' [])).getD i 0 = (seenLabels cfg (w.arrays.getD ref [])).getD i 0
      rw [hlab]
    grid := by
      intro j _
      funext vals
      rw [hPdef]
      unfold forestProblem
      dsimp only
      rw [hb]
    grid' := by
      intro j _
      funext vals
      rw [hPdef']
      unfold forestProblem
      dsimp only
      rw [show cfg'.binType = some .identity from hb]
    imp := rfl
    total := hdl
    size := by
      show (w'.arrays.getD ref' []).length = (w.arrays.getD ref []).length
      rw [hlab]
    maxDepth := rfl
    minSamples := rfl
    minDecrease := rfl }
  obtain ⟨E, hE, _, hrow⟩ := hP.isCart hD (fun _ hi => hi) (hties D hD)
  obtain ⟨i, hi, hix⟩ := List.mem_iff_getElem.1 hx
  have hget : data.getD i [] = x := by rw [List.getD_eq_getElem _ _ hi, hix]
  have hxl : x.length = F := hrect x hx
  have e := hrow i (List.mem_range.2 hi) x (mirrorRow s x) (by
    intro f hf
    have hlt : f < x.length := by
      have : f ∈ List.range (data.getD 0 []).length := hf
      rw [hfst, List.mem_range] at this
      omega
    show x[f]? = some ((data.getD i []).getD f 0)
    rw [hget, List.getElem?_eq_getElem hlt, List.getD_eq_getElem _ _ hlt]) (by
    intro f hf
    have hlt : f < (mirrorRow s x).length := by
      have : f ∈ List.range (data.getD 0 []).length := hf
      rw [hfst, List.mem_range] at this
      rw [mirrorRow_length]
      omega
    show (mirrorRow s x)[f]? = some (((mirror s data).getD i []).getD f 0)
    rw [mirror_cell, hget, ← mirrorRow_getD, List.getElem?_eq_getElem hlt, List.getD_eq_getElem _ _ hlt])
  refine forests_alike hp hp' h h' hn hn' rfl (by rw [hlab]) hD (by rw [hdl]; exact hE) (by omega) ?_ ?_ ?_ ha ha'
  · rw [mirror_first, mirrorRow_length]
    omega
  · rw [e, hlab]
    rfl
  · intro c
    rw [e, hlab]
    rfl

/-! ### Examples -/

theorem exColsTree_noTies : exArgsCols.problem.NoTies exArgsCols.rows exColsTree :=
  ⟨by decide +kernel, trivial, by decide +kernel, trivial, trivial⟩

theorem predict_some {t : Tree ℚ Nat} {x : List ℚ} {p : Pred ℚ} (h : decide ((t.predict x).toOption.map Prod.fst = some p) = true) :
    ∃ t2, t.predict x = .ok (p, t2) := by
  rw [decide_eq_true_eq] at h
  cases e : t.predict x with
  | error err => rw [e] at h; cases h
  | ok r =>
    rw [e] at h
    exact ⟨r.2, by rw [show r = (p, r.2) from Prod.ext (Option.some.inj h) rfl]⟩

/-- The hypotheses of `C149_tree` are met, by a tree that asks two questions; mirrored in the first column it becomes the tree that first asks
whether the opposite of the first feature is at most -3. -/
example : NoChoice exArgsCols ∧ exArgsCols.cfg.binType = some .identity ∧
    (∃ t : Tree ℚ Nat, Fitted rngQ exMem exArgsCols t ∧ exArgsCols.cfg.maxLeafNodes ≠ some t.leaves.length ∧
      ∀ D, ReadsAs t 0 D → exArgsCols.problem.NoTies exArgsCols.rows D) ∧
    ∃ t' : Tree ℚ Nat, Fitted rngQ exMem (exArgsCols.mirror [0] 5) t' ∧
      ∀ D', ReadsAs t' 0 D' → D' = .node 0 (-3) (.node 1 7 (.leaf [3, 5]) (.leaf [4])) (.leaf [0, 1, 2]) := by
  refine ⟨?_, rfl, ?_, ?_⟩
  · exact ⟨⟨exArgs_ok.crit, exArgs_ok.minmax_le, exArgs_ok.sorted, exArgs_ok.linear_bins, exArgs_ok.auto_bins⟩, rfl, Or.inl rfl, rfl, rfl,
      by simp [exArgsCols, exArgs, cfgQ]⟩
  · obtain ⟨t, h1, h2⟩ := runTree_exists (R := rngQ) (mem := exMem) (A := exArgsCols) (glob := exGlob)
      (p := fun t => decide (exArgsCols.cfg.maxLeafNodes ≠ some t.leaves.length) && isTree t 0 exColsTree) (by decide +kernel)
    rw [Bool.and_eq_true, decide_eq_true_eq] at h2
    refine ⟨t, h1, h2.1, fun D hD => ?_⟩
    rw [isTree_sound h2.2 hD]
    exact exColsTree_noTies
  · obtain ⟨t, h1, h2⟩ := runTree_exists (R := rngQ) (mem := exMem) (A := exArgsCols.mirror [0] 5) (glob := exGlob)
      (p := fun t => isTree t 0 (.node 0 (-3) (.node 1 7 (.leaf [3, 5]) (.leaf [4])) (.leaf [0, 1, 2]))) (by decide +kernel)
    exact ⟨t, h1, fun D hD => isTree_sound h2 hD⟩

/-- Two rows with the values 0 and 2 and different labels. -/
def exArgsGap : TreeArgs ℚ := { exArgs with data := [[0], [2]], labels := [0, 1] }

/-- C149, other points matter. The threshold is a value of a training row, so points between two training rows change sides: the point 1 is
answered like 2, and measured in the opposite direction like 0. -/
theorem C149_between : NoChoice exArgsGap ∧ ∃ t t' : Tree ℚ Nat, Fitted rngQ exMem exArgsGap t ∧
    Fitted rngQ exMem (exArgsGap.mirror [0] 0) t' ∧ (∃ t2, t.predict [1] = .ok (.cls 1 [0, 1], t2)) ∧
    ∃ t2, t'.predict (mirrorRow [0] [1]) = .ok (.cls 0 [1, 0], t2) := by
  refine ⟨?_, ?_⟩
  · exact ⟨⟨exArgs_ok.crit, exArgs_ok.minmax_le, exArgs_ok.sorted, exArgs_ok.linear_bins, exArgs_ok.auto_bins⟩, rfl, Or.inl rfl, rfl, rfl,
      by simp [exArgsGap, exArgs, cfgQ]⟩
  · obtain ⟨t, h1, h2⟩ := runTree_exists (R := rngQ) (mem := exMem) (A := exArgsGap) (glob := exGlob)
      (p := fun t => decide ((t.predict [1]).toOption.map Prod.fst = some (.cls 1 [0, 1]))) (by decide +kernel)
    obtain ⟨t', h1', h2'⟩ := runTree_exists (R := rngQ) (mem := exMem) (A := exArgsGap.mirror [0] 0) (glob := exGlob)
      (p := fun t => decide ((t.predict (mirrorRow [0] [1])).toOption.map Prod.fst = some (.cls 0 [1, 0]))) (by decide +kernel)
    exact ⟨t, t', h1, h1', predict_some h2, predict_some h2'⟩

/-- Three rows with the labels 0, 1, 0: the two splits are equally good. -/
def exArgsTie3 : TreeArgs ℚ := { exArgs with cfg := { cfgQ with maxDepth := .some 1 }, data := [[0], [1], [2]], labels := [0, 1, 0] }

/-- C149, ties matter: of two equally good splits the one with the smaller threshold is made, so the answer for the first training row depends on
the direction of the feature. -/
theorem C149_ties : NoChoice exArgsTie3 ∧ ∃ t t' : Tree ℚ Nat, Fitted rngQ exMem exArgsTie3 t ∧
    Fitted rngQ exMem (exArgsTie3.mirror [0] 0) t' ∧ (∃ t2, t.predict [0] = .ok (.cls 0 [1, 0], t2)) ∧
    ∃ t2, t'.predict (mirrorRow [0] [0]) = .ok (.cls 0 [1 / 2, 1 / 2], t2) := by
  refine ⟨?_, ?_⟩
  · exact ⟨⟨exArgs_ok.crit, exArgs_ok.minmax_le, exArgs_ok.sorted, exArgs_ok.linear_bins, exArgs_ok.auto_bins⟩, rfl, Or.inl rfl, rfl, rfl,
      by simp [exArgsTie3, exArgs, cfgQ]⟩
  · obtain ⟨t, h1, h2⟩ := runTree_exists (R := rngQ) (mem := exMem) (A := exArgsTie3) (glob := exGlob)
      (p := fun t => decide ((t.predict [0]).toOption.map Prod.fst = some (.cls 0 [1, 0]))) (by decide +kernel)
    obtain ⟨t', h1', h2'⟩ := runTree_exists (R := rngQ) (mem := exMem) (A := exArgsTie3.mirror [0] 0) (glob := exGlob)
      (p := fun t => decide ((t.predict (mirrorRow [0] [0])).toOption.map Prod.fst = some (.cls 0 [1 / 2, 1 / 2]))) (by decide +kernel)
    exact ⟨t, t', h1, h1', predict_some h2, predict_some h2'⟩

/-- The hypotheses of `C149_forest` are met, and the forests answer alike. -/
example : PlainForest fcfgPlain ∧ fcfgPlain.binType = some .identity ∧
    (∀ D, (forestProblem fcfgPlain exArgsCols.data exArgsCols.labels).IsCart 0 (List.range 6) D →
      (forestProblem fcfgPlain exArgsCols.data exArgsCols.labels).NoTies (List.range 6) D) ∧
    (runForest rngQ exMems { exWorld with arrays := [exArgsCols.labels] } fcfgPlain exArgsCols.data 0 none).toOption.map
        (fun r => [[2, 3], [3, 2], [4, 18]].map (fun x => (r.1.predict x).toOption.map Prod.fst)) =
      some [some (.cls 0 [1, 0]), some (.cls 1 [0, 1]), some (.cls 0 [1, 0])] ∧
    (runForest rngQ exMems { exWorld with arrays := [exArgsCols.labels] } { fcfgPlain with nEstimators := 3, randomState := 5 }
        (mirror [0] exArgsCols.data) 0 none).toOption.map
        (fun r => [[-2, 3], [-3, 2], [-4, 18]].map (fun x => (r.1.predict x).toOption.map Prod.fst)) =
      some [some (.cls 0 [1, 0]), some (.cls 1 [0, 1]), some (.cls 0 [1, 0])] := by
  have hp : PlainForest fcfgPlain := ⟨rfl, .inl rfl, fun _ => by decide, rfl, by decide, rfl, rfl, rfl, rfl, rfl⟩
  refine ⟨hp, rfl, ?_, by decide +kernel, by decide +kernel⟩
  intro D hD
  have hrun : (runForest rngQ exMems { exWorld with arrays := [exArgsCols.labels] } fcfgPlain exArgsCols.data 0 none).toOption.any
      (fun r => match r.1.trees with
        | [] => false
        | t :: _ => isTree t 0 exColsTree) = true := by decide +kernel
  obtain ⟨r, h1, h2⟩ := (Option.any_eq_true _ _).1 hrun
  cases e : runForest rngQ exMems { exWorld with arrays := [exArgsCols.labels] } fcfgPlain exArgsCols.data 0 none with
  | error err => rw [e] at h1; cases h1
  | ok r' =>
    rw [e] at h1
    obtain rfl : r' = r := Option.some.inj h1
    obtain ⟨_, D0, _, huni, hall⟩ := C107_one_tree rngQ exMems _ r'.2 fcfgPlain hp _ 0 r'.1 e (by decide)
    have hD' := huni D hD
    cases ht : r'.1.trees with
    | nil =>
      simp only [ht] at h2
      cases h2
    | cons t ts =>
      simp only [ht] at h2
      rw [hD', isTree_sound h2 (hall t (by rw [ht]; simp))]
      exact ⟨by decide +kernel, trivial, by decide +kernel, trivial, trivial⟩

end FF
