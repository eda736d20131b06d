import Verif.Spec.ColOrder
import Verif.Props.CartMore

/-!
# Property C146: the order of the columns matters only for ties
-/

set_option linter.unusedSectionVars false

namespace Spec

variable {K : Type} [Field K] [LinearOrder K]

namespace CartProblem

variable {P P' : CartProblem K}

/-- `P'` is the problem `P` with its columns in another order: column `j` of `P'` is column `g j` of `P`. -/
structure Reordered (g : Nat → Nat) (P P' : CartProblem K) (rows : List Nat) : Prop where
  cols : (P'.cols.map g).Perm P.cols
  nodup : P.cols.Nodup
  value : ∀ i ∈ rows, ∀ j ∈ P'.cols, P'.value i j = P.value i (g j)
  label : ∀ i ∈ rows, P'.label i = P.label i
  grid : ∀ j ∈ P'.cols, P'.grid j = P.grid (g j)
  imp : P'.imp = P.imp
  total : P'.total = P.total
  size : P'.size = P.size
  maxDepth : P'.maxDepth = P.maxDepth
  minSamples : P'.minSamples = P.minSamples
  minDecrease : P'.minDecrease = P.minDecrease

theorem flatMap_only {α : Type} {cols : List Nat} (hn : cols.Nodup) {f : Nat} (hf : f ∈ cols) (l : List α) :
    cols.flatMap (fun c => if c = f then l else []) = l := by
  induction cols with
  | nil => cases hf
  | cons a t ih =>
    rw [List.flatMap_cons]
    rw [List.nodup_cons] at hn
    by_cases ha : a = f
    · subst ha
      rw [if_pos rfl]
      have : t.flatMap (fun c => if c = a then l else []) = [] := by
        rw [List.flatMap_eq_nil_iff]
        intro x hx
        rw [if_neg]
        rintro rfl
        exact hn.1 hx
      rw [this, List.append_nil]
    · rw [if_neg ha, List.nil_append]
      exact ih hn.2 ((List.mem_cons.1 hf).resolve_left (fun e => ha e.symm))

theorem candidates_filter (hn : P.cols.Nodup) {f : Nat} (hf : f ∈ P.cols) (rows : List Nat) :
    (P.candidates rows).filter (fun c => decide (c.1 = f)) = (P.grid f (rows.map (fun i => P.value i f))).map (fun v => (f, v)) := by
  unfold candidates
  rw [List.filter_flatMap, ← flatMap_only hn hf ((P.grid f (rows.map (fun i => P.value i f))).map (fun v => (f, v)))]
  refine List.flatMap_congr (fun c _ => ?_)
  by_cases hc : c = f
  · subst hc
    rw [if_pos rfl, List.filter_eq_self]
    intro x hx
    obtain ⟨v, _, rfl⟩ := List.mem_map.1 hx
    exact decide_eq_true rfl
  · rw [if_neg hc, List.filter_eq_nil_iff]
    intro x hx
    obtain ⟨v, _, rfl⟩ := List.mem_map.1 hx
    simpa using hc

/-- The thresholds of the chosen column before and after the chosen one. -/
theorem FirstBest.inCol (hn : P.cols.Nodup) {rows : List Nat} {f : Nat} {v : K} (h : P.FirstBest rows (f, v)) :
    ∃ u w, P.grid f (rows.map (fun i => P.value i f)) = u ++ v :: w ∧ (∀ x ∈ u, P.score rows (f, v) < P.score rows (f, x)) ∧
      ∀ x ∈ w, P.score rows (f, v) ≤ P.score rows (f, x) := by
  have hf : f ∈ P.cols := h.mem_cols
  obtain ⟨a, b, e, h1, h2⟩ := h
  have hfil := candidates_filter hn hf rows
  rw [e, List.filter_append, List.filter_cons_of_pos (by simp)] at hfil
  obtain ⟨u, w', e1, e2, e3⟩ := List.map_eq_append_iff.1 hfil.symm
  obtain ⟨v', w, rfl, e4, e5⟩ := List.map_eq_cons_iff.1 e3
  obtain rfl : v' = v := by simpa using e4
  refine ⟨u, w, e1, fun x hx => h1 _ ?_, fun x hx => h2 _ ?_⟩
  · have : (f, x) ∈ u.map (fun v => (f, v)) := List.mem_map.2 ⟨x, hx, rfl⟩
    rw [e2] at this
    exact (List.mem_filter.1 this).1
  · have : (f, x) ∈ w.map (fun v => (f, v)) := List.mem_map.2 ⟨x, hx, rfl⟩
    rw [e5] at this
    exact (List.mem_filter.1 this).1

theorem exists_first_best {α : Type} (s : α → K) : ∀ l : List α, l ≠ [] →
    ∃ c before after, l = before ++ c :: after ∧ (∀ x ∈ before, s c < s x) ∧ ∀ x ∈ after, s c ≤ s x := by
  intro l hl
  induction l with
  | nil => exact absurd rfl hl
  | cons a t ih =>
    by_cases ht : t = []
    · subst ht
      exact ⟨a, [], [], rfl, by simp, by simp⟩
    · obtain ⟨c, u, w, e, h1, h2⟩ := ih ht
      by_cases hac : s a ≤ s c
      · refine ⟨a, [], t, rfl, by simp, ?_⟩
        intro x hx
        rw [e, List.mem_append, List.mem_cons] at hx
        rcases hx with q | rfl | q
        · exact hac.trans (h1 x q).le
        · exact hac
        · exact hac.trans (h2 x q)
      · refine ⟨c, a :: u, w, by rw [e]; rfl, ?_, h2⟩
        intro x hx
        rcases List.mem_cons.1 hx with rfl | q
        · exact not_le.1 hac
        · exact h1 x q

section
variable {g : Nat → Nat} {rows : List Nat}

theorem FirstBest.mem {r : List Nat} {c : Nat × K} (h : P.FirstBest r c) : c ∈ P.candidates r := by
  obtain ⟨a, b, e, _⟩ := h
  rw [e]
  simp

theorem FirstBest.least {r : List Nat} {c : Nat × K} (h : P.FirstBest r c) : ∀ x ∈ P.candidates r, P.score r c ≤ P.score r x := by
  obtain ⟨a, b, e, h1, h2⟩ := h
  intro x hx
  rw [e, List.mem_append, List.mem_cons] at hx
  rcases hx with q | rfl | q
  · exact (h1 x q).le
  · exact le_refl _
  · exact h2 x q

theorem mem_candidates {r : List Nat} {c : Nat × K} :
    c ∈ P.candidates r ↔ c.1 ∈ P.cols ∧ c.2 ∈ P.grid c.1 (r.map (fun i => P.value i c.1)) := by
  unfold candidates
  constructor
  · intro h
    obtain ⟨f, hf, h⟩ := List.mem_flatMap.1 h
    obtain ⟨v, hv, rfl⟩ := List.mem_map.1 h
    exact ⟨hf, hv⟩
  · rintro ⟨h1, h2⟩
    exact List.mem_flatMap.2 ⟨c.1, h1, List.mem_map.2 ⟨c.2, h2, rfl⟩⟩

theorem Reordered.vals (hP : Reordered g P P' rows) {r : List Nat} (hr : r ⊆ rows) {j : Nat} (hj : j ∈ P'.cols) :
    r.map (fun i => P'.value i j) = r.map (fun i => P.value i (g j)) :=
  List.map_congr_left (fun i hi => hP.value i (hr hi) j hj)

theorem Reordered.score (hP : Reordered g P P' rows) {r : List Nat} (hr : r ⊆ rows) {j : Nat} (hj : j ∈ P'.cols) (v : K) :
    P'.score r (j, v) = P.score r (g j, v) := by
  unfold CartProblem.score
  rw [hP.imp]
  congr 1
  exact List.map_congr_left (fun i hi => by rw [hP.value i (hr hi) j hj, hP.label i (hr hi)])

theorem Reordered.mem (hP : Reordered g P P' rows) {j : Nat} (hj : j ∈ P'.cols) : g j ∈ P.cols :=
  hP.cols.mem_iff.1 (List.mem_map.2 ⟨j, hj, rfl⟩)

theorem Reordered.back (hP : Reordered g P P' rows) {f : Nat} (hf : f ∈ P.cols) : ∃ j ∈ P'.cols, g j = f :=
  List.mem_map.1 (hP.cols.mem_iff.2 hf)

theorem Reordered.inj (hP : Reordered g P P' rows) {i j : Nat} (hi : i ∈ P'.cols) (hj : j ∈ P'.cols) (h : g i = g j) : i = j :=
  List.inj_on_of_nodup_map (hP.cols.nodup_iff.2 hP.nodup) hi hj h

theorem Reordered.may (hP : Reordered g P P' rows) {r : List Nat} (hr : r ⊆ rows) (d : Nat) : P'.MaySplit d r ↔ P.MaySplit d r := by
  constructor
  · rintro ⟨a, b, i, hi, j, hj, hne⟩
    refine ⟨hP.maxDepth ▸ a, hP.minSamples ▸ b, i, hi, j, hj, ?_⟩
    rwa [hP.label i (hr hi), hP.label j (hr hj)] at hne
  · rintro ⟨a, b, i, hi, j, hj, hne⟩
    refine ⟨hP.maxDepth.symm ▸ a, hP.minSamples.symm ▸ b, i, hi, j, hj, ?_⟩
    rwa [hP.label i (hr hi), hP.label j (hr hj)]

theorem Reordered.worth (hP : Reordered g P P' rows) (r : List Nat) (s : K) : P'.Worth r s ↔ P.Worth r s := by
  constructor
  · rintro ⟨a, b, c⟩
    rw [hP.total, hP.minDecrease] at b c
    rw [hP.size] at c
    exact ⟨a, b, c⟩
  · rintro ⟨a, b, c⟩
    refine ⟨a, ?_, ?_⟩
    · rw [hP.total, hP.minDecrease]; exact b
    · rw [hP.total, hP.minDecrease, hP.size]; exact c

/-- The best score of a node does not depend on the order of the columns, ties or not. -/
theorem Reordered.best_score (hP : Reordered g P P' rows) {r : List Nat} (hr : r ⊆ rows) {c : Nat × K} (h : P'.FirstBest r c) :
    ∃ c', P.FirstBest r c' ∧ P.score r c' = P'.score r c := by
  have hto : ∀ x ∈ P'.candidates r, (g x.1, x.2) ∈ P.candidates r ∧ P'.score r x = P.score r (g x.1, x.2) := by
    intro x hx
    obtain ⟨h1, h2⟩ := mem_candidates.1 hx
    rw [hP.vals hr h1, hP.grid _ h1] at h2
    exact ⟨mem_candidates.2 ⟨hP.mem h1, h2⟩, hP.score hr h1 x.2⟩
  have hfrom : ∀ y ∈ P.candidates r, ∃ x ∈ P'.candidates r, P'.score r x = P.score r y := by
    intro y hy
    obtain ⟨h1, h2⟩ := mem_candidates.1 hy
    obtain ⟨j, hj, e⟩ := hP.back h1
    refine ⟨(j, y.2), mem_candidates.2 ⟨hj, ?_⟩, ?_⟩
    · show y.2 ∈ P'.grid j (r.map (fun i => P'.value i j))
      rw [hP.vals hr hj, hP.grid _ hj, e]
      exact h2
    · rw [hP.score hr hj, e]
  obtain ⟨e1, e2⟩ := hto c h.mem
  obtain ⟨c', u, w, e, h1, h2⟩ := exists_first_best (P.score r) (P.candidates r) (List.ne_nil_of_mem e1)
  have hb : P.FirstBest r c' := ⟨u, w, e, h1, h2⟩
  refine ⟨c', hb, le_antisymm ?_ ?_⟩
  · rw [e2]
    exact hb.least _ e1
  · obtain ⟨x, hx, ex⟩ := hfrom c' hb.mem
    rw [← ex]
    exact h.least x hx

/-- Without ties between columns the best candidate stays the best one. -/
theorem Reordered.firstBest (hP : Reordered g P P' rows) {r : List Nat} (hr : r ⊆ rows) {j : Nat} {v : K} (hj : j ∈ P'.cols)
    (h : P.FirstBest r (g j, v)) (hclear : ∀ c ∈ P.candidates r, c.1 ≠ g j → P.score r (g j, v) < P.score r c) :
    P'.FirstBest r (j, v) := by
  obtain ⟨u, w, e, h1, h2⟩ := h.inCol hP.nodup
  obtain ⟨a, b, hab⟩ := List.append_of_mem hj
  have hnd : P'.cols.Nodup := (hP.cols.nodup_iff.2 hP.nodup).of_map
  have hother : ∀ i ∈ P'.cols, i ≠ j → ∀ x ∈ (P'.grid i (r.map (fun k => P'.value k i))).map (fun v => (i, v)),
      P'.score r (j, v) < P'.score r x := by
    intro i hi hij x hx
    obtain ⟨z, hz, rfl⟩ := List.mem_map.1 hx
    rw [hP.score hr hj, hP.score hr hi]
    refine hclear (g i, z) (mem_candidates.2 ⟨hP.mem hi, ?_⟩) (fun q => hij (hP.inj hi hj q))
    rw [hP.vals hr hi, hP.grid _ hi] at hz
    exact hz
  have hnda : ∀ i ∈ a, i ≠ j := by
    rintro i hi rfl
    rw [hab] at hnd
    exact (List.nodup_append.1 hnd).2.2 i hi i (by simp) rfl
  have hndb : ∀ i ∈ b, i ≠ j := by
    rintro i hi rfl
    rw [hab] at hnd
    exact (List.nodup_cons.1 (List.nodup_append.1 hnd).2.1).1 hi
  refine ⟨a.flatMap (fun i => (P'.grid i (r.map (fun k => P'.value k i))).map (fun v => (i, v))) ++ u.map (fun v => (j, v)),
    w.map (fun v => (j, v)) ++ b.flatMap (fun i => (P'.grid i (r.map (fun k => P'.value k i))).map (fun v => (i, v))), ?_, ?_, ?_⟩
  · unfold candidates
    rw [hab, List.flatMap_append, List.flatMap_cons, hP.vals hr hj, hP.grid _ hj, e]
    simp only [List.map_append, List.map_cons, List.append_assoc, List.cons_append]
  · intro x hx
    rcases List.mem_append.1 hx with q | q
    · obtain ⟨i, hi, q⟩ := List.mem_flatMap.1 q
      exact hother i (by rw [hab]; simp [hi]) (hnda i hi) x q
    · obtain ⟨z, hz, rfl⟩ := List.mem_map.1 q
      rw [hP.score hr hj, hP.score hr hj]
      exact h1 z hz
  · intro x hx
    rcases List.mem_append.1 hx with q | q
    · obtain ⟨z, hz, rfl⟩ := List.mem_map.1 q
      rw [hP.score hr hj, hP.score hr hj]
      exact h2 z hz
    · obtain ⟨i, hi, q⟩ := List.mem_flatMap.1 q
      exact (hother i (by rw [hab]; simp [hi]) (hndb i hi) x q).le

theorem Reordered.isCart (hP : Reordered g P P' rows) {d : Nat} {r : List Nat} {D : DTree K} (h : P.IsCart d r D) (hr : r ⊆ rows)
    (hclear : P.ClearCut r D) : ∃ D', P'.IsCart d r D' ∧ D'.rename g = D := by
  induction h with
  | leaf h1 =>
    refine ⟨_, .leaf (fun hm c hc hw => ?_), rfl⟩
    obtain ⟨c', e1, e2⟩ := hP.best_score hr hc
    refine h1 ((hP.may hr _).1 hm) c' e1 ?_
    rw [e2]
    exact (hP.worth _ _).1 hw
  | @node depth r f v yes no hm hb hw _ _ ihy ihn =>
    obtain ⟨c1, c2, c3⟩ := hclear
    obtain ⟨j, hj, rfl⟩ := hP.back hb.mem_cols
    obtain ⟨y, y1, y2⟩ := ihy (fun i hi => hr (List.mem_of_mem_filter hi)) c2
    obtain ⟨n, n1, n2⟩ := ihn (fun i hi => hr (List.mem_of_mem_filter hi)) c3
    refine ⟨.node j v y n, .node ((hP.may hr _).2 hm) (hP.firstBest hr hj hb c1) ?_ ?_ ?_, ?_⟩
    · rw [hP.score hr hj]
      exact (hP.worth _ _).2 hw
    · rw [show r.filter (fun i => decide (P'.value i j ≤ v)) = r.filter (fun i => decide (P.value i (g j) ≤ v)) from
        List.filter_congr (fun i hi => by rw [hP.value i (hr hi) j hj])]
      exact y1
    · rw [show r.filter (fun i => decide (v < P'.value i j)) = r.filter (fun i => decide (v < P.value i (g j))) from
        List.filter_congr (fun i hi => by rw [hP.value i (hr hi) j hj])]
      exact n1
    · show DTree.node (g j) v (y.rename g) (n.rename g) = _
      rw [y2, n2]

/-- Ties or not, the first question is asked for both orders or for neither, and it is equally good. -/
theorem Reordered.root (hP : Reordered g P P' rows) {d : Nat} {r : List Nat} {D D' : DTree K} (h : P.IsCart d r D) (h' : P'.IsCart d r D')
    (hr : r ⊆ rows) : (D = .leaf r ∧ D' = .leaf r) ∨ ∃ f v y n f' v' y' n', D = .node f v y n ∧ D' = .node f' v' y' n' ∧
      P'.score r (f', v') = P.score r (f, v) := by
  have hback : ∀ c, P.FirstBest r c → ∃ c', P'.FirstBest r c' := by
    intro c hc
    obtain ⟨h1, h2⟩ := mem_candidates.1 hc.mem
    obtain ⟨j, hj, e⟩ := hP.back h1
    have hmem : (j, c.2) ∈ P'.candidates r := by
      refine mem_candidates.2 ⟨hj, ?_⟩
      show c.2 ∈ P'.grid j (r.map (fun i => P'.value i j))
      rw [hP.vals hr hj, hP.grid _ hj, e]
      exact h2
    obtain ⟨c', u, w, e, h1, h2⟩ := exists_first_best (P'.score r) (P'.candidates r) (List.ne_nil_of_mem hmem)
    exact ⟨c', u, w, e, h1, h2⟩
  cases h with
  | leaf h1 =>
    cases h' with
    | leaf _ => exact Or.inl ⟨rfl, rfl⟩
    | node hm hb hw _ _ =>
      obtain ⟨c', e1, e2⟩ := hP.best_score hr hb
      refine absurd ?_ (h1 ((hP.may hr _).1 hm) c' e1)
      rw [e2]
      exact (hP.worth _ _).1 hw
  | node hm hb hw _ _ =>
    cases h' with
    | leaf h1 =>
      obtain ⟨c, hc⟩ := hback _ hb
      obtain ⟨c', e1, e2⟩ := hP.best_score hr hc
      obtain rfl := e1.unique hb
      refine absurd ?_ (h1 ((hP.may hr _).2 hm) c hc)
      rw [← e2]
      exact (hP.worth _ _).2 hw
    | node hm' hb' hw' _ _ =>
      obtain ⟨c', e1, e2⟩ := hP.best_score hr hb'
      obtain rfl := e1.unique hb
      exact Or.inr ⟨_, _, _, _, _, _, _, _, rfl, rfl, e2.symm⟩

/-- A point with its features in the new order ends where the point ends in the renamed tree. -/
theorem IsCart.rowsAt_rename {d : Nat} {r : List Nat} {D : DTree K} (h : P.IsCart d r D) {x x' : List K}
    (hx : ∀ j ∈ P.cols, x'[j]? = x[g j]?) : D.rowsAt x' = (D.rename g).rowsAt x := by
  induction h with
  | leaf _ => rfl
  | node hm hb hw _ _ ihy ihn =>
    unfold DTree.rename DTree.rowsAt
    rw [hx _ hb.mem_cols, ihy, ihn]

end

end CartProblem

end Spec

namespace FF

open Spec

set_option linter.unusedSectionVars false

variable {K : Type} [Field K] [LinearOrder K] [IsStrictOrderedRing K] [FloorRing K] [NpFun K] {G G' : Type}

/-- The table with its columns in another order. -/
def reorder (order : List Nat) (data : List (List K)) : List (List K) := data.map (reorderRow order)

/-- The arguments of a tree with the columns of the table, and with them the precomputed ranges of the columns, in another order; also with
another seed. -/
def TreeArgs.reorder (A : TreeArgs K) (order : List Nat) (seed : Nat) : TreeArgs K :=
  { A with
    data := FF.reorder order A.data
    seed := seed
    cfg := { A.cfg with minmax := A.cfg.minmax.map (fun m => (reorderRow order m.1, reorderRow order m.2)) } }

section
variable {order : List Nat} {F : Nat} {data : List (List K)}

theorem reorderRow_getD (row : List K) {j : Nat} (hj : j < order.length) : (reorderRow order row).getD j 0 = row.getD (order.getD j 0) 0 := by
  unfold reorderRow
  rw [List.getD_eq_getElem _ _ (by rw [List.length_map]; exact hj), List.getElem_map, List.getD_eq_getElem order 0 hj]

theorem reorder_cell (i : Nat) {j : Nat} (hj : j < order.length) :
    ((reorder order data).getD i []).getD j 0 = (data.getD i []).getD (order.getD j 0) 0 := by
  unfold reorder
  by_cases hi : i < data.length
  · rw [List.getD_eq_getElem (data.map _) _ (by rw [List.length_map]; exact hi), List.getElem_map, List.getD_eq_getElem data [] hi,
      reorderRow_getD _ hj]
  · rw [List.getD_eq_default (data.map _) _ (by rw [List.length_map]; omega), List.getD_eq_default data _ (by omega)]
    rfl

theorem reorder_first (hne : data ≠ []) : ((reorder order data).getD 0 []).length = order.length := by
  cases data with
  | nil => exact absurd rfl hne
  | cons a l => simp [reorder, reorderRow]

theorem order_length (ho : order.Perm (List.range F)) : order.length = F := by
  rw [ho.length_eq, List.length_range]

theorem order_map (ho : order.Perm (List.range F)) : ((List.range F).map (fun j => order.getD j 0)).Perm (List.range F) := by
  have : (List.range F).map (fun j => order.getD j 0) = order := by
    apply List.ext_getElem
    · rw [List.length_map, List.length_range, order_length ho]
    · intro i h1 h2
      rw [List.getElem_map, List.getElem_range, List.getD_eq_getElem _ _ h2]
  rw [this]
  exact ho

theorem order_lt (ho : order.Perm (List.range F)) {j : Nat} (hj : j < F) : order.getD j 0 < F := by
  have h : order.getD j 0 ∈ order := by
    rw [List.getD_eq_getElem _ _ (by rw [order_length ho]; exact hj)]
    exact List.getElem_mem _
  exact List.mem_range.1 (ho.mem_iff.1 h)

theorem reorderRow_getElem? (ho : order.Perm (List.range F)) {x : List K} (hx : x.length = F) {j : Nat} (hj : j < F) :
    (reorderRow order x)[j]? = x[order.getD j 0]? := by
  have h1 := order_lt ho hj
  have h2 := order_length ho
  unfold reorderRow
  rw [List.getElem?_map, List.getElem?_eq_getElem (by omega), Option.map_some, List.getD_eq_getElem order 0 (by omega)] at *
  rw [List.getElem?_eq_getElem (by omega), List.getD_eq_getElem _ _ (by omega)]

end

section
variable {A : TreeArgs K} {F : Nat} {order : List Nat} (seed : Nat)

theorem NoChoice.reorder (hA : NoChoice A) (hmm : ∀ mins maxs, A.cfg.minmax = some (mins, maxs) → mins.length = F ∧ maxs.length = F)
    (ho : order.Perm (List.range F)) : NoChoice (A.reorder order seed) := by
  have hlen := order_length ho
  refine ⟨⟨hA.args.crit, ?_, hA.args.sorted, hA.args.linear_bins, hA.args.auto_bins⟩, hA.solver, hA.binning, hA.features,
    hA.budget, hA.depth⟩
  intro mins' maxs' e f lo hi h1 h2
  have e' : A.cfg.minmax.map (fun m => (reorderRow order m.1, reorderRow order m.2)) = some (mins', maxs') := e
  obtain ⟨⟨mins, maxs⟩, e1, e2⟩ := Option.map_eq_some_iff.1 e'
  simp only [Prod.mk.injEq] at e2
  obtain ⟨rfl, rfl⟩ := e2
  obtain ⟨l1, l2⟩ := hmm _ _ e1
  have hf : f < F := by
    have := (List.getElem?_eq_some_iff.1 h1).1
    unfold reorderRow at this
    rw [List.length_map] at this
    omega
  rw [reorderRow_getElem? ho l1 hf] at h1
  rw [reorderRow_getElem? ho l2 hf] at h2
  exact hA.args.minmax_le _ _ e1 _ _ _ h1 h2

theorem cols_plain (hfeats : A.feats = none) (hrect : ∀ row ∈ A.data, row.length = F) (hne : A.data ≠ []) : A.cols = List.range F := by
  unfold TreeArgs.cols
  rw [hfeats, first_length hrect hne]
  rfl

theorem cols_reorder (hfeats : A.feats = none) (hne : A.data ≠ []) (ho : order.Perm (List.range F)) :
    (A.reorder order seed).cols = List.range F := by
  unfold TreeArgs.cols
  show A.feats.getD (List.range ((FF.reorder order A.data).getD 0 []).length) = _
  rw [hfeats, reorder_first hne, order_length ho]
  rfl

theorem problem_reorder (hA : NoChoice A) (hfeats : A.feats = none) (hrect : ∀ row ∈ A.data, row.length = F) (hne : A.data ≠ [])
    (ho : order.Perm (List.range F)) :
    CartProblem.Reordered (fun j => order.getD j 0) A.problem (A.reorder order seed).problem A.rows := by
  have hlen := order_length ho
  have hcols := cols_plain hfeats hrect hne
  have hcols' := cols_reorder seed hfeats hne ho
  exact {
    cols := by
      show ((A.reorder order seed).cols.map _).Perm A.cols
      rw [hcols, hcols']
      exact order_map ho
    nodup := by
      show A.cols.Nodup
      rw [hcols]
      exact List.nodup_range
    value := by
      intro i _ j hj
      have hj' : j ∈ (A.reorder order seed).cols := hj
      rw [hcols', List.mem_range] at hj'
      exact reorder_cell i (by omega)
    label := fun _ _ => rfl
    grid := by
      intro j hj
      have hj' : j ∈ (A.reorder order seed).cols := hj
      rw [hcols', List.mem_range] at hj'
      funext vals
      show gridOf (A.reorder order seed).cfg j vals = gridOf A.cfg _ vals
      unfold gridOf
      show (match A.cfg.binType with
        | some .identity => _
        | some .linear => _
        | _ => _) = _
      rcases hA.binning with hb | hb
      · rw [hb]
      · rw [hb]
        dsimp only
        show (match A.cfg.minmax.map (fun m => (reorderRow order m.1, reorderRow order m.2)) with
          | none => _
          | some (mins, maxs) => _) = _
        cases A.cfg.minmax with
        | none => rfl
        | some m =>
          dsimp only [Option.map]
          rw [reorderRow_getD _ (by omega), reorderRow_getD _ (by omega)]
          rfl
    imp := rfl
    total := rfl
    size := rfl
    maxDepth := rfl
    minSamples := rfl
    minDecrease := rfl }

end

/-- C146, trees. With the columns of the table in another order, an exactly solved tree asks the same questions, of the renamed columns, and
gives the same answers to points with their features in that order; provided that no two columns offer equally good splits where the tree
asks a question. -/
theorem C146_tree (R : Rng K G) (R' : Rng K G') (mem mem' : Nat → Junk K) (A : TreeArgs K) (hA : NoChoice A) (hfeats : A.feats = none)
    (F : Nat) (hrect : ∀ row ∈ A.data, row.length = F) (hne : A.data ≠ [])
    (hmm : ∀ mins maxs, A.cfg.minmax = some (mins, maxs) → mins.length = F ∧ maxs.length = F) (hrows : A.rows ≠ []) (order : List Nat)
    (ho : order.Perm (List.range F)) (seed : Nat) (t t1 : Tree K G) (t' t1' : Tree K G') (h : Fitted R mem A t)
    (h' : Fitted R' mem' (A.reorder order seed) t') (hm : A.cfg.maxLeafNodes ≠ some t.leaves.length)
    (hm' : A.cfg.maxLeafNodes ≠ some t'.leaves.length) (hclear : ∀ D, ReadsAs t 0 D → A.problem.ClearCut A.rows D) :
    (∃ D D', ReadsAs t 0 D ∧ ReadsAs t' 0 D' ∧ D'.rename (fun j => order.getD j 0) = D) ∧
    ((A.cfg.isCls = true → ClassesOK A.cfg.classes) → AfterPredicts t t1 → AfterPredicts t' t1' → ∀ x : List K, x.length = F →
      ∃ p t2 t2', t1.predict x = .ok (p, t2) ∧ t1'.predict (reorderRow order x) = .ok (p, t2')) := by
  have hlen := order_length ho
  have hA' := hA.reorder seed hmm ho
  have hcols := cols_plain hfeats hrect hne
  have hcols' := cols_reorder seed hfeats hne ho
  obtain ⟨D, hr, hc, _⟩ := C101_greedy_tree R mem A hA t h hm
  obtain ⟨D', hr', hc', _⟩ := C101_greedy_tree R' mem' _ hA' t' h' hm'
  have hP := problem_reorder seed hA hfeats hrect hne ho
  obtain ⟨E, hE, hren⟩ := hP.isCart hc (fun _ hi => hi) (hclear D hr)
  have hEc : (A.reorder order seed).problem.IsCart 0 (A.reorder order seed).rows E := hE
  obtain rfl := CartProblem.IsCart.unique hEc hc'
  refine ⟨⟨D, E, hr, hr', hren⟩, ?_⟩
  intro hd ha ha' x hx
  have hrow : E.rowsAt (reorderRow order x) = D.rowsAt x := by
    rw [← hren]
    refine hEc.rowsAt_rename (fun j hj => ?_)
    have hj' : j ∈ (A.reorder order seed).cols := hj
    rw [hcols', List.mem_range] at hj'
    exact reorderRow_getElem? ho hx hj'
  refine trees_alike hA hA' h h' hm hm' hd rfl rfl hc hEc hrows hrows ?_ ?_ ?_ ?_ ha ha'
  · intro f hf
    rw [hcols, List.mem_range] at hf
    omega
  · intro f hf
    rw [hcols', List.mem_range] at hf
    unfold reorderRow
    rw [List.length_map]
    omega
  · rw [hrow]
    rfl
  · intro c
    rw [hrow]
    rfl

/-- C146, also with ties: in another order of the columns the tree asks a first question if and only if it did before, and that question
lowers the impurity by the same amount. -/
theorem C146_first_question (R : Rng K G) (R' : Rng K G') (mem mem' : Nat → Junk K) (A : TreeArgs K) (hA : NoChoice A)
    (hfeats : A.feats = none) (F : Nat) (hrect : ∀ row ∈ A.data, row.length = F) (hne : A.data ≠ [])
    (hmm : ∀ mins maxs, A.cfg.minmax = some (mins, maxs) → mins.length = F ∧ maxs.length = F) (order : List Nat)
    (ho : order.Perm (List.range F)) (seed : Nat) (t : Tree K G) (t' : Tree K G') (h : Fitted R mem A t)
    (h' : Fitted R' mem' (A.reorder order seed) t') (hm : A.cfg.maxLeafNodes ≠ some t.leaves.length)
    (hm' : A.cfg.maxLeafNodes ≠ some t'.leaves.length) :
    (ReadsAs t 0 (.leaf A.rows) ∧ ReadsAs t' 0 (.leaf A.rows)) ∨
    ∃ f v y n f' v' y' n', ReadsAs t 0 (.node f v y n) ∧ ReadsAs t' 0 (.node f' v' y' n') ∧
      change (critImp A.cfg.criterion) (A.rows.map (fun i => (cellAt (reorder order A.data) i f', A.labels.getD i 0))) v' =
        change (critImp A.cfg.criterion) (A.rows.map (fun i => (cellAt A.data i f, A.labels.getD i 0))) v := by
  obtain ⟨D, hr, hc, _⟩ := C101_greedy_tree R mem A hA t h hm
  obtain ⟨D', hr', hc', _⟩ := C101_greedy_tree R' mem' _ (hA.reorder seed hmm ho) t' h' hm'
  rcases (problem_reorder seed hA hfeats hrect hne ho).root hc hc' (fun _ hi => hi) with ⟨rfl, rfl⟩ | ⟨f, v, y, n, f', v', y', n', rfl, rfl, e⟩
  · exact Or.inl ⟨hr, hr'⟩
  · exact Or.inr ⟨f, v, y, n, f', v', y', n', hr, hr', e⟩

/-- C146, forests without sampling: the same, for any seeds and numbers of trees. -/
theorem C146_forest (R : Rng K G) (R' : Rng K G') (mem mem' : Nat → Nat → Junk K) (w w1 : World K G) (w' w1' : World K G')
    (cfg : ForestCfg K) (hp : PlainForest cfg) (data : List (List K)) (ref ref' F : Nat) (hrect : ∀ row ∈ data, row.length = F)
    (hne : data ≠ []) (hlab : w'.arrays.getD ref' [] = w.arrays.getD ref []) (order : List Nat) (ho : order.Perm (List.range F))
    (n seed : Nat) (f f1 : Forest K G) (f' f1' : Forest K G') (h : runForest R mem w cfg data ref none = .ok (f, w1))
    (h' : runForest R' mem' w' { cfg with nEstimators := n, randomState := seed } (reorder order data) ref' none = .ok (f', w1'))
    (hn : 1 ≤ cfg.nEstimators) (hn' : 1 ≤ n)
    (hclear : ∀ D, (forestProblem cfg data (w.arrays.getD ref [])).IsCart 0 (List.range data.length) D →
      (forestProblem cfg data (w.arrays.getD ref [])).ClearCut (List.range data.length) D)
    (ha : AfterReads f f1) (ha' : AfterReads f' f1') (x : List K) (hx : x.length = F) :
    ∃ p f2 f2', f1.predict x = .ok (p, f2) ∧ f1'.predict (reorderRow order x) = .ok (p, f2') := by
  set cfg' : ForestCfg K := { cfg with nEstimators := n, randomState := seed } with hcfg'
  have hp' : PlainForest cfg' :=
    ⟨hp.solver, hp.binning, hp.bins, hp.features, hp.depth, hp.leaves, hp.bootstrap, hp.boosting, hp.alphaN, hp.alphaF⟩
  obtain ⟨_, D, hD, _⟩ := C107_one_tree R mem w w1 cfg hp data ref f h hn
  have hlen := order_length ho
  have hfst := first_length hrect hne
  have hfst' : ((reorder order data).getD 0 []).length = F := by rw [reorder_first hne, hlen]
  have hdl : (reorder order data).length = data.length := List.length_map _
  set P := forestProblem cfg data (w.arrays.getD ref []) with hPdef
  set P' := forestProblem cfg' (reorder order data) (w'.arrays.getD ref' []) with hPdef'
  have hcols : P.cols = List.range F := by
    show List.range _ = _
    rw [hfst]
  have hcols' : P'.cols = List.range F := by
    show List.range _ = _
    rw [hfst']
  have hP : CartProblem.Reordered (fun j => order.getD j 0) P P' (List.range data.length) := {
    cols := by
      rw [hcols, hcols']
      exact order_map ho
    nodup := by
      rw [hcols]
      exact List.nodup_range
    value := by
      intro i _ j hj
      rw [hcols', List.mem_range] at hj
      exact reorder_cell i (by omega)
    label := by
      intro i _
      show (seenLabels cfg (w'.arrays.getD ref' [])).getD i 0 = (seenLabels cfg (w.arrays.getD ref [])).getD i 0
      rw [hlab]
    grid := by
      intro j hj
      rw [hcols', List.mem_range] at hj
      funext vals
      have hspan : (reorder order data).map (fun row : List K => row.getD j 0) = data.map (fun row : List K => row.getD (order.getD j 0) 0) := by
        unfold reorder
        rw [List.map_map]
        exact List.map_congr_left (fun row _ => reorderRow_getD row (by omega))
      show (match cfg.binType with
        | some .identity => valueGrid vals
        | some .linear =>
          let B := if cfg.useLog then Nat.log2 vals.length + 1 else cfg.numBins.getD 0
          let span := if cfg.precompMinmax then (reorder order data).map (fun row : List K => row.getD j 0) else vals
          evenGrid (span.min?.getD 0) (span.max?.getD 0) B
        | _ => []) = _
      rw [hspan]
      rfl
    imp := rfl
    total := hdl
    size := by
      show (w'.arrays.getD ref' []).length = (w.arrays.getD ref []).length
      rw [hlab]
    maxDepth := rfl
    minSamples := rfl
    minDecrease := rfl }
  obtain ⟨E, hE, hren⟩ := hP.isCart hD (fun _ hi => hi) (hclear D hD)
  have hrow : E.rowsAt (reorderRow order x) = D.rowsAt x := by
    rw [← hren]
    refine hE.rowsAt_rename (fun j hj => ?_)
    rw [hcols', List.mem_range] at hj
    exact reorderRow_getElem? ho hx hj
  refine forests_alike hp hp' h h' hn hn' rfl (by rw [hlab]) hD (by rw [hdl]; exact hE) (by omega) ?_ ?_ ?_ ha ha'
  · rw [hfst']
    unfold reorderRow
    rw [List.length_map]
    omega
  · rw [hrow, hlab]
    rfl
  · intro c
    rw [hrow, hlab]
    rfl

/-! ### Examples -/

/-- Checks that node `id` of the tree and everything below it is the given decision tree, for examples. -/
def isTree (t : Tree ℚ Nat) : Nat → DTree ℚ → Bool
  | id, .leaf rows =>
    match t.nodes[id]? with
    | none => false
    | some nd => nd.left == none && nd.right == none && nd.idcs == rows
  | id, .node f v y n =>
    match t.nodes[id]? with
    | none => false
    | some nd =>
      match nd.left, nd.right with
      | some l, some r => nd.splitFeature == some f && nd.splitValue == v && isTree t l y && isTree t r n
      | _, _ => false

theorem isTree_sound {t : Tree ℚ Nat} {id : Nat} {D : DTree ℚ} (h : isTree t id D = true) {D' : DTree ℚ} (hr : ReadsAs t id D') : D' = D := by
  induction hr generalizing D with
  | @leaf id nd hn hl hr =>
    have hn' : t.nodes[id]? = some nd := hn
    cases D with
    | leaf rows =>
      unfold isTree at h
      rw [hn'] at h
      simp only [Bool.and_eq_true, beq_iff_eq] at h
      rw [h.2]
    | node f v y n =>
      unfold isTree at h
      rw [hn'] at h
      simp only [hl] at h
      cases h
  | @node id l r f nd y n hn hl hr hf _ _ ihy ihn =>
    have hn' : t.nodes[id]? = some nd := hn
    cases D with
    | leaf rows =>
      unfold isTree at h
      rw [hn'] at h
      simp only [hl] at h
      cases h
    | node f' v' y' n' =>
      unfold isTree at h
      rw [hn'] at h
      simp only [hl, hr, hf, Bool.and_eq_true, beq_iff_eq, Option.some.injEq] at h
      obtain ⟨⟨⟨rfl, rfl⟩, h3⟩, h4⟩ := h
      rw [ihy h3, ihn h4]

/-- Six rows whose greedy tree asks for both columns, without ties. -/
def exArgsCols : TreeArgs ℚ :=
  { exArgs with data := [[0, 5], [1, 6], [2, 3], [3, 2], [4, 18], [5, 7]], labels := [0, 0, 0, 1, 0, 1] }

def exColsTree : DTree ℚ := .node 0 2 (.leaf [0, 1, 2]) (.node 1 7 (.leaf [3, 5]) (.leaf [4]))

theorem exColsTree_clear : exArgsCols.problem.ClearCut exArgsCols.rows exColsTree :=
  ⟨by decide +kernel, trivial, by decide +kernel, trivial, trivial⟩

/-- The hypotheses of `C146_tree` are met; with the columns swapped, the same tree asks for the other columns. -/
example : NoChoice exArgsCols ∧ [1, 0].Perm (List.range 2) ∧
    (∃ t, Fitted rngQ exMem exArgsCols t ∧ exArgsCols.cfg.maxLeafNodes ≠ some t.leaves.length ∧
      ∀ D, ReadsAs t 0 D → exArgsCols.problem.ClearCut exArgsCols.rows D) ∧
    ∃ t, Fitted rngQ exMem (exArgsCols.reorder [1, 0] 7) t ∧ (decide (exArgsCols.cfg.maxLeafNodes ≠ some t.leaves.length) &&
      isTree t 0 (.node 1 2 (.leaf [0, 1, 2]) (.node 0 7 (.leaf [3, 5]) (.leaf [4])))) = true := by
  refine ⟨?_, by decide, ?_, runTree_exists (glob := exGlob) (by decide +kernel)⟩
  · exact ⟨⟨exArgs_ok.crit, exArgs_ok.minmax_le, exArgs_ok.sorted, exArgs_ok.linear_bins, exArgs_ok.auto_bins⟩, rfl, Or.inl rfl, rfl, rfl,
      by simp [exArgsCols, exArgs, cfgQ]⟩
  · obtain ⟨t, h1, h2⟩ := runTree_exists (R := rngQ) (mem := exMem) (A := exArgsCols) (glob := exGlob)
      (p := fun t => decide (exArgsCols.cfg.maxLeafNodes ≠ some t.leaves.length) && isTree t 0 exColsTree) (by decide +kernel)
    rw [Bool.and_eq_true, decide_eq_true_eq] at h2
    refine ⟨t, h1, h2.1, fun D hD => ?_⟩
    rw [isTree_sound h2.2 hD]
    exact exColsTree_clear

/-- Two equal columns. -/
def exArgsTies : TreeArgs ℚ := { exArgs with data := [[0, 0], [1, 1]], labels := [0, 1] }

/-- C146, ties matter. Two columns that agree on the training rows: the tree asks for the first one, whichever it is, and so the answer for a
point where they differ depends on their order. -/
theorem C146_ties : NoChoice exArgsTies ∧ [1, 0].Perm (List.range 2) ∧ ∃ t t' : Tree ℚ Nat, Fitted rngQ exMem exArgsTies t ∧
    Fitted rngQ exMem (exArgsTies.reorder [1, 0] 0) t' ∧ (∃ t2, t.predict [0, 1] = .ok (.cls 0 [1, 0], t2)) ∧
    ∃ t2, t'.predict (reorderRow [1, 0] [0, 1]) = .ok (.cls 1 [0, 1], t2) := by
  have hpred : ∀ {t : Tree ℚ Nat} {x : List ℚ} {p : Pred ℚ}, decide ((t.predict x).toOption.map Prod.fst = some p) = true →
      ∃ t2, t.predict x = .ok (p, t2) := by
    intro t x p h
    rw [decide_eq_true_eq] at h
    cases e : t.predict x with
    | error err => rw [e] at h; cases h
    | ok r =>
      rw [e] at h
      exact ⟨r.2, by rw [show r = (p, r.2) from Prod.ext (Option.some.inj h) rfl]⟩
  refine ⟨?_, by decide, ?_⟩
  · exact ⟨⟨exArgs_ok.crit, exArgs_ok.minmax_le, exArgs_ok.sorted, exArgs_ok.linear_bins, exArgs_ok.auto_bins⟩, rfl, Or.inl rfl, rfl, rfl,
      by simp [exArgsTies, exArgs, cfgQ]⟩
  · obtain ⟨t, h1, h2⟩ := runTree_exists (R := rngQ) (mem := exMem) (A := exArgsTies) (glob := exGlob)
      (p := fun t => decide ((t.predict [0, 1]).toOption.map Prod.fst = some (.cls 0 [1, 0]))) (by decide +kernel)
    obtain ⟨t', h1', h2'⟩ := runTree_exists (R := rngQ) (mem := exMem) (A := exArgsTies.reorder [1, 0] 0) (glob := exGlob)
      (p := fun t => decide ((t.predict (reorderRow [1, 0] [0, 1])).toOption.map Prod.fst = some (.cls 1 [0, 1]))) (by decide +kernel)
    exact ⟨t, t', h1, h1', hpred h2, hpred h2'⟩

/-- The hypotheses of `C146_forest` are met, and the forests answer alike. -/
example : PlainForest fcfgPlain ∧
    (∀ D, (forestProblem fcfgPlain exArgsCols.data exArgsCols.labels).IsCart 0 (List.range 6) D →
      (forestProblem fcfgPlain exArgsCols.data exArgsCols.labels).ClearCut (List.range 6) D) ∧
    (runForest rngQ exMems { exWorld with arrays := [exArgsCols.labels] } fcfgPlain exArgsCols.data 0 none).toOption.map
        (fun r => [[2, 9], [3, 9], [7, 4]].map (fun x => (r.1.predict x).toOption.map Prod.fst)) =
      some [some (.cls 0 [1, 0]), some (.cls 0 [1, 0]), some (.cls 1 [0, 1])] ∧
    (runForest rngQ exMems { exWorld with arrays := [exArgsCols.labels] } { fcfgPlain with nEstimators := 3, randomState := 5 }
        (reorder [1, 0] exArgsCols.data) 0 none).toOption.map
        (fun r => [[9, 2], [9, 3], [4, 7]].map (fun x => (r.1.predict x).toOption.map Prod.fst)) =
      some [some (.cls 0 [1, 0]), some (.cls 0 [1, 0]), some (.cls 1 [0, 1])] := by
  have hp : PlainForest fcfgPlain := ⟨rfl, .inl rfl, fun _ => by decide, rfl, by decide, rfl, rfl, rfl, rfl, rfl⟩
  refine ⟨hp, ?_, by decide +kernel, by decide +kernel⟩
  intro D hD
  have hrun : (runForest rngQ exMems { exWorld with arrays := [exArgsCols.labels] } fcfgPlain exArgsCols.data 0 none).toOption.any
      (fun r => match r.1.trees with
        | [] => false
        | t :: _ => isTree t 0 exColsTree) = true := by decide +kernel
  obtain ⟨r, h1, h2⟩ := (Option.any_eq_true _ _).1 hrun
  cases e : runForest rngQ exMems { exWorld with arrays := [exArgsCols.labels] } fcfgPlain exArgsCols.data 0 none with
  | error err => rw [e] at h1; cases h1
  | ok r' =>
    rw [e] at h1
    obtain rfl : r' = r := Option.some.inj h1
    obtain ⟨_, D0, _, huni, hall⟩ := C107_one_tree rngQ exMems _ r'.2 fcfgPlain hp _ 0 r'.1 e (by decide)
    have hD' := huni D hD
    cases ht : r'.1.trees with
    | nil =>
      simp only [ht] at h2
      cases h2
    | cons t ts =>
      simp only [ht] at h2
      rw [hD', isTree_sound h2 (hall t (by rw [ht]; simp))]
      exact ⟨by decide +kernel, trivial, by decide +kernel, trivial, trivial⟩

end FF
