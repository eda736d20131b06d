import Verif.Proofs.Forest
import Verif.Proofs.Utils
import Verif.Props.Predict

/-!
# Predictions of a fitted forest
-/

namespace FF

open Spec

set_option linter.unusedSectionVars false

variable {K : Type} [Field K] [LinearOrder K] [IsStrictOrderedRing K] [FloorRing K] [NpFun K] {G : Type}
variable {R : Rng K G} {mem : Nat → Nat → Junk K}

theorem treesPredict_answers (ts : List (Tree K G)) (x : List K) :
    (treesPredict ts x).map Prod.fst = ts.mapM (fun (t : Tree K G) => (t.predict x).map Prod.fst) := by
  induction ts with
  | nil => rfl
  | cons t ts ih =>
    rw [treesPredict, List.mapM_cons, ← ih]
    cases t.predict x with
    | error e => rfl
    | ok q =>
      obtain ⟨p, t2⟩ := q
      simp only [Except.map, bind, Except.bind, pure, Except.pure]
      cases treesPredict ts x with
      | error e => rfl
      | ok r => rfl

theorem treesPredict_ok {ts ts' : List (Tree K G)} {x : List K} {ps : List (Pred K)} (h : treesPredict ts x = .ok (ps, ts')) :
    List.Forall₂ (fun (t : Tree K G) p => (t.predict x).map Prod.fst = .ok p) ts ps := by
  induction ts generalizing ps ts' with
  | nil => cases h; exact .nil
  | cons t ts ih =>
    unfold treesPredict at h
    cases hp : t.predict x with
    | error e => rw [hp] at h; cases h
    | ok q =>
      obtain ⟨p, t1⟩ := q
      rw [hp] at h
      simp only [] at h
      cases hb : treesPredict ts x with
      | error e => rw [hb] at h; cases h
      | ok q =>
        obtain ⟨ps', ts1⟩ := q
        rw [hb] at h
        cases h
        exact .cons (by rw [hp]; rfl) (ih hb)

theorem treesPredict_total {ts : List (Tree K G)} {x : List K} (h : ∀ t ∈ ts, ∃ p t', t.predict x = .ok (p, t')) :
    ∃ ps ts', treesPredict ts x = .ok (ps, ts') := by
  induction ts with
  | nil => exact ⟨[], [], rfl⟩
  | cons t ts ih =>
    obtain ⟨p, t', hp⟩ := h t (List.mem_cons_self ..)
    obtain ⟨ps, ts', hps⟩ := ih (fun t ht => h t (List.mem_cons_of_mem _ ht))
    exact ⟨p :: ps, t' :: ts', by rw [treesPredict, hp]; simp only [hps]⟩

/-- What a forest makes of the answers of its trees. -/
def forestAnswer (cfg : ForestCfg K) (classes : ClassDict K) (ps : List (Pred K)) : Except Err (Pred K) :=
  if cfg.isCls then
    if ps = [] then .error (.unmodelled "average over no trees")
    else
      match npArgmax (avgProbs classes.length (ps.map Pred.probs)) with
      | none => .error .valueError
      | some i =>
        match classes[i]? with
        | none => .error .indexError
        | some c => .ok (.cls c.1 (avgProbs classes.length (ps.map Pred.probs)))
  else if cfg.boosting then
    if ps = [] then .error .nameError
    else .ok (.reg (boostSum (cfg.boostingLr.getD 0) (ps.map Pred.value)))
  else
    if ps = [] then .error (.unmodelled "average over no trees")
    else .ok (.reg (npMean (ps.map Pred.value)))

theorem Forest_predict_fst (f : Forest K G) (x : List K) :
    (f.predict x).map Prod.fst = f.trees.mapM (fun (t : Tree K G) => (t.predict x).map Prod.fst) >>= forestAnswer f.cfg f.classes := by
  rw [← treesPredict_answers]
  unfold Forest.predict
  cases treesPredict f.trees x with
  | error e => rfl
  | ok q =>
    obtain ⟨ps, ts⟩ := q
    simp only [Except.map, bind, Except.bind]
    unfold forestAnswer
    by_cases hc : f.cfg.isCls = true
    · rw [if_pos hc, if_pos hc]
      by_cases hps : ps = []
      · rw [if_pos hps, if_pos hps]
      · rw [if_neg hps, if_neg hps]
        cases npArgmax (avgProbs f.classes.length (ps.map Pred.probs)) with
        | none => rfl
        | some i =>
          simp only []
          cases f.classes[i]? <;> rfl
    · rw [if_neg hc, if_neg hc]
      split_ifs <;> rfl

theorem forall₂_mapM {α β : Type} {g1 g2 : α → Except Err β} {l1 l2 : List α} (h : List.Forall₂ (fun a b => g1 a = g2 b) l1 l2) :
    l1.mapM g1 = l2.mapM g2 := by
  induction h with
  | nil => rfl
  | cons h _ ih => rw [List.mapM_cons, List.mapM_cons, h, ih]

/-- The answers of the trees of a fitted forest are the same after other calls. -/
theorem Forest_fit_answers {f f' f1 : Forest K G} {w w' : World K G} {data : Option (List (List K))} {labels : Option Nat}
    (hf : Forest.fit R mem f w data labels = .ok (f', w')) (ha : AfterReads f' f1) (x : List K) :
    List.Forall₂ (fun (t1 t : Tree K G) => (t1.predict x).map Prod.fst = (t.predict x).map Prod.fst) f1.trees f'.trees := by
  obtain ⟨ms, _, _, h⟩ := Forest_fit_made hf
  obtain ⟨ts, m, rfl, h1, _⟩ := ha.same
  rw [List.forall₂_iff_get] at h1 ⊢
  refine ⟨h1.1.symm, ?_⟩
  intro i hi1 hi2
  have h2 := h1.2 i hi2 hi1
  obtain ⟨m, _, hm, _⟩ := h i _ (List.getElem?_eq_getElem hi2)
  have e1 := C38_history_independent R (mem i) m.args m.tree _ hm.fitted hm.after x
  have e2 := C38_history_independent R (mem i) m.args m.tree _ hm.fitted (hm.after.trans h2) x
  exact e2.trans e1.symm

theorem Forest_after_predict {f f' f1 : Forest K G} {w w' : World K G} {data : Option (List (List K))} {labels : Option Nat}
    (hf : Forest.fit R mem f w data labels = .ok (f', w')) (ha : AfterReads f' f1) (x : List K) :
    (f1.predict x).map Prod.fst = (f'.predict x).map Prod.fst := by
  rw [Forest_predict_fst, Forest_predict_fst, forall₂_mapM (Forest_fit_answers hf ha x)]
  obtain ⟨ts, m, rfl, _, _⟩ := ha.same
  rfl

theorem mapM_ok {α β : Type} {g : α → Except Err β} {l : List α} {r : List β} (h : l.mapM g = .ok r) :
    List.Forall₂ (fun a b => g a = .ok b) l r := by
  induction l generalizing r with
  | nil => cases h; exact .nil
  | cons a l ih =>
    rw [List.mapM_cons] at h
    cases hg : g a with
    | error e => rw [hg] at h; cases h
    | ok b =>
      rw [hg] at h
      cases hl : l.mapM g with
      | error e =>
        rw [hl] at h; cases h
      | ok bs =>
        rw [hl] at h
        cases h
        exact .cons hg (ih hl)

/-- An answer of a fitted forest comes from an answer of each of its trees. -/
theorem Forest_predict_parts {f f' f1 f2 : Forest K G} {w w' : World K G} {data : Option (List (List K))} {labels : Option Nat}
    (hf : Forest.fit R mem f w data labels = .ok (f', w')) (ha : AfterReads f' f1) {x : List K} {p : Pred K}
    (hp : f1.predict x = .ok (p, f2)) :
    ∃ ps, List.Forall₂ (fun (t : Tree K G) q => (t.predict x).map Prod.fst = .ok q) f'.trees ps ∧
      forestAnswer f.cfg f.classes ps = .ok p := by
  have h1 : (f'.predict x).map Prod.fst = .ok p := by rw [← Forest_after_predict hf ha x, hp]; rfl
  rw [Forest_predict_fst, (Forest_fit_same hf).1, (Forest_fit_same hf).2.1] at h1
  cases hm : f'.trees.mapM (fun (t : Tree K G) => (t.predict x).map Prod.fst) with
  | error e => rw [hm] at h1; cases h1
  | ok ps =>
    rw [hm] at h1
    exact ⟨ps, mapM_ok hm, h1⟩

theorem forall₂_getElem {α β : Type} {r : α → β → Prop} {l1 : List α} {l2 : List β} (h : List.Forall₂ r l1 l2) {i : Nat} {b : β}
    (hb : l2[i]? = some b) : ∃ a, l1[i]? = some a ∧ r a b := by
  obtain ⟨h1, h2⟩ := List.forall₂_iff_get.1 h
  obtain ⟨hi, rfl⟩ := List.getElem?_eq_some_iff.1 hb
  exact ⟨l1[i]'(by omega), List.getElem?_eq_getElem _, h2 i (by omega) hi⟩

theorem RowsDrawn.lt {cfg : ForestCfg K} {n : Nat} {rows : List Nat} (h : RowsDrawn cfg n rows) : ∀ i ∈ rows, i < n := by
  obtain ⟨sub, h1, h2⟩ := h
  intro i hi
  split at h2
  · exact h1.range i (h2.2 i hi)
  · exact h1.range i (h2 ▸ hi)

theorem sum_avg (nc : Nat) (ps : List (List K)) (h : ∀ p ∈ ps, p.length = nc) :
    (avgProbs nc ps).sum = (ps.map List.sum).sum / (ps.length : K) := by
  unfold avgProbs
  have h1 : ∀ n, ((List.range n).map (fun j => npMean (ps.map (fun p => p.getD j 0)))).sum =
      ((List.range n).map (fun j => (ps.map (fun p => p.getD j 0)).sum)).sum / (ps.length : K) := by
    intro n
    induction n with
    | zero => simp
    | succ n ih =>
      simp only [List.range_succ, List.map_append, List.sum_append, List.map_cons, List.map_nil, List.sum_cons, List.sum_nil, add_zero]
      rw [ih, add_div]
      unfold npMean
      rw [List.length_map]
  rw [h1]
  congr 1
  have h2 : ∀ n, ((List.range n).map (fun j => (ps.map (fun p => p.getD j 0)).sum)).sum =
      (ps.map (fun p => ((List.range n).map (fun j => p.getD j 0)).sum)).sum := by
    intro n
    induction n with
    | zero => simp
    | succ n ih =>
      simp only [List.range_succ, List.map_append, List.sum_append, List.map_cons, List.map_nil, List.sum_cons, List.sum_nil, add_zero]
      rw [ih]
      generalize ps = qs
      induction qs with
      | nil => simp
      | cons q qs ihq =>
        simp only [List.map_cons, List.sum_cons]
        rw [← ihq]
        ring
  rw [h2]
  congr 1
  apply List.map_congr_left
  intro p hp
  congr 1
  apply List.ext_getElem
  · simp [h p hp]
  · intro i h3 h4
    simp [List.getElem?_eq_getElem h4]

end FF
