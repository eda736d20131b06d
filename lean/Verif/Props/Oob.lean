import Verif.Proofs.Oob
import Verif.Props.Forest
import Verif.Props.ForestEx

/-!
# The out-of-bag score (C56)

`f'` is a forest as `fit` left it (with `oob_score`, bootstrapping and without boosting), on a forest `f` with any history; `f1` is that
forest after any number of predictions, out-of-bag scores and importances.
-/

namespace FF

open Spec

set_option linter.unusedSectionVars false

variable {K : Type} [Field K] [LinearOrder K] [IsStrictOrderedRing K] [FloorRing K] [NpFun K] {G : Type}
variable (R : Rng K G) (mem : Nat → Nat → Junk K)

/-- The trees that were trained without row `i`. -/
def oobTrees (f : Forest K G) (i : Nat) : List (Tree K G) := f.trees.filter (fun t => decide (i ∉ rowsOf t 0))

/-- The rows (of `n`) that are out of bag for at least one tree. -/
def oobRows (f : Forest K G) (n : Nat) : List Nat := (List.range n).filter (fun i => !(oobTrees f i).isEmpty)

/-- The sum, over the trees trained without row `i`, of entry `c` of the answer to the point `x`. -/
def oobVote (f : Forest K G) (x : List K) (i c : Nat) : K := ((oobTrees f i).map (fun t => (ansVec t x).getD c 0)).sum

theorem TreeMade.rows {data : List (List K)} {F i : Nat} {f : Forest K G} {m : Made K G} {t : Tree K G}
    (hm : TreeMade R mem data F f i m t) : rowsOf t 0 = m.args.rows := by
  obtain ⟨dd, t0, hfacts⟩ := hm.fitted.facts
  have hcache := hm.after.cache hfacts.cache
  obtain ⟨nd, h1, h2, _⟩ := hfacts.shape.root
  unfold rowsOf
  cases hn : t.nodes[0]? with
  | none =>
    rw [List.getElem?_eq_none_iff, hcache.len, ← List.getElem?_eq_none_iff] at hn
    rw [show m.tree.nodes[0]? = some nd from h1] at hn
    cases hn
  | some nd' =>
    have := (hcache.nodes 0 nd nd' h1 hn).eq
    rw [this]
    exact h2

/-- The recorded lists of out-of-bag rows belong to the trees. -/
theorem Forest_fit_oob {f f' : Forest K G} {w w' : World K G} {data : Option (List (List K))} {labels : Option Nat}
    (h : Forest.fit R mem f w data labels = .ok (f', w')) (hb : f.cfg.bootstrap = true) (ho : f.cfg.oobScore = true) :
    ∃ ol, f'.oobList = some ol ∧ ∀ (i : Nat) (t : Tree K G), f'.trees[i]? = some t →
      ol[i]? = some (getOutOfBag (rowsOf t 0) (trainData f data).length) := by
  obtain ⟨dat, f0, w0, hs, hl⟩ := Forest_fit_start h
  obtain ⟨l, hr⟩ := forestLoop_run hl
  have htr : f'.trees = l.map Prod.snd := by rw [hr.trees, hs.eq]; rfl
  have hcfg : f0.cfg = f.cfg := by rw [hs.eq]
  obtain ⟨ol, extra, h1, h2⟩ := hr.oob (by rw [hcfg]; exact hb) (by rw [hcfg]; exact ho) (ol := [])
    (by rw [hs.eq]; simp only []; rw [if_pos ho])
  refine ⟨ol, h1, ?_⟩
  intro i t ht
  rw [htr, List.getElem?_map, Option.map_eq_some_iff] at ht
  obtain ⟨⟨m, t'⟩, hm, rfl⟩ := ht
  obtain ⟨i', _, h3⟩ := hr.made i m t' hm
  have hlt := (List.getElem?_eq_some_iff.1 hm).1
  rw [h2, List.nil_append, List.getElem?_append_left (by simpa using hlt), List.getElem?_map, hm]
  rw [h3.rows, hs.dat_eq]
  rfl

/-- The array of the original targets holds the labels. -/
theorem Forest_fit_org {f f' : Forest K G} {w w' : World K G} {data : Option (List (List K))} {labels : Option Nat}
    (h : Forest.fit R mem f w data labels = .ok (f', w')) (hb : f.cfg.boosting = false) (ref : Nat) (hr : f'.orgRef = some ref) :
    w'.arrays.getD ref [] = treeLabels f w labels := by
  obtain ⟨dat, f0, w0, hs, hl⟩ := Forest_fit_start h
  obtain ⟨l, hrun⟩ := forestLoop_run hl
  have hcfg : f0.cfg = f.cfg := by rw [hs.eq]
  rw [hrun.same] at hr
  rw [(hrun.labels (by rw [hcfg]; exact hb)).1]
  unfold treeLabels trainLabels
  by_cases hc : f.cfg.isCls = true
  · obtain ⟨a, b, e1, _, e3, _, e5⟩ := hs.cls hc
    rw [hc, if_pos rfl, e1, e5]
    simp only [] at hr
    rw [e3] at hr
    cases hr
    simp
  · obtain ⟨e1, _, e3⟩ := hs.reg ((Bool.not_eq_true _).mp hc)
    simp only [] at hr
    rw [if_neg hc, ← e1, hr, e3]

/-- The trees asked about row `r`. -/
theorem oob_pairs {N r : Nat} {x : List K} (hr : r < N) {ts1 ts : List (Tree K G)}
    (h : List.Forall₂ (fun (t1 t : Tree K G) => (t1.predict x).map Prod.fst = (t.predict x).map Prod.fst) ts1 ts) :
    ∀ (ol : List (List Nat)), (∀ (i : Nat) (t : Tree K G), ts[i]? = some t → ol[i]? = some (getOutOfBag (rowsOf t 0) N)) →
    ((ts1.zip ol).filter (fun p => decide (r ∈ p.2))).map (fun p => ansVec p.1 x) =
      (ts.filter (fun t => decide (r ∉ rowsOf t 0))).map (fun t => ansVec t x) := by
  induction h with
  | nil => intro ol _; rfl
  | cons h1 _ ih =>
    rename_i t1 t l1 l2 _
    intro ol hol
    cases ol with
    | nil => have := hol 0 t (by simp); simp at this
    | cons o ol =>
      have ho := hol 0 t (by simp)
      rw [List.getElem?_cons_zero] at ho
      obtain rfl := Option.some.inj ho
      have ih' := ih ol (fun i t' ht => hol (i + 1) t' (by rw [List.getElem?_cons_succ]; exact ht))
      have hans : ansVec t1 x = ansVec t x := by
        unfold ansVec
        cases e1 : t1.predict x with
        | error e =>
          rw [e1] at h1
          cases e2 : t.predict x with
          | error e' => rfl
          | ok q => rw [e2] at h1; cases h1
        | ok p =>
          rw [e1] at h1
          cases e2 : t.predict x with
          | error e' => rw [e2] at h1; cases h1
          | ok q => rw [e2] at h1; simp only [Except.map, Except.ok.injEq] at h1; simp only [h1]
      rw [List.zip_cons_cons]
      by_cases hm : r ∉ rowsOf t 0
      · rw [List.filter_cons_of_pos (by simpa using mem_getOutOfBag.2 ⟨hr, hm⟩), List.filter_cons_of_pos (by simpa using hm),
          List.map_cons, List.map_cons, ih', hans]
      · rw [List.filter_cons_of_neg (by simp only [mem_getOutOfBag, decide_eq_true_eq]; tauto), List.filter_cons_of_neg (by simpa using hm), ih']

/-- What `get_oob_score` collects: for each row the number of trees it is out of bag for and the sum of their answers. -/
theorem oob_collect {f f' f1 : Forest K G} {w w' : World K G} {data : Option (List (List K))} {labels : Option Nat}
    (hf : Forest.fit R mem f w data labels = .ok (f', w')) (ha : AfterReads f' f1) (hb : f.cfg.bootstrap = true)
    (ho : f.cfg.oobScore = true) {ol : List (List Nat)} (hol : f1.oobList = some ol) (D : List (List K)) (n : Nat)
    (zero : List K) {s' : List (List K)} {c' : List Nat} {ts' : List (Tree K G)} (hn : n = (trainData f data).length)
    (h : oobLoop D ol 0 f1.trees (List.replicate n zero) (List.replicate n 0) = .ok (s', c', ts')) :
    c'.length = n ∧ ∀ r < n, c'.getD r 0 = (oobTrees f' r).length ∧
      s'.getD r [] = ((oobTrees f' r).map (fun t => ansVec t (D.getD r []))).foldl (List.zipWith (· + ·)) zero ∧
      ∀ t ∈ oobTrees f' r, ∃ q t', t.predict (D.getD r []) = .ok (q, t') := by
  obtain ⟨ol', h1, h2⟩ := Forest_fit_oob R mem hf hb ho
  have hol' : ol' = ol := by
    obtain ⟨ts, m, rfl, _⟩ := ha.same
    simp only [] at hol
    rw [h1] at hol
    exact Option.some.inj hol
  subst hol'
  obtain ⟨ms, _, _, hmade⟩ := Forest_fit_made hf
  have hans := fun x => Forest_fit_answers hf ha x
  have hlen : f1.trees.length = f'.trees.length := (hans []).length_eq
  have hafter : ∀ t1 ∈ f1.trees, ∃ i m, Fitted R (mem i) m.args m.tree ∧ AfterPredicts m.tree t1 ∧ m ∈ ms := by
    intro t1 ht1
    obtain ⟨ts, mm, rfl, h3, _⟩ := ha.same
    obtain ⟨i, hi⟩ := List.mem_iff_getElem?.1 ht1
    obtain ⟨t, ht, h4⟩ := forall₂_getElem h3 hi
    obtain ⟨m, hm1, hm, _⟩ := hmade i t ht
    exact ⟨i, m, hm.fitted, hm.after.trans h4, List.mem_of_getElem? hm1⟩
  obtain ⟨e1, e2, e3, e4⟩ := oobLoop_spec (fun k hk idcs hk' => by
      rw [Nat.zero_add] at hk'
      have := h2 k _ (List.getElem?_eq_getElem (show k < f'.trees.length by omega))
      rw [hk'] at this
      rw [Option.some.inj this]
      exact getOutOfBag_nodup _ _)
    (fun t ht xs ps t' hp => by
      obtain ⟨i, m, g1, g2, _⟩ := hafter t ht
      have g3 := C38_batch R (mem i) m.args m.tree t g1 g2 xs
      rw [hp] at g3
      have g4 := mapM_ok (show xs.mapM (fun x => (m.tree.predict x).map Prod.fst) = .ok ps from g3.symm)
      refine g4.imp (fun x p hx => ?_)
      rw [C38_history_independent R (mem i) m.args m.tree t g1 g2 x]
      exact hx) h
  rw [List.length_replicate] at e1 e2
  refine ⟨e2, fun r hr => ?_⟩
  obtain ⟨f1', f2'⟩ := e4 r
  rw [List.getElem?_replicate, if_pos hr] at f1' f2'
  rw [List.drop_zero] at f1' f2' e3
  have hp := oob_pairs (x := D.getD r []) (hn ▸ hr) (hans (D.getD r [])) ol' h2
  have hcnt := congrArg List.length hp
  rw [List.length_map, List.length_map] at hcnt
  refine ⟨?_, ?_, ?_⟩
  · rw [List.getD_eq_getElem?_getD, f1', hcnt]
    simp [oobTrees]
  · rw [List.getD_eq_getElem?_getD, f2', hp]
    rfl
  · intro t ht
    obtain ⟨ht1, ht2⟩ := List.mem_filter.1 ht
    obtain ⟨i, hi⟩ := List.mem_iff_getElem?.1 ht1
    have hi' := (List.getElem?_eq_some_iff.1 hi).1
    obtain ⟨g1, g2⟩ := List.forall₂_iff_get.1 (hans (D.getD r []))
    have hol2 := h2 i t hi
    have g3 : (f1.trees[i]'(by omega), getOutOfBag (rowsOf t 0) (trainData f data).length) ∈ f1.trees.zip ol' := by
      rw [List.mem_iff_getElem?]
      exact ⟨i, by rw [List.getElem?_zip_eq_some]; exact ⟨List.getElem?_eq_getElem _, hol2⟩⟩
    obtain ⟨q, t', g4⟩ := e3 _ g3 r (mem_getOutOfBag.2 ⟨hn ▸ hr, by simpa using ht2⟩)
    have g5 := g2 i (by omega) hi'
    simp only [List.get_eq_getElem] at g5 g4
    rw [g4] at g5
    obtain rfl := Option.some.inj ((List.getElem?_eq_getElem hi').symm.trans hi)
    cases g6 : f'.trees[i].predict (D.getD r []) with
    | error e => rw [g6] at g5; cases g5
    | ok p => exact ⟨p.1, p.2, rfl⟩

/-- The inner part of `get_oob_score`. -/
theorem oob_score_parts {f f' f1 f2 : Forest K G} {w w' w1 : World K G} {data : Option (List (List K))} {labels : Option Nat}
    (hf : Forest.fit R mem f w data labels = .ok (f', w')) (ha : AfterReads f' f1) (hb : f.cfg.bootstrap = true)
    (ho : f.cfg.oobScore = true) (hbo : f.cfg.boosting = false)
    (hlen : (treeLabels f w labels).length = (trainData f data).length)
    (hw : ∀ r, f'.orgRef = some r → w1.arrays.getD r [] = w'.arrays.getD r []) (d : Option (List (List K))) (s : XF K)
    (hs : f1.oobScore w1 d = .ok (s, f2)) :
    ∃ (sums : List (List K)) (counts : List Nat), (if f.cfg.isCls then
          (f.classes.length ≠ 0 ∨ oobPoints counts = []) ∧ s = (xnat ((oobPoints counts).filter (fun i => decide ((treeLabels f w labels).getD i 0 =
            (((npArgmax (sums.getD i [])).getD 0 : Nat) : K)))).length).div (xnat (oobPoints counts).length)
        else s = (XF.fin ((oobPoints counts).map (fun i =>
            let c : K := ((counts.getD i 0 : Nat) : K)
            let e := (treeLabels f w labels).getD i 0 - ((sums.getD i []).getD 0 0 / c) / c
            e * e)).sum).div (xnat (oobPoints counts).length)) ∧
      oobPoints counts = oobRows f' (treeLabels f w labels).length ∧
      ∀ r < (treeLabels f w labels).length, counts.getD r 0 = (oobTrees f' r).length ∧
      sums.getD r [] = ((oobTrees f' r).map (fun t => ansVec t ((d.getD (trainData f data)).getD r []))).foldl (List.zipWith (· + ·))
        (if f.cfg.isCls then List.replicate f.classes.length 0 else [0]) ∧
      ∀ t ∈ oobTrees f' r, ∃ q t', t.predict ((d.getD (trainData f data)).getD r []) = .ok (q, t') := by
  have hd : f1.data = some (trainData f data) := by
    obtain ⟨dat, f0, w0, hs, hl⟩ := Forest_fit_start hf
    obtain ⟨l, hr⟩ := forestLoop_run hl
    have : f'.data = some (trainData f data) := by rw [hr.same, hs.eq, hs.dat_eq]
    obtain ⟨ts, m, rfl, _⟩ := ha.same
    exact this
  have hcfg : f1.cfg = f.cfg ∧ f1.classes = f.classes ∧ f1.orgRef = f'.orgRef ∧ f1.oobList = f'.oobList := by
    obtain ⟨e1, e2, _⟩ := Forest_fit_same hf
    obtain ⟨ts, m, rfl, _⟩ := ha.same
    exact ⟨e1, e2, rfl, rfl⟩
  obtain ⟨c1, c2, c3, c4⟩ := hcfg
  obtain ⟨ol, h1, _⟩ := Forest_fit_oob R mem hf hb ho
  obtain ⟨D, hD⟩ : ∃ D, d.getD (trainData f data) = D := ⟨_, rfl⟩
  rw [hD]
  have hs : f1.oobScore w1 (some D) = .ok (s, f2) := by
    cases d with
    | some d => cases hD; exact hs
    | none =>
      cases hD
      unfold Forest.oobScore at hs ⊢
      rw [hd] at hs ⊢
      exact hs
  unfold Forest.oobScore at hs
  simp only [] at hs
  rw [c3, c4, h1, c1, c2] at hs
  cases horg : f'.orgRef with
  | none => rw [horg] at hs; cases hs
  | some ref =>
    rw [horg] at hs
    simp only [] at hs
    rw [hw ref horg, Forest_fit_org R mem hf hbo ref horg] at hs
    have hz : (if f.cfg.isCls = true then List.replicate f.classes.length (0 : K) else [0]) =
      (if f.cfg.isCls then List.replicate f.classes.length 0 else [0]) := rfl
    generalize hL : treeLabels f w labels = L at hs hlen ⊢
    rw [show (L.map (fun _ => if f.cfg.isCls = true then List.replicate f.classes.length (0 : K) else [0])) =
        List.replicate L.length (if f.cfg.isCls = true then List.replicate f.classes.length (0 : K) else [0]) from by simp,
      show (L.map (fun _ => 0)) = List.replicate L.length 0 from by simp] at hs
    cases hloop : oobLoop D ol 0 f1.trees
        (List.replicate L.length (if f.cfg.isCls = true then List.replicate f.classes.length (0 : K) else [0])) (List.replicate L.length 0) with
    | error e => rw [hloop] at hs; cases hs
    | ok q =>
      obtain ⟨sums, counts, ts⟩ := q
      rw [hloop] at hs
      simp only [] at hs
      obtain ⟨g1, g2⟩ := oob_collect R mem hf ha hb ho (c4.trans h1) _ L.length _ hlen hloop
      refine ⟨sums, counts, ?_, ?_, g2⟩
      · by_cases hc : f.cfg.isCls = true
        · rw [if_pos hc] at hs ⊢
          split_ifs at hs with h0
          cases hs
          refine ⟨?_, rfl⟩
          by_contra hcon
          exact h0 ⟨by tauto, by tauto⟩
        · rw [if_neg hc] at hs ⊢
          cases hs
          rfl
      · unfold oobPoints oobRows
        rw [g1]
        apply List.filter_congr
        intro r hr
        rw [(g2 r (List.mem_range.1 hr)).1]
        cases oobTrees f' r <;> simp

/-! ### C56 -/

/-- C56, classification: what the score is. It counts the rows whose label equals the *index* `pick i` of the class with the largest
summed probability among the trees the row is out of bag for. -/
theorem C56_value_classes (f f' f1 f2 : Forest K G) (w w' w1 : World K G) (data : Option (List (List K))) (labels : Option Nat)
    (hf : Forest.fit R mem f w data labels = .ok (f', w')) (ha : AfterReads f' f1) (hb : f.cfg.bootstrap = true)
    (ho : f.cfg.oobScore = true) (hbo : f.cfg.boosting = false) (hc : f.cfg.isCls = true) (hd : ClassesOK f.classes)
    (hlen : (treeLabels f w labels).length = (trainData f data).length)
    (hw : ∀ r, f'.orgRef = some r → w1.arrays.getD r [] = w'.arrays.getD r []) (d : Option (List (List K))) (s : XF K)
    (hs : f1.oobScore w1 d = .ok (s, f2)) :
    ∃ pick : Nat → Nat, (∀ i ∈ oobRows f' (treeLabels f w labels).length, pick i < f.classes.length ∧ ∀ c < f.classes.length,
        oobVote f' ((d.getD (trainData f data)).getD i []) i c ≤ oobVote f' ((d.getD (trainData f data)).getD i []) i (pick i) ∧
        (c < pick i → oobVote f' ((d.getD (trainData f data)).getD i []) i c < oobVote f' ((d.getD (trainData f data)).getD i []) i (pick i))) ∧
      s = (xnat ((oobRows f' (treeLabels f w labels).length).filter
          (fun i => decide ((treeLabels f w labels).getD i 0 = ((pick i : Nat) : K)))).length).div
        (xnat (oobRows f' (treeLabels f w labels).length).length) := by
  obtain ⟨sums, counts, h1, h2, h3⟩ := oob_score_parts R mem hf ha hb ho hbo hlen hw d s hs
  rw [if_pos hc] at h1
  obtain ⟨h0, h1⟩ := h1
  rw [h2] at h1 h0
  refine ⟨fun i => (npArgmax (sums.getD i [])).getD 0, ?_, h1⟩
  intro i hi
  have hk : f.classes.length ≠ 0 := by
    rcases h0 with h0 | h0
    · exact h0
    · rw [h0] at hi; cases hi
  have hil := List.mem_range.1 (List.mem_filter.1 hi).1
  obtain ⟨_, h4, h5⟩ := h3 i hil
  rw [if_pos hc] at h4
  obtain ⟨ms, _, _, hmade⟩ := Forest_fit_made hf
  have hq : ∀ q ∈ (oobTrees f' i).map (fun t => ansVec t ((d.getD (trainData f data)).getD i [])), q.length = f.classes.length := by
    intro q hq
    obtain ⟨t, ht, rfl⟩ := List.mem_map.1 hq
    obtain ⟨p, t2, hp⟩ := h5 t ht
    obtain ⟨k, hk⟩ := List.mem_iff_getElem?.1 (List.mem_filter.1 ht).1
    obtain ⟨m, _, hm, _⟩ := hmade k t hk
    have hcl : m.args.cfg.classes = f.classes := by rw [hm.cfg]; exact (Forest_fit_same hf).2.1
    have hci : m.args.cfg.isCls = true := by
      rw [hm.cfg]; show f'.cfg.isCls = true; rw [(Forest_fit_same hf).1]; exact hc
    obtain ⟨leaf, ys, label, probs, i', _, _, _, e4, e5, _⟩ :=
      C36_leaf_frequencies R (mem k) m.args m.tree t t2 hm.fitted hci (by rw [hcl]; exact hd) hm.after _ p hp
    unfold ansVec
    rw [hp, e4]
    show probs.length = _
    rw [e5, List.length_map, hcl]
  obtain ⟨g1, g2⟩ := foldl_vec _ (List.replicate f.classes.length (0 : K)) (by simp) hq
  rw [← h4] at g1 g2
  have hvote : ∀ c < f.classes.length, (sums.getD i []).getD c 0 = oobVote f' ((d.getD (trainData f data)).getD i []) i c := by
    intro c hc'
    rw [g2 c hc', List.map_map]
    unfold oobVote
    rw [List.getD_eq_getElem _ _ (by simpa using hc'), List.getElem_replicate, zero_add]
    rfl
  obtain ⟨p, hp⟩ := npArgmax_total (show sums.getD i [] ≠ [] by
    intro h; rw [h] at g1; exact hk g1.symm)
  obtain ⟨top, t1, t2⟩ := npArgmax_spec hp
  simp only [hp, Option.getD_some]
  have hpl := (List.getElem?_eq_some_iff.1 t1).1
  refine ⟨by omega, fun c hc' => ?_⟩
  have h6 : top = oobVote f' ((d.getD (trainData f data)).getD i []) i p := by
    rw [← hvote p (by omega), List.getD_eq_getElem?_getD, t1]
    rfl
  rw [← h6, ← hvote c hc']
  exact t2 c _ (List.getElem?_eq_some_iff.2 ⟨by omega, (List.getD_eq_getElem _ _ _).symm⟩)

/-- C56, classification, in part. If the classes are 0, 1, ..., k-1, the score is the accuracy, over the rows that are out of bag for at
least one tree, of the label `best i` whose summed probability is largest (NaN if there is no such row). -/
theorem C56_classes_partial (f f' f1 f2 : Forest K G) (w w' w1 : World K G) (data : Option (List (List K))) (labels : Option Nat)
    (hf : Forest.fit R mem f w data labels = .ok (f', w')) (ha : AfterReads f' f1) (hb : f.cfg.bootstrap = true)
    (ho : f.cfg.oobScore = true) (hbo : f.cfg.boosting = false) (hc : f.cfg.isCls = true) (hd : ClassesOK f.classes)
    (hlen : (treeLabels f w labels).length = (trainData f data).length)
    (hw : ∀ r, f'.orgRef = some r → w1.arrays.getD r [] = w'.arrays.getD r []) (d : Option (List (List K))) (s : XF K)
    (hs : f1.oobScore w1 d = .ok (s, f2)) (hk : ∀ c ∈ f.classes, c.1 = ((c.2 : Nat) : K)) :
    ∃ best : Nat → K, (∀ i ∈ oobRows f' (treeLabels f w labels).length, ∃ p, f.classes[p]? = some (best i, p) ∧ ∀ c < f.classes.length,
        oobVote f' ((d.getD (trainData f data)).getD i []) i c ≤ oobVote f' ((d.getD (trainData f data)).getD i []) i p ∧
        (c < p → oobVote f' ((d.getD (trainData f data)).getD i []) i c < oobVote f' ((d.getD (trainData f data)).getD i []) i p)) ∧
      s = (xnat ((oobRows f' (treeLabels f w labels).length).filter
          (fun i => decide ((treeLabels f w labels).getD i 0 = best i))).length).div
        (xnat (oobRows f' (treeLabels f w labels).length).length) := by
  obtain ⟨pick, h1, h2⟩ := C56_value_classes R mem f f' f1 f2 w w' w1 data labels hf ha hb ho hbo hc hd hlen hw d s hs
  refine ⟨fun i => ((pick i : Nat) : K), fun i hi => ?_, h2⟩
  obtain ⟨h3, h4⟩ := h1 i hi
  refine ⟨pick i, ?_, h4⟩
  have h5 : (f.classes.map Prod.snd)[pick i]? = some (f.classes[pick i].2) := by
    rw [List.getElem?_map, List.getElem?_eq_getElem h3]; rfl
  rw [hd.2, List.getElem?_range h3] at h5
  rw [List.getElem?_eq_getElem h3]
  have h6 := hk _ (List.getElem_mem h3)
  have h7 : f.classes[pick i].2 = pick i := (Option.some.inj h5).symm
  rw [h7] at h6
  exact congrArg some (Prod.ext h6 h7)

/-- C56, regression: what the score is. With `c` the number of trees row `i` is out of bag for, the prediction used is the sum of their
answers divided by `c` *twice*. -/
theorem C56_value_targets (f f' f1 f2 : Forest K G) (w w' w1 : World K G) (data : Option (List (List K))) (labels : Option Nat)
    (hf : Forest.fit R mem f w data labels = .ok (f', w')) (ha : AfterReads f' f1) (hb : f.cfg.bootstrap = true)
    (ho : f.cfg.oobScore = true) (hbo : f.cfg.boosting = false) (hc : f.cfg.isCls = false)
    (hlen : (treeLabels f w labels).length = (trainData f data).length)
    (hw : ∀ r, f'.orgRef = some r → w1.arrays.getD r [] = w'.arrays.getD r []) (d : Option (List (List K))) (s : XF K)
    (hs : f1.oobScore w1 d = .ok (s, f2)) :
    s = (XF.fin (((oobRows f' (treeLabels f w labels).length).map (fun i =>
        ((treeLabels f w labels).getD i 0 - oobVote f' ((d.getD (trainData f data)).getD i []) i 0 /
          ((oobTrees f' i).length : K) / ((oobTrees f' i).length : K)) ^ 2)).sum)).div
      (xnat (oobRows f' (treeLabels f w labels).length).length) := by
  obtain ⟨sums, counts, h1, h2, h3⟩ := oob_score_parts R mem hf ha hb ho hbo hlen hw d s hs
  rw [if_neg (by simp [hc])] at h1
  rw [h2] at h1
  rw [h1]
  congr 2
  congr 1
  apply List.map_congr_left
  intro i hi
  have hil := List.mem_range.1 (List.mem_filter.1 hi).1
  obtain ⟨h6, h4, h5⟩ := h3 i hil
  rw [if_neg (by simp [hc])] at h4
  obtain ⟨ms, _, _, hmade⟩ := Forest_fit_made hf
  have hq : ∀ q ∈ (oobTrees f' i).map (fun t => ansVec t ((d.getD (trainData f data)).getD i [])), q.length = 1 := by
    intro q hq
    obtain ⟨t, ht, rfl⟩ := List.mem_map.1 hq
    obtain ⟨p, t2, hp⟩ := h5 t ht
    obtain ⟨k, hk⟩ := List.mem_iff_getElem?.1 (List.mem_filter.1 ht).1
    obtain ⟨m, _, hm, _⟩ := hmade k t hk
    have hci : m.args.cfg.isCls = false := by
      rw [hm.cfg]; show f'.cfg.isCls = false; rw [(Forest_fit_same hf).1]; exact hc
    obtain ⟨leaf, v, _, _, _, e4, _⟩ := C37_leaf_mean R (mem k) m.args m.tree t t2 hm.fitted hci hm.after _ p hp
    unfold ansVec
    rw [hp, e4]
    rfl
  obtain ⟨g1, g2⟩ := foldl_vec _ ([0] : List K) rfl hq
  rw [← h4] at g1 g2
  have hvote : (sums.getD i []).getD 0 0 = oobVote f' ((d.getD (trainData f data)).getD i []) i 0 := by
    rw [g2 0 Nat.one_pos, List.map_map]
    unfold oobVote
    simp only [List.getD_cons_zero, zero_add]
    rfl
  simp only []
  rw [hvote, h6]
  ring

/-- C56, regression, in part. If no row is out of bag for more than one tree, the score is the mean squared error, over the rows that are
out of bag for a tree, of the averaged prediction of these trees (NaN if there is no such row). -/
theorem C56_targets_partial (f f' f1 f2 : Forest K G) (w w' w1 : World K G) (data : Option (List (List K))) (labels : Option Nat)
    (hf : Forest.fit R mem f w data labels = .ok (f', w')) (ha : AfterReads f' f1) (hb : f.cfg.bootstrap = true)
    (ho : f.cfg.oobScore = true) (hbo : f.cfg.boosting = false) (hc : f.cfg.isCls = false)
    (hlen : (treeLabels f w labels).length = (trainData f data).length)
    (hw : ∀ r, f'.orgRef = some r → w1.arrays.getD r [] = w'.arrays.getD r []) (d : Option (List (List K))) (s : XF K)
    (hs : f1.oobScore w1 d = .ok (s, f2)) (hone : ∀ i < (treeLabels f w labels).length, (oobTrees f' i).length ≤ 1) :
    s = (XF.fin (((oobRows f' (treeLabels f w labels).length).map (fun i =>
        ((treeLabels f w labels).getD i 0 -
          mean ((oobTrees f' i).map (fun t => (ansVec t ((d.getD (trainData f data)).getD i [])).getD 0 0))) ^ 2)).sum)).div
      (xnat (oobRows f' (treeLabels f w labels).length).length) := by
  rw [C56_value_targets R mem f f' f1 f2 w w' w1 data labels hf ha hb ho hbo hc hlen hw d s hs]
  congr 2
  congr 1
  apply List.map_congr_left
  intro i hi
  obtain ⟨hi1, hi2⟩ := List.mem_filter.1 hi
  have h1 := hone i (List.mem_range.1 hi1)
  have h2 : (oobTrees f' i).length ≠ 0 := by
    intro h0
    rw [List.length_eq_zero_iff] at h0
    rw [h0] at hi2
    simp at hi2
  have h3 : (oobTrees f' i).length = 1 := by omega
  unfold oobVote mean
  rw [List.length_map, h3]
  simp

/-! ### Where it fails, and examples -/

/-- A fitted forest with its out-of-bag score: the score, the number of trees each row is out of bag for, and the summed answers. -/
def exOob (w : World ℚ Nat) (cfg : ForestCfg ℚ) : Option (XF ℚ × List Nat × List (List ℚ)) :=
  (do let (f, w') ← runForest rngQ exMems w { cfg with oobScore := true } exData 0 none
      let (s, _) ← f.oobScore w' none
      pure (s, (List.range 6).map (fun i => (oobTrees f i).length),
        (List.range 6).map (fun i => (List.range (if cfg.isCls then 2 else 1)).map (oobVote f (exData.getD i []) i)))).toOption

/-- C56 fails for classification with the labels 1 and 2: rows 0, 2, 3, 5 are out of bag, the second class (label 2) has the largest sum for
each, and the labels of these rows are 1, 2, 1, 1. The accuracy is 1/4, but the score is 3/4. -/
theorem C56_refuted_classes :
    exOob { exWorld with arrays := [[1, 2, 2, 1, 2, 1]] } fcfgQ
      = some (.fin (3 / 4), [1, 0, 1, 1, 0, 1], [[0, 1], [0, 0], [0, 1], [0, 1], [0, 0], [0, 1]]) := by
  decide +kernel

/-- C56 fails for regression when a row is out of bag for two trees: the averaged predictions are 2, 6, 7, 11, 16, 11 for the targets
1, 2, 4, 7, 11, 16, with the mean squared error 46/3, but the score is 337/12. -/
theorem C56_refuted_targets :
    exOob exWorldReg { fcfgBoost with bootstrap := true, boosting := false, nEstimators := 4 }
      = some (.fin (337 / 12), [1, 1, 2, 1, 1, 2], [[2], [6], [14], [11], [16], [22]]) ∧
    ((((1 - 2) ^ 2 + (2 - 6) ^ 2 + (4 - 14 / 2) ^ 2 + (7 - 11) ^ 2 + (11 - 16) ^ 2 + (16 - 22 / 2) ^ 2) / 6 : ℚ) = 46 / 3) := by
  refine ⟨by decide +kernel, by norm_num⟩

/-- With boosting the targets the score compares with are no longer the ones passed: their array holds the residuals. -/
theorem C56_refuted_boosting :
    (do let (f, w') ← runForest rngQ exMems exWorldReg { fcfgBoost with bootstrap := true, oobScore := true } exData 0 none
        let (s, _) ← f.oobScore w' none
        pure (s, f.orgRef.map (fun r => w'.arrays.getD r []))).toOption
      = some (.fin (157 / 18), some [0, 0, 8 / 3, 0, -4 / 3, 8]) := by
  decide +kernel

/-- The hypotheses of `C56_classes_partial` are met, with the labels 0 and 1: the score is the accuracy 1/4. -/
example : exOob exWorld fcfgQ
    = some (.fin (1 / 4), [1, 0, 1, 1, 0, 1], [[0, 1], [0, 0], [0, 1], [0, 1], [0, 0], [0, 1]]) := by
  decide +kernel

/-- The hypotheses of `C56_targets_partial` are met: no row is out of bag twice, and the score is the mean squared error. -/
example : exOob exWorldReg { fcfgBoost with bootstrap := true, boosting := false }
      = some (.fin (51 / 4), [1, 0, 1, 1, 0, 1], [[2], [0], [7], [11], [0], [11]]) ∧
    ((((1 - 2) ^ 2 + (4 - 7) ^ 2 + (7 - 11) ^ 2 + (16 - 11) ^ 2) / 4 : ℚ) = 51 / 4) := by
  refine ⟨by decide +kernel, by norm_num⟩

end FF
