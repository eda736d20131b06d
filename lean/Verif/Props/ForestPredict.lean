import Verif.Proofs.ForestPredict
import Verif.Props.ForestEx

/-!
# Predictions of a forest (C51, C52, C63)

`f'` is a forest as `fit` left it, on a forest `f` with any history; `f1` is that forest after any number of predictions, out-of-bag
scores and importances.
-/

namespace FF

open Spec

set_option linter.unusedSectionVars false

variable {K : Type} [Field K] [LinearOrder K] [IsStrictOrderedRing K] [FloorRing K] [NpFun K] {G : Type}
variable (R : Rng K G) (mem : Nat → Nat → Junk K)

/-! ### C51 -/

/-- C51. Each tree answers with class probabilities `qs[i]`; the forest answers with the mean of these vectors, which is non-negative
and sums to 1, and with a class whose mean probability is largest (the first such class). -/
theorem C51_average (f f' f1 f2 : Forest K G) (w w' : World K G) (data : Option (List (List K))) (labels : Option Nat)
    (hf : Forest.fit R mem f w data labels = .ok (f', w')) (hc : f.cfg.isCls = true) (hd : ClassesOK f.classes)
    (ha : AfterReads f' f1) (x : List K) (p : Pred K) (hp : f1.predict x = .ok (p, f2)) :
    ∃ qs label avg i, List.Forall₂ (fun (t : Tree K G) q => ∃ l, (t.predict x).map Prod.fst = .ok (.cls l q)) f'.trees qs ∧
      qs ≠ [] ∧ p = .cls label avg ∧ avg.length = f.classes.length ∧
      (∀ j < f.classes.length, avg[j]? = some (mean (qs.map (fun q => q.getD j 0)))) ∧
      (∀ a ∈ avg, 0 ≤ a) ∧ avg.sum = 1 ∧ f.classes[i]? = some (label, i) ∧
      ∃ top, avg[i]? = some top ∧ ∀ (j : Nat) (a : K), avg[j]? = some a → a ≤ top ∧ (j < i → a < top) := by
  obtain ⟨ps, h1, h2⟩ := Forest_predict_parts hf ha hp
  obtain ⟨ms, _, _, hmade⟩ := Forest_fit_made hf
  have hcls : ∀ (i : Nat) (q : Pred K), ps[i]? = some q → ∃ t, f'.trees[i]? = some t ∧ ∃ l pr, q = .cls l pr ∧
      (t.predict x).map Prod.fst = .ok (.cls l pr) ∧ pr.length = f.classes.length ∧ (∀ a ∈ pr, 0 ≤ a) ∧ pr.sum = 1 := by
    intro i q hq
    obtain ⟨t, ht, hans⟩ := forall₂_getElem h1 hq
    obtain ⟨m, _, hm, _⟩ := hmade i t ht
    refine ⟨t, ht, ?_⟩
    cases htp : t.predict x with
    | error e => rw [htp] at hans; cases hans
    | ok r =>
      obtain ⟨q', t2⟩ := r
      have hq' : q' = q := by rw [htp] at hans; cases hans; rfl
      subst hq'
      have hcl : m.args.cfg.classes = f.classes := by rw [hm.cfg]; exact (Forest_fit_same hf).2.1
      have hci : m.args.cfg.isCls = true := by
        rw [hm.cfg]; show f'.cfg.isCls = true; rw [(Forest_fit_same hf).1]; exact hc
      obtain ⟨leaf, ys, label, probs, i', _, _, _, e4, e5, e6, e7, _⟩ :=
        C36_leaf_frequencies R (mem i) m.args m.tree t t2 hm.fitted hci (by rw [hcl]; exact hd) hm.after x q' htp
      exact ⟨label, probs, e4, by rw [← e4]; rfl, by rw [e5, List.length_map, hcl], e6, e7⟩
  have hprobs : ∀ q ∈ ps.map Pred.probs, q.length = f.classes.length ∧ (∀ a ∈ q, 0 ≤ a) ∧ q.sum = 1 := by
    intro q hq
    obtain ⟨q0, hq0, rfl⟩ := List.mem_map.1 hq
    obtain ⟨i, hi⟩ := List.mem_iff_getElem?.1 hq0
    obtain ⟨t, _, l, pr, rfl, _, h⟩ := hcls i q0 hi
    exact h
  unfold forestAnswer at h2
  rw [if_pos hc] at h2
  split_ifs at h2 with hne
  have hne' : ps.map Pred.probs ≠ [] := fun h => hne (List.map_eq_nil_iff.1 h)
  cases hm : npArgmax (avgProbs f.classes.length (ps.map Pred.probs)) with
  | none => rw [hm] at h2; cases h2
  | some i =>
    rw [hm] at h2
    simp only [] at h2
    cases hci : f.classes[i]? with
    | none => rw [hci] at h2; cases h2
    | some c =>
      rw [hci] at h2
      simp only [Except.ok.injEq] at h2
      obtain ⟨top, t1, t2⟩ := npArgmax_spec hm
      refine ⟨ps.map Pred.probs, c.1, _, i, ?_, hne', h2.symm, by simp [avgProbs], ?_, ?_, ?_, ?_, top, t1, t2⟩
      · rw [List.forall₂_iff_get]
        refine ⟨by rw [List.length_map]; exact h1.length_eq, ?_⟩
        intro k hk1 hk2
        have hk3 : k < ps.length := by rw [List.length_map] at hk2; exact hk2
        obtain ⟨t, ht, l, pr, e1, e2, _⟩ := hcls k _ (List.getElem?_eq_getElem hk3)
        obtain rfl := Option.some.inj ((List.getElem?_eq_getElem hk1).symm.trans ht)
        refine ⟨l, ?_⟩
        rw [List.get_eq_getElem, List.get_eq_getElem, List.getElem_map, e1]
        exact e2
      · intro j hj
        unfold avgProbs
        rw [List.getElem?_map, List.getElem?_range hj]
        rfl
      · intro a ha
        obtain ⟨j, _, rfl⟩ := List.mem_map.1 ha
        unfold npMean
        apply div_nonneg _ (Nat.cast_nonneg _)
        apply List.sum_nonneg
        intro b hb
        obtain ⟨q, hq, rfl⟩ := List.mem_map.1 hb
        rw [List.getD_eq_getElem?_getD]
        cases hqj : q[j]? with
        | none => exact le_refl _
        | some b => exact (hprobs q hq).2.1 b (List.mem_of_getElem? hqj)
      · rw [sum_avg _ _ (fun q hq => (hprobs q hq).1)]
        have hone : ∀ l : List (List K), (∀ q ∈ l, q.sum = 1) → (l.map List.sum).sum = (l.length : K) := by
          intro l
          induction l with
          | nil => simp
          | cons q l ih =>
            intro hl
            rw [List.map_cons, List.sum_cons, ih (fun q hq => hl q (List.mem_cons_of_mem _ hq)), hl q (List.mem_cons_self ..),
              List.length_cons]
            push_cast
            ring
        rw [hone _ (fun q hq => (hprobs q hq).2.2)]
        apply div_self
        have : 0 < (ps.map Pred.probs).length := List.length_pos_iff.2 hne'
        exact_mod_cast this.ne'
      · have h3 : (f.classes.map Prod.snd)[i]? = some c.2 := by rw [List.getElem?_map, hci]; rfl
        rw [hd.2, List.getElem?_range (List.getElem?_eq_some_iff.1 hci).1] at h3
        rw [hci, Option.some.injEq]
        exact Prod.ext rfl (Option.some.inj h3).symm

/-- The dictionary a classification forest makes from its labels is as C51 needs it, and lists exactly the labels. -/
theorem C51_default_classes (w w' : World K G) (cfg : ForestCfg K) (hc : cfg.isCls = true) (data : Option (List (List K))) (r : Nat)
    (budget : Option Int) (f : Forest K G) (h : Forest.init R w cfg none data (some r) budget = .ok (f, w')) :
    ClassesOK f.classes ∧ ∀ y, y ∈ f.classes.map Prod.fst ↔ y ∈ w.arrays.getD r [] := by
  have e : f.classes = classToIdx (npUnique (w.arrays.getD r [])) := by
    unfold Forest.init at h
    simp only [] at h
    split_ifs at h <;> (cases h; rfl)
  rw [e]
  refine ⟨classToIdx_ok (npUnique_nodup _), fun y => ?_⟩
  rw [classToIdx_fst, mem_npUnique]

/-- C51 and C52, no exception: a fitted forest with at least one tree, each tree grown from at least one row, answers for every point with
as many columns as the training data. -/
theorem C51_predict_total (f f' f1 : Forest K G) (w w' : World K G) (data : Option (List (List K))) (labels : Option Nat)
    (hf : Forest.fit R mem f w data labels = .ok (f', w')) (hd : f.cfg.isCls = true → ClassesOK f.classes)
    (hN : f.cfg.alphaN ≤ 1) (hF : f.cfg.alphaF ≤ 1) (hrow : 1 ≤ ((trainData f data).length : K) * f.cfg.alphaN)
    (hne : f'.trees ≠ []) (ha : AfterReads f' f1) (x : List K) (hx : ((trainData f data).getD 0 []).length ≤ x.length) :
    ∃ p f2, f1.predict x = .ok (p, f2) := by
  obtain ⟨ms, _, hdne, hmade⟩ := Forest_fit_made hf
  have hcfg := (Forest_fit_same hf).1
  have htot : ∀ t ∈ f'.trees, ∃ p t', t.predict x = .ok (p, t') := by
    intro t ht
    obtain ⟨i, hi⟩ := List.mem_iff_getElem?.1 ht
    obtain ⟨m, _, hm, _⟩ := hmade i t hi
    obtain ⟨rows0, rows, cols, g, g1, g2, d1, d2, d3, d4⟩ := hm.draw
    rw [hcfg] at d1 d2
    obtain ⟨s1, s2⟩ := subsets_ok hN hF d1
    have hsub : rows0 ≠ [] := by
      intro h0
      have := s1.size
      rw [h0] at this
      have h1 : (1 : Int) ≤ ⌊((trainData f data).length : K) * f.cfg.alphaN⌋ := Int.le_floor.2 (by exact_mod_cast hrow)
      rw [← this] at h1
      simp at h1
    have hrows : rows ≠ [] := by
      unfold bootstrapIdcs at d2
      split_ifs at d2
      · intro h0
        have := (rngChoiceRep_ok d2).1
        rw [h0] at this
        exact hdne (List.length_eq_zero_iff.1 this.symm)
      · cases d2
        exact hsub
    have hr : m.args.rows = rows := by unfold TreeArgs.rows; rw [d3]; rfl
    have hcs : m.args.cols = cols := by unfold TreeArgs.cols; rw [d4]; rfl
    refine C36_predict_total R (mem i) m.args m.tree t hm.fitted ?_ (by rw [hr]; exact hrows) hm.after x ?_
    · intro h
      rw [hm.cfg] at h ⊢
      show ClassesOK f'.classes
      rw [(Forest_fit_same hf).2.1]
      apply hd
      rw [← hcfg]
      exact h
    · intro j hj
      rw [hcs] at hj
      exact lt_of_lt_of_le (s2.range j hj) hx
  obtain ⟨ps, ts, hps⟩ := treesPredict_total htot
  have hl := (treesPredict_ok hps).length_eq
  have hans : ∃ p, (f'.predict x).map Prod.fst = .ok p := by
    rw [Forest_predict_fst, ← treesPredict_answers, hps]
    show ∃ p, forestAnswer f'.cfg f'.classes ps = .ok p
    have hps0 : ps ≠ [] := by
      rintro rfl
      exact hne (List.length_eq_zero_iff.1 hl)
    unfold forestAnswer
    split_ifs with h1 h2
    · have hcls0 : ∃ c cs, f'.classes = c :: cs := by
        obtain ⟨t, ht⟩ := List.exists_mem_of_ne_nil _ hne
        obtain ⟨i, hi⟩ := List.mem_iff_getElem?.1 ht
        obtain ⟨m, _, hm, _⟩ := hmade i t hi
        obtain ⟨p, t2, hp⟩ := htot t ht
        have hci : m.args.cfg.isCls = true := by rw [hm.cfg]; exact h1
        have hcl : m.args.cfg.classes = f'.classes := by rw [hm.cfg]; rfl
        obtain ⟨_, _, _, _, i', _, _, _, _, _, _, _, _, e, _⟩ :=
          C36_leaf_frequencies R (mem i) m.args m.tree t t2 hm.fitted hci
            (by rw [hcl, (Forest_fit_same hf).2.1]; exact hd (by rw [← hcfg]; exact h1)) hm.after x p hp
        rw [hcl] at e
        cases hcc : f'.classes with
        | nil => rw [hcc] at e; cases e
        | cons c cs => exact ⟨c, cs, rfl⟩
      obtain ⟨c, cs, hcc⟩ := hcls0
      have hlen : (avgProbs f'.classes.length (ps.map Pred.probs)).length = f'.classes.length := by simp [avgProbs]
      cases hm : npArgmax (avgProbs f'.classes.length (ps.map Pred.probs)) with
      | none =>
        cases hav : avgProbs f'.classes.length (ps.map Pred.probs) with
        | nil => rw [hav, hcc] at hlen; simp at hlen
        | cons a as => rw [hav] at hm; cases hm
      | some i =>
        obtain ⟨top, t1, _⟩ := npArgmax_spec hm
        have hi : i < f'.classes.length := by rw [← hlen]; exact (List.getElem?_eq_some_iff.1 t1).1
        simp only [List.getElem?_eq_getElem hi]
        exact ⟨_, rfl⟩
    · exact ⟨_, rfl⟩
    · exact ⟨_, rfl⟩
  obtain ⟨p, hp⟩ := hans
  rw [← Forest_after_predict hf ha x] at hp
  cases h : f1.predict x with
  | error e => rw [h] at hp; cases hp
  | ok q => exact ⟨q.1, q.2, rfl⟩

/-! ### C52 -/

/-- C52. A regression forest without boosting answers with the mean of the answers `vs[i]` of its trees, which is between any bounds of
the training targets. -/
theorem C52_mean_in_range (f f' f1 f2 : Forest K G) (w w' : World K G) (data : Option (List (List K))) (labels : Option Nat)
    (hf : Forest.fit R mem f w data labels = .ok (f', w')) (hc : f.cfg.isCls = false) (hb : f.cfg.boosting = false)
    (hN : f.cfg.alphaN ≤ 1) (hF : f.cfg.alphaF ≤ 1)
    (ha : AfterReads f' f1) (x : List K) (p : Pred K) (hp : f1.predict x = .ok (p, f2)) :
    ∃ vs, List.Forall₂ (fun (t : Tree K G) v => (t.predict x).map Prod.fst = .ok (.reg v)) f'.trees vs ∧ vs ≠ [] ∧
      p = .reg (mean vs) ∧ ∀ lo hi, (∀ y ∈ trainLabels f w labels, lo ≤ y ∧ y ≤ hi) → lo ≤ mean vs ∧ mean vs ≤ hi := by
  obtain ⟨ps, h1, h2⟩ := Forest_predict_parts hf ha hp
  obtain ⟨ms, _, _, hmade⟩ := Forest_fit_made hf
  have hcfg := (Forest_fit_same hf).1
  have hreg : ∀ (i : Nat) (q : Pred K), ps[i]? = some q → ∃ t, f'.trees[i]? = some t ∧ ∃ v, q = .reg v ∧
      (t.predict x).map Prod.fst = .ok (.reg v) ∧
      ∀ lo hi, (∀ y ∈ trainLabels f w labels, lo ≤ y ∧ y ≤ hi) → lo ≤ v ∧ v ≤ hi := by
    intro i q hq
    obtain ⟨t, ht, hans⟩ := forall₂_getElem h1 hq
    obtain ⟨m, _, hm, hlab⟩ := hmade i t ht
    refine ⟨t, ht, ?_⟩
    cases htp : t.predict x with
    | error e => rw [htp] at hans; cases hans
    | ok r =>
      obtain ⟨q', t2⟩ := r
      have hq' : q' = q := by rw [htp] at hans; cases hans; rfl
      subst hq'
      have hci : m.args.cfg.isCls = false := by
        rw [hm.cfg]; show f'.cfg.isCls = false; rw [hcfg]; exact hc
      obtain ⟨leaf, v, _, _, _, e4, _, e6⟩ := C37_leaf_mean R (mem i) m.args m.tree t t2 hm.fitted hci hm.after x q' htp
      refine ⟨v, e4, by rw [← e4]; rfl, ?_⟩
      intro lo hi hbnd
      apply e6
      intro y hy
      obtain ⟨k, hk, rfl⟩ := List.mem_map.1 hy
      have hlab' : m.args.labels = trainLabels f w labels := by
        rw [hlab hb]; unfold treeLabels; rw [hc]; rfl
      obtain ⟨rows0, rows, cols, g, g1, g2, d1, d2, d3, d4⟩ := hm.draw
      rw [hcfg] at d1 d2
      obtain ⟨s1, s2⟩ := subsets_ok hN hF d1
      have hr : m.args.rows = rows := by unfold TreeArgs.rows; rw [d3]; rfl
      have hk2 := (bootstrapIdcs_ok s1 d2).lt k (hr ▸ hk)
      obtain ⟨dd, t0, hfacts⟩ := hm.fitted.facts
      have hlen := hfacts.start.lens
      rw [hm.data_eq, hlab'] at hlen
      rw [hlab']
      rw [hlen] at hk2
      apply hbnd
      rw [List.getD_eq_getElem _ _ hk2]
      exact List.getElem_mem _
  unfold forestAnswer at h2
  rw [if_neg (by rw [hc]; simp), if_neg (by rw [hb]; simp)] at h2
  split_ifs at h2 with hne
  simp only [Except.ok.injEq] at h2
  have hne' : ps.map Pred.value ≠ [] := fun h => hne (List.map_eq_nil_iff.1 h)
  refine ⟨ps.map Pred.value, ?_, hne', h2.symm, ?_⟩
  · rw [List.forall₂_iff_get]
    refine ⟨by rw [List.length_map]; exact h1.length_eq, ?_⟩
    intro k hk1 hk2
    have hk3 : k < ps.length := by rw [List.length_map] at hk2; exact hk2
    obtain ⟨t, ht, v, e1, e2, _⟩ := hreg k _ (List.getElem?_eq_getElem hk3)
    obtain rfl := Option.some.inj ((List.getElem?_eq_getElem hk1).symm.trans ht)
    rw [List.get_eq_getElem, List.get_eq_getElem, List.getElem_map, e1]
    exact e2
  · intro lo hi hbnd
    apply mean_between hne'
    intro v hv
    obtain ⟨q, hq, rfl⟩ := List.mem_map.1 hv
    obtain ⟨i, hi⟩ := List.mem_iff_getElem?.1 hq
    obtain ⟨t, _, v, rfl, _, h⟩ := hreg i q hi
    exact h _ _ hbnd

/-! ### C63 -/

/-- C63. The answer of a fitted forest for `x` (or the exception raised) does not depend on other calls made before. -/
theorem C63_history_independent (f f' f1 : Forest K G) (w w' : World K G) (data : Option (List (List K))) (labels : Option Nat)
    (hf : Forest.fit R mem f w data labels = .ok (f', w')) (ha : AfterReads f' f1) (x : List K) :
    (f1.predict x).map Prod.fst = (f'.predict x).map Prod.fst :=
  Forest_after_predict hf ha x

/-- C63 for `predict_batch`: the answers for a batch are the answers for its points one by one (or the first exception). -/
theorem C63_batch (f f' f1 : Forest K G) (w w' : World K G) (data : Option (List (List K))) (labels : Option Nat)
    (hf : Forest.fit R mem f w data labels = .ok (f', w')) (ha : AfterReads f' f1) (xs : List (List K)) :
    (f1.predictBatch xs).map Prod.fst = xs.mapM (fun x => (f'.predict x).map Prod.fst) := by
  induction xs generalizing f1 with
  | nil => rfl
  | cons x xs ih =>
    have h1 := Forest_after_predict hf ha x
    rw [Forest.predictBatch, List.mapM_cons, ← h1]
    cases hp : f1.predict x with
    | error e => rfl
    | ok q =>
      obtain ⟨p, f2⟩ := q
      have h2 := ih f2 (.predict ha hp)
      simp only [Except.map, bind, Except.bind, pure, Except.pure] at h2 ⊢
      rw [← h2]
      cases f2.predictBatch xs with
      | error e => rfl
      | ok r => rfl

/-- C63, entry by entry. -/
theorem C63_entries (f f' f1 f2 : Forest K G) (w w' : World K G) (data : Option (List (List K))) (labels : Option Nat)
    (hf : Forest.fit R mem f w data labels = .ok (f', w')) (ha : AfterReads f' f1) (xs : List (List K)) (ps : List (Pred K))
    (hp : f1.predictBatch xs = .ok (ps, f2)) :
    ps.length = xs.length ∧ ∀ (i : Nat) (p : Pred K), ps[i]? = some p → ∃ x, xs[i]? = some x ∧ (f'.predict x).map Prod.fst = .ok p := by
  have h := C63_batch R mem f f' f1 w w' data labels hf ha xs
  rw [hp] at h
  have h2 := mapM_ok (show xs.mapM (fun x => (f'.predict x).map Prod.fst) = .ok ps from h.symm)
  exact ⟨h2.length_eq.symm, fun i p hi => forall₂_getElem h2 hi⟩

/-! ### Examples -/

/-- The answers of a forest and of each of its trees. -/
def exAnswers (r : Except Err (Forest ℚ Nat × World ℚ Nat)) (xs : List (List ℚ)) : Option (List (Pred ℚ) × List (List (Pred ℚ))) :=
  (do let (f, _) ← r
      let (ps, _) ← f.predictBatch xs
      let each ← f.trees.mapM (fun (t : Tree ℚ Nat) => (t.predictBatch xs).map Prod.fst)
      pure (ps, each)).toOption

/-- Classification: two trees of different opinion; a tie goes to the class listed first. -/
example : (exAnswers (runForest rngQ exMems exWorld fcfgQ exData 0 none) [[0, 2], [4, 1], [4, 9], [0, 2]] ==
    some ([.cls 0 [1 / 2, 1 / 2], .cls 0 [1 / 2, 1 / 2], .cls 1 [0, 1], .cls 0 [1 / 2, 1 / 2]],
      [[.cls 0 [1, 0], .cls 0 [1, 0], .cls 1 [0, 1], .cls 0 [1, 0]],
       [.cls 1 [0, 1], .cls 1 [0, 1], .cls 1 [0, 1], .cls 1 [0, 1]]])) = true := by
  decide +kernel

/-- Regression. -/
example : (exAnswers (runForest rngQ exMems exWorldReg { fcfgQ with isCls := false } exData 0 none) [[0, 2], [4, 1], [4, 9], [0, 2]] ==
    some ([.reg (3 / 2), .reg 11, .reg 11, .reg (3 / 2)],
      [[.reg 1, .reg 11, .reg 11, .reg 1], [.reg 2, .reg 11, .reg 11, .reg 2]])) = true := by
  decide +kernel

/-- The hypotheses of C51 are met together: a new forest is fitted, asked twice, and gives class probabilities. -/
example : ∃ f f' f1 f2 w w' p, Forest.fit rngQ exMems f w none none = .ok (f', w') ∧ f.cfg.isCls = true ∧ ClassesOK f.classes ∧
    AfterReads f' f1 ∧ f1.predict [4, 9] = .ok (p, f2) := by
  cases h0 : Forest.init rngQ exWorld fcfgQ none (some exData) (some 0) none with
  | error e => exact absurd h0 (by rintro ⟨⟩)
  | ok q =>
    obtain ⟨f, w⟩ := q
    have hcl := (C51_default_classes rngQ exWorld w fcfgQ rfl (some exData) 0 none f h0).1
    obtain ⟨hcfg, _⟩ := Forest_init_fields h0
    have hok : ((runForest rngQ exMems exWorld fcfgQ exData 0 none).toOption.map (fun r => r.1.trees.length)) = some 2 := by
      decide +kernel
    unfold runForest at hok
    rw [h0] at hok
    cases h1 : Forest.fit rngQ exMems f w none none with
    | error e => simp only [bind, Except.bind, h1] at hok; cases hok
    | ok q =>
      obtain ⟨f', w'⟩ := q
      simp only [bind, Except.bind, h1] at hok
      have hlen : f'.trees.length = 2 := Option.some.inj hok
      have hdat : trainData f none = exData := by cases h0; rfl
      have hcls : f.cfg.isCls = true := by cases h0; rfl
      have hN : f.cfg.alphaN = 1 := by cases h0; rfl
      have hF : f.cfg.alphaF = 1 := by cases h0; rfl
      have tot : ∀ f1, AfterReads f' f1 → ∃ p f2, f1.predict [4, 9] = .ok (p, f2) := fun f1 ha =>
        C51_predict_total rngQ exMems f f' f1 w w' none none h1 (fun _ => hcl) (by rw [hN]) (by rw [hF])
          (by rw [hN, hdat]; decide +kernel) (by intro h; rw [h] at hlen; cases hlen) ha [4, 9] (by rw [hdat]; decide)
      obtain ⟨p1, f1, hp1⟩ := tot f' .none
      obtain ⟨p2, f2, hp2⟩ := tot f1 (.predict .none hp1)
      exact ⟨f, f', f1, f2, w, w', p2, h1, hcls, hcl, .predict .none hp1, hp2⟩

end FF
