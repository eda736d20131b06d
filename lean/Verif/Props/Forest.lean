import Verif.Proofs.Forest
import Verif.Props.Predict
import Verif.Props.ForestEx

/-!
# Growing a forest (C48 – C50, C54, C59 – C62)
-/

namespace FF

open Spec

set_option linter.unusedSectionVars false

variable {K : Type} [Field K] [LinearOrder K] [IsStrictOrderedRing K] [FloorRing K] [NpFun K] {G : Type}
variable (R : Rng K G) (mem : Nat → Nat → Junk K)

/-! ### C48 -/

/-- C48. After `fit`, on a forest with any history, there are at most `n_estimators` trees, and exactly that many if the forest was
constructed without a budget. -/
theorem C48_number_of_trees (cfg : ForestCfg K) (budget : Option Int) (f : Forest K G) (hobj : ForestObj R cfg budget f)
    (w w' : World K G) (data : Option (List (List K))) (labels : Option Nat) (f' : Forest K G)
    (hf : Forest.fit R mem f w data labels = .ok (f', w')) :
    f'.trees.length ≤ cfg.nEstimators ∧ (budget = none → f'.trees.length = cfg.nEstimators) := by
  obtain ⟨h1, h2, _⟩ := hobj.facts
  obtain ⟨_, _, h3, h4⟩ := Forest_fit_accounting hf
  have hn : f.cfg.nEstimators = cfg.nEstimators := by rw [h1]
  rw [hn] at h3 h4
  exact ⟨h3, fun hb => h4 (h2 hb)⟩

/-- Two trees without a budget; one tree with a budget of 10 queries, none with a budget of 0. -/
example :
    ((runForest rngQ exMems exWorld fcfgQ exData 0 none).toOption.map (fun r => r.1.trees.map Tree.numQueries) = some [22, 12]) ∧
    ((runForest rngQ exMems exWorld fcfgQ exData 0 (some 10)).toOption.map (fun r => r.1.trees.map Tree.numQueries) = some [12]) ∧
    ((runForest rngQ exMems exWorld fcfgQ exData 0 (some 0)).toOption.map (fun r => r.1.trees.map Tree.numQueries) = some []) := by
  decide +kernel

/-! ### C49 -/

/-- C49. In a forest constructed with a budget `b` (of at least 0), whatever has been done with it, the queries of its trees total less
than `b + BUFFER`. -/
theorem C49_budget (cfg : ForestCfg K) (b : Int) (hb : 0 ≤ b) (f : Forest K G) (hobj : ForestObj R cfg (some b) f) :
    (((f.trees.map Tree.numQueries).sum : Nat) : Int) < b + buffer := by
  obtain ⟨r, _, h2, h3⟩ := hobj.facts.2.2 b rfl
  have : -buffer < b := by unfold buffer; omega
  have := h3 this
  omega

/-- C49, the assertion: it never fails, that is, `fit` does the same without it. -/
theorem C49_assertion (data : List (List K)) (F : Nat) (is : List Nat) (f : Forest K G) (w : World K G) :
    forestLoop R mem data F is f w = forestLoopUnchecked R mem data F is f w := by
  induction is generalizing f w with
  | nil => rfl
  | cons i is ih =>
    unfold forestLoop forestLoopUnchecked
    cases hs : forestStep R mem data F i f w with
    | error e => rfl
    | ok p =>
      obtain ⟨b, f1, w1⟩ := p
      rcases forestStep_cases hs with ⟨rfl, m, t, hk⟩ | ⟨rfl, _⟩
      · have hkeep := hk.keep
        have hrem : f1.remaining = f.remaining.map (fun b => b - (m.tree.numQueries : Int)) := by rw [hk.next]
        simp only []
        rw [ih]
        rcases Option.eq_none_or_eq_some f.remaining with h | ⟨r, h⟩
        · rw [h] at hrem
          rw [hrem]
          rfl
        · rw [h] at hrem hkeep
          unfold keepTree at hkeep
          rw [Bool.and_eq_true, decide_eq_true_eq, decide_eq_true_eq] at hkeep
          rw [hrem]
          simp only [Option.map_some]
          rw [if_pos (by rw [decide_eq_true_eq]; omega)]
      · rfl

/-- Five trees allowed, 30 queries: the second tree overdraws the budget by 4, and the loop ends. -/
example : (runForest rngQ exMems exWorld { fcfgQ with nEstimators := 5 } exData 0 (some 30)).toOption.map
    (fun r => (r.1.trees.map Tree.numQueries, r.1.remaining)) = some ([22, 12], some (-4)) := by
  decide +kernel

/-! ### C50 -/

/-- C50 for a new forest: after `fit`, `num_queries` is the sum over its trees and the remaining budget is the initial one minus it. -/
theorem C50_new_forest_partial (cfg : ForestCfg K) (classes : Option (ClassDict K)) (budget : Option Int) (w0 w1 w w' : World K G)
    (data0 data : Option (List (List K))) (labels0 labels : Option Nat) (f f' : Forest K G)
    (hinit : Forest.init R w0 cfg classes data0 labels0 budget = .ok (f, w1)) (hf : Forest.fit R mem f w data labels = .ok (f', w')) :
    f'.numQueries = (f'.trees.map Tree.numQueries).sum ∧ f'.remaining = budget.map (fun b => b - (f'.numQueries : Int)) := by
  obtain ⟨_, h2, h3, _⟩ := Forest_init_fields hinit
  obtain ⟨a1, a2, _⟩ := Forest_fit_accounting hf
  rw [h3, Nat.zero_add] at a1
  rw [h2] at a2
  exact ⟨a1, by rw [a1]; exact a2⟩

/-- C50, refitting: the count goes on from its old value, although the trees are replaced. So it is not the sum over the trees, unless the
count was 0 before. -/
theorem C50_refit_accumulates (w w' : World K G) (data : Option (List (List K))) (labels : Option Nat) (f f' : Forest K G)
    (hf : Forest.fit R mem f w data labels = .ok (f', w')) :
    f'.numQueries = f.numQueries + (f'.trees.map Tree.numQueries).sum ∧
    f'.remaining = f.remaining.map (fun b => b - (((f'.trees.map Tree.numQueries).sum : Nat) : Int)) :=
  ⟨(Forest_fit_accounting hf).1, (Forest_fit_accounting hf).2.1⟩

/-- C50 fails for a second `fit`: two trees with 22 and 12 queries, then two trees with 12 and 22 queries, and `num_queries` is 68. -/
theorem C50_refuted :
    (do let (f, w) ← runForest rngQ exMems exWorld fcfgQ exData 0 none
        let (f', _) ← Forest.fit rngQ exMems f w none none
        pure (f.numQueries, f.trees.map Tree.numQueries, f'.numQueries, f'.trees.map Tree.numQueries)).toOption
      = some (34, [22, 12], 68, [12, 22]) := by
  decide +kernel

/-! ### C54 -/

/-- C54 without boosting: no label array that exists when `fit` is called is changed by it. With boosting, only the array of the targets
is written to. -/
theorem C54_labels_unchanged_partial (w w' : World K G) (data : Option (List (List K))) (labels : Option Nat) (f f' : Forest K G)
    (hf : Forest.fit R mem f w data labels = .ok (f', w')) (r : Nat) (hr : r < w.arrays.length)
    (hb : f.cfg.boosting = false ∨ labels.or f.newRef ≠ some r) : w'.arrays[r]? = w.arrays[r]? := by
  obtain ⟨dat, f0, w0, hs, hl⟩ := Forest_fit_start hf
  obtain ⟨l, hrun⟩ := forestLoop_run hl
  have hcfg : f0.cfg = f.cfg := by rw [hs.eq]
  have h0 : w0.arrays[r]? = w.arrays[r]? ∧ (f.cfg.boosting = false ∨ f0.newRef ≠ some r) := by
    by_cases hc : f.cfg.isCls = true
    · obtain ⟨a, b, _, _, _, e4, e5⟩ := hs.cls hc
      rw [e5, e4]
      refine ⟨List.getElem?_append_left hr, Or.inr ?_⟩
      intro h
      cases h
      omega
    · obtain ⟨_, e2, e3⟩ := hs.reg ((Bool.not_eq_true _).mp hc)
      rw [e3, e2]
      exact ⟨rfl, hb⟩
  rw [← h0.1]
  have hb0 := h0.2
  rw [← hcfg] at hb0
  generalize List.range f.cfg.nEstimators = is at hl hrun
  clear h0 hcfg hl hs hb hr hf
  induction hrun with
  | done => rfl
  | stop _ hw => rw [hw]
  | keep hk _ ih =>
    obtain ⟨_, _, c3, _, c5⟩ := hk.next_cfg
    rw [ih (by rw [c3, c5]; exact hb0)]
    obtain ⟨glob, hbs⟩ := hk.boost
    unfold boostStep at hbs
    split at hbs
    · next hbo =>
      rcases hb0 with h | h
      · rw [h] at hbo; cases hbo
      · split at hbs
        · cases hbs
        · next nr hnr =>
          split at hbs
          · cases hbs
          · cases hbs
            rw [List.getElem?_set_ne]
            rintro rfl
            exact h hnr
    · cases hbs
      rfl

/-- C54 fails with boosting: the caller's array holds the residuals afterwards. -/
theorem C54_refuted :
    exWorldReg.arrays = [[1, 2, 4, 7, 11, 16]] ∧
    (runForest rngQ exMems exWorldReg fcfgBoost exData 0 none).toOption.map (fun r => r.2.arrays) =
      some [[-2 / 3, -5 / 18, 5 / 4, 1 / 18, -5 / 12, 1 / 18]] := by
  decide +kernel

/-! ### C59, C60 -/

/-- A forest with other values of `criterion`, `splitter` and of the attribute set by `reset`. -/
def Forest.chg (c : Criterion) (s : Splitter) (b : Option Int) (f : Forest K G) : Forest K G :=
  { f with cfg := { f.cfg with criterion := c, splitter := s }, budgetAttr := b }

theorem forestStep_chg (c : Criterion) (s : Splitter) (b : Option Int) (data : List (List K)) (F i : Nat) (f : Forest K G)
    (w : World K G) :
    forestStep R mem data F i (f.chg c s b) w = (forestStep R mem data F i f w).map (fun r => (r.1, r.2.1.chg c s b, r.2.2)) := by
  unfold forestStep
  simp only []
  have e1 : subsets R (f.chg c s b).rng data.length F (f.chg c s b).cfg = subsets R f.rng data.length F f.cfg := rfl
  rw [e1]
  cases subsets R f.rng data.length F f.cfg with
  | error e => rfl
  | ok p =>
    obtain ⟨rows0, cols, g1⟩ := p
    simp only []
    have e2 : (f.chg c s b).remaining = f.remaining := rfl
    rw [e2]
    cases hsp : spent f.remaining with
    | true => rfl
    | false =>
      have e3 : (if (f.chg c s b).cfg.boosting = true then (f.chg c s b).newRef else (f.chg c s b).orgRef) =
        (if f.cfg.boosting = true then f.newRef else f.orgRef) := rfl
      rw [e3]
      cases (if f.cfg.boosting = true then f.newRef else f.orgRef) with
      | none => rfl
      | some ref =>
        simp only [if_neg (show ¬ (false = true) by simp)]
        have e4 : bootstrapIdcs R g1 data.length (f.chg c s b).cfg rows0 = bootstrapIdcs R g1 data.length f.cfg rows0 := rfl
        rw [e4]
        cases bootstrapIdcs R g1 data.length f.cfg rows0 with
        | error e => rfl
        | ok p =>
          obtain ⟨rows, g2⟩ := p
          simp only []
          have e5 : Tree.init R (f.chg c s b).treeCfg data (w.arrays.getD ref []) (f.chg c s b).discrete f.remaining
              (R.randint w.glob.np maxSeed).1 (some rows) (some cols) =
            Tree.init R f.treeCfg data (w.arrays.getD ref []) f.discrete f.remaining (R.randint w.glob.np maxSeed).1 (some rows) (some cols) := rfl
          rw [e5]
          cases Tree.init R f.treeCfg data (w.arrays.getD ref []) f.discrete f.remaining (R.randint w.glob.np maxSeed).1 (some rows)
              (some cols) with
          | error e => rfl
          | ok p =>
            obtain ⟨tree0, glob0⟩ := p
            simp only []
            cases Tree.fit R (mem i) tree0 glob0 none none with
            | error e => rfl
            | ok p =>
              obtain ⟨tree, glob1⟩ := p
              simp only []
              cases keepTree f.remaining tree.numQueries with
              | false => rfl
              | true =>
                simp only [if_true]
                have e6 : boostStep (f.chg c s b) data tree i rows { w with glob := glob1 } =
                  boostStep f data tree i rows { w with glob := glob1 } := rfl
                rw [e6]
                cases boostStep f data tree i rows { w with glob := glob1 } with
                | error e => rfl
                | ok p => rfl

theorem forestLoop_chg (c : Criterion) (s : Splitter) (b : Option Int) (data : List (List K)) (F : Nat) (is : List Nat) (f : Forest K G)
    (w : World K G) :
    forestLoop R mem data F is (f.chg c s b) w = (forestLoop R mem data F is f w).map (fun r => (r.1.chg c s b, r.2)) := by
  induction is generalizing f w with
  | nil => rfl
  | cons i is ih =>
    unfold forestLoop
    rw [forestStep_chg]
    cases hs : forestStep R mem data F i f w with
    | error e => rfl
    | ok p =>
      obtain ⟨go, f1, w1⟩ := p
      cases go with
      | false => rfl
      | true =>
        simp only [Except.map]
        have e : (f1.chg c s b).remaining = f1.remaining := rfl
        rw [e, ih]
        rcases Option.eq_none_or_eq_some f1.remaining with h | ⟨r, h⟩
        · rw [h]; rfl
        · rw [h]
          simp only []
          by_cases hr : decide (-buffer < r) = true
          · rw [if_pos hr, if_pos hr]; rfl
          · rw [if_neg hr, if_neg hr]

/-- What `fit` does with the data and labels it has settled on. -/
def fitFrom (R : Rng K G) (mem : Nat → Nat → Junk K) (f : Forest K G) (w : World K G) : Except Err (Forest K G × World K G) :=
  match f.data with
  | none => .error .typeError
  | some [] => .error .indexError
  | some (row :: rows) =>
    match fitTargets f w with
    | .error e => .error e
    | .ok (f, w) =>
      match maybeDiscrete f.cfg.makeDiscrete (row :: rows) f.discrete with
      | .error e => .error e
      | .ok dd =>
        let f := { f with discrete := dd }
        let f := if f.cfg.precompMinmax then { f with minmax := some (colMinMax (row :: rows) row.length) } else f
        let f := if f.cfg.oobScore then { f with oobList := some [] } else f
        forestLoop R mem (row :: rows) row.length (List.range f.cfg.nEstimators) { f with trees := [] } w

theorem Forest_fit_none (f : Forest K G) (w : World K G) : Forest.fit R mem f w none none = fitFrom R mem f w := rfl

theorem Forest_fit_some (f : Forest K G) (w : World K G) (d : List (List K)) (l : Nat) :
    Forest.fit R mem f w (some d) (some l) = fitFrom R mem { f with data := some d, orgRef := some l, newRef := some l } w := rfl

theorem fitFrom_chg (c : Criterion) (s : Splitter) (b : Option Int) (f1 : Forest K G) (w : World K G) :
    fitFrom R mem (f1.chg c s b) w = (fitFrom R mem f1 w).map (fun r => (r.1.chg c s b, r.2)) := by
  unfold fitFrom
  have e1 : (f1.chg c s b).data = f1.data := rfl
  rw [e1]
  cases f1.data with
  | none => rfl
  | some d =>
    cases d with
    | nil => rfl
    | cons row rows =>
      simp only []
      have e2 : fitTargets (f1.chg c s b) w = (fitTargets f1 w).map (fun r => (r.1.chg c s b, r.2)) := by
        unfold fitTargets
        have e3 : (f1.chg c s b).cfg.isCls = f1.cfg.isCls := rfl
        have e4 : (f1.chg c s b).orgRef = f1.orgRef := rfl
        have e5 : (f1.chg c s b).newRef = f1.newRef := rfl
        rw [e3, e4, e5]
        cases f1.cfg.isCls with
        | false => rfl
        | true =>
          simp only [if_true]
          cases f1.orgRef <;> cases f1.newRef <;> rfl
      rw [e2]
      cases fitTargets f1 w with
      | error e => rfl
      | ok p =>
        obtain ⟨f2, w2⟩ := p
        simp only [Except.map]
        have e6 : maybeDiscrete (f2.chg c s b).cfg.makeDiscrete (row :: rows) (f2.chg c s b).discrete =
          maybeDiscrete f2.cfg.makeDiscrete (row :: rows) f2.discrete := rfl
        rw [e6]
        cases maybeDiscrete f2.cfg.makeDiscrete (row :: rows) f2.discrete with
        | error e => rfl
        | ok dd =>
          simp only []
          have e7 := forestLoop_chg R mem c s b (row :: rows) row.length
          have hp' : (f2.chg c s b).cfg.precompMinmax = f2.cfg.precompMinmax := rfl
          have ho' : (f2.chg c s b).cfg.oobScore = f2.cfg.oobScore := rfl
          cases hp : f2.cfg.precompMinmax <;> cases ho : f2.cfg.oobScore <;>
            simp only [hp', ho', hp, ho, if_true, if_false, Bool.false_eq_true]
          · exact e7 (List.range f2.cfg.nEstimators) { f2 with discrete := dd, trees := [] } w2
          · exact e7 (List.range f2.cfg.nEstimators) { f2 with discrete := dd, trees := [], oobList := some [] } w2
          · exact e7 (List.range f2.cfg.nEstimators)
              { f2 with discrete := dd, trees := [], minmax := some (colMinMax (row :: rows) row.length) } w2
          · exact e7 (List.range f2.cfg.nEstimators)
              { f2 with discrete := dd, trees := [], minmax := some (colMinMax (row :: rows) row.length), oobList := some [] } w2

theorem Forest_fit_chg (c : Criterion) (s : Splitter) (b : Option Int) (f : Forest K G) (w : World K G)
    (data : Option (List (List K))) (labels : Option Nat) :
    Forest.fit R mem (f.chg c s b) w data labels = (Forest.fit R mem f w data labels).map (fun r => (r.1.chg c s b, r.2)) := by
  cases data with
  | none =>
    cases labels with
    | none => exact fitFrom_chg R mem c s b f w
    | some l => rfl
  | some d =>
    cases labels with
    | none => rfl
    | some l => exact fitFrom_chg R mem c s b { f with data := some d, orgRef := some l, newRef := some l } w

/-- C59 when the budget that is left is the one passed to `reset`: the next `fit` runs with it and counts from 0. -/
theorem C59_same_budget_partial (f f' : Forest K G) (b : Option Int) (hb : f.remaining = b) (w w' : World K G)
    (data : Option (List (List K))) (labels : Option Nat) (hf : Forest.fit R mem (f.reset b) w data labels = .ok (f', w')) :
    f'.numQueries = (f'.trees.map Tree.numQueries).sum ∧ f'.remaining = b.map (fun b => b - (f'.numQueries : Int)) ∧
    (b = none → f'.trees.length = f.cfg.nEstimators) := by
  obtain ⟨a1, a2, _, a4⟩ := Forest_fit_accounting hf
  have e1 : (f.reset b).numQueries = 0 := rfl
  have e2 : (f.reset b).remaining = f.remaining := rfl
  rw [e1, Nat.zero_add] at a1
  rw [e2, hb] at a2 a4
  exact ⟨a1, by rw [a1]; exact a2, a4⟩

/-- The budget passed to `reset` has no influence on the next `fit`: with any other value the same trees are grown. -/
theorem C59_budget_ignored (f : Forest K G) (b b' : Option Int) (w : World K G) (data : Option (List (List K)))
    (labels : Option Nat) :
    (Forest.fit R mem (f.reset b) w data labels).map (fun r => (r.1.trees, r.1.numQueries, r.1.remaining, r.2)) =
    (Forest.fit R mem (f.reset b') w data labels).map (fun r => (r.1.trees, r.1.numQueries, r.1.remaining, r.2)) := by
  have h : f.reset b = (f.reset b').chg f.cfg.criterion f.cfg.splitter b := rfl
  rw [h, Forest_fit_chg]
  cases Forest.fit R mem (f.reset b') w data labels <;> rfl

/-- C59 fails: after `reset(budget=1)` a forest without a budget grows two trees with 34 queries. -/
theorem C59_refuted :
    (do let (f, w) ← runForest rngQ exMems exWorld fcfgQ exData 0 none
        let (f', _) ← Forest.fit rngQ exMems (f.reset (some 1)) w (some exData) (some 0)
        pure (f'.trees.map Tree.numQueries, f'.remaining)).toOption = some ([12, 22], none) := by
  decide +kernel

/-- C60 for the default criterion: every tree of a fitted forest uses Gini (classification) or MSE (regression). -/
theorem C60_default_partial (f f' : Forest K G) (w w' : World K G) (data : Option (List (List K))) (labels : Option Nat)
    (hf : Forest.fit R mem f w data labels = .ok (f', w')) (t : Tree K G) (ht : t ∈ f'.trees) :
    t.cfg.criterion = if f.cfg.isCls then .gini else .mse := by
  obtain ⟨ms, _, _, h⟩ := Forest_fit_made hf
  obtain ⟨i, hi⟩ := List.mem_iff_getElem?.1 ht
  obtain ⟨m, _, hm, _⟩ := h i t hi
  obtain ⟨dd, t0, hfacts⟩ := hm.fitted.facts
  obtain ⟨ns, he⟩ := hm.after.same
  have e1 : t.cfg = m.tree.cfg := by rw [he]
  rw [e1, hfacts.cfg_eq, hm.cfg]
  unfold Forest.treeCfg
  simp only []
  rw [(Forest_fit_same hf).1]

/-- The parameters `criterion` and `splitter` of a forest have no influence: the same trees are grown with any other values. -/
theorem C60_ignored (f : Forest K G) (c : Criterion) (s : Splitter) (w : World K G) (data : Option (List (List K)))
    (labels : Option Nat) :
    (Forest.fit R mem { f with cfg := { f.cfg with criterion := c, splitter := s } } w data labels).map (fun r => (r.1.trees, r.2)) =
    (Forest.fit R mem f w data labels).map (fun r => (r.1.trees, r.2)) := by
  have h : { f with cfg := { f.cfg with criterion := c, splitter := s } } = f.chg c s f.budgetAttr := rfl
  rw [h, Forest_fit_chg]
  cases Forest.fit R mem f w data labels <;> rfl

/-- C60 fails: a forest constructed with `criterion=ENTROPY` has trees with the criterion GINI. -/
theorem C60_refuted :
    (runForest rngQ exMems exWorld { fcfgQ with criterion := .entropy } exData 0 none).toOption.map
      (fun r => r.1.trees.map (fun t => decide (t.cfg.criterion = .gini))) = some [true, true] := by
  decide +kernel

/-! ### C61 -/

/-- C61, construction followed by `fit`: what was drawn in the process before does not matter. (`mem` stands for uninitialised memory,
which MABSplit may read: C23.) -/
theorem C61_fresh_partial (cfg : ForestCfg K) (classes : Option (ClassDict K)) (data0 data : Option (List (List K)))
    (labels0 labels : Option Nat) (budget : Option Int) (w w2 : World K G) (h : w.arrays = w2.arrays) :
    (do let (f, w1) ← Forest.init R w cfg classes data0 labels0 budget
        Forest.fit R mem f w1 data labels) =
    (do let (f, w1) ← Forest.init R w2 cfg classes data0 labels0 budget
        Forest.fit R mem f w1 data labels) := by
  have e : Forest.init R w cfg classes data0 labels0 budget = Forest.init R w2 cfg classes data0 labels0 budget := by
    unfold Forest.init
    rw [h]
  rw [e]

/-- C61 fails if other work is done between construction and `fit`: one more number drawn from the global generator in between, and the
first tree splits on another feature. -/
theorem C61_refuted :
    let cfg : ForestCfg ℚ := { fcfgQ with featSub := .int 1, bootstrap := false }
    (do let (f, w) ← Forest.init rngQ exWorld cfg none (some exData) (some 0) none
        let (f', _) ← Forest.fit rngQ exMems f w none none
        pure (f'.trees.map (fun (t : Tree ℚ Nat) => t.nodes.map Node.splitFeature))).toOption =
      some [[some 0, none, some 0, none, some 0, none, none], [some 1, none, some 1, some 1, none, none, none]] ∧
    (do let (f, w) ← Forest.init rngQ exWorld cfg none (some exData) (some 0) none
        let (f', _) ← Forest.fit rngQ exMems f { w with glob := { w.glob with np := (rngQ.randint w.glob.np 10).2 } } none none
        pure (f'.trees.map (fun (t : Tree ℚ Nat) => t.nodes.map Node.splitFeature))).toOption =
      some [[some 1, none, some 1, some 1, none, none, none], [some 0, none, some 0, none, some 0, none, none]] := by
  decide +kernel

/-! ### C62 -/

/-- C62. In a fitted forest every tree comes from fitting a tree to the training data, on rows and columns of the advertised number, all
of them in range and (but for the bootstrap) distinct. -/
theorem C62_samples (f f' : Forest K G) (w w' : World K G) (data : Option (List (List K))) (labels : Option Nat)
    (hN : f.cfg.alphaN ≤ 1) (hF : f.cfg.alphaF ≤ 1) (hf : Forest.fit R mem f w data labels = .ok (f', w')) (i : Nat) (t : Tree K G)
    (ht : f'.trees[i]? = some t) :
    ∃ A t0, Fitted R (mem i) A t0 ∧ AfterPredicts t0 t ∧ A.data = trainData f data ∧ rowsOf t 0 = A.rows ∧
      RowsDrawn f.cfg (trainData f data).length A.rows ∧
      SubsetDrawn ((trainData f data).getD 0 []).length f.cfg.alphaF A.cols ∧
      ∀ nd ∈ t.nodes, ∀ j ∈ nd.featIdcs, j ∈ A.cols := by
  obtain ⟨ms, _, _, h⟩ := Forest_fit_made hf
  obtain ⟨m, _, hm, _⟩ := h i t ht
  obtain ⟨rows0, rows, cols, g, g1, g2, d1, d2, d3, d4⟩ := hm.draw
  rw [(Forest_fit_same hf).1] at d1 d2
  obtain ⟨s1, s2⟩ := subsets_ok hN hF d1
  have hrows : m.args.rows = rows := by unfold TreeArgs.rows; rw [d3]; rfl
  have hcols : m.args.cols = cols := by unfold TreeArgs.cols; rw [d4]; rfl
  obtain ⟨dd, t0, hfacts⟩ := hm.fitted.facts
  have hcache := hm.after.cache hfacts.cache
  refine ⟨m.args, m.tree, hm.fitted, hm.after, hm.data_eq, ?_, hrows ▸ bootstrapIdcs_ok s1 d2, hcols ▸ s2, ?_⟩
  · obtain ⟨nd, h1, h2, _⟩ := hfacts.shape.root
    unfold rowsOf
    cases hn : t.nodes[0]? with
    | none =>
      rw [List.getElem?_eq_none_iff, hcache.len, ← List.getElem?_eq_none_iff] at hn
      rw [show m.tree.nodes[0]? = some nd from h1] at hn
      cases hn
    | some nd' =>
      have := (hcache.nodes 0 nd nd' h1 hn).eq
      rw [this]
      exact h2
  · intro nd' hnd j hj
    obtain ⟨id, hid⟩ := List.mem_iff_getElem?.1 hnd
    cases hn : m.tree.nodes[id]? with
    | none =>
      rw [List.getElem?_eq_none_iff, ← hcache.len, ← List.getElem?_eq_none_iff] at hn
      rw [hid] at hn
      cases hn
    | some nd =>
      have := (hcache.nodes id nd nd' hn hid).eq
      rw [this] at hj
      exact (hfacts.nodes id nd hn).feats_sub j hj

/-- Five of six rows and one of two columns for each tree; with the bootstrap, six draws from five rows. -/
example :
    (runForest rngQ exMems exWorld { fcfgQ with alphaN := 5 / 6, alphaF := 1 / 2, bootstrap := false } exData 0 none).toOption.map
      (fun r => r.1.trees.map (fun (t : Tree ℚ Nat) => (rowsOf t 0, t.featIdcs))) =
        some [([3, 4, 5, 0, 1], [1]), ([5, 0, 1, 2, 3], [1])] ∧
    (runForest rngQ exMems exWorld { fcfgQ with alphaN := 5 / 6, randomState := 5 } exData 0 none).toOption.map
      (fun r => r.1.trees.map (fun (t : Tree ℚ Nat) => (rowsOf t 0, t.featIdcs))) =
        some [([2, 3, 1, 1, 3, 2], [1, 0]), ([3, 4, 1, 1, 4, 3], [1, 0])] := by
  decide +kernel

/-- Four of the six rows and one of the two columns for each tree; with the bootstrap six rows drawn from a subset of four. -/
example :
    (runForest rngQ exMems exWorld { fcfgQ with bootstrap := false, alphaN := 3 / 4, alphaF := 1 / 2 } exData 0 none).toOption.map
      (fun r => r.1.trees.map (fun (t : Tree ℚ Nat) => (rowsOf t 0, (t.nodes.map (fun n => n.featIdcs)).head?))) =
      some [([3, 4, 5, 0], some [0]), ([4, 5, 0, 1], some [1])] ∧
    (runForest rngQ exMems exWorld { fcfgQ with alphaN := 3 / 4, alphaF := 1 / 2 } exData 0 none).toOption.map
      (fun r => r.1.trees.map (fun (t : Tree ℚ Nat) => (rowsOf t 0, (t.nodes.map (fun n => n.featIdcs)).head?))) =
      some [([5, 0, 5, 0, 5, 0], some [0]), ([5, 0, 5, 0, 5, 0], some [0])] := by
  decide +kernel

end FF
