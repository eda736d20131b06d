import Verif.Proofs.Prefix
import Verif.Props.Limits
import Verif.Props.Recode

/-!
# Raising the leaf limit (C103)
-/

namespace FF

set_option linter.unusedSectionVars false

open Spec

variable {K : Type} [Field K] [LinearOrder K] [IsStrictOrderedRing K] [FloorRing K] [NpFun K] {G : Type}

/-! ### C103 -/

/-- The same arguments with another leaf limit. -/
def TreeArgs.limited (m : Option Nat) (A : TreeArgs K) : TreeArgs K := { A with cfg := { A.cfg with maxLeafNodes := m } }

section
variable {R : Rng K G} {mem : Nat → Junk K} {A : TreeArgs K}

theorem Constructed.limited {t0 : Tree K G} (h : Constructed R A t0) (m : Option Nat) : Constructed R (A.limited m) (t0.limited m) := by
  obtain ⟨glob, h⟩ := h
  refine ⟨glob, ?_⟩
  unfold Tree.init at h ⊢
  by_cases hl : A.data.length ≠ A.labels.length
  · rw [if_pos hl] at h; cases h
  · rw [if_neg hl] at h
    have hl' : ¬ (A.limited m).data.length ≠ (A.limited m).labels.length := hl
    rw [if_neg hl']
    simp only [TreeArgs.limited] at h ⊢
    cases hd : defaultFeats A.data A.feats with
    | error e => rw [hd] at h; cases h
    | ok feats =>
      rw [hd] at h
      simp only [] at h ⊢
      split at h
      · cases h
      · rename_i root g hn
        split
        · rename_i er hn'
          have := hn.symm.trans hn'
          cases this
        · rename_i root' g' hn'
          have := hn.symm.trans hn'
          simp only [Except.ok.injEq, Prod.mk.injEq] at h this ⊢
          obtain ⟨rfl, rfl⟩ := this
          obtain ⟨rfl, rfl⟩ := h
          exact ⟨rfl, rfl⟩

theorem Constructed.unique {t0 t0' : Tree K G} (h : Constructed R A t0) (h' : Constructed R A t0') : t0' = t0 := by
  obtain ⟨g, h⟩ := h
  obtain ⟨g', h'⟩ := h'
  rw [h] at h'
  simp only [Except.ok.injEq, Prod.mk.injEq] at h'
  exact h'.1.symm

theorem fit_loop {t0 t : Tree K G} {glob glob' : Glob G} (h : Tree.fit R mem t0 glob none none = .ok (t, glob')) :
    ∃ dd n, maybeDiscrete t0.cfg.makeDiscrete t0.data t0.discrete = .ok dd ∧
      fitLoop R mem n { t0 with discrete := dd, leaves := t0.leaves ++ [0] } glob = .ok (t, glob') := by
  unfold Tree.fit bothOrNeither at h
  simp only [] at h
  cases hd : maybeDiscrete t0.cfg.makeDiscrete t0.data t0.discrete with
  | error e => rw [hd] at h; cases h
  | ok dd =>
    rw [hd] at h
    simp only [] at h
    cases hs : t0.cfg.splitter with
    | best => rw [hs] at h; exact ⟨dd, _, rfl, h⟩
    | depth => rw [hs] at h; cases h
    | other => rw [hs] at h; cases h

theorem fitLoop_fitRuns : ∀ (n : Nat) {t : Tree K G} {glob : Glob G} {p : Tree K G × Glob G}, fitLoop R mem n t glob = .ok p →
    ∃ k, FitRuns R mem t glob k (.ok p)
  | 0, _, _, _, h => by cases h
  | n + 1, t, glob, p, h => by
    unfold fitLoop at h
    cases hs : fitStep R mem t glob with
    | error e => rw [hs] at h; cases h
    | ok q =>
      obtain ⟨b, t1, gl1⟩ := q
      rw [hs] at h
      cases b with
      | false => cases h; exact ⟨0, .stop hs⟩
      | true =>
        obtain ⟨k, hk⟩ := fitLoop_fitRuns n h
        exact ⟨k + 1, .again hs hk⟩

theorem Routes.kept {t t' : Tree K G} (hk : TreeKept t t') (hc : ∀ id nd, NodeAt t id nd → (nd.left ≠ none ∨ nd.right ≠ none) → nd.computed = true) {x : List K}
    {id leaf leaf' : Nat} (h : Routes t x id leaf) (h' : Routes t' x id leaf') : Routes t' x leaf leaf' := by
  induction h with
  | stop => exact h'
  | @left id l leaf f v nd hn hl hf hx hv h ih =>
    obtain ⟨nd', e1, e2⟩ := hk _ _ hn
    obtain ⟨_, _, c1, c2, _⟩ := e2.found (hc _ _ hn (Or.inl (by rw [hl]; simp)))
    have c3 := e2.left (by rw [hl]; simp)
    cases h' with
    | stop hn' hl' hr' =>
      obtain rfl := Option.some.inj (e1.symm.trans hn')
      rw [c3, hl] at hl'; cases hl'
    | left hn' hl' hf' hx' hv' h' =>
      obtain rfl := Option.some.inj (e1.symm.trans hn')
      rw [c3, hl] at hl'; cases hl'
      exact ih h'
    | right hn' hr' hf' hx' hv' h' =>
      obtain rfl := Option.some.inj (e1.symm.trans hn')
      rw [c1, hf] at hf'; cases hf'
      rw [hx] at hx'; cases hx'
      rw [c2] at hv'
      exact absurd hv (not_le.2 hv')
  | @right id r leaf f v nd hn hr hf hx hv h ih =>
    obtain ⟨nd', e1, e2⟩ := hk _ _ hn
    cases h' with
    | stop hn' hl' hr' =>
      obtain rfl := Option.some.inj (e1.symm.trans hn')
      rw [e2.right (by rw [hr]; simp), hr] at hr'; cases hr'
    | left hn' hl' hf' hx' hv' h' =>
      obtain rfl := Option.some.inj (e1.symm.trans hn')
      obtain ⟨_, _, c1, c2, _⟩ := e2.found (hc _ _ hn (Or.inr (by rw [hr]; simp)))
      rw [c1, hf] at hf'; cases hf'
      rw [hx] at hx'; cases hx'
      rw [c2] at hv'
      exact absurd hv (not_lt.2 hv')
    | right hn' hr' hf' hx' hv' h' =>
      obtain rfl := Option.some.inj (e1.symm.trans hn')
      rw [e2.right (by rw [hr]; simp), hr] at hr'; cases hr'
      exact ih h'
end

/-- C103. Two fits with the same seed and the same process-wide generators, the second with a weaker leaf limit (or none). Every node of
the first tree is in the second, with the same rows, depth, split found and children; so every point comes, in the second tree, to the
leaf where it ends in the first, and perhaps goes on from there; the second fit asks at least as many queries. If the first tree has
fewer leaves than its limit, the two trees are the same. -/
theorem C103_leaf_limit (R : Rng K G) (mem : Nat → Junk K) (A : TreeArgs K) (m : Option Nat) (hm : LimitLe A.cfg.maxLeafNodes m)
    (glob : Glob G) (t t' : Tree K G) (h : runTree R mem A glob = .ok t) (h' : runTree R mem (A.limited m) glob = .ok t') :
    TreeKept t t' ∧ (∀ x leaf leaf', Routes t x 0 leaf → Routes t' x 0 leaf' → Routes t' x leaf leaf') ∧
    t.numQueries ≤ t'.numQueries ∧ (A.cfg.maxLeafNodes ≠ some t.leaves.length → t' = t.limited m) := by
  have hfit := runTree_fitted h
  have hfit' := runTree_fitted h'
  obtain ⟨t0, gl, hc, hf⟩ := runTree_parts h
  obtain ⟨t0', gl', hc', hf'⟩ := runTree_parts h'
  obtain rfl := (hc.limited m).unique hc'
  obtain ⟨dd, n, hd, hl⟩ := fit_loop hf
  obtain ⟨dd', n', hd', hl'⟩ := fit_loop hf'
  obtain rfl : dd' = dd := by
    have : maybeDiscrete (t0.limited m).cfg.makeDiscrete (t0.limited m).data (t0.limited m).discrete =
      maybeDiscrete t0.cfg.makeDiscrete t0.data t0.discrete := rfl
    rw [this, hd] at hd'
    exact (Except.ok.inj hd').symm
  have hcfg : t0.cfg.maxLeafNodes = A.cfg.maxLeafNodes := by
    obtain ⟨_, _, f⟩ := hfit.facts
    have := (hc.limited A.cfg.maxLeafNodes).unique hc
    rw [this]; rfl
  have e0 : ({ t0 with discrete := dd', leaves := t0.leaves ++ [0] } : Tree K G) =
      Tree.limited A.cfg.maxLeafNodes { t0 with discrete := dd', leaves := t0.leaves ++ [0] } := by
    rw [← hcfg]; rfl
  rw [e0] at hl
  obtain ⟨da, sa, fa⟩ := hfit.facts
  obtain ⟨db, sb, fb⟩ := hfit'.facts
  have hkept : TreeKept t t' := by
    rcases fitLoop_limited hm n n' hl hl' with ⟨u, rfl, rfl, _⟩ | ⟨_, u, rfl, hh, k, hk⟩
    · exact fun id nd hn => ⟨nd, hn, .refl nd⟩
    · obtain ⟨k', hr⟩ := fitLoop_fitRuns k hk
      exact C87_final R mem (A.limited m) (u.limited m) t' gl gl' k' ⟨_, glob, dd', hc', hd', hh⟩ hr
  refine ⟨hkept, ?_, ?_, ?_⟩
  · intro x leaf leaf' hr hr'
    refine hr.kept hkept ?_ hr'
    intro id nd hn hlr
    refine ((fa.nodes _ _ hn).split ?_).1
    intro hno
    rcases hlr with e | e
    · exact e hno
    · exact e ((fa.nodes _ _ hn).right_none hno).1
  · rw [fb.steps.queries fb.start, fa.steps.queries fa.start, newQueries_sum _ _ hkept]
    · exact Nat.le_add_right _ _
    · intro nd hmem hcomp
      obtain ⟨i, hi⟩ := List.mem_iff_getElem?.1 hmem
      exact ((fa.nodes _ _ hi).fresh hcomp).2.2.1
  · intro hne
    rcases fitLoop_limited hm n n' hl hl' with ⟨u, rfl, rfl, _⟩ | ⟨e, _⟩
    · rfl
    · exact absurd e hne

/-- Two leaves, then no limit: the first tree is the beginning of the second. -/
example : LimitLe (some 2) none := fun _ h => by cases h

example : (do
    let t ← runTree rngQ exMem (exArgs.limited (some 2)) exGlob
    let t' ← runTree rngQ exMem ((exArgs.limited (some 2)).limited none) exGlob
    .ok (t.nodes.map Node.idcs, t'.nodes.map Node.idcs) : Except Err _) =
    .ok ([[0, 1, 2, 3, 4, 5], [0, 1], [2, 3, 4, 5]], [[0, 1, 2, 3, 4, 5], [0, 1], [2, 3, 4, 5], [2, 3], [4, 5], [4], [5]]) := by
  decide +kernel

/-- The same with MABSplit and a budget. -/
example : (do
    let t ← runTree rngQ exMem (exArgsMab.limited (some 2)) exGlob
    let t' ← runTree rngQ exMem ((exArgsMab.limited (some 2)).limited (some 3)) exGlob
    .ok (t.nodes.map Node.idcs, t'.nodes.map Node.idcs, t.numQueries, t'.numQueries) : Except Err _) =
    .ok ([[0, 1, 2, 3, 4, 5], [0, 1, 4, 5], [2, 3]], [[0, 1, 2, 3, 4, 5], [0, 1, 4, 5], [2, 3], [0, 1], [4, 5]], 12, 20) := by
  decide +kernel

/-! ### C104 -/

/-- The same forest with another number of trees asked for. -/
def Forest.sized (n : Nat) (f : Forest K G) : Forest K G := { f with cfg := { f.cfg with nEstimators := n } }

section
variable {R : Rng K G} {mem : Nat → Nat → Junk K}

theorem boostStep_sized (n : Nat) (f : Forest K G) (data : List (List K)) (tree : Tree K G) (i : Nat) (rows : List Nat) (w : World K G) :
    boostStep (f.sized n) data tree i rows w = boostStep f data tree i rows w := rfl

theorem forestStep_sized (n : Nat) (data : List (List K)) (F i : Nat) (f : Forest K G) (w : World K G) :
    forestStep R mem data F i (f.sized n) w = (forestStep R mem data F i f w).map (fun p => (p.1, p.2.1.sized n, p.2.2)) := by
  have e1 : ∀ (g : G) (N : Nat), subsets R g N F (f.sized n).cfg = subsets R g N F f.cfg := fun _ _ => rfl
  have e2 : ∀ (g : G) (N : Nat) (l : List Nat), bootstrapIdcs R g N (f.sized n).cfg l = bootstrapIdcs R g N f.cfg l := fun _ _ _ => rfl
  have e3 : (f.sized n).treeCfg = f.treeCfg := rfl
  have e4 : (f.sized n).rng = f.rng := rfl
  have e5 : (f.sized n).remaining = f.remaining := rfl
  have e6 : (f.sized n).newRef = f.newRef := rfl
  have e7 : (f.sized n).orgRef = f.orgRef := rfl
  have e8 : (f.sized n).discrete = f.discrete := rfl
  have e9 : (f.sized n).cfg.boosting = f.cfg.boosting := rfl
  unfold forestStep
  simp only [e1, e2, e3, e4, e5, e6, e7, e8, e9, boostStep_sized]
  cases subsets R f.rng data.length F f.cfg with
  | error e => rfl
  | ok p =>
    obtain ⟨rows, feats, g1⟩ := p
    simp only []
    cases spent f.remaining with
    | true => rfl
    | false =>
      simp only [Bool.false_eq_true, if_false]
      cases (if f.cfg.boosting = true then f.newRef else f.orgRef) with
      | none => rfl
      | some ref =>
        simp only []
        cases bootstrapIdcs R g1 data.length f.cfg rows with
        | error e => rfl
        | ok q =>
          obtain ⟨rows, g2⟩ := q
          simp only []
          cases Tree.init R f.treeCfg data (w.arrays.getD ref []) f.discrete f.remaining (R.randint w.glob.np maxSeed).1 (some rows)
            (some feats) with
          | error e => rfl
          | ok q2 =>
            obtain ⟨tree0, glob0⟩ := q2
            simp only []
            cases Tree.fit R (mem i) tree0 glob0 none none with
            | error e => rfl
            | ok q3 =>
              obtain ⟨tree, glob1⟩ := q3
              simp only []
              cases keepTree f.remaining tree.numQueries with
              | false => rfl
              | true =>
                simp only [if_true]
                cases boostStep f data tree i rows { w with glob := glob1 } with
                | error e => rfl
                | ok q4 => rfl

theorem forestLoop_sized (n : Nat) (data : List (List K)) (F : Nat) (is : List Nat) : ∀ (f : Forest K G) (w : World K G),
    forestLoop R mem data F is (f.sized n) w = (forestLoop R mem data F is f w).map (fun p => (p.1.sized n, p.2)) := by
  induction is with
  | nil => intro f w; rfl
  | cons i is ih =>
    intro f w
    unfold forestLoop
    rw [forestStep_sized]
    cases forestStep R mem data F i f w with
    | error e => rfl
    | ok p =>
      obtain ⟨b, f', w'⟩ := p
      cases b with
      | false => rfl
      | true =>
        simp only [Except.map]
        have e : (f'.sized n).remaining = f'.remaining := rfl
        rw [e]
        split_ifs
        · exact ih f' w'
        · rfl

/-- What one pass of the loop over the trees adds. -/
theorem forestStep_adds {data : List (List K)} {F i : Nat} {f f' : Forest K G} {w w' : World K G} {b : Bool}
    (h : forestStep R mem data F i f w = .ok (b, f', w')) :
    (b = true → ∃ t : Tree K G, f'.trees = f.trees ++ [t]) ∧ (b = false → f'.trees = f.trees) ∧
      (f'.oobList = f.oobList ∨ ∃ o, f'.oobList = f.oobList.map (fun l => l ++ [o])) := by
  unfold forestStep at h
  simp only [] at h
  split at h
  · cases h
  · split_ifs at h
    · cases h; exact ⟨by simp, fun _ => rfl, Or.inl rfl⟩
    all_goals
      split at h
      · cases h
      · split at h
        · cases h
        · split at h
          · cases h
          · split at h
            · cases h
            · split_ifs at h
              · split at h
                · cases h
                · cases h
                  refine ⟨fun _ => ⟨_, rfl⟩, by simp, ?_⟩
                  first
                    | exact Or.inr ⟨_, rfl⟩
                    | exact Or.inl rfl
              · cases h
                refine ⟨by simp, fun _ => rfl, ?_⟩
                first
                  | exact Or.inr ⟨_, rfl⟩
                  | exact Or.inl rfl

theorem oob_prefix {a b : Option (List (List Nat))} (h : b = a ∨ ∃ o, b = a.map (fun l => l ++ [o])) : ∀ l, a = some l → ∃ l', b = some l' ∧ l <+: l' := by
  rintro l rfl
  rcases h with rfl | ⟨o, rfl⟩
  · exact ⟨l, rfl, List.prefix_refl l⟩
  · exact ⟨l ++ [o], rfl, List.prefix_append l [o]⟩

theorem forestLoop_adds (data : List (List K)) (F : Nat) (is : List Nat) : ∀ {f f' : Forest K G} {w w' : World K G},
    forestLoop R mem data F is f w = .ok (f', w') → f.trees <+: f'.trees ∧ ∀ l, f.oobList = some l → ∃ l', f'.oobList = some l' ∧ l <+: l' := by
  induction is with
  | nil => intro f f' w w' h; cases h; exact ⟨List.prefix_refl _, fun l h => ⟨l, h, List.prefix_refl _⟩⟩
  | cons i is ih =>
    intro f f' w w' h
    unfold forestLoop at h
    cases hs : forestStep R mem data F i f w with
    | error e => rw [hs] at h; cases h
    | ok p =>
      obtain ⟨b, f1, w1⟩ := p
      rw [hs] at h
      obtain ⟨a1, a2, a3⟩ := forestStep_adds hs
      cases b with
      | false =>
        simp only [Except.ok.injEq, Prod.mk.injEq] at h
        obtain ⟨rfl, rfl⟩ := h
        exact ⟨by rw [a2 rfl], oob_prefix a3⟩
      | true =>
        simp only [] at h
        obtain ⟨t, ht⟩ := a1 rfl
        split_ifs at h
        obtain ⟨b1, b2⟩ := ih h
        refine ⟨(List.prefix_append _ _).trans (ht ▸ b1), ?_⟩
        intro l hl
        obtain ⟨l1, c1, c2⟩ := oob_prefix a3 l hl
        obtain ⟨l2, c3, c4⟩ := b2 l1 c1
        exact ⟨l2, c3, c2.trans c4⟩

theorem forestLoop_append (data : List (List K)) (F : Nat) (is js : List Nat) : ∀ {f f1 f2 : Forest K G} {w w1 w2 : World K G},
    forestLoop R mem data F is f w = .ok (f1, w1) → forestLoop R mem data F (is ++ js) f w = .ok (f2, w2) →
    f1.trees <+: f2.trees ∧ (∀ l, f1.oobList = some l → ∃ l', f2.oobList = some l' ∧ l <+: l') ∧
      (f1.trees.length < f.trees.length + is.length → f2 = f1 ∧ w2 = w1) := by
  induction is with
  | nil =>
    intro f f1 f2 w w1 w2 h h'
    cases h
    obtain ⟨a, b⟩ := forestLoop_adds data F _ h'
    exact ⟨a, b, fun h => by simp at h⟩
  | cons i is ih =>
    intro f f1 f2 w w1 w2 h h'
    rw [List.cons_append] at h'
    unfold forestLoop at h h'
    cases hs : forestStep R mem data F i f w with
    | error e => rw [hs] at h; cases h
    | ok p =>
      obtain ⟨b, f3, w3⟩ := p
      rw [hs] at h h'
      obtain ⟨a1, a2, a3⟩ := forestStep_adds hs
      cases b with
      | false =>
        simp only [Except.ok.injEq, Prod.mk.injEq] at h h'
        obtain ⟨rfl, rfl⟩ := h
        obtain ⟨rfl, rfl⟩ := h'
        exact ⟨List.prefix_refl _, fun l h => ⟨l, h, List.prefix_refl _⟩, fun _ => ⟨rfl, rfl⟩⟩
      | true =>
        simp only [] at h h'
        obtain ⟨t, ht⟩ := a1 rfl
        split_ifs at h h'
        obtain ⟨b1, b2, b3⟩ := ih h h'
        refine ⟨b1, b2, fun hlt => b3 ?_⟩
        rw [ht, List.length_append]
        simp only [List.length_cons, List.length_nil] at hlt ⊢
        omega

/-- `fit` without arguments: some preparation that has nothing to do with the number of trees, then the loop. -/
theorem forestFit_start (f : Forest K G) (w : World K G) : ∃ s : Except Err (List (List K) × Nat × Forest K G × World K G),
    (∀ p, s = .ok p → p.2.2.1.trees = []) ∧
    ∀ n, Forest.fit R mem (f.sized n) w none none =
      s.bind (fun p => forestLoop R mem p.1 p.2.1 (List.range n) (p.2.2.1.sized n) p.2.2.2) := by
  cases hd : f.data with
  | none =>
    refine ⟨.error .typeError, by simp, fun n => ?_⟩
    have e : (f.sized n).data = none := hd
    simp only [Forest.fit, bothOrNeither, e]
    rfl
  | some d =>
    cases d with
    | nil =>
      refine ⟨.error .indexError, by simp, fun n => ?_⟩
      have e : (f.sized n).data = some [] := hd
      simp only [Forest.fit, bothOrNeither, e]
      rfl
    | cons row rows =>
      have e : ∀ n, (f.sized n).data = some (row :: rows) := fun _ => hd
      have e2 : ∀ n, fitTargets (f.sized n) w = (fitTargets f w).map (fun p => (p.1.sized n, p.2)) := by
        intro n
        unfold fitTargets
        have e3 : (f.sized n).cfg.isCls = f.cfg.isCls := rfl
        have e4 : (f.sized n).newRef = f.newRef := rfl
        have e5 : (f.sized n).orgRef = f.orgRef := rfl
        rw [e3, e4, e5]
        cases f.cfg.isCls with
        | false => rfl
        | true =>
          simp only [if_true]
          cases f.orgRef with
          | none => rfl
          | some a =>
            cases f.newRef with
            | none => rfl
            | some b => rfl
      cases hft : fitTargets f w with
      | error er =>
        refine ⟨.error er, by simp, fun n => ?_⟩
        have := e2 n
        rw [hft] at this
        simp only [Forest.fit, bothOrNeither, e, this]
        rfl
      | ok p =>
        obtain ⟨f1, w1⟩ := p
        cases hm : maybeDiscrete f1.cfg.makeDiscrete (row :: rows) f1.discrete with
        | error er =>
          refine ⟨.error er, by simp, fun n => ?_⟩
          have := e2 n
          rw [hft] at this
          have hm' : maybeDiscrete (f1.sized n).cfg.makeDiscrete (row :: rows) (f1.sized n).discrete = .error er := hm
          simp only [Forest.fit, bothOrNeither, e, this, Except.map, hm']
          rfl
        | ok dd =>
          refine ⟨.ok (row :: rows, row.length,
            (let f2 := { f1 with discrete := dd }
             let f2 := if f2.cfg.precompMinmax then { f2 with minmax := some (colMinMax (row :: rows) row.length) } else f2
             let f2 := if f2.cfg.oobScore then { f2 with oobList := some [] } else f2
             ({ f2 with trees := [] }, w1))), ?_, fun n => ?_⟩
          · intro p hp
            cases hp
            rfl
          · have := e2 n
            rw [hft] at this
            have hm' : maybeDiscrete (f1.sized n).cfg.makeDiscrete (row :: rows) (f1.sized n).discrete = .ok dd := hm
            simp only [Forest.fit, bothOrNeither, e, this, Except.map, hm', Except.bind]
            have a1 : (f1.sized n).cfg.precompMinmax = f1.cfg.precompMinmax := rfl
            rw [a1]
            cases f1.cfg.precompMinmax with
            | true =>
              simp only [if_true]
              have a2 : (f1.sized n).cfg.oobScore = f1.cfg.oobScore := rfl
              rw [a2]
              cases f1.cfg.oobScore <;> rfl
            | false =>
              simp only [Bool.false_eq_true, if_false]
              have a2 : (f1.sized n).cfg.oobScore = f1.cfg.oobScore := rfl
              rw [a2]
              cases f1.cfg.oobScore <;> rfl
end

/-- C104. Fit a forest twice with the same seed, the second time asking for more trees. The trees and out-of-bag lists of the first forest
are the first ones of the second forest. If the first forest has fewer trees than it was asked for (no budget left), nothing is added. -/
theorem C104_more_trees (R : Rng K G) (mem : Nat → Nat → Junk K) (w : World K G) (cfg : ForestCfg K) (n : Nat) (hn : cfg.nEstimators ≤ n)
    (data : List (List K)) (labels : Nat) (budget : Option Int) (f f' : Forest K G) (w1 w1' : World K G)
    (h : runForest R mem w cfg data labels budget = .ok (f, w1))
    (h' : runForest R mem w { cfg with nEstimators := n } data labels budget = .ok (f', w1')) :
    f.trees <+: f'.trees ∧ (∀ l, f.oobList = some l → ∃ l', f'.oobList = some l' ∧ l <+: l') ∧
      (f.trees.length < cfg.nEstimators → f' = f.sized n ∧ w1' = w1) := by
  unfold runForest at h h'
  have hi : Forest.init R w { cfg with nEstimators := n } none (some data) (some labels) budget =
      (Forest.init R w cfg none (some data) (some labels) budget).map (fun p => (p.1.sized n, p.2)) := by
    unfold Forest.init
    simp only []
    split_ifs <;> rfl
  cases h0 : Forest.init R w cfg none (some data) (some labels) budget with
  | error e => rw [h0] at h; cases h
  | ok p =>
    obtain ⟨f0, w0⟩ := p
    rw [h0] at h hi
    rw [hi] at h'
    simp only [Bind.bind, Except.bind, Except.map] at h h'
    have hc : f0 = f0.sized cfg.nEstimators := by
      have : f0.cfg.nEstimators = cfg.nEstimators := by
        unfold Forest.init at h0
        simp only [] at h0
        split_ifs at h0
        all_goals
          simp only [Except.ok.injEq, Prod.mk.injEq] at h0
          rw [← h0.1]
      rw [← this]; rfl
    obtain ⟨s, hs0, hs⟩ := forestFit_start (R := R) (mem := mem) f0 w0
    rw [hc, hs] at h
    rw [hs] at h'
    cases s with
    | error e => cases h
    | ok q =>
      obtain ⟨d, F, f1, w2⟩ := q
      simp only [Except.bind] at h h'
      have ht : f1.trees = [] := hs0 _ rfl
      rw [forestLoop_sized] at h h'
      cases ha : forestLoop R mem d F (List.range cfg.nEstimators) f1 w2 with
      | error e => rw [ha] at h; cases h
      | ok pa =>
        cases hb : forestLoop R mem d F (List.range n) f1 w2 with
        | error e => rw [hb] at h'; cases h'
        | ok pb =>
          rw [ha] at h
          rw [hb] at h'
          simp only [Except.map, Except.ok.injEq, Prod.mk.injEq] at h h'
          obtain ⟨rfl, rfl⟩ := h
          obtain ⟨rfl, rfl⟩ := h'
          obtain ⟨k, rfl⟩ := Nat.exists_eq_add_of_le hn
          rw [List.range_add] at hb
          obtain ⟨a1, a2, a3⟩ := forestLoop_append d F _ _ ha hb
          refine ⟨a1, a2, fun hlt => ?_⟩
          obtain ⟨b1, b2⟩ := a3 (by rw [ht, List.length_range, List.length_nil, Nat.zero_add]; exact hlt)
          rw [b1, b2]
          exact ⟨rfl, rfl⟩

/-- One tree, then three. -/
example : (do
    let (f, _) ← runForest rngQ exMems exWorld { fcfgQ with nEstimators := 1 } exData 0 none
    let (f', _) ← runForest rngQ exMems exWorld { fcfgQ with nEstimators := 3 } exData 0 none
    .ok (f.trees.map (fun (t : Tree ℚ Nat) => t.nodes.map Node.idcs), f'.trees.map (fun (t : Tree ℚ Nat) => t.nodes.map Node.idcs)) :
      Except Err _) =
    .ok ([[[3, 4, 1, 0, 1, 4], [0], [3, 4, 1, 1, 4], [3], [4, 1, 1, 4]]],
      [[[3, 4, 1, 0, 1, 4], [0], [3, 4, 1, 1, 4], [3], [4, 1, 1, 4]], [[4, 5, 2, 1, 2, 5], [4, 2, 1, 2], [5, 5]],
        [[5, 0, 3, 2, 3, 0], [5, 0, 3, 3, 0], [2]]]) := by
  decide +kernel

end FF
