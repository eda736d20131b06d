import Verif.Model.Interrupt
import Verif.Props.Prefix
import Verif.Props.Predict
import Verif.Proofs.ForestPredict
import Verif.Props.OneTree

/-!
# Interrupted fits (C129)
-/

namespace FF

open Spec

set_option linter.unusedSectionVars false

variable {K : Type} [Field K] [LinearOrder K] [IsStrictOrderedRing K] [FloorRing K] [NpFun K] {G : Type}

section
variable {R : Rng K G} {mem : Nat → Nat → Junk K} {data : List (List K)} {F : Nat}

/-- What the preparation does. -/
theorem Forest_prepareHeld {f f0 : Forest K G} {w w0 : World K G} {dat : List (List K)} (h : f.prepareHeld w = .ok (dat, f0, w0)) :
    f.data = some dat ∧ dat ≠ [] ∧ w.arrays <+: w0.arrays ∧ w0.glob = w.glob ∧ f0 = { f with
      orgRef := f0.orgRef
      newRef := f0.newRef
      discrete := f0.discrete
      minmax := f0.minmax
      oobList := f0.oobList
      trees := [] } ∧ (f.cfg.makeDiscrete = false → f0.discrete = f.discrete) ∧ (f.cfg.precompMinmax = false → f0.minmax = f.minmax) ∧
      (f.cfg.oobScore = false → f0.oobList = f.oobList) := by
  unfold Forest.prepareHeld at h
  cases hd : f.data with
  | none => rw [hd] at h; cases h
  | some d =>
    rw [hd] at h
    cases d with
    | nil => cases h
    | cons row rows =>
      dsimp only at h
      cases ht : fitTargets f w with
      | error e => rw [ht] at h; cases h
      | ok p =>
        obtain ⟨f2, w2⟩ := p
        rw [ht] at h
        dsimp only at h
        have h2 : f2 = { f with orgRef := f2.orgRef, newRef := f2.newRef } ∧ w.arrays <+: w2.arrays ∧ w2.glob = w.glob := by
          unfold fitTargets at ht
          repeat' split at ht
          all_goals first
            | (cases ht; exact ⟨rfl, List.prefix_append _ _, rfl⟩)
            | (cases ht; exact ⟨rfl, List.prefix_refl _, rfl⟩)
            | cases ht
        obtain ⟨e1, e2, e3⟩ := h2
        have ec : f2.cfg = f.cfg := by rw [e1]
        have ed : f2.discrete = f.discrete := by rw [e1]
        have em : f2.minmax = f.minmax := by rw [e1]
        have eo : f2.oobList = f.oobList := by rw [e1]
        cases hm : maybeDiscrete f2.cfg.makeDiscrete (row :: rows) f2.discrete with
        | error e => rw [hm] at h; cases h
        | ok dd =>
          rw [hm] at h
          cases h
          refine ⟨rfl, by simp, e2, e3, ?_, ?_, ?_, ?_⟩
          · rw [e1, hd]
          · intro hf
            unfold maybeDiscrete at hm
            rw [ec, hf, if_neg (by simp), ed] at hm
            exact (Except.ok.inj hm).symm
          · intro hf
            dsimp only
            rw [ec, hf, if_neg (by simp), em]
          · intro hf
            dsimp only
            rw [ec, hf, if_neg (by simp), eo]

theorem Forest_prepare {f f0 : Forest K G} {w w0 : World K G} {data : Option (List (List K))} {labels : Option Nat} {dat : List (List K)}
    (h : f.prepare w data labels = .ok (dat, f0, w0)) :
    dat = trainData f data ∧ dat ≠ [] ∧ w.arrays <+: w0.arrays ∧ w0.glob = w.glob ∧ f0 = { f with
      data := some dat
      orgRef := f0.orgRef
      newRef := f0.newRef
      discrete := f0.discrete
      minmax := f0.minmax
      oobList := f0.oobList
      trees := [] } ∧ (f.cfg.makeDiscrete = false → f0.discrete = f.discrete) ∧ (f.cfg.precompMinmax = false → f0.minmax = f.minmax) ∧
      (f.cfg.oobScore = false → f0.oobList = f.oobList) := by
  unfold Forest.prepare at h
  cases data with
  | none =>
    cases labels with
    | none =>
      obtain ⟨h1, h2, h3, h4, h5, h6, h7, h8⟩ := Forest_prepareHeld h
      refine ⟨by simp [trainData, h1], h2, h3, h4, ?_, h6, h7, h8⟩
      rw [← h1]
      exact h5
    | some l => cases h
  | some d =>
    cases labels with
    | none => cases h
    | some l =>
      obtain ⟨h1, h2, h3, h4, h5, h6, h7, h8⟩ := Forest_prepareHeld h
      cases h1
      exact ⟨rfl, h2, h3, h4, h5, h6, h7, h8⟩

theorem Forest_fit_held (f : Forest K G) (w : World K G) :
    Forest.fit R mem f w none none = (f.prepareHeld w).bind (fun p =>
      forestLoop R mem p.1 (p.1.getD 0 []).length (List.range f.cfg.nEstimators) p.2.1 p.2.2) := by
  unfold Forest.fit Forest.prepareHeld bothOrNeither
  dsimp only
  cases f.data with
  | none => rfl
  | some d =>
    cases d with
    | nil => rfl
    | cons row rows =>
      dsimp only
      cases ht : fitTargets f w with
      | error e => rfl
      | ok p =>
        obtain ⟨f2, w2⟩ := p
        have hcfg2 : f2.cfg = f.cfg := by
          unfold fitTargets at ht
          repeat' split at ht
          all_goals first
            | (cases ht; rfl)
            | cases ht
        dsimp only
        cases maybeDiscrete f2.cfg.makeDiscrete (row :: rows) f2.discrete with
        | error e => rfl
        | ok dd =>
          dsimp only [Except.bind]
          rw [← hcfg2]
          cases hp : f2.cfg.precompMinmax <;> cases ho : f2.cfg.oobScore <;> simp [ho]

/-- `fit` is the preparation and the loop. -/
theorem Forest_fit_prepare (f : Forest K G) (w : World K G) (data : Option (List (List K))) (labels : Option Nat) :
    Forest.fit R mem f w data labels = (f.prepare w data labels).bind (fun p =>
      forestLoop R mem p.1 (p.1.getD 0 []).length (List.range f.cfg.nEstimators) p.2.1 p.2.2) := by
  cases data with
  | none =>
    cases labels with
    | none => exact Forest_fit_held f w
    | some l => rfl
  | some d =>
    cases labels with
    | none => rfl
    | some l => exact Forest_fit_held { f with data := some d, orgRef := some l, newRef := some l } w

/-- A pass that goes on has trained a tree and kept it. -/
theorem forestStep_trained {i : Nat} {f f' : Forest K G} {w w' : World K G} (h : forestStep R mem data F i f w = .ok (true, f', w')) :
    ∃ rows g tree glob tree', PassTrained R mem data F i f w rows g tree glob ∧
      boostStep f data tree i rows { w with glob := glob } = .ok (w', tree') ∧
      f' = { f with
        rng := g
        oobList := oobWith f rows data.length
        trees := f.trees ++ [tree']
        numQueries := f.numQueries + tree.numQueries
        remaining := f.remaining.map (fun b => b - (tree.numQueries : Int)) } := by
  unfold forestStep at h
  dsimp only at h
  cases hs : subsets R f.rng data.length F f.cfg with
  | error e => rw [hs] at h; cases h
  | ok p =>
    obtain ⟨rows0, cols, g1⟩ := p
    rw [hs] at h
    dsimp only at h
    cases hsp : spent f.remaining with
    | true => rw [hsp, if_pos rfl] at h; cases h
    | false =>
      rw [hsp, if_neg (by simp)] at h
      cases href : (if f.cfg.boosting then f.newRef else f.orgRef) with
      | none => rw [href] at h; cases h
      | some ref =>
        rw [href] at h
        dsimp only at h
        cases hb : bootstrapIdcs R g1 data.length f.cfg rows0 with
        | error e => rw [hb] at h; cases h
        | ok p =>
          obtain ⟨rows, g2⟩ := p
          rw [hb] at h
          dsimp only at h
          cases ht0 : Tree.init R f.treeCfg data (w.arrays.getD ref []) f.discrete f.remaining (R.randint w.glob.np maxSeed).1
              (some rows) (some cols) with
          | error e => rw [ht0] at h; cases h
          | ok p =>
            obtain ⟨tree0, glob0⟩ := p
            rw [ht0] at h
            dsimp only at h
            cases ht1 : Tree.fit R (mem i) tree0 glob0 none none with
            | error e => rw [ht1] at h; cases h
            | ok p =>
              obtain ⟨tree, glob1⟩ := p
              rw [ht1] at h
              dsimp only at h
              cases hk : keepTree f.remaining tree.numQueries with
              | false => rw [hk, if_neg (by simp)] at h; cases h
              | true =>
                rw [hk, if_pos rfl] at h
                cases hbo : boostStep f data tree i rows { w with glob := glob1 } with
                | error e => rw [hbo] at h; cases h
                | ok p =>
                  obtain ⟨w2, t'⟩ := p
                  rw [hbo] at h
                  cases h
                  exact ⟨rows, g2, tree, glob1, t', ⟨⟨cols, ref, tree0, glob0, ⟨⟨rows0, g1, hs, hb⟩, hsp⟩, href, ht0, ht1⟩, hk⟩, hbo, rfl⟩

theorem PassTrained.fitted {i : Nat} {f : Forest K G} {w : World K G} {rows : List Nat} {g : G} {tree : Tree K G} {glob : Glob G}
    (h : PassTrained R mem data F i f w rows g tree glob) :
    ∃ A : TreeArgs K, Fitted R (mem i) A tree ∧ A.cfg = f.treeCfg ∧ A.data = data ∧ A.rows = rows ∧
      ∃ ref, (if f.cfg.boosting then f.newRef else f.orgRef) = some ref ∧ A.labels = w.arrays.getD ref [] := by
  obtain ⟨feats, ref, tree0, glob0, _, href, h1, h2⟩ := h.ex
  exact ⟨⟨f.treeCfg, data, w.arrays.getD ref [], f.discrete, f.remaining, (R.randint w.glob.np maxSeed).1, some rows, some feats⟩,
    ⟨tree0, glob0, glob, ⟨glob0, h1⟩, h2⟩, rfl, rfl, rfl, ref, href, rfl⟩

/-- The tree of a pass is determined. -/
theorem PassTrained.det {i : Nat} {f : Forest K G} {w : World K G} {rows rows' : List Nat} {g g' : G} {tree tree' : Tree K G}
    {glob glob' : Glob G} (h : PassTrained R mem data F i f w rows g tree glob) (h' : PassTrained R mem data F i f w rows' g' tree' glob') :
    rows' = rows ∧ g' = g ∧ tree' = tree ∧ glob' = glob := by
  obtain ⟨feats, ref, tree0, glob0, ⟨⟨rows0, g1, a1, a2⟩, _⟩, href, h1, h2⟩ := h.ex
  obtain ⟨feats', ref', tree0', glob0', ⟨⟨rows0', g1', b1, b2⟩, _⟩, href', h1', h2'⟩ := h'.ex
  rw [a1] at b1
  cases b1
  rw [a2] at b2
  cases b2
  rw [href] at href'
  cases href'
  rw [h1] at h1'
  cases h1'
  rw [h2] at h2'
  cases h2'
  exact ⟨rfl, rfl, rfl, rfl⟩

/-- What is left of a pass: the trees from before, and perhaps the tree of this pass, complete. -/
theorem PassLeft.trees {i : Nat} {f f' : Forest K G} {w w' : World K G} (h : PassLeft R mem data F i f w f' w') :
    f'.trees = f.trees ∨ ∃ rows g tree glob t, PassTrained R mem data F i f w rows g tree glob ∧ AfterPredicts tree t ∧
      f'.trees = f.trees ++ [t] := by
  cases h with
  | drawing g => exact Or.inl rfl
  | training h glob => exact Or.inl rfl
  | kept h hc n hp =>
    refine Or.inr ⟨_, _, _, _, _, h, ?_, rfl⟩
    split at hp
    · exact predictBatch_after hp
    · cases hp
      exact .none
  | written h hb => exact Or.inr ⟨_, _, _, _, _, h, (boostStep_after hb).1, rfl⟩
  | counted h hb => exact Or.inr ⟨_, _, _, _, _, h, (boostStep_after hb).1, rfl⟩
  | complete h =>
    obtain ⟨rows, g, tree, glob, tree', h1, h2, rfl⟩ := forestStep_trained h
    exact Or.inr ⟨_, _, _, _, _, h1, (boostStep_after h2).1, rfl⟩

/-- What a pass does not touch. -/
theorem PassLeft.same {i : Nat} {f f' : Forest K G} {w w' : World K G} (h : PassLeft R mem data F i f w f' w') :
    f' = { f with
      trees := f'.trees
      rng := f'.rng
      oobList := f'.oobList
      numQueries := f'.numQueries
      remaining := f'.remaining } := by
  cases h with
  | drawing g => rfl
  | training h glob => rfl
  | kept h hc n hp => rfl
  | written h hb => rfl
  | counted h hb => rfl
  | complete h =>
    obtain ⟨rows, g, tree, glob, tree', h1, h2, rfl⟩ := forestStep_trained h
    rfl

theorem forestLoop_all_append {is js : List Nat} {f f1 : Forest K G} {w w1 : World K G} (h : forestLoop R mem data F is f w = .ok (f1, w1))
    (hl : f1.trees.length = f.trees.length + is.length) :
    forestLoop R mem data F (is ++ js) f w = forestLoop R mem data F js f1 w1 := by
  induction is generalizing f w with
  | nil => cases h; rfl
  | cons i is ih =>
    unfold forestLoop at h
    rw [List.cons_append]
    conv_lhs => unfold forestLoop
    cases hs : forestStep R mem data F i f w with
    | error e => rw [hs] at h; cases h
    | ok p =>
      obtain ⟨b, f2, w2⟩ := p
      rw [hs] at h
      obtain ⟨a1, a2, _⟩ := forestStep_adds hs
      cases b with
      | false =>
        dsimp only at h
        cases h
        rw [a2 rfl] at hl
        simp at hl
      | true =>
        dsimp only at h ⊢
        obtain ⟨t, ht⟩ := a1 rfl
        split_ifs at h ⊢ with hc
        · refine ih h ?_
          rw [hl, ht]
          simp
          omega

/-- Sizes do not matter before the loop. -/
theorem Forest_prepare_sized (n : Nat) (f : Forest K G) (w : World K G) (data : Option (List (List K))) (labels : Option Nat) :
    (f.sized n).prepare w data labels = (f.prepare w data labels).map (fun p => (p.1, p.2.1.sized n, p.2.2)) := by
  have key : ∀ f : Forest K G, (f.sized n).prepareHeld w = (f.prepareHeld w).map (fun p => (p.1, p.2.1.sized n, p.2.2)) := by
    intro f
    unfold Forest.prepareHeld
    have e : (f.sized n).data = f.data := rfl
    rw [e]
    cases f.data with
    | none => rfl
    | some d =>
      cases d with
      | nil => rfl
      | cons row rows =>
        dsimp only
        have e2 : fitTargets (f.sized n) w = (fitTargets f w).map (fun p => (p.1.sized n, p.2)) := by
          unfold fitTargets
          have e3 : (f.sized n).cfg.isCls = f.cfg.isCls := rfl
          have e4 : (f.sized n).newRef = f.newRef := rfl
          have e5 : (f.sized n).orgRef = f.orgRef := rfl
          rw [e3, e4, e5]
          cases f.cfg.isCls with
          | false => rfl
          | true =>
            simp only [if_true]
            cases f.orgRef with
            | none => rfl
            | some a =>
              cases f.newRef with
              | none => rfl
              | some b => rfl
        rw [e2]
        cases fitTargets f w with
        | error e => rfl
        | ok p =>
          obtain ⟨f2, w2⟩ := p
          have e6 : (f2.sized n).cfg.makeDiscrete = f2.cfg.makeDiscrete := rfl
          have e7 : (f2.sized n).discrete = f2.discrete := rfl
          simp only [Except.map, e6, e7]
          cases maybeDiscrete f2.cfg.makeDiscrete (row :: rows) f2.discrete <;> rfl
  cases data with
  | none =>
    cases labels with
    | none => exact key f
    | some l => rfl
  | some d =>
    cases labels with
    | none => rfl
    | some l => exact key { f with data := some d, orgRef := some l, newRef := some l }

/-- Without `oob_score` the list of out-of-bag rows is not touched. -/
theorem forestLoop_oobList : ∀ {is : List Nat} {f f' : Forest K G} {w w' : World K G}, forestLoop R mem data F is f w = .ok (f', w') →
    f.cfg.oobScore = false → f'.oobList = f.oobList := by
  intro is
  induction is with
  | nil =>
    intro f f' w w' h _
    cases h
    rfl
  | cons i is ih =>
    intro f f' w w' h ho
    unfold forestLoop at h
    cases hs : forestStep R mem data F i f w with
    | error e => rw [hs] at h; cases h
    | ok p =>
      obtain ⟨b, f1, w1⟩ := p
      rw [hs] at h
      have h1 : f1.oobList = f.oobList ∧ f1.cfg = f.cfg := by
        unfold forestStep at hs
        dsimp only at hs
        simp only [ho, Bool.false_eq_true, and_false, if_false] at hs
        repeat' split at hs
        all_goals first
          | (cases hs; exact ⟨rfl, rfl⟩)
          | cases hs
      cases b with
      | false => cases h; exact h1.1
      | true =>
        dsimp only at h
        repeat' split at h
        all_goals first
          | (rw [ih h (by rw [h1.2]; exact ho), h1.1])
          | cases h

theorem mapM_answers_congr {x : List K} : ∀ {ts ts' : List (Tree K G)},
    List.Forall₂ (fun (t t' : Tree K G) => (t.predict x).map Prod.fst = (t'.predict x).map Prod.fst) ts ts' →
    ts.mapM (fun (t : Tree K G) => (t.predict x).map Prod.fst) = ts'.mapM (fun (t : Tree K G) => (t.predict x).map Prod.fst) := by
  intro ts ts' h
  induction h with
  | nil => rfl
  | cons h _ ih => rw [List.mapM_cons, List.mapM_cons, h, ih]

end

section
variable (R : Rng K G) (mem : Nat → Nat → Junk K)

/-- C129, in part. Whenever an exception leaves `fit`: the forest has its old trees (nothing has begun), or it has the `k` trees of a forest
that was asked for `k` trees, or these and one more tree, which is completely fitted to the same data, under the limits of the forest. -/
theorem C129_trees_partial (f f' : Forest K G) (w w' : World K G) (data : Option (List (List K))) (labels : Option Nat)
    (h : FitLeft R mem f w data labels f' w') :
    f'.cfg = f.cfg ∧ f'.classes = f.classes ∧
    (f'.trees = f.trees ∨
    ∃ (k : Nat) (fk : Forest K G) (wk : World K G), k < f.cfg.nEstimators ∧ Forest.fit R mem (f.sized k) w data labels = .ok (fk, wk) ∧
      fk.trees.length = k ∧
      (f'.trees = fk.trees ∨ ∃ (A : TreeArgs K) (tree t : Tree K G), Fitted R (mem k) A tree ∧ AfterPredicts tree t ∧
        A.cfg = fk.treeCfg ∧ A.data = trainData f data ∧ f'.trees = fk.trees ++ [t])) := by
  cases h with
  | entering d o n dd hd mm hm ol ho copies => exact ⟨rfl, rfl, Or.inl rfl⟩
  | looping hp hk hl hn h =>
    rename_i dat f0 fk w0 wk k
    obtain ⟨h1, h2, h3, h4, h5, h6, h7, h8⟩ := Forest_prepare hp
    obtain ⟨l, hr⟩ := forestLoop_run hl
    have hsame := h.same
    have hsame2 := hr.same
    have hfit : Forest.fit R mem (f.sized k) w data labels = .ok (fk.sized k, wk) := by
      rw [Forest_fit_prepare, Forest_prepare_sized, hp]
      simp only [Except.map, Except.bind]
      have : (f.sized k).cfg.nEstimators = k := rfl
      rw [this, forestLoop_sized, hl]
      rfl
    refine ⟨by rw [hsame, hsame2, h5], by rw [hsame, hsame2, h5], Or.inr ⟨k, fk.sized k, wk, hk, hfit, hn, ?_⟩⟩
    rcases h.trees with ht | ⟨rows, g, tree, glob, t, a1, a2, a3⟩
    · exact Or.inl ht
    · obtain ⟨A, b1, b2, b3, b4, _⟩ := a1.fitted
      exact Or.inr ⟨A, tree, t, b1, a2, b2, b3.trans h1, a3⟩

/-- C129, in part. Whenever an exception leaves a `fit` that would have returned the forest `ff`: the forest has its old trees, or it answers
like the first trees of `ff`. -/
theorem C129_prefix_partial (f f' ff : Forest K G) (w w' wf : World K G) (data : Option (List (List K))) (labels : Option Nat)
    (h : FitLeft R mem f w data labels f' w') (hf : Forest.fit R mem f w data labels = .ok (ff, wf)) :
    f'.trees = f.trees ∨
    ∃ m ≤ ff.trees.length, f'.trees.length = m ∧
      ∀ x, (f'.predict x).map Prod.fst = (Forest.predict { ff with trees := ff.trees.take m } x).map Prod.fst := by
  cases h with
  | entering d o n dd hd mm hm ol ho copies => exact Or.inl rfl
  | looping hp hk hl hn h =>
    rename_i dat f0 fk w0 wk k
    right
    obtain ⟨h1, h2, h3, h4, h5, h6, h7, h8⟩ := Forest_prepare hp
    obtain ⟨l, hr⟩ := forestLoop_run hl
    have hsame := h.same
    have hsame2 := hr.same
    have hff := Forest_fit_same hf
    have ht0 : f0.trees = [] := by rw [h5]
    have hcfg : f'.cfg = ff.cfg := by rw [hsame, hsame2, h5, hff.1]
    have hclasses : f'.classes = ff.classes := by rw [hsame, hsame2, h5, hff.2.1]
    have hrange : List.range f.cfg.nEstimators = List.range k ++ (k :: (List.range' (k + 1) (f.cfg.nEstimators - k - 1))) := by
      rw [List.range_eq_range', List.range_eq_range', show f.cfg.nEstimators = k + (1 + (f.cfg.nEstimators - k - 1)) by omega,
        ← List.range'_append_1, ← List.range'_append_1]
      simp
    rw [Forest_fit_prepare, hp] at hf
    simp only [Except.bind] at hf
    rw [hrange, forestLoop_all_append hl (by rw [ht0, hn]; simp)] at hf
    have hpre : fk.trees <+: ff.trees := by
      obtain ⟨l2, hr2⟩ := forestLoop_run hf
      rw [hr2.trees]
      exact List.prefix_append _ _
    have hans : ∀ (ts : List (Tree K G)), (∀ x, List.Forall₂ (fun (t t' : Tree K G) => (t.predict x).map Prod.fst = (t'.predict x).map Prod.fst)
        f'.trees ts) → ∀ x, (f'.predict x).map Prod.fst = (Forest.predict { ff with trees := ts } x).map Prod.fst := by
      intro ts hts x
      rw [Forest_predict_fst, Forest_predict_fst, mapM_answers_congr (hts x), hcfg, hclasses]
    have hrefl : ∀ (ts : List (Tree K G)) (x : List K),
        List.Forall₂ (fun (t t' : Tree K G) => (t.predict x).map Prod.fst = (t'.predict x).map Prod.fst) ts ts := by
      intro ts x
      induction ts with
      | nil => exact .nil
      | cons t ts ih => exact .cons rfl ih
    rcases h.trees with ht | ⟨rows, g, tree, glob, t, a1, a2, a3⟩
    · refine ⟨fk.trees.length, hpre.length_le, by rw [ht], hans _ (fun x => ?_)⟩
      rw [ht, ← List.prefix_iff_eq_take.1 hpre]
      exact hrefl _ _
    · unfold forestLoop at hf
      cases hs : forestStep R mem dat (dat.getD 0 []).length k fk wk with
      | error e => rw [hs] at hf; cases hf
      | ok p =>
        obtain ⟨b, f1, w1⟩ := p
        rw [hs] at hf
        cases b with
        | false =>
          exfalso
          obtain ⟨feats, ref, tree0, glob0, ⟨⟨rows0, g1, c1, c2⟩, c3⟩, href, d1, d2⟩ := a1.ex
          have hkeep := a1.keep
          unfold forestStep at hs
          dsimp only at hs
          rw [c1] at hs
          dsimp only at hs
          rw [c3, if_neg (by simp), href] at hs
          dsimp only at hs
          rw [c2] at hs
          dsimp only at hs
          rw [d1] at hs
          dsimp only at hs
          rw [d2] at hs
          dsimp only at hs
          rw [hkeep, if_pos rfl] at hs
          split at hs <;> cases hs
        | true =>
          obtain ⟨rows', g', tree', glob', t', e1, e2, e3⟩ := forestStep_trained hs
          obtain ⟨_, _, rfl, _⟩ := a1.det e1
          have hpre2 : fk.trees ++ [t'] <+: ff.trees := by
            dsimp only at hf
            have : f1.trees = fk.trees ++ [t'] := by rw [e3]
            rw [← this]
            split at hf
            · obtain ⟨l2, hr2⟩ := forestLoop_run hf
              rw [hr2.trees]
              exact List.prefix_append _ _
            · split at hf
              · obtain ⟨l2, hr2⟩ := forestLoop_run hf
                rw [hr2.trees]
                exact List.prefix_append _ _
              · cases hf
          obtain ⟨A, b1, _⟩ := a1.fitted
          refine ⟨(fk.trees ++ [t']).length, hpre2.length_le, by rw [a3]; simp, hans _ (fun x => ?_)⟩
          rw [a3, ← List.prefix_iff_eq_take.1 hpre2]
          refine List.rel_append (hrefl _ _) (.cons ?_ .nil)
          rw [C38_history_independent R (mem k) A tree' t b1 a2 x,
            C38_history_independent R (mem k) A tree' t' b1 (boostStep_after e2).1 x]

/-- C129, in part. Without boosting no interruption touches an array of the caller. -/
theorem C129_labels_partial (f f' : Forest K G) (w w' : World K G) (data : Option (List (List K))) (labels : Option Nat)
    (hb : f.cfg.boosting = false) (h : FitLeft R mem f w data labels f' w') : w.arrays <+: w'.arrays := by
  cases h with
  | entering d o n dd hd mm hm ol ho copies => exact List.prefix_append _ _
  | looping hp hk hl hn h =>
    rename_i dat f0 fk w0 wk k
    obtain ⟨h1, h2, h3, h4, h5, h6, h7, h8⟩ := Forest_prepare hp
    obtain ⟨l, hr⟩ := forestLoop_run hl
    have hc0 : f0.cfg = f.cfg := by rw [h5]
    have hck : fk.cfg = f.cfg := by rw [hr.same, h5]
    have hwk := (hr.labels (by rw [hc0]; exact hb)).1
    have hw' : w'.arrays = wk.arrays := by
      cases h with
      | drawing g => rfl
      | training h glob => rfl
      | kept h hc n hp => rfl
      | written h hb' => rw [(boostStep_after hb').2.2 (by rw [hck]; exact hb)]
      | counted h hb' => rw [(boostStep_after hb').2.2 (by rw [hck]; exact hb)]
      | complete h =>
        obtain ⟨rows, g, tree, glob, tree', h1, hb', _⟩ := forestStep_trained h
        rw [(boostStep_after hb').2.2 (by rw [hck]; exact hb)]
    rw [hw', hwk]
    exact h3

/-- C129, in part. Whenever an exception leaves `fit`, the queries of all trees are counted and charged to the budget, except perhaps
those of the last tree. -/
theorem C129_accounting_partial (f f' : Forest K G) (w w' : World K G) (data : Option (List (List K))) (labels : Option Nat)
    (h : FitLeft R mem f w data labels f' w') :
    (f'.trees = f.trees ∧ f'.numQueries = f.numQueries ∧ f'.remaining = f.remaining) ∨
    ∃ counted charged : List (Tree K G), (counted = f'.trees ∨ counted = f'.trees.dropLast) ∧ (charged = f'.trees ∨ charged = f'.trees.dropLast) ∧
      f'.numQueries = f.numQueries + (counted.map Tree.numQueries).sum ∧
      f'.remaining = f.remaining.map (fun b => b - (((charged.map Tree.numQueries).sum : Nat) : Int)) := by
  cases h with
  | entering d o n dd hd mm hm ol ho copies => exact Or.inl ⟨rfl, rfl, rfl⟩
  | looping hp hk hl hn h =>
    rename_i dat f0 fk w0 wk k
    right
    obtain ⟨h1, h2, h3, h4, h5, h6, h7, h8⟩ := Forest_prepare hp
    have hfit : Forest.fit R mem (f.sized k) w data labels = .ok (fk.sized k, wk) := by
      rw [Forest_fit_prepare, Forest_prepare_sized, hp]
      simp only [Except.map, Except.bind]
      have : (f.sized k).cfg.nEstimators = k := rfl
      rw [this, forestLoop_sized, hl]
      rfl
    obtain ⟨q1, q2, _⟩ := Forest_fit_accounting hfit
    have q1' : fk.numQueries = f.numQueries + (fk.trees.map Tree.numQueries).sum := q1
    have q2' : fk.remaining = f.remaining.map (fun b => b - (((fk.trees.map Tree.numQueries).sum : Nat) : Int)) := q2
    have hq : ∀ {a b : Tree K G}, AfterPredicts a b → b.numQueries = a.numQueries := by
      intro a b hab
      obtain ⟨ns, e⟩ := hab.same
      rw [e]
    have hchg : ∀ (q : Nat), (f.remaining.map (fun b => b - (((fk.trees.map Tree.numQueries).sum : Nat) : Int))).map
        (fun b => b - (q : Int)) = f.remaining.map (fun b => b - (((fk.trees.map Tree.numQueries).sum + q : Nat) : Int)) := by
      intro q
      rw [Option.map_map]
      congr 1
      funext b
      simp only [Function.comp]
      push_cast
      ring
    cases h with
    | drawing g => exact ⟨fk.trees, fk.trees, Or.inl rfl, Or.inl rfl, q1', q2'⟩
    | training h glob => exact ⟨fk.trees, fk.trees, Or.inl rfl, Or.inl rfl, q1', q2'⟩
    | kept h hc n hp => exact ⟨fk.trees, fk.trees, Or.inr (by simp), Or.inr (by simp), q1', q2'⟩
    | written h hb => exact ⟨fk.trees, fk.trees, Or.inr (by simp), Or.inr (by simp), q1', q2'⟩
    | counted h hb =>
      refine ⟨_, fk.trees, Or.inl rfl, Or.inr (by simp), ?_, q2'⟩
      dsimp only
      rw [q1', List.map_append, List.sum_append, List.map_singleton, List.sum_singleton, hq (boostStep_after hb).1, Nat.add_assoc]
    | complete h =>
      obtain ⟨rows, g, tree, glob, tree', h1, hb, rfl⟩ := forestStep_trained h
      refine ⟨_, _, Or.inl rfl, Or.inl rfl, ?_, ?_⟩
      · dsimp only
        rw [q1', List.map_append, List.sum_append, List.map_singleton, List.sum_singleton, hq (boostStep_after hb).1, Nat.add_assoc]
      · dsimp only
        rw [q2', List.map_append, List.sum_append, List.map_singleton, List.sum_singleton, hq (boostStep_after hb).1, hchg]

/-- C129, in part. Without a budget, calling `fit` with data after an interruption is as calling it on a forest that was never interrupted,
with the generators and the count of queries as they now are. -/
theorem C129_refit_partial (f f' : Forest K G) (w w' : World K G) (data : Option (List (List K))) (labels : Option Nat)
    (hb : f.remaining = none) (h : FitLeft R mem f w data labels f' w') (mem' : Nat → Nat → Junk K) (d : List (List K)) (l : Nat) :
    Forest.fit R mem' f' w' (some d) (some l) =
      Forest.fit R mem' { f with rng := f'.rng, numQueries := f'.numQueries } w' (some d) (some l) := by
  have key : ∀ (a b : Forest K G) (w : World K G), a.data = b.data → a.orgRef = b.orgRef → a.newRef = b.newRef → b = { a with
      trees := b.trees
      discrete := b.discrete
      minmax := b.minmax
      oobList := b.oobList } → (a.cfg.makeDiscrete = false → b.discrete = a.discrete) → (a.cfg.precompMinmax = false → b.minmax = a.minmax) →
      (a.cfg.oobScore = false → b.oobList = a.oobList) → b.prepareHeld w = a.prepareHeld w := by
    intro a b w h1 h2 h3 h4 h5 h6 h7
    obtain ⟨c, cl, da, o, n, ts, dd, mm, rem, nq, g, ol, mdi, ba⟩ := a
    obtain ⟨c', cl', da', o', n', ts', dd', mm', rem', nq', g', ol', mdi', ba'⟩ := b
    simp only [Forest.mk.injEq, true_and] at h1 h2 h3 h4 h5 h6 h7
    obtain ⟨rfl, rfl, _, _, _, rfl, rfl, rfl, rfl, rfl⟩ := h4
    subst h1 h2 h3
    unfold Forest.prepareHeld
    dsimp only
    cases da with
    | none => rfl
    | some d =>
      cases d with
      | nil => rfl
      | cons row rows =>
        dsimp only
        unfold fitTargets
        dsimp only
        unfold maybeDiscrete
        cases h8 : c'.isCls <;> cases h9 : c'.makeDiscrete <;> cases h10 : c'.precompMinmax <;> cases h11 : c'.oobScore <;>
          simp_all
        all_goals
          cases o <;> cases n <;> simp_all
  have hrem : f'.remaining = none := by
    rcases C129_accounting_partial R mem f f' w w' data labels h with ⟨_, _, e⟩ | ⟨_, _, _, _, _, e⟩
    · rw [e, hb]
    · rw [e, hb]
      rfl
  have hsame : f' = { f with
      data := f'.data
      orgRef := f'.orgRef
      newRef := f'.newRef
      trees := f'.trees
      discrete := f'.discrete
      minmax := f'.minmax
      oobList := f'.oobList
      remaining := f'.remaining
      rng := f'.rng
      numQueries := f'.numQueries } ∧ (f.cfg.makeDiscrete = false → f'.discrete = f.discrete) ∧
      (f.cfg.precompMinmax = false → f'.minmax = f.minmax) ∧ (f.cfg.oobScore = false → f'.oobList = f.oobList) := by
    cases h with
    | entering d o n dd hd mm hm ol ho copies => exact ⟨rfl, hd, hm, ho⟩
    | looping hp hk hl hn h =>
      rename_i dat f0 fk w0 wk k
      obtain ⟨h1, h2, h3, h4, h5, h6, h7, h8⟩ := Forest_prepare hp
      obtain ⟨l, hr⟩ := forestLoop_run hl
      have a1 := h.same
      have a2 := hr.same
      have hoob : fk.cfg.oobScore = false → f'.oobList = fk.oobList := by
        intro ho
        have ho' : ∀ rows, oobWith fk rows dat.length = fk.oobList := by
          intro rows
          unfold oobWith
          rw [if_neg (by rw [ho]; simp)]
        cases h with
        | drawing g => rfl
        | training h glob => exact ho' _
        | kept h hc n hp => exact ho' _
        | written h hb' => exact ho' _
        | counted h hb' => exact ho' _
        | complete h =>
          obtain ⟨rows, g, tree, glob, tree', _, _, rfl⟩ := forestStep_trained h
          exact ho' _
      have ck : fk.cfg = f.cfg := by rw [a2, h5]
      have dk : f'.discrete = f0.discrete := by rw [a1, a2]
      have mk : f'.minmax = f0.minmax := by rw [a1, a2]
      refine ⟨?_, fun q => by rw [dk, h6 q], fun q => by rw [mk, h7 q], fun q => ?_⟩
      · rw [a1, a2, h5]
      · rw [hoob (by rw [ck]; exact q), ← h8 q]
        exact (forestLoop_oobList hl (by rw [h5]; exact q))
  obtain ⟨s1, s2, s3, s4⟩ := hsame
  have hcfg : f'.cfg = f.cfg := by rw [s1]
  have hn : f'.cfg.nEstimators = f.cfg.nEstimators := by rw [hcfg]
  rw [Forest_fit_prepare, Forest_fit_prepare, hn]
  have := key { f with
      rng := f'.rng
      numQueries := f'.numQueries
      data := some d
      orgRef := some l
      newRef := some l } { f' with
      data := some d
      orgRef := some l
      newRef := some l } w' rfl rfl rfl (by
        conv_lhs => rw [s1, hrem, ← hb]) s2 s3 s4
  show (Forest.prepareHeld _ w').bind _ = (Forest.prepareHeld _ w').bind _
  rw [this]

/-- C129 as stated is false: the first tree is kept before its queries are counted and charged. -/
theorem C129_refuted_uncounted (f ff : Forest K G) (w wf : World K G) (data : Option (List (List K))) (labels : Option Nat)
    (hb : f.cfg.boosting = false) (hf : Forest.fit R mem f w data labels = .ok (ff, wf)) (hne : ff.trees ≠ []) :
    ∃ (f' : Forest K G) (w' : World K G) (t : Tree K G), FitLeft R mem f w data labels f' w' ∧ ff.trees.head? = some t ∧ f'.trees = [t] ∧
      f'.numQueries = f.numQueries ∧ f'.remaining = f.remaining := by
  rw [Forest_fit_prepare] at hf
  cases hp : f.prepare w data labels with
  | error e => rw [hp] at hf; cases hf
  | ok p =>
    obtain ⟨dat, f0, w0⟩ := p
    rw [hp] at hf
    simp only [Except.bind] at hf
    obtain ⟨h1, h2, h3, h4, h5, _⟩ := Forest_prepare hp
    have ht0 : f0.trees = [] := by rw [h5]
    have hq0 : f0.numQueries = f.numQueries := by rw [h5]
    have hr0 : f0.remaining = f.remaining := by rw [h5]
    cases hn : f.cfg.nEstimators with
    | zero =>
      rw [hn] at hf
      cases hf
      exact absurd ht0 hne
    | succ n =>
      rw [hn, List.range_succ_eq_map] at hf
      unfold forestLoop at hf
      cases hs : forestStep R mem dat (dat.getD 0 []).length 0 f0 w0 with
      | error e => rw [hs] at hf; cases hf
      | ok p =>
        obtain ⟨b, f1, w1⟩ := p
        rw [hs] at hf
        cases b with
        | false =>
          exfalso
          cases hf
          rcases forestStep_cases hs with ⟨q, _⟩ | ⟨_, _, _, g, o, rfl, _⟩
          · cases q
          · exact hne ht0
        | true =>
          obtain ⟨rows, g, tree, glob, t, e1, e2, e3⟩ := forestStep_trained hs
          have h1t : f1.trees = [t] := by
            rw [e3]
            dsimp only
            rw [ht0]
            rfl
          have hpre : f1.trees <+: ff.trees := by
            dsimp only at hf
            split at hf
            · obtain ⟨l2, hr2⟩ := forestLoop_run hf
              rw [hr2.trees]
              exact List.prefix_append _ _
            · split at hf
              · obtain ⟨l2, hr2⟩ := forestLoop_run hf
                rw [hr2.trees]
                exact List.prefix_append _ _
              · cases hf
          refine ⟨_, _, t, .looping hp (by rw [hn]; omega) rfl (by rw [ht0]; rfl) (.written e1 e2), ?_, ?_, hq0, hr0⟩
          · obtain ⟨l, e⟩ := hpre
            rw [← e, h1t]
            rfl
          · dsimp only
            rw [ht0]
            rfl

end

/-- A forest of two trees with a budget of 1000 queries. Interrupted after its first tree is kept, it has a tree that made 22 queries, but
counts none and has all of its budget left. -/
theorem C129_refuted : ∃ (f f' : Forest ℚ Nat) (w w' : World ℚ Nat), FitLeft rngQ exMems f w none none f' w' ∧ f.remaining = some 1000 ∧
    f'.trees.map Tree.numQueries = [22] ∧ f'.numQueries = 0 ∧ f'.remaining = some 1000 := by
  have h : (runForest rngQ exMems exWorld fcfgQ exData 0 (some 1000)).map (fun p => p.1.trees.map (fun (t : Tree ℚ Nat) => t.numQueries)) =
      .ok [22, 12] := by decide +kernel
  cases hr : runForest rngQ exMems exWorld fcfgQ exData 0 (some 1000) with
  | error e => rw [hr] at h; cases h
  | ok p =>
    obtain ⟨ff, wf⟩ := p
    rw [hr] at h
    have h' : ff.trees.map (fun (t : Tree ℚ Nat) => t.numQueries) = [22, 12] := Except.ok.inj h
    obtain ⟨f0, w0, hi, hf⟩ := runForest_parts hr
    obtain ⟨i1, i2, i3, _⟩ := Forest_init_fields hi
    obtain ⟨f', w', t, e1, e2, e3, e4, e5⟩ := C129_refuted_uncounted rngQ exMems f0 ff w0 wf none none (by rw [i1]; rfl) hf
      (by intro q; rw [q] at h'; cases h')
    refine ⟨f0, f', w0, w', e1, i2, ?_, by rw [e4, i3], by rw [e5, i2]⟩
    rw [e3]
    cases hts : ff.trees with
    | nil => rw [hts] at h'; cases h'
    | cons t1 ts =>
      rw [hts] at e2 h'
      cases e2
      rw [List.map_cons] at h'
      rw [List.map_singleton, (List.cons.inj h').1]

/-- What is left of the example forest if it is interrupted while it draws the rows of its second tree. -/
def exLeft (b : Option Int) : Option (Forest ℚ Nat × World ℚ Nat × Forest ℚ Nat × World ℚ Nat) :=
  match Forest.init rngQ exWorld fcfgQ none (some exData) (some 0) b with
  | .error _ => none
  | .ok (f, w) =>
    match f.prepare w none none with
    | .error _ => none
    | .ok (dat, f0, w0) =>
      match forestLoop rngQ exMems dat (dat.getD 0 []).length (List.range 1) f0 w0 with
      | .error _ => none
      | .ok (fk, wk) => if fk.trees.length = 1 ∧ 1 < f.cfg.nEstimators then some (f, w, { fk with rng := 5 }, wk) else none

theorem exLeft_left {b : Option Int} {f f' : Forest ℚ Nat} {w w' : World ℚ Nat} (h : exLeft b = some (f, w, f', w')) :
    FitLeft rngQ exMems f w none none f' w' := by
  unfold exLeft at h
  cases h1 : Forest.init rngQ exWorld fcfgQ none (some exData) (some 0) b with
  | error e => rw [h1] at h; cases h
  | ok p =>
    obtain ⟨f1, w1⟩ := p
    rw [h1] at h
    dsimp only at h
    cases h2 : f1.prepare w1 none none with
    | error e => rw [h2] at h; cases h
    | ok p =>
      obtain ⟨dat, f0, w0⟩ := p
      rw [h2] at h
      dsimp only at h
      cases h3 : forestLoop rngQ exMems dat (dat.getD 0 []).length (List.range 1) f0 w0 with
      | error e => rw [h3] at h; cases h
      | ok p =>
        obtain ⟨fk, wk⟩ := p
        rw [h3] at h
        dsimp only at h
        by_cases hc : fk.trees.length = 1 ∧ 1 < f1.cfg.nEstimators
        · rw [if_pos hc] at h
          cases h
          exact .looping h2 hc.2 h3 hc.1 (.drawing 5)
        · rw [if_neg hc] at h
          cases h

/-- The interrupted forest has one tree, its queries are charged, and it answers. -/
example : (exLeft (some 1000)).map (fun p => (p.2.2.1.trees.length, p.2.2.1.numQueries, p.2.2.1.remaining, p.2.2.1.cfg.boosting)) =
      some (1, 22, some 978, false) ∧
    ((exLeft none).bind (fun p => (p.2.2.1.predict [1, 2]).toOption.map Prod.fst) == some (Pred.cls 1 [0, 1])) = true := by
  refine ⟨?_, ?_⟩ <;> decide +kernel

end FF
