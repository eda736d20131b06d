import Verif.Proofs.Unspent
import Verif.Props.Prefix

/-!
# A budget that is not used up has no effect (C105)
-/

namespace FF

set_option linter.unusedSectionVars false

open Spec

variable {K : Type} [Field K] [LinearOrder K] [IsStrictOrderedRing K] [FloorRing K] [NpFun K] {G : Type}

/-- C105 for the solver: if MABSplit, run with a budget or without, asks `q` queries and that is less than its budget, then with any other
budget of more than `q`, or without one, it gives the same split, asks the same number of queries and leaves the generators in the same
state. -/
theorem C105_solver (R : Rng K G) (g : G) (glob : Glob G) (junk : Junk K) (data : List (List K)) (labels : List K)
    (minmax : Option (List K × List K)) (d : DiscDict K) (binType : Option BinType) (numBins : Option Nat) (isCls : Bool) (m : Criterion)
    (epsilon : K) (withRep : Bool) (b b' : Option Int) (batch : Nat) (out : MabOut K G)
    (h : solveMab R g glob junk data labels minmax d binType numBins isCls m epsilon withRep b batch = .ok out)
    (hb : Within b out.total) (hb' : Within b' out.total) :
    solveMab R g glob junk data labels minmax d binType numBins isCls m epsilon withRep b' batch = .ok out :=
  solveMab_unspent h hb hb'

/-- A bandit run of 12 queries: budgets of 13 and of 1000 give what no budget gives; a budget of 5 stops the run after 6 queries with
another split. -/
example :
    let run := fun b : Option Int =>
      ((solveMab rngQ 0 ⟨0, 0⟩ junkQ [[0, 1], [1, 1], [2, 5], [3, 5], [4, 2], [5, 2]] [0, 3, 1, 7, 2, 1] none none
        (some .linear) (some 4) false .mse 0 false b 3).map (fun o => (o.split.map (fun s => (s.feat, s.value)), o.total))).toOption
    run none = some (some (1, 7 / 3), 12) ∧ run (some 13) = run none ∧ run (some 1000) = run none ∧
      run (some 5) = some (some (0, 0), 6) := by
  dsimp only
  refine ⟨?_, ?_, ?_, ?_⟩ <;> decide +kernel

section
variable {R : Rng K G}

theorem init_under {cfg : TreeCfg K} {data : List (List K)} {labels : List K} {disc : DiscDict K} {B1 : Option Int} (B2 : Option Int) {seed : Nat}
    {idcs feats : Option (List Nat)} {t0 : Tree K G} {gl : Glob G}
    (h : Tree.init R cfg data labels disc B1 seed idcs feats = .ok (t0, gl)) :
    Tree.init R cfg data labels disc B2 seed idcs feats = .ok (t0.under B2, gl) ∧ t0 = t0.under B1 ∧ t0.numQueries = 0 := by
  have hz : ∀ B : Option Int, leftOf B 0 = B := by
    intro B
    cases B with
    | none => rfl
    | some b => simp [leftOf]
  unfold Tree.init at h ⊢
  by_cases hl : data.length ≠ labels.length
  · rw [if_pos hl] at h; cases h
  rw [if_neg hl] at h ⊢
  dsimp only at h ⊢
  cases hd : defaultFeats data feats with
  | error e => rw [hd] at h; cases h
  | ok fs =>
    rw [hd] at h
    dsimp only at h ⊢
    split at h
    · cases h
    · rename_i root g hn
      simp only [Except.ok.injEq, Prod.mk.injEq] at h ⊢
      obtain ⟨rfl, rfl⟩ := h
      unfold Tree.under
      simp only [and_true, hz]

end

/-- C105 for a tree: a fit that asks `t.numQueries` queries, less than its budget, is the same with any other budget larger than that and
without a budget; only the note of what is left of the budget differs. -/
theorem C105_tree (R : Rng K G) (mem : Nat → Junk K) (A : TreeArgs K) (B : Option Int) (glob : Glob G) (t : Tree K G)
    (h : runTree R mem A glob = .ok t) (hA : Within A.budget t.numQueries) (hB : Within B t.numQueries) :
    runTree R mem { A with budget := B } glob = .ok { t with remaining := B.map (fun b => b - (t.numQueries : Int)) } := by
  unfold runTree at h ⊢
  cases h1 : Tree.init R A.cfg A.data A.labels A.disc A.budget A.seed A.idcs A.feats with
  | error e => rw [h1] at h; cases h
  | ok p =>
    obtain ⟨t0, g0⟩ := p
    obtain ⟨a1, a2, a3⟩ := init_under B h1
    rw [h1] at h
    simp only [Bind.bind, Except.bind] at h ⊢
    rw [a1]
    dsimp only at h ⊢
    rw [a2] at h
    cases h2 : Tree.fit R mem (t0.under A.budget) glob none none with
    | error e => rw [h2] at h; cases h
    | ok q =>
      obtain ⟨t', g'⟩ := q
      rw [h2] at h
      cases h
      rw [fit_unspent h2 hA hB]
      rfl

/-- The fit with a budget of 30 asks 20 queries, so it is the fit with a budget of 21, and the one without a budget. -/
example : ∃ t, runTree rngQ exMem exArgsMab exGlob = .ok t ∧ t.numQueries = 20 ∧
    runTree rngQ exMem { exArgsMab with budget := some 21 } exGlob = .ok { t with remaining := some 1 } ∧
    runTree rngQ exMem { exArgsMab with budget := none } exGlob = .ok { t with remaining := none } := by
  have hq : (runTree rngQ exMem exArgsMab exGlob).map (fun (t : Tree ℚ Nat) => t.numQueries) = .ok 20 := by decide +kernel
  cases h : runTree rngQ exMem exArgsMab exGlob with
  | error e => rw [h] at hq; cases hq
  | ok t =>
    rw [h] at hq
    have hq : t.numQueries = 20 := by simpa [Except.map] using hq
    have hA : Within exArgsMab.budget t.numQueries := by
      intro b hb
      have : (30 : Int) = b := by simpa [exArgsMab] using hb
      omega
    refine ⟨t, rfl, hq, ?_, ?_⟩
    · have := C105_tree rngQ exMem exArgsMab (some 21) exGlob t h hA (by intro b hb; cases hb; omega)
      simpa [hq] using this
    · exact C105_tree rngQ exMem exArgsMab none exGlob t h hA (by intro b hb; cases hb)

section
variable {R : Rng K G} {mem : Nat → Nat → Junk K} {B1 B2 : Option Int}

theorem predict_under (B : Option Int) (t : Tree K G) (x : List K) :
    (t.under B).predict x = (t.predict x).map (fun p => (p.1, p.2.under B)) := by
  have e1 : (t.under B).nodes = t.nodes := rfl
  have e2 : (t.under B).cfg = t.cfg := rfl
  unfold Tree.predict
  rw [e1, e2]
  cases walk t.nodes x t.nodes.length 0 with
  | error e => rfl
  | ok id =>
    dsimp only
    cases t.nodes[id]? with
    | none => rfl
    | some node =>
      dsimp only
      cases t.cfg.isCls with
      | true =>
        simp only [if_true]
        cases node.cacheCls with
        | some c => rfl
        | none =>
          dsimp only
          split_ifs
          · rfl
          · cases npArgmax (node.counts.map (fun (c : Nat) => (c : K) / ((node.counts.sum : Nat) : K))) with
            | none => rfl
            | some i =>
              dsimp only
              cases idxToClass t.cfg.classes i with
              | none => rfl
              | some l => rfl
      | false =>
        simp only [Bool.false_eq_true, if_false]
        cases node.cacheReg with
        | some v => rfl
        | none =>
          dsimp only
          cases node.labels with
          | none => rfl
          | some ls =>
            cases ls with
            | nil => rfl
            | cons a l => rfl

theorem predictBatch_under (B : Option Int) (xs : List (List K)) : ∀ (t : Tree K G),
    (t.under B).predictBatch xs = (t.predictBatch xs).map (fun p => (p.1, p.2.under B)) := by
  induction xs with
  | nil => intro t; rfl
  | cons x xs ih =>
    intro t
    unfold Tree.predictBatch
    rw [predict_under]
    cases t.predict x with
    | error e => rfl
    | ok p =>
      simp only [Except.map]
      rw [ih]
      cases p.2.predictBatch xs with
      | error e => rfl
      | ok q => rfl

theorem boostStep_under (B : Option Int) {f f' : Forest K G} (hc : f'.cfg = f.cfg) (hn : f'.newRef = f.newRef) (data : List (List K))
    (tree : Tree K G) (i : Nat) (rows : List Nat) (w : World K G) :
    boostStep f' data (tree.under B) i rows w = (boostStep f data tree i rows w).map (fun p => (p.1, p.2.under B)) := by
  unfold boostStep
  rw [hc, hn]
  cases f.cfg.boosting with
  | false => rfl
  | true =>
    simp only [if_true]
    cases f.newRef with
    | none => rfl
    | some nr =>
      dsimp only
      unfold boostUpdate
      cases takeE data [] rows with
      | error e => rfl
      | ok cur =>
        dsimp only
        rw [predictBatch_under]
        cases tree.predictBatch cur with
        | error e => rfl
        | ok p =>
          simp only [Except.map]
          cases takeE (w.arrays.getD nr []) 0 rows with
          | error e => rfl
          | ok tg => rfl

theorem predict_queries {t t' : Tree K G} {x : List K} {p : Pred K} (h : t.predict x = .ok (p, t')) : t'.numQueries = t.numQueries := by
  unfold Tree.predict at h
  split at h
  · cases h
  · split at h
    · cases h
    · rename_i id _ _ node _
      cases hc : t.cfg.isCls with
      | true =>
        rw [hc, if_pos rfl] at h
        split at h
        · cases h; rfl
        · by_cases h0 : node.counts.sum = 0
          · rw [if_pos h0] at h; cases h
          · rw [if_neg h0] at h
            dsimp only at h
            split at h
            · cases h
            · split at h
              · cases h
              · cases h; rfl
      | false =>
        rw [hc, if_neg (by simp)] at h
        split at h
        · cases h; rfl
        · split at h
          · cases h
          · cases h
          · cases h; rfl

theorem predictBatch_queries (xs : List (List K)) : ∀ {t t' : Tree K G} {ps : List (Pred K)}, t.predictBatch xs = .ok (ps, t') →
    t'.numQueries = t.numQueries := by
  induction xs with
  | nil => intro t t' ps h; cases h; rfl
  | cons x xs ih =>
    intro t t' ps h
    unfold Tree.predictBatch at h
    split at h
    · cases h
    · rename_i h1
      split at h
      · cases h
      · rename_i h2
        cases h
        exact (ih h2).trans (predict_queries h1)

theorem boostStep_queries {f : Forest K G} {data : List (List K)} {tree tree' : Tree K G} {i : Nat} {rows : List Nat} {w w' : World K G}
    (h : boostStep f data tree i rows w = .ok (w', tree')) : tree'.numQueries = tree.numQueries := by
  unfold boostStep at h
  split_ifs at h
  · split at h
    · cases h
    · split at h
      · cases h
      · rename_i hb
        cases h
        unfold boostUpdate at hb
        split at hb
        · cases hb
        · split at hb
          · cases hb
          · rename_i hp
            split at hb
            · cases hb
            · cases hb
              exact predictBatch_queries _ hp
  · cases h; rfl

/-- The same forest but for the budget: what is left of it is noted in the forest and in its trees. -/
structure SameButBudget (f f' : Forest K G) : Prop where
  forest : f' = { f with remaining := f'.remaining, trees := f'.trees }
  trees : f'.trees.map (fun t : Tree K G => { t with remaining := none }) = f.trees.map (fun t : Tree K G => { t with remaining := none })

theorem forestStep_unspent {data : List (List K)} {F i : Nat} {f f' f1 : Forest K G} {w w1 : World K G} (hs : SameButBudget f f')
    (hr : f.remaining = leftOf B1 f.numQueries) (hr' : f'.remaining = leftOf B2 f.numQueries)
    (h : forestStep R mem data F i f w = .ok (true, f1, w1)) (h1 : Within B1 f1.numQueries) (h2 : Within B2 f1.numQueries)
    (hpos : B2 ≠ none → ∀ t ∈ f1.trees, 0 < t.numQueries) :
    ∃ f1', forestStep R mem data F i f' w = .ok (true, f1', w1) ∧ SameButBudget f1 f1' ∧ f1.remaining = leftOf B1 f1.numQueries ∧
      f1'.remaining = leftOf B2 f1.numQueries := by
  have hf := hs.forest
  have e1 : f'.cfg = f.cfg := by rw [hf]
  have e2 : f'.rng = f.rng := by rw [hf]
  have e3 : f'.newRef = f.newRef := by rw [hf]
  have e4 : f'.orgRef = f.orgRef := by rw [hf]
  have e5 : f'.discrete = f.discrete := by rw [hf]
  have e6 : f'.treeCfg = f.treeCfg := by unfold Forest.treeCfg; rw [hf]
  have e7 : f'.oobList = f.oobList := by rw [hf]
  have e8 : f'.numQueries = f.numQueries := by rw [hf]
  unfold forestStep at h ⊢
  simp only [e1, e2, e3, e4, e5, e6, e7, e8] at h ⊢
  cases hsub : subsets R f.rng data.length F f.cfg with
  | error e => rw [hsub] at h; cases h
  | ok p =>
    obtain ⟨rows, feats, g1⟩ := p
    rw [hsub] at h
    dsimp only at h ⊢
    cases hsp : spent f.remaining with
    | true => rw [hsp, if_pos rfl] at h; cases h
    | false =>
      rw [hsp, if_neg (by simp)] at h
      cases href : (if f.cfg.boosting = true then f.newRef else f.orgRef) with
      | none => rw [href] at h; cases h
      | some ref =>
        rw [href] at h
        dsimp only at h ⊢
        cases hbo : bootstrapIdcs R g1 data.length f.cfg rows with
        | error e => rw [hbo] at h; cases h
        | ok q =>
          obtain ⟨rows, g2⟩ := q
          rw [hbo] at h
          dsimp only at h ⊢
          cases hin : Tree.init R f.treeCfg data (w.arrays.getD ref []) f.discrete f.remaining (R.randint w.glob.np maxSeed).1 (some rows)
            (some feats) with
          | error e => rw [hin] at h; cases h
          | ok q2 =>
            obtain ⟨tree0, glob0⟩ := q2
            obtain ⟨i1, i2, i3⟩ := init_under f'.remaining hin
            rw [hin] at h
            dsimp only at h
            cases hfit : Tree.fit R (mem i) tree0 glob0 none none with
            | error e => rw [hfit] at h; cases h
            | ok q3 =>
              obtain ⟨tree, glob1⟩ := q3
              rw [hfit] at h
              dsimp only at h
              cases hk : keepTree f.remaining tree.numQueries with
              | false => rw [hk, if_neg (by simp)] at h; cases h
              | true =>
                rw [hk, if_pos rfl] at h
                cases hb : boostStep f data tree i rows { w with glob := glob1 } with
                | error e => rw [hb] at h; cases h
                | ok q4 =>
                  obtain ⟨w2, tree'⟩ := q4
                  rw [hb] at h
                  simp only [Except.ok.injEq, Prod.mk.injEq, true_and] at h
                  obtain ⟨rfl, rfl⟩ := h
                  have hq' := boostStep_queries hb
                  dsimp only at h1 h2 hpos
                  have hrr : f.remaining = leftOf B1 f.numQueries := hr
                  rw [i2] at hfit
                  have hsp2 : spent f'.remaining = false := by
                    rw [hr']
                    exact noBudget_leftOf.2 (h2.mono (Nat.le_add_right _ _))
                  have w1' : Within f.remaining tree.numQueries := by rw [hr]; exact within_leftOf.2 h1
                  have w2' : Within f'.remaining tree.numQueries := by rw [hr']; exact within_leftOf.2 h2
                  have hk2 : keepTree f'.remaining tree.numQueries = true := by
                    rw [hr']
                    cases hB2 : B2 with
                    | none => rfl
                    | some b =>
                      have p0 : 0 < tree.numQueries := by
                        rw [← hq']
                        exact hpos (by rw [hB2]; simp) tree' (by simp)
                      have p1 := h2 b hB2
                      simp only [keepTree, leftOf, Option.map_some, Bool.and_eq_true, decide_eq_true_eq]
                      refine ⟨p0, ?_⟩
                      unfold buffer
                      push_cast at p1
                      omega
                  rw [hsp2, if_neg (by simp), i1]
                  dsimp only
                  have hfit2 := fit_unspent (B2 := f'.remaining) hfit w1' w2'
                  rw [hfit2]
                  dsimp only
                  have hk3 : keepTree f'.remaining (tree.under f'.remaining).numQueries = true := hk2
                  rw [hk3, if_pos rfl, boostStep_under (f := f) f'.remaining e1 e3, hb]
                  refine ⟨_, rfl, ⟨?_, ?_⟩, ?_, ?_⟩
                  · have : (tree.under f'.remaining).numQueries = tree.numQueries := rfl
                    rw [this]
                    rw [hf]
                  · rw [List.map_append, List.map_append, hs.trees]
                    rfl
                  · show Option.map _ f.remaining = _
                    rw [hr]
                    exact leftOf_leftOf _ _ _
                  · show Option.map _ f'.remaining = _
                    rw [hr']
                    exact leftOf_leftOf _ _ _

theorem forestLoop_queries (data : List (List K)) (F : Nat) (is : List Nat) : ∀ {f f' : Forest K G} {w w' : World K G},
    forestLoop R mem data F is f w = .ok (f', w') → f.numQueries ≤ f'.numQueries := by
  have hstep : ∀ {i : Nat} {f f' : Forest K G} {w w' : World K G} {b : Bool}, forestStep R mem data F i f w = .ok (b, f', w') →
      f.numQueries ≤ f'.numQueries := by
    intro i f f' w w' b h
    unfold forestStep at h
    dsimp only at h
    split at h
    · cases h
    · cases hsp : spent f.remaining with
      | true => rw [hsp, if_pos rfl] at h; cases h; exact le_refl _
      | false =>
        rw [hsp, if_neg (by simp)] at h
        split at h
        · cases h
        · split at h
          · cases h
          · split at h
            · cases h
            · split at h
              · cases h
              · rename_i tree _ _
                cases hk : keepTree f.remaining tree.numQueries with
                | true =>
                  rw [hk, if_pos rfl] at h
                  split at h
                  · cases h
                  · cases h; exact Nat.le_add_right _ _
                | false => rw [hk, if_neg (by simp)] at h; cases h; exact le_refl _
  induction is with
  | nil => intro f f' w w' h; cases h; exact le_refl _
  | cons i is ih =>
    intro f f' w w' h
    unfold forestLoop at h
    cases hs : forestStep R mem data F i f w with
    | error e => rw [hs] at h; cases h
    | ok p =>
      obtain ⟨b, f1, w1⟩ := p
      rw [hs] at h
      have := hstep hs
      cases b with
      | false => cases h; exact this
      | true =>
        dsimp only at h
        split_ifs at h
        exact this.trans (ih h)

theorem forestLoop_length (data : List (List K)) (F : Nat) (is : List Nat) : ∀ {f f' : Forest K G} {w w' : World K G},
    forestLoop R mem data F is f w = .ok (f', w') → f'.trees.length ≤ f.trees.length + is.length := by
  induction is with
  | nil => intro f f' w w' h; cases h; exact le_refl _
  | cons i is ih =>
    intro f f' w w' h
    unfold forestLoop at h
    cases hs : forestStep R mem data F i f w with
    | error e => rw [hs] at h; cases h
    | ok p =>
      obtain ⟨b, f1, w1⟩ := p
      rw [hs] at h
      obtain ⟨a1, a2, _⟩ := forestStep_adds hs
      cases b with
      | false => cases h; rw [a2 rfl]; exact Nat.le_add_right _ _
      | true =>
        dsimp only at h
        split_ifs at h
        obtain ⟨t, ht⟩ := a1 rfl
        have := ih h
        rw [ht, List.length_append] at this
        simp only [List.length_cons, List.length_nil] at this ⊢
        omega

theorem forestLoop_next {data : List (List K)} {F i : Nat} {is : List Nat} {f f' : Forest K G} {w w' : World K G}
    (h : forestStep R mem data F i f w = .ok (true, f', w')) (hb : ∀ b, f'.remaining = some b → -buffer < b) :
    forestLoop R mem data F (i :: is) f w = forestLoop R mem data F is f' w' := by
  conv_lhs => unfold forestLoop
  rw [h]
  cases hr : f'.remaining with
  | none => simp [hr]
  | some b => simp [hr, hb b hr]

/-- The same forest with another note of what is left of the budget. -/
def Forest.budgeted (B : Option Int) (f : Forest K G) : Forest K G := { f with remaining := B }

/-- `fit` without arguments: some preparation that has nothing to do with the budget, then the loop. -/
theorem forestFit_budget (f : Forest K G) (w : World K G) : ∃ s : Except Err (List (List K) × Nat × Forest K G × World K G),
    (∀ p, s = .ok p → p.2.2.1.trees = [] ∧ p.2.2.1.numQueries = f.numQueries) ∧
    ∀ n, Forest.fit R mem (f.budgeted n) w none none =
      s.bind (fun p => forestLoop R mem p.1 p.2.1 (List.range f.cfg.nEstimators) (p.2.2.1.budgeted n) p.2.2.2) := by
  cases hd : f.data with
  | none =>
    refine ⟨.error .typeError, by simp, fun n => ?_⟩
    have e : (f.budgeted n).data = none := hd
    simp only [Forest.fit, bothOrNeither, e]
    rfl
  | some d =>
    cases d with
    | nil =>
      refine ⟨.error .indexError, by simp, fun n => ?_⟩
      have e : (f.budgeted n).data = some [] := hd
      simp only [Forest.fit, bothOrNeither, e]
      rfl
    | cons row rows =>
      have e : ∀ n, (f.budgeted n).data = some (row :: rows) := fun _ => hd
      have e2 : ∀ n, fitTargets (f.budgeted n) w = (fitTargets f w).map (fun p => (p.1.budgeted n, p.2)) := by
        intro n
        unfold fitTargets
        have e3 : (f.budgeted n).cfg.isCls = f.cfg.isCls := rfl
        have e4 : (f.budgeted n).newRef = f.newRef := rfl
        have e5 : (f.budgeted n).orgRef = f.orgRef := rfl
        rw [e3, e4, e5]
        cases f.cfg.isCls with
        | false => rfl
        | true =>
          simp only [if_true]
          cases f.orgRef with
          | none => rfl
          | some a =>
            cases f.newRef with
            | none => rfl
            | some b => rfl
      cases hft : fitTargets f w with
      | error er =>
        refine ⟨.error er, by simp, fun n => ?_⟩
        have := e2 n
        rw [hft] at this
        simp only [Forest.fit, bothOrNeither, e, this]
        rfl
      | ok p =>
        obtain ⟨f1, w1⟩ := p
        have hk : f1.cfg.nEstimators = f.cfg.nEstimators ∧ f1.numQueries = f.numQueries := by
          unfold fitTargets at hft
          split_ifs at hft
          · split at hft
            · cases hft; exact ⟨rfl, rfl⟩
            · cases hft
          · cases hft; exact ⟨rfl, rfl⟩
        rw [← hk.1, ← hk.2]
        cases hm : maybeDiscrete f1.cfg.makeDiscrete (row :: rows) f1.discrete with
        | error er =>
          refine ⟨.error er, by simp, fun n => ?_⟩
          have := e2 n
          rw [hft] at this
          have hm' : maybeDiscrete (f1.budgeted n).cfg.makeDiscrete (row :: rows) (f1.budgeted n).discrete = .error er := hm
          simp only [Forest.fit, bothOrNeither, e, this, Except.map, hm']
          rfl
        | ok dd =>
          refine ⟨.ok (row :: rows, row.length,
            (let f2 := { f1 with discrete := dd }
             let f2 := if f2.cfg.precompMinmax then { f2 with minmax := some (colMinMax (row :: rows) row.length) } else f2
             let f2 := if f2.cfg.oobScore then { f2 with oobList := some [] } else f2
             ({ f2 with trees := [] }, w1))), ?_, fun n => ?_⟩
          · intro p hp
            cases hp
            cases hp1 : f1.cfg.precompMinmax <;> cases hp2 : f1.cfg.oobScore <;> simp [hp1, hp2]
          · have := e2 n
            rw [hft] at this
            have hm' : maybeDiscrete (f1.budgeted n).cfg.makeDiscrete (row :: rows) (f1.budgeted n).discrete = .ok dd := hm
            simp only [Forest.fit, bothOrNeither, e, this, Except.map, hm', Except.bind]
            have a1 : (f1.budgeted n).cfg.precompMinmax = f1.cfg.precompMinmax := rfl
            rw [a1]
            cases f1.cfg.precompMinmax with
            | true =>
              simp only [if_true]
              have a2 : (f1.budgeted n).cfg.oobScore = f1.cfg.oobScore := rfl
              rw [a2]
              cases f1.cfg.oobScore <;> rfl
            | false =>
              simp only [Bool.false_eq_true, if_false]
              have a2 : (f1.budgeted n).cfg.oobScore = f1.cfg.oobScore := rfl
              rw [a2]
              cases f1.cfg.oobScore <;> rfl

theorem forestLoop_unspent (data : List (List K)) (F : Nat) (is : List Nat) : ∀ {f f' f1 : Forest K G} {w w1 : World K G},
    SameButBudget f f' → f.remaining = leftOf B1 f.numQueries → f'.remaining = leftOf B2 f.numQueries →
    forestLoop R mem data F is f w = .ok (f1, w1) → f1.trees.length = f.trees.length + is.length →
    Within B1 f1.numQueries → Within B2 f1.numQueries → (B2 ≠ none → ∀ t ∈ f1.trees, 0 < t.numQueries) →
    ∃ f1', forestLoop R mem data F is f' w = .ok (f1', w1) ∧ SameButBudget f1 f1' ∧ f1'.remaining = leftOf B2 f1.numQueries := by
  induction is with
  | nil =>
    intro f f' f1 w w1 hs hr hr' h _ _ _ _
    cases h
    exact ⟨f', rfl, hs, hr'⟩
  | cons i is ih =>
    intro f f' f1 w w1 hs hr hr' h hlen h1 h2 hpos
    unfold forestLoop at h
    cases hst : forestStep R mem data F i f w with
    | error e => rw [hst] at h; cases h
    | ok p =>
      obtain ⟨b, f2, w2⟩ := p
      rw [hst] at h
      obtain ⟨a1, a2, _⟩ := forestStep_adds hst
      cases b with
      | false =>
        exfalso
        cases h
        rw [a2 rfl, List.length_cons] at hlen
        omega
      | true =>
        dsimp only at h
        split_ifs at h with hass
        have hq := forestLoop_queries data F is h
        have hpre := (forestLoop_adds data F is h).1
        obtain ⟨f2', c1, c2, c3, c4⟩ := forestStep_unspent (B2 := B2) hs hr hr' hst (h1.mono hq) (h2.mono hq)
          (fun hn t ht => hpos hn t (hpre.subset ht))
        rw [forestLoop_next c1]
        swap
        · intro b hb
          rw [c4] at hb
          cases hB : B2 with
          | none => rw [hB] at hb; cases hb
          | some b' =>
            have := (h2.mono hq) b' hB
            rw [hB] at hb
            simp only [leftOf, Option.map_some, Option.some.injEq] at hb
            unfold buffer
            omega
        obtain ⟨t, ht⟩ := a1 rfl
        refine ih c2 c3 c4 h ?_ h1 h2 hpos
        rw [ht, List.length_append, hlen]
        simp only [List.length_cons, List.length_nil]
        omega

end

/-- C105 for a forest: a fit that makes all the trees asked for with `f.numQueries` queries, less than its budget, is the same with any
other budget larger than that and without a budget, if every tree asked a query (a forest with a budget drops a tree that asked none);
only the notes of what is left of the budget differ. -/
theorem C105_forest (R : Rng K G) (mem : Nat → Nat → Junk K) (w : World K G) (cfg : ForestCfg K) (data : List (List K)) (labels : Nat)
    (b B : Option Int) (f : Forest K G) (w1 : World K G) (h : runForest R mem w cfg data labels b = .ok (f, w1))
    (hn : f.trees.length = cfg.nEstimators) (hb : Within b f.numQueries) (hB : Within B f.numQueries)
    (hpos : B ≠ none → ∀ t ∈ f.trees, 0 < t.numQueries) :
    ∃ f', runForest R mem w cfg data labels B = .ok (f', w1) ∧ SameButBudget f f' ∧
      f'.remaining = B.map (fun b => b - (f.numQueries : Int)) := by
  unfold runForest at h ⊢
  have hz : ∀ B : Option Int, leftOf B 0 = B := by
    intro B
    cases B with
    | none => rfl
    | some b => simp [leftOf]
  have hi : ∀ B : Option Int, Forest.init R w cfg none (some data) (some labels) B =
      (Forest.init R w cfg none (some data) (some labels) b).map (fun p => ({ p.1 with remaining := B }, p.2)) := by
    intro B
    unfold Forest.init
    dsimp only
    split_ifs <;> rfl
  cases h0 : Forest.init R w cfg none (some data) (some labels) b with
  | error e => rw [h0] at h; cases h
  | ok p =>
    obtain ⟨f0, w0⟩ := p
    have hi' := hi B
    rw [h0] at h hi'
    rw [hi']
    simp only [Bind.bind, Except.bind, Except.map] at h ⊢
    have hf0 : f0.cfg.nEstimators = cfg.nEstimators ∧ f0.remaining = b ∧ f0.numQueries = 0 := by
      unfold Forest.init at h0
      dsimp only at h0
      split_ifs at h0
      all_goals
        simp only [Except.ok.injEq, Prod.mk.injEq] at h0
        rw [← h0.1]
        exact ⟨rfl, rfl, rfl⟩
    obtain ⟨s, hs0, hs⟩ := forestFit_budget (R := R) (mem := mem) f0 w0
    have e0 : f0 = f0.budgeted b := by rw [← hf0.2.1]; rfl
    have e1 : ({ f0 with remaining := B } : Forest K G) = f0.budgeted B := rfl
    rw [e0, hs] at h
    rw [e1, hs]
    cases s with
    | error e => cases h
    | ok q =>
      obtain ⟨d, F, f1, w2⟩ := q
      simp only [Except.bind] at h ⊢
      obtain ⟨t0, q0⟩ := hs0 _ rfl
      dsimp only at t0 q0
      refine forestLoop_unspent (B1 := b) (B2 := B) d F _ (f := f1.budgeted b) (f' := f1.budgeted B) ⟨rfl, rfl⟩ ?_ ?_ h ?_ hb hB hpos
      · show b = leftOf b f1.numQueries
        rw [q0, hf0.2.2, hz]
      · show B = leftOf B f1.numQueries
        rw [q0, hf0.2.2, hz]
      · rw [hn]
        show cfg.nEstimators = f1.trees.length + _
        rw [t0, List.length_range, List.length_nil, Nat.zero_add, hf0.1]

/-- Two trees of 22 and 12 queries: budgets of 35 and 1000 give the forest of the fit without a budget; a budget of 20 gives one tree. -/
example :
    let run := fun b : Option Int => (runForest rngQ exMems exWorld fcfgQ exData 0 b).map (fun p =>
      (p.1.remaining, p.1.trees.map (fun (t : Tree ℚ Nat) => (t.numQueries, t.nodes.map Node.idcs))))
    let trees := [(22, [[3, 4, 1, 0, 1, 4], [0], [3, 4, 1, 1, 4], [3], [4, 1, 1, 4]]), (12, [[4, 5, 2, 1, 2, 5], [4, 2, 1, 2], [5, 5]])]
    run none = .ok (none, trees) ∧ run (some 35) = .ok (some 1, trees) ∧ run (some 1000) = .ok (some 966, trees) ∧
      run (some 20) = .ok (some (-2), trees.take 1) := by
  dsimp only
  refine ⟨?_, ?_, ?_, ?_⟩ <;> decide +kernel

end FF
