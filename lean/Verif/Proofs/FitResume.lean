import Verif.Proofs.FitQuiet

/-!
# The steps of `fit`, put together again
-/

namespace FF

set_option linter.unusedSectionVars false

open Spec

variable {K : Type} [Field K] [LinearOrder K] [IsStrictOrderedRing K] [FloorRing K] [NpFun K] {G : Type}
variable {R : Rng K G}

/-! ### Trees -/

/-- The rest of a pass of `fit` after the scan, and the passes after it. -/
def afterScan (R : Rng K G) (mem : Nat → Junk K) (n : Nat) (s : Scan K G) : Except Err (Tree K G × Glob G) :=
  match splitBest R mem s with
  | .error e => .error e
  | .ok (again, t', glob') =>
    match getDepth t' with
    | .error e => .error e
    | .ok d => if again then fitLoop R mem n { t' with depth := d } glob' else .ok ({ t' with depth := d }, glob')

/-- The rest of a call of `tree.fit()`, in one go. -/
def TreePhase.resume (R : Rng K G) (mem : Nat → Junk K) (glob : Glob G) : TreePhase K G → Except Err (Tree K G × Glob G)
  | .pass n t => fitLoop R mem n t glob
  | .scan n t best pos ids =>
    match scanLeaves R mem pos ids { t := t, glob := glob, best := best } with
    | .error e => .error e
    | .ok s => afterScan R mem n s
  | .split n t best => afterScan R mem n { t := t, glob := glob, best := best }

theorem fitLoop_succ (mem : Nat → Junk K) (n : Nat) (t : Tree K G) (glob : Glob G) :
    fitLoop R mem (n + 1) t glob =
      match leafLimit t.cfg.maxLeafNodes t.leaves.length with
      | .error e => .error e
      | .ok true => .ok (t, glob)
      | .ok false =>
        match scanLeaves R mem 0 t.leaves { t := t, glob := glob, best := none } with
        | .error e => .error e
        | .ok s => afterScan R mem n s := by
  unfold fitLoop fitStep afterScan
  cases leafLimit t.cfg.maxLeafNodes t.leaves.length with
  | error e => rfl
  | ok b =>
    cases b with
    | true => rfl
    | false =>
      dsimp only
      cases scanLeaves R mem 0 t.leaves { t := t, glob := glob, best := none } with
      | error e => rfl
      | ok s =>
        dsimp only
        cases splitBest R mem s with
        | error e => rfl
        | ok o =>
          obtain ⟨again, t', gl⟩ := o
          dsimp only
          cases getDepth t' with
          | error e => rfl
          | ok d => cases again <;> rfl

/-- A step does not change what the call comes to. -/
theorem TreePhase.resume_step (mem : Nat → Junk K) (glob : Glob G) (ph : TreePhase K G) :
    ph.resume R mem glob =
      match ph.step R mem glob with
      | .error e => .error e
      | .ok (.inl ph', gl) => ph'.resume R mem gl
      | .ok (.inr t, gl) => .ok (t, gl) := by
  cases ph with
  | pass n t =>
    cases n with
    | zero => rfl
    | succ n =>
      unfold TreePhase.resume TreePhase.step
      dsimp only
      rw [fitLoop_succ]
      cases leafLimit t.cfg.maxLeafNodes t.leaves.length with
      | error e => rfl
      | ok b => cases b <;> rfl
  | scan n t best pos ids =>
    cases ids with
    | nil => rfl
    | cons id ids =>
      have e : scanLeaves R mem pos (id :: ids) { t := t, glob := glob, best := best } =
          match scanLeaf R mem pos id { t := t, glob := glob, best := best } with
          | .error e => .error e
          | .ok none => .ok { t := t, glob := glob, best := best }
          | .ok (some s') => scanLeaves R mem (pos + 1) ids s' := rfl
      unfold TreePhase.resume TreePhase.step
      dsimp only
      rw [e]
      cases scanLeaf R mem pos id { t := t, glob := glob, best := best } with
      | error e => rfl
      | ok o => cases o <;> rfl
  | split n t best =>
    unfold TreePhase.resume TreePhase.step afterScan
    dsimp only
    cases splitBest R mem { t := t, glob := glob, best := best } with
    | error e => rfl
    | ok o =>
      obtain ⟨again, t', gl⟩ := o
      dsimp only
      cases getDepth t' with
      | error e => rfl
      | ok d => cases again <;> rfl

theorem Tree.fit_resume (mem : Nat → Junk K) (t : Tree K G) (glob : Glob G) :
    Tree.fit R mem t glob none none =
      match TreePhase.start t with
      | .error e => .error e
      | .ok ph => ph.resume R mem glob := by
  unfold Tree.fit TreePhase.start bothOrNeither
  dsimp only
  cases maybeDiscrete t.cfg.makeDiscrete t.data t.discrete with
  | error e => rfl
  | ok dd =>
    dsimp only
    cases t.cfg.splitter <;> rfl

/-! ### Forests -/

/-- The rest of `forest.fit()` once a tree is fitted, in one go. -/
def afterTree (R : Rng K G) (mem : Nat → Nat → Junk K) (c : ForestPass K G) (tree : Tree K G) (w : World K G) :
    Except Err (Forest K G × World K G) :=
  if keepTree c.f.remaining tree.numQueries then
    match boostStep c.f c.data tree c.i c.rows w with
    | .error e => .error e
    | .ok (w', tree') =>
      if (match c.f.remaining.map (fun b => b - (tree.numQueries : Int)) with | none => true | some b => decide (-buffer < b)) then
        forestLoop R mem c.data c.F c.rest { c.f with
          trees := c.f.trees ++ [tree'], rng := c.g, oobList := c.oob
          numQueries := c.f.numQueries + tree.numQueries
          remaining := c.f.remaining.map (fun b => b - (tree.numQueries : Int)) } w'
      else .error (.assertion "Error: went over budget")
  else .ok ({ c.f with rng := c.g, oobList := c.oob }, w)

/-- The rest of `forest.fit()` once the seed of a tree is drawn, in one go. -/
def afterSeed (R : Rng K G) (mem : Nat → Nat → Junk K) (c : ForestPass K G) (s : Nat) (w : World K G) : Except Err (Forest K G × World K G) :=
  match Tree.init R c.f.treeCfg c.data (w.arrays.getD c.ref []) c.f.discrete c.f.remaining s (some c.rows) (some c.feats) with
  | .error e => .error e
  | .ok (tree0, glob0) =>
    match Tree.fit R (mem c.i) tree0 glob0 none none with
    | .error e => .error e
    | .ok (tree, glob1) => afterTree R mem c tree { w with glob := glob1 }

/-- The rest of a call of `forest.fit()`, in one go. -/
def ForestPhase.resume (R : Rng K G) (mem : Nat → Nat → Junk K) (w : World K G) : ForestPhase K G → Except Err (Forest K G × World K G)
  | .pass data F is f => forestLoop R mem data F is f w
  | .seed c => afterSeed R mem c (R.randint w.glob.np maxSeed).1 w
  | .build c s => afterSeed R mem c s w
  | .grow c ph =>
    match ph.resume R (mem c.i) w.glob with
    | .error e => .error e
    | .ok (tree, glob) => afterTree R mem c tree { w with glob := glob }
  | .keep c tree => afterTree R mem c tree w

theorem afterTree_glob (mem : Nat → Nat → Junk K) (c : ForestPass K G) (s : Nat) (w : World K G) (glob : Glob G) :
    afterSeed R mem c s { w with glob := glob } = afterSeed R mem c s w := rfl

theorem forestLoop_cons (mem : Nat → Nat → Junk K) (data : List (List K)) (F i : Nat) (is : List Nat) (f : Forest K G) (w : World K G) :
    forestLoop R mem data F (i :: is) f w =
      match (ForestPhase.pass data F (i :: is) f).step R mem w with
      | .error e => .error e
      | .ok (.inl ph, w') => ph.resume R mem w'
      | .ok (.inr f', w') => .ok (f', w') := by
  unfold forestLoop forestStep ForestPhase.step
  dsimp only
  cases subsets R f.rng data.length F f.cfg with
  | error e => rfl
  | ok p =>
    obtain ⟨rows, feats, g1⟩ := p
    dsimp only
    cases spent f.remaining with
    | true => rfl
    | false =>
      simp only [Bool.false_eq_true, if_false]
      cases (if f.cfg.boosting then f.newRef else f.orgRef) with
      | none => rfl
      | some ref =>
        dsimp only
        cases bootstrapIdcs R g1 data.length f.cfg rows with
        | error e => rfl
        | ok q =>
          obtain ⟨rows, g2⟩ := q
          dsimp only [ForestPhase.resume, afterSeed, afterTree]
          cases Tree.init R f.treeCfg data (w.arrays.getD ref []) f.discrete f.remaining (R.randint w.glob.np maxSeed).1 (some rows) (some feats) with
          | error e => rfl
          | ok p =>
            obtain ⟨tree0, glob0⟩ := p
            dsimp only
            cases Tree.fit R (mem i) tree0 glob0 none none with
            | error e => rfl
            | ok p =>
              obtain ⟨tree, glob1⟩ := p
              dsimp only
              cases keepTree f.remaining tree.numQueries with
              | false => rfl
              | true =>
                simp only [if_true]
                cases boostStep f data tree i rows { w with glob := glob1 } with
                | error e => rfl
                | ok p => rfl

/-- A step does not change what the call comes to. -/
theorem ForestPhase.resume_step (mem : Nat → Nat → Junk K) (w : World K G) (ph : ForestPhase K G) :
    ph.resume R mem w =
      match ph.step R mem w with
      | .error e => .error e
      | .ok (.inl ph', w') => ph'.resume R mem w'
      | .ok (.inr f, w') => .ok (f, w') := by
  cases ph with
  | pass data F is f =>
    cases is with
    | nil => rfl
    | cons i is => exact forestLoop_cons mem data F i is f w
  | seed c => rfl
  | build c s =>
    unfold ForestPhase.resume ForestPhase.step afterSeed
    dsimp only
    cases Tree.init R c.f.treeCfg c.data (w.arrays.getD c.ref []) c.f.discrete c.f.remaining s (some c.rows) (some c.feats) with
    | error e => rfl
    | ok p =>
      obtain ⟨tree, glob⟩ := p
      dsimp only
      rw [Tree.fit_resume]
      cases TreePhase.start tree with
      | error e => rfl
      | ok ph => rfl
  | grow c ph =>
    unfold ForestPhase.resume ForestPhase.step
    dsimp only
    rw [TreePhase.resume_step]
    cases ph.step R (mem c.i) w.glob with
    | error e => rfl
    | ok p =>
      obtain ⟨a, gl⟩ := p
      cases a <;> rfl
  | keep c tree =>
    unfold ForestPhase.resume ForestPhase.step afterTree
    dsimp only
    cases keepTree c.f.remaining tree.numQueries with
    | false => rfl
    | true =>
      simp only [if_true]
      cases boostStep c.f c.data tree c.i c.rows w with
      | error e => rfl
      | ok p =>
        obtain ⟨w', tree'⟩ := p
        dsimp only
        cases c.f.remaining with
        | none => rfl
        | some b =>
          dsimp only [Option.map]
          by_cases hb : -buffer < b - (tree.numQueries : Int)
          · simp only [hb, decide_true, if_true]
          · simp only [hb, decide_false, Bool.false_eq_true, if_false]

theorem Forest.fit_resume (mem : Nat → Nat → Junk K) (f : Forest K G) (w : World K G) :
    Forest.fit R mem f w none none =
      match ForestPhase.start f w with
      | .error e => .error e
      | .ok (ph, w') => ph.resume R mem w' := by
  unfold Forest.fit ForestPhase.start bothOrNeither
  dsimp only
  cases f.data with
  | none => rfl
  | some data =>
    cases data with
    | nil => rfl
    | cons row rows =>
      dsimp only
      cases fitTargets f w with
      | error e => rfl
      | ok p =>
        obtain ⟨f1, w1⟩ := p
        dsimp only
        cases maybeDiscrete f1.cfg.makeDiscrete (row :: rows) f1.discrete with
        | error e => rfl
        | ok dd => rfl

/-! ### Jobs -/

/-- The rest of a job, in one go. -/
def FitWork.resume (R : Rng K G) (w : World K G) : FitWork K G → Except Err (FitOut K G × World K G)
  | .tree mem t =>
    match Tree.fit R mem t w.glob none none with
    | .error e => .error e
    | .ok (t', glob) => .ok (.tree t', { w with glob := glob })
  | .treeFit mem ph =>
    match ph.resume R mem w.glob with
    | .error e => .error e
    | .ok (t', glob) => .ok (.tree t', { w with glob := glob })
  | .forest mem f =>
    match Forest.fit R mem f w none none with
    | .error e => .error e
    | .ok (f', w') => .ok (.forest f', w')
  | .forestFit mem ph =>
    match ph.resume R mem w with
    | .error e => .error e
    | .ok (f', w') => .ok (.forest f', w')

theorem FitWork.resume_step (w : World K G) (k : FitWork K G) :
    k.resume R w =
      match k.step R w with
      | .error e => .error e
      | .ok (.inl k', w') => k'.resume R w'
      | .ok (.inr o, w') => .ok (o, w') := by
  cases k with
  | tree mem t =>
    unfold FitWork.resume FitWork.step
    dsimp only
    rw [Tree.fit_resume]
    cases TreePhase.start t <;> rfl
  | treeFit mem ph =>
    unfold FitWork.resume FitWork.step
    dsimp only
    rw [TreePhase.resume_step]
    cases ph.step R mem w.glob with
    | error e => rfl
    | ok p =>
      obtain ⟨a, gl⟩ := p
      cases a <;> rfl
  | forest mem f =>
    unfold FitWork.resume FitWork.step
    dsimp only
    rw [Forest.fit_resume]
    cases ForestPhase.start f w with
    | error e => rfl
    | ok p => rfl
  | forestFit mem ph =>
    unfold FitWork.resume FitWork.step
    dsimp only
    rw [ForestPhase.resume_step]
    cases ph.step R mem w with
    | error e => rfl
    | ok p =>
      obtain ⟨a, gl⟩ := p
      cases a <;> rfl

theorem FitJob.alone_step (w : World K G) (j : FitJob K G) :
    j.alone R w =
      match j.start R w with
      | .error e => .error e
      | .ok (.inl k, w') => k.resume R w'
      | .ok (.inr o, w') => .ok (o, w') := by
  cases j with
  | tree A mem =>
    unfold FitJob.alone FitJob.start
    dsimp only
    cases Tree.init R A.cfg A.data A.labels A.disc A.budget A.seed A.idcs A.feats with
    | error e => rfl
    | ok p => rfl
  | forest cfg data labels budget mem =>
    unfold FitJob.alone FitJob.start
    dsimp only
    cases Forest.init R w cfg none (some data) (some labels) budget with
    | error e => rfl
    | ok p => rfl
  | other h => rfl

end FF
