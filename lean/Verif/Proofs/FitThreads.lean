import Verif.Proofs.FitResume

/-!
# Threads that fit: every thread gets what it gets without the others
-/

namespace FF

set_option linter.unusedSectionVars false

open Spec

variable {K : Type} [Field K] [LinearOrder K] [IsStrictOrderedRing K] [FloorRing K] [NpFun K] {G : Type}
variable {R : Rng K G}

/-! ### Trees that differ in their generator -/

theorem Tree.init_gen (g : G) (s s' : Nat) {cfg : TreeCfg K} (hf : cfg.featSub = .none) (data : List (List K)) (labels : List K)
    (disc : DiscDict K) (budget : Option Int) (idcs feats : Option (List Nat)) :
    (Tree.init R cfg data labels disc budget s idcs feats).map (fun p => p.1.gen g) =
      (Tree.init R cfg data labels disc budget s' idcs feats).map (fun p => p.1.gen g) := by
  unfold Tree.init
  split_ifs
  · rfl
  · dsimp only
    cases defaultFeats data feats with
    | error e => rfl
    | ok fs =>
      dsimp only
      rw [nodeInit_gen (R.seed s') (R.seed s) (by exact hf)]
      generalize Node.init R (R.seed s') _ _ _ _ _ _ _ _ _ = o
      cases o <;> rfl
  · dsimp only
    cases defaultFeats data feats with
    | error e => rfl
    | ok fs =>
      dsimp only
      rw [nodeInit_gen (R.seed s') (R.seed s) (by exact hf)]
      generalize Node.init R (R.seed s') _ _ _ _ _ _ _ _ _ = o
      cases o <;> rfl

theorem Tree.init_cfg {s : Nat} {cfg : TreeCfg K} {data : List (List K)} {labels : List K} {disc : DiscDict K} {budget : Option Int}
    {idcs feats : Option (List Nat)} {t : Tree K G} {glob : Glob G} (h : Tree.init R cfg data labels disc budget s idcs feats = .ok (t, glob)) :
    t.cfg.solver = cfg.solver ∧ t.cfg.binType = cfg.binType ∧ t.cfg.featSub = cfg.featSub := by
  unfold Tree.init at h
  by_cases hl : data.length ≠ labels.length
  · rw [if_pos hl] at h; cases h
  · rw [if_neg hl] at h
    dsimp only at h
    cases hd : defaultFeats data feats with
    | error e => rw [hd] at h; cases h
    | ok fs =>
      rw [hd] at h
      dsimp only at h
      generalize Node.init R (R.seed s) _ _ _ _ _ _ _ _ _ = o at h
      cases o with
      | error e => cases h
      | ok p => cases h; exact ⟨rfl, rfl, rfl⟩

theorem TreePhase.start_gen (g : G) (t : Tree K G) : TreePhase.start (t.gen g) = (TreePhase.start t).map (TreePhase.gen g) := by
  unfold TreePhase.start Tree.gen
  dsimp only
  cases maybeDiscrete t.cfg.makeDiscrete t.data t.discrete with
  | error e => rfl
  | ok dd =>
    dsimp only
    cases t.cfg.splitter <;> rfl

theorem TreePhase.start_cfg {t : Tree K G} {ph : TreePhase K G} (h : TreePhase.start t = .ok ph) : ph.tree.cfg = t.cfg := by
  unfold TreePhase.start at h
  cases hd : maybeDiscrete t.cfg.makeDiscrete t.data t.discrete with
  | error e => rw [hd] at h; cases h
  | ok dd =>
    rw [hd] at h
    dsimp only at h
    cases hs : t.cfg.splitter <;> rw [hs] at h <;> cases h
    rfl

theorem Tree.predict_gen (g : G) (t : Tree K G) (x : List K) : (t.gen g).predict x = (t.predict x).map (fun p => (p.1, p.2.gen g)) := by
  unfold Tree.predict
  have e1 : (t.gen g).nodes = t.nodes := rfl
  have e2 : (t.gen g).cfg = t.cfg := rfl
  rw [e1, e2]
  cases walk t.nodes x t.nodes.length 0 with
  | error e => rfl
  | ok id =>
    dsimp only
    cases t.nodes[id]? with
    | none => rfl
    | some nd =>
      dsimp only
      cases t.cfg.isCls with
      | true =>
        simp only [if_true]
        cases nd.cacheCls with
        | some p => rfl
        | none =>
          dsimp only
          split_ifs
          · rfl
          · generalize npArgmax (_ : List K) = o
            cases o with
            | none => rfl
            | some i =>
              dsimp only
              cases idxToClass t.cfg.classes i <;> rfl
      | false =>
        simp only [Bool.false_eq_true, if_false]
        cases nd.cacheReg with
        | some v => rfl
        | none =>
          dsimp only
          cases nd.labels with
          | none => rfl
          | some ls => cases ls <;> rfl

theorem Tree.predictBatch_gen (g : G) (xs : List (List K)) : ∀ t : Tree K G,
    (t.gen g).predictBatch xs = (t.predictBatch xs).map (fun p => (p.1, p.2.gen g)) := by
  induction xs with
  | nil => intro t; rfl
  | cons x xs ih =>
    intro t
    unfold Tree.predictBatch
    rw [Tree.predict_gen]
    cases t.predict x with
    | error e => rfl
    | ok p =>
      obtain ⟨a, t'⟩ := p
      simp only [Except.map]
      rw [ih t']
      cases t'.predictBatch xs with
      | error e => rfl
      | ok q => rfl

theorem scanLeaf_cfg {mem : Nat → Junk K} {pos id : Nat} {s s' : Scan K G} (h : scanLeaf R mem pos id s = .ok (some s')) :
    s'.t.cfg = s.t.cfg ∧ s'.t.leaves = s.t.leaves := by
  unfold scanLeaf at h
  cases hn : s.t.nodes[id]? with
  | none => rw [hn] at h; cases h
  | some leaf =>
    rw [hn] at h
    dsimp only at h
    cases hs : splittableConstraints s.t.cfg leaf with
    | error e => rw [hs] at h; cases h
    | ok b =>
      rw [hs] at h
      cases b with
      | false => cases h; exact ⟨rfl, rfl⟩
      | true =>
        dsimp only at h
        cases hb : noBudget s.t.remaining with
        | true => rw [hb] at h; cases h
        | false =>
          rw [hb] at h
          simp only [Bool.false_eq_true, if_false] at h
          cases hc : calcBestSplit R s.t.rng s.glob (mem id) s.t.cfg leaf s.t.remaining with
          | error e => rw [hc] at h; cases h
          | ok p => rw [hc] at h; cases h; exact ⟨rfl, rfl⟩

theorem splitNodeCore_cfg {t t' : Tree K G} {id : Nat} {nd : Node K} (h : splitNodeCore R t id nd = .ok t') :
    t'.cfg = t.cfg ∧ t'.leaves = t.leaves := by
  unfold splitNodeCore at h
  cases hr : nd.splitReduction with
  | none => rw [hr] at h; cases h; exact ⟨rfl, rfl⟩
  | some red =>
    rw [hr] at h
    dsimp only at h
    split_ifs at h
    cases hd : nd.data with
    | none => rw [hd] at h; cases h
    | some data =>
      cases hl : nd.labels with
      | none => rw [hd, hl] at h; cases h
      | some labels =>
        rw [hd, hl] at h
        dsimp only at h
        cases hc : colE data nd.prevSplitFeature with
        | error e => rw [hc] at h; cases h
        | ok col =>
          rw [hc] at h
          dsimp only at h
          split_ifs at h
          cases h1 : childNode R t.rng t nd labels.length (splitIdcs nd.idcs col nd.splitValue).1 with
          | error e => rw [h1] at h; cases h
          | ok p =>
            rw [h1] at h
            dsimp only at h
            cases h2 : childNode R p.2 t nd labels.length (splitIdcs nd.idcs col nd.splitValue).2 with
            | error e => rw [h2] at h; cases h
            | ok q => rw [h2] at h; cases h; exact ⟨rfl, rfl⟩

theorem splitNode_keepsCfg {glob glob' : Glob G} {j : Junk K} {t t' : Tree K G} {id : Nat} (h : splitNode R glob j t id = .ok (t', glob')) :
    t'.cfg = t.cfg ∧ t'.leaves = t.leaves := by
  unfold splitNode at h
  cases hn : t.nodes[id]? with
  | none => rw [hn] at h; cases h
  | some node =>
    rw [hn] at h
    dsimp only at h
    by_cases ha : node.alreadySplit = true
    · rw [if_pos ha] at h; cases h
    · rw [if_neg ha] at h
      generalize (if node.splitFeature = none then calcBestSplit R t.rng glob j t.cfg node none else .ok (node, t.rng, glob)) = o at h
      cases o with
      | error e => cases h
      | ok p =>
        obtain ⟨node1, g, gl⟩ := p
        dsimp only at h
        cases hc : splitNodeCore R { t with nodes := t.nodes.set id node1, rng := g } id node1 with
        | error e => rw [hc] at h; cases h
        | ok t1 =>
          rw [hc] at h
          cases h
          have := splitNodeCore_cfg hc
          exact this

theorem splitBest_cfg {mem : Nat → Junk K} {s : Scan K G} {b : Bool} {t' : Tree K G} {glob' : Glob G}
    (h : splitBest R mem s = .ok (b, t', glob')) : t'.cfg = s.t.cfg ∧ t'.leaves.length ≤ s.t.leaves.length + 2 := by
  unfold splitBest at h
  cases hb : s.best with
  | none => rw [hb] at h; cases h; exact ⟨rfl, by omega⟩
  | some q =>
    obtain ⟨pos, id, red⟩ := q
    rw [hb] at h
    dsimp only at h
    split_ifs at h
    · unfold performSplit at h
      cases hs : splitNode R s.glob (mem id) s.t id with
      | error e => rw [hs] at h; cases h
      | ok p =>
        obtain ⟨t1, gl⟩ := p
        rw [hs] at h
        dsimp only at h
        obtain ⟨h1, h2⟩ := splitNode_keepsCfg hs
        have h3 : (t1.leaves.eraseIdx pos).length ≤ s.t.leaves.length := by rw [h2]; exact List.length_eraseIdx_le _ _
        cases hl : (t1.nodes[id]?).bind Node.left with
        | none => rw [hl] at h; cases h; exact ⟨h1, by dsimp only; omega⟩
        | some l =>
          cases hr : (t1.nodes[id]?).bind Node.right with
          | none => rw [hl, hr] at h; cases h; exact ⟨h1, by dsimp only; omega⟩
          | some r => rw [hl, hr] at h; cases h; exact ⟨h1, by simp only [List.length_append, List.length_cons, List.length_nil]; omega⟩
    · cases h; exact ⟨rfl, by omega⟩

theorem TreePhase.step_cfg {mem : Nat → Junk K} {glob glob' : Glob G} {ph ph' : TreePhase K G}
    (h : ph.step R mem glob = .ok (.inl ph', glob')) : ph'.tree.cfg = ph.tree.cfg := by
  cases ph with
  | pass n t =>
    cases n with
    | zero => cases h
    | succ n =>
      unfold TreePhase.step at h
      dsimp only at h
      cases hl : leafLimit t.cfg.maxLeafNodes t.leaves.length with
      | error e => rw [hl] at h; cases h
      | ok b => rw [hl] at h; cases b <;> cases h; rfl
  | scan n t best pos ids =>
    cases ids with
    | nil => cases h; rfl
    | cons id ids =>
      unfold TreePhase.step at h
      dsimp only at h
      cases hs : scanLeaf R mem pos id { t := t, glob := glob, best := best } with
      | error e => rw [hs] at h; cases h
      | ok o =>
        rw [hs] at h
        cases o with
        | none => cases h; rfl
        | some s => cases h; exact (scanLeaf_cfg hs).1
  | split n t best =>
    unfold TreePhase.step at h
    dsimp only at h
    cases hs : splitBest R mem { t := t, glob := glob, best := best } with
    | error e => rw [hs] at h; cases h
    | ok o =>
      obtain ⟨again, t', gl⟩ := o
      rw [hs] at h
      dsimp only at h
      cases hd : getDepth t' with
      | error e => rw [hd] at h; cases h
      | ok d =>
        rw [hd] at h
        cases again with
        | false => cases h
        | true => cases h; exact (splitBest_cfg hs).1

/-! ### Two worlds, two forests -/

/-- The label arrays in `L` are the same in both worlds, and none of the first `n0` arrays is gone. -/
structure Agree (L : List Nat) (n0 : Nat) (w w' : World K G) : Prop where
  len : n0 ≤ w.arrays.length
  len' : n0 ≤ w'.arrays.length
  same : ∀ r ∈ L, r < n0 ∧ w.arrays.getD r [] = w'.arrays.getD r []

/-- The array the forest trains its trees on. -/
def Forest.used (f : Forest K G) : Option Nat := if f.cfg.boosting then f.newRef else f.orgRef

/-- The two forests train their trees on the same labels. -/
structure RefSim (L : List Nat) (n0 : Nat) (w w' : World K G) (b : Bool) (r r' : Nat) : Prop where
  lt : r < w.arrays.length
  lt' : r' < w'.arrays.length
  same : w.arrays.getD r [] = w'.arrays.getD r' []
  boost : b = true → r = r' ∧ r ∈ L
  place : r ∈ L ∨ n0 ≤ r

/-- The two forests are the same up to generators and places, and will train on the same labels. -/
structure FSim (L : List Nat) (n0 : Nat) (w w' : World K G) (f f' : Forest K G) : Prop where
  same : SameForest f f'
  quiet : QuietForest f'.cfg
  ref : ∃ r r', f.used = some r ∧ f'.used = some r' ∧ RefSim L n0 w w' f'.cfg.boosting r r'

/-- The two passes are the same up to generators and places. -/
structure PassSim (L : List Nat) (n0 : Nat) (w w' : World K G) (c c' : ForestPass K G) : Prop where
  forest : FSim L n0 w w' c.f c'.f
  used : c.f.used = some c.ref
  used' : c'.f.used = some c'.ref
  rest : ∃ f r, c = { c' with f := f, ref := r }

/-- The two calls of `forest.fit()` are at the same point. -/
inductive PhaseSim (L : List Nat) (n0 : Nat) (w w' : World K G) : ForestPhase K G → ForestPhase K G → Prop
  | pass (data : List (List K)) (F : Nat) (is : List Nat) {f f' : Forest K G} (h : FSim L n0 w w' f f') :
      PhaseSim L n0 w w' (.pass data F is f) (.pass data F is f')
  | seed {c c' : ForestPass K G} (h : PassSim L n0 w w' c c') : PhaseSim L n0 w w' (.seed c) (.seed c')
  | build {c c' : ForestPass K G} (h : PassSim L n0 w w' c c') (s s' : Nat) : PhaseSim L n0 w w' (.build c s) (.build c' s')
  | grow {c c' : ForestPass K G} (h : PassSim L n0 w w' c c') {ph : TreePhase K G} (g : G) (hq : QuietTree ph.tree.cfg)
      (hf : ph.tree.cfg.featSub = .none) : PhaseSim L n0 w w' (.grow c (ph.gen g)) (.grow c' ph)
  | keep {c c' : ForestPass K G} (h : PassSim L n0 w w' c c') {t : Tree K G} (g : G) : PhaseSim L n0 w w' (.keep c (t.gen g)) (.keep c' t)

/-- The two threads are at the same point of the same job. -/
inductive WorkSim (L : List Nat) (n0 : Nat) (w w' : World K G) : FitWork K G → FitWork K G → Prop
  | tree (mem : Nat → Junk K) {t : Tree K G} (h : QuietTree t.cfg) : WorkSim L n0 w w' (.tree mem t) (.tree mem t)
  | treeFit (mem : Nat → Junk K) {ph : TreePhase K G} (h : QuietTree ph.tree.cfg) : WorkSim L n0 w w' (.treeFit mem ph) (.treeFit mem ph)
  | forest (mem : Nat → Nat → Junk K) {f : Forest K G} (h : QuietForest f.cfg) {r : Nat} (hr : r ∈ L) (ho : f.orgRef = some r)
      (hn : f.newRef = some r) (hb : f.cfg.boosting = true → f.cfg.isCls = false) : WorkSim L n0 w w' (.forest mem f) (.forest mem f)
  | forestFit (mem : Nat → Nat → Junk K) {ph ph' : ForestPhase K G} (h : PhaseSim L n0 w w' ph ph') :
      WorkSim L n0 w w' (.forestFit mem ph) (.forestFit mem ph')

/-- Two steps with the same outcome. -/
inductive StepSim {α β : Type} (P : World K G → World K G → α → α → Prop) (Q : World K G → World K G → β → β → Prop) :
    Except Err ((α ⊕ β) × World K G) → Except Err ((α ⊕ β) × World K G) → Prop
  | error (e : Err) : StepSim P Q (.error e) (.error e)
  | inl {a a' : α} {w w' : World K G} (h : P w w' a a') : StepSim P Q (.ok (.inl a, w)) (.ok (.inl a', w'))
  | inr {b b' : β} {w w' : World K G} (h : Q w w' b b') : StepSim P Q (.ok (.inr b, w)) (.ok (.inr b', w'))

theorem FSim.congr {L : List Nat} {n0 : Nat} {w w' w1 w1' : World K G} {f f' : Forest K G} (h : FSim L n0 w w' f f')
    (ha : w1.arrays = w.arrays) (ha' : w1'.arrays = w'.arrays) : FSim L n0 w1 w1' f f' := by
  obtain ⟨r, r', h1, h2, h3⟩ := h.ref
  exact ⟨h.same, h.quiet, r, r', h1, h2, by rw [ha]; exact h3.lt, by rw [ha']; exact h3.lt', by rw [ha, ha']; exact h3.same, h3.boost, h3.place⟩

theorem PassSim.congr {L : List Nat} {n0 : Nat} {w w' w1 w1' : World K G} {c c' : ForestPass K G} (h : PassSim L n0 w w' c c')
    (ha : w1.arrays = w.arrays) (ha' : w1'.arrays = w'.arrays) : PassSim L n0 w1 w1' c c' :=
  ⟨h.forest.congr ha ha', h.used, h.used', h.rest⟩

theorem PhaseSim.congr {L : List Nat} {n0 : Nat} {w w' w1 w1' : World K G} {ph ph' : ForestPhase K G} (h : PhaseSim L n0 w w' ph ph')
    (ha : w1.arrays = w.arrays) (ha' : w1'.arrays = w'.arrays) : PhaseSim L n0 w1 w1' ph ph' := by
  cases h with
  | pass data F is h => exact .pass _ _ _ (h.congr ha ha')
  | seed h => exact .seed (h.congr ha ha')
  | build h s s' => exact .build (h.congr ha ha') _ _
  | grow h g hq hf => exact .grow (h.congr ha ha') _ hq hf
  | keep h g => exact .keep (h.congr ha ha') _

theorem Agree.congr {L : List Nat} {n0 : Nat} {w w' w1 w1' : World K G} (h : Agree L n0 w w')
    (ha : w1.arrays = w.arrays) (ha' : w1'.arrays = w'.arrays) : Agree L n0 w1 w1' :=
  ⟨by rw [ha]; exact h.len, by rw [ha']; exact h.len', by rw [ha, ha']; exact h.same⟩

theorem getD_set_eq {α : Type} (l : List α) (r : Nat) (a d : α) (h : r < l.length) : (l.set r a).getD r d = a := by
  simp [List.getD_eq_getElem?_getD, h]

theorem getD_set_ne {α : Type} (l : List α) {r s : Nat} (a d : α) (h : r ≠ s) : (l.set r a).getD s d = l.getD s d := by
  simp [List.getD_eq_getElem?_getD, h]

theorem getD_append_lt {α : Type} (l m : List α) {r : Nat} (d : α) (h : r < l.length) : (l ++ m).getD r d = l.getD r d := by
  simp [List.getD_eq_getElem?_getD, List.getElem?_append_left h]

theorem boostUpdate_gen (g : G) (cfg : ForestCfg K) (data : List (List K)) (t : Tree K G) (i : Nat) (rows : List Nat) (arr : List K) :
    boostUpdate cfg data (t.gen g) i rows arr = (boostUpdate cfg data t i rows arr).map (fun p => (p.1, p.2.gen g)) := by
  unfold boostUpdate
  cases takeE data [] rows with
  | error e => rfl
  | ok cur =>
    dsimp only
    rw [Tree.predictBatch_gen]
    cases t.predictBatch cur with
    | error e => rfl
    | ok p =>
      obtain ⟨preds, t'⟩ := p
      simp only [Except.map]
      cases takeE arr 0 rows <;> rfl

theorem boostStep_sim {L : List Nat} {n0 : Nat} {w w' : World K G} (ha : Agree L n0 w w') {c c' : ForestPass K G}
    (h : PassSim L n0 w w' c c') (t : Tree K G) (g : G) :
    (∃ e, boostStep c.f c.data (t.gen g) c.i c.rows w = .error e ∧ boostStep c'.f c'.data t c'.i c'.rows w' = .error e) ∨
      ∃ w1 w1' t1, boostStep c.f c.data (t.gen g) c.i c.rows w = .ok (w1, t1.gen g) ∧
        boostStep c'.f c'.data t c'.i c'.rows w' = .ok (w1', t1) ∧ Agree L n0 w1 w1' ∧ PassSim L n0 w1 w1' c c' := by
  have h0 := h
  obtain ⟨hf, hu, hu', f, r, rfl⟩ := h
  obtain ⟨hsame, hquiet, r0, r0', hr, hr', hs⟩ := hf
  dsimp only at hsame hr hu hr' hu' hs ⊢
  rw [hr] at hu
  rw [hr'] at hu'
  obtain rfl := Option.some.inj hu
  obtain rfl := Option.some.inj hu'
  have hcfg : f.cfg = c'.f.cfg := by obtain ⟨ts, o, n, rfl⟩ := hsame.rest; rfl
  unfold boostStep
  rw [hcfg]
  by_cases hb : c'.f.cfg.boosting = true
  · simp only [hb, if_true]
    have hn : f.newRef = some r0 := by
      have := hr; unfold Forest.used at this; rw [hcfg, hb] at this; exact this
    have hn' : c'.f.newRef = some c'.ref := by
      have := hr'; unfold Forest.used at this; rw [hb] at this; exact this
    obtain ⟨he, hL⟩ := hs.boost hb
    subst he
    rw [hn, hn']
    dsimp only
    rw [boostUpdate_gen, hs.same]
    cases boostUpdate c'.f.cfg c'.data t c'.i c'.rows (w'.arrays.getD c'.ref []) with
    | error e => exact Or.inl ⟨e, rfl, rfl⟩
    | ok p =>
      obtain ⟨arr, t1⟩ := p
      refine Or.inr ⟨_, _, t1, rfl, rfl, ⟨?_, ?_, ?_⟩, ?_⟩
      · simp only [List.length_set]; exact ha.len
      · simp only [List.length_set]; exact ha.len'
      · intro s hsL
        refine ⟨(ha.same s hsL).1, ?_⟩
        dsimp only
        by_cases hsr : c'.ref = s
        · subst hsr
          rw [getD_set_eq _ _ _ _ hs.lt, getD_set_eq _ _ _ _ hs.lt']
        · rw [getD_set_ne _ _ _ hsr, getD_set_ne _ _ _ hsr]
          exact (ha.same s hsL).2
      · refine ⟨⟨hsame, hquiet, _, _, hr, hr', ?_, ?_, ?_, hs.boost, hs.place⟩, hr, hr', f, c'.ref, rfl⟩
        · simp only [List.length_set]; exact hs.lt
        · simp only [List.length_set]; exact hs.lt'
        · dsimp only
          rw [getD_set_eq _ _ _ _ hs.lt, getD_set_eq _ _ _ _ hs.lt']
  · simp only [hb]
    exact Or.inr ⟨w, w', t, rfl, rfl, ha, h0⟩

theorem QuietForest.tree {f : Forest K G} (h : QuietForest f.cfg) : QuietTree f.treeCfg ∧ f.treeCfg.featSub = .none :=
  ⟨⟨h.1, h.2.1⟩, h.2.2⟩

/-- Two forests at the same point make the same step. -/
theorem PhaseSim.step {L : List Nat} {n0 : Nat} {w w' : World K G} (ha : Agree L n0 w w') (mem : Nat → Nat → Junk K)
    {ph ph' : ForestPhase K G} (h : PhaseSim L n0 w w' ph ph') :
    StepSim (fun w w' a a' => Agree L n0 w w' ∧ PhaseSim L n0 w w' a a') (fun w w' f f' => Agree L n0 w w' ∧ SameForest f f')
      (ph.step R mem w) (ph'.step R mem w') := by
  cases h with
  | pass data F is h =>
    rename_i f f'
    cases is with
    | nil => exact .inr ⟨ha, h.same⟩
    | cons i is =>
      obtain ⟨hsame, hquiet, r, r', hr, hr', hs⟩ := h
      obtain ⟨ts, o, n, rfl⟩ := hsame.rest
      unfold ForestPhase.step
      dsimp only
      cases subsets R f'.rng data.length F f'.cfg with
      | error e => exact .error e
      | ok p =>
        obtain ⟨rows, feats, g1⟩ := p
        dsimp only
        cases spent f'.remaining with
        | true => exact .inr ⟨ha, ⟨hsame.trees, ts, o, n, rfl⟩⟩
        | false =>
          simp only [Bool.false_eq_true, if_false]
          have e1 : (if f'.cfg.boosting = true then n else o) = some r := hr
          have e2 : (if f'.cfg.boosting = true then f'.newRef else f'.orgRef) = some r' := hr'
          rw [e1, e2]
          dsimp only
          cases bootstrapIdcs R g1 data.length f'.cfg rows with
          | error e => exact .error e
          | ok q =>
            obtain ⟨rows, g2⟩ := q
            exact .inl ⟨ha, .seed ⟨⟨hsame, hquiet, r, r', hr, hr', hs⟩, hr, hr', _, r, rfl⟩⟩
  | seed h => exact .inl ⟨ha.congr rfl rfl, (PhaseSim.build h _ _).congr rfl rfl⟩
  | build h s s' =>
    rename_i c c'
    have h0 := h
    obtain ⟨hf, hu, hu', f, r, rfl⟩ := h
    obtain ⟨hsame, hquiet, r0, r0', hr, hr', hs⟩ := hf
    dsimp only at hsame hr hu hr' hu' hs
    rw [hr] at hu
    rw [hr'] at hu'
    obtain rfl := Option.some.inj hu
    obtain rfl := Option.some.inj hu'
    unfold ForestPhase.step
    dsimp only
    have hcfg : f.treeCfg = c'.f.treeCfg ∧ f.discrete = c'.f.discrete ∧ f.remaining = c'.f.remaining := by
      obtain ⟨ts, o, n, rfl⟩ := hsame.rest; exact ⟨rfl, rfl, rfl⟩
    rw [hcfg.1, hcfg.2.1, hcfg.2.2, hs.same]
    have hq := QuietForest.tree hquiet
    have key := fun g : G => Tree.init_gen (R := R) g s s' hq.2 c'.data (w'.arrays.getD c'.ref []) c'.f.discrete c'.f.remaining (some c'.rows)
      (some c'.feats)
    cases h1 : Tree.init R c'.f.treeCfg c'.data (w'.arrays.getD c'.ref []) c'.f.discrete c'.f.remaining s (some c'.rows) (some c'.feats) with
    | error e =>
      cases h2 : Tree.init R c'.f.treeCfg c'.data (w'.arrays.getD c'.ref []) c'.f.discrete c'.f.remaining s' (some c'.rows) (some c'.feats) with
      | error e' =>
        have := key (R.seed 0)
        rw [h1, h2] at this
        simp only [Except.map, Except.error.injEq] at this
        subst this
        exact .error e
      | ok p =>
        have := key (R.seed 0)
        rw [h1, h2] at this
        cases this
    | ok p =>
      obtain ⟨t, gl⟩ := p
      cases h2 : Tree.init R c'.f.treeCfg c'.data (w'.arrays.getD c'.ref []) c'.f.discrete c'.f.remaining s' (some c'.rows) (some c'.feats) with
      | error e' =>
        have := key (R.seed 0)
        rw [h1, h2] at this
        cases this
      | ok p' =>
        obtain ⟨t', gl'⟩ := p'
        have := key t.rng
        rw [h1, h2] at this
        simp only [Except.map, Except.ok.injEq] at this
        have e : t = t'.gen t.rng := this
        generalize t.rng = g at e
        subst e
        dsimp only
        rw [TreePhase.start_gen]
        cases h3 : TreePhase.start t' with
        | error e => exact .error e
        | ok ph =>
          simp only [Except.map]
          have hc := TreePhase.start_cfg h3
          have hi := Tree.init_cfg h2
          refine .inl ⟨ha.congr rfl rfl, (PhaseSim.grow h0 g ⟨?_, ?_⟩ ?_).congr rfl rfl⟩
          · rw [hc, hi.1]; exact hq.1.1
          · rw [hc, hi.2.1]; exact hq.1.2
          · rw [hc, hi.2.2]; exact hq.2
  | grow h g hq hf =>
    rename_i c c' ph
    have hi : c.i = c'.i := by obtain ⟨f, r, rfl⟩ := h.rest; rfl
    unfold ForestPhase.step
    dsimp only
    rw [hi, TreePhase.step_gen g w.glob hq hf, TreePhase.step_quiet w'.glob w.glob hq]
    cases hst : ph.step R (mem c'.i) w'.glob with
    | error e => exact .error e
    | ok p =>
      obtain ⟨a, gl⟩ := p
      cases a with
      | inl ph1 =>
        have hc := TreePhase.step_cfg hst
        exact .inl ⟨ha.congr rfl rfl, (PhaseSim.grow h g (by rw [hc]; exact hq) (by rw [hc]; exact hf)).congr rfl rfl⟩
      | inr t => exact .inl ⟨ha.congr rfl rfl, (PhaseSim.keep h g).congr rfl rfl⟩
  | keep h g =>
    rename_i c c' t
    have hb := boostStep_sim ha h t g
    have h0 := h
    unfold ForestPhase.step
    dsimp only
    have e1 : (t.gen g).numQueries = t.numQueries := rfl
    have e2 : c.f.remaining = c'.f.remaining := by
      obtain ⟨f, r, rfl⟩ := h.rest
      obtain ⟨ts, o, n, hfe⟩ := h.forest.same.rest
      dsimp only at hfe ⊢
      rw [hfe]
    rw [e1, e2]
    cases keepTree c'.f.remaining t.numQueries with
    | false =>
      simp only [Bool.false_eq_true, if_false]
      refine .inr ⟨ha, ?_⟩
      obtain ⟨f, r, rfl⟩ := h.rest
      obtain ⟨ts, o, n, hfe⟩ := h.forest.same.rest
      dsimp only at hfe ⊢
      exact ⟨h.forest.same.trees, ts, o, n, by rw [hfe]⟩
    | true =>
      simp only [if_true]
      rcases hb with ⟨e, he, he'⟩ | ⟨w1, w1', t1, he, he', ha1, hp1⟩
      · rw [he, he']; exact .error e
      · rw [he, he']
        dsimp only
        by_cases hbuf : (match Option.map (fun b => b - (t.numQueries : Int)) c'.f.remaining with
          | none => true
          | some b => decide (-buffer < b)) = true
        · rw [if_pos (by exact hbuf), if_pos (by exact hbuf)]
          have hd : c.data = c'.data ∧ c.F = c'.F ∧ c.rest = c'.rest ∧ c.g = c'.g ∧ c.oob = c'.oob := by
            obtain ⟨f, r, rfl⟩ := h.rest; exact ⟨rfl, rfl, rfl, rfl, rfl⟩
          rw [hd.1, hd.2.1, hd.2.2.1]
          refine .inl ⟨ha1, .pass _ _ _ ?_⟩
          obtain ⟨hsame, hquiet, r0, r0', hr, hr', hs⟩ := hp1.forest
          obtain ⟨ts, o, n, hfe⟩ := hsame.rest
          have htr : List.Forall₂ SameButRng (c.f.trees ++ [t1.gen g]) (c'.f.trees ++ [t1]) :=
            List.rel_append hsame.trees (.cons ⟨g, rfl⟩ .nil)
          refine ⟨⟨htr, c.f.trees ++ [t1.gen g], o, n, ?_⟩, hquiet, r0, r0', hr, hr', hs⟩
          rw [hd.2.2.2.1, hd.2.2.2.2, hfe]
        · rw [if_neg (by exact hbuf), if_neg (by exact hbuf)]
          exact .error _

theorem fitTargets_sim {L : List Nat} {n0 : Nat} {w w' : World K G} (ha : Agree L n0 w w') {f : Forest K G} {r : Nat} (hr : r ∈ L)
    (ho : f.orgRef = some r) (hn : f.newRef = some r) (hb : f.cfg.boosting = true → f.cfg.isCls = false) :
    ∃ o n o' n' w1 w1' r1 r1', fitTargets f w = .ok ({ f with orgRef := o, newRef := n }, w1) ∧
      fitTargets f w' = .ok ({ f with orgRef := o', newRef := n' }, w1') ∧ Agree L n0 w1 w1' ∧
      (if f.cfg.boosting = true then n else o) = some r1 ∧ (if f.cfg.boosting = true then n' else o') = some r1' ∧
      RefSim L n0 w1 w1' f.cfg.boosting r1 r1' := by
  have hsame := ha.same r hr
  unfold fitTargets
  cases hc : f.cfg.isCls with
  | true =>
    have hbf : f.cfg.boosting = false := by
      cases hbb : f.cfg.boosting with
      | false => rfl
      | true => rw [hb hbb] at hc; cases hc
    rw [ho, hn]
    simp only [if_true]
    refine ⟨_, _, _, _, _, _, w.arrays.length, w'.arrays.length, rfl, rfl, ⟨?_, ?_, ?_⟩, ?_, ?_, ⟨?_, ?_, ?_, ?_, ?_⟩⟩
    · simp only [List.length_append]; have := ha.len; omega
    · simp only [List.length_append]; have := ha.len'; omega
    · intro s hs
      refine ⟨(ha.same s hs).1, ?_⟩
      dsimp only
      rw [getD_append_lt _ _ _ (lt_of_lt_of_le (ha.same s hs).1 ha.len), getD_append_lt _ _ _ (lt_of_lt_of_le (ha.same s hs).1 ha.len')]
      exact (ha.same s hs).2
    · rw [hbf]; rfl
    · rw [hbf]; rfl
    · simp only [List.length_append, List.length_cons, List.length_nil]; omega
    · simp only [List.length_append, List.length_cons, List.length_nil]; omega
    · dsimp only
      simp only [List.getD_eq_getElem?_getD, List.getElem?_append_right (le_refl _), Nat.sub_self, List.getElem?_cons_zero, Option.getD_some]
      have := hsame.2
      simp only [List.getD_eq_getElem?_getD] at this
      rw [this]
    · intro h; rw [hbf] at h; cases h
    · exact Or.inr ha.len
  | false =>
    simp only [Bool.false_eq_true, if_false]
    have e : ({ f with orgRef := some r, newRef := some r } : Forest K G) = f := by
      cases f
      simp only at ho hn
      rw [ho, hn]
    refine ⟨some r, some r, some r, some r, w, w', r, r, ?_, ?_, ha, by simp, by simp, ⟨lt_of_lt_of_le hsame.1 ha.len,
      lt_of_lt_of_le hsame.1 ha.len', hsame.2, fun _ => ⟨rfl, hr⟩, Or.inl hr⟩⟩
    · rw [e]
    · rw [e]

theorem sameButRng_refl (t : Tree K G) : SameButRng t t := ⟨t.rng, rfl⟩

/-- The two forests start in the same way. -/
theorem start_sim {L : List Nat} {n0 : Nat} {w w' : World K G} (ha : Agree L n0 w w') {f : Forest K G} (hq : QuietForest f.cfg) {r : Nat}
    (hr : r ∈ L) (ho : f.orgRef = some r) (hn : f.newRef = some r) (hb : f.cfg.boosting = true → f.cfg.isCls = false) :
    (∃ e, ForestPhase.start f w = .error e ∧ ForestPhase.start f w' = .error e) ∨
      ∃ ph ph' w1 w1', ForestPhase.start f w = .ok (ph, w1) ∧ ForestPhase.start f w' = .ok (ph', w1') ∧ Agree L n0 w1 w1' ∧
        PhaseSim L n0 w1 w1' ph ph' := by
  unfold ForestPhase.start
  cases f.data with
  | none => exact Or.inl ⟨_, rfl, rfl⟩
  | some data =>
    cases data with
    | nil => exact Or.inl ⟨_, rfl, rfl⟩
    | cons row rows =>
      dsimp only
      obtain ⟨o, n, o', n', w1, w1', r1, r1', h1, h2, ha1, hu, hu', hs⟩ := fitTargets_sim ha hr ho hn hb
      rw [h1, h2]
      dsimp only
      cases maybeDiscrete f.cfg.makeDiscrete (row :: rows) f.discrete with
      | error e => exact Or.inl ⟨e, rfl, rfl⟩
      | ok dd =>
        refine Or.inr ⟨_, _, w1, w1', rfl, rfl, ha1, ?_⟩
        have key : ∀ (is : List Nat) (f2 f2' : Forest K G), f2 = { f2' with orgRef := o, newRef := n } → f2'.cfg = f.cfg → f2'.orgRef = o' → f2'.newRef = n' →
            f2'.trees = [] → PhaseSim L n0 w1 w1' (.pass (row :: rows) row.length is f2)
              (.pass (row :: rows) row.length is f2') := by
          intro is f2 f2' he hc h1 h2 ht
          subst he
          refine .pass _ _ _ ⟨⟨?_, f2'.trees, o, n, rfl⟩, by rw [hc]; exact hq, r1, r1', ?_, ?_, by rw [hc]; exact hs⟩
          · dsimp only; rw [ht]; exact .nil
          · unfold Forest.used; dsimp only; rw [hc]; exact hu
          · unfold Forest.used; rw [hc, h1, h2]; exact hu'
        cases hp : f.cfg.precompMinmax <;> cases hob : f.cfg.oobScore <;> simp only [hob, Bool.false_eq_true, if_false, if_true] <;>
          exact key _ _ _ rfl rfl rfl rfl rfl

/-- Two threads at the same point of the same job make the same step. -/
theorem WorkSim.step {L : List Nat} {n0 : Nat} {w w' : World K G} (ha : Agree L n0 w w') {k k' : FitWork K G} (h : WorkSim L n0 w w' k k') :
    StepSim (fun w w' a a' => Agree L n0 w w' ∧ WorkSim L n0 w w' a a') (fun w w' o o' => Agree L n0 w w' ∧ SameOut o o')
      (k.step R w) (k'.step R w') := by
  cases h with
  | tree mem h =>
    rename_i t
    unfold FitWork.step
    dsimp only
    cases hs : TreePhase.start t with
    | error e => exact .error e
    | ok ph => exact .inl ⟨ha, .treeFit mem (by rw [TreePhase.start_cfg hs]; exact h)⟩
  | treeFit mem h =>
    rename_i ph
    unfold FitWork.step
    dsimp only
    rw [TreePhase.step_quiet w'.glob w.glob h]
    cases hs : ph.step R mem w'.glob with
    | error e => exact .error e
    | ok p =>
      obtain ⟨a, gl⟩ := p
      cases a with
      | inl ph1 =>
        have hc := TreePhase.step_cfg hs
        exact .inl ⟨ha.congr rfl rfl, .treeFit mem (by rw [hc]; exact h)⟩
      | inr t => exact .inr ⟨ha.congr rfl rfl, rfl⟩
  | forest mem hq hr ho hn hb =>
    rename_i f r
    unfold FitWork.step
    dsimp only
    rcases start_sim ha hq hr ho hn hb with ⟨e, h1, h2⟩ | ⟨ph, ph', w1, w1', h1, h2, ha1, hp⟩
    · rw [h1, h2]; exact .error e
    · rw [h1, h2]; exact .inl ⟨ha1, .forestFit mem hp⟩
  | forestFit mem hp =>
    rename_i ph ph'
    have := hp.step (R := R) ha mem
    unfold FitWork.step
    dsimp only
    generalize ph.step R mem w = x at this
    generalize ph'.step R mem w' = x' at this
    cases this with
    | error e => exact .error e
    | inl h => exact .inl ⟨h.1, .forestFit mem h.2⟩
    | inr h => exact .inr ⟨h.1, h.2⟩

/-- The two threads start a job in the same way. -/
theorem startJob_sim {L : List Nat} {n0 : Nat} {w w' : World K G} (ha : Agree L n0 w w') {j : FitJob K G} (hq : QuietJob j)
    (hL : ∀ r, j.reads = some r → r ∈ L) :
    StepSim (fun w w' a a' => Agree L n0 w w' ∧ WorkSim L n0 w w' a a') (fun w w' o o' => Agree L n0 w w' ∧ SameOut o o')
      (j.start R w) (j.start R w') := by
  cases j with
  | tree A mem =>
    unfold FitJob.start
    dsimp only
    cases hi : Tree.init R A.cfg A.data A.labels A.disc A.budget A.seed A.idcs A.feats with
    | error e => exact .error e
    | ok p =>
      obtain ⟨t, gl⟩ := p
      have := Tree.init_cfg hi
      exact .inl ⟨ha.congr rfl rfl, .tree mem ⟨by rw [this.1]; exact hq.1, by rw [this.2.1]; exact hq.2⟩⟩
  | forest cfg data labels budget mem =>
    have hr : labels ∈ L := hL labels rfl
    have hs : w.arrays.getD labels [] = w'.arrays.getD labels [] := (ha.same labels hr).2
    unfold FitJob.start Forest.init
    dsimp only
    by_cases h1 : cfg.boosting = true ∧ cfg.boostingLr = none
    · rw [if_pos h1, if_pos h1]; exact .error _
    · rw [if_neg h1, if_neg h1]
      by_cases h2 : cfg.boosting = true ∧ cfg.isCls = true
      · rw [if_pos h2, if_pos h2]; exact .error _
      · rw [if_neg h2, if_neg h2]
        by_cases h3 : cfg.oobScore = true ∧ ¬ cfg.bootstrap = true
        · rw [if_pos h3, if_pos h3]; exact .error _
        · rw [if_neg h3, if_neg h3, hs]
          refine .inl ⟨ha.congr rfl rfl, .forest mem ?_ hr rfl rfl ?_⟩
          · exact ⟨hq.1, hq.2.1, hq.2.2⟩
          · intro hb
            dsimp only at hb ⊢
            cases hc : cfg.isCls with
            | false => rfl
            | true => exact absurd ⟨hb, hc⟩ h2
  | other h => exact .inr ⟨ha.congr rfl rfl, trivial⟩

/-! ### What a step may write -/

/-- Arrays outside `W` stay as they are, and none goes away. -/
structure Keeps (W : List Nat) (w w1 : World K G) : Prop where
  len : w.arrays.length ≤ w1.arrays.length
  same : ∀ r < w.arrays.length, r ∉ W → w1.arrays.getD r [] = w.arrays.getD r []

theorem Keeps.of_eq {W : List Nat} {w w1 : World K G} (h : w1.arrays = w.arrays) : Keeps W w w1 :=
  ⟨by rw [h], fun _ _ _ => by rw [h]⟩

/-- A boosted forest writes only to arrays in `W`. -/
def OwnForest (W : List Nat) (f : Forest K G) : Prop := f.cfg.boosting = true → ∃ r ∈ W, f.newRef = some r

/-- The forest of a phase. -/
def ForestPhase.forest : ForestPhase K G → Forest K G
  | .pass _ _ _ f => f
  | .seed c => c.f
  | .build c _ => c.f
  | .grow c _ => c.f
  | .keep c _ => c.f

/-- The thread writes only to arrays in `W`. -/
def FitWork.Own (W : List Nat) : FitWork K G → Prop
  | .tree _ _ => True
  | .treeFit _ _ => True
  | .forest _ f => OwnForest W f ∧ (f.cfg.boosting = true → f.cfg.isCls = false)
  | .forestFit _ ph => OwnForest W ph.forest

theorem boostStep_keeps {W : List Nat} {f : Forest K G} (h : OwnForest W f) {data : List (List K)} {t t' : Tree K G} {i : Nat} {rows : List Nat}
    {w w' : World K G} (hs : boostStep f data t i rows w = .ok (w', t')) : Keeps W w w' := by
  unfold boostStep at hs
  by_cases hb : f.cfg.boosting = true
  · rw [if_pos hb] at hs
    obtain ⟨r, hr, hn⟩ := h hb
    rw [hn] at hs
    dsimp only at hs
    cases hu : boostUpdate f.cfg data t i rows (w.arrays.getD r []) with
    | error e => rw [hu] at hs; cases hs
    | ok p =>
      rw [hu] at hs
      cases hs
      refine ⟨by simp only [List.length_set]; exact le_refl _, ?_⟩
      intro s _ hsW
      exact getD_set_ne _ _ _ (fun he => hsW (he ▸ hr))
  · rw [if_neg hb] at hs
    cases hs
    exact .of_eq rfl

theorem ForestPhase.step_keeps {W : List Nat} {mem : Nat → Nat → Junk K} {ph : ForestPhase K G} (h : OwnForest W ph.forest) {w w1 : World K G}
    {a : ForestPhase K G ⊕ Forest K G} (hs : ph.step R mem w = .ok (a, w1)) :
    Keeps W w w1 ∧ ∀ ph', a = .inl ph' → OwnForest W ph'.forest := by
  cases ph with
  | pass data F is f =>
    cases is with
    | nil => cases hs; exact ⟨.of_eq rfl, fun _ he => by cases he⟩
    | cons i is =>
      unfold ForestPhase.step at hs
      dsimp only at hs
      cases h1 : subsets R f.rng data.length F f.cfg with
      | error e => rw [h1] at hs; cases hs
      | ok p =>
        obtain ⟨rows, feats, g1⟩ := p
        rw [h1] at hs
        dsimp only at hs
        by_cases h2 : spent f.remaining = true
        · rw [if_pos h2] at hs; cases hs; exact ⟨.of_eq rfl, fun _ he => by cases he⟩
        · rw [if_neg h2] at hs
          cases h3 : (if f.cfg.boosting then f.newRef else f.orgRef) with
          | none => rw [h3] at hs; cases hs
          | some ref =>
            rw [h3] at hs
            dsimp only at hs
            cases h4 : bootstrapIdcs R g1 data.length f.cfg rows with
            | error e => rw [h4] at hs; cases hs
            | ok q =>
              rw [h4] at hs
              cases hs
              refine ⟨.of_eq rfl, fun ph' he => ?_⟩
              cases he
              exact h
  | seed c => cases hs; exact ⟨.of_eq rfl, fun ph' he => by cases he; exact h⟩
  | build c s =>
    unfold ForestPhase.step at hs
    dsimp only at hs
    cases h1 : Tree.init R c.f.treeCfg c.data (w.arrays.getD c.ref []) c.f.discrete c.f.remaining s (some c.rows) (some c.feats) with
    | error e => rw [h1] at hs; cases hs
    | ok p =>
      obtain ⟨t, gl⟩ := p
      rw [h1] at hs
      dsimp only at hs
      cases h2 : TreePhase.start t with
      | error e => rw [h2] at hs; cases hs
      | ok ph => rw [h2] at hs; cases hs; exact ⟨.of_eq rfl, fun ph' he => by cases he; exact h⟩
  | grow c ph =>
    unfold ForestPhase.step at hs
    dsimp only at hs
    cases h1 : ph.step R (mem c.i) w.glob with
    | error e => rw [h1] at hs; cases hs
    | ok p =>
      obtain ⟨x, gl⟩ := p
      rw [h1] at hs
      cases x with
      | inl ph1 => cases hs; exact ⟨.of_eq rfl, fun ph' he => by cases he; exact h⟩
      | inr t => cases hs; exact ⟨.of_eq rfl, fun ph' he => by cases he; exact h⟩
  | keep c t =>
    unfold ForestPhase.step at hs
    dsimp only at hs
    by_cases h1 : keepTree c.f.remaining t.numQueries = true
    · rw [if_pos h1] at hs
      cases h2 : boostStep c.f c.data t c.i c.rows w with
      | error e => rw [h2] at hs; cases hs
      | ok p =>
        obtain ⟨w2, t2⟩ := p
        rw [h2] at hs
        dsimp only at hs
        have hk := boostStep_keeps h h2
        split_ifs at hs
        cases hs
        exact ⟨hk, fun ph' he => by cases he; exact h⟩
    · rw [if_neg h1] at hs
      cases hs
      exact ⟨.of_eq rfl, fun _ he => by cases he⟩

theorem fitTargets_keeps {W : List Nat} {f f1 : Forest K G} (h : OwnForest W f) (hb : f.cfg.boosting = true → f.cfg.isCls = false)
    {w w1 : World K G} (hs : fitTargets f w = .ok (f1, w1)) : Keeps W w w1 ∧ OwnForest W f1 := by
  unfold fitTargets at hs
  by_cases hc : f.cfg.isCls = true
  · rw [if_pos hc] at hs
    cases ho : f.orgRef with
    | none => rw [ho] at hs; cases hs
    | some a =>
      cases hn : f.newRef with
      | none => rw [ho, hn] at hs; cases hs
      | some b =>
        rw [ho, hn] at hs
        cases hs
        refine ⟨⟨by simp only [List.length_append]; omega, fun r hr _ => getD_append_lt _ _ _ hr⟩, fun hbt => ?_⟩
        have := hb hbt
        rw [hc] at this
        cases this
  · rw [if_neg hc] at hs
    cases hs
    exact ⟨.of_eq rfl, h⟩

theorem start_keeps {W : List Nat} {f : Forest K G} (h : OwnForest W f) (hb : f.cfg.boosting = true → f.cfg.isCls = false)
    {w w1 : World K G} {ph : ForestPhase K G} (hs : ForestPhase.start f w = .ok (ph, w1)) : Keeps W w w1 ∧ OwnForest W ph.forest := by
  unfold ForestPhase.start at hs
  cases hd : f.data with
  | none => rw [hd] at hs; cases hs
  | some data =>
    rw [hd] at hs
    cases data with
    | nil => cases hs
    | cons row rows =>
      dsimp only at hs
      cases ht : fitTargets f w with
      | error e => rw [ht] at hs; cases hs
      | ok p =>
        obtain ⟨f1, w2⟩ := p
        rw [ht] at hs
        dsimp only at hs
        obtain ⟨h1, h2⟩ := fitTargets_keeps h hb ht
        cases hm : maybeDiscrete f1.cfg.makeDiscrete (row :: rows) f1.discrete with
        | error e => rw [hm] at hs; cases hs
        | ok dd =>
          rw [hm] at hs
          dsimp only at hs
          cases hp : f1.cfg.precompMinmax <;> cases hob : f1.cfg.oobScore <;>
            simp only [hp, hob, Bool.false_eq_true, if_false, if_true] at hs <;> cases hs <;> exact ⟨h1, h2⟩

theorem FitWork.step_keeps {W : List Nat} {k : FitWork K G} (h : k.Own W) {w w1 : World K G} {a : FitWork K G ⊕ FitOut K G}
    (hs : k.step R w = .ok (a, w1)) : Keeps W w w1 ∧ ∀ k', a = .inl k' → k'.Own W := by
  cases k with
  | tree mem t =>
    unfold FitWork.step at hs
    dsimp only at hs
    cases h1 : TreePhase.start t with
    | error e => rw [h1] at hs; cases hs
    | ok ph => rw [h1] at hs; cases hs; exact ⟨.of_eq rfl, fun k' he => by cases he; trivial⟩
  | treeFit mem ph =>
    unfold FitWork.step at hs
    dsimp only at hs
    cases h1 : ph.step R mem w.glob with
    | error e => rw [h1] at hs; cases hs
    | ok p =>
      obtain ⟨x, gl⟩ := p
      rw [h1] at hs
      cases x with
      | inl ph1 => cases hs; exact ⟨.of_eq rfl, fun k' he => by cases he; trivial⟩
      | inr t => cases hs; exact ⟨.of_eq rfl, fun k' he => by cases he⟩
  | forest mem f =>
    unfold FitWork.step at hs
    dsimp only at hs
    cases h1 : ForestPhase.start f w with
    | error e => rw [h1] at hs; cases hs
    | ok p =>
      obtain ⟨ph, w2⟩ := p
      rw [h1] at hs
      cases hs
      obtain ⟨h2, h3⟩ := start_keeps h.1 h.2 h1
      exact ⟨h2, fun k' he => by cases he; exact h3⟩
  | forestFit mem ph =>
    unfold FitWork.step at hs
    dsimp only at hs
    cases h1 : ph.step R mem w with
    | error e => rw [h1] at hs; cases hs
    | ok p =>
      obtain ⟨x, w2⟩ := p
      rw [h1] at hs
      obtain ⟨h2, h3⟩ := ForestPhase.step_keeps h h1
      cases x with
      | inl ph1 => cases hs; exact ⟨h2, fun k' he => by cases he; exact h3 ph1 rfl⟩
      | inr f => cases hs; exact ⟨h2, fun k' he => by cases he⟩

theorem startJob_keeps {W : List Nat} {j : FitJob K G} (h : ∀ r, j.writes = some r → r ∈ W) {w w1 : World K G} {a : FitWork K G ⊕ FitOut K G}
    (hs : j.start R w = .ok (a, w1)) : Keeps W w w1 ∧ ∀ k', a = .inl k' → k'.Own W := by
  cases j with
  | tree A mem =>
    unfold FitJob.start at hs
    dsimp only at hs
    cases h1 : Tree.init R A.cfg A.data A.labels A.disc A.budget A.seed A.idcs A.feats with
    | error e => rw [h1] at hs; cases hs
    | ok p => rw [h1] at hs; cases hs; exact ⟨.of_eq rfl, fun k' he => by cases he; trivial⟩
  | forest cfg data labels budget mem =>
    unfold FitJob.start Forest.init at hs
    dsimp only at hs
    by_cases h1 : cfg.boosting = true ∧ cfg.boostingLr = none
    · rw [if_pos h1] at hs; cases hs
    · rw [if_neg h1] at hs
      by_cases h2 : cfg.boosting = true ∧ cfg.isCls = true
      · rw [if_pos h2] at hs; cases hs
      · rw [if_neg h2] at hs
        by_cases h3 : cfg.oobScore = true ∧ ¬ cfg.bootstrap = true
        · rw [if_pos h3] at hs; cases hs
        · rw [if_neg h3] at hs
          cases hs
          refine ⟨.of_eq rfl, fun k' he => ?_⟩
          cases he
          refine ⟨fun hb => ⟨labels, h labels ?_, rfl⟩, fun hb => ?_⟩
          · unfold FitJob.writes
            exact if_pos hb
          · cases hc : cfg.isCls with
            | false => rfl
            | true => exact absurd ⟨hb, hc⟩ h2
  | other f => cases hs; exact ⟨.of_eq rfl, fun k' he => by cases he⟩

/-! ### What other threads write does not matter -/

theorem FSim.keeps {L W : List Nat} {n0 : Nat} {w w' w1 : World K G} {f f' : Forest K G} (h : FSim L n0 w w' f f') (hk : Keeps W w w1)
    (hL : ∀ r ∈ W, r ∉ L) (hW : ∀ r ∈ W, r < n0) : FSim L n0 w1 w' f f' := by
  obtain ⟨r, r', h1, h2, h3⟩ := h.ref
  refine ⟨h.same, h.quiet, r, r', h1, h2, lt_of_lt_of_le h3.lt hk.len, h3.lt', ?_, h3.boost, h3.place⟩
  rw [← h3.same]
  refine hk.same r h3.lt (fun hr => ?_)
  rcases h3.place with hp | hp
  · exact hL r hr hp
  · have := hW r hr; omega

theorem PassSim.keeps {L W : List Nat} {n0 : Nat} {w w' w1 : World K G} {c c' : ForestPass K G} (h : PassSim L n0 w w' c c') (hk : Keeps W w w1)
    (hL : ∀ r ∈ W, r ∉ L) (hW : ∀ r ∈ W, r < n0) : PassSim L n0 w1 w' c c' := ⟨h.forest.keeps hk hL hW, h.used, h.used', h.rest⟩

theorem WorkSim.keeps {L W : List Nat} {n0 : Nat} {w w' w1 : World K G} {k k' : FitWork K G} (h : WorkSim L n0 w w' k k') (hk : Keeps W w w1)
    (hL : ∀ r ∈ W, r ∉ L) (hW : ∀ r ∈ W, r < n0) : WorkSim L n0 w1 w' k k' := by
  cases h with
  | tree mem h => exact .tree mem h
  | treeFit mem h => exact .treeFit mem h
  | forest mem hq hr ho hn hb => exact .forest mem hq hr ho hn hb
  | forestFit mem hp =>
    refine .forestFit mem ?_
    cases hp with
    | pass data F is h => exact .pass _ _ _ (h.keeps hk hL hW)
    | seed h => exact .seed (h.keeps hk hL hW)
    | build h s s' => exact .build (h.keeps hk hL hW) _ _
    | grow h g hq hf => exact .grow (h.keeps hk hL hW) _ hq hf
    | keep h g => exact .keep (h.keeps hk hL hW) _

theorem Agree.keeps {L W : List Nat} {n0 : Nat} {w w' w1 : World K G} (h : Agree L n0 w w') (hk : Keeps W w w1)
    (hL : ∀ r ∈ W, r ∉ L) : Agree L n0 w1 w' := by
  refine ⟨le_trans h.len hk.len, h.len', fun r hr => ⟨(h.same r hr).1, ?_⟩⟩
  rw [← (h.same r hr).2]
  exact hk.same r (lt_of_lt_of_le (h.same r hr).1 h.len) (fun hw => hL r hw hr)

end FF
