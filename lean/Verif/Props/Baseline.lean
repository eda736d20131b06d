import Verif.Spec.Baseline
import Verif.Props.Compare
import Verif.Props.Verdict

set_option linter.unusedSectionVars false

/-!
# The comparison with the other library (C159)
-/

namespace FF

open Spec

variable {K : Type} [Field K] [LinearOrder K] [IsStrictOrderedRing K] [FloorRing K] [NpFun K] {G : Type}

section
variable {R : Rng K G} {mem : Nat → Nat → Junk K} {lib : Lib K}

/-- The parts of a round. -/
theorem baseRound_parts {c : BaseCmp K} {seed : Nat} {w w' : World K G} {row : BaseRow K} (h : baseRound R mem lib c seed w = .ok (row, w')) :
    ∃ (o o' : WrapObj K G) (w1 : World K G) (s : CmpSide K),
      Wrapper.init R c.kind.wrapper (c.kind.args seed) w (some c.data) (some c.ref) = .ok (o, w1) ∧
      o.fit R mem w1 none none = .ok (o', w') ∧ cmpMeasure (c.cmp seed) w' o'.forest = .ok s ∧
      libScores c.kind.wrapper.isCls (lib (c.kind.libArgs seed) c.data (w'.arrays.getD c.ref [])) c.data c.testData (w'.arrays.getD c.ref [])
        (w'.arrays.getD c.testRef []) = .ok (row.theirTrain, row.theirTest) ∧
      row.ourTrain = s.train ∧ s.test = some row.ourTest := by
  unfold baseRound at h
  cases h1 : Wrapper.init R c.kind.wrapper (c.kind.args seed) w (some c.data) (some c.ref) with
  | error e => rw [h1] at h; cases h
  | ok q1 =>
    obtain ⟨o, w1⟩ := q1
    rw [h1] at h
    dsimp only at h
    cases h2 : o.fit R mem w1 none none with
    | error e => rw [h2] at h; cases h
    | ok q2 =>
      obtain ⟨o', w2⟩ := q2
      rw [h2] at h
      dsimp only at h
      cases h3 : cmpMeasure (c.cmp seed) w2 o'.forest with
      | error e => rw [h3] at h; cases h
      | ok s =>
        rw [h3] at h
        dsimp only at h
        cases h4 : libScores c.kind.wrapper.isCls (lib (c.kind.libArgs seed) c.data (w2.arrays.getD c.ref [])) c.data c.testData
          (w2.arrays.getD c.ref []) (w2.arrays.getD c.testRef []) with
        | error e => rw [h4] at h; cases h
        | ok q4 =>
          obtain ⟨tr, te⟩ := q4
          rw [h4] at h
          dsimp only at h
          cases h5 : s.test with
          | none => rw [h5] at h; cases h
          | some t =>
            rw [h5] at h
            cases h
            exact ⟨o, o', w1, s, rfl, h2, h3, h4, rfl, h5⟩

theorem libScores_is {isCls : Bool} {m : List K → K} {data testData : List (List K)} {ts ts' : List K} {a b : K}
    (h : libScores isCls m data testData ts ts' = .ok (a, b)) :
    ScoreIs isCls (libAnswers m data) ts a ∧ ScoreIs isCls (libAnswers m testData) ts' b := by
  unfold libScores at h
  cases h1 : cmpScore isCls (data.map (fun x => Pred.reg (m x))) ts with
  | error e => rw [h1] at h; cases h
  | ok tr =>
    rw [h1] at h
    dsimp only at h
    cases h2 : cmpScore isCls (testData.map (fun x => Pred.reg (m x))) ts' with
    | error e => rw [h2] at h; cases h
    | ok te =>
      rw [h2] at h
      cases h
      exact ⟨cmpScore_is h1, cmpScore_is h2⟩

theorem BaseKind_boosts {k : BaseKind} (hk : k ≠ .gbrfr) : k.wrapper.boosts = false := by
  revert hk; cases k <;> simp [BaseKind.wrapper, Wrapper.boosts]

/-- One round of a comparison of models that are not boosted. -/
theorem baseRound_fair {c : BaseCmp K} (hk : c.kind ≠ .gbrfr) {seed : Nat} {w w' : World K G} {row : BaseRow K}
    (h : baseRound R mem lib c seed w = .ok (row, w')) (hr : c.ref < w.arrays.length) (ht : c.testRef < w.arrays.length) :
    (∀ r < w.arrays.length, w'.arrays[r]? = w.arrays[r]?) ∧
    FairBaseRow R mem lib c seed (w.arrays.getD c.ref []) (w.arrays.getD c.testRef []) row := by
  obtain ⟨o, o', w1, s, h1, h2, h3, h4, h5, h6⟩ := baseRound_parts h
  obtain ⟨a1, a2, a3, _, _⟩ := Wrapper_init_alone h1 hr
  have hf := WrapObj_fit_ok h2
  have e : ∀ r < w.arrays.length, w'.arrays[r]? = w.arrays[r]? := by
    intro r hr'
    rw [C54_labels_unchanged_partial R mem w1 w' none none o.forest o'.forest hf r (lt_of_lt_of_le hr' a2.length_le)
      (Or.inl (by rw [a3, BaseKind_boosts hk])), prefix_get a2 hr']
  have u1 : w'.arrays.getD c.ref [] = w.arrays.getD c.ref [] := by simp only [List.getD_eq_getElem?_getD, e _ hr]
  have u2 : w'.arrays.getD c.testRef [] = w.arrays.getD c.testRef [] := by simp only [List.getD_eq_getElem?_getD, e _ ht]
  rw [u1, u2] at h4
  obtain ⟨l1, l2⟩ := libScores_is h4
  refine ⟨e, ⟨fun g => ?_, l1, l2⟩⟩
  obtain ⟨f, hf1, hf2⟩ := fit_alone_fresh h1 hr (fun _ _ => rfl) a1 h2 g
  have hm := hf2.side (cmpMeasure_is hf h3)
  obtain ⟨ps, p1, p2⟩ := hm.train
  obtain ⟨v, qs, q0, q1, q2⟩ := hm.test rfl
  have hv : row.ourTest = v := Option.some.inj (h6.symm.trans q0)
  change ScoreIs _ ps (w'.arrays.getD c.ref []) s.train at p2
  change ScoreIs _ qs (w'.arrays.getD c.testRef []) v at q2
  rw [u1, ← h5] at p2
  rw [u2, ← hv] at q2
  exact ⟨f, ps, qs, hf1, p1, p2, q1, q2⟩

/-! ### A row is determined -/

theorem BuiltAlone.unique {k : Wrapper} {a : WrapArgs K} {g : Glob G} {g' : Option (Glob G)} {d : List (List K)} {ts : List K} {f f2 : Forest K G}
    (h : BuiltAlone R mem k a g g' d ts f) (h2 : BuiltAlone R mem k a g g' d ts f2) : f = f2 := by
  obtain ⟨o, o', w1, w2, e1, e2, rfl⟩ := h
  obtain ⟨p, p', v1, v2, i1, i2, rfl⟩ := h2
  rw [e1] at i1
  cases i1
  rw [e2] at i2
  cases i2
  rfl

theorem AnswersTo.unique {f : Forest K G} {xs : List (List K)} {ps qs : List (Pred K)} (h : AnswersTo f xs ps) (h2 : AnswersTo f xs qs) : ps = qs := by
  unfold AnswersTo at h h2
  induction h generalizing qs with
  | nil => cases h2; rfl
  | cons hp _ ih =>
    cases h2 with
    | cons hq hrest =>
      obtain ⟨_, e1⟩ := hp
      obtain ⟨_, e2⟩ := hq
      rw [e1] at e2
      cases e2
      rw [ih hrest]

theorem ScoreIs.unique {isCls : Bool} {ps : List (Pred K)} {ts : List K} {a b : K} (h : ScoreIs isCls ps ts a) (h2 : ScoreIs isCls ps ts b) :
    a = b := by
  have hn : (ps.length : K) ≠ 0 := by
    have := List.length_pos_of_ne_nil h.some
    exact_mod_cast this.ne'
  apply mul_right_cancel₀ hn
  cases isCls with
  | true => rw [h.accuracy rfl, h2.accuracy rfl]
  | false => rw [h.error rfl, h2.error rfl]

theorem FairBaseRow.unique {c : BaseCmp K} {seed : Nat} {ts ts' : List K} {a b : BaseRow K}
    (h : FairBaseRow R mem lib c seed ts ts' a) (h2 : FairBaseRow R mem lib c seed ts ts' b) (g : Glob G) : a = b := by
  obtain ⟨f, ps, qs, f1, f2, f3, f4, f5⟩ := h.ours g
  obtain ⟨f', ps', qs', g1, g2, g3, g4, g5⟩ := h2.ours g
  obtain rfl := f1.unique g1
  obtain rfl := f2.unique g2
  obtain rfl := f4.unique g4
  have e1 := f3.unique g3
  have e2 := f5.unique g5
  have e3 := h.theirTrain.unique h2.theirTrain
  have e4 := h.theirTest.unique h2.theirTest
  cases a; cases b
  simp_all

/-! ### Thresholds without a number of bins -/

/-- A solver that is given no number of bins raises an exception, unless the thresholds are the values themselves. -/
theorem nodeSolve_no_bins (g : G) (glob : Glob G) (junk : Junk K) {cfg : TreeCfg K} (hb : cfg.binType ≠ some .identity) {node : Node K}
    (hn : node.numBins = none) (data : List (List K)) (labels : List K) (budget : Option Int) (r : Option (SplitRes K) × Nat × G × Glob G) :
    nodeSolve R g glob junk cfg node data labels budget ≠ .ok r := by
  unfold nodeSolve
  cases cfg.solver with
  | mab =>
    unfold solveMab
    cases data <;> simp [hn, hb]
  | exact =>
    unfold solveExactly
    cases data <;> simp [hn, hb]
  | other => simp

/-- The same for a new tree: it cannot be fitted if its root may be split. -/
theorem fit_no_bins {t : Tree K G} {root : Node K} (hnodes : t.nodes = [root]) (hleaves : t.leaves = []) (hrem : t.remaining = none)
    (hb : t.cfg.binType ≠ some .identity) (hlog : t.cfg.useLog = false) {d : Nat} (hd : t.cfg.maxDepth = .some (d + 1))
    (hl : t.cfg.maxLeafNodes = none) (hn : root.numBins = none) (hdep : root.depth = 0) (hc : root.computed = false) {ls : List K}
    (hls : root.labels = some ls) (hs : t.cfg.minSamplesSplit < root.nData) (hu : 1 < (npUnique ls).length)
    (m : Nat → Junk K) (glob : Glob G) (r : Tree K G × Glob G) : Tree.fit R m t glob none none ≠ .ok r := by
  have hcon : splittableConstraints t.cfg root = .ok true := by
    unfold splittableConstraints depthOk
    rw [hd, hdep]
    simp only [Nat.zero_lt_succ, decide_true]
    rw [if_pos hs, hls]
    simp [hu]
  have hcalc : ∀ g gl j b r, calcBestSplit R g gl j t.cfg root b ≠ .ok r := by
    intro g gl j b r
    unfold calcBestSplit nodeBins
    simp only [hc, hlog, hn, Bool.false_eq_true, if_false, hls]
    cases hdat : root.data with
    | none => simp
    | some dat =>
      dsimp only
      intro hh
      split at hh
      · cases hh
      · rename_i heq
        exact nodeSolve_no_bins _ _ _ hb rfl _ _ _ _ heq
  intro hf
  unfold Tree.fit at hf
  dsimp only [bothOrNeither] at hf
  cases hdd : maybeDiscrete t.cfg.makeDiscrete t.data t.discrete with
  | error e => rw [hdd] at hf; cases hf
  | ok dd =>
    rw [hdd] at hf
    dsimp only at hf
    cases hsp : t.cfg.splitter with
    | depth => rw [hsp] at hf; cases hf
    | other => rw [hsp] at hf; cases hf
    | best =>
      rw [hsp] at hf
      dsimp only at hf
      unfold fitFuel at hf
      rw [fitLoop] at hf
      unfold fitStep leafLimit at hf
      simp only [hl, hleaves, List.nil_append, scanLeaves] at hf
      unfold scanLeaf at hf
      simp only [hnodes, List.getElem?_cons_zero, hcon, hrem, noBudget, Bool.false_eq_true, if_false] at hf
      cases hq : calcBestSplit R t.rng glob (m 0) t.cfg root none with
      | ok q => exact hcalc _ _ _ _ _ hq
      | error e => rw [hq] at hf; cases hf

/-- The root of a new tree. -/
theorem Tree_init_root {cfg : TreeCfg K} {data : List (List K)} {labels : List K} {disc : DiscDict K} {b : Option Int} {seed : Nat}
    {rows feats : List Nat} {t : Tree K G} {gl : Glob G} (h : Tree.init R cfg data labels disc b seed (some rows) (some feats) = .ok (t, gl)) :
    ∃ root ls, t.nodes = [root] ∧ t.leaves = [] ∧ t.remaining = b ∧ t.cfg.binType = cfg.binType ∧ t.cfg.useLog = cfg.useLog ∧
      t.cfg.maxDepth = cfg.maxDepth ∧ t.cfg.maxLeafNodes = cfg.maxLeafNodes ∧ t.cfg.minSamplesSplit = cfg.minSamplesSplit ∧
      root.numBins = cfg.numBins ∧ root.depth = 0 ∧ root.computed = false ∧ root.labels = some ls ∧ root.nData = ls.length ∧
      takeE labels 0 rows = .ok ls := by
  unfold Tree.init at h
  by_cases h0 : data.length ≠ labels.length
  · rw [if_pos h0] at h; cases h
  rw [if_neg h0] at h
  dsimp only [defaultFeats, Option.getD_some] at h
  unfold Node.init at h
  dsimp only at h
  cases h1 : chooseFeatures R (R.seed seed) feats cfg.featSub with
  | error e => rw [h1] at h; cases h
  | ok q1 =>
    obtain ⟨fs, gg⟩ := q1
    rw [h1] at h
    dsimp only at h
    cases h2 : getSubset2d data rows fs with
    | error e => rw [h2] at h; cases h
    | ok sub =>
      rw [h2] at h
      dsimp only at h
      cases h3 : takeE labels 0 rows with
      | error e => rw [h3] at h; cases h
      | ok ls =>
        rw [h3] at h
        dsimp only at h
        cases h4 : nodeMinmax cfg.minmax fs with
        | error e => rw [h4] at h; cases h
        | ok mm =>
          rw [h4] at h
          dsimp only at h
          cases h5 : (if cfg.isCls = true then countsOfLabels cfg.classes ls else .ok []) with
          | error e => rw [h5] at h; cases h
          | ok counts =>
            rw [h5] at h
            cases h
            exact ⟨_, ls, rfl, rfl, rfl, rfl, rfl, rfl, rfl, rfl, rfl, rfl, rfl, rfl, rfl, rfl⟩

theorem takeE_all (l : List K) : takeE l 0 (List.range l.length) = .ok l := by
  rw [takeE_of (by simp)]
  congr 1
  apply List.ext_getElem
  · simp
  · intro j h1 h2
    simp [h2]

/-- A forest of regression trees on all rows, without a number of bins, cannot be fitted if the targets differ. -/
theorem forest_no_bins {f : Forest K G} {w : World K G} {data : List (List K)} {r : Nat} (hdat : f.data = some data) (hor : f.orgRef = some r)
    (hnr : f.newRef = some r) (hcls : f.cfg.isCls = false) (hrem : f.remaining = none) (hboot : f.cfg.bootstrap = false) (ha : f.cfg.alphaN = 1)
    (ha' : f.cfg.alphaF = 1) (hest : f.cfg.nEstimators ≠ 0) (hb : f.cfg.binType ≠ some .identity) (hlog : f.cfg.useLog = false) {d : Nat}
    (hd : f.cfg.maxDepth = .some (d + 1)) (hl : f.cfg.maxLeafNodes = none) (hn : f.cfg.numBins = none)
    (hlen : (w.arrays.getD r []).length = data.length) (hs : f.cfg.minSamplesSplit < data.length)
    (hu : 1 < (npUnique (w.arrays.getD r [])).length) (q : Forest K G × World K G) : Forest.fit R mem f w none none ≠ .ok q := by
  intro hf
  unfold Forest.fit at hf
  simp only [bothOrNeither, hdat] at hf
  cases data with
  | nil => cases hf
  | cons row rows =>
    dsimp only at hf
    unfold fitTargets at hf
    simp only [hcls, Bool.false_eq_true, if_false] at hf
    cases hdd : maybeDiscrete f.cfg.makeDiscrete (row :: rows) f.discrete with
    | error e => rw [hdd] at hf; cases hf
    | ok dd =>
      rw [hdd] at hf
      dsimp only at hf
      obtain ⟨n, hn'⟩ := Nat.exists_eq_succ_of_ne_zero hest
      -- the forest that enters the loop has the same settings
      have key : ∀ (F : Forest K G) (is : List Nat), forestLoop R mem (row :: rows) row.length (0 :: is) F w = .ok q →
          F.cfg = f.cfg → F.orgRef = some r → F.newRef = some r → F.remaining = none → False := by
        intro F is hloop e1 e2 e3 e4
        unfold forestLoop at hloop
        unfold forestStep at hloop
        simp only [subsets, e1, ha, ha', lt_irrefl, or_self, if_false, e4, spent, Bool.false_eq_true, e2, e3, ite_self, bootstrapIdcs, hboot] at hloop
        cases ht : Tree.init R F.treeCfg (row :: rows) (w.arrays.getD r []) F.discrete none (R.randint w.glob.np maxSeed).1
          (some (List.range (row :: rows).length)) (some (List.range row.length)) with
        | error e => rw [ht] at hloop; cases hloop
        | ok tq =>
          obtain ⟨t0, gl⟩ := tq
          rw [ht] at hloop
          dsimp only at hloop
          obtain ⟨root, ls, a1, a2, a3, a4, a5, a6, a7, a8, a9, a10, a11, a12, a13, a14⟩ := Tree_init_root ht
          rw [← hlen, takeE_all] at a14
          cases a14
          cases hfit : Tree.fit R (mem 0) t0 gl none none with
          | error e => rw [hfit] at hloop; cases hloop
          | ok tq =>
            refine fit_no_bins (d := d) a1 a2 a3 ?_ ?_ ?_ ?_ ?_ a10 a11 a12 ?_ hu _ _ _ hfit
            · rw [a4]; simpa [Forest.treeCfg, e1] using hb
            · rw [a5]; simpa [Forest.treeCfg, e1] using hlog
            · rw [a6]; simpa [Forest.treeCfg, e1] using hd
            · rw [a7]; simpa [Forest.treeCfg, e1] using hl
            · rw [a9]; simpa [Forest.treeCfg, e1] using hn
            · rw [a8, a13, hlen]; simpa [Forest.treeCfg, e1] using hs
      have hrange : List.range f.cfg.nEstimators = 0 :: (List.range n).map Nat.succ := by
        rw [hn', List.range_succ_eq_map]
      by_cases hp : f.cfg.precompMinmax = true <;> by_cases ho : f.cfg.oobScore = true <;>
        simp only [hp, ho, if_true, if_false, Bool.false_eq_true, hrange] at hf <;>
        exact key _ _ hf rfl hor hnr hrem

end

section
variable (R : Rng K G) (mem : Nat → Nat → Nat → Junk K) (lib : Lib K)

/-- C159. For five of the six comparisons the settings of our forest and those of the other library's model say the same: task, number of trees,
depth, limits, seed, bootstrapping, columns, boosting, learning rate and thresholds. -/
theorem C159_settings (k : BaseKind) (hk : k ≠ .gbhrfr) (seed : Nat) :
    LikeWithLike (k.wrapper.cfg (k.args seed : WrapArgs K)) (k.libArgs seed) := by
  cases k <;> first | exact absurd rfl hk | (constructor <;> simp [BaseKind.wrapper, BaseKind.args, BaseKind.libArgs, Wrapper.cfg, Wrapper.isCls,
    Wrapper.bootstraps, Wrapper.featSub, Wrapper.binType, Wrapper.boosts])

/-- C159 fails for `"GBHRFR"`: five trees are to be compared with one, our model gets no number of thresholds, and neither is boosted. -/
theorem C159_refuted_gbhrfr (seed : Nat) :
    ¬ LikeWithLike (BaseKind.gbhrfr.wrapper.cfg (BaseKind.gbhrfr.args seed : WrapArgs K)) (BaseKind.gbhrfr.libArgs seed) ∧
    (BaseKind.gbhrfr.wrapper.cfg (BaseKind.gbhrfr.args seed : WrapArgs K)).nEstimators = 5 ∧
    (BaseKind.gbhrfr.libArgs seed : LibArgs K).trees = 1 ∧
    (BaseKind.gbhrfr.wrapper.cfg (BaseKind.gbhrfr.args seed : WrapArgs K)).boosting = false ∧
    (BaseKind.gbhrfr.libArgs seed : LibArgs K).family ≠ .boosting := by
  refine ⟨fun h => ?_, rfl, rfl, rfl, by simp [BaseKind.libArgs]⟩
  have := h.trees
  simp [BaseKind.wrapper, BaseKind.args, BaseKind.libArgs, Wrapper.cfg] at this

/-- C159, the models that are not boosted. Whatever the other library, the data and the number of rounds: all arrays of the caller are left as they
were, and every round reports about our model what the model reports that is built in a process of its own, and about theirs what the model
reports that is trained on the caller's targets. -/
theorem C159_fair_partial (c : BaseCmp K) (hk : c.kind ≠ .gbrfr) (seeds : List Nat) (w w' : World K G) (rows : List (BaseRow K))
    (h : baseRounds R mem lib c seeds w = .ok (rows, w')) (hr : c.ref < w.arrays.length) (ht : c.testRef < w.arrays.length) :
    (∀ r < w.arrays.length, w'.arrays[r]? = w.arrays[r]?) ∧
    List.Forall₂ (fun (seed : Nat) (row : BaseRow K) =>
      FairBaseRow R (mem seed) lib c seed (w.arrays.getD c.ref []) (w.arrays.getD c.testRef []) row) seeds rows := by
  induction seeds generalizing w rows with
  | nil =>
    cases h
    exact ⟨fun _ _ => rfl, List.Forall₂.nil⟩
  | cons seed seeds ih =>
    unfold baseRounds at h
    cases h1 : baseRound R (mem seed) lib c seed w with
    | error e => rw [h1] at h; cases h
    | ok q =>
      obtain ⟨row, w1⟩ := q
      rw [h1] at h
      dsimp only at h
      cases h2 : baseRounds R mem lib c seeds w1 with
      | error e => rw [h2] at h; cases h
      | ok q2 =>
        obtain ⟨rows', w2⟩ := q2
        rw [h2] at h
        cases h
        obtain ⟨a1, a2⟩ := baseRound_fair hk h1 hr ht
        have hlt : ∀ r < w.arrays.length, r < w1.arrays.length := by
          intro r hr'
          have := a1 r hr'
          rw [List.getElem?_eq_getElem hr'] at this
          exact (List.getElem?_eq_some_iff.1 this).1
        obtain ⟨b1, b2⟩ := ih w1 rows' h2 (hlt _ hr) (hlt _ ht)
        refine ⟨fun r hr' => by rw [b1 r (hlt r hr'), a1 r hr'], List.Forall₂.cons a2 ?_⟩
        have e1 : w1.arrays.getD c.ref [] = w.arrays.getD c.ref [] := by
          rw [List.getD_eq_getElem?_getD, a1 _ hr, ← List.getD_eq_getElem?_getD]
        have e2 : w1.arrays.getD c.testRef [] = w.arrays.getD c.testRef [] := by
          rw [List.getD_eq_getElem?_getD, a1 _ ht, ← List.getD_eq_getElem?_getD]
        rw [e1, e2] at b2
        exact b2

/-- The parts of a call. -/
theorem compareBaseline_parts {c : BaseCmp K} {n : Nat} {file : Option (BaseResult K)} {w w' : World K G} {o : BaseOut K}
    (h : compareBaseline R mem lib c n file w = .ok (o, w')) :
    baseRounds R mem lib c (List.range n) w = .ok (o.result.rows, w') ∧
    o.result.overlap = baseOverlap (o.result.rows.map BaseRow.ourTest) (o.result.rows.map BaseRow.theirTest) ∧
    (o.reproduced = true ↔ file = some o.result) ∧ o.file = some o.result := by
  unfold compareBaseline at h
  cases h1 : baseRounds R mem lib c (List.range n) w with
  | error e => rw [h1] at h; cases h
  | ok q =>
    obtain ⟨rows, w1⟩ := q
    rw [h1] at h
    dsimp only at h
    split_ifs at h with h2 h3
    · cases h
      exact ⟨rfl, rfl, by simp [h3], h3⟩
    · cases h
      exact ⟨rfl, rfl, by simp [h3], rfl⟩

/-- C159, the whole call: one row per seed, in order, every one as expected; afterwards the file holds what was returned, and "reproduced" is said
exactly if the file held it before. -/
theorem C159_call_partial (c : BaseCmp K) (hk : c.kind ≠ .gbrfr) (n : Nat) (file : Option (BaseResult K)) (w w' : World K G) (o : BaseOut K)
    (h : compareBaseline R mem lib c n file w = .ok (o, w')) (hr : c.ref < w.arrays.length) (ht : c.testRef < w.arrays.length) :
    (∀ r < w.arrays.length, w'.arrays[r]? = w.arrays[r]?) ∧
    List.Forall₂ (fun (seed : Nat) (row : BaseRow K) =>
      FairBaseRow R (mem seed) lib c seed (w.arrays.getD c.ref []) (w.arrays.getD c.testRef []) row) (List.range n) o.result.rows ∧
    (o.reproduced = true ↔ file = some o.result) ∧ o.file = some o.result := by
  obtain ⟨h1, _, h3, h4⟩ := compareBaseline_parts R mem lib h
  obtain ⟨a, b⟩ := C159_fair_partial R mem lib c hk _ w w' _ h1 hr ht
  exact ⟨a, b, h3, h4⟩

/-- C159. If both deviations are positive, `overlap` says whether the open intervals of one (undivided) deviation around the two averages meet. -/
theorem C159_overlap (c : BaseCmp K) (n : Nat) (file : Option (BaseResult K)) (w w' : World K G) (o : BaseOut K)
    (h : compareBaseline R mem lib c n file w = .ok (o, w'))
    (h1 : 0 < NpFun.sqrt (npVar (o.result.rows.map BaseRow.ourTest))) (h2 : 0 < NpFun.sqrt (npVar (o.result.rows.map BaseRow.theirTest))) :
    o.result.overlap = true ↔
      OpenMeet (npMean (o.result.rows.map BaseRow.ourTest)) (NpFun.sqrt (npVar (o.result.rows.map BaseRow.ourTest)))
        (npMean (o.result.rows.map BaseRow.theirTest)) (NpFun.sqrt (npVar (o.result.rows.map BaseRow.theirTest))) := by
  rw [(compareBaseline_parts R mem lib h).2.1, openMeet_iff h1 h2]
  unfold baseOverlap
  rw [decide_eq_true_iff]

/-- C159, the models that are not boosted: a second call in the same process finds the file of the first one reproduced and leaves it. -/
theorem C159_again_partial (c : BaseCmp K) (hk : c.kind ≠ .gbrfr) (n : Nat) (file : Option (BaseResult K)) (w w1 w2 : World K G) (o o2 : BaseOut K)
    (h : compareBaseline R mem lib c n file w = .ok (o, w1)) (h2 : compareBaseline R mem lib c n o.file w1 = .ok (o2, w2))
    (hr : c.ref < w.arrays.length) (ht : c.testRef < w.arrays.length) :
    o2.result = o.result ∧ o2.reproduced = true ∧ o2.file = o.file := by
  obtain ⟨a1, a2, a3, a4⟩ := compareBaseline_parts R mem lib h
  obtain ⟨b1, b2, b3, b4⟩ := compareBaseline_parts R mem lib h2
  obtain ⟨c1, c2⟩ := C159_fair_partial R mem lib c hk _ w w1 _ a1 hr ht
  have hlt : ∀ r < w.arrays.length, r < w1.arrays.length := by
    intro r hr'
    have := c1 r hr'
    rw [List.getElem?_eq_getElem hr'] at this
    exact (List.getElem?_eq_some_iff.1 this).1
  obtain ⟨d1, d2⟩ := C159_fair_partial R mem lib c hk _ w1 w2 _ b1 (hlt _ hr) (hlt _ ht)
  have e1 : w1.arrays.getD c.ref [] = w.arrays.getD c.ref [] := by simp only [List.getD_eq_getElem?_getD, c1 _ hr]
  have e2 : w1.arrays.getD c.testRef [] = w.arrays.getD c.testRef [] := by simp only [List.getD_eq_getElem?_getD, c1 _ ht]
  rw [e1, e2] at d2
  have hrows : ∀ (seeds : List Nat) (l l2 : List (BaseRow K)),
      List.Forall₂ (fun (seed : Nat) (row : BaseRow K) => FairBaseRow R (mem seed) lib c seed (w.arrays.getD c.ref []) (w.arrays.getD c.testRef []) row) seeds l →
      List.Forall₂ (fun (seed : Nat) (row : BaseRow K) => FairBaseRow R (mem seed) lib c seed (w.arrays.getD c.ref []) (w.arrays.getD c.testRef []) row) seeds l2 →
      l = l2 := by
    intro seeds l l2 hl
    induction hl generalizing l2 with
    | nil => intro hl2; cases hl2; rfl
    | cons ha _ ih =>
      intro hl2
      cases hl2 with
      | cons hb hrest => rw [ha.unique hb w.glob, ih _ hrest]
  have hrow := hrows _ _ _ d2 c2
  have hres : o2.result = o.result := by
    have ho : o2.result.overlap = o.result.overlap := by rw [a2, b2, hrow]
    cases h3 : o2.result
    cases h4 : o.result
    rw [h3, h4] at hrow ho
    simp_all
  exact ⟨hres, b3.2 (by rw [hres]; exact a4), by rw [b4, a4, hres]⟩

/-- C159 fails for `"GBRFR"`: fitting our model overwrites the caller's targets with what it leaves of them. The other library is then trained on
that, and both models are measured against it. -/
theorem C159_boosted (c : BaseCmp K) (hk : c.kind = .gbrfr) (m : Nat → Nat → Junk K) (seed : Nat) (w w' : World K G) (row : BaseRow K)
    (h : baseRound R m lib c seed w = .ok (row, w')) (hr : c.ref < w.arrays.length) (hlen : (w.arrays.getD c.ref []).length = c.data.length)
    (g : Glob G) :
    ∃ f ps, BuiltAlone R m c.kind.wrapper (c.kind.args seed) g none c.data (w.arrays.getD c.ref []) f ∧ AnswersTo f c.data ps ∧
      w'.arrays.getD c.ref [] = answersLeave ps (w.arrays.getD c.ref []) ∧
      ScoreIs false ps (answersLeave ps (w.arrays.getD c.ref [])) row.ourTrain ∧
      ScoreIs false (libAnswers (lib (c.kind.libArgs seed) c.data (answersLeave ps (w.arrays.getD c.ref []))) c.data)
        (answersLeave ps (w.arrays.getD c.ref [])) row.theirTrain := by
  obtain ⟨o, o', w1, s, h1, h2, h3, h4, h5, h6⟩ := baseRound_parts h
  obtain ⟨a1, a2, a3, ⟨b, b1, b2, b3, b4, b5⟩, _⟩ := Wrapper_init_alone h1 hr
  obtain ⟨hbr, hdat⟩ := b5 (by rw [hk]; rfl)
  subst hbr
  obtain ⟨f, hf1, hf2⟩ := fit_alone_fresh h1 hr (fun _ _ => rfl) a1 h2 g
  have hf := WrapObj_fit_ok h2
  obtain ⟨ps, p1, p2⟩ := (cmpMeasure_is hf h3).train
  change AnswersTo o'.forest c.data ps at p1
  change ScoreIs c.kind.wrapper.isCls ps (w'.arrays.getD c.ref []) s.train at p2
  have hcls : c.kind.wrapper.isCls = false := by rw [hk]; rfl
  have hpl : ps.length = c.data.length := p1.length_eq.symm
  have htd : trainData o.forest none = c.data := by
    unfold trainData
    rw [hdat]
    rfl
  have htrees : o'.forest.trees ≠ [] := by
    intro q
    have := (C110_limits (hi := h1) (hf := h2)).2.1 rfl
    rw [q] at this
    cases this
  have hw1 : w1.arrays.getD c.ref [] = w.arrays.getD c.ref [] := by simp only [List.getD_eq_getElem?_getD, prefix_get a2 hr]
  have hl2 := p2.length
  have hleft : w'.arrays.getD c.ref [] = answersLeave ps (w.arrays.getD c.ref []) := by
    apply List.ext_getElem
    · simp only [answersLeave, List.length_zipWith, hlen, ← hl2, hpl, Nat.min_self]
    · intro j hj1 hj2
      have hj : j < c.data.length := by rw [← hpl, hl2]; exact hj1
      obtain ⟨v, f2, e1, e2⟩ := C110_residuals (hi := h1) (hf := h2) (hg := by rw [hk]; rfl)
        (hb := by rw [hk]; simp [Bagged, nameParts, BaseKind.wrapper, BaseKind.args]) (lr := 1 / 10) (hlr := by rw [hk]; rfl) (hne := htrees)
        (r := c.ref) (hr := by rw [b2]; rfl) (j := j) (hj := by rw [htd]; exact hj)
      rw [htd, List.getD_eq_getElem _ _ hj] at e1
      obtain ⟨f', hp⟩ : ∃ f', o'.forest.predict (c.data[j]) = .ok (ps[j], f') := List.Forall₂.get p1 hj (by omega)
      rw [hp] at e1
      have hv : ps[j].value = v := by
        have := (Prod.mk.inj (Except.ok.inj e1)).1
        rw [this]; rfl
      have hy : j < (w.arrays.getD c.ref []).length := by rw [hlen]; exact hj
      rw [hw1, List.getD_eq_getElem _ _ hj1, List.getD_eq_getElem _ _ hy] at e2
      simp only [answersLeave, List.getElem_zipWith]
      rw [e2, hv]
  rw [hleft, hcls] at h4
  rw [hleft, hcls, ← h5] at p2
  exact ⟨f, ps, hf1, hf2.answers p1, hleft, p2, (libScores_is h4).1⟩

/-- C159 fails for `"GBHRFR"`: it never gets to a result. With more than two rows and targets that are not all the same, fitting our model raises an
exception in the first round, whatever the other library does. -/
theorem C159_gbhrfr_raises (c : BaseCmp K) (hk : c.kind = .gbhrfr) (n : Nat) (hn : n ≠ 0) (file : Option (BaseResult K)) (w : World K G) (hr : c.ref < w.arrays.length)
    (hl : (w.arrays.getD c.ref []).length = c.data.length) (h2 : 2 < c.data.length) (hu : 1 < (npUnique (w.arrays.getD c.ref [])).length)
    (q : BaseOut K × World K G) : compareBaseline R mem lib c n file w ≠ .ok q := by
  intro h
  obtain ⟨h1, _⟩ := compareBaseline_parts R mem lib (o := q.1) (w' := q.2) h
  obtain ⟨m, rfl⟩ := Nat.exists_eq_succ_of_ne_zero hn
  rw [List.range_succ_eq_map, baseRounds] at h1
  cases hb : baseRound R (mem 0) lib c 0 w with
  | error e => rw [hb] at h1; cases h1
  | ok b =>
    obtain ⟨row, w'⟩ := b
    obtain ⟨o, o', w1, s, i1, i2, _⟩ := baseRound_parts hb
    obtain ⟨_, a2, _, ⟨b, b1, b2, b3, _, b5⟩, _⟩ := Wrapper_init_alone i1 hr
    obtain ⟨hbr, hdat⟩ := b5 (by rw [hk]; rfl)
    subst hbr
    have hcfg := (Wrapper_init_obj i1).2.2.1
    obtain ⟨_, _, _, _, hs⟩ := Wrapper_init_super i1
    have hrem := (Forest_init_fields (Wrapper_super_ok hs).2.2).2.1
    have hw1 : w1.arrays.getD c.ref [] = w.arrays.getD c.ref [] := by simp only [List.getD_eq_getElem?_getD, prefix_get a2 hr]
    rw [hk] at hcfg
    refine forest_no_bins (d := 4) hdat b1 b2 ?_ hrem ?_ ?_ ?_ ?_ ?_ ?_ ?_ ?_ ?_ (by rw [hw1]; exact hl) ?_ (by rw [hw1]; exact hu) _ (WrapObj_fit_ok i2)
    all_goals first
      | (rw [hcfg]; rfl)
      | (rw [hcfg]; exact h2)
      | (rw [hcfg]; simp [BaseKind.wrapper, BaseKind.args, Wrapper.cfg, Wrapper.binType])

end

/-! ## Examples -/

/-- Another library: it answers every point with the mean of the targets, or with the first label. -/
def libQ : Lib ℚ := fun a _ ts _ => if a.isCls then ts.headD 0 else npMean ts

/-- A comparison on six points with two points for the test. -/
def baseQ (k : BaseKind) : BaseCmp ℚ where
  kind := k
  data := exData
  ref := 0
  testData := [[0, 2], [4, 9]]
  testRef := 1

/-- The caller's targets. -/
def baseWorldQ (k : BaseKind) : World ℚ Nat where
  glob := cmpWorldQ.glob
  arrays := if k.wrapper.isCls then [[0, 1, 1, 0, 1, 0], [0, 1]] else cmpWorldQ.arrays

/-- Two rounds, with the caller's arrays afterwards. -/
def exBase (k : BaseKind) : Option (List (BaseRow ℚ) × List (List ℚ)) :=
  ((baseRounds rngQ (fun _ => exMems) libQ (baseQ k) [0, 1] (baseWorldQ k)).toOption).map (fun q => (q.1, q.2.arrays.take 2))

/-- Two calls: whether each said "reproduced", and whether the second left the file. -/
def exTwice (k : BaseKind) : Option (Bool × Bool × Bool) :=
  match compareBaseline rngQ (fun _ => exMems) libQ (baseQ k) 2 none (baseWorldQ k) with
  | .error _ => none
  | .ok (o, w) =>
    match compareBaseline rngQ (fun _ => exMems) libQ (baseQ k) 2 o.file w with
    | .error _ => none
    | .ok (o2, _) => some (o.reproduced, o2.reproduced, decide (o2.file = o.file))

/-- The hypotheses of `C159_fair_partial` are met by classifiers … -/
example : exBase .rfc = some ([⟨1, 1, 1 / 2, 1 / 2⟩, ⟨1, 1, 1 / 2, 1 / 2⟩], [[0, 1, 1, 0, 1, 0], [0, 1]]) := by decide +kernel

/-- … and by regressors. -/
example : exBase .rfr = some ([⟨233 / 150, 117 / 25, 1001 / 36, 505 / 36⟩, ⟨109 / 75, 409 / 50, 1001 / 36, 505 / 36⟩],
    [[1, 2, 4, 7, 11, 16], [2, 9]]) := by decide +kernel

/-- So are those of `C159_again_partial`. -/
example : [BaseKind.rfc, .erfc, .rfr, .erfr].map exTwice = List.replicate 4 (some (false, true, true)) := by decide +kernel

/-- C159 fails for the boosted forest: after two rounds the caller's targets are all zero, the other library's last training error is zero, and a
second call does not reproduce the first. -/
theorem C159_refuted_gbrfr :
    (exBase .gbrfr).map (fun q => (q.2, q.1.map BaseRow.theirTrain)) =
      some ([[0, 0, 0, 0, 0, 0], [2, 9]], [186535791 / 200000000, 0]) ∧
    exTwice .gbrfr = some (false, false, false) := by decide +kernel

/-- The hypotheses of `C159_gbhrfr_raises` are met. -/
example : (2 < (baseQ .gbhrfr).data.length ∧ (baseWorldQ .gbhrfr).arrays.getD 0 [] = [1, 2, 4, 7, 11, 16]) ∧
    (match baseRounds rngQ (fun _ => exMems) libQ (baseQ .gbhrfr) [0] (baseWorldQ .gbhrfr) with
     | .error .typeError => true
     | _ => false) = true := by decide +kernel

end FF
