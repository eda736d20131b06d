import Verif.Props.Mdi
import Verif.Props.Used
import Verif.Model.Importance

/-!
# Importances of several forests (C71, C84)

`PermReach R p`: the object `p` was constructed and then `get_importance_array` (or `run_baseline`) was called any number of times, with
anything happening to the process in between.
-/

namespace FF

set_option linter.unusedSectionVars false

variable {K : Type} [Field K] [LinearOrder K] [IsStrictOrderedRing K] [FloorRing K] [NpFun K] {G : Type}
variable (R : Rng K G)

/-- The histories of a `PermutationImportance` object. -/
inductive PermReach : PermImp K G → Prop
  | init {w w' : World K G} {cfg : PermCfg K} {score : ImpScore} {seed : Nat} {data : List (List K)} {ref : Nat} {p : PermImp K G}
      (h : PermImp.init R w cfg score seed data ref = .ok (p, w')) : PermReach p
  | call {p p' : PermImp K G} {w w' : World K G} {mem : Nat → Nat → Nat → Junk K} {a : List (List (XF K))}
      (hp : PermReach p) (h : PermImp.importanceArray R mem p w = .ok (a, p', w')) : PermReach p'

/-- `g` is a forest that was fitted to `data` as a new forest and only read since. -/
def TrainedOn (data : List (List K)) (g : Forest K G) : Prop :=
  ∃ (mem : Nat → Nat → Junk K) (f f' : Forest K G) (w w' : World K G), Forest.fit R mem f w none none = .ok (f', w') ∧ f.mdi = none ∧
    trainData f none = data ∧ f.cfg.alphaN = 1 ∧ f.cfg.alphaF = 1 ∧ AfterReads f' g

theorem AfterReads.trans' {f g h : Forest K G} (h1 : AfterReads f g) (h2 : AfterReads g h) : AfterReads f h := by
  induction h2 with
  | none => exact h1
  | predict _ hp ih => exact ih.predict hp
  | oob _ hp ih => exact ih.oob hp
  | mdi _ hp ih => exact ih.mdi hp

theorem AfterReads.unused {f f' : Forest K G} (h : AfterReads f f') {j : Nat} (hun : ∀ t ∈ f.trees, ¬ SplitsOn t j) :
    ∀ t ∈ f'.trees, ¬ SplitsOn t j := by
  obtain ⟨ts, m, rfl, h1, _⟩ := h.same
  intro t ht
  obtain ⟨i, hi, rfl⟩ := List.mem_iff_getElem.1 ht
  have h2 := h1.get (by rw [h1.length_eq]; exact hi) hi
  have h3 := hun _ (List.get_mem f.trees ⟨i, by rw [h1.length_eq]; exact hi⟩)
  exact fun h4 => h3 (h2.splitsOn h4)

theorem trainForest_parts {mem : Nat → Nat → Junk K} {p p' : PermImp K G} {w w' : World K G} {seed : Nat}
    (h : PermImp.trainForest R mem p w seed = .ok (p', w')) :
    ∃ g, p' = { p with forests := p.forests ++ [g] } ∧ TrainedOn R p.data g := by
  unfold PermImp.trainForest at h
  cases hi : Forest.init R w (p.cfg.forestCfg seed) none (some p.data) (some p.labelsRef) p.cfg.budget with
  | error e => rw [hi] at h; cases h
  | ok q =>
    obtain ⟨f, w1⟩ := q
    rw [hi] at h
    simp only [] at h
    cases hf : Forest.fit R mem f w1 none none with
    | error e => rw [hf] at h; cases h
    | ok q =>
      obtain ⟨g, w2⟩ := q
      rw [hf] at h
      cases h
      obtain ⟨h1, _, _, _, h5, _, _, h8, _⟩ := Forest_init_fields hi
      refine ⟨g, rfl, mem, f, g, w1, _, hf, h5, ?_, ?_, ?_, .none⟩
      · unfold trainData; rw [h8]; rfl
      · rw [h1]; rfl
      · rw [h1]; rfl

theorem trainForests_parts {mem : Nat → Nat → Nat → Junk K} : ∀ (n : Nat) {p p' : PermImp K G} {w w' : World K G},
    PermImp.trainForests R mem n p w = .ok (p', w') →
    ∃ gs g, p' = { p with forests := p.forests ++ gs, rng := g } ∧ gs.length = n ∧ ∀ f ∈ gs, TrainedOn R p.data f := by
  intro n
  induction n with
  | zero =>
    intro p p' w w' h
    cases h
    exact ⟨[], p.rng, by simp, rfl, by simp⟩
  | succ n ih =>
    intro p p' w w' h
    unfold PermImp.trainForests at h
    cases ht : PermImp.trainForest R (mem p.forests.length) { p with rng := (R.randint p.rng maxSeed).2 } w (R.randint p.rng maxSeed).1 with
    | error e => rw [ht] at h; cases h
    | ok q =>
      obtain ⟨p1, w1⟩ := q
      rw [ht] at h
      obtain ⟨f, rfl, hf⟩ := trainForest_parts R ht
      obtain ⟨gs, g, h1, h2, h3⟩ := ih h
      refine ⟨f :: gs, g, ?_, by simp [h2], ?_⟩
      · rw [h1]; simp
      · intro x hx
        rcases List.mem_cons.1 hx with rfl | hx
        · exact hf
        · exact h3 x hx

theorem predictBatch_reads : ∀ (xs : List (List K)) {f f' : Forest K G} {ps : List (Pred K)},
    f.predictBatch xs = .ok (ps, f') → AfterReads f f' ∧ ps.length = xs.length := by
  intro xs
  induction xs with
  | nil => intro f f' ps h; cases h; exact ⟨.none, rfl⟩
  | cons x xs ih =>
    intro f f' ps h
    rw [Forest.predictBatch] at h
    cases hp : f.predict x with
    | error e => rw [hp] at h; cases h
    | ok q =>
      obtain ⟨p, f1⟩ := q
      rw [hp] at h
      simp only [] at h
      cases hb : f1.predictBatch xs with
      | error e => rw [hb] at h; cases h
      | ok q =>
        obtain ⟨ps', f2⟩ := q
        rw [hb] at h
        cases h
        obtain ⟨h1, h2⟩ := ih hb
        exact ⟨(AfterReads.none.predict hp).trans' h1, by simp [h2]⟩

/-- What the loop of the permutation importances computes. -/
theorem permLoop_parts {w : World K G} {data : List (List K)} {sc : Nat} : ∀ (js : List Nat) {f f' : Forest K G} {g g' : G} {v : List (XF K)},
    permLoop R w data sc js f g = .ok (v, f', g') → AfterReads f f' ∧ v.length = js.length ∧
      ∀ (k : Nat) (j : Nat) (x : XF K), js[k]? = some j → v[k]? = some x → ∃ (f1 f2 : Forest K G) (g1 : G) (s : XF K), AfterReads f f1 ∧
        f1.oobScore w (some (shuffleCol data j (R.shuffle g1 data.length).1)) = .ok (s, f2) ∧ x = ((xnat sc).sub s).abs := by
  intro js
  induction js with
  | nil => intro f f' g g' v h; cases h; exact ⟨.none, rfl, fun k j x h => by simp at h⟩
  | cons j js ih =>
    intro f f' g g' v h
    rw [permLoop] at h
    cases ho : f.oobScore w (some (shuffleCol data j (R.shuffle g data.length).1)) with
    | error e => rw [ho] at h; cases h
    | ok q =>
      obtain ⟨s, f1⟩ := q
      rw [ho] at h
      simp only [] at h
      cases hl : permLoop R w data sc js f1 (R.shuffle g data.length).2 with
      | error e => rw [hl] at h; cases h
      | ok q =>
        obtain ⟨v', f2, g2⟩ := q
        rw [hl] at h
        cases h
        obtain ⟨h1, h2, h3⟩ := ih hl
        have h0 : AfterReads f f1 := AfterReads.none.oob ho
        refine ⟨h0.trans' h1, by simp [h2], ?_⟩
        intro k j' x hj hx
        cases k with
        | zero =>
          simp only [List.getElem?_cons_zero, Option.some.injEq] at hj hx
          subst hj hx
          exact ⟨f, f1, g, s, .none, ho, rfl⟩
        | succ k =>
          rw [List.getElem?_cons_succ] at hj hx
          obtain ⟨f3, f4, g3, s', e1, e2, e3⟩ := h3 k j' x hj hx
          exact ⟨f3, f4, g3, s', h0.trans' e1, e2, e3⟩

theorem importanceVec_reads {w : World K G} {p : PermImp K G} {f f' : Forest K G} {g g' : G} {v : List (XF K)}
    (h : importanceVec R w p f g = .ok (v, f', g')) : AfterReads f f' := by
  unfold importanceVec at h
  cases hs : p.score with
  | permutation =>
    rw [hs] at h
    simp only [] at h
    cases hb : f.predictBatch p.data with
    | error e => rw [hb] at h; cases h
    | ok q =>
      obtain ⟨ps, f1⟩ := q
      rw [hb] at h
      simp only [] at h
      cases hm : modelScore p.cfg.isCls ps (w.arrays.getD p.labelsRef []) with
      | error e => rw [hm] at h; cases h
      | ok sc =>
        rw [hm] at h
        exact (predictBatch_reads _ hb).1.trans' (permLoop_parts R _ h).1
  | impurity =>
    rw [hs] at h
    simp only [] at h
    cases hm : f.calculateMdi with
    | error e => rw [hm] at h; cases h
    | ok q =>
      obtain ⟨a, f1⟩ := q
      rw [hm] at h
      cases h
      exact AfterReads.none.mdi hm
  | other => rw [hs] at h; cases h

theorem importanceRows_parts {w : World K G} {p : PermImp K G} : ∀ (fs : List (Forest K G)) {g g' : G} {vs : List (List (XF K))} {fs' : List (Forest K G)},
    importanceRows R w p fs g = .ok (vs, fs', g') →
    List.Forall₂ AfterReads fs fs' ∧ List.Forall₂ (fun f v => ∃ f1 g1 g2, importanceVec R w p f g1 = .ok (v, f1, g2)) fs vs := by
  intro fs
  induction fs with
  | nil => intro g g' vs fs' h; cases h; exact ⟨.nil, .nil⟩
  | cons f fs ih =>
    intro g g' vs fs' h
    rw [importanceRows] at h
    cases hv : importanceVec R w p f g with
    | error e => rw [hv] at h; cases h
    | ok q =>
      obtain ⟨v, f1, g1⟩ := q
      rw [hv] at h
      simp only [] at h
      cases hr : importanceRows R w p fs g1 with
      | error e => rw [hr] at h; cases h
      | ok q =>
        obtain ⟨vs', fs1, g2⟩ := q
        rw [hr] at h
        cases h
        obtain ⟨h1, h2⟩ := ih hr
        exact ⟨.cons (importanceVec_reads R hv) h1, .cons ⟨_, _, _, hv⟩ h2⟩

theorem importanceArray_parts {mem : Nat → Nat → Nat → Junk K} {p p' : PermImp K G} {w w' : World K G} {a : List (List (XF K))}
    (h : PermImp.importanceArray R mem p w = .ok (a, p', w')) :
    ∃ gs g vs, gs.length = p.cfg.numForests ∧ (∀ f ∈ gs, TrainedOn R p.data f) ∧ p'.data = p.data ∧ p'.cfg = p.cfg ∧ p'.score = p.score ∧
      List.Forall₂ AfterReads (p.forests ++ gs) p'.forests ∧ a = vs.filter (fun v => !v.isEmpty) ∧
      List.Forall₂ (fun f v => ∃ f1 g1 g2, importanceVec R w' { p with forests := p.forests ++ gs, rng := g } f g1 = .ok (v, f1, g2))
        (p.forests ++ gs) vs := by
  unfold PermImp.importanceArray at h
  cases ht : PermImp.trainForests R mem p.cfg.numForests p w with
  | error e => rw [ht] at h; cases h
  | ok q =>
    obtain ⟨p1, w1⟩ := q
    rw [ht] at h
    simp only [] at h
    obtain ⟨gs, g, rfl, h2, h3⟩ := trainForests_parts R _ ht
    cases hr : importanceRows R w1 { p with forests := p.forests ++ gs, rng := g } (p.forests ++ gs) g with
    | error e => simp only [hr] at h; cases h
    | ok q =>
      obtain ⟨vs, fs, g2⟩ := q
      simp only [hr] at h
      cases h
      obtain ⟨h4, h5⟩ := importanceRows_parts R _ hr
      exact ⟨gs, g, vs, h2, h3, rfl, rfl, rfl, h4, rfl, h5⟩

/-- Every forest of a `PermutationImportance` object was fitted to its data, and only read since. -/
theorem PermReach.trained {p : PermImp K G} (h : PermReach R p) : ∀ f ∈ p.forests, TrainedOn R p.data f := by
  induction h with
  | init h =>
    unfold PermImp.init at h
    split_ifs at h
    · cases h
      simp
  | @call q p' w w' mem a hp h ih =>
    obtain ⟨gs, g, vs, _, h3, h4, _, _, h5, _⟩ := importanceArray_parts R h
    rw [h4]
    intro f hf
    obtain ⟨i, hi⟩ := List.mem_iff_getElem.1 hf
    obtain ⟨hi1, rfl⟩ := hi
    have hlen := h5.length_eq
    have h6 := h5.get (by rw [hlen]; exact hi1) hi1
    have h7 : TrainedOn R q.data ((q.forests ++ gs).get ⟨i, by rw [hlen]; exact hi1⟩) := by
      rcases List.mem_append.1 (List.get_mem (q.forests ++ gs) ⟨i, by rw [hlen]; exact hi1⟩) with h | h
      · exact ih _ h
      · exact h3 _ h
    obtain ⟨mem, f0, f', w0, w1, e1, e2, e3, e4, e5, e6⟩ := h7
    exact ⟨mem, f0, f', w0, w1, e1, e2, e3, e4, e5, e6.trans' h6⟩

/-! ### C71 -/

/-- C71. For data with at least one column, the array of impurity importances has one row for each forest trained so far (in the first
call, `num_forests` rows), each row has one entry per column, and every entry is at least 0. -/
theorem C71_impurity (mem : Nat → Nat → Nat → Junk K) (p p' : PermImp K G) (w w' : World K G) (a : List (List (XF K)))
    (hp : PermReach R p) (hs : p.score = .impurity) (hcol : p.data.getD 0 [] ≠ [])
    (h : PermImp.importanceArray R mem p w = .ok (a, p', w')) :
    a.length = p.forests.length + p.cfg.numForests ∧ p'.forests.length = a.length ∧
    ∀ v ∈ a, v.length = (p.data.getD 0 []).length ∧ ∀ x ∈ v, x = .fin 0 ∨ (XF.fin 0).lt x = true := by
  obtain ⟨gs, g, vs, h2, h3, h4, _, _, h5, h6, h7⟩ := importanceArray_parts R h
  have hrow : ∀ v ∈ vs, v.length = (p.data.getD 0 []).length ∧ ∀ x ∈ v, x = .fin 0 ∨ (XF.fin 0).lt x = true := by
    intro v hv
    obtain ⟨i, hi, rfl⟩ := List.mem_iff_getElem.1 hv
    have hlen := h7.length_eq
    obtain ⟨f1, g1, g2, e⟩ := h7.get (by rw [hlen]; exact hi) hi
    have htr : TrainedOn R p.data ((p.forests ++ gs).get ⟨i, by rw [hlen]; exact hi⟩) := by
      rcases List.mem_append.1 (List.get_mem (p.forests ++ gs) ⟨i, by rw [hlen]; exact hi⟩) with h | h
      · exact hp.trained R _ h
      · exact h3 _ h
    obtain ⟨mem', f0, f', w0, w1, e1, e2, e3, _, _, e6⟩ := htr
    unfold importanceVec at e
    simp only [hs] at e
    cases hm : ((p.forests ++ gs).get ⟨i, by rw [hlen]; exact hi⟩).calculateMdi with
    | error e' => rw [hm] at e; cases e
    | ok q =>
      obtain ⟨b, f2⟩ := q
      rw [hm] at e
      simp only [Except.ok.injEq, Prod.mk.injEq] at e
      obtain ⟨m1, m2⟩ := mdi_any R mem' e1 e2 e6 hm
      have hv' : vs[i] = b.map XF.neg := e.1.symm
      rw [hv']
      refine ⟨by rw [List.length_map, m1, e3], ?_⟩
      intro x hx
      obtain ⟨y, hy, rfl⟩ := List.mem_map.1 hx
      obtain ⟨j, hj⟩ := List.mem_iff_getElem?.1 hy
      rcases (m2 j y hj).2 with h | h
      · left; rw [h]; simp [XF.neg]
      · right
        cases y with
        | nan => cases h
        | ninf => rfl
        | pinf => cases h
        | fin y =>
          have h' : decide (y < 0) = true := h
          show decide ((0 : K) < -y) = true
          simpa using h'
  have hfil : vs.filter (fun v => !v.isEmpty) = vs := by
    rw [List.filter_eq_self]
    intro v hv
    have h8 := (hrow v hv).1
    cases v with
    | nil =>
      exfalso
      apply hcol
      rw [← List.length_eq_zero_iff, ← h8]
      rfl
    | cons x xs => rfl
  rw [hfil] at h6
  subst h6
  have hl1 := h5.length_eq
  have hl2 := h7.length_eq
  rw [List.length_append, h2] at hl1 hl2
  exact ⟨hl2.symm, by rw [← hl1, hl2], hrow⟩

/-- C71, existence: once the forests are trained, the impurity importances can be computed. -/
theorem C71_total (mem : Nat → Nat → Nat → Junk K) (p p1 : PermImp K G) (w w1 : World K G) (hp : PermReach R p)
    (hs : p.score = .impurity) (hcol : p.data.getD 0 [] ≠ []) (ht : PermImp.trainForests R mem p.cfg.numForests p w = .ok (p1, w1)) :
    ∃ a p' w', PermImp.importanceArray R mem p w = .ok (a, p', w') := by
  obtain ⟨gs, g, rfl, _, h3⟩ := trainForests_parts R _ ht
  unfold PermImp.importanceArray
  rw [ht]
  simp only []
  have hall : ∀ f ∈ p.forests ++ gs, TrainedOn R p.data f := by
    intro f hf
    rcases List.mem_append.1 hf with h | h
    · exact hp.trained R f h
    · exact h3 f h
  have hrows : ∀ (fs : List (Forest K G)) (q : PermImp K G) (g : G), q.score = .impurity → (∀ f ∈ fs, TrainedOn R p.data f) →
      ∃ r, importanceRows R w1 q fs g = .ok r := by
    intro fs
    induction fs with
    | nil => intro q g _ _; exact ⟨_, rfl⟩
    | cons f fs ih =>
      intro q g hq h
      obtain ⟨mem', f0, f', w0, w2, e1, e2, e3, e4, e5, e6⟩ := h f (by simp)
      obtain ⟨b, f2, hm⟩ := C57_total R mem' f0 f' f w0 w2 none none e1 e6 e4.le e5.le (by rw [e3]; exact hcol)
      obtain ⟨r, hr⟩ := ih q g hq (fun f hf => h f (by simp [hf]))
      rw [importanceRows]
      unfold importanceVec
      simp only [hq, hm, hr]
      exact ⟨_, rfl⟩
  obtain ⟨r, hr⟩ := hrows (p.forests ++ gs) { p with forests := p.forests ++ gs, rng := g } g hs hall
  simp only [hr]
  exact ⟨_, _, _, rfl⟩

/-! ### C84 -/

/-- C84, in part. The permutation importance of a feature that no tree of the forest splits on does not depend on the shuffling: it is the
distance of the model's score (the number `n` of correct predictions) from the out-of-bag score of the forest on the unchanged data. -/
theorem C84_unused_partial (w : World K G) (p : PermImp K G) (f f' : Forest K G) (g g' : G) (v : List (XF K)) (hs : p.score = .permutation)
    (h : importanceVec R w p f g = .ok (v, f', g')) :
    v.length = (p.data.getD 0 []).length ∧ ∃ n : Nat, ∀ (j : Nat) (x : XF K), v[j]? = some x → (∀ t ∈ f.trees, ¬ SplitsOn t j) →
      ∃ (f1 f2 : Forest K G) (s : XF K), AfterReads f f1 ∧ f1.oobScore w (some p.data) = .ok (s, f2) ∧ x = ((xnat n).sub s).abs := by
  unfold importanceVec at h
  rw [hs] at h
  simp only [] at h
  cases hb : f.predictBatch p.data with
  | error e => rw [hb] at h; cases h
  | ok q =>
    obtain ⟨ps, f1⟩ := q
    rw [hb] at h
    simp only [] at h
    cases hm : modelScore p.cfg.isCls ps (w.arrays.getD p.labelsRef []) with
    | error e => rw [hm] at h; cases h
    | ok sc =>
      rw [hm] at h
      obtain ⟨h1, h2, h3⟩ := permLoop_parts R _ h
      rw [List.length_range] at h2
      refine ⟨h2, sc, ?_⟩
      intro j x hx hun
      have hj : (List.range (p.data.getD 0 []).length)[j]? = some j := by
        rw [List.getElem?_range]
        have := (List.getElem?_eq_some_iff.1 hx).1
        omega
      obtain ⟨f2, f3, g1, s, e1, e2, e3⟩ := h3 j j x hj hx
      have hr : AfterReads f f2 := (predictBatch_reads _ hb).1.trans' e1
      refine ⟨f2, f3, s, hr, ?_, e3⟩
      rw [← e2]
      have hun2 : ∀ t ∈ f2.trees, ¬ SplitsOn t j := hr.unused hun
      have hsl : (R.shuffle g1 p.data.length).1.length = p.data.length := by
        rw [(R.shuffle_perm g1 p.data.length).length_eq, List.length_range]
      apply C83_oob
      · simp [shuffleCol, hsl]
      · intro r hr' t ht i hi
        have hij : i ≠ j := fun h => hun2 t ht (h ▸ hi)
        have h5 : r < (shuffleCol p.data j (R.shuffle g1 p.data.length).1).length := by simp [shuffleCol, hsl, hr']
        rw [List.getD_eq_getElem _ _ hr', List.getD_eq_getElem _ _ h5]
        simp only [shuffleCol, List.getElem_zipWith]
        rw [List.getElem?_set_ne (Ne.symm hij)]

/-! ### Where it fails, and examples -/

/-- A configuration with two forests of two trees each. -/
def permCfgQ : PermCfg ℚ :=
  { maxDepth := .some 3, numForests := 2, numTrees := 2, isCls := true, solver := .exact, metric := .jaccard, budget := none
    featSub := .none, maxLeafNodes := none, epsilon := 0 }

/-- Constructing the object and computing the importances twice: two rows from the first call, four from the second. -/
def exImportance (score : ImpScore) (data : List (List ℚ)) : Option (List (List (XF ℚ)) × List (List (List (Option Nat)))) :=
  (do let (p, w) ← PermImp.init rngQ exWorld permCfgQ score 3 data 0
      let (a, p, w) ← PermImp.importanceArray rngQ (fun _ => exMems) p w
      let (b, _, _) ← PermImp.importanceArray rngQ (fun _ => exMems) p w
      pure (a ++ b, p.forests.map (fun (f : Forest ℚ Nat) => f.trees.map (fun (t : Tree ℚ Nat) => t.nodes.map (fun (n : Node ℚ) => n.splitFeature))))).toOption

/-- The hypotheses of `C71_impurity` are met, in a first and in a second call; the second one has twice as many rows. -/
example : exImportance .impurity exData = some
    ([[.fin (8 / 45), .fin (49 / 90)], [.fin (28 / 45), .fin (4 / 15)],
      [.fin (8 / 45), .fin (49 / 90)], [.fin (28 / 45), .fin (4 / 15)], [.fin (4 / 9), .fin (5 / 18)], [.fin (8 / 45), .fin (49 / 90)]],
     [[[some 1, none, none], [some 0, none, some 1, none, none]], [[some 0, none, some 1, none, none], [some 0, none, none]]]) := by
  decide +kernel

/-- C84 fails in general: no tree splits on feature 1, which is constant, but its permutation importance is 5 (six correct predictions minus
the out-of-bag accuracy 1). -/
theorem C84_refuted : exImportance .permutation [[0, 7], [1, 7], [1, 7], [0, 7], [1, 7], [0, 7]] = some
    ([[.fin (23 / 4), .fin 5], [.fin (23 / 4), .fin 5],
      [.fin (23 / 4), .fin 5], [.fin (23 / 4), .fin 5], [.fin (11 / 2), .fin 5], [.fin (11 / 2), .fin 5]],
     [[[some 0, none, none], [some 0, none, none]], [[some 0, none, none], [some 0, none, none]]]) := by
  decide +kernel

end FF
