import Verif.Props.Frame
import Verif.Props.Wrappers
import Verif.Props.Kinds
import Verif.Props.Importance
import Verif.Props.ForestPredict
import Mathlib.Tactic.FieldSimp

set_option linter.unusedSectionVars false

/-!
# Comparisons of two models (C123)
-/

namespace FF

open Spec

variable {K : Type} [Field K] [LinearOrder K] [IsStrictOrderedRing K] [FloorRing K] [NpFun K] {G : Type}

section
variable {R : Rng K G} {mem : Nat → Nat → Junk K}

/-! ### Two models that differ in the place of their targets -/

/-- Equal but for the place of the targets. -/
def Forest.likes (f f2 : Forest K G) : Prop := f2 = { f with orgRef := f2.orgRef, newRef := f2.newRef }

theorem Forest.likes.predict {f f2 : Forest K G} (h : f.likes f2) {x : List K} {p : Pred K} {f' : Forest K G} (hp : f.predict x = .ok (p, f')) :
    ∃ f2', f2.predict x = .ok (p, f2') := by
  have e : (f.predict x).map Prod.fst = (f2.predict x).map Prod.fst := by
    rw [Forest_predict_fst, Forest_predict_fst, h]
  rw [hp] at e
  cases h2 : f2.predict x with
  | error er => rw [h2] at e; cases e
  | ok q =>
    rw [h2] at e
    have : p = q.1 := Except.ok.inj e
    exact ⟨q.2, by rw [this]⟩

theorem Forest.likes.answers {f f2 : Forest K G} (h : f.likes f2) {xs : List (List K)} {ps : List (Pred K)} (ha : AnswersTo f xs ps) :
    AnswersTo f2 xs ps := by
  refine List.Forall₂.imp ?_ ha
  rintro x p ⟨f', hp⟩
  exact h.predict hp

theorem Forest.likes.side {f f2 : Forest K G} (h : f.likes f2) {c : Cmp K} {ts ts' : List K} {s : CmpSide K} (hs : SideIs c f ts ts' s) :
    SideIs c f2 ts ts' s where
  queries := by rw [hs.queries, h]
  trees := by rw [hs.trees, h]
  train := by
    obtain ⟨ps, h1, h2⟩ := hs.train
    exact ⟨ps, h.answers h1, h2⟩
  test := fun hc => by
    obtain ⟨v, ps, h0, h1, h2⟩ := hs.test hc
    exact ⟨v, ps, h0, h.answers h1, h2⟩
  noTest := hs.noTest

/-! ### Scores -/

theorem npMean_mul_length {l : List K} (h : l ≠ []) : npMean l * (l.length : K) = l.sum := by
  have : (l.length : K) ≠ 0 := by
    have := List.length_pos_of_ne_nil h
    exact_mod_cast this.ne'
  unfold npMean
  field_simp

theorem sum_indicator {α : Type} (p : α → Bool) (l : List α) : (l.map (fun a => if p a = true then (1 : K) else 0)).sum = (l.countP p : K) := by
  induction l with
  | nil => simp
  | cons a l ih =>
    rw [List.map_cons, List.sum_cons, ih, List.countP_cons]
    cases p a <;> simp [add_comm]

theorem cmpScore_is {isCls : Bool} {ps : List (Pred K)} {ts : List K} {s : K} (h : cmpScore isCls ps ts = .ok s) : ScoreIs isCls ps ts s := by
  unfold cmpScore at h
  split_ifs at h with h1 h2
  · rw [not_or, not_not] at h1
    cases h
    have hz : List.zipWith (fun (p : Pred K) y => if p.value = y then (1 : K) else 0) ps ts =
        (ps.zip ts).map (fun q => if decide (q.1.value = q.2) = true then (1 : K) else 0) := by
      rw [List.zip, List.map_zipWith]
      simp only [decide_eq_true_eq]
    have hl : (List.zipWith (fun (p : Pred K) y => if p.value = y then (1 : K) else 0) ps ts).length = ps.length := by
      rw [List.length_zipWith, h1.1, Nat.min_self]
    refine ⟨h1.2, h1.1, fun _ => ?_, fun hf => by rw [h2] at hf; cases hf⟩
    rw [← sum_indicator, ← hz, ← npMean_mul_length, hl]
    intro q
    rw [q] at hl
    exact h1.2 (List.length_eq_zero_iff.1 hl.symm)
  · rw [not_or, not_not] at h1
    cases h
    have hz : List.zipWith (fun (p : Pred K) y => (p.value - y) * (p.value - y)) ps ts =
        (ps.zip ts).map (fun q => (q.1.value - q.2) ^ 2) := by
      rw [List.zip, List.map_zipWith]
      simp only [sq]
    have hl : (List.zipWith (fun (p : Pred K) y => (p.value - y) * (p.value - y)) ps ts).length = ps.length := by
      rw [List.length_zipWith, h1.1, Nat.min_self]
    refine ⟨h1.2, h1.1, fun hc => absurd hc h2, fun _ => ?_⟩
    rw [← hz, ← npMean_mul_length, hl]
    intro q
    rw [q] at hl
    exact h1.2 (List.length_eq_zero_iff.1 hl.symm)

theorem batch_answers {f f' f1 f2 : Forest K G} {w w' : World K G} {data : Option (List (List K))} {labels : Option Nat}
    (hf : Forest.fit R mem f w data labels = .ok (f', w')) (ha : AfterReads f' f1) {xs : List (List K)} {ps : List (Pred K)}
    (hp : f1.predictBatch xs = .ok (ps, f2)) : AnswersTo f' xs ps := by
  have h := C63_batch R mem f f' f1 w w' data labels hf ha xs
  rw [hp] at h
  refine List.Forall₂.imp ?_ (mapM_ok (show xs.mapM (fun x => (f'.predict x).map Prod.fst) = .ok ps from h.symm))
  intro x p hx
  cases hq : f'.predict x with
  | error e => rw [hq] at hx; cases hx
  | ok q =>
    rw [hq] at hx
    have : q.1 = p := Except.ok.inj hx
    exact ⟨q.2, by rw [← this]⟩

/-- The scores of a fitted model are those of its answers. -/
theorem cmpMeasure_is {f f' : Forest K G} {w w' wm : World K G} {data : Option (List (List K))} {labels : Option Nat}
    (hf : Forest.fit R mem f w data labels = .ok (f', w')) {c : Cmp K} {s : CmpSide K} (h : cmpMeasure c wm f' = .ok s) :
    SideIs c f' (wm.arrays.getD c.ref []) (wm.arrays.getD c.testRef []) s := by
  unfold cmpMeasure at h
  cases hb : f'.predictBatch c.data with
  | error e => rw [hb] at h; cases h
  | ok q =>
    obtain ⟨ps, f1⟩ := q
    rw [hb] at h
    dsimp only at h
    cases hs : cmpScore c.kind.isCls ps (wm.arrays.getD c.ref []) with
    | error e => rw [hs] at h; cases h
    | ok tr =>
      rw [hs] at h
      dsimp only at h
      have a1 := batch_answers hf AfterReads.none hb
      by_cases hp : c.predict = true
      · rw [if_pos hp] at h
        cases hb2 : f1.predictBatch c.testData with
        | error e => rw [hb2] at h; cases h
        | ok q2 =>
          obtain ⟨ps2, f2⟩ := q2
          rw [hb2] at h
          dsimp only at h
          cases hs2 : cmpScore c.kind.isCls ps2 (wm.arrays.getD c.testRef []) with
          | error e => rw [hs2] at h; cases h
          | ok te =>
            rw [hs2] at h
            cases h
            exact ⟨rfl, rfl, ⟨ps, a1, cmpScore_is hs⟩,
              fun _ => ⟨te, ps2, rfl, batch_answers hf (predictBatch_reads _ hb).1 hb2, cmpScore_is hs2⟩,
              fun hn => by rw [hp] at hn; cases hn⟩
      · rw [if_neg hp] at h
        cases h
        exact ⟨rfl, rfl, ⟨ps, a1, cmpScore_is hs⟩, fun hq => absurd hq hp, fun _ => rfl⟩

/-! ### Construction -/

theorem Forest_init_alone {cfg : ForestCfg K} {w w1 : World K G} {d : Option (List (List K))} {r : Nat} {b : Option Int} {f : Forest K G}
    (h : Forest.init R w cfg none d (some r) b = .ok (f, w1)) (hr : r < w.arrays.length) :
    w1 = { w with glob := setSeed R cfg.randomState } ∧ f.cfg.boosting = cfg.boosting ∧ (f.orgRef = some r ∧ f.newRef = some r ∧ f.data = d) ∧
    ∀ (w2 : World K G) (r2 : Nat), r2 < w2.arrays.length → w.arrays.getD r [] = w2.arrays.getD r2 [] →
      ∃ f2, Forest.init R w2 cfg none d (some r2) b = .ok (f2, { w2 with glob := setSeed R cfg.randomState }) ∧
        StartSim f w1 f2 { w2 with glob := setSeed R cfg.randomState } := by
  unfold Forest.init at h
  dsimp only at h
  split_ifs at h with h0 h1 h2 h3 h4
  all_goals
    cases h
    refine ⟨rfl, rfl, ⟨rfl, rfl, rfl⟩, ?_⟩
    intro w2 r2 hr2 he
    unfold Forest.init
    dsimp only
    rw [← he]
    simp only [if_neg h0, if_neg h1, if_neg h2]
    refine ⟨_, rfl, ⟨?_, rfl, ⟨r, r2, rfl, rfl, he⟩, ⟨r, r2, rfl, rfl, hr, hr2, he⟩⟩⟩
    first | rfl | simp_all

/-- The constructor of a wrapper: the generators are seeded, arrays are only added, and the model refers to the caller's targets or to a new
array. -/
theorem Wrapper_init_alone {k : Wrapper} {a : WrapArgs K} {w w1 : World K G} {d : List (List K)} {r : Nat} {o : WrapObj K G}
    (h : Wrapper.init R k a w (some d) (some r) = .ok (o, w1)) (hr : r < w.arrays.length) :
    w1.glob = setSeed R a.randomState ∧ w.arrays <+: w1.arrays ∧ o.forest.cfg.boosting = k.boosts ∧
    (∃ b, o.forest.orgRef = some b ∧ o.forest.newRef = some b ∧ b < w1.arrays.length ∧ (k.subsamples = true → w.arrays.length ≤ b) ∧
      (k.subsamples = false → b = r ∧ o.forest.data = some d)) ∧
    ∀ g, ∃ o2 w2, Wrapper.init R k a ⟨g, [w.arrays.getD r []]⟩ (some d) (some 0) = .ok (o2, w2) ∧ StartSim o.forest w1 o2.forest w2 := by
  unfold Wrapper.init at h
  split_ifs at h with h0 h1 hs
  · dsimp only at h
    cases hp : patchDraw R a.randomState d (a.alphaN.getD 1) (a.alphaF.getD 1) with
    | error e => rw [hp] at h; cases h
    | ok q =>
      obtain ⟨rs, cs⟩ := q
      rw [hp] at h
      dsimp only at h
      cases ht : takeE (w.arrays.getD r []) 0 rs with
      | error e => rw [ht] at h; cases h
      | ok ls =>
        rw [ht] at h
        dsimp only at h
        obtain ⟨c1, c2, c3⟩ := Wrapper_super_ok h
        obtain ⟨d1, d2, d3, d4⟩ := Forest_init_alone c3 (by simp)
        refine ⟨by rw [d1]; rfl, by rw [d1]; exact List.prefix_append _ _, d2, ⟨_, d3.1, d3.2.1, by rw [d1]; simp, fun _ => le_refl _, fun q => by rw [hs] at q; cases q⟩, fun g => ?_⟩
        obtain ⟨f2, e1, e2⟩ := d4 ⟨g, [w.arrays.getD r []] ++ [ls]⟩ 1 (by simp) (by
          have := getD_append_at w.arrays [ls] 0 []
          rw [Nat.add_zero] at this
          exact this)
        refine ⟨⟨f2, some cs⟩, _, ?_, e2⟩
        unfold Wrapper.init
        rw [if_neg h0, if_neg h1, if_pos hs]
        dsimp only
        rw [hp]
        show (match takeE ([w.arrays.getD r []].getD 0 []) 0 rs with | .error e => _ | .ok ls => _) = _
        rw [show [w.arrays.getD r []].getD 0 [] = w.arrays.getD r [] from rfl, ht]
        dsimp only
        unfold Wrapper.super
        rw [if_neg c1]
        show (match Forest.init R ⟨g, [w.arrays.getD r []] ++ [ls]⟩ (k.cfg a) none (some (takePatch d rs cs)) (some 1) a.budget with
          | .error e => _ | .ok (f, w') => _) = _
        rw [e1]
  · obtain ⟨c1, c2, c3⟩ := Wrapper_super_ok h
    obtain ⟨d1, d2, d3, d4⟩ := Forest_init_alone c3 hr
    refine ⟨by rw [d1]; rfl, by rw [d1], d2, ⟨_, d3.1, d3.2.1, by rw [d1]; exact hr, fun q => absurd q hs, fun _ => ⟨rfl, d3.2.2⟩⟩, fun g => ?_⟩
    obtain ⟨f2, e1, e2⟩ := d4 ⟨g, [w.arrays.getD r []]⟩ 0 (by simp) rfl
    refine ⟨⟨f2, none⟩, _, ?_, e2⟩
    unfold Wrapper.init
    rw [if_neg h0, if_neg h1, if_neg hs]
    unfold Wrapper.super
    rw [if_neg c1, e1]

theorem StartSim.move {f f2 : Forest K G} {w w2 : World K G} (h : StartSim f w f2 w2) (w' : World K G)
    (hr : ∀ r, f.orgRef = some r ∨ f.newRef = some r → w'.arrays[r]? = w.arrays[r]?) : StartSim f w' f2 { w2 with glob := w'.glob } := by
  obtain ⟨a, a2, e1, e2, e3⟩ := h.org
  obtain ⟨b, b2, f1, f2', f3, f4, f5⟩ := h.new
  have ha := hr a (Or.inl e1)
  have hb := hr b (Or.inr f1)
  rw [List.getElem?_eq_getElem f3] at hb
  refine ⟨h.eq, rfl, ⟨a, a2, e1, e2, ?_⟩, ⟨b, b2, f1, f2', (List.getElem?_eq_some_iff.1 hb).1, f4, ?_⟩⟩
  · rw [List.getD_eq_getElem?_getD, ha, ← List.getD_eq_getElem?_getD]; exact e3
  · rw [List.getD_eq_getElem?_getD, hb, ← List.getElem?_eq_getElem f3, ← List.getD_eq_getElem?_getD]; exact f5

/-- A model fitted in any process is, but for the place of its targets, the one built alone, if the array it refers to still holds what it
held at construction. -/
theorem fit_alone {k : Wrapper} {a : WrapArgs K} {w w1 w' w3 : World K G} {d : List (List K)} {r : Nat} {o o' : WrapObj K G}
    (h : Wrapper.init R k a w (some d) (some r) = .ok (o, w1)) (hr : r < w.arrays.length)
    (hkeep : ∀ b, o.forest.newRef = some b → w'.arrays[b]? = w1.arrays[b]?) (hf : o.fit R mem w' none none = .ok (o', w3)) :
    ∀ g, ∃ f, BuiltAlone R mem k a g (some w'.glob) d (w.arrays.getD r []) f ∧ o'.forest.likes f := by
  intro g
  obtain ⟨_, _, _, ⟨b, hb1, hb2, _⟩, hall⟩ := Wrapper_init_alone h hr
  obtain ⟨o2, w2, hi, hsim⟩ := hall g
  have hsim' := hsim.move w' (fun q hq => hkeep q (by
    rcases hq with hq | hq
    · rw [hb2, ← hb1]; exact hq
    · exact hq))
  have hfs := Forest_fit_sim (R := R) (mem := mem) hsim'
  rw [WrapObj_fit_ok hf] at hfs
  cases hf2 : Forest.fit R mem o2.forest { w2 with glob := w'.glob } none none with
  | error e => rw [hf2] at hfs; exact hfs.elim
  | ok q =>
    rw [hf2] at hfs
    obtain ⟨f2, w4⟩ := q
    refine ⟨f2, ⟨o2, { o2 with forest := f2 }, w2, w4, hi, ?_, rfl⟩, hfs.eq⟩
    show WrapObj.fit R mem o2 { w2 with glob := w'.glob } none none = _
    unfold WrapObj.fit
    rw [hf2]

/-- The same, if the generators are as the constructor left them. -/
theorem fit_alone_fresh {k : Wrapper} {a : WrapArgs K} {w w1 w' w3 : World K G} {d : List (List K)} {r : Nat} {o o' : WrapObj K G}
    (h : Wrapper.init R k a w (some d) (some r) = .ok (o, w1)) (hr : r < w.arrays.length)
    (hkeep : ∀ b, o.forest.newRef = some b → w'.arrays[b]? = w1.arrays[b]?) (hg : w'.glob = setSeed R a.randomState)
    (hf : o.fit R mem w' none none = .ok (o', w3)) :
    ∀ g, ∃ f, BuiltAlone R mem k a g none d (w.arrays.getD r []) f ∧ o'.forest.likes f := by
  intro g
  obtain ⟨f, ⟨o2, o3, w2, w4, h1, h2, h3⟩, h4⟩ := fit_alone h hr hkeep hf g
  refine ⟨f, ⟨o2, o3, w2, w4, h1, ?_, h3⟩, h4⟩
  have : w2.glob = setSeed R a.randomState := (Wrapper_init_alone h1 (by simp)).1
  have e : { w2 with glob := (none : Option (Glob G)).getD w2.glob } = { w2 with glob := (some w'.glob).getD w2.glob } := by
    rw [Option.getD_some, Option.getD_none, hg, this]
  rw [e]
  exact h2

/-- The parts of a round. -/
theorem cmpRound_parts {m : Bool → Nat → Nat → Junk K} {c : Cmp K} {seed : Nat} {w w' : World K G} {row : CmpRow K}
    (h : cmpRound R m c seed w = .ok (row, w')) :
    ∃ (o t o' : WrapObj K G) (w1 w2 w3 : World K G),
      Wrapper.init R c.kind (c.side .mab seed) w (some c.data) (some c.ref) = .ok (o, w1) ∧
      Wrapper.init R c.kind (c.side .exact seed) w1 (some c.data) (some c.ref) = .ok (t, w2) ∧
      o.fit R (m true) w2 none none = .ok (o', w3) ∧ cmpMeasure c w' o'.forest = .ok row.ours ∧
      (c.runTheirs = false → w' = w3 ∧ row.theirs = none) ∧
      (c.runTheirs = true → ∃ t' s, t.fit R (m false) w3 none none = .ok (t', w') ∧ row.theirs = some s ∧ cmpMeasure c w' t'.forest = .ok s) := by
  unfold cmpRound at h
  by_cases h0 : c.kind.compared = false
  · rw [if_pos h0] at h
    cases h
  rw [if_neg h0] at h
  cases h1 : Wrapper.init R c.kind (c.side .mab seed) w (some c.data) (some c.ref) with
  | error e => rw [h1] at h; cases h
  | ok q1 =>
    obtain ⟨o, w1⟩ := q1
    rw [h1] at h
    dsimp only at h
    cases h2 : Wrapper.init R c.kind (c.side .exact seed) w1 (some c.data) (some c.ref) with
    | error e => rw [h2] at h; cases h
    | ok q2 =>
      obtain ⟨t, w2⟩ := q2
      rw [h2] at h
      dsimp only at h
      cases h3 : o.fit R (m true) w2 none none with
      | error e => rw [h3] at h; cases h
      | ok q3 =>
        obtain ⟨o', w3⟩ := q3
        rw [h3] at h
        dsimp only at h
        by_cases hr : c.runTheirs = true
        · rw [if_pos hr] at h
          cases h4 : t.fit R (m false) w3 none none with
          | error e => rw [h4] at h; cases h
          | ok q4 =>
            obtain ⟨t', w4⟩ := q4
            rw [h4] at h
            dsimp only at h
            cases h5 : cmpMeasure c w4 o'.forest with
            | error e => rw [h5] at h; cases h
            | ok s =>
              rw [h5] at h
              dsimp only at h
              cases h6 : cmpMeasure c w4 t'.forest with
              | error e => rw [h6] at h; cases h
              | ok s' =>
                rw [h6] at h
                cases h
                exact ⟨o, t, o', w1, w2, w3, rfl, h2, h3, h5, (fun hf => by rw [hr] at hf; cases hf), fun _ => ⟨t', s', h4, rfl, h6⟩⟩
        · rw [if_neg hr] at h
          cases h5 : cmpMeasure c w3 o'.forest with
          | error e => rw [h5] at h; cases h
          | ok s =>
            rw [h5] at h
            cases h
            exact ⟨o, t, o', w1, w2, _, rfl, h2, h3, h5, fun _ => ⟨rfl, rfl⟩, fun hf => absurd hf hr⟩

theorem prefix_get {l l' : List (List K)} (h : l <+: l') {r : Nat} (hr : r < l.length) : l'[r]? = l[r]? := by
  obtain ⟨m, rfl⟩ := h
  exact List.getElem?_append_left hr

/-- One round of a comparison of models that do not write to the caller's targets. -/
theorem cmpRound_fair {m : Bool → Nat → Nat → Junk K} {c : Cmp K} (hk : c.kind.boosts = true → c.kind.subsamples = true) {seed : Nat}
    {w w' : World K G} {row : CmpRow K} (h : cmpRound R m c seed w = .ok (row, w')) (hr : c.ref < w.arrays.length)
    (ht : c.testRef < w.arrays.length) :
    (∀ r < w.arrays.length, w'.arrays[r]? = w.arrays[r]?) ∧
    ∃ g', FairRow R m c seed (w.arrays.getD c.ref []) (w.arrays.getD c.testRef []) g' row := by
  obtain ⟨o, t, o', w1, w2, w3, h1, h2, h3, h4, h5, h6⟩ := cmpRound_parts h
  obtain ⟨a1, a2, a3, ⟨b, b1, b2, b3, b4, b5⟩, _⟩ := Wrapper_init_alone h1 hr
  have hr1 : c.ref < w1.arrays.length := lt_of_lt_of_le hr a2.length_le
  obtain ⟨c1, c2, c3, ⟨d, d1, d2, d3, d4, d5⟩, _⟩ := Wrapper_init_alone h2 hr1
  have hf := WrapObj_fit_ok h3
  -- what our model leaves of the arrays
  have k3 : ∀ r < w2.arrays.length, (c.kind.boosts = true → r ≠ b) → w3.arrays[r]? = w2.arrays[r]? := by
    intro r hr' hb
    refine C54_labels_unchanged_partial R (m true) w2 w3 none none o.forest o'.forest hf r hr' ?_
    cases hbo : c.kind.boosts with
    | false => exact Or.inl (by rw [a3, hbo])
    | true =>
      refine Or.inr ?_
      rw [b2]
      intro q
      exact hb hbo (Option.some.inj q).symm
  have hbig : c.kind.boosts = true → w.arrays.length ≤ b := fun q => b4 (hk q)
  have hbig' : c.kind.boosts = true → w1.arrays.length ≤ d := fun q => d4 (hk q)
  have l1 : w.arrays.length ≤ w1.arrays.length := a2.length_le
  have l2 : w1.arrays.length ≤ w2.arrays.length := c2.length_le
  have e3 : ∀ r < w.arrays.length, w3.arrays[r]? = w.arrays[r]? := by
    intro r hr'
    rw [k3 r (by omega) (fun q => by have := hbig q; omega), prefix_get c2 (by omega), prefix_get a2 hr']
  have hours : ∀ g, ∃ f, BuiltAlone R (m true) c.kind (c.side .mab seed) g none c.data (w.arrays.getD c.ref []) f ∧ o'.forest.likes f := by
    refine fit_alone_fresh h1 hr ?_ c1 h3
    intro q hq
    rw [b2] at hq
    cases hq
    exact prefix_get c2 b3
  have getD_eq : ∀ (W : World K G), (∀ r < w.arrays.length, W.arrays[r]? = w.arrays[r]?) →
      W.arrays.getD c.ref [] = w.arrays.getD c.ref [] ∧ W.arrays.getD c.testRef [] = w.arrays.getD c.testRef [] := by
    intro W hW
    simp only [List.getD_eq_getElem?_getD, hW _ hr, hW _ ht, and_self]
  have g1 : w1.arrays.getD c.ref [] = w.arrays.getD c.ref [] := (getD_eq w1 (fun r q => prefix_get a2 q)).1
  by_cases hrt : c.runTheirs = true
  · obtain ⟨t', s, q1, q2, q3⟩ := h6 hrt
    have hft := WrapObj_fit_ok q1
    have e4 : ∀ r < w.arrays.length, w'.arrays[r]? = w.arrays[r]? := by
      intro r hr'
      rw [← e3 r hr']
      have hlt : r < w3.arrays.length := by
        have := e3 r hr'
        rw [List.getElem?_eq_getElem hr'] at this
        exact (List.getElem?_eq_some_iff.1 this).1
      refine C54_labels_unchanged_partial R (m false) w3 w' none none t.forest t'.forest hft r hlt ?_
      cases hbo : c.kind.boosts with
      | false => exact Or.inl (by rw [c3, hbo])
      | true =>
        refine Or.inr ?_
        rw [d2]
        intro q
        have := Option.some.inj q
        have := hbig' hbo
        omega
    obtain ⟨u1, u2⟩ := getD_eq w' e4
    refine ⟨e4, some w3.glob, ⟨fun g => ?_, fun _ => ⟨s, q2, fun g => ?_⟩, fun q => by rw [hrt] at q; cases q⟩⟩
    · obtain ⟨f, hf1, hf2⟩ := hours g
      have := cmpMeasure_is hf h4
      rw [u1, u2] at this
      exact ⟨f, hf1, hf2.side this⟩
    · have hth := fit_alone h2 hr1 (w' := w3) (fun q hq => by
        rw [d2] at hq
        cases hq
        exact k3 _ d3 (fun hbo e => by
          have := hbig' hbo
          omega)) q1 g
      rw [g1] at hth
      obtain ⟨f, hf1, hf2⟩ := hth
      have := cmpMeasure_is hft q3
      rw [u1, u2] at this
      exact ⟨f, hf1, hf2.side this⟩
  · obtain ⟨q1, q2⟩ := h5 (by simpa using hrt)
    subst q1
    obtain ⟨u1, u2⟩ := getD_eq w' e3
    refine ⟨e3, none, ⟨fun g => ?_, fun q => absurd q hrt, fun _ => q2⟩⟩
    obtain ⟨f, hf1, hf2⟩ := hours g
    have := cmpMeasure_is hf h4
    rw [u1, u2] at this
    exact ⟨f, hf1, hf2.side this⟩

end

section
variable (R : Rng K G) (mem : Nat → Bool → Nat → Nat → Junk K)

/-- C123, the models that do not write to the caller's targets: the bagged ones and the boosted patches. Whatever the settings, the data and the
number of rounds, the comparison leaves all arrays of the caller as they were, and every round reports about our model what the model of the
same settings reports that is built from the caller's targets in a process of its own. About the second model it reports what such a model
reports that finds the process-wide generators in some other state when it is fitted. -/
theorem C123_fair_partial (c : Cmp K) (hk : c.kind.boosts = true → c.kind.subsamples = true) (seeds : List Nat) (w w' : World K G)
    (rows : List (CmpRow K)) (h : cmpRounds R mem c seeds w = .ok (rows, w')) (hr : c.ref < w.arrays.length) (ht : c.testRef < w.arrays.length) :
    (∀ r < w.arrays.length, w'.arrays[r]? = w.arrays[r]?) ∧
    List.Forall₂ (fun (seed : Nat) (row : CmpRow K) =>
      ∃ g', FairRow R (mem seed) c seed (w.arrays.getD c.ref []) (w.arrays.getD c.testRef []) g' row) seeds rows := by
  induction seeds generalizing w rows with
  | nil =>
    cases h
    exact ⟨fun _ _ => rfl, List.Forall₂.nil⟩
  | cons seed seeds ih =>
    unfold cmpRounds at h
    cases h1 : cmpRound R (mem seed) c seed w with
    | error e => rw [h1] at h; cases h
    | ok q =>
      obtain ⟨row, w1⟩ := q
      rw [h1] at h
      dsimp only at h
      cases h2 : cmpRounds R mem c seeds w1 with
      | error e => rw [h2] at h; cases h
      | ok q2 =>
        obtain ⟨rows', w2⟩ := q2
        rw [h2] at h
        cases h
        obtain ⟨a1, a2⟩ := cmpRound_fair hk h1 hr ht
        have hlt : ∀ r < w.arrays.length, r < w1.arrays.length := by
          intro r hr'
          have := a1 r hr'
          rw [List.getElem?_eq_getElem hr'] at this
          exact (List.getElem?_eq_some_iff.1 this).1
        obtain ⟨b1, b2⟩ := ih w1 rows' h2 (hlt _ hr) (hlt _ ht)
        refine ⟨fun r hr' => by rw [b1 r (hlt r hr'), a1 r hr'], List.Forall₂.cons a2 ?_⟩
        have e1 : w1.arrays.getD c.ref [] = w.arrays.getD c.ref [] := by
          rw [List.getD_eq_getElem?_getD, a1 _ hr, ← List.getD_eq_getElem?_getD]
        have e2 : w1.arrays.getD c.testRef [] = w.arrays.getD c.testRef [] := by
          rw [List.getD_eq_getElem?_getD, a1 _ ht, ← List.getD_eq_getElem?_getD]
        rw [e1, e2] at b2
        exact b2

/-- C123, without the second model: every round is as expected. -/
theorem C123_ours (c : Cmp K) (hk : c.kind.boosts = true → c.kind.subsamples = true) (hrt : c.runTheirs = false) (seeds : List Nat)
    (w w' : World K G) (rows : List (CmpRow K)) (h : cmpRounds R mem c seeds w = .ok (rows, w')) (hr : c.ref < w.arrays.length)
    (ht : c.testRef < w.arrays.length) :
    (∀ r < w.arrays.length, w'.arrays[r]? = w.arrays[r]?) ∧
    List.Forall₂ (fun (seed : Nat) (row : CmpRow K) =>
      FairRow R (mem seed) c seed (w.arrays.getD c.ref []) (w.arrays.getD c.testRef []) none row) seeds rows := by
  obtain ⟨h1, h2⟩ := C123_fair_partial R mem c hk seeds w w' rows h hr ht
  refine ⟨h1, List.Forall₂.imp ?_ h2⟩
  rintro seed row ⟨g', hf⟩
  exact ⟨hf.ours, (fun q => by rw [hrt] at q; cases q), hf.noTheirs⟩

/-- C123. A comparison gives the same numbers in every process: what was drawn before does not matter. -/
theorem C123_reproducible (c : Cmp K) (seed : Nat) (m : Bool → Nat → Nat → Junk K) (w w2 : World K G) (h : w.arrays = w2.arrays) :
    cmpRound R m c seed w = cmpRound R m c seed w2 := by
  have e : Wrapper.init R c.kind (c.side .mab seed) w (some c.data) (some c.ref) =
      Wrapper.init R c.kind (c.side .mab seed) w2 (some c.data) (some c.ref) := by
    have es : ∀ (k : Wrapper) (a : WrapArgs K) (u u2 : World K G) (d : Option (List (List K))) (r : Option Nat) (fs : Option (List Nat)),
        u.arrays = u2.arrays → Wrapper.super R k a u d r fs = Wrapper.super R k a u2 d r fs := by
      intro k a u u2 d r fs hu
      unfold Wrapper.super Forest.init
      rw [hu]
    unfold Wrapper.init
    rw [h]
    simp only [es c.kind _ w w2 _ _ _ h]
    split_ifs
    · rfl
    · rfl
    · split
      · rfl
      · split
        · rfl
        · exact es _ _ _ _ _ _ _ rfl
    · rfl
  unfold cmpRound
  rw [e]

/-- C123 fails: whoever leaves out the test scores gets no result. With the second model and without test scores a comparison raises an exception
in the end, whatever was computed. -/
theorem C123_no_test (c : Cmp K) (hp : c.predict = false) (ht : c.runTheirs = true) (n : Nat) (w : World K G) (r : CmpResult K × World K G) :
    compareModels R mem c n w ≠ .ok r := by
  unfold compareModels
  cases cmpRounds R mem c (List.range n) w with
  | error e => simp
  | ok q =>
    obtain ⟨rows, w'⟩ := q
    simp only [hp, ht]
    split_ifs <;> simp_all

/-- C123 fails for the boosted histogram forest: fitting our model overwrites the caller's targets with the residuals, and the error is then
measured against those. The reported training error is the mean of `(2 F(x) - y)²` instead of the mean of `(F(x) - y)²`. -/
theorem C123_boosted (c : Cmp K) (hk : c.kind = .gbHistR) (hrt : c.runTheirs = false) (lr : K) (hlr : c.args.boostingLr = some lr)
    (hb : c.args.budget = none) (hn : c.args.nEstimators ≠ 0) (m : Bool → Nat → Nat → Junk K) (seed : Nat) (w w' : World K G)
    (row : CmpRow K) (h : cmpRound R m c seed w = .ok (row, w')) (hr : c.ref < w.arrays.length)
    (hlen : (w.arrays.getD c.ref []).length = c.data.length) (g : Glob G) :
    ∃ f ps, BuiltAlone R (m true) c.kind (c.side .mab seed) g none c.data (w.arrays.getD c.ref []) f ∧ AnswersTo f c.data ps ∧
      row.ours.train * (c.data.length : K) = ((ps.zip (w.arrays.getD c.ref [])).map (fun q => (2 * q.1.value - q.2) ^ 2)).sum := by
  obtain ⟨o, t, o', w1, w2, w3, h1, h2, h3, h4, h5, h6⟩ := cmpRound_parts h
  obtain ⟨q1, q2⟩ := h5 hrt
  subst q1
  obtain ⟨a1, a2, a3, ⟨b, b1, b2, b3, b4, b5⟩, _⟩ := Wrapper_init_alone h1 hr
  have hr1 : c.ref < w1.arrays.length := lt_of_lt_of_le hr a2.length_le
  obtain ⟨c1, c2, c3, _, _⟩ := Wrapper_init_alone h2 hr1
  obtain ⟨hbr, hdat⟩ := b5 (by rw [hk]; rfl)
  subst hbr
  obtain ⟨f, hf1, hf2⟩ := fit_alone_fresh h1 hr (w' := w2) (fun q hq => by
    rw [b2] at hq
    cases hq
    exact prefix_get c2 b3) c1 h3 g
  have hf := WrapObj_fit_ok h3
  have hm := cmpMeasure_is hf h4
  obtain ⟨ps, p1, p2⟩ := hm.train
  refine ⟨f, ps, hf1, hf2.answers p1, ?_⟩
  have htd : trainData o.forest none = c.data := by
    unfold trainData
    rw [hdat]
    rfl
  have hpl : ps.length = c.data.length := p1.length_eq.symm
  have he := p2.error (by rw [hk]; rfl)
  rw [hpl] at he
  rw [he]
  have hcfg := (Wrapper_init_obj h1).2.2.1
  have htrees : o'.forest.trees ≠ [] := by
    intro q
    have := (C110_limits (hi := h1) (hf := h3)).2.1 hb
    rw [q] at this
    exact hn this.symm
  have hres : ∀ j < c.data.length, ∃ v f2, o'.forest.predict (c.data.getD j []) = .ok (.reg v, f2) ∧
      (w'.arrays.getD c.ref []).getD j 0 = (w.arrays.getD c.ref []).getD j 0 - v := by
    intro j hj
    have hj' : j < (trainData o.forest none).length := by rw [htd]; exact hj
    obtain ⟨v, f2, e1, e2⟩ := C110_residuals (hi := h1) (hf := h3) (hg := by rw [hk]; rfl) (hb := by rw [hk]; simp [Bagged, nameParts]) (lr := lr) (hlr := hlr) (hne := htrees) (r := c.ref)
      (hr := by rw [b2]; rfl) (j := j) (hj := hj')
    rw [htd] at e1
    refine ⟨v, f2, e1, ?_⟩
    rw [e2]
    have : w2.arrays.getD c.ref [] = w.arrays.getD c.ref [] := by
      simp only [List.getD_eq_getElem?_getD, prefix_get c2 hr1, prefix_get a2 hr]
    rw [this]
  have hl2 := p2.length
  congr 1
  apply List.ext_getElem
  · simp only [List.length_map, List.length_zip, hlen, ← hl2, hpl]
  · intro j hj1 hj2
    simp only [List.length_map, List.length_zip, hlen, hpl, Nat.min_self] at hj2
    obtain ⟨v, f2, e1, e2⟩ := hres j hj2
    simp only [List.getElem_map, List.getElem_zip]
    have hp : ∃ f', o'.forest.predict (c.data[j]) = .ok (ps[j], f') := by
      exact List.Forall₂.get p1 hj2 (by omega)
    obtain ⟨f', hp⟩ := hp
    rw [List.getD_eq_getElem _ _ hj2, hp] at e1
    have hv : ps[j].value = v := by
      have := (Prod.mk.inj (Except.ok.inj e1)).1
      rw [this]; rfl
    have hy : j < (w.arrays.getD c.ref []).length := by rw [hlen]; exact hj2
    have hz : j < (w'.arrays.getD c.ref []).length := by rw [← hl2, hpl]; exact hj2
    rw [List.getD_eq_getElem _ _ hz, List.getD_eq_getElem _ _ hy] at e2
    rw [e2, hv]
    ring

end

/-! ## Examples -/

/-- The parameters of `compare_budgets` without a budget, but with two trees and three bins. -/
def cmpArgsQ (k : Wrapper) : WrapArgs ℚ :=
  { budgetArgs k none (some 2) none none with
    nEstimators := 2
    numBins := some 3 }

/-- A comparison on six points with two points for the test. -/
def cmpQ (k : Wrapper) (theirs : Bool) : Cmp ℚ where
  kind := k
  args := cmpArgsQ k
  data := exData
  ref := 0
  testData := [[0, 2], [4, 9]]
  testRef := 1
  predict := true
  runTheirs := theirs

/-- The caller's targets. -/
def cmpWorldQ : World ℚ Nat where
  glob := exWorldReg.glob
  arrays := [[1, 2, 4, 7, 11, 16], [2, 9]]

/-- One round, with the caller's arrays afterwards. -/
def exRound (k : Wrapper) (theirs : Bool) : Option (CmpRow ℚ × List (List ℚ)) :=
  ((cmpRound rngQ (fun _ => exMems) (cmpQ k theirs) 0 cmpWorldQ).toOption).map (fun q => (q.1, q.2.arrays.take 2))

/-- The model of the second side, constructed and fitted in a process of its own, and measured against the caller's targets. -/
def exAlone (k : Wrapper) : Option (CmpSide ℚ) :=
  (match Wrapper.init rngQ k ((cmpQ k true).side .exact 0) ⟨cmpWorldQ.glob, [[1, 2, 4, 7, 11, 16]]⟩ (some exData) (some 0) with
   | .error _ => none
   | .ok (o, w) =>
     match o.fit rngQ exMems w none none with
     | .error _ => none
     | .ok (o', _) => (cmpMeasure (cmpQ k true) cmpWorldQ o'.forest).toOption)

/-- Two random forests are compared as described. -/
example : exRound .histR true =
    some (⟨⟨167 / 24, some (17 / 8), 48, 2⟩, some ⟨37 / 8, some (17 / 8), 48, 2⟩⟩, [[1, 2, 4, 7, 11, 16], [2, 9]]) ∧
    exAlone .histR = some ⟨37 / 8, some (17 / 8), 48, 2⟩ := by decide +kernel

/-- So are boosted forests of patches. -/
example : exRound .gbHistPatchesR true =
    some (⟨⟨158981 / 2400, some (325 / 8), 28, 2⟩, some ⟨158981 / 2400, some (325 / 8), 28, 2⟩⟩, [[1, 2, 4, 7, 11, 16], [2, 9]]) := by
  decide +kernel

/-- C123 is false of boosted forests: the first model overwrites the caller's targets, the second model is fitted to what is left of them, and both
are measured against what is left after that. -/
theorem C123_refuted_targets :
    exRound .gbHistR true = some (⟨⟨162719297 / 2160000, some (13 / 100), 46, 2⟩, some ⟨664097 / 540000, some (19645709 / 576000), 42, 2⟩⟩,
      [[-47 / 100, 53 / 100, -133 / 1200, 19 / 400, 1087 / 1200, -361 / 400], [2, 9]]) ∧
    exAlone .gbHistR = some ⟨92 / 75, some (13 / 100), 46, 2⟩ := by decide +kernel

/-- C123 is false of extremely randomised trees: the second model starts with the random numbers the first one left, so that it is not the model one
gets from the same settings and seed on its own. -/
theorem C123_refuted_draws :
    exRound .extraR true = some (⟨⟨17 / 12, some (1 / 8), 48, 2⟩, some ⟨25 / 36, some (365 / 144), 44, 2⟩⟩, [[1, 2, 4, 7, 11, 16], [2, 9]]) ∧
    exAlone .extraR = some ⟨17 / 12, some (1 / 8), 48, 2⟩ := by decide +kernel

/-- A boosted forest on its own: the reported training error is 11071 / 150. -/
example : exRound .gbHistR false =
    some (⟨⟨11071 / 150, some (13 / 100), 46, 2⟩, none⟩, [[-1 / 2, 1 / 2, -1 / 10, -9 / 5, 19 / 10, 0], [2, 9]]) := by decide +kernel

/-- A whole comparison over two seeds. -/
example : ((compareModels rngQ (fun _ _ => exMems) (cmpQ .histR true) 2 cmpWorldQ).toOption).map (fun q => (q.1.rows.length, q.1.overlap)) =
    some (2, some true) := by decide +kernel

/-- Without test scores there is an exception. -/
example : (match compareModels rngQ (fun _ _ => exMems) { cmpQ .histR true with predict := false } 1 cmpWorldQ with
    | .error .nameError => true
    | _ => false) = true := by decide +kernel

end FF
