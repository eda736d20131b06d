import Verif.Proofs.TreePredict
import Verif.Spec.Forest

/-!
# The loop of `ForestBase.fit`
-/

namespace FF

open Spec

set_option linter.unusedSectionVars false

variable {K : Type} [Field K] [LinearOrder K] [IsStrictOrderedRing K] [FloorRing K] [NpFun K] {G : Type}
variable {R : Rng K G} {mem : Nat → Nat → Junk K} {data : List (List K)} {F : Nat}

/-- One pass of the loop that keeps the tree `m.tree`, stored as `t`. -/
structure Kept (R : Rng K G) (mem : Nat → Nat → Junk K) (data : List (List K)) (F : Nat) (i : Nat) (f : Forest K G) (w : World K G)
    (f' : Forest K G) (w' : World K G) (m : Made K G) (t : Tree K G) : Prop where
  num : m.num = i
  cfg : m.args.cfg = f.treeCfg
  data_eq : m.args.data = data
  disc : m.args.disc = f.discrete
  budget : m.args.budget = f.remaining
  seed : m.args.seed = (R.randint w.glob.np maxSeed).1
  draw : ∃ rows0 rows cols g1, subsets R f.rng data.length F f.cfg = .ok (rows0, cols, g1) ∧
    bootstrapIdcs R g1 data.length f.cfg rows0 = .ok (rows, f'.rng) ∧ m.args.idcs = some rows ∧ m.args.feats = some cols
  labels : ∃ ref, (if f.cfg.boosting then f.newRef else f.orgRef) = some ref ∧ m.args.labels = w.arrays.getD ref []
  fitted : Fitted R (mem i) m.args m.tree
  go : spent f.remaining = false
  keep : keepTree f.remaining m.tree.numQueries = true
  boost : ∃ glob, boostStep f data m.tree i m.args.rows { w with glob } = .ok (w', t)
  next : f' = { f with
    trees := f.trees ++ [t], rng := f'.rng
    oobList := if f.cfg.bootstrap ∧ f.cfg.oobScore then f.oobList.map (fun l => l ++ [getOutOfBag m.args.rows data.length]) else f.oobList
    numQueries := f.numQueries + m.tree.numQueries
    remaining := f.remaining.map (fun b => b - (m.tree.numQueries : Int)) }

theorem forestStep_cases {i : Nat} {f f' : Forest K G} {w w' : World K G} {b : Bool}
    (h : forestStep R mem data F i f w = .ok (b, f', w')) :
    (b = true ∧ ∃ m t, Kept R mem data F i f w f' w' m t) ∨
    (b = false ∧ f.remaining ≠ none ∧ w'.arrays = w.arrays ∧ ∃ g o, f' = { f with rng := g, oobList := o } ∧
      (o = f.oobList ∨ ∃ x, o = f.oobList.map (fun l => l ++ [x]))) := by
  unfold forestStep at h
  simp only [] at h
  cases hs : subsets R f.rng data.length F f.cfg with
  | error e => rw [hs] at h; cases h
  | ok p =>
    obtain ⟨rows0, cols, g1⟩ := p
    rw [hs] at h
    simp only [] at h
    cases hsp : spent f.remaining with
    | true =>
      rw [hsp, if_pos rfl] at h
      cases h
      refine Or.inr ⟨rfl, ?_, rfl, _, _, rfl, Or.inl rfl⟩
      intro h0
      rw [h0] at hsp
      cases hsp
    | false =>
      rw [hsp, if_neg (by simp)] at h
      cases href : (if f.cfg.boosting then f.newRef else f.orgRef) with
      | none => rw [href] at h; cases h
      | some ref =>
        rw [href] at h
        simp only [] at h
        cases hb : bootstrapIdcs R g1 data.length f.cfg rows0 with
        | error e => rw [hb] at h; cases h
        | ok p =>
          obtain ⟨rows, g2⟩ := p
          rw [hb] at h
          simp only [] at h
          cases ht0 : Tree.init R f.treeCfg data (w.arrays.getD ref []) f.discrete f.remaining (R.randint w.glob.np maxSeed).1
              (some rows) (some cols) with
          | error e => rw [ht0] at h; cases h
          | ok p =>
            obtain ⟨tree0, glob0⟩ := p
            rw [ht0] at h
            simp only [] at h
            cases ht1 : Tree.fit R (mem i) tree0 glob0 none none with
            | error e => rw [ht1] at h; cases h
            | ok p =>
              obtain ⟨tree, glob1⟩ := p
              rw [ht1] at h
              simp only [] at h
              cases hk : keepTree f.remaining tree.numQueries with
              | false =>
                rw [hk, if_neg (by simp)] at h
                cases h
                refine Or.inr ⟨rfl, ?_, rfl, _, _, rfl, ?_⟩
                · intro h0
                  rw [h0] at hk
                  cases hk
                · split
                  · exact Or.inr ⟨_, rfl⟩
                  · exact Or.inl rfl
              | true =>
                rw [hk, if_pos rfl] at h
                cases hbo : boostStep f data tree i rows { w with glob := glob1 } with
                | error e => rw [hbo] at h; cases h
                | ok p =>
                  obtain ⟨w2, t'⟩ := p
                  rw [hbo] at h
                  cases h
                  refine Or.inl ⟨rfl, ⟨i, ⟨f.treeCfg, data, w.arrays.getD ref [], f.discrete, f.remaining,
                    (R.randint w.glob.np maxSeed).1, some rows, some cols⟩, tree⟩, t', ?_⟩
                  exact {
                    num := rfl, cfg := rfl, data_eq := rfl, disc := rfl, budget := rfl, seed := rfl
                    draw := ⟨rows0, rows, cols, g1, hs, hb, rfl, rfl⟩
                    labels := ⟨ref, href, rfl⟩
                    fitted := ⟨tree0, glob0, glob1, ⟨glob0, ht0⟩, ht1⟩
                    go := hsp, keep := hk, boost := ⟨glob1, hbo⟩, next := rfl }

/-- The passes of the loop: the trees made and kept (`Made`, with the tree as it is stored after the boosting step). -/
inductive ForestRun (R : Rng K G) (mem : Nat → Nat → Junk K) (data : List (List K)) (F : Nat) :
    List Nat → Forest K G → World K G → List (Made K G × Tree K G) → Forest K G → World K G → Prop
  | done {f : Forest K G} {w : World K G} : ForestRun R mem data F [] f w [] f w
  | stop {i : Nat} {is : List Nat} {f : Forest K G} {w w' : World K G} (hb : f.remaining ≠ none) (hw : w'.arrays = w.arrays) (g : G)
      (o : Option (List (List Nat))) (ho : o = f.oobList ∨ ∃ x, o = f.oobList.map (fun l => l ++ [x])) :
      ForestRun R mem data F (i :: is) f w [] { f with rng := g, oobList := o } w'
  | keep {i : Nat} {is : List Nat} {f f1 f' : Forest K G} {w w1 w' : World K G} {m : Made K G} {t : Tree K G}
      {l : List (Made K G × Tree K G)} (hk : Kept R mem data F i f w f1 w1 m t) (hr : ForestRun R mem data F is f1 w1 l f' w') :
      ForestRun R mem data F (i :: is) f w ((m, t) :: l) f' w'

theorem forestLoop_run {is : List Nat} {f f' : Forest K G} {w w' : World K G} (h : forestLoop R mem data F is f w = .ok (f', w')) :
    ∃ l, ForestRun R mem data F is f w l f' w' := by
  induction is generalizing f w with
  | nil => cases h; exact ⟨[], .done⟩
  | cons i is ih =>
    unfold forestLoop at h
    cases hs : forestStep R mem data F i f w with
    | error e => rw [hs] at h; cases h
    | ok p =>
      obtain ⟨b, f1, w1⟩ := p
      rw [hs] at h
      rcases forestStep_cases hs with ⟨rfl, m, t, hk⟩ | ⟨rfl, hb, hw, g, o, rfl, ho⟩
      · simp only [] at h
        split at h
        · obtain ⟨l, hl⟩ := ih h
          exact ⟨_, .keep hk hl⟩
        · split at h
          · obtain ⟨l, hl⟩ := ih h
            exact ⟨_, .keep hk hl⟩
          · cases h
      · simp only [] at h
        cases h
        exact ⟨[], .stop hb hw g o ho⟩

theorem ForestRun.trees {is : List Nat} {f f' : Forest K G} {w w' : World K G} {l : List (Made K G × Tree K G)}
    (h : ForestRun R mem data F is f w l f' w') : f'.trees = f.trees ++ l.map Prod.snd := by
  induction h with
  | done => simp
  | stop => simp
  | keep hk _ ih => rw [ih, hk.next]; simp

theorem ForestRun.length {is : List Nat} {f f' : Forest K G} {w w' : World K G} {l : List (Made K G × Tree K G)}
    (h : ForestRun R mem data F is f w l f' w') : l.length ≤ is.length ∧ (f.remaining = none → l.length = is.length) := by
  induction h with
  | done => simp
  | stop hb => exact ⟨by simp, fun h => absurd h hb⟩
  | keep hk _ ih =>
    refine ⟨by simpa using ih.1, fun h => ?_⟩
    have := ih.2 (by rw [hk.next]; simp [h])
    simp [this]

/-- What the loop does not touch. -/
theorem ForestRun.same {is : List Nat} {f f' : Forest K G} {w w' : World K G} {l : List (Made K G × Tree K G)}
    (h : ForestRun R mem data F is f w l f' w') :
    f' = { f with trees := f'.trees, rng := f'.rng, oobList := f'.oobList, numQueries := f'.numQueries, remaining := f'.remaining } := by
  induction h with
  | done => rfl
  | stop => rfl
  | keep hk _ ih => rw [ih, hk.next]

theorem ForestRun.accounting {is : List Nat} {f f' : Forest K G} {w w' : World K G} {l : List (Made K G × Tree K G)}
    (h : ForestRun R mem data F is f w l f' w') :
    f'.numQueries = f.numQueries + (l.map (fun p => p.1.tree.numQueries)).sum ∧
    f'.remaining = f.remaining.map (fun b => b - (((l.map (fun p => p.1.tree.numQueries)).sum : Nat) : Int)) := by
  induction h with
  | done => simp
  | stop => simp
  | keep hk _ ih =>
    rw [ih.1, ih.2, hk.next]
    constructor
    · simp [Nat.add_assoc]
    · simp only [Option.map_map]
      congr 1
      funext b
      simp only [Function.comp, List.map_cons, List.sum_cons]
      push_cast
      ring

theorem predict_numQueries {t t' : Tree K G} {x : List K} {p : Pred K} (h : t.predict x = .ok (p, t')) :
    ∃ ns, t' = { t with nodes := ns } := by
  unfold Tree.predict at h
  simp only [] at h
  repeat' split at h
  all_goals first
    | (cases h; exact ⟨_, rfl⟩)
    | (cases h; done)

theorem AfterPredicts.same {t t' : Tree K G} (h : AfterPredicts t t') : ∃ ns, t' = { t with nodes := ns } := by
  induction h with
  | none => exact ⟨_, rfl⟩
  | call _ hp ih =>
    obtain ⟨ns, rfl⟩ := ih
    obtain ⟨ns', rfl⟩ := predict_numQueries hp
    exact ⟨ns', rfl⟩

theorem AfterPredicts.trans {t t1 t2 : Tree K G} (h1 : AfterPredicts t t1) (h2 : AfterPredicts t1 t2) : AfterPredicts t t2 := by
  induction h2 with
  | none => exact h1
  | call _ hp ih => exact .call ih hp

theorem predictBatch_after {t t' : Tree K G} {xs : List (List K)} {ps : List (Pred K)} (h : t.predictBatch xs = .ok (ps, t')) :
    AfterPredicts t t' := by
  induction xs generalizing t ps with
  | nil => cases h; exact .none
  | cons x xs ih =>
    unfold Tree.predictBatch at h
    cases hp : t.predict x with
    | error e => rw [hp] at h; cases h
    | ok q =>
      obtain ⟨p, t1⟩ := q
      rw [hp] at h
      simp only [] at h
      cases hb : t1.predictBatch xs with
      | error e => rw [hb] at h; cases h
      | ok q =>
        obtain ⟨ps', t2⟩ := q
        rw [hb] at h
        cases h
        exact (AfterPredicts.call .none hp).trans (ih hb)

theorem Kept.after {i : Nat} {f f' : Forest K G} {w w' : World K G} {m : Made K G} {t : Tree K G}
    (h : Kept R mem data F i f w f' w' m t) : AfterPredicts m.tree t := by
  obtain ⟨glob, hb⟩ := h.boost
  unfold boostStep at hb
  split at hb
  · split at hb
    · cases hb
    · split at hb
      · cases hb
      · next hu =>
        cases hb
        unfold boostUpdate at hu
        repeat' split at hu
        all_goals first
          | (cases hu; done)
          | skip
        next hp _ _ _ =>
          cases hu
          exact predictBatch_after hp
  · cases hb
    exact .none

theorem treesPredict_after {ts ts' : List (Tree K G)} {x : List K} {ps : List (Pred K)} (h : treesPredict ts x = .ok (ps, ts')) :
    List.Forall₂ AfterPredicts ts ts' := by
  induction ts generalizing ps ts' with
  | nil => cases h; exact .nil
  | cons t ts ih =>
    unfold treesPredict at h
    cases hp : t.predict x with
    | error e => rw [hp] at h; cases h
    | ok q =>
      obtain ⟨p, t1⟩ := q
      rw [hp] at h
      simp only [] at h
      cases hb : treesPredict ts x with
      | error e => rw [hb] at h; cases h
      | ok q =>
        obtain ⟨ps', ts1⟩ := q
        rw [hb] at h
        cases h
        exact .cons (.call .none hp) (ih hb)

theorem oobLoop_after {ol : List (List Nat)} {i : Nat} {ts ts' : List (Tree K G)} {s s' : List (List K)} {c c' : List Nat}
    (h : oobLoop data ol i ts s c = .ok (s', c', ts')) : List.Forall₂ AfterPredicts ts ts' := by
  induction ts generalizing i s c ts' with
  | nil => cases h; exact .nil
  | cons t ts ih =>
    unfold oobLoop at h
    split at h
    · cases h
    · split at h
      · cases h
      · split at h
        · cases h
        · next hp =>
          simp only [] at h
          split at h
          · cases h
          · split at h
            · cases h
            · next hb =>
              cases h
              exact .cons (predictBatch_after hp) (ih hb)

theorem forall₂_after_refl (ts : List (Tree K G)) : List.Forall₂ AfterPredicts ts ts := by
  induction ts with
  | nil => exact .nil
  | cons t ts ih => exact .cons .none ih

theorem forall₂_after_trans {ts ts1 ts2 : List (Tree K G)} (h1 : List.Forall₂ AfterPredicts ts ts1)
    (h2 : List.Forall₂ AfterPredicts ts1 ts2) : List.Forall₂ AfterPredicts ts ts2 := by
  induction h1 generalizing ts2 with
  | nil => exact h2
  | cons h _ ih =>
    cases h2 with
    | cons h' hr => exact .cons (h.trans h') (ih hr)

theorem Forest_predict_same {f f' : Forest K G} {x : List K} {p : Pred K} (h : f.predict x = .ok (p, f')) :
    ∃ ts, f' = { f with trees := ts } ∧ List.Forall₂ AfterPredicts f.trees ts := by
  unfold Forest.predict at h
  cases hp : treesPredict f.trees x with
  | error e => rw [hp] at h; cases h
  | ok q =>
    obtain ⟨ps, ts⟩ := q
    rw [hp] at h
    refine ⟨ts, ?_, treesPredict_after hp⟩
    simp only [] at h
    repeat' split at h
    all_goals first
      | (cases h; rfl)
      | (cases h)

theorem Forest_oob_same {f f' : Forest K G} {w : World K G} {d : Option (List (List K))} {s : XF K} (h : f.oobScore w d = .ok (s, f')) :
    ∃ ts, f' = { f with trees := ts } ∧ List.Forall₂ AfterPredicts f.trees ts := by
  unfold Forest.oobScore at h
  split at h
  · next d' ref hd hr =>
    simp only [] at h
    split at h
    · split at h
      · cases h; exact ⟨_, rfl, forall₂_after_refl _⟩
      · cases h
    · split at h
      · cases h
      · next hl =>
        refine ⟨_, ?_, oobLoop_after hl⟩
        repeat' split at h
        all_goals first
          | (cases h; rfl)
          | (cases h)
  · cases h

theorem Forest_mdi_same {f f' : Forest K G} {a : List (XF K)} (h : f.calculateMdi = .ok (a, f')) : f' = { f with mdi := some a } := by
  unfold Forest.calculateMdi at h
  cases hm : f.mdi with
  | some b =>
    rw [hm] at h
    cases h
    rw [← hm]
  | none =>
    rw [hm] at h
    simp only [] at h
    repeat' split at h
    all_goals first
      | (cases h; rfl)
      | (cases h)

theorem AfterReads.same {f f' : Forest K G} (h : AfterReads f f') :
    ∃ ts m, f' = { f with trees := ts, mdi := m } ∧ List.Forall₂ AfterPredicts f.trees ts ∧ (f.mdi ≠ Option.none → m = f.mdi) := by
  induction h with
  | none => exact ⟨_, _, rfl, forall₂_after_refl _, fun _ => rfl⟩
  | predict _ hf ih =>
    obtain ⟨ts, m, rfl, h1, h2⟩ := ih
    obtain ⟨ts', rfl, h3⟩ := Forest_predict_same hf
    exact ⟨ts', m, rfl, forall₂_after_trans h1 h3, h2⟩
  | oob _ hf ih =>
    obtain ⟨ts, m, rfl, h1, h2⟩ := ih
    obtain ⟨ts', rfl, h3⟩ := Forest_oob_same hf
    exact ⟨ts', m, rfl, forall₂_after_trans h1 h3, h2⟩
  | mdi _ hf ih =>
    obtain ⟨ts, m, rfl, h1, h2⟩ := ih
    refine ⟨ts, _, Forest_mdi_same hf, h1, fun hm => ?_⟩
    have hm' := h2 hm
    unfold Forest.calculateMdi at hf
    simp only [hm'] at hf
    cases hh : f.mdi with
    | none => exact absurd hh hm
    | some b =>
      rw [hh] at hf
      cases hf
      rfl

/-- The state in which `fit` enters its loop. -/
structure FitStart (f : Forest K G) (w : World K G) (data : Option (List (List K))) (labels : Option Nat) (dat : List (List K))
    (f0 : Forest K G) (w0 : World K G) : Prop where
  dat_eq : dat = trainData f data
  ne : dat ≠ []
  disc : maybeDiscrete f.cfg.makeDiscrete dat f.discrete = .ok f0.discrete
  eq : f0 = { f with
    data := some dat, orgRef := f0.orgRef, newRef := f0.newRef, trees := [], discrete := f0.discrete
    minmax := if f.cfg.precompMinmax then some (colMinMax dat (dat.getD 0 []).length) else f.minmax
    oobList := if f.cfg.oobScore then some [] else f.oobList }
  glob : w0.glob = w.glob
  reg : f.cfg.isCls = false → f0.orgRef = labels.or f.orgRef ∧ f0.newRef = labels.or f.newRef ∧ w0 = w
  cls : f.cfg.isCls = true → ∃ a b, labels.or f.orgRef = some a ∧ labels.or f.newRef = some b ∧ f0.orgRef = some w.arrays.length ∧
    f0.newRef = some (w.arrays.length + 1) ∧
    w0.arrays = w.arrays ++ [(w.arrays.getD a []).map truncInt, (w.arrays.getD b []).map truncInt]

theorem fit_start_aux {f f' : Forest K G} {w w' : World K G} {data : Option (List (List K))} {labels : Option Nat}
    (fp : Forest K G) (hdat : fp.data.getD [] = trainData f data)
    (hfp : fp = { f with data := fp.data, orgRef := labels.or f.orgRef, newRef := labels.or f.newRef })
    (h : (match fp.data with
      | none => .error .typeError
      | some [] => .error .indexError
      | some (row :: rows) =>
        match fitTargets fp w with
        | .error e => .error e
        | .ok (f, w) =>
          match maybeDiscrete f.cfg.makeDiscrete (row :: rows) f.discrete with
          | .error e => .error e
          | .ok dd =>
            let f := { f with discrete := dd }
            let f := if f.cfg.precompMinmax then { f with minmax := some (colMinMax (row :: rows) row.length) } else f
            let f := if f.cfg.oobScore then { f with oobList := some [] } else f
            forestLoop R mem (row :: rows) row.length (List.range f.cfg.nEstimators) { f with trees := [] } w : Except Err (Forest K G × World K G)) = .ok (f', w')) :
    ∃ dat f0 w0, FitStart f w data labels dat f0 w0 ∧
      forestLoop R mem dat (dat.getD 0 []).length (List.range f.cfg.nEstimators) f0 w0 = .ok (f', w') := by
  rcases Option.eq_none_or_eq_some fp.data with hd | ⟨dat, hd⟩
  · rw [hd] at h; cases h
  · rw [hd] at h
    cases dat with
    | nil => cases h
    | cons row rows =>
      simp only [] at h
      cases ht : fitTargets fp w with
      | error e => rw [ht] at h; cases h
      | ok p =>
        obtain ⟨f1, w1⟩ := p
        rw [ht] at h
        simp only [] at h
        have hcfg : fp.cfg = f.cfg := by rw [hfp]
        have horg : fp.orgRef = labels.or f.orgRef := by rw [hfp]
        have hnew : fp.newRef = labels.or f.newRef := by rw [hfp]
        have h1 : f1 = { fp with orgRef := f1.orgRef, newRef := f1.newRef } ∧ w1.glob = w.glob ∧
            (f.cfg.isCls = false → f1.orgRef = labels.or f.orgRef ∧ f1.newRef = labels.or f.newRef ∧ w1 = w) ∧
            (f.cfg.isCls = true → ∃ a b, labels.or f.orgRef = some a ∧ labels.or f.newRef = some b ∧ f1.orgRef = some w.arrays.length ∧
              f1.newRef = some (w.arrays.length + 1) ∧
              w1.arrays = w.arrays ++ [(w.arrays.getD a []).map truncInt, (w.arrays.getD b []).map truncInt]) := by
          unfold fitTargets at ht
          rw [hcfg] at ht
          split at ht
          · next hc =>
            split at ht
            · next a b ha hb =>
              cases ht
              exact ⟨by rw [← hcfg], rfl, fun h0 => (by rw [hc] at h0; cases h0),
                fun _ => ⟨a, b, by rw [← horg]; exact ha, by rw [← hnew]; exact hb, rfl, rfl, rfl⟩⟩
            · cases ht
          · next hc =>
            cases ht
            exact ⟨rfl, rfl, fun _ => ⟨horg, hnew, rfl⟩, fun h0 => absurd h0 hc⟩
        obtain ⟨e1, e2, e3, e4⟩ := h1
        have hcfg1 : f1.cfg = f.cfg := by rw [e1]; exact hcfg
        have hdisc1 : f1.discrete = f.discrete := by rw [e1, hfp]
        rw [hcfg1, hdisc1] at h
        cases hm : maybeDiscrete f.cfg.makeDiscrete (row :: rows) f.discrete with
        | error e => rw [hm] at h; cases h
        | ok dd =>
          rw [hm] at h
          simp only [] at h
          have hdd : row :: rows = trainData f data := by rw [← hdat, hd]; rfl
          set f2 : Forest K G := { f with
            data := some (row :: rows), orgRef := f1.orgRef, newRef := f1.newRef, trees := [], discrete := dd
            minmax := if f.cfg.precompMinmax then some (colMinMax (row :: rows) row.length) else f.minmax
            oobList := if f.cfg.oobScore then some [] else f.oobList } with hf2
          refine ⟨row :: rows, f2, w1, ⟨hdd, by simp, hm, rfl, e2, e3, e4⟩, ?_⟩
          have e5 : f1 = { f with data := some (row :: rows), orgRef := f1.orgRef, newRef := f1.newRef } := by
            rw [← hd]
            conv_lhs => rw [e1, hfp]
          rw [e5] at h
          simp only [] at h
          rw [← h, hf2]
          by_cases hp : f.cfg.precompMinmax <;> by_cases ho : f.cfg.oobScore <;> simp [hp, ho]

theorem Forest_fit_start {f f' : Forest K G} {w w' : World K G} {data : Option (List (List K))} {labels : Option Nat}
    (h : Forest.fit R mem f w data labels = .ok (f', w')) :
    ∃ dat f0 w0, FitStart f w data labels dat f0 w0 ∧
      forestLoop R mem dat (dat.getD 0 []).length (List.range f.cfg.nEstimators) f0 w0 = .ok (f', w') := by
  unfold Forest.fit at h
  cases data with
  | none =>
    cases labels with
    | none => exact fit_start_aux f rfl (by simp) h
    | some l => cases h
  | some d =>
    cases labels with
    | none => cases h
    | some l => exact fit_start_aux { f with data := some d, orgRef := some l, newRef := some l } rfl rfl h

/-! ### The trees of a fitted forest -/

theorem rngChoiceRep_ok {α : Type} {g g' : G} {a r : List α} {d : α} {k : Nat} (h : rngChoiceRep R g a d k = .ok (r, g')) :
    r.length = k ∧ ∀ x ∈ r, x ∈ a := by
  unfold rngChoiceRep at h
  split_ifs at h with ha
  cases h
  refine ⟨by rw [List.length_map, R.choiceRep_length _ _ _ ha], ?_⟩
  intro x hx
  obtain ⟨i, hi, rfl⟩ := List.mem_map.1 hx
  have := R.choiceRep_lt _ _ _ ha i hi
  rw [List.getD_eq_getElem _ _ this]
  exact List.getElem_mem _

theorem subsetIdcs_ok {g g' : G} {n : Nat} {alpha : K} {l : List Nat} (h : subsetIdcs R g n alpha = .ok (l, g')) :
    SubsetDrawn n alpha l := by
  unfold subsetIdcs at h
  split_ifs at h with h0
  obtain ⟨_, h2, h3, h4⟩ := rngChoice_ok h
  refine ⟨?_, h4 List.nodup_range, fun i hi => List.mem_range.1 (h3 i hi)⟩
  rw [h2]
  omega

theorem subsets_ok {g g' : G} {N F : Nat} {cfg : ForestCfg K} {rows cols : List Nat} (hN : cfg.alphaN ≤ 1) (hF : cfg.alphaF ≤ 1)
    (h : subsets R g N F cfg = .ok (rows, cols, g')) : SubsetDrawn N cfg.alphaN rows ∧ SubsetDrawn F cfg.alphaF cols := by
  unfold subsets at h
  split_ifs at h with h0
  · cases h1 : subsetIdcs R g N cfg.alphaN with
    | error e => rw [h1] at h; cases h
    | ok p =>
      obtain ⟨r, g1⟩ := p
      rw [h1] at h
      simp only [] at h
      cases h2 : subsetIdcs R g1 F cfg.alphaF with
      | error e => rw [h2] at h; cases h
      | ok p =>
        obtain ⟨c, g2⟩ := p
        rw [h2] at h
        cases h
        exact ⟨subsetIdcs_ok h1, subsetIdcs_ok h2⟩
  · cases h
    push Not at h0
    have e1 : cfg.alphaN = 1 := le_antisymm hN h0.1
    have e2 : cfg.alphaF = 1 := le_antisymm hF h0.2
    refine ⟨⟨?_, List.nodup_range, by simp⟩, ⟨?_, List.nodup_range, by simp⟩⟩
    · rw [e1]; simp
    · rw [e2]; simp

theorem bootstrapIdcs_ok {g g' : G} {N : Nat} {cfg : ForestCfg K} {sub rows : List Nat} (hs : SubsetDrawn N cfg.alphaN sub)
    (h : bootstrapIdcs R g N cfg sub = .ok (rows, g')) : RowsDrawn cfg N rows := by
  unfold bootstrapIdcs at h
  refine ⟨sub, hs, ?_⟩
  split_ifs at h ⊢ with hb
  · exact rngChoiceRep_ok h
  · cases h
    rfl

/-- What the loop tells about tree number `i`. -/
structure TreeMade (R : Rng K G) (mem : Nat → Nat → Junk K) (data : List (List K)) (F : Nat) (f : Forest K G) (i : Nat) (m : Made K G)
    (t : Tree K G) : Prop where
  num : m.num = i
  cfg : m.args.cfg = f.treeCfg
  data_eq : m.args.data = data
  disc : m.args.disc = f.discrete
  budget : f.remaining = none → m.args.budget = none
  draw : ∃ rows0 rows cols g g1 g2, subsets R g data.length F f.cfg = .ok (rows0, cols, g1) ∧
    bootstrapIdcs R g1 data.length f.cfg rows0 = .ok (rows, g2) ∧ m.args.idcs = some rows ∧ m.args.feats = some cols
  fitted : Fitted R (mem i) m.args m.tree
  after : AfterPredicts m.tree t

theorem TreeMade.congr {f f1 : Forest K G} (h1 : f1.treeCfg = f.treeCfg) (h2 : f1.discrete = f.discrete) (h3 : f1.cfg = f.cfg)
    (h4 : f.remaining = none → f1.remaining = none) {i : Nat} {m : Made K G} {t : Tree K G} (h : TreeMade R mem data F f1 i m t) : TreeMade R mem data F f i m t :=
  ⟨h.num, h.cfg.trans h1, h.data_eq, h.disc.trans h2, fun hn => h.budget (h4 hn), by rw [← h3]; exact h.draw, h.fitted, h.after⟩

theorem Kept.made {i : Nat} {f f' : Forest K G} {w w' : World K G} {m : Made K G} {t : Tree K G}
    (h : Kept R mem data F i f w f' w' m t) : TreeMade R mem data F f i m t := by
  obtain ⟨rows0, rows, cols, g1, a1, a2, a3, a4⟩ := h.draw
  exact ⟨h.num, h.cfg, h.data_eq, h.disc, fun hn => h.budget.trans hn, ⟨rows0, rows, cols, _, g1, _, a1, a2, a3, a4⟩, h.fitted, h.after⟩

theorem Kept.next_cfg {i : Nat} {f f' : Forest K G} {w w' : World K G} {m : Made K G} {t : Tree K G}
    (h : Kept R mem data F i f w f' w' m t) : f'.treeCfg = f.treeCfg ∧ f'.discrete = f.discrete ∧ f'.cfg = f.cfg ∧
      f'.orgRef = f.orgRef ∧ f'.newRef = f.newRef := by
  rw [h.next]
  exact ⟨rfl, rfl, rfl, rfl, rfl⟩

theorem ForestRun.made {is : List Nat} {f f' : Forest K G} {w w' : World K G} {l : List (Made K G × Tree K G)}
    (h : ForestRun R mem data F is f w l f' w') :
    ∀ (j : Nat) (m : Made K G) (t : Tree K G), l[j]? = some (m, t) → ∃ i, is[j]? = some i ∧ TreeMade R mem data F f i m t := by
  induction h with
  | done => intro j m t hj; cases hj
  | stop => intro j m t hj; cases hj
  | keep hk _ ih =>
    intro j m t hj
    cases j with
    | zero =>
      rw [List.getElem?_cons_zero] at hj
      cases hj
      exact ⟨_, List.getElem?_cons_zero, hk.made⟩
    | succ j =>
      rw [List.getElem?_cons_succ] at hj
      obtain ⟨i, h1, h2⟩ := ih j m t hj
      exact ⟨i, by rw [List.getElem?_cons_succ]; exact h1, h2.congr hk.next_cfg.1 hk.next_cfg.2.1 hk.next_cfg.2.2.1
        (fun hn => by rw [hk.next]; simp [hn])⟩

/-- Without boosting the label arrays do not change, and all trees are trained on the same array. -/
theorem ForestRun.labels {is : List Nat} {f f' : Forest K G} {w w' : World K G} {l : List (Made K G × Tree K G)}
    (h : ForestRun R mem data F is f w l f' w') (hb : f.cfg.boosting = false) :
    w'.arrays = w.arrays ∧ ∀ p ∈ l, ∃ ref, f.orgRef = some ref ∧ p.1.args.labels = w.arrays.getD ref [] := by
  induction h with
  | done => exact ⟨rfl, by simp⟩
  | stop _ hw => exact ⟨hw, by simp⟩
  | keep hk _ ih =>
    obtain ⟨_, _, c3, c4, _⟩ := hk.next_cfg
    obtain ⟨h1, h2⟩ := ih (by rw [c3]; exact hb)
    obtain ⟨glob, hbs⟩ := hk.boost
    unfold boostStep at hbs
    rw [hb, if_neg (by simp)] at hbs
    cases hbs
    refine ⟨h1, ?_⟩
    intro p hp
    rcases List.mem_cons.1 hp with rfl | hp
    · obtain ⟨ref, hr, hl⟩ := hk.labels
      rw [hb, if_neg (by simp)] at hr
      exact ⟨ref, hr, hl⟩
    · obtain ⟨ref, hr, hl⟩ := h2 p hp
      exact ⟨ref, c4 ▸ hr, hl⟩

/-- The trees of a fitted forest. -/
theorem Forest_fit_made {f f' : Forest K G} {w w' : World K G} {data : Option (List (List K))} {labels : Option Nat}
    (h : Forest.fit R mem f w data labels = .ok (f', w')) :
    ∃ ms : List (Made K G), ms.length = f'.trees.length ∧ trainData f data ≠ [] ∧
      ∀ (i : Nat) (t : Tree K G), f'.trees[i]? = some t → ∃ m, ms[i]? = some m ∧
        TreeMade R mem (trainData f data) ((trainData f data).getD 0 []).length f' i m t ∧
        (f.cfg.boosting = false → m.args.labels = treeLabels f w labels) := by
  obtain ⟨dat, f0, w0, hs, hl⟩ := Forest_fit_start h
  obtain ⟨l, hr⟩ := forestLoop_run hl
  have htr : f'.trees = l.map Prod.snd := by rw [hr.trees, hs.eq]; rfl
  refine ⟨l.map Prod.fst, by rw [htr]; simp, hs.dat_eq ▸ hs.ne, ?_⟩
  intro i t ht
  rw [htr, List.getElem?_map, Option.map_eq_some_iff] at ht
  obtain ⟨⟨m, t'⟩, hm, rfl⟩ := ht
  refine ⟨m, by rw [List.getElem?_map, hm]; rfl, ?_, ?_⟩
  · obtain ⟨i', h1, h2⟩ := hr.made i m t' hm
    have hi := (List.getElem?_eq_some_iff.1 h1).2
    rw [List.getElem_range] at hi
    subst hi
    rw [← hs.dat_eq]
    have hsame := hr.same
    refine h2.congr (by rw [hsame]; rfl) (by rw [hsame]) (by rw [hsame]) (fun hn => ?_)
    rw [hr.accounting.2, Option.map_eq_none_iff] at hn
    exact hn
  · intro hb
    have hcfg : f0.cfg = f.cfg := by rw [hs.eq]
    obtain ⟨ref, h1, h2⟩ := (hr.labels (by rw [hcfg]; exact hb)).2 _ (List.mem_of_getElem? hm)
    rw [h2]
    unfold treeLabels trainLabels
    by_cases hc : f.cfg.isCls = true
    · obtain ⟨a, b, e1, _, e3, _, e5⟩ := hs.cls hc
      rw [hc, if_pos rfl, e1, e5]
      rw [e3] at h1
      cases h1
      simp
    · obtain ⟨e1, _, e3⟩ := hs.reg ((Bool.not_eq_true _).mp hc)
      rw [if_neg hc, ← e1, h1, e3]

theorem Forest_fit_same {f f' : Forest K G} {w w' : World K G} {data : Option (List (List K))} {labels : Option Nat}
    (h : Forest.fit R mem f w data labels = .ok (f', w')) : f'.cfg = f.cfg ∧ f'.classes = f.classes ∧ f'.mdi = f.mdi := by
  obtain ⟨dat, f0, w0, hs, hl⟩ := Forest_fit_start h
  obtain ⟨l, hr⟩ := forestLoop_run hl
  rw [hr.same, hs.eq]
  exact ⟨rfl, rfl, rfl⟩

theorem Forest_fit_accounting {f f' : Forest K G} {w w' : World K G} {data : Option (List (List K))} {labels : Option Nat}
    (h : Forest.fit R mem f w data labels = .ok (f', w')) :
    f'.numQueries = f.numQueries + (f'.trees.map Tree.numQueries).sum ∧
    f'.remaining = f.remaining.map (fun b => b - (((f'.trees.map Tree.numQueries).sum : Nat) : Int)) ∧
    f'.trees.length ≤ f.cfg.nEstimators ∧ (f.remaining = none → f'.trees.length = f.cfg.nEstimators) := by
  obtain ⟨dat, f0, w0, hs, hl⟩ := Forest_fit_start h
  obtain ⟨l, hr⟩ := forestLoop_run hl
  have htr : f'.trees = l.map Prod.snd := by rw [hr.trees, hs.eq]; rfl
  have hsum : f'.trees.map Tree.numQueries = l.map (fun p => p.1.tree.numQueries) := by
    rw [htr, List.map_map]
    apply List.map_congr_left
    intro p hp
    obtain ⟨j, hj⟩ := List.mem_iff_getElem?.1 hp
    obtain ⟨i, _, hm⟩ := hr.made j p.1 p.2 hj
    obtain ⟨ns, he⟩ := hm.after.same
    simp only [Function.comp]
    rw [he]
  have hrem : f0.remaining = f.remaining := by rw [hs.eq]
  have hnum : f0.numQueries = f.numQueries := by rw [hs.eq]
  obtain ⟨a1, a2⟩ := hr.accounting
  obtain ⟨b1, b2⟩ := hr.length
  rw [hsum, ← hrem, ← hnum, htr, List.length_map]
  rw [List.length_range] at b1 b2
  exact ⟨a1, a2, b1, b2⟩

/-- The budget that is left stays above `-BUFFER`. -/
theorem ForestRun.remaining {is : List Nat} {f f' : Forest K G} {w w' : World K G} {l : List (Made K G × Tree K G)}
    (h : ForestRun R mem data F is f w l f' w') {r : Int} (hr : f.remaining = some r) (hb : -buffer < r) :
    ∃ r', f'.remaining = some r' ∧ -buffer < r' := by
  induction h generalizing r with
  | done => exact ⟨r, hr, hb⟩
  | stop => exact ⟨r, hr, hb⟩
  | @keep i is f f1 f' w w1 w' m t l hk _ ih =>
    have hkeep := hk.keep
    rw [hr] at hkeep
    unfold keepTree at hkeep
    rw [Bool.and_eq_true, decide_eq_true_eq, decide_eq_true_eq] at hkeep
    refine ih (r := r - (m.tree.numQueries : Int)) ?_ ?_
    · rw [hk.next]
      simp only [hr, Option.map_some]
    · omega

theorem Forest_init_fields {w w' : World K G} {cfg : ForestCfg K} {classes : Option (ClassDict K)} {data : Option (List (List K))}
    {labels : Option Nat} {budget : Option Int} {f : Forest K G} (h : Forest.init R w cfg classes data labels budget = .ok (f, w')) :
    f.cfg = { cfg with makeDiscrete := if cfg.binType = some .linear ∨ cfg.binType = some .identity then false else cfg.makeDiscrete } ∧
    f.remaining = budget ∧ f.numQueries = 0 ∧ f.trees = [] ∧ f.mdi = none ∧ f.orgRef = labels ∧ f.newRef = labels ∧ f.data = data ∧
    f.minmax = none ∧ w' = { w with glob := setSeed R cfg.randomState } := by
  unfold Forest.init at h
  simp only [] at h
  split_ifs at h
  all_goals
    cases h
    exact ⟨by simp_all, rfl, rfl, rfl, rfl, rfl, rfl, rfl, rfl, rfl⟩

theorem forall₂_sum {ts ts' : List (Tree K G)} (h : List.Forall₂ AfterPredicts ts ts') :
    ts'.map Tree.numQueries = ts.map Tree.numQueries := by
  induction h with
  | nil => rfl
  | cons h1 _ ih =>
    obtain ⟨ns, he⟩ := h1.same
    rw [List.map_cons, List.map_cons, ih, he]

theorem ForestObj.facts {cfg : ForestCfg K} {budget : Option Int} {f : Forest K G} (h : ForestObj R cfg budget f) :
    f.cfg = { cfg with makeDiscrete := if cfg.binType = some .linear ∨ cfg.binType = some .identity then false else cfg.makeDiscrete } ∧
    (budget = none → f.remaining = none) ∧
    ∀ b, budget = some b → ∃ r, f.remaining = some r ∧ r + (((f.trees.map Tree.numQueries).sum : Nat) : Int) ≤ b ∧ (-buffer < b → -buffer < r) := by
  induction h with
  | new h =>
    obtain ⟨h1, h2, _, h4, _⟩ := Forest_init_fields h
    refine ⟨h1, fun hb => by rw [h2, hb], fun b hb => ⟨b, by rw [h2, hb], by rw [h4]; simp, id⟩⟩
  | fit _ hf ih =>
    obtain ⟨i1, i2, i3⟩ := ih
    obtain ⟨a1, a2, _⟩ := Forest_fit_accounting hf
    refine ⟨(Forest_fit_same hf).1.trans i1, fun hb => by rw [a2, i2 hb]; rfl, fun b hb => ?_⟩
    obtain ⟨r, e1, e2, e3⟩ := i3 b hb
    rw [e1] at a2
    refine ⟨_, a2, ?_, fun hbb => ?_⟩
    · refine le_trans ?_ e2
      simp
    · obtain ⟨dat, f0, w0, hs, hl⟩ := Forest_fit_start hf
      obtain ⟨l, hr⟩ := forestLoop_run hl
      obtain ⟨r', q1, q2⟩ := hr.remaining (r := r) (by rw [hs.eq]; exact e1) (e3 hbb)
      rw [a2] at q1
      cases q1
      exact q2
  | predict _ hf ih =>
    obtain ⟨ts, rfl, h2⟩ := Forest_predict_same hf
    simp only [forall₂_sum h2]
    exact ih
  | oob _ hf ih =>
    obtain ⟨ts, rfl, h2⟩ := Forest_oob_same hf
    simp only [forall₂_sum h2]
    exact ih
  | mdi _ hf ih =>
    rw [Forest_mdi_same hf]
    exact ih
  | reset b _ ih =>
    obtain ⟨i1, i2, i3⟩ := ih
    refine ⟨i1, i2, fun b hb => ?_⟩
    obtain ⟨r, e1, e2, e3⟩ := i3 b hb
    refine ⟨r, e1, ?_, e3⟩
    refine le_trans ?_ e2
    simp [Forest.reset]

end FF
