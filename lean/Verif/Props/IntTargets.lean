import Verif.Model.IntTargets
import Verif.Spec.IntTargets
import Verif.Props.Boost

/-!
# Boosting on whole-number targets (C121)
-/

namespace FF

open Spec

set_option linter.unusedSectionVars false

variable {K : Type} [Field K] [LinearOrder K] [IsStrictOrderedRing K] [FloorRing K] [NpFun K] {G : Type}
variable {R : Rng K G} {mem : Nat → Nat → Junk K} {data : List (List K)} {F : Nat}

theorem truncInt_near (x : K) : |truncInt x - x| < 1 := by
  unfold truncInt
  split_ifs with h
  · have h1 := Int.floor_le x
    have h2 := Int.lt_floor_add_one x
    rw [abs_lt]
    constructor <;> linarith
  · have h1 := Int.le_ceil x
    have h2 := Int.ceil_lt_add_one x
    rw [abs_lt]
    constructor <;> linarith

theorem truncInt_whole {x : K} (h : IsWhole x) : truncInt x = x := by
  obtain ⟨z, rfl⟩ := h
  unfold truncInt
  split_ifs <;> simp

theorem isWhole_truncInt (x : K) : IsWhole (truncInt x) := by
  unfold truncInt
  split_ifs
  · exact ⟨_, rfl⟩
  · exact ⟨_, rfl⟩

theorem map_truncInt_whole {l : List K} (h : ∀ y ∈ l, IsWhole y) : l.map truncInt = l := by
  conv_rhs => rw [← List.map_id l]
  exact List.map_congr_left (fun y hy => truncInt_whole (h y hy))

theorem castArray_whole {w : World K G} {r : Nat} (h : ∀ y ∈ w.arrays.getD r [], IsWhole y) : castArray (some r) w = w := by
  unfold castArray
  simp only []
  rw [map_truncInt_whole h]
  have : w.arrays.set r (w.arrays.getD r []) = w.arrays := by
    by_cases hr : r < w.arrays.length
    · rw [List.getD_eq_getElem _ _ hr, List.set_getElem_self]
    · exact List.set_eq_of_length_le (by omega)
  rw [this]

/-- A run of the loop on an integer array of targets. -/
inductive IntRun (R : Rng K G) (mem : Nat → Nat → Junk K) (data : List (List K)) (F : Nat) :
    List Nat → Forest K G → World K G → List (Made K G × Tree K G) → Forest K G → World K G → Prop
  | done {f : Forest K G} {w : World K G} : IntRun R mem data F [] f w [] f w
  | stop {i : Nat} {is : List Nat} {f : Forest K G} {w w' : World K G} (hb : f.remaining ≠ none) (hw : w'.arrays = w.arrays) (g : G)
      (o : Option (List (List Nat))) (ho : o = f.oobList ∨ ∃ x, o = f.oobList.map (fun l => l ++ [x])) :
      IntRun R mem data F (i :: is) f w [] { f with rng := g, oobList := o } w'
  | keep {i : Nat} {is : List Nat} {f f1 f' : Forest K G} {w w1 w' : World K G} {m : Made K G} {t : Tree K G}
      {l : List (Made K G × Tree K G)} (hk : Kept R mem data F i f w f1 w1 m t)
      (hr : IntRun R mem data F is f1 (castArray f1.newRef w1) l f' w') : IntRun R mem data F (i :: is) f w ((m, t) :: l) f' w'

theorem forestLoopInt_run {is : List Nat} {f f' : Forest K G} {w w' : World K G}
    (h : forestLoopInt R mem data F is f w = .ok (f', w')) : ∃ l, IntRun R mem data F is f w l f' w' := by
  induction is generalizing f w with
  | nil => cases h; exact ⟨[], .done⟩
  | cons i is ih =>
    unfold forestLoopInt at h
    cases hs : forestStep R mem data F i f w with
    | error e => rw [hs] at h; cases h
    | ok p =>
      obtain ⟨b, f1, w1⟩ := p
      rw [hs] at h
      rcases forestStep_cases hs with ⟨rfl, m, t, hk⟩ | ⟨rfl, hb, hw, g, o, rfl, ho⟩
      · simp only [] at h
        split at h
        · obtain ⟨l, hl⟩ := ih h
          exact ⟨_, .keep hk hl⟩
        · split at h
          · obtain ⟨l, hl⟩ := ih h
            exact ⟨_, .keep hk hl⟩
          · cases h
      · simp only [] at h
        cases h
        exact ⟨[], .stop hb hw g o ho⟩

theorem IntRun.trees {is : List Nat} {f f' : Forest K G} {w w' : World K G} {l : List (Made K G × Tree K G)}
    (h : IntRun R mem data F is f w l f' w') : f'.trees = f.trees ++ l.map Prod.snd := by
  induction h with
  | done => simp
  | stop => simp
  | keep hk _ ih => rw [ih, hk.next]; simp

theorem IntRun.length {is : List Nat} {f f' : Forest K G} {w w' : World K G} {l : List (Made K G × Tree K G)}
    (h : IntRun R mem data F is f w l f' w') : l.length ≤ is.length := by
  induction h with
  | done => simp
  | stop => simp
  | keep hk _ ih => simpa using ih

theorem IntRun.cfg {is : List Nat} {f f' : Forest K G} {w w' : World K G} {l : List (Made K G × Tree K G)}
    (h : IntRun R mem data F is f w l f' w') : f'.cfg = f.cfg ∧ f'.classes = f.classes ∧ f'.newRef = f.newRef := by
  induction h with
  | done => simp
  | stop => simp
  | keep hk _ ih => rw [ih.1, ih.2.1, ih.2.2, hk.next]; simp

theorem fitWith_start_aux {f : Forest K G} {w : World K G} {data : Option (List (List K))} {labels : Option Nat}
    (fp : Forest K G) (hdat : fp.data.getD [] = trainData f data)
    (hfp : fp = { f with data := fp.data, orgRef := labels.or f.orgRef, newRef := labels.or f.newRef })
    (go : (List (List K) → Nat → List Nat → Forest K G → World K G → Except Err (Forest K G × World K G)) →
      Except Err (Forest K G × World K G))
    (hgo : ∀ loop, go loop = match fp.data with
      | none => .error .typeError
      | some [] => .error .indexError
      | some (row :: rows) =>
        match fitTargets fp w with
        | .error e => .error e
        | .ok (f, w) =>
          match maybeDiscrete f.cfg.makeDiscrete (row :: rows) f.discrete with
          | .error e => .error e
          | .ok dd =>
            let f := { f with discrete := dd }
            let f := if f.cfg.precompMinmax then { f with minmax := some (colMinMax (row :: rows) row.length) } else f
            let f := if f.cfg.oobScore then { f with oobList := some [] } else f
            loop (row :: rows) row.length (List.range f.cfg.nEstimators) { f with trees := [] } w) :
    (∃ e, ∀ loop, go loop = .error e) ∨
    ∃ dat f0 w0, FitStart f w data labels dat f0 w0 ∧
      ∀ loop, go loop = loop dat (dat.getD 0 []).length (List.range f.cfg.nEstimators) f0 w0 := by
  rcases Option.eq_none_or_eq_some fp.data with hd | ⟨dat, hd⟩
  · rw [hd] at hgo
    exact Or.inl ⟨_, hgo⟩
  · rw [hd] at hgo
    cases dat with
    | nil => exact Or.inl ⟨_, hgo⟩
    | cons row rows =>
      simp only [] at hgo
      cases ht : fitTargets fp w with
      | error e => rw [ht] at hgo; exact Or.inl ⟨_, hgo⟩
      | ok p =>
        obtain ⟨f1, w1⟩ := p
        rw [ht] at hgo
        simp only [] at hgo
        have hcfg : fp.cfg = f.cfg := by rw [hfp]
        have horg : fp.orgRef = labels.or f.orgRef := by rw [hfp]
        have hnew : fp.newRef = labels.or f.newRef := by rw [hfp]
        have h1 : f1 = { fp with orgRef := f1.orgRef, newRef := f1.newRef } ∧ w1.glob = w.glob ∧
            (f.cfg.isCls = false → f1.orgRef = labels.or f.orgRef ∧ f1.newRef = labels.or f.newRef ∧ w1 = w) ∧
            (f.cfg.isCls = true → ∃ a b, labels.or f.orgRef = some a ∧ labels.or f.newRef = some b ∧ f1.orgRef = some w.arrays.length ∧
              f1.newRef = some (w.arrays.length + 1) ∧
              w1.arrays = w.arrays ++ [(w.arrays.getD a []).map truncInt, (w.arrays.getD b []).map truncInt]) := by
          unfold fitTargets at ht
          rw [hcfg] at ht
          split at ht
          · next hc =>
            split at ht
            · next a b ha hb =>
              cases ht
              exact ⟨by rw [← hcfg], rfl, fun h0 => (by rw [hc] at h0; cases h0),
                fun _ => ⟨a, b, by rw [← horg]; exact ha, by rw [← hnew]; exact hb, rfl, rfl, rfl⟩⟩
            · cases ht
          · next hc =>
            cases ht
            exact ⟨rfl, rfl, fun _ => ⟨horg, hnew, rfl⟩, fun h0 => absurd h0 hc⟩
        obtain ⟨e1, e2, e3, e4⟩ := h1
        have hcfg1 : f1.cfg = f.cfg := by rw [e1]; exact hcfg
        have hdisc1 : f1.discrete = f.discrete := by rw [e1, hfp]
        rw [hcfg1, hdisc1] at hgo
        cases hm : maybeDiscrete f.cfg.makeDiscrete (row :: rows) f.discrete with
        | error e => rw [hm] at hgo; exact Or.inl ⟨_, hgo⟩
        | ok dd =>
          rw [hm] at hgo
          simp only [] at hgo
          have hdd : row :: rows = trainData f data := by rw [← hdat, hd]; rfl
          set f2 : Forest K G := { f with
            data := some (row :: rows), orgRef := f1.orgRef, newRef := f1.newRef, trees := [], discrete := dd
            minmax := if f.cfg.precompMinmax then some (colMinMax (row :: rows) row.length) else f.minmax
            oobList := if f.cfg.oobScore then some [] else f.oobList } with hf2
          refine Or.inr ⟨row :: rows, f2, w1, ⟨hdd, by simp, hm, rfl, e2, e3, e4⟩, ?_⟩
          have e5 : f1 = { f with data := some (row :: rows), orgRef := f1.orgRef, newRef := f1.newRef } := by
            rw [← hd]
            conv_lhs => rw [e1, hfp]
          rw [e5] at hgo
          simp only [] at hgo
          intro loop
          rw [hgo loop, hf2]
          by_cases hp : f.cfg.precompMinmax <;> by_cases ho : f.cfg.oobScore <;> simp [hp, ho]

/-- Every way `fit` can go, whatever the loop. -/
theorem fitWith_start (f : Forest K G) (w : World K G) (data : Option (List (List K))) (labels : Option Nat) :
    (∃ e, ∀ loop, Forest.fitWith loop f w data labels = .error e) ∨
    ∃ dat f0 w0, FitStart f w data labels dat f0 w0 ∧
      ∀ loop, Forest.fitWith loop f w data labels = loop dat (dat.getD 0 []).length (List.range f.cfg.nEstimators) f0 w0 := by
  cases data with
  | none =>
    cases labels with
    | none => exact fitWith_start_aux f rfl (by simp) (fun loop => Forest.fitWith loop f w none none) (fun _ => rfl)
    | some l => exact Or.inl ⟨_, fun _ => rfl⟩
  | some d =>
    cases labels with
    | none => exact Or.inl ⟨_, fun _ => rfl⟩
    | some l =>
      exact fitWith_start_aux { f with data := some d, orgRef := some l, newRef := some l } rfl rfl
        (fun loop => Forest.fitWith loop f w (some d) (some l)) (fun _ => rfl)

/-- The whole loop: every pass adds an error below 1. -/
theorem IntRun.boosted {is : List Nat} {f f' : Forest K G} {w w' : World K G} {l : List (Made K G × Tree K G)}
    (h : IntRun R mem data F is f w l f' w') (hne : data ≠ []) (hc : f.cfg.isCls = false) (hb : f.cfg.boosting = true) (r : Nat)
    (hr : f.newRef = some r) (j : Nat) (hj : ∀ p ∈ l, j ∈ p.1.args.rows) :
    ∃ vs e, List.Forall₂ (fun (p : Made K G × Tree K G) v => (p.2.predict (data.getD j [])).map Prod.fst = .ok (.reg v)) l vs ∧
      (w'.arrays.getD r []).getD j 0 =
        (w.arrays.getD r []).getD j 0 - (List.zipWith (fun i v => boostWeight f.cfg i * v) is vs).sum + e ∧
      |e| ≤ (l.length : K) ∧ (l ≠ [] → |e| < (l.length : K) ∧ IsWhole ((w'.arrays.getD r []).getD j 0)) := by
  induction h with
  | done => exact ⟨[], 0, .nil, by simp, by simp, by simp⟩
  | stop _ hw => exact ⟨[], 0, .nil, by rw [hw]; simp, by simp, by simp⟩
  | @keep i is f f1 f' w w1 w' m t l hk hrun ih =>
    obtain ⟨_, _, c3, _, c5⟩ := hk.next_cfg
    obtain ⟨vs, e, h1, h2, h3, h4⟩ := ih (by rw [c3]; exact hc) (by rw [c3]; exact hb) (by rw [c5]; exact hr)
      (fun p hp => hj p (List.mem_cons_of_mem _ hp))
    obtain ⟨arr, arr', a1, a2, _, len', a5⟩ := hk.boosted hne hc hb r hr
    obtain ⟨v, v1, v2⟩ := a5 j (hj _ (List.mem_cons_self ..))
    have hrlt : r < w1.arrays.length := (List.getElem?_eq_some_iff.1 a2).1
    have hcast : ((castArray f1.newRef w1).arrays.getD r []).getD j 0 = truncInt (arr'.getD j 0) := by
      rw [c5, hr]
      unfold castArray
      simp only []
      rw [List.getD_eq_getElem?_getD, List.getD_eq_getElem?_getD, List.getElem?_set_self hrlt, Option.getD_some,
        List.getElem?_map, List.getD_eq_getElem?_getD, a2, Option.getD_some, List.getD_eq_getElem?_getD]
      cases arr'[j]? with
      | none => simp [truncInt]
      | some y => rfl
    rw [hcast] at h2
    have hnear := truncInt_near (arr'.getD j 0)
    refine ⟨v :: vs, e + (truncInt (arr'.getD j 0) - arr'.getD j 0), .cons v1 h1, ?_, ?_, ?_⟩
    · rw [h2, c3, List.zipWith_cons_cons, List.sum_cons]
      simp only [List.getD_eq_getElem?_getD, a1, Option.getD_some] at v2 ⊢
      rw [v2]
      ring
    · push_cast [List.length_cons]
      have := abs_add_le e (truncInt (arr'.getD j 0) - arr'.getD j 0)
      linarith
    · intro _
      refine ⟨?_, ?_⟩
      · push_cast [List.length_cons]
        have := abs_add_le e (truncInt (arr'.getD j 0) - arr'.getD j 0)
        linarith
      · by_cases hl : l = []
        · subst hl
          cases hrun with
          | done => rw [hcast]; exact isWhole_truncInt _
          | stop _ hw => rw [hw, hcast]; exact isWhole_truncInt _
        · exact (h4 hl).2

theorem IntRun.made_rows {is : List Nat} {f f' : Forest K G} {w w' : World K G} {l : List (Made K G × Tree K G)}
    (h : IntRun R mem data F is f w l f' w') (hboot : f.cfg.bootstrap = false) (hN : f.cfg.alphaN = 1) (hF : f.cfg.alphaF ≤ 1) :
    ∀ p ∈ l, p.1.args.rows.Nodup ∧ ∀ i < data.length, i ∈ p.1.args.rows := by
  induction h with
  | done => simp
  | stop => simp
  | @keep i is f f1 f' w w1 w' m t l hk _ ih =>
    obtain ⟨_, _, c3, _, _⟩ := hk.next_cfg
    intro p hp
    rcases List.mem_cons.1 hp with rfl | hp
    · obtain ⟨rows0, rows, cols, g1, d1, d2, d3, d4⟩ := hk.draw
      obtain ⟨s1, s2⟩ := subsets_ok (by rw [hN]) hF d1
      have hrr : m.args.rows = rows := by unfold TreeArgs.rows; rw [d3]; rfl
      unfold bootstrapIdcs at d2
      rw [hboot, if_neg (by simp)] at d2
      cases d2
      show m.args.rows.Nodup ∧ ∀ i < data.length, i ∈ m.args.rows
      rw [hrr]
      rw [hN] at s1
      exact ⟨s1.distinct, s1.all⟩
    · exact ih (by rw [c3]; exact hboot) (by rw [c3]; exact hN) (by rw [c3]; exact hF) p hp

/-- What subtracting the tree's weighted answers preserves holds of the whole array after a pass. -/
theorem Kept.keeps {i : Nat} {f f' : Forest K G} {w w' : World K G} {m : Made K G} {t : Tree K G}
    (h : Kept R mem data F i f w f' w' m t) (hc : f.cfg.isCls = false) (hb : f.cfg.boosting = true) (r : Nat)
    (hr : f.newRef = some r) (Q : K → Prop) (hw : ∀ y ∈ w.arrays.getD r [], Q y)
    (ht : ∀ x ∈ data, ∀ v, (t.predict x).map Prod.fst = .ok (.reg v) → ∀ y, Q y → Q (y - boostWeight f.cfg i * v)) :
    ∀ y ∈ w'.arrays.getD r [], Q y := by
  obtain ⟨glob, hbs⟩ := h.boost
  unfold boostStep at hbs
  rw [hb, if_pos rfl, hr] at hbs
  simp only [] at hbs
  cases hu : boostUpdate f.cfg data m.tree i m.args.rows (w.arrays.getD r []) with
  | error e => rw [hu] at hbs; cases hbs
  | ok q =>
    obtain ⟨arr', t'⟩ := q
    rw [hu] at hbs
    cases hbs
    unfold boostUpdate at hu
    cases h1 : takeE data [] m.args.rows with
    | error e => rw [h1] at hu; cases hu
    | ok cur =>
      rw [h1] at hu
      simp only [] at hu
      cases h2 : m.tree.predictBatch cur with
      | error e => rw [h2] at hu; cases hu
      | ok q =>
        obtain ⟨preds, t2⟩ := q
        rw [h2] at hu
        simp only [] at hu
        cases h3 : takeE (w.arrays.getD r []) 0 m.args.rows with
        | error e => rw [h3] at hu; cases hu
        | ok tg =>
          rw [h3] at hu
          cases hu
          have hvals : ∀ y ∈ boostTargets (f.cfg.boostingLr.getD 0) i tg (preds.map Pred.value), Q y := by
            intro y hy
            obtain ⟨k, hk⟩ := List.mem_iff_getElem?.1 hy
            unfold boostTargets at hk
            rw [List.getElem?_zipWith] at hk
            obtain ⟨c1, c2⟩ := takeE_ok h1
            obtain ⟨d1, d2⟩ := takeE_ok h3
            cases htg : tg[k]? with
            | none => rw [htg] at hk; simp at hk
            | some b =>
              cases hpk : preds[k]? with
              | none => rw [htg, List.getElem?_map, hpk] at hk; simp at hk
              | some p =>
                rw [htg, List.getElem?_map, hpk] at hk
                simp only [Option.map_some, Option.some.injEq] at hk
                rw [d1, List.getElem?_map, Option.map_eq_some_iff] at htg
                obtain ⟨j, hj, rfl⟩ := htg
                have hjm := List.mem_of_getElem? hj
                have hcur : cur[k]? = some (data.getD j []) := by rw [c1, List.getElem?_map, hj]; rfl
                obtain ⟨p', hp1, hp2⟩ := predictBatch_entry h.fitted h2 hcur
                rw [hpk] at hp1
                obtain rfl := Option.some.inj hp1
                have hci : m.args.cfg.isCls = false := by rw [h.cfg]; exact hc
                have hpr : ∃ v, p = .reg v := by
                  cases htp : m.tree.predict (data.getD j []) with
                  | error e => rw [htp] at hp2; cases hp2
                  | ok q =>
                    obtain ⟨q, t3⟩ := q
                    rw [htp] at hp2
                    cases hp2
                    obtain ⟨_, v, _, _, _, e, _⟩ := C37_leaf_mean R (mem i) m.args m.tree m.tree t3 h.fitted hci .none _ _ htp
                    exact ⟨v, e⟩
                obtain ⟨v, rfl⟩ := hpr
                have hjd : data.getD j [] ∈ data := by
                  rw [List.getD_eq_getElem _ _ (c2 j hjm)]
                  exact List.getElem_mem _
                have hq := ht _ hjd v (by rw [C38_history_independent R (mem i) m.args m.tree _ h.fitted h.after]; exact hp2)
                  ((w.arrays.getD r []).getD j 0) (by
                    rw [List.getD_eq_getElem _ _ (d2 j hjm)]
                    exact hw _ (List.getElem_mem _))
                have he : (w.arrays.getD r []).getD j 0 - boostWeight f.cfg i * v = y := by
                  rw [← hk]
                  unfold boostWeight Pred.value
                  split_ifs <;> simp [mul_comm]
                rw [← he]
                exact hq
          have hset : ∀ y ∈ setIdcs (w.arrays.getD r []) m.args.rows
              (boostTargets (f.cfg.boostingLr.getD 0) i tg (preds.map Pred.value)), Q y := by
            generalize boostTargets (f.cfg.boostingLr.getD 0) i tg (preds.map Pred.value) = vals at hvals
            unfold setIdcs
            have hz : ∀ q ∈ m.args.rows.zip vals, Q q.2 := fun q hq => hvals _ (List.of_mem_zip hq).2
            generalize m.args.rows.zip vals = ql at hz
            generalize w.arrays.getD r [] = a at hw
            clear hvals
            induction ql generalizing a with
            | nil => exact hw
            | cons q ql ih =>
              rw [List.foldl_cons]
              refine ih (fun q' hq' => hz q' (List.mem_cons_of_mem _ hq')) _ (fun y hy => ?_)
              rcases List.mem_or_eq_of_mem_set hy with hy | rfl
              · exact hw y hy
              · exact hz q (List.mem_cons_self ..)
          intro y hy
          by_cases hrl : r < w.arrays.length
          · rw [List.getD_eq_getElem?_getD, List.getElem?_set_self hrl, Option.getD_some] at hy
            exact hset y hy
          · rw [List.set_eq_of_length_le (by omega)] at hy
            exact hw y hy

/-- A pass that keeps a tree whose weighted answers are whole numbers leaves whole numbers in an array of whole numbers. -/
theorem Kept.whole {i : Nat} {f f' : Forest K G} {w w' : World K G} {m : Made K G} {t : Tree K G}
    (h : Kept R mem data F i f w f' w' m t) (hc : f.cfg.isCls = false) (hb : f.cfg.boosting = true) (r : Nat)
    (hr : f.newRef = some r) (hw : ∀ y ∈ w.arrays.getD r [], IsWhole y)
    (ht : ∀ x ∈ data, ∀ v, (t.predict x).map Prod.fst = .ok (.reg v) → IsWhole (boostWeight f.cfg i * v)) :
    ∀ y ∈ w'.arrays.getD r [], IsWhole y := by
  refine h.keeps hc hb r hr IsWhole hw ?_
  rintro x hx v hv y ⟨z', hz'⟩
  obtain ⟨z, hz⟩ := ht x hx v hv
  exact ⟨z' - z, by rw [hz', hz, Int.cast_sub]⟩

/-- A tree kept from an array of zeros answers zero. -/
theorem Kept.zero {i : Nat} {f f' : Forest K G} {w w' : World K G} {m : Made K G} {t : Tree K G}
    (h : Kept R mem data F i f w f' w' m t) (hc : f.cfg.isCls = false) (hb : f.cfg.boosting = true) (r : Nat)
    (hr : f.newRef = some r) (hw : ∀ y ∈ w.arrays.getD r [], y = 0) (x : List K) (v : K)
    (hv : (t.predict x).map Prod.fst = .ok (.reg v)) : v = 0 := by
  obtain ⟨ref, hr1, hlab⟩ := h.labels
  rw [hb, if_pos rfl, hr] at hr1
  obtain rfl := Option.some.inj hr1
  have hci : m.args.cfg.isCls = false := by rw [h.cfg]; exact hc
  rw [C38_history_independent R (mem i) m.args m.tree _ h.fitted h.after] at hv
  cases htp : m.tree.predict x with
  | error e => rw [htp] at hv; cases hv
  | ok q =>
    obtain ⟨q, t3⟩ := q
    rw [htp] at hv
    cases hv
    obtain ⟨_, v', _, _, _, e, _, hb⟩ := C37_leaf_mean R (mem i) m.args m.tree m.tree t3 h.fitted hci .none _ _ htp
    cases e
    obtain ⟨h1, h2⟩ := hb 0 0 (by
      intro y hy
      have : y = 0 := by
        obtain ⟨j, _, rfl⟩ := List.mem_map.1 hy
        rw [hlab]
        by_cases hj : j < (w.arrays.getD r []).length
        · rw [List.getD_eq_getElem _ _ hj]
          exact hw _ (List.getElem_mem _)
        · rw [List.getD_eq_getElem?_getD, List.getElem?_eq_none (by omega)]
          rfl
      rw [this]
      exact ⟨le_refl _, le_refl _⟩)
    exact le_antisymm h2 h1

theorem castArray_zero {w : World K G} {r : Nat} (h : ∀ y ∈ w.arrays.getD r [], |y| < 1) :
    ∀ y ∈ (castArray (some r) w).arrays.getD r [], y = 0 := by
  unfold castArray
  simp only []
  intro y hy
  by_cases hr : r < w.arrays.length
  · rw [List.getD_eq_getElem?_getD, List.getElem?_set_self hr, Option.getD_some] at hy
    obtain ⟨u, hu, rfl⟩ := List.mem_map.1 hy
    have := abs_lt.1 (h u hu)
    unfold truncInt
    split_ifs with h0
    · rw [Int.floor_eq_zero_iff.2 ⟨h0, this.2⟩, Int.cast_zero]
    · have : ⌈u⌉ = 0 := by
        rw [Int.ceil_eq_zero_iff]
        exact ⟨this.1, le_of_lt (not_le.1 h0)⟩
      rw [this, Int.cast_zero]
  · rw [List.set_eq_of_length_le (by omega), List.getD_eq_getElem?_getD, List.getElem?_eq_none (by omega)] at hy
    simp at hy

theorem IntRun.zero {is : List Nat} {f f' : Forest K G} {w w' : World K G} {l : List (Made K G × Tree K G)}
    (h : IntRun R mem data F is f w l f' w') (hc : f.cfg.isCls = false) (hb : f.cfg.boosting = true) (r : Nat)
    (hr : f.newRef = some r) (hw : ∀ y ∈ w.arrays.getD r [], y = 0) :
    ∀ p ∈ l, ∀ x v, (p.2.predict x).map Prod.fst = .ok (.reg v) → v = 0 := by
  induction h with
  | done => simp
  | stop => simp
  | @keep i is f f1 f' w w1 w' m t l hk _ ih =>
    obtain ⟨_, _, c3, _, c5⟩ := hk.next_cfg
    have h0 := hk.zero hc hb r hr hw
    intro p hp
    rcases List.mem_cons.1 hp with rfl | hp
    · exact h0
    · refine ih (by rw [c3]; exact hc) (by rw [c3]; exact hb) (by rw [c5]; exact hr) ?_ p hp
      rw [c5, hr]
      apply castArray_zero
      have := hk.keeps hc hb r hr (fun y => y = 0) hw (fun x _ v hv y hy => by rw [h0 x v hv, hy]; simp)
      intro y hy
      rw [this y hy]
      simp

theorem forestLoopInt_whole {is : List Nat} {f f' : Forest K G} {w w' : World K G} (hc : f.cfg.isCls = false)
    (hb : f.cfg.boosting = true) (r : Nat) (hr : f.newRef = some r) (hw : ∀ y ∈ w.arrays.getD r [], IsWhole y)
    (h : forestLoop R mem data F is f w = .ok (f', w'))
    (ht : ∀ (k i : Nat) (t : Tree K G), is[k]? = some i → f'.trees[f.trees.length + k]? = some t →
      ∀ x ∈ data, ∀ v, (t.predict x).map Prod.fst = .ok (.reg v) → IsWhole (boostWeight f.cfg i * v)) :
    forestLoopInt R mem data F is f w = .ok (f', w') := by
  induction is generalizing f w with
  | nil => exact h
  | cons i is ih =>
    unfold forestLoop at h
    unfold forestLoopInt
    cases hs : forestStep R mem data F i f w with
    | error e => rw [hs] at h; cases h
    | ok p =>
      obtain ⟨b, f1, w1⟩ := p
      rw [hs] at h
      rcases forestStep_cases hs with ⟨rfl, m, t, hk⟩ | ⟨rfl, hb, hw, g, o, rfl, ho⟩
      · simp only [] at h ⊢
        obtain ⟨_, _, c3, _, c5⟩ := hk.next_cfg
        have htr : f1.trees = f.trees ++ [t] := by rw [hk.next]
        have key : forestLoop R mem data F is f1 w1 = .ok (f', w') →
            forestLoopInt R mem data F is f1 (castArray f1.newRef w1) = .ok (f', w') := by
          intro h
          obtain ⟨l, hl⟩ := forestLoop_run h
          have hw1 : ∀ y ∈ w1.arrays.getD r [], IsWhole y := by
            refine hk.whole hc hb r hr hw (ht 0 i t rfl ?_)
            rw [hl.trees, htr]
            simp
          rw [c5, hr, castArray_whole hw1]
          refine ih (by rw [c3]; exact hc) (by rw [c3]; exact hb) (by rw [c5]; exact hr) hw1 h ?_
          intro k i' t' hk' ht'
          rw [c3]
          refine ht (k + 1) i' t' hk' ?_
          rw [htr, List.length_append] at ht'
          rw [← ht']
          congr 1
          simp
          omega
        cases hrem : f1.remaining with
        | none =>
          rw [hrem] at h
          exact key h
        | some b =>
          rw [hrem] at h
          simp only [] at h ⊢
          split_ifs at h with hcond
          rw [if_pos hcond]
          exact key h
      · exact h

variable (R mem)

/-- C121, the part that holds. If the targets are whole numbers and every tree's contribution to every training row (the first tree's
answer, the learning rate times the answer of a later tree) is a whole number, an integer array of targets gives the same forest and
the same residuals as a float array. Not proved, because false: the same without that condition (`C121_refuted`). -/
theorem C121_whole_partial (f f' : Forest K G) (w w' : World K G) (data : Option (List (List K))) (labels : Option Nat)
    (hf : Forest.fit R mem f w data labels = .ok (f', w')) (hc : f.cfg.isCls = false) (hb : f.cfg.boosting = true) (lr : K)
    (hlr : f.cfg.boostingLr = some lr) (r : Nat) (hr : labels.or f.newRef = some r) (hw : ∀ y ∈ w.arrays.getD r [], IsWhole y)
    (ht : ∀ (k : Nat) (t : Tree K G), f'.trees[k]? = some t → ∀ x ∈ trainData f data, ∀ v,
      (t.predict x).map Prod.fst = .ok (.reg v) → IsWhole ((if k = 0 then 1 else lr) * v)) :
    Forest.fitInt R mem f w data labels = .ok (f', w') := by
  rw [← fitWith_forestLoop] at hf
  unfold Forest.fitInt
  rcases fitWith_start f w data labels with ⟨e, he⟩ | ⟨dat, f0, w0, hs, hl⟩
  · rw [he] at hf; cases hf
  · rw [hl] at hf ⊢
    obtain ⟨_, e2, e3⟩ := hs.reg hc
    have hcfg0 : f0.cfg = f.cfg := by rw [hs.eq]
    refine forestLoopInt_whole (by rw [hcfg0]; exact hc) (by rw [hcfg0]; exact hb) r (by rw [e2]; exact hr) (by rw [e3]; exact hw) hf ?_
    intro k i t hk htk x hx v hv
    have h0 : f0.trees = [] := by rw [hs.eq]
    rw [h0, List.length_nil, Nat.zero_add] at htk
    obtain ⟨_, rfl⟩ := List.getElem?_eq_some_iff.1 hk
    rw [List.getElem_range]
    have := ht k t htk x (by rw [← hs.dat_eq]; exact hx) v hv
    unfold boostWeight
    rw [hcfg0, hlr]
    exact this

/-- C121, how far it can go wrong. After `fit` with boosting on an integer array of targets, without row subsampling, the array holds
whole numbers, and for every training row the value in it differs from the target minus the forest's answer by less than the number of
trees. -/
theorem C121_drift (f f' : Forest K G) (w w' : World K G) (data : Option (List (List K))) (labels : Option Nat)
    (hf : Forest.fitInt R mem f w data labels = .ok (f', w')) (hc : f.cfg.isCls = false) (hb : f.cfg.boosting = true) (lr : K)
    (hlr : f.cfg.boostingLr = some lr) (hboot : f.cfg.bootstrap = false) (hN : f.cfg.alphaN = 1) (hF : f.cfg.alphaF ≤ 1)
    (hne : f'.trees ≠ []) (r : Nat) (hr : labels.or f.newRef = some r) (j : Nat) (hj : j < (trainData f data).length) :
    ∃ v f2, f'.predict ((trainData f data).getD j []) = .ok (.reg v, f2) ∧ IsWhole ((w'.arrays.getD r []).getD j 0) ∧
      |(w'.arrays.getD r []).getD j 0 - ((w.arrays.getD r []).getD j 0 - v)| < (f'.trees.length : K) := by
  unfold Forest.fitInt at hf
  rcases fitWith_start f w data labels with ⟨e, he⟩ | ⟨dat, f0, w0, hs, hl⟩
  · rw [he] at hf; cases hf
  rw [hl] at hf
  obtain ⟨l, hrun⟩ := forestLoopInt_run hf
  have h0 : f0.trees = [] := by rw [hs.eq]
  have htr : f'.trees = l.map Prod.snd := by rw [hrun.trees, h0]; rfl
  have hcfg0 : f0.cfg = f.cfg := by rw [hs.eq]
  obtain ⟨_, e2, e3⟩ := hs.reg hc
  have hrows := hrun.made_rows (by rw [hcfg0]; exact hboot) (by rw [hcfg0]; exact hN) (by rw [hcfg0]; exact hF)
  have hdat := hs.dat_eq
  rw [← hdat] at hj ⊢
  obtain ⟨vs, e, h1, h2, _, h4⟩ := hrun.boosted hs.ne (by rw [hcfg0]; exact hc) (by rw [hcfg0]; exact hb) r (by rw [e2]; exact hr)
    j (fun p hp => (hrows p hp).2 j hj)
  have hlne : l ≠ [] := by
    rintro rfl
    exact hne htr
  have hvs : List.Forall₂ (fun (t : Tree K G) v => (t.predict (dat.getD j [])).map Prod.fst = .ok (.reg v)) f'.trees vs := by
    rw [htr, List.forall₂_map_left_iff]
    exact h1
  have hm : f'.trees.mapM (fun (t : Tree K G) => (t.predict (dat.getD j [])).map Prod.fst) = .ok (vs.map Pred.reg) := by
    clear h2 h1 htr hne
    generalize f'.trees = ts at hvs
    induction hvs with
    | nil => rfl
    | cons h _ ih => rw [List.mapM_cons, h, ih]; rfl
  have hcfg' : f'.cfg = f.cfg := by rw [hrun.cfg.1, hcfg0]
  cases vs with
  | nil =>
    cases h1
    exact absurd rfl hlne
  | cons v us =>
    have hans : (f'.predict (dat.getD j [])).map Prod.fst = .ok (.reg (v + lr * us.sum)) := by
      rw [Forest_predict_fst, hm]
      show forestAnswer f'.cfg f'.classes ((v :: us).map Pred.reg) = _
      unfold forestAnswer
      rw [hcfg', if_neg (by rw [hc]; simp), if_pos hb, if_neg (by simp), hlr, List.map_map]
      have : (v :: us).map (Pred.value ∘ Pred.reg) = v :: us := by
        conv_rhs => rw [← List.map_id (v :: us)]
        rfl
      rw [this, boostSum_eq]
      rfl
    cases hp : f'.predict (dat.getD j []) with
    | error e => rw [hp] at hans; cases hans
    | ok q =>
      obtain ⟨q, f2⟩ := q
      rw [hp] at hans
      cases hans
      refine ⟨_, f2, rfl, (h4 hlne).2, ?_⟩
      rw [h2, e3, boostWeight_sum, hcfg0, hlr, htr, List.length_map]
      · have : (w.arrays.getD r []).getD j 0 - (v + lr * us.sum) + e - ((w.arrays.getD r []).getD j 0 - (v + lr * us.sum)) = e := by ring
        rw [Option.getD_some, this]
        exact (h4 hlne).1
      · have e1 := hrun.length
        have e2 := h1.length_eq
        rw [List.length_range] at e1
        rw [List.length_cons] at e2
        omega

/-- C121, what the truncation does to boosting. If the first tree's answer for every training row is off by less than 1, every later tree
answers 0 for every input, so boosting on an integer array of targets stops after the first tree. -/
theorem C121_stuck (f f' : Forest K G) (w w' : World K G) (data : Option (List (List K))) (labels : Option Nat)
    (hf : Forest.fitInt R mem f w data labels = .ok (f', w')) (hc : f.cfg.isCls = false) (hb : f.cfg.boosting = true)
    (hboot : f.cfg.bootstrap = false) (hN : f.cfg.alphaN = 1) (hF : f.cfg.alphaF ≤ 1) (r : Nat) (hr : labels.or f.newRef = some r)
    (t0 : Tree K G) (h0 : f'.trees[0]? = some t0)
    (hsmall : ∀ j < (trainData f data).length, ∀ v, (t0.predict ((trainData f data).getD j [])).map Prod.fst = .ok (.reg v) →
      |(w.arrays.getD r []).getD j 0 - v| < 1)
    (k : Nat) (t : Tree K G) (hk : 0 < k) (ht : f'.trees[k]? = some t) (x : List K) (v : K)
    (hv : (t.predict x).map Prod.fst = .ok (.reg v)) : v = 0 := by
  unfold Forest.fitInt at hf
  rcases fitWith_start f w data labels with ⟨e, he⟩ | ⟨dat, f0, w0, hs, hl⟩
  · rw [he] at hf; cases hf
  rw [hl] at hf
  obtain ⟨l, hrun⟩ := forestLoopInt_run hf
  have h00 : f0.trees = [] := by rw [hs.eq]
  have htr : f'.trees = l.map Prod.snd := by rw [hrun.trees, h00]; rfl
  have hcfg0 : f0.cfg = f.cfg := by rw [hs.eq]
  obtain ⟨_, e2, e3⟩ := hs.reg hc
  have hrows := hrun.made_rows (by rw [hcfg0]; exact hboot) (by rw [hcfg0]; exact hN) (by rw [hcfg0]; exact hF)
  rw [← hs.dat_eq] at hsmall
  obtain ⟨k, rfl⟩ : ∃ n, k = n + 1 := ⟨k - 1, by omega⟩
  generalize his : List.range f.cfg.nEstimators = is at hrun
  cases hrun with
  | done => rw [htr] at h0; simp at h0
  | stop => rw [htr] at h0; simp at h0
  | @keep i is _ f1 _ _ w1 _ m tt l hkp hrest =>
    obtain ⟨_, _, c3, _, c5⟩ := hkp.next_cfg
    have hnr : f0.newRef = some r := by rw [e2]; exact hr
    rw [htr] at h0 ht
    simp only [List.map_cons, List.getElem?_cons_zero, Option.some.injEq] at h0
    subst h0
    rw [List.map_cons, List.getElem?_cons_succ, List.getElem?_map, Option.map_eq_some_iff] at ht
    obtain ⟨p, hp, rfl⟩ := ht
    obtain ⟨hrn, hra⟩ := hrows _ (List.mem_cons_self ..)
    obtain ⟨arr, arr', a1, a2, _, len', a5⟩ := hkp.boosted hs.ne (by rw [hcfg0]; exact hc) (by rw [hcfg0]; exact hb) r hnr
    refine hrest.zero (by rw [c3, hcfg0]; exact hc) (by rw [c3, hcfg0]; exact hb) r (by rw [c5]; exact hnr) ?_ p
      (List.mem_of_getElem? hp) x v hv
    rw [c5, hnr]
    apply castArray_zero
    rw [List.getD_eq_getElem?_getD, a2, Option.getD_some]
    intro y hy
    obtain ⟨j, hj, rfl⟩ := List.mem_iff_getElem.1 hy
    rw [len'] at hj
    obtain ⟨u, u1, u2⟩ := a5 j (hra j hj)
    have hu := hsmall j hj u u1
    have hi : i = 0 := by
      cases hn : f.cfg.nEstimators with
      | zero => rw [hn] at his; cases his
      | succ n =>
        rw [hn, List.range_succ_eq_map] at his
        exact (List.cons.inj his).1.symm
    have ha : w0.arrays.getD r [] = arr := by rw [List.getD_eq_getElem?_getD, a1]; rfl
    rw [← e3, ha] at hu
    subst hi
    simp only [boostWeight, if_true, one_mul] at u2
    rw [← u2, List.getD_eq_getElem _ _ (by rw [len']; exact hj)] at hu
    exact hu

/-! ### Examples -/

/-- Constructing a forest and fitting it on an integer array of targets. -/
def runForestInt (w : World K G) (cfg : ForestCfg K) (data : List (List K)) (labels : Nat) : Except Err (Forest K G × World K G) := do
  let (f, w1) ← Forest.init R w cfg none (some data) (some labels) none
  Forest.fitInt R mem f w1 none none

theorem runForestInt_parts (w w' : World K G) (cfg : ForestCfg K) (data : List (List K)) (labels : Nat) (f' : Forest K G)
    (h : runForestInt R mem w cfg data labels = .ok (f', w')) :
    ∃ f w1, Forest.init R w cfg none (some data) (some labels) none = .ok (f, w1) ∧ Forest.fitInt R mem f w1 none none = .ok (f', w') := by
  unfold runForestInt at h
  cases hi : Forest.init R w cfg none (some data) (some labels) none with
  | error e => rw [hi] at h; cases h
  | ok q => rw [hi] at h; exact ⟨q.1, q.2, rfl, h⟩

/-- What the example forest fitted on an integer array leaves in the array and answers for the training rows, and what the same forest
fitted on a float array with the same targets does. -/
def exIntFloat (cfg : ForestCfg ℚ) (ys : List ℚ) : Except Err ((List (List ℚ) × List (Pred ℚ)) × (List (List ℚ) × List (Pred ℚ))) := do
  let (f, w) ← runForestInt rngQ exMems { exWorldReg with arrays := [ys] } cfg exData 0
  let (ps, _) ← f.predictBatch exData
  let (f', w') ← runForest rngQ exMems { exWorldReg with arrays := [ys] } cfg exData 0 none
  let (ps', _) ← f'.predictBatch exData
  pure ((w.arrays, ps), (w'.arrays, ps'))

/-- C121 does not hold as stated: with the targets 1, 2, 4, 7, 11, 16 in an integer array the forest's answers are not those of the forest
fitted on a float array with the same targets, and the array ends up full of zeros although three answers are wrong. -/
theorem C121_refuted : (exIntFloat fcfgBoost [1, 2, 4, 7, 11, 16]).toOption =
    some (([[0, 0, 0, 0, 0, 0]], [.reg (11 / 6), .reg (31 / 12), .reg (31 / 12), .reg 7, .reg 11, .reg 16]),
      ([[-2 / 3, -5 / 18, 5 / 4, 1 / 18, -5 / 12, 1 / 18]],
       [.reg (5 / 3), .reg (41 / 18), .reg (11 / 4), .reg (125 / 18), .reg (137 / 12), .reg (287 / 18)])) := by
  have : ((exIntFloat fcfgBoost [1, 2, 4, 7, 11, 16]).toOption ==
    some (([[0, 0, 0, 0, 0, 0]], [.reg (11 / 6), .reg (31 / 12), .reg (31 / 12), .reg 7, .reg 11, .reg 16]),
      ([[-2 / 3, -5 / 18, 5 / 4, 1 / 18, -5 / 12, 1 / 18]],
       [.reg (5 / 3), .reg (41 / 18), .reg (11 / 4), .reg (125 / 18), .reg (137 / 12), .reg (287 / 18)]))) = true := by decide +kernel
  exact eq_of_beq this

/-- A forest to which `C121_whole_partial` applies: the second tree answers -2/3 and 2/3, the learning rate is 3. -/
def fcfgWhole : ForestCfg ℚ := { fcfgBoost with maxDepth := .some 1, boostingLr := some 3 }

example : ((do
      let (f, w) ← runForest rngQ exMems { exWorldReg with arrays := [[1, 3, 1, 3, 8, 8]] } fcfgWhole exData 0 none
      let each ← f.trees.mapM (fun (t : Tree ℚ Nat) => (t.predictBatch exData).map Prod.fst)
      let (f', w') ← runForestInt rngQ exMems { exWorldReg with arrays := [[1, 3, 1, 3, 8, 8]] } fcfgWhole exData 0
      let each' ← f'.trees.mapM (fun (t : Tree ℚ Nat) => (t.predictBatch exData).map Prod.fst)
      pure (w.arrays, each, w'.arrays == w.arrays, each' == each)).toOption ==
    some ([[1, -1, 1, -1, 2, -2]],
      [[.reg 2, .reg 2, .reg 2, .reg 2, .reg 8, .reg 8],
       [.reg (-2 / 3), .reg (2 / 3), .reg (-2 / 3), .reg (2 / 3), .reg (-2 / 3), .reg (2 / 3)]], true, true)) = true := by decide +kernel

/-- A forest to which `C121_drift` and `C121_stuck` apply: the first tree is off by 1/2 everywhere and the second tree answers 0. On a float
array the second tree would have halved the error. -/
example : ((do
      let (f, w) ← runForestInt rngQ exMems { exWorldReg with arrays := [[3, 4, 3, 4, 10, 11]] } { fcfgBoost with maxDepth := .some 1 } exData 0
      let each ← f.trees.mapM (fun (t : Tree ℚ Nat) => (t.predictBatch exData).map Prod.fst)
      let (f', _) ← runForest rngQ exMems { exWorldReg with arrays := [[3, 4, 3, 4, 10, 11]] } { fcfgBoost with maxDepth := .some 1 } exData 0 none
      let each' ← f'.trees.mapM (fun (t : Tree ℚ Nat) => (t.predictBatch exData).map Prod.fst)
      pure (w.arrays, each, each')).toOption ==
    some ([[0, 0, 0, 0, 0, 0]],
      [[.reg (7 / 2), .reg (7 / 2), .reg (7 / 2), .reg (7 / 2), .reg (21 / 2), .reg (21 / 2)],
       [.reg 0, .reg 0, .reg 0, .reg 0, .reg 0, .reg 0]],
      [[.reg (7 / 2), .reg (7 / 2), .reg (7 / 2), .reg (7 / 2), .reg (21 / 2), .reg (21 / 2)],
       [.reg (-1 / 2), .reg (1 / 2), .reg (-1 / 2), .reg (1 / 2), .reg (-1 / 2), .reg (1 / 2)]])) = true := by decide +kernel

/-- The conclusion of `C121_drift` for that forest. -/
example : ∃ (f : Forest ℚ Nat) (w : World ℚ Nat) (v : ℚ) (f2 : Forest ℚ Nat),
    runForestInt rngQ exMems exWorldReg fcfgBoost exData 0 = .ok (f, w) ∧ f.predict [2, 8] = .ok (.reg v, f2) ∧
      |(w.arrays.getD 0 []).getD 2 0 - (4 - v)| < 2 := by
  obtain ⟨⟨f', w'⟩, hr⟩ : ∃ q, runForestInt rngQ exMems exWorldReg fcfgBoost exData 0 = .ok q := by
    cases h : runForestInt rngQ exMems exWorldReg fcfgBoost exData 0 with
    | ok q => exact ⟨q, rfl⟩
    | error e =>
      have : (runForestInt rngQ exMems exWorldReg fcfgBoost exData 0).isOk = true := by decide +kernel
      rw [h] at this
      cases this
  have hlen : f'.trees.length = 2 := by
    have : ((runForestInt rngQ exMems exWorldReg fcfgBoost exData 0).map (fun q => decide (q.1.trees.length = 2))).toOption = some true := by
      decide +kernel
    rw [hr] at this
    simpa [Except.map, Except.toOption] using this
  obtain ⟨f, w1, hi, hf⟩ := runForestInt_parts _ _ _ _ _ _ _ _ hr
  obtain ⟨i1, _, _, _, _, _, i7, i8, _, i10⟩ := Forest_init_fields hi
  have hdat : trainData f none = exData := by
    unfold trainData
    rw [i8]
    rfl
  obtain ⟨v, f2, h1, _, h3⟩ := C121_drift rngQ exMems f f' w1 w' none none hf (by rw [i1]; rfl) (by rw [i1]; rfl) (1 / 2) (by rw [i1]; rfl)
    (by rw [i1]; rfl) (by rw [i1]; rfl) (by rw [i1]; exact le_refl _) (by rintro h; rw [h] at hlen; cases hlen) 0 (by rw [i7]; rfl) 2
    (by rw [hdat]; decide)
  rw [hdat] at h1
  rw [i10, hlen] at h3
  exact ⟨f', w', v, f2, hr, h1, by exact_mod_cast h3⟩

end FF
