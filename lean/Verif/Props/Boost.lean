import Verif.Proofs.ForestPredict
import Verif.Props.ForestEx

/-!
# Boosting (C53)
-/

namespace FF

open Spec

set_option linter.unusedSectionVars false

variable {K : Type} [Field K] [LinearOrder K] [IsStrictOrderedRing K] [FloorRing K] [NpFun K] {G : Type}
variable {R : Rng K G} {mem : Nat → Nat → Junk K} {data : List (List K)} {F : Nat}

theorem setIdcs_length {α : Type} (a : List α) (idcs : List Nat) (vals : List α) : (setIdcs a idcs vals).length = a.length := by
  unfold setIdcs
  generalize idcs.zip vals = l
  induction l generalizing a with
  | nil => rfl
  | cons p l ih => rw [List.foldl_cons, ih, List.length_set]

theorem setIdcs_other {α : Type} (a : List α) (idcs : List Nat) (vals : List α) (j : Nat) (hj : j ∉ idcs) :
    (setIdcs a idcs vals)[j]? = a[j]? := by
  induction idcs generalizing a vals with
  | nil => rfl
  | cons i idcs ih =>
    cases vals with
    | nil => rfl
    | cons v vals =>
      show (setIdcs (a.set i v) idcs vals)[j]? = _
      rw [ih _ _ (fun h => hj (List.mem_cons_of_mem _ h)), List.getElem?_set_ne]
      rintro rfl
      exact hj (List.mem_cons_self ..)

/-- `a[idcs] = vals` for distinct indices. -/
theorem setIdcs_get {α : Type} (a : List α) (idcs : List Nat) (vals : List α) (hn : idcs.Nodup) (k j : Nat) (v : α)
    (hk : idcs[k]? = some j) (hv : vals[k]? = some v) (hj : j < a.length) : (setIdcs a idcs vals)[j]? = some v := by
  induction idcs generalizing a vals k with
  | nil => cases hk
  | cons i idcs ih =>
    cases vals with
    | nil => cases hv
    | cons u vals =>
      rw [List.nodup_cons] at hn
      show (setIdcs (a.set i u) idcs vals)[j]? = _
      cases k with
      | zero =>
        cases hk
        cases hv
        rw [setIdcs_other _ _ _ _ hn.1, List.getElem?_set_self hj]
      | succ k =>
        rw [List.getElem?_cons_succ] at hk hv
        exact ih _ _ hn.2 k hk hv (by rw [List.length_set]; exact hj)

/-- `a[idcs] = vals` where all values for index `j` are `v`. -/
theorem setIdcs_const {α : Type} (a : List α) (idcs : List Nat) (vals : List α) (j : Nat) (v : α)
    (hv : ∀ k : Nat, idcs[k]? = some j → vals[k]? = some v) (hj : (j ∈ idcs ∧ j < a.length) ∨ a[j]? = some v) :
    (setIdcs a idcs vals)[j]? = some v := by
  induction idcs generalizing a vals with
  | nil =>
    rcases hj with ⟨h, _⟩ | h
    · cases h
    · exact h
  | cons i idcs ih =>
    cases vals with
    | nil =>
      rcases hj with ⟨h, _⟩ | h
      · obtain ⟨k, hk⟩ := List.mem_iff_getElem?.1 h
        cases hv k hk
      · exact h
    | cons u vals =>
      show (setIdcs (a.set i u) idcs vals)[j]? = _
      refine ih _ _ (fun k hk => hv (k + 1) hk) ?_
      by_cases hij : i = j
      · subst hij
        refine Or.inr ?_
        have hu : u = v := Option.some.inj (hv 0 rfl)
        subst hu
        refine List.getElem?_set_self ?_
        rcases hj with ⟨_, h⟩ | h
        · exact h
        · exact (List.getElem?_eq_some_iff.1 h).1
      · rcases hj with ⟨h, h2⟩ | h
        · refine Or.inl ⟨?_, by rw [List.length_set]; exact h2⟩
          rcases List.mem_cons.1 h with q | q
          · exact absurd q.symm hij
          · exact q
        · exact Or.inr (by rw [List.getElem?_set_ne hij]; exact h)

theorem predictBatch_entry {t t' : Tree K G} {xs : List (List K)} {ps : List (Pred K)} {A : TreeArgs K} {me : Nat → Junk K}
    (hfit : Fitted R me A t) (h : t.predictBatch xs = .ok (ps, t')) {k : Nat} {x : List K} (hx : xs[k]? = some x) :
    ∃ p, ps[k]? = some p ∧ (t.predict x).map Prod.fst = .ok p := by
  have h1 := C38_batch R me A t t hfit .none xs
  rw [h] at h1
  have h2 := mapM_ok (show xs.mapM (fun x => (t.predict x).map Prod.fst) = .ok ps from h1.symm)
  obtain ⟨e1, e2⟩ := List.forall₂_iff_get.1 h2
  obtain ⟨hi, rfl⟩ := List.getElem?_eq_some_iff.1 hx
  exact ⟨ps[k]'(by omega), List.getElem?_eq_getElem _, e2 k hi (by omega)⟩

/-- The factor with which tree number `i` enters the ensemble. -/
def boostWeight (cfg : ForestCfg K) (i : Nat) : K := if i = 0 then 1 else cfg.boostingLr.getD 0

/-- One pass of the loop with boosting: the array of targets loses the weighted prediction of the new tree, on the rows of the tree. Rows drawn
more than once lose it once, the others keep their targets. -/
theorem Kept.boosted_all {i : Nat} {f f' : Forest K G} {w w' : World K G} {m : Made K G} {t : Tree K G}
    (h : Kept R mem data F i f w f' w' m t) (hne : data ≠ []) (hc : f.cfg.isCls = false) (hb : f.cfg.boosting = true) (r : Nat)
    (hr : f.newRef = some r) :
    ∃ arr arr', w.arrays[r]? = some arr ∧ w'.arrays[r]? = some arr' ∧ arr.length = data.length ∧ arr'.length = data.length ∧
      (∀ j ∈ m.args.rows, ∃ v, (t.predict (data.getD j [])).map Prod.fst = .ok (.reg v) ∧
        arr'.getD j 0 = arr.getD j 0 - boostWeight f.cfg i * v) ∧ ∀ j ∉ m.args.rows, arr'.getD j 0 = arr.getD j 0 := by
  obtain ⟨dd, t0, hfacts⟩ := h.fitted.facts
  have hlen := hfacts.start.lens
  obtain ⟨ref, hr1, hlab⟩ := h.labels
  rw [hb, if_pos rfl, hr] at hr1
  obtain rfl := Option.some.inj hr1
  rw [h.data_eq, hlab] at hlen
  have hrlt : r < w.arrays.length := by
    by_contra hno
    rw [List.getD_eq_getElem?_getD, List.getElem?_eq_none (by omega)] at hlen
    exact hne (List.length_eq_zero_iff.1 hlen)
  rw [List.getD_eq_getElem _ _ hrlt] at hlen
  have hget : w.arrays.getD r [] = w.arrays[r] := List.getD_eq_getElem _ _ hrlt
  obtain ⟨glob, hbs⟩ := h.boost
  unfold boostStep at hbs
  rw [hb, if_pos rfl, hr] at hbs
  simp only [] at hbs
  rw [hget] at hbs
  cases hu : boostUpdate f.cfg data m.tree i m.args.rows w.arrays[r] with
  | error e => rw [hu] at hbs; cases hbs
  | ok q =>
    obtain ⟨arr', t'⟩ := q
    rw [hu] at hbs
    cases hbs
    unfold boostUpdate at hu
    cases h1 : takeE data [] m.args.rows with
    | error e => rw [h1] at hu; cases hu
    | ok cur =>
      rw [h1] at hu
      simp only [] at hu
      cases h2 : m.tree.predictBatch cur with
      | error e => rw [h2] at hu; cases hu
      | ok q =>
        obtain ⟨preds, t2⟩ := q
        rw [h2] at hu
        simp only [] at hu
        cases h3 : takeE w.arrays[r] 0 m.args.rows with
        | error e => rw [h3] at hu; cases hu
        | ok tg =>
          rw [h3] at hu
          cases hu
          refine ⟨w.arrays[r], _, List.getElem?_eq_getElem hrlt, List.getElem?_set_self hrlt, hlen.symm,
            by rw [setIdcs_length]; exact hlen.symm, ?_⟩
          obtain ⟨c1, c2⟩ := takeE_ok h1
          obtain ⟨d1, d2⟩ := takeE_ok h3
          refine ⟨fun j hj => ?_, fun j hj => by rw [List.getD_eq_getElem?_getD, setIdcs_other _ _ _ _ hj, List.getD_eq_getElem?_getD]⟩
          have hone : ∀ k : Nat, m.args.rows[k]? = some j → ∃ v, (m.tree.predict (data.getD j [])).map Prod.fst = .ok (.reg v) ∧
              (boostTargets (f.cfg.boostingLr.getD 0) i tg (preds.map Pred.value))[k]? =
                some (w.arrays[r].getD j 0 - boostWeight f.cfg i * v) := by
            intro k hk
            have hcur : cur[k]? = some (data.getD j []) := by rw [c1, List.getElem?_map, hk]; rfl
            have htg : tg[k]? = some (w.arrays[r].getD j 0) := by rw [d1, List.getElem?_map, hk]; rfl
            obtain ⟨p, hp1, hp2⟩ := predictBatch_entry h.fitted h2 hcur
            have hci : m.args.cfg.isCls = false := by rw [h.cfg]; exact hc
            have hpr : ∃ v, p = .reg v := by
              cases htp : m.tree.predict (data.getD j []) with
              | error e => rw [htp] at hp2; cases hp2
              | ok q =>
                obtain ⟨q, t3⟩ := q
                rw [htp] at hp2
                cases hp2
                obtain ⟨_, v, _, _, _, e, _⟩ := C37_leaf_mean R (mem i) m.args m.tree m.tree t3 h.fitted hci .none _ _ htp
                exact ⟨v, e⟩
            obtain ⟨v, rfl⟩ := hpr
            refine ⟨v, hp2, ?_⟩
            unfold boostTargets
            rw [List.getElem?_zipWith, htg, List.getElem?_map, hp1]
            simp only [Option.map_some, Pred.value]
            unfold boostWeight
            split_ifs <;> simp [mul_comm]
          obtain ⟨k, hk⟩ := List.mem_iff_getElem?.1 hj
          obtain ⟨v, hv, _⟩ := hone k hk
          refine ⟨v, by rw [C38_history_independent R (mem i) m.args m.tree _ h.fitted h.after]; exact hv, ?_⟩
          have := setIdcs_const w.arrays[r] m.args.rows (boostTargets (f.cfg.boostingLr.getD 0) i tg (preds.map Pred.value)) j _
            (fun k' hk' => by
              obtain ⟨v', hv', e⟩ := hone k' hk'
              rw [hv] at hv'
              cases hv'
              exact e) (Or.inl ⟨hj, d2 j hj⟩)
          rw [List.getD_eq_getElem?_getD, this]
          rfl

/-- One pass of the loop with boosting on all rows: the array of targets loses the weighted prediction of the new tree. -/
theorem Kept.boosted {i : Nat} {f f' : Forest K G} {w w' : World K G} {m : Made K G} {t : Tree K G}
    (h : Kept R mem data F i f w f' w' m t) (hne : data ≠ []) (hc : f.cfg.isCls = false) (hb : f.cfg.boosting = true) (r : Nat)
    (hr : f.newRef = some r) :
    ∃ arr arr', w.arrays[r]? = some arr ∧ w'.arrays[r]? = some arr' ∧ arr.length = data.length ∧ arr'.length = data.length ∧
      ∀ j ∈ m.args.rows, ∃ v, (t.predict (data.getD j [])).map Prod.fst = .ok (.reg v) ∧
        arr'.getD j 0 = arr.getD j 0 - boostWeight f.cfg i * v := by
  obtain ⟨arr, arr', a1, a2, a3, a4, a5, _⟩ := h.boosted_all hne hc hb r hr
  exact ⟨arr, arr', a1, a2, a3, a4, a5⟩

/-- The whole loop. -/
theorem ForestRun.boosted {is : List Nat} {f f' : Forest K G} {w w' : World K G} {l : List (Made K G × Tree K G)}
    (h : ForestRun R mem data F is f w l f' w') (hne : data ≠ []) (hc : f.cfg.isCls = false) (hb : f.cfg.boosting = true) (r : Nat)
    (hr : f.newRef = some r) (j : Nat) (hj : ∀ p ∈ l, j ∈ p.1.args.rows) :
    ∃ vs, List.Forall₂ (fun (p : Made K G × Tree K G) v => (p.2.predict (data.getD j [])).map Prod.fst = .ok (.reg v)) l vs ∧
      (w'.arrays.getD r []).getD j 0 =
        (w.arrays.getD r []).getD j 0 - (List.zipWith (fun i v => boostWeight f.cfg i * v) is vs).sum := by
  induction h with
  | done => exact ⟨[], .nil, by simp⟩
  | stop _ hw => exact ⟨[], .nil, by rw [hw]; simp⟩
  | keep hk _ ih =>
    obtain ⟨_, _, c3, _, c5⟩ := hk.next_cfg
    obtain ⟨vs, h1, h2⟩ := ih (by rw [c3]; exact hc) (by rw [c3]; exact hb) (by rw [c5]; exact hr)
      (fun p hp => hj p (List.mem_cons_of_mem _ hp))
    obtain ⟨arr, arr', a1, a2, _, _, a5⟩ := hk.boosted hne hc hb r hr
    obtain ⟨v, v1, v2⟩ := a5 j (hj _ (List.mem_cons_self ..))
    refine ⟨v :: vs, .cons v1 h1, ?_⟩
    rw [h2, c3, List.zipWith_cons_cons, List.sum_cons]
    simp only [List.getD_eq_getElem?_getD, a1, a2, Option.getD_some] at v2 ⊢
    rw [v2]
    ring

theorem boostSum_eq (lr v : K) (vs : List K) : boostSum lr (v :: vs) = v + lr * vs.sum := by
  show vs.foldl (fun a p => a + lr * p) v = _
  induction vs generalizing v with
  | nil => simp
  | cons u vs ih => rw [List.foldl_cons, ih, List.sum_cons]; ring

theorem boostWeight_sum (cfg : ForestCfg K) (n : Nat) (v : K) (vs : List K) (h : vs.length < n) :
    (List.zipWith (fun i v => boostWeight cfg i * v) (List.range n) (v :: vs)).sum = v + cfg.boostingLr.getD 0 * vs.sum := by
  obtain ⟨n, rfl⟩ : ∃ m, n = m + 1 := ⟨n - 1, by omega⟩
  rw [List.range_succ_eq_map, List.zipWith_cons_cons, List.sum_cons, List.zipWith_map_left]
  have h1 : ∀ (l : List Nat) (us : List K), us.length ≤ l.length →
      (List.zipWith (fun i u => boostWeight cfg (Nat.succ i) * u) l us).sum = cfg.boostingLr.getD 0 * us.sum := by
    intro l
    induction l with
    | nil => intro us hu; cases us with
      | nil => simp
      | cons u us => simp at hu
    | cons i l ih =>
      intro us hu
      cases us with
      | nil => simp
      | cons u us =>
        rw [List.zipWith_cons_cons, List.sum_cons, ih us (by simpa using hu), List.sum_cons]
        simp only [boostWeight, Nat.succ_ne_zero, if_false]
        ring
  rw [h1 _ _ (by simp; omega)]
  simp [boostWeight]

variable (R mem)

/-- C53, prediction. A boosted regression forest answers with the first tree's answer plus the learning rate times the sum of the other
trees' answers. -/
theorem C53_boosted_prediction (f f' f1 f2 : Forest K G) (w w' : World K G) (data : Option (List (List K))) (labels : Option Nat)
    (hf : Forest.fit R mem f w data labels = .ok (f', w')) (hc : f.cfg.isCls = false) (hb : f.cfg.boosting = true) (lr : K)
    (hlr : f.cfg.boostingLr = some lr) (ha : AfterReads f' f1) (x : List K) (p : Pred K) (hp : f1.predict x = .ok (p, f2)) :
    ∃ v vs, List.Forall₂ (fun (t : Tree K G) u => (t.predict x).map Prod.fst = .ok (.reg u)) f'.trees (v :: vs) ∧
      p = .reg (v + lr * vs.sum) := by
  obtain ⟨ps, h1, h2⟩ := Forest_predict_parts hf ha hp
  obtain ⟨ms, _, _, hmade⟩ := Forest_fit_made hf
  have hcfg := (Forest_fit_same hf).1
  have hreg : List.Forall₂ (fun (t : Tree K G) u => (t.predict x).map Prod.fst = .ok (.reg u)) f'.trees (ps.map Pred.value) := by
    rw [List.forall₂_iff_get] at h1 ⊢
    refine ⟨by rw [List.length_map]; exact h1.1, ?_⟩
    intro k hk1 hk2
    have hk3 : k < ps.length := by rw [List.length_map] at hk2; exact hk2
    have hans := h1.2 k hk1 hk3
    obtain ⟨m, _, hm, _⟩ := hmade k _ (List.getElem?_eq_getElem hk1)
    rw [List.get_eq_getElem] at hans ⊢
    rw [List.get_eq_getElem] at hans ⊢
    rw [List.getElem_map]
    cases htp : (f'.trees[k]).predict x with
    | error e => rw [htp] at hans; cases hans
    | ok r =>
      obtain ⟨q', t2⟩ := r
      rw [htp] at hans
      have hq' : q' = ps[k] := by cases hans; rfl
      have hci : m.args.cfg.isCls = false := by
        rw [hm.cfg]; show f'.cfg.isCls = false; rw [hcfg]; exact hc
      obtain ⟨_, v, _, _, _, e4, _⟩ := C37_leaf_mean R (mem k) m.args m.tree _ t2 hm.fitted hci hm.after x q' htp
      rw [← hq', e4]
      rfl
  unfold forestAnswer at h2
  rw [if_neg (by rw [hc]; simp), if_pos hb] at h2
  split_ifs at h2 with hne
  simp only [Except.ok.injEq] at h2
  cases ps with
  | nil => exact absurd rfl hne
  | cons q qs =>
    refine ⟨q.value, qs.map Pred.value, hreg, ?_⟩
    rw [← h2, List.map_cons, boostSum_eq, hlr]
    rfl

theorem SubsetDrawn.all {n : Nat} {l : List Nat} (h : SubsetDrawn n (1 : K) l) : ∀ j < n, j ∈ l := by
  have hlen : l.length = n := by
    have := h.size
    rw [mul_one, Int.floor_natCast] at this
    exact_mod_cast this
  have hsub : l.Subperm (List.range n) := h.distinct.subperm (fun i hi => List.mem_range.2 (h.range i hi))
  have hperm := hsub.perm_of_length_le (by rw [List.length_range, hlen])
  intro j hj
  exact hperm.symm.subset (List.mem_range.2 hj)

/-- C53, residuals. After `fit` with boosting and without row subsampling, the array of targets holds, for every training row, the target
it held before minus the forest's answer for that row. -/
theorem C53_residuals (f f' f1 : Forest K G) (w w' : World K G) (data : Option (List (List K))) (labels : Option Nat)
    (hf : Forest.fit R mem f w data labels = .ok (f', w')) (hc : f.cfg.isCls = false) (hb : f.cfg.boosting = true) (lr : K)
    (hlr : f.cfg.boostingLr = some lr) (hboot : f.cfg.bootstrap = false) (hN : f.cfg.alphaN = 1) (hF : f.cfg.alphaF ≤ 1)
    (hne : f'.trees ≠ []) (ha : AfterReads f' f1) (r : Nat) (hr : labels.or f.newRef = some r)
    (j : Nat) (hj : j < (trainData f data).length) :
    ∃ v f2, f1.predict ((trainData f data).getD j []) = .ok (.reg v, f2) ∧
      (w'.arrays.getD r []).getD j 0 = (w.arrays.getD r []).getD j 0 - v := by
  obtain ⟨dat, f0, w0, hs, hl⟩ := Forest_fit_start hf
  obtain ⟨l, hrun⟩ := forestLoop_run hl
  have htr : f'.trees = l.map Prod.snd := by rw [hrun.trees, hs.eq]; rfl
  have hcfg0 : f0.cfg = f.cfg := by rw [hs.eq]
  obtain ⟨_, e2, e3⟩ := hs.reg hc
  have hrows : ∀ p ∈ l, ∀ i < dat.length, i ∈ p.1.args.rows := by
    intro p hp
    obtain ⟨k, hk⟩ := List.mem_iff_getElem?.1 hp
    obtain ⟨i, _, hm⟩ := hrun.made k p.1 p.2 hk
    obtain ⟨rows0, rows, cols, g, g1, g2, d1, d2, d3, d4⟩ := hm.draw
    rw [hcfg0] at d1 d2
    obtain ⟨s1, s2⟩ := subsets_ok (by rw [hN]) hF d1
    have hrr : p.1.args.rows = rows := by unfold TreeArgs.rows; rw [d3]; rfl
    unfold bootstrapIdcs at d2
    rw [hboot, if_neg (by simp)] at d2
    cases d2
    rw [hrr]
    rw [hN] at s1
    exact s1.all
  have hdat := hs.dat_eq
  rw [← hdat] at hj ⊢
  obtain ⟨vs, h1, h2⟩ := hrun.boosted hs.ne (by rw [hcfg0]; exact hc) (by rw [hcfg0]; exact hb) r (by rw [e2]; exact hr)
    j (fun p hp => hrows p hp j hj)
  have hvs : List.Forall₂ (fun (t : Tree K G) v => (t.predict (dat.getD j [])).map Prod.fst = .ok (.reg v)) f'.trees vs := by
    rw [htr, List.forall₂_map_left_iff]
    exact h1
  have hans : ∃ p f2, f1.predict (dat.getD j []) = .ok (p, f2) := by
    have hm : f'.trees.mapM (fun (t : Tree K G) => (t.predict (dat.getD j [])).map Prod.fst) = .ok (vs.map Pred.reg) := by
      clear h2 h1 htr hne
      generalize f'.trees = ts at hvs
      induction hvs with
      | nil => rfl
      | cons h _ ih => rw [List.mapM_cons, h, ih]; rfl
    have : (f1.predict (dat.getD j [])).map Prod.fst = forestAnswer f.cfg f.classes (vs.map Pred.reg) := by
      rw [Forest_after_predict hf ha, Forest_predict_fst, hm, (Forest_fit_same hf).1, (Forest_fit_same hf).2.1]
      rfl
    unfold forestAnswer at this
    rw [if_neg (by rw [hc]; simp), if_pos hb, if_neg] at this
    · cases hp : f1.predict (dat.getD j []) with
      | error e => rw [hp] at this; cases this
      | ok q => exact ⟨q.1, q.2, rfl⟩
    · intro h0
      rw [List.map_eq_nil_iff] at h0
      rw [h0] at hvs
      exact hne (List.length_eq_zero_iff.1 (by rw [hvs.length_eq]; rfl))
  obtain ⟨p, f2, hp⟩ := hans
  obtain ⟨v, us, h3, rfl⟩ := C53_boosted_prediction R mem f f' f1 f2 w w' data labels hf hc hb lr hlr ha _ p hp
  refine ⟨_, f2, hp, ?_⟩
  have hvu : vs = v :: us := by
    have : ∀ {ts : List (Tree K G)} {a b : List K},
        List.Forall₂ (fun (t : Tree K G) v => (t.predict (dat.getD j [])).map Prod.fst = .ok (.reg v)) ts a →
        List.Forall₂ (fun (t : Tree K G) v => (t.predict (dat.getD j [])).map Prod.fst = .ok (.reg v)) ts b → a = b := by
      intro ts a b ha
      induction ha generalizing b with
      | nil => intro hb; cases hb; rfl
      | cons h _ ih =>
        intro hb
        cases hb with
        | cons h' hr' =>
          rw [ih hr']
          rw [h] at h'
          cases h'
          rfl
    exact this hvs h3
  rw [h2, e3, hvu, boostWeight_sum, hcfg0, hlr]
  · rfl
  · have := hrun.length.1
    have e := h1.length_eq
    rw [hvu] at e
    rw [List.length_range] at this
    simp at e
    omega

/-! ### Example -/

/-- Two boosted trees with learning rate 1/2. The targets were 1, 2, 4, 7, 11, 16. -/
example :
    ((do let (f, w) ← runForest rngQ exMems exWorldReg fcfgBoost exData 0 none
         let (ps, _) ← f.predictBatch exData
         let each ← f.trees.mapM (fun (t : Tree ℚ Nat) => (t.predictBatch exData).map Prod.fst)
         pure (w.arrays, ps, each)).toOption ==
    some ([[-2 / 3, -5 / 18, 5 / 4, 1 / 18, -5 / 12, 1 / 18]],
      [.reg (5 / 3), .reg (41 / 18), .reg (11 / 4), .reg (125 / 18), .reg (137 / 12), .reg (287 / 18)],
      [[.reg (7 / 3), .reg (7 / 3), .reg (7 / 3), .reg 7, .reg 11, .reg 16],
       [.reg (-4 / 3), .reg (-1 / 9), .reg (5 / 6), .reg (-1 / 9), .reg (5 / 6), .reg (-1 / 9)]])) = true := by
  decide +kernel

end FF
