import Verif.Proofs.Forest
import Verif.Proofs.TreeTotal
import Verif.Props.Predict

/-!
# When fitting a forest succeeds
-/

set_option linter.unusedSectionVars false

namespace FF

open Spec

variable {K : Type} [Field K] [LinearOrder K] [IsStrictOrderedRing K] [FloorRing K] [NpFun K] {G : Type}
variable {R : Rng K G} {mem : Nat → Nat → Junk K} {data : List (List K)} {F : Nat}

theorem rngChoice_total {α : Type} {g : G} {a : List α} {d : α} {k : Nat} (h : k ≤ a.length) :
    ∃ r g', rngChoice R g a d k = .ok (r, g') := by
  unfold rngChoice
  rw [if_pos h]
  exact ⟨_, _, rfl⟩

theorem subsetIdcs_total {g : G} {n : Nat} {alpha : K} (h1 : alpha ≤ 1) (h0 : 1 ≤ (n : K) * alpha) :
    ∃ l g', subsetIdcs R g n alpha = .ok (l, g') := by
  unfold subsetIdcs
  have hf : (1 : Int) ≤ ⌊(n : K) * alpha⌋ := by
    rw [Int.le_floor]
    simpa using h0
  have hle : ⌊(n : K) * alpha⌋ ≤ (n : Int) := by
    have : (n : K) * alpha ≤ ((n : Int) : K) := by
      have := mul_le_mul_of_nonneg_left h1 (Nat.cast_nonneg (α := K) n)
      simpa using this
    exact_mod_cast le_trans (Int.floor_mono this) (by simp)
  rw [if_neg (by omega)]
  exact rngChoice_total (by rw [List.length_range]; omega)

theorem subsets_total {g : G} {N F : Nat} {cfg : ForestCfg K} (hN : cfg.alphaN ≤ 1 ∧ 1 ≤ (N : K) * cfg.alphaN)
    (hF : cfg.alphaF ≤ 1 ∧ 1 ≤ (F : K) * cfg.alphaF) : ∃ rows cols g', subsets R g N F cfg = .ok (rows, cols, g') := by
  unfold subsets
  split_ifs with h
  · obtain ⟨rows, g1, e1⟩ := subsetIdcs_total (R := R) (g := g) hN.1 hN.2
    obtain ⟨cols, g2, e2⟩ := subsetIdcs_total (R := R) (g := g1) hF.1 hF.2
    rw [e1]
    simp only []
    rw [e2]
    exact ⟨_, _, _, rfl⟩
  · exact ⟨_, _, _, rfl⟩

theorem SubsetDrawn.ne {n : Nat} {alpha : K} {l : List Nat} (h : SubsetDrawn n alpha l) (h0 : 1 ≤ (n : K) * alpha) : l ≠ [] := by
  have hf : (1 : Int) ≤ ⌊(n : K) * alpha⌋ := by
    rw [Int.le_floor]
    simpa using h0
  have := h.size
  intro hl
  rw [hl] at this
  simp at this
  omega

theorem bootstrapIdcs_total {g : G} {N : Nat} {cfg : ForestCfg K} {sub : List Nat} (h : sub ≠ []) :
    ∃ rows g', bootstrapIdcs R g N cfg sub = .ok (rows, g') := by
  unfold bootstrapIdcs rngChoiceRep
  split_ifs with h1 h2
  · exact ⟨_, _, rfl⟩
  · exact absurd (List.length_pos_of_ne_nil h) h2
  · exact ⟨_, _, rfl⟩

theorem predictBatch_total {A : TreeArgs K} {memT : Nat → Junk K} {t t1 : Tree K G} (h : Fitted R memT A t)
    (hd : A.cfg.isCls = true → ClassesOK A.cfg.classes) (hrows : A.rows ≠ []) (ha : AfterPredicts t t1) (xs : List (List K))
    (hx : ∀ x ∈ xs, ∀ f ∈ A.cols, f < x.length) : ∃ ps t2, t1.predictBatch xs = .ok (ps, t2) ∧ ps.length = xs.length := by
  induction xs generalizing t1 with
  | nil => exact ⟨[], t1, rfl, rfl⟩
  | cons x xs ih =>
    obtain ⟨p, t2, hp⟩ := C36_predict_total R memT A t t1 h hd hrows ha x (hx x (by simp))
    obtain ⟨ps, t3, hps, hl⟩ := ih (.call ha hp) (fun y hy => hx y (by simp [hy]))
    refine ⟨p :: ps, t3, ?_, by simp [hl]⟩
    unfold Tree.predictBatch
    rw [hp]
    simp only []
    rw [hps]

theorem setIdcs_length {α : Type} (a : List α) (idcs : List Nat) (vals : List α) : (setIdcs a idcs vals).length = a.length := by
  unfold setIdcs
  induction idcs.zip vals generalizing a with
  | nil => rfl
  | cons p ps ih => rw [List.foldl_cons, ih]; simp

theorem truncInt_idem (x : K) : truncInt (truncInt x) = truncInt x := by
  unfold truncInt
  by_cases h : 0 ≤ x
  · rw [if_pos h, if_pos (by exact_mod_cast Int.floor_nonneg.2 h)]
    simp
  · rw [if_neg h]
    split_ifs <;> simp

/-- What the totality of one pass needs. -/
structure StepReady (P : List K → Prop) (f : Forest K G) (w : World K G) (data : List (List K)) (ref : Nat) : Prop where
  labels : P (w.arrays.getD ref [])
  all : f.cfg.boosting = true → ∀ l, P l
  ok : ForestTrainOK f.cfg f.classes data (w.arrays.getD ref [])
  ref_eq : (if f.cfg.boosting then f.newRef else f.orgRef) = some ref
  trunc : f.cfg.isCls = true → ∀ y ∈ w.arrays.getD ref [], y ∈ f.classes.map Prod.fst
  boost : f.cfg.boosting = true → f.cfg.isCls = false

/-- Trees of the forest are always fitted, on labels that satisfy `P`. -/
def TreesTotal (R : Rng K G) (P : List K → Prop) (f : Forest K G) (data : List (List K)) : Prop :=
  ∀ A : TreeArgs K, A.cfg = f.treeCfg → A.data = data → A.disc = f.discrete → P A.labels → TrainOK A →
    SubsetDrawn (data.getD 0 []).length f.cfg.alphaF A.cols →
    ∀ (t0 : Tree K G), Constructed R A t0 → ∀ (memT : Nat → Junk K) (glob : Glob G), ∃ t glob', Tree.fit R memT t0 glob none none = .ok (t, glob')

theorem forestStep_total {i : Nat} {f : Forest K G} {w : World K G} {ref : Nat} {P : List K → Prop} (h : StepReady P f w data ref)
    (hmm : ∀ mins maxs, f.minmax = some (mins, maxs) → mins.length = (data.getD 0 []).length ∧ maxs.length = (data.getD 0 []).length)
    (ht : TreesTotal R P f data) :
    ∃ b f' w', forestStep R mem data (data.getD 0 []).length i f w = .ok (b, f', w') ∧
      (b = true → (w'.arrays.getD ref []).length = (w.arrays.getD ref []).length ∧ (f.cfg.boosting = false → w'.arrays = w.arrays)) := by
  obtain ⟨rows0, cols, g1, e1⟩ := subsets_total (R := R) (g := f.rng) (cfg := f.cfg) h.ok.alphaN h.ok.alphaF
  obtain ⟨hr, hc⟩ := subsets_ok h.ok.alphaN.1 h.ok.alphaF.1 e1
  obtain ⟨rows, g2, e2⟩ := bootstrapIdcs_total (R := R) (g := g1) (N := data.length) (cfg := f.cfg) (hr.ne h.ok.alphaN.2)
  obtain ⟨sub, hsub, hrows⟩ := bootstrapIdcs_ok hr e2
  have hrow_lt : ∀ i ∈ rows, i < data.length := by
    split_ifs at hrows with hb
    · exact fun i hi => hsub.range i (hrows.2 i hi)
    · subst hrows
      exact hsub.range
  have hrow_ne : rows ≠ [] := by
    split_ifs at hrows with hb
    · intro h0
      rw [h0] at hrows
      exact h.ok.data_ne (List.length_eq_zero_iff.1 hrows.1.symm)
    · subst hrows
      exact hsub.ne h.ok.alphaN.2
  unfold forestStep
  simp only [e1]
  cases hsp : spent f.remaining with
  | true =>
    rw [if_pos rfl]
    exact ⟨false, _, _, rfl, fun h => by cases h⟩
  | false =>
    rw [if_neg (by simp), h.ref_eq]
    simp only [e2]
    let A : TreeArgs K := ⟨f.treeCfg, data, w.arrays.getD ref [], f.discrete, f.remaining, (R.randint w.glob.np maxSeed).1,
      some rows, some cols⟩
    have hT : TrainOK A :=
      { data_ne := h.ok.data_ne, rect := h.ok.rect, lens := h.ok.lens, rows := hrow_lt, cols := hc.range
        cols_ne := hc.ne h.ok.alphaF.2
        classes := fun hcls => ⟨(h.ok.classes hcls).1, h.trunc hcls⟩
        depth := h.ok.depth, leaves := h.ok.leaves, featSub := h.ok.featSub _ hc.size
        minmax := hmm, splitter := rfl }
    obtain ⟨t0, glob0, hc0⟩ := Tree_init_total (R := R) hT
    have hc0' : Tree.init R f.treeCfg data (w.arrays.getD ref []) f.discrete f.remaining (R.randint w.glob.np maxSeed).1
        (some rows) (some cols) = .ok (t0, glob0) := hc0
    obtain ⟨t, glob1, hfit⟩ := ht A rfl rfl rfl h.labels hT hc t0 ⟨glob0, hc0⟩ (mem i) glob0
    have hfitted : Fitted R (mem i) A t := ⟨t0, glob0, glob1, ⟨glob0, hc0⟩, hfit⟩
    simp only [hc0', hfit]
    cases hk : keepTree f.remaining t.numQueries with
    | false =>
      rw [if_neg (by simp)]
      exact ⟨false, _, _, rfl, fun h => by cases h⟩
    | true =>
      rw [if_pos rfl]
      have hbo : ∃ w2 t', boostStep f data t i rows { w with glob := glob1 } = .ok (w2, t') ∧
          (w2.arrays.getD ref []).length = (w.arrays.getD ref []).length ∧ (f.cfg.boosting = false → w2.arrays = w.arrays) := by
        unfold boostStep
        by_cases hb : f.cfg.boosting = true
        · rw [if_pos hb]
          have href := h.ref_eq
          rw [if_pos hb] at href
          rw [href]
          simp only []
          unfold boostUpdate
          rw [takeE_total hrow_lt]
          simp only []
          obtain ⟨ps, t2, hps, _⟩ := predictBatch_total hfitted (fun hcls => by
              have : f.cfg.isCls = true := hcls
              rw [h.boost hb] at this
              cases this) hrow_ne .none (rows.map (fun i => data.getD i [])) (by
            intro x hx j hj
            obtain ⟨i, hi, rfl⟩ := List.mem_map.1 hx
            have hin : data.getD i [] ∈ data := by
              rw [List.getD_eq_getElem _ _ (hrow_lt i hi)]
              exact List.getElem_mem _
            rw [h.ok.rect _ hin]
            exact hc.range j hj)
          rw [hps]
          simp only []
          rw [takeE_total (by rw [← h.ok.lens]; exact hrow_lt)]
          simp only []
          refine ⟨_, _, rfl, ?_, fun h0 => by rw [hb] at h0; cases h0⟩
          by_cases hlt : ref < w.arrays.length
          · simp only [List.getD_eq_getElem?_getD, List.getElem?_set_self hlt, Option.getD_some, setIdcs_length]
          · simp only [List.set_eq_of_length_le (Nat.le_of_not_lt hlt)]
        · rw [if_neg hb]
          exact ⟨_, _, rfl, rfl, fun _ => rfl⟩
      obtain ⟨w2, t', hbs, hlen, hsame⟩ := hbo
      rw [hbs]
      exact ⟨true, _, _, rfl, fun _ => ⟨hlen, hsame⟩⟩

theorem keepTree_buffer {b : Int} {q : Nat} (h : keepTree (some b) q = true) : -buffer < b - (q : Int) := by
  unfold keepTree at h
  simp only [Bool.and_eq_true, decide_eq_true_eq] at h
  omega

theorem forestLoop_total {is : List Nat} {f : Forest K G} {w : World K G} {ref : Nat} {P : List K → Prop} (h : StepReady P f w data ref)
    (hmm : ∀ mins maxs, f.minmax = some (mins, maxs) → mins.length = (data.getD 0 []).length ∧ maxs.length = (data.getD 0 []).length)
    (ht : TreesTotal R P f data) :
    ∃ f' w', forestLoop R mem data (data.getD 0 []).length is f w = .ok (f', w') := by
  induction is generalizing f w with
  | nil => exact ⟨f, w, rfl⟩
  | cons i is ih =>
    obtain ⟨b, f1, w1, hs, hb⟩ := forestStep_total (mem := mem) (i := i) h hmm ht
    unfold forestLoop
    rw [hs]
    cases b with
    | false => exact ⟨f1, w1, rfl⟩
    | true =>
      obtain ⟨h1, h2⟩ := hb rfl
      rcases forestStep_cases hs with ⟨_, m, t, hk⟩ | ⟨h0, _⟩
      swap
      · cases h0
      obtain ⟨c1, c2, c3, c4, c5⟩ := hk.next_cfg
      have hcl : f1.classes = f.classes := by rw [hk.next]
      have hmm1 : f1.minmax = f.minmax := by rw [hk.next]
      have hready : StepReady P f1 w1 data ref := by
        refine ⟨?_, by rw [c3]; exact h.all, ?_, by rw [c3, c4, c5]; exact h.ref_eq, fun hcls => ?_, by rw [c3]; exact h.boost⟩
        · cases hbb : f.cfg.boosting with
          | false => rw [h2 hbb]; exact h.labels
          | true => exact h.all hbb _
        · rw [c3, hcl]
          refine { h.ok with lens := by rw [h1]; exact h.ok.lens, classes := fun hcls => ?_ }
          have hbf : f.cfg.boosting = false := by
            cases hbb : f.cfg.boosting with
            | false => rfl
            | true => rw [h.boost hbb] at hcls; cases hcls
          rw [h2 hbf]
          exact h.ok.classes hcls
        · rw [c3] at hcls
          have hbf : f.cfg.boosting = false := by
            cases hbb : f.cfg.boosting with
            | false => rfl
            | true => rw [h.boost hbb] at hcls; cases hcls
          rw [h2 hbf, hcl]
          exact h.trunc hcls
      have htt : TreesTotal R P f1 data := by
        intro A a1 a2 a3 a4 a5 a6
        exact ht A (a1.trans c1) a2 (a3.trans c2) a4 a5 (by rw [← c3]; exact a6)
      have hchk : ∀ b, f1.remaining = some b → -buffer < b := by
        intro b hb1
        rw [hk.next] at hb1
        have hkeep := hk.keep
        cases hrem : f.remaining with
        | none => rw [hrem] at hb1; cases hb1
        | some b =>
          rw [hrem] at hkeep hb1
          cases hb1
          exact keepTree_buffer hkeep
      have hnext := ih hready (by rw [hmm1]; exact hmm) htt
      rcases Option.eq_none_or_eq_some f1.remaining with hr | ⟨b, hr⟩
      · simp only [hr]
        exact hnext
      · simp only [hr, hchk b hr, decide_true, if_true]
        exact hnext

/-- `fit` succeeds when its data are well-formed and its trees can always be fitted. -/
theorem Forest_fit_total {f : Forest K G} {w : World K G} {dat : Option (List (List K))} {labels : Option Nat} {ra rb : Nat}
    {P : List K → Prop} (hP : f.cfg.boosting = true → ∀ l, P l) (hPl : P (treeLabels f w labels))
    (hboth : dat = none ↔ labels = none) (ha : labels.or f.orgRef = some ra) (hb : labels.or f.newRef = some rb)
    (hd : f.data = none → dat ≠ none)
    (hok : ForestTrainOK f.cfg f.classes (trainData f dat) (w.arrays.getD ra []))
    (hok' : f.cfg.boosting = true → ForestTrainOK f.cfg f.classes (trainData f dat) (w.arrays.getD rb []))
    (hbc : f.cfg.boosting = true → f.cfg.isCls = false)
    (hmm : f.cfg.precompMinmax = false → f.minmax = none)
    (ht : ∀ f0 : Forest K G, f0.cfg = f.cfg → f0.classes = f.classes →
      f0.minmax = (if f.cfg.precompMinmax then some (colMinMax (trainData f dat) ((trainData f dat).getD 0 []).length) else none) →
      maybeDiscrete f.cfg.makeDiscrete (trainData f dat) f.discrete = .ok f0.discrete → TreesTotal R P f0 (trainData f dat)) :
    ∃ f' w', Forest.fit R mem f w dat labels = .ok (f', w') := by
  have hne := hok.data_ne
  obtain ⟨row, rows, hrow⟩ := List.exists_cons_of_ne_nil hne
  have hmax : ∀ mins maxs, (if f.cfg.precompMinmax then some (colMinMax (trainData f dat) ((trainData f dat).getD 0 []).length) else none)
      = some (mins, maxs) → mins.length = ((trainData f dat).getD 0 []).length ∧ maxs.length = ((trainData f dat).getD 0 []).length := by
    intro mins maxs hm
    split_ifs at hm
    cases hm
    simp
  obtain ⟨dd, hdd⟩ := maybeDiscrete_total (A := ⟨f.treeCfg, trainData f dat, [], none, none, 0, none, none⟩) hne f.cfg.makeDiscrete f.discrete
  simp only [] at hdd
  -- the loop, from the forest `fp` whose references are set
  have main : ∀ fp : Forest K G, fp = { f with data := some (trainData f dat), orgRef := some ra, newRef := some rb } →
      ∃ f' w', (match fp.data with
      | none => .error .typeError
      | some [] => .error .indexError
      | some (row :: rows) =>
        match fitTargets fp w with
        | .error e => .error e
        | .ok (f, w) =>
          match maybeDiscrete f.cfg.makeDiscrete (row :: rows) f.discrete with
          | .error e => .error e
          | .ok dd =>
            let f := { f with discrete := dd }
            let f := if f.cfg.precompMinmax then { f with minmax := some (colMinMax (row :: rows) row.length) } else f
            let f := if f.cfg.oobScore then { f with oobList := some [] } else f
            forestLoop R mem (row :: rows) row.length (List.range f.cfg.nEstimators) { f with trees := [] } w) = Except.ok (f', w') := by
    intro fp hfp
    have hlab : trainLabels f w labels = w.arrays.getD ra [] := by unfold trainLabels; rw [ha]
    obtain ⟨f1, w1, ref, e1, e2, e3, e4, e5, e6⟩ : ∃ f1 w1 ref, fitTargets fp w = .ok (f1, w1) ∧
        f1 = { f with data := some (trainData f dat), orgRef := f1.orgRef, newRef := f1.newRef } ∧
        (if f.cfg.boosting then f1.newRef else f1.orgRef) = some ref ∧
        ForestTrainOK f.cfg f.classes (trainData f dat) (w1.arrays.getD ref []) ∧
        (f.cfg.isCls = true → ∀ y ∈ w1.arrays.getD ref [], y ∈ f.classes.map Prod.fst) ∧
        P (w1.arrays.getD ref []) := by
      unfold fitTargets
      rw [hfp]
      by_cases hc : f.cfg.isCls = true
      · simp only [hc, if_true]
        have hbf : f.cfg.boosting = false := by
          cases hbb : f.cfg.boosting with
          | false => rfl
          | true => rw [hbc hbb] at hc; cases hc
        have hget : (w.arrays ++ [(w.arrays.getD ra []).map truncInt, (w.arrays.getD rb []).map truncInt]).getD w.arrays.length []
            = (w.arrays.getD ra []).map truncInt := by
          simp [List.getD_eq_getElem?_getD]
        refine ⟨_, _, w.arrays.length, rfl, rfl, by simp [hbf], ?_, fun _ => ?_, ?_⟩
        · simp only [hget]
          refine { hok with lens := by rw [List.length_map]; exact hok.lens, classes := fun h0 => ⟨(hok.classes h0).1, ?_⟩ }
          intro y hy
          obtain ⟨z, hz, rfl⟩ := List.mem_map.1 hy
          rw [truncInt_idem]
          exact (hok.classes h0).2 z hz
        · simp only [hget]
          intro y hy
          obtain ⟨z, hz, rfl⟩ := List.mem_map.1 hy
          exact (hok.classes hc).2 z hz
        · simp only [hget]
          unfold treeLabels at hPl
          rw [if_pos hc, hlab] at hPl
          exact hPl
      · unfold treeLabels at hPl
        rw [if_neg hc, hlab] at hPl
        simp only [hc]
        by_cases hbb : f.cfg.boosting = true
        · exact ⟨_, _, rb, rfl, rfl, by simp [hbb], hok' hbb, fun h0 => (by cases h0), hP hbb _⟩
        · exact ⟨_, _, ra, rfl, rfl, by simp [hbb], hok, fun h0 => (by cases h0), hPl⟩
    have hfd : fp.data = some (row :: rows) := by rw [hfp, ← hrow]
    rw [hfd]
    simp only []
    rw [e1]
    simp only []
    have hcfg : f1.cfg = f.cfg := by rw [e2]
    have hdis : f1.discrete = f.discrete := by rw [e2]
    rw [hcfg, hdis, ← hrow, hdd]
    simp only []
    let f2 : Forest K G := { f1 with
            trees := [], discrete := dd
            minmax := if f.cfg.precompMinmax then some (colMinMax (trainData f dat) row.length) else none
            oobList := if f.cfg.oobScore then some [] else f.oobList }
    have hl : row.length = ((trainData f dat).getD 0 []).length := by rw [hrow]; rfl
    have hready : StepReady P f2 w1 (trainData f dat) ref := by
      refine ⟨e6, by show f1.cfg.boosting = true → _; rw [hcfg]; exact hP, ?_, ?_, ?_, ?_⟩
      · show ForestTrainOK f1.cfg f1.classes _ _
        rw [e2]
        exact e4
      · show (if f1.cfg.boosting then f1.newRef else f1.orgRef) = some ref
        rw [hcfg]
        exact e3
      · show f1.cfg.isCls = true → ∀ y ∈ _, y ∈ f1.classes.map Prod.fst
        rw [e2]
        exact e5
      · show f1.cfg.boosting = true → f1.cfg.isCls = false
        rw [hcfg]
        exact hbc
    have htt : TreesTotal R P f2 (trainData f dat) := by
      refine ht f2 hcfg (by show f1.classes = _; rw [e2]) ?_ hdd
      show (if f.cfg.precompMinmax then some (colMinMax (trainData f dat) row.length) else none) = _
      rw [hl]
    obtain ⟨f', w', hloop⟩ := forestLoop_total (mem := mem) (is := List.range f.cfg.nEstimators) hready (by
      intro mins maxs hm
      apply hmax mins maxs
      rw [← hm]
      show _ = (if f.cfg.precompMinmax then some (colMinMax (trainData f dat) row.length) else none)
      rw [hl]) htt
    refine ⟨f', w', ?_⟩
    rw [hl, ← hloop]
    have ho : f1.oobList = f.oobList := by rw [e2]
    have hm : f1.minmax = f.minmax := by rw [e2]
    by_cases hp : f.cfg.precompMinmax = true <;> by_cases hq : f.cfg.oobScore = true <;> simp [f2, hp, hq, hcfg, ho, hl]
    all_goals rw [hm, hmm (by simpa using hp)]
  unfold Forest.fit
  cases dat with
  | none =>
    cases labels with
    | some l => exact absurd (hboth.1 rfl) (by simp)
    | none =>
      refine main f ?_
      rcases Option.eq_none_or_eq_some f.data with h0 | ⟨d, h0⟩
      · exact absurd rfl (hd h0)
      · have h1 : some (trainData f none) = f.data := by unfold trainData; rw [h0]; rfl
        simp only [Option.none_or] at ha hb
        rw [h1, ← ha, ← hb]
  | some d =>
    cases labels with
    | none => exact absurd (hboth.2 rfl) (by simp)
    | some l =>
      simp only [Option.some_or, Option.some.injEq] at ha hb
      refine main { f with data := some d, orgRef := some l, newRef := some l } ?_
      subst ha
      subst hb
      rfl

end FF
