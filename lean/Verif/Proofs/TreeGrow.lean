import Verif.Proofs.TreeFacts
import Verif.Proofs.MabRun

/-!
# Splits, queries and budget of a growing tree
-/

namespace FF

open Spec

set_option linter.unusedSectionVars false

variable {K : Type} [Field K] [LinearOrder K] [IsStrictOrderedRing K] [FloorRing K] [NpFun K] {G : Type}

theorem XF.mul_pos_neg {a : XF K} {p : K} (h : a.lt (.fin 0) = true) (hp : 0 < p) : (a.mul (.fin p)).lt (.fin 0) = true := by
  cases a with
  | nan => cases h
  | pinf => cases h
  | ninf =>
    simp only [XF.mul, XF.signInf]
    have h1 : ¬ (0 : K) < -p := by linarith
    have h2 : -p < 0 := by linarith
    have h3 : -p ≠ 0 := by linarith
    simp [h1, h2, h3, XF.lt, hp, hp.ne']
  | fin x =>
    simp only [XF.mul, XF.lt, decide_eq_true_eq] at h ⊢
    exact mul_neg_of_neg_of_pos h hp

theorem XF.lt_pinf_of_neg {a : XF K} (h : a.lt (.fin 0) = true) : a.lt .pinf = true := by
  cases a <;> first | rfl | cases h

/-- A split reported by a solver has a negative reduction. -/
theorem nodeSolve_neg {R : Rng K G} {g g' : G} {glob glob' : Glob G} {junk : Junk K} {cfg : TreeCfg K} {nd : Node K}
    {data : List (List K)} {labels : List K} {budget : Option Int} {s : SplitRes K} {q : Nat}
    (h : nodeSolve R g glob junk cfg nd data labels budget = .ok (some s, q, g', glob')) : s.red.lt (.fin 0) = true := by
  unfold nodeSolve at h
  split at h
  · split at h
    · cases h
    · rename_i out hout
      obtain ⟨_, _, _, _, _, _, _, _, _, _, _, hfin⟩ := solveMab_parts hout
      obtain ⟨arm, arms, _, _, hf, _⟩ := mabFinish_ok hfin
      simp only [Except.ok.injEq, Prod.mk.injEq] at h
      rw [h.1] at hf
      obtain ⟨_, h2, h3, _⟩ := finishSplit_some hf
      rw [h2]
      exact h3
  · split at h
    · cases h
    · rename_i r q' np hr
      simp only [Except.ok.injEq, Prod.mk.injEq] at h
      rw [h.1] at hr
      unfold solveExactly at hr
      split at hr
      · cases hr
      simp only [] at hr
      split at hr
      · cases hr
      split at hr
      · cases hr
      split at hr
      · cases hr
      split_ifs at hr
      all_goals
        split at hr
        · cases hr
        split at hr
        · cases hr
        split at hr
        · cases hr
        · cases hr
        split at hr
        · cases hr
        rename_i hf
        simp only [Except.ok.injEq, Prod.mk.injEq] at hr
        rw [hr.1] at hf
        obtain ⟨_, h2, h3, _⟩ := finishSplit_some hf
        rw [h2]
        exact h3
  · cases h

/-- The rows of a node are among the rows of the root, in the same order. -/
theorem TShape.rows_sublist {data : List (List K)} {rows : List Nat} {t : Tree K G} (h : TShape data rows t) :
    ∀ (n id : Nat) (nd : Node K), id ≤ n → t.nodes[id]? = some nd → nd.idcs.Sublist rows := by
  intro n
  induction n with
  | zero =>
    intro id nd hid hn
    obtain ⟨nd', h1, h2, _⟩ := h.root
    have : id = 0 := by omega
    subst this
    rw [hn] at h1
    cases h1
    rw [h2]
  | succ n ih =>
    intro id nd hid hn
    rcases Nat.eq_zero_or_pos id with h0 | h0
    · exact ih id nd (by omega) hn
    · obtain ⟨p, np, h1, h2, h3⟩ := h.parents id h0 (nodeAt_lt hn)
      refine List.Sublist.trans ?_ (ih p np (by omega) h2)
      rcases h.links p np h2 with ⟨a1, a2⟩ | ⟨l, r, nl, nr, a1, a2, _, _, _, a6, a7, a8⟩
      · rw [a1, a2] at h3
        rcases h3 with h3 | h3 <;> cases h3
      · obtain ⟨f, _, _, f3, f4⟩ := a8.feat
        rw [a1, a2] at h3
        rcases h3 with h3 | h3
        · cases h3
          rw [hn] at a6
          cases a6
          rw [f3]
          exact List.filter_sublist
        · cases h3
          rw [hn] at a7
          cases a7
          rw [f4]
          exact List.filter_sublist

section
variable {R : Rng K G} {mem : Nat → Junk K} {A : TreeArgs K} {t : Tree K G} {dd : DiscDict K} {t0 : Tree K G}

theorem GrowFacts.rows_sublist (h : GrowFacts R mem A dd t0 t) {id : Nat} {nd : Node K} (hn : NodeAt t id nd) :
    nd.idcs.Sublist A.rows := h.shape.rows_sublist id id nd (le_refl _) hn

/-- The proportion of a node that holds a row is positive. -/
theorem GrowFacts.prop_pos (h : GrowFacts R mem A dd t0 t) {id : Nat} {nd : Node K} (hn : NodeAt t id nd) (hne : nd.idcs ≠ []) :
    0 < nd.proportion := by
  have hs := h.rows_sublist hn
  have h1 : 0 < nd.idcs.length := List.length_pos_iff.2 hne
  have h2 : 0 < A.rows.length := lt_of_lt_of_le h1 hs.length_le
  rw [(h.nodes _ _ hn).prop_eq (by omega)]
  positivity

theorem CanSplit.rows_ne {cfg : TreeCfg K} {labels : List K} {nd : Node K} (h : CanSplit cfg labels nd) : nd.idcs ≠ [] := by
  intro h0
  have := h.size
  rw [h0] at this
  simp at this

theorem nodeSolve_cfg {g : G} {glob : Glob G} {junk : Junk K} {cfg cfg' : TreeCfg K} {nd : Node K}
    {data : List (List K)} {labels : List K} {budget : Option Int} {b : Bool} (h : cfg = { cfg' with makeDiscrete := b }) :
    nodeSolve R g glob junk cfg nd data labels budget = nodeSolve R g glob junk cfg' nd data labels budget := by
  subst h
  rfl

/-- A node that was solved has recorded the answer of the solver. -/
theorem GrowFacts.says (h : GrowFacts R mem A dd t0 t) {id : Nat} {nd : Node K} (hn : NodeAt t id nd) (hc : nd.computed = true) :
    ∃ r, SolverSays R A nd r nd.numQueries ∧ Recorded nd r ∧ ∀ s, r = some s → s.red.lt (.fin 0) = true := by
  obtain ⟨g, glob, junk, budget, r, g', glob', h1, h2, _⟩ := ((h.nodes _ _ hn).solved hc).run
  refine ⟨r, ⟨g, glob, junk, budget, g', glob', ?_⟩, h2, ?_⟩
  · rw [← h1]
    exact (nodeSolve_cfg h.cfg_eq).symm
  · rintro s rfl
    exact nodeSolve_neg h1

/-- A recorded reduction is negative. -/
theorem GrowFacts.red_neg (h : GrowFacts R mem A dd t0 t) {id : Nat} {nd : Node K} (hn : NodeAt t id nd) {red : XF K}
    (hr : nd.splitReduction = some red) : nd.computed = true ∧ red.lt (.fin 0) = true := by
  have hok := h.nodes _ _ hn
  have hc : nd.computed = true := by
    by_contra hcon
    have := (hok.fresh ((Bool.not_eq_true _).mp hcon)).2.1
    rw [hr] at this
    cases this
  refine ⟨hc, ?_⟩
  obtain ⟨r, _, h2, h3⟩ := h.says hn hc
  cases r with
  | none => rw [h2.1] at hr; cases hr
  | some s =>
    rw [h2.1] at hr
    cases hr
    exact XF.mul_pos_neg (h3 s rfl) (h.prop_pos hn (hok.solved hc).can.rows_ne)

/-! ### The assertion of `Node.split` -/

theorem countsLoop_err {d : ClassDict K} {labels us : List K} {c : List Nat} {e : Err}
    (h : countsLoop d labels us c = .error e) (m : String) : e ≠ .assertion m := by
  induction us generalizing c with
  | nil => cases h
  | cons u us ih =>
    unfold countsLoop at h
    split at h
    · cases h
      exact fun hh => by cases hh
    · split_ifs at h
      all_goals first
        | exact ih h
        | (cases h; exact fun hh => by cases hh)

theorem Node_init_err {g : G} {cfg : TreeCfg K} {tdata : List (List K)} {tlabels : List K} {tfeats : List Nat}
    {tdisc : DiscDict K} {idcs : List Nat} {depth : Nat} {proportion : K} {numBins : Option Nat} {e : Err}
    (h : Node.init R g cfg tdata tlabels tfeats tdisc idcs depth proportion numBins = .error e) (m : String) :
    e ≠ .assertion m := by
  unfold Node.init at h
  split at h
  · rename_i hf
    cases h
    unfold chooseFeatures at hf
    split at hf
    · rename_i hc
      cases hf
      unfold featCount at hc
      split at hc
      · cases hc
      · cases hc
      · cases hc
      · split_ifs at hc
        cases hc
        exact fun hh => by cases hh
    · cases hf
    · unfold rngChoice at hf
      split_ifs at hf
      cases hf
      exact fun hh => by cases hh
  split at h
  · rename_i hf
    cases h
    unfold getSubset2d at hf
    split_ifs at hf
    cases hf
    exact fun hh => by cases hh
  split at h
  · rename_i hf
    cases h
    unfold takeE at hf
    split_ifs at hf
    cases hf
    exact fun hh => by cases hh
  split at h
  · rename_i hf
    cases h
    unfold nodeMinmax at hf
    split at hf
    · cases hf
    · split at hf
      · cases hf
      · cases hf
        exact fun hh => by cases hh
  split at h
  · rename_i hf
    cases h
    split_ifs at hf
    exact countsLoop_err hf m
  · cases h

/-- Splitting a leaf whose recorded reduction is negative does not fail an assertion. -/
theorem performSplit_no_assert {s : Scan K G} {pos id : Nat} {red : XF K} (hsim : SimInv s.t)
    (hbest : BestOK s.t.cfg s.t.leaves s.t.nodes (pos, id, red)) (hneg : red.lt (.fin 0) = true) (m : String) :
    performSplit R mem s pos id ≠ .error (.assertion m) := by
  obtain ⟨hpos, nd, hnd, hc, hcomp, hsp, hred⟩ := hbest
  simp only [] at hpos hnd hred
  obtain ⟨nd', hnd', hok⟩ := hsim.leaf id (List.mem_of_getElem? hpos)
  rw [hnd] at hnd'
  obtain rfl := Option.some.inj hnd'
  intro hs
  unfold performSplit splitNode at hs
  rw [hnd] at hs
  simp only [hok.split_eq, Bool.false_eq_true, if_false] at hs
  rw [if_neg (hok.comp_feat red hred).2] at hs
  simp only [] at hs
  split at hs
  swap
  · cases hs
  rename_i e hsplit
  cases hs
  split at hsplit
  swap
  · cases hsplit
  rename_i e hcore
  cases hsplit
  unfold splitNodeCore at hcore
  rw [hred] at hcore
  simp only [hneg, Bool.not_true, Bool.false_eq_true, if_false] at hcore
  split at hcore
  swap
  · cases hcore
  split at hcore
  · rename_i hcol
    cases hcore
    unfold colE at hcol
    split_ifs at hcol
    cases hcol
  split_ifs at hcore
  · cases hcore
  split at hcore
  · rename_i hch
    cases hcore
    exact Node_init_err hch m rfl
  split at hcore
  · rename_i hch
    cases hcore
    exact Node_init_err hch m rfl
  · cases hcore

/-! ### Queries -/

theorem sum_map_set {α : Type} (l : List α) (f : α → Nat) (i : Nat) (x y : α) (h : l[i]? = some y) :
    ((l.set i x).map f).sum + f y = (l.map f).sum + f x := by
  induction l generalizing i with
  | nil => simp at h
  | cons a as ih =>
    cases i with
    | zero =>
      simp only [List.getElem?_cons_zero, Option.some.injEq] at h
      subst h
      simp only [List.set_cons_zero, List.map_cons, List.sum_cons]
      omega
    | succ i =>
      have := ih i (by simpa using h)
      simp only [List.set_cons_succ, List.map_cons, List.sum_cons]
      omega

/-- The queries of the tree are those of its nodes. -/
theorem TSteps.queries (h0 : Start R A dd t0) (h : TSteps R mem t0 t) : t.numQueries = (t.nodes.map Node.numQueries).sum := by
  induction h with
  | refl =>
    obtain ⟨nd, h1, h2⟩ := h0.root
    rw [h0.numQueries, h1]
    simp [h2.q_eq]
  | step hprev hs ih =>
    have hok := hprev.nodesOK h0
    cases hs with
    | mark hl hn hc =>
      rename_i t1 id leaf
      have := sum_map_set _ Node.numQueries _ { leaf with isSplittable := some false } _ hn
      simp only [] at this ⊢
      omega
    | solve hl hn hc hb hcomp hsp hnb hd hls hs =>
      rename_i t1 id leaf glob glob' nb data labels r q g'
      have h1 := ((hok _ _ hn).fresh hcomp).2.2.1
      have := sum_map_set _ Node.numQueries _ { nodeRecord { leaf with numBins := nb } r q with
          isSplittable := some (splittableImpurity t1.cfg t1.nData (nodeRecord { leaf with numBins := nb } r q)) } _ hn
      have h2 : (nodeRecord { leaf with numBins := nb } r q).numQueries = q := by
        cases r <;> rfl
      simp only [h2] at this ⊢
      omega
    | split hl hn hc hcomp hsp hred hneg himp hd hls hcol hne1 hne2 hcl hcr =>
      rename_i t1 pos id leaf l r red data labels col g1 g2
      have := sum_map_set _ Node.numQueries _ { leaf with
          left := some t1.nodes.length, right := some (t1.nodes.length + 1)
          cacheCls := none, cacheReg := none, alreadySplit := true, data := none, labels := none } _ hn
      have h1 := (Node_init_fresh hcl).q_eq
      have h2 := (Node_init_fresh hcr).q_eq
      simp only [List.map_append, List.sum_append, List.map_cons, List.map_nil, List.sum_cons, List.sum_nil, h1, h2] at this ⊢
      omega
    | depth hd => exact ih

/-- Without a positive budget nothing is searched. -/
theorem TSteps.no_budget (h0 : Start R A dd t0) (h : TSteps R mem t0 t) {b : Int} (hA : A.budget = some b) (hb : b ≤ 0) :
    t.numQueries = 0 ∧ t.numSplits = 0 ∧ t.leaves = [0] ∧ ∃ nd, t.nodes = [nd] ∧ nd.computed = false := by
  induction h with
  | refl =>
    obtain ⟨nd, h1, h2⟩ := h0.root
    exact ⟨h0.numQueries, h0.numSplits, h0.leaves, nd, h1, h2.comp_eq⟩
  | step hprev hs ih =>
    obtain ⟨i1, i2, i3, nd, i4, i5⟩ := ih
    have hnd : ∀ {j : Nat} {x : Node K} {l : List (Node K)}, l = [nd] → l[j]? = some x → j = 0 ∧ x = nd := by
      intro j x l hl hj
      rw [hl] at hj
      match j, hj with
      | 0, hj => exact ⟨rfl, by simpa using hj.symm⟩
      | k + 1, hj => simp at hj
    cases hs with
    | mark hl hn hc =>
      rename_i t1 id leaf
      obtain ⟨rfl, hleaf⟩ := hnd i4 hn
      subst hleaf
      refine ⟨i1, i2, i3, { leaf with isSplittable := some false }, ?_, i5⟩
      simp only []
      rw [i4]
      rfl
    | solve hl hn hc hb' hcomp hsp hnb hd hls hs =>
      have := hprev.remaining.2
      rw [h0.remaining, hA] at this
      have h1 := hb' _ this
      rw [i1, h0.numQueries] at h1
      simp at h1
      omega
    | split hl hn hc hcomp hsp hred hneg himp hd hls hcol hne1 hne2 hcl hcr =>
      obtain ⟨rfl, rfl⟩ := hnd i4 hn
      rw [i5] at hcomp
      cases hcomp
    | depth hd => exact ⟨i1, i2, i3, nd, i4, i5⟩

/-! ### Binning -/

theorem mem_of_lookup {α β : Type} [BEq α] {l : List (α × β)} {a : α} {b : β} (h : l.lookup a = some b) : ∃ a', (a', b) ∈ l := by
  induction l with
  | nil => cases h
  | cons p ps ih =>
    obtain ⟨x, y⟩ := p
    rw [List.lookup_cons] at h
    split at h
    · cases h
      exact ⟨x, List.mem_cons_self⟩
    · obtain ⟨a', ha⟩ := ih h
      exact ⟨a', List.mem_cons_of_mem _ ha⟩

theorem dataToDiscrete_set {data : List (List K)} {n : Nat} {d : List (Nat × DiscVals K)} (h : dataToDiscrete data n = .ok d)
    {f : Nat} {u : DiscVals K} (hu : discLookup (some d) f = some u) : u.isSet = true := by
  unfold discLookup at hu
  simp only [] at hu
  split at hu
  · cases hu
  · rename_i v hv
    split_ifs at hu
    cases hu
    obtain ⟨a, ha⟩ := mem_of_lookup hv
    unfold dataToDiscrete at h
    split at h
    · cases h
    · cases h
      obtain ⟨j, _, hj⟩ := List.mem_filterMap.1 ha
      rw [Option.map_eq_some_iff] at hj
      obtain ⟨_, _, hj⟩ := hj
      cases hj
      rfl

theorem nodeMinmax_le {mm mm' : Option (List K × List K)} {feats : List Nat} (h : nodeMinmax mm feats = .ok mm')
    (hle : ∀ mins maxs, mm = some (mins, maxs) → ∀ (f : Nat) (lo hi : K), mins[f]? = some lo → maxs[f]? = some hi → lo ≤ hi) :
    ∀ mins maxs, mm' = some (mins, maxs) → ∀ (f : Nat) (lo hi : K), mins[f]? = some lo → maxs[f]? = some hi → lo ≤ hi := by
  intro mins maxs hm f lo hi hlo hhi
  unfold nodeMinmax at h
  split at h
  · cases h
    cases hm
  · rename_i mins0 maxs0
    split at h
    · rename_i a b ha hb
      cases h
      cases hm
      obtain ⟨a1, a2⟩ := takeE_ok ha
      obtain ⟨b1, b2⟩ := takeE_ok hb
      rw [a1, List.getElem?_map, Option.map_eq_some_iff] at hlo
      rw [b1, List.getElem?_map, Option.map_eq_some_iff] at hhi
      obtain ⟨j, hj, rfl⟩ := hlo
      obtain ⟨j', hj', rfl⟩ := hhi
      rw [hj] at hj'
      cases hj'
      have hm := List.mem_of_getElem? hj
      refine hle _ _ rfl j _ _ ?_ ?_
      · rw [List.getElem?_eq_getElem (a2 j hm), List.getD_eq_getElem _ _ (a2 j hm)]
      · rw [List.getElem?_eq_getElem (b2 j hm), List.getD_eq_getElem _ _ (b2 j hm)]
    · cases h

/-- A solved node of a tree with well-formed arguments is binned well. -/
theorem GrowFacts.binning_of (h : GrowFacts R mem A dd t0 t) (hA : ArgsOK A) {id : Nat} {nd : Node K} (hn : NodeAt t id nd)
    (hcan : CanSplit t.cfg A.labels nd) {nb : Option Nat} (hnb : nodeBins t.cfg nd = .ok nb) (B : Nat)
    (hB : A.cfg.binType = some .identity ∨ nb = some B) :
    BinningOK nd.minmax nd.discrete A.cfg.binType B := by
  have hok := h.nodes _ _ hn
  have hcfg := h.cfg_eq
  have hdisc : ∀ f u, discLookup nd.discrete f = some u → u.isSet = false → discLookup A.disc f = some u := by
    intro f u hu hs
    rcases hok.disc_eq with hd | hd
    · rw [← hd]; exact hu
    · have := h.disc
      unfold maybeDiscrete at this
      split_ifs at this
      · split at this
        · cases this
        · rename_i dd' hdd
          cases this
          rw [hd] at hu
          have := dataToDiscrete_set hdd hu
          rw [hs] at this
          cases this
      · cases this
        rw [← hd]; exact hu
  have hbins : A.cfg.binType ≠ some .identity → (A.cfg.useLog = false → A.cfg.numBins ≠ some 1) → B ≠ 1 := by
    intro hid hne hB1
    subst hB1
    rcases hB with hB | hB
    · exact hid hB
    · cases hu : A.cfg.useLog with
      | false =>
        have h1 := hok.bins_eq (by rw [hcfg]; exact hu)
        unfold nodeBins at hnb
        rw [if_neg (by rw [hcfg]; simp [hu]), h1, hB, hcfg] at hnb
        exact hne hu (Except.ok.inj hnb)
      | true =>
        have h1 := hnb
        unfold nodeBins at h1
        rw [if_pos (by rw [hcfg]; exact hu), hB] at h1
        split_ifs at h1 with h0
        simp only [Except.ok.injEq, Option.some.injEq] at h1
        have h2 : Nat.log2 nd.nData = 0 := by omega
        have h3 := hcan.labels
        have h4 : (labelsOf A.labels nd.idcs).dedup.length ≤ nd.nData := by
          rw [hok.nData_eq]
          refine le_trans (List.dedup_sublist _).length_le ?_
          simp [labelsOf]
        have h5 := (Nat.log2_lt h0 (n := nd.nData) (k := 1)).1 (by omega)
        omega
  refine ⟨?_, ?_, ?_, ?_⟩
  · refine nodeMinmax_le hok.minmax_eq ?_
    rw [hcfg]
    exact hA.minmax_le
  · intro f u hu hs
    exact hA.sorted f u (hdisc f u hu hs) hs
  · intro hl
    exact hbins (by rw [hl]; simp) (hA.linear_bins hl)
  · intro hl
    exact ⟨hbins (by rw [hl]; simp) (hA.auto_bins hl).1, fun f u hu hs => (hA.auto_bins hl).2 f u (hdisc f u hu hs) hs⟩

theorem GrowFacts.binning (h : GrowFacts R mem A dd t0 t) (hA : ArgsOK A) {id : Nat} {nd : Node K} (hn : NodeAt t id nd)
    (hc : nd.computed = true) (B : Nat) (hB : A.cfg.binType = some .identity ∨ nd.numBins = some B) :
    BinningOK nd.minmax nd.discrete A.cfg.binType B :=
  h.binning_of hA hn ((h.nodes _ _ hn).solved hc).can ((h.nodes _ _ hn).solved hc).bins B hB

end

end FF
