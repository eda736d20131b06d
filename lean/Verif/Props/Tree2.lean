import Verif.Proofs.TreeBudget
import Verif.Proofs.TreeSum
import Verif.Props.Tree
import Verif.Props.Exact

/-!
# Properties C34, C39–C42: the splits of a tree, when it stops, and what it spends
-/

namespace FF

open Spec

set_option linter.unusedSectionVars false

variable {K : Type} [Field K] [LinearOrder K] [IsStrictOrderedRing K] [FloorRing K] [NpFun K] {G : Type}
variable (R : Rng K G) (mem : Nat → Junk K) (A : TreeArgs K)

/-- Construct a tree and make `n` passes of the loop of `fit`. -/
def runHead (R : Rng K G) (mem : Nat → Junk K) (A : TreeArgs K) (glob : Glob G) (n : Nat) : Except Err (Tree K G × Glob G) := do
  let (t0, _) ← Tree.init R A.cfg A.data A.labels A.disc A.budget A.seed A.idcs A.feats
  let dd ← maybeDiscrete t0.cfg.makeDiscrete t0.data t0.discrete
  let rec go : Nat → Tree K G → Glob G → Except Err (Tree K G × Glob G)
    | 0, t, glob => .ok (t, glob)
    | n + 1, t, glob =>
      match fitStep R mem t glob with
      | .ok (true, t', glob') => go n t' glob'
      | .ok (false, _, _) => .error .stopIteration
      | .error e => .error e
  go n { t0 with discrete := dd, leaves := t0.leaves ++ [0] } glob

theorem runHead_go {R : Rng K G} {mem : Nat → Junk K} {t0 : Tree K G} {glob0 : Glob G} (n : Nat) {t t' : Tree K G}
    {glob glob' : Glob G} (h : FitHead R mem t0 glob0 t glob) (hr : runHead.go R mem n t glob = .ok (t', glob')) :
    FitHead R mem t0 glob0 t' glob' := by
  induction n generalizing t glob with
  | zero => cases hr; exact h
  | succ n ih =>
    unfold runHead.go at hr
    split at hr
    · rename_i hs
      exact ih (.step h hs) hr
    · cases hr
    · cases hr

theorem runHead_growing {R : Rng K G} {mem : Nat → Junk K} {A : TreeArgs K} {glob glob' : Glob G} {n : Nat} {t : Tree K G}
    (h : runHead R mem A glob n = .ok (t, glob')) : Growing R mem A t glob' := by
  unfold runHead at h
  cases h1 : Tree.init R A.cfg A.data A.labels A.disc A.budget A.seed A.idcs A.feats with
  | error e => rw [h1] at h; cases h
  | ok p =>
    obtain ⟨t0, g0⟩ := p
    rw [h1] at h
    simp only [Bind.bind, Except.bind] at h
    cases h2 : maybeDiscrete t0.cfg.makeDiscrete t0.data t0.discrete with
    | error e => rw [h2] at h; cases h
    | ok dd =>
      rw [h2] at h
      exact ⟨t0, glob, dd, ⟨g0, h1⟩, h2, runHead_go n .init h⟩

/-! ### C34 -/

/-- C34. Every node that was split has recorded a reduction that is negative and below `min_impurity_decrease`. -/
theorem C34_improving (t : Tree K G) (h : Fitted R mem A t) (id : Nat) (nd : Node K) (hn : NodeAt t id nd) (hs : nd.left ≠ none) :
    ∃ red, nd.splitReduction = some red ∧ red.lt (.fin 0) = true ∧ red.lt (.fin A.cfg.minImpDec) = true := by
  obtain ⟨dd, t0, hf⟩ := h.facts
  obtain ⟨_, _, _, red, h1, h2, h3⟩ := (hf.nodes _ _ hn).split hs
  rw [hf.cfg_eq] at h3
  exact ⟨red, h1, h2, h3⟩

/-- C34, the assertion: in every pass of the loop, the leaf chosen by the scan has a negative reduction, so that splitting it does not
fail the assertion in `Node.split` (or any other). -/
theorem C34_assertion (t : Tree K G) (glob : Glob G) (h : Growing R mem A t glob) (s : Scan K G)
    (hs : scanLeaves R mem 0 t.leaves { t := t, glob := glob, best := none } = .ok s) (pos id : Nat) (red : XF K)
    (hb : s.best = some (pos, id, red)) :
    red.lt (.fin 0) = true ∧ ∀ msg, performSplit R mem s pos id ≠ .error (.assertion msg) := by
  obtain ⟨dd, t0, hf⟩ := h.facts
  obtain ⟨k, _, hsc, _⟩ := scan_full h.sim hs
  have hf' := hf.next (scan_steps h.sim hs)
  have hbest := hsc.ok.best _ hb
  obtain ⟨nd, hnd, _, _, _, hred⟩ := hbest.node
  have hneg := (hf'.red_neg hnd hred).2
  exact ⟨hneg, fun msg => performSplit_no_assert hf'.sim hbest hneg msg⟩

example : ∃ t, Fitted rngQ exMem exArgs t ∧
    (t.nodes.map (fun nd => nd.splitReduction) == [some (.fin (-1 / 4)), none, some (.fin (-1 / 12)), none, some (.fin (-1 / 6)), none, none])
      = true :=
  runTree_exists (glob := exGlob) (by decide +kernel)

/-! ### C39 -/

/-- C39. A pass of the loop of `fit` that splits, splits a leaf `id` (at position `pos` of `leaves`) and replaces it by its children.
The pass has considered the first `k` leaves, which are all of them unless the budget is used up. Each considered leaf within the
limits has been searched, none of those that pass the `min_impurity_decrease` test has a smaller reduction than the chosen one, and
those listed before it have a larger one. -/
theorem C39_best_first (t t' : Tree K G) (glob glob' : Glob G) (h : Growing R mem A t glob)
    (hs : fitStep R mem t glob = .ok (true, t', glob')) :
    ∃ k pos id nd l r red, k ≤ t.leaves.length ∧ pos < k ∧ t.leaves[pos]? = some id ∧ NodeAt t' id nd ∧ nd.left = some l ∧
      nd.right = some r ∧ t'.leaves = t.leaves.eraseIdx pos ++ [l, r] ∧ nd.splitReduction = some red ∧
      (k = t.leaves.length ∨ ∃ b, t'.remaining = some b ∧ b ≤ 0) ∧
      ∀ pos' < k, ∀ id' nd', t.leaves[pos']? = some id' → NodeAt t' id' nd' → CanSplit A.cfg A.labels nd' →
        nd'.computed = true ∧ ∀ red', nd'.splitReduction = some red' → EnoughDecrease A.cfg A.labels.length nd' red' →
          red'.lt red = false ∧ (pos' < pos → red.lt red' = true) := by
  obtain ⟨dd, t0, hf⟩ := h.facts
  have hf2 := hf.next (fitStep_sim h.sim hs)
  obtain ⟨s, pos, id, red, t1, d, _, hscan, hbest, himp, hperf, _, rfl⟩ := fitStep_true hs
  obtain ⟨k, hk, hsc, hkb⟩ := scan_full h.sim hscan
  have hf1 := hf.next (scan_steps h.sim hscan)
  obtain ⟨nd, data, labels, col, l, r, g1, g2, hpos, hnd, hc, hcomp, hsp, hred, hneg, hd, hl, hcol, hne1, hne2, hcl, hcr, _, rfl⟩ :=
    performSplit_parts hf1.sim (hsc.ok.best _ hbest) hperf
  rw [hsc.ok.leaves] at hpos
  have hlt := (List.getElem?_eq_some_iff.1 hnd).1
  have hget : ∀ nd', (s.t.nodes.set id nd' ++ [l, r])[id]? = some nd' := by
    intro nd'
    rw [List.getElem?_append_left (by rw [List.length_set]; exact hlt)]
    exact getElem?_set_eq hnd
  refine ⟨k, pos, id, _, s.t.nodes.length, s.t.nodes.length + 1, red, hk, hsc.bestPos _ hbest, hpos, hget _, rfl, rfl,
    by rw [← hsc.ok.leaves], hred, ?_, ?_⟩
  · rcases hkb with hkb | hkb
    · exact Or.inl hkb
    · right
      unfold noBudget at hkb
      split at hkb
      · cases hkb
      · rename_i b hb
        exact ⟨b, hb, by simpa using hkb⟩
  · intro pos' hpos' id' nd' hid' hn' hcan
    by_cases hii : id' = id
    · subst hii
      have : pos' = pos := by
        have hnd := hf.sim.nodup
        obtain ⟨a1, a2⟩ := List.getElem?_eq_some_iff.1 hid'
        obtain ⟨b1, b2⟩ := List.getElem?_eq_some_iff.1 hpos
        exact (List.Nodup.getElem_inj_iff hnd).1 (a2.trans b2.symm)
      subst this
      have := hn'.symm.trans (hget _)
      cases this
      refine ⟨hcomp, fun red' hred' _ => ?_⟩
      simp only [] at hred'
      rw [hred] at hred'
      cases hred'
      exact ⟨XF.lt_irrefl _, fun h => absurd h (by omega)⟩
    · have hmem : id' ∈ s.t.leaves := by rw [hsc.ok.leaves]; exact List.mem_of_getElem? hid'
      obtain ⟨nd1, hnd1, hleaf⟩ := hf1.sim.leaf id' hmem
      have hlt' := (List.getElem?_eq_some_iff.1 hnd1).1
      have hsame : nd' = nd1 := by
        have h1 : (s.t.nodes.set id { nd with
          left := some s.t.nodes.length, right := some (s.t.nodes.length + 1)
          cacheCls := none, cacheReg := none, alreadySplit := true, data := none, labels := none } ++ [l, r])[id']? = some nd1 := by
          rw [List.getElem?_append_left (by rw [List.length_set]; exact hlt'), List.getElem?_set_ne (Ne.symm hii)]
          exact hnd1
        have h2 := hn'.symm.trans h1
        exact Option.some.inj h2
      subst hsame
      have hok := hf1.nodes _ _ hnd1
      have hcomp' : nd'.computed = true := by
        obtain ⟨nd2, h1, h2⟩ := hsc.done pos' hpos' id' hid'
        rw [hnd1] at h1
        cases h1
        rcases h2 with h2 | ⟨_, h2⟩
        · have := constraints_false hok.nData_eq (hok.open_labels hleaf.left_eq) h2
          exact absurd (hf1.canSplit_iff.2 hcan) this
        · exact h2
      have hcon : splittableConstraints s.t.cfg nd' = .ok true := by
        obtain ⟨nd2, h1, h2⟩ := hsc.done pos' hpos' id' hid'
        rw [hnd1] at h1
        cases h1
        rcases h2 with h2 | ⟨h2, _⟩
        · have := constraints_false hok.nData_eq (hok.open_labels hleaf.left_eq) h2
          exact absurd (hf1.canSplit_iff.2 hcan) this
        · exact h2
      refine ⟨hcomp', fun red' hred' hen => ?_⟩
      have hsplit : nd'.isSplittable = some true := by
        rw [(hok.solved hcomp').splittable]
        unfold splittableImpurity
        rw [hred', hok.nData_eq, hf1.cfg_eq]
        exact congrArg some hen.1
      obtain ⟨b, hb, hb1, hb2⟩ := hsc.bestMin pos' hpos' id' nd' red' hid' hnd1 hcon hsplit hred'
        (XF.lt_pinf_of_neg (hf1.red_neg hnd1 hred').2)
      rw [hbest] at hb
      cases hb
      exact ⟨hb1, hb2⟩

/-- A state reached after two splits, in which the next pass splits node 1 and leaves nodes 3 and 4 as they are. -/
example : (((runHead rngQ exMem exArgsReg exGlob 2).toOption.bind (fun p => (fitStep rngQ exMem p.1 p.2).toOption.map (fun q => (p.1, q)))).any
    (fun r => r.2.1 && r.1.leaves == [1, 3, 4] && r.2.2.1.leaves == [3, 4, 5, 6])) = true := by decide +kernel

/-! ### C40 -/

/-- What is known about a leaf when `fit` ends. -/
theorem leaf_done {t : Tree K G} (h : Fitted R mem A t) (hb : A.budget = none)
    (hm : A.cfg.maxLeafNodes ≠ some t.leaves.length) (id : Nat) (hid : IsLeaf t id) (nd : Node K) (hn : NodeAt t id nd) :
    ¬ CanSplit A.cfg A.labels nd ∨ nd.computed = true ∧ ∃ r q, SolverSays R A nd r q ∧ Recorded nd r ∧ ∀ s, r = some s →
      ¬ EnoughDecrease A.cfg A.labels.length nd (s.red.mul (.fin ((nd.idcs.length : K) / (A.rows.length : K)))) := by
  obtain ⟨dd, t0, hf⟩ := h.facts
  obtain ⟨t1, glob1, glob', hg, hs⟩ := h.growing
  obtain ⟨dd1, t01, hf0⟩ := hg.facts
  rcases fitStep_false hs with ⟨h1, rfl, _⟩ | ⟨s, d, _, hscan, hno, _, rfl, _⟩
  · exfalso
    unfold leafLimit at h1
    rw [hf.cfg_eq] at h1
    simp only [] at h1
    split at h1
    · cases h1
    · rename_i m hm'
      by_cases hlen : t.leaves.length = m
      · exact hm (by rw [hm', hlen])
      · rw [if_neg hlen] at h1
        split_ifs at h1
        cases h1
  · obtain ⟨k, hk, hsc, hkb⟩ := scan_full hg.sim hscan
    have hf1 := hf0.next (scan_steps hg.sim hscan)
    have hnb : noBudget s.t.remaining = false := by
      have := hf1.steps.remaining.2
      rw [hf1.start.remaining, hb] at this
      rw [this]
      rfl
    have hk' : k = t1.leaves.length := by
      rcases hkb with h | h
      · exact h
      · rw [hnb] at h; cases h
    have hmem : id ∈ s.t.leaves := (hf1.shape.isLeaf id).2 (by
      obtain ⟨a, b⟩ := hid
      exact ⟨(hf1.shape.inTree id).2 ((hf.shape.inTree id).1 a), b⟩)
    rw [hsc.ok.leaves] at hmem
    obtain ⟨pos, hpos, hget⟩ := List.mem_iff_getElem.1 hmem
    have hget' : t1.leaves[pos]? = some id := by rw [List.getElem?_eq_getElem hpos, hget]
    obtain ⟨nd', hnd', hcase⟩ := hsc.done pos (by omega) id hget'
    have : nd' = nd := Option.some.inj (hnd'.symm.trans hn)
    subst this
    have hok := hf1.nodes _ _ hnd'
    obtain ⟨nd2, hnd2, hleaf⟩ := hf1.sim.leaf id (by rw [hsc.ok.leaves]; exact hmem)
    rw [hnd'] at hnd2
    obtain rfl := Option.some.inj hnd2
    rcases hcase with h1 | ⟨h1, h2⟩
    · left
      intro hcan
      exact constraints_false hok.nData_eq (hok.open_labels hleaf.left_eq) h1 (hf1.canSplit_iff.2 hcan)
    · right
      obtain ⟨r, hr1, hr2, hr3⟩ := hf1.says hnd' h2
      refine ⟨h2, r, _, hr1, hr2, ?_⟩
      rintro sr rfl hen
      have hne := (hok.solved h2).can.rows_ne
      have hrows : A.rows.length ≠ 0 := by
        have h3 := (hf1.rows_sublist hnd').length_le
        have h4 := List.length_pos_iff.2 hne
        omega
      have hred := hr2.1
      rw [hok.prop_eq hrows] at hred
      have hsplit : nd'.isSplittable = some true := by
        rw [(hok.solved h2).splittable]
        unfold splittableImpurity
        rw [hred, hok.nData_eq, hf1.cfg_eq]
        exact congrArg some hen.1
      have hneg := (hf1.red_neg hnd' hred).2
      obtain ⟨b, hb', hb1, _⟩ := hsc.bestMin pos (by omega) id nd' _ hget' hnd' h1 hsplit hred (XF.lt_pinf_of_neg hneg)
      obtain ⟨bpos, bid, bred⟩ := b
      have h5 := hno _ _ _ hb'
      obtain ⟨bnd, hbnd, _, _, _, hbred⟩ := (hsc.ok.best _ hb').node
      have hbneg := (hf1.red_neg hbnd hbred).2
      have hnan : bred.isNan = false := by
        simp only [] at hbneg
        cases bred <;> first | rfl | cases hbneg
      have h6 := XF.not_lt_trans hnan hb1 h5
      rw [hf1.cfg_eq] at h6
      rw [hen.2] at h6
      cases h6

/-- C40. If `fit`, without a budget, ends with a number of leaves different from `max_leaf_nodes`, every leaf is beyond the limits
(too deep, too few rows or a single label), or the solver, asked about its rows and features, found no split or one that does not pass
the `min_impurity_decrease` test. -/
theorem C40_fully_grown (t : Tree K G) (h : Fitted R mem A t) (hb : A.budget = none)
    (hm : A.cfg.maxLeafNodes ≠ some t.leaves.length) (id : Nat) (hid : IsLeaf t id) (nd : Node K) (hn : NodeAt t id nd) :
    ¬ CanSplit A.cfg A.labels nd ∨ ∃ r q, SolverSays R A nd r q ∧ ∀ s, r = some s →
      ¬ EnoughDecrease A.cfg A.labels.length nd (s.red.mul (.fin ((nd.idcs.length : K) / (A.rows.length : K)))) := by
  rcases leaf_done R mem A h hb hm id hid nd hn with h1 | ⟨_, r, q, h1, _, h2⟩
  · exact Or.inl h1
  · exact Or.inr ⟨r, q, h1, h2⟩

theorem XF.div_pos_neg {a : XF K} {p : K} (h : a.lt (.fin 0) = true) (hp : 0 < p) : (a.div (.fin p)).lt (.fin 0) = true := by
  cases a with
  | nan => cases h
  | pinf => cases h
  | ninf =>
    simp only [XF.div]
    rw [if_pos hp.le]
    rfl
  | fin x =>
    simp only [XF.div, if_neg hp.ne', XF.lt, decide_eq_true_eq] at h ⊢
    exact div_neg_of_neg_of_pos h hp

/-- C40 for the exact solver with IDENTITY binning and `min_impurity_decrease = 0`: every leaf of the tree is beyond the limits, or no
feature of the leaf and no threshold at all decreases the weighted impurity. -/
theorem C40_exact_identity (t : Tree K G) (h : Fitted R mem A t) (hA : ArgsOK A) (hs : A.cfg.solver = .exact)
    (hbt : A.cfg.binType = some .identity) (hmin : A.cfg.minImpDec = 0) (hb : A.budget = none)
    (hm : A.cfg.maxLeafNodes ≠ some t.leaves.length) (id : Nat) (hid : IsLeaf t id) (nd : Node K) (hn : NodeAt t id nd) :
    ¬ CanSplit A.cfg A.labels nd ∨
      ∀ f ∈ nd.featIdcs, ∀ v, 0 ≤ change (critImp A.cfg.criterion) (rowSamples A nd.idcs f) v := by
  obtain ⟨dd, t0, hf⟩ := h.facts
  rcases leaf_done R mem A h hb hm id hid nd hn with h1 | ⟨hc, r, q, ⟨g, glob, junk, budget, g', glob', hrun⟩, _, h3⟩
  · exact Or.inl h1
  right
  have hok := hf.nodes _ _ hn
  have hne := (hok.solved hc).can.rows_ne
  have hlen := List.length_pos_iff.2 hne
  have hrows : 0 < A.rows.length := lt_of_lt_of_le hlen (hf.rows_sublist hn).length_le
  cases r with
  | some s =>
    exfalso
    apply h3 s rfl
    have h4 := XF.mul_pos_neg (nodeSolve_neg hrun) (p := (nd.idcs.length : K) / (A.rows.length : K)) (by positivity)
    have h5 : (0 : K) < nd.idcs.length := by exact_mod_cast hlen
    have h6 : (0 : K) < A.labels.length := by
      obtain ⟨i, is, hi⟩ := List.exists_cons_of_ne_nil hne
      have := hok.labels_lt i (by rw [hi]; simp)
      exact_mod_cast (by omega : 0 < A.labels.length)
    refine ⟨?_, by rw [hmin]; exact h4⟩
    rw [hmin]
    exact XF.div_pos_neg (XF.mul_pos_neg h4 h5) h6
  | none =>
    unfold nodeSolve at hrun
    rw [hs] at hrun
    simp only [] at hrun
    split at hrun
    · cases hrun
    rename_i r' q' np hex
    simp only [Except.ok.injEq, Prod.mk.injEq] at hrun
    obtain ⟨rfl, _⟩ := hrun
    rw [hbt] at hex
    intro f hff v
    obtain ⟨j, hj, rfl⟩ := List.mem_iff_getElem.1 hff
    obtain ⟨i, is, hi⟩ := List.exists_cons_of_ne_nil hne
    have hsub : subRows A.data nd.idcs nd.featIdcs =
        nd.featIdcs.map (fun j => (A.data.getD i []).getD j 0) :: subRows A.data is nd.featIdcs := by rw [hi]; rfl
    rw [hsub] at hex
    have := C15_no_split_identity R glob.np np junk.est _ _ _ _ _ _ _ _ _ hA.crit
      (fun B => by have := hf.binning hA hn hc B (Or.inl hbt); rw [hbt] at this; exact this) hex j (by simpa using hj) v
    rw [← hsub, nodeSamples_sub hj, List.getD_eq_getElem _ _ hj] at this
    exact this

example : ∃ t, Fitted rngQ exMem exArgs t ∧
    decide (exArgs.budget = none ∧ exArgs.cfg.maxLeafNodes ≠ some t.leaves.length ∧ exArgs.cfg.solver = .exact ∧ exArgs.cfg.minImpDec = 0) = true :=
  runTree_exists (glob := exGlob) (by decide +kernel)

/-- The arguments of the examples are well-formed. -/
theorem exArgs_ok : ArgsOK exArgs := by
  refine ⟨Or.inl rfl, ?_, ?_, ?_, ?_⟩
  · intro mins maxs h
    cases h
  · intro f u h
    cases h
  · intro h
    cases h
  · intro h
    cases h

/-- A leaf within the limits that cannot be split: equal rows with different labels. -/
example : ∃ t, Fitted rngQ exMem { exArgs with data := [[1, 2], [1, 2], [0, 3], [0, 3]], labels := [0, 1, 1, 1] } t ∧
    (t.leaves.map (rowsOf t) == [[2, 3], [0, 1]] && t.nodes.map (fun nd => (nd.computed, nd.depth)) == [(true, 0), (false, 1), (true, 1)]) = true :=
  runTree_exists (glob := exGlob) (by decide +kernel)

/-! ### C43 -/

/-- C43. With the exact solver: every split has recorded a finite negative reduction, which is the difference between the weighted
impurities of the two children and that of the node; and the weighted impurities of all leaves sum to the impurity of the training
rows plus all recorded reductions of splits. -/
theorem C43_telescopes (t : Tree K G) (h : Fitted R mem A t) (hA : ArgsOK A) (hs : A.cfg.solver = .exact) (hr : A.rows ≠ []) :
    (t.leaves.map (weightedImp A t)).sum = critImp A.cfg.criterion (labelsOf A.labels A.rows) + (t.nodes.map splitRed).sum ∧
    ∀ id nd l r, NodeAt t id nd → nd.left = some l → nd.right = some r →
      nd.splitReduction = some (.fin (splitRed nd)) ∧ splitRed nd < 0 ∧
      weightedImp A t l + weightedImp A t r = weightedImp A t id + splitRed nd := by
  obtain ⟨dd, t0, hf⟩ := h.facts
  exact ⟨hf.steps.telescopes hf.start hf.disc hA hs hr, fun id nd l r hn hl hr => hf.split_sum hA hs hn hl hr⟩

/-- Every split lowers the total: a tree that was split has a smaller total impurity than the training rows. -/
theorem C43_lowers (t : Tree K G) (h : Fitted R mem A t) (hA : ArgsOK A) (hs : A.cfg.solver = .exact) (hr : A.rows ≠ [])
    (hn : 0 < t.numSplits) : (t.leaves.map (weightedImp A t)).sum < critImp A.cfg.criterion (labelsOf A.labels A.rows) := by
  obtain ⟨dd, t0, hf⟩ := h.facts
  obtain ⟨h1, h2⟩ := C43_telescopes R mem A t h hA hs hr
  rw [h1]
  have hle : ∀ (nd : Node K), nd ∈ t.nodes → splitRed nd ≤ 0 := by
    intro nd hnd
    obtain ⟨id, hid⟩ := List.mem_iff_getElem?.1 hnd
    rcases hf.shape.links _ _ hid with ⟨h3, _⟩ | ⟨l, r, _, _, h3, h4, _⟩
    · unfold splitRed
      rw [if_pos h3]
    · exact (h2 id nd l r hid h3 h4).2.1.le
  obtain ⟨root, hroot, _⟩ := hf.shape.root
  have hneg : splitRed root < 0 := by
    rcases hf.shape.links _ _ hroot with ⟨h3, _⟩ | ⟨l, r, _, _, h3, h4, _⟩
    · exfalso
      have hlen := hf.shape.numNodes
      obtain ⟨p, nd, hp, hpn, hc⟩ := hf.shape.parents 1 (by omega) (by omega)
      obtain rfl : p = 0 := by omega
      obtain rfl := Option.some.inj (hroot.symm.trans hpn)
      rcases hc with hc | hc
      · rw [h3] at hc; cases hc
      · rw [(hf.nodes _ _ hroot).right_none h3 |>.1] at hc; cases hc
    · exact (h2 0 root l r hroot h3 h4).2.1
  have : (t.nodes.map splitRed).sum < 0 := by
    cases hns : t.nodes with
    | nil => rw [hns] at hroot; cases hroot
    | cons a as =>
      rw [hns] at hroot hle
      simp only [List.getElem?_cons_zero, Option.some.injEq] at hroot
      subst hroot
      rw [List.map_cons, List.sum_cons]
      have : (as.map splitRed).sum ≤ 0 := by
        have : ∀ l : List (Node K), (∀ nd ∈ l, splitRed nd ≤ 0) → (l.map splitRed).sum ≤ 0 := by
          intro l
          induction l with
          | nil => intro _; simp
          | cons b bs ih =>
            intro hb
            rw [List.map_cons, List.sum_cons]
            exact add_nonpos (hb b List.mem_cons_self) (ih (fun nd hnd => hb nd (List.mem_cons_of_mem _ hnd)))
        exact this as (fun nd hnd => hle nd (List.mem_cons_of_mem _ hnd))
      linarith
  linarith

example : ∃ t, Fitted rngQ exMem exArgs t ∧
    (decide (t.numSplits = 3) && t.leaves.map (weightedImp exArgs t) == [0, 0, 0, 0] && t.nodes.map splitRed == [-1 / 4, 0, -1 / 12, 0, -1 / 6, 0, 0] &&
      decide (critImp (K := ℚ) .gini (labelsOf exArgs.labels exArgs.rows) = 1 / 2)) = true :=
  runTree_exists (glob := exGlob) (by decide +kernel)

/-! ### C41 -/

/-- C41. After `fit` the tree's query count is the sum of the counts of its nodes. The count of a node is what the one search for its
split reported, and 0 if there was none. With a budget, what remains is the budget minus the query count. -/
theorem C41_query_accounting (t : Tree K G) (h : Fitted R mem A t) :
    t.numQueries = (t.nodes.map Node.numQueries).sum ∧
    (∀ id nd, NodeAt t id nd → if nd.computed then ∃ r, SolverSays R A nd r nd.numQueries else nd.numQueries = 0) ∧
    t.remaining = A.budget.map (fun b => b - (t.numQueries : Int)) := by
  obtain ⟨dd, t0, hf⟩ := h.facts
  refine ⟨hf.steps.queries hf.start, ?_, ?_⟩
  · intro id nd hn
    split_ifs with hc
    · obtain ⟨r, h1, _⟩ := hf.says hn hc
      exact ⟨r, h1⟩
    · exact ((hf.nodes _ _ hn).fresh ((Bool.not_eq_true _).mp hc)).2.2.1
  · have := hf.steps.remaining.2
    rw [hf.start.remaining, hf.start.numQueries] at this
    simpa using this

example : ∃ t, Fitted rngQ exMem exArgsMab t ∧
    (decide (t.numQueries = 20) && t.nodes.map Node.numQueries == [12, 8, 0, 0, 0] && decide (t.remaining = some 10)) = true :=
  runTree_exists (glob := exGlob) (by decide +kernel)

/-! ### C42 -/

/-- C42 without a positive budget: no query is spent, nothing is split and the tree is a single leaf. -/
theorem C42_no_budget (t : Tree K G) (h : Fitted R mem A t) (b : Int) (hb : A.budget = some b) (h0 : b ≤ 0) :
    t.numQueries = 0 ∧ t.numSplits = 0 ∧ t.leaves = [0] ∧ t.nodes.length = 1 ∧ IsLeaf t 0 := by
  obtain ⟨dd, t0, hf⟩ := h.facts
  obtain ⟨h1, h2, h3, nd, h4, _⟩ := hf.steps.no_budget hf.start hb h0
  exact ⟨h1, h2, h3, by rw [h4]; rfl, (hf.shape.isLeaf 0).1 (by rw [h3]; simp)⟩

/-- C42 with a positive budget `b` and the bandit solver: the tree spends fewer than `b` plus one sampling step, which is the number
of columns times the batch size (at most the number of rows), or times the number of rows with replacement. -/
theorem C42_mab_budget (t : Tree K G) (h : Fitted R mem A t) (hA : ArgsOK A) (hs : A.cfg.solver = .mab) (b : Int)
    (hb : A.budget = some b) (h0 : 0 < b) :
    (t.numQueries : Int) < b + A.cols.length * (if A.cfg.withRep then A.rows.length else min A.cfg.batch A.rows.length : Nat) := by
  obtain ⟨dd, t0, hf⟩ := h.facts
  exact hf.steps.mab_budget hf.start hf.disc hA hs hb h0

example : ∃ t, Fitted rngQ exMem { exArgs with budget := some 0 } t ∧ decide (t.nodes.length = 1) = true :=
  runTree_exists (glob := exGlob) (by decide +kernel)

/-- The bandit solver with four LINEAR bins: well-formed arguments. -/
theorem exArgsMab_ok : ArgsOK exArgsMab := by
  refine ⟨Or.inl rfl, ?_, ?_, ?_, ?_⟩
  · intro mins maxs h
    cases h
  · intro f u h
    cases h
  · intro _ _ h
    cases h
  · intro h
    cases h

/-- A budget of 1 is exceeded by less than one step (12 queries): 12 queries are spent. -/
example : ∃ t, Fitted rngQ exMem { exArgsMab with budget := some 1 } t ∧ decide (t.numQueries = 12) = true :=
  runTree_exists (glob := exGlob) (by decide +kernel)

end FF
