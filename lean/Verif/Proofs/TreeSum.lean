import Verif.Proofs.TreeGrow
import Verif.Props.Exact

/-!
# The sum of the weighted impurities of the leaves
-/

namespace FF

open Spec

set_option linter.unusedSectionVars false

variable {K : Type} [Field K] [LinearOrder K] [IsStrictOrderedRing K] [FloorRing K] [NpFun K] {G : Type}

theorem nodeSamples_sub {data : List (List K)} {labels : List K} {rows feats : List Nat} {f : Nat} (hf : f < feats.length) :
    nodeSamples (subRows data rows feats) (labelsOf labels rows) f = rows.map (rowSample data labels (feats.getD f 0)) := by
  unfold nodeSamples batchSamples subRows labelsOf rowSample
  rw [List.map_map, List.zip_map']
  apply List.map_congr_left
  intro i _
  simp only [Function.comp_apply, Prod.mk.injEq, and_true]
  rw [List.getD_eq_getElem _ _ (by simpa using hf), List.getElem_map, List.getD_eq_getElem _ _ hf]

theorem sum_map_set_field {α : Type} (l : List α) (f : α → K) (i : Nat) (x y : α) (h : l[i]? = some y) :
    ((l.set i x).map f).sum = (l.map f).sum + f x - f y := by
  induction l generalizing i with
  | nil => simp at h
  | cons a as ih =>
    cases i with
    | zero =>
      simp only [List.getElem?_cons_zero, Option.some.injEq] at h
      subst h
      simp only [List.set_cons_zero, List.map_cons, List.sum_cons]
      ring
    | succ i =>
      have := ih i (by simpa using h)
      simp only [List.set_cons_succ, List.map_cons, List.sum_cons, this]
      ring

theorem sum_eraseIdx {α : Type} (l : List α) (f : α → K) (pos : Nat) (x : α) (h : l[pos]? = some x) :
    (l.map f).sum = f x + ((l.eraseIdx pos).map f).sum := by
  obtain ⟨hp, rfl⟩ := List.getElem?_eq_some_iff.1 h
  have := (List.getElem_cons_eraseIdx_perm hp).map f
  rw [← this.sum_eq]
  simp

/-- Splitting changes the weighted impurity by the share of the rows times `change`. -/
theorem change_labels (imp : List K → K) (labels : List K) (data : List (List K)) (rows : List Nat) (f : Nat) (v : K) (N : K)
    (hr : rows ≠ []) :
    ((rows.filter (fun i => decide ((data.getD i []).getD f 0 ≤ v))).length : K) / N *
        imp (labelsOf labels (rows.filter (fun i => decide ((data.getD i []).getD f 0 ≤ v)))) +
      ((rows.filter (fun i => decide (v < (data.getD i []).getD f 0))).length : K) / N *
        imp (labelsOf labels (rows.filter (fun i => decide (v < (data.getD i []).getD f 0)))) =
    (rows.length : K) / N * imp (labelsOf labels rows) +
      change imp (rows.map (rowSample data labels f)) v * ((rows.length : K) / N) := by
  have hn : (rows.length : K) ≠ 0 := by
    exact_mod_cast fun h => hr (List.length_eq_zero_iff.1 h)
  have e1 : labelsLe (rows.map (rowSample data labels f)) v =
      labelsOf labels (rows.filter (fun i => decide ((data.getD i []).getD f 0 ≤ v))) := by
    unfold labelsLe labelsOf rowSample
    rw [List.filter_map, List.map_map]
    rfl
  have e2 : labelsGt (rows.map (rowSample data labels f)) v =
      labelsOf labels (rows.filter (fun i => decide (v < (data.getD i []).getD f 0))) := by
    unfold labelsGt labelsOf rowSample
    rw [List.filter_map, List.map_map]
    rfl
  have e3 : (rows.map (rowSample data labels f)).map Prod.snd = labelsOf labels rows := by
    rw [List.map_map]; rfl
  unfold change
  rw [e1, e2, e3, List.length_map]
  have l1 : ∀ rs, (labelsOf labels rs).length = rs.length := fun rs => List.length_map ..
  rw [l1, l1]
  field_simp
  ring

section
variable {R : Rng K G} {mem : Nat → Junk K} {A : TreeArgs K} {t : Tree K G} {dd : DiscDict K} {t0 : Tree K G}

/-- What the exact solver has recorded. -/
theorem GrowFacts.exact_red (h : GrowFacts R mem A dd t0 t) (hA : ArgsOK A) (hs : A.cfg.solver = .exact) {id : Nat} {nd : Node K}
    (hn : NodeAt t id nd) (hc : nd.computed = true) {red : XF K} (hred : nd.splitReduction = some red) :
    ∃ f, nd.splitFeature = some f ∧ f ∈ nd.featIdcs ∧
      red = .fin (change (critImp A.cfg.criterion) (rowSamples A nd.idcs f) nd.splitValue *
        ((nd.idcs.length : K) / (A.rows.length : K))) ∧
      change (critImp A.cfg.criterion) (rowSamples A nd.idcs f) nd.splitValue < 0 ∧
      nd.prevSplitFeature < nd.featIdcs.length ∧ f = nd.featIdcs.getD nd.prevSplitFeature 0 := by
  have hok := h.nodes _ _ hn
  have hne := (hok.solved hc).can.rows_ne
  have hrows : A.rows.length ≠ 0 := by
    have := (h.rows_sublist hn).length_le
    have := List.length_pos_iff.2 hne
    omega
  have hprop := hok.prop_eq hrows
  obtain ⟨r, ⟨g, glob, junk, budget, g', glob', hrun⟩, hrec, _⟩ := h.says hn hc
  cases r with
  | none => rw [hrec.1] at hred; cases hred
  | some s =>
    obtain ⟨q1, q2, q3, q4⟩ := hrec
    unfold nodeSolve at hrun
    rw [hs] at hrun
    simp only [] at hrun
    split at hrun
    · cases hrun
    rename_i r' q' np hex
    simp only [Except.ok.injEq, Prod.mk.injEq] at hrun
    obtain ⟨rfl, _⟩ := hrun
    have hbins : ∀ B, exactBins (subRows A.data nd.idcs nd.featIdcs) A.cfg.binType nd.numBins = some B →
        BinningOK nd.minmax nd.discrete A.cfg.binType B := by
      intro B hB
      unfold exactBins at hB
      split at hB
      · exact h.binning hA hn hc B (Or.inl (by assumption))
      · exact h.binning hA hn hc B (Or.inr hB)
    obtain ⟨B, hh, b, hB, hmake, hcand, hr, hneg, _⟩ := C13_exact_best R _ _ _ _ _ _ _ _ _ _ _ _ _ hA.crit hbins hex
    have hlen : s.feat < nd.featIdcs.length := by
      obtain ⟨i, is, hi⟩ := List.exists_cons_of_ne_nil hne
      have hsub : subRows A.data nd.idcs nd.featIdcs =
          nd.featIdcs.map (fun j => (A.data.getD i []).getD j 0) :: subRows A.data is nd.featIdcs := by rw [hi]; rfl
      rw [hsub] at hmake
      have hg := makeHistograms_good (hbins B hB) hmake
      have := hg.len
      rw [List.length_map] at this
      rw [← this]
      by_contra hno
      have h1 := hcand.1
      have h2 : hh.hists[s.feat]? = none := List.getElem?_eq_none (by omega)
      unfold edgesOf at h1
      rw [h2] at h1
      cases h1
    refine ⟨nd.featIdcs.getD s.feat 0, q4, ?_, ?_, ?_, by rw [q2]; exact hlen, by rw [q2]⟩
    · rw [List.getD_eq_getElem _ _ hlen]
      exact List.getElem_mem hlen
    · rw [q1, hr, hprop] at hred
      rw [← Option.some.inj hred, nodeSamples_sub hlen, q3]
      rfl
    · rw [nodeSamples_sub hlen] at hneg
      rw [q3]
      exact hneg

/-- One split: the children's weighted impurities are the parent's plus the recorded reduction. -/
theorem GrowFacts.split_sum (h : GrowFacts R mem A dd t0 t) (hA : ArgsOK A) (hs : A.cfg.solver = .exact) {id l r : Nat} {nd : Node K}
    (hn : NodeAt t id nd) (hl : nd.left = some l) (hr : nd.right = some r) :
    nd.splitReduction = some (.fin (splitRed nd)) ∧ splitRed nd < 0 ∧
      weightedImp A t l + weightedImp A t r = weightedImp A t id + splitRed nd := by
  obtain ⟨hc, _, hne, red, hred, _, _⟩ := (h.nodes _ _ hn).split (by rw [hl]; simp)
  obtain ⟨f, hf, _, hfin, hneg, _⟩ := h.exact_red hA hs hn hc hred
  have hval : splitRed nd = change (critImp A.cfg.criterion) (rowSamples A nd.idcs f) nd.splitValue *
        ((nd.idcs.length : K) / (A.rows.length : K)) := by
    unfold splitRed
    rw [if_neg (by rw [hl]; simp), hred, hfin]
  have hpos : (0 : K) < (nd.idcs.length : K) / (A.rows.length : K) := by
    have h1 := List.length_pos_iff.2 hne
    have h2 : 0 < A.rows.length := lt_of_lt_of_le h1 (h.rows_sublist hn).length_le
    have h1' : (0 : K) < nd.idcs.length := by exact_mod_cast h1
    have h2' : (0 : K) < A.rows.length := by exact_mod_cast h2
    exact div_pos h1' h2'
  refine ⟨by rw [hred, hfin, hval], by rw [hval]; exact mul_neg_of_neg_of_pos hneg hpos, ?_⟩
  rcases h.shape.links _ _ hn with ⟨h1, _⟩ | ⟨l', r', nl, nr, h1, h2, _, _, _, h6, h7, h8⟩
  · rw [hl] at h1; cases h1
  rw [hl] at h1; cases h1
  rw [hr] at h2; cases h2
  obtain ⟨f', hf', _, hli, hri⟩ := h8.feat
  rw [hf] at hf'; cases hf'
  have e1 : rowsOf t l = nl.idcs := by unfold rowsOf; rw [h6]; rfl
  have e2 : rowsOf t r = nr.idcs := by unfold rowsOf; rw [h7]; rfl
  have e3 : rowsOf t id = nd.idcs := by unfold rowsOf; rw [show t.nodes[id]? = some nd from hn]; rfl
  unfold weightedImp
  rw [e1, e2, e3, hli, hri, hval]
  exact change_labels (critImp A.cfg.criterion) A.labels A.data nd.idcs f nd.splitValue (A.rows.length : K) hne

theorem TSteps.telescopes (h0 : Start R A dd t0) (hd : maybeDiscrete t0.cfg.makeDiscrete A.data A.disc = .ok dd)
    (h : TSteps R mem t0 t) (hA : ArgsOK A) (hs : A.cfg.solver = .exact) (hr : A.rows ≠ []) :
    (t.leaves.map (weightedImp A t)).sum = critImp A.cfg.criterion (labelsOf A.labels A.rows) + (t.nodes.map splitRed).sum := by
  induction h with
  | refl =>
    obtain ⟨nd, h1, h2⟩ := h0.root
    have hn : (A.rows.length : K) ≠ 0 := by
      exact_mod_cast fun h => hr (List.length_eq_zero_iff.1 h)
    rw [h0.leaves, h1]
    have e : rowsOf t0 0 = A.rows := by
      unfold rowsOf
      rw [h1]
      exact h2.idcs_eq
    have e2 : splitRed nd = 0 := by
      unfold splitRed
      rw [if_pos h2.left_eq]
    simp only [List.map_cons, List.map_nil, List.sum_cons, List.sum_nil, weightedImp, e, e2, div_self hn]
    ring
  | step hprev hstep ih =>
    have hf := GrowFacts.of_steps h0 hd hprev
    have hf' := GrowFacts.of_steps h0 hd (.step hprev hstep)
    have hW : ∀ (t t' : Tree K G), rowsOf t' = rowsOf t → weightedImp A t' = weightedImp A t := by
      intro t t' e
      funext id
      unfold weightedImp
      rw [e]
    cases hstep with
    | mark hl hn hc =>
      rename_i t1 id leaf
      rw [hW _ _ (rowsOf_update (nd' := { leaf with isSplittable := some false }) hn rfl rfl)]
      simp only []
      rw [sum_map_set_field _ splitRed _ _ _ hn, ih]
      have : splitRed { leaf with isSplittable := some false } = splitRed leaf := rfl
      rw [this]
      ring
    | solve hl hn hc hb hcomp hsp hnb hd hls hsv =>
      rename_i t1 id leaf glob glob' nb data labels r q g'
      obtain ⟨e1, _⟩ := nodeRecord_static { leaf with numBins := nb } r q
      rw [hW _ _ (rowsOf_update (t := t1) (nd' := { nodeRecord { leaf with numBins := nb } r q with
        isSplittable := some (splittableImpurity t1.cfg t1.nData (nodeRecord { leaf with numBins := nb } r q)) }) hn e1 rfl)]
      simp only []
      rw [sum_map_set_field _ splitRed _ _ _ hn, ih]
      obtain ⟨nd, hnd, hok⟩ := hf.sim.leaf id hl
      obtain rfl := Option.some.inj (hn.symm.trans hnd)
      have hleft : leaf.left = none := by
        obtain ⟨_, hl0⟩ := (hf.shape.leaves id).1 hl
        obtain rfl := Option.some.inj (hn.symm.trans hl0.1)
        exact hl0.2
      have a1 : splitRed leaf = 0 := by unfold splitRed; rw [if_pos hleft]
      have a2 : splitRed { nodeRecord { leaf with numBins := nb } r q with
        isSplittable := some (splittableImpurity t1.cfg t1.nData (nodeRecord { leaf with numBins := nb } r q)) } = 0 := by
        unfold splitRed
        rw [if_pos]
        cases r <;> exact hleft
      rw [a1, a2]
      ring
    | depth hd => exact ih
    | split hl hn hc hcomp hsp hred hneg himp hd hls hcol hne1 hne2 hcl hcr =>
      rename_i t1 pos id leaf l r red data labels col g1 g2
      have hlt := (List.getElem?_eq_some_iff.1 hn).1
      have fl := Node_init_fresh hcl
      have fr := Node_init_fresh hcr
      have hleft : leaf.left = none := by
        obtain ⟨_, hl0⟩ := (hf.shape.leaves id).1 (List.mem_of_getElem? hl)
        obtain rfl := Option.some.inj (hn.symm.trans hl0.1)
        exact hl0.2
      have gother : ∀ p j, j ∈ t1.leaves.eraseIdx pos → (t1.nodes.set id p ++ [l, r])[j]? = t1.nodes[j]? := by
        intro p j hj
        have hj' := (mem_eraseIdx_of_nodup hf.sim.nodup hl).1 hj
        obtain ⟨nd, hnd, _⟩ := hf.sim.leaf j hj'.1
        have := (List.getElem?_eq_some_iff.1 hnd).1
        rw [List.getElem?_append_left (by rw [List.length_set]; exact this), List.getElem?_set_ne (Ne.symm hj'.2)]
      have gid : ∀ p, (t1.nodes.set id p ++ [l, r])[id]? = some p := by
        intro p
        rw [List.getElem?_append_left (by rw [List.length_set]; exact hlt)]
        exact getElem?_set_eq hn
      have key := hf'.split_sum hA hs (gid _) rfl rfl
      simp only [List.map_append, List.sum_append, List.map_cons, List.map_nil, List.sum_cons, List.sum_nil, add_zero]
      rw [sum_map_set_field _ splitRed _ _ _ hn]
      rw [sum_eraseIdx _ (weightedImp A t1) _ _ hl] at ih
      have a0 : splitRed leaf = 0 := by unfold splitRed; rw [if_pos hleft]
      have a1 : splitRed l = 0 := by unfold splitRed; rw [if_pos fl.left_eq]
      have a2 : splitRed r = 0 := by unfold splitRed; rw [if_pos fr.left_eq]
      rw [a0, a1, a2, key.2.2]
      have hsame : ∀ (t2 : Tree K G) (j : Nat), t2.nodes[j]?.map Node.idcs = t1.nodes[j]?.map Node.idcs →
          weightedImp A t2 j = weightedImp A t1 j := by
        intro t2 j e
        unfold weightedImp rowsOf
        rw [e]
      rw [List.map_congr_left (g := weightedImp A t1) (fun j hj => hsame _ j (by
        simp only []
        rw [gother _ j hj]))]
      rw [hsame _ id (by
        simp only []
        rw [gid, hn]
        rfl)]
      linear_combination ih

end

end FF
