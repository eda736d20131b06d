import Verif.Proofs.TreePass

/-!
# Termination of `TreeBase.fit`
-/

namespace FF

open Spec

set_option linter.unusedSectionVars false

variable {K : Type} [Field K] [LinearOrder K] [IsStrictOrderedRing K] [FloorRing K] [NpFun K] {G : Type}

/-- Invariant that bounds the number of splits; it does not say which data the children are made from. -/
structure CountInv (n : Nat) (t : Tree K G) : Prop where
  sim : SimInv t
  numLeaves : t.leaves.length = t.numSplits + 1
  total : (t.leaves.flatMap (rowsOf t)).length ≤ n
  nonempty : t.leaves.length = 1 ∨ ∀ id ∈ t.leaves, rowsOf t id ≠ []

theorem length_le_flatMap {α β : Type} (l : List α) (f : α → List β) (h : ∀ x ∈ l, f x ≠ []) : l.length ≤ (l.flatMap f).length := by
  induction l with
  | nil => simp
  | cons a as ih =>
    have h1 := List.length_pos_of_ne_nil (h a List.mem_cons_self)
    have h2 := ih (fun x hx => h x (List.mem_cons_of_mem _ hx))
    rw [List.flatMap_cons, List.length_append, List.length_cons]
    omega

theorem CountInv.splits_le {n : Nat} {t : Tree K G} (h : CountInv n t) : t.numSplits ≤ n := by
  rcases h.nonempty with h1 | h1
  · have := h.numLeaves
    omega
  · have h2 := length_le_flatMap _ _ h1
    have := h.numLeaves
    have := h.total
    omega

theorem rowsOf_update {t t' : Tree K G} {id : Nat} {leaf nd' : Node K} (hn : t.nodes[id]? = some leaf)
    (hi : nd'.idcs = leaf.idcs) (e1 : t'.nodes = t.nodes.set id nd') : rowsOf t' = rowsOf t := by
  funext j
  unfold rowsOf
  rw [e1]
  by_cases hij : id = j
  · subst hij
    rw [getElem?_set_eq hn, hn]
    simp [hi]
  · rw [List.getElem?_set_ne hij]

theorem splitIdcs_length (idcs : List Nat) (col : List K) (v : K) :
    (splitIdcs idcs col v).1.length + (splitIdcs idcs col v).2.length ≤ idcs.length := by
  unfold splitIdcs
  simp only [List.length_map]
  have h := (filter_le_gt_perm (idcs.zip col) (fun p => p.2) v).length_eq
  rw [List.length_append] at h
  rw [h, List.length_zip]
  omega

theorem CountInv.step {n : Nat} {R : Rng K G} {mem : Nat → Junk K} {t t' : Tree K G} (h : CountInv n t) (hs : TStep R mem t t') :
    CountInv n t' := by
  have hsim := h.sim.step hs
  cases hs with
  | mark hl hn hc =>
    rename_i id leaf
    have e : rowsOf { t with nodes := t.nodes.set id { leaf with isSplittable := some false } } = rowsOf t :=
      rowsOf_update (nd' := { leaf with isSplittable := some false }) hn rfl rfl
    exact ⟨hsim, h.numLeaves, by rw [e]; exact h.total, by rw [e]; exact h.nonempty⟩
  | solve hl hn hc hb hcomp hsp hnb hd hls hs =>
    rename_i id leaf glob glob' nb data labels r q g'
    obtain ⟨e1, _⟩ := nodeRecord_static { leaf with numBins := nb } r q
    refine ⟨hsim, h.numLeaves, ?_, ?_⟩
    · rw [rowsOf_update (t := t) (nd' := { nodeRecord { leaf with numBins := nb } r q with
        isSplittable := some (splittableImpurity t.cfg t.nData (nodeRecord { leaf with numBins := nb } r q)) }) hn e1 rfl]
      exact h.total
    · rw [rowsOf_update (t := t) (nd' := { nodeRecord { leaf with numBins := nb } r q with
        isSplittable := some (splittableImpurity t.cfg t.nData (nodeRecord { leaf with numBins := nb } r q)) }) hn e1 rfl]
      exact h.nonempty
  | depth hd => exact ⟨hsim, h.numLeaves, h.total, h.nonempty⟩
  | split hl hn hc hcomp hsp hred hneg himp hd hls hcol hne1 hne2 hcl hcr =>
    rename_i pos id leaf l r red data labels col g1 g2
    have hlt := (List.getElem?_eq_some_iff.1 hn).1
    have hil := (Node_init_fresh hcl).idcs_eq
    have hir := (Node_init_fresh hcr).idcs_eq
    have hp := (List.getElem?_eq_some_iff.1 hl).1
    have gl : ∀ p, (t.nodes.set id p ++ [l, r])[t.nodes.length]? = some l := by
      intro p
      rw [List.getElem?_append_right (by rw [List.length_set]), List.length_set]
      simp
    have gr : ∀ p, (t.nodes.set id p ++ [l, r])[t.nodes.length + 1]? = some r := by
      intro p
      rw [List.getElem?_append_right (by rw [List.length_set]; omega), List.length_set]
      simp
    have gother : ∀ p j, j ∈ t.leaves.eraseIdx pos → (t.nodes.set id p ++ [l, r])[j]? = t.nodes[j]? := by
      intro p j hj
      have hj' := (mem_eraseIdx_of_nodup h.sim.nodup hl).1 hj
      obtain ⟨nd, hnd, _⟩ := h.sim.leaf j hj'.1
      have := (List.getElem?_eq_some_iff.1 hnd).1
      rw [List.getElem?_append_left (by rw [List.length_set]; exact this), List.getElem?_set_ne (Ne.symm hj'.2)]
    have hlen : 1 ≤ t.leaves.length := by omega
    refine ⟨hsim, ?_, ?_, ?_⟩
    · simp only [List.length_append, List.length_cons, List.length_nil]
      have := h.numLeaves
      rw [List.length_eraseIdx_of_lt hp]
      omega
    · refine le_trans (le_of_le_of_eq ?_ (flatMap_eraseIdx _ (rowsOf t) _ _ hl).length_eq.symm) h.total
      simp only []
      rw [List.flatMap_append, List.length_append, List.length_append]
      apply Nat.add_le_add
      · apply le_of_eq
        congr 1
        apply List.flatMap_congr
        intro j hj
        unfold rowsOf
        simp only []
        rw [gother _ j hj]
      · simp only [List.flatMap_cons, List.flatMap_nil, List.append_nil]
        unfold rowsOf
        simp only []
        rw [gl, gr, hn]
        simp only [Option.map_some, Option.getD_some, List.length_append]
        rw [hil, hir]
        exact splitIdcs_length _ _ _
    · right
      intro j hj
      simp only [] at hj
      rcases List.mem_append.1 hj with hj | hj
      · unfold rowsOf
        simp only []
        rw [gother _ j hj]
        rcases h.nonempty with h1 | h1
        · have : (t.leaves.eraseIdx pos).length = 0 := by rw [List.length_eraseIdx_of_lt hp]; omega
          rw [List.length_eq_zero_iff.1 this] at hj
          cases hj
        · exact h1 j (List.mem_of_mem_eraseIdx hj)
      · simp only [List.mem_cons, List.not_mem_nil, or_false] at hj
        unfold rowsOf
        simp only []
        rcases hj with rfl | rfl
        · rw [gl]
          simp only [Option.map_some, Option.getD_some]
          rw [hil]; exact hne1
        · rw [gr]
          simp only [Option.map_some, Option.getD_some]
          rw [hir]; exact hne2

theorem CountInv.steps {n : Nat} {R : Rng K G} {mem : Nat → Junk K} {t t' : Tree K G} (h : CountInv n t)
    (hs : TSteps R mem t t') : CountInv n t' := by
  induction hs with
  | refl => exact h
  | step _ hs ih => exact ih.step hs

theorem TSteps.numSplits_scan {R : Rng K G} {mem : Nat → Junk K} {n : Nat} {t t' : Tree K G} (h : CountInv n t) (hs : TSteps R mem t t')
    (hl : t'.leaves = t.leaves) : t'.numSplits = t.numSplits := by
  have h1 := h.numLeaves
  have h2 := (h.steps hs).numLeaves
  rw [hl] at h2
  omega

theorem fitStep_numSplits {R : Rng K G} {mem : Nat → Junk K} {n : Nat} {t t' : Tree K G} {glob glob' : Glob G}
    (h : CountInv n t) (hs : fitStep R mem t glob = .ok (true, t', glob')) : t'.numSplits = t.numSplits + 1 := by
  obtain ⟨s, pos, id, red, t1, d, _, hscan, hbest, himp, hperf, _, rfl⟩ := fitStep_true hs
  obtain ⟨k, _, hsc, _⟩ := scan_full h.sim hscan
  have e := (scan_steps h.sim hscan).numSplits_scan h hsc.ok.leaves
  obtain ⟨_, _, _, _, _, _, _, _, _, _, _, _, _, _, _, _, _, _, _, _, _, _, _, rfl⟩ :=
    performSplit_parts hsc.ok.sim (hsc.ok.best _ hbest) hperf
  simp only []
  rw [e]

theorem fitLoop_runs {R : Rng K G} {mem : Nat → Junk K} {n : Nat} {fuel : Nat} {t : Tree K G} {glob : Glob G}
    (h : CountInv n t) (hf : n + 1 ≤ fuel + t.numSplits) :
    ∃ k, t.numSplits + k ≤ n ∧ FitRuns R mem t glob k (fitLoop R mem fuel t glob) := by
  induction fuel generalizing t glob with
  | zero =>
    have := h.splits_le
    omega
  | succ fuel ih =>
    rw [fitLoop]
    generalize hs : fitStep R mem t glob = r
    match r, hs with
    | .error e, hs => exact ⟨0, by have := h.splits_le; omega, .raise hs⟩
    | .ok (false, t', glob'), hs => exact ⟨0, by have := h.splits_le; omega, .stop hs⟩
    | .ok (true, t', glob'), hs =>
      have h' := h.steps (fitStep_sim h.sim hs)
      have e := fitStep_numSplits h hs
      obtain ⟨k, hk, hr⟩ := ih (t := t') (glob := glob') h' (by omega)
      exact ⟨k + 1, by omega, .again hs hr⟩

theorem fit_eq (R : Rng K G) (mem : Nat → Junk K) (t : Tree K G) (glob : Glob G) (data : Option (List (List K)))
    (labels : Option (List K)) :
    Tree.fit R mem t glob data labels = match loopStart t data labels with
      | .error e => .error e
      | .ok t' => fitLoop R mem (fitFuel t') t' glob := by
  unfold Tree.fit loopStart
  cases bothOrNeither data labels with
  | error e => rfl
  | ok passed =>
    cases passed with
    | none =>
      simp only [Bind.bind, Except.bind]
      cases maybeDiscrete t.cfg.makeDiscrete t.data t.discrete with
      | error e => rfl
      | ok dd =>
        simp only []
        cases t.cfg.splitter <;> rfl
    | some p =>
      obtain ⟨d, l⟩ := p
      simp only [Bind.bind, Except.bind]
      cases maybeDiscrete t.cfg.makeDiscrete d t.discrete with
      | error e => rfl
      | ok dd =>
        simp only []
        cases t.cfg.splitter <;> rfl

theorem loopStart_ok {t t' : Tree K G} {data : Option (List (List K))} {labels : Option (List K)}
    (h : loopStart t data labels = .ok t') : t'.nodes = t.nodes ∧ t'.leaves = t.leaves ++ [0] ∧ t'.cfg = t.cfg ∧
      t'.numSplits = t.numSplits ∧ t'.remaining = t.remaining ∧ t'.numQueries = t.numQueries ∧ t'.cfg.splitter = .best := by
  unfold loopStart at h
  cases hb : bothOrNeither data labels with
  | error e => rw [hb] at h; cases h
  | ok passed =>
    rw [hb] at h
    cases passed with
    | none =>
      simp only [Bind.bind, Except.bind] at h
      cases hd : maybeDiscrete t.cfg.makeDiscrete t.data t.discrete with
      | error e => rw [hd] at h; cases h
      | ok dd =>
        rw [hd] at h
        simp only [] at h
        cases hsp : t.cfg.splitter <;> rw [hsp] at h <;> cases h
        exact ⟨rfl, rfl, rfl, rfl, rfl, rfl, hsp⟩
    | some p =>
      obtain ⟨d, l⟩ := p
      simp only [Bind.bind, Except.bind] at h
      cases hd : maybeDiscrete t.cfg.makeDiscrete d t.discrete with
      | error e => rw [hd] at h; cases h
      | ok dd =>
        rw [hd] at h
        simp only [] at h
        cases hsp : t.cfg.splitter <;> rw [hsp] at h <;> cases h
        exact ⟨rfl, rfl, rfl, rfl, rfl, rfl, hsp⟩

theorem Constructed.fit_runs {R : Rng K G} {mem : Nat → Junk K} {A : TreeArgs K} {t0 : Tree K G} (hc : Constructed R A t0)
    (glob : Glob G) (data : Option (List (List K))) (labels : Option (List K)) :
    ∃ n, n ≤ A.rows.length ∧ FitCall R mem t0 glob data labels n (Tree.fit R mem t0 glob data labels) := by
  rw [fit_eq]
  cases hl : loopStart t0 data labels with
  | error e => exact ⟨0, Nat.zero_le _, .early hl⟩
  | ok t1 =>
    simp only []
    obtain ⟨e1, e2, e3, e4, _⟩ := loopStart_ok hl
    obtain ⟨hst, _⟩ := hc.start t0.discrete
    obtain ⟨nd, hn, hf⟩ := hst.root
    have hleaves : t1.leaves = [0] := by rw [e2]; exact hst.leaves
    have hns : t1.numSplits = 0 := by rw [e4]; exact hst.numSplits
    have hnodes : t1.nodes = [nd] := by rw [e1]; exact hn
    have hinv : CountInv A.rows.length t1 := by
      refine ⟨⟨by rw [hleaves]; simp, ?_⟩, by rw [hleaves, hns]; rfl, ?_, Or.inl (by rw [hleaves]; rfl)⟩
      · intro id hid
        rw [hleaves] at hid
        obtain rfl : id = 0 := by simpa using hid
        exact ⟨nd, by rw [hnodes]; rfl, LeafOK.fresh hf⟩
      · rw [hleaves]
        simp [rowsOf, hnodes, hf.idcs_eq]
    obtain ⟨k, hk, hr⟩ := fitLoop_runs (R := R) (mem := mem) (glob := glob) (fuel := fitFuel t1) hinv (by
      unfold fitFuel
      rw [hleaves]
      simp [hnodes, hf.nData_eq]
      omega)
    exact ⟨k, by omega, .loop hl hr⟩

end FF
