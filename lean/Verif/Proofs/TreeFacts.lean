import Verif.Proofs.TreeTerm

/-!
# Consequences for growing and fitted trees
-/

namespace FF

open Spec

set_option linter.unusedSectionVars false

variable {K : Type} [Field K] [LinearOrder K] [IsStrictOrderedRing K] [FloorRing K] [NpFun K] {G : Type}

theorem nodeAt_lt {t : Tree K G} {id : Nat} {nd : Node K} (h : NodeAt t id nd) : id < t.nodes.length :=
  (List.getElem?_eq_some_iff.1 h).1

theorem nodeAt_of_lt {t : Tree K G} {id : Nat} (h : id < t.nodes.length) : ∃ nd, NodeAt t id nd :=
  ⟨t.nodes[id], List.getElem?_eq_getElem h⟩

theorem TShape.inTree {data : List (List K)} {rows : List Nat} {t : Tree K G} (h : TShape data rows t) (id : Nat) :
    InTree t id ↔ id < t.nodes.length := by
  constructor
  · intro hi
    induction hi with
    | root =>
      obtain ⟨nd, h1, _⟩ := h.root
      exact nodeAt_lt h1
    | left _ hn hl ih =>
      rcases h.links _ _ hn with ⟨h1, _⟩ | ⟨l, r, nl, nr, h1, h2, _, _, _, h6, h7, _⟩
      · rw [hl] at h1; cases h1
      · rw [hl] at h1
        cases h1
        exact nodeAt_lt h6
    | right _ hn hl ih =>
      rcases h.links _ _ hn with ⟨_, h1⟩ | ⟨l, r, nl, nr, h1, h2, _, _, _, h6, h7, _⟩
      · rw [hl] at h1; cases h1
      · rw [hl] at h2
        cases h2
        exact nodeAt_lt h7
  · induction id using Nat.strong_induction_on with
    | _ id ih =>
      intro hlt
      rcases Nat.eq_zero_or_pos id with rfl | hpos
      · exact .root
      · obtain ⟨p, nd, h1, h2, h3⟩ := h.parents id hpos hlt
        have := ih p h1 (nodeAt_lt h2)
        rcases h3 with h3 | h3
        · exact .left this h2 h3
        · exact .right this h2 h3

theorem TShape.isLeaf {data : List (List K)} {rows : List Nat} {t : Tree K G} (h : TShape data rows t) (id : Nat) :
    id ∈ t.leaves ↔ IsLeaf t id := by
  rw [h.leaves]
  constructor
  · rintro ⟨nd, h1, h2⟩
    refine ⟨(h.inTree id).2 (nodeAt_lt h1), nd, h1, h2, ?_⟩
    rcases h.links _ _ h1 with ⟨_, h3⟩ | ⟨l, _, _, _, h3, _⟩
    · exact h3
    · rw [h2] at h3; cases h3
  · rintro ⟨_, nd, h1, h2, _⟩
    exact ⟨nd, h1, h2⟩

/-- Depths increase along the edges, so every node has a leaf below it that is at least as deep. -/
theorem TShape.deep_leaf {data : List (List K)} {rows : List Nat} {t : Tree K G} (h : TShape data rows t) :
    ∀ (k id : Nat) (nd : Node K), t.nodes.length - id ≤ k → NodeAt t id nd →
      ∃ id' nd', id' ∈ t.leaves ∧ NodeAt t id' nd' ∧ nd.depth ≤ nd'.depth := by
  intro k
  induction k with
  | zero =>
    intro id nd hk hn
    have := nodeAt_lt hn
    omega
  | succ k ih =>
    intro id nd hk hn
    rcases h.links _ _ hn with ⟨h1, _⟩ | ⟨l, r, nl, nr, h1, h2, h3, h4, _, h6, h7, h8⟩
    · exact ⟨id, nd, (h.leaves id).2 ⟨nd, hn, h1⟩, hn, le_refl _⟩
    · have := nodeAt_lt hn
      obtain ⟨id', nd', a1, a2, a3⟩ := ih l nl (by omega) h6
      exact ⟨id', nd', a1, a2, by have := h8.left_depth; omega⟩

theorem foldl_max_spec (l : List Nat) (d : Nat) : d ≤ l.foldl max d ∧ (∀ x ∈ l, x ≤ l.foldl max d) ∧
    (l.foldl max d = d ∨ l.foldl max d ∈ l) := by
  induction l generalizing d with
  | nil => simp
  | cons x xs ih =>
    rw [List.foldl_cons]
    obtain ⟨h1, h2, h3⟩ := ih (max d x)
    refine ⟨le_trans (le_max_left _ _) h1, ?_, ?_⟩
    · intro y hy
      rcases List.mem_cons.1 hy with rfl | hy
      · exact le_trans (le_max_right _ _) h1
      · exact h2 y hy
    · rcases h3 with h3 | h3
      · rw [h3]
        rcases le_total d x with h | h
        · right; rw [max_eq_right h]; exact List.mem_cons_self
        · left; exact max_eq_left h
      · right
        exact List.mem_cons_of_mem _ h3

theorem getDepth_spec {t : Tree K G} {d : Nat} (h : getDepth t = .ok d) :
    (∀ id ∈ t.leaves, ((t.nodes[id]?).map Node.depth).getD 0 ≤ d) ∧
    ∃ id ∈ t.leaves, ((t.nodes[id]?).map Node.depth).getD 0 = d := by
  unfold getDepth at h
  split at h
  · cases h
  · rename_i d0 ds hm
    cases h
    obtain ⟨h1, h2, h3⟩ := foldl_max_spec ds d0
    constructor
    · intro id hid
      have : ((t.nodes[id]?).map Node.depth).getD 0 ∈ d0 :: ds := by
        rw [← hm]; exact List.mem_map.2 ⟨id, hid, rfl⟩
      rcases List.mem_cons.1 this with h | h
      · rw [h]; exact h1
      · exact h2 _ h
    · have : ds.foldl max d0 ∈ d0 :: ds := by
        rcases h3 with h3 | h3
        · rw [h3]; exact List.mem_cons_self
        · exact List.mem_cons_of_mem _ h3
      rw [← hm] at this
      obtain ⟨id, hid, he⟩ := List.mem_map.1 this
      exact ⟨id, hid, he⟩

section
variable {R : Rng K G} {mem : Nat → Junk K} {A : TreeArgs K} {t : Tree K G} {glob : Glob G}

/-- Everything known about a growing tree. -/
structure GrowFacts (R : Rng K G) (mem : Nat → Junk K) (A : TreeArgs K) (dd : DiscDict K) (t0 t : Tree K G) : Prop where
  start : Start R A dd t0
  disc : maybeDiscrete t0.cfg.makeDiscrete A.data A.disc = .ok dd
  steps : TSteps R mem t0 t
  sim : SimInv t
  nodes : NodesOK R A dd t
  shape : TShape A.data A.rows t
  base : SameBase t0 t

theorem GrowFacts.of_steps {dd : DiscDict K} {t0 : Tree K G} (h0 : Start R A dd t0)
    (hd : maybeDiscrete t0.cfg.makeDiscrete A.data A.disc = .ok dd) (h : TSteps R mem t0 t) : GrowFacts R mem A dd t0 t :=
  ⟨h0, hd, h, h0.sim.steps h, h.nodesOK h0, h.tshape h0, h.base⟩

theorem GrowFacts.next {dd : DiscDict K} {t0 t' : Tree K G} (h : GrowFacts R mem A dd t0 t) (hs : TSteps R mem t t') :
    GrowFacts R mem A dd t0 t' :=
  .of_steps h.start h.disc (h.steps.trans hs)

theorem Growing.facts (h : Growing R mem A t glob) : ∃ dd t0, GrowFacts R mem A dd t0 t := by
  obtain ⟨t0, glob0, dd, hc, hdd, hh⟩ := h
  obtain ⟨hs, hdisc⟩ := hc.start dd
  have hdata : t0.data = A.data := hs.data
  rw [hdata, hdisc] at hdd
  exact ⟨dd, _, .of_steps hs hdd (hh.sim hs.sim)⟩

theorem Fitted.facts (h : Fitted R mem A t) : ∃ dd t0, GrowFacts R mem A dd t0 t := by
  obtain ⟨t1, glob1, glob', hg, hs⟩ := h.growing
  obtain ⟨dd, t0, hf⟩ := hg.facts
  exact ⟨dd, t0, hf.next (fitStep_sim hf.sim hs)⟩

theorem GrowFacts.cfg_eq {dd : DiscDict K} {t0 : Tree K G} (h : GrowFacts R mem A dd t0 t) :
    t.cfg = { A.cfg with makeDiscrete :=
          if A.cfg.binType = some .linear ∨ A.cfg.binType = some .identity then false else A.cfg.makeDiscrete } := by
  rw [h.base.cfg, h.start.cfg]

theorem CanSplit.cfg_congr {cfg cfg' : TreeCfg K} {labels : List K} {nd : Node K} (h : CanSplit cfg labels nd)
    (h1 : cfg'.maxDepth = cfg.maxDepth) (h2 : cfg'.minSamplesSplit = cfg.minSamplesSplit) : CanSplit cfg' labels nd :=
  ⟨by rw [h1]; exact h.depth, by rw [h2]; exact h.size, h.labels⟩

theorem GrowFacts.canSplit_iff {dd : DiscDict K} {t0 : Tree K G} (h : GrowFacts R mem A dd t0 t) {labels : List K} {nd : Node K} :
    CanSplit t.cfg labels nd ↔ CanSplit A.cfg labels nd := by
  rw [h.cfg_eq]
  exact ⟨fun h => h.cfg_congr rfl rfl, fun h => h.cfg_congr rfl rfl⟩

theorem GrowFacts.depth_le {dd : DiscDict K} {t0 : Tree K G} (h : GrowFacts R mem A dd t0 t) {d : Nat}
    (hd : A.cfg.maxDepth = .some d) {id : Nat} {nd : Node K} (hn : NodeAt t id nd) : nd.depth ≤ d := by
  rcases Nat.eq_zero_or_pos id with rfl | hpos
  · obtain ⟨nd', h1, _, h3⟩ := h.shape.root
    have := hn.symm.trans h1
    cases this
    omega
  · obtain ⟨p, pn, _, h2, h3⟩ := h.shape.parents id hpos (nodeAt_lt hn)
    have hleft : pn.left ≠ none := by
      rcases h.shape.links _ _ h2 with ⟨a1, a2⟩ | ⟨l, r, _, _, a1, a2, _⟩
      · rw [a1, a2] at h3
        rcases h3 with h3 | h3 <;> cases h3
      · rw [a1]; simp
    have hok := h.nodes _ _ h2
    have hcan := h.canSplit_iff.1 (hok.solved (hok.split hleft).1).can
    have hpd : pn.depth < d := by
      rcases hcan.depth with h4 | ⟨d', h4, h5⟩
      · rw [hd] at h4; cases h4
      · rw [hd] at h4
        cases h4
        exact h5
    rcases h.shape.links _ _ h2 with ⟨a1, _⟩ | ⟨l, r, nl, nr, a1, a2, _, _, _, a6, a7, a8⟩
    · exact absurd a1 hleft
    · rw [a1, a2] at h3
      rcases h3 with h3 | h3
      · cases h3
        have := hn.symm.trans a6
        cases this
        have := a8.left_depth
        omega
      · cases h3
        have := hn.symm.trans a7
        cases this
        have := a8.right_depth
        omega

/-- The tree stores the depth computed at the end of each pass. -/
theorem Fitted.depth (h : Fitted R mem A t) : (t.leaves.length = 1 ∧ A.cfg.maxLeafNodes = some 1) ∨ getDepth t = .ok t.depth := by
  obtain ⟨t1, glob1, glob', hg, hs⟩ := h.growing
  rcases fitStep_false hs with ⟨h1, rfl, _⟩ | ⟨s, d, _, _, _, hd, rfl, _⟩
  · obtain ⟨t0, glob0, dd, hc, _, hh⟩ := hg
    cases hh with
    | init =>
      left
      have hst := (hc.start dd).1
      have hl := hst.leaves
      have hcfg := hst.cfg
      simp only [] at hl hcfg h1 ⊢
      refine ⟨by rw [hl]; rfl, ?_⟩
      rw [hl, hcfg] at h1
      unfold leafLimit at h1
      simp only [] at h1
      split at h1
      · cases h1
      · rename_i m hm
        by_cases hm1 : ([0] : List Nat).length = m
        · rw [hm, ← hm1]; rfl
        · rw [if_neg hm1] at h1
          split_ifs at h1
          cases h1
    | step hh hs' =>
      obtain ⟨_, _, _, _, t1, d, _, _, _, _, _, hd, rfl⟩ := fitStep_true hs'
      exact Or.inr hd
  · exact Or.inr hd

/-- The number of leaves never exceeds `max_leaf_nodes`. -/
theorem Growing.leaves_le (h : Growing R mem A t glob) {m : Nat} (hm : A.cfg.maxLeafNodes = some m) (h1 : 1 ≤ m) :
    t.leaves.length ≤ m := by
  have hg := h
  obtain ⟨t0, glob0, dd, hc, hdd, hh⟩ := h
  cases hh with
  | init =>
    rw [(hc.start dd).1.leaves]
    exact h1
  | step hh hs =>
    rename_i t1 glob1
    obtain ⟨dd1, t01, hf⟩ := (show Growing R mem A t1 glob1 from ⟨t0, glob0, dd, hc, hdd, hh⟩).facts
    obtain ⟨dd2, t02, hf2⟩ := hg.facts
    obtain ⟨s, pos, id, red, t2, d, hlim, _⟩ := fitStep_true hs
    rw [hf.cfg_eq] at hlim
    simp only [hm] at hlim
    unfold leafLimit at hlim
    simp only [] at hlim
    have ha : t1.leaves.length ≠ m := by
      intro h
      rw [if_pos h] at hlim
      cases hlim
    have hb : ¬ t1.leaves.length > m := by
      intro h
      rw [if_neg ha, if_pos h] at hlim
      cases hlim
    have e := fitStep_numSplits (n := A.rows.length) ⟨hf.sim, hf.shape.numLeaves, le_of_eq hf.shape.perm.length_eq, ?_⟩ hs
    · have e1 := hf.shape.numLeaves
      have e2 := hf2.shape.numLeaves
      omega
    · rcases Nat.lt_or_ge 1 t1.leaves.length with hlt | hge
      · right
        intro id hid
        obtain ⟨nd, hn, _⟩ := (hf.shape.leaves id).1 hid
        have hpos : 0 < id := by
          rcases Nat.eq_zero_or_pos id with rfl | h
          · exfalso
            have : t1.numSplits ≠ 0 := by have := hf.shape.numLeaves; omega
            have hl2 : 2 < t1.nodes.length := by have := hf.shape.numNodes; omega
            obtain ⟨p, pn, hp1, hp2, hp3⟩ := hf.shape.parents 1 (by omega) (by omega)
            obtain rfl : p = 0 := by omega
            have := hn.symm.trans hp2
            cases this
            rcases hf.shape.links _ _ hn with ⟨a1, a2⟩ | ⟨_, _, _, _, a1, _⟩
            · rw [a1, a2] at hp3
              rcases hp3 with h | h <;> cases h
            · have := (hf.shape.leaves 0).1 hid
              obtain ⟨nd', b1, b2⟩ := this
              rw [hn] at b1
              cases b1
              rw [a1] at b2
              cases b2
          · exact h
        obtain ⟨p, pn, _, h2, h3⟩ := hf.shape.parents id hpos (nodeAt_lt hn)
        unfold rowsOf
        rw [hn]
        simp only [Option.map_some, Option.getD_some]
        rcases hf.shape.links _ _ h2 with ⟨a1, a2⟩ | ⟨l, r, nl, nr, a1, a2, _, _, _, a6, a7, a8⟩
        · rw [a1, a2] at h3
          rcases h3 with h3 | h3 <;> cases h3
        · rw [a1, a2] at h3
          rcases h3 with h3 | h3
          · cases h3
            have := hn.symm.trans a6
            cases this
            exact a8.left_ne
          · cases h3
            have := hn.symm.trans a7
            cases this
            exact a8.right_ne
      · left
        have := hf.shape.numLeaves
        omega

end

/-- Every node except possibly the root holds a row. -/
theorem TShape.rows_ne {data : List (List K)} {rows : List Nat} {t : Tree K G} (h : TShape data rows t) (hr : rows ≠ [])
    {id : Nat} {nd : Node K} (hn : NodeAt t id nd) : nd.idcs ≠ [] := by
  rcases Nat.eq_zero_or_pos id with rfl | hpos
  · obtain ⟨nd', h1, h2, _⟩ := h.root
    have := hn.symm.trans h1
    cases this
    rw [h2]; exact hr
  · obtain ⟨p, pn, _, h2, h3⟩ := h.parents id hpos (nodeAt_lt hn)
    rcases h.links _ _ h2 with ⟨a1, a2⟩ | ⟨l, r, nl, nr, a1, a2, _, _, _, a6, a7, a8⟩
    · rw [a1, a2] at h3
      rcases h3 with h3 | h3 <;> cases h3
    · rw [a1, a2] at h3
      rcases h3 with h3 | h3
      · cases h3
        have := hn.symm.trans a6
        cases this
        exact a8.left_ne
      · cases h3
        have := hn.symm.trans a7
        cases this
        exact a8.right_ne

end FF
