import Verif.Proofs.TreeNodes

/-!
# The shape of a growing tree
-/

namespace FF

open Spec

set_option linter.unusedSectionVars false

variable {K : Type} [Field K] [LinearOrder K] [IsStrictOrderedRing K] [FloorRing K] [NpFun K] {G : Type}

/-- `l` and `r` are the children made by splitting `p`. -/
structure SplitOf (data : List (List K)) (p l r : Node K) : Prop where
  feat : ∃ f, p.splitFeature = some f ∧ f ∈ p.featIdcs ∧
    l.idcs = p.idcs.filter (fun i => decide ((data.getD i []).getD f 0 ≤ p.splitValue)) ∧
    r.idcs = p.idcs.filter (fun i => decide (p.splitValue < (data.getD i []).getD f 0))
  left_ne : l.idcs ≠ []
  right_ne : r.idcs ≠ []
  left_depth : l.depth = p.depth + 1
  right_depth : r.depth = p.depth + 1

theorem SplitOf.congr {data : List (List K)} {p l r l' r' : Node K} (h : SplitOf data p l r) (h1 : l'.idcs = l.idcs)
    (h2 : l'.depth = l.depth) (h3 : r'.idcs = r.idcs) (h4 : r'.depth = r.depth) : SplitOf data p l' r' :=
  ⟨by rw [h1, h3]; exact h.feat, by rw [h1]; exact h.left_ne, by rw [h3]; exact h.right_ne,
    by rw [h2]; exact h.left_depth, by rw [h4]; exact h.right_depth⟩

/-- The references between the nodes, and the list of leaves. -/
structure TShape (data : List (List K)) (rows : List Nat) (t : Tree K G) : Prop where
  links : ∀ id nd, t.nodes[id]? = some nd → (nd.left = none ∧ nd.right = none) ∨
    ∃ l r nl nr, nd.left = some l ∧ nd.right = some r ∧ id < l ∧ id < r ∧ l ≠ r ∧ t.nodes[l]? = some nl ∧
      t.nodes[r]? = some nr ∧ SplitOf data nd nl nr
  parents : ∀ id, 0 < id → id < t.nodes.length → ∃ p nd, p < id ∧ t.nodes[p]? = some nd ∧ (nd.left = some id ∨ nd.right = some id)
  uniq : ∀ (p q : Nat) (np nq : Node K) (c : Nat), t.nodes[p]? = some np → t.nodes[q]? = some nq → (np.left = some c ∨ np.right = some c) →
    (nq.left = some c ∨ nq.right = some c) → p = q
  leaves : ∀ id, id ∈ t.leaves ↔ ∃ nd, t.nodes[id]? = some nd ∧ nd.left = none
  numNodes : t.nodes.length = 2 * t.numSplits + 1
  numLeaves : t.leaves.length = t.numSplits + 1
  perm : (t.leaves.flatMap (rowsOf t)).Perm rows
  root : ∃ nd, t.nodes[0]? = some nd ∧ nd.idcs = rows ∧ nd.depth = 0

theorem filter_le_gt_perm {α : Type} (l : List α) (f : α → K) (v : K) :
    (l.filter (fun i => decide (f i ≤ v)) ++ l.filter (fun i => decide (v < f i))).Perm l := by
  have h : l.filter (fun i => decide (v < f i)) = l.filter (fun i => !decide (f i ≤ v)) := by
    congr 1
    funext i
    by_cases h : f i ≤ v
    · simp [h]
    · simp [not_le.1 h]
  rw [h]
  exact List.filter_append_perm _ _

/-- Replacing one entry of the heap. -/
theorem update_links {data : List (List K)} {nodes : List (Node K)} {id : Nat} {leaf nd' : Node K}
    (hn : nodes[id]? = some leaf) (hleft : leaf.left = none) (hl : nd'.left = leaf.left) (hr : nd'.right = leaf.right)
    (hi : nd'.idcs = leaf.idcs) (hd : nd'.depth = leaf.depth)
    (h : ∀ id nd, nodes[id]? = some nd → (nd.left = none ∧ nd.right = none) ∨
      ∃ l r nl nr, nd.left = some l ∧ nd.right = some r ∧ id < l ∧ id < r ∧ l ≠ r ∧ nodes[l]? = some nl ∧
        nodes[r]? = some nr ∧ SplitOf data nd nl nr) :
    ∀ j nd, (nodes.set id nd')[j]? = some nd → (nd.left = none ∧ nd.right = none) ∨
      ∃ l r nl nr, nd.left = some l ∧ nd.right = some r ∧ j < l ∧ j < r ∧ l ≠ r ∧ (nodes.set id nd')[l]? = some nl ∧
        (nodes.set id nd')[r]? = some nr ∧ SplitOf data nd nl nr := by
  have key : ∀ (k : Nat) (n : Node K), nodes[k]? = some n → ∃ n', (nodes.set id nd')[k]? = some n' ∧ n'.idcs = n.idcs ∧
      n'.depth = n.depth := by
    intro k n hk
    by_cases hik : id = k
    · subst hik
      rw [hn] at hk
      obtain rfl := Option.some.inj hk
      exact ⟨nd', getElem?_set_eq hn, hi, hd⟩
    · exact ⟨n, by rw [List.getElem?_set_ne hik]; exact hk, rfl, rfl⟩
  intro j nd hj
  rcases getElem?_set_cases hj with ⟨rfl, rfl⟩ | ⟨_, hj'⟩
  · rcases h _ _ hn with ⟨h1, h2⟩ | ⟨l, r, nl, nr, h1, _⟩
    · exact Or.inl ⟨by rw [hl, h1], by rw [hr, h2]⟩
    · rw [hleft] at h1
      cases h1
  · rcases h _ _ hj' with h1 | ⟨l, r, nl, nr, h1, h2, h3, h4, h5, h6, h7, h8⟩
    · exact Or.inl h1
    · obtain ⟨nl', a1, a2, a3⟩ := key _ _ h6
      obtain ⟨nr', b1, b2, b3⟩ := key _ _ h7
      exact Or.inr ⟨l, r, nl', nr', h1, h2, h3, h4, h5, a1, b1, h8.congr a2 a3 b2 b3⟩

theorem update_parents {nodes : List (Node K)} {id : Nat} {leaf nd' : Node K}
    (hn : nodes[id]? = some leaf) (hl : nd'.left = leaf.left) (hr : nd'.right = leaf.right)
    (h : ∀ id, 0 < id → id < nodes.length → ∃ p nd, p < id ∧ nodes[p]? = some nd ∧ (nd.left = some id ∨ nd.right = some id)) :
    ∀ j, 0 < j → j < (nodes.set id nd').length → ∃ p nd, p < j ∧ (nodes.set id nd')[p]? = some nd ∧
      (nd.left = some j ∨ nd.right = some j) := by
  intro j hj hlt
  rw [List.length_set] at hlt
  obtain ⟨p, nd, h1, h2, h3⟩ := h j hj hlt
  by_cases hip : id = p
  · subst hip
    rw [hn] at h2
    obtain rfl := Option.some.inj h2
    exact ⟨id, nd', h1, getElem?_set_eq hn, by rw [hl, hr]; exact h3⟩
  · exact ⟨p, nd, h1, by rw [List.getElem?_set_ne hip]; exact h2, h3⟩

theorem update_leaves {nodes : List (Node K)} {id : Nat} {leaf nd' : Node K}
    (hn : nodes[id]? = some leaf) (hl : nd'.left = leaf.left) (j : Nat) :
    (∃ nd, (nodes.set id nd')[j]? = some nd ∧ nd.left = none) ↔ ∃ nd, nodes[j]? = some nd ∧ nd.left = none := by
  by_cases hij : id = j
  · subst hij
    rw [getElem?_set_eq hn, hn]
    constructor
    · rintro ⟨nd, h1, h2⟩
      obtain rfl := Option.some.inj h1
      exact ⟨leaf, rfl, by rw [← hl]; exact h2⟩
    · rintro ⟨nd, h1, h2⟩
      obtain rfl := Option.some.inj h1
      exact ⟨nd', rfl, by rw [hl]; exact h2⟩
  · rw [List.getElem?_set_ne hij]

/-- Replacing a leaf's node by one with the same rows, depth and children keeps the shape. -/
theorem TShape.update {data : List (List K)} {rows : List Nat} {t t' : Tree K G} {id : Nat} {leaf nd' : Node K}
    (h : TShape data rows t) (hmem : id ∈ t.leaves) (hn : t.nodes[id]? = some leaf)
    (hl : nd'.left = leaf.left) (hr : nd'.right = leaf.right) (hi : nd'.idcs = leaf.idcs) (hd : nd'.depth = leaf.depth)
    (e1 : t'.nodes = t.nodes.set id nd') (e2 : t'.leaves = t.leaves) (e3 : t'.numSplits = t.numSplits) : TShape data rows t' := by
  have hleft : leaf.left = none := by
    obtain ⟨nd, h1, h2⟩ := (h.leaves id).1 hmem
    rw [hn] at h1
    obtain rfl := Option.some.inj h1
    exact h2
  have hrows : ∀ j, rowsOf t' j = rowsOf t j := by
    intro j
    unfold rowsOf
    rw [e1]
    by_cases hij : id = j
    · subst hij
      rw [getElem?_set_eq hn, hn]
      simp [hi]
    · rw [List.getElem?_set_ne hij]
  refine ⟨?_, ?_, ?_, ?_, ?_, ?_, ?_, ?_⟩
  · rw [e1]
    exact update_links hn hleft hl hr hi hd h.links
  · rw [e1]
    exact update_parents hn hl hr h.parents
  · have key : ∀ (p : Nat) (np : Node K), t'.nodes[p]? = some np → ∃ np' : Node K, t.nodes[p]? = some np' ∧ np'.left = np.left ∧ np'.right = np.right := by
      intro p np hp
      rw [e1] at hp
      rcases getElem?_set_cases hp with ⟨rfl, rfl⟩ | ⟨_, hp⟩
      · exact ⟨leaf, hn, hl.symm, hr.symm⟩
      · exact ⟨np, hp, rfl, rfl⟩
    intro p q np nq c hp hq hpc hqc
    obtain ⟨np', a1, a2, a3⟩ := key p np hp
    obtain ⟨nq', b1, b2, b3⟩ := key q nq hq
    exact h.uniq p q np' nq' c a1 b1 (by rw [a2, a3]; exact hpc) (by rw [b2, b3]; exact hqc)
  · intro j
    rw [e1, e2, update_leaves hn hl]
    exact h.leaves j
  · rw [e1, e3, List.length_set]
    exact h.numNodes
  · rw [e2, e3]
    exact h.numLeaves
  · rw [e2, show rowsOf t' = rowsOf t from funext hrows]
    exact h.perm
  · obtain ⟨nd, h1, h2, h3⟩ := h.root
    rw [e1]
    by_cases hij : id = 0
    · subst hij
      rw [hn] at h1
      obtain rfl := Option.some.inj h1
      exact ⟨nd', getElem?_set_eq hn, by rw [hi, h2], by rw [hd, h3]⟩
    · exact ⟨nd, by rw [List.getElem?_set_ne hij]; exact h1, h2, h3⟩

theorem flatMap_eraseIdx {α β : Type} (l : List α) (f : α → List β) (pos : Nat) (x : α) (h : l[pos]? = some x) :
    (l.flatMap f).Perm ((l.eraseIdx pos).flatMap f ++ f x) := by
  have h1 : l.Perm (x :: l.eraseIdx pos) := by
    obtain ⟨hp, rfl⟩ := List.getElem?_eq_some_iff.1 h
    exact (List.getElem_cons_eraseIdx_perm hp).symm
  refine (h1.flatMap_right f).trans ?_
  rw [List.flatMap_cons]
  exact List.perm_append_comm

section
variable {R : Rng K G} {mem : Nat → Junk K} {A : TreeArgs K} {dd : DiscDict K} {t0 : Tree K G}

theorem Start.tshape (h : Start R A dd t0) : TShape A.data A.rows t0 := by
  obtain ⟨nd, hn, hf⟩ := h.root
  have h0 : ∀ id nd', t0.nodes[id]? = some nd' → id = 0 ∧ nd' = nd := by
    intro id nd' hid
    rw [hn] at hid
    match id, hid with
    | 0, hid => exact ⟨rfl, by simpa using hid.symm⟩
    | k + 1, hid => simp at hid
  refine ⟨?_, ?_, ?_, ?_, ?_, ?_, ?_, ?_⟩
  · intro id nd' hid
    obtain ⟨rfl, rfl⟩ := h0 id nd' hid
    exact Or.inl ⟨hf.left_eq, hf.right_eq⟩
  · intro id h1 h2
    rw [hn] at h2
    simp at h2
    omega
  · intro p q np nq c hp hq _ _
    rw [(h0 p np hp).1, (h0 q nq hq).1]
  · intro id
    rw [h.leaves]
    constructor
    · intro hid
      obtain rfl : id = 0 := by simpa using hid
      exact ⟨nd, by rw [hn]; rfl, hf.left_eq⟩
    · rintro ⟨nd', h1, _⟩
      obtain ⟨rfl, _⟩ := h0 _ _ h1
      simp
  · rw [hn, h.numSplits]; rfl
  · rw [h.leaves, h.numSplits]; rfl
  · rw [h.leaves]
    simp [rowsOf, hn, hf.idcs_eq]
  · exact ⟨nd, by rw [hn]; rfl, hf.idcs_eq, hf.depth_eq⟩

theorem TSteps.tshape {t : Tree K G} (h0 : Start R A dd t0) (h : TSteps R mem t0 t) : TShape A.data A.rows t := by
  induction h with
  | refl => exact h0.tshape
  | step hprev hs ih =>
    have hbase := hprev.base
    have hsim := h0.sim.steps hprev
    have hnodes := hprev.nodesOK h0
    cases hs with
    | mark hl hn hc =>
      rename_i t1 id leaf
      exact ih.update hl hn (nd' := { leaf with isSplittable := some false }) rfl rfl rfl rfl rfl rfl rfl
    | solve hl hn hc hb hcomp hsp hnb hd hls hs =>
      rename_i t1 id leaf glob glob' nb data labels r q g'
      obtain ⟨e1, e2, e3, e4, e5, e6, e7, e8, e9, e10, _⟩ := nodeRecord_static { leaf with numBins := nb } r q
      exact ih.update hl hn (nd' := { nodeRecord { leaf with numBins := nb } r q with
          isSplittable := some (splittableImpurity t1.cfg t1.nData (nodeRecord { leaf with numBins := nb } r q)) })
        e9 e10 e1 e6 rfl rfl rfl
    | depth hd => exact ⟨ih.links, ih.parents, ih.uniq, ih.leaves, ih.numNodes, ih.numLeaves, ih.perm, ih.root⟩
    | split hl hn hc hcomp hsp hred hneg himp hd hls hcol hne1 hne2 hcl hcr =>
      rename_i t1 pos id leaf l r red data labels col g1 g2
      have hmem := List.mem_of_getElem? hl
      have ho := hnodes _ _ hn
      have hlt := (List.getElem?_eq_some_iff.1 hn).1
      obtain ⟨nd', hnd', hleft⟩ := (ih.leaves id).1 hmem
      rw [hn] at hnd'
      obtain rfl := Option.some.inj hnd'
      have hd' := ho.open_data hleft
      rw [hd] at hd'
      obtain rfl := Option.some.inj hd'
      have hne : leaf.idcs ≠ [] := by
        intro h
        rw [h] at hne1
        exact hne1 (by simp [splitIdcs])
      obtain ⟨hf, hcol'⟩ := subRows_col hcol hne
      have hfeat : leaf.splitFeature = some (leaf.featIdcs.getD leaf.prevSplitFeature 0) := by
        obtain ⟨_, _, ⟨_, _, _, _, r, _, _, _, hrec, _⟩, _⟩ := ho.solved hcomp
        cases r with
        | none => rw [hrec.1] at hred; cases hred
        | some s => rw [hrec.2.2.2, hrec.2.1]
      have hfl := Node_init_fresh hcl
      have hfr := Node_init_fresh hcr
      have hi := splitIdcs_map leaf.idcs (fun i => (A.data.getD i []).getD (leaf.featIdcs.getD leaf.prevSplitFeature 0) 0)
        leaf.splitValue
      rw [← hcol'] at hi
      have hil := hfl.idcs_eq
      have hir := hfr.idcs_eq
      rw [hi] at hil hir hne1 hne2
      have hsplit : SplitOf A.data { leaf with
          left := some t1.nodes.length, right := some (t1.nodes.length + 1)
          cacheCls := none, cacheReg := none, alreadySplit := true, data := none, labels := none } l r :=
        { feat := ⟨_, hfeat, by rw [List.getD_eq_getElem _ _ hf]; exact List.getElem_mem _, hil, hir⟩
          left_ne := by rw [hil]; exact hne1
          right_ne := by rw [hir]; exact hne2
          left_depth := hfl.depth_eq
          right_depth := hfr.depth_eq }
      generalize hp : { leaf with
          left := some t1.nodes.length, right := some (t1.nodes.length + 1)
          cacheCls := none, cacheReg := none, alreadySplit := true, data := none, labels := none } = p at *
      have hpl : p.left = some t1.nodes.length := by rw [← hp]
      have hpr : p.right = some (t1.nodes.length + 1) := by rw [← hp]
      have hpi : p.idcs = leaf.idcs := by rw [← hp]
      have hpd : p.depth = leaf.depth := by rw [← hp]
      have gid : (t1.nodes.set id p ++ [l, r])[id]? = some p := by
        rw [List.getElem?_append_left (by rw [List.length_set]; exact hlt)]
        exact getElem?_set_eq hn
      have gl : (t1.nodes.set id p ++ [l, r])[t1.nodes.length]? = some l := by
        rw [List.getElem?_append_right (by rw [List.length_set]), List.length_set]
        simp
      have gr : (t1.nodes.set id p ++ [l, r])[t1.nodes.length + 1]? = some r := by
        rw [List.getElem?_append_right (by rw [List.length_set]; omega), List.length_set]
        simp
      have gother : ∀ j nd, j ≠ id → t1.nodes[j]? = some nd → (t1.nodes.set id p ++ [l, r])[j]? = some nd := by
        intro j nd hj hjn
        have := (List.getElem?_eq_some_iff.1 hjn).1
        rw [List.getElem?_append_left (by rw [List.length_set]; exact this), List.getElem?_set_ne (Ne.symm hj)]
        exact hjn
      have gcases : ∀ j nd, (t1.nodes.set id p ++ [l, r])[j]? = some nd →
          (j = id ∧ nd = p) ∨ (j ≠ id ∧ t1.nodes[j]? = some nd) ∨ (j = t1.nodes.length ∧ nd = l) ∨
          (j = t1.nodes.length + 1 ∧ nd = r) := by
        intro j nd hj
        rcases getElem?_append_cases hj with hj' | ⟨h1, h2⟩ | ⟨h1, h2⟩
        · rcases getElem?_set_cases hj' with ⟨rfl, rfl⟩ | ⟨h1, hj'⟩
          · exact Or.inl ⟨rfl, rfl⟩
          · exact Or.inr (Or.inl ⟨Ne.symm h1, hj'⟩)
        · rw [List.length_set] at h1
          exact Or.inr (Or.inr (Or.inl ⟨h1, h2⟩))
        · rw [List.length_set] at h1
          exact Or.inr (Or.inr (Or.inr ⟨h1, h2⟩))
      have gkey : ∀ (k : Nat) (n : Node K), t1.nodes[k]? = some n → ∃ n', (t1.nodes.set id p ++ [l, r])[k]? = some n' ∧
          n'.idcs = n.idcs ∧ n'.depth = n.depth := by
        intro k n hk
        by_cases hik : k = id
        · subst hik
          rw [hn] at hk
          obtain rfl := Option.some.inj hk
          exact ⟨p, gid, hpi, hpd⟩
        · exact ⟨n, gother k n hik hk, rfl, rfl⟩
      have gchild : ∀ (j : Nat) (nd : Node K) (c : Nat), (t1.nodes.set id p ++ [l, r])[j]? = some nd → (nd.left = some c ∨ nd.right = some c) →
          (j = id ∧ t1.nodes.length ≤ c) ∨ (t1.nodes[j]? = some nd ∧ c < t1.nodes.length) := by
        intro j nd c hj hc
        rcases gcases j nd hj with ⟨rfl, rfl⟩ | ⟨_, hj'⟩ | ⟨rfl, rfl⟩ | ⟨rfl, rfl⟩
        · left
          rw [hpl, hpr] at hc
          simp only [Option.some.injEq] at hc
          exact ⟨rfl, by omega⟩
        · right
          refine ⟨hj', ?_⟩
          rcases ih.links j nd hj' with ⟨h1, h2⟩ | ⟨l', r', nl, nr, h1, h2, _, _, _, h6, h7, _⟩
          · rw [h1, h2] at hc
            rcases hc with hc | hc <;> cases hc
          · rw [h1, h2] at hc
            rcases hc with hc | hc
            · cases hc
              exact (List.getElem?_eq_some_iff.1 h6).1
            · cases hc
              exact (List.getElem?_eq_some_iff.1 h7).1
        · rw [hfl.left_eq, hfl.right_eq] at hc
          rcases hc with hc | hc <;> cases hc
        · rw [hfr.left_eq, hfr.right_eq] at hc
          rcases hc with hc | hc <;> cases hc
      refine ⟨?_, ?_, ?_, ?_, ?_, ?_, ?_, ?_⟩
      · intro j nd hj
        simp only [] at hj ⊢
        rcases gcases j nd hj with ⟨rfl, rfl⟩ | ⟨_, hj'⟩ | ⟨rfl, rfl⟩ | ⟨rfl, rfl⟩
        · exact Or.inr ⟨_, _, l, r, hpl, hpr, hlt, by omega, by omega, gl, gr, hsplit⟩
        · rcases ih.links j nd hj' with h1 | ⟨l', r', nl, nr, h1, h2, h3, h4, h5, h6, h7, h8⟩
          · exact Or.inl h1
          · obtain ⟨nl', a1, a2, a3⟩ := gkey _ _ h6
            obtain ⟨nr', b1, b2, b3⟩ := gkey _ _ h7
            exact Or.inr ⟨l', r', nl', nr', h1, h2, h3, h4, h5, a1, b1, h8.congr a2 a3 b2 b3⟩
        · exact Or.inl ⟨hfl.left_eq, hfl.right_eq⟩
        · exact Or.inl ⟨hfr.left_eq, hfr.right_eq⟩
      · intro j hj hjl
        simp only [List.length_append, List.length_set, List.length_cons, List.length_nil] at hjl ⊢
        rcases Nat.lt_or_ge j t1.nodes.length with h1 | h1
        · obtain ⟨q, nd, h2, h3, h4⟩ := ih.parents j hj h1
          have hqid : q ≠ id := by
            rintro rfl
            rw [hn] at h3
            obtain rfl := Option.some.inj h3
            rw [hleft, (ho.right_none hleft).1] at h4
            rcases h4 with h4 | h4 <;> cases h4
          exact ⟨q, nd, h2, gother q nd hqid h3, h4⟩
        · rcases Nat.lt_or_ge j (t1.nodes.length + 1) with h2 | h2
          · obtain rfl : j = t1.nodes.length := by omega
            exact ⟨id, p, hlt, gid, Or.inl hpl⟩
          · obtain rfl : j = t1.nodes.length + 1 := by omega
            exact ⟨id, p, by omega, gid, Or.inr hpr⟩
      · intro a b na nb c ha hb hac hbc
        rcases gchild a na c ha hac with ⟨h1, h2⟩ | ⟨h1, h2⟩ <;> rcases gchild b nb c hb hbc with ⟨h3, h4⟩ | ⟨h3, h4⟩
        · rw [h1, h3]
        · omega
        · omega
        · exact ih.uniq a b na nb c h1 h3 hac hbc
      · intro j
        simp only []
        rw [List.mem_append, mem_eraseIdx_of_nodup hsim.nodup hl]
        constructor
        · rintro (⟨h1, h2⟩ | h1)
          · obtain ⟨nd, h3, h4⟩ := (ih.leaves j).1 h1
            exact ⟨nd, gother j nd h2 h3, h4⟩
          · simp only [List.mem_cons, List.not_mem_nil, or_false] at h1
            rcases h1 with rfl | rfl
            · exact ⟨l, gl, hfl.left_eq⟩
            · exact ⟨r, gr, hfr.left_eq⟩
        · rintro ⟨nd, h1, h2⟩
          rcases gcases j nd h1 with ⟨rfl, rfl⟩ | ⟨h3, hj'⟩ | ⟨rfl, rfl⟩ | ⟨rfl, rfl⟩
          · rw [hpl] at h2; cases h2
          · exact Or.inl ⟨(ih.leaves j).2 ⟨nd, hj', h2⟩, h3⟩
          · exact Or.inr (by simp)
          · exact Or.inr (by simp)
      · simp only [List.length_append, List.length_set, List.length_cons, List.length_nil]
        have := ih.numNodes
        omega
      · simp only [List.length_append, List.length_cons, List.length_nil]
        have := ih.numLeaves
        have hp := (List.getElem?_eq_some_iff.1 hl).1
        rw [List.length_eraseIdx_of_lt hp]
        omega
      · refine List.Perm.trans ?_ ih.perm
        refine List.Perm.trans ?_ (flatMap_eraseIdx _ _ _ _ hl).symm
        simp only []
        rw [List.flatMap_append]
        apply List.Perm.append
        · apply List.Perm.of_eq
          apply List.flatMap_congr
          intro j hj
          have := (mem_eraseIdx_of_nodup hsim.nodup hl).1 hj
          obtain ⟨nd, h1, _⟩ := (ih.leaves j).1 this.1
          unfold rowsOf
          simp only []
          rw [gother j nd this.2 h1, h1]
        · simp only [List.flatMap_cons, List.flatMap_nil, List.append_nil]
          unfold rowsOf
          simp only []
          rw [gl, gr, hn]
          simp only [Option.map_some, Option.getD_some]
          rw [hil, hir]
          exact filter_le_gt_perm _ _ _
      · obtain ⟨nd, h1, h2, h3⟩ := ih.root
        obtain ⟨nd', h4, h5, h6⟩ := gkey _ _ h1
        exact ⟨nd', h4, by rw [h5, h2], by rw [h6, h3]⟩

end

end FF
