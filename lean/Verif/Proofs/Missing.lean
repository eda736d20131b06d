import Verif.Spec.Missing
import Verif.Proofs.TreePass
import Verif.Proofs.TreePredict

/-!
# Growing a tree on data with missing values
-/

namespace FF

open Spec

set_option linter.unusedSectionVars false

variable {K : Type} [Field K] [LinearOrder K] [IsStrictOrderedRing K] [FloorRing K] [NpFun K] {G : Type}

theorem splitIdcsNaN_map (nan : K) (idcs : List Nat) (f : Nat → K) (v : K) :
    splitIdcsNaN nan idcs (idcs.map f) v = (idcs.filter (fun i => decide (f i ≠ nan ∧ v ≠ nan ∧ f i ≤ v)),
      idcs.filter (fun i => decide (f i ≠ nan ∧ v ≠ nan ∧ v < f i))) := by
  unfold splitIdcsNaN
  congr 1
  · induction idcs with
    | nil => rfl
    | cons i is ih =>
      simp only [List.map_cons, List.zip_cons_cons, List.filter_cons]
      split_ifs <;> simp_all
  · induction idcs with
    | nil => rfl
    | cons i is ih =>
      simp only [List.map_cons, List.zip_cons_cons, List.filter_cons]
      split_ifs <;> simp_all

/-- The children made by splitting `p`, with missing values. -/
structure SplitOfNaN (nan : K) (data : List (List K)) (p l r : Node K) : Prop where
  feat : ∃ f, p.splitFeature = some f ∧ f ∈ p.featIdcs ∧
    l.idcs = p.idcs.filter (fun i => decide ((data.getD i []).getD f 0 ≠ nan ∧ (data.getD i []).getD f 0 ≤ p.splitValue)) ∧
    r.idcs = p.idcs.filter (fun i => decide ((data.getD i []).getD f 0 ≠ nan ∧ p.splitValue < (data.getD i []).getD f 0))
  left_ne : l.idcs ≠ []
  right_ne : r.idcs ≠ []

/-- Invariant of the nodes. -/
structure NNode (cfg : TreeCfg K) (data : List (List K)) (labels : List K) (nd : Node K) : Prop where
  rows_lt : ∀ i ∈ nd.idcs, i < data.length ∧ ∀ j ∈ nd.featIdcs, j < (data.getD i []).length
  counts_cls : cfg.isCls = true → countsOfLabels cfg.classes (labelsOf labels nd.idcs) = .ok nd.counts
  open_data : nd.left = none → nd.data = some (subRows data nd.idcs nd.featIdcs)
  open_labels : nd.left = none → nd.labels = some (labelsOf labels nd.idcs)
  feat : nd.splitReduction ≠ none → nd.splitFeature = some (nd.featIdcs.getD nd.prevSplitFeature 0)
  cache : nd.cacheCls = none ∧ nd.cacheReg = none

/-- Invariant of the growing tree. -/
structure NInv (nan : K) (A : TreeArgs K) (t : Tree K G) : Prop where
  sim : SimInv t
  cls : t.cfg.isCls = A.cfg.isCls ∧ t.cfg.classes = A.cfg.classes
  data : t.data = A.data
  labels : t.labels = A.labels
  node : ∀ (id : Nat) (nd : Node K), t.nodes[id]? = some nd → NNode t.cfg A.data A.labels nd
  links : ∀ (id : Nat) (nd : Node K), t.nodes[id]? = some nd → (nd.left = none ∧ nd.right = none) ∨
    ∃ l r nl nr, nd.left = some l ∧ nd.right = some r ∧ id < l ∧ id < r ∧ l ≠ r ∧ t.nodes[l]? = some nl ∧
      t.nodes[r]? = some nr ∧ SplitOfNaN nan A.data nd nl nr
  parents : ∀ id, 0 < id → id < t.nodes.length → ∃ p nd, p < id ∧ t.nodes[p]? = some nd ∧ (nd.left = some id ∨ nd.right = some id)
  uniq : ∀ (p q : Nat) (np nq : Node K) (c : Nat), t.nodes[p]? = some np → t.nodes[q]? = some nq → (np.left = some c ∨ np.right = some c) →
    (nq.left = some c ∨ nq.right = some c) → p = q
  root : ∃ nd, t.nodes[0]? = some nd ∧ nd.idcs = A.rows

theorem NNode.of_fresh {cfg : TreeCfg K} {data : List (List K)} {labels : List K} {feats : List Nat} {d : DiscDict K} {idcs : List Nat}
    {depth : Nat} {proportion : K} {numBins : Option Nat} {nd : Node K}
    (h : Fresh cfg data labels feats d idcs depth proportion numBins nd) : NNode cfg data labels nd where
  rows_lt := by rw [h.idcs_eq]; exact h.rows_lt
  counts_cls := fun hc => by rw [h.idcs_eq]; exact h.counts_cls hc
  open_data := fun _ => by rw [h.idcs_eq]; exact h.data_eq
  open_labels := fun _ => by rw [h.idcs_eq]; exact h.labels_eq
  feat := fun hr => absurd h.red_eq hr
  cache := ⟨h.cacheCls_eq, h.cacheReg_eq⟩

theorem NInv.start {nan : K} {R : Rng K G} {A : TreeArgs K} {dd : DiscDict K} {t : Tree K G} (h : Start R A dd t) : NInv nan A t := by
  obtain ⟨nd, hn, hf⟩ := h.root
  have h0 : ∀ (id : Nat) (nd' : Node K), t.nodes[id]? = some nd' → id = 0 ∧ nd' = nd := by
    intro id nd' hid
    rw [hn] at hid
    match id, hid with
    | 0, hid => exact ⟨rfl, by simpa using hid.symm⟩
    | k + 1, hid => simp at hid
  refine ⟨h.sim, by rw [h.cfg]; exact ⟨rfl, rfl⟩, h.data, h.labels, ?_, ?_, ?_, ?_, ⟨nd, by rw [hn]; rfl, hf.idcs_eq⟩⟩
  · intro id nd' hid
    obtain ⟨_, rfl⟩ := h0 id nd' hid
    exact NNode.of_fresh hf
  · intro id nd' hid
    obtain ⟨_, rfl⟩ := h0 id nd' hid
    exact Or.inl ⟨hf.left_eq, hf.right_eq⟩
  · intro id h1 h2
    rw [hn] at h2
    simp at h2
    omega
  · intro p q np nq c hp hq _ _
    rw [(h0 p np hp).1, (h0 q nq hq).1]

/-- Replacing an open node by one with the same rows, columns and links. -/
theorem NInv.update {nan : K} {A : TreeArgs K} {t t' : Tree K G} {id : Nat} {leaf nd' : Node K} (h : NInv nan A t)
    (hn : t.nodes[id]? = some leaf) (hleft : leaf.left = none) (hl : nd'.left = leaf.left) (hr : nd'.right = leaf.right)
    (hi : nd'.idcs = leaf.idcs) (hok : NNode t.cfg A.data A.labels nd') (e1 : t'.nodes = t.nodes.set id nd') (e2 : t'.cfg = t.cfg)
    (e3 : t'.data = t.data) (e4 : t'.labels = t.labels) (hsim : SimInv t') : NInv nan A t' := by
  have key : ∀ (k : Nat) (n : Node K), t.nodes[k]? = some n → ∃ n', t'.nodes[k]? = some n' ∧ n'.idcs = n.idcs := by
    intro k n hk
    rw [e1]
    by_cases hik : id = k
    · subst hik
      rw [hn] at hk
      obtain rfl := Option.some.inj hk
      exact ⟨nd', getElem?_set_eq hn, hi⟩
    · exact ⟨n, by rw [List.getElem?_set_ne hik]; exact hk, rfl⟩
  refine ⟨hsim, by rw [e2]; exact h.cls, e3.trans h.data, e4.trans h.labels, ?_, ?_, ?_, ?_, ?_⟩
  · intro j nd hj
    rw [e2]
    rw [e1] at hj
    rcases getElem?_set_cases hj with ⟨rfl, rfl⟩ | ⟨_, hj'⟩
    · exact hok
    · exact h.node _ _ hj'
  · intro j nd hj
    rw [e1] at hj
    rcases getElem?_set_cases hj with ⟨rfl, rfl⟩ | ⟨_, hj'⟩
    · rcases h.links _ _ hn with ⟨h1, h2⟩ | ⟨l, r, nl, nr, h1, _⟩
      · exact Or.inl ⟨by rw [hl, h1], by rw [hr, h2]⟩
      · rw [hleft] at h1
        cases h1
    · rcases h.links _ _ hj' with h1 | ⟨l, r, nl, nr, h1, h2, h3, h4, hlr, h5, h6, h7⟩
      · exact Or.inl h1
      · obtain ⟨nl', a1, a2⟩ := key _ _ h5
        obtain ⟨nr', b1, b2⟩ := key _ _ h6
        exact Or.inr ⟨l, r, nl', nr', h1, h2, h3, h4, hlr, a1, b1,
          ⟨by rw [a2, b2]; exact h7.feat, by rw [a2]; exact h7.left_ne, by rw [b2]; exact h7.right_ne⟩⟩
  · rw [e1]
    exact update_parents hn hl hr h.parents
  · have key : ∀ (p : Nat) (np : Node K), t'.nodes[p]? = some np → ∃ np' : Node K, t.nodes[p]? = some np' ∧ np'.left = np.left ∧
        np'.right = np.right := by
      intro p np hp
      rw [e1] at hp
      rcases getElem?_set_cases hp with ⟨rfl, rfl⟩ | ⟨_, hp⟩
      · exact ⟨leaf, hn, hl.symm, hr.symm⟩
      · exact ⟨np, hp, rfl, rfl⟩
    intro p q np nq c hp hq hpc hqc
    obtain ⟨np', a1, a2, a3⟩ := key p np hp
    obtain ⟨nq', b1, b2, b3⟩ := key q nq hq
    exact h.uniq p q np' nq' c a1 b1 (by rw [a2, a3]; exact hpc) (by rw [b2, b3]; exact hqc)
  · obtain ⟨nd, h1, h2⟩ := h.root
    obtain ⟨nd', h3, h4⟩ := key _ _ h1
    exact ⟨nd', h3, by rw [h4, h2]⟩

theorem TStep.numSplits_le {R : Rng K G} {mem : Nat → Junk K} {t t' : Tree K G} (h : TStep R mem t t') : t.numSplits ≤ t'.numSplits := by
  cases h <;> simp

theorem TSteps.numSplits_le {R : Rng K G} {mem : Nat → Junk K} {t t' : Tree K G} (h : TSteps R mem t t') : t.numSplits ≤ t'.numSplits := by
  induction h with
  | refl => exact le_refl _
  | step _ hs ih => exact ih.trans hs.numSplits_le

/-- Steps that make no split keep the invariant. -/
theorem NInv.steps {nan : K} {R : Rng K G} {mem : Nat → Junk K} {A : TreeArgs K} {t t' : Tree K G} (h : NInv nan A t)
    (hs : TSteps R mem t t') (hn : t'.numSplits = t.numSplits) : NInv nan A t' := by
  induction hs with
  | refl => exact h
  | step hprev hs ih =>
    have hp := hprev.numSplits_le
    have hsim := h.sim.steps (hprev.step hs)
    cases hs with
    | mark hl hn' hc =>
      rename_i t1 id leaf
      have hi := ih hn
      obtain ⟨nd, hnd, hok⟩ := hi.sim.leaf id hl
      rw [hn'] at hnd
      obtain rfl := Option.some.inj hnd
      have ho := hi.node _ _ hn'
      exact hi.update hn' hok.left_eq (nd' := { leaf with isSplittable := some false }) rfl rfl rfl
        ⟨ho.rows_lt, ho.counts_cls, ho.open_data, ho.open_labels, ho.feat, ho.cache⟩ rfl rfl rfl rfl hsim
    | solve hl hn' hc hb hcomp hsp hnb hd hls hs =>
      rename_i t1 id leaf glob glob' nb data labels r q g'
      have hi := ih hn
      obtain ⟨nd, hnd, hok⟩ := hi.sim.leaf id hl
      rw [hn'] at hnd
      obtain rfl := Option.some.inj hnd
      have ho := hi.node _ _ hn'
      obtain ⟨e1, e2, e3, e4, e5, e6, e7, e8, e9, e10, e11, e12, e13, e14, e15, e16, e17, e18, e19⟩ :=
        nodeRecord_static { leaf with numBins := nb } r q
      refine hi.update hn' hok.left_eq (nd' := { nodeRecord { leaf with numBins := nb } r q with
          isSplittable := some (splittableImpurity t1.cfg t1.nData (nodeRecord { leaf with numBins := nb } r q)) })
        e9 e10 e1 ?_ rfl rfl rfl rfl hsim
      refine ⟨?_, ?_, ?_, ?_, ?_, ?_⟩
      · simp only [e1, e2]; exact ho.rows_lt
      · simp only [e1, e8]; exact ho.counts_cls
      · simp only [e9, e3, e1, e2]; exact ho.open_data
      · simp only [e9, e4, e1]; exact ho.open_labels
      · intro hr
        cases r with
        | none =>
          have hr' : leaf.splitReduction ≠ none := hr
          obtain ⟨red, hred⟩ := Option.ne_none_iff_exists'.1 hr'
          have := (hok.comp_feat red hred).1
          rw [hcomp] at this
          cases this
        | some s => simp [nodeRecord]
      · simp only [e15, e16]; exact ho.cache
    | split _ _ _ _ _ _ _ _ _ _ _ _ _ _ _ =>
      simp only [] at hn
      omega
    | depth hd =>
      have hi := ih hn
      exact ⟨hsim, hi.cls, hi.data, hi.labels, hi.node, hi.links, hi.parents, hi.uniq, hi.root⟩

theorem scanLeaf_numSplits {R : Rng K G} {mem : Nat → Junk K} {pos id : Nat} {s s' : Scan K G}
    (h : scanLeaf R mem pos id s = .ok (some s')) : s'.t.numSplits = s.t.numSplits := by
  unfold scanLeaf at h
  split at h
  · cases h
  split at h
  · cases h
  · cases h; rfl
  · split at h
    · cases h
    split at h
    · cases h
    · cases h; rfl

theorem scanLeaves_numSplits {R : Rng K G} {mem : Nat → Junk K} : ∀ (ids : List Nat) (pos : Nat) (s s' : Scan K G),
    scanLeaves R mem pos ids s = .ok s' → s'.t.numSplits = s.t.numSplits := by
  intro ids
  induction ids with
  | nil => intro pos s s' h; cases h; rfl
  | cons id ids ih =>
    intro pos s s' h
    unfold scanLeaves at h
    split at h
    · cases h
    · cases h; rfl
    · rename_i s1 h1
      rw [ih _ _ _ h, scanLeaf_numSplits h1]

theorem performSplitNaN_parts {nan : K} {R : Rng K G} {mem : Nat → Junk K} {s : Scan K G} {pos id : Nat} {red : XF K} {t' : Tree K G}
    {glob' : Glob G} (hsim : SimInv s.t) (hbest : BestOK s.t.cfg s.t.leaves s.t.nodes (pos, id, red))
    (hs : performSplitNaN nan R mem s pos id = .ok (t', glob')) :
    ∃ nd data labels col l r g1 g2, s.t.leaves[pos]? = some id ∧ s.t.nodes[id]? = some nd ∧ nd.left = none ∧
      nd.splitReduction = some red ∧ nd.data = some data ∧ nd.labels = some labels ∧
      colE data nd.prevSplitFeature = .ok col ∧
      (splitIdcsNaN nan nd.idcs col nd.splitValue).1 ≠ [] ∧ (splitIdcsNaN nan nd.idcs col nd.splitValue).2 ≠ [] ∧
      childNode R s.t.rng s.t nd labels.length (splitIdcsNaN nan nd.idcs col nd.splitValue).1 = .ok (l, g1) ∧
      childNode R g1 s.t nd labels.length (splitIdcsNaN nan nd.idcs col nd.splitValue).2 = .ok (r, g2) ∧
      t' = { s.t with
        nodes := s.t.nodes.set id { nd with
          left := some s.t.nodes.length, right := some (s.t.nodes.length + 1)
          cacheCls := none, cacheReg := none, alreadySplit := true, data := none, labels := none } ++ [l, r]
        rng := g2
        leaves := s.t.leaves.eraseIdx pos ++ [s.t.nodes.length, s.t.nodes.length + 1]
        numSplits := s.t.numSplits + 1 } := by
  obtain ⟨hpos, nd, hnd, hc, hcomp, hsp, hred⟩ := hbest
  simp only [] at hpos hnd hred
  obtain ⟨nd', hnd', hok⟩ := hsim.leaf id (List.mem_of_getElem? hpos)
  rw [hnd] at hnd'
  obtain rfl := Option.some.inj hnd'
  unfold performSplitNaN splitNodeNaN at hs
  rw [hnd] at hs
  simp only [hok.split_eq, Bool.false_eq_true, if_false] at hs
  rw [if_neg (hok.comp_feat red hred).2] at hs
  simp only [] at hs
  have e2 : s.t.nodes.set id nd = s.t.nodes := by
    obtain ⟨hlt, he⟩ := List.getElem?_eq_some_iff.1 hnd
    rw [← he]
    exact List.set_getElem_self hlt
  rw [e2] at hs
  split at hs
  · cases hs
  rename_i t1 glob1 hsplit
  split at hsplit
  · cases hsplit
  rename_i t2 hcore
  cases hsplit
  unfold splitNodeCoreNaN at hcore
  rw [hred] at hcore
  simp only [] at hcore
  split at hcore
  · cases hcore
  split at hcore
  · rename_i data labels hd hl
    split at hcore
    · cases hcore
    rename_i col hcol
    split_ifs at hcore with hlen
    split at hcore
    · cases hcore
    rename_i l g1 hcl
    split at hcore
    · cases hcore
    rename_i r g2 hcr
    cases hcore
    rw [not_or] at hlen
    cases hs
    have hlt := (List.getElem?_eq_some_iff.1 hnd).1
    have hget : ∀ nd', (s.t.nodes.set id nd' ++ [l, r])[id]? = some nd' := by
      intro nd'
      rw [List.getElem?_append_left (by rw [List.length_set]; exact hlt)]
      exact getElem?_set_eq hnd
    simp only [hget, Option.bind_some]
    exact ⟨nd, data, labels, col, l, r, g1, g2, hpos, hnd, hok.left_eq, hred, hd, hl, hcol,
      fun h => hlen.1 (by rw [h]; rfl), fun h => hlen.2 (by rw [h]; rfl), hcl, hcr, by rw [hred]⟩
  · cases hcore

theorem NInv.split {nan : K} {R : Rng K G} {mem : Nat → Junk K} {A : TreeArgs K} {s : Scan K G} {pos id : Nat} {red : XF K} {t' : Tree K G}
    {glob' : Glob G} (h : NInv nan A s.t) (hbest : BestOK s.t.cfg s.t.leaves s.t.nodes (pos, id, red))
    (hs : performSplitNaN nan R mem s pos id = .ok (t', glob')) : NInv nan A t' := by
  obtain ⟨leaf, data, labels, col, l, r, g1, g2, hpos, hn, hleft, hred, hd, hls, hcol, hne1, hne2, hcl, hcr, rfl⟩ :=
    performSplitNaN_parts h.sim hbest hs
  have hlt := (List.getElem?_eq_some_iff.1 hn).1
  have ho := h.node _ _ hn
  have hd' := ho.open_data hleft
  rw [hd] at hd'
  obtain rfl := Option.some.inj hd'
  have hne : leaf.idcs ≠ [] := by
    intro h
    rw [h] at hne1
    exact hne1 (by simp [splitIdcsNaN])
  obtain ⟨hf, hcol'⟩ := subRows_col hcol hne
  have hfeat := ho.feat (by rw [hred]; simp)
  have hfl := Node_init_fresh hcl
  have hfr := Node_init_fresh hcr
  have hi := splitIdcsNaN_map nan leaf.idcs (fun i => (A.data.getD i []).getD (leaf.featIdcs.getD leaf.prevSplitFeature 0) 0)
    leaf.splitValue
  rw [← hcol'] at hi
  have hil := hfl.idcs_eq
  have hir := hfr.idcs_eq
  rw [hi] at hil hir hne1 hne2
  have hv : leaf.splitValue ≠ nan := by
    intro hv
    apply hne1
    rw [List.filter_eq_nil_iff]
    intro i _
    simp [hv]
  simp only [ne_eq, hv, not_false_eq_true, true_and] at hil hir hne1 hne2
  rw [h.data, h.labels] at hfl hfr
  have hsplit : SplitOfNaN nan A.data { leaf with
      left := some s.t.nodes.length, right := some (s.t.nodes.length + 1)
      cacheCls := none, cacheReg := none, alreadySplit := true, data := none, labels := none } l r :=
    { feat := ⟨_, hfeat, by rw [List.getD_eq_getElem _ _ hf]; exact List.getElem_mem _, hil, hir⟩
      left_ne := by rw [hil]; exact hne1
      right_ne := by rw [hir]; exact hne2 }
  have hpok : NNode s.t.cfg A.data A.labels { leaf with
      left := some s.t.nodes.length, right := some (s.t.nodes.length + 1)
      cacheCls := none, cacheReg := none, alreadySplit := true, data := none, labels := none } :=
    ⟨ho.rows_lt, ho.counts_cls, fun hc => (by cases hc), fun hc => (by cases hc), ho.feat, rfl, rfl⟩
  generalize hp : { leaf with
      left := some s.t.nodes.length, right := some (s.t.nodes.length + 1)
      cacheCls := none, cacheReg := none, alreadySplit := true, data := none, labels := none } = p at *
  have hpl : p.left = some s.t.nodes.length := by rw [← hp]
  have hpr : p.right = some (s.t.nodes.length + 1) := by rw [← hp]
  have hpi : p.idcs = leaf.idcs := by rw [← hp]
  have gid : (s.t.nodes.set id p ++ [l, r])[id]? = some p := by
    rw [List.getElem?_append_left (by rw [List.length_set]; exact hlt)]
    exact getElem?_set_eq hn
  have gl : (s.t.nodes.set id p ++ [l, r])[s.t.nodes.length]? = some l := by
    rw [List.getElem?_append_right (by rw [List.length_set]), List.length_set]
    simp
  have gr : (s.t.nodes.set id p ++ [l, r])[s.t.nodes.length + 1]? = some r := by
    rw [List.getElem?_append_right (by rw [List.length_set]; omega), List.length_set]
    simp
  have gother : ∀ j nd, j ≠ id → s.t.nodes[j]? = some nd → (s.t.nodes.set id p ++ [l, r])[j]? = some nd := by
    intro j nd hj hjn
    have := (List.getElem?_eq_some_iff.1 hjn).1
    rw [List.getElem?_append_left (by rw [List.length_set]; exact this), List.getElem?_set_ne (Ne.symm hj)]
    exact hjn
  have gcases : ∀ j nd, (s.t.nodes.set id p ++ [l, r])[j]? = some nd →
      (j = id ∧ nd = p) ∨ (j ≠ id ∧ s.t.nodes[j]? = some nd) ∨ (j = s.t.nodes.length ∧ nd = l) ∨
      (j = s.t.nodes.length + 1 ∧ nd = r) := by
    intro j nd hj
    rcases getElem?_append_cases hj with hj' | ⟨h1, h2⟩ | ⟨h1, h2⟩
    · rcases getElem?_set_cases hj' with ⟨rfl, rfl⟩ | ⟨h1, hj'⟩
      · exact Or.inl ⟨rfl, rfl⟩
      · exact Or.inr (Or.inl ⟨Ne.symm h1, hj'⟩)
    · rw [List.length_set] at h1
      exact Or.inr (Or.inr (Or.inl ⟨h1, h2⟩))
    · rw [List.length_set] at h1
      exact Or.inr (Or.inr (Or.inr ⟨h1, h2⟩))
  have gkey : ∀ (k : Nat) (n : Node K), s.t.nodes[k]? = some n → ∃ n', (s.t.nodes.set id p ++ [l, r])[k]? = some n' ∧
      n'.idcs = n.idcs := by
    intro k n hk
    by_cases hik : k = id
    · subst hik
      rw [hn] at hk
      obtain rfl := Option.some.inj hk
      exact ⟨p, gid, hpi⟩
    · exact ⟨n, gother k n hik hk, rfl⟩
  have hleaflt : ∀ j ∈ s.t.leaves, j < s.t.nodes.length := by
    intro j hj
    obtain ⟨nd, hnd, _⟩ := h.sim.leaf j hj
    exact (List.getElem?_eq_some_iff.1 hnd).1
  have gchild : ∀ (j : Nat) (nd : Node K) (c : Nat), (s.t.nodes.set id p ++ [l, r])[j]? = some nd → (nd.left = some c ∨ nd.right = some c) →
      (j = id ∧ s.t.nodes.length ≤ c) ∨ (s.t.nodes[j]? = some nd ∧ c < s.t.nodes.length) := by
    intro j nd c hj hc
    rcases gcases j nd hj with ⟨rfl, rfl⟩ | ⟨_, hj'⟩ | ⟨rfl, rfl⟩ | ⟨rfl, rfl⟩
    · left
      rw [hpl, hpr] at hc
      simp only [Option.some.injEq] at hc
      exact ⟨rfl, by omega⟩
    · right
      refine ⟨hj', ?_⟩
      rcases h.links j nd hj' with ⟨h1, h2⟩ | ⟨l', r', nl, nr, h1, h2, _, _, _, h6, h7, _⟩
      · rw [h1, h2] at hc
        rcases hc with hc | hc <;> cases hc
      · rw [h1, h2] at hc
        rcases hc with hc | hc
        · cases hc
          exact (List.getElem?_eq_some_iff.1 h6).1
        · cases hc
          exact (List.getElem?_eq_some_iff.1 h7).1
    · rw [hfl.left_eq, hfl.right_eq] at hc
      rcases hc with hc | hc <;> cases hc
    · rw [hfr.left_eq, hfr.right_eq] at hc
      rcases hc with hc | hc <;> cases hc
  refine ⟨⟨?_, ?_⟩, h.cls, h.data, h.labels, ?_, ?_, ?_, ?_, ?_⟩
  · simp only []
    rw [List.nodup_append]
    refine ⟨h.sim.nodup.sublist (List.eraseIdx_sublist _ _), by simp, ?_⟩
    intro a ha b hb hab
    have := hleaflt a (List.mem_of_mem_eraseIdx ha)
    simp only [List.mem_cons, List.not_mem_nil, or_false] at hb
    omega
  · intro j hj
    simp only [] at hj ⊢
    rcases List.mem_append.1 hj with hj | hj
    · have := (mem_eraseIdx_of_nodup h.sim.nodup hpos).1 hj
      obtain ⟨nd, hnd, hok⟩ := h.sim.leaf j this.1
      exact ⟨nd, gother j nd this.2 hnd, hok⟩
    · simp only [List.mem_cons, List.not_mem_nil, or_false] at hj
      rcases hj with rfl | rfl
      · exact ⟨l, gl, LeafOK.fresh hfl⟩
      · exact ⟨r, gr, LeafOK.fresh hfr⟩
  · intro j nd hj
    simp only [] at hj ⊢
    rcases gcases j nd hj with ⟨rfl, rfl⟩ | ⟨_, hj'⟩ | ⟨rfl, rfl⟩ | ⟨rfl, rfl⟩
    · exact hpok
    · exact h.node j nd hj'
    · exact NNode.of_fresh hfl
    · exact NNode.of_fresh hfr
  · intro j nd hj
    simp only [] at hj ⊢
    rcases gcases j nd hj with ⟨rfl, rfl⟩ | ⟨_, hj'⟩ | ⟨rfl, rfl⟩ | ⟨rfl, rfl⟩
    · exact Or.inr ⟨_, _, l, r, hpl, hpr, hlt, by omega, by omega, gl, gr, hsplit⟩
    · rcases h.links j nd hj' with h1 | ⟨l', r', nl, nr, h1, h2, h3, h4, h5, h6, h7, h8⟩
      · exact Or.inl h1
      · obtain ⟨nl', a1, a2⟩ := gkey _ _ h6
        obtain ⟨nr', b1, b2⟩ := gkey _ _ h7
        exact Or.inr ⟨l', r', nl', nr', h1, h2, h3, h4, h5, a1, b1,
          ⟨by rw [a2, b2]; exact h8.feat, by rw [a2]; exact h8.left_ne, by rw [b2]; exact h8.right_ne⟩⟩
    · exact Or.inl ⟨hfl.left_eq, hfl.right_eq⟩
    · exact Or.inl ⟨hfr.left_eq, hfr.right_eq⟩
  · intro j hj hjl
    simp only [List.length_append, List.length_set, List.length_cons, List.length_nil] at hjl ⊢
    rcases Nat.lt_or_ge j s.t.nodes.length with h1 | h1
    · obtain ⟨q, nd, h2, h3, h4⟩ := h.parents j hj h1
      have hqid : q ≠ id := by
        rintro rfl
        rw [hn] at h3
        obtain rfl := Option.some.inj h3
        rcases h.links _ _ hn with ⟨h5, h6⟩ | ⟨_, _, _, _, h5, _⟩
        · rw [h5, h6] at h4
          rcases h4 with h4 | h4 <;> cases h4
        · rw [hleft] at h5
          cases h5
      exact ⟨q, nd, h2, gother q nd hqid h3, h4⟩
    · rcases Nat.lt_or_ge j (s.t.nodes.length + 1) with h2 | h2
      · obtain rfl : j = s.t.nodes.length := by omega
        exact ⟨id, p, hlt, gid, Or.inl hpl⟩
      · obtain rfl : j = s.t.nodes.length + 1 := by omega
        exact ⟨id, p, by omega, gid, Or.inr hpr⟩
  · intro a b na nb c ha hb hac hbc
    rcases gchild a na c ha hac with ⟨h1, h2⟩ | ⟨h1, h2⟩ <;> rcases gchild b nb c hb hbc with ⟨h3, h4⟩ | ⟨h3, h4⟩
    · rw [h1, h3]
    · omega
    · omega
    · exact h.uniq a b na nb c h1 h3 hac hbc
  · obtain ⟨nd, h1, h2⟩ := h.root
    obtain ⟨nd', h3, h4⟩ := gkey _ _ h1
    exact ⟨nd', h3, by rw [h4, h2]⟩

theorem NInv.fitStep {nan : K} {R : Rng K G} {mem : Nat → Junk K} {A : TreeArgs K} {t t' : Tree K G} {glob glob' : Glob G} {b : Bool}
    (h : NInv nan A t) (hs : fitStepNaN nan R mem t glob = .ok (b, t', glob')) : NInv nan A t' := by
  unfold fitStepNaN at hs
  split at hs
  · cases hs
  · cases hs
    exact h
  · split at hs
    · cases hs
    rename_i s hscan
    obtain ⟨h1, h2⟩ := scanLeaves_sim (t0 := t) ⟨h.sim, rfl, rfl, fun b hb => by cases hb⟩
      (fun i hi => by rw [Nat.zero_add]; exact List.getElem?_eq_getElem hi) hscan
    have h3 : NInv nan A s.t := h.steps h1 (scanLeaves_numSplits _ _ _ _ hscan)
    split at hs
    · cases hs
    rename_i again t1 glob1 hsb
    split at hs
    · cases hs
    cases hs
    have h4 : NInv nan A t1 := by
      unfold splitBestNaN at hsb
      split at hsb
      · rename_i pos id red hbest
        split_ifs at hsb with himp
        · split at hsb
          · cases hsb
          · rename_i hp
            cases hsb
            exact h3.split (h2.best _ hbest) hp
        · cases hsb
          exact h3
      · cases hsb
        exact h3
    exact ⟨⟨h4.sim.nodup, h4.sim.leaf⟩, h4.cls, h4.data, h4.labels, h4.node, h4.links, h4.parents, h4.uniq, h4.root⟩

theorem NInv.fitLoop {nan : K} {R : Rng K G} {mem : Nat → Junk K} {A : TreeArgs K} : ∀ (fuel : Nat) (t t' : Tree K G) (glob glob' : Glob G),
    NInv nan A t → fitLoopNaN nan R mem fuel t glob = .ok (t', glob') → NInv nan A t' := by
  intro fuel
  induction fuel with
  | zero => intro t t' glob glob' _ hs; cases hs
  | succ n ih =>
    intro t t' glob glob' h hs
    unfold fitLoopNaN at hs
    split at hs
    · cases hs
    · rename_i h1
      cases hs
      exact h.fitStep h1
    · rename_i h1
      exact ih _ _ _ _ (h.fitStep h1) hs

theorem FittedNaN.inv {nan : K} {R : Rng K G} {mem : Nat → Junk K} {A : TreeArgs K} {t : Tree K G} (h : FittedNaN nan R mem A t) :
    NInv nan A t := by
  obtain ⟨glob, h⟩ := h.run
  unfold runTreeNaN at h
  split at h
  · cases h
  rename_i t0 g0 h0
  split at h
  · cases h
  rename_i dd hdd
  simp only [] at h
  split at h
  · cases h
  rename_i hl
  cases h
  have hc : Constructed R A t0 := ⟨g0, h0⟩
  exact NInv.fitLoop _ _ _ _ _ (NInv.start (hc.start dd).1) hl

end FF
