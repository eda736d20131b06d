import Verif.Proofs.TreeStep

/-!
# The loop of `fit` is a sequence of small steps
-/

namespace FF

open Spec

set_option linter.unusedSectionVars false

variable {K : Type} [Field K] [LinearOrder K] [IsStrictOrderedRing K] [FloorRing K] [NpFun K] {G : Type}

/-- A node that is a leaf of a growing tree. -/
structure LeafOK (cfg : TreeCfg K) (nd : Node K) : Prop where
  left_eq : nd.left = none
  right_eq : nd.right = none
  split_eq : nd.alreadySplit = false
  comp_splittable : nd.computed = true → nd.isSplittable.isSome = true
  comp_feat : ∀ red, nd.splitReduction = some red → nd.computed = true ∧ nd.splitFeature ≠ none
  uncomp : nd.computed = false → nd.isSplittable = none ∨ splittableConstraints cfg nd = .ok false

/-- The part of the invariant of `fit` needed to follow its control flow. -/
structure SimInv (t : Tree K G) : Prop where
  nodup : t.leaves.Nodup
  leaf : ∀ id ∈ t.leaves, ∃ nd, t.nodes[id]? = some nd ∧ LeafOK t.cfg nd

theorem constraints_congr {cfg : TreeCfg K} {a b : Node K} (h1 : a.depth = b.depth) (h2 : a.nData = b.nData)
    (h3 : a.labels = b.labels) : splittableConstraints cfg a = splittableConstraints cfg b := by
  unfold splittableConstraints
  rw [h1, h2, h3]

theorem nodeRecord_static (node : Node K) (r : Option (SplitRes K)) (q : Nat) :
    (nodeRecord node r q).idcs = node.idcs ∧ (nodeRecord node r q).featIdcs = node.featIdcs ∧
    (nodeRecord node r q).data = node.data ∧ (nodeRecord node r q).labels = node.labels ∧
    (nodeRecord node r q).nData = node.nData ∧ (nodeRecord node r q).depth = node.depth ∧
    (nodeRecord node r q).proportion = node.proportion ∧ (nodeRecord node r q).counts = node.counts ∧
    (nodeRecord node r q).left = node.left ∧ (nodeRecord node r q).right = node.right ∧
    (nodeRecord node r q).alreadySplit = node.alreadySplit ∧ (nodeRecord node r q).computed = true ∧
    (nodeRecord node r q).numQueries = q ∧ (nodeRecord node r q).isSplittable = node.isSplittable ∧
    (nodeRecord node r q).cacheCls = node.cacheCls ∧ (nodeRecord node r q).cacheReg = node.cacheReg ∧
    (nodeRecord node r q).discrete = node.discrete ∧ (nodeRecord node r q).minmax = node.minmax ∧
    (nodeRecord node r q).numBins = node.numBins := by
  cases r <;> simp [nodeRecord]

theorem LeafOK.fresh {cfg : TreeCfg K} {cfg' : TreeCfg K} {tdata : List (List K)} {tlabels : List K} {tfeats : List Nat}
    {tdisc : DiscDict K} {idcs : List Nat} {depth : Nat} {proportion : K} {numBins : Option Nat} {nd : Node K}
    (h : Fresh cfg' tdata tlabels tfeats tdisc idcs depth proportion numBins nd) : LeafOK cfg nd where
  left_eq := h.left_eq
  right_eq := h.right_eq
  split_eq := h.split_eq
  comp_splittable := fun hc => by rw [h.comp_eq] at hc; cases hc
  comp_feat := fun red hr => by rw [h.red_eq] at hr; cases hr
  uncomp := fun _ => Or.inl h.splittable_eq

/-- Lookup in a list of nodes after one entry was replaced. -/
theorem getElem?_set_cases {α : Type} {l : List α} {i j : Nat} {x y : α} (h : (l.set i x)[j]? = some y) :
    (i = j ∧ y = x) ∨ (i ≠ j ∧ l[j]? = some y) := by
  rw [List.getElem?_set] at h
  by_cases hij : i = j
  · subst hij
    rw [if_pos rfl] at h
    split_ifs at h
    exact Or.inl ⟨rfl, (Option.some.inj h).symm⟩
  · rw [if_neg hij] at h
    exact Or.inr ⟨hij, h⟩

theorem getElem?_set_eq {α : Type} {l : List α} {i : Nat} {x y : α} (h : l[i]? = some y) : (l.set i x)[i]? = some x := by
  have := (List.getElem?_eq_some_iff.1 h).1
  rw [List.getElem?_set, if_pos rfl, if_pos this]

theorem getElem?_append_cases {α : Type} {l : List α} {a b y : α} {j : Nat} (h : (l ++ [a, b])[j]? = some y) :
    l[j]? = some y ∨ (j = l.length ∧ y = a) ∨ (j = l.length + 1 ∧ y = b) := by
  rcases Nat.lt_or_ge j l.length with hj | hj
  · rw [List.getElem?_append_left hj] at h
    exact Or.inl h
  · rw [List.getElem?_append_right hj] at h
    rcases Nat.lt_or_ge (j - l.length) 1 with h1 | h1
    · have : j - l.length = 0 := by omega
      rw [this] at h
      exact Or.inr (Or.inl ⟨by omega, (Option.some.inj h).symm⟩)
    · rcases Nat.lt_or_ge (j - l.length) 2 with h2 | h2
      · have : j - l.length = 1 := by omega
        rw [this] at h
        exact Or.inr (Or.inr ⟨by omega, (Option.some.inj h).symm⟩)
      · rw [List.getElem?_eq_none (by simpa using h2)] at h
        cases h

theorem mem_eraseIdx_of_nodup {α : Type} {l : List α} {pos : Nat} {x y : α} (hn : l.Nodup) (hx : l[pos]? = some x) :
    y ∈ l.eraseIdx pos ↔ y ∈ l ∧ y ≠ x := by
  rw [List.mem_eraseIdx_iff_getElem?]
  obtain ⟨hp, rfl⟩ := List.getElem?_eq_some_iff.1 hx
  constructor
  · rintro ⟨i, hi, h⟩
    obtain ⟨hi', rfl⟩ := List.getElem?_eq_some_iff.1 h
    exact ⟨List.getElem_mem _, fun h => hi ((List.Nodup.getElem_inj_iff hn).1 h)⟩
  · rintro ⟨h1, h2⟩
    obtain ⟨i, hi, rfl⟩ := List.getElem_of_mem h1
    exact ⟨i, fun h => h2 (by subst h; rfl), List.getElem?_eq_getElem hi⟩

theorem SimInv.step {R : Rng K G} {mem : Nat → Junk K} {t t' : Tree K G} (h : SimInv t) (hs : TStep R mem t t') :
    SimInv t' := by
  cases hs with
  | mark hl hn hc =>
    rename_i id leaf
    refine ⟨h.nodup, fun j hj => ?_⟩
    by_cases hij : id = j
    · subst hij
      obtain ⟨nd, hnd, hok⟩ := h.leaf id hl
      rw [hn] at hnd
      obtain rfl := Option.some.inj hnd
      exact ⟨_, getElem?_set_eq hn, ⟨hok.left_eq, hok.right_eq, hok.split_eq, fun _ => rfl, hok.comp_feat,
        fun _ => Or.inr ((constraints_congr rfl rfl rfl).trans hc)⟩⟩
    · obtain ⟨nd, hnd, hok⟩ := h.leaf j hj
      exact ⟨nd, by simp only []; rw [List.getElem?_set_ne hij]; exact hnd, hok⟩
  | solve hl hn hc hb hcomp hsp hnb hd hls hs =>
    rename_i id leaf _ _ nb _ _ r q _
    refine ⟨h.nodup, fun j hj => ?_⟩
    by_cases hij : id = j
    · subst hij
      obtain ⟨nd, hnd, hok⟩ := h.leaf id hl
      rw [hn] at hnd
      obtain rfl := Option.some.inj hnd
      obtain ⟨_, _, _, _, _, _, _, _, e1, e2, e3, e4, _⟩ := nodeRecord_static { leaf with numBins := nb } r q
      refine ⟨_, getElem?_set_eq hn, ⟨e1.trans hok.left_eq, e2.trans hok.right_eq, e3.trans hok.split_eq, fun _ => rfl,
        fun red hr => ⟨e4, ?_⟩, fun hf => ?_⟩⟩
      · cases r with
        | none =>
          have : leaf.splitReduction = some red := hr
          have := (hok.comp_feat red this).1
          rw [hcomp] at this
          cases this
        | some s => simp [nodeRecord]
      · simp only [e4] at hf
        cases hf
    · obtain ⟨nd, hnd, hok⟩ := h.leaf j hj
      exact ⟨nd, by simp only []; rw [List.getElem?_set_ne hij]; exact hnd, hok⟩
  | split hl hn hc hcomp hsp hred hneg himp hd hls hcol hne1 hne2 hcl hcr =>
    rename_i pos id leaf l r red data labels col g1 g2
    have hlt : ∀ j ∈ t.leaves, j < t.nodes.length := by
      intro j hj
      obtain ⟨nd, hnd, _⟩ := h.leaf j hj
      exact (List.getElem?_eq_some_iff.1 hnd).1
    constructor
    · simp only []
      rw [List.nodup_append]
      refine ⟨h.nodup.sublist (List.eraseIdx_sublist _ _), by simp, ?_⟩
      intro a ha b hb hab
      have := hlt a (List.mem_of_mem_eraseIdx ha)
      simp only [List.mem_cons, List.not_mem_nil, or_false] at hb
      omega
    · intro j hj
      simp only [] at hj ⊢
      rcases List.mem_append.1 hj with hj | hj
      · have := (mem_eraseIdx_of_nodup h.nodup hl).1 hj
        obtain ⟨nd, hnd, hok⟩ := h.leaf j this.1
        refine ⟨nd, ?_, hok⟩
        rw [List.getElem?_append_left (by rw [List.length_set]; exact hlt j this.1), List.getElem?_set_ne this.2.symm]
        exact hnd
      · simp only [List.mem_cons, List.not_mem_nil, or_false] at hj
        rcases hj with rfl | rfl
        · refine ⟨l, ?_, LeafOK.fresh (Node_init_fresh hcl)⟩
          rw [List.getElem?_append_right (by rw [List.length_set]), List.length_set]
          simp
        · refine ⟨r, ?_, LeafOK.fresh (Node_init_fresh hcr)⟩
          rw [List.getElem?_append_right (by rw [List.length_set]; omega), List.length_set]
          simp
  | depth hd => exact ⟨h.nodup, h.leaf⟩

theorem SimInv.steps {R : Rng K G} {mem : Nat → Junk K} {t t' : Tree K G} (h : SimInv t) (hs : TSteps R mem t t') :
    SimInv t' := by
  induction hs with
  | refl => exact h
  | step _ hs ih => exact ih.step hs

theorem calcBestSplit_computed {R : Rng K G} {g : G} {glob : Glob G} {junk : Junk K} {cfg : TreeCfg K} {node : Node K}
    {budget : Option Int} (h : node.computed = true) : calcBestSplit R g glob junk cfg node budget = .ok (node, g, glob) := by
  unfold calcBestSplit
  rw [if_pos h]

theorem calcBestSplit_ok {R : Rng K G} {g g' : G} {glob glob' : Glob G} {junk : Junk K} {cfg : TreeCfg K} {node node' : Node K}
    {budget : Option Int} (h : node.computed = false)
    (hok : calcBestSplit R g glob junk cfg node budget = .ok (node', g', glob')) :
    ∃ nb data labels r q, nodeBins cfg node = .ok nb ∧ node.data = some data ∧ node.labels = some labels ∧
      nodeSolve R g glob junk cfg { node with numBins := nb } data labels budget = .ok (r, q, g', glob') ∧
      node' = nodeRecord { node with numBins := nb } r q := by
  unfold calcBestSplit at hok
  rw [if_neg (by rw [h]; simp)] at hok
  split at hok
  · cases hok
  rename_i nb hnb
  simp only [] at hok
  split at hok
  · rename_i data labels hd hl
    split at hok
    · cases hok
    · rename_i r q g1 glob1 hs
      cases hok
      exact ⟨nb, data, labels, r, q, hnb, hd, hl, hs, rfl⟩
  · cases hok

/-- The best leaf found so far by the scan. -/
structure BestOK (cfg : TreeCfg K) (leaves : List Nat) (nodes : List (Node K)) (b : Nat × Nat × XF K) : Prop where
  pos : leaves[b.1]? = some b.2.1
  node : ∃ nd, nodes[b.2.1]? = some nd ∧ splittableConstraints cfg nd = .ok true ∧ nd.computed = true ∧
    nd.isSplittable = some true ∧ nd.splitReduction = some b.2.2

/-- Invariant of the scan over the leaves. -/
structure ScanOK (t0 : Tree K G) (s : Scan K G) : Prop where
  sim : SimInv s.t
  leaves : s.t.leaves = t0.leaves
  cfg : s.t.cfg = t0.cfg
  best : ∀ b, s.best = some b → BestOK s.t.cfg s.t.leaves s.t.nodes b

theorem TStep.cfg_eq {R : Rng K G} {mem : Nat → Junk K} {t t' : Tree K G} (h : TStep R mem t t') : t'.cfg = t.cfg := by
  cases h <;> rfl

theorem scanLeaf_sim {R : Rng K G} {mem : Nat → Junk K} {t0 : Tree K G} {s s' : Scan K G} {pos id : Nat}
    (h : ScanOK t0 s) (hpos : t0.leaves[pos]? = some id)
    (hs : scanLeaf R mem pos id s = .ok (some s')) : TSteps R mem s.t s'.t ∧ ScanOK t0 s' := by
  have hmem : id ∈ s.t.leaves := by rw [h.leaves]; exact List.mem_of_getElem? hpos
  obtain ⟨leaf, hleaf, hok⟩ := h.sim.leaf id hmem
  unfold scanLeaf at hs
  rw [hleaf] at hs
  simp only [] at hs
  split at hs
  · cases hs
  · rename_i hc
    cases hs
    have hstep : TStep R mem s.t { s.t with nodes := s.t.nodes.set id { leaf with isSplittable := some false } } :=
      TStep.mark hmem hleaf hc
    refine ⟨.one hstep, h.sim.step hstep, h.leaves, h.cfg, fun b hb => ?_⟩
    obtain ⟨h1, nd, h2, h3, h4⟩ := h.best b hb
    refine ⟨h1, nd, ?_, h3, h4⟩
    simp only []
    rw [List.getElem?_set_ne]
    · exact h2
    · rintro rfl
      rw [hleaf] at h2
      obtain rfl := Option.some.inj h2
      rw [hc] at h3
      cases h3
  · rename_i hc
    by_cases hbud : noBudget s.t.remaining = true
    · rw [if_pos hbud] at hs
      cases hs
    rw [if_neg hbud] at hs
    split at hs
    · cases hs
    rename_i leaf1 g glob hcalc
    by_cases hcomp : leaf.computed = true
    · rw [calcBestSplit_computed hcomp] at hcalc
      cases hcalc
      obtain ⟨b, hb⟩ := Option.isSome_iff_exists.1 (hok.comp_splittable hcomp)
      simp only [if_pos hcomp, hb] at hs
      have e1 : { leaf with isSplittable := some b } = leaf := by cases leaf; simp_all
      have e2 : s.t.nodes.set id leaf = s.t.nodes := by
        obtain ⟨hlt, he⟩ := List.getElem?_eq_some_iff.1 hleaf
        rw [← he]
        exact List.set_getElem_self hlt
      have e3 : s.t.remaining.map (fun b => b - ((0 : Nat) : Int)) = s.t.remaining := by
        cases s.t.remaining <;> simp
      rw [e1, e2, e3] at hs
      simp only [Nat.add_zero] at hs
      cases hs
      refine ⟨.refl, h.sim, h.leaves, h.cfg, fun b' hb' => ?_⟩
      simp only [] at hb' ⊢
      cases hr : leaf.splitReduction with
      | none => rw [hr] at hb'; exact h.best b' hb'
      | some red =>
        rw [hr] at hb'
        simp only [] at hb'
        split_ifs at hb' with hlt
        · rw [Bool.and_eq_true] at hlt
          obtain rfl := Option.some.inj hb'
          exact ⟨by rw [h.leaves]; exact hpos, leaf, hleaf, hc, hcomp, by rw [hb, hlt.2], hr⟩
        · exact h.best b' hb'
    · have hcomp' : leaf.computed = false := by simpa using hcomp
      obtain ⟨nb, data, labels, r, q, hnb, hd, hl, hsolve, hrec⟩ := calcBestSplit_ok hcomp' hcalc
      have hspl : leaf.isSplittable = none := by
        rcases hok.uncomp hcomp' with h1 | h1
        · exact h1
        · rw [hc] at h1; cases h1
      obtain ⟨e1, e2, e3, e4, e5, e6, e7, e8, e9, e10, e11, e12, e13, e14, _⟩ :=
        nodeRecord_static { leaf with numBins := nb } r q
      rw [← hrec] at e1 e2 e3 e4 e5 e6 e7 e8 e9 e10 e11 e12 e13 e14
      have e14' : leaf1.isSplittable = none := e14.trans hspl
      have hq : (if leaf.computed = true then 0 else leaf1.numQueries) = q := by rw [if_neg hcomp, e13]
      rw [hq] at hs
      simp only [e14'] at hs
      have hstep := TStep.solve (R := R) (mem := mem) hmem hleaf hc (fun b hb => by
        rw [hb] at hbud
        simpa [noBudget] using hbud) hcomp' hspl hnb hd hl hsolve
      rw [← hrec] at hstep
      cases hs
      refine ⟨.one hstep, h.sim.step hstep, h.leaves, h.cfg, fun b' hb' => ?_⟩
      have hold : s.best = some b' → BestOK s.t.cfg s.t.leaves
          (s.t.nodes.set id { leaf1 with isSplittable := some (splittableImpurity s.t.cfg s.t.nData leaf1) }) b' := by
        intro hb''
        obtain ⟨h1, nd, h2, h3, h4, h5⟩ := h.best b' hb''
        refine ⟨h1, nd, ?_, h3, h4, h5⟩
        rw [List.getElem?_set_ne]
        · exact h2
        · rintro rfl
          rw [hleaf] at h2
          obtain rfl := Option.some.inj h2
          exact hcomp h4
      rcases Option.eq_none_or_eq_some leaf1.splitReduction with hr | ⟨red, hr⟩
      · simp only [hr] at hb'; exact hold hb'
      · simp only [hr] at hb'
        split_ifs at hb' with hlt
        · rw [Bool.and_eq_true] at hlt
          obtain rfl := Option.some.inj hb'
          refine ⟨by rw [← h.leaves] at hpos; exact hpos, _, getElem?_set_eq hleaf,
            (constraints_congr e6 e5 e4).trans hc, e12, by simp only [hlt.2], hr⟩
        · exact hold hb'

theorem scanLeaves_sim {R : Rng K G} {mem : Nat → Junk K} {t0 : Tree K G} {ids : List Nat} {pos : Nat} {s s' : Scan K G}
    (h : ScanOK t0 s) (hpos : ∀ i (hi : i < ids.length), t0.leaves[pos + i]? = some ids[i])
    (hs : scanLeaves R mem pos ids s = .ok s') : TSteps R mem s.t s'.t ∧ ScanOK t0 s' := by
  induction ids generalizing pos s with
  | nil =>
    cases hs
    exact ⟨.refl, h⟩
  | cons id ids ih =>
    unfold scanLeaves at hs
    split at hs
    · cases hs
    · cases hs
      exact ⟨.refl, h⟩
    · rename_i s1 hs1
      obtain ⟨h1, h2⟩ := scanLeaf_sim h (by have := hpos 0 (by simp); rw [Nat.add_zero] at this; exact this) hs1
      obtain ⟨h3, h4⟩ := ih h2 (fun i hi => by
        have := hpos (i + 1) (by simpa using hi)
        rw [Nat.add_assoc, Nat.add_comm 1 i]
        simpa using this) hs
      exact ⟨h1.trans h3, h4⟩

theorem splitNodeCore_ok {R : Rng K G} {t t' : Tree K G} {id : Nat} {node : Node K} {red : XF K}
    (hred : node.splitReduction = some red) (hok : splitNodeCore R t id node = .ok t') :
    ∃ data labels col l r g1 g2, red.lt (.fin 0) = true ∧ node.data = some data ∧ node.labels = some labels ∧
      colE data node.prevSplitFeature = .ok col ∧
      (splitIdcs node.idcs col node.splitValue).1 ≠ [] ∧ (splitIdcs node.idcs col node.splitValue).2 ≠ [] ∧
      childNode R t.rng t node labels.length (splitIdcs node.idcs col node.splitValue).1 = .ok (l, g1) ∧
      childNode R g1 t node labels.length (splitIdcs node.idcs col node.splitValue).2 = .ok (r, g2) ∧
      t' = { t with
        nodes := t.nodes.set id { node with
          left := some t.nodes.length, right := some (t.nodes.length + 1)
          cacheCls := none, cacheReg := none, alreadySplit := true, data := none, labels := none } ++ [l, r]
        rng := g2 } := by
  unfold splitNodeCore at hok
  rw [hred] at hok
  simp only [] at hok
  split at hok
  · cases hok
  rename_i hneg
  split at hok
  · rename_i data labels hd hl
    split at hok
    · cases hok
    rename_i col hcol
    split_ifs at hok with hlen
    split at hok
    · cases hok
    rename_i l g1 hcl
    split at hok
    · cases hok
    rename_i r g2 hcr
    cases hok
    rw [not_or] at hlen
    exact ⟨data, labels, col, l, r, g1, g2, by simpa using hneg, hd, hl, hcol,
      fun h => hlen.1 (by rw [h]; rfl), fun h => hlen.2 (by rw [h]; rfl), hcl, hcr, by rw [hred]⟩
  · cases hok

theorem childNode_congr {R : Rng K G} {g : G} {t t' : Tree K G} {node : Node K} {n : Nat} {idcs : List Nat}
    (h1 : t.cfg = t'.cfg) (h2 : t.data = t'.data) (h3 : t.labels = t'.labels) (h4 : t.featIdcs = t'.featIdcs)
    (h5 : t.discrete = t'.discrete) : childNode R g t node n idcs = childNode R g t' node n idcs := by
  unfold childNode
  rw [h1, h2, h3, h4, h5]

theorem performSplit_parts {R : Rng K G} {mem : Nat → Junk K} {s : Scan K G} {pos id : Nat} {red : XF K} {t' : Tree K G}
    {glob' : Glob G} (hsim : SimInv s.t) (hbest : BestOK s.t.cfg s.t.leaves s.t.nodes (pos, id, red))
    (hs : performSplit R mem s pos id = .ok (t', glob')) :
    ∃ nd data labels col l r g1 g2, s.t.leaves[pos]? = some id ∧ s.t.nodes[id]? = some nd ∧
      splittableConstraints s.t.cfg nd = .ok true ∧ nd.computed = true ∧ nd.isSplittable = some true ∧
      nd.splitReduction = some red ∧ red.lt (.fin 0) = true ∧ nd.data = some data ∧ nd.labels = some labels ∧
      colE data nd.prevSplitFeature = .ok col ∧
      (splitIdcs nd.idcs col nd.splitValue).1 ≠ [] ∧ (splitIdcs nd.idcs col nd.splitValue).2 ≠ [] ∧
      childNode R s.t.rng s.t nd labels.length (splitIdcs nd.idcs col nd.splitValue).1 = .ok (l, g1) ∧
      childNode R g1 s.t nd labels.length (splitIdcs nd.idcs col nd.splitValue).2 = .ok (r, g2) ∧ glob' = s.glob ∧
      t' = { s.t with
        nodes := s.t.nodes.set id { nd with
          left := some s.t.nodes.length, right := some (s.t.nodes.length + 1)
          cacheCls := none, cacheReg := none, alreadySplit := true, data := none, labels := none } ++ [l, r]
        rng := g2
        leaves := s.t.leaves.eraseIdx pos ++ [s.t.nodes.length, s.t.nodes.length + 1]
        numSplits := s.t.numSplits + 1 } := by
  obtain ⟨hpos, nd, hnd, hc, hcomp, hsp, hred⟩ := hbest
  simp only [] at hpos hnd hred
  obtain ⟨nd', hnd', hok⟩ := hsim.leaf id (List.mem_of_getElem? hpos)
  rw [hnd] at hnd'
  obtain rfl := Option.some.inj hnd'
  unfold performSplit splitNode at hs
  rw [hnd] at hs
  simp only [hok.split_eq, Bool.false_eq_true, if_false] at hs
  rw [if_neg (hok.comp_feat red hred).2] at hs
  simp only [] at hs
  have e2 : s.t.nodes.set id nd = s.t.nodes := by
    obtain ⟨hlt, he⟩ := List.getElem?_eq_some_iff.1 hnd
    rw [← he]
    exact List.set_getElem_self hlt
  rw [e2] at hs
  split at hs
  · cases hs
  rename_i t1 glob1 hsplit
  split at hsplit
  · cases hsplit
  rename_i t2 hcore
  cases hsplit
  obtain ⟨data, labels, col, l, r, g1, g2, hneg, hd, hl, hcol, hne1, hne2, hcl, hcr, rfl⟩ := splitNodeCore_ok hred hcore
  cases hs
  have hlt := (List.getElem?_eq_some_iff.1 hnd).1
  have hget : ∀ nd', (s.t.nodes.set id nd' ++ [l, r])[id]? = some nd' := by
    intro nd'
    rw [List.getElem?_append_left (by rw [List.length_set]; exact hlt)]
    exact getElem?_set_eq hnd
  simp only [hget, Option.bind_some]
  exact ⟨nd, data, labels, col, l, r, g1, g2, hpos, hnd, hc, hcomp, hsp, hred, hneg, hd, hl, hcol, hne1, hne2, hcl, hcr, trivial, rfl⟩

theorem performSplit_sim {R : Rng K G} {mem : Nat → Junk K} {s : Scan K G} {pos id : Nat} {red : XF K} {t' : Tree K G}
    {glob' : Glob G} (hsim : SimInv s.t) (hbest : BestOK s.t.cfg s.t.leaves s.t.nodes (pos, id, red))
    (himp : red.lt (.fin s.t.cfg.minImpDec) = true) (hs : performSplit R mem s pos id = .ok (t', glob')) :
    TStep R mem s.t t' := by
  obtain ⟨nd, data, labels, col, l, r, g1, g2, hpos, hnd, hc, hcomp, hsp, hred, hneg, hd, hl, hcol, hne1, hne2, hcl, hcr, _, rfl⟩ :=
    performSplit_parts hsim hbest hs
  exact TStep.split hpos hnd hc hcomp hsp hred hneg himp hd hl hcol hne1 hne2 hcl hcr

theorem splitBest_sim {R : Rng K G} {mem : Nat → Junk K} {t0 : Tree K G} {s : Scan K G} {b : Bool} {t' : Tree K G}
    {glob' : Glob G} (h : ScanOK t0 s) (hs : splitBest R mem s = .ok (b, t', glob')) : TSteps R mem s.t t' := by
  unfold splitBest at hs
  split at hs
  · rename_i pos id red hbest
    split_ifs at hs with himp
    · split at hs
      · cases hs
      · rename_i t1 glob1 hp
        cases hs
        exact .one (performSplit_sim h.sim (h.best _ hbest) himp hp)
    · cases hs
      exact .refl
  · cases hs
    exact .refl

theorem fitStep_sim {R : Rng K G} {mem : Nat → Junk K} {t t' : Tree K G} {glob glob' : Glob G} {b : Bool} (h : SimInv t)
    (hs : fitStep R mem t glob = .ok (b, t', glob')) : TSteps R mem t t' := by
  unfold fitStep at hs
  split at hs
  · cases hs
  · cases hs
    exact .refl
  · split at hs
    · cases hs
    rename_i s hscan
    obtain ⟨h1, h2⟩ := scanLeaves_sim (t0 := t) ⟨h, rfl, rfl, fun b hb => by cases hb⟩
      (fun i hi => by rw [Nat.zero_add]; exact List.getElem?_eq_getElem hi) hscan
    split at hs
    · cases hs
    rename_i again t1 glob1 hsb
    split at hs
    · cases hs
    rename_i d hd
    cases hs
    exact (h1.trans (splitBest_sim h2 hsb)).step (.depth hd)

theorem FitHead.sim {R : Rng K G} {mem : Nat → Junk K} {t0 t : Tree K G} {glob0 glob : Glob G} (h0 : SimInv t0)
    (h : FitHead R mem t0 glob0 t glob) : TSteps R mem t0 t := by
  induction h with
  | init => exact .refl
  | step h hs ih => exact ih.trans (fitStep_sim (h0.steps ih) hs)

theorem fitLoop_head {R : Rng K G} {mem : Nat → Junk K} {fuel : Nat} {t t' : Tree K G} {glob glob' : Glob G}
    (h : fitLoop R mem fuel t glob = .ok (t', glob')) :
    ∃ t1 glob1, FitHead R mem t glob t1 glob1 ∧ fitStep R mem t1 glob1 = .ok (false, t', glob') := by
  induction fuel generalizing t glob with
  | zero => cases h
  | succ fuel ih =>
    unfold fitLoop at h
    split at h
    · cases h
    · rename_i t1 glob1 hs
      cases h
      exact ⟨t, glob, .init, hs⟩
    · rename_i t1 glob1 hs
      obtain ⟨t2, glob2, h1, h2⟩ := ih h
      refine ⟨t2, glob2, ?_, h2⟩
      clear h h2 ih
      induction h1 with
      | init => exact .step .init hs
      | step _ hs' ih => exact .step ih hs'

/-- The tree at the start of the loop of `fit`, for a tree constructed from `A`. -/
structure Start (R : Rng K G) (A : TreeArgs K) (dd : DiscDict K) (t : Tree K G) : Prop where
  cfg : t.cfg = { A.cfg with makeDiscrete :=
          if A.cfg.binType = some .linear ∨ A.cfg.binType = some .identity then false else A.cfg.makeDiscrete }
  data : t.data = A.data
  labels : t.labels = A.labels
  lens : A.data.length = A.labels.length
  nData : t.nData = A.labels.length
  discrete : t.discrete = dd
  feats : t.featIdcs = A.cols
  remaining : t.remaining = A.budget
  leaves : t.leaves = [0]
  depth : t.depth = 1
  numSplits : t.numSplits = 0
  numQueries : t.numQueries = 0
  root : ∃ nd, t.nodes = [nd] ∧ Fresh t.cfg A.data A.labels A.cols A.disc A.rows 0 1 A.cfg.numBins nd

theorem Constructed.start {R : Rng K G} {A : TreeArgs K} {t0 : Tree K G} (h : Constructed R A t0) (dd : DiscDict K) :
    Start R A dd { t0 with discrete := dd, leaves := t0.leaves ++ [0] } ∧ t0.discrete = A.disc := by
  obtain ⟨glob, h⟩ := h
  unfold Tree.init at h
  by_cases hlen : A.data.length ≠ A.labels.length
  · rw [if_pos hlen] at h
    cases h
  rw [if_neg hlen] at h
  simp only [] at h
  split at h
  · cases h
  rename_i feats hf
  split at h
  · cases h
  rename_i root g hroot
  have hcols : feats = A.cols := by
    unfold defaultFeats at hf
    unfold TreeArgs.cols
    split at hf
    · rename_i f hf'
      cases hf
      rw [hf']; rfl
    · rename_i hf'
      rw [hf']
      split at hf
      · cases hf
      · rename_i hd
        cases hf
        rw [hd]; rfl
  have := Node_init_fresh hroot
  rw [hcols] at this
  cases h
  exact ⟨{ cfg := rfl, data := rfl, labels := rfl, lens := by simpa using hlen, nData := rfl, discrete := rfl
           feats := hcols, remaining := rfl, leaves := rfl, depth := rfl, numSplits := rfl, numQueries := rfl
           root := ⟨root, rfl, this⟩ }, rfl⟩

theorem Start.sim {R : Rng K G} {A : TreeArgs K} {dd : DiscDict K} {t : Tree K G} (h : Start R A dd t) : SimInv t := by
  obtain ⟨nd, hn, hf⟩ := h.root
  refine ⟨by rw [h.leaves]; simp, fun id hid => ?_⟩
  rw [h.leaves] at hid
  obtain rfl : id = 0 := by simpa using hid
  exact ⟨nd, by rw [hn]; rfl, LeafOK.fresh hf⟩

theorem Fitted.growing {R : Rng K G} {mem : Nat → Junk K} {A : TreeArgs K} {t : Tree K G} (h : Fitted R mem A t) :
    ∃ t1 glob1 glob', Growing R mem A t1 glob1 ∧ fitStep R mem t1 glob1 = .ok (false, t, glob') := by
  obtain ⟨t0, glob, glob', hc, hfit⟩ := h
  unfold Tree.fit bothOrNeither at hfit
  simp only [] at hfit
  split at hfit
  · cases hfit
  rename_i dd hdd
  split at hfit
  · obtain ⟨t1, glob1, h1, h2⟩ := fitLoop_head hfit
    exact ⟨t1, glob1, glob', ⟨t0, glob, dd, hc, hdd, h1⟩, h2⟩
  · cases hfit
  · cases hfit

theorem Growing.steps {R : Rng K G} {mem : Nat → Junk K} {A : TreeArgs K} {t : Tree K G} {glob : Glob G}
    (h : Growing R mem A t glob) : ∃ dd t1, Start R A dd t1 ∧ TSteps R mem t1 t := by
  obtain ⟨t0, glob0, dd, hc, hdd, hh⟩ := h
  have hs := (hc.start dd).1
  exact ⟨dd, _, hs, hh.sim hs.sim⟩

theorem Growing.sim {R : Rng K G} {mem : Nat → Junk K} {A : TreeArgs K} {t : Tree K G} {glob : Glob G}
    (h : Growing R mem A t glob) : SimInv t := by
  obtain ⟨dd, t1, h1, h2⟩ := h.steps
  exact h1.sim.steps h2

theorem Fitted.steps {R : Rng K G} {mem : Nat → Junk K} {A : TreeArgs K} {t : Tree K G} (h : Fitted R mem A t) :
    ∃ dd t1, Start R A dd t1 ∧ TSteps R mem t1 t := by
  obtain ⟨t1, glob1, glob', hg, hs⟩ := h.growing
  obtain ⟨dd, t2, h1, h2⟩ := hg.steps
  exact ⟨dd, t2, h1, h2.trans (fitStep_sim hg.sim hs)⟩

end FF
