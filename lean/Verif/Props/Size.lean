import Verif.Spec.Size
import Verif.Props.CostBound
import Verif.Props.Limits

/-!
# How large a tree can get (C160)
-/

namespace FF

open Spec

set_option linter.unusedSectionVars false

variable {K : Type} [Field K] [LinearOrder K] [IsStrictOrderedRing K] [FloorRing K] [NpFun K] {G : Type}

theorem Counts.unique {P : Nat → Prop} {m n : Nat} (h : Counts P m) (h' : Counts P n) : m = n := by
  obtain ⟨l, h1, rfl, h3⟩ := h
  obtain ⟨l', h1', rfl, h3'⟩ := h'
  exact ((List.perm_ext_iff_of_nodup h1 h1').2 (fun i => (h3 i).trans (h3' i).symm)).length_eq

section shape
variable {data : List (List K)} {rows : List Nat} {t : Tree K G}

/-- Node `b` can be reached from node `a`. -/
inductive Under (t : Tree K G) : Nat → Nat → Prop
  | self {a : Nat} : Under t a a
  | left {a p c : Nat} {nd : Node K} (hn : t.nodes[a]? = some nd) (hl : nd.left = some p) (h : Under t p c) : Under t a c
  | right {a p c : Nat} {nd : Node K} (hn : t.nodes[a]? = some nd) (hl : nd.right = some p) (h : Under t p c) : Under t a c

theorem Under.trans {a b c : Nat} (h : Under t a b) (h' : Under t b c) : Under t a c := by
  induction h with
  | self => exact h'
  | left hn hl _ ih => exact .left hn hl (ih h')
  | right hn hl _ ih => exact .right hn hl (ih h')

theorem under_root {id : Nat} (h : InTree t id) : Under t 0 id := by
  induction h with
  | root => exact .self
  | left _ hn hl ih => exact ih.trans (.left hn hl .self)
  | right _ hn hl ih => exact ih.trans (.right hn hl .self)

/-- Below a node that is `k` levels above the deepest possible level there are at most `2^k` leaves. -/
theorem TShape.leaves_under (h : TShape data rows t) (D : Nat) (hD : ∀ (id : Nat) (nd : Node K), t.nodes[id]? = some nd → nd.depth ≤ D) :
    ∀ (k id : Nat) (nd : Node K), t.nodes[id]? = some nd → D ≤ nd.depth + k → ∀ l : List Nat, l.Nodup →
      (∀ c ∈ l, Under t id c ∧ ∃ cn : Node K, t.nodes[c]? = some cn ∧ cn.left = none) → l.length ≤ 2 ^ k := by
  have single : ∀ (id : Nat) (nd : Node K) (l : List Nat), t.nodes[id]? = some nd → nd.left = none → nd.right = none → l.Nodup →
      (∀ c ∈ l, Under t id c ∧ ∃ cn : Node K, t.nodes[c]? = some cn ∧ cn.left = none) → l.length ≤ 1 := by
    intro id nd l hn hl hr hnd hall
    have hsub : l ⊆ [id] := by
      intro c hc
      obtain ⟨hu, _⟩ := hall c hc
      cases hu with
      | self => simp
      | left hn' hl' _ =>
        rw [hn] at hn'
        obtain rfl := Option.some.inj hn'
        rw [hl] at hl'
        cases hl'
      | right hn' hl' _ =>
        rw [hn] at hn'
        obtain rfl := Option.some.inj hn'
        rw [hr] at hl'
        cases hl'
    exact (hnd.subperm hsub).length_le
  intro k
  induction k with
  | zero =>
    intro id nd hn hk l hnd hall
    rcases h.links id nd hn with ⟨hl, hr⟩ | ⟨a, b, na, nb, h1, h2, _, _, _, h6, _, h8⟩
    · exact single id nd l hn hl hr hnd hall
    · have := hD a na h6
      rw [h8.left_depth] at this
      omega
  | succ k ih =>
    intro id nd hn hk l hnd hall
    rcases h.links id nd hn with ⟨hl, hr⟩ | ⟨a, b, na, nb, h1, h2, _, _, _, h6, h7, h8⟩
    · exact (single id nd l hn hl hr hnd hall).trans Nat.one_le_two_pow
    · classical
      have e := List.filter_append_perm (fun c => decide (Under t a c)) l
      rw [← e.length_eq, List.length_append, Nat.pow_succ, Nat.mul_two]
      apply Nat.add_le_add
      · apply ih a na h6 (by rw [h8.left_depth]; omega) _ (hnd.filter _)
        intro c hc
        obtain ⟨hc1, hc2⟩ := List.mem_filter.1 hc
        exact ⟨of_decide_eq_true hc2, (hall c hc1).2⟩
      · apply ih b nb h7 (by rw [h8.right_depth]; omega) _ (hnd.filter _)
        intro c hc
        obtain ⟨hc1, hc2⟩ := List.mem_filter.1 hc
        obtain ⟨hu, cn, hcn, hcl⟩ := hall c hc1
        refine ⟨?_, cn, hcn, hcl⟩
        have hna : ¬ Under t a c := by simpa using hc2
        cases hu with
        | self =>
          rw [hn] at hcn
          obtain rfl := Option.some.inj hcn
          rw [h1] at hcl
          cases hcl
        | left hn' hl' hu' =>
          rw [hn] at hn'
          obtain rfl := Option.some.inj hn'
          rw [h1] at hl'
          obtain rfl := Option.some.inj hl'
          exact absurd hu' hna
        | right hn' hl' hu' =>
          rw [hn] at hn'
          obtain rfl := Option.some.inj hn'
          rw [h2] at hl'
          obtain rfl := Option.some.inj hl'
          exact hu'

/-- Node `id` was split. -/
def splitAt (t : Tree K G) (id : Nat) : Bool := (t.nodes[id]?).any (fun nd => nd.left.isSome)

/-- A node is no deeper than the number of nodes before it that were split. -/
theorem TShape.depth_le_splits (h : TShape data rows t) : ∀ (id : Nat) (nd : Node K), t.nodes[id]? = some nd →
    nd.depth ≤ ((List.range id).filter (splitAt t)).length := by
  intro id
  induction id using Nat.strong_induction_on with
  | _ id ih =>
    intro nd hn
    rcases Nat.eq_zero_or_pos id with rfl | hpos
    · obtain ⟨nd', h1, _, h3⟩ := h.root
      rw [hn] at h1
      obtain rfl := Option.some.inj h1
      omega
    · obtain ⟨p, pn, h1, h2, h3⟩ := h.parents id hpos (List.getElem?_eq_some_iff.1 hn).1
      have hp := ih p h1 pn h2
      have hd : nd.depth = pn.depth + 1 ∧ splitAt t p = true := by
        rcases h.links p pn h2 with ⟨a1, a2⟩ | ⟨a, b, na, nb, a1, a2, _, _, _, a6, a7, a8⟩
        · rw [a1, a2] at h3
          rcases h3 with h3 | h3 <;> cases h3
        · refine ⟨?_, by simp [splitAt, h2, a1]⟩
          rw [a1, a2] at h3
          rcases h3 with h3 | h3
          · obtain rfl := Option.some.inj h3
            rw [hn] at a6
            obtain rfl := Option.some.inj a6
            exact a8.left_depth
          · obtain rfl := Option.some.inj h3
            rw [hn] at a7
            obtain rfl := Option.some.inj a7
            exact a8.right_depth
      rw [hd.1]
      have hle : ((List.range (p + 1)).filter (splitAt t)).length ≤ ((List.range id).filter (splitAt t)).length :=
        ((List.range_sublist.2 (by omega)).filter _).length_le
      rw [List.range_succ, List.filter_append, List.length_append] at hle
      simp [hd.2] at hle
      omega

theorem TShape.splits (h : TShape data rows t) (hnd : t.leaves.Nodup) :
    ((List.range t.nodes.length).filter (splitAt t)).length = t.numSplits := by
  have e := (List.filter_append_perm (splitAt t) (List.range t.nodes.length)).length_eq
  rw [List.length_append, List.length_range] at e
  have e2 : ((List.range t.nodes.length).filter (fun x => !splitAt t x)).length = t.leaves.length := by
    apply List.Perm.length_eq
    rw [List.perm_ext_iff_of_nodup (List.nodup_range.filter _) hnd]
    intro id
    rw [h.leaves, List.mem_filter, List.mem_range]
    constructor
    · rintro ⟨h1, h2⟩
      refine ⟨t.nodes[id], List.getElem?_eq_getElem h1, ?_⟩
      unfold splitAt at h2
      rw [List.getElem?_eq_getElem h1] at h2
      simpa using h2
    · rintro ⟨nd, h1, h2⟩
      refine ⟨(List.getElem?_eq_some_iff.1 h1).1, ?_⟩
      unfold splitAt
      rw [h1]
      simp [h2]
  have := h.numNodes
  have := h.numLeaves
  omega

end shape

section tree
variable (R : Rng K G) (mem : Nat → Junk K) (A : TreeArgs K)

theorem Fitted.leafCount {R : Rng K G} {mem : Nat → Junk K} {A : TreeArgs K} {t : Tree K G} (h : Fitted R mem A t) :
    Counts (IsLeaf t) t.leaves.length := by
  obtain ⟨dd, t0, hf⟩ := h.facts
  exact ⟨t.leaves, hf.sim.nodup, rfl, hf.shape.isLeaf⟩

/-- **C160** (nodes). A fitted tree with `n` leaves has exactly `2n - 1` nodes, `n - 1` of them splits, and it has a leaf. -/
theorem C160_nodes (t : Tree K G) (h : Fitted R mem A t) (n : Nat) (hn : Counts (IsLeaf t) n) :
    0 < n ∧ Counts (InTree t) (2 * n - 1) ∧ Counts (fun id => InTree t id ∧ ¬ IsLeaf t id) (n - 1) ∧ t.numSplits = n - 1 := by
  obtain rfl := h.leafCount.unique hn
  obtain ⟨dd, t0, hf⟩ := h.facts
  have h1 := hf.shape.numNodes
  have h2 := hf.shape.numLeaves
  refine ⟨by omega, ⟨List.range t.nodes.length, List.nodup_range, by rw [List.length_range]; omega, ?_⟩, ?_, by omega⟩
  · intro i
    rw [List.mem_range, hf.shape.inTree]
  · refine ⟨(List.range t.nodes.length).filter (splitAt t), List.nodup_range.filter _, ?_, ?_⟩
    · rw [hf.shape.splits hf.sim.nodup]; omega
    · intro i
      show _ ↔ InTree t i ∧ ¬ IsLeaf t i
      rw [List.mem_filter, List.mem_range, hf.shape.inTree, ← hf.shape.isLeaf, hf.shape.leaves]
      refine and_congr_right (fun hi => ?_)
      unfold splitAt
      rw [List.getElem?_eq_getElem hi]
      simp [Option.ne_none_iff_isSome]

/-- **C160** (leaves and points). The tree has at most as many leaves as there are different datapoints among its training rows. -/
theorem C160_points (t : Tree K G) (h : Fitted R mem A t) (hr : A.rows ≠ []) (n : Nat) (hn : Counts (IsLeaf t) n) :
    n ≤ distinctPoints A := by
  obtain ⟨l, h1, rfl, h3⟩ := hn
  obtain ⟨dd, t0, hf⟩ := h.facts
  -- a row of each leaf
  have hex : ∀ id, ∃ i, IsLeaf t id → i ∈ A.rows ∧ Routes t (A.data.getD i []) 0 id := by
    intro id
    by_cases hid : IsLeaf t id
    swap
    · exact ⟨0, fun hc => absurd hc hid⟩
    obtain ⟨hin, nd, hnd, hl, hr'⟩ := hid
    have hne := hf.shape.rows_ne hr hnd
    obtain ⟨i, hi⟩ := List.exists_mem_of_ne_nil _ hne
    have hroot := hf.routes_up id nd id hnd hi (.stop hnd hl hr')
    refine ⟨i, fun _ => ⟨?_, hroot⟩⟩
    have hmem : i ∈ t.leaves.flatMap (rowsOf t) := by
      refine List.mem_flatMap.2 ⟨id, (hf.shape.isLeaf id).2 ⟨hin, nd, hnd, hl, hr'⟩, ?_⟩
      unfold rowsOf
      rw [show t.nodes[id]? = some nd from hnd]
      exact hi
    exact hf.shape.perm.mem_iff.1 hmem
  choose g hg using hex
  unfold distinctPoints
  rw [← List.length_map (f := fun id => A.data.getD (g id) []) (as := l)]
  apply List.Subperm.length_le
  apply List.Nodup.subperm
  · refine (List.nodup_map_iff_inj_on h1).2 ?_
    intro a ha b hb hab
    have h4 := (hg a ((h3 a).1 ha)).2
    have h5 := (hg b ((h3 b).1 hb)).2
    rw [hab] at h4
    exact Routes.det hf.shape h4 h5
  · intro x hx
    obtain ⟨id, hid, rfl⟩ := List.mem_map.1 hx
    exact List.mem_dedup.2 (List.mem_map.2 ⟨g id, (hg id ((h3 id).1 hid)).1, rfl⟩)

/-- There are no more different points than training rows, and a row drawn again adds none. -/
theorem distinctPoints_le (A : TreeArgs K) : distinctPoints A ≤ A.rows.dedup.length := by
  unfold distinctPoints
  rw [← List.length_map (f := fun i => A.data.getD i []) (as := A.rows.dedup)]
  apply List.Subperm.length_le
  apply (List.nodup_dedup _).subperm
  intro x hx
  obtain ⟨i, hi, rfl⟩ := List.mem_map.1 (List.mem_dedup.1 hx)
  exact List.mem_map.2 ⟨i, List.mem_dedup.2 hi, rfl⟩

/-- **C160** (leaves and depth). A tree whose nodes have depth at most `d` has at most `2^d` leaves; every node is at a depth smaller than
the number of leaves. -/
theorem C160_depth (t : Tree K G) (h : Fitted R mem A t) (n : Nat) (hn : Counts (IsLeaf t) n) (d : Nat)
    (hd : (∀ (id : Nat) (nd : Node K), InTree t id → NodeAt t id nd → nd.depth ≤ d) ∨ A.cfg.maxDepth = .some d ∨ getDepth t = .ok d) :
    n ≤ 2 ^ d ∧ ∀ (id : Nat) (nd : Node K), InTree t id → NodeAt t id nd → nd.depth < n := by
  obtain rfl := h.leafCount.unique hn
  obtain ⟨dd, t0, hf⟩ := h.facts
  have hd' : ∀ (id : Nat) (nd : Node K), InTree t id → NodeAt t id nd → nd.depth ≤ d := by
    obtain ⟨_, _, h3, D, h4, _, h6, _⟩ := C31_depth R mem A t h
    rcases hd with hd | hd | hd
    · exact hd
    · exact h3 d hd
    · rw [hd] at h4
      cases h4
      exact h6
  constructor
  · obtain ⟨nd, h1, _, h3⟩ := hf.shape.root
    refine hf.shape.leaves_under d (fun id nd hn => hd' id nd ((hf.shape.inTree id).2 (nodeAt_lt hn)) hn) d 0 nd h1 (by omega) t.leaves
      hf.sim.nodup ?_
    intro c hc
    exact ⟨under_root ((hf.shape.isLeaf c).1 hc).1, (hf.shape.leaves c).1 hc⟩
  · intro id nd _ hnd
    have h1 := hf.shape.depth_le_splits id nd hnd
    have h2 : ((List.range id).filter (splitAt t)).length ≤ ((List.range t.nodes.length).filter (splitAt t)).length :=
      ((List.range_sublist.2 (nodeAt_lt hnd).le).filter _).length_le
    rw [hf.shape.splits hf.sim.nodup] at h2
    have := hf.shape.numLeaves
    omega

/-- **C160** (cost without a depth limit). With a solver that looks at a row at most once for each feature, `fit` costs at most one query
for each training row, each column and each different datapoint, whatever the limits are. -/
theorem C160_cost (t : Tree K G) (h : Fitted R mem A t) (hA : ArgsOK A) (hsol : Thrifty A.cfg) (hr : A.rows ≠ []) :
    t.numQueries ≤ distinctPoints A * (A.cols.length * A.rows.length) := by
  have hp := C160_points R mem A t h hr _ h.leafCount
  obtain ⟨dd, t0, hf⟩ := h.facts
  have hpos := hf.shape.numLeaves
  obtain ⟨_, hdep⟩ := C160_depth R mem A t h _ h.leafCount
    (((C31_depth R mem A t h).2.2.2).choose) (Or.inr (Or.inr (C31_depth R mem A t h).2.2.2.choose_spec.1))
  have := C142_levels R mem A t h hA hsol (distinctPoints A - 1) (fun id nd hn => by
    have := hdep id nd ((hf.shape.inTree id).2 (nodeAt_lt hn)) hn
    omega)
  rwa [Nat.sub_add_cancel (by omega)] at this

/-- **C160** (one label). If all training rows have the same label, the tree is a single leaf and costs no query. -/
theorem C160_one_label (t : Tree K G) (h : Fitted R mem A t) (y : K) (hy : OneLabel A y) :
    Counts (InTree t) 1 ∧ IsLeaf t 0 ∧ rowsOf t 0 = A.rows ∧ t.numQueries = 0 := by
  obtain ⟨hq, _, _⟩ := C41_query_accounting R mem A t h
  obtain ⟨dd, t0, hf⟩ := h.facts
  obtain ⟨nd, h1, h2, h3⟩ := hf.shape.root
  have hok := hf.nodes _ _ h1
  have hnot : nd.computed = false := by
    by_contra hc
    have hcan := hf.canSplit_iff.1 (hok.solved (by simpa using hc)).can
    have hl := hcan.labels
    have hsub : (labelsOf A.labels nd.idcs).dedup ⊆ [y] := by
      intro z hz
      obtain ⟨i, hi, rfl⟩ := List.mem_map.1 (List.mem_dedup.1 hz)
      rw [h2] at hi
      exact List.mem_singleton.2 (hy i hi)
    have := ((List.nodup_dedup _).subperm hsub).length_le
    simp at this
    omega
  have hleft : nd.left = none := by
    by_contra hs
    rw [(hok.split hs).1] at hnot
    cases hnot
  have hright : nd.right = none := by
    rcases hf.shape.links _ _ h1 with ⟨_, a⟩ | ⟨_, _, _, _, a, _⟩
    · exact a
    · rw [hleft] at a; cases a
  have hlen : t.nodes.length = 1 := by
    by_contra hne
    obtain ⟨p, pn, b1, b2, b3⟩ := hf.shape.parents 1 (by omega) (by have := nodeAt_lt h1; omega)
    obtain rfl : p = 0 := by omega
    rw [h1] at b2
    obtain rfl := Option.some.inj b2
    rw [hleft, hright] at b3
    rcases b3 with b3 | b3 <;> cases b3
  refine ⟨⟨[0], by simp, rfl, fun i => ?_⟩, ⟨.root, nd, h1, hleft, hright⟩, ?_, ?_⟩
  · rw [hf.shape.inTree, hlen]; simp
  · unfold rowsOf; rw [h1]; exact h2
  · obtain ⟨a, ha⟩ := List.length_eq_one_iff.1 hlen
    rw [ha] at h1
    obtain rfl : a = nd := by simpa using h1
    rw [hq, ha]
    simpa using (hok.fresh hnot).2.2.1

/-- **C160** (one label, answers). Such a tree answers the label for every datapoint, with certainty. -/
theorem C160_one_answer (t t1 t2 : Tree K G) (h : Fitted R mem A t) (hd : A.cfg.isCls = true → ClassesOK A.cfg.classes) (y : K)
    (hy : OneLabel A y) (ha : AfterPredicts t t1) (x : List K) (p : Pred K) (hp : t1.predict x = .ok (p, t2)) :
    (A.cfg.isCls = true → p = .cls y (A.cfg.classes.map (fun c => if c.1 = y then 1 else 0))) ∧
      (A.cfg.isCls = false → p = .reg y) := by
  obtain ⟨_, hl0, hrows, _⟩ := C160_one_label R mem A t h y hy
  obtain ⟨dd, t0, hf⟩ := h.facts
  obtain ⟨leaf, nd, b1, b2, b3, b4, b5, b6⟩ := hf.predict_parts ha hp
  obtain rfl : leaf = 0 := by
    obtain ⟨_, nd0, c1, c2, c3⟩ := hl0
    exact Routes.det hf.shape b2 (.stop c1 c2 c3)
  have hidcs : nd.idcs = A.rows := by rw [← b5, hrows]
  have hlab : labelsOf A.labels nd.idcs = List.replicate A.rows.length y := by
    unfold labelsOf
    rw [hidcs]
    exact List.eq_replicate_iff.2 ⟨by simp, fun z hz => by
      obtain ⟨i, hi, rfl⟩ := List.mem_map.1 hz
      exact hy i hi⟩
  constructor
  · intro hc
    obtain ⟨label, i, e1, e2, e3, e4, e5⟩ := hf.nodePred_cls hc (hd hc) b3 b6
    rw [hidcs] at e2
    have hpos := List.length_pos_iff.2 e2
    have hK : (A.rows.length : K) ≠ 0 := by exact_mod_cast hpos.ne'
    have hfreq : ∀ c : K, freq (labelsOf A.labels nd.idcs) c = if c = y then 1 else 0 := by
      intro c
      rw [hlab]
      unfold freq
      rw [List.count_replicate, List.length_replicate]
      by_cases hcy : c = y
      · subst hcy
        simp [hK]
      · simp [hcy, Ne.symm hcy]
    have hymem : y ∈ labelsOf A.labels nd.idcs := by
      rw [hlab]
      exact List.mem_replicate.2 ⟨hpos.ne', rfl⟩
    obtain ⟨c, hc1, hc2⟩ := List.mem_map.1 (e3 y hymem)
    obtain ⟨j, hj⟩ := List.mem_iff_getElem?.1 hc1
    have hle := (e5 j c hj).1
    rw [hfreq, hfreq, if_pos hc2] at hle
    have hlabel : label = y := by
      by_contra hne
      rw [if_neg hne] at hle
      exact absurd hle (not_le.2 zero_lt_one)
    rw [e1, hlabel]
    congr 1
    exact List.map_congr_left (fun c _ => hfreq c.1)
  · intro hc
    obtain ⟨e1, e2⟩ := hf.nodePred_reg hc b3 b4 b6
    rw [e1, hlab]
    rw [hidcs] at e2
    have hpos := List.length_pos_iff.2 e2
    have hK : (A.rows.length : K) ≠ 0 := by exact_mod_cast hpos.ne'
    congr 1
    unfold mean
    rw [List.sum_replicate, List.length_replicate, nsmul_eq_mul, mul_div_cancel_left₀ _ hK]

end tree

/-! ### Examples -/

/-- A tree with four leaves, seven nodes and depth 3 on six different points; 24 queries where the bound is `6 · 2 · 6`. -/
example : ∃ t, Fitted rngQ exMem exArgs t ∧ (t.leaves.length == 4 && t.nodes.length == 7 && t.numQueries == 24 &&
    (getDepth t).toOption == some 3 && distinctPoints exArgs == 6 && exArgs.rows.length == 6 && exArgs.cols.length == 2) = true :=
  runTree_exists (glob := exGlob) (by decide +kernel)

/-- A bootstrap sample of eight rows with five different points. -/
example : ∃ t, Fitted rngQ exMem exArgsBoot t ∧ (t.leaves.length == 3 && distinctPoints exArgsBoot == 5 && exArgsBoot.rows.length == 8) = true :=
  runTree_exists (glob := exGlob) (by decide +kernel)

/-- Two different points and one split: both bounds are attained. -/
def exArgsPair : TreeArgs ℚ := { exArgs with idcs := some [0, 5, 0, 5] }

example : ∃ t, Fitted rngQ exMem exArgsPair t ∧ (t.leaves.length == 2 && distinctPoints exArgsPair == 2 && (getDepth t).toOption == some 1) = true :=
  runTree_exists (glob := exGlob) (by decide +kernel)

/-- Six rows with one class: the tree is a leaf and answers the class anywhere. -/
def exArgsOne : TreeArgs ℚ := { exArgs with labels := [1, 1, 1, 1, 1, 1] }

example : OneLabel exArgsOne 1 := by unfold OneLabel; decide +kernel

example : ∃ t, Fitted rngQ exMem exArgsOne t ∧ ((t.predictBatch [[0, 2], [40, -1]]).toOption.map Prod.fst ==
    some [.cls 1 [0, 1], .cls 1 [0, 1]] && t.numQueries == 0 && t.nodes.length == 1) = true :=
  runTree_exists (glob := exGlob) (by decide +kernel)

/-- The same for regression. -/
example : ∃ t, Fitted rngQ exMem { exArgsReg with labels := [4, 4, 4, 4, 4, 4] } t ∧
    ((t.predictBatch [[0, 2], [40, -1]]).toOption.map Prod.fst == some [.reg 4, .reg 4]) = true :=
  runTree_exists (glob := exGlob) (by decide +kernel)

/-! ### Forests -/

theorem CacheOf.inTree {t t' : Tree K G} (h : CacheOf t t') (id : Nat) : InTree t' id ↔ InTree t id := by
  have fwd : ∀ (id : Nat) (nd : Node K), NodeAt t' id nd → ∃ nd0 : Node K, NodeAt t id nd0 ∧ nd.left = nd0.left ∧ nd.right = nd0.right := by
    intro id nd hn
    have hlt := (List.getElem?_eq_some_iff.1 hn).1
    rw [h.len] at hlt
    have h0 : t.nodes[id]? = some t.nodes[id] := List.getElem?_eq_getElem hlt
    have he := (h.nodes _ _ _ h0 hn).eq
    exact ⟨_, h0, by rw [he], by rw [he]⟩
  have bwd : ∀ (id : Nat) (nd : Node K), NodeAt t id nd → ∃ nd0 : Node K, NodeAt t' id nd0 ∧ nd.left = nd0.left ∧ nd.right = nd0.right := by
    intro id nd hn
    have hlt := (List.getElem?_eq_some_iff.1 hn).1
    rw [← h.len] at hlt
    have h0 : t'.nodes[id]? = some t'.nodes[id] := List.getElem?_eq_getElem hlt
    have he := (h.nodes _ _ _ hn h0).eq
    exact ⟨_, h0, by rw [he], by rw [he]⟩
  constructor
  · intro hi
    induction hi with
    | root => exact .root
    | left _ hn hl ih =>
      obtain ⟨nd0, a, b, _⟩ := fwd _ _ hn
      exact .left ih a (b ▸ hl)
    | right _ hn hl ih =>
      obtain ⟨nd0, a, _, b⟩ := fwd _ _ hn
      exact .right ih a (b ▸ hl)
  · intro hi
    induction hi with
    | root => exact .root
    | left _ hn hl ih =>
      obtain ⟨nd0, a, b, _⟩ := bwd _ _ hn
      exact .left ih a (b ▸ hl)
    | right _ hn hl ih =>
      obtain ⟨nd0, a, _, b⟩ := bwd _ _ hn
      exact .right ih a (b ▸ hl)

theorem CacheOf.isLeaf {t t' : Tree K G} (h : CacheOf t t') (id : Nat) (hl : IsLeaf t' id) : IsLeaf t id := by
  obtain ⟨h1, nd, hn, h2, h3⟩ := hl
  refine ⟨(h.inTree id).1 h1, ?_⟩
  have hlt := (List.getElem?_eq_some_iff.1 hn).1
  rw [h.len] at hlt
  have h0 : t.nodes[id]? = some t.nodes[id] := List.getElem?_eq_getElem hlt
  have he := (h.nodes _ _ _ h0 hn).eq
  refine ⟨_, h0, ?_, ?_⟩
  · rw [he] at h2; exact h2
  · rw [he] at h3; exact h3

theorem Counts.mono {P Q : Nat → Prop} {m n : Nat} (h : Counts P m) (h' : Counts Q n) (hPQ : ∀ i, P i → Q i) : m ≤ n := by
  obtain ⟨l, h1, rfl, h3⟩ := h
  obtain ⟨l', _, rfl, h3'⟩ := h'
  exact (h1.subperm (fun i hi => (h3' i).2 (hPQ i ((h3 i).1 hi)))).length_le

/-- **C160** (forests). No tree of a fitted forest has more leaves than the training table has different rows, or more than
`2^max_depth`, for every kind of forest, also when boosting. -/
theorem C160_forest (R : Rng K G) (mem : Nat → Nat → Junk K) (f f' : Forest K G) (w w' : World K G) (data : Option (List (List K)))
    (labels : Option Nat) (hN : f.cfg.alphaN ≤ 1) (hF : f.cfg.alphaF ≤ 1) (hf : Forest.fit R mem f w data labels = .ok (f', w'))
    (t : Tree K G) (ht : t ∈ f'.trees) (n : Nat) (hn : Counts (IsLeaf t) n) :
    n ≤ (trainData f data).dedup.length ∧ ∀ d, f.cfg.maxDepth = .some d → n ≤ 2 ^ d := by
  obtain ⟨i, hi⟩ := List.mem_iff_getElem?.1 ht
  obtain ⟨ms, _, hne, hmade⟩ := Forest_fit_made hf
  obtain ⟨m, _, hm, _⟩ := hmade i t hi
  obtain ⟨dd, t0, hfacts⟩ := hm.fitted.facts
  have hc := hm.after.cache hfacts.cache
  have hle := hn.mono hm.fitted.leafCount hc.isLeaf
  constructor
  · obtain ⟨rows0, rows, cols, g, g1, g2, d1, d2, d3, d4⟩ := hm.draw
    rw [(Forest_fit_same hf).1] at d1 d2
    obtain ⟨s1, _⟩ := subsets_ok hN hF d1
    have hrows : m.args.rows = rows := by unfold TreeArgs.rows; rw [d3]; rfl
    obtain ⟨sub, c1, c2⟩ := bootstrapIdcs_ok s1 d2
    have hrange : ∀ j ∈ m.args.rows, j < (trainData f data).length := by
      intro j hj
      rw [hrows] at hj
      split_ifs at c2
      · exact c1.range j (c2.2 j hj)
      · subst c2
        exact c1.range j hj
    rcases eq_or_ne m.args.rows [] with hemp | hr
    · obtain ⟨a1, a2, _⟩ := C160_one_label R (mem i) m.args m.tree hm.fitted 0 (fun j hj => by rw [hemp] at hj; cases hj)
      have h1 := hm.fitted.leafCount.mono a1 (fun j hj => hj.1)
      have h2 : 0 < (trainData f data).dedup.length :=
        List.length_pos_iff.2 (fun h => hne ((List.dedup_eq_nil _).1 h))
      omega
    · refine hle.trans ((C160_points R (mem i) m.args m.tree hm.fitted hr _ hm.fitted.leafCount).trans ?_)
      unfold distinctPoints
      apply List.Subperm.length_le
      apply (List.nodup_dedup _).subperm
      intro x hx
      obtain ⟨j, hj, rfl⟩ := List.mem_map.1 (List.mem_dedup.1 hx)
      have hlt := hrange j hj
      rw [hm.data_eq, List.getD_eq_getElem _ _ hlt]
      exact List.mem_dedup.2 (List.getElem_mem _)
  · intro d hd
    refine hle.trans (C160_depth R (mem i) m.args m.tree hm.fitted _ hm.fitted.leafCount d (Or.inr (Or.inl ?_))).1
    rw [hm.cfg]
    change f'.cfg.maxDepth = _
    rw [(Forest_fit_same hf).1, hd]

/-- A forest with `max_depth = 3` whose trees have three and two leaves. -/
example : (runForest rngQ exMems exWorld fcfgQ exData 0 none).toOption.map (fun r => r.1.trees.map (fun t : Tree ℚ Nat => t.leaves.length)) =
      some [3, 2] ∧ fcfgQ.maxDepth = .some 3 ∧ fcfgQ.alphaN ≤ 1 ∧ fcfgQ.alphaF ≤ 1 := by
  decide +kernel

end FF
