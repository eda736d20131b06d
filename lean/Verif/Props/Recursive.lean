import Verif.Proofs.Recursive

/-!
# Property C108: growing a tree depth-first
-/

namespace FF

open Spec

set_option linter.unusedSectionVars false

variable {K : Type} [Field K] [LinearOrder K] [IsStrictOrderedRing K] [FloorRing K] [NpFun K] {G G' : Type}

/-- `t` is what a new tree becomes when `recursive_split` is called on its root and returns. -/
def GrownDepthFirst (R : Rng K G) (mem : Nat → Junk K) (A : TreeArgs K) (t : Tree K G) : Prop :=
  ∃ t0 glob glob' fuel, Constructed R A t0 ∧ recursiveSplit R mem fuel 0 t0 glob = .ok (t, glob')

/-- Arguments in which nothing has to be prepared or counted before growing: no budget, no list of discrete features to compute (what
`fit` does for RANDOM bins on request), and at most as many training rows as labels. -/
structure DepthFirstOK (A : TreeArgs K) : Prop where
  budget : A.budget = none
  discrete : A.cfg.makeDiscrete = false ∨ A.cfg.binType = some .linear ∨ A.cfg.binType = some .identity
  rows : A.rows.length ≤ A.labels.length

theorem NoChoice.depthFirst {A : TreeArgs K} (h : NoChoice A) (hr : A.rows.length ≤ A.labels.length) : DepthFirstOK A :=
  ⟨h.budget, Or.inr h.binning.symm, hr⟩

section
variable {R : Rng K G} {mem : Nat → Junk K} {A : TreeArgs K} {t : Tree K G}

theorem Constructed.recursive {t0 : Tree K G} (hA : DepthFirstOK A) (hc : Constructed R A t0) :
    GrowFacts R mem A A.disc { t0 with leaves := [0] } { t0 with leaves := [0] } ∧ t0.leaves = [] ∧ t0.remaining = none ∧
      ∃ nd, t0.nodes = [nd] ∧ Unseen nd ∧ nd.idcs = A.rows := by
  obtain ⟨hs, hd⟩ := hc.start A.disc
  have hl : t0.leaves = [] := by
    have : t0.leaves ++ [0] = [0] := hs.leaves
    simpa using this
  have e : ({ t0 with discrete := A.disc, leaves := t0.leaves ++ [0] } : Tree K G) = { t0 with leaves := [0] } := by
    rw [hl, ← hd]
    rfl
  rw [e] at hs
  have hmd : maybeDiscrete ({ t0 with leaves := [0] } : Tree K G).cfg.makeDiscrete A.data A.disc = .ok A.disc := by
    rw [hs.cfg]
    unfold maybeDiscrete
    rw [if_neg]
    simp only []
    rcases hA.discrete with h | h | h
    · rw [h]; simp
    · rw [if_pos (Or.inl h)]; simp
    · rw [if_pos (Or.inr h)]; simp
  obtain ⟨nd, h1, h2⟩ := hs.root
  exact ⟨.of_steps hs hmd .refl, hl, hs.remaining.trans hA.budget, nd, h1, h2.unseen, h2.idcs_eq⟩

theorem GrownDepthFirst.facts (hA : DepthFirstOK A) (h : GrownDepthFirst R mem A t) :
    ∃ t0 L, GrowFacts R mem A A.disc t0 { t with leaves := L } ∧ L.Perm t.leaves ∧ LeavesBelow t.nodes 0 t.leaves ∧
      (∀ j ∈ t.leaves, ∃ nd, t.nodes[j]? = some nd ∧ Refused t.cfg t.nData nd) ∧ t.depth = 1 := by
  obtain ⟨t0, glob, glob', fuel, hc, hrun⟩ := h
  obtain ⟨hg, hl, hrem, nd, hn, hu, _⟩ := hc.recursive (mem := mem) hA
  obtain ⟨L, new, v⟩ := recursive_sim hA.rows hrun hg (by simp) ⟨nd, by rw [hn]; rfl, hu⟩ hrem
  have hnew : t.leaves = new := by rw [v.leaves, hl]; rfl
  have hf := hg.next v.steps
  refine ⟨_, L, hf, ?_, ?_, ?_, v.depth.trans hg.start.depth⟩
  · rw [hnew]
    refine (List.perm_ext_iff_of_nodup hf.sim.nodup v.nodup).2 (fun j => ?_)
    show j ∈ L ↔ _
    rw [v.mem_iff, List.mem_singleton]
    constructor
    · rintro (⟨h1, h2⟩ | h1)
      · exact absurd h1 h2
      · exact h1
    · exact Or.inr
  · rw [hnew]
    exact v.below t.nodes rfl (fun _ _ _ => rfl)
  · rw [hnew]
    exact v.refused

/-- A leaf of a tree grown depth-first is done with. -/
theorem GrowFacts.refused_done {dd : DiscDict K} {t0 : Tree K G} (h : GrowFacts R mem A dd t0 t) {id : Nat} {nd : Node K}
    (hn : NodeAt t id nd) (hr : Refused t.cfg t.nData nd) : LeafDone R A nd := by
  have hok := h.nodes _ _ hn
  rcases hr.why with h1 | ⟨h1, h2⟩
  · left
    intro hcan
    exact constraints_false hok.nData_eq (hok.open_labels hr.left_eq) h1 (h.canSplit_iff.2 hcan)
  · right
    obtain ⟨r, hr1, hr2, hr3⟩ := h.says hn h1
    refine ⟨h1, r, _, hr1, hr2, ?_⟩
    rintro s rfl hen
    have hred := hr2.1
    rw [hok.prop_eq (h.rows_pos hn (hok.solved h1).can.rows_ne)] at hred
    unfold splittableImpurity at h2
    rw [hred] at h2
    simp only [] at h2
    rw [hok.nData_eq, h.cfg_eq, show t.nData = A.labels.length from h.base.nData.trans h.start.nData] at h2
    have := hen.1
    rw [h2] at this
    cases this

theorem ReadsAs.nodes_eq {t t' : Tree K G} (e : t'.nodes = t.nodes) {id : Nat} {D : DTree K} (h : ReadsAs t id D) : ReadsAs t' id D := by
  induction h with
  | leaf hn hl hr => exact .leaf (by unfold NodeAt; rw [e]; exact hn) hl hr
  | node hn hl hr hf _ _ ih1 ih2 => exact .node (by unfold NodeAt; rw [e]; exact hn) hl hr hf ih1 ih2

theorem predict_leaves (t : Tree K G) (L : List Nat) (x : List K) :
    ({ t with leaves := L } : Tree K G).predict x = (t.predict x).map (fun p => (p.1, { p.2 with leaves := L })) := by
  unfold Tree.predict
  simp only []
  cases walk t.nodes x t.nodes.length 0 with
  | error e => rfl
  | ok id =>
    simp only []
    cases t.nodes[id]? with
    | none => rfl
    | some node =>
      simp only []
      cases t.cfg.isCls with
      | true =>
        simp only [if_true]
        cases node.cacheCls with
        | some lp => rfl
        | none =>
          simp only []
          by_cases h0 : node.counts.sum = 0
          · rw [if_pos h0, if_pos h0]; rfl
          · rw [if_neg h0, if_neg h0]
            cases npArgmax (node.counts.map (fun (c : Nat) => (c : K) / ((node.counts.sum : Nat) : K))) with
            | none => rfl
            | some i =>
              simp only []
              cases idxToClass t.cfg.classes i with
              | none => rfl
              | some l => rfl
      | false =>
        simp only [Bool.false_eq_true, if_false]
        cases node.cacheReg with
        | some v => rfl
        | none =>
          simp only []
          cases node.labels with
          | none => rfl
          | some ls =>
            cases ls with
            | nil => rfl
            | cons y ys => rfl

end

/-! ### C108 -/

/-- C108. With the exact solver on all columns and without a budget, splitting a new tree recursively from its root grows the textbook
greedy tree of its training set, whatever `max_leaf_nodes` says. -/
theorem C108_depth_first_tree (R : Rng K G) (mem : Nat → Junk K) (A : TreeArgs K) (hA : NoChoice A) (hr : A.rows.length ≤ A.labels.length)
    (t : Tree K G) (h : GrownDepthFirst R mem A t) :
    ∃ D, ReadsAs t 0 D ∧ A.problem.IsCart 0 A.rows D ∧ ∀ D', A.problem.IsCart 0 A.rows D' → D' = D := by
  obtain ⟨t0, L, hf, hperm, _, href, _⟩ := h.facts (hA.depthFirst hr)
  obtain ⟨root, h1, h2, h3⟩ := hf.shape.root
  obtain ⟨D, e1, e2⟩ := hf.isCart (fun id nd hl hn => by
    have hmem : id ∈ L := (hf.shape.isLeaf id).2 hl
    obtain ⟨nd', hn', hd⟩ := href id (hperm.subset hmem)
    obtain rfl := Option.some.inj (hn'.symm.trans hn)
    exact hf.refused_done hn hd) hA t.nodes.length 0 root (by simp) h1
  rw [h2, h3] at e2
  exact ⟨D, ReadsAs.nodes_eq (t := { t with leaves := L }) (t' := t) rfl e1, e2, fun D' h' => h'.unique e2⟩

/-- C108, against `fit`: the depth-first tree asks the same questions and gives the same answers as the tree that `fit` grows best-first
from the same training set and limits (unless `fit` stopped at `max_leaf_nodes`), whatever the generators, the seeds and the content of
uninitialised memory. -/
theorem C108_same_as_fit (R : Rng K G) (R' : Rng K G') (mem mem' : Nat → Junk K) (A A' : TreeArgs K) (hA : NoChoice A)
    (hr : A.rows.length ≤ A.labels.length) (hA' : A' = { A with seed := A'.seed, cfg := { A.cfg with splitter := A'.cfg.splitter, maxLeafNodes := A'.cfg.maxLeafNodes } })
    (t : Tree K G) (t' : Tree K G') (h : GrownDepthFirst R mem A t) (h' : Fitted R' mem' A' t')
    (hm : A'.cfg.maxLeafNodes ≠ some t'.leaves.length) :
    (∃ D, ReadsAs t 0 D ∧ ReadsAs t' 0 D) ∧
    ((A.cfg.isCls = true → ClassesOK A.cfg.classes) → A.rows ≠ [] → ∀ (x : List K), (∀ f ∈ A.cols, f < x.length) →
      ∃ p t2 t2', t.predict x = .ok (p, t2) ∧ t'.predict x = .ok (p, t2')) := by
  have hN' : NoChoice A' := by
    rw [hA']
    exact ⟨⟨hA.args.crit, hA.args.minmax_le, hA.args.sorted, hA.args.linear_bins, hA.args.auto_bins⟩, hA.solver, hA.binning, hA.features,
      hA.budget, hA.depth⟩
  have hP : A'.problem = A.problem := by rw [hA']; rfl
  have hR : A'.rows = A.rows := by rw [hA']; rfl
  obtain ⟨D, d1, d2, _⟩ := C108_depth_first_tree R mem A hA hr t h
  obtain ⟨D', d1', d2', _⟩ := C101_greedy_tree R' mem' A' hN' t' h' hm
  rw [hP, hR] at d2'
  obtain rfl : D' = D := CartProblem.IsCart.unique d2' d2
  refine ⟨⟨D', d1, d1'⟩, fun hd hrows x hx => ?_⟩
  obtain ⟨t0, L, hf, _⟩ := h.facts (hA.depthFirst hr)
  obtain ⟨dd', t0', hf'⟩ := h'.facts
  obtain ⟨leaf, hrt⟩ := hf.routes_total hx t.nodes.length 0 (by simp) ((hf.shape.inTree 0).1 .root)
  obtain ⟨p, t2, hp⟩ := hf.predict_of_route hd hrows .none hrt
  obtain ⟨p', t2', hp'⟩ := C36_predict_total R' mem' A' t' t' h' (by rw [hA']; exact hd) (by rw [hR]; exact hrows) .none x
    (by rw [hA']; exact hx)
  obtain ⟨l1, nd1, _, a2, a3, a4, a5, a6⟩ := hf.predict_parts .none hp
  obtain ⟨l2, nd2, _, b2, b3, b4, b5, b6⟩ := hf'.predict_parts .none hp'
  have d1v : ReadsAs ({ t with leaves := L } : Tree K G) 0 D' := ReadsAs.nodes_eq (t := t) (t' := { t with leaves := L }) rfl d1
  have e : nd2.idcs = nd1.idcs := by rw [← a5, ← b5, ← d1v.rowsAt a2, ← d1'.rowsAt b2]
  have := nodePred_rows hf hf' (by rw [hA']) (by rw [hA']) (by rw [hA']) a3 b3 a4 b4 e
  rw [a6, b6] at this
  obtain rfl := Except.ok.inj this
  rw [predict_leaves] at hp
  cases hq : t.predict x with
  | error e => rw [hq] at hp; cases hp
  | ok q =>
    rw [hq] at hp
    obtain ⟨q1, q2⟩ := q
    obtain rfl : q1 = p' := congrArg Prod.fst (Except.ok.inj hp)
    exact ⟨q1, q2, t2', rfl, hp'⟩

/-- C108, what the tree records, with either solver: its leaves from left to right, which together hold each training row once; the number
of splits, one less than the number of leaves; the sum of the queries of its nodes. Nothing is counted against a budget, and the recorded
depth stays 1. -/
theorem C108_records (R : Rng K G) (mem : Nat → Junk K) (A : TreeArgs K) (hA : DepthFirstOK A) (t : Tree K G) (h : GrownDepthFirst R mem A t) :
    LeavesBelow t.nodes 0 t.leaves ∧ t.leaves.Nodup ∧ (t.leaves.flatMap (rowsOf t)).Perm A.rows ∧ t.leaves.length = t.numSplits + 1 ∧
      t.numQueries = (t.nodes.map Node.numQueries).sum ∧ t.remaining = none ∧ t.depth = 1 ∧
      ∀ id ∈ t.leaves, ∀ nd, NodeAt t id nd → LeafDone R A nd := by
  obtain ⟨t0, L, hf, hperm, hb, href, hdep⟩ := h.facts hA
  refine ⟨hb, hperm.nodup_iff.1 hf.sim.nodup, ?_, ?_, TSteps.queries (t := { t with leaves := L }) hf.start hf.steps, ?_, hdep, ?_⟩
  · exact (hperm.symm.flatMap_right _).trans hf.shape.perm
  · rw [← hperm.length_eq]
    exact hf.shape.numLeaves
  · have := hf.steps.remaining.2
    rw [hf.start.remaining, hA.budget] at this
    exact this
  · intro id hid nd hn
    obtain ⟨nd', hn', hd⟩ := href id hid
    obtain rfl := Option.some.inj (hn'.symm.trans hn)
    exact GrowFacts.refused_done hf hn hd

/-- C108, no exception: on a well-formed training set, with the exact solver and one threshold per value, growing depth-first returns; the
recursion is never deeper than the number of training rows plus one. -/
theorem C108_returns (R : Rng K G) (A : TreeArgs K) (hA : ArgsOK A) (hT : TrainOK A) (hs : A.cfg.solver = .exact)
    (hb : A.cfg.binType = some .identity) (hent : A.cfg.criterion = .entropy → A.labels.dedup.length ≤ 2) (hbud : A.budget = none)
    (hr : A.rows.length ≤ A.labels.length) : ∃ t0, Constructed R A t0 ∧ ∀ (mem : Nat → Junk K) (glob : Glob G), ∃ t glob',
      recursiveSplit R mem (A.rows.length + 1) 0 t0 glob = .ok (t, glob') := by
  obtain ⟨t0, hc⟩ := Tree_init_total (R := R) hT
  refine ⟨t0, hc, fun mem glob => ?_⟩
  obtain ⟨hg, _, hrem, nd, hn, hu, hi⟩ := hc.recursive (mem := mem) (A := A) ⟨hbud, Or.inr (Or.inr hb), hr⟩
  exact recursive_total hT (identity_total hA hT hs hb hent) (exact_separates hA hs) hr hg (by simp) (by rw [hn]; rfl) hu hrem (by rw [hi]; omega)

/-! ### Examples -/

/-- Construct a tree and split it recursively. -/
def runDepthFirst (R : Rng K G) (mem : Nat → Junk K) (A : TreeArgs K) (glob : Glob G) : Except Err (Tree K G) := do
  let (t0, _) ← Tree.init R A.cfg A.data A.labels A.disc A.budget A.seed A.idcs A.feats
  let (t, _) ← recursiveSplit R mem (A.rows.length + 1) 0 t0 glob
  .ok t

theorem runDepthFirst_grown {R : Rng K G} {mem : Nat → Junk K} {A : TreeArgs K} {glob : Glob G} {t : Tree K G}
    (h : runDepthFirst R mem A glob = .ok t) : GrownDepthFirst R mem A t := by
  unfold runDepthFirst at h
  cases h1 : Tree.init R A.cfg A.data A.labels A.disc A.budget A.seed A.idcs A.feats with
  | error e => rw [h1] at h; cases h
  | ok p =>
    obtain ⟨t0, g0⟩ := p
    rw [h1] at h
    simp only [Bind.bind, Except.bind] at h
    cases h2 : recursiveSplit R mem (A.rows.length + 1) 0 t0 glob with
    | error e => rw [h2] at h; cases h
    | ok q =>
      rw [h2] at h
      cases h
      exact ⟨t0, glob, q.2, _, ⟨g0, h1⟩, h2⟩

theorem runDepthFirst_exists {R : Rng K G} {mem : Nat → Junk K} {A : TreeArgs K} {glob : Glob G} {P : Tree K G → Bool}
    (h : (runDepthFirst R mem A glob).toOption.any P = true) : ∃ t, GrownDepthFirst R mem A t ∧ P t = true := by
  cases h1 : runDepthFirst R mem A glob with
  | error e => rw [h1] at h; cases h
  | ok t => rw [h1] at h; exact ⟨t, runDepthFirst_grown h1, h⟩

/-- The same training set grown depth-first and by `fit`: the nodes are numbered differently, and the tree is the same. -/
example : ∃ t, GrownDepthFirst rngQ exMem exArgsReg t ∧ (t.leaves == [3, 5, 6, 7, 8] && decide (t.numSplits = 4) && decide (t.depth = 1) &&
    decide (exArgsReg.rows.length ≤ exArgsReg.labels.length) && ((runTree rngQ exMem exArgsReg exGlob).toOption.any (fun t' =>
      t'.leaves == [3, 4, 5, 7, 8] && decide (t'.depth = 3) && readTree t' 9 0 == readTree t 9 0))) = true :=
  runDepthFirst_exists (glob := exGlob) (by decide +kernel)

/-- The bandit solver. -/
example : ∃ t, GrownDepthFirst rngQ exMem { exArgsMab with budget := none } t ∧ (t.leaves == [3, 4, 2] && decide (t.numQueries = 20)) = true :=
  runDepthFirst_exists (glob := exGlob) (by decide +kernel)

example : DepthFirstOK ({ exArgsMab with budget := none } : TreeArgs ℚ) := ⟨rfl, Or.inr (Or.inl rfl), by decide⟩

example : ArgsOK exArgs ∧ TrainOK exArgs ∧ exArgs.budget = none ∧ exArgs.cfg.binType = some .identity := ⟨exArgs_ok, trainOK_exArgs, rfl, rfl⟩

/-- Every row of the example twice, and a minimum decrease of 3/10. -/
def exArgsTwice : TreeArgs ℚ :=
  { exArgs with idcs := some [0, 1, 2, 3, 4, 5, 0, 1, 2, 3, 4, 5], cfg := { cfgQ with minImpDec := -3 / 10 } }

/-- With more training rows than labels the two ways of growing differ: depth-first splits the root, `fit` does not. -/
theorem C108_needs_rows : ∃ t t', GrownDepthFirst rngQ exMem exArgsTwice t ∧ Fitted rngQ exMem exArgsTwice t' ∧ t.numSplits = 1 ∧
    t'.numSplits = 0 := by
  obtain ⟨t, h1, h2⟩ := runDepthFirst_exists (R := rngQ) (mem := exMem) (A := exArgsTwice) (glob := exGlob)
    (P := fun t => decide (t.numSplits = 1)) (by decide +kernel)
  obtain ⟨t', h3, h4⟩ := runTree_exists (R := rngQ) (mem := exMem) (A := exArgsTwice) (glob := exGlob)
    (p := fun t => decide (t.numSplits = 0)) (by decide +kernel)
  exact ⟨t, t', h1, h3, of_decide_eq_true h2, of_decide_eq_true h4⟩

end FF
