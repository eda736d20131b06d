import Verif.Spec.Blind
import Verif.Proofs.FitThreads
import Verif.Props.Oob

/-!
# A tree never reads rows it was not given
-/

namespace FF

set_option linter.unusedSectionVars false

variable {K : Type} [Field K] [LinearOrder K] [IsStrictOrderedRing K] [FloorRing K] [NpFun K] {G : Type}

theorem SameAt.getD {α : Type} {S : List Nat} {a a' : List α} (h : SameAt S a a') {i : Nat} (hi : i ∈ S) (d : α) :
    a'.getD i d = a.getD i d := by
  rw [List.getD_eq_getElem?_getD, List.getD_eq_getElem?_getD, h.2 i hi]

theorem takeE_same {α : Type} {S : List Nat} {a a' : List α} (h : SameAt S a a') (d : α) {idcs : List Nat} (hs : ∀ i ∈ idcs, i ∈ S) :
    takeE a' d idcs = takeE a d idcs := by
  unfold takeE
  rw [h.1, List.map_congr_left (fun i hi => h.getD (hs i hi) d)]

theorem getSubset2d_same {S : List Nat} {a a' : List (List K)} (h : SameAt S a a') {idcs : List Nat} (hs : ∀ i ∈ idcs, i ∈ S)
    (feats : List Nat) : getSubset2d a' idcs feats = getSubset2d a idcs feats := by
  unfold getSubset2d
  have h1 : (idcs.all fun i => decide (i < a'.length) && feats.all fun j => decide (j < (a'.getD i []).length)) =
      idcs.all fun i => decide (i < a.length) && feats.all fun j => decide (j < (a.getD i []).length) := by
    rw [Bool.eq_iff_iff, List.all_eq_true, List.all_eq_true]
    constructor
    · intro hh i hi
      have := hh i hi
      rw [h.1, h.getD (hs i hi)] at this
      exact this
    · intro hh i hi
      rw [h.1, h.getD (hs i hi)]
      exact hh i hi
  rw [h1, List.map_congr_left (fun i hi => by rw [h.getD (hs i hi)])]

section
variable {R : Rng K G} {mem : Nat → Junk K} {S : List Nat} {d d' : List (List K)} {l l' : List K}

theorem nodeInit_same (hd : SameAt S d d') (hl : SameAt S l l') {g : G} {cfg : TreeCfg K} {tfeats : List Nat} {tdisc : DiscDict K}
    {idcs : List Nat} (hs : ∀ i ∈ idcs, i ∈ S) {depth : Nat} {p : K} {nb : Option Nat} :
    Node.init R g cfg d' l' tfeats tdisc idcs depth p nb = Node.init R g cfg d l tfeats tdisc idcs depth p nb := by
  unfold Node.init
  cases chooseFeatures R g tfeats cfg.featSub with
  | error e => rfl
  | ok q =>
    dsimp only
    rw [getSubset2d_same hd hs, takeE_same hl 0 hs]

theorem nodeInit_idcs {g g' : G} {cfg : TreeCfg K} {tdata : List (List K)} {tlabels : List K} {tfeats : List Nat} {tdisc : DiscDict K}
    {idcs : List Nat} {depth : Nat} {p : K} {nb : Option Nat} {nd : Node K}
    (h : Node.init R g cfg tdata tlabels tfeats tdisc idcs depth p nb = .ok (nd, g')) : nd.idcs = idcs := by
  unfold Node.init at h
  repeat' (split at h; · cases h)
  simp only [Except.ok.injEq, Prod.mk.injEq] at h
  rw [← h.1]

theorem calcBestSplit_idcs {g g' : G} {glob glob' : Glob G} {junk : Junk K} {cfg : TreeCfg K} {node node' : Node K} {budget : Option Int}
    (h : calcBestSplit R g glob junk cfg node budget = .ok (node', g', glob')) : node'.idcs = node.idcs := by
  unfold calcBestSplit at h
  split_ifs at h with hc
  · cases h; rfl
  · split at h
    · cases h
    · dsimp only at h
      split at h
      · split at h
        · cases h
        · cases h
          unfold nodeRecord
          split <;> rfl
      · cases h

/-- All rows of all nodes are among the given ones. -/
def RowsWithin (S : List Nat) (t : Tree K G) : Prop := ∀ nd ∈ t.nodes, ∀ i ∈ nd.idcs, i ∈ S

theorem RowsWithin.at {t : Tree K G} (h : RowsWithin S t) {id : Nat} {nd : Node K} (hn : t.nodes[id]? = some nd) : ∀ i ∈ nd.idcs, i ∈ S :=
  h nd (List.mem_of_getElem? hn)

theorem within_set {ns : List (Node K)} (h : ∀ nd ∈ ns, ∀ i ∈ nd.idcs, i ∈ S) {id : Nat} {nd : Node K} (hn : ∀ i ∈ nd.idcs, i ∈ S) :
    ∀ x ∈ ns.set id nd, ∀ i ∈ x.idcs, i ∈ S := by
  intro x hx
  rcases List.mem_or_eq_of_mem_set hx with hx | rfl
  · exact h x hx
  · exact hn

theorem splitIdcs_sub {idcs : List Nat} {col : List K} {v : K} :
    (∀ i ∈ (splitIdcs idcs col v).1, i ∈ idcs) ∧ ∀ i ∈ (splitIdcs idcs col v).2, i ∈ idcs := by
  unfold splitIdcs
  constructor
  · intro i hi
    obtain ⟨p, hp, rfl⟩ := List.mem_map.1 hi
    exact (List.of_mem_zip (List.mem_filter.1 hp).1).1
  · intro i hi
    obtain ⟨p, hp, rfl⟩ := List.mem_map.1 hi
    exact (List.of_mem_zip (List.mem_filter.1 hp).1).1

theorem splitNodeCore_seeing {t : Tree K G} (hd : SameAt S t.data d') (hl : SameAt S t.labels l') {id : Nat} {nd : Node K}
    (hn : ∀ i ∈ nd.idcs, i ∈ S) :
    splitNodeCore R (t.seeing d' l') id nd = (splitNodeCore R t id nd).map (Tree.seeing d' l') := by
  unfold splitNodeCore
  cases nd.splitReduction with
  | none => rfl
  | some red =>
    dsimp only
    split_ifs with h1
    · rfl
    · cases nd.data with
      | none => rfl
      | some data =>
        cases nd.labels with
        | none => rfl
        | some labels =>
          dsimp only
          cases colE data nd.prevSplitFeature with
          | error e => rfl
          | ok col =>
            dsimp only
            split_ifs with h2
            · rfl
            · have e1 : ∀ (g : G) (n : Nat), childNode R g (t.seeing d' l') nd n (splitIdcs nd.idcs col nd.splitValue).1 =
                  childNode R g t nd n (splitIdcs nd.idcs col nd.splitValue).1 := fun g n =>
                nodeInit_same hd hl (fun i hi => hn i (splitIdcs_sub.1 i hi))
              have e2 : ∀ (g : G) (n : Nat), childNode R g (t.seeing d' l') nd n (splitIdcs nd.idcs col nd.splitValue).2 =
                  childNode R g t nd n (splitIdcs nd.idcs col nd.splitValue).2 := fun g n =>
                nodeInit_same hd hl (fun i hi => hn i (splitIdcs_sub.2 i hi))
              rw [e1]
              have e3 : (t.seeing d' l').rng = t.rng := rfl
              rw [e3]
              cases childNode R t.rng t nd labels.length (splitIdcs nd.idcs col nd.splitValue).1 with
              | error e => rfl
              | ok p =>
                dsimp only
                rw [e2]
                cases childNode R p.2 t nd labels.length (splitIdcs nd.idcs col nd.splitValue).2 with
                | error e => rfl
                | ok q => rfl

theorem splitNodeCore_within {t t' : Tree K G} (ht : RowsWithin S t) {id : Nat} {nd : Node K} (hn : ∀ i ∈ nd.idcs, i ∈ S)
    (h : splitNodeCore R t id nd = .ok t') : RowsWithin S t' ∧ t'.data = t.data ∧ t'.labels = t.labels := by
  unfold splitNodeCore at h
  split at h
  · cases h
    exact ⟨ht, rfl, rfl⟩
  split_ifs at h with h1
  split at h
  · split at h
    · cases h
    dsimp only at h
    split_ifs at h with h2
    split at h
    · cases h
    rename_i hl'
    split at h
    · cases h
    rename_i hr'
    cases h
    refine ⟨?_, rfl, rfl⟩
    intro x hx
    have hx' := List.mem_append.1 hx
    rcases hx' with hx | hx
    · exact within_set (nd := { nd with left := some t.nodes.length, right := some (t.nodes.length + 1)
                                        cacheCls := none, cacheReg := none, alreadySplit := true, data := none, labels := none })
        ht hn x hx
    · rcases List.mem_cons.1 hx with rfl | hx
      · rw [nodeInit_idcs hl']
        exact fun i hi => hn i (splitIdcs_sub.1 i hi)
      · rcases List.mem_cons.1 hx with rfl | hx
        · rw [nodeInit_idcs hr']
          exact fun i hi => hn i (splitIdcs_sub.2 i hi)
        · simp at hx
  · cases h

theorem splitNode_seeing {t : Tree K G} (hd : SameAt S t.data d') (hl : SameAt S t.labels l') (ht : RowsWithin S t) {glob : Glob G} {j : Junk K}
    {id : Nat} : splitNode R glob j (t.seeing d' l') id = (splitNode R glob j t id).map (fun p => (p.1.seeing d' l', p.2)) := by
  unfold splitNode
  have e0 : (t.seeing d' l').nodes = t.nodes := rfl
  rw [e0]
  cases hn : t.nodes[id]? with
  | none => rfl
  | some node =>
    dsimp only
    split_ifs with h1 h2
    · rfl
    · have e1 : calcBestSplit R (t.seeing d' l').rng glob j (t.seeing d' l').cfg node none = calcBestSplit R t.rng glob j t.cfg node none := rfl
      rw [e1]
      cases hc : calcBestSplit R t.rng glob j t.cfg node none with
      | error e => rfl
      | ok p =>
        obtain ⟨node1, g, glob'⟩ := p
        dsimp only
        have := splitNodeCore_seeing (R := R) (t := { t with nodes := t.nodes.set id node1, rng := g }) hd hl (id := id) (nd := node1)
          (by rw [calcBestSplit_idcs hc]; exact ht.at hn)
        have e2 : ({ t with nodes := t.nodes.set id node1, rng := g } : Tree K G).seeing d' l' =
          { t.seeing d' l' with nodes := t.nodes.set id node1, rng := g } := rfl
        rw [e2] at this
        rw [this]
        cases splitNodeCore R { t with nodes := t.nodes.set id node1, rng := g } id node1 <;> rfl
    · dsimp only
      have := splitNodeCore_seeing (R := R) (t := { t with nodes := t.nodes.set id node, rng := t.rng }) hd hl (id := id) (nd := node) (ht.at hn)
      have e2 : ({ t with nodes := t.nodes.set id node, rng := t.rng } : Tree K G).seeing d' l' =
        { t.seeing d' l' with nodes := t.nodes.set id node, rng := (t.seeing d' l').rng } := rfl
      rw [e2] at this
      rw [this]
      cases splitNodeCore R { t with nodes := t.nodes.set id node, rng := t.rng } id node <;> rfl

theorem splitNode_within {t t' : Tree K G} (ht : RowsWithin S t) {glob glob' : Glob G} {j : Junk K} {id : Nat}
    (h : splitNode R glob j t id = .ok (t', glob')) : RowsWithin S t' ∧ t'.data = t.data ∧ t'.labels = t.labels := by
  unfold splitNode at h
  split at h
  · cases h
  rename_i node hn
  split_ifs at h with h1 h2
  · split at h
    · cases h
    rename_i node1 g gl hc
    split at h
    · cases h
    rename_i t2 hcore
    cases h
    have hi : ∀ i ∈ node1.idcs, i ∈ S := by rw [calcBestSplit_idcs hc]; exact ht.at hn
    exact splitNodeCore_within (t := { t with nodes := t.nodes.set id node1, rng := g }) (within_set ht hi) hi hcore
  · dsimp only at h
    split at h
    · cases h
    rename_i t2 hcore
    cases h
    exact splitNodeCore_within (t := { t with nodes := t.nodes.set id node, rng := t.rng }) (within_set ht (ht.at hn)) (ht.at hn) hcore

/-- The scan with another table attached to the tree. -/
def Scan.seeing (d : List (List K)) (l : List K) (s : Scan K G) : Scan K G := { s with t := s.t.seeing d l }

theorem scanLeaf_seeing {pos id : Nat} {s : Scan K G} :
    scanLeaf R mem pos id (s.seeing d' l') = (scanLeaf R mem pos id s).map (Option.map (Scan.seeing d' l')) := by
  unfold scanLeaf
  have e0 : (s.seeing d' l').t.nodes = s.t.nodes := rfl
  rw [e0]
  cases s.t.nodes[id]? with
  | none => rfl
  | some leaf =>
    dsimp only
    have e1 : splittableConstraints (s.seeing d' l').t.cfg leaf = splittableConstraints s.t.cfg leaf := rfl
    rw [e1]
    cases splittableConstraints s.t.cfg leaf with
    | error e => rfl
    | ok b =>
      cases b with
      | false => rfl
      | true =>
        dsimp only
        have e2 : noBudget (s.seeing d' l').t.remaining = noBudget s.t.remaining := rfl
        rw [e2]
        cases noBudget s.t.remaining with
        | true => rfl
        | false =>
          simp only [Bool.false_eq_true, if_false]
          have e3 : calcBestSplit R (s.seeing d' l').t.rng (s.seeing d' l').glob (mem id) (s.seeing d' l').t.cfg leaf (s.seeing d' l').t.remaining =
            calcBestSplit R s.t.rng s.glob (mem id) s.t.cfg leaf s.t.remaining := rfl
          rw [e3]
          cases calcBestSplit R s.t.rng s.glob (mem id) s.t.cfg leaf s.t.remaining with
          | error e => rfl
          | ok p => rfl

theorem scanLeaf_within {pos id : Nat} {s s' : Scan K G} (ht : RowsWithin S s.t) (h : scanLeaf R mem pos id s = .ok (some s')) :
    RowsWithin S s'.t ∧ s'.t.data = s.t.data ∧ s'.t.labels = s.t.labels := by
  unfold scanLeaf at h
  split at h
  · cases h
  rename_i leaf hn
  split at h
  · cases h
  · cases h
    have hi : ∀ i ∈ leaf.idcs, i ∈ S := ht.at hn
    exact ⟨within_set (nd := { leaf with isSplittable := some false }) ht hi, rfl, rfl⟩
  · by_cases hb : noBudget s.t.remaining = true
    · rw [if_pos hb] at h
      cases h
    rw [if_neg hb] at h
    split at h
    · cases h
    rename_i leaf1 g gl hc
    cases h
    refine ⟨within_set ht ?_, rfl, rfl⟩
    show ∀ i ∈ leaf1.idcs, i ∈ S
    rw [calcBestSplit_idcs hc]
    exact ht.at hn

theorem scanLeaves_seeing {ids : List Nat} {pos : Nat} {s : Scan K G} :
    scanLeaves R mem pos ids (s.seeing d' l') = (scanLeaves R mem pos ids s).map (Scan.seeing d' l') := by
  induction ids generalizing pos s with
  | nil => rfl
  | cons id ids ih =>
    unfold scanLeaves
    rw [scanLeaf_seeing]
    cases scanLeaf R mem pos id s with
    | error e => rfl
    | ok o =>
      cases o with
      | none => rfl
      | some s' => exact ih

theorem scanLeaves_within {ids : List Nat} {pos : Nat} {s s' : Scan K G} (ht : RowsWithin S s.t) (h : scanLeaves R mem pos ids s = .ok s') :
    RowsWithin S s'.t ∧ s'.t.data = s.t.data ∧ s'.t.labels = s.t.labels := by
  induction ids generalizing pos s with
  | nil =>
    cases h
    exact ⟨ht, rfl, rfl⟩
  | cons id ids ih =>
    unfold scanLeaves at h
    split at h
    · cases h
    · cases h
      exact ⟨ht, rfl, rfl⟩
    · rename_i s1 h1
      obtain ⟨a, b, c⟩ := scanLeaf_within ht h1
      obtain ⟨a', b', c'⟩ := ih a h
      exact ⟨a', b'.trans b, c'.trans c⟩

theorem splitBest_seeing {s : Scan K G} (hd : SameAt S s.t.data d') (hl : SameAt S s.t.labels l') (ht : RowsWithin S s.t) :
    splitBest R mem (s.seeing d' l') = (splitBest R mem s).map (fun p => (p.1, p.2.1.seeing d' l', p.2.2)) := by
  unfold splitBest
  have e0 : (s.seeing d' l').best = s.best := rfl
  rw [e0]
  cases s.best with
  | none => rfl
  | some b =>
    obtain ⟨pos, id, red⟩ := b
    dsimp only
    have e1 : (s.seeing d' l').t.cfg = s.t.cfg := rfl
    rw [e1]
    split_ifs
    · unfold performSplit
      have := splitNode_seeing (R := R) hd hl ht (glob := s.glob) (j := mem id) (id := id)
      have e2 : splitNode R (s.seeing d' l').glob (mem id) (s.seeing d' l').t id = splitNode R s.glob (mem id) (s.t.seeing d' l') id := rfl
      rw [e2, this]
      cases splitNode R s.glob (mem id) s.t id with
      | error e => rfl
      | ok p => rfl
    · rfl

theorem splitBest_within {s : Scan K G} (ht : RowsWithin S s.t) {b : Bool} {t' : Tree K G} {glob' : Glob G}
    (h : splitBest R mem s = .ok (b, t', glob')) : RowsWithin S t' ∧ t'.data = s.t.data ∧ t'.labels = s.t.labels := by
  unfold splitBest at h
  split at h
  · split_ifs at h with h1
    · unfold performSplit at h
      split at h
      · cases h
      rename_i h2
      split at h2
      · cases h2
      rename_i t2 g2 hs
      cases h2
      cases h
      have hw := splitNode_within ht hs
      exact ⟨hw.1, hw.2.1, hw.2.2⟩
    · cases h
      exact ⟨ht, rfl, rfl⟩
  · cases h
    exact ⟨ht, rfl, rfl⟩

theorem fitStep_seeing {t : Tree K G} (hd : SameAt S t.data d') (hl : SameAt S t.labels l') (ht : RowsWithin S t) {glob : Glob G} :
    fitStep R mem (t.seeing d' l') glob = (fitStep R mem t glob).map (fun p => (p.1, p.2.1.seeing d' l', p.2.2)) := by
  unfold fitStep
  have e0 : leafLimit (t.seeing d' l').cfg.maxLeafNodes (t.seeing d' l').leaves.length = leafLimit t.cfg.maxLeafNodes t.leaves.length := rfl
  rw [e0]
  cases leafLimit t.cfg.maxLeafNodes t.leaves.length with
  | error e => rfl
  | ok b =>
    cases b with
    | true => rfl
    | false =>
      dsimp only
      have e1 : scanLeaves R mem 0 (t.seeing d' l').leaves { t := t.seeing d' l', glob := glob, best := none } =
        scanLeaves R mem 0 t.leaves (Scan.seeing d' l' { t := t, glob := glob, best := none }) := rfl
      rw [e1, scanLeaves_seeing]
      cases hs : scanLeaves R mem 0 t.leaves { t := t, glob := glob, best := none } with
      | error e => rfl
      | ok s =>
        obtain ⟨a, b, c⟩ := scanLeaves_within (S := S) (s := { t := t, glob := glob, best := none }) ht hs
        simp only [Except.map]
        rw [splitBest_seeing (by rw [b]; exact hd) (by rw [c]; exact hl) a]
        cases splitBest R mem s with
        | error e => rfl
        | ok p =>
          obtain ⟨again, t', glob'⟩ := p
          simp only [Except.map]
          have e2 : getDepth (t'.seeing d' l') = getDepth t' := rfl
          rw [e2]
          cases getDepth t' <;> rfl

theorem fitStep_within {t t' : Tree K G} (ht : RowsWithin S t) {glob glob' : Glob G} {b : Bool} (h : fitStep R mem t glob = .ok (b, t', glob')) :
    RowsWithin S t' ∧ t'.data = t.data ∧ t'.labels = t.labels := by
  unfold fitStep at h
  split at h
  · cases h
  · cases h
    exact ⟨ht, rfl, rfl⟩
  · split at h
    · cases h
    rename_i s hs
    obtain ⟨a, b1, c⟩ := scanLeaves_within (S := S) (s := { t := t, glob := glob, best := none }) ht hs
    split at h
    · cases h
    rename_i hb
    split at h
    · cases h
    cases h
    obtain ⟨a', b', c'⟩ := splitBest_within a hb
    exact ⟨a', b'.trans b1, c'.trans c⟩

theorem fitLoop_seeing {fuel : Nat} {t : Tree K G} (hd : SameAt S t.data d') (hl : SameAt S t.labels l') (ht : RowsWithin S t) {glob : Glob G} :
    fitLoop R mem fuel (t.seeing d' l') glob = (fitLoop R mem fuel t glob).map (fun p => (p.1.seeing d' l', p.2)) := by
  induction fuel generalizing t glob with
  | zero => rfl
  | succ n ih =>
    unfold fitLoop
    rw [fitStep_seeing hd hl ht]
    cases h : fitStep R mem t glob with
    | error e => rfl
    | ok p =>
      obtain ⟨b, t', glob'⟩ := p
      obtain ⟨a, b1, c⟩ := fitStep_within ht h
      cases b with
      | false => rfl
      | true => exact ih (by rw [b1]; exact hd) (by rw [c]; exact hl) a

theorem fit_seeing {t : Tree K G} (hm : t.cfg.makeDiscrete = false) (hd : SameAt S t.data d') (hl : SameAt S t.labels l') (ht : RowsWithin S t)
    {glob : Glob G} :
    Tree.fit R mem (t.seeing d' l') glob none none = (Tree.fit R mem t glob none none).map (fun p => (p.1.seeing d' l', p.2)) := by
  unfold Tree.fit
  have e1 : maybeDiscrete (t.seeing d' l').cfg.makeDiscrete (t.seeing d' l').data (t.seeing d' l').discrete = .ok t.discrete := by
    show maybeDiscrete t.cfg.makeDiscrete d' t.discrete = _
    rw [hm]
    rfl
  have e2 : maybeDiscrete t.cfg.makeDiscrete t.data t.discrete = .ok t.discrete := by
    rw [hm]
    rfl
  simp only [bothOrNeither]
  rw [e1, e2]
  dsimp only
  have e3 : (t.seeing d' l').cfg = t.cfg := rfl
  rw [e3]
  cases t.cfg.splitter with
  | best => exact fitLoop_seeing (S := S) (t := { t with discrete := t.discrete, leaves := t.leaves ++ [0] }) hd hl ht
  | depth => rfl
  | other => rfl

/-- The same call of the constructor and of `fit` on two tables that agree in the rows given to the tree. -/
theorem treeRun_seeing {cfg : TreeCfg K} (hmd : cfg.makeDiscrete = false ∨ cfg.binType = some .linear ∨ cfg.binType = some .identity)
    {rows : List Nat} (hd : SameAt rows d d') (hl : SameAt rows l l') {disc : DiscDict K} {budget : Option Int} {seed : Nat}
    {feats : Option (List Nat)} (hf : defaultFeats d' feats = defaultFeats d feats) {idcs : Option (List Nat)}
    (hrows : rows = idcs.getD (List.range l.length)) :
    Tree.init R cfg d' l' disc budget seed idcs feats =
      (Tree.init R cfg d l disc budget seed idcs feats).map (fun p => (p.1.seeing d' l', p.2)) ∧
    ∀ t0 glob0, Tree.init R cfg d l disc budget seed idcs feats = .ok (t0, glob0) → ∀ glob,
      Tree.fit R mem (t0.seeing d' l') glob none none = (Tree.fit R mem t0 glob none none).map (fun p => (p.1.seeing d' l', p.2)) := by
  have hmk : (if cfg.binType = some .linear ∨ cfg.binType = some .identity then false else cfg.makeDiscrete) = false := by
    rcases hmd with h | h
    · rw [h]; split_ifs <;> rfl
    · rw [if_pos h]
  constructor
  · unfold Tree.init
    rw [hd.1, hl.1]
    by_cases hne : d.length ≠ l.length
    · rw [if_pos hne, if_pos hne]
      rfl
    · rw [if_neg hne, if_neg hne]
      dsimp only
      rw [hf]
      cases defaultFeats d feats with
      | error e => rfl
      | ok fs =>
        dsimp only
        rw [nodeInit_same hd hl (by rw [hrows]; exact fun i hi => hi)]
        generalize Node.init R _ _ d l _ _ _ _ _ _ = o
        cases o with
        | error e => rfl
        | ok p =>
          simp only [Except.map]
          rfl
  · intro t0 glob0 h glob
    unfold Tree.init at h
    by_cases hne : d.length ≠ l.length
    · rw [if_pos hne] at h
      cases h
    · rw [if_neg hne] at h
      dsimp only at h
      split at h
      · cases h
      split at h
      · cases h
      rename_i root g hroot
      simp only [Except.ok.injEq, Prod.mk.injEq] at h
      obtain ⟨h, _⟩ := h
      have hw : ∀ i ∈ root.idcs, i ∈ rows := by
        rw [nodeInit_idcs hroot, hrows]
        exact fun i hi => hi
      have hm : t0.cfg.makeDiscrete = false := by rw [← h]; exact hmk
      have hd' : SameAt rows t0.data d' := by rw [← h]; exact hd
      have hl' : SameAt rows t0.labels l' := by rw [← h]; exact hl
      have hwt : RowsWithin rows t0 := by
        rw [← h]
        intro nd hnd
        rcases List.mem_singleton.1 hnd with rfl
        exact hw
      exact fit_seeing hm hd' hl' hwt

theorem predict_seeing (t : Tree K G) (x : List K) :
    (t.seeing d' l').predict x = (t.predict x).map (fun p => (p.1, p.2.seeing d' l')) := by
  unfold Tree.predict
  have e0 : (t.seeing d' l').nodes = t.nodes := rfl
  have e1 : (t.seeing d' l').cfg = t.cfg := rfl
  rw [e0, e1]
  cases walk t.nodes x t.nodes.length 0 with
  | error e => rfl
  | ok id =>
    dsimp only
    cases t.nodes[id]? with
    | none => rfl
    | some node =>
      dsimp only
      by_cases h1 : t.cfg.isCls = true
      · rw [if_pos h1, if_pos h1]
        cases node.cacheCls with
        | some c => rfl
        | none =>
          dsimp only
          by_cases h2 : node.counts.sum = 0
          · rw [if_pos h2, if_pos h2]
            rfl
          · rw [if_neg h2, if_neg h2]
            cases npArgmax (node.counts.map (fun (c : Nat) => (c : K) / ((node.counts.sum : Nat) : K))) with
            | none => rfl
            | some i =>
              dsimp only
              cases idxToClass t.cfg.classes i <;> rfl
      · rw [if_neg h1, if_neg h1]
        cases node.cacheReg with
        | some v => rfl
        | none =>
          cases node.labels with
          | none => rfl
          | some ls => cases ls <;> rfl

/-! ### The process-wide generators after a quiet fit -/

theorem scanLeaf_glob {pos id : Nat} {s s' : Scan K G} (hq : QuietTree s.t.cfg) (h : scanLeaf R mem pos id s = .ok (some s')) :
    s'.glob = s.glob := by
  have := scanLeaf_quiet (R := R) (mem := mem) s.glob (pos := pos) (id := id) hq
  rw [show ({ s with glob := s.glob } : Scan K G) = s from rfl, h] at this
  simp only [Except.map, Option.map, Except.ok.injEq, Option.some.injEq] at this
  rw [this]

theorem scanLeaves_glob {ids : List Nat} {pos : Nat} {s s' : Scan K G} (hq : QuietTree s.t.cfg) (h : scanLeaves R mem pos ids s = .ok s') :
    s'.glob = s.glob ∧ s'.t.cfg = s.t.cfg := by
  induction ids generalizing pos s with
  | nil =>
    cases h
    exact ⟨rfl, rfl⟩
  | cons id ids ih =>
    unfold scanLeaves at h
    split at h
    · cases h
    · cases h
      exact ⟨rfl, rfl⟩
    · rename_i s1 h1
      have c := (scanLeaf_cfg h1).1
      obtain ⟨a, b⟩ := ih (by rw [c]; exact hq) h
      exact ⟨a.trans (scanLeaf_glob hq h1), b.trans c⟩

theorem splitBest_glob {s : Scan K G} (hq : QuietTree s.t.cfg) {b : Bool} {t' : Tree K G} {glob' : Glob G}
    (h : splitBest R mem s = .ok (b, t', glob')) : glob' = s.glob := by
  have := splitBest_quiet (R := R) (mem := mem) s.glob hq
  rw [show ({ s with glob := s.glob } : Scan K G) = s from rfl, h] at this
  simp only [Except.map, Except.ok.injEq, Prod.mk.injEq] at this
  exact this.2.2

theorem fitLoop_glob {fuel : Nat} {t t' : Tree K G} (hq : QuietTree t.cfg) {glob glob' : Glob G}
    (h : fitLoop R mem fuel t glob = .ok (t', glob')) : glob' = glob := by
  induction fuel generalizing t glob with
  | zero => cases h
  | succ n ih =>
    unfold fitLoop at h
    cases hs : fitStep R mem t glob with
    | error e => rw [hs] at h; cases h
    | ok p =>
      obtain ⟨b, t1, glob1⟩ := p
      rw [hs] at h
      have key : glob1 = glob ∧ t1.cfg = t.cfg := by
        unfold fitStep at hs
        split at hs
        · cases hs
        · cases hs
          exact ⟨rfl, rfl⟩
        · split at hs
          · cases hs
          rename_i s1 h1
          obtain ⟨a, c⟩ := scanLeaves_glob (s := { t := t, glob := glob, best := none }) hq h1
          split at hs
          · cases hs
          rename_i h2
          split at hs
          · cases hs
          cases hs
          have hq1 : QuietTree s1.t.cfg := by rw [c]; exact hq
          exact ⟨(splitBest_glob hq1 h2).trans a, (splitBest_cfg h2).1.trans c⟩
      cases b with
      | false =>
        cases h
        exact key.1
      | true => exact (ih (by rw [key.2]; exact hq) h).trans key.1

theorem fit_glob {t t' : Tree K G} (hq : QuietTree t.cfg) {glob glob' : Glob G} (h : Tree.fit R mem t glob none none = .ok (t', glob')) :
    glob' = glob := by
  unfold Tree.fit at h
  simp only [bothOrNeither] at h
  split at h
  · cases h
  split at h
  · exact fitLoop_glob (t := { t with discrete := _, leaves := t.leaves ++ [0] }) hq h
  · cases h
  · cases h

end

/-! ### Two runs of a forest -/

section
variable {R : Rng K G} {mem : Nat → Nat → Junk K} {data data' : List (List K)} {L L' : List K}

/-- Two trees of two runs: the same rows, and the same tree if the tables agree in them. -/
def TwinTree (data data' : List (List K)) (L L' : List K) (t t' : Tree K G) : Prop :=
  rowsOf t' 0 = rowsOf t 0 ∧ (SameAt (rowsOf t 0) data data' → SameAt (rowsOf t 0) L L' → t' = t.seeing data' L')

/-- Two runs of a forest between two trees. -/
structure Twins (data data' : List (List K)) (L L' : List K) (f f' : Forest K G) (w w' : World K G) : Prop where
  cfg : f'.cfg = f.cfg
  classes : f'.classes = f.classes
  rng : f'.rng = f.rng
  oob : f'.oobList = f.oobList
  disc : f'.discrete = f.discrete
  minmax : f'.minmax = f.minmax
  rem : f.remaining = none
  rem' : f'.remaining = none
  glob : w'.glob = w.glob
  org : ∃ r, f.orgRef = some r ∧ w.arrays.getD r [] = L
  org' : ∃ r, f'.orgRef = some r ∧ w'.arrays.getD r [] = L'
  trees : List.Forall₂ (TwinTree data data' L L') f.trees f'.trees

theorem init_glob {cfg : TreeCfg K} {d : List (List K)} {l : List K} {disc : DiscDict K} {budget : Option Int} {seed : Nat}
    {idcs feats : Option (List Nat)} {t0 : Tree K G} {glob : Glob G} (h : Tree.init R cfg d l disc budget seed idcs feats = .ok (t0, glob)) :
    glob = setSeed R seed := by
  unfold Tree.init at h
  by_cases hne : d.length ≠ l.length
  · rw [if_pos hne] at h
    cases h
  · rw [if_neg hne] at h
    dsimp only at h
    split at h
    · cases h
    split at h
    · cases h
    simp only [Except.ok.injEq, Prod.mk.injEq] at h
    exact h.2.symm

theorem forestStep_split {F i : Nat} {f f1 : Forest K G} {w w1 : World K G} {b : Bool} (hr : f.remaining = none)
    (hb : f.cfg.boosting = false) (hq : QuietTree f.treeCfg) {r : Nat} (ho : f.orgRef = some r)
    (h : forestStep R mem data F i f w = .ok (b, f1, w1)) :
    ∃ rows0 feats g1 rows g2 tree0 tree,
      subsets R f.rng data.length F f.cfg = .ok (rows0, feats, g1) ∧
      bootstrapIdcs R g1 data.length f.cfg rows0 = .ok (rows, g2) ∧
      Tree.init R f.treeCfg data (w.arrays.getD r []) f.discrete none (R.randint w.glob.np maxSeed).1 (some rows) (some feats) =
        .ok (tree0, setSeed R (R.randint w.glob.np maxSeed).1) ∧
      Tree.fit R (mem i) tree0 (setSeed R (R.randint w.glob.np maxSeed).1) none none =
        .ok (tree, setSeed R (R.randint w.glob.np maxSeed).1) ∧
      b = true ∧ w1 = { w with glob := setSeed R (R.randint w.glob.np maxSeed).1 } ∧
      f1 = { f with trees := f.trees ++ [tree], rng := g2,
                    oobList := if f.cfg.bootstrap ∧ f.cfg.oobScore then f.oobList.map (fun l => l ++ [getOutOfBag rows data.length]) else f.oobList
                    numQueries := f.numQueries + tree.numQueries } := by
  unfold forestStep at h
  dsimp only at h
  cases hs : subsets R f.rng data.length F f.cfg with
  | error e => rw [hs] at h; cases h
  | ok p =>
    obtain ⟨rows0, feats, g1⟩ := p
    rw [hs] at h
    dsimp only at h
    rw [hr, hb] at h
    rw [if_neg (by simp [spent])] at h
    rw [if_neg (by simp), ho] at h
    dsimp only at h
    cases hbo : bootstrapIdcs R g1 data.length f.cfg rows0 with
    | error e => rw [hbo] at h; cases h
    | ok p =>
      obtain ⟨rows, g2⟩ := p
      rw [hbo] at h
      dsimp only at h
      cases ht0 : Tree.init R f.treeCfg data (w.arrays.getD r []) f.discrete none (R.randint w.glob.np maxSeed).1 (some rows) (some feats) with
      | error e => rw [ht0] at h; cases h
      | ok p =>
        obtain ⟨tree0, glob0⟩ := p
        rw [ht0] at h
        dsimp only at h
        have hg0 := init_glob ht0
        subst hg0
        cases ht1 : Tree.fit R (mem i) tree0 (setSeed R (R.randint w.glob.np maxSeed).1) none none with
        | error e => rw [ht1] at h; cases h
        | ok p =>
          obtain ⟨tree, glob1⟩ := p
          rw [ht1] at h
          dsimp only at h
          have hc := Tree.init_cfg ht0
          have hq0 : QuietTree tree0.cfg := ⟨hc.1.trans hq.1, by rw [hc.2.1]; exact hq.2⟩
          have hg1 := fit_glob hq0 ht1
          subst hg1
          rw [if_pos (show keepTree none tree.numQueries = true from rfl)] at h
          unfold boostStep at h
          rw [hb, if_neg (by simp)] at h
          simp only [Except.ok.injEq, Prod.mk.injEq] at h
          obtain ⟨h1, h2, h3⟩ := h
          refine ⟨rows0, feats, g1, rows, g2, tree0, tree, rfl, hbo, ht0, ht1, h1.symm, h3.symm, ?_⟩
          rw [← h2]
          simp [hr, ho]

theorem fit_rows {A : TreeArgs K} {m : Nat → Junk K} {t : Tree K G} (h : Fitted R m A t) : rowsOf t 0 = A.rows := by
  obtain ⟨dd, t0, hfacts⟩ := h.facts
  obtain ⟨nd, h1, h2, _⟩ := hfacts.shape.root
  unfold rowsOf
  rw [show t.nodes[0]? = some nd from h1]
  exact h2

theorem forestStep_twins {F i : Nat} {f f1 f' f1' : Forest K G} {w w1 w' w1' : World K G} {b b' : Bool}
    (hT : Twins data data' L L' f f' w w') (hlen : data'.length = data.length)
    (hb : f.cfg.boosting = false) (hq : QuietTree f.treeCfg)
    (h : forestStep R mem data F i f w = .ok (b, f1, w1)) (h' : forestStep R mem data' F i f' w' = .ok (b', f1', w1')) :
    b = true ∧ b' = true ∧ f1.cfg = f.cfg ∧ f1.treeCfg = f.treeCfg ∧ Twins data data' L L' f1 f1' w1 w1' := by
  obtain ⟨r, hr, hrL⟩ := hT.org
  obtain ⟨r', hr', hrL'⟩ := hT.org'
  have etc : f'.treeCfg = f.treeCfg := by
    unfold Forest.treeCfg
    rw [hT.cfg, hT.classes, hT.minmax]
  obtain ⟨rows0, feats, g1, rows, g2, tree0, tree, a1, a2, a3, a4, rfl, rfl, rfl⟩ := forestStep_split hT.rem hb hq hr h
  obtain ⟨rows0', feats', g1', rows', g2', tree0', tree', b1, b2, b3, b4, rfl, rfl, rfl⟩ :=
    forestStep_split hT.rem' (by rw [hT.cfg]; exact hb) (by rw [etc]; exact hq) hr' h'
  rw [hT.rng, hT.cfg, hlen, a1] at b1
  simp only [Except.ok.injEq, Prod.mk.injEq] at b1
  obtain ⟨rfl, rfl, rfl⟩ := b1
  rw [hT.cfg, hlen, a2] at b2
  simp only [Except.ok.injEq, Prod.mk.injEq] at b2
  obtain ⟨rfl, rfl⟩ := b2
  rw [etc, hT.disc, hT.glob, hrL'] at b3
  rw [hT.glob] at b4
  rw [hrL] at a3
  have e1 : rowsOf tree 0 = rows := fit_rows (A := ⟨f.treeCfg, data, L, f.discrete, none, (R.randint w.glob.np maxSeed).1, some rows, some feats⟩)
    ⟨tree0, _, _, ⟨_, a3⟩, a4⟩
  have e2 : rowsOf tree' 0 = rows := fit_rows (A := ⟨f.treeCfg, data', L', f.discrete, none, (R.randint w.glob.np maxSeed).1, some rows, some feats⟩)
    ⟨tree0', _, _, ⟨_, b3⟩, b4⟩
  refine ⟨rfl, rfl, rfl, rfl, ?_⟩
  refine ⟨hT.cfg, hT.classes, rfl, ?_, hT.disc, hT.minmax, hT.rem, hT.rem', ?_, ⟨r, hr, hrL⟩, ⟨r', hr', hrL'⟩, ?_⟩
  · dsimp only
    rw [hT.cfg, hT.oob, hlen]
  · dsimp only
    rw [hT.glob]
  · dsimp only
    refine List.rel_append hT.trees (List.Forall₂.cons ⟨e2.trans e1.symm, ?_⟩ List.Forall₂.nil)
    rw [e1]
    intro hd hl
    obtain ⟨c1, c2⟩ := treeRun_seeing (R := R) (mem := mem i) (cfg := f.treeCfg) (Or.inl rfl) hd hl (disc := f.discrete) (budget := none)
      (seed := (R.randint w.glob.np maxSeed).1) (feats := some feats) rfl (idcs := some rows) rfl
    rw [a3, b3] at c1
    simp only [Except.map, Except.ok.injEq, Prod.mk.injEq] at c1
    have c3 := c2 tree0 _ a3 (setSeed R (R.randint w.glob.np maxSeed).1)
    rw [← c1.1, b4, a4] at c3
    simp only [Except.map, Except.ok.injEq, Prod.mk.injEq] at c3
    exact c3.1

theorem forestLoop_twins {F : Nat} {is : List Nat} {f f1 f' f1' : Forest K G} {w w1 w' w1' : World K G}
    (hT : Twins data data' L L' f f' w w') (hlen : data'.length = data.length)
    (hb : f.cfg.boosting = false) (hq : QuietTree f.treeCfg)
    (h : forestLoop R mem data F is f w = .ok (f1, w1)) (h' : forestLoop R mem data' F is f' w' = .ok (f1', w1')) :
    Twins data data' L L' f1 f1' w1 w1' := by
  induction is generalizing f f' w w' with
  | nil =>
    cases h
    cases h'
    exact hT
  | cons i is ih =>
    unfold forestLoop at h h'
    cases hs : forestStep R mem data F i f w with
    | error e => rw [hs] at h; cases h
    | ok p =>
      obtain ⟨b, f2, w2⟩ := p
      cases hs' : forestStep R mem data' F i f' w' with
      | error e => rw [hs'] at h'; cases h'
      | ok p' =>
        obtain ⟨b', f2', w2'⟩ := p'
        obtain ⟨rfl, rfl, e1, e2, hT2⟩ := forestStep_twins hT hlen hb hq hs hs'
        rw [hs] at h
        rw [hs'] at h'
        dsimp only at h h'
        rw [hT2.rem, if_pos rfl] at h
        rw [hT2.rem', if_pos rfl] at h'
        exact ih hT2 (by rw [e1]; exact hb) (by rw [e2]; exact hq) h h'

end

end FF
