import Verif.Spec.FitThreads
import Verif.Proofs.TreeFacts

/-!
# Trees that do not use the process-wide generators
-/

namespace FF

set_option linter.unusedSectionVars false

open Spec

variable {K : Type} [Field K] [LinearOrder K] [IsStrictOrderedRing K] [FloorRing K] [NpFun K] {G : Type}
variable {R : Rng K G} {mem : Nat → Junk K}

/-! ### The search at one node -/

theorem makeEdges_quiet (g0 g : G) {bt : BinType} (h : bt ≠ .random) (uf : Option (DiscVals K)) (fData : List K) (n : Nat) (lo hi : K) :
    makeEdges R g bt uf fData n lo hi = (makeEdges R g0 bt uf fData n lo hi).map (fun p => (p.1, p.2.1, g)) := by
  unfold makeEdges
  cases bt with
  | linear => dsimp only; split_ifs <;> rfl
  | discrete =>
    cases uf with
    | none => rfl
    | some u => dsimp only; cases discreteBin u n <;> rfl
  | identity => rfl
  | random => exact absurd rfl h

theorem chooseBinType_quiet (D : Option Nat) (N B : Nat) : chooseBinType D N B ≠ .random := by
  unfold chooseBinType
  cases D with
  | none => dsimp only; split_ifs <;> decide
  | some d => dsimp only; split_ifs <;> decide

theorem makeHistStep_quiet (g : G) {isCls : Bool} {data : List (List K)} {classes : List K} {minmax : Option (List K × List K)}
    {d : DiscDict K} {binType : Option BinType} (hb : binType ≠ some .random) {B f : Nat} (st : Hists K G) :
    makeHistStep R isCls data classes minmax d binType B f { st with g := g } =
      (makeHistStep R isCls data classes minmax d binType B f st).map (fun s => { s with g := g }) := by
  unfold makeHistStep
  cases colE data f with
  | error e => rfl
  | ok fData =>
    have key : ∀ bt : BinType, bt ≠ .random → ∀ (lo hi : K) (nb : Nat),
        Hist.init R g isCls f (discLookup d f) fData classes nb lo hi bt =
          (Hist.init R st.g isCls f (discLookup d f) fData classes nb lo hi bt).map (fun p => (p.1, g)) := by
      intro bt hbt lo hi nb
      unfold Hist.init
      rw [makeEdges_quiet st.g g hbt]
      cases makeEdges R st.g bt (discLookup d f) fData nb lo hi <;> rfl
    cases binType with
    | none =>
      dsimp only
      cases binParams data minmax d (discLookup d f) (chooseBinType ((discLookup d f).map (fun u : DiscVals K => u.vals.length)) data.length B)
          f fData st.numBins with
      | error e => rfl
      | ok p =>
        obtain ⟨lo, hi, nb⟩ := p
        dsimp only
        rw [key _ (chooseBinType_quiet _ _ _)]
        generalize Hist.init R st.g _ _ _ _ _ _ _ _ _ = o
        cases o <;> rfl
    | some t =>
      dsimp only
      cases binParams data minmax d (discLookup d f) t f fData st.numBins with
      | error e => rfl
      | ok p =>
        obtain ⟨lo, hi, nb⟩ := p
        dsimp only
        rw [key t (fun he => hb (by rw [he]))]
        cases Hist.init R st.g isCls f (discLookup d f) fData classes nb lo hi t <;> rfl

theorem makeHistLoop_quiet (g : G) {isCls : Bool} {data : List (List K)} {classes : List K} {minmax : Option (List K × List K)}
    {d : DiscDict K} {binType : Option BinType} (hb : binType ≠ some .random) {B : Nat} (fs : List Nat) : ∀ st : Hists K G,
    makeHistLoop R isCls data classes minmax d binType B fs { st with g := g } =
      (makeHistLoop R isCls data classes minmax d binType B fs st).map (fun s => { s with g := g }) := by
  induction fs with
  | nil => intro st; rfl
  | cons f fs ih =>
    intro st
    unfold makeHistLoop
    rw [makeHistStep_quiet g hb]
    cases makeHistStep R isCls data classes minmax d binType B f st with
    | error e => rfl
    | ok s => exact ih s

theorem makeHistograms_quiet (g0 g : G) {isCls : Bool} {data : List (List K)} {labels : List K} {minmax : Option (List K × List K)}
    {d : DiscDict K} {binType : Option BinType} (hb : binType ≠ some .random) {B : Nat} :
    makeHistograms R g isCls data labels minmax d binType B =
      (makeHistograms R g0 isCls data labels minmax d binType B).map (fun s => { s with g := g }) := by
  unfold makeHistograms
  cases data with
  | nil => rfl
  | cons row rows =>
    dsimp only
    exact makeHistLoop_quiet g hb _ { hists := [], notCons := [], cons := [], numBins := B, g := g0 }

theorem sampleTargets_whole (g0 g : G) (data : List (List K)) (labels : List K) (arms : List Arm) (hists : List (Hist K)) (m : Criterion) :
    sampleTargets R g data labels arms hists data.length m (some (List.range data.length)) =
      (sampleTargets R g0 data labels arms hists data.length m (some (List.range data.length))).map (fun s => { s with g := g }) := by
  unfold sampleTargets drawSamples
  dsimp only
  rw [if_pos (by simp), if_pos (by simp)]
  dsimp only
  cases takeE data [] (List.range data.length) with
  | error e => rfl
  | ok samples =>
    dsimp only
    cases takeE labels 0 (List.range data.length) with
    | error e => rfl
    | ok sl =>
      dsimp only
      cases sampleLoop samples sl m (some data.length) (groupArms arms) { hists := hists, reds := [], cbs := [], nq := 0 } <;> rfl

theorem solveExactly_quiet (g0 g : G) {junk : Mat K} {data : List (List K)} {labels : List K} {minmax : Option (List K × List K)}
    {d : DiscDict K} {binType : Option BinType} (hb : binType ≠ some .random) {nb : Option Nat} {isCls : Bool} {m : Criterion} :
    solveExactly R g junk data labels minmax d binType nb isCls m =
      (solveExactly R g0 junk data labels minmax d binType nb isCls m).map (fun p => (p.1, p.2.1, g)) := by
  unfold solveExactly
  cases data with
  | nil => rfl
  | cons row rows =>
    dsimp only
    cases (if binType = some .identity then some (row :: rows).length else nb) with
    | none => rfl
    | some B =>
      dsimp only
      rw [makeHistograms_quiet g0 g hb]
      cases makeHistograms R g0 isCls (row :: rows) labels minmax d binType B with
      | error e => rfl
      | ok hs =>
        simp only [Except.map]
        cases fillMat row.length B (npEmpty row.length B junk) hs.notCons .pinf with
        | error e => rfl
        | ok est0 =>
          dsimp only
          generalize (if hs.notCons.length > 0 then hs.cons else allArms row.length B) = cands
          by_cases hc : cands = []
          · rw [if_pos hc, if_pos hc]
          · rw [if_neg hc, if_neg hc, sampleTargets_whole hs.g g]
            generalize sampleTargets R hs.g _ _ _ _ _ _ _ = o
            cases o with
            | error e => rfl
            | ok out =>
              simp only [Except.map]
              generalize assignMat _ _ _ _ _ = o2
              cases o2 with
              | error e => rfl
              | ok est =>
                dsimp only
                cases bestArms row.length B est with
                | error e => rfl
                | ok arms =>
                  cases arms with
                  | nil => rfl
                  | cons arm arms =>
                    dsimp only
                    cases finishSplit out.acc.hists est arm <;> rfl

theorem calcBestSplit_quiet (g0 g : G) (glob0 glob : Glob G) {cfg : TreeCfg K} (hq : QuietTree cfg) {junk : Junk K} {node : Node K}
    {budget : Option Int} :
    calcBestSplit R g glob junk cfg node budget =
      (calcBestSplit R g0 glob0 junk cfg node budget).map (fun p => (p.1, g, glob)) := by
  unfold calcBestSplit
  split_ifs
  · rfl
  · cases nodeBins cfg node with
    | error e => rfl
    | ok nb =>
      dsimp only
      cases node.data with
      | none => rfl
      | some data =>
        cases node.labels with
        | none => rfl
        | some labels =>
          dsimp only
          unfold nodeSolve
          rw [hq.1]
          dsimp only
          rw [solveExactly_quiet glob0.np glob.np hq.2]
          generalize solveExactly R glob0.np _ _ _ _ _ _ _ _ _ = o
          cases o with
          | error e => rfl
          | ok p => rfl

/-! ### The process-wide generators do not matter -/

theorem scanLeaf_quiet (glob : Glob G) {pos id : Nat} {s : Scan K G} (hq : QuietTree s.t.cfg) :
    scanLeaf R mem pos id { s with glob := glob } = (scanLeaf R mem pos id s).map (Option.map (fun s' => { s' with glob := glob })) := by
  unfold scanLeaf
  dsimp only
  cases s.t.nodes[id]? with
  | none => rfl
  | some leaf =>
    dsimp only
    cases splittableConstraints s.t.cfg leaf with
    | error e => rfl
    | ok b =>
      cases b with
      | false => rfl
      | true =>
        dsimp only
        cases noBudget s.t.remaining with
        | true => rfl
        | false =>
          simp only [Bool.false_eq_true, if_false]
          rw [calcBestSplit_quiet s.t.rng s.t.rng s.glob glob hq]
          have := calcBestSplit_quiet (R := R) s.t.rng s.t.rng s.glob s.glob hq (junk := mem id) (node := leaf) (budget := s.t.remaining)
          cases hc : calcBestSplit R s.t.rng s.glob (mem id) s.t.cfg leaf s.t.remaining with
          | error e => rfl
          | ok p =>
            obtain ⟨a, b, c⟩ := p
            rw [hc] at this
            simp only [Except.map, Except.ok.injEq, Prod.mk.injEq] at this
            rw [this.2.1]
            rfl

theorem splitNode_quiet (glob0 glob : Glob G) {j : Junk K} {t : Tree K G} (hq : QuietTree t.cfg) {id : Nat} :
    splitNode R glob j t id = (splitNode R glob0 j t id).map (fun p => (p.1, glob)) := by
  unfold splitNode
  cases t.nodes[id]? with
  | none => rfl
  | some node =>
    dsimp only
    split_ifs
    · rfl
    · rw [calcBestSplit_quiet t.rng t.rng glob0 glob hq]
      have := calcBestSplit_quiet (R := R) t.rng t.rng glob0 glob0 hq (junk := j) (node := node) (budget := none)
      cases hc : calcBestSplit R t.rng glob0 j t.cfg node none with
      | error e => rfl
      | ok p =>
        obtain ⟨a, b, c⟩ := p
        rw [hc] at this
        simp only [Except.map, Except.ok.injEq, Prod.mk.injEq] at this
        rw [this.2.1]
        simp only [Except.map]
        cases splitNodeCore R { t with nodes := t.nodes.set id a, rng := t.rng } id a <;> rfl
    · dsimp only
      cases splitNodeCore R { t with nodes := t.nodes.set id node, rng := t.rng } id node <;> rfl

theorem splitBest_quiet (glob : Glob G) {s : Scan K G} (hq : QuietTree s.t.cfg) :
    splitBest R mem { s with glob := glob } = (splitBest R mem s).map (fun p => (p.1, p.2.1, glob)) := by
  unfold splitBest
  cases s.best with
  | none => rfl
  | some b =>
    obtain ⟨pos, id, red⟩ := b
    dsimp only
    split_ifs
    · unfold performSplit
      dsimp only
      rw [splitNode_quiet s.glob glob hq]
      cases splitNode R s.glob (mem id) s.t id with
      | error e => rfl
      | ok p => rfl
    · rfl

/-- The tree of a phase. -/
def TreePhase.tree : TreePhase K G → Tree K G
  | .pass _ t => t
  | .scan _ t _ _ _ => t
  | .split _ t _ => t

theorem TreePhase.step_quiet (glob0 glob : Glob G) {ph : TreePhase K G} (hq : QuietTree ph.tree.cfg) :
    ph.step R mem glob = (ph.step R mem glob0).map (fun p => (p.1, glob)) := by
  cases ph with
  | pass n t =>
    cases n with
    | zero => rfl
    | succ n =>
      unfold TreePhase.step
      dsimp only
      cases leafLimit t.cfg.maxLeafNodes t.leaves.length with
      | error e => rfl
      | ok b => cases b <;> rfl
  | scan n t best pos ids =>
    cases ids with
    | nil => rfl
    | cons id ids =>
      unfold TreePhase.step
      have := scanLeaf_quiet (R := R) (mem := mem) glob (pos := pos) (id := id) (s := { t := t, glob := glob0, best := best }) hq
      dsimp only at this ⊢
      rw [this]
      cases scanLeaf R mem pos id { t := t, glob := glob0, best := best } with
      | error e => rfl
      | ok o => cases o <;> rfl
  | split n t best =>
    unfold TreePhase.step
    have := splitBest_quiet (R := R) (mem := mem) glob (s := { t := t, glob := glob0, best := best }) hq
    dsimp only at this ⊢
    rw [this]
    cases splitBest R mem { t := t, glob := glob0, best := best } with
    | error e => rfl
    | ok o =>
      obtain ⟨again, t', gl⟩ := o
      simp only [Except.map]
      cases getDepth t' <;> rfl

/-! ### The generator of the tree does not matter either, if every node looks at all columns -/

/-- The tree with another generator. -/
def Tree.gen (g : G) (t : Tree K G) : Tree K G := { t with rng := g }

/-- The phase with another generator in the tree. -/
def TreePhase.gen (g : G) : TreePhase K G → TreePhase K G
  | .pass n t => .pass n (t.gen g)
  | .scan n t b p ids => .scan n (t.gen g) b p ids
  | .split n t b => .split n (t.gen g) b

theorem nodeInit_gen (g0 g : G) {cfg : TreeCfg K} (hf : cfg.featSub = .none) {tdata : List (List K)} {tlabels : List K} {tfeats : List Nat}
    {tdisc : DiscDict K} {idcs : List Nat} {depth : Nat} {proportion : K} {nb : Option Nat} :
    Node.init R g cfg tdata tlabels tfeats tdisc idcs depth proportion nb =
      (Node.init R g0 cfg tdata tlabels tfeats tdisc idcs depth proportion nb).map (fun p => (p.1, g)) := by
  unfold Node.init chooseFeatures
  rw [hf]
  dsimp only [featCount]
  cases getSubset2d tdata idcs tfeats with
  | error e => rfl
  | ok sub =>
    dsimp only
    cases takeE tlabels 0 idcs with
    | error e => rfl
    | ok labels =>
      dsimp only
      cases nodeMinmax cfg.minmax tfeats with
      | error e => rfl
      | ok mm =>
        dsimp only
        cases (if cfg.isCls then countsOfLabels cfg.classes labels else .ok []) <;> rfl

theorem scanLeaf_gen (g : G) {pos id : Nat} {s : Scan K G} (hq : QuietTree s.t.cfg) :
    scanLeaf R mem pos id { s with t := s.t.gen g } = (scanLeaf R mem pos id s).map (Option.map (fun s' => { s' with t := s'.t.gen g })) := by
  unfold scanLeaf Tree.gen
  dsimp only
  cases s.t.nodes[id]? with
  | none => rfl
  | some leaf =>
    dsimp only
    cases splittableConstraints s.t.cfg leaf with
    | error e => rfl
    | ok b =>
      cases b with
      | false => rfl
      | true =>
        dsimp only
        cases noBudget s.t.remaining with
        | true => rfl
        | false =>
          simp only [Bool.false_eq_true, if_false]
          rw [calcBestSplit_quiet s.t.rng g s.glob s.glob hq]
          have := calcBestSplit_quiet (R := R) s.t.rng s.t.rng s.glob s.glob hq (junk := mem id) (node := leaf) (budget := s.t.remaining)
          cases hc : calcBestSplit R s.t.rng s.glob (mem id) s.t.cfg leaf s.t.remaining with
          | error e => rfl
          | ok p =>
            obtain ⟨a, b, c⟩ := p
            rw [hc] at this
            simp only [Except.map, Except.ok.injEq, Prod.mk.injEq] at this
            rw [this.2.2]
            rfl

theorem splitNodeCore_gen (g : G) {t : Tree K G} (hf : t.cfg.featSub = .none) {id : Nat} {nd : Node K} :
    splitNodeCore R (t.gen g) id nd = (splitNodeCore R t id nd).map (Tree.gen g) := by
  have e1 : ∀ (nd : Node K) (n : Nat) (l : List Nat), childNode R g (t.gen g) nd n l = (childNode R t.rng t nd n l).map (fun p => (p.1, g)) :=
    fun nd n l => nodeInit_gen _ _ hf
  have e3 : ∀ (g1 : G) (nd : Node K) (n : Nat) (l : List Nat), childNode R g1 t nd n l = (childNode R t.rng t nd n l).map (fun p => (p.1, g1)) :=
    fun g1 nd n l => nodeInit_gen _ _ hf
  unfold splitNodeCore
  cases nd.splitReduction with
  | none => rfl
  | some red =>
    simp only []
    cases red.lt (.fin 0) with
    | false => rfl
    | true =>
      simp only [Bool.not_true, Bool.false_eq_true, if_false]
      cases nd.data with
      | none => rfl
      | some data =>
        cases nd.labels with
        | none => rfl
        | some labels =>
          simp only []
          cases colE data nd.prevSplitFeature with
          | error e => rfl
          | ok col =>
            dsimp only
            split_ifs
            · rfl
            · have e2 : (t.gen g).rng = g := rfl
              rw [e2, e1]
              cases childNode R t.rng t nd labels.length (splitIdcs nd.idcs col nd.splitValue).1 with
              | error e => rfl
              | ok p =>
                simp only [Except.map]
                rw [e1, e3 p.2]
                cases childNode R t.rng t nd labels.length (splitIdcs nd.idcs col nd.splitValue).2 with
                | error e => rfl
                | ok q => rfl

theorem splitNode_gen (g : G) (glob : Glob G) {j : Junk K} {t : Tree K G} (hq : QuietTree t.cfg) (hf : t.cfg.featSub = .none) {id : Nat} :
    splitNode R glob j (t.gen g) id = (splitNode R glob j t id).map (fun p => (p.1.gen g, p.2)) := by
  have e3 : (t.gen g).nodes = t.nodes := rfl
  have e4 : (t.gen g).rng = g := rfl
  have e5 : (t.gen g).cfg = t.cfg := rfl
  have core : ∀ (g' : G) (a : Node K), splitNodeCore R (Tree.gen g { t with nodes := t.nodes.set id a, rng := g' }) id a =
      (splitNodeCore R { t with nodes := t.nodes.set id a, rng := g' } id a).map (Tree.gen g) :=
    fun g' a => splitNodeCore_gen g (t := { t with nodes := t.nodes.set id a, rng := g' }) hf
  have key : ∀ S1 S2 : Except Err (Tree K G), S1 = S2.map (Tree.gen g) →
      (match S1 with
        | .error e => Except.error e
        | .ok t' => .ok (t', glob)) =
      (match S2 with
        | .error e => Except.error e
        | .ok t' => .ok (t', glob)).map (fun p : Tree K G × Glob G => (p.1.gen g, p.2)) := by
    intro S1 S2 h
    subst h
    cases S2 <;> rfl
  unfold splitNode
  rw [e3, e4, e5]
  cases t.nodes[id]? with
  | none => rfl
  | some node =>
    dsimp only
    split_ifs
    · rfl
    · rw [calcBestSplit_quiet t.rng g glob glob hq]
      cases hc : calcBestSplit R t.rng glob j t.cfg node none with
      | error e => rfl
      | ok p =>
        obtain ⟨a, b, c⟩ := p
        have := calcBestSplit_quiet (R := R) t.rng t.rng glob glob hq (junk := j) (node := node) (budget := none)
        rw [hc] at this
        simp only [Except.map, Except.ok.injEq, Prod.mk.injEq] at this
        rw [this.2.2]
        exact key _ _ (core b a)
    · exact key _ _ (core t.rng node)

theorem splitBest_gen (g : G) {s : Scan K G} (hq : QuietTree s.t.cfg) (hf : s.t.cfg.featSub = .none) :
    splitBest R mem { s with t := s.t.gen g } = (splitBest R mem s).map (fun p => (p.1, p.2.1.gen g, p.2.2)) := by
  unfold splitBest
  cases s.best with
  | none => rfl
  | some b =>
    obtain ⟨pos, id, red⟩ := b
    dsimp only
    have e : (s.t.gen g).cfg = s.t.cfg := rfl
    rw [e]
    split_ifs
    · unfold performSplit
      dsimp only
      rw [splitNode_gen g s.glob hq hf]
      cases splitNode R s.glob (mem id) s.t id with
      | error e => rfl
      | ok p => rfl
    · rfl

/-- A phase or a fitted tree with another generator. -/
def genSum (g : G) : TreePhase K G ⊕ Tree K G → TreePhase K G ⊕ Tree K G
  | .inl ph => .inl (ph.gen g)
  | .inr t => .inr (t.gen g)

theorem TreePhase.step_gen (g : G) (glob : Glob G) {ph : TreePhase K G} (hq : QuietTree ph.tree.cfg) (hf : ph.tree.cfg.featSub = .none) :
    (ph.gen g).step R mem glob = (ph.step R mem glob).map (fun p => (genSum g p.1, p.2)) := by
  cases ph with
  | pass n t =>
    cases n with
    | zero => rfl
    | succ n =>
      unfold TreePhase.gen TreePhase.step
      dsimp only
      have e : leafLimit (t.gen g).cfg.maxLeafNodes (t.gen g).leaves.length = leafLimit t.cfg.maxLeafNodes t.leaves.length := rfl
      rw [e]
      cases leafLimit t.cfg.maxLeafNodes t.leaves.length with
      | error e => rfl
      | ok b => cases b <;> rfl
  | scan n t best pos ids =>
    cases ids with
    | nil => rfl
    | cons id ids =>
      unfold TreePhase.gen TreePhase.step
      have := scanLeaf_gen (R := R) (mem := mem) g (pos := pos) (id := id) (s := { t := t, glob := glob, best := best }) hq
      dsimp only at this ⊢
      rw [this]
      cases scanLeaf R mem pos id { t := t, glob := glob, best := best } with
      | error e => rfl
      | ok o => cases o <;> rfl
  | split n t best =>
    unfold TreePhase.gen TreePhase.step
    have := splitBest_gen (R := R) (mem := mem) g (s := { t := t, glob := glob, best := best }) hq hf
    dsimp only at this ⊢
    rw [this]
    cases splitBest R mem { t := t, glob := glob, best := best } with
    | error e => rfl
    | ok o =>
      obtain ⟨again, t', gl⟩ := o
      simp only [Except.map]
      have e : getDepth (t'.gen g) = getDepth t' := rfl
      rw [e]
      cases getDepth t' with
      | error e => rfl
      | ok d => cases again <;> rfl

end FF
