import Verif.Proofs.RecodeMab
import Verif.Proofs.TreePredict
import Verif.Proofs.TreeTerm

/-!
# Two trees grown on recoded data
-/

namespace FF

open Spec

set_option linter.unusedSectionVars false

variable {K : Type} [Field K] [LinearOrder K] [IsStrictOrderedRing K] [FloorRing K] [NpFun K] {G : Type}

/-- Row number `i` of the training data with its label. -/
def TreeArgs.sample (A : TreeArgs K) (i : Nat) : List K × K := (A.data.getD i [], A.labels.getD i 0)

/-- A row with its label, recoded. -/
def recodeSample (φ : Nat → K → K) (ψ : K → K) (p : List K × K) : List K × K := (recodeRow φ p.1, ψ p.2)

/-- The parameters of the second tree. -/
def recodeCfg (φ : Nat → K → K) (ψ : K → K) (s : K) (cfg : TreeCfg K) : TreeCfg K :=
  { cfg with
    minImpDec := s * cfg.minImpDec
    classes := cfg.classes.map (fun c => (ψ c.1, c.2))
    minmax := recodeMinmax φ cfg.minmax }

/-- The arguments `A'` are the arguments `A` with the rows in any order, the columns put through the maps `φ`, the labels through `ψ`
and impurities multiplied by `s`. -/
structure Recode (A A' : TreeArgs K) (φ : Nat → K → K) (ψ : K → K) (s : K) : Prop where
  cfg : A'.cfg = recodeCfg φ ψ s A.cfg
  cols : A'.cols = A.cols
  seed : A'.seed = A.seed
  budget : A'.budget = A.budget
  disc : A'.disc = A.disc
  size : A'.labels.length = A.labels.length
  perm : (A'.rows.map A'.sample).Perm ((A.rows.map A.sample).map (recodeSample φ ψ))
  mono : ∀ f, StrictMono (φ f)
  inj : Function.Injective ψ
  pos : 0 < s
  imp : ∀ ys : List K, critImp A.cfg.criterion (ys.map ψ) = s * critImp A.cfg.criterion ys
  grid : GridOK A.cfg.binType φ
  nodisc : A.cfg.makeDiscrete = false ∨ A.cfg.binType = some .linear ∨ A.cfg.binType = some .identity

/-- The rows of the two trees correspond to each other number by number. -/
structure Aligned (A A' : TreeArgs K) (φ : Nat → K → K) (ψ : K → K) : Prop where
  rows : A'.rows = A.rows
  sample : ∀ i < A.data.length, A'.sample i = recodeSample φ ψ (A.sample i)

/-- When two runs of the configured solver can be compared: always for the exact solver; for MABSplit if the rows correspond number by
number, the labels are mapped without changing any impurity, and the runs find the same memory and the same generators. -/
def Comparable (P : Prop) (A A' : TreeArgs K) (φ : Nat → K → K) (ψ : K → K) (s : K) (mem mem' : Nat → Junk K) : Prop :=
  A.cfg.solver = .exact ∨ (Aligned A A' φ ψ ∧ SameCost A.cfg.isCls ψ ∧ s = 1 ∧ mem' = mem ∧ P)

/-- The column maps by position in a list of features. -/
def posMap (φ : Nat → K → K) (feats : List Nat) (k : Nat) : K → K := φ (feats.getD k 0)

theorem GridOK.posMap {binType : Option BinType} {φ : Nat → K → K} (h : GridOK binType φ) (feats : List Nat) :
    GridOK binType (FF.posMap φ feats) := by
  rcases h with h | h | h
  · exact Or.inl h
  · exact Or.inr (Or.inl ⟨h.1, fun f => h.2 _⟩)
  · exact Or.inr (Or.inr fun f x => h _ x)

theorem recodeRow_sub (φ : Nat → K → K) (feats : List Nat) {row : List K} (h : ∀ j ∈ feats, j < row.length) :
    feats.map (fun j => (recodeRow φ row).getD j 0) = recodeRow (posMap φ feats) (feats.map (fun j => row.getD j 0)) := by
  apply List.ext_getElem?
  intro k
  rw [recodeRow_get?, List.getElem?_map, List.getElem?_map]
  cases hk : feats[k]? with
  | none => rfl
  | some j =>
    simp only [Option.map_some, Option.some.injEq]
    rw [recodeRow_getD φ (h j (List.mem_of_getElem? hk))]
    unfold posMap
    rw [show feats.getD k 0 = j by rw [List.getD_eq_getElem?_getD, hk]; rfl]

theorem XF.div_scale_lt {s : K} (hs : 0 < s) (c : K) (n : Nat) (y m : K) :
    ((((XF.fin s).mul (.fin c)).mul (.fin (n : K))).div (.fin y)).lt (.fin (s * m)) =
      (((XF.fin c).mul (.fin (n : K))).div (.fin y)).lt (.fin m) := by
  simp only [XF.mul, XF.div]
  by_cases hy : y = 0
  · rw [if_pos hy, if_pos hy]
    unfold XF.signInf
    have e : s * c * (n : K) = s * (c * n) := by ring
    rw [e]
    have e1 : s * (c * (n : K)) = 0 ↔ c * (n : K) = 0 := by
      rw [mul_eq_zero]
      exact ⟨fun h => h.resolve_left hs.ne', Or.inr⟩
    have e2 : 0 < s * (c * (n : K)) ↔ 0 < c * (n : K) := by
      constructor
      · intro h
        exact (mul_pos_iff_of_pos_left hs).1 h
      · exact mul_pos hs
    simp only [e1, e2]
    split_ifs <;> rfl
  · rw [if_neg hy, if_neg hy]
    simp only [XF.lt]
    have e : s * c * (n : K) / y = s * (c * n / y) := by ring
    rw [e]
    exact decide_eq_decide.2 (mul_lt_mul_iff_right₀ hs)

theorem XF.one_mul' (x : XF K) : (XF.fin (1 : K)).mul x = x := by
  cases x <;> simp [XF.mul, XF.signInf]

theorem XF.scale_lt {s : K} (hs : 0 < s) (c m : K) : ((XF.fin s).mul (.fin c)).lt (.fin (s * m)) = (XF.fin c).lt (.fin m) := by
  simp only [XF.mul, XF.lt]
  exact decide_eq_decide.2 (mul_lt_mul_iff_right₀ hs)

/-- A node of the first tree and the node with the same number of the second. -/
structure NodeSim (A A' : TreeArgs K) (φ : Nat → K → K) (ψ : K → K) (s : K) (nd nd' : Node K) : Prop where
  perm : (nd'.idcs.map A'.sample).Perm ((nd.idcs.map A.sample).map (recodeSample φ ψ))
  feats : nd'.featIdcs = nd.featIdcs
  bins : nd'.numBins = nd.numBins
  depth : nd'.depth = nd.depth
  prop : nd'.proportion = nd.proportion
  disc : nd'.discrete = nd.discrete
  minmax : nd'.minmax = recodeMinmax (posMap φ nd.featIdcs) nd.minmax
  left : nd'.left = nd.left
  right : nd'.right = nd.right
  feat : nd'.splitFeature = nd.splitFeature
  prev : nd.splitFeature ≠ none → nd'.prevSplitFeature = nd.prevSplitFeature
  prevOK : ∀ f, nd.splitFeature = some f → nd.prevSplitFeature < nd.featIdcs.length ∧ f = nd.featIdcs.getD nd.prevSplitFeature 0
  value : ∀ f, nd.splitFeature = some f → nd'.splitValue = φ f nd.splitValue
  comp : nd'.computed = nd.computed
  queries : nd'.numQueries = nd.numQueries
  red : nd'.splitReduction = nd.splitReduction.map (fun x => (XF.fin s).mul x)
  redFin : ∀ x, nd.splitReduction = some x → (∃ c, x = .fin c) ∨ s = 1
  same : Aligned A A' φ ψ → nd'.idcs = nd.idcs
  splittable : nd'.isSplittable = nd.isSplittable

section
variable {A A' : TreeArgs K} {φ : Nat → K → K} {ψ : K → K} {s : K}

theorem nodeRecode_sub {idcs idcs' feats : List Nat}
    (h : (idcs'.map A'.sample).Perm ((idcs.map A.sample).map (recodeSample φ ψ)))
    (hlt : ∀ i ∈ idcs, ∀ j ∈ feats, j < (A.data.getD i []).length) :
    NodeRecode (posMap φ feats) ψ (subRows A.data idcs feats) (labelsOf A.labels idcs) (subRows A'.data idcs' feats)
      (labelsOf A'.labels idcs') := by
  have e : ∀ (B : TreeArgs K) (rows : List Nat), (subRows B.data rows feats).zip (labelsOf B.labels rows) =
      (rows.map B.sample).map (fun p => (feats.map (fun j => p.1.getD j 0), p.2)) := by
    intro B rows
    unfold subRows labelsOf TreeArgs.sample
    rw [List.zip_map', List.map_map]
    rfl
  refine ⟨by simp [subRows, labelsOf], by simp [subRows, labelsOf], ?_⟩
  rw [e, e]
  refine (h.map _).trans (List.Perm.of_eq ?_)
  simp only [List.map_map]
  refine List.map_congr_left (fun i hi => ?_)
  simp only [Function.comp, recodeSample, TreeArgs.sample]
  rw [recodeRow_sub φ feats (hlt i hi)]

theorem perm_filter {idcs idcs' : List Nat} (h : (idcs'.map A'.sample).Perm ((idcs.map A.sample).map (recodeSample φ ψ)))
    (P P' : List K × K → Bool) (hP : ∀ i ∈ idcs, P' (recodeSample φ ψ (A.sample i)) = P (A.sample i)) :
    ((idcs'.filter (fun i => P' (A'.sample i))).map A'.sample).Perm
      (((idcs.filter (fun i => P (A.sample i))).map A.sample).map (recodeSample φ ψ)) := by
  have e : ∀ (B : TreeArgs K) (rows : List Nat) (Q : List K × K → Bool), (rows.filter (fun i => Q (B.sample i))).map B.sample =
      (rows.map B.sample).filter Q := by
    intro B rows Q
    rw [List.filter_map]
    rfl
  rw [e]
  refine (h.filter P').trans (List.Perm.of_eq ?_)
  rw [List.map_map, List.filter_map, List.map_map]
  congr 1
  exact List.filter_congr (fun i hi => hP i hi)

theorem nodeMinmax_recode {mm a a' : Option (List K × List K)} {feats : List Nat} (h : nodeMinmax mm feats = .ok a)
    (h' : nodeMinmax (recodeMinmax φ mm) feats = .ok a') : a' = recodeMinmax (posMap φ feats) a := by
  cases mm with
  | none =>
    cases h
    cases h'
    rfl
  | some m =>
    unfold nodeMinmax at h h'
    simp only [recodeMinmax, Option.map_some] at h h'
    split at h
    · rename_i x y hx hy
      split at h'
      · rename_i x' y' hx' hy'
        cases h
        cases h'
        obtain ⟨rfl, l1⟩ := takeE_ok hx
        obtain ⟨rfl, l2⟩ := takeE_ok hy
        obtain ⟨rfl, _⟩ := takeE_ok hx'
        obtain ⟨rfl, _⟩ := takeE_ok hy'
        simp only [recodeMinmax, Option.map_some]
        rw [recodeRow_sub φ feats l1, recodeRow_sub φ feats l2]
      · cases h'
    · cases h

/-- The two constructions of a node. -/
theorem Node_init_recode {R : Rng K G} {g g1 g1' : G} {cfg : TreeCfg K} {tfeats : List Nat} {tdisc : DiscDict K}
    {idcs idcs' : List Nat} {depth : Nat} {p : K} {numBins : Option Nat} {nd nd' : Node K}
    (hperm : (idcs'.map A'.sample).Perm ((idcs.map A.sample).map (recodeSample φ ψ))) (hsame : Aligned A A' φ ψ → idcs' = idcs)
    (h : Node.init R g cfg A.data A.labels tfeats tdisc idcs depth p numBins = .ok (nd, g1))
    (h' : Node.init R g (recodeCfg φ ψ s cfg) A'.data A'.labels tfeats tdisc idcs' depth p numBins = .ok (nd', g1')) :
    NodeSim A A' φ ψ s nd nd' ∧ g1' = g1 := by
  have hfeat : nd'.featIdcs = nd.featIdcs ∧ g1' = g1 := by
    unfold Node.init at h h'
    split at h
    · cases h
    rename_i fs g2 hf
    have hf' : chooseFeatures R g tfeats (recodeCfg φ ψ s cfg).featSub = .ok (fs, g2) := hf
    rw [hf'] at h'
    simp only [] at h'
    repeat' split at h
    all_goals try cases h
    repeat' split at h'
    all_goals try cases h'
    exact ⟨rfl, rfl⟩
  have f := Node_init_fresh h
  have f' := Node_init_fresh h'
  refine ⟨?_, hfeat.2⟩
  exact {
    perm := by rw [f.idcs_eq, f'.idcs_eq]; exact hperm
    feats := hfeat.1
    bins := by rw [f.numBins_eq, f'.numBins_eq]
    depth := by rw [f.depth_eq, f'.depth_eq]
    prop := by rw [f.prop_eq, f'.prop_eq]
    disc := by rw [f.disc_eq, f'.disc_eq]
    minmax := by
      have a := f.minmax_eq
      have b := f'.minmax_eq
      rw [hfeat.1] at b
      exact nodeMinmax_recode a b
    left := by rw [f.left_eq, f'.left_eq]
    right := by rw [f.right_eq, f'.right_eq]
    feat := by rw [f.feat_eq, f'.feat_eq]
    prev := fun q => absurd f.feat_eq q
    prevOK := fun g hg => by rw [f.feat_eq] at hg; cases hg
    value := fun g hg => by rw [f.feat_eq] at hg; cases hg
    comp := by rw [f.comp_eq, f'.comp_eq]
    queries := by rw [f.q_eq, f'.q_eq]
    red := by rw [f.red_eq, f'.red_eq]; rfl
    redFin := fun x hx => by rw [f.red_eq] at hx; cases hx
    same := fun q => by rw [f.idcs_eq, f'.idcs_eq]; exact hsame q
    splittable := by rw [f.splittable_eq, f'.splittable_eq] }

end

/-- The two trees. -/
structure TreeSim (A A' : TreeArgs K) (φ : Nat → K → K) (ψ : K → K) (s : K) (t t' : Tree K G) : Prop where
  cfg : t'.cfg = recodeCfg φ ψ s t.cfg
  nData : t'.nData = t.nData
  disc : t'.discrete = t.discrete
  tfeats : t'.featIdcs = t.featIdcs
  leaves : t'.leaves = t.leaves
  rng : t'.rng = t.rng
  remaining : t'.remaining = t.remaining
  splits : t'.numSplits = t.numSplits
  queries : t'.numQueries = t.numQueries
  depth : t'.depth = t.depth
  len : t'.nodes.length = t.nodes.length
  nodes : ∀ (id : Nat) (nd nd' : Node K), t.nodes[id]? = some nd → t'.nodes[id]? = some nd' → NodeSim A A' φ ψ s nd nd'

/-- Everything known about one of the two growing trees. -/
structure Grown (R : Rng K G) (mem : Nat → Junk K) (A : TreeArgs K) (t : Tree K G) : Prop where
  args : ArgsOK A
  facts : ∃ dd t0, GrowFacts R mem A dd t0 t

theorem Grown.next {R : Rng K G} {mem : Nat → Junk K} {A : TreeArgs K} {t t' : Tree K G} (h : Grown R mem A t)
    (hs : TSteps R mem t t') : Grown R mem A t' := by
  obtain ⟨dd, t0, f⟩ := h.facts
  exact ⟨h.args, dd, t0, f.next hs⟩

section
variable {R : Rng K G} {mem mem' : Nat → Junk K} {A A' : TreeArgs K} {φ : Nat → K → K} {ψ : K → K} {s : K}

/-- What the two calls of the solver on a leaf agree on. -/
theorem leaf_solve {t t' : Tree K G} (hr : Recode A A' φ ψ s) {P : Prop} (hex : Comparable P A A' φ ψ s mem mem') (hP : A.cfg.binType = some .random → P) (hg : Grown R mem A t)
    (hg' : Grown R mem' A' t') (ht : TreeSim A A' φ ψ s t t') {id : Nat} {leaf leaf' : Node K} (hl : t.nodes[id]? = some leaf)
    (hl' : t'.nodes[id]? = some leaf') (hopen : leaf.left = none) (hc : splittableConstraints t.cfg leaf = .ok true)
    (hc' : splittableConstraints t'.cfg leaf' = .ok true)
    {nb nb' : Option Nat} (hnb : nodeBins t.cfg leaf = .ok nb) (hnb' : nodeBins t'.cfg leaf' = .ok nb')
    {data data' : List (List K)} {labels labels' : List K} (hd : leaf.data = some data) (hd' : leaf'.data = some data')
    (hls : leaf.labels = some labels) (hls' : leaf'.labels = some labels') {g g' g2 g2' : G} {glob glob' gl2 gl2' : Glob G}
    {junk junk' : Junk K} {b b' : Option Int} {r r' : Option (SplitRes K)} {q q' : Nat}
    (hjk : mem' = mem → junk' = junk) (hgg : g' = g) (hbb : b' = b) (hgl : P → glob' = glob)
    (hs : nodeSolve R g glob junk t.cfg { leaf with numBins := nb } data labels b = .ok (r, q, g2, gl2))
    (hs' : nodeSolve R g' glob' junk' t'.cfg { leaf' with numBins := nb' } data' labels' b' = .ok (r', q', g2', gl2')) :
    nb' = nb ∧ r' = r.map (recodeSplit (posMap φ leaf.featIdcs) s) ∧ q' = q ∧ g2' = g2 ∧
      (P → gl2' = gl2) ∧
      (∀ x, r = some x → x.feat < leaf.featIdcs.length ∧ ((∃ c, x.red = .fin c) ∨ s = 1)) := by
  obtain ⟨dd, t0, f⟩ := hg.facts
  obtain ⟨dd', t0', f'⟩ := hg'.facts
  have n := ht.nodes id leaf leaf' hl hl'
  have ok := f.nodes id leaf hl
  have ok' := f'.nodes id leaf' hl'
  have hopen' : leaf'.left = none := by rw [n.left]; exact hopen
  have e1 := ok.open_data hopen
  have e2 := ok.open_labels hopen
  have e1' := ok'.open_data hopen'
  have e2' := ok'.open_labels hopen'
  rw [hd] at e1; rw [hls] at e2; rw [hd'] at e1'; rw [hls'] at e2'
  obtain rfl := Option.some.inj e1
  obtain rfl := Option.some.inj e2
  obtain rfl := Option.some.inj e1'
  obtain rfl := Option.some.inj e2'
  have hN : leaf'.nData = leaf.nData := by
    have := n.perm.length_eq
    simp only [List.length_map] at this
    rw [ok.nData_eq, ok'.nData_eq, this]
  have hcfg := f.cfg_eq
  have hnbe : nb' = nb := by
    have e : nodeBins t'.cfg leaf' = nodeBins t.cfg leaf := by
      unfold nodeBins
      rw [ht.cfg, hN, n.bins]
      rfl
    rw [e, hnb] at hnb'
    exact (Except.ok.inj hnb').symm
  subst hnbe
  have hcan := constraints_true ok.nData_eq (ok.open_labels hopen) hc
  have hcan' := constraints_true ok'.nData_eq (ok'.open_labels hopen') hc'
  have hbt : t.cfg.binType = A.cfg.binType := by rw [hcfg]
  have hbt' : t'.cfg.binType = A.cfg.binType := by rw [ht.cfg]; exact hbt
  have hcr : t.cfg.criterion = A.cfg.criterion := by rw [hcfg]
  have hcr' : t'.cfg.criterion = A.cfg.criterion := by rw [ht.cfg]; exact hcr
  have hic : t.cfg.isCls = A.cfg.isCls := by rw [hcfg]
  have hic' : t'.cfg.isCls = A.cfg.isCls := by rw [ht.cfg]; exact hic
  have hlt : ∀ i ∈ leaf.idcs, ∀ j ∈ leaf.featIdcs, j < (A.data.getD i []).length := fun i hi => (ok.rows_lt i hi).2
  subst hgg hbb
  by_cases hexact : A.cfg.solver = .exact
  · have hsolver : t.cfg.solver = .exact := by rw [hcfg]; exact hexact
    unfold nodeSolve at hs hs'
    rw [hsolver] at hs
    rw [show t'.cfg.solver = .exact by rw [ht.cfg]; exact hsolver] at hs'
    simp only [] at hs hs'
    split at hs
    · cases hs
    rename_i r0 q0 np0 hex0
    split at hs'
    · cases hs'
    rename_i r1 q1 np1 hex1
    simp only [Except.ok.injEq, Prod.mk.injEq] at hs hs'
    obtain ⟨rfl, rfl, rfl, rfl⟩ := hs
    obtain ⟨rfl, rfl, rfl, rfl⟩ := hs'
    rw [hbt, hcr, hic] at hex0
    rw [hbt', hcr', hic', n.minmax, n.disc, n.feats] at hex1
    have hbA' : A'.cfg.binType = A.cfg.binType := by rw [hr.cfg]; rfl
    have hbin : ∀ B, exactBins (subRows A.data leaf.idcs leaf.featIdcs) A.cfg.binType nb' = some B →
        BinningOK leaf.minmax leaf.discrete A.cfg.binType B := by
      intro B hB
      refine f.binning_of hg.args hl hcan hnb B ?_
      unfold exactBins at hB
      split at hB
      · exact Or.inl (by assumption)
      · exact Or.inr hB
    have hbin' : ∀ B, exactBins (subRows A'.data leaf'.idcs leaf.featIdcs) A.cfg.binType nb' = some B →
        BinningOK (recodeMinmax (posMap φ leaf.featIdcs) leaf.minmax) leaf.discrete A.cfg.binType B := by
      intro B hB
      rw [← n.minmax, ← n.disc, ← hbA']
      refine f'.binning_of hg'.args hl' hcan' hnb' B ?_
      rw [hbA']
      unfold exactBins at hB
      split at hB
      · exact Or.inl (by assumption)
      · exact Or.inr hB
    obtain ⟨a1, a2, a3, a4⟩ := solveExactly_recode (F := leaf.featIdcs.length) (s := s)
      (by intro row hrow; obtain ⟨i, _, rfl⟩ := List.mem_map.1 hrow; simp)
      (by intro row hrow; obtain ⟨i, _, rfl⟩ := List.mem_map.1 hrow; simp)
      (nodeRecode_sub n.perm (fun i hi => (ok.rows_lt i hi).2)) (fun k => hr.mono _) (hr.grid.posMap _) hr.pos hr.imp hP (fun q => congrArg Glob.np (hgl q))
      hg.args.crit hbin hbin' hex0 hex1
    refine ⟨rfl, a1, a2, rfl, fun q => ?_, fun x hx => ⟨(a4 x hx).1, Or.inl (a4 x hx).2⟩⟩
    rw [a3 q, hgl q]
  · obtain ⟨hal, hcost, hs1, hmem, hPt⟩ := hex.resolve_left hexact
    have hidc := n.same hal
    have hX : subRows A'.data leaf'.idcs leaf'.featIdcs =
        (subRows A.data leaf.idcs leaf.featIdcs).map (recodeRow (posMap φ leaf.featIdcs)) := by
      rw [hidc, n.feats]
      unfold subRows
      rw [List.map_map]
      refine List.map_congr_left (fun i hi => ?_)
      have := congrArg Prod.fst (hal.sample i (ok.rows_lt i hi).1)
      rw [show A'.data.getD i [] = recodeRow φ (A.data.getD i []) from this]
      exact recodeRow_sub φ _ (hlt i hi)
    have hY : labelsOf A'.labels leaf'.idcs = (labelsOf A.labels leaf.idcs).map ψ := by
      rw [hidc]
      unfold labelsOf
      rw [List.map_map]
      refine List.map_congr_left (fun i hi => ?_)
      exact congrArg Prod.snd (hal.sample i (ok.rows_lt i hi).1)
    have hj := hjk hmem
    have hgl1 := hgl hPt
    subst hj hgl1
    unfold nodeSolve at hs hs'
    rw [show t'.cfg.solver = t.cfg.solver by rw [ht.cfg]; rfl] at hs'
    cases hsol : t.cfg.solver with
    | other => rw [hsol] at hs; cases hs
    | exact => exact absurd (by rw [hcfg] at hsol; exact hsol) hexact
    | mab =>
      rw [hsol] at hs hs'
      simp only [] at hs hs'
      split at hs
      · cases hs
      rename_i o hex0
      split at hs'
      · cases hs'
      rename_i o' hex1
      simp only [Except.ok.injEq, Prod.mk.injEq] at hs hs'
      obtain ⟨rfl, rfl, rfl, rfl⟩ := hs
      obtain ⟨rfl, rfl, rfl, rfl⟩ := hs'
      have heps : nodeEpsilon t'.cfg { leaf' with numBins := nb' } = nodeEpsilon t.cfg { leaf with numBins := nb' } := by
        unfold nodeEpsilon
        rw [ht.cfg]
        simp only [recodeCfg, n.depth]
      rw [hbt, hcr, hic] at hex0
      rw [heps, hbt', hcr', hic', n.minmax, n.disc, hX, hY, show t'.cfg.withRep = t.cfg.withRep by rw [ht.cfg]; rfl,
        show t'.cfg.batch = t.cfg.batch by rw [ht.cfg]; rfl] at hex1
      obtain ⟨a1, a2, a3, a4, a5⟩ := solveMab_recode (F := leaf.featIdcs.length) hcost
        (by intro row hrow; obtain ⟨i, _, rfl⟩ := List.mem_map.1 hrow; simp) (by simp [subRows, labelsOf])
        (fun k => hr.mono _) (hr.grid.posMap _) hex0 hex1
      refine ⟨rfl, ?_, a2, a3, fun _ => a4, fun x hx => ⟨a5 x hx, Or.inr hs1⟩⟩
      rw [a1, hs1]
      cases o.split with
      | none => rfl
      | some x => simp only [Option.map_some, recodeSplit, XF.one_mul']; rfl

/-- The nodes after recording the answers. -/
theorem NodeSim.record {nd nd' : Node K} (h : NodeSim A A' φ ψ s nd nd') (nb : Option Nat) {r : Option (SplitRes K)} (q : Nat)
    (hx : ∀ x, r = some x → x.feat < nd.featIdcs.length ∧ ((∃ c, x.red = .fin c) ∨ s = 1)) (sp : Option Bool) :
    NodeSim A A' φ ψ s { nodeRecord { nd with numBins := nb } r q with isSplittable := sp }
      { nodeRecord { nd' with numBins := nb } (r.map (recodeSplit (posMap φ nd.featIdcs) s)) q with isSplittable := sp } := by
  cases r with
  | none =>
    exact { h with
      perm := h.perm, feats := h.feats, bins := rfl, depth := h.depth, prop := h.prop, disc := h.disc, minmax := h.minmax
      left := h.left, right := h.right, feat := h.feat, prev := h.prev, prevOK := h.prevOK, value := h.value
      comp := rfl, queries := rfl, red := h.red, redFin := h.redFin, same := h.same, splittable := rfl }
  | some x =>
    obtain ⟨h1, h2⟩ := hx x rfl
    exact {
      perm := h.perm, feats := h.feats, bins := rfl, depth := h.depth, prop := h.prop, disc := h.disc, minmax := h.minmax
      left := h.left, right := h.right
      feat := by
        show some (nd'.featIdcs.getD x.feat 0) = some (nd.featIdcs.getD x.feat 0)
        rw [h.feats]
      prev := fun _ => rfl
      prevOK := fun f hf => ⟨h1, (Option.some.inj hf).symm⟩
      value := fun f hf => by
        obtain rfl := Option.some.inj hf
        rfl
      comp := rfl, queries := rfl
      red := by
        show some (((XF.fin s).mul x.red).mul (.fin nd'.proportion)) = some ((XF.fin s).mul (x.red.mul (.fin nd.proportion)))
        rw [h.prop]
        rcases h2 with ⟨c, h2⟩ | h2
        · rw [h2]
          simp only [XF.mul, mul_assoc]
        · rw [h2, XF.one_mul', XF.one_mul']
      redFin := fun y hy => by
        obtain rfl := Option.some.inj hy
        rcases h2 with ⟨c, h2⟩ | h2
        · exact Or.inl ⟨c * nd.proportion, by show x.red.mul _ = _; rw [h2]; rfl⟩
        · exact Or.inr h2
      same := h.same
      splittable := rfl }

/-- The two states of the scan over the leaves. -/
structure ScanSim (P : Prop) (A A' : TreeArgs K) (φ : Nat → K → K) (ψ : K → K) (s : K) (c c' : Scan K G) : Prop where
  tree : TreeSim A A' φ ψ s c.t c'.t
  glob : P → c'.glob = c.glob
  best : c'.best = c.best.map (fun b => (b.1, b.2.1, (XF.fin s).mul b.2.2))
  fin : ∀ b, c.best = some b → (∃ x, b.2.2 = .fin x) ∨ s = 1

theorem TreeSim.set {t t' : Tree K G} (h : TreeSim A A' φ ψ s t t') (id : Nat) {nd nd' : Node K} (hn : NodeSim A A' φ ψ s nd nd')
    (g : G) (nq : Nat) (rem : Option Int) :
    TreeSim A A' φ ψ s { t with nodes := t.nodes.set id nd, rng := g, numQueries := nq, remaining := rem }
      { t' with nodes := t'.nodes.set id nd', rng := g, numQueries := nq, remaining := rem } :=
  { h with
    rng := rfl, queries := rfl, remaining := rfl, len := by simp [h.len]
    nodes := by
      intro j a a' ha ha'
      rcases getElem?_set_cases ha with ⟨rfl, rfl⟩ | ⟨hne, ha2⟩
      · rcases getElem?_set_cases ha' with ⟨_, rfl⟩ | ⟨hne', _⟩
        · exact hn
        · exact absurd rfl hne'
      · rcases getElem?_set_cases ha' with ⟨he, _⟩ | ⟨_, ha2'⟩
        · exact absurd he hne
        · exact h.nodes j a a' ha2 ha2' }

theorem constraints_recode {t t' : Tree K G} (hinj : Function.Injective ψ) (hg : Grown R mem A t) (hg' : Grown R mem' A' t')
    (ht : TreeSim A A' φ ψ s t t') {id : Nat} {leaf leaf' : Node K} (hl : t.nodes[id]? = some leaf)
    (hl' : t'.nodes[id]? = some leaf') (hopen : leaf.left = none) :
    splittableConstraints t'.cfg leaf' = splittableConstraints t.cfg leaf := by
  obtain ⟨dd, t0, f⟩ := hg.facts
  obtain ⟨dd', t0', f'⟩ := hg'.facts
  have n := ht.nodes id leaf leaf' hl hl'
  have ok := f.nodes id leaf hl
  have ok' := f'.nodes id leaf' hl'
  have hopen' : leaf'.left = none := by rw [n.left]; exact hopen
  have hN : leaf'.nData = leaf.nData := by
    have := n.perm.length_eq
    simp only [List.length_map] at this
    rw [ok.nData_eq, ok'.nData_eq, this]
  unfold splittableConstraints
  have hlab : (labelsOf A'.labels leaf'.idcs).Perm ((labelsOf A.labels leaf.idcs).map ψ) := by
    have := n.perm.map Prod.snd
    simp only [List.map_map] at this
    unfold labelsOf
    rw [List.map_map]
    exact this
  rw [ht.cfg, n.depth, hN, ok.open_labels hopen, ok'.open_labels hopen']
  simp only [recodeCfg, npUnique_recode_length hinj hlab]

theorem impurity_recode {cfg : TreeCfg K} (hs : 0 < s) {n : Nat} {nd nd' : Node K} (h : NodeSim A A' φ ψ s nd nd')
    (hN : nd'.nData = nd.nData) : splittableImpurity (recodeCfg φ ψ s cfg) n nd' = splittableImpurity cfg n nd := by
  unfold splittableImpurity
  rw [h.red]
  cases hred : nd.splitReduction with
  | none => rfl
  | some x =>
    simp only [Option.map_some, hN]
    rcases h.redFin x hred with ⟨c, rfl⟩ | h1
    · exact XF.div_scale_lt hs c _ _ _
    · subst h1
      rw [XF.one_mul', show (recodeCfg φ ψ 1 cfg).minImpDec = cfg.minImpDec from one_mul _]

theorem pos_lt_iff (hs : 0 < s) {x y : K} : s * x < s * y ↔ x < y := mul_lt_mul_iff_right₀ hs

/-- The state of the scan after a leaf. -/
def scanNext (c : Scan K G) (pos id : Nat) (leaf1 : Node K) (g : G) (glob : Glob G) (q : Nat) (sp : Bool) : Scan K G where
  t := { c.t with
    nodes := c.t.nodes.set id { leaf1 with isSplittable := some sp }, rng := g
    numQueries := c.t.numQueries + q
    remaining := c.t.remaining.map (fun b => b - (q : Int)) }
  glob := glob
  best := match leaf1.splitReduction with
    | none => c.best
    | some red => if red.lt c.bestRed && sp then some (pos, id, red) else c.best

/-- One leaf of the two scans. -/
theorem scanLeaf_recode (hr : Recode A A' φ ψ s) {P : Prop} (hex : Comparable P A A' φ ψ s mem mem') (hP : A.cfg.binType = some .random → P) {t0 t0' : Tree K G} {c c' : Scan K G}
    (hg : Grown R mem A c.t) (hg' : Grown R mem' A' c'.t) (hok : ScanOK t0 c) (hok' : ScanOK t0' c')
    (h : ScanSim P A A' φ ψ s c c') {pos id : Nat} (hid : id ∈ c.t.leaves) {o o' : Option (Scan K G)}
    (hs : scanLeaf R mem pos id c = .ok o) (hs' : scanLeaf R mem' pos id c' = .ok o') :
    (o = none ∧ o' = none) ∨ ∃ c1 c1', o = some c1 ∧ o' = some c1' ∧ ScanSim P A A' φ ψ s c1 c1' := by
  obtain ⟨dd, s0, f⟩ := hg.facts
  obtain ⟨dd', s0', f'⟩ := hg'.facts
  obtain ⟨leaf, hleaf, hlok⟩ := hok.sim.leaf id hid
  obtain ⟨leaf', hleaf', hlok'⟩ := hok'.sim.leaf id (by rw [h.tree.leaves]; exact hid)
  have n := h.tree.nodes id leaf leaf' hleaf hleaf'
  have hcon := constraints_recode hr.inj hg hg' h.tree hleaf hleaf' hlok.left_eq
  have hN : leaf'.nData = leaf.nData := by
    have := n.perm.length_eq
    simp only [List.length_map] at this
    rw [(f.nodes _ _ hleaf).nData_eq, (f'.nodes _ _ hleaf').nData_eq, this]
  unfold scanLeaf at hs hs'
  rw [hleaf] at hs
  rw [hleaf'] at hs'
  simp only [hcon] at hs hs'
  split at hs
  · cases hs
  · rename_i hc
    simp only [hc] at hs'
    cases hs
    cases hs'
    refine Or.inr ⟨_, _, rfl, rfl, ?_, h.glob, h.best, h.fin⟩
    have := h.tree.set id (nd := { leaf with isSplittable := some false }) (nd' := { leaf' with isSplittable := some false })
      { n with splittable := rfl } c.t.rng c.t.numQueries c.t.remaining
    rw [← h.tree.rng, ← h.tree.queries, ← h.tree.remaining] at this
    have e : c.t = { c.t with rng := c'.t.rng, numQueries := c'.t.numQueries, remaining := c'.t.remaining } := by
      rw [h.tree.rng, h.tree.queries, h.tree.remaining]
    rw [e]
    exact this
  · rename_i hc
    have hc' : splittableConstraints c'.t.cfg leaf' = .ok true := hcon.trans hc
    simp only [hc] at hs'
    rw [h.tree.remaining] at hs'
    by_cases hbud : noBudget c.t.remaining = true
    · rw [if_pos hbud] at hs hs'
      cases hs
      cases hs'
      exact Or.inl ⟨rfl, rfl⟩
    rw [if_neg hbud] at hs hs'
    split at hs
    · cases hs
    rename_i leaf1 g glob hcalc
    split at hs'
    · cases hs'
    rename_i leaf1' g' glob' hcalc'
    -- the two leaves after the call of the solver
    have key : NodeSim A A' φ ψ s leaf1 leaf1' ∧ g' = g ∧ leaf1.nData = leaf.nData ∧ leaf1'.nData = leaf.nData ∧
        (P → glob' = glob) := by
      by_cases hcomp : leaf.computed = true
      · rw [calcBestSplit_computed hcomp] at hcalc
        rw [calcBestSplit_computed (by rw [n.comp]; exact hcomp)] at hcalc'
        cases hcalc
        cases hcalc'
        exact ⟨n, h.tree.rng, rfl, hN, h.glob⟩
      · have hcomp1 : leaf.computed = false := by simpa using hcomp
        have hcomp1' : leaf'.computed = false := by rw [n.comp]; exact hcomp1
        obtain ⟨nb, data, labels, r, q, hnb, hd, hl, hsolve, rfl⟩ := calcBestSplit_ok hcomp1 hcalc
        obtain ⟨nb', data', labels', r', q', hnb', hd', hl', hsolve', rfl⟩ := calcBestSplit_ok hcomp1' hcalc'
        obtain ⟨rfl, rfl, rfl, e1, e3, e4⟩ := leaf_solve hr hex hP hg hg' h.tree hleaf hleaf' hlok.left_eq hc hc' hnb hnb' hd hd' hl hl'
          (fun q => by rw [q]) h.tree.rng rfl h.glob hsolve hsolve'
        have hrec := n.record nb' q' e4 leaf.isSplittable
        have e5 : { nodeRecord { leaf with numBins := nb' } r q' with isSplittable := leaf.isSplittable } =
            nodeRecord { leaf with numBins := nb' } r q' := by cases r <;> rfl
        have e6 : { nodeRecord { leaf' with numBins := nb' } (r.map (recodeSplit (posMap φ leaf.featIdcs) s)) q' with
            isSplittable := leaf.isSplittable } =
            nodeRecord { leaf' with numBins := nb' } (r.map (recodeSplit (posMap φ leaf.featIdcs) s)) q' := by
          rw [← n.splittable]
          cases r <;> rfl
        rw [e5, e6] at hrec
        refine ⟨hrec, e1, ?_, ?_, e3⟩
        · rw [(nodeRecord_static _ _ _).2.2.2.2.1]
        · rw [(nodeRecord_static _ _ _).2.2.2.2.1]
          exact hN
    obtain ⟨n1, rfl, hN1, hN1', hgl⟩ := key
    have hq : (if leaf'.computed = true then 0 else leaf1'.numQueries) = (if leaf.computed = true then 0 else leaf1.numQueries) := by
      rw [n.comp, n1.queries]
    have hsp : leaf1'.isSplittable.getD (splittableImpurity c'.t.cfg c'.t.nData leaf1') =
        leaf1.isSplittable.getD (splittableImpurity c.t.cfg c.t.nData leaf1) := by
      rw [n1.splittable, h.tree.cfg, h.tree.nData, impurity_recode hr.pos n1 (hN1'.trans hN1.symm)]
    have hs1 : Except.ok (some (scanNext c pos id leaf1 g' glob (if leaf.computed = true then 0 else leaf1.numQueries)
        (leaf1.isSplittable.getD (splittableImpurity c.t.cfg c.t.nData leaf1)))) = (Except.ok o : Except Err _) := by
      cases hv : leaf1.isSplittable <;> rw [hv] at hs <;> exact hs
    have hs1' : Except.ok (some (scanNext c' pos id leaf1' g' glob' (if leaf'.computed = true then 0 else leaf1'.numQueries)
        (leaf1'.isSplittable.getD (splittableImpurity c'.t.cfg c'.t.nData leaf1')))) = (Except.ok o' : Except Err _) := by
      rw [← h.tree.remaining] at hs'
      cases hv : leaf1'.isSplittable <;> rw [hv] at hs' <;> exact hs'
    rw [hq, hsp] at hs1'
    generalize leaf1.isSplittable.getD (splittableImpurity c.t.cfg c.t.nData leaf1) = sp at hs1 hs1'
    generalize (if leaf.computed = true then 0 else leaf1.numQueries) = q at hs1 hs1'
    cases hs1
    cases hs1'
    refine Or.inr ⟨_, _, rfl, rfl, ?_⟩
    unfold scanNext
    rw [h.tree.queries, h.tree.remaining]
    have n2 : NodeSim A A' φ ψ s { leaf1 with isSplittable := some sp } { leaf1' with isSplittable := some sp } :=
      { n1 with splittable := rfl }
    refine ⟨h.tree.set id n2 _ _ _, hgl, ?_, ?_⟩
    · simp only []
      rw [n1.red]
      cases hred : leaf1.splitReduction with
      | none => exact h.best
      | some x =>
        simp only [Option.map_some]
        have hlt : ((XF.fin s).mul x).lt c'.bestRed = x.lt c.bestRed := by
          unfold Scan.bestRed
          rw [h.best]
          by_cases h1 : s = 1
          · subst h1
            rw [XF.one_mul']
            cases c.best with
            | none => rfl
            | some b => simp only [Option.map_some, XF.one_mul']
          · obtain ⟨y, rfl⟩ := (n1.redFin x hred).resolve_right h1
            cases hb : c.best with
            | none => rfl
            | some b =>
              obtain ⟨z, hz⟩ := (h.fin b hb).resolve_right h1
              simp only [Option.map_some, hz]
              exact XF.scale_lt hr.pos y z
        rw [hlt]
        split_ifs
        · rfl
        · exact h.best
    · intro b hb
      simp only [] at hb
      cases hred : leaf1.splitReduction with
      | none => rw [hred] at hb; exact h.fin b hb
      | some x =>
        rw [hred] at hb
        simp only [] at hb
        split_ifs at hb
        · obtain rfl := Option.some.inj hb
          exact n1.redFin x hred
        · exact h.fin b hb

theorem scanLeaves_recode (hr : Recode A A' φ ψ s) {P : Prop} (hex : Comparable P A A' φ ψ s mem mem') (hP : A.cfg.binType = some .random → P) {t0 t0' : Tree K G} :
    ∀ (ids : List Nat) {pos : Nat} {c c' d d' : Scan K G}, Grown R mem A c.t → Grown R mem' A' c'.t → ScanOK t0 c → ScanOK t0' c' →
      (∀ i (hi : i < ids.length), t0.leaves[pos + i]? = some ids[i]) → (∀ i (hi : i < ids.length), t0'.leaves[pos + i]? = some ids[i]) →
      ScanSim P A A' φ ψ s c c' → scanLeaves R mem pos ids c = .ok d → scanLeaves R mem' pos ids c' = .ok d' → ScanSim P A A' φ ψ s d d'
  | [], pos, c, c', d, d', _, _, _, _, _, _, h, hs, hs' => by
    cases hs
    cases hs'
    exact h
  | id :: ids, pos, c, c', d, d', hg, hg', hok, hok', hp, hp', h, hs, hs' => by
    unfold scanLeaves at hs hs'
    have hp0 : t0.leaves[pos]? = some id := by have := hp 0 (by simp); rw [Nat.add_zero] at this; exact this
    have hp0' : t0'.leaves[pos]? = some id := by have := hp' 0 (by simp); rw [Nat.add_zero] at this; exact this
    have hid : id ∈ c.t.leaves := by rw [hok.leaves]; exact List.mem_of_getElem? hp0
    cases h1 : scanLeaf R mem pos id c with
    | error e => rw [h1] at hs; cases hs
    | ok o =>
      cases h1' : scanLeaf R mem' pos id c' with
      | error e => rw [h1'] at hs'; cases hs'
      | ok o' =>
        rw [h1] at hs
        rw [h1'] at hs'
        rcases scanLeaf_recode hr hex hP hg hg' hok hok' h hid h1 h1' with ⟨rfl, rfl⟩ | ⟨c1, c1', rfl, rfl, hc⟩
        · cases hs
          cases hs'
          exact h
        · simp only [] at hs hs'
          obtain ⟨a1, a2⟩ := scanLeaf_sim hok hp0 h1
          obtain ⟨b1, b2⟩ := scanLeaf_sim hok' hp0' h1'
          refine scanLeaves_recode hr hex hP ids (hg.next a1) (hg'.next b1) a2 b2 ?_ ?_ hc hs hs'
          · intro i hi
            have := hp (i + 1) (by simpa using hi)
            rw [Nat.add_assoc, Nat.add_comm 1 i]
            simpa using this
          · intro i hi
            have := hp' (i + 1) (by simpa using hi)
            rw [Nat.add_assoc, Nat.add_comm 1 i]
            simpa using this

/-- Splitting the best leaf in the two trees. -/
theorem performSplit_recode (hr : Recode A A' φ ψ s) {c c' : Scan K G} (hg : Grown R mem A c.t) (hg' : Grown R mem' A' c'.t)
    (ht : TreeSim A A' φ ψ s c.t c'.t) {pos id : Nat} {red red' : XF K}
    (hb : BestOK c.t.cfg c.t.leaves c.t.nodes (pos, id, red)) (hb' : BestOK c'.t.cfg c'.t.leaves c'.t.nodes (pos, id, red'))
    {t1 t1' : Tree K G} {gl gl' : Glob G} (hs : performSplit R mem c pos id = .ok (t1, gl))
    (hs' : performSplit R mem' c' pos id = .ok (t1', gl')) : TreeSim A A' φ ψ s t1 t1' ∧ gl = c.glob ∧ gl' = c'.glob := by
  obtain ⟨dd, s0, f⟩ := hg.facts
  obtain ⟨dd', s0', f'⟩ := hg'.facts
  obtain ⟨nd, data, labels, col, l, r, g1, g2, hpos, hnd, hc, hcomp, hsp, hred, hneg, hd, hl, hcol, hne1, hne2, hcl, hcr, rfl, rfl⟩ :=
    performSplit_parts f.sim hb hs
  obtain ⟨nd', data', labels', col', l', r', g1', g2', hpos', hnd', hc', hcomp', hsp', hred', hneg', hd', hl', hcol', hne1', hne2',
    hcl', hcr', rfl, rfl⟩ := performSplit_parts f'.sim hb' hs'
  refine ⟨?_, rfl, rfl⟩
  have n := ht.nodes id nd nd' hnd hnd'
  have ok := f.nodes _ _ hnd
  have ok' := f'.nodes _ _ hnd'
  obtain ⟨x, hx, hlok⟩ := f.sim.leaf id (List.mem_of_getElem? hpos)
  rw [hnd] at hx
  obtain rfl := Option.some.inj hx
  have hopen := hlok.left_eq
  have hopen' : nd'.left = none := by rw [n.left]; exact hopen
  have e1 := ok.open_data hopen
  have e2 := ok.open_labels hopen
  have e1' := ok'.open_data hopen'
  have e2' := ok'.open_labels hopen'
  rw [hd] at e1; rw [hl] at e2; rw [hd'] at e1'; rw [hl'] at e2'
  obtain rfl := Option.some.inj e1
  obtain rfl := Option.some.inj e2
  obtain rfl := Option.some.inj e1'
  obtain rfl := Option.some.inj e2'
  have hfs := (hlok.comp_feat red hred).2
  obtain ⟨p, hp⟩ := Option.ne_none_iff_exists'.1 hfs
  obtain ⟨hpl, hpe⟩ := n.prevOK p hp
  have hprev := n.prev hfs
  have hv := n.value p hp
  have hrows : nd.idcs ≠ [] := by
    rintro hemp
    rw [hemp] at hne1
    exact hne1 rfl
  have hrows' : nd'.idcs ≠ [] := by
    rintro hemp
    rw [hemp] at hne1'
    exact hne1' rfl
  obtain ⟨_, rfl⟩ := subRows_col hcol hrows
  obtain ⟨_, rfl⟩ := subRows_col hcol' hrows'
  rw [hprev, n.feats, ← hpe, hv] at hcl' hcr'
  rw [← hpe] at hcl hcr
  rw [splitIdcs_map] at hcl hcr hcl' hcr'
  have hlen : (labelsOf A'.labels nd'.idcs).length = (labelsOf A.labels nd.idcs).length := by
    have := n.perm.length_eq
    simp only [List.length_map] at this
    simp only [labelsOf, List.length_map, this]
  have hpm : p ∈ nd.featIdcs := by
    rw [hpe, List.getD_eq_getElem _ _ hpl]
    exact List.getElem_mem hpl
  have hget : ∀ i ∈ nd.idcs, (recodeSample φ ψ (A.sample i)).1.getD p 0 = φ p ((A.sample i).1.getD p 0) := fun i hi =>
    recodeRow_getD φ ((ok.rows_lt i hi).2 p hpm)
  have hpl1 := perm_filter n.perm (fun q => decide (q.1.getD p 0 ≤ nd.splitValue))
    (fun q => decide (q.1.getD p 0 ≤ φ p nd.splitValue)) (fun i hi => by
      simp only [hget i hi, (hr.mono p).le_iff_le])
  have hpr1 := perm_filter n.perm (fun q => decide (nd.splitValue < q.1.getD p 0))
    (fun q => decide (φ p nd.splitValue < q.1.getD p 0)) (fun i hi => by
      simp only [hget i hi, (hr.mono p).lt_iff_lt])
  have hlen1 := hpl1.length_eq
  have hlen2 := hpr1.length_eq
  simp only [List.length_map] at hlen1 hlen2
  have hdata : c.t.data = A.data := by rw [f.base.data]; exact f.start.data
  have hdata' : c'.t.data = A'.data := by rw [f'.base.data]; exact f'.start.data
  have hlab : c.t.labels = A.labels := by rw [f.base.labels]; exact f.start.labels
  have hlab' : c'.t.labels = A'.labels := by rw [f'.base.labels]; exact f'.start.labels
  unfold childNode at hcl hcr hcl' hcr'
  rw [hdata, hlab] at hcl hcr
  rw [hdata', hlab', ht.cfg, ht.tfeats, ht.disc, n.depth, n.prop, n.bins, hlen] at hcl' hcr'
  have hlen1' : (nd'.idcs.filter (fun i => decide ((A'.data.getD i []).getD p 0 ≤ φ p nd.splitValue))).length =
    (nd.idcs.filter (fun i => decide ((A.data.getD i []).getD p 0 ≤ nd.splitValue))).length := hlen1
  have hlen2' : (nd'.idcs.filter (fun i => decide (φ p nd.splitValue < (A'.data.getD i []).getD p 0))).length =
    (nd.idcs.filter (fun i => decide (nd.splitValue < (A.data.getD i []).getD p 0))).length := hlen2
  simp only [] at hcl' hcr' hcl hcr
  rw [ht.rng, hlen1'] at hcl'
  rw [hlen2'] at hcr'
  have hval : ∀ i ∈ nd.idcs, Aligned A A' φ ψ → (A'.data.getD i []).getD p 0 = φ p ((A.data.getD i []).getD p 0) := by
    intro i hi hal
    have := congrArg Prod.fst (hal.sample i (ok.rows_lt i hi).1)
    rw [show A'.data.getD i [] = recodeRow φ (A.data.getD i []) from this]
    exact hget i hi
  obtain ⟨nl, rfl⟩ := Node_init_recode hpl1 (fun hal => by
    rw [n.same hal]
    exact List.filter_congr (fun i hi => decide_eq_decide.2 ((hval i hi hal).symm ▸ (hr.mono p).le_iff_le))) hcl hcl'
  obtain ⟨nr, rfl⟩ := Node_init_recode hpr1 (fun hal => by
    rw [n.same hal]
    exact List.filter_congr (fun i hi => decide_eq_decide.2 ((hval i hi hal).symm ▸ (hr.mono p).lt_iff_lt))) hcr hcr'
  exact { ht with
    rng := rfl
    leaves := by simp only [ht.leaves, ht.len]
    splits := by simp only [ht.splits]
    len := by simp [ht.len]
    nodes := by
      intro j a a' ha ha'
      simp only [] at ha ha'
      rcases getElem?_append_cases ha with q | ⟨q1, q2⟩ | ⟨q1, q2⟩
      · rcases getElem?_append_cases ha' with p' | ⟨p1, p2⟩ | ⟨p1, p2⟩
        · rcases getElem?_set_cases q with ⟨rfl, rfl⟩ | ⟨hne, q3⟩
          · rcases getElem?_set_cases p' with ⟨_, rfl⟩ | ⟨hne', _⟩
            · exact { n with
                perm := n.perm, feats := n.feats, bins := n.bins, depth := n.depth, prop := n.prop, disc := n.disc, minmax := n.minmax
                left := by simp only [ht.len], right := by simp only [ht.len] }
            · exact absurd rfl hne'
          · rcases getElem?_set_cases p' with ⟨he, _⟩ | ⟨_, p3⟩
            · exact absurd he hne
            · exact ht.nodes j a a' q3 p3
        · have := (List.getElem?_eq_some_iff.1 q).1
          simp only [List.length_set, ht.len] at this p1
          omega
        · have := (List.getElem?_eq_some_iff.1 q).1
          simp only [List.length_set, ht.len] at this p1
          omega
      · rcases getElem?_append_cases ha' with p' | ⟨p1, p2⟩ | ⟨p1, p2⟩
        · have := (List.getElem?_eq_some_iff.1 p').1
          simp only [List.length_set, ht.len] at this q1
          omega
        · rw [q2, p2]; exact nl
        · simp only [List.length_set, ht.len] at p1 q1
          omega
      · rcases getElem?_append_cases ha' with p' | ⟨p1, p2⟩ | ⟨p1, p2⟩
        · have := (List.getElem?_eq_some_iff.1 p').1
          simp only [List.length_set, ht.len] at this q1
          omega
        · simp only [List.length_set, ht.len] at p1 q1
          omega
        · rw [q2, p2]; exact nr }

theorem getDepth_recode {t t' : Tree K G} (ht : TreeSim A A' φ ψ s t t') : getDepth t' = getDepth t := by
  have : t'.leaves.map (fun id => ((t'.nodes[id]?).map Node.depth).getD 0) =
      t.leaves.map (fun id => ((t.nodes[id]?).map Node.depth).getD 0) := by
    rw [ht.leaves]
    refine List.map_congr_left (fun id _ => ?_)
    cases h : t.nodes[id]? with
    | none =>
      rw [List.getElem?_eq_none_iff] at h
      rw [List.getElem?_eq_none (by rw [ht.len]; exact h)]
    | some nd =>
      have hlt := (List.getElem?_eq_some_iff.1 h).1
      have h' : t'.nodes[id]? = some (t'.nodes[id]'(by rw [ht.len]; exact hlt)) := List.getElem?_eq_getElem _
      rw [h']
      simp only [Option.map_some, Option.getD_some]
      exact (ht.nodes id _ _ h h').depth
  unfold getDepth
  rw [this]

/-- One pass of the two loops. -/
theorem fitStep_recode (hr : Recode A A' φ ψ s) {P : Prop} (hex : Comparable P A A' φ ψ s mem mem') (hP : A.cfg.binType = some .random → P) {t t' : Tree K G} (hg : Grown R mem A t)
    (hg' : Grown R mem' A' t') (ht : TreeSim A A' φ ψ s t t') {gl gl' gl1 gl1' : Glob G}
    (hgl : P → gl' = gl) {b b' : Bool} {t1 t1' : Tree K G}
    (hs : fitStep R mem t gl = .ok (b, t1, gl1)) (hs' : fitStep R mem' t' gl' = .ok (b', t1', gl1')) :
    b' = b ∧ TreeSim A A' φ ψ s t1 t1' ∧ (P → gl1' = gl1) := by
  obtain ⟨dd, s0, f⟩ := hg.facts
  obtain ⟨dd', s0', f'⟩ := hg'.facts
  unfold fitStep at hs hs'
  rw [ht.cfg, ht.leaves] at hs'
  simp only [show (recodeCfg φ ψ s t.cfg).maxLeafNodes = t.cfg.maxLeafNodes from rfl] at hs'
  split at hs
  · cases hs
  · rename_i hlim
    simp only [hlim] at hs'
    cases hs
    cases hs'
    exact ⟨rfl, ht, hgl⟩
  · rename_i hlim
    simp only [hlim] at hs'
    split at hs
    · cases hs
    rename_i c hscan
    split at hs'
    · cases hs'
    rename_i c' hscan'
    have i1 : ScanOK t { t := t, glob := gl, best := none } := ⟨f.sim, rfl, rfl, fun b hb => by cases hb⟩
    have i1' : ScanOK t' { t := t', glob := gl', best := none } := ⟨f'.sim, rfl, rfl, fun b hb => by cases hb⟩
    have p1 : ∀ i (hi : i < t.leaves.length), t.leaves[0 + i]? = some t.leaves[i] := fun i hi => by
      rw [Nat.zero_add]; exact List.getElem?_eq_getElem hi
    have p1' : ∀ i (hi : i < t.leaves.length), t'.leaves[0 + i]? = some t.leaves[i] := fun i hi => by
      rw [Nat.zero_add, ht.leaves]; exact List.getElem?_eq_getElem hi
    have hsim := scanLeaves_recode hr hex hP t.leaves hg hg' i1 i1' p1 p1' ⟨ht, hgl, rfl, fun b hb => by cases hb⟩ hscan hscan'
    obtain ⟨k1, k2⟩ := scanLeaves_sim i1 p1 hscan
    obtain ⟨k1', k2'⟩ := scanLeaves_sim i1' p1' hscan'
    split at hs
    · cases hs
    rename_i again t2 gl2 hsb
    split at hs'
    · cases hs'
    rename_i again' t2' gl2' hsb'
    have hmid : again' = again ∧ TreeSim A A' φ ψ s t2 t2' ∧ (P → gl2' = gl2) := by
      unfold splitBest at hsb hsb'
      rw [hsim.best] at hsb'
      cases hb : c.best with
      | none =>
        rw [hb] at hsb hsb'
        cases hsb
        cases hsb'
        exact ⟨rfl, hsim.tree, hsim.glob⟩
      | some x =>
        obtain ⟨pos, id, red⟩ := x
        have hb1' : c'.best = some (pos, id, (XF.fin s).mul red) := by rw [hsim.best, hb]; rfl
        have hlt : ((XF.fin s).mul red).lt (.fin (s * c.t.cfg.minImpDec)) = red.lt (.fin c.t.cfg.minImpDec) := by
          rcases hsim.fin _ hb with ⟨z, hz⟩ | h1
          · rw [show red = .fin z from hz]
            exact XF.scale_lt hr.pos _ _
          · rw [h1, XF.one_mul', one_mul]
        rw [hb] at hsb hsb'
        simp only [Option.map_some] at hsb hsb'
        rw [hsim.tree.cfg] at hsb'
        rw [show (recodeCfg φ ψ s c.t.cfg).minImpDec = s * c.t.cfg.minImpDec from rfl, hlt] at hsb'
        split_ifs at hsb hsb'
        · split at hsb
          · cases hsb
          rename_i t3 gl3 hp
          split at hsb'
          · cases hsb'
          rename_i t3' gl3' hp'
          cases hsb
          cases hsb'
          obtain ⟨q1, q2, q3⟩ := performSplit_recode hr (hg.next k1) (hg'.next k1') hsim.tree (k2.best _ hb) (k2'.best _ hb1') hp hp'
          subst q2 q3
          exact ⟨rfl, q1, hsim.glob⟩
        · cases hsb
          cases hsb'
          exact ⟨rfl, hsim.tree, hsim.glob⟩
    obtain ⟨rfl, ht2, hgl2⟩ := hmid
    rw [getDepth_recode ht2] at hs'
    split at hs
    · cases hs
    rename_i d hd
    simp only [hd] at hs'
    cases hs
    cases hs'
    exact ⟨rfl, { ht2 with depth := rfl }, hgl2⟩

theorem fitLoop_recode (hr : Recode A A' φ ψ s) {P : Prop} (hex : Comparable P A A' φ ψ s mem mem') (hP : A.cfg.binType = some .random → P) :
    ∀ (n : Nat) {t t' : Tree K G} {gl gl' gl1 gl1' : Glob G} {t1 t1' : Tree K G}, Grown R mem A t → Grown R mem' A' t' →
      TreeSim A A' φ ψ s t t' → (P → gl' = gl) → fitLoop R mem n t gl = .ok (t1, gl1) →
      fitLoop R mem' n t' gl' = .ok (t1', gl1') → TreeSim A A' φ ψ s t1 t1' ∧ (P → gl1' = gl1)
  | 0, _, _, _, _, _, _, _, _, _, _, _, _, hs, _ => by cases hs
  | n + 1, t, t', gl, gl', gl1, gl1', t1, t1', hg, hg', ht, hgl, hs, hs' => by
    obtain ⟨dd, s0, f⟩ := hg.facts
    obtain ⟨dd', s0', f'⟩ := hg'.facts
    unfold fitLoop at hs hs'
    cases h1 : fitStep R mem t gl with
    | error e => rw [h1] at hs; cases hs
    | ok x =>
      cases h1' : fitStep R mem' t' gl' with
      | error e => rw [h1'] at hs'; cases hs'
      | ok x' =>
        obtain ⟨b, t2, gl2⟩ := x
        obtain ⟨b', t2', gl2'⟩ := x'
        obtain ⟨rfl, ht2, hgl2⟩ := fitStep_recode hr hex hP hg hg' ht hgl h1 h1'
        rw [h1] at hs
        rw [h1'] at hs'
        cases b' with
        | false =>
          cases hs
          cases hs'
          exact ⟨ht2, hgl2⟩
        | true =>
          exact fitLoop_recode hr hex hP n (hg.next (fitStep_sim f.sim h1)) (hg'.next (fitStep_sim f'.sim h1')) ht2 hgl2 hs hs'

theorem fitFuel_recode {t t' : Tree K G} {dd dd' : DiscDict K} {s0 s0' : Tree K G} (f : GrowFacts R mem A dd s0 t)
    (f' : GrowFacts R mem' A' dd' s0' t') (ht : TreeSim A A' φ ψ s t t') : fitFuel t' = fitFuel t := by
  unfold fitFuel
  rw [ht.leaves]
  congr 2
  refine List.map_congr_left (fun id _ => ?_)
  cases h : t.nodes[id]? with
  | none =>
    rw [List.getElem?_eq_none_iff] at h
    rw [List.getElem?_eq_none (by rw [ht.len]; exact h)]
  | some nd =>
    have hlt := (List.getElem?_eq_some_iff.1 h).1
    have h' : t'.nodes[id]? = some (t'.nodes[id]'(by rw [ht.len]; exact hlt)) := List.getElem?_eq_getElem _
    rw [h']
    simp only [Option.map_some, Option.getD_some]
    have := (ht.nodes id _ _ h h').perm.length_eq
    simp only [List.length_map] at this
    rw [(f.nodes _ _ h).nData_eq, (f'.nodes _ _ h').nData_eq, this]

theorem Recode.argsOK (hr : Recode A A' φ ψ s) (h : ArgsOK A) : ArgsOK A' where
  crit := by rw [hr.cfg]; exact h.crit
  minmax_le := by
    intro mins maxs hm f lo hi h1 h2
    rw [hr.cfg] at hm
    cases hmm : A.cfg.minmax with
    | none => rw [show (recodeCfg φ ψ s A.cfg).minmax = recodeMinmax φ A.cfg.minmax from rfl, hmm] at hm; cases hm
    | some m =>
      rw [show (recodeCfg φ ψ s A.cfg).minmax = recodeMinmax φ A.cfg.minmax from rfl, hmm] at hm
      simp only [recodeMinmax, Option.map_some, Option.some.injEq, Prod.mk.injEq] at hm
      obtain ⟨rfl, rfl⟩ := hm
      rw [recodeRow_get?] at h1 h2
      cases e1 : m.1[f]? with
      | none => rw [e1] at h1; cases h1
      | some a =>
        cases e2 : m.2[f]? with
        | none => rw [e2] at h2; cases h2
        | some b =>
          rw [e1] at h1
          rw [e2] at h2
          cases h1
          cases h2
          exact (hr.mono f).monotone (h.minmax_le m.1 m.2 hmm f a b e1 e2)
  sorted := by rw [hr.disc]; exact h.sorted
  linear_bins := by rw [hr.cfg]; exact h.linear_bins
  auto_bins := by rw [hr.cfg, hr.disc]; exact h.auto_bins

theorem Recode.noDiscrete (hr : Recode A A' φ ψ s) :
    (if A.cfg.binType = some .linear ∨ A.cfg.binType = some .identity then false else A.cfg.makeDiscrete) = false := by
  rcases hr.nodisc with h | h | h
  · rw [h]; simp
  · rw [if_pos (Or.inl h)]
  · rw [if_pos (Or.inr h)]

/-- The parameters as the constructor stores them — `tree_base.py:82-84`. -/
def TreeArgs.storedCfg (A : TreeArgs K) : TreeCfg K :=
  { A.cfg with makeDiscrete := if A.cfg.binType = some .linear ∨ A.cfg.binType = some .identity then false else A.cfg.makeDiscrete }

theorem init_parts {t0 : Tree K G} {gl : Glob G}
    (h : Tree.init R A.cfg A.data A.labels A.disc A.budget A.seed A.idcs A.feats = .ok (t0, gl)) :
    ∃ root g, Node.init R (R.seed A.seed) A.storedCfg A.data A.labels A.cols A.disc A.rows 0 1 A.cfg.numBins = .ok (root, g) ∧ t0.nodes = [root] ∧ t0.rng = g := by
  have hst := (Constructed.start ⟨gl, h⟩ A.disc).1
  unfold Tree.init at h
  by_cases hlen : A.data.length ≠ A.labels.length
  · rw [if_pos hlen] at h
    cases h
  rw [if_neg hlen] at h
  simp only [] at h
  split at h
  · cases h
  rename_i feats hf
  split at h
  · cases h
  rename_i root g hroot
  cases h
  have : feats = A.cols := hst.feats
  subst this
  exact ⟨root, g, hroot, rfl, rfl⟩

/-- The two fits. -/
theorem fit_recode (hr : Recode A A' φ ψ s) (hA : ArgsOK A) {P : Prop} (hex : Comparable P A A' φ ψ s mem mem') (hP : A.cfg.binType = some .random → P) {t0 t0' t t' : Tree K G}
    {gl gl' gl1 gl1' : Glob G} (hc : Constructed R A t0) (hc' : Constructed R A' t0')
    (hgl : P → gl' = gl) (hf : Tree.fit R mem t0 gl none none = .ok (t, gl1))
    (hf' : Tree.fit R mem' t0' gl' none none = .ok (t', gl1')) :
    TreeSim A A' φ ψ s t t' ∧ (P → gl1' = gl1) := by
  have hst := (hc.start A.disc).1
  have hst' := (hc'.start A'.disc).1
  have hdisc := (hc.start A.disc).2
  have hdisc' := (hc'.start A'.disc).2
  have hmk : t0.cfg.makeDiscrete = false := by
    rw [show t0.cfg = _ from hst.cfg]
    exact hr.noDiscrete
  have hcfg0 : t0'.cfg = recodeCfg φ ψ s t0.cfg := by
    rw [show t0.cfg = _ from hst.cfg, show t0'.cfg = _ from hst'.cfg, hr.cfg]
    rfl
  have hmk' : t0'.cfg.makeDiscrete = false := by
    rw [hcfg0]
    exact hmk
  unfold Tree.fit bothOrNeither at hf hf'
  simp only [hmk, maybeDiscrete] at hf
  simp only [hmk', maybeDiscrete] at hf'
  simp only [Bool.false_eq_true, if_false] at hf hf'
  rw [show t0'.cfg.splitter = t0.cfg.splitter by rw [hcfg0]; rfl] at hf'
  cases hsp : t0.cfg.splitter with
  | depth => simp only [hsp] at hf; cases hf
  | other => simp only [hsp] at hf; cases hf
  | best =>
    simp only [hsp] at hf hf'
    have e0 : ({ t0 with leaves := t0.leaves ++ [0] } : Tree K G) = { t0 with discrete := A.disc, leaves := t0.leaves ++ [0] } := by
      rw [← hdisc]
    have e0' : ({ t0' with leaves := t0'.leaves ++ [0] } : Tree K G) =
        { t0' with discrete := A'.disc, leaves := t0'.leaves ++ [0] } := by
      rw [← hdisc']
    have hff : fitLoop R mem (fitFuel ({ t0 with discrete := A.disc, leaves := t0.leaves ++ [0] } : Tree K G))
        { t0 with discrete := A.disc, leaves := t0.leaves ++ [0] } gl = .ok (t, gl1) := by
      rw [← e0]; exact hf
    have hff' : fitLoop R mem' (fitFuel ({ t0' with discrete := A'.disc, leaves := t0'.leaves ++ [0] } : Tree K G))
        { t0' with discrete := A'.disc, leaves := t0'.leaves ++ [0] } gl' = .ok (t', gl1') := by
      rw [← e0']; exact hf'
    have f : GrowFacts R mem A A.disc _ _ := .of_steps hst (by unfold maybeDiscrete; rw [if_neg (by rw [hmk]; simp)]) .refl
    have f' : GrowFacts R mem' A' A'.disc _ _ := .of_steps hst' (by unfold maybeDiscrete; rw [if_neg (by rw [hmk']; simp)]) .refl
    obtain ⟨g0, hi⟩ := id hc
    obtain ⟨g0', hi'⟩ := id hc'
    obtain ⟨root, g, hn, hns, hrng⟩ := init_parts hi
    obtain ⟨root', g', hn', hns', hrng'⟩ := init_parts hi'
    have hst2 : A'.storedCfg = recodeCfg φ ψ s A.storedCfg := by
      unfold TreeArgs.storedCfg
      rw [hr.cfg]
      rfl
    rw [hst2, hr.cfg, hr.cols, hr.disc, hr.seed] at hn'
    obtain ⟨nroot, hgeq⟩ := Node_init_recode (s := s) hr.perm (fun hal => hal.rows) hn hn'
    have hsim : TreeSim A A' φ ψ s ({ t0 with discrete := A.disc, leaves := t0.leaves ++ [0] } : Tree K G)
        { t0' with discrete := A'.disc, leaves := t0'.leaves ++ [0] } :=
      { cfg := hcfg0
        nData := by rw [hst.nData, hst'.nData, hr.size]
        disc := hr.disc
        tfeats := by rw [hst.feats, hst'.feats, hr.cols]
        leaves := by rw [hst.leaves, hst'.leaves]
        rng := by
          show t0'.rng = t0.rng
          rw [hrng, hrng', hgeq]
        remaining := by rw [hst.remaining, hst'.remaining, hr.budget]
        splits := by rw [hst.numSplits, hst'.numSplits]
        queries := by rw [hst.numQueries, hst'.numQueries]
        depth := by rw [hst.depth, hst'.depth]
        len := by
          show t0'.nodes.length = t0.nodes.length
          rw [hns, hns']
          rfl
        nodes := by
          intro id nd nd' h1 h2
          have h1 : t0.nodes[id]? = some nd := h1
          have h2 : t0'.nodes[id]? = some nd' := h2
          rw [hns] at h1
          rw [hns'] at h2
          cases id with
          | zero =>
            cases h1
            cases h2
            exact nroot
          | succ k => cases h1 }
    rw [fitFuel_recode f f' hsim] at hff'
    exact fitLoop_recode hr hex hP _ ⟨hA, _, _, f⟩ ⟨hr.argsOK hA, _, _, f'⟩ hsim hgl hff hff'

/-- The recoded answer. -/
def recodePred (ψ : K → K) : Pred K → Pred K
  | .cls l p => .cls (ψ l) p
  | .reg v => .reg (ψ v)

theorem walk_recode {t t' : Tree K G} (hmono : ∀ f, StrictMono (φ f)) (h : TreeSim A A' φ ψ s t t') (x : List K) :
    ∀ (n id : Nat), walk t'.nodes (recodeRow φ x) n id = walk t.nodes x n id
  | 0, id => rfl
  | n + 1, id => by
    unfold walk
    cases hn : t.nodes[id]? with
    | none =>
      rw [List.getElem?_eq_none_iff] at hn
      rw [List.getElem?_eq_none (by rw [h.len]; exact hn)]
    | some nd =>
      have hlt := (List.getElem?_eq_some_iff.1 hn).1
      have hn' : t'.nodes[id]? = some (t'.nodes[id]'(by rw [h.len]; exact hlt)) := List.getElem?_eq_getElem _
      rw [hn']
      generalize t'.nodes[id]'(by rw [h.len]; exact hlt) = nd' at hn'
      have n1 := h.nodes id nd nd' hn hn'
      simp only [n1.left, n1.right, n1.feat]
      cases nd.left with
      | none => rfl
      | some l =>
        cases hf : nd.splitFeature with
        | none => rfl
        | some f =>
          simp only [recodeRow_get?]
          cases x[f]? with
          | none => rfl
          | some v =>
            simp only [Option.map_some, n1.value f hf, (hmono f).le_iff_le]
            split_ifs
            · exact walk_recode hmono h x n l
            · cases nd.right with
              | none => rfl
              | some r => exact walk_recode hmono h x n r

theorem npMean_perm {l l' : List K} (h : l'.Perm l) : npMean l' = npMean l := by
  unfold npMean
  rw [h.sum_eq, h.length_eq]

theorem idxToClass_recode (d : ClassDict K) (i : Nat) :
    idxToClass (d.map (fun c => (ψ c.1, c.2))) i = (idxToClass d i).map ψ := by
  unfold idxToClass
  rw [List.filter_map, List.getLast?_map, Option.map_map, Option.map_map]
  rfl

theorem countsOfLabels_recode {d : ClassDict K} (hd : ClassesOK d) (hinj : Function.Injective ψ) {l l' : List K}
    (h : l'.Perm (l.map ψ)) {c c' : List Nat} (hc : countsOfLabels d l = .ok c)
    (hc' : countsOfLabels (d.map (fun c => (ψ c.1, c.2))) l' = .ok c') : c' = c := by
  have hd' : ClassesOK (d.map (fun c => (ψ c.1, c.2))) := by
    refine ⟨?_, ?_⟩
    · have : (d.map (fun c => (ψ c.1, c.2))).map Prod.fst = (d.map Prod.fst).map ψ := by
        rw [List.map_map, List.map_map]
        rfl
      rw [this]
      exact hd.1.map hinj
    · rw [List.map_map, List.length_map]
      exact hd.2
  obtain ⟨rfl, _⟩ := countsOfLabels_spec hd hc
  obtain ⟨rfl, _⟩ := countsOfLabels_spec hd' hc'
  rw [List.map_map]
  refine List.map_congr_left (fun p _ => ?_)
  show l'.count (ψ p.1) = l.count p.1
  rw [h.count_eq, List.count_map_of_injective _ _ hinj]

/-- The two trees answer alike. -/
theorem purePredict_recode (hr : Recode A A' φ ψ s) {t t' : Tree K G} {dd dd' : DiscDict K} {s0 s0' : Tree K G}
    (f : GrowFacts R mem A dd s0 t) (f' : GrowFacts R mem' A' dd' s0' t') (h : TreeSim A A' φ ψ s t t')
    (hcl : A.cfg.isCls = true → ClassesOK A.cfg.classes)
    (hmean : A.cfg.isCls = false → ∀ ys : List K, ys ≠ [] → npMean (ys.map ψ) = ψ (npMean ys)) (x : List K) :
    purePredict t' (recodeRow φ x) = (purePredict t x).map (recodePred ψ) := by
  unfold purePredict
  rw [walk_recode hr.mono h, h.len]
  cases hw : walk t.nodes x t.nodes.length 0 with
  | error e => rfl
  | ok id =>
    simp only []
    obtain ⟨_, nd0, hn0, hopen, _⟩ := (walk_routes hw).isLeaf .root
    have hn : t.nodes[id]? = some nd0 := hn0
    have hlt := (List.getElem?_eq_some_iff.1 hn).1
    obtain ⟨nd', hn'⟩ : ∃ nd', t'.nodes[id]? = some nd' :=
      ⟨t'.nodes[id]'(by rw [h.len]; exact hlt), List.getElem?_eq_getElem _⟩
    rw [hn, hn']
    simp only []
    have n := h.nodes id nd0 nd' hn hn'
    have hopen' : nd'.left = none := by rw [n.left]; exact hopen
    have hlab : (labelsOf A'.labels nd'.idcs).Perm ((labelsOf A.labels nd0.idcs).map ψ) := by
      have := n.perm.map Prod.snd
      simp only [List.map_map] at this
      unfold labelsOf
      rw [List.map_map]
      exact this
    unfold nodePred
    rw [h.cfg]
    have e1 : t.cfg.isCls = A.cfg.isCls := by rw [f.cfg_eq]
    have e2 : t.cfg.classes = A.cfg.classes := by rw [f.cfg_eq]
    rw [show (recodeCfg φ ψ s t.cfg).isCls = A.cfg.isCls from e1, e1,
      show (recodeCfg φ ψ s t.cfg).classes = t.cfg.classes.map (fun c => (ψ c.1, c.2)) from rfl, e2]
    cases hc : A.cfg.isCls with
    | true =>
      have c1 := (f.nodes _ _ hn).counts_cls (by rw [e1]; exact hc)
      have c2 := (f'.nodes _ _ hn').counts_cls (by rw [h.cfg]; show t.cfg.isCls = true; rw [e1]; exact hc)
      rw [e2] at c1
      rw [h.cfg, show (recodeCfg φ ψ s t.cfg).classes = t.cfg.classes.map (fun c => (ψ c.1, c.2)) from rfl, e2] at c2
      rw [countsOfLabels_recode (hcl hc) hr.inj hlab c1 c2]
      simp only [if_true]
      split_ifs
      · rfl
      · cases npArgmax (nd0.counts.map (fun (c : Nat) => (c : K) / ((nd0.counts.sum : Nat) : K))) with
        | none => rfl
        | some i =>
          simp only [idxToClass_recode]
          cases idxToClass A.cfg.classes i with
          | none => rfl
          | some l => rfl
    | false =>
      rw [(f.nodes _ _ hn).open_labels hopen, (f'.nodes _ _ hn').open_labels hopen']
      simp only [Bool.false_eq_true, if_false]
      cases hl : labelsOf A.labels nd0.idcs with
      | nil =>
        rw [hl] at hlab
        have : labelsOf A'.labels nd'.idcs = [] := hlab.eq_nil
        rw [this]
        rfl
      | cons y ys =>
        rw [hl] at hlab
        cases hl' : labelsOf A'.labels nd'.idcs with
        | nil =>
          rw [hl'] at hlab
          have := hlab.length_eq
          simp at this
        | cons y' ys' =>
          rw [hl'] at hlab
          simp only [Except.map, recodePred]
          rw [npMean_perm hlab, hmean hc _ (by simp)]

end

end FF
