import Verif.Proofs.TreeTotal
import Verif.Proofs.TreeSum
import Verif.Props.Tree2
import Verif.Props.Solvers2

/-!
# Properties C44, C45, C81: when fitting succeeds, and on which data
-/

namespace FF

open Spec

set_option linter.unusedSectionVars false

variable {K : Type} [Field K] [LinearOrder K] [IsStrictOrderedRing K] [FloorRing K] [NpFun K] {G : Type}

section
variable {R : Rng K G} {mem : Nat → Junk K} {A : TreeArgs K} {t : Tree K G} {dd : DiscDict K} {t0 : Tree K G}

/-- The exact solver's splits separate. -/
theorem exact_separates (hA : ArgsOK A) (hs : A.cfg.solver = .exact) : SolverSeparates R mem A := by
  intro dd t0 t h id nd red hn hc hred
  obtain ⟨f, hf, _, _, hneg, hlt, rfl⟩ := h.exact_red hA hs hn hc hred
  have hne := ((h.nodes _ _ hn).solved hc).can.rows_ne
  have hnos : ¬ OneSided (rowSamples A nd.idcs (nd.featIdcs.getD nd.prevSplitFeature 0)) nd.splitValue := by
    intro h1
    rw [change_oneSided _ (by unfold rowSamples; simpa using hne) h1] at hneg
    exact lt_irrefl _ hneg
  unfold OneSided at hnos
  rw [not_or] at hnos
  obtain ⟨h1, h2⟩ := hnos
  push Not at h1 h2
  refine ⟨hlt, ?_, ?_⟩
  · obtain ⟨x, hx, hx'⟩ := h2
    unfold rowSamples at hx
    obtain ⟨i, hi, rfl⟩ := List.mem_map.1 hx
    exact ⟨i, hi, hx'⟩
  · obtain ⟨x, hx, hx'⟩ := h1
    unfold rowSamples at hx
    obtain ⟨i, hi, rfl⟩ := List.mem_map.1 hx
    exact ⟨i, hi, hx'⟩

/-- The part of the data a solver sees in a node that may be split. -/
theorem GrowFacts.node_data (h : GrowFacts R mem A dd t0 t) (hT : TrainOK A) {id : Nat} {nd : Node K} (hn : NodeAt t id nd)
    (hne : nd.idcs ≠ []) : nd.featIdcs ≠ [] ∧ ∃ row rest, subRows A.data nd.idcs nd.featIdcs = row :: rest ∧
      row.length = nd.featIdcs.length ∧ (∀ r ∈ rest, r.length = row.length) ∧
      (labelsOf A.labels nd.idcs).length = (row :: rest).length := by
  have hok := h.nodes _ _ hn
  obtain ⟨i, is, hi⟩ := List.exists_cons_of_ne_nil hne
  constructor
  · obtain ⟨c, h1, h2⟩ := hok.feats_num.num
    rw [h.cfg_eq] at h1
    obtain ⟨c', h3, h4, _⟩ := featCount_ok (List.length_pos_iff.2 hT.cols_ne) hT.featSub
    rw [h3] at h1
    obtain rfl := Except.ok.inj h1
    intro h0
    rw [h0] at h2
    simp only [List.length_nil] at h2
    omega
  · rw [hi]
    refine ⟨_, _, rfl, by simp, ?_, by simp [labelsOf]⟩
    intro r hr
    obtain ⟨_, _, rfl⟩ := List.mem_map.1 hr
    simp

theorem GrowFacts.dedup_le (h : GrowFacts R mem A dd t0 t) {id : Nat} {nd : Node K} (hn : NodeAt t id nd) :
    (labelsOf A.labels nd.idcs).dedup.length ≤ A.labels.dedup.length := by
  rw [← List.card_toFinset, ← List.card_toFinset]
  apply Finset.card_le_card
  intro y hy
  rw [List.mem_toFinset] at hy ⊢
  obtain ⟨i, hi, rfl⟩ := List.mem_map.1 hy
  exact getD_mem ((h.nodes _ _ hn).labels_lt i hi)

theorem nodeMinmax_len {mm mm' : Option (List K × List K)} {feats : List Nat} (h : nodeMinmax mm feats = .ok mm') :
    ∀ mins maxs, mm' = some (mins, maxs) → mins.length = feats.length ∧ maxs.length = feats.length := by
  unfold nodeMinmax at h
  split at h
  · cases h
    intro _ _ h0; cases h0
  · split at h
    · rename_i h1 h2
      cases h
      intro _ _ h0
      cases h0
      rw [(takeE_ok h1).1, (takeE_ok h2).1]
      simp
    · cases h

theorem nodeMinmax_none {mm' : Option (List K × List K)} {feats : List Nat} (h : nodeMinmax (none : Option (List K × List K)) feats = .ok mm') :
    mm' = none := by
  cases h; rfl

theorem identity_total (hA : ArgsOK A) (hT : TrainOK A) (hs : A.cfg.solver = .exact) (hb : A.cfg.binType = some .identity)
    (hent : A.cfg.criterion = .entropy → A.labels.dedup.length ≤ 2) : SolverTotal R mem A := by
  intro dd t0 t h id nd nb hn hcan hnb g glob junk budget
  obtain ⟨hfe, row, rest, hdata, hlen, hrect, hlab⟩ := h.node_data hT hn hcan.rows_ne
  have hok := h.nodes _ _ hn
  obtain ⟨r, q, g', hex⟩ := C27_exact_identity_partial R glob.np junk.est row rest (labelsOf A.labels nd.idcs) nd.minmax nd.discrete nb
    A.cfg.isCls A.cfg.criterion hA.crit (fun he => le_trans (h.dedup_le hn) (hent he))
    (fun B => by have := h.binning_of hA hn hcan hnb B (Or.inl hb); rwa [hb] at this)
    (by intro h0; rw [h0] at hlen; exact hfe (List.length_eq_zero_iff.1 hlen.symm)) hrect hlab
    (fun mins maxs hm => by
      have := nodeMinmax_len hok.minmax_eq mins maxs hm
      rw [hlen]
      exact ⟨this.1.ge, this.2.ge⟩)
  unfold nodeSolve
  rw [hs, hb, hdata]
  simp only []
  rw [hex]
  exact ⟨_, _, _, _, rfl⟩

/-- Rows with different labels differ in some column the tree may use. -/
def Consistent (A : TreeArgs K) : Prop :=
  ∀ i ∈ A.rows, ∀ j ∈ A.rows, A.labels.getD i 0 ≠ A.labels.getD j 0 →
    ∃ c ∈ A.cols, (A.data.getD i []).getD c 0 ≠ (A.data.getD j []).getD c 0

theorem two_of_dedup {l : List K} (h : 1 < l.dedup.length) : ∃ x ∈ l, ∃ y ∈ l, x ≠ y := by
  rw [← List.card_toFinset, Finset.one_lt_card] at h
  obtain ⟨a, ha, b, hb, hab⟩ := h
  exact ⟨a, List.mem_toFinset.1 ha, b, List.mem_toFinset.1 hb, hab⟩

/-- With consistent data and all features, some feature varies in every node that may be split. -/
theorem GrowFacts.varies (h : GrowFacts R mem A dd t0 t) (hcon : Consistent A) (hfs : A.cfg.featSub = .none) {id : Nat} {nd : Node K}
    (hn : NodeAt t id nd) (hcan : CanSplit t.cfg A.labels nd) :
    ∃ f < nd.featIdcs.length, ∃ x ∈ subRows A.data nd.idcs nd.featIdcs, ∃ y ∈ subRows A.data nd.idcs nd.featIdcs,
      x.getD f 0 ≠ y.getD f 0 := by
  obtain ⟨a, ha, b, hb, hab⟩ := two_of_dedup hcan.labels
  obtain ⟨i, hi, rfl⟩ := List.mem_map.1 ha
  obtain ⟨j, hj, rfl⟩ := List.mem_map.1 hb
  have hsub := h.rows_sublist hn
  obtain ⟨c, hc, hcd⟩ := hcon i (hsub.subset hi) j (hsub.subset hj) hab
  have hall := (h.nodes _ _ hn).feats_num.all (by rw [h.cfg_eq]; exact hfs)
  rw [← hall] at hc
  obtain ⟨f, hf, rfl⟩ := List.getElem_of_mem hc
  refine ⟨f, hf, _, List.mem_map.2 ⟨i, hi, rfl⟩, _, List.mem_map.2 ⟨j, hj, rfl⟩, ?_⟩
  have e : ∀ r : List K, (nd.featIdcs.map (fun j => r.getD j 0)).getD f 0 = r.getD nd.featIdcs[f] 0 := by
    intro r
    rw [List.getD_eq_getElem _ _ (by simpa using hf), List.getElem_map]
  rw [e, e]
  exact hcd

/-- The number of bins of a node that may be split: the configured one, or at least two when it is logarithmic. -/
theorem GrowFacts.bins_node (h : GrowFacts R mem A dd t0 t) {id : Nat} {nd : Node K} (hn : NodeAt t id nd)
    (hcan : CanSplit t.cfg A.labels nd) {nb : Option Nat} (hnb : nodeBins t.cfg nd = .ok nb) :
    (A.cfg.useLog = false ∧ nb = A.cfg.numBins) ∨ (A.cfg.useLog = true ∧ ∃ B, nb = some B ∧ 2 ≤ B) := by
  have hok := h.nodes _ _ hn
  have hcfg := h.cfg_eq
  unfold nodeBins at hnb
  cases hu : A.cfg.useLog with
  | false =>
    left
    rw [if_neg (by rw [hcfg]; simp [hu]), hok.bins_eq (by rw [hcfg]; exact hu), hcfg] at hnb
    exact ⟨rfl, (Except.ok.inj hnb).symm⟩
  | true =>
    right
    rw [if_pos (by rw [hcfg]; exact hu)] at hnb
    split_ifs at hnb with h0
    refine ⟨rfl, _, (Except.ok.inj hnb).symm, ?_⟩
    by_contra hlt
    have h2 : Nat.log2 nd.nData = 0 := by omega
    have h3 := hcan.labels
    have h4 : (labelsOf A.labels nd.idcs).dedup.length ≤ nd.nData := by
      rw [hok.nData_eq]
      refine le_trans (List.dedup_sublist _).length_le ?_
      simp [labelsOf]
    have h5 := (Nat.log2_lt h0 (n := nd.nData) (k := 1)).1 (by omega)
    omega

theorem GrowFacts.minmax_none (h : GrowFacts R mem A dd t0 t) (hmm : A.cfg.minmax = none) {id : Nat} {nd : Node K}
    (hn : NodeAt t id nd) : nd.minmax = none := by
  have := (h.nodes _ _ hn).minmax_eq
  rw [h.cfg_eq] at this
  simp only [hmm] at this
  exact nodeMinmax_none this

theorem exact_linear_total (hA : ArgsOK A) (hT : TrainOK A) (hs : A.cfg.solver = .exact) (hb : A.cfg.binType = some .linear)
    (hmm : A.cfg.minmax = none) (hfs : A.cfg.featSub = .none) (hcon : Consistent A)
    (hB : A.cfg.useLog = true ∨ ∃ B, A.cfg.numBins = some B ∧ 2 ≤ B)
    (hent : A.cfg.criterion = .entropy → A.labels.dedup.length ≤ 2) : SolverTotal R mem A := by
  intro dd t0 t h id nd nb hn hcan hnb g glob junk budget
  obtain ⟨hfe, row, rest, hdata, hlen, hrect, hlab⟩ := h.node_data hT hn hcan.rows_ne
  have hv := h.varies hcon hfs hn hcan
  rw [hdata, ← hlen] at hv
  have hnb' : ∃ B, nb = some B ∧ 2 ≤ B := by
    rcases h.bins_node hn hcan hnb with ⟨h1, h2⟩ | ⟨_, h2⟩
    · rcases hB with hB | ⟨B, h3, h4⟩
      · rw [h1] at hB; cases hB
      · exact ⟨B, h2.trans h3, h4⟩
    · exact h2
  obtain ⟨B, rfl, hB2⟩ := hnb'
  have hbin := h.binning_of hA hn hcan hnb B (Or.inr rfl)
  rw [hb, h.minmax_none hmm hn] at hbin
  obtain ⟨r, q, g', hex⟩ := C27_exact_linear_partial R glob.np junk.est row rest (labelsOf A.labels nd.idcs) nd.discrete B
    A.cfg.isCls A.cfg.criterion hA.crit (fun he => le_trans (h.dedup_le hn) (hent he)) hbin hB2 hrect hlab hv
  unfold nodeSolve
  rw [hs, hb, hdata]
  simp only [h.minmax_none hmm hn]
  rw [hex]
  exact ⟨_, _, _, _, rfl⟩

theorem exact_random_total (hA : ArgsOK A) (hT : TrainOK A) (hs : A.cfg.solver = .exact) (hb : A.cfg.binType = some .random)
    (hmm : A.cfg.minmax = none) (hB : A.cfg.useLog = true ∨ ∃ B, A.cfg.numBins = some B ∧ 1 ≤ B)
    (hent : A.cfg.criterion = .entropy → A.labels.dedup.length ≤ 2) : SolverTotal R mem A := by
  intro dd t0 t h id nd nb hn hcan hnb g glob junk budget
  obtain ⟨hfe, row, rest, hdata, hlen, hrect, hlab⟩ := h.node_data hT hn hcan.rows_ne
  have hnb' : ∃ B, nb = some B ∧ 1 ≤ B := by
    rcases h.bins_node hn hcan hnb with ⟨h1, h2⟩ | ⟨_, B, h2, h3⟩
    · rcases hB with hB | ⟨B, h3, h4⟩
      · rw [h1] at hB; cases hB
      · exact ⟨B, h2.trans h3, h4⟩
    · exact ⟨B, h2, by omega⟩
  obtain ⟨B, rfl, hB2⟩ := hnb'
  have hbin := h.binning_of hA hn hcan hnb B (Or.inr rfl)
  rw [hb, h.minmax_none hmm hn] at hbin
  obtain ⟨r, q, g', hex⟩ := C27_exact_random_partial R glob.np junk.est row rest (labelsOf A.labels nd.idcs) nd.discrete B
    A.cfg.isCls A.cfg.criterion hA.crit (fun he => le_trans (h.dedup_le hn) (hent he)) hbin hB2
    (by intro h0; rw [h0] at hlen; exact hfe (List.length_eq_zero_iff.1 hlen.symm)) hrect hlab
  unfold nodeSolve
  rw [hs, hb, hdata]
  simp only [h.minmax_none hmm hn]
  rw [hex]
  exact ⟨_, _, _, _, rfl⟩

/-- What the bandit solver has recorded separates, if there were more than five candidates. -/
theorem mab_separates (hA : ArgsOK A) (hT : TrainOK A) (hs : A.cfg.solver = .mab)
    (h5 : ∀ (dd : DiscDict K) (t0 t : Tree K G), GrowFacts R mem A dd t0 t → ∀ (id : Nat) (nd : Node K) (B : Nat), NodeAt t id nd →
      CanSplit t.cfg A.labels nd → nodeBins t.cfg nd = .ok (some B) → ∀ (row : List K) (rest : List (List K)) (g : G) (hh : Hists K G),
      subRows A.data nd.idcs nd.featIdcs = row :: rest → row.length = nd.featIdcs.length →
      BinningOK nd.minmax nd.discrete A.cfg.binType B →
      makeHistograms R g A.cfg.isCls (row :: rest) (labelsOf A.labels nd.idcs) nd.minmax nd.discrete A.cfg.binType B = .ok hh →
      5 < numCands hh.hists row.length B) : SolverSeparates R mem A := by
  intro dd t0 t h id nd red hn hc hred
  have hsol := (h.nodes _ _ hn).solved hc
  obtain ⟨hfe, row, rest, hdata, hlen, hrect, hlab⟩ := h.node_data hT hn hsol.can.rows_ne
  obtain ⟨r, ⟨g, glob, junk, budget, g', glob', hrun⟩, hrec, _⟩ := h.says hn hc
  cases r with
  | none => rw [hrec.1] at hred; cases hred
  | some s =>
    obtain ⟨q1, q2, q3, q4⟩ := hrec
    unfold nodeSolve at hrun
    rw [hs] at hrun
    simp only [] at hrun
    split at hrun
    · cases hrun
    rename_i out hout
    simp only [Except.ok.injEq, Prod.mk.injEq] at hrun
    obtain ⟨hsplit, _⟩ := hrun
    rw [hdata] at hout
    obtain ⟨row', rest', B, hh, s0, hd', hB, _, hmake, _⟩ := solveMab_parts hout
    cases hd'
    have hbin := h.binning hA hn hc B (Or.inr hB)
    rw [hB] at hout
    have hcand := h5 _ _ _ h id nd B hn hsol.can (by rw [hsol.bins, hB]) row rest _ hh hdata hlen hbin hmake
    obtain ⟨_, h1, ⟨x, hx, hx'⟩, ⟨y, hy, hy'⟩⟩ := C22_split_separates R _ _ _ _ _ _ _ _ _ _ _ _ _ _ _ _ _ hh s hA.crit hbin hmake hcand hout hsplit
    rw [hlen] at h1
    rw [← hdata] at hx hy
    have e : ∀ r : List K, (nd.featIdcs.map (fun j => r.getD j 0)).getD s.feat 0 = r.getD (nd.featIdcs.getD s.feat 0) 0 := by
      intro r
      rw [List.getD_eq_getElem _ _ (by simpa using h1), List.getElem_map, List.getD_eq_getElem _ _ h1]
    rw [q2, q3]
    refine ⟨h1, ?_, ?_⟩
    · obtain ⟨i, hi, rfl⟩ := List.mem_map.1 hx
      rw [e] at hx'
      exact ⟨i, hi, hx'⟩
    · obtain ⟨i, hi, rfl⟩ := List.mem_map.1 hy
      rw [e] at hy'
      exact ⟨i, hi, hy'⟩

theorem numVarying_pos {data : List (List K)} {F f : Nat} (hf : f < F) {x y : List K} (hx : x ∈ data) (hy : y ∈ data)
    (h : x.getD f 0 ≠ y.getD f 0) : 0 < numVarying data F := by
  unfold numVarying
  apply List.length_pos_of_mem (a := f)
  rw [List.mem_filter, List.mem_range]
  exact ⟨hf, by simpa using ⟨x, hx, y, hy, h⟩⟩

/-- The bandit solver with at least six LINEAR bins. -/
theorem mab_linear_ok (hA : ArgsOK A) (hT : TrainOK A) (hs : A.cfg.solver = .mab) (hb : A.cfg.binType = some .linear)
    (hmm : A.cfg.minmax = none) (hfs : A.cfg.featSub = .none) (hcon : Consistent A) (hlog : A.cfg.useLog = false)
    (hB : ∃ B, A.cfg.numBins = some B ∧ 6 ≤ B) (hbatch : 0 < A.cfg.batch)
    (hent : A.cfg.criterion = .entropy → A.labels.dedup.length ≤ 2) : SolverTotal R mem A ∧ SolverSeparates R mem A := by
  obtain ⟨B, hB, hB6⟩ := hB
  have bins : ∀ (dd : DiscDict K) (t0 t : Tree K G), GrowFacts R mem A dd t0 t → ∀ (id : Nat) (nd : Node K) (nb : Option Nat),
      NodeAt t id nd → CanSplit t.cfg A.labels nd → nodeBins t.cfg nd = .ok nb → nb = some B := by
    intro dd t0 t h id nd nb hn hcan hnb
    rcases h.bins_node hn hcan hnb with ⟨h1, h2⟩ | ⟨h1, _⟩
    · exact h2.trans hB
    · rw [hlog] at h1; cases h1
  have vary : ∀ (dd : DiscDict K) (t0 t : Tree K G), GrowFacts R mem A dd t0 t → ∀ (id : Nat) (nd : Node K),
      NodeAt t id nd → CanSplit t.cfg A.labels nd → ∀ (row : List K) (rest : List (List K)),
      subRows A.data nd.idcs nd.featIdcs = row :: rest → row.length = nd.featIdcs.length →
      5 < B * numVarying (row :: rest) row.length := by
    intro dd t0 t h id nd hn hcan row rest hdata hlen
    obtain ⟨f, hf, x, hx, y, hy, hxy⟩ := h.varies hcon hfs hn hcan
    rw [hdata] at hx hy
    rw [← hlen] at hf
    have := numVarying_pos hf hx hy hxy
    nlinarith
  constructor
  · intro dd t0 t h id nd nb hn hcan hnb g glob junk budget
    obtain ⟨hfe, row, rest, hdata, hlen, hrect, hlab⟩ := h.node_data hT hn hcan.rows_ne
    obtain rfl := bins _ _ _ h id nd nb hn hcan hnb
    have hbin := h.binning_of hA hn hcan hnb B (Or.inr rfl)
    rw [hb, h.minmax_none hmm hn] at hbin
    obtain ⟨out, hout⟩ := C27_mab_linear_partial R g glob junk row rest (labelsOf A.labels nd.idcs) nd.discrete B A.cfg.isCls A.cfg.criterion
      (nodeEpsilon A.cfg { nd with numBins := some B }) A.cfg.withRep budget A.cfg.batch hA.crit
      (fun he => le_trans (h.dedup_le hn) (hent he)) hbin hrect hlab hbatch (vary _ _ _ h id nd hn hcan row rest hdata hlen)
    unfold nodeSolve
    rw [hs, hb, hdata]
    simp only []
    rw [← h.minmax_none hmm hn] at hout
    rw [hout]
    exact ⟨_, _, _, _, rfl⟩
  · refine mab_separates hA hT hs ?_
    intro dd t0 t h id nd B' hn hcan hnb row rest g hh hdata hlen hbin hmake
    have := bins _ _ _ h id nd _ hn hcan hnb
    obtain rfl := Option.some.inj this
    rw [hb, h.minmax_none hmm hn] at hbin hmake
    exact lt_of_lt_of_le (vary _ _ _ h id nd hn hcan row rest hdata hlen) (numCands_linear_ge hbin hmake)

/-- The bandit solver with at least six RANDOM bins. -/
theorem mab_random_ok (hA : ArgsOK A) (hT : TrainOK A) (hs : A.cfg.solver = .mab) (hb : A.cfg.binType = some .random)
    (hmm : A.cfg.minmax = none) (hlog : A.cfg.useLog = false)
    (hB : ∃ B, A.cfg.numBins = some B ∧ 6 ≤ B) (hbatch : 0 < A.cfg.batch)
    (hent : A.cfg.criterion = .entropy → A.labels.dedup.length ≤ 2) : SolverTotal R mem A ∧ SolverSeparates R mem A := by
  obtain ⟨B, hB, hB6⟩ := hB
  have bins : ∀ (dd : DiscDict K) (t0 t : Tree K G), GrowFacts R mem A dd t0 t → ∀ (id : Nat) (nd : Node K) (nb : Option Nat),
      NodeAt t id nd → CanSplit t.cfg A.labels nd → nodeBins t.cfg nd = .ok nb → nb = some B := by
    intro dd t0 t h id nd nb hn hcan hnb
    rcases h.bins_node hn hcan hnb with ⟨h1, h2⟩ | ⟨h1, _⟩
    · exact h2.trans hB
    · rw [hlog] at h1; cases h1
  have many : ∀ (row : List K) (nd : Node K), nd.featIdcs ≠ [] → row.length = nd.featIdcs.length → 5 < B * row.length := by
    intro row nd hfe hlen
    have := List.length_pos_iff.2 hfe
    rw [hlen]
    nlinarith
  constructor
  · intro dd t0 t h id nd nb hn hcan hnb g glob junk budget
    obtain ⟨hfe, row, rest, hdata, hlen, hrect, hlab⟩ := h.node_data hT hn hcan.rows_ne
    obtain rfl := bins _ _ _ h id nd nb hn hcan hnb
    have hbin := h.binning_of hA hn hcan hnb B (Or.inr rfl)
    rw [hb, h.minmax_none hmm hn] at hbin
    obtain ⟨out, hout⟩ := C27_mab_random_partial R g glob junk row rest (labelsOf A.labels nd.idcs) nd.discrete B A.cfg.isCls A.cfg.criterion
      (nodeEpsilon A.cfg { nd with numBins := some B }) A.cfg.withRep budget A.cfg.batch hA.crit
      (fun he => le_trans (h.dedup_le hn) (hent he)) hbin hrect hlab hbatch (many row nd hfe hlen)
    unfold nodeSolve
    rw [hs, hb, hdata]
    simp only []
    rw [← h.minmax_none hmm hn] at hout
    rw [hout]
    exact ⟨_, _, _, _, rfl⟩
  · refine mab_separates hA hT hs ?_
    intro dd t0 t h id nd B' hn hcan hnb row rest g hh hdata hlen hbin hmake
    have := bins _ _ _ h id nd _ hn hcan hnb
    obtain rfl := Option.some.inj this
    obtain ⟨hfe, _⟩ := h.node_data hT hn hcan.rows_ne
    rw [hb, h.minmax_none hmm hn] at hbin hmake
    exact lt_of_lt_of_le (many row nd hfe hlen) (numCands_random_ge hbin hmake)

end

/-! ### C44 -/

/-- C44. Constructing and fitting a tree with the exact solver on IDENTITY bins succeeds for every well-formed training set and all
limits that make sense, for every generator, every state of the process-wide generators and every content of uninitialised memory; for
the entropy criterion only with at most two different labels (see `C44_refuted`). -/
theorem C44_exact_identity_partial (R : Rng K G) (A : TreeArgs K) (hA : ArgsOK A) (hT : TrainOK A) (hs : A.cfg.solver = .exact)
    (hb : A.cfg.binType = some .identity) (hent : A.cfg.criterion = .entropy → A.labels.dedup.length ≤ 2) :
    ∃ t0, Constructed R A t0 ∧ ∀ (mem : Nat → Junk K) (glob : Glob G), ∃ t glob', Tree.fit R mem t0 glob none none = .ok (t, glob') := by
  obtain ⟨t0, hc⟩ := Tree_init_total (R := R) hT
  exact ⟨t0, hc, fun mem glob => fit_total hT (identity_total hA hT hs hb hent) (exact_separates hA hs) hc glob⟩

theorem trainOK_exArgs : TrainOK exArgs where
  data_ne := by decide
  rect := by decide
  lens := by decide
  rows := by decide
  cols := by decide
  cols_ne := by decide
  classes := fun _ => by unfold ClassesOK; decide +kernel
  depth := by decide
  leaves := fun m h => by cases h
  featSub := trivial
  minmax := fun _ _ h => by cases h
  splitter := rfl

/-- A regression tree on a bootstrap sample with feature subsampling and a limit on the leaves meets the hypotheses of C44 too. -/
def exArgsTotal : TreeArgs ℚ :=
  { exArgsReg with cfg := { cfgQr with featSub := .sqrt, maxLeafNodes := some 3, maxDepth := .inf }, idcs := some [3, 0, 5, 5, 0, 2, 4, 4] }

example : ArgsOK exArgsTotal ∧ TrainOK exArgsTotal ∧ exArgsTotal.cfg.solver = .exact ∧ exArgsTotal.cfg.binType = some .identity ∧
    exArgsTotal.cfg.criterion ≠ .entropy := by
  refine ⟨⟨?_, fun _ _ h => (by cases h), fun _ _ h => (by cases h), fun h => (by cases h), fun h => by cases h⟩,
    ⟨by decide, by decide, by decide, by decide, by decide, by decide, fun h => (by cases h), by decide, fun m h => (by cases h; decide), trivial,
      fun _ _ h => (by cases h), rfl⟩, rfl, rfl, by decide⟩
  simp [CritFits, exArgsTotal, cfgQr]

/-- The training set of `exArgs` with three classes and the entropy criterion. -/
def exArgsEnt : TreeArgs ℚ :=
  { exArgs with cfg := { cfgQ with criterion := .entropy, classes := [(0, 0), (1, 1), (2, 2)] }, labels := [0, 0, 1, 1, 2, 2] }

/-- C44 fails for entropy with three classes: `fit` raises ValueError on a well-formed training set. -/
theorem C44_refuted : ArgsOK exArgsEnt ∧ TrainOK exArgsEnt ∧ exArgsEnt.cfg.solver = .exact ∧ exArgsEnt.cfg.binType = some .identity ∧
    (runTree rngQ exMem exArgsEnt exGlob).map (fun _ => ()) = .error .valueError := by
  refine ⟨⟨?_, fun _ _ h => (by cases h), fun _ _ h => (by cases h), fun h => (by cases h), fun h => by cases h⟩,
    ⟨by decide, by decide, by decide, by decide, by decide, by decide, fun _ => (by unfold ClassesOK; decide +kernel), by decide,
      fun m h => (by cases h), trivial, fun _ _ h => (by cases h), rfl⟩, rfl, rfl, by decide +kernel⟩
  simp [CritFits, exArgsEnt, cfgQ]

/-! ### C81 -/

/-- C81, exact solver. With RANDOM bins fitting succeeds on every well-formed training set; with LINEAR bins it succeeds if all features
are considered and rows with different labels differ in some column. (At least one RANDOM bin or two LINEAR bins, no precomputed minima and
maxima, at most two different labels for entropy.) -/
theorem C81_exact_binned (R : Rng K G) (A : TreeArgs K) (hA : ArgsOK A) (hT : TrainOK A) (hs : A.cfg.solver = .exact)
    (hmm : A.cfg.minmax = none) (hent : A.cfg.criterion = .entropy → A.labels.dedup.length ≤ 2)
    (hb : (A.cfg.binType = some .random ∧ (A.cfg.useLog = true ∨ ∃ B, A.cfg.numBins = some B ∧ 1 ≤ B)) ∨
      (A.cfg.binType = some .linear ∧ (A.cfg.useLog = true ∨ ∃ B, A.cfg.numBins = some B ∧ 2 ≤ B) ∧ A.cfg.featSub = .none ∧ Consistent A)) :
    ∃ t0, Constructed R A t0 ∧ ∀ (mem : Nat → Junk K) (glob : Glob G), ∃ t glob', Tree.fit R mem t0 glob none none = .ok (t, glob') := by
  obtain ⟨t0, hc⟩ := Tree_init_total (R := R) hT
  refine ⟨t0, hc, fun mem glob => fit_total hT ?_ (exact_separates hA hs) hc glob⟩
  rcases hb with ⟨h1, h2⟩ | ⟨h1, h2, h3, h4⟩
  · exact exact_random_total hA hT hs h1 hmm h2 hent
  · exact exact_linear_total hA hT hs h1 hmm h3 h4 h2 hent

/-- C81, bandit solver. With at least six bins per feature (so that there are always more than the five candidates the solver needs) and a
positive batch size, fitting succeeds under the same conditions. -/
theorem C81_mab_binned (R : Rng K G) (A : TreeArgs K) (hA : ArgsOK A) (hT : TrainOK A) (hs : A.cfg.solver = .mab)
    (hmm : A.cfg.minmax = none) (hent : A.cfg.criterion = .entropy → A.labels.dedup.length ≤ 2) (hbatch : 0 < A.cfg.batch)
    (hlog : A.cfg.useLog = false) (hB : ∃ B, A.cfg.numBins = some B ∧ 6 ≤ B)
    (hb : A.cfg.binType = some .random ∨ (A.cfg.binType = some .linear ∧ A.cfg.featSub = .none ∧ Consistent A)) :
    ∃ t0, Constructed R A t0 ∧ ∀ (mem : Nat → Junk K) (glob : Glob G), ∃ t glob', Tree.fit R mem t0 glob none none = .ok (t, glob') := by
  obtain ⟨t0, hc⟩ := Tree_init_total (R := R) hT
  refine ⟨t0, hc, fun mem glob => ?_⟩
  rcases hb with h1 | ⟨h1, h2, h3⟩
  · obtain ⟨a, b⟩ := mab_random_ok (R := R) (mem := mem) hA hT hs h1 hmm hlog hB hbatch hent
    exact fit_total hT a b hc glob
  · obtain ⟨a, b⟩ := mab_linear_ok (R := R) (mem := mem) hA hT hs h1 hmm h2 h3 hlog hB hbatch hent
    exact fit_total hT a b hc glob

/-- A bandit tree with six LINEAR bins on the example data. -/
def exArgsMab6 : TreeArgs ℚ := { exArgs with cfg := { cfgQ with solver := .mab, binType := some .linear, numBins := some 6 } }

example : ArgsOK exArgsMab6 ∧ TrainOK exArgsMab6 ∧ Consistent exArgsMab6 := by
  refine ⟨⟨?_, fun _ _ h => (by cases h), fun _ _ h => (by cases h), fun _ _ => (by decide), fun h => by cases h⟩,
    ⟨by decide, by decide, by decide, by decide, by decide, by decide, fun _ => (by unfold ClassesOK; decide +kernel), by decide,
      fun m h => (by cases h), trivial, fun _ _ h => (by cases h), rfl⟩, ?_⟩
  · simp [CritFits, exArgsMab6, cfgQ]
  · unfold Consistent
    decide +kernel

/-- Consistency is needed: two equal rows with different labels make `fit` raise with LINEAR bins. -/
theorem C81_inconsistent_raises :
    (runTree rngQ exMem { exArgsMab6 with data := [[7], [7]], labels := [0, 1] } exGlob).map (fun _ => ())
      = .error (.attributeError "bin_edges") ∧
    (runTree rngQ exMem { exArgsMab6 with data := [[7], [7]], labels := [0, 1], cfg := { exArgsMab6.cfg with solver := .exact } }
      exGlob).map (fun _ => ()) = .error .indexError := by
  constructor <;> decide +kernel

/-! ### C45 -/

/-- C45, the part that holds: `fit(data, labels)` with the data and labels given to the constructor is `fit()`. -/
theorem C45_same_data_partial (R : Rng K G) (mem : Nat → Junk K) (A : TreeArgs K) (t0 : Tree K G) (hc : Constructed R A t0)
    (glob : Glob G) : Tree.fit R mem t0 glob (some A.data) (some A.labels) = Tree.fit R mem t0 glob none none := by
  obtain ⟨hst, _⟩ := hc.start t0.discrete
  have h1 : t0.data = A.data := hst.data
  have h2 : t0.labels = A.labels := hst.labels
  have h3 : t0.nData = A.labels.length := hst.nData
  have e : { t0 with data := A.data, labels := A.labels, nData := A.labels.length } = t0 := by
    rw [← h1, ← h3, ← h2]
  have e2 : Tree.fit R mem t0 glob (some A.data) (some A.labels)
      = Tree.fit R mem { t0 with data := A.data, labels := A.labels, nData := A.labels.length } glob none none := rfl
  rw [e2, e]

/-- Passing only one of the two raises. -/
theorem C45_both_or_neither (R : Rng K G) (mem : Nat → Junk K) (t : Tree K G) (glob : Glob G) (d : List (List K)) (l : List K) :
    Tree.fit R mem t glob (some d) none = .error (.exception "Need to pass both data and labels to .fit()") ∧
    Tree.fit R mem t glob none (some l) = .error (.exception "Need to pass both data and labels to .fit()") := by
  constructor <;> rfl

/-- Construct a tree from `A`, call `fit(data, labels)` and look at the outcome. -/
def refitTree {β : Type} (R : Rng K G) (mem : Nat → Junk K) (A : TreeArgs K) (glob : Glob G) (d : List (List K)) (l : List K)
    (obs : Tree K G → β) : Except Err β := do
  let (t0, _) ← Tree.init R A.cfg A.data A.labels A.disc A.budget A.seed A.idcs A.feats
  let (t, _) ← Tree.fit R mem t0 glob (some d) (some l)
  .ok (obs t)

/-- Regression on one column with two rows. -/
def exArgsTwo : TreeArgs ℚ := { exArgsReg with data := [[0], [1]], labels := [0, 1] }

/-- C45 fails: a tree constructed with targets 0, 1 and then fitted to targets 5, 9 of the same two rows splits the rows and predicts 5, 9
only because they were different before: fitted to targets 5, 9 on a tree constructed with equal targets it predicts the old targets, and
fitting it to rows in a different range keeps the old threshold, so all new rows are sent to the same leaf. -/
theorem C45_refuted :
    refitTree rngQ exMem { exArgsTwo with labels := [3, 3] } exGlob [[0], [1]] [5, 9]
      (fun t => ((t.predict [0]).map Prod.fst |>.toOption, (t.predict [1]).map Prod.fst |>.toOption)) =
      .ok (some (.reg 3), some (.reg 3)) ∧
    (runTree rngQ exMem { exArgsTwo with labels := [5, 9] } exGlob).map
      (fun t => ((t.predict [0]).map Prod.fst |>.toOption, (t.predict [1]).map Prod.fst |>.toOption)) =
      .ok (some (.reg 5), some (.reg 9)) ∧
    refitTree rngQ exMem exArgsTwo exGlob [[10], [20]] [5, 9]
      (fun t => ((t.predict [10]).map Prod.fst |>.toOption, (t.predict [20]).map Prod.fst |>.toOption)) =
      .ok (some (.reg 9), some (.reg 9)) := by
  refine ⟨?_, ?_, ?_⟩ <;> decide +kernel

end FF
