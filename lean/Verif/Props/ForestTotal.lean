import Verif.Proofs.ForestTotal
import Verif.Proofs.Utils
import Verif.Props.ForestEx
import Verif.Props.Total

/-!
# Property C85: when fitting a forest succeeds
-/

namespace FF

open Spec

set_option linter.unusedSectionVars false

variable {K : Type} [Field K] [LinearOrder K] [IsStrictOrderedRing K] [FloorRing K] [NpFun K] {G : Type}

section
variable {R : Rng K G} {mem : Nat → Junk K} {A : TreeArgs K} {t : Tree K G} {dd : DiscDict K} {t0 : Tree K G}

theorem nodeMinmax_some {mins maxs : List K} {mm' : Option (List K × List K)} {feats : List Nat}
    (h : nodeMinmax (some (mins, maxs)) feats = .ok mm') :
    mm' = some (feats.map (fun j => mins.getD j 0), feats.map (fun j => maxs.getD j 0)) := by
  unfold nodeMinmax at h
  simp only [] at h
  split at h
  · rename_i h1 h2
    cases h
    rw [(takeE_ok h1).1, (takeE_ok h2).1]
  · cases h

/-- With precomputed bounds that differ in every column, every feature of a node gives `B` LINEAR candidates. -/
theorem GrowFacts.minmax_edges (h : GrowFacts R mem A dd t0 t) {mins maxs : List K} (hmm : A.cfg.minmax = some (mins, maxs))
    (hvar : ∀ j ∈ A.cols, mins.getD j 0 < maxs.getD j 0) {id : Nat} {nd : Node K} (hn : NodeAt t id nd) {row : List K} {rest : List (List K)}
    (hlen : row.length = nd.featIdcs.length) {labels : List K} {B : Nat} {g : G} {isCls : Bool} {hs : Hists K G}
    (hb : BinningOK nd.minmax nd.discrete (some .linear) B)
    (hmake : makeHistograms R g isCls (row :: rest) labels nd.minmax nd.discrete (some .linear) B = .ok hs) :
    ∀ f < row.length, (edgesOf hs.hists f).length = B := by
  intro f hf
  have hok := h.nodes _ _ hn
  have hm := hok.minmax_eq
  rw [h.cfg_eq] at hm
  simp only [hmm] at hm
  have hm' := nodeMinmax_some hm
  obtain ⟨lo, hi, _, h1, he⟩ := (C13_candidates_linear R g isCls row rest labels nd.minmax nd.discrete B hs hb hmake).2 f hf
  obtain ⟨h2, h3⟩ := h1 _ _ hm'
  have hlt : f < nd.featIdcs.length := by rw [← hlen]; exact hf
  rw [List.getElem?_map, List.getElem?_eq_getElem hlt] at h2 h3
  have hin : nd.featIdcs[f] ∈ A.cols := hok.feats_sub _ (List.getElem_mem hlt)
  have := hvar _ hin
  simp only [Option.map_some, Option.some.injEq] at h2 h3
  rw [he, if_neg (by rw [← h2, ← h3]; exact this.ne)]
  simp

theorem exact_linear_minmax_total (hA : ArgsOK A) (hT : TrainOK A) (hs : A.cfg.solver = .exact) (hb : A.cfg.binType = some .linear)
    {mins maxs : List K} (hmm : A.cfg.minmax = some (mins, maxs)) (hvar : ∀ j ∈ A.cols, mins.getD j 0 < maxs.getD j 0)
    (hB : A.cfg.useLog = true ∨ ∃ B, A.cfg.numBins = some B ∧ 2 ≤ B)
    (hent : A.cfg.criterion = .entropy → A.labels.dedup.length ≤ 2) : SolverTotal R mem A := by
  intro dd t0 t h id nd nb hn hcan hnb g glob junk budget
  obtain ⟨hfe, row, rest, hdata, hlen, hrect, hlab⟩ := h.node_data hT hn hcan.rows_ne
  have hnb' : ∃ B, nb = some B ∧ 2 ≤ B := by
    rcases h.bins_node hn hcan hnb with ⟨h1, h2⟩ | ⟨_, h2⟩
    · rcases hB with hB | ⟨B, h3, h4⟩
      · rw [h1] at hB; cases hB
      · exact ⟨B, h2.trans h3, h4⟩
    · exact h2
  obtain ⟨B, rfl, hB2⟩ := hnb'
  have hbin := h.binning_of hA hn hcan hnb B (Or.inr rfl)
  rw [hb] at hbin
  have hrect' : ∀ r ∈ rest, row.length ≤ r.length := fun r hr => (hrect r hr).ge
  have hok := h.nodes _ _ hn
  obtain ⟨hists, hmake⟩ := makeHistograms_total (R := R) (g := glob.np) (isCls := A.cfg.isCls) (labels := labelsOf A.labels nd.idcs)
    (d := nd.discrete) (B := B) (by simp) hrect' (minmax := nd.minmax) (fun mins maxs hm => by
      have := nodeMinmax_len hok.minmax_eq mins maxs hm
      rw [hlen]
      exact ⟨this.1.ge, this.2.ge⟩) (t := .linear)
  have hF' : 0 < row.length := by
    rw [hlen]
    exact List.length_pos_iff.2 hfe
  obtain ⟨r, q, g', hex⟩ := solveExactly_total junk.est hA.crit
    (fun he => by rw [(npUnique_perm _).length_eq]; exact le_trans (h.dedup_le hn) (hent he)) (by simp)
    (B := B) (numBins := some B) (by simp [exactBins]) hbin hrect' hlab.ge hmake ⟨0, hF', fun h0 => by
      have := h.minmax_edges hmm hvar hn hlen hbin hmake 0 hF'
      rw [h0] at this
      simp at this
      omega⟩
  unfold nodeSolve
  rw [hs, hb, hdata]
  simp only []
  rw [hex]
  exact ⟨_, _, _, _, rfl⟩

theorem numCands_full {hists : List (Hist K)} {F B : Nat} (h : ∀ f < F, (edgesOf hists f).length = B) : numCands hists F B = F * B := by
  unfold numCands
  have : (List.range F).map (fun f => min B (edgesOf hists f).length) = (List.range F).map (fun _ => B) := by
    apply List.map_congr_left
    intro f hf
    rw [h f (List.mem_range.1 hf), min_self]
  rw [this]
  simp

theorem mab_linear_minmax_ok (hA : ArgsOK A) (hT : TrainOK A) (hs : A.cfg.solver = .mab) (hb : A.cfg.binType = some .linear)
    {mins maxs : List K} (hmm : A.cfg.minmax = some (mins, maxs)) (hvar : ∀ j ∈ A.cols, mins.getD j 0 < maxs.getD j 0)
    (hlog : A.cfg.useLog = false) (hB : ∃ B, A.cfg.numBins = some B ∧ 6 ≤ B) (hbatch : 0 < A.cfg.batch)
    (hent : A.cfg.criterion = .entropy → A.labels.dedup.length ≤ 2) : SolverTotal R mem A ∧ SolverSeparates R mem A := by
  obtain ⟨B, hB, hB6⟩ := hB
  have bins : ∀ (dd : DiscDict K) (t0 t : Tree K G), GrowFacts R mem A dd t0 t → ∀ (id : Nat) (nd : Node K) (nb : Option Nat),
      NodeAt t id nd → CanSplit t.cfg A.labels nd → nodeBins t.cfg nd = .ok nb → nb = some B := by
    intro dd t0 t h id nd nb hn hcan hnb
    rcases h.bins_node hn hcan hnb with ⟨h1, h2⟩ | ⟨h1, _⟩
    · exact h2.trans hB
    · rw [hlog] at h1; cases h1
  have many : ∀ (row : List K) (nd : Node K), nd.featIdcs ≠ [] → row.length = nd.featIdcs.length → 5 < row.length * B := by
    intro row nd hfe hlen
    have := List.length_pos_iff.2 hfe
    rw [hlen]
    nlinarith
  constructor
  · intro dd t0 t h id nd nb hn hcan hnb g glob junk budget
    obtain ⟨hfe, row, rest, hdata, hlen, hrect, hlab⟩ := h.node_data hT hn hcan.rows_ne
    obtain rfl := bins _ _ _ h id nd nb hn hcan hnb
    have hbin := h.binning_of hA hn hcan hnb B (Or.inr rfl)
    rw [hb] at hbin
    have hok := h.nodes _ _ hn
    obtain ⟨hists, hmake⟩ := makeHistograms_total (R := R) (g := glob.np) (isCls := A.cfg.isCls) (labels := labelsOf A.labels nd.idcs)
      (d := nd.discrete) (B := B) (by simp) (fun r hr => (hrect r hr).ge) (minmax := nd.minmax) (fun mins maxs hm => by
        have := nodeMinmax_len hok.minmax_eq mins maxs hm
        rw [hlen]
        exact ⟨this.1.ge, this.2.ge⟩) (t := .linear)
    have hnum := numCands_full (h.minmax_edges hmm hvar hn hlen hbin hmake)
    obtain ⟨out, hout⟩ := C27_mab_partial R g glob junk row rest (labelsOf A.labels nd.idcs) nd.minmax nd.discrete .linear B A.cfg.isCls
      A.cfg.criterion (nodeEpsilon A.cfg { nd with numBins := some B }) A.cfg.withRep budget A.cfg.batch hists hA.crit
      (fun he => le_trans (h.dedup_le hn) (hent he)) hbin (by simp) (by simp) hrect hlab hbatch hmake (by rw [hnum]; exact many row nd hfe hlen)
    unfold nodeSolve
    rw [hs, hb, hdata]
    simp only []
    rw [hout]
    exact ⟨_, _, _, _, rfl⟩
  · refine mab_separates hA hT hs ?_
    intro dd t0 t h id nd B' hn hcan hnb row rest g hh hdata hlen hbin hmake
    have := bins _ _ _ h id nd _ hn hcan hnb
    obtain rfl := Option.some.inj this
    obtain ⟨hfe, _⟩ := h.node_data hT hn hcan.rows_ne
    rw [hb] at hbin hmake
    rw [numCands_full (h.minmax_edges hmm hvar hn hlen hbin hmake)]
    exact many row nd hfe hlen

theorem random_edges {row : List K} {rest : List (List K)} {labels : List K} {B : Nat} {g : G} {isCls : Bool} {hs : Hists K G}
    {mm : Option (List K × List K)} {d : DiscDict K} (hb : BinningOK mm d (some .random) B)
    (hmake : makeHistograms R g isCls (row :: rest) labels mm d (some .random) B = .ok hs) :
    ∀ f < row.length, (edgesOf hs.hists f).length = B := by
  intro f hf
  obtain ⟨_, _, _, _, h, _⟩ := (C13_candidates_random R g isCls row rest labels mm d B hs hb hmake).2 f hf
  exact h

theorem exact_random_any_total (hA : ArgsOK A) (hT : TrainOK A) (hs : A.cfg.solver = .exact) (hb : A.cfg.binType = some .random)
    (hB : A.cfg.useLog = true ∨ ∃ B, A.cfg.numBins = some B ∧ 1 ≤ B)
    (hent : A.cfg.criterion = .entropy → A.labels.dedup.length ≤ 2) : SolverTotal R mem A := by
  intro dd t0 t h id nd nb hn hcan hnb g glob junk budget
  obtain ⟨hfe, row, rest, hdata, hlen, hrect, hlab⟩ := h.node_data hT hn hcan.rows_ne
  have hnb' : ∃ B, nb = some B ∧ 1 ≤ B := by
    rcases h.bins_node hn hcan hnb with ⟨h1, h2⟩ | ⟨_, B, h2, h3⟩
    · rcases hB with hB | ⟨B, h3, h4⟩
      · rw [h1] at hB; cases hB
      · exact ⟨B, h2.trans h3, h4⟩
    · exact ⟨B, h2, by omega⟩
  obtain ⟨B, rfl, hB2⟩ := hnb'
  have hbin := h.binning_of hA hn hcan hnb B (Or.inr rfl)
  rw [hb] at hbin
  have hrect' : ∀ r ∈ rest, row.length ≤ r.length := fun r hr => (hrect r hr).ge
  have hok := h.nodes _ _ hn
  obtain ⟨hists, hmake⟩ := makeHistograms_total (R := R) (g := glob.np) (isCls := A.cfg.isCls) (labels := labelsOf A.labels nd.idcs)
    (d := nd.discrete) (B := B) (by simp) hrect' (minmax := nd.minmax) (fun mins maxs hm => by
      have := nodeMinmax_len hok.minmax_eq mins maxs hm
      rw [hlen]
      exact ⟨this.1.ge, this.2.ge⟩) (t := .random)
  have hF' : 0 < row.length := by
    rw [hlen]
    exact List.length_pos_iff.2 hfe
  obtain ⟨r, q, g', hex⟩ := solveExactly_total junk.est hA.crit
    (fun he => by rw [(npUnique_perm _).length_eq]; exact le_trans (h.dedup_le hn) (hent he)) (by simp)
    (B := B) (numBins := some B) (by simp [exactBins]) hbin hrect' hlab.ge hmake ⟨0, hF', fun h0 => by
      have := random_edges hbin hmake 0 hF'
      rw [h0] at this
      simp at this
      omega⟩
  unfold nodeSolve
  rw [hs, hb, hdata]
  simp only []
  rw [hex]
  exact ⟨_, _, _, _, rfl⟩

theorem mab_random_any_ok (hA : ArgsOK A) (hT : TrainOK A) (hs : A.cfg.solver = .mab) (hb : A.cfg.binType = some .random)
    (hlog : A.cfg.useLog = false) (hB : ∃ B, A.cfg.numBins = some B ∧ 6 ≤ B) (hbatch : 0 < A.cfg.batch)
    (hent : A.cfg.criterion = .entropy → A.labels.dedup.length ≤ 2) : SolverTotal R mem A ∧ SolverSeparates R mem A := by
  obtain ⟨B, hB, hB6⟩ := hB
  have bins : ∀ (dd : DiscDict K) (t0 t : Tree K G), GrowFacts R mem A dd t0 t → ∀ (id : Nat) (nd : Node K) (nb : Option Nat),
      NodeAt t id nd → CanSplit t.cfg A.labels nd → nodeBins t.cfg nd = .ok nb → nb = some B := by
    intro dd t0 t h id nd nb hn hcan hnb
    rcases h.bins_node hn hcan hnb with ⟨h1, h2⟩ | ⟨h1, _⟩
    · exact h2.trans hB
    · rw [hlog] at h1; cases h1
  have many : ∀ (row : List K) (nd : Node K), nd.featIdcs ≠ [] → row.length = nd.featIdcs.length → 5 < row.length * B := by
    intro row nd hfe hlen
    have := List.length_pos_iff.2 hfe
    rw [hlen]
    nlinarith
  constructor
  · intro dd t0 t h id nd nb hn hcan hnb g glob junk budget
    obtain ⟨hfe, row, rest, hdata, hlen, hrect, hlab⟩ := h.node_data hT hn hcan.rows_ne
    obtain rfl := bins _ _ _ h id nd nb hn hcan hnb
    have hbin := h.binning_of hA hn hcan hnb B (Or.inr rfl)
    rw [hb] at hbin
    have hok := h.nodes _ _ hn
    obtain ⟨hists, hmake⟩ := makeHistograms_total (R := R) (g := glob.np) (isCls := A.cfg.isCls) (labels := labelsOf A.labels nd.idcs)
      (d := nd.discrete) (B := B) (by simp) (fun r hr => (hrect r hr).ge) (minmax := nd.minmax) (fun mins maxs hm => by
        have := nodeMinmax_len hok.minmax_eq mins maxs hm
        rw [hlen]
        exact ⟨this.1.ge, this.2.ge⟩) (t := .random)
    have hnum := numCands_full (random_edges hbin hmake)
    obtain ⟨out, hout⟩ := C27_mab_partial R g glob junk row rest (labelsOf A.labels nd.idcs) nd.minmax nd.discrete .random B A.cfg.isCls
      A.cfg.criterion (nodeEpsilon A.cfg { nd with numBins := some B }) A.cfg.withRep budget A.cfg.batch hists hA.crit
      (fun he => le_trans (h.dedup_le hn) (hent he)) hbin (by simp) (by simp) hrect hlab hbatch hmake (by rw [hnum]; exact many row nd hfe hlen)
    unfold nodeSolve
    rw [hs, hb, hdata]
    simp only []
    rw [hout]
    exact ⟨_, _, _, _, rfl⟩
  · refine mab_separates hA hT hs ?_
    intro dd t0 t h id nd B' hn hcan hnb row rest g hh hdata hlen hbin hmake
    have := bins _ _ _ h id nd _ hn hcan hnb
    obtain rfl := Option.some.inj this
    obtain ⟨hfe, _⟩ := h.node_data hT hn hcan.rows_ne
    rw [hb] at hbin hmake
    rw [numCands_full (random_edges hbin hmake)]
    exact many row nd hfe hlen

end

section
variable {R : Rng K G}

/-- The dictionary of discrete values of a forest object contains only sets made by `data_to_discrete`. -/
def SetsOnly (d : DiscDict K) : Prop := ∀ f u, discLookup d f = some u → u.isSet = true

theorem setsOnly_maybe {b : Bool} {data : List (List K)} {d d' : DiscDict K} (hd : SetsOnly d) (h : maybeDiscrete b data d = .ok d') :
    SetsOnly d' := by
  unfold maybeDiscrete at h
  split at h
  · split at h
    · cases h
    · next dd hdd =>
      cases h
      intro f u hu
      exact dataToDiscrete_set hdd hu
  · cases h
    exact hd

theorem ForestObj.facts2 {cfg : ForestCfg K} {budget : Option Int} {f : Forest K G} (h : ForestObj R cfg budget f) :
    SetsOnly f.discrete ∧ (f.cfg.precompMinmax = false → f.minmax = none) ∧ (f.cfg.boosting = true → f.cfg.isCls = false) := by
  induction h with
  | new h =>
    unfold Forest.init at h
    simp only [] at h
    split_ifs at h with h1 h2
    all_goals
      cases h
      refine ⟨fun f u hu => (by cases hu), fun _ => rfl, fun hb => ?_⟩
      simp only [] at hb ⊢
      simp_all
  | fit _ hf ih =>
    obtain ⟨dat, f0, w0, hs, hl⟩ := Forest_fit_start hf
    obtain ⟨l, hr⟩ := forestLoop_run hl
    obtain ⟨i1, i2, i3⟩ := ih
    rw [hr.same, hs.eq]
    refine ⟨setsOnly_maybe i1 hs.disc, fun hp => ?_, i3⟩
    simp only [] at hp ⊢
    rw [if_neg (by simp [hp])]
    exact i2 hp
  | predict _ hf ih =>
    obtain ⟨ts, rfl, h2⟩ := Forest_predict_same hf
    exact ih
  | oob _ hf ih =>
    obtain ⟨ts, rfl, h2⟩ := Forest_oob_same hf
    exact ih
  | mdi _ hf ih =>
    rw [Forest_mdi_same hf]
    exact ih
  | reset b _ ih => exact ih

theorem colMinMax_le {data : List (List K)} (hne : data ≠ []) {F : Nat} {mins maxs : List K} (h : colMinMax data F = (mins, maxs)) (j : Nat)
    {lo hi : K} (h1 : mins[j]? = some lo) (h2 : maxs[j]? = some hi) :
    lo ≤ hi ∧ ((∃ r ∈ data, ∃ s ∈ data, r.getD j 0 ≠ s.getD j 0) → lo < hi) := by
  unfold colMinMax at h
  cases h
  rw [List.getElem?_map] at h1 h2
  cases hj : (List.range F)[j]? with
  | none => rw [hj] at h1; cases h1
  | some k =>
    rw [hj] at h1 h2
    have hk : k = j := by
      rw [List.getElem?_eq_some_iff] at hj
      obtain ⟨_, hj⟩ := hj
      simpa using hj.symm
    subst hk
    have hne' : data.map (fun r => r.getD k 0) ≠ [] := by simpa using hne
    obtain ⟨a, ha⟩ := npMin_isSome hne'
    obtain ⟨b, hb⟩ := npMax_isSome hne'
    simp only [Option.map_some, Option.some.injEq, ha, hb, Option.getD_some] at h1 h2
    subst h1
    subst h2
    refine ⟨npMin_le_npMax ha hb, ?_⟩
    rintro ⟨r, hr, s, hs, hrs⟩
    by_contra hle
    apply hrs
    have key : ∀ z ∈ data, z.getD k 0 = a := by
      intro z hz
      have hz' : z.getD k 0 ∈ data.map (fun r => r.getD k 0) := List.mem_map.2 ⟨z, hz, rfl⟩
      exact le_antisymm (le_trans (le_npMax hb hz') (not_lt.1 hle)) (npMin_le ha hz')
    rw [key r hr, key s hs]

/-- A subset of `F` columns of size `F` contains all of them. -/
theorem SubsetDrawn.all {n : Nat} {l : List Nat} (h : SubsetDrawn n (1 : K) l) {j : Nat} (hj : j < n) : j ∈ l := by
  have hl : l.length = n := by
    have := h.size
    simp at this
    exact this
  have hsub : l.toFinset ⊆ Finset.range n := by
    intro x hx
    rw [List.mem_toFinset] at hx
    exact Finset.mem_range.2 (h.range x hx)
  have hcard : l.toFinset.card = n := by rw [List.toFinset_card_of_nodup h.distinct, hl]
  have := Finset.eq_of_subset_of_card_le hsub (by rw [hcard, Finset.card_range])
  rw [← List.mem_toFinset, this]
  exact Finset.mem_range.2 hj

/-- Every tree of a forest with solvable settings is fitted. -/
theorem treesTotal_of {f : Forest K G} {data : List (List K)} {labels : List K} {P : List K → Prop}
    (hs : ForestSolvable f.cfg data labels) (hset : SetsOnly f.discrete) (hne : data ≠ [])
    (hrect : ∀ row ∈ data, row.length = (data.getD 0 []).length)
    (hmm : f.minmax = if f.cfg.precompMinmax then some (colMinMax data (data.getD 0 []).length) else none)
    (hP : ∀ l, P l → f.cfg.boosting = false → ∀ i j, l.getD i 0 ≠ l.getD j 0 → labels.getD i 0 ≠ labels.getD j 0) :
    TreesTotal R P f data := by
  intro A hcfg hdata hdisc hPA hT hcols t0 hc memT glob
  have hent : A.cfg.criterion = .entropy → A.labels.dedup.length ≤ 2 := by
    intro he
    rw [hcfg] at he
    unfold Forest.treeCfg at he
    simp only [] at he
    split_ifs at he
  have hA : A.cfg.binType ≠ none → (A.cfg.binType = some .linear → A.cfg.useLog = false → A.cfg.numBins ≠ some 1) → ArgsOK A := by
    intro h0 h1
    refine ⟨?_, ?_, ?_, h1, fun h => absurd h h0⟩
    · rw [hcfg]
      unfold Forest.treeCfg CritFits
      simp only []
      cases f.cfg.isCls <;> simp
    · intro mins maxs hm j lo hi hlo hhi
      rw [hcfg] at hm
      change f.minmax = _ at hm
      rw [hmm] at hm
      split_ifs at hm
      exact (colMinMax_le hne (Option.some.inj hm) j hlo hhi).1
    · intro j u hu hset'
      rw [hdisc] at hu
      rw [hset j u hu] at hset'
      cases hset'
  have hlin : LinearOK f.cfg data labels →
      (∃ mins maxs, A.cfg.minmax = some (mins, maxs) ∧ ∀ j ∈ A.cols, mins.getD j 0 < maxs.getD j 0) ∨
      (A.cfg.minmax = none ∧ A.cfg.featSub = .none ∧ Consistent A) := by
    rintro (⟨h1, h2⟩ | ⟨h1, h2, h3, h4⟩)
    · left
      rw [h1, if_pos rfl] at hmm
      refine ⟨(colMinMax data (data.getD 0 []).length).1, (colMinMax data (data.getD 0 []).length).2, by rw [hcfg]; exact hmm, ?_⟩
      intro j hj
      have hjF := hcols.range j hj
      have g1 : j < (colMinMax data (data.getD 0 []).length).1.length := by simpa only [colMinMax, List.length_map, List.length_range] using hjF
      have g2 : j < (colMinMax data (data.getD 0 []).length).2.length := by simpa only [colMinMax, List.length_map, List.length_range] using hjF
      obtain ⟨_, hlt⟩ := colMinMax_le hne (F := (data.getD 0 []).length) rfl j (List.getElem?_eq_getElem g1) (List.getElem?_eq_getElem g2)
      have := hlt (h2 j hjF)
      rw [List.getD_eq_getElem _ _ g1, List.getD_eq_getElem _ _ g2]
      exact this
    · right
      rw [h1, if_neg (by simp)] at hmm
      refine ⟨by rw [hcfg]; exact hmm, by rw [hcfg]; exact h2, ?_⟩
      intro i hi j hj hne'
      have hi' := hT.rows i hi
      have hj' := hT.rows j hj
      rw [hdata] at hi' hj' ⊢
      have hrows : data.getD i [] ≠ data.getD j [] := by
        rcases h4 with h4 | ⟨h4, h5⟩
        · intro he
          rw [List.getD_eq_getElem _ _ hi', List.getD_eq_getElem _ _ hj'] at he
          exact hne' (by rw [(List.Nodup.getElem_inj_iff h4).1 he])
        · exact h5 i j hi' hj' (hP _ hPA h4 i j hne')
      by_contra hall
      apply hrows
      have e1 : (data.getD i []).length = (data.getD 0 []).length := by
        rw [List.getD_eq_getElem _ _ hi']; exact hrect _ (List.getElem_mem hi')
      have e2 : (data.getD j []).length = (data.getD 0 []).length := by
        rw [List.getD_eq_getElem _ _ hj']; exact hrect _ (List.getElem_mem hj')
      apply List.ext_getElem (by rw [e1, e2])
      intro c hc1 hc2
      by_contra hcc
      apply hall
      refine ⟨c, ?_, ?_⟩
      · rw [h3] at hcols
        exact hcols.all (by omega)
      · rw [List.getD_eq_getElem _ _ hc1, List.getD_eq_getElem _ _ hc2]
        exact hcc
  have hsol : A.cfg.solver = f.cfg.solver := by rw [hcfg]; rfl
  have hbt : A.cfg.binType = f.cfg.binType := by rw [hcfg]; rfl
  have hul : A.cfg.useLog = f.cfg.useLog := by rw [hcfg]; rfl
  have hnb : A.cfg.numBins = f.cfg.numBins := by rw [hcfg]; rfl
  have hba : A.cfg.batch = f.cfg.batch := by rw [hcfg]; rfl
  unfold ForestSolvable at hs
  rw [← hsol, ← hbt, ← hul, ← hnb, ← hba] at hs
  split at hs
  · next e1 e2 =>
    have hA' := hA (by rw [e2]; simp) (by rw [e2]; simp)
    exact fit_total hT (identity_total hA' hT e1 e2 hent) (exact_separates hA' e1) hc glob
  · next e1 e2 =>
    have hA' := hA (by rw [e2]; simp) (by rw [e2]; simp)
    exact fit_total hT (exact_random_any_total hA' hT e1 e2 hs hent) (exact_separates hA' e1) hc glob
  · next e1 e2 =>
    obtain ⟨hB, hl⟩ := hs
    have hA' := hA (by rw [e2]; simp) (fun _ hlog h1 => by
      rcases hB with hB | ⟨B, hB, hB2⟩
      · rw [hlog] at hB; cases hB
      · rw [hB] at h1; cases h1; omega)
    rcases hlin hl with ⟨mins, maxs, h1, h2⟩ | ⟨h1, h2, h3⟩
    · exact fit_total hT (exact_linear_minmax_total hA' hT e1 e2 h1 h2 hB hent) (exact_separates hA' e1) hc glob
    · exact fit_total hT (exact_linear_total hA' hT e1 e2 h1 h2 h3 hB hent) (exact_separates hA' e1) hc glob
  · next e1 e2 =>
    obtain ⟨hlog, hB, hbatch⟩ := hs
    have hA' := hA (by rw [e2]; simp) (by rw [e2]; simp)
    obtain ⟨a, b⟩ := mab_random_any_ok (R := R) (mem := memT) hA' hT e1 e2 hlog hB hbatch hent
    exact fit_total hT a b hc glob
  · next e1 e2 =>
    obtain ⟨hlog, hB, hbatch, hl⟩ := hs
    have hA' := hA (by rw [e2]; simp) (fun _ _ h1 => by
      obtain ⟨B, hB, hB2⟩ := hB
      rw [hB] at h1; cases h1; omega)
    rcases hlin hl with ⟨mins, maxs, h1, h2⟩ | ⟨h1, h2, h3⟩
    · obtain ⟨a, b⟩ := mab_linear_minmax_ok (R := R) (mem := memT) hA' hT e1 e2 h1 h2 hlog hB hbatch hent
      exact fit_total hT a b hc glob
    · obtain ⟨a, b⟩ := mab_linear_ok (R := R) (mem := memT) hA' hT e1 e2 h1 h2 h3 hlog hB hbatch hent
      exact fit_total hT a b hc glob
  · exact hs.elim

theorem getD_map_ne {l : List K} {g : K → K} {i j : Nat} (h0 : g 0 = 0) (h : (l.map g).getD i 0 ≠ (l.map g).getD j 0) :
    l.getD i 0 ≠ l.getD j 0 := by
  intro he
  apply h
  have key : ∀ n, (l.map g).getD n 0 = g (l.getD n 0) := by
    intro n
    rw [List.getD_eq_getElem?_getD, List.getD_eq_getElem?_getD, List.getElem?_map]
    cases l[n]? <;> simp [h0]
  rw [key, key, he]

theorem forest_total_aux {mem : Nat → Nat → Junk K} {cfg0 : ForestCfg K} {budget : Option Int} {f : Forest K G}
    (hobj : ForestObj R cfg0 budget f) {w : World K G} {dat : Option (List (List K))}
    {labels : Option Nat} {data : List (List K)} {ref : Nat} (hboth : dat = none ↔ labels = none)
    (ha : labels.or f.orgRef = some ref) (hb : labels.or f.newRef = some ref) (hd : dat.or f.data = some data)
    (hok : ForestTrainOK f.cfg f.classes data (w.arrays.getD ref []))
    (hsolv : ForestSolvable f.cfg data (w.arrays.getD ref [])) :
    ∃ f' w', Forest.fit R mem f w dat labels = .ok (f', w') := by
  obtain ⟨hset, hmm, hbc⟩ := hobj.facts2
  have htd : trainData f dat = data := by
    unfold trainData
    cases dat with
    | none =>
      rw [Option.none_or] at hd
      rw [hd]
      rfl
    | some d => cases hd; rfl
  have htl : trainLabels f w labels = w.arrays.getD ref [] := by
    unfold trainLabels
    rw [ha]
  refine Forest_fit_total (ra := ref) (rb := ref)
    (P := fun l => f.cfg.boosting = true ∨ ∀ i j, l.getD i 0 ≠ l.getD j 0 → (w.arrays.getD ref []).getD i 0 ≠ (w.arrays.getD ref []).getD j 0)
    (fun h _ => Or.inl h) ?_ hboth ha hb ?_ (htd ▸ hok) (fun _ => htd ▸ hok) hbc hmm ?_
  · right
    unfold treeLabels
    rw [htl]
    intro i j hij
    split_ifs at hij
    · exact getD_map_ne (by simp [truncInt]) hij
    · exact hij
  · intro h1 h2
    rw [h1, h2] at hd
    cases hd
  · intro f0 e1 e2 e3 e4
    rw [htd] at e3 e4 ⊢
    refine treesTotal_of (labels := w.arrays.getD ref []) (by rw [e1]; exact hsolv) (setsOnly_maybe hset e4) hok.data_ne hok.rect
      (by rw [e1]; exact e3) ?_
    intro l hl hbf i j hij
    rw [e1] at hbf
    rcases hl with hl | hl
    · rw [hbf] at hl; cases hl
    · exact hl i j hij

end

section
variable (R : Rng K G) (mem : Nat → Nat → Junk K)

/-- C85, data passed to `fit`. For a forest object in any state — just built, already fitted, read or reset — fitting it to a valid
training set with solvable settings succeeds, whatever the budget, the random draws and the contents of uninitialised memory. -/
theorem C85_fit_passed (cfg : ForestCfg K) (budget : Option Int) (f : Forest K G) (hobj : ForestObj R cfg budget f) (w : World K G)
    (data : List (List K)) (ref : Nat) (hok : ForestTrainOK f.cfg f.classes data (w.arrays.getD ref []))
    (hsolv : ForestSolvable f.cfg data (w.arrays.getD ref [])) :
    ∃ f' w', Forest.fit R mem f w (some data) (some ref) = .ok (f', w') :=
  forest_total_aux hobj (by simp) rfl rfl rfl hok hsolv

/-- C85, data passed to the constructor. A forest built from a valid training set — for classification with labels that are whole numbers —
with solvable settings is built, and `fit()` succeeds. -/
theorem C85_constructed (cfg : ForestCfg K) (budget : Option Int) (w : World K G) (data : List (List K)) (ref : Nat)
    (hlr : cfg.boosting = true → cfg.boostingLr ≠ none ∧ cfg.isCls = false) (hoob : cfg.oobScore = true → cfg.bootstrap = true)
    (hint : cfg.isCls = true → ∀ y ∈ w.arrays.getD ref [], ∃ n : Int, y = n)
    (hok : ForestDataOK cfg data (w.arrays.getD ref [])) (hsolv : ForestSolvable cfg data (w.arrays.getD ref [])) :
    ∃ f w1 f' w', Forest.init R w cfg none (some data) (some ref) budget = .ok (f, w1) ∧ Forest.fit R mem f w1 none none = .ok (f', w') := by
  have hinit : ∃ f w1, Forest.init R w cfg none (some data) (some ref) budget = .ok (f, w1) ∧
      (cfg.isCls = true → f.classes = classToIdx (npUnique (w.arrays.getD ref []))) := by
    unfold Forest.init
    simp only []
    rw [if_neg (fun h => (hlr h.1).1 h.2), if_neg (fun h => by rw [(hlr h.1).2] at h; cases h.2),
      if_neg (fun h => h.2 (hoob h.1))]
    exact ⟨_, _, rfl, fun h => by simp [h]⟩
  obtain ⟨f, w1, hi, hcl⟩ := hinit
  obtain ⟨e1, _, _, _, _, e2, e3, e4, _, e5⟩ := Forest_init_fields hi
  have harr : w1.arrays = w.arrays := by rw [e5]
  have hdat : ForestDataOK f.cfg data (w1.arrays.getD ref []) := by
    rw [e1, harr]
    exact ⟨hok.data_ne, hok.rect, hok.lens, hok.depth, hok.leaves, hok.alphaN, hok.alphaF, hok.featSub⟩
  have hsolv' : ForestSolvable f.cfg data (w1.arrays.getD ref []) := by
    rw [e1, harr]
    exact hsolv
  have hcls : f.cfg.isCls = cfg.isCls := by rw [e1]
  obtain ⟨f', w', hfit⟩ := forest_total_aux (mem := mem) (.new hi) (w := w1) (dat := none) (labels := none) (ref := ref) (data := data)
    (by simp) (by simpa using e2) (by simpa using e3) (by simpa using e4) ⟨hdat, fun hc => by
      rw [hcls] at hc
      rw [hcl hc, harr, classToIdx_fst]
      refine ⟨classToIdx_ok (npUnique_nodup _), ?_⟩
      intro y hy
      obtain ⟨n, rfl⟩ := hint hc y hy
      rw [mem_npUnique]
      have : truncInt (n : K) = n := by
        unfold truncInt
        split_ifs <;> simp
      rw [this]
      exact hy⟩ hsolv'
  exact ⟨f, w1, f', w', hi, hfit⟩

/-- The example forests meet the hypotheses. -/
example : ForestDataOK fcfgQ exData (exWorld.arrays.getD 0 []) ∧ ForestSolvable fcfgQ exData (exWorld.arrays.getD 0 []) ∧
    ∀ y ∈ exWorld.arrays.getD 0 [], ∃ n : Int, y = n := by
  refine ⟨⟨by decide, by decide, by decide, by decide, fun m h => (by cases h), by decide +kernel, by decide +kernel, fun _ _ => trivial⟩, trivial, ?_⟩
  have h : ∀ y ∈ exWorld.arrays.getD 0 [], y = 0 ∨ y = 1 := by decide +kernel
  intro y hy
  rcases h y hy with rfl | rfl
  · exact ⟨0, by simp⟩
  · exact ⟨1, by simp⟩

/-- So does a boosted regression forest with the bandit solver and six LINEAR bins. -/
example :
    let cfg : ForestCfg ℚ := { fcfgBoost with solver := .mab, binType := some .linear, numBins := some 6 }
    ForestDataOK cfg exData (exWorldReg.arrays.getD 0 []) ∧ ForestSolvable cfg exData (exWorldReg.arrays.getD 0 []) := by
  refine ⟨⟨by decide, by decide, by decide, by decide, fun m h => (by cases h), by decide +kernel, by decide +kernel, fun _ _ => trivial⟩,
    rfl, ⟨6, rfl, le_refl _⟩, by decide, Or.inr ⟨rfl, rfl, rfl, Or.inl (by decide +kernel)⟩⟩

/-- C85, why boosting needs different rows: rows that are equal and have equal labels are a valid training set for a forest without boosting,
but with boosting and bootstrapping only the sampled rows get new targets, so that the second tree sees equal rows with different labels and
LINEAR bins leave nothing to split on. -/
theorem C85_duplicate_rows :
    let data : List (List ℚ) := [[0], [0], [0], [1], [1], [1]]
    let w : World ℚ Nat := { glob := ⟨0, 0⟩, arrays := [[1, 1, 1, 2, 2, 2]] }
    let cfg : ForestCfg ℚ := { fcfgBoost with bootstrap := true, binType := some .linear, numBins := some 3 }
    (∀ i < 6, ∀ j < 6, (w.arrays.getD 0 []).getD i 0 ≠ (w.arrays.getD 0 []).getD j 0 → data.getD i [] ≠ data.getD j []) ∧
    (runForest rngQ exMems w { cfg with nEstimators := 1 } data 0 none).toOption.map (fun r => r.2.arrays) = some [[0, 0, 1, 0, 0, 2]] ∧
    (runForest rngQ exMems w { cfg with boosting := false } data 0 none).toOption.isSome = true ∧
    (match runForest rngQ exMems w cfg data 0 none with | .error .indexError => true | _ => false) = true := by
  decide +kernel

end

end FF
