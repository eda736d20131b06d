import Verif.Proofs.Threshold
import Verif.Model.Instances

/-!
# Properties C13–C17 and the exact part of C27
-/

namespace FF

open Spec

set_option linter.unusedSectionVars false

variable {K : Type} [Field K] [LinearOrder K] [IsStrictOrderedRing K] [FloorRing K] [NpFun K] {G : Type}

section
variable {R : Rng K G} {isCls : Bool} {data : List (List K)} {classes : List K}
    {minmax : Option (List K × List K)} {d : DiscDict K} {binType : Option BinType} {F B : Nat} {hs : Hists K G}

theorem HistsGood.cand_mem (hg : HistsGood R isCls data classes minmax d binType F B hs) {f b : Nat} {v : K}
    (h : IsCand hs.hists B f b v) : (f, b) ∈ candArms F B hs ∧ (edgesOf hs.hists f).getD b 0 = v := by
  obtain ⟨h1, h2⟩ := h
  have hb := (List.getElem?_eq_some_iff.1 h1).1
  have hf : f < F := by
    rw [← hg.len]
    by_contra hc
    unfold edgesOf at hb
    rw [List.getElem?_eq_none (by omega)] at hb
    simp at hb
  refine ⟨?_, by rw [List.getD_eq_getElem?_getD, h1]; rfl⟩
  rcases hg.mem_cands_or (a := (f, b)) (mem_allArms.2 ⟨hf, h2⟩) with h3 | h3
  · exact h3.1
  · have := (hg.mem_notCons.1 h3.1).2.1
    simp only [] at this
    omega

theorem HistsGood.mem_cand (hg : HistsGood R isCls data classes minmax d binType F B hs) {a : Arm}
    (ha : a ∈ candArms F B hs) (hB : a.2 < B) : IsCand hs.hists B a.1 a.2 ((edgesOf hs.hists a.1).getD a.2 0) := by
  have := (hg.cands_valid a ha).2
  refine ⟨?_, hB⟩
  rw [List.getElem?_eq_getElem this, List.getD_eq_getElem _ _ this]
end

/-- C13. If `solve_exactly` returns a split, its threshold is a bin edge of its feature, the reported reduction is negative and
is the true change of the weighted impurity of the node at that threshold, no candidate has a smaller change, and every
candidate that comes earlier in (feature, edge) order has a strictly larger one. For both task types and all bin types. -/
theorem C13_exact_best (R : Rng K G) (g g' : G) (junk : Mat K) (data : List (List K)) (labels : List K)
    (minmax : Option (List K × List K)) (d : DiscDict K) (binType : Option BinType) (numBins : Option Nat)
    (isCls : Bool) (m : Criterion) (r : SplitRes K) (nq : Nat)
    (hm : CritFits isCls m) (hb : ∀ B, exactBins data binType numBins = some B → BinningOK minmax d binType B)
    (hok : solveExactly R g junk data labels minmax d binType numBins isCls m = .ok (some r, nq, g')) :
    ∃ B hs b, exactBins data binType numBins = some B ∧
      makeHistograms R g isCls data labels minmax d binType B = .ok hs ∧
      IsCand hs.hists B r.feat b r.value ∧
      r.red = .fin (change (critImp m) (nodeSamples data labels r.feat) r.value) ∧
      change (critImp m) (nodeSamples data labels r.feat) r.value < 0 ∧
      ∀ f b' v, IsCand hs.hists B f b' v →
        change (critImp m) (nodeSamples data labels r.feat) r.value ≤ change (critImp m) (nodeSamples data labels f) v ∧
        (f < r.feat ∨ (f = r.feat ∧ b' < b) →
          change (critImp m) (nodeSamples data labels r.feat) r.value < change (critImp m) (nodeSamples data labels f) v) := by
  obtain ⟨row, rest, B, hs, arm, hdata, hrun⟩ := solveExactly_run hm hb hok
  have hres := hrun.result
  split_ifs at hres with hneg
  cases hres
  refine ⟨B, hs, arm.2, hrun.bins, hrun.make, hrun.good.mem_cand hrun.arm_mem (hrun.inside _ hrun.arm_mem).2, rfl, hneg, ?_⟩
  intro f b' v hc
  obtain ⟨h1, h2⟩ := hrun.good.cand_mem hc
  have e : change (critImp m) (nodeSamples data labels f) v = armChange data labels (edgesOf hs.hists) m (f, b') := by
    unfold armChange; rw [h2]
  rw [e]
  exact ⟨hrun.best _ h1, fun hlt => hrun.first _ h1 hlt⟩

/-- Two classes, LINEAR bins: the hypotheses of C13 hold and the solver returns a split. -/
example : (∀ B, exactBins (K := ℚ) [[0, 1], [1, 1], [2, 5], [3, 5], [4, 2], [5, 2]] (some .linear) (some 4) = some B →
      BinningOK (K := ℚ) none none (some .linear) B) ∧
    (solveExactly rngQ 0 (fun _ => .nan) [[0, 1], [1, 1], [2, 5], [3, 5], [4, 2], [5, 2]] [0, 0, 1, 1, 0, 1] none none
      (some .linear) (some 4) true .gini).toOption = some (some ⟨0, 5 / 3, .fin (-1 / 4)⟩, 12, 0) := by
  refine ⟨?_, by decide +kernel⟩
  intro B hB
  simp [exactBins] at hB
  subst hB
  exact ⟨by simp, by simp [discLookup], by simp, by simp⟩

/-- The candidates of C13 with IDENTITY bins are the distinct values of the feature, in increasing order. -/
theorem C13_candidates_identity (R : Rng K G) (g : G) (isCls : Bool) (row : List K) (rest : List (List K)) (labels : List K)
    (minmax : Option (List K × List K)) (d : DiscDict K) (B : Nat) (hs : Hists K G)
    (hb : BinningOK minmax d (some .identity) B)
    (hok : makeHistograms R g isCls (row :: rest) labels minmax d (some .identity) B = .ok hs) :
    hs.hists.length = row.length ∧ ∀ f < row.length,
      edgesOf hs.hists f = ((row :: rest).map (fun r => r.getD f 0)).dedup.insertionSort (· ≤ ·) := by
  have hg := makeHistograms_good hb hok
  refine ⟨hg.len, fun f hf => ?_⟩
  have hlt : f < hs.hists.length := by rw [hg.len]; exact hf
  have hget : hs.hists[f]? = some hs.hists[f] := List.getElem?_eq_getElem hlt
  unfold edgesOf
  rw [hget]
  simp only [(hg.made f _ hget).identity.1]
  rfl

/-- The candidates of C13 with LINEAR bins: `B` evenly spaced edges from the smallest to the largest value of the feature (or
the precomputed bounds), none if these are equal. -/
theorem C13_candidates_linear (R : Rng K G) (g : G) (isCls : Bool) (row : List K) (rest : List (List K)) (labels : List K)
    (minmax : Option (List K × List K)) (d : DiscDict K) (B : Nat) (hs : Hists K G)
    (hb : BinningOK minmax d (some .linear) B)
    (hok : makeHistograms R g isCls (row :: rest) labels minmax d (some .linear) B = .ok hs) :
    hs.hists.length = row.length ∧ ∀ f < row.length, ∃ lo hi,
      (minmax = none → npMin ((row :: rest).map (fun r => r.getD f 0)) = some lo ∧
        npMax ((row :: rest).map (fun r => r.getD f 0)) = some hi) ∧
      (∀ mins maxs, minmax = some (mins, maxs) → mins[f]? = some lo ∧ maxs[f]? = some hi) ∧
      edgesOf hs.hists f = if lo = hi then [] else
        (List.range B).map (fun (i : Nat) => lo + (i : K) * ((hi - lo) / ((B : K) - 1))) := by
  have hg := makeHistograms_good hb hok
  refine ⟨hg.len, fun f hf => ?_⟩
  have hlt : f < hs.hists.length := by rw [hg.len]; exact hf
  have hget : hs.hists[f]? = some hs.hists[f] := List.getElem?_eq_getElem hlt
  obtain ⟨_, lo, hi, h1, h2, he⟩ := (hg.made f _ hget).linear
  refine ⟨lo, hi, h1, h2, ?_⟩
  unfold edgesOf
  rw [hget]
  simp only [he]
  have hB1 := hb.linear_bins rfl
  split
  · rfl
  · simp [linspace, hB1]

/-- The candidates of C13 with RANDOM bins: `B` sorted edges between the smallest and the largest value of the feature. -/
theorem C13_candidates_random (R : Rng K G) (g : G) (isCls : Bool) (row : List K) (rest : List (List K)) (labels : List K)
    (minmax : Option (List K × List K)) (d : DiscDict K) (B : Nat) (hs : Hists K G)
    (hb : BinningOK minmax d (some .random) B)
    (hok : makeHistograms R g isCls (row :: rest) labels minmax d (some .random) B = .ok hs) :
    hs.hists.length = row.length ∧ ∀ f < row.length, ∃ lo hi,
      npMin ((row :: rest).map (fun r => r.getD f 0)) = some lo ∧ npMax ((row :: rest).map (fun r => r.getD f 0)) = some hi ∧
      (edgesOf hs.hists f).length = B ∧ (edgesOf hs.hists f).Pairwise (· ≤ ·) ∧
      ∀ e ∈ edgesOf hs.hists f, lo ≤ e ∧ e ≤ hi := by
  have hg := makeHistograms_good hb hok
  refine ⟨hg.len, fun f hf => ?_⟩
  have hlt : f < hs.hists.length := by rw [hg.len]; exact hf
  have hget : hs.hists[f]? = some hs.hists[f] := List.getElem?_eq_getElem hlt
  obtain ⟨_, lo, hi, es, h1, h2, he, h4, h5, h6⟩ := (hg.made f _ hget).random
  have : edgesOf hs.hists f = es := by
    unfold edgesOf
    rw [hget]
    simp only [he]
    rfl
  rw [this]
  exact ⟨lo, hi, h1, h2, h4, h5, h6⟩

/-- With IDENTITY bins, whatever bounds below zero every candidate's change bounds every threshold's change. -/
theorem identity_all_thresholds {R : Rng K G} {g g' : G} {data : List (List K)} {labels : List K}
    {minmax : Option (List K × List K)} {d : DiscDict K} {numBins : Option Nat} {isCls : Bool} {m : Criterion}
    {r : Option (SplitRes K)} {nq F B : Nat} {hs : Hists K G} {arm : Arm}
    (hrun : ExactRun R g data labels minmax d (some .identity) numBins isCls m r nq g' F B hs arm) (c : K) (hc : c ≤ 0)
    (hall : ∀ a ∈ candArms F B hs, c ≤ armChange data labels (edgesOf hs.hists) m a) (f : Nat) (hf : f < F) (t : K) :
    c ≤ change (critImp m) (nodeSamples data labels f) t := by
  have hN : 0 < data.length := List.length_pos_of_ne_nil hrun.nonempty
  have hSlen : (nodeSamples data labels f).length = data.length := by
    rw [← nodeSamples_eq hrun.len]; simp
  have hS : nodeSamples data labels f ≠ [] := by
    intro h0; rw [h0] at hSlen; simp at hSlen; omega
  rcases threshold_cases (nodeSamples data labels f) t with h | ⟨v, hv, h⟩
  · have ho : OneSided (nodeSamples data labels f) t := by
      right
      intro s hs'
      by_contra hle
      have : s.2 ∈ labelsLe (nodeSamples data labels f) t := by
        unfold labelsLe
        exact List.mem_map.2 ⟨s, List.mem_filter.2 ⟨hs', by simpa using hle⟩, rfl⟩
      rw [h] at this
      simp at this
    rw [change_oneSided _ hS ho]
    exact hc
  · rw [change_congr (critImp m) h]
    have hg := hrun.good
    have hlt : f < hs.hists.length := by rw [hg.len]; exact hf
    have hget : hs.hists[f]? = some hs.hists[f] := List.getElem?_eq_getElem hlt
    have hE : edgesOf hs.hists f = npUnique (data.map (fun row => row.getD f 0)) := by
      unfold edgesOf
      rw [hget]
      simp only [(hg.made f _ hget).identity.1]
      rfl
    have hcol : (nodeSamples data labels f).map Prod.fst = data.map (fun row => row.getD f 0) := by
      unfold nodeSamples batchSamples
      rw [List.map_fst_zip]
      simpa using hrun.len
    have hvE : v ∈ edgesOf hs.hists f := by
      rw [hE, mem_npUnique, ← hcol]; exact hv
    obtain ⟨b, hb, hbv⟩ := List.getElem_of_mem hvE
    have hB : B = data.length := by
      have := hrun.bins
      simp [exactBins] at this
      exact this.symm
    have hbB : b < B := by
      rw [hB]
      refine lt_of_lt_of_le hb ?_
      rw [hE]
      simpa using npUnique_length_le (data.map (fun row => row.getD f 0))
    obtain ⟨h1, h2⟩ := hg.cand_mem (f := f) (b := b) (v := v) ⟨by rw [List.getElem?_eq_getElem hb, hbv], hbB⟩
    have := hall _ h1
    unfold armChange at this
    rw [h2] at this
    exact this

/-- C14. With IDENTITY binning, no feature and no threshold at all (bin edge or not) has a smaller change of the weighted
impurity than the split `solve_exactly` returns. -/
theorem C14_identity_optimal (R : Rng K G) (g g' : G) (junk : Mat K) (row : List K) (rest : List (List K)) (labels : List K)
    (minmax : Option (List K × List K)) (d : DiscDict K) (numBins : Option Nat) (isCls : Bool) (m : Criterion)
    (r : SplitRes K) (nq : Nat) (hm : CritFits isCls m) (hb : ∀ B, BinningOK minmax d (some .identity) B)
    (hok : solveExactly R g junk (row :: rest) labels minmax d (some .identity) numBins isCls m = .ok (some r, nq, g'))
    (f : Nat) (hf : f < row.length) (t : K) :
    change (critImp m) (nodeSamples (row :: rest) labels r.feat) r.value
      ≤ change (critImp m) (nodeSamples (row :: rest) labels f) t := by
  obtain ⟨row', rest', B, hs, arm, hdata, hrun⟩ := solveExactly_run hm (fun B _ => hb B) hok
  cases hdata
  have hres := hrun.result
  split_ifs at hres with hneg
  cases hres
  exact identity_all_thresholds hrun _ hneg.le hrun.best f hf t

example : (solveExactly rngQ 0 (fun _ => .nan) [[0, 1], [1, 1], [2, 5], [3, 5], [4, 2], [5, 2]] [0, 0, 1, 1, 0, 1] none none
      (some .identity) none true .gini).toOption = some (some ⟨0, 1, .fin (-1 / 4)⟩, 12, 0) ∧
    (solveExactly rngQ 0 (fun _ => .nan) [[0, 1], [1, 1], [2, 5], [3, 5], [4, 2], [5, 2]] [0, 0, 1, 1, 0, 1] none none
      (some .identity) none false .mse).toOption = some (some ⟨0, 1, .fin (-1 / 8)⟩, 12, 0) ∧
    ∀ B, BinningOK (K := ℚ) none none (some .identity) B :=
  ⟨by decide +kernel, by decide +kernel, fun B => ⟨by simp, by simp [discLookup], by simp, by simp⟩⟩

/-- C15. If `solve_exactly` reports no split, no candidate decreases the weighted impurity. -/
theorem C15_no_split (R : Rng K G) (g g' : G) (junk : Mat K) (data : List (List K)) (labels : List K)
    (minmax : Option (List K × List K)) (d : DiscDict K) (binType : Option BinType) (numBins : Option Nat)
    (isCls : Bool) (m : Criterion) (nq : Nat)
    (hm : CritFits isCls m) (hb : ∀ B, exactBins data binType numBins = some B → BinningOK minmax d binType B)
    (hok : solveExactly R g junk data labels minmax d binType numBins isCls m = .ok (none, nq, g')) :
    ∃ B hs, exactBins data binType numBins = some B ∧
      makeHistograms R g isCls data labels minmax d binType B = .ok hs ∧
      ∀ f b v, IsCand hs.hists B f b v → 0 ≤ change (critImp m) (nodeSamples data labels f) v := by
  obtain ⟨row, rest, B, hs, arm, hdata, hrun⟩ := solveExactly_run hm hb hok
  have hres := hrun.result
  split_ifs at hres with hneg
  refine ⟨B, hs, hrun.bins, hrun.make, fun f b v hc => ?_⟩
  obtain ⟨h1, h2⟩ := hrun.good.cand_mem hc
  have e : change (critImp m) (nodeSamples data labels f) v = armChange data labels (edgesOf hs.hists) m (f, b) := by
    unfold armChange; rw [h2]
  rw [e]
  exact le_trans (not_lt.1 hneg) (hrun.best _ h1)

/-- C15 with IDENTITY binning: no threshold on any feature decreases the weighted impurity. -/
theorem C15_no_split_identity (R : Rng K G) (g g' : G) (junk : Mat K) (row : List K) (rest : List (List K)) (labels : List K)
    (minmax : Option (List K × List K)) (d : DiscDict K) (numBins : Option Nat) (isCls : Bool) (m : Criterion)
    (nq : Nat) (hm : CritFits isCls m) (hb : ∀ B, BinningOK minmax d (some .identity) B)
    (hok : solveExactly R g junk (row :: rest) labels minmax d (some .identity) numBins isCls m = .ok (none, nq, g'))
    (f : Nat) (hf : f < row.length) (t : K) :
    0 ≤ change (critImp m) (nodeSamples (row :: rest) labels f) t := by
  obtain ⟨row', rest', B, hs, arm, hdata, hrun⟩ := solveExactly_run hm (fun B _ => hb B) hok
  cases hdata
  have hres := hrun.result
  split_ifs at hres with hneg
  exact identity_all_thresholds hrun 0 (le_refl 0) (fun a ha => le_trans (not_lt.1 hneg) (hrun.best a ha)) f hf t

/-- A node where no split helps: two equal rows with different labels. -/
example : (solveExactly rngQ 0 (fun _ => .nan) [[0, 1], [0, 1]] [0, 1] none none (some .identity) none true .gini).toOption
    = some (none, 4, 0) := by decide +kernel

/-- C16. The query count of `solve_exactly` is the number of datapoints times the number of features that have a bin. -/
theorem C16_exact_cost (R : Rng K G) (g g' : G) (junk : Mat K) (row : List K) (rest : List (List K)) (labels : List K)
    (minmax : Option (List K × List K)) (d : DiscDict K) (binType : Option BinType) (numBins : Option Nat)
    (isCls : Bool) (m : Criterion) (r : Option (SplitRes K)) (nq : Nat)
    (hm : CritFits isCls m) (hb : ∀ B, exactBins (row :: rest) binType numBins = some B → BinningOK minmax d binType B)
    (hok : solveExactly R g junk (row :: rest) labels minmax d binType numBins isCls m = .ok (r, nq, g')) :
    ∃ B hs, exactBins (row :: rest) binType numBins = some B ∧
      makeHistograms R g isCls (row :: rest) labels minmax d binType B = .ok hs ∧
      nq = (row :: rest).length * ((List.range row.length).filter (fun f => !(edgesOf hs.hists f).isEmpty)).length := by
  obtain ⟨row', rest', B, hs, arm, hdata, hrun⟩ := solveExactly_run hm hb hok
  cases hdata
  refine ⟨B, hs, hrun.bins, hrun.make, ?_⟩
  rw [hrun.nq_eq, Nat.mul_comm]
  congr 1
  unfold featCountOf
  have hp : ((candArms row.length B hs).map Prod.fst).dedup.Perm
      ((List.range row.length).filter (fun f => !(edgesOf hs.hists f).isEmpty)) := by
    rw [List.perm_ext_iff_of_nodup (List.nodup_dedup _) (List.nodup_range.filter _)]
    intro f
    rw [List.mem_dedup, List.mem_map, List.mem_filter, List.mem_range]
    constructor
    · rintro ⟨a, ha, rfl⟩
      have hv := hrun.good.cands_valid a ha
      refine ⟨hv.1, ?_⟩
      have hpos : 0 < (edgesOf hs.hists a.1).length := lt_of_le_of_lt (Nat.zero_le _) hv.2
      cases he : edgesOf hs.hists a.1 with
      | nil => rw [he] at hpos; simp at hpos
      | cons => simp
    · rintro ⟨hf, he⟩
      have hB : 0 < B := lt_of_le_of_lt (Nat.zero_le _) (hrun.inside _ hrun.arm_mem).2
      have hne : 0 < (edgesOf hs.hists f).length := by
        apply List.length_pos_of_ne_nil
        rintro h0
        rw [h0] at he
        simp at he
      exact ⟨(f, 0), (hrun.good.cand_mem (v := (edgesOf hs.hists f)[0]) ⟨List.getElem?_eq_getElem hne, hB⟩).1, rfl⟩
  exact hp.length_eq

/-- With a constant feature the count is less than (datapoints × features). -/
example : (solveExactly rngQ 0 (fun _ => .nan) [[0, 7], [1, 7], [2, 7]] [0, 0, 1] none none (some .linear) (some 3) true
    .gini).toOption = some (some ⟨0, 1, .fin (-4 / 9)⟩, 3, 0) := by decide +kernel

/-! ### C17 -/

theorem HistReach.rep {R : Rng K G} {isCls : Bool} {data : List (List K)} {labels : List K} {m : Criterion}
    {minmax : Option (List K × List K)} {d : DiscDict K} {binType : Option BinType} {B : Nat} {E : Nat → List K}
    {I : Nat → List Nat} {hists : List (Hist K)} (hm : CritFits isCls m) (hb : BinningOK minmax d binType B)
    (h : HistReach R isCls data labels m minmax d binType B E I hists) :
    HistsRep isCls (nodeClasses isCls labels) data labels E I hists := by
  induction h with
  | fresh h =>
    cases data with
    | nil => cases h
    | cons row rest => exact (makeHistograms_good hb h).rep labels
  | sample hr hs hn hv h ih =>
    obtain ⟨pop, _, hspec⟩ := sampleTargets_spec ih hm hs hn hv h
    exact hspec.rep
  | empty arms hr ih => exact emptyHistograms_rep ih arms

/-- C17. For every arm list that is ordered by feature and has no repeats, and for all histograms that can occur in a node, the
values returned by `sample_targets` are positional: value number `i` is what the computation for the single arm number `i`
gives, on the histogram of that arm's feature after the new samples were added. For classification it is the true impurity change
of the rows in that histogram at that arm's edge. -/
theorem C17_positional (R : Rng K G) (g : G) (isCls : Bool) (data : List (List K)) (labels : List K) (m : Criterion)
    (minmax : Option (List K × List K)) (d : DiscDict K) (binType : Option BinType) (B : Nat) (E : Nat → List K)
    (I : Nat → List Nat) (hists : List (Hist K)) (arms : List Arm) (batch : Nat) (popIdcs : Option (List Nat))
    (out : SampleOut K G) (hm : CritFits isCls m) (hb : BinningOK minmax d binType B)
    (hreach : HistReach R isCls data labels m minmax d binType B E I hists)
    (hsorted : FeatSorted arms) (hnodup : arms.Nodup) (hvalid : ArmsValid E hists.length arms)
    (hok : sampleTargets R g data labels arms hists batch m popIdcs = .ok out) :
    out.acc.reds.length = arms.length ∧ out.acc.cbs.length = arms.length ∧
    ∃ pop, drawSamples R g data.length batch popIdcs = .ok (out.drawn, pop, out.pop, out.g) ∧
      ∀ i (hi : i < arms.length), ∃ h h' v, hists[arms[i].1]? = some h ∧
        h.add (out.drawn.map (fun j => data.getD j [])) (out.drawn.map (fun j => labels.getD j 0)) = .ok h' ∧
        out.acc.hists[arms[i].1]? = some h' ∧
        impurityReductions h' [arms[i].2] m pop = .ok [(out.acc.reds.getD i .nan, v)] ∧
        out.acc.cbs.getD i .nan = v.sqrt ∧
        (isCls = true → out.acc.reds.getD i .nan =
          .fin (change (critImp m) ((I arms[i].1 ++ out.drawn).map (rowSample data labels arms[i].1))
            ((E arms[i].1).getD arms[i].2 0))) := by
  obtain ⟨pop, hdraw, hspec⟩ := sampleTargets_spec (hreach.rep hm hb) hm hsorted hnodup hvalid hok
  have hadds : ∀ a ∈ arms, ∃ h h', hists[a.1]? = some h ∧
      h.add (out.drawn.map (fun j => data.getD j [])) (out.drawn.map (fun j => labels.getD j 0)) = .ok h' ∧
      out.acc.hists[a.1]? = some h' := by
    have hok' := hok
    unfold sampleTargets at hok'
    rw [hdraw] at hok'
    simp only [] at hok'
    split at hok'
    · cases hok'
    · next samples hsam =>
      split at hok'
      · cases hok'
      · next slabels hslab =>
        split at hok'
        · cases hok'
        · next acc hloop =>
          have hacc : out.acc = acc := by
            injection hok' with hok'
            rw [← hok']
          rw [hacc]
          have hg := groupArms_sorted hsorted
          obtain ⟨_, _, s3, _⟩ := sampleLoop_spec hg.keys_nodup hloop
          intro a ha
          obtain ⟨p, hp, hpa⟩ := List.mem_map.1 ((hg.key_iff (f := a.1)).2 ⟨a, ha, rfl⟩)
          obtain ⟨h1, h1', rs, a1, a2, a3, _⟩ := s3 p hp
          rw [hpa] at a1 a3
          obtain ⟨rfl, _⟩ := takeE_ok hsam
          obtain ⟨rfl, _⟩ := takeE_ok hslab
          exact ⟨h1, h1', a1, a2, a3⟩
  refine ⟨by rw [hspec.reds]; simp, by rw [hspec.cbs]; simp, pop, hdraw, fun i hi => ?_⟩
  have hmem : arms[i] ∈ arms := List.getElem_mem hi
  have hk : arms[i].1 ∈ arms.map Prod.fst := List.mem_map.2 ⟨_, hmem, rfl⟩
  obtain ⟨h, h', a1, a2, a3⟩ := hadds _ hmem
  have hval := hspec.single _ h' arms[i].2 hk a3 (hvalid _ hmem).2
  refine ⟨h, h', (armVal data labels E (fun f => if f ∈ arms.map Prod.fst then I f ++ out.drawn else I f) out.acc.hists m pop
    arms[i]).2, a1, a2, a3, ?_, ?_, ?_⟩
  · rw [hval, hspec.reds, List.getD_eq_getElem _ _ (by simpa using hi), List.getElem_map]
  · rw [hspec.cbs, List.getD_eq_getElem _ _ (by simpa using hi), List.getElem_map]
  · intro hc
    rw [hspec.reds, List.getD_eq_getElem _ _ (by simpa using hi), List.getElem_map]
    unfold armVal
    rw [a3]
    simp only []
    have hE : E arms[i].1 ≠ [] := by
      intro h0
      have := (hvalid _ hmem).2
      rw [h0] at this
      simp at this
    have hrep := hspec.rep.rep _ _ a3 hE
    unfold redVal
    rw [hrep.isCls, hc, if_pos rfl]
    simp only [if_pos hk]

/-- The arm list `[(0,2), (0,1), (2,0)]` (ordered by feature, not by edge) on histograms that already hold four rows: a case of
C17 with three different values. -/
example :
    (do let hs ← makeHistograms rngQ 0 true [[0, 1, 3], [1, 1, 2], [2, 5, 1], [3, 5, 0]] [0, 0, 1, 0] none none
          (some .linear) 3
        let o ← sampleTargets rngQ 0 [[0, 1, 3], [1, 1, 2], [2, 5, 1], [3, 5, 0]] [0, 0, 1, 0] [(0, 1), (1, 1)] hs.hists 4
          .gini (some [0, 1, 2, 3])
        let o2 ← sampleTargets rngQ 0 [[0, 1, 3], [1, 1, 2], [2, 5, 1], [3, 5, 0]] [0, 0, 1, 0] [(0, 2), (0, 1), (2, 0)]
          o.acc.hists 2 .gini none
        pure (o2.acc.reds, o2.drawn)).toOption
      = some ([.fin 0, .fin (-1 / 9), .fin 0], [0, 1]) := by decide +kernel

/-! ### C27, exact solver -/

theorem makeHistograms_total {R : Rng K G} {g : G} {isCls : Bool} {row : List K} {rest : List (List K)} {labels : List K}
    {minmax : Option (List K × List K)} {d : DiscDict K} {t : BinType} {B : Nat}
    (ht : t ≠ .discrete) (hrect : ∀ r ∈ rest, row.length ≤ r.length)
    (hmm : ∀ mins maxs, minmax = some (mins, maxs) → row.length ≤ mins.length ∧ row.length ≤ maxs.length) :
    ∃ hs, makeHistograms R g isCls (row :: rest) labels minmax d (some t) B = .ok hs := by
  unfold makeHistograms
  apply makeHistLoop_total _ _ ht (by simp)
  · intro r hr f hf
    rw [List.mem_range] at hf
    rw [List.mem_cons] at hr
    rcases hr with rfl | hr
    · exact hf
    · exact lt_of_lt_of_le hf (hrect r hr)
  · intro a b hab f hf
    rw [List.mem_range] at hf
    obtain ⟨h1, h2⟩ := hmm a b hab
    exact ⟨lt_of_lt_of_le hf h1, lt_of_lt_of_le hf h2⟩

/-- C27 for the exact solver with IDENTITY bins: on a rectangular node with at least one feature and one label per row it
never raises (entropy needs at most two classes, see C09). -/
theorem C27_exact_identity_partial (R : Rng K G) (g : G) (junk : Mat K) (row : List K) (rest : List (List K)) (labels : List K)
    (minmax : Option (List K × List K)) (d : DiscDict K) (numBins : Option Nat) (isCls : Bool) (m : Criterion)
    (hm : CritFits isCls m) (hent : m = .entropy → labels.dedup.length ≤ 2) (hb : ∀ B, BinningOK minmax d (some .identity) B)
    (hF : row ≠ []) (hrect : ∀ r ∈ rest, r.length = row.length) (hlab : labels.length = (row :: rest).length)
    (hmm : ∀ mins maxs, minmax = some (mins, maxs) → row.length ≤ mins.length ∧ row.length ≤ maxs.length) :
    ∃ r nq g', solveExactly R g junk (row :: rest) labels minmax d (some .identity) numBins isCls m = .ok (r, nq, g') := by
  have hrect' : ∀ r ∈ rest, row.length ≤ r.length := fun r hr => (hrect r hr).ge
  obtain ⟨hs, hmake⟩ := makeHistograms_total (R := R) (g := g) (isCls := isCls) (labels := labels) (d := d)
    (B := (row :: rest).length) (by simp) hrect' hmm (t := .identity)
  have hF' : 0 < row.length := List.length_pos_of_ne_nil hF
  refine solveExactly_total junk hm (fun he => by rw [(npUnique_perm labels).length_eq]; exact hent he) (by simp)
    (B := (row :: rest).length) (by simp [exactBins]) (hb _) hrect' hlab.ge hmake ⟨0, hF', ?_⟩
  rw [(C13_candidates_identity R g isCls row rest labels minmax d _ hs (hb _) hmake).2 0 hF']
  intro h0
  have h1 : row.getD 0 0 ∈ npUnique ((row :: rest).map (fun r => r.getD 0 0)) := mem_npUnique.2 (by simp)
  unfold npUnique at h1
  rw [h0] at h1
  simp at h1

/-- C27 for the exact solver with LINEAR bins (at least two): it never raises if some feature has two different values. -/
theorem C27_exact_linear_partial (R : Rng K G) (g : G) (junk : Mat K) (row : List K) (rest : List (List K)) (labels : List K)
    (d : DiscDict K) (B : Nat) (isCls : Bool) (m : Criterion)
    (hm : CritFits isCls m) (hent : m = .entropy → labels.dedup.length ≤ 2) (hb : BinningOK none d (some .linear) B) (hB : 2 ≤ B)
    (hrect : ∀ r ∈ rest, r.length = row.length) (hlab : labels.length = (row :: rest).length)
    (hvar : ∃ f < row.length, ∃ x ∈ row :: rest, ∃ y ∈ row :: rest, x.getD f 0 ≠ y.getD f 0) :
    ∃ r nq g', solveExactly R g junk (row :: rest) labels none d (some .linear) (some B) isCls m = .ok (r, nq, g') := by
  have hrect' : ∀ r ∈ rest, row.length ≤ r.length := fun r hr => (hrect r hr).ge
  obtain ⟨hs, hmake⟩ := makeHistograms_total (R := R) (g := g) (isCls := isCls) (labels := labels) (d := d)
    (B := B) (by simp) hrect' (minmax := none) (by simp) (t := .linear)
  obtain ⟨f, hf, x, hx, y, hy, hxy⟩ := hvar
  refine solveExactly_total junk hm (fun he => by rw [(npUnique_perm labels).length_eq]; exact hent he) (by simp)
    (B := B) (by simp [exactBins]) hb hrect' hlab.ge hmake ⟨f, hf, ?_⟩
  obtain ⟨lo, hi, h1, _, he⟩ := (C13_candidates_linear R g isCls row rest labels none d B hs hb hmake).2 f hf
  rw [he, if_neg]
  · simp; omega
  · rintro rfl
    obtain ⟨h2, h3⟩ := h1 rfl
    have key : ∀ z ∈ row :: rest, z.getD f 0 = lo := by
      intro z hz
      have hz' : z.getD f 0 ∈ (row :: rest).map (fun r => r.getD f 0) := List.mem_map.2 ⟨z, hz, rfl⟩
      exact le_antisymm (le_npMax h3 hz') (npMin_le h2 hz')
    exact hxy ((key x hx).trans (key y hy).symm)

/-- C27 for the exact solver with RANDOM bins (at least one). -/
theorem C27_exact_random_partial (R : Rng K G) (g : G) (junk : Mat K) (row : List K) (rest : List (List K)) (labels : List K)
    (d : DiscDict K) (B : Nat) (isCls : Bool) (m : Criterion)
    (hm : CritFits isCls m) (hent : m = .entropy → labels.dedup.length ≤ 2) (hb : BinningOK none d (some .random) B) (hB : 1 ≤ B)
    (hF : row ≠ []) (hrect : ∀ r ∈ rest, r.length = row.length) (hlab : labels.length = (row :: rest).length) :
    ∃ r nq g', solveExactly R g junk (row :: rest) labels none d (some .random) (some B) isCls m = .ok (r, nq, g') := by
  have hrect' : ∀ r ∈ rest, row.length ≤ r.length := fun r hr => (hrect r hr).ge
  obtain ⟨hs, hmake⟩ := makeHistograms_total (R := R) (g := g) (isCls := isCls) (labels := labels) (d := d)
    (B := B) (by simp) hrect' (minmax := none) (by simp) (t := .random)
  have hF' : 0 < row.length := List.length_pos_of_ne_nil hF
  refine solveExactly_total junk hm (fun he => by rw [(npUnique_perm labels).length_eq]; exact hent he) (by simp)
    (B := B) (by simp [exactBins]) hb hrect' hlab.ge hmake ⟨0, hF', ?_⟩
  obtain ⟨_, _, _, _, hl, _⟩ := (C13_candidates_random R g isCls row rest labels none d B hs hb hmake).2 0 hF'
  intro h0
  rw [h0] at hl
  simp at hl
  omega

/-- C27 is false in general: with LINEAR bins and only constant features both solvers raise, although the node has two rows and
two distinct labels. -/
theorem C27_refuted :
    solveExactly rngQ 0 (fun _ => .fin 0) [[7], [7]] [0, 1] none none (some .linear) (some 3) true .gini
      = .error .indexError ∧
    (solveMab rngQ 0 ⟨0, 0⟩ junkQ [[7], [7]] [0, 1] none none (some .linear) (some 3) true .gini 0 false none 1).map
      (fun o => o.total) = .error (.attributeError "bin_edges") := by
  constructor <;> decide +kernel

end FF
