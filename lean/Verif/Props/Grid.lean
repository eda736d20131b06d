import Verif.Props.Binning
import Verif.Props.Limits
import Verif.Props.Solvers
import Verif.Props.ForestTotal

/-!
# Thresholds come from the advertised grid (C89), bins and tolerance of a node (C90)
-/

namespace FF

set_option linter.unusedSectionVars false

open Spec

variable {K : Type} [Field K] [LinearOrder K] [IsStrictOrderedRing K] [FloorRing K] [NpFun K] {G : Type}

/-! ### Specification -/

/-- The value of column `f` in row `i`. -/
def cellOf (data : List (List K)) (i f : Nat) : K := (data.getD i []).getD f 0

/-- `lo` and `hi` are the least and the largest value of column `f` in the given rows. -/
structure Extremes (data : List (List K)) (rows : List Nat) (f : Nat) (lo hi : K) : Prop where
  lo_mem : ∃ i ∈ rows, cellOf data i f = lo
  lo_le : ∀ i ∈ rows, lo ≤ cellOf data i f
  hi_mem : ∃ i ∈ rows, cellOf data i f = hi
  le_hi : ∀ i ∈ rows, cellOf data i f ≤ hi

/-- `v` is one of `B` equally spaced values from `lo` to `hi`. -/
def Spaced (B : Nat) (lo hi v : K) : Prop := lo < hi ∧ ∃ k < B, v = lo + (k : K) * ((hi - lo) / ((B : K) - 1))

/-- The number of bins at a node with `n` rows: as configured, or `⌊log₂ n⌋ + 1`. -/
def BinsAt (useLog : Bool) (numBins : Option Nat) (n B : Nat) : Prop :=
  if useLog then 1 ≤ B ∧ 2 ^ (B - 1) ≤ n ∧ n < 2 ^ B else numBins = some B

/-- The thresholds a node with the given rows may use for column `f`: with IDENTITY bins the values of the column in its rows, with
LINEAR bins equally spaced values between two bounds `lo` and `hi` (for which `range lo hi` holds), with RANDOM bins anything between the
extremes of the column in its rows. -/
def Allowed (binType : Option BinType) (useLog : Bool) (numBins : Option Nat) (data : List (List K)) (rows : List Nat) (f : Nat)
    (range : K → K → Prop) (v : K) : Prop :=
  match binType with
  | some .identity => ∃ i ∈ rows, cellOf data i f = v
  | some .linear => ∃ B lo hi, BinsAt useLog numBins rows.length B ∧ Spaced B lo hi v ∧ range lo hi
  | some .random => ∃ lo hi, Extremes data rows f lo hi ∧ lo ≤ v ∧ v ≤ hi
  | _ => True

/-- The bounds of LINEAR bins in a tree: the extremes of the column in the rows of the node, or those given to the tree. -/
def TreeRange (A : TreeArgs K) (rows : List Nat) (f : Nat) (lo hi : K) : Prop :=
  match A.cfg.minmax with
  | none => Extremes A.data rows f lo hi
  | some (mins, maxs) => mins[f]? = some lo ∧ maxs[f]? = some hi

/-! ### The edges of the histograms do not change -/

theorem Hist_add_edges {h h' : Hist K} {X : List (List K)} {Y : List K} (ha : h.add X Y = .ok h') : h'.edges = h.edges := by
  unfold Hist.add at ha
  split at ha
  · cases ha
  split at ha
  · cases ha
  rename_i edges he
  split_ifs at ha
  · split at ha
    · cases ha
    · cases ha; rfl
  · cases ha; rfl

theorem emptySamples_edges (h : Hist K) : h.emptySamples.edges = h.edges := by
  unfold Hist.emptySamples
  split <;> rfl

theorem edgesOf_congr {hs hs' : List (Hist K)} (h : hs'.map Hist.edges = hs.map Hist.edges) (f : Nat) : edgesOf hs' f = edgesOf hs f := by
  have := congrArg (fun l => l[f]?) h
  simp only [List.getElem?_map] at this
  unfold edgesOf
  rcases h1 : hs[f]? with _ | a <;> rcases h2 : hs'[f]? with _ | b <;> rw [h1, h2] at this <;> simp_all

theorem sampleLoop_edges {samples : List (List K)} {slabels : List K} {m : Criterion} {pop : Option Nat} :
    ∀ (l : List (Nat × List Nat)) (acc acc' : SampleAcc K), sampleLoop samples slabels m pop l acc = .ok acc' →
      acc'.hists.map Hist.edges = acc.hists.map Hist.edges
  | [], acc, acc', h => by cases h; rfl
  | (f, bins) :: rest, acc, acc', h => by
    unfold sampleLoop at h
    split at h
    · cases h
    rename_i hh hget
    split at h
    · cases h
    rename_i h' hadd
    split at h
    · cases h
    rw [sampleLoop_edges rest _ _ h]
    simp only [List.map_set, Hist_add_edges hadd]
    apply List.ext_getElem?
    intro i
    by_cases hi : f = i
    · subst hi
      rw [List.getElem?_set_self (by rw [List.length_map]; exact (List.getElem?_eq_some_iff.1 hget).1), List.getElem?_map, hget]
      rfl
    · rw [List.getElem?_set_ne hi]

section
variable {R : Rng K G} {isCls : Bool} {data : List (List K)} {labels : List K} {m : Criterion}
    {minmax : Option (List K × List K)} {d : DiscDict K} {binType : Option BinType} {B : Nat} {E : Nat → List K} {I : Nat → List Nat}
    {hists : List (Hist K)}

theorem HistReach.edges (h : HistReach R isCls data labels m minmax d binType B E I hists) (f : Nat) : edgesOf hists f = E f := by
  induction h with
  | fresh h => rfl
  | sample hr _ _ _ hs ih =>
    unfold sampleTargets at hs
    split at hs
    · cases hs
    split at hs
    · cases hs
    split at hs
    · cases hs
    split at hs
    · cases hs
    rename_i acc hacc
    cases hs
    rw [edgesOf_congr (sampleLoop_edges _ _ _ hacc)]
    exact ih
  | empty arms hr ih =>
    rw [← ih]
    apply edgesOf_congr
    unfold emptyHistograms
    apply List.ext_getElem?
    intro i
    rw [List.getElem?_map, List.getElem?_map, List.getElem?_mapIdx]
    rcases hr : (_ : List (Hist K))[i]? with _ | a
    · rfl
    · simp only [Option.map_some, Option.some.injEq]
      split
      · exact emptySamples_edges a
      · rfl

/-- The threshold reported by `solve_mab` is a bin edge of the reported feature. -/
theorem solveMab_edge {g : G} {glob : Glob G} {junk : Junk K} {numBins : Option Nat} {epsilon : K} {withRep : Bool}
    {budget : Option Int} {batch : Nat} {out : MabOut K G} {r : SplitRes K} (hm : CritFits isCls m)
    (hb : ∀ B, numBins = some B → BinningOK minmax d binType B)
    (hok : solveMab R g glob junk data labels minmax d binType numBins isCls m epsilon withRep budget batch = .ok out)
    (hs : out.split = some r) :
    ∃ B hs, numBins = some B ∧ makeHistograms R glob.np isCls data labels minmax d binType B = .ok hs ∧
      r.value ∈ edgesOf hs.hists r.feat := by
  obtain ⟨row, rest, B, hh, s0, hdata, hB, hid, hmake, hinit, hloop, hfin⟩ := solveMab_parts hok
  obtain ⟨n, hruns⟩ := mabLoop_ok_runs _ _ hloop
  obtain ⟨_, F, _, _, I, hI⟩ := MabDuring.inv hm (hb B hB) ⟨row, rest, s0, hdata, hid, hmake, hinit, hruns.visited⟩
  obtain ⟨arm, arms, _, _, hsp, _⟩ := mabFinish_ok hfin
  rw [hs] at hsp
  obtain ⟨h1, _, _, hist, edges, h2, h3, h4⟩ := finishSplit_some hsp
  refine ⟨B, hh, hB, hmake, ?_⟩
  rw [← hI.reach.edges r.feat, h1]
  unfold edgesOf
  rw [h2]
  simp only [h3]
  exact List.mem_of_getElem? h4

end

/-! ### C89 for trees -/

section
variable {R : Rng K G} {mem : Nat → Junk K} {A : TreeArgs K} {dd : DiscDict K} {t0 t : Tree K G}

/-- A recorded threshold is an edge of a histogram that was made for the rows of the node. -/
theorem GrowFacts.split_edge (h : GrowFacts R mem A dd t0 t) (hA : ArgsOK A) {id : Nat} {nd : Node K} (hn : NodeAt t id nd)
    (hc : nd.computed = true) {f : Nat} (hf : nd.splitFeature = some f) :
    ∃ B j hs g i is, (if A.cfg.binType = some .identity then B = nd.idcs.length else nd.numBins = some B) ∧ nd.featIdcs[j]? = some f ∧
      nd.idcs = i :: is ∧ BinningOK nd.minmax nd.discrete A.cfg.binType B ∧
      makeHistograms R g A.cfg.isCls (nd.featIdcs.map (cellOf A.data i) :: is.map (fun i => nd.featIdcs.map (cellOf A.data i)))
        (labelsOf A.labels nd.idcs) nd.minmax nd.discrete A.cfg.binType B = .ok hs ∧
      nd.splitValue ∈ edgesOf hs.hists j := by
  have hok := h.nodes _ _ hn
  have hne := (hok.solved hc).can.rows_ne
  obtain ⟨i, is, hi⟩ := List.exists_cons_of_ne_nil hne
  have hsub : subRows A.data nd.idcs nd.featIdcs =
      nd.featIdcs.map (cellOf A.data i) :: is.map (fun i => nd.featIdcs.map (cellOf A.data i)) := by rw [hi]; rfl
  obtain ⟨r, ⟨g, glob, junk, budget, g', glob', hrun⟩, hrec, _⟩ := h.says hn hc
  cases r with
  | none => rw [hrec.2] at hf; cases hf
  | some s =>
    obtain ⟨q1, q2, q3, q4⟩ := hrec
    rw [hf] at q4
    have key : ∃ B hs g, (if A.cfg.binType = some .identity then B = nd.idcs.length else nd.numBins = some B) ∧
        BinningOK nd.minmax nd.discrete A.cfg.binType B ∧
        makeHistograms R g A.cfg.isCls (subRows A.data nd.idcs nd.featIdcs) (labelsOf A.labels nd.idcs) nd.minmax nd.discrete
          A.cfg.binType B = .ok hs ∧ s.value ∈ edgesOf hs.hists s.feat := by
      unfold nodeSolve at hrun
      split at hrun
      · split at hrun
        · cases hrun
        rename_i out hmab
        simp only [Except.ok.injEq, Prod.mk.injEq] at hrun
        have hid : A.cfg.binType ≠ some .identity := by
          obtain ⟨_, _, _, _, _, _, _, hid, _⟩ := solveMab_parts hmab
          exact hid
        have hb : ∀ B, nd.numBins = some B → BinningOK nd.minmax nd.discrete A.cfg.binType B :=
          fun B hB => h.binning hA hn hc B (Or.inr hB)
        obtain ⟨B, hs, h1, h2, h3⟩ := solveMab_edge hA.crit hb hmab hrun.1
        exact ⟨B, hs, _, by rw [if_neg hid]; exact h1, hb B h1, h2, h3⟩
      · split at hrun
        · cases hrun
        rename_i r' q' np hex
        simp only [Except.ok.injEq, Prod.mk.injEq] at hrun
        obtain ⟨rfl, _⟩ := hrun
        have hbins : ∀ B, exactBins (subRows A.data nd.idcs nd.featIdcs) A.cfg.binType nd.numBins = some B →
            BinningOK nd.minmax nd.discrete A.cfg.binType B := by
          intro B hB
          unfold exactBins at hB
          split at hB
          · exact h.binning hA hn hc B (Or.inl (by assumption))
          · exact h.binning hA hn hc B (Or.inr hB)
        obtain ⟨B, hh, b, hB, hmake, hcand, _⟩ := C13_exact_best R _ _ _ _ _ _ _ _ _ _ _ _ _ hA.crit hbins hex
        refine ⟨B, hh, _, ?_, hbins B hB, hmake, List.mem_of_getElem? hcand.1⟩
        unfold exactBins at hB
        split_ifs at hB ⊢
        · rw [← Option.some.inj hB]; simp [subRows]
        · exact hB
      · cases hrun
    obtain ⟨B, hs, g, h1, h2, h3, h4⟩ := key
    rw [hsub] at h3
    have hlen : s.feat < nd.featIdcs.length := by
      have := (makeHistograms_good h2 h3).len
      rw [List.length_map] at this
      rw [← this]
      by_contra hno
      have h5 : hs.hists[s.feat]? = none := List.getElem?_eq_none (by omega)
      unfold edgesOf at h4
      rw [h5] at h4
      cases h4
    refine ⟨B, s.feat, hs, g, i, is, h1, ?_, hi, h2, h3, by rw [q3]; exact h4⟩
    rw [Option.some.inj q4, List.getD_eq_getElem _ _ hlen]
    exact List.getElem?_eq_getElem hlen

theorem GrowFacts.bins_at (h : GrowFacts R mem A dd t0 t) {id : Nat} {nd : Node K} (hn : NodeAt t id nd)
    (hc : nd.computed = true) {B : Nat} (hB : nd.numBins = some B) : BinsAt A.cfg.useLog A.cfg.numBins nd.idcs.length B := by
  have hok := h.nodes _ _ hn
  have hbins := (hok.solved hc).bins
  have e : t.cfg.useLog = A.cfg.useLog := by rw [h.cfg_eq]
  unfold nodeBins at hbins
  unfold BinsAt
  rw [e] at hbins
  cases hu : A.cfg.useLog with
  | false =>
    rw [if_neg (by simp)]
    have := hok.bins_eq (by rw [e]; exact hu)
    rw [← hB, this, h.cfg_eq]
  | true =>
    rw [if_pos rfl]
    rw [hu, if_pos rfl] at hbins
    split_ifs at hbins with h0
    have := Except.ok.inj hbins
    rw [hB] at this
    have hBe := Option.some.inj this
    rw [hok.nData_eq] at hBe h0
    subst hBe
    refine ⟨by omega, ?_, ?_⟩
    · rw [Nat.add_sub_cancel]; exact Nat.log2_self_le h0
    · exact Nat.lt_log2_self

theorem extremes_of {data : List (List K)} {feats : List Nat} {i : Nat} {is : List Nat} {j f : Nat} (hj : feats[j]? = some f) {lo hi : K}
    (h1 : npMin ((feats.map (cellOf data i) :: is.map (fun i => feats.map (cellOf data i))).map (fun r => r.getD j 0)) = some lo)
    (h2 : npMax ((feats.map (cellOf data i) :: is.map (fun i => feats.map (cellOf data i))).map (fun r => r.getD j 0)) = some hi) :
    Extremes data (i :: is) f lo hi := by
  have e : (feats.map (cellOf data i) :: is.map (fun i => feats.map (cellOf data i))).map (fun r => r.getD j 0) =
      (i :: is).map (fun i => cellOf data i f) := by
    have : ∀ k, (feats.map (cellOf data k)).getD j 0 = cellOf data k f := by
      intro k
      rw [List.getD_eq_getElem?_getD, List.getElem?_map, hj]
      rfl
    rw [List.map_cons, List.map_map, List.map_cons, this]
    exact congrArg _ (List.map_congr_left (fun k _ => this k))
  rw [e] at h1 h2
  refine ⟨?_, ?_, ?_, ?_⟩
  · obtain ⟨k, a, b⟩ := List.mem_map.1 (npMin_mem h1); exact ⟨k, a, b⟩
  · intro k hk; exact npMin_le h1 (List.mem_map.2 ⟨k, hk, rfl⟩)
  · obtain ⟨k, a, b⟩ := List.mem_map.1 (npMax_mem h2); exact ⟨k, a, b⟩
  · intro k hk; exact le_npMax h2 (List.mem_map.2 ⟨k, hk, rfl⟩)

theorem GrowFacts.allowed (h : GrowFacts R mem A dd t0 t) (hA : ArgsOK A) {id : Nat} {nd : Node K} (hn : NodeAt t id nd)
    (hc : nd.computed = true) {f : Nat} (hf : nd.splitFeature = some f) :
    Allowed A.cfg.binType A.cfg.useLog A.cfg.numBins A.data nd.idcs f (TreeRange A nd.idcs f) nd.splitValue := by
  obtain ⟨B, j, hs, g, i, is, hB, hj, hi, hbin, hmake, hv⟩ := h.split_edge hA hn hc hf
  have hjl : j < nd.featIdcs.length := (List.getElem?_eq_some_iff.1 hj).1
  unfold Allowed
  split
  · rename_i hbt
    rw [hbt] at hbin hmake
    obtain ⟨_, he⟩ := C13_candidates_identity R g _ _ _ _ _ _ _ _ hbin hmake
    rw [he j (by rw [List.length_map]; exact hjl)] at hv
    rw [(List.perm_insertionSort _ _).mem_iff, List.mem_dedup] at hv
    rw [hi]
    have hv' : nd.splitValue ∈ (i :: is).map (fun i => (nd.featIdcs.map (cellOf A.data i)).getD j 0) := by
      simpa using hv
    obtain ⟨k, hk, hk2⟩ := List.mem_map.1 hv'
    refine ⟨k, hk, ?_⟩
    rw [← hk2, List.getD_eq_getElem?_getD, List.getElem?_map, hj]
    rfl
  · rename_i hbt
    rw [hbt] at hbin hmake hB
    rw [if_neg (by simp)] at hB
    obtain ⟨_, he⟩ := C13_candidates_linear R g _ _ _ _ _ _ _ _ hbin hmake
    obtain ⟨lo, hi', h1, h2, h3⟩ := he j (by rw [List.length_map]; exact hjl)
    rw [h3] at hv
    split_ifs at hv with hlh
    · cases hv
    obtain ⟨k, hk, hk2⟩ := List.mem_map.1 hv
    have hmm := (h.nodes _ _ hn).minmax_eq
    have ecfg : t.cfg.minmax = A.cfg.minmax := by rw [h.cfg_eq]
    rw [ecfg] at hmm
    refine ⟨B, lo, hi', h.bins_at hn hc hB, ⟨lt_of_le_of_ne ?_ hlh, k, List.mem_range.1 hk, hk2.symm⟩, ?_⟩
    · rcases hm : nd.minmax with _ | ⟨mins, maxs⟩
      · exact npMin_le_npMax (h1 hm).1 (h1 hm).2
      · exact hbin.minmax_le mins maxs hm j lo hi' (h2 mins maxs hm).1 (h2 mins maxs hm).2
    · unfold TreeRange
      split
      · rename_i hmm0
        rw [hmm0] at hmm
        rw [hi]
        exact extremes_of hj (h1 (nodeMinmax_none hmm)).1 (h1 (nodeMinmax_none hmm)).2
      · rename_i mins maxs hmm0
        rw [hmm0] at hmm
        unfold nodeMinmax at hmm
        simp only [] at hmm
        split at hmm
        · rename_i a b ha hb
          have h4 := h2 _ _ (Except.ok.inj hmm).symm
          have key : ∀ {src a : List K} {v : K}, takeE src 0 nd.featIdcs = .ok a → a[j]? = some v → src[f]? = some v := by
            intro src a v ha hav
            obtain ⟨e1, e2⟩ := takeE_ok ha
            have hfm : f ∈ nd.featIdcs := List.mem_of_getElem? hj
            rw [e1, List.getElem?_map, hj] at hav
            have := e2 f hfm
            rw [List.getElem?_eq_getElem this]
            simp only [Option.map_some, Option.some.injEq] at hav
            rw [List.getD_eq_getElem _ _ this] at hav
            rw [hav]
          exact ⟨key ha h4.1, key hb h4.2⟩
        · cases hmm
  · rename_i hbt
    rw [hbt] at hbin hmake
    obtain ⟨_, he⟩ := C13_candidates_random R g _ _ _ _ _ _ _ _ hbin hmake
    obtain ⟨lo, hi', h1, h2, _, _, h5⟩ := he j (by rw [List.length_map]; exact hjl)
    rw [hi]
    exact ⟨lo, hi', extremes_of hj h1 h2, (h5 _ hv).1, (h5 _ hv).2⟩
  · trivial

end

/-- C89 for a tree: every threshold of a fitted tree is an allowed one for the rows of its node, whatever the solver. -/
theorem C89_tree (R : Rng K G) (mem : Nat → Junk K) (A : TreeArgs K) (hA : ArgsOK A) (t : Tree K G) (h : Fitted R mem A t) (id : Nat)
    (nd : Node K) (hn : NodeAt t id nd) (f : Nat) (hf : nd.splitFeature = some f) :
    Allowed A.cfg.binType A.cfg.useLog A.cfg.numBins A.data nd.idcs f (TreeRange A nd.idcs f) nd.splitValue := by
  obtain ⟨dd, t0, hg⟩ := h.facts
  refine hg.allowed hA hn ?_ hf
  by_contra hc
  have := ((hg.nodes _ _ hn).fresh ((Bool.not_eq_true _).mp hc)).1
  rw [hf] at this
  cases this

theorem colMinMax_extremes {data : List (List K)} (hne : data ≠ []) {F f : Nat} {lo hi : K}
    (h1 : (colMinMax data F).1[f]? = some lo) (h2 : (colMinMax data F).2[f]? = some hi) :
    Extremes data (List.range data.length) f lo hi := by
  unfold colMinMax at h1 h2
  simp only [List.getElem?_map] at h1 h2
  cases hj : (List.range F)[f]? with
  | none => rw [hj] at h1; cases h1
  | some k =>
    rw [hj] at h1 h2
    have hk : k = f := by
      rw [List.getElem?_eq_some_iff] at hj
      obtain ⟨_, hj⟩ := hj
      simpa using hj.symm
    subst hk
    have hne' : data.map (fun r => r.getD k 0) ≠ [] := by simpa using hne
    obtain ⟨a, ha⟩ := npMin_isSome hne'
    obtain ⟨b, hb⟩ := npMax_isSome hne'
    simp only [Option.map_some, Option.some.injEq, ha, hb, Option.getD_some] at h1 h2
    subst h1
    subst h2
    have cell : ∀ i (hi : i < data.length), cellOf data i k = data[i].getD k 0 := by
      intro i hi
      unfold cellOf
      rw [List.getD_eq_getElem _ _ hi]
    have mem : ∀ i ∈ List.range data.length, cellOf data i k ∈ data.map (fun r => r.getD k 0) := by
      intro i hi
      have hi := List.mem_range.1 hi
      rw [cell i hi]
      exact List.mem_map.2 ⟨_, List.getElem_mem hi, rfl⟩
    have back : ∀ x ∈ data.map (fun r => r.getD k 0), ∃ i ∈ List.range data.length, cellOf data i k = x := by
      intro x hx
      obtain ⟨r, hr, rfl⟩ := List.mem_map.1 hx
      obtain ⟨i, hi, rfl⟩ := List.mem_iff_getElem.1 hr
      exact ⟨i, List.mem_range.2 hi, cell i hi⟩
    exact ⟨back _ (npMin_mem ha), fun i hi => npMin_le ha (mem i hi), back _ (npMax_mem hb), fun i hi => le_npMax hb (mem i hi)⟩

/-- C89 for a forest: every threshold of every tree of a forest that was just fitted is an allowed one for the rows of its node. With
precomputed minima and maxima the bounds of LINEAR bins are the extremes of the column in the whole training set, otherwise in the rows
of the node. -/
theorem C89_forest (R : Rng K G) (mem : Nat → Nat → Junk K) (cfg : ForestCfg K) (budget : Option Int) (f f' : Forest K G)
    (hobj : ForestObj R cfg budget f) (w w' : World K G) (data : Option (List (List K))) (labels : Option Nat)
    (hfit : Forest.fit R mem f w data labels = .ok (f', w')) (hbt : cfg.binType ≠ none)
    (hlin : cfg.binType = some .linear → cfg.useLog = false → cfg.numBins ≠ some 1)
    (t : Tree K G) (ht : t ∈ f'.trees) (id : Nat) (nd : Node K) (hn : NodeAt t id nd) (j : Nat) (hj : nd.splitFeature = some j) :
    Allowed cfg.binType cfg.useLog cfg.numBins (trainData f data) nd.idcs j
      (Extremes (trainData f data) (if cfg.precompMinmax then List.range (trainData f data).length else nd.idcs) j) nd.splitValue := by
  obtain ⟨i, hi⟩ := List.mem_iff_getElem?.1 ht
  obtain ⟨ms, _, hne, hm⟩ := Forest_fit_made hfit
  obtain ⟨m, _, h2, _⟩ := hm i t hi
  have hcfg := (Forest_fit_same hfit).1.trans hobj.facts.1
  have hcfg0 := hobj.facts.1
  have hmm : f'.minmax = if cfg.precompMinmax then some (colMinMax (trainData f data) ((trainData f data).getD 0 []).length) else none := by
    obtain ⟨dat, f0, w0, hs, hl⟩ := Forest_fit_start hfit
    obtain ⟨l, hr⟩ := forestLoop_run hl
    rw [hr.same, hs.eq]
    have h3 := hobj.facts2.2.1
    have e : f.cfg.precompMinmax = cfg.precompMinmax := by rw [hcfg0]
    rw [e] at h3
    simp only [e, hs.dat_eq]
    cases hp : cfg.precompMinmax with
    | true => rfl
    | false => simpa [hp] using h3 hp
  have c1 : m.args.cfg.binType = cfg.binType := by rw [h2.cfg]; unfold Forest.treeCfg; rw [hcfg]
  have c2 : m.args.cfg.useLog = cfg.useLog := by rw [h2.cfg]; unfold Forest.treeCfg; rw [hcfg]
  have c3 : m.args.cfg.numBins = cfg.numBins := by rw [h2.cfg]; unfold Forest.treeCfg; rw [hcfg]
  have c4 : m.args.cfg.minmax = f'.minmax := by rw [h2.cfg]; rfl
  have hset : SetsOnly f'.discrete := (ForestObj.facts2 (.fit hobj hfit)).1
  have hA : ArgsOK m.args := by
    refine ⟨?_, ?_, ?_, by rw [c1, c2, c3]; exact hlin, fun h => absurd (c1 ▸ h) hbt⟩
    · rw [h2.cfg]
      unfold Forest.treeCfg CritFits
      simp only []
      cases f'.cfg.isCls <;> simp
    · intro mins maxs hm' k lo hi hlo hhi
      rw [c4, hmm] at hm'
      split_ifs at hm'
      exact (colMinMax_le hne (Option.some.inj hm') k hlo hhi).1
    · intro k u hu hset'
      rw [h2.disc] at hu
      rw [hset k u hu] at hset'
      cases hset'
  obtain ⟨dd, t00, hf⟩ := h2.fitted.facts
  have hc := h2.after.cache hf.cache
  have hlt := (List.getElem?_eq_some_iff.1 hn).1
  rw [hc.len] at hlt
  have h0 : m.tree.nodes[id]? = some m.tree.nodes[id] := List.getElem?_eq_getElem hlt
  have he := (hc.nodes _ _ _ h0 hn).eq
  have e1 : nd.splitFeature = (m.tree.nodes[id]).splitFeature := by rw [he]
  have e2 : nd.idcs = (m.tree.nodes[id]).idcs := by rw [he]
  have e3 : nd.splitValue = (m.tree.nodes[id]).splitValue := by rw [he]
  have key := C89_tree R (mem i) m.args hA m.tree h2.fitted id _ h0 j (e1 ▸ hj)
  rw [← e2, ← e3, c1, c2, c3, h2.data_eq] at key
  unfold Allowed at key ⊢
  split
  · rename_i hb; rw [hb] at key; exact key
  · rename_i hb
    rw [hb] at key
    obtain ⟨B, lo, hi', k1, k2, k3⟩ := key
    refine ⟨B, lo, hi', k1, k2, ?_⟩
    unfold TreeRange at k3
    rw [c4, hmm, h2.data_eq] at k3
    cases hp : cfg.precompMinmax with
    | true =>
      rw [if_pos rfl]
      rw [hp, if_pos rfl] at k3
      exact colMinMax_extremes hne k3.1 k3.2
    | false =>
      rw [if_neg (by simp)]
      rw [hp, if_neg (by simp)] at k3
      exact k3
  · rename_i hb; rw [hb] at key; exact key
  · trivial

/-- LINEAR bins, their number depending on the number of rows. -/
def exArgsLog : TreeArgs ℚ := { exArgs with cfg := { cfgQ with binType := some .linear, numBins := some 4, useLog := true } }

theorem exArgsLog_ok : ArgsOK exArgsLog := by
  refine ⟨?_, fun _ _ h => (by cases h), fun _ _ h => (by cases h), fun _ h => (by cases h), fun h => by cases h⟩
  simp [CritFits, exArgsLog, cfgQ]

example : ∃ t, Fitted rngQ exMem exArgsLog t ∧
    (t.nodes.map (fun nd => (nd.idcs.length, nd.splitFeature, nd.splitValue, nd.numBins)) ==
      [(6, some 1, 1, some 3), (2, none, 0, some 3), (4, some 0, 7 / 2, some 3), (2, none, 0, some 3), (2, some 0, 4, some 2),
        (1, none, 0, some 2), (1, none, 0, some 2)]) = true :=
  runTree_exists (glob := exGlob) (by decide +kernel)

/-- LINEAR bins in a forest with precomputed minima and maxima. -/
def fcfgPre : ForestCfg ℚ := { fcfgQ with binType := some .linear, numBins := some 4, precompMinmax := true, maxDepth := .some 2 }

/-- In the second tree the rows 4, 5, 5 are split on column 1 at 11/3, a point of the grid 1, 11/3, 19/3, 9 for all rows. -/
example : ((runForest rngQ exMems exWorld fcfgPre exData 0 none).toOption.any (fun p =>
    p.1.trees.map (fun t => t.nodes.map (fun nd => (nd.idcs, nd.splitFeature, nd.splitValue))) ==
      [[([3, 4, 1, 0, 1, 4], some 0, 0), ([0], none, 0), ([3, 4, 1, 1, 4], some 1, 1), ([3], none, 0), ([4, 1, 1, 4], none, 0)],
        [([4, 5, 2, 1, 2, 5], some 0, 10 / 3), ([2, 1, 2], none, 0), ([4, 5, 5], some 1, 11 / 3), ([5, 5], none, 0), ([4], none, 0)]])) = true := by
  decide +kernel

/-! ### C90 -/

/-- C90. The number of bins a node is searched with is the configured one or, with `use_logarithmic_split`, `⌊log₂ n⌋ + 1` for `n` rows;
and the tolerance of the adaptive search is `ε`, or, with `use_dynamic_epsilon`, `ε·√depth` (so 0 in the root). -/
theorem C90_bins (R : Rng K G) (mem : Nat → Junk K) (A : TreeArgs K) (t : Tree K G) (h : Fitted R mem A t) (id : Nat)
    (nd : Node K) (hn : NodeAt t id nd) (hc : nd.computed = true) :
    (A.cfg.useLog = true → ∃ B, nd.numBins = some B) ∧ ∀ B, nd.numBins = some B → BinsAt A.cfg.useLog A.cfg.numBins nd.idcs.length B := by
  obtain ⟨dd, t0, hg⟩ := h.facts
  refine ⟨fun hu => ?_, fun B hB => hg.bins_at hn hc hB⟩
  have hbins := ((hg.nodes _ _ hn).solved hc).bins
  have e : t.cfg.useLog = A.cfg.useLog := by rw [hg.cfg_eq]
  unfold nodeBins at hbins
  rw [e, hu, if_pos rfl] at hbins
  split_ifs at hbins
  exact ⟨_, (Except.ok.inj hbins).symm⟩

/-- C90, the call: the recorded outcome of an adaptive search is what `solve_mab` returned when it was called with the rows of the node,
restricted to its columns, with their labels, with the number of bins and the tolerance described above. -/
theorem C90_call (R : Rng K G) (mem : Nat → Junk K) (A : TreeArgs K) (hs : A.cfg.solver = .mab) (t : Tree K G) (h : Fitted R mem A t)
    (id : Nat) (nd : Node K) (hn : NodeAt t id nd) (hc : nd.computed = true) :
    ∃ (eps : K) (g : G) (glob : Glob G) (junk : Junk K) (budget : Option Int) (out : MabOut K G),
      eps = (if A.cfg.useDynEps then A.cfg.epsilon * NpFun.sqrt (nd.depth : K) else A.cfg.epsilon) ∧
      (A.cfg.useDynEps = true → id = 0 → eps = 0) ∧
      solveMab R g glob junk (nd.idcs.map (fun i => nd.featIdcs.map (cellOf A.data i))) (nd.idcs.map (fun i => A.labels.getD i 0))
        nd.minmax nd.discrete A.cfg.binType nd.numBins A.cfg.isCls A.cfg.criterion eps A.cfg.withRep budget A.cfg.batch = .ok out ∧
      nd.numQueries = out.total ∧
      match out.split with
      | none => nd.splitFeature = none ∧ nd.splitReduction = none
      | some s => nd.splitFeature = some (nd.featIdcs.getD s.feat 0) ∧ nd.splitValue = s.value ∧
          nd.splitReduction = some (s.red.mul (.fin nd.proportion)) := by
  obtain ⟨dd, t0, hg⟩ := h.facts
  obtain ⟨r, ⟨g, glob, junk, budget, g', glob', hrun⟩, hrec, _⟩ := hg.says hn hc
  unfold nodeSolve at hrun
  rw [hs] at hrun
  simp only [] at hrun
  split at hrun
  · cases hrun
  rename_i out hmab
  simp only [Except.ok.injEq, Prod.mk.injEq] at hrun
  obtain ⟨rfl, hq, _⟩ := hrun
  refine ⟨_, g, glob, junk, budget, out, rfl, ?_, hmab, hq.symm, ?_⟩
  · rintro hd rfl
    obtain ⟨nd', h1, _, h3⟩ := hg.shape.root
    obtain rfl := Option.some.inj (hn.symm.trans h1)
    rw [if_pos hd, h3, Nat.cast_zero, NpFun.sqrt_zero, mul_zero]
  · cases ho : out.split with
    | none => rw [ho] at hrec; exact ⟨hrec.2, hrec.1⟩
    | some s =>
      rw [ho] at hrec
      exact ⟨hrec.2.2.2, hrec.2.2.1, hrec.1⟩

/-- C90 for a forest: the same for the trees of a forest that was just fitted, in terms of the options of the forest. The labels are the training
labels of the forest, unless it boosts. -/
theorem C90_forest (R : Rng K G) (mem : Nat → Nat → Junk K) (cfg : ForestCfg K) (hs : cfg.solver = .mab) (budget : Option Int) (f f' : Forest K G)
    (hobj : ForestObj R cfg budget f) (w w' : World K G) (data : Option (List (List K))) (labels : Option Nat)
    (hfit : Forest.fit R mem f w data labels = .ok (f', w'))
    (t : Tree K G) (ht : t ∈ f'.trees) (id : Nat) (nd : Node K) (hn : NodeAt t id nd) (hc : nd.computed = true) :
    (cfg.useLog = true → ∃ B, nd.numBins = some B) ∧ (∀ B, nd.numBins = some B → BinsAt cfg.useLog cfg.numBins nd.idcs.length B) ∧
    ∃ (eps : K) (ys : List K) (g : G) (glob : Glob G) (junk : Junk K) (rest : Option Int) (out : MabOut K G),
      eps = (if cfg.useDynEps then cfg.epsilon * NpFun.sqrt (nd.depth : K) else cfg.epsilon) ∧
      (cfg.boosting = false → ys = treeLabels f w labels) ∧
      solveMab R g glob junk (nd.idcs.map (fun i => nd.featIdcs.map (cellOf (trainData f data) i))) (nd.idcs.map (fun i => ys.getD i 0))
        nd.minmax nd.discrete cfg.binType nd.numBins cfg.isCls (if cfg.isCls then .gini else .mse) eps cfg.withRep rest cfg.batch = .ok out ∧
      nd.numQueries = out.total ∧
      match out.split with
      | none => nd.splitFeature = none ∧ nd.splitReduction = none
      | some s => nd.splitFeature = some (nd.featIdcs.getD s.feat 0) ∧ nd.splitValue = s.value ∧
          nd.splitReduction = some (s.red.mul (.fin nd.proportion)) := by
  obtain ⟨i, hi⟩ := List.mem_iff_getElem?.1 ht
  obtain ⟨ms, _, hne, hm⟩ := Forest_fit_made hfit
  obtain ⟨m, _, h2, hlab⟩ := hm i t hi
  have hcfg := (Forest_fit_same hfit).1.trans hobj.facts.1
  have hb : f.cfg.boosting = cfg.boosting := by rw [hobj.facts.1]
  have key : m.args.cfg = f'.treeCfg := h2.cfg
  have hsol : m.args.cfg.solver = .mab := by
    rw [key]
    unfold Forest.treeCfg
    rw [hcfg]
    exact hs
  obtain ⟨dd, t00, hf⟩ := h2.fitted.facts
  have hca := h2.after.cache hf.cache
  have hlt := (List.getElem?_eq_some_iff.1 hn).1
  rw [hca.len] at hlt
  have h0 : m.tree.nodes[id]? = some m.tree.nodes[id] := List.getElem?_eq_getElem hlt
  have he := (hca.nodes _ _ _ h0 hn).eq
  have hc' : (m.tree.nodes[id]).computed = true := by
    rw [← hc, he]
  obtain ⟨b1, b2⟩ := C90_bins R (mem i) m.args m.tree h2.fitted id _ h0 hc'
  obtain ⟨eps, g, glob, junk, rest, out, c1, _, c3, c4, c5⟩ := C90_call R (mem i) m.args hsol m.tree h2.fitted id _ h0 hc'
  rw [h2.data_eq] at c3
  rw [key] at b1 b2 c1 c3
  unfold Forest.treeCfg at b1 b2 c1 c3
  simp only [hcfg] at b1 b2 c1 c3
  generalize m.tree.nodes[id] = nd0 at *
  refine ⟨?_, ?_, eps, m.args.labels, g, glob, junk, rest, out, ?_, fun hbo => hlab (hb.trans hbo), ?_, ?_, ?_⟩
  · rw [he]; exact b1
  · rw [he]; exact b2
  · rw [he]; exact c1
  · rw [he]; exact c3
  · rw [he]; exact c4
  · rw [he]; exact c5

/-- A forest that searches adaptively, with a tolerance that grows with the depth. -/
def fcfgMab : ForestCfg ℚ :=
  { fcfgQ with solver := .mab, binType := some .linear, numBins := some 6, epsilon := 1 / 10, useDynEps := true, useLog := true, withRep := true, batch := 3 }

example : ((runForest rngQ exMems exWorld fcfgMab exData 0 none).toOption.any (fun p =>
    p.1.trees.map (fun t => t.nodes.map (fun nd => (nd.depth, nd.computed, nd.numBins, nd.splitFeature, nd.numQueries))) ==
      [[(0, true, some 3, some 1, 6), (1, false, some 3, none, 0), (1, true, some 3, some 0, 6), (2, false, some 3, none, 0),
          (2, false, some 3, none, 0)],
        [(0, true, some 3, some 1, 6), (1, false, some 3, none, 0), (1, false, some 3, none, 0)]])) = true := by
  decide +kernel

end FF
