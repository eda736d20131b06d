import Verif.Spec.Cart
import Verif.Proofs.TreeSum
import Verif.Props.Exact
import Verif.Props.Tree2
import Verif.Props.Predict

/-!
# Fitted trees and the textbook greedy tree
-/

namespace Spec

variable {K : Type} [Field K] [LinearOrder K]

namespace CartProblem

variable {P P' : CartProblem K}

theorem FirstBest.unique {rows : List Nat} {c c' : Nat × K} (h : P.FirstBest rows c) (h' : P.FirstBest rows c') : c = c' := by
  obtain ⟨a, b, h1, h2, h3⟩ := h
  obtain ⟨a', b', h1', h2', h3'⟩ := h'
  rw [h1] at h1'
  rcases List.append_eq_append_iff.1 h1' with ⟨as, e1, e2⟩ | ⟨as, e1, e2⟩
  · cases as with
    | nil => simp only [List.nil_append, List.cons.injEq] at e2; exact e2.1
    | cons x xs =>
      exfalso
      simp only [List.cons_append, List.cons.injEq] at e2
      obtain ⟨rfl, e3⟩ := e2
      have := h2' c (by rw [e1]; simp)
      have := h3 c' (by rw [e3]; simp)
      exact absurd this (not_le.2 (by assumption))
  · cases as with
    | nil => simp only [List.nil_append, List.cons.injEq] at e2; exact e2.1.symm
    | cons x xs =>
      exfalso
      simp only [List.cons_append, List.cons.injEq] at e2
      obtain ⟨rfl, e3⟩ := e2
      have := h2 c' (by rw [e1]; simp)
      have := h3' c (by rw [e3]; simp)
      exact absurd this (not_le.2 (by assumption))

/-- There is only one greedy tree. -/
theorem IsCart.unique {d : Nat} {rows : List Nat} {D D' : DTree K} (h : P.IsCart d rows D) (h' : P.IsCart d rows D') : D = D' := by
  induction h generalizing D' with
  | leaf h1 =>
    cases h' with
    | leaf _ => rfl
    | node hm hb hw _ _ => exact absurd hw (h1 hm _ hb)
  | node hm hb hw _ _ ihy ihn =>
    cases h' with
    | leaf h1 => exact absurd hw (h1 hm _ hb)
    | node hm' hb' hw' hy' hn' =>
      have := hb.unique hb'
      simp only [Prod.mk.injEq] at this
      obtain ⟨rfl, rfl⟩ := this
      rw [ihy hy', ihn hn']

/-- `P'` is the problem `P` with weaker limits. -/
structure Relaxed (P P' : CartProblem K) : Prop where
  value : P'.value = P.value
  label : P'.label = P.label
  cols : P'.cols = P.cols
  grid : P'.grid = P.grid
  imp : P'.imp = P.imp
  total : P'.total = P.total
  size : P'.size = P.size
  maxDepth : ∀ d', P'.maxDepth = some d' → ∃ d, P.maxDepth = some d ∧ d ≤ d'
  minSamples : P'.minSamples ≤ P.minSamples
  minDecrease : P.minDecrease ≤ P'.minDecrease

theorem Relaxed.refines (hr : Relaxed P P') {d : Nat} {rows : List Nat} {D D' : DTree K} (h : P.IsCart d rows D)
    (h' : P'.IsCart d rows D') : D'.Refines D := by
  induction h generalizing D' with
  | leaf h1 => exact .leaf _ _
  | @node d rows f v y n hm hb hw hy hn ihy ihn =>
    have hscore : ∀ c, P'.score rows c = P.score rows c := by
      intro c
      unfold score
      rw [hr.value, hr.label, hr.imp]
    have hb1 : P'.FirstBest rows (f, v) := by
      obtain ⟨a, b, e1, e2, e3⟩ := hb
      refine ⟨a, b, ?_, ?_, ?_⟩
      · rw [← e1]
        unfold candidates
        rw [hr.value, hr.cols, hr.grid]
      · intro x hx
        rw [hscore, hscore]
        exact e2 x hx
      · intro x hx
        rw [hscore, hscore]
        exact e3 x hx
    have hm1 : P'.MaySplit d rows := by
      refine ⟨?_, lt_of_le_of_lt hr.minSamples hm.size, ?_⟩
      · intro d' hd'
        obtain ⟨d0, h1, h2⟩ := hr.maxDepth d' hd'
        exact lt_of_lt_of_le (hm.depth d0 h1) h2
      · rw [hr.label]; exact hm.mixed
    have hw1 : P'.Worth rows (P'.score rows (f, v)) := by
      rw [hscore]
      refine ⟨hw.neg, ?_, ?_⟩
      · rw [hr.total]; exact lt_of_lt_of_le hw.once hr.minDecrease
      · rw [hr.total, hr.size]; exact lt_of_lt_of_le hw.twice hr.minDecrease
    cases h' with
    | leaf h1 => exact absurd hw1 (h1 hm1 _ hb1)
    | node hm' hb' hw' hy' hn' =>
      have := hb1.unique hb'
      simp only [Prod.mk.injEq] at this
      obtain ⟨rfl, rfl⟩ := this
      rw [hr.value] at hy' hn'
      exact .node _ _ (ihy hy') (ihn hn')

end CartProblem

end Spec

namespace FF

open Spec

set_option linter.unusedSectionVars false

variable {K : Type} [Field K] [LinearOrder K] [FloorRing K] [NpFun K] {G : Type}

/-- The thresholds tried for feature `f` in a node where its values are `vals`: every value that occurs (IDENTITY), or the configured
number of equally spaced points between the smallest and the largest value, in the node or as given by the caller (LINEAR). -/
def gridOf (cfg : TreeCfg K) (f : Nat) (vals : List K) : List K :=
  match cfg.binType with
  | some .identity => valueGrid vals
  | some .linear =>
    let B := if cfg.useLog then Nat.log2 vals.length + 1 else cfg.numBins.getD 0
    match cfg.minmax with
    | none => evenGrid (vals.min?.getD 0) (vals.max?.getD 0) B
    | some (mins, maxs) => evenGrid (mins.getD f 0) (maxs.getD f 0) B
  | _ => []

/-- The greedy tree problem given to a tree by its arguments. -/
def TreeArgs.problem (A : TreeArgs K) : CartProblem K where
  value i f := (A.data.getD i []).getD f 0
  label i := A.labels.getD i 0
  cols := A.cols
  grid := gridOf A.cfg
  imp := critImp A.cfg.criterion
  total := A.rows.length
  size := A.labels.length
  maxDepth := match A.cfg.maxDepth with
    | .some d => some d
    | _ => none
  minSamples := A.cfg.minSamplesSplit
  minDecrease := A.cfg.minImpDec

/-- Node `id` of the tree and everything below it, as a decision tree. -/
inductive ReadsAs (t : Tree K G) : Nat → DTree K → Prop
  | leaf {id : Nat} {nd : Node K} (hn : NodeAt t id nd) (hl : nd.left = none) (hr : nd.right = none) : ReadsAs t id (.leaf nd.idcs)
  | node {id l r f : Nat} {nd : Node K} {y n : DTree K} (hn : NodeAt t id nd) (hl : nd.left = some l) (hr : nd.right = some r)
      (hf : nd.splitFeature = some f) (hy : ReadsAs t l y) (hno : ReadsAs t r n) : ReadsAs t id (.node f nd.splitValue y n)

variable [IsStrictOrderedRing K]

theorem mem_take_getElem? {α : Type} {l : List α} {n : Nat} {x : α} (h : x ∈ l.take n) : ∃ i < n, l[i]? = some x := by
  obtain ⟨i, hi, rfl⟩ := List.mem_iff_getElem.1 h
  rw [List.length_take] at hi
  exact ⟨i, by omega, by rw [List.getElem_take, List.getElem?_eq_getElem]⟩

/-- The candidates before and after candidate number `b` of column number `j`. -/
theorem flatMap_at {cols : List Nat} {g : Nat → List K} {j b f : Nat} {v : K} (hj : cols[j]? = some f) (hb : (g f)[b]? = some v) :
    ∃ before after, cols.flatMap (fun f => (g f).map (fun v => (f, v))) = before ++ (f, v) :: after ∧
      ∀ x ∈ before, ∃ j' b', cols[j']? = some x.1 ∧ (g x.1)[b']? = some x.2 ∧ (j' < j ∨ j' = j ∧ b' < b) := by
  obtain ⟨h1, h2⟩ := List.getElem?_eq_some_iff.1 hj
  obtain ⟨h3, h4⟩ := List.getElem?_eq_some_iff.1 hb
  have e1 : cols = cols.take j ++ f :: cols.drop (j + 1) := by
    rw [← h2, List.getElem_cons_drop, List.take_append_drop]
  have e2 : g f = (g f).take b ++ v :: (g f).drop (b + 1) := by
    rw [← h4, List.getElem_cons_drop, List.take_append_drop]
  refine ⟨(cols.take j).flatMap (fun f => (g f).map (fun v => (f, v))) ++ ((g f).take b).map (fun v => (f, v)),
    ((g f).drop (b + 1)).map (fun v => (f, v)) ++ (cols.drop (j + 1)).flatMap (fun f => (g f).map (fun v => (f, v))), ?_, ?_⟩
  · conv_lhs => rw [e1]
    rw [List.flatMap_append, List.flatMap_cons]
    conv_lhs => rw [e2]
    rw [List.map_append, List.map_cons]
    simp only [List.append_assoc, List.cons_append]
  · intro x hx
    rcases List.mem_append.1 hx with hx | hx
    · obtain ⟨f', hf', hx⟩ := List.mem_flatMap.1 hx
      obtain ⟨v', hv', rfl⟩ := List.mem_map.1 hx
      obtain ⟨j', hj', e⟩ := mem_take_getElem? hf'
      obtain ⟨b', hb'⟩ := List.mem_iff_getElem?.1 hv'
      exact ⟨j', b', e, hb', Or.inl hj'⟩
    · obtain ⟨v', hv', rfl⟩ := List.mem_map.1 hx
      obtain ⟨b', hb', e⟩ := mem_take_getElem? hv'
      exact ⟨j, b', hj, e, Or.inr ⟨rfl, hb'⟩⟩

theorem mem_flatMap_at {cols : List Nat} {g : Nat → List K} {x : Nat × K}
    (hx : x ∈ cols.flatMap (fun f => (g f).map (fun v => (f, v)))) : ∃ j b : Nat, cols[j]? = some x.1 ∧ (g x.1)[b]? = some x.2 := by
  obtain ⟨f', hf', hx⟩ := List.mem_flatMap.1 hx
  obtain ⟨v', hv', rfl⟩ := List.mem_map.1 hx
  obtain ⟨j', hj'⟩ := List.mem_iff_getElem?.1 hf'
  obtain ⟨b', hb'⟩ := List.mem_iff_getElem?.1 hv'
  exact ⟨j', b', hj', hb'⟩

section
variable {R : Rng K G} {mem : Nat → Junk K} {A : TreeArgs K} {dd : DiscDict K} {t0 t : Tree K G}

theorem subRows_map_col {data : List (List K)} {rows feats : List Nat} {j f : Nat} (hj : feats[j]? = some f) :
    (subRows data rows feats).map (fun r => r.getD j 0) = rows.map (fun i => (data.getD i []).getD f 0) := by
  unfold subRows
  rw [List.map_map]
  apply List.map_congr_left
  intro i _
  simp only [Function.comp_apply]
  rw [List.getD_eq_getElem?_getD, List.getElem?_map, hj]
  rfl

/-- The bin edges of a solved node are the thresholds of the greedy tree problem. -/
theorem GrowFacts.edges_grid (h : GrowFacts R mem A dd t0 t) (hA : ArgsOK A) (hbt : A.cfg.binType = some .identity ∨ A.cfg.binType = some .linear)
    {id : Nat} {nd : Node K} (hn : NodeAt t id nd) (hc : nd.computed = true) {g : G} {isCls : Bool} {B : Nat} {hs : Hists K G}
    (hB : exactBins (subRows A.data nd.idcs nd.featIdcs) A.cfg.binType nd.numBins = some B)
    (hmake : makeHistograms R g isCls (subRows A.data nd.idcs nd.featIdcs) (labelsOf A.labels nd.idcs) nd.minmax nd.discrete
      A.cfg.binType B = .ok hs) {j f : Nat} (hj : nd.featIdcs[j]? = some f) :
    edgesOf hs.hists j = gridOf A.cfg f (nd.idcs.map (fun i => (A.data.getD i []).getD f 0)) ∧
      (edgesOf hs.hists j).length ≤ B := by
  have hok := h.nodes _ _ hn
  have hne := (hok.solved hc).can.rows_ne
  obtain ⟨i, is, hi⟩ := List.exists_cons_of_ne_nil hne
  have hcol := subRows_map_col (data := A.data) (rows := nd.idcs) hj
  have hsub : subRows A.data nd.idcs nd.featIdcs =
      nd.featIdcs.map (fun j => (A.data.getD i []).getD j 0) :: subRows A.data is nd.featIdcs := by rw [hi]; rfl
  have hjlt := (List.getElem?_eq_some_iff.1 hj).1
  have hlen : (nd.idcs.map (fun i => (A.data.getD i []).getD f 0)).length = nd.nData := by rw [List.length_map, hok.nData_eq]
  rcases hbt with hb | hb
  · rw [hb] at hB hmake
    have hbin := h.binning hA hn hc B (Or.inl hb)
    rw [hb] at hbin
    rw [hsub] at hmake
    have hed := (C13_candidates_identity R g isCls _ _ _ nd.minmax nd.discrete B hs hbin hmake).2 j (by simpa using hjlt)
    rw [← hsub, hcol] at hed
    rw [hed]
    unfold gridOf
    rw [hb]
    refine ⟨rfl, ?_⟩
    rw [List.length_insertionSort]
    refine le_trans (List.dedup_sublist _).length_le ?_
    simp only [exactBins, if_true, Option.some.injEq] at hB
    rw [← hB]
    simp [subRows]
  · rw [hb] at hB hmake
    have hB' : nd.numBins = some B := by simpa [exactBins] using hB
    have hbin := h.binning hA hn hc B (Or.inr hB')
    rw [hb] at hbin
    rw [hsub] at hmake
    obtain ⟨lo, hi', h1, h2, hed⟩ := (C13_candidates_linear R g isCls _ _ _ nd.minmax nd.discrete B hs hbin hmake).2 j (by simpa using hjlt)
    rw [← hsub, hcol] at h1
    have hBeq : (if A.cfg.useLog then Nat.log2 (nd.idcs.map (fun i => (A.data.getD i []).getD f 0)).length + 1 else A.cfg.numBins.getD 0) = B := by
      rw [hlen]
      have hbins := (hok.solved hc).bins
      rw [h.cfg_eq] at hbins
      unfold nodeBins at hbins
      simp only [] at hbins
      cases hu : A.cfg.useLog with
      | true =>
        rw [hu] at hbins
        simp only [if_true] at hbins
        split_ifs at hbins
        rw [hB'] at hbins
        simpa using hbins
      | false =>
        have := hok.bins_eq (by rw [h.cfg_eq]; exact hu)
        rw [hB', h.cfg_eq] at this
        simp only [] at this
        rw [← this]
        rfl
    have hmm := hok.minmax_eq
    rw [h.cfg_eq] at hmm
    simp only [] at hmm
    refine ⟨?_, ?_⟩
    · rw [hed]
      unfold gridOf
      rw [hb]
      simp only [hBeq]
      cases hm : A.cfg.minmax with
      | none =>
        rw [hm] at hmm
        have : nd.minmax = none := (Except.ok.inj hmm).symm
        obtain ⟨e1, e2⟩ := h1 this
        simp only []
        have e1' : (nd.idcs.map (fun i => (A.data.getD i []).getD f 0)).min? = some lo := by
          rw [← e1]
          cases nd.idcs.map (fun i => (A.data.getD i []).getD f 0) <;> rfl
        have e2' : (nd.idcs.map (fun i => (A.data.getD i []).getD f 0)).max? = some hi' := by
          rw [← e2]
          cases nd.idcs.map (fun i => (A.data.getD i []).getD f 0) <;> rfl
        rw [e1', e2']
        rfl
      | some mm =>
        obtain ⟨mins, maxs⟩ := mm
        rw [hm] at hmm
        unfold nodeMinmax at hmm
        simp only [] at hmm
        split at hmm
        · rename_i a b ha hb'
          have e := (Except.ok.inj hmm).symm
          obtain ⟨e1, e2⟩ := h2 _ _ e
          obtain ⟨rfl, _⟩ := takeE_ok ha
          obtain ⟨rfl, _⟩ := takeE_ok hb'
          rw [List.getElem?_map, hj] at e1 e2
          simp only [Option.map_some, Option.some.injEq] at e1 e2
          simp only []
          rw [e1, e2]
          rfl
        · cases hmm
    · rw [hed]
      split_ifs <;> simp

/-- The answer of the exact solver for a node, in terms of the greedy tree problem. -/
theorem GrowFacts.solver_best (h : GrowFacts R mem A dd t0 t) (hA : ArgsOK A)
    (hbt : A.cfg.binType = some .identity ∨ A.cfg.binType = some .linear) (hs : A.cfg.solver = .exact) (hfs : A.cfg.featSub = .none)
    {id : Nat} {nd : Node K} (hn : NodeAt t id nd) (hc : nd.computed = true) {r : Option (SplitRes K)} {q : Nat}
    (hsay : SolverSays R A nd r q) :
    (∀ s, r = some s → A.problem.FirstBest nd.idcs (nd.featIdcs.getD s.feat 0, s.value) ∧
      s.red = .fin (A.problem.score nd.idcs (nd.featIdcs.getD s.feat 0, s.value)) ∧
      A.problem.score nd.idcs (nd.featIdcs.getD s.feat 0, s.value) < 0) ∧
    (r = none → ∀ c ∈ A.problem.candidates nd.idcs, 0 ≤ A.problem.score nd.idcs c) := by
  have hok := h.nodes _ _ hn
  have hcols : nd.featIdcs = A.cols := hok.feats_num.all (by rw [h.cfg_eq]; exact hfs)
  obtain ⟨g, glob, junk, budget, g', glob', hrun⟩ := hsay
  unfold nodeSolve at hrun
  rw [hs] at hrun
  simp only [] at hrun
  split at hrun
  · cases hrun
  rename_i r' q' np hex
  simp only [Except.ok.injEq, Prod.mk.injEq] at hrun
  obtain ⟨rfl, _⟩ := hrun
  have hbin : ∀ B, exactBins (subRows A.data nd.idcs nd.featIdcs) A.cfg.binType nd.numBins = some B →
      BinningOK nd.minmax nd.discrete A.cfg.binType B := by
    intro B hB
    refine h.binning hA hn hc B ?_
    unfold exactBins at hB
    split_ifs at hB with hi
    · exact Or.inl hi
    · exact Or.inr hB
  have hsam : ∀ (j f : Nat) (v : K), nd.featIdcs[j]? = some f →
      change (critImp A.cfg.criterion) (nodeSamples (subRows A.data nd.idcs nd.featIdcs) (labelsOf A.labels nd.idcs) j) v =
        A.problem.score nd.idcs (f, v) := by
    intro j f v hj
    obtain ⟨hj1, hj2⟩ := List.getElem?_eq_some_iff.1 hj
    rw [nodeSamples_sub hj1, List.getD_eq_getElem _ _ hj1, hj2]
    rfl
  constructor
  · rintro s rfl
    obtain ⟨B, hhs, b, hB, hmake, hcand, hred, hneg, hall⟩ := C13_exact_best R _ _ _ _ _ _ _ _ _ _ _ _ _ hA.crit hbin hex
    have hflt : s.feat < nd.featIdcs.length := by
      have h1 := (List.getElem?_eq_some_iff.1 hcand.1).1
      by_contra hcon
      have hne := (hok.solved hc).can.rows_ne
      obtain ⟨i, is, hi⟩ := List.exists_cons_of_ne_nil hne
      have hsub : subRows A.data nd.idcs nd.featIdcs =
          nd.featIdcs.map (fun j => (A.data.getD i []).getD j 0) :: subRows A.data is nd.featIdcs := by rw [hi]; rfl
      rw [hsub] at hmake
      have hlen := (makeHistograms_good (hbin B hB) hmake).len
      unfold edgesOf at h1
      rw [List.getElem?_eq_none (by rw [hlen]; simpa using hcon)] at h1
      simp at h1
    have hj : nd.featIdcs[s.feat]? = some (nd.featIdcs.getD s.feat 0) := by
      rw [List.getElem?_eq_getElem hflt, List.getD_eq_getElem _ _ hflt]
    have hgrid : ∀ j f, nd.featIdcs[j]? = some f → edgesOf hhs.hists j =
        A.problem.grid f (nd.idcs.map (fun i => A.problem.value i f)) ∧ (edgesOf hhs.hists j).length ≤ B :=
      fun j f hj => h.edges_grid hA hbt hn hc hB hmake hj
    have hcd : ∀ (j b f : Nat) (v : K), A.cols[j]? = some f →
        (A.problem.grid f (nd.idcs.map (fun i => A.problem.value i f)))[b]? = some v → IsCand hhs.hists B j b v := by
      intro j b f v hj hb
      rw [← hcols] at hj
      obtain ⟨e1, e2⟩ := hgrid j f hj
      rw [← e1] at hb
      exact ⟨hb, lt_of_lt_of_le (List.getElem?_eq_some_iff.1 hb).1 e2⟩
    have hscore := hsam _ _ s.value hj
    refine ⟨?_, by rw [hred, hscore], by rw [← hscore]; exact hneg⟩
    have hedge := hcand.1
    rw [(hgrid _ _ hj).1] at hedge
    have hj' := hj
    rw [hcols] at hj'
    obtain ⟨before, after, e1, e2⟩ := flatMap_at
      (g := fun f => A.problem.grid f (nd.idcs.map (fun i => A.problem.value i f))) hj' (by rw [← hcols]; exact hedge)
    rw [← hcols] at e1
    refine ⟨before, after, by rw [← e1, hcols]; rfl, ?_, ?_⟩
    · intro x hx
      obtain ⟨j', b', a1, a2, a3⟩ := e2 x hx
      have hcx := hcd _ _ _ _ a1 a2
      have := (hall _ _ _ hcx).2 a3
      rw [hscore, hsam j' x.1 x.2 (by rw [hcols]; exact a1)] at this
      exact this
    · intro x hx
      have hmem : x ∈ A.cols.flatMap (fun f => (A.problem.grid f (nd.idcs.map (fun i => A.problem.value i f))).map (fun v => (f, v))) := by
        rw [← hcols, e1]; simp [hx]
      obtain ⟨j', b', a1, a2⟩ := mem_flatMap_at
        (g := fun f => A.problem.grid f (nd.idcs.map (fun i => A.problem.value i f))) hmem
      have := (hall _ _ _ (hcd _ _ _ _ a1 a2)).1
      rw [hscore, hsam j' x.1 x.2 (by rw [hcols]; exact a1)] at this
      exact this
  · rintro rfl c hcm
    obtain ⟨B, hhs, hB, hmake, hall⟩ := C15_no_split R _ _ _ _ _ _ _ _ _ _ _ _ hA.crit hbin hex
    obtain ⟨j, b, a1, a2⟩ := mem_flatMap_at
      (g := fun f => A.problem.grid f (nd.idcs.map (fun i => A.problem.value i f))) hcm
    rw [show A.problem.cols = nd.featIdcs from hcols.symm] at a1
    obtain ⟨e1, e2⟩ := h.edges_grid hA hbt hn hc hB hmake a1
    have hcand : IsCand hhs.hists B j b c.2 := by
      have a2' : (edgesOf hhs.hists j)[b]? = some c.2 := by rw [e1]; exact a2
      exact ⟨a2', lt_of_lt_of_le (List.getElem?_eq_some_iff.1 a2').1 e2⟩
    have := hall _ _ _ hcand
    rw [hsam j c.1 c.2 a1] at this
    exact this

end

end FF
