import Verif.Props.Cart
import Verif.Props.Solvers2
import Verif.Props.Regret
import Verif.Props.ColOrder
import Verif.Spec.Greedy

/-!
# C157: on data no larger than a batch, MABSplit grows a greedy tree
-/

namespace Spec.CartProblem

variable {K : Type} [Field K] [LinearOrder K] {P : CartProblem K}

theorem FirstBest.best {rows : List Nat} {c : Nat × K} (h : P.FirstBest rows c) : P.Best rows c := by
  obtain ⟨a, b, e, h1, h2⟩ := h
  refine ⟨by rw [e]; simp, fun x hx => ?_⟩
  rw [e] at hx
  rcases List.mem_append.1 hx with hx | hx
  · exact (h1 x hx).le
  · rcases List.mem_cons.1 hx with rfl | hx
    · exact le_rfl
    · exact h2 x hx

omit [Field K] in
/-- If there are candidates, there is a first best one. -/
theorem exists_firstBest_aux (s : Nat × K → K) (l : List (Nat × K)) (hne : l ≠ []) :
    ∃ c before after, l = before ++ c :: after ∧ (∀ x ∈ before, s c < s x) ∧ ∀ x ∈ after, s c ≤ s x := by
  induction l with
  | nil => exact absurd rfl hne
  | cons a l ih =>
    by_cases hl : l = []
    · subst hl
      exact ⟨a, [], [], rfl, by simp, by simp⟩
    · obtain ⟨c, b, e, rfl, h1, h2⟩ := ih hl
      by_cases hac : s a ≤ s c
      · refine ⟨a, [], b ++ c :: e, rfl, by simp, fun x hx => ?_⟩
        rcases List.mem_append.1 hx with hx | hx
        · exact hac.trans (h1 x hx).le
        · rcases List.mem_cons.1 hx with rfl | hx
          · exact hac
          · exact hac.trans (h2 x hx)
      · refine ⟨c, a :: b, e, rfl, fun x hx => ?_, h2⟩
        rcases List.mem_cons.1 hx with rfl | hx
        · exact not_le.1 hac
        · exact h1 x hx

theorem Best.firstBest {rows : List Nat} {c : Nat × K} (h : P.Best rows c) :
    ∃ c', P.FirstBest rows c' ∧ P.score rows c' = P.score rows c := by
  obtain ⟨c', b, e, h1, h2, h3⟩ := exists_firstBest_aux (P.score rows) (P.candidates rows) (List.ne_nil_of_mem h.1)
  have hf : P.FirstBest rows c' := ⟨b, e, h1, h2, h3⟩
  exact ⟨c', hf, le_antisymm (hf.best.2 _ h.1) (h.2 _ hf.best.1)⟩

/-- The textbook tree is a greedy one. -/
theorem IsCart.greedy {d : Nat} {rows : List Nat} {D : DTree K} (h : P.IsCart d rows D) : P.IsGreedy d rows D := by
  induction h with
  | leaf h =>
    refine .leaf (fun hm c hb hw => ?_)
    obtain ⟨c', h1, h2⟩ := hb.firstBest
    exact h hm c' h1 (by rw [h2]; exact hw)
  | node hm hb hw _ _ ihy ihn => exact .node hm hb.best hw ihy ihn

theorem filters_same {rows : List Nat} {f f' : Nat} {v v' : K} (h : ∀ i ∈ rows, (P.value i f' ≤ v' ↔ P.value i f ≤ v)) :
    rows.filter (fun i => decide (P.value i f' ≤ v')) = rows.filter (fun i => decide (P.value i f ≤ v)) ∧
    rows.filter (fun i => decide (v' < P.value i f')) = rows.filter (fun i => decide (v < P.value i f)) := by
  refine ⟨List.filter_congr (fun i hi => decide_eq_decide.2 (h i hi)), List.filter_congr (fun i hi => decide_eq_decide.2 ?_)⟩
  rw [← not_le, ← not_le]
  exact not_congr (h i hi)

theorem filters_turned {rows : List Nat} {f f' : Nat} {v v' : K} (h : ∀ i ∈ rows, (P.value i f' ≤ v' ↔ v < P.value i f)) :
    rows.filter (fun i => decide (P.value i f' ≤ v')) = rows.filter (fun i => decide (v < P.value i f)) ∧
    rows.filter (fun i => decide (v' < P.value i f')) = rows.filter (fun i => decide (P.value i f ≤ v)) := by
  refine ⟨List.filter_congr (fun i hi => decide_eq_decide.2 (h i hi)), List.filter_congr (fun i hi => decide_eq_decide.2 ?_)⟩
  rw [← not_le, h i hi, not_lt]

/-- Without ties that matter, all greedy trees have the same leaves. -/
theorem IsGreedy.sameGroups {d : Nat} {rows : List Nat} {D D' : DTree K} (h : P.IsGreedy d rows D) (h' : P.IsGreedy d rows D')
    (hc : P.ClearParts rows D) : D.SameGroups D' := by
  induction h generalizing D' with
  | @leaf depth rows h =>
    cases h' with
    | leaf _ => exact .leaf rows
    | node hm hb hw _ _ => exact absurd hw (h hm _ hb)
  | @node depth rows f v yes no hm hb hw _ _ ihy ihn =>
    cases h' with
    | leaf h1 => exact absurd hw (h1 hm _ hb)
    | @node _ _ f' v' yes' no' hm' hb' hw' hy' hn' =>
      obtain ⟨c1, c2, c3⟩ := hc
      have he : P.score rows (f', v') = P.score rows (f, v) := le_antisymm (hb'.2 _ hb.1) (hb.2 _ hb'.1)
      rcases c1 (f', v') hb'.1 he with hsame | hsame
      · obtain ⟨e1, e2⟩ := filters_same hsame
        rw [e1] at hy'
        rw [e2] at hn'
        exact .node f v f' v' (ihy hy' c2) (ihn hn' c3)
      · obtain ⟨e1, e2⟩ := filters_turned hsame
        rw [e1] at hy'
        rw [e2] at hn'
        exact .turned f v f' v' (ihy hn' c2) (ihn hy' c3)

theorem candidates_cols {rows : List Nat} {c : Nat × K} (h : c ∈ P.candidates rows) : c.1 ∈ P.cols := by
  obtain ⟨f, hf, hx⟩ := List.mem_flatMap.1 h
  obtain ⟨v, _, rfl⟩ := List.mem_map.1 hx
  exact hf

/-- Without ties that matter, a training row ends in the same leaf of all greedy trees, and it is one of the rows there. -/
theorem IsGreedy.rowsAt_eq {d : Nat} {rows : List Nat} {D D' : DTree K} (h : P.IsGreedy d rows D) (h' : P.IsGreedy d rows D')
    (hc : P.ClearParts rows D) {i : Nat} (hi : i ∈ rows) {x : List K} (hx : ∀ f ∈ P.cols, x[f]? = some (P.value i f)) :
    D'.rowsAt x = D.rowsAt x ∧ i ∈ D.rowsAt x := by
  induction h generalizing D' with
  | @leaf depth rows h =>
    cases h' with
    | leaf _ => exact ⟨rfl, hi⟩
    | node hm hb hw _ _ => exact absurd hw (h hm _ hb)
  | @node depth rows f v yes no hm hb hw _ _ ihy ihn =>
    cases h' with
    | leaf h1 => exact absurd hw (h1 hm _ hb)
    | @node _ _ f' v' yes' no' hm' hb' hw' hy' hn' =>
      obtain ⟨c1, c2, c3⟩ := hc
      have he : P.score rows (f', v') = P.score rows (f, v) := le_antisymm (hb'.2 _ hb.1) (hb.2 _ hb'.1)
      unfold DTree.rowsAt
      rw [hx f (candidates_cols hb.1), hx f' (candidates_cols hb'.1)]
      dsimp only
      rcases c1 (f', v') hb'.1 he with hsame | hsame
      · obtain ⟨e1, e2⟩ := filters_same hsame
        rw [e1] at hy'
        rw [e2] at hn'
        have hi' := hsame i hi
        dsimp only at hi'
        by_cases hv : P.value i f ≤ v
        · rw [if_pos hv, if_pos (hi'.2 hv)]
          exact ihy hy' c2 (List.mem_filter.2 ⟨hi, by simpa using hv⟩)
        · rw [if_neg hv, if_neg (fun h => hv (hi'.1 h))]
          exact ihn hn' c3 (List.mem_filter.2 ⟨hi, by simpa using hv⟩)
      · obtain ⟨e1, e2⟩ := filters_turned hsame
        rw [e1] at hy'
        rw [e2] at hn'
        have hi' := hsame i hi
        dsimp only at hi'
        by_cases hv : P.value i f ≤ v
        · rw [if_pos hv, if_neg (fun h => absurd (hi'.1 h) (not_lt.2 hv))]
          exact ihy hn' c2 (List.mem_filter.2 ⟨hi, by simpa using hv⟩)
        · rw [if_neg hv, if_pos (hi'.2 (not_le.1 hv))]
          exact ihn hy' c3 (List.mem_filter.2 ⟨hi, by simpa using hv⟩)

end Spec.CartProblem

namespace FF

open Spec

set_option linter.unusedSectionVars false

variable {K : Type} [Field K] [LinearOrder K] [IsStrictOrderedRing K] [FloorRing K] [NpFun K] {G G' : Type}

/-! ## One node -/

/-- A split search that ends normally has a candidate. -/
theorem solveMab_cands {R : Rng K G} {g : G} {glob : Glob G} {junk : Junk K} {row : List K} {rest : List (List K)} {labels : List K}
    {minmax : Option (List K × List K)} {d : DiscDict K} {binType : Option BinType} {B : Nat} {isCls : Bool} {m : Criterion} {epsilon : K}
    {withRep : Bool} {budget : Option Int} {batch : Nat} {out : MabOut K G} {hs : Hists K G}
    (hb : BinningOK minmax d binType B)
    (hmake : makeHistograms R glob.np isCls (row :: rest) labels minmax d binType B = .ok hs)
    (hok : solveMab R g glob junk (row :: rest) labels minmax d binType (some B) isCls m epsilon withRep budget batch = .ok out) :
    0 < numCands hs.hists row.length B := by
  by_contra h0
  have hz : numCands hs.hists row.length B = 0 := by omega
  obtain ⟨row', rest', B', hs', s0, hdata, hB, hid, hmake', hinit, hloop, hfin⟩ := solveMab_parts hok
  cases hdata
  cases hB
  rw [hmake] at hmake'
  cases hmake'
  have hnone : ∀ f < row.length, min B (edgesOf hs.hists f).length = 0 := by
    intro f hf
    unfold numCands at hz
    exact List.sum_eq_zero_iff_forall_eq_nat.1 hz _ (List.mem_map.2 ⟨f, List.mem_range.2 hf, rfl⟩)
  have hg := makeHistograms_good hb hmake
  obtain ⟨_, hcs, _, _, _, hhists, _⟩ := mabInit_ok hinit
  obtain ⟨n, hruns⟩ := mabLoop_ok_runs _ _ hloop
  obtain ⟨arm, arms, harms, hmem, hsplit, _⟩ := mabFinish_ok hfin
  obtain ⟨mm, _, _, hfil⟩ := bestArms_spec harms (List.ne_nil_of_mem hmem)
  rw [hfil, List.mem_filter] at hmem
  have harm := mem_allArms.1 hmem.1
  have h0' := hnone arm.1 harm.1
  have hedge : (edgesOf hs.hists arm.1).length = 0 := by omega
  have hcands : candArms row.length B hs = [] ∨ ∃ a, a ∈ candArms row.length B hs := by
    cases hc : candArms row.length B hs with
    | nil => exact Or.inl rfl
    | cons a l => exact Or.inr ⟨a, by simp⟩
  rcases hcands with hc | ⟨a, ha⟩
  · have hs0 : out.final = s0 := by
      cases hruns with
      | stop _ => rfl
      | leave h5 _ => rw [hcs, hc] at h5; simp at h5
      | again h5 _ _ => rw [hcs, hc] at h5; simp at h5
    rw [hs0, hhists] at hsplit
    unfold finishSplit at hsplit
    unfold edgesOf at hedge
    cases hh : hs.hists[arm.1]? with
    | none => rw [hh] at hsplit; cases hsplit
    | some h =>
      rw [hh] at hsplit hedge
      dsimp only at hsplit
      cases he : h.edges with
      | none => rw [he] at hsplit; cases hsplit
      | some edges =>
        rw [he] at hsplit
        dsimp only at hsplit
        have : edges = [] := by
          simpa [he] using hedge
        rw [this] at hsplit
        cases hsplit
  · have hv := hg.cands_valid a ha
    have := hnone a.1 hv.1
    have hB : B = 0 := by omega
    subst hB
    omega

/-- Linear bins: as soon as there is a candidate, there are as many as bins. -/
theorem numCands_linear_all {R : Rng K G} {g : G} {isCls : Bool} {row : List K} {rest : List (List K)} {labels : List K}
    {minmax : Option (List K × List K)} {d : DiscDict K} {B : Nat} {hs : Hists K G} (hb : BinningOK minmax d (some .linear) B)
    (hmake : makeHistograms R g isCls (row :: rest) labels minmax d (some .linear) B = .ok hs)
    (h0 : 0 < numCands hs.hists row.length B) : B ≤ numCands hs.hists row.length B := by
  obtain ⟨f, b, v, hf, hc⟩ := numCands_pos h0
  obtain ⟨lo, hi, _, _, he⟩ := (C13_candidates_linear R g isCls row rest labels minmax d B hs hb hmake).2 f hf
  have hlen : (edgesOf hs.hists f).length = B := by
    rw [he]
    by_cases hlh : lo = hi
    · exfalso
      have := (List.getElem?_eq_some_iff.1 hc.1).1
      rw [he, if_pos hlh] at this
      simp at this
    · rw [if_neg hlh]; simp
  unfold numCands
  have hm : min B (edgesOf hs.hists f).length ∈ (List.range row.length).map (fun f => min B (edgesOf hs.hists f).length) :=
    List.mem_map.2 ⟨f, List.mem_range.2 hf, rfl⟩
  have := List.single_le_sum (fun _ _ => Nat.zero_le _) _ hm
  rw [hlen] at this
  simpa using this

/-- C157, one node. With LINEAR bins, at least six of them, and a batch that covers the node, `solve_mab` returns a best candidate with its true
reduction, and no split only if none helps. -/
theorem C157_node (R : Rng K G) (g : G) (glob : Glob G) (junk : Junk K) (row : List K) (rest : List (List K)) (labels : List K)
    (minmax : Option (List K × List K)) (d : DiscDict K) (B : Nat) (isCls : Bool) (m : Criterion) (epsilon : K) (withRep : Bool)
    (budget : Option Int) (batch : Nat) (out : MabOut K G) (hm : CritFits isCls m) (hb : BinningOK minmax d (some .linear) B) (h6 : 6 ≤ B)
    (hbatch : (row :: rest).length ≤ batch)
    (hok : solveMab R g glob junk (row :: rest) labels minmax d (some .linear) (some B) isCls m epsilon withRep budget batch = .ok out) :
    ∃ hs : Hists K G, makeHistograms R glob.np isCls (row :: rest) labels minmax d (some .linear) B = .ok hs ∧
      (∀ r, out.split = some r → ∃ b, IsCand hs.hists B r.feat b r.value ∧
        r.red = .fin (change (critImp m) (nodeSamples (row :: rest) labels r.feat) r.value) ∧
        change (critImp m) (nodeSamples (row :: rest) labels r.feat) r.value < 0 ∧
        ∀ f b' v, IsCand hs.hists B f b' v → change (critImp m) (nodeSamples (row :: rest) labels r.feat) r.value ≤
          change (critImp m) (nodeSamples (row :: rest) labels f) v) ∧
      (out.split = none → ∀ f b v, IsCand hs.hists B f b v → 0 ≤ change (critImp m) (nodeSamples (row :: rest) labels f) v) := by
  obtain ⟨row', rest', B', hs, s0, hdata, hB, hid, hmake, hinit, hloop, hfin⟩ := solveMab_parts hok
  cases hdata
  cases hB
  refine ⟨hs, hmake, ?_⟩
  have hg := makeHistograms_good hb hmake
  have h5 : 5 < numCands hs.hists row.length B := lt_of_lt_of_le (by omega) (numCands_linear_all hb hmake (solveMab_cands hb hmake hok))
  have h5' := lt_of_lt_of_le h5 hg.numCands_le
  have hin := hg.cands_inside (by simp) (by simp)
  have hi := MabInv.init (m := m) hg hmake hinit
  obtain ⟨n, hruns⟩ := mabLoop_ok_runs _ _ hloop
  obtain ⟨I, hI⟩ := hi.visited hm hb (by simp) hg hruns.visited
  have hfull := full_final hm hb (by simp) hg hmake hinit h5' hin hbatch hruns
  obtain ⟨arm, hc, hbest, hsplit⟩ := full_finish hm hb hg hI hfull hin (by intro hc; rw [hc] at h5'; simp at h5') hfin
  have hall : ∀ f b v, IsCand hs.hists B f b v → armChange (row :: rest) labels (edgesOf hs.hists) m arm ≤
      change (critImp m) (nodeSamples (row :: rest) labels f) v := by
    intro f b v hcv
    obtain ⟨hmem, hval⟩ := hg.cand_mem hcv
    have := hbest _ hmem
    unfold armChange at this ⊢
    rw [hval] at this
    exact this
  constructor
  · intro r hr
    rw [hsplit] at hr
    split_ifs at hr with hneg
    cases hr
    have hv := hg.cands_valid arm hc
    refine ⟨arm.2, ⟨?_, ?_⟩, rfl, hneg, hall⟩
    · rw [List.getElem?_eq_getElem hv.2, List.getD_eq_getElem _ _ hv.2]
    · exact (mem_allArms.1 (hin _ hc)).2
  · intro hr f b v hcv
    rw [hsplit] at hr
    split_ifs at hr with hneg
    exact (not_lt.1 hneg).trans (hall f b v hcv)

/-! ## Whole trees -/

/-- A tree grown by MABSplit with LINEAR bins, at least six of them, on all columns, without a budget, from no more rows than are drawn in one
batch. -/
structure SmallMab (A : TreeArgs K) : Prop where
  args : ArgsOK A
  solver : A.cfg.solver = .mab
  binning : A.cfg.binType = some .linear
  noLog : A.cfg.useLog = false
  bins : ∃ B, 6 ≤ B ∧ A.cfg.numBins = some B
  features : A.cfg.featSub = .none
  budget : A.budget = none
  depth : A.cfg.maxDepth ≠ .none
  batch : A.rows.length ≤ A.cfg.batch

section
variable {R : Rng K G} {mem : Nat → Junk K} {A : TreeArgs K} {dd : DiscDict K} {t0 t : Tree K G}

/-- The answer of `solve_mab` for a node, in terms of the greedy tree problem. -/
theorem GrowFacts.mab_best (h : GrowFacts R mem A dd t0 t) (hA : SmallMab A) {id : Nat} {nd : Node K} (hn : NodeAt t id nd)
    (hc : nd.computed = true) {r : Option (SplitRes K)} {q : Nat} (hsay : SolverSays R A nd r q) :
    (∀ s, r = some s → A.problem.Best nd.idcs (nd.featIdcs.getD s.feat 0, s.value) ∧
      s.red = .fin (A.problem.score nd.idcs (nd.featIdcs.getD s.feat 0, s.value)) ∧
      A.problem.score nd.idcs (nd.featIdcs.getD s.feat 0, s.value) < 0) ∧
    (r = none → ∀ c ∈ A.problem.candidates nd.idcs, 0 ≤ A.problem.score nd.idcs c) := by
  have hok := h.nodes _ _ hn
  have hcols : nd.featIdcs = A.cols := hok.feats_num.all (by rw [h.cfg_eq]; exact hA.features)
  obtain ⟨B, h6, hBcfg⟩ := hA.bins
  have hB : nd.numBins = some B := by
    have := hok.bins_eq (by rw [h.cfg_eq]; exact hA.noLog)
    rw [h.cfg_eq] at this
    rw [this]
    exact hBcfg
  have hbin : BinningOK nd.minmax nd.discrete (some .linear) B := by
    have := h.binning hA.args hn hc B (Or.inr hB)
    rw [hA.binning] at this
    exact this
  have hne := (hok.solved hc).can.rows_ne
  obtain ⟨i, is, hi⟩ := List.exists_cons_of_ne_nil hne
  have hsub : subRows A.data nd.idcs nd.featIdcs =
      nd.featIdcs.map (fun j => (A.data.getD i []).getD j 0) :: subRows A.data is nd.featIdcs := by rw [hi]; rfl
  obtain ⟨g, glob, junk, budget, g', glob', hrun⟩ := hsay
  unfold nodeSolve at hrun
  rw [hA.solver] at hrun
  simp only [] at hrun
  split at hrun
  · cases hrun
  rename_i out hex
  simp only [Except.ok.injEq, Prod.mk.injEq] at hrun
  obtain ⟨rfl, _⟩ := hrun
  rw [hA.binning, hB, hsub] at hex
  have hlen : (nd.featIdcs.map (fun j => (A.data.getD i []).getD j 0) :: subRows A.data is nd.featIdcs).length ≤ A.cfg.batch := by
    rw [← hsub]
    refine le_trans ?_ (le_trans (h.rows_sublist hn).length_le hA.batch)
    simp [subRows]
  obtain ⟨hs, hmake, hsome, hnone⟩ := C157_node R _ _ _ _ _ _ _ _ B _ _ _ _ _ _ out hA.args.crit hbin h6 hlen hex
  have hgl := (makeHistograms_good hbin hmake).len
  rw [← hsub] at hmake hsome hnone
  have hsam : ∀ (j f : Nat) (v : K), nd.featIdcs[j]? = some f →
      change (critImp A.cfg.criterion) (nodeSamples (subRows A.data nd.idcs nd.featIdcs) (labelsOf A.labels nd.idcs) j) v =
        A.problem.score nd.idcs (f, v) := by
    intro j f v hj
    obtain ⟨hj1, hj2⟩ := List.getElem?_eq_some_iff.1 hj
    rw [nodeSamples_sub hj1, List.getD_eq_getElem _ _ hj1, hj2]
    rfl
  have hgrid : ∀ j f, nd.featIdcs[j]? = some f → edgesOf hs.hists j =
      A.problem.grid f (nd.idcs.map (fun i => A.problem.value i f)) ∧ (edgesOf hs.hists j).length ≤ B :=
    fun j f hj => h.edges_grid hA.args (Or.inr hA.binning) hn hc (by rw [hA.binning]; simpa [exactBins] using hB)
      (by rw [hA.binning]; exact hmake) hj
  have hcd : ∀ c ∈ A.problem.candidates nd.idcs, ∃ j b, nd.featIdcs[j]? = some c.1 ∧ IsCand hs.hists B j b c.2 := by
    intro c hcm
    obtain ⟨j, b, a1, a2⟩ := mem_flatMap_at (g := fun f => A.problem.grid f (nd.idcs.map (fun i => A.problem.value i f))) hcm
    rw [show A.problem.cols = nd.featIdcs from hcols.symm] at a1
    obtain ⟨e1, e2⟩ := hgrid j c.1 a1
    have a2' : (edgesOf hs.hists j)[b]? = some c.2 := by rw [e1]; exact a2
    exact ⟨j, b, a1, a2', lt_of_lt_of_le (List.getElem?_eq_some_iff.1 a2').1 e2⟩
  constructor
  · intro s hs'
    obtain ⟨b, hcand, hred, hneg, hall⟩ := hsome s hs'
    have hflt : s.feat < nd.featIdcs.length := by
      by_contra hcon
      have h1 := (List.getElem?_eq_some_iff.1 hcand.1).1
      unfold edgesOf at h1
      rw [List.getElem?_eq_none (by rw [hgl]; simpa using hcon)] at h1
      simp at h1
    have hj : nd.featIdcs[s.feat]? = some (nd.featIdcs.getD s.feat 0) := by
      rw [List.getElem?_eq_getElem hflt, List.getD_eq_getElem _ _ hflt]
    have hscore := hsam _ _ s.value hj
    refine ⟨⟨?_, ?_⟩, by rw [hred, hscore], by rw [← hscore]; exact hneg⟩
    · refine List.mem_flatMap.2 ⟨nd.featIdcs.getD s.feat 0, ?_, List.mem_map.2 ⟨s.value, ?_, rfl⟩⟩
      · show _ ∈ A.cols
        rw [← hcols]
        exact List.mem_of_getElem? hj
      · rw [← (hgrid _ _ hj).1]
        exact List.mem_of_getElem? hcand.1
    · intro x hx
      obtain ⟨j, b', a1, a2⟩ := hcd x hx
      have := hall _ _ _ a2
      rw [hscore, hsam j x.1 x.2 a1] at this
      exact this
  · intro hr c hcm
    obtain ⟨j, b, a1, a2⟩ := hcd c hcm
    have := hnone hr _ _ _ a2
    rw [hsam j c.1 c.2 a1] at this
    exact this

/-- A node that was split was split at a best candidate, and that was worth it. -/
theorem GrowFacts.mab_split_best (h : GrowFacts R mem A dd t0 t) (hA : SmallMab A) {id : Nat} {nd : Node K} (hn : NodeAt t id nd)
    (hl : nd.left ≠ none) : ∃ f, nd.splitFeature = some f ∧ A.problem.MaySplit nd.depth nd.idcs ∧
      A.problem.Best nd.idcs (f, nd.splitValue) ∧ A.problem.Worth nd.idcs (A.problem.score nd.idcs (f, nd.splitValue)) := by
  have hok := h.nodes _ _ hn
  obtain ⟨hc, hsp, hne, red, hr1, hr2, hr3⟩ := hok.split hl
  obtain ⟨r, hsay, hrec, _⟩ := h.says hn hc
  cases r with
  | none =>
    rw [hrec.1] at hr1
    cases hr1
  | some s =>
    obtain ⟨e1, _, e3, e4⟩ := hrec
    obtain ⟨hb, hred, hneg⟩ := (h.mab_best hA hn hc hsay).1 s rfl
    have hcan := h.canSplit_iff.1 (hok.solved hc).can
    refine ⟨_, e4, (maySplit_iff hA.depth nd).2 hcan, by rw [e3]; exact hb, ?_⟩
    rw [e3, ← enough_iff hneg (h.labels_ne hn hne)]
    have hsplit := (hok.solved hc).splittable
    rw [hsp] at hsplit
    unfold splittableImpurity at hsplit
    rw [hr1] at hsplit
    rw [hred, hok.prop_eq (h.rows_pos hn hne)] at e1
    rw [e1] at hr1
    cases hr1
    rw [h.cfg_eq] at hr3 hsplit
    rw [hok.nData_eq] at hsplit
    exact ⟨(Option.some.inj hsplit).symm, hr3⟩

/-- A leaf of a finished tree was not worth splitting. -/
theorem GrowFacts.mab_leaf_final (h : GrowFacts R mem A dd t0 t)
    (hf : ∀ (id : Nat) (nd : Node K), IsLeaf t id → NodeAt t id nd → LeafDone R A nd) (hA : SmallMab A) {id : Nat} {nd : Node K}
    (hn : NodeAt t id nd) (hl : nd.left = none) (hmay : A.problem.MaySplit nd.depth nd.idcs) (c : Nat × K)
    (hb : A.problem.Best nd.idcs c) : ¬ A.problem.Worth nd.idcs (A.problem.score nd.idcs c) := by
  have hleaf : IsLeaf t id := (h.shape.isLeaf id).1 ((h.shape.leaves id).2 ⟨nd, hn, hl⟩)
  rcases hf id nd hleaf hn with h1 | ⟨hc, r, q, hsay, hrec, hno⟩
  · exact absurd ((maySplit_iff hA.depth nd).1 hmay) h1
  · intro hw
    obtain ⟨h2, h3⟩ := h.mab_best hA hn hc hsay
    cases r with
    | none => exact absurd hw.neg (not_lt.2 (h3 rfl c hb.1))
    | some s =>
      obtain ⟨hb', hred, hneg⟩ := h2 s rfl
      have he : A.problem.score nd.idcs (nd.featIdcs.getD s.feat 0, s.value) = A.problem.score nd.idcs c :=
        le_antisymm (hb'.2 _ hb.1) (hb.2 _ hb'.1)
      apply hno s rfl
      rw [hred]
      have hne : nd.idcs ≠ [] := by
        intro e
        have := hmay.size
        rw [e] at this
        simp at this
      exact (enough_iff hneg (h.labels_ne hn hne)).2 (by rw [he]; exact hw)

theorem GrowFacts.isGreedy (h : GrowFacts R mem A dd t0 t) (hf : ∀ (id : Nat) (nd : Node K), IsLeaf t id → NodeAt t id nd → LeafDone R A nd)
    (hA : SmallMab A) : ∀ (k id : Nat) (nd : Node K), t.nodes.length - id ≤ k → NodeAt t id nd →
      ∃ D, ReadsAs t id D ∧ A.problem.IsGreedy nd.depth nd.idcs D := by
  intro k
  induction k with
  | zero =>
    intro id nd hk hn
    have := nodeAt_lt hn
    omega
  | succ k ih =>
    intro id nd hk hn
    have hlt := nodeAt_lt hn
    rcases h.shape.links _ _ hn with ⟨h1, h2⟩ | ⟨l, r, nl, nr, h1, h2, h3, h4, _, h6, h7, h8⟩
    · exact ⟨_, .leaf hn h1 h2, .leaf fun hmay c hb => h.mab_leaf_final hf hA hn h1 hmay c hb⟩
    · obtain ⟨f, hf1, hmay, hb, hw⟩ := h.mab_split_best hA hn (by rw [h1]; simp)
      obtain ⟨f', hf2, _, e1, e2⟩ := h8.feat
      rw [hf1] at hf2
      cases hf2
      obtain ⟨y, hy1, hy2⟩ := ih l nl (by omega) h6
      obtain ⟨n, hn1, hn2⟩ := ih r nr (by omega) h7
      rw [h8.left_depth, e1] at hy2
      rw [h8.right_depth, e2] at hn2
      exact ⟨_, .node hn h1 h2 hf1 hy1 hn1, .node hmay hb hw hy2 hn2⟩

end

/-- C157. A tree grown by MABSplit on data no larger than a batch is a greedy tree: every node that may be split is split at a best candidate,
if that is worth it. -/
theorem C157_greedy (R : Rng K G) (mem : Nat → Junk K) (A : TreeArgs K) (hA : SmallMab A) (t : Tree K G) (h : Fitted R mem A t)
    (hm : A.cfg.maxLeafNodes ≠ some t.leaves.length) : ∃ D, ReadsAs t 0 D ∧ A.problem.IsGreedy 0 A.rows D := by
  obtain ⟨dd, t0, hf⟩ := h.facts
  obtain ⟨root, h1, h2, h3⟩ := hf.shape.root
  obtain ⟨D, e1, e2⟩ := hf.isGreedy (fun id nd hl hn => leaf_done R mem A h hA.budget hm id hl nd hn) hA t.nodes.length 0 root (by omega) h1
  rw [h2, h3] at e2
  exact ⟨D, e1, e2⟩

/-- A tree is read in one way. -/
theorem ReadsAs.unique {t : Tree K G} {id : Nat} {D D' : DTree K} (h : ReadsAs t id D) (h' : ReadsAs t id D') : D = D' := by
  induction h generalizing D' with
  | leaf hn hl hr =>
    cases h' with
    | leaf hn' _ _ =>
      obtain rfl := Option.some.inj (hn.symm.trans hn')
      rfl
    | node hn' hl' _ _ _ _ =>
      obtain rfl := Option.some.inj (hn.symm.trans hn')
      rw [hl] at hl'
      cases hl'
  | node hn hl hr hf _ _ ihy ihn =>
    cases h' with
    | leaf hn' hl' _ =>
      obtain rfl := Option.some.inj (hn.symm.trans hn')
      rw [hl] at hl'
      cases hl'
    | node hn' hl' hr' hf' hy' hn'' =>
      obtain rfl := Option.some.inj (hn.symm.trans hn')
      rw [hl] at hl'
      rw [hr] at hr'
      rw [hf] at hf'
      cases hl'
      cases hr'
      cases hf'
      rw [ihy hy', ihn hn'']

/-- The same arguments for the exact solver. -/
def TreeArgs.exactly (A : TreeArgs K) (seed : Nat) : TreeArgs K := { A with seed := seed, cfg := { A.cfg with solver := .exact } }

theorem SmallMab.noChoice {A : TreeArgs K} (hA : SmallMab A) (seed : Nat) : NoChoice (A.exactly seed) :=
  ⟨⟨hA.args.crit, hA.args.minmax_le, hA.args.sorted, hA.args.linear_bins, hA.args.auto_bins⟩, rfl, Or.inr hA.binning, hA.features, hA.budget,
    hA.depth⟩

/-- C157, the same tree. If at the questions of the exact solver's tree all equally good candidates separate the training rows into the same two
groups, then MABSplit's tree has the same form and the same training rows in its leaves. -/
theorem C157_same (R : Rng K G) (R' : Rng K G') (mem mem' : Nat → Junk K) (A : TreeArgs K) (hA : SmallMab A) (seed : Nat) (t : Tree K G)
    (t' : Tree K G') (h : Fitted R mem A t) (h' : Fitted R' mem' (A.exactly seed) t') (hm : A.cfg.maxLeafNodes ≠ some t.leaves.length)
    (hm' : A.cfg.maxLeafNodes ≠ some t'.leaves.length) (D' : DTree K) (hD' : ReadsAs t' 0 D') (hc : A.problem.ClearParts A.rows D') :
    ∃ D, ReadsAs t 0 D ∧ D'.SameGroups D := by
  obtain ⟨D, hr, hg⟩ := C157_greedy R mem A hA t h hm
  obtain ⟨D0, hr', hg', _⟩ := C101_greedy_tree R' mem' _ (hA.noChoice seed) t' h' hm'
  obtain rfl := hD'.unique hr'
  exact ⟨D, hr, hg'.greedy.sameGroups hg hc⟩

/-- C157, the same answers on the training rows. -/
theorem C157_answers (R : Rng K G) (R' : Rng K G') (mem mem' : Nat → Junk K) (A : TreeArgs K) (hA : SmallMab A) (seed : Nat) (t : Tree K G)
    (t' : Tree K G') (h : Fitted R mem A t) (h' : Fitted R' mem' (A.exactly seed) t') (hm : A.cfg.maxLeafNodes ≠ some t.leaves.length)
    (hm' : A.cfg.maxLeafNodes ≠ some t'.leaves.length) (D' : DTree K) (hD' : ReadsAs t' 0 D') (hc : A.problem.ClearParts A.rows D')
    (hd : A.cfg.isCls = true → ClassesOK A.cfg.classes) (i : Nat) (hi : i ∈ A.rows) (x : List K) (hx : A.data[i]? = some x)
    (hlen : ∀ f ∈ A.cols, f < x.length) :
    ∃ p t2 t2', t.predict x = .ok (p, t2) ∧ t'.predict x = .ok (p, t2') := by
  obtain ⟨D, hr, hg⟩ := C157_greedy R mem A hA t h hm
  obtain ⟨D0, hr', hg', _⟩ := C101_greedy_tree R' mem' _ (hA.noChoice seed) t' h' hm'
  obtain rfl := hD'.unique hr'
  have hval : ∀ f ∈ A.problem.cols, x[f]? = some (A.problem.value i f) := by
    intro f hf
    have := hlen f hf
    show _ = some ((A.data.getD i []).getD f 0)
    rw [List.getD_eq_getElem?_getD (l := A.data), hx]
    simp [List.getElem?_eq_getElem this, List.getD_eq_getElem _ _ this]
  have hsame := (hg'.greedy.rowsAt_eq hg hc hi hval).1
  obtain ⟨p, t2, hp⟩ := C36_predict_total R mem A t t h hd (List.ne_nil_of_mem hi) .none x hlen
  obtain ⟨p', t2', hp'⟩ := C36_predict_total R' mem' _ t' t' h' hd (List.ne_nil_of_mem hi) .none x hlen
  obtain ⟨leaf, nd, _, a2, a3, a4, a5, a6⟩ := h.predict_parts .none hp
  obtain ⟨leaf', nd', _, b2, b3, b4, b5, b6⟩ := h'.predict_parts .none hp'
  obtain ⟨dd, t0, hf⟩ := h.facts
  obtain ⟨dd', t0', hf'⟩ := h'.facts
  have e : nd'.idcs = nd.idcs := by rw [← a5, ← b5, ← hr.rowsAt a2, ← hr'.rowsAt b2, hsame]
  have := nodePred_rows hf hf' rfl rfl rfl a3 b3 a4 b4 e
  rw [a6, b6] at this
  cases this
  exact ⟨p, t2, t2', hp, hp'⟩

/-! ### Examples -/

instance clearPartsDec {K : Type} [Field K] [LinearOrder K] (P : CartProblem K) : (rows : List Nat) → (D : DTree K) → Decidable (P.ClearParts rows D)
  | _, .leaf _ => .isTrue trivial
  | rows, .node f v yes no =>
    have := clearPartsDec P (rows.filter (fun i => decide (P.value i f ≤ v))) yes
    have := clearPartsDec P (rows.filter (fun i => decide (v < P.value i f))) no
    inferInstanceAs (Decidable (_ ∧ _ ∧ _))

/-- Six rows, six LINEAR bins, batches of six. -/
def exArgsSmall : TreeArgs ℚ :=
  { exArgs with
    data := [[0, 1, 9], [1, 1, 9], [2, 5, 9], [7, 4, 0], [7, 2, 0], [7, 2, 1]], labels := [0, 0, 0, 0, 1, 1]
    cfg := { cfgQ with solver := .mab, binType := some .linear, numBins := some 6, batch := 6 } }

/-- Four rows where two splits are equally good; one split only. -/
def exArgsTied : TreeArgs ℚ :=
  { exArgsSmall with data := [[0, 0], [0, 1], [1, 0], [1, 1]], labels := [0, 1, 0, 0], cfg := { exArgsSmall.cfg with maxDepth := .some 1 } }

theorem exArgsSmall_small : SmallMab exArgsSmall :=
  ⟨⟨by simp [CritFits, exArgsSmall, cfgQ], fun _ _ h => (by cases h), fun _ _ h => (by cases h), fun _ _ h => (by cases h), fun h => by cases h⟩,
    rfl, rfl, rfl, ⟨6, le_rfl, rfl⟩, rfl, rfl, by simp [exArgsSmall, cfgQ], by decide⟩

theorem exArgsTied_small : SmallMab exArgsTied :=
  ⟨⟨by simp [CritFits, exArgsTied, exArgsSmall, cfgQ], fun _ _ h => (by cases h), fun _ _ h => (by cases h), fun _ _ h => (by cases h),
    fun h => by cases h⟩, rfl, rfl, rfl, ⟨6, le_rfl, rfl⟩, rfl, rfl, by simp [exArgsTied], by decide⟩

/-- The hypotheses of C157 are met: the two solvers ask different questions, and the leaves are the same. -/
example : (∃ t, Fitted rngQ exMem exArgsSmall t ∧ (decide (exArgsSmall.cfg.maxLeafNodes ≠ some t.leaves.length) &&
      isTree t 0 (.node 0 (28 / 5) (.leaf [0, 1, 2]) (.node 1 (16 / 5) (.leaf [4, 5]) (.leaf [3])))) = true) ∧
    ∃ t', Fitted rngQ exMem (exArgsSmall.exactly 3) t' ∧ exArgsSmall.cfg.maxLeafNodes ≠ some t'.leaves.length ∧
      ∀ D, ReadsAs t' 0 D → D = .node 0 (14 / 5) (.leaf [0, 1, 2]) (.node 1 2 (.leaf [4, 5]) (.leaf [3])) ∧
        exArgsSmall.problem.ClearParts exArgsSmall.rows D := by
  refine ⟨runTree_exists (glob := exGlob) (by decide +kernel), ?_⟩
  obtain ⟨t, h1, h2⟩ := runTree_exists (R := rngQ) (mem := exMem) (A := exArgsSmall.exactly 3) (glob := exGlob)
    (p := fun t => decide (exArgsSmall.cfg.maxLeafNodes ≠ some t.leaves.length) &&
      isTree t 0 (.node 0 (14 / 5) (.leaf [0, 1, 2]) (.node 1 2 (.leaf [4, 5]) (.leaf [3])))) (by decide +kernel)
  rw [Bool.and_eq_true, decide_eq_true_eq] at h2
  refine ⟨t, h1, h2.1, fun D hD => ?_⟩
  rw [isTree_sound h2.2 hD]
  exact ⟨rfl, by decide +kernel⟩

/-- C157, the condition is needed. Where equally good candidates separate the rows differently, MABSplit may choose another one than the exact
solver, and the two trees answer differently for a training row. -/
theorem C157_refuted_ties : ∃ (A : TreeArgs ℚ) (t t' : Tree ℚ Nat) (x : List ℚ) (p p' : Pred ℚ) (t2 t2' : Tree ℚ Nat), SmallMab A ∧
    Fitted rngQ exMem A t ∧ Fitted rngQ exMem (A.exactly A.seed) t' ∧ A.cfg.maxLeafNodes ≠ some t.leaves.length ∧
    A.cfg.maxLeafNodes ≠ some t'.leaves.length ∧ x ∈ A.data ∧ t.predict x = .ok (p, t2) ∧ t'.predict x = .ok (p', t2') ∧ p ≠ p' := by
  obtain ⟨t, h1, h2⟩ := runTree_exists (R := rngQ) (mem := exMem) (A := exArgsTied) (glob := { np := 7, py := 5 })
    (p := fun t => decide (exArgsTied.cfg.maxLeafNodes ≠ some t.leaves.length) &&
      decide ((t.predict [0, 0]).toOption.map (fun p => p.1) = some (.cls 0 [1, 0]))) (by decide +kernel)
  obtain ⟨t', h1', h2'⟩ := runTree_exists (R := rngQ) (mem := exMem) (A := exArgsTied.exactly 0) (glob := exGlob)
    (p := fun t => decide (exArgsTied.cfg.maxLeafNodes ≠ some t.leaves.length) &&
      decide ((t.predict [0, 0]).toOption.map (fun p => p.1) = some (.cls 0 [1 / 2, 1 / 2]))) (by decide +kernel)
  rw [Bool.and_eq_true, decide_eq_true_eq, decide_eq_true_eq] at h2 h2'
  have hget : ∀ (u : Tree ℚ Nat) (p : Pred ℚ), (u.predict [0, 0]).toOption.map (fun p => p.1) = some p →
      ∃ u2, u.predict [0, 0] = .ok (p, u2) := by
    intro u p h
    cases e : u.predict [0, 0] with
    | error x => rw [e] at h; cases h
    | ok q =>
      rw [e] at h
      cases h
      exact ⟨q.2, rfl⟩
  obtain ⟨t2, e2⟩ := hget _ _ h2.2
  obtain ⟨t2', e2'⟩ := hget _ _ h2'.2
  exact ⟨exArgsTied, t, t', [0, 0], _, _, t2, t2', exArgsTied_small, h1, h1', h2.1, h2'.1, by decide, e2, e2', by decide +kernel⟩

end FF
