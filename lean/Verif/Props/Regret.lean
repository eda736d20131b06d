import Verif.Proofs.MabEst
import Verif.Props.Solvers

/-!
# Property C112: what MABSplit's answer is worth
-/

namespace FF

open Spec

set_option linter.unusedSectionVars false

variable {K : Type} [Field K] [LinearOrder K] [IsStrictOrderedRing K] [FloorRing K] [NpFun K] {G : Type}

theorem numCands_pos {hists : List (Hist K)} {F B : Nat} (h : 0 < numCands hists F B) :
    ∃ f b v, f < F ∧ IsCand hists B f b v := by
  unfold numCands at h
  have : ∃ f ∈ List.range F, min B (edgesOf hists f).length ≠ 0 := by
    by_contra hc
    push Not at hc
    have h0 : ((List.range F).map (fun f => min B (edgesOf hists f).length)).sum = 0 := by
      apply List.sum_eq_zero
      intro x hx
      obtain ⟨f, hf, rfl⟩ := List.mem_map.1 hx
      exact hc f hf
    omega
  obtain ⟨f, hf, hpos⟩ := this
  have hE : 0 < (edgesOf hists f).length := by omega
  exact ⟨f, 0, _, List.mem_range.1 hf, List.getElem?_eq_getElem hE, by omega⟩

/-- C112. An arm that `solve_mab` marks as exact carries the true value of its split, the change of impurity over all rows of the
node, at any time during a run. -/
theorem C112_exact_arms (R : Rng K G) (g : G) (glob : Glob G) (junk : Junk K) (data : List (List K)) (labels : List K)
    (minmax : Option (List K × List K)) (d : DiscDict K) (binType : Option BinType) (B : Nat)
    (isCls : Bool) (m : Criterion) (epsilon : K) (withRep : Bool) (budget : Option Int) (batch : Nat) (hs : Hists K G)
    (s : MabState K G) (hm : CritFits isCls m) (hb : BinningOK minmax d binType B)
    (hrun : MabDuring R g glob junk data labels minmax d binType B isCls m epsilon withRep budget batch hs s)
    (f b : Nat) (v : K) (hc : IsCand hs.hists B f b v) (hex : s.exact (f, b) = true) :
    s.est (f, b) = .fin (change (critImp m) (nodeSamples data labels f) v) := by
  obtain ⟨row, rest, s0, rfl, hid, hmake, hinit, hv⟩ := hrun
  have hg := makeHistograms_good hb hmake
  have hi := MabInv.init (m := m) hg hmake hinit
  have he := (EstInv.init (isCls := isCls) (labels := labels) (m := m) (data := row :: rest) hinit).visited hm hb (by simp) hg hi hv
  obtain ⟨hmem, hval⟩ := hg.cand_mem hc
  rw [he.exact _ (hg.cand_not_notCons hmem) hex]
  unfold armChange
  rw [hval]

/-- With replacement and batches of three out of six rows, this regression run first samples every arm and then computes all of
them exactly; the estimates are the true values. -/
example :
    (solveMab rngQ 0 ⟨0, 0⟩ junkQ [[0, 1], [1, 1], [2, 5], [3, 5], [4, 2], [5, 2]] [0, 3, 1, 7, 2, 1] none none
      (some .linear) (some 4) false .mse 0 true none 3).toOption.map (fun o => (o.final.log, (allArms 2 4).map o.final.exact,
        (allArms 2 4).map o.final.est))
      = some ([[0, 1, 4], [0, 1, 2, 3, 4, 5]], List.replicate 8 true,
        [.fin (-49 / 45), .fin (-25 / 72), .fin (-25 / 72), .fin 0, .fin (-25 / 72), .fin (-25 / 18), .fin (-25 / 18), .fin 0]) ∧
    (makeHistograms rngQ 0 false [[0, 1], [1, 1], [2, 5], [3, 5], [4, 2], [5, 2]] [0, 3, 1, 7, 2, 1] none none
      (some .linear) 4).toOption.map (fun hs => (allArms 2 4).map (fun a => change variance
        (nodeSamples [[0, 1], [1, 1], [2, 5], [3, 5], [4, 2], [5, 2]] [0, 3, 1, 7, 2, 1] a.1) ((edgesOf hs.hists a.1).getD a.2 0)))
      = some [-49 / 45, -25 / 72, -25 / 72, 0, -25 / 72, -25 / 18, -25 / 18, 0] := by
  constructor <;> decide +kernel

/-- C112, classification. The reduction that `solve_mab` reports is the true change of impurity of the reported split, a candidate,
over some of the rows of the node; without replacement each of them is counted once. -/
theorem C112_reported (R : Rng K G) (g : G) (glob : Glob G) (junk : Junk K) (row : List K) (rest : List (List K))
    (labels : List K) (minmax : Option (List K × List K)) (d : DiscDict K) (binType : Option BinType) (B : Nat)
    (m : Criterion) (epsilon : K) (withRep : Bool) (budget : Option Int) (batch : Nat) (out : MabOut K G)
    (hs : Hists K G) (r : SplitRes K) (hm : CritFits true m) (hb : BinningOK minmax d binType B)
    (hmake : makeHistograms R glob.np true (row :: rest) labels minmax d binType B = .ok hs)
    (h5 : 5 < numCands hs.hists row.length B)
    (hok : solveMab R g glob junk (row :: rest) labels minmax d binType (some B) true m epsilon withRep budget batch
      = .ok out) (hr : out.split = some r) :
    (∃ b, IsCand hs.hists B r.feat b r.value) ∧
    ∃ S : List Nat, S ≠ [] ∧ (∀ i ∈ S, i < (row :: rest).length) ∧ (withRep = false → S.Nodup) ∧
      r.red = .fin (change (critImp m) (S.map (rowSample (row :: rest) labels r.feat)) r.value) := by
  obtain ⟨row', rest', B', hs', s0, hdata, hB, hid, hmake', hinit, hloop, hfin⟩ := solveMab_parts hok
  cases hdata
  cases hB
  rw [hmake] at hmake'
  cases hmake'
  have hg := makeHistograms_good hb hmake
  have hi := MabInv.init (m := m) hg hmake hinit
  obtain ⟨n, hruns⟩ := mabLoop_ok_runs _ _ hloop
  obtain ⟨I, hI⟩ := hi.visited hm hb (by simp) hg hruns.visited
  have he := (EstInv.init (isCls := true) (labels := labels) (m := m) (data := row :: rest) hinit).visited hm hb (by simp) hg hi
    hruns.visited
  have htouch := final_touched hm hb (by simp) hg hmake hinit (lt_of_lt_of_le h5 hg.numCands_le) hruns
  obtain ⟨f0, b0, v0, _, hc0⟩ := numCands_pos (by omega : 0 < numCands hs.hists row.length B)
  have hm0 := (hg.cand_mem hc0).1
  obtain ⟨arm, e, ha, hal, hest, _, hsplit⟩ := touched_finish hm hb hg hI htouch
    ⟨_, hm0, mem_allArms.2 ⟨(hg.cands_valid _ hm0).1, hc0.2⟩⟩ hfin
  rw [hsplit] at hr
  split_ifs at hr with hneg
  cases hr
  refine ⟨⟨arm.2, hg.mem_cand ha (mem_allArms.1 hal).2⟩, ?_⟩
  rcases htouch arm hal with h | h
  · exact absurd h (hg.cand_not_notCons ha)
  · have := he.rows rfl arm h
    rw [hest] at this
    exact this

/-- A run that stops after the batch of rows 0, 1 and 2: the reported `-4/9` is the change of impurity over these three rows. -/
example :
    (solveMab rngQ 0 ⟨0, 0⟩ junkQ [[0, 1], [1, 1], [2, 5], [3, 5], [4, 2], [5, 2]] [0, 0, 1, 1, 0, 1] none none
      (some .linear) (some 4) true .gini 0 false none 3).toOption.map (fun o => (o.final.log, o.split))
      = some ([[0, 1, 2]], some ⟨0, 5 / 3, .fin (-4 / 9)⟩) ∧
    (makeHistograms rngQ 0 true [[0, 1], [1, 1], [2, 5], [3, 5], [4, 2], [5, 2]] [0, 0, 1, 1, 0, 1] none none
      (some .linear) 4).toOption.map (fun hs => (numCands hs.hists 2 4, (edgesOf hs.hists 0)[1]?)) = some (8, some (5 / 3)) ∧
    change gini ([0, 1, 2].map (rowSample [[0, 1], [1, 1], [2, 5], [3, 5], [4, 2], [5, 2]] [0, 0, 1, 1, 0, 1] 0)) (5 / 3 : ℚ)
      = -4 / 9 := by
  refine ⟨?_, ?_, ?_⟩ <;> decide +kernel

/-- C112. Suppose the last estimates of all candidate splits are off by at most `err` from the true values (the changes of impurity
over the whole node). Then a reported split is a candidate whose true value is within `err` of the reported reduction and
exceeds the true value of no other candidate by more than the two errors; and if no split is reported, no candidate has a true
value below `-err`. The estimates exist: each is a number. -/
theorem C112_regret (R : Rng K G) (g : G) (glob : Glob G) (junk : Junk K) (row : List K) (rest : List (List K))
    (labels : List K) (minmax : Option (List K × List K)) (d : DiscDict K) (binType : Option BinType) (B : Nat)
    (isCls : Bool) (m : Criterion) (epsilon : K) (withRep : Bool) (budget : Option Int) (batch : Nat) (out : MabOut K G)
    (hs : Hists K G) (hm : CritFits isCls m) (hb : BinningOK minmax d binType B)
    (hmake : makeHistograms R glob.np isCls (row :: rest) labels minmax d binType B = .ok hs)
    (h5 : 5 < numCands hs.hists row.length B)
    (hok : solveMab R g glob junk (row :: rest) labels minmax d binType (some B) isCls m epsilon withRep budget batch
      = .ok out) :
    (∀ f b v, IsCand hs.hists B f b v → ∃ e, out.final.est (f, b) = .fin e) ∧
    ∀ err : Nat → Nat → K,
      (∀ f b v e, IsCand hs.hists B f b v → out.final.est (f, b) = .fin e →
        |change (critImp m) (nodeSamples (row :: rest) labels f) v - e| ≤ err f b) →
      (∀ r, out.split = some r → ∃ b e, IsCand hs.hists B r.feat b r.value ∧ r.red = .fin e ∧
        |change (critImp m) (nodeSamples (row :: rest) labels r.feat) r.value - e| ≤ err r.feat b ∧
        ∀ f' b' v', IsCand hs.hists B f' b' v' →
          change (critImp m) (nodeSamples (row :: rest) labels r.feat) r.value ≤
            change (critImp m) (nodeSamples (row :: rest) labels f') v' + err r.feat b + err f' b') ∧
      (out.split = none → ∀ f b v, IsCand hs.hists B f b v →
        -err f b ≤ change (critImp m) (nodeSamples (row :: rest) labels f) v) := by
  obtain ⟨row', rest', B', hs', s0, hdata, hB, hid, hmake', hinit, hloop, hfin⟩ := solveMab_parts hok
  cases hdata
  cases hB
  rw [hmake] at hmake'
  cases hmake'
  have hg := makeHistograms_good hb hmake
  have hi := MabInv.init (m := m) hg hmake hinit
  obtain ⟨n, hruns⟩ := mabLoop_ok_runs _ _ hloop
  obtain ⟨I, hI⟩ := hi.visited hm hb (by simp) hg hruns.visited
  have htouch := final_touched hm hb (by simp) hg hmake hinit (lt_of_lt_of_le h5 hg.numCands_le) hruns
  have hcand : ∀ f b v, IsCand hs.hists B f b v → (f, b) ∈ candArms row.length B hs ∧ (f, b) ∈ allArms row.length B := by
    intro f b v hc
    have h := (hg.cand_mem hc).1
    exact ⟨h, mem_allArms.2 ⟨(hg.cands_valid _ h).1, hc.2⟩⟩
  have hest : ∀ f b v, IsCand hs.hists B f b v → ∃ e, out.final.est (f, b) = .fin e := by
    intro f b v hc
    obtain ⟨h1, h2⟩ := hcand f b v hc
    rcases htouch _ h2 with h | h
    · exact absurd h (hg.cand_not_notCons h1)
    · obtain ⟨e, he, _⟩ := hI.touched _ h
      exact ⟨e, he⟩
  obtain ⟨f0, b0, v0, _, hc0⟩ := numCands_pos (by omega : 0 < numCands hs.hists row.length B)
  obtain ⟨arm, e, ha, hal, he, hleast, hsplit⟩ := touched_finish hm hb hg hI htouch ⟨_, hcand f0 b0 v0 hc0⟩ hfin
  have hca := hg.mem_cand ha (mem_allArms.1 hal).2
  refine ⟨hest, fun err herr => ⟨fun r hr => ?_, fun hr f b v hc => ?_⟩⟩
  · rw [hsplit] at hr
    split_ifs at hr with hneg
    cases hr
    have h1 := herr _ _ _ _ hca he
    refine ⟨arm.2, e, hca, rfl, h1, fun f' b' v' hc' => ?_⟩
    obtain ⟨e', he'⟩ := hest f' b' v' hc'
    have h2 := herr _ _ _ _ hc' he'
    have h3 := hleast _ (hcand _ _ _ hc').1 (hcand _ _ _ hc').2 _ he'
    rw [abs_le] at h1 h2
    linarith [h1.1, h1.2, h2.1, h2.2]
  · rw [hsplit] at hr
    split_ifs at hr with hneg
    obtain ⟨e', he'⟩ := hest f b v hc
    have h2 := herr _ _ _ _ hc he'
    have h3 := hleast _ (hcand _ _ _ hc).1 (hcand _ _ _ hc).2 _ he'
    rw [abs_le] at h2
    linarith [h2.1, h2.2]

/-- A run with replacement whose estimates are off: the split at `7/3` of feature 1 is reported with `-3/8`, its true value is
`-1/4`; the errors of the eight candidates are at most `1/8`, and indeed no candidate is better than `-1/4 - 2/8`. -/
example :
    (solveMab rngQ 0 ⟨0, 0⟩ junkQ [[0, 1], [1, 1], [2, 5], [3, 5], [4, 2], [5, 2]] [0, 0, 1, 1, 0, 1] none none
      (some .linear) (some 4) true .gini 0 true none 4).toOption.map (fun o => (o.split, (allArms 2 4).map o.final.est))
      = some (some ⟨1, 7 / 3, .fin (-3 / 8)⟩,
        [.fin (-1 / 24), .fin (-1 / 8), .fin (-1 / 24), .fin 0, .fin (-1 / 8), .fin (-3 / 8), .fin (-3 / 8), .fin 0]) ∧
    (makeHistograms rngQ 0 true [[0, 1], [1, 1], [2, 5], [3, 5], [4, 2], [5, 2]] [0, 0, 1, 1, 0, 1] none none
      (some .linear) 4).toOption.map (fun hs => (numCands hs.hists 2 4, (allArms 2 4).map (fun a => change gini
        (nodeSamples [[0, 1], [1, 1], [2, 5], [3, 5], [4, 2], [5, 2]] [0, 0, 1, 1, 0, 1] a.1) ((edgesOf hs.hists a.1).getD a.2 0))))
      = some (8, [-1 / 10, -1 / 4, 0, 0, -1 / 4, -1 / 4, -1 / 4, 0]) := by
  constructor <;> decide +kernel

/-- C112, ties. The split is chosen by one draw of python's generator from the list of all candidates whose last estimate is the
least, in the order of (feature, edge). The draw advances this generator once, and the generator of numpy moves only by the making
of the histograms. -/
theorem C112_ties (R : Rng K G) (g : G) (glob : Glob G) (junk : Junk K) (row : List K) (rest : List (List K))
    (labels : List K) (minmax : Option (List K × List K)) (d : DiscDict K) (binType : Option BinType) (B : Nat)
    (isCls : Bool) (m : Criterion) (epsilon : K) (withRep : Bool) (budget : Option Int) (batch : Nat) (out : MabOut K G)
    (hs : Hists K G) (hm : CritFits isCls m) (hb : BinningOK minmax d binType B)
    (hmake : makeHistograms R glob.np isCls (row :: rest) labels minmax d binType B = .ok hs)
    (h5 : 5 < numCands hs.hists row.length B)
    (hok : solveMab R g glob junk (row :: rest) labels minmax d binType (some B) isCls m epsilon withRep budget batch
      = .ok out) :
    ∃ (e : K) (T : List (Nat × Nat)),
      T.Pairwise (fun a a' => a.1 < a'.1 ∨ (a.1 = a'.1 ∧ a.2 < a'.2)) ∧
      (∀ f b, (f, b) ∈ T ↔ (∃ v, IsCand hs.hists B f b v) ∧ out.final.est (f, b) = .fin e) ∧
      (∀ f b v e', IsCand hs.hists B f b v → out.final.est (f, b) = .fin e' → e ≤ e') ∧
      out.glob = ⟨hs.g, (R.pyChoice glob.py T.length).2⟩ ∧
      ∃ f b v, T[(R.pyChoice glob.py T.length).1]? = some (f, b) ∧ IsCand hs.hists B f b v ∧
        out.split = if e < 0 then some ⟨f, v, .fin e⟩ else none := by
  obtain ⟨row', rest', B', hs', s0, hdata, hB, hid, hmake', hinit, hloop, hfin⟩ := solveMab_parts hok
  cases hdata
  cases hB
  rw [hmake] at hmake'
  cases hmake'
  have hg := makeHistograms_good hb hmake
  have hi := MabInv.init (m := m) hg hmake hinit
  obtain ⟨n, hruns⟩ := mabLoop_ok_runs _ _ hloop
  obtain ⟨I, hI⟩ := hi.visited hm hb (by simp) hg hruns.visited
  have htouch := final_touched hm hb (by simp) hg hmake hinit (lt_of_lt_of_le h5 hg.numCands_le) hruns
  have hcand : ∀ f b v, IsCand hs.hists B f b v → (f, b) ∈ candArms row.length B hs ∧ (f, b) ∈ allArms row.length B := by
    intro f b v hc
    have h := (hg.cand_mem hc).1
    exact ⟨h, mem_allArms.2 ⟨(hg.cands_valid _ h).1, hc.2⟩⟩
  obtain ⟨f0, b0, v0, _, hc0⟩ := numCands_pos (by omega : 0 < numCands hs.hists row.length B)
  obtain ⟨arm, e, ha, hal, he, hleast, hsplit⟩ := touched_finish hm hb hg hI htouch ⟨_, hcand f0 b0 v0 hc0⟩ hfin
  unfold mabFinish at hfin
  split at hfin
  · cases hfin
  · next T hT =>
    split_ifs at hfin with h0
    simp only [] at hfin
    split at hfin
    · cases hfin
    · next r hr =>
      obtain ⟨mm, hmn, hmin, hfil⟩ := bestArms_spec hT (fun h => h0 (by rw [h]; rfl))
      have hmm : mm = .fin e := by
        have h1 := hmin _ hal
        obtain ⟨x, hx⟩ := List.exists_mem_of_length_pos (Nat.pos_of_ne_zero h0)
        rw [hfil, List.mem_filter] at hx
        have hx2 := XF.eqv_iff.1 hx.2
        have hxc : x ∈ candArms row.length B hs := by
          rcases hg.mem_cands_or hx.1 with h | h
          · exact h.1
          · exfalso
            rw [← hx2.1, (hI.notCons x h.1).2.1, he] at h1
            simp [XF.lt] at h1
        rcases htouch x hx.1 with h | h
        · exact absurd h (hg.cand_not_notCons hxc)
        · obtain ⟨ex, hex, _⟩ := hI.touched x h
          have h2 := hleast x hxc hx.1 ex hex
          rw [← hx2.1, hex, he] at h1
          rw [← hx2.1, hex]
          have h3 : ex ≤ e := by simpa [XF.lt] using h1
          rw [le_antisymm h3 h2]
      have hTmem : ∀ a, a ∈ T ↔ a ∈ allArms row.length B ∧ out.final.est a = .fin e := by
        intro a
        rw [hfil, List.mem_filter, hmm, XF.eqv_iff]
        constructor
        · rintro ⟨h1, h2, _⟩
          exact ⟨h1, h2⟩
        · rintro ⟨h1, h2⟩
          exact ⟨h1, h2, by rw [h2]; rfl⟩
      have hlt := R.pyChoice_lt glob.py T.length (Nat.pos_of_ne_zero h0)
      have hget : T[(R.pyChoice glob.py T.length).1]? = some (T.getD (R.pyChoice glob.py T.length).1 (0, 0)) := by
        rw [List.getD_eq_getElem _ _ hlt]
        exact List.getElem?_eq_getElem hlt
      have hmemT := List.mem_of_getElem? hget
      generalize T.getD (R.pyChoice glob.py T.length).1 (0, 0) = a at hget hmemT hr
      have haT := (hTmem a).1 hmemT
      have hac : a ∈ candArms row.length B hs := by
        rcases hg.mem_cands_or haT.1 with h | h
        · exact h.1
        · rw [(hI.notCons a h.1).2.1] at haT
          cases haT.2
      have hv := hg.cands_valid a hac
      rw [finishSplit_spec (hI.reach.rep hm hb) ⟨by rw [hI.len]; exact hv.1, hv.2⟩, haT.2] at hr
      have hout := (Except.ok.inj hfin).symm
      have hglob : out.glob = ⟨hs.g, (R.pyChoice glob.py T.length).2⟩ := by rw [hout]
      have hres : out.split = r := by rw [hout]
      refine ⟨e, T, by rw [hfil]; exact (allArms_sorted row.length B).filter _, fun f b => ?_, fun f b v e' hc he' => ?_, hglob,
        a.1, a.2, (edgesOf hs.hists a.1).getD a.2 0, hget, hg.mem_cand hac (mem_allArms.1 haT.1).2, ?_⟩
      · rw [hTmem]
        constructor
        · rintro ⟨h1, h2⟩
          refine ⟨?_, h2⟩
          rcases hg.mem_cands_or h1 with h | h
          · exact ⟨_, hg.mem_cand h.1 (mem_allArms.1 h1).2⟩
          · rw [(hI.notCons _ h.1).2.1] at h2
            cases h2
        · rintro ⟨⟨v, hc⟩, h2⟩
          exact ⟨(hcand f b v hc).2, h2⟩
      · exact hleast _ (hcand f b v hc).1 (hcand f b v hc).2 _ he'
      · rw [hres, ← Except.ok.inj hr]
        simp [XF.lt]

/-- In the run above the two edges `7/3` and `11/3` of feature 1 tie with the estimate `-3/8`. -/
example :
    (solveMab rngQ 0 ⟨0, 0⟩ junkQ [[0, 1], [1, 1], [2, 5], [3, 5], [4, 2], [5, 2]] [0, 0, 1, 1, 0, 1] none none
      (some .linear) (some 4) true .gini 0 true none 4).toOption.map (fun o => (o.split, o.glob.np, o.glob.py,
        (allArms 2 4).filter (fun a => o.final.est a == .fin (-3 / 8)))) =
      some (some ⟨1, 7 / 3, .fin (-3 / 8)⟩, 0, (rngQ.pyChoice 0 2).2, [(1, 1), (1, 2)]) := by
  decide +kernel

end FF
