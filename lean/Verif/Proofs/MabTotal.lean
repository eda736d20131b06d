import Verif.Proofs.MabPoint

/-!
# `solve_mab` does not raise on valid nodes
-/

namespace FF

open Spec

set_option linter.unusedSectionVars false

variable {K : Type} [Field K] [LinearOrder K] [IsStrictOrderedRing K] [FloorRing K] [NpFun K] {G : Type}

/-- A node on which nothing can go wrong while sampling: rows at least `F` wide, enough labels, and at most two classes for
entropy. -/
structure NodeOK (m : Criterion) (data : List (List K)) (labels : List K) (F : Nat) : Prop where
  nonempty : data ≠ []
  rect : ∀ r ∈ data, F ≤ r.length
  lab : data.length ≤ labels.length
  ent : m = .entropy → labels.dedup.length ≤ 2

theorem XF.minArr_isSome {l : List (XF K)} (h : l ≠ []) : ∃ m, XF.minArr l = some m := by
  cases l with
  | nil => exact absurd rfl h
  | cons x xs => exact ⟨_, rfl⟩

theorem matMin_total {F B : Nat} (h : allArms F B ≠ []) (a : Mat K) : ∃ m, matMin F B a = .ok m := by
  obtain ⟨m, hm⟩ := XF.minArr_isSome (l := flatMat F B a) (by unfold flatMat; simpa using h)
  exact ⟨m, by unfold matMin; rw [hm]⟩

theorem argmin_total {l : List (XF K)} (h : l ≠ []) : ∃ i, XF.argmin l = some i := by
  cases l with
  | nil => exact absurd rfl h
  | cons x xs => exact ⟨_, rfl⟩

section
variable {R : Rng K G} {isCls : Bool} {data : List (List K)} {labels : List K} {m : Criterion}
    {minmax : Option (List K × List K)} {d : DiscDict K} {binType : Option BinType} {F B : Nat} {hs : Hists K G}
    {withRep : Bool} {I : Nat → List Nat} {s s0 s' : MabState K G} {epsilon : K} {budget : Option Int} {batch : Nat}

theorem NodeOK.critRuns (hn : NodeOK m data labels F) (hm : CritFits isCls m) {E : Nat → List K} {I : Nat → List Nat}
    {hists : List (Hist K)} (hr : HistsRep isCls (nodeClasses isCls labels) data labels E I hists) :
    ∀ (f : Nat) (h : Hist K), hists[f]? = some h → CritRuns isCls h m := by
  intro f h hf
  unfold CritRuns
  unfold CritFits at hm
  split
  · next hc =>
    rw [if_pos hc] at hm
    rcases hm with rfl | rfl
    · left; rfl
    · right
      refine ⟨rfl, ?_⟩
      rw [hr.classes_eq f h hf]
      unfold nodeClasses
      rw [if_pos hc, (npUnique_perm labels).length_eq]
      exact hn.ent rfl
  · next hc =>
    rw [if_neg hc] at hm
    exact hm

/-- `sample_targets` does not fail on such a node. -/
theorem NodeOK.sample (hn : NodeOK m data labels F) (hm : CritFits isCls m) {E : Nat → List K} {I : Nat → List Nat}
    {hists : List (Hist K)} (hr : HistsRep isCls (nodeClasses isCls labels) data labels E I hists) {arms : List Arm}
    (hsort : arms.Pairwise ArmLt) (hv : ArmsValid E hists.length arms) (hlen : hists.length = F) {g : G}
    {P : Option (List Nat)} {idcs : List Nat} {pop : Option Nat} {P' : Option (List Nat)} {g' : G}
    (hdraw : drawSamples R g data.length batch P = .ok (idcs, pop, P', g')) (hne : idcs ≠ [])
    (hlt : ∀ i ∈ idcs, i < data.length)
    (hpop : ∀ s, pop = some s → ∀ f ∈ arms.map Prod.fst, (I f).length + idcs.length ≤ s) :
    ∃ out, sampleTargets R g data labels arms hists batch m P = .ok out ∧ out.drawn = idcs ∧ out.pop = P' ∧ out.g = g' := by
  refine sampleTargets_total hr (hn.critRuns hm hr) (featSorted_of_sorted hsort) (nodup_of_sorted hsort) hv hdraw hne
    (fun i hi => ⟨hlt i hi, lt_of_lt_of_le (hlt i hi) hn.lab⟩) ?_ ?_ hpop
  · intro r hr' a ha
    have := (hv a ha).1
    rw [hlen] at this
    exact lt_of_lt_of_le this (hn.rect r hr')
  · intro hc y hy
    unfold nodeClasses
    rw [if_pos hc]
    exact mem_npUnique.2 hy

theorem exactPart_total (hn : NodeOK m data labels F) (hm : CritFits isCls m) (hb : BinningOK minmax d binType B)
    (hg : HistsGood R isCls data (nodeClasses isCls labels) minmax d binType F B hs)
    (hi : MabInv R isCls data labels m minmax d binType F B hs withRep I s) (hall : allArms F B ≠ []) :
    ∃ r, mabExactPart R F B data labels m withRep budget batch s = .ok r := by
  unfold mabExactPart
  by_cases hw : withRep = true
  · rw [if_pos hw]
    simp only []
    split
    · have hea : ∀ a ∈ exactArms F B data.length batch s, a ∈ allArms F B := fun a ha => (mem_exactArms.1 ha).1
      have hsorted : (exactArms F B data.length batch s).Pairwise ArmLt := (allArms_sorted F B).filter _
      have hvalid : ArmsValid (edgesOf hs.hists) F (exactArms F B data.length batch s) := by
        intro a ha
        rw [mem_exactArms] at ha
        exact hg.cands_valid a (hg.cand_of_fresh (ex := s.exact) (fun x hx => (hi.notCons x hx).1) ha.1 ha.2.2)
      have hlen' : (emptyHistograms s.hists (exactArms F B data.length batch s)).length = F := by
        rw [length_emptyHistograms, hi.len]
      have hrepE := (HistReach.empty (exactArms F B data.length batch s) hi.reach).rep hm hb
      obtain ⟨out, hout, _⟩ := hn.sample (R := R) (batch := data.length) hm hrepE hsorted (by rw [hlen']; exact hvalid) hlen'
        (drawSamples_full R s.g (le_refl data.length)).2 (by simpa using hn.nonempty) (fun i hi' => List.mem_range.1 hi') (by
          intro n hn' f hf
          cases hn'
          simp only [if_pos hf, List.length_nil, List.length_range, Nat.zero_add, le_refl])
      obtain ⟨_, _, _, _, hreds, _⟩ := hi.exact_call hm hb hn.nonempty hg rfl hout
      obtain ⟨est, hest⟩ := assignMat_total (F := F) (B := B) s.est
        (fun a => XF.fin (armChange data labels (edgesOf hs.hists) m a)) hea
      rw [hout]
      simp only [hreds, hest]
      obtain ⟨mu, hmu⟩ := matMin_total (K := K) hall (fun x => if x ∈ exactArms F B data.length batch s then est x else s.ucb x)
      obtain ⟨ml, hml⟩ := matMin_total (K := K) hall (fun x => if x ∈ exactArms F B data.length batch s then est x else s.lcb x)
      rw [hmu, hml]
      simp only []
      split
      · exact ⟨_, rfl⟩
      · split <;> exact ⟨_, rfl⟩
    · exact ⟨_, rfl⟩
  · rw [if_neg hw]
    exact ⟨_, rfl⟩

theorem samplePart_total (hn : NodeOK m data labels F) (hm : CritFits isCls m) (hb : BinningOK minmax d binType B)
    (hg : HistsGood R isCls data (nodeClasses isCls labels) minmax d binType F B hs) (hbatch : 0 < batch)
    (hi : MabInv R isCls data labels m minmax d binType F B hs withRep I s)
    (hin : ∀ a ∈ s.cands, a ∈ allArms F B) (hall : allArms F B ≠ [])
    (hlast : withRep = true → ∀ a ∈ s.cands, a ∈ allArms F B → s.numSamples a + batch < data.length) :
    ∃ r, mabSamplePart R F B data labels m epsilon budget batch s = .ok r := by
  unfold mabSamplePart
  by_cases h1 : s.cands.length ≤ 1
  · rw [if_pos h1]; exact ⟨_, rfl⟩
  · rw [if_neg h1]
    by_cases h2 : s.pop = some []
    · rw [if_pos h2]; exact ⟨_, rfl⟩
    · rw [if_neg h2]
      have hvalid : ArmsValid (edgesOf hs.hists) s.hists.length s.cands := by
        rw [hi.len]; exact fun a ha => hg.cands_valid a (hi.sub a ha)
      have hN : 0 < data.length := List.length_pos_of_ne_nil hn.nonempty
      obtain ⟨a0, ha0⟩ := List.exists_mem_of_length_pos (by omega : 0 < s.cands.length)
      have hout : ∃ out, sampleTargets R s.g data labels s.cands s.hists batch m s.pop = .ok out := by
        cases hw : withRep with
        | true =>
          have hbN : batch < data.length := by
            have := hlast hw a0 ha0 (hin a0 ha0)
            omega
          rw [hi.rep hw]
          have hne : (List.range data.length).length ≠ 0 := by simpa using hn.nonempty
          have hd : ∃ idcs g', drawSamples R s.g data.length batch none = .ok (idcs, none, none, g') := by
            unfold drawSamples
            simp only []
            rw [if_neg (by omega)]
            unfold rngChoiceRep
            rw [if_pos (by omega)]
            exact ⟨_, _, rfl⟩
          obtain ⟨idcs, g', hd⟩ := hd
          obtain ⟨_, hl, hlt, _⟩ := drawSamples_rep hd
          obtain ⟨out, hout, _⟩ := hn.sample hm (hi.reach.rep hm hb) hi.sorted hvalid hi.len hd
            (by intro h0; rw [h0] at hl; simp at hl; omega) hlt (fun s hs' => by cases hs')
          exact ⟨out, hout⟩
        | false =>
          obtain ⟨p, hp, hperm, hsub⟩ := hi.norep hw
          rw [hp]
          have hp0 : 0 < p.length := by
            apply List.length_pos_of_ne_nil
            rintro rfl
            exact h2 hp
          have hd : ∃ idcs P' g', drawSamples R s.g data.length batch (some p) = .ok (idcs, some data.length, P', g') := by
            unfold drawSamples
            simp only []
            split
            · exact ⟨_, _, _, rfl⟩
            · exact ⟨_, _, _, rfl⟩
          obtain ⟨idcs, P', g', hd⟩ := hd
          obtain ⟨_, q, _, hpq, hl⟩ := drawSamples_norep hd
          have hlp := hperm.length_eq
          rw [List.length_append, List.length_range] at hlp
          obtain ⟨out, hout, _⟩ := hn.sample hm (hi.reach.rep hm hb) hi.sorted hvalid hi.len hd
            (by intro h0; rw [h0] at hl; simp at hl; omega)
            (fun i hi' => List.mem_range.1 (hperm.mem_iff.1 (List.mem_append_right _ (hpq.mem_iff.1 (List.mem_append_left _ hi')))))
            (fun n hn' f hf => by
              cases hn'
              have := (hsub f).length_le
              omega)
          exact ⟨out, hout⟩
      obtain ⟨out, hout⟩ := hout
      obtain ⟨pop, hdraw, hspec, _, _⟩ := hi.sample_call hm hb hg hout
      obtain ⟨est, hest⟩ := assignMat_total (F := F) (B := B) s.est
        (fun a => (armVal data labels (edgesOf hs.hists)
          (fun f => if f ∈ s.cands.map Prod.fst then I f ++ out.drawn else I f) out.acc.hists m pop a).1) hin
      obtain ⟨cbd, hcbd⟩ := assignMat_total (F := F) (B := B) s.cbDelta
        (fun a => (armVal data labels (edgesOf hs.hists)
          (fun f => if f ∈ s.cands.map Prod.fst then I f ++ out.drawn else I f) out.acc.hists m pop a).2.sqrt) hin
      rw [← hspec.reds] at hest
      rw [← hspec.cbs] at hcbd
      rw [hout]
      simp only [hest, hcbd]
      split
      · exact ⟨_, rfl⟩
      · obtain ⟨ml, hml⟩ := matMin_total (K := K) hall
          (fun x => if x ∈ s.cands then (est x).sub ((XF.fin 1).mul (cbd x)) else s.lcb x)
        obtain ⟨mu, hmu⟩ := matMin_total (K := K) hall
          (fun x => if x ∈ s.cands then (est x).add ((XF.fin 1).mul (cbd x)) else s.ucb x)
        obtain ⟨mi, hmi⟩ := argmin_total (l := flatMat F B est) (by unfold flatMat; simpa using hall)
        rw [hml]
        simp only []
        split
        · exact ⟨_, rfl⟩
        · rw [hmi]
          simp only []
          rw [hmu]
          exact ⟨_, rfl⟩

theorem exactPart_cands_in {r : Loop (MabState K G)} (hin : ∀ a ∈ s.cands, a ∈ allArms F B)
    (h : mabExactPart R F B data labels m withRep budget batch s = .ok r) : ∀ a ∈ r.state.cands, a ∈ allArms F B := by
  rcases mabExactPart_cases h with ⟨rfl, _⟩ | ⟨hrep, ea, out, est, mu, ml, hea, _, hout, hest, _, _, hr⟩
  · exact hin
  · have hst : r.state = afterExact F B data.length s ea est mu out := by
      rcases hr with ⟨rfl, _⟩ | ⟨rfl, _⟩ <;> rfl
    rw [hst]
    intro a ha
    exact (List.mem_filter.1 ha).1

theorem step_cands_in (h : mabStep R F B data labels m epsilon withRep budget batch s = .ok (.next s')) :
    ∀ a ∈ s'.cands, a ∈ allArms F B := by
  rcases mabStep_cases h with ⟨s1, h1, h2⟩ | ⟨s1, h1, h2⟩
  · cases h2
  · rcases mabSamplePart_cases h2 with ⟨_, hr⟩ | ⟨_, _, hr⟩ | ⟨hlen, hne, out, est, cbd, hout, hest, hcbd, hr⟩
    · cases hr
    · cases hr
    · rcases hr with ⟨hr, _⟩ | ⟨_, ml, mi, mu, _, _, _, _, hr⟩
      · cases hr
      · cases hr
        intro a ha
        exact (List.mem_filter.1 ha).1

theorem step_total (hn : NodeOK m data labels F) (hm : CritFits isCls m) (hb : BinningOK minmax d binType B)
    (hg : HistsGood R isCls data (nodeClasses isCls labels) minmax d binType F B hs) (hbatch : 0 < batch)
    (hi : MabInv R isCls data labels m minmax d binType F B hs withRep I s)
    (hin : ∀ a ∈ s.cands, a ∈ allArms F B) (hall : allArms F B ≠ []) :
    ∃ r, mabStep R F B data labels m epsilon withRep budget batch s = .ok r := by
  obtain ⟨r, hr⟩ := exactPart_total (budget := budget) (batch := batch) hn hm hb hg hi hall
  unfold mabStep
  rw [hr]
  cases hr' : r with
  | done s1 => exact ⟨_, rfl⟩
  | next s1 =>
    simp only []
    rw [hr'] at hr
    obtain ⟨I', hi'⟩ := hi.exactPart hm hb hn.nonempty hg hr
    refine samplePart_total hn hm hb hg hbatch hi' (exactPart_cands_in hin hr) hall ?_
    intro hw
    subst hw
    exact (exactPart_missing hi.fresh hr).2.2

theorem runs_total (hn : NodeOK m data labels F) (hm : CritFits isCls m) (hb : BinningOK minmax d binType B)
    (hg : HistsGood R isCls data (nodeClasses isCls labels) minmax d binType F B hs) (hbatch : 0 < batch)
    (hall : allArms F B ≠ []) {n : Nat} {r : Except Err (MabState K G)}
    (h : MabRuns R F B data labels m epsilon withRep budget batch s n r)
    (hi : MabInv R isCls data labels m minmax d binType F B hs withRep I s)
    (hin : ∀ a ∈ s.cands, a ∈ allArms F B) : ∃ s', r = .ok s' := by
  induction h generalizing I with
  | stop h5 => exact ⟨_, rfl⟩
  | raise h5 hs' =>
    obtain ⟨r, hr⟩ := step_total (epsilon := epsilon) (budget := budget) hn hm hb hg hbatch hi hin hall
    rw [hs'] at hr
    cases hr
  | leave h5 hs' => exact ⟨_, rfl⟩
  | again h5 hs' hr ih =>
    obtain ⟨I', hi'⟩ := hi.step hm hb hn.nonempty hg hs'
    exact ih hi' (step_cands_in hs')

theorem mabInit_total (hg : HistsGood R isCls data (nodeClasses isCls labels) minmax d binType F B hs) (N : Nat)
    (junk : Junk K) (g : G) : ∃ s, mabInit F B N junk withRep hs g = .ok s := by
  have key : ∀ (a : Mat K) (v : XF K), ∃ e, fillMat F B a hs.notCons v = .ok e := by
    intro a v
    unfold fillMat
    rw [if_pos]
    · exact ⟨_, rfl⟩
    · simp only [List.all_eq_true, Bool.and_eq_true, decide_eq_true_eq]
      intro a ha
      have := hg.mem_notCons.1 ha
      exact ⟨this.1, this.2.2⟩
  obtain ⟨e1, h1⟩ := key (npEmpty F B junk.est) .pinf
  obtain ⟨e2, h2⟩ := key (npEmpty F B junk.ucb) .pinf
  obtain ⟨e3, h3⟩ := key (npEmpty F B junk.lcb) .ninf
  unfold mabInit
  rw [h1, h2, h3]
  exact ⟨_, rfl⟩

/-- The final choice succeeds when every arm is known. -/
theorem mabFinish_total (hm : CritFits isCls m) (hb : BinningOK minmax d binType B)
    (hg : HistsGood R isCls data (nodeClasses isCls labels) minmax d binType F B hs)
    (hi : MabInv R isCls data labels m minmax d binType F B hs withRep I s) (ht : AllTouched F B hs s)
    (hne : ∃ a ∈ candArms F B hs, a ∈ allArms F B) (glob : Glob G) : ∃ out, mabFinish R F B glob s = .ok out := by
  obtain ⟨a0, ha0, hall0⟩ := hne
  have hfin : ∀ a ∈ candArms F B hs, a ∈ allArms F B → ∃ e, s.est a = .fin e := by
    intro a ha hall
    rcases ht a hall with h | h
    · exact absurd h (hg.cand_not_notCons ha)
    · obtain ⟨e, he, _⟩ := hi.touched a h
      exact ⟨e, he⟩
  obtain ⟨e0, he0⟩ := hfin a0 ha0 hall0
  obtain ⟨arms, hbest, hane⟩ := bestArms_total (F := F) (B := B) (est := s.est) (List.ne_nil_of_mem hall0)
    ⟨a0, hall0, by rw [he0]; rfl⟩
  obtain ⟨mm, hmn, hmin, harms⟩ := bestArms_spec hbest hane
  have hlen : arms.length ≠ 0 := by simpa using hane
  unfold mabFinish
  rw [hbest]
  simp only [if_neg hlen]
  have hlt := R.pyChoice_lt glob.py arms.length (by omega)
  rw [List.getD_eq_getElem _ _ hlt]
  have hmem : arms[(R.pyChoice glob.py arms.length).1] ∈ arms := List.getElem_mem hlt
  generalize arms[(R.pyChoice glob.py arms.length).1] = arm at hmem ⊢
  rw [harms, List.mem_filter] at hmem
  have heq := XF.eqv_iff.1 hmem.2
  have hc : arm ∈ candArms F B hs := by
    rcases hg.mem_cands_or hmem.1 with h | h
    · exact h.1
    · exfalso
      have := hmin _ hall0
      rw [he0, ← heq.1, (hi.notCons arm h.1).2.1] at this
      simp [XF.lt] at this
  have hv := hg.cands_valid arm hc
  rw [finishSplit_spec (hi.reach.rep hm hb) (est := s.est) ⟨by rw [hi.len]; exact hv.1, hv.2⟩]
  exact ⟨_, rfl⟩

/-- `solve_mab` succeeds on a valid node with more than five candidates, all inside the arrays. -/
theorem solveMab_succeeds (g : G) (glob : Glob G) (junk : Junk K) {row : List K} {rest : List (List K)}
    (hdata : data = row :: rest) (hn : NodeOK m data labels row.length) (hm : CritFits isCls m)
    (hb : BinningOK minmax d binType B) (hid : binType ≠ some .identity) (hbatch : 0 < batch)
    (hmake : makeHistograms R glob.np isCls data labels minmax d binType B = .ok hs)
    (hin : ∀ a ∈ candArms row.length B hs, a ∈ allArms row.length B) (h5 : 5 < numCands hs.hists row.length B) :
    ∃ out, solveMab R g glob junk data labels minmax d binType (some B) isCls m epsilon withRep budget batch = .ok out := by
  subst hdata
  have hg := makeHistograms_good hb hmake
  obtain ⟨s0, hinit⟩ := mabInit_total (withRep := withRep) hg (row :: rest).length junk g
  have hi := MabInv.init (m := m) hg hmake hinit
  have h5' := lt_of_lt_of_le h5 hg.numCands_le
  obtain ⟨a0, ha0⟩ := List.exists_mem_of_length_pos (by omega : 0 < (candArms row.length B hs).length)
  have hall : allArms row.length B ≠ [] := List.ne_nil_of_mem (hin a0 ha0)
  obtain ⟨n, hn', hruns⟩ := mabLoop_runs (R := R) (F := row.length) (B := B) (data := row :: rest) (labels := labels) (m := m)
    (epsilon := epsilon) (budget := budget) hbatch (mabInit_pop hinit)
  obtain ⟨s', hs'⟩ := runs_total hn hm hb hg hbatch hall hruns hi (by rw [(mabInit_ok hinit).2.1]; exact hin)
  rw [hs'] at hruns
  obtain ⟨I, hI⟩ := hi.visited hm hb (by simp) hg hruns.visited
  obtain ⟨out, hout⟩ := mabFinish_total hm hb hg hI (final_touched hm hb (by simp) hg hmake hinit h5' hruns)
    ⟨a0, ha0, hin a0 ha0⟩ { glob with np := hs.g }
  refine ⟨out, ?_⟩
  unfold solveMab
  simp only [if_neg hid, hmake, hinit, hs', hout]

end

end FF
