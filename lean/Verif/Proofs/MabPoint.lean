import Verif.Props.Solvers

/-!
# `solve_mab`: intervals of arms that have seen the whole population
-/

namespace FF

open Spec

set_option linter.unusedSectionVars false

variable {K : Type} [Field K] [LinearOrder K] [IsStrictOrderedRing K] [FloorRing K] [NpFun K] {G : Type}

/-- The bounds are the estimate, or NaN. -/
def PointOrNan (s : MabState K G) (a : Arm) : Prop :=
  ∃ e, s.est a = .fin e ∧ ((s.lcb a = .fin e ∧ s.ucb a = .fin e) ∨ (s.lcb a = .nan ∧ s.ucb a = .nan))

/-- The second invariant of the loop: how many rows the arms have seen. -/
structure MabSeen (N batch : Nat) (withRep : Bool) (I : Nat → List Nat) (s : MabState K G) : Prop where
  rep : withRep = true → ∀ a, N ≤ s.numSamples a → PointOrNan s a
  mult : withRep = false → ∀ a, ∃ k, k ≤ s.log.length ∧ s.numSamples a = batch * k
  full : withRep = false → s.pop ≠ some [] → s.log.flatten.length = batch * s.log.length
  last : withRep = false → s.log ≠ [] → batch * (s.log.length - 1) < N
  all : withRep = false → ∀ a, s.numSamples a = batch * s.log.length → I a.1 = s.log.flatten
  pt : withRep = false → s.pop = some [] → ∀ a, s.numSamples a = batch * s.log.length → PointOrNan s a

section
variable {R : Rng K G} {isCls : Bool} {data : List (List K)} {labels : List K} {m : Criterion}
    {minmax : Option (List K × List K)} {d : DiscDict K} {binType : Option BinType} {F B : Nat} {hs : Hists K G}
    {withRep : Bool} {I : Nat → List Nat} {s s0 s' : MabState K G} {epsilon : K} {budget : Option Int} {batch : Nat}
    {classes : List K}

/-- An arm whose histogram holds as many rows as the population size used has variance 0 or NaN. -/
theorem SampleSpec.zero_width {E : Nat → List K} {I I' : Nat → List Nat} {arms : List Arm} {hists : List (Hist K)}
    {out : SampleOut K G} {N : Nat} (h : SampleSpec isCls classes data labels E I arms m hists out (some N) I')
    (hv : ArmsValid E hists.length arms) {a : Arm} (ha : a ∈ arms) (hlen : (I' a.1).length = N) :
    (armVal data labels E I' out.acc.hists m (some N) a).2 = .fin 0 ∨
    (armVal data labels E I' out.acc.hists m (some N) a).2 = .nan := by
  have hk : a.1 ∈ arms.map Prod.fst := List.mem_map.2 ⟨a, ha, rfl⟩
  have hva := hv a ha
  have hE : E a.1 ≠ [] := by
    intro h0
    have := hva.2
    rw [h0] at this
    simp at this
  have hlt : a.1 < out.acc.hists.length := by rw [h.len]; exact hva.1
  have hget : out.acc.hists[a.1]? = some out.acc.hists[a.1] := List.getElem?_eq_getElem hlt
  have hrep := h.rep.rep a.1 _ hget hE
  have hne : (I' a.1).map (rowSample data labels a.1) ≠ [] := by simpa using h.ne _ hk
  have hl : ((I' a.1).map (rowSample data labels a.1)).length = N := by simpa using hlen
  unfold armVal
  rw [hget]
  simp only []
  unfold redVal
  rw [hrep.isCls]
  cases hc : isCls with
  | true =>
    simp only [if_true]
    have := clsVarRed_full m out.acc.hists[a.1].classes _ hne ((E a.1).getD a.2 0)
    rw [hl] at this
    exact this
  | false =>
    simp only [Bool.false_eq_true, if_false]
    have hr : RegRep out.acc.hists[a.1] (E a.1) ((I' a.1).map (rowSample data labels a.1)) := by
      unfold Rep at hrep
      rw [hc] at hrep
      simpa using hrep
    have := regVarRed_full hr hne a.2
    rw [hl] at this
    rw [hl, this]
    exact Or.inl rfl

theorem MabSeen.init (hdata : data ≠ []) {junk : Junk K} {g : G}
    (h : mabInit F B data.length junk withRep hs g = .ok s) : MabSeen data.length batch withRep (fun _ => []) s := by
  obtain ⟨h1, h2, h3, h4, h5, h6, h7, h8, h9, h10, h11⟩ := mabInit_ok h
  have hN : 0 < data.length := List.length_pos_of_ne_nil hdata
  refine ⟨?_, ?_, ?_, ?_, ?_, ?_⟩
  · intro _ a ha; rw [h4] at ha; simp only [] at ha; omega
  · intro _ a; exact ⟨0, Nat.zero_le _, by rw [h4]; rfl⟩
  · intro _ _; rw [h11]; rfl
  · intro _ h; rw [h11] at h; exact absurd rfl h
  · intro _ a _; rw [h11]; rfl
  · intro hr hp
    rw [h7, hr] at hp
    simp at hp
    exact absurd hp hdata

theorem PointOrNan.of_eq (h : PointOrNan s a) (h1 : s'.est a = s.est a) (h2 : s'.lcb a = s.lcb a) (h3 : s'.ucb a = s.ucb a) :
    PointOrNan s' a := by
  unfold PointOrNan
  rw [h1, h2, h3]
  exact h

theorem MabSeen.exactPart (hm : CritFits isCls m) (hb : BinningOK minmax d binType B) (hdata : data ≠ [])
    (hg : HistsGood R isCls data classes minmax d binType F B hs)
    (hi : MabInv R isCls data labels m minmax d binType F B hs withRep I s)
    (hs' : MabSeen data.length batch withRep I s) {r : Loop (MabState K G)}
    (h : mabExactPart R F B data labels m withRep budget batch s = .ok r) :
    ∃ I', MabInv R isCls data labels m minmax d binType F B hs withRep I' r.state ∧
      MabSeen data.length batch withRep I' r.state ∧
      (withRep = true → ∀ a ∈ r.state.cands, a ∈ allArms F B → r.state.numSamples a + batch < data.length) := by
  have hlast : withRep = true → ∀ a ∈ r.state.cands, a ∈ allArms F B → r.state.numSamples a + batch < data.length := by
    intro hw
    subst hw
    exact (exactPart_missing hi.fresh h).2.2
  rcases mabExactPart_cases h with ⟨rfl, _⟩ | ⟨hrep, ea, out, est, mu, ml, hea, _, hout, hest, _, _, hr⟩
  · exact ⟨I, hi, hs', hlast⟩
  · have hI := hi.afterExact hm hb hdata hg hrep hea mu hout hest
    have hst : r.state = FF.afterExact F B data.length s ea est mu out := by
      rcases hr with ⟨rfl, _⟩ | ⟨rfl, _⟩ <;> rfl
    refine ⟨_, by rw [hst]; exact hI, ?_, hlast⟩
    obtain ⟨_, _, _, _, hreds, _⟩ := hi.exact_call hm hb hdata hg hea hout
    rw [hreds] at hest
    have hestv := assignMat_map hest
    rw [hst]
    refine ⟨?_, ?_, ?_, ?_, ?_, ?_⟩
    · intro _ a ha
      by_cases hmem : a ∈ ea
      · refine ⟨armChange data labels (edgesOf hs.hists) m a, ?_, Or.inl ⟨?_, ?_⟩⟩ <;>
          simp only [FF.afterExact, if_pos hmem] <;> rw [hestv, if_pos hmem]
      · have ha' : data.length ≤ s.numSamples a := by
          simpa only [FF.afterExact, if_neg hmem] using ha
        refine (hs'.rep hrep a ha').of_eq ?_ ?_ ?_
        · simp only [FF.afterExact]; rw [hestv, if_neg hmem]
        · simp only [FF.afterExact, if_neg hmem]
        · simp only [FF.afterExact, if_neg hmem]
    all_goals intro hw; rw [hrep] at hw; cases hw

theorem MabSeen.afterSample (hm : CritFits isCls m) (hb : BinningOK minmax d binType B)
    (hg : HistsGood R isCls data classes minmax d binType F B hs) (hbatch : 0 < batch)
    (hi : MabInv R isCls data labels m minmax d binType F B hs withRep I s)
    (hs' : MabSeen data.length batch withRep I s)
    (hlast : withRep = true → ∀ a ∈ s.cands, a ∈ allArms F B → s.numSamples a + batch < data.length)
    (hpop : s.pop ≠ some []) {out : SampleOut K G} {est cbd : Mat K}
    (hout : sampleTargets R s.g data labels s.cands s.hists batch m s.pop = .ok out)
    (hest : assignMat F B s.est s.cands out.acc.reds = .ok est)
    (hcbd : assignMat F B s.cbDelta s.cands out.acc.cbs = .ok cbd) :
    MabSeen data.length batch withRep
      (fun f => if f ∈ s.cands.map Prod.fst then I f ++ out.drawn else I f) (FF.afterSample s batch est cbd out) := by
  obtain ⟨pop, hdraw, hspec, hvalid, hreach⟩ := hi.sample_call hm hb hg hout
  have hin := (assignMat_ok hest).1
  have hr := hspec.reds
  have hc := hspec.cbs
  rw [hr] at hest
  rw [hc] at hcbd
  have hestv := assignMat_map hest
  have hcbdv := assignMat_map hcbd
  have hlog : (FF.afterSample s batch est cbd out).log = s.log ++ [out.drawn] := rfl
  have hns : ∀ a, (FF.afterSample s batch est cbd out).numSamples a = if a ∈ s.cands then s.numSamples a + batch else s.numSamples a :=
    fun a => rfl
  -- an arm that has seen everything
  have hall : withRep = false → ∀ a, (FF.afterSample s batch est cbd out).numSamples a = batch * (s.log.length + 1) →
      a ∈ s.cands ∧ I a.1 = s.log.flatten := by
    intro hw a ha
    obtain ⟨k, hk, hk'⟩ := hs'.mult hw a
    rw [hns] at ha
    split_ifs at ha with hmem
    · refine ⟨hmem, hs'.all hw a ?_⟩
      rw [Nat.mul_add] at ha
      omega
    · exfalso
      rw [hk'] at ha
      have := Nat.eq_of_mul_eq_mul_left hbatch ha
      omega
  refine ⟨?_, ?_, ?_, ?_, ?_, ?_⟩
  · intro hw a ha
    rw [hns] at ha
    split_ifs at ha with hmem
    · have := hlast hw a hmem (mem_allArms.2 (hin a hmem))
      omega
    · refine (hs'.rep hw a ha).of_eq ?_ ?_ ?_
      · simp only [FF.afterSample]; rw [hestv, if_neg hmem]
      · simp only [FF.afterSample, if_neg hmem]
      · simp only [FF.afterSample, if_neg hmem]
  · intro hw a
    obtain ⟨k, hk, hk'⟩ := hs'.mult hw a
    rw [hns, hlog]
    split_ifs with hmem
    · exact ⟨k + 1, by simp; omega, by rw [hk', Nat.mul_add, Nat.mul_one]⟩
    · exact ⟨k, by simp; omega, hk'⟩
  · intro hw hp
    obtain ⟨p, hpe, hperm, _⟩ := hi.norep hw
    rw [hpe] at hdraw
    obtain ⟨_, q, hq, hpq, hdl⟩ := drawSamples_norep hdraw
    have hq' : out.pop = some q := hq
    have hp' : q ≠ [] := by
      intro h0
      apply hp
      show out.pop = some []
      rw [hq', h0]
    have h1 := hpq.length_eq
    rw [List.length_append] at h1
    have h2 := List.length_pos_of_ne_nil hp'
    rw [hlog, List.flatten_append, List.length_append, hs'.full hw hpop]
    simp only [List.flatten_cons, List.flatten_nil, List.append_nil, List.length_append, List.length_cons, List.length_nil,
      Nat.mul_add, Nat.mul_one, Nat.zero_add]
    omega
  · intro hw _
    obtain ⟨p, hpe, hperm, _⟩ := hi.norep hw
    have h1 := hperm.length_eq
    rw [List.length_append, List.length_range, hs'.full hw hpop] at h1
    have h2 : 0 < p.length := by
      apply List.length_pos_of_ne_nil
      rintro rfl
      exact hpop hpe
    rw [hlog]
    simp only [List.length_append, List.length_cons, List.length_nil, Nat.zero_add, Nat.add_sub_cancel]
    omega
  · intro hw a ha
    rw [hlog] at ha
    have ha' : (FF.afterSample s batch est cbd out).numSamples a = batch * (s.log.length + 1) := by simpa using ha
    obtain ⟨hmem, hI⟩ := hall hw a ha'
    rw [hlog, if_pos (List.mem_map.2 ⟨a, hmem, rfl⟩), hI, List.flatten_append]
    simp
  · intro hw hp a ha
    rw [hlog] at ha
    have ha' : (FF.afterSample s batch est cbd out).numSamples a = batch * (s.log.length + 1) := by simpa using ha
    obtain ⟨hmem, hI⟩ := hall hw a ha'
    obtain ⟨p, hpe, hperm, _⟩ := hi.norep hw
    rw [hpe] at hdraw
    obtain ⟨rfl, q, hq, hpq, hdl⟩ := drawSamples_norep hdraw
    have hq0 : q = [] := by
      have : out.pop = some [] := hp
      rw [hq] at this
      exact Option.some.inj this
    subst hq0
    have hlen : (if a.1 ∈ s.cands.map Prod.fst then I a.1 ++ out.drawn else I a.1).length = data.length := by
      rw [if_pos (List.mem_map.2 ⟨a, hmem, rfl⟩), hI, List.length_append]
      have h1 := hperm.length_eq
      have h2 := hpq.length_eq
      simp only [List.length_append, List.length_nil, List.length_range] at h1 h2
      omega
    obtain ⟨e, he, _⟩ := hspec.arm hi.rows hvalid hmem
    refine ⟨e, ?_, ?_⟩
    · show est a = _
      rw [hestv, if_pos hmem, he]
    · simp only [FF.afterSample, if_pos hmem]
      rw [hestv, if_pos hmem, he, hcbdv, if_pos hmem]
      rcases hspec.zero_width hvalid hmem hlen with hz | hz
      · left
        rw [hz]
        simp [XF.sqrt, NpFun.sqrt_zero, XF.mul, XF.sub, XF.neg, XF.add]
      · right
        rw [hz]
        exact ⟨rfl, rfl⟩

theorem MabSeen.samplePart (hm : CritFits isCls m) (hb : BinningOK minmax d binType B)
    (hg : HistsGood R isCls data classes minmax d binType F B hs) (hbatch : 0 < batch)
    (hi : MabInv R isCls data labels m minmax d binType F B hs withRep I s)
    (hs' : MabSeen data.length batch withRep I s)
    (hlast : withRep = true → ∀ a ∈ s.cands, a ∈ allArms F B → s.numSamples a + batch < data.length)
    {r : Loop (MabState K G)} (hN : 0 < data.length)
    (h : mabSamplePart R F B data labels m epsilon budget batch s = .ok r) :
    ∃ I', MabInv R isCls data labels m minmax d binType F B hs withRep I' r.state ∧
      MabSeen data.length batch withRep I' r.state := by
  rcases mabSamplePart_cases h with ⟨_, rfl⟩ | ⟨_, hp, rfl⟩ | ⟨_, hp, out, est, cbd, hout, hest, hcbd, hr⟩
  · exact ⟨I, hi, hs'⟩
  · have hw : withRep = false := by
      cases hw : withRep with
      | false => rfl
      | true => rw [hi.rep hw] at hp; cases hp
    refine ⟨I, hi.setPoint, ⟨?_, hs'.mult, hs'.full, hs'.last, hs'.all, ?_⟩⟩
    · intro hw'; rw [hw] at hw'; cases hw'
    · intro _ _ a ha
      obtain ⟨p, hpe, hperm, _⟩ := hi.norep hw
      obtain ⟨e, he, _⟩ := hs'.pt hw hp a ha
      exact ⟨e, he, Or.inl ⟨he, he⟩⟩
  · have hI := hi.afterSample hm hb hg hout hest hcbd
    have hS := hs'.afterSample hm hb hg hbatch hi hlast hp hout hest hcbd
    rcases hr with ⟨rfl, _⟩ | ⟨_, ml, mi, mu, _, _, _, _, rfl⟩
    · exact ⟨_, hI, hS⟩
    · refine ⟨_, hI.setCands hg _ _ ?_, ⟨hS.rep, hS.mult, hS.full, hS.last, hS.all, hS.pt⟩⟩
      intro a ha
      simp only [Bool.and_eq_true, Bool.not_eq_eq_eq_not, Bool.not_true] at ha
      exact ha.1.1.1

theorem MabSeen.step (hm : CritFits isCls m) (hb : BinningOK minmax d binType B) (hdata : data ≠ [])
    (hg : HistsGood R isCls data classes minmax d binType F B hs) (hbatch : 0 < batch)
    (hi : MabInv R isCls data labels m minmax d binType F B hs withRep I s)
    (hs' : MabSeen data.length batch withRep I s) {r : Loop (MabState K G)}
    (h : mabStep R F B data labels m epsilon withRep budget batch s = .ok r) :
    ∃ I', MabInv R isCls data labels m minmax d binType F B hs withRep I' r.state ∧
      MabSeen data.length batch withRep I' r.state := by
  rcases mabStep_cases h with ⟨s', h1, rfl⟩ | ⟨s', h1, h2⟩
  · obtain ⟨I', a, b, _⟩ := hs'.exactPart hm hb hdata hg hi h1
    exact ⟨I', a, b⟩
  · obtain ⟨I', a, b, c⟩ := hs'.exactPart hm hb hdata hg hi h1
    exact MabSeen.samplePart hm hb hg hbatch a b c (List.length_pos_of_ne_nil hdata) h2

theorem MabSeen.visited (hm : CritFits isCls m) (hb : BinningOK minmax d binType B) (hdata : data ≠ [])
    (hg : HistsGood R isCls data classes minmax d binType F B hs) (hbatch : 0 < batch)
    (hi : MabInv R isCls data labels m minmax d binType F B hs withRep I s0)
    (hs' : MabSeen data.length batch withRep I s0)
    (hv : MabVisited R F B data labels m epsilon withRep budget batch s0 s) :
    ∃ I', MabInv R isCls data labels m minmax d binType F B hs withRep I' s ∧ MabSeen data.length batch withRep I' s := by
  have head : ∀ s, MabHead R F B data labels m epsilon withRep budget batch s0 s →
      ∃ I', MabInv R isCls data labels m minmax d binType F B hs withRep I' s ∧ MabSeen data.length batch withRep I' s := by
    intro s h
    induction h with
    | init => exact ⟨I, hi, hs'⟩
    | step h h5 hst ih =>
      obtain ⟨I', a, b⟩ := ih
      exact b.step hm hb hdata hg hbatch a hst
  rcases hv with h | ⟨s1, h, h5, hst⟩
  · exact head s h
  · obtain ⟨I', a, b⟩ := head s1 h
    exact b.step hm hb hdata hg hbatch a hst

/-- An arm that has counted the whole population has a point interval or NaN bounds. -/
theorem MabSeen.point (hbatch : 0 < batch) (hN : 0 < data.length)
    (hi : MabInv R isCls data labels m minmax d binType F B hs withRep I s)
    (h : MabSeen data.length batch withRep I s) {a : Arm} (ha : data.length ≤ s.numSamples a) : PointOrNan s a := by
  cases hw : withRep with
  | true => exact h.rep hw a ha
  | false =>
    obtain ⟨k, hk, hk'⟩ := h.mult hw a
    obtain ⟨p, hpe, hperm, _⟩ := hi.norep hw
    have h1 := hperm.length_eq
    rw [List.length_append, List.length_range] at h1
    have hlog : s.log ≠ [] := by
      intro h0
      rw [h0] at hk
      have : k = 0 := by simpa using hk
      rw [this] at hk'
      omega
    have hl := h.last hw hlog
    have hk2 : k = s.log.length := by
      have hpos := List.length_pos_of_ne_nil hlog
      by_contra hne
      have : k ≤ s.log.length - 1 := by omega
      have := Nat.mul_le_mul_left batch this
      omega
    by_cases hp : s.pop = some []
    · exact h.pt hw hp a (by rw [hk', hk2])
    · have := h.full hw hp
      exfalso
      have hp0 : 0 < p.length := by
        apply List.length_pos_of_ne_nil
        rintro rfl
        exact hp hpe
      rw [hk', hk2] at ha
      omega

end

/-- C12, second half. During any run with batch size at least one: once an arm has counted as many samples as the node has
datapoints (so with or without replacement the whole population was used for it), its two bounds are its estimate, or both NaN. -/
theorem C12_single_point (R : Rng K G) (g : G) (glob : Glob G) (junk : Junk K) (data : List (List K))
    (labels : List K) (minmax : Option (List K × List K)) (d : DiscDict K) (binType : Option BinType) (B : Nat)
    (isCls : Bool) (m : Criterion) (epsilon : K) (withRep : Bool) (budget : Option Int) (batch : Nat)
    (hs : Hists K G) (s : MabState K G) (hm : CritFits isCls m) (hb : BinningOK minmax d binType B) (hbatch : 1 ≤ batch)
    (hrun : MabDuring R g glob junk data labels minmax d binType B isCls m epsilon withRep budget batch hs s)
    (a : Arm) (ha : data.length ≤ s.numSamples a) :
    ∃ e, s.est a = .fin e ∧ ((s.lcb a = .fin e ∧ s.ucb a = .fin e) ∨ (s.lcb a = .nan ∧ s.ucb a = .nan)) := by
  obtain ⟨row, rest, s0, rfl, _, hmake, hinit, hvis⟩ := hrun
  have hg := makeHistograms_good hb hmake
  obtain ⟨I, hi, hseen⟩ := MabSeen.visited (epsilon := epsilon) (budget := budget) hm hb (by simp) hg hbatch
    (MabInv.init hg hmake hinit) (MabSeen.init (batch := batch) (by simp) hinit) hvis
  exact hseen.point hbatch (by simp) hi ha

/-- Some arms have counted all six datapoints after three batches of two: point intervals or NaN. -/
example :
    ((solveMab rngQ 1 ⟨0, 0⟩ junkQ [[0, 1], [1, 1], [2, 5], [3, 5], [4, 2], [5, 2]] [0, 3, 1, 7, 2, 1] none none
      (some .linear) (some 4) false .mse 0 false none 2).map (fun o => (o.final.numSamples (0, 1), o.final.est (0, 1),
        o.final.lcb (0, 1), o.final.ucb (0, 1)))).toOption = some (6, .fin (-91 / 18), .fin (-91 / 18), .fin (-91 / 18)) := by decide +kernel

end FF
