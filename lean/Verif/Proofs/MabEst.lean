import Verif.Proofs.MabFull

/-!
# What the estimates of `solve_mab` are computed from
-/

namespace FF

open Spec

set_option linter.unusedSectionVars false

variable {K : Type} [Field K] [LinearOrder K] [IsStrictOrderedRing K] [FloorRing K] [NpFun K] {G : Type}

section
variable {R : Rng K G} {isCls : Bool} {data : List (List K)} {labels : List K} {m : Criterion}
    {minmax : Option (List K × List K)} {d : DiscDict K} {binType : Option BinType} {F B : Nat} {hs : Hists K G}
    {withRep : Bool} {I : Nat → List Nat} {s s0 s' : MabState K G} {epsilon : K} {budget : Option Int} {batch : Nat}

/-- The estimate of an arm was computed from rows of the node. -/
def FromRows (data : List (List K)) (labels : List K) (m : Criterion) (withRep : Bool) (E : Nat → List K) (a : Arm) (x : XF K) :
    Prop :=
  ∃ S : List Nat, S ≠ [] ∧ (∀ i ∈ S, i < data.length) ∧ (withRep = false → S.Nodup) ∧
    x = .fin (change (critImp m) (S.map (rowSample data labels a.1)) ((E a.1).getD a.2 0))

/-- What is known of the estimates. -/
structure EstInv (isCls : Bool) (data : List (List K)) (labels : List K) (m : Criterion) (hs : Hists K G) (withRep : Bool)
    (s : MabState K G) : Prop where
  exact : ∀ a, a ∉ hs.notCons → s.exact a = true → s.est a = .fin (armChange data labels (edgesOf hs.hists) m a)
  rows : isCls = true → ∀ a, 0 < s.numSamples a → FromRows data labels m withRep (edgesOf hs.hists) a (s.est a)

theorem EstInv.init {N : Nat} {junk : Junk K} {g : G} (h : mabInit F B N junk withRep hs g = .ok s) :
    EstInv isCls data labels m hs withRep s := by
  obtain ⟨_, _, _, h4, h5, _⟩ := mabInit_ok h
  refine ⟨fun a hn he => ?_, fun _ a ha => ?_⟩
  · rw [h5] at he
    exact absurd (by simpa using he) hn
  · rw [h4] at ha
    simp at ha

theorem EstInv.afterExact {classes : List K} (hm : CritFits isCls m) (hb : BinningOK minmax d binType B) (hdata : data ≠ [])
    (hg : HistsGood R isCls data classes minmax d binType F B hs)
    (hi : MabInv R isCls data labels m minmax d binType F B hs withRep I s)
    (he : EstInv isCls data labels m hs withRep s) {ea : List Arm}
    (hea : ea = exactArms F B data.length batch s) {out : SampleOut K G} {est : Mat K} (mu : XF K)
    (hout : sampleTargets R s.g data labels ea (emptyHistograms s.hists ea) data.length m none = .ok out)
    (hest : assignMat F B s.est ea out.acc.reds = .ok est) :
    EstInv isCls data labels m hs withRep (afterExact F B data.length s ea est mu out) := by
  obtain ⟨hsorted, hvalid, hsub, hd, hreds, _⟩ := hi.exact_call hm hb hdata hg hea hout
  have hlen : data.length ≤ labels.length := by
    have hlen' : (emptyHistograms s.hists ea).length = F := by rw [length_emptyHistograms, hi.len]
    obtain ⟨pop, _, hspec⟩ := sampleTargets_spec ((HistReach.empty ea hi.reach).rep hm hb) hm (featSorted_of_sorted hsorted)
      (nodup_of_sorted hsorted) (by rw [hlen']; exact hvalid) hout
    by_contra hc
    have := (hspec.lt labels.length (by rw [hd]; exact List.mem_range.2 (by omega))).2
    omega
  rw [hreds] at hest
  have hestv := assignMat_map hest
  refine ⟨fun a hn hex => ?_, fun hc a ha => ?_⟩
  · show est a = _
    rw [hestv]
    split_ifs with hmem
    · rfl
    · refine he.exact a hn ?_
      unfold FF.afterExact at hex
      simpa only [if_neg hmem] using hex
  · show FromRows data labels m withRep (edgesOf hs.hists) a (est a)
    rw [hestv]
    split_ifs with hmem
    · refine ⟨List.range data.length, ?_, fun i h => List.mem_range.1 h, fun _ => List.nodup_range, ?_⟩
      · rw [ne_eq, List.range_eq_nil, List.length_eq_zero_iff]; exact hdata
      · rw [nodeSamples_eq hlen]; rfl
    · refine he.rows hc a ?_
      unfold FF.afterExact at ha
      simpa only [if_neg hmem] using ha

theorem EstInv.afterSample {classes : List K} (hm : CritFits isCls m) (hb : BinningOK minmax d binType B)
    (hg : HistsGood R isCls data classes minmax d binType F B hs)
    (hi : MabInv R isCls data labels m minmax d binType F B hs withRep I s)
    (he : EstInv isCls data labels m hs withRep s) {out : SampleOut K G} {est cbd : Mat K}
    (hout : sampleTargets R s.g data labels s.cands s.hists batch m s.pop = .ok out)
    (hest : assignMat F B s.est s.cands out.acc.reds = .ok est)
    (hcbd : assignMat F B s.cbDelta s.cands out.acc.cbs = .ok cbd) :
    EstInv isCls data labels m hs withRep (afterSample s batch est cbd out) := by
  have hi' := hi.afterSample hm hb hg hout hest hcbd
  obtain ⟨pop, hdraw, hspec, hvalid, _⟩ := hi.sample_call hm hb hg hout
  rw [hspec.reds] at hest
  have hestv := assignMat_map hest
  refine ⟨fun a hn hex => ?_, fun hc a ha => ?_⟩
  · show est a = _
    have hx : s.exact a = true := hex
    rw [hestv, if_neg (fun hmem => by rw [hi.fresh a hmem] at hx; cases hx)]
    exact he.exact a hn hx
  · show FromRows data labels m withRep (edgesOf hs.hists) a (est a)
    rw [hestv]
    split_ifs with hmem
    · have hk : a.1 ∈ s.cands.map Prod.fst := List.mem_map.2 ⟨a, hmem, rfl⟩
      have hva := hvalid a hmem
      have hE : edgesOf hs.hists a.1 ≠ [] := by
        intro h0
        have := hva.2
        rw [h0] at this
        simp at this
      have hlt : a.1 < out.acc.hists.length := by rw [hspec.len]; exact hva.1
      have hget : out.acc.hists[a.1]? = some out.acc.hists[a.1] := List.getElem?_eq_getElem hlt
      have hrep := hspec.rep.rep a.1 _ hget hE
      refine ⟨_, hspec.ne a.1 hk, hi'.rows a.1, fun hw => ?_, ?_⟩
      · obtain ⟨p, _, hperm, hsubl⟩ := hi'.norep hw
        have hnd : ((FF.afterSample s batch est cbd out).log.flatten ++ p).Nodup := hperm.nodup_iff.2 List.nodup_range
        exact (hsubl a.1).nodup (List.nodup_append.1 hnd).1
      · unfold armVal
        rw [hget]
        simp only []
        unfold redVal
        rw [hrep.isCls, hc]
        rfl
    · refine he.rows hc a ?_
      unfold FF.afterSample at ha
      simpa only [if_neg hmem] using ha

theorem EstInv.step {classes : List K} (hm : CritFits isCls m) (hb : BinningOK minmax d binType B) (hdata : data ≠ [])
    (hg : HistsGood R isCls data classes minmax d binType F B hs)
    (hi : MabInv R isCls data labels m minmax d binType F B hs withRep I s)
    (he : EstInv isCls data labels m hs withRep s) {r : Loop (MabState K G)}
    (h : mabStep R F B data labels m epsilon withRep budget batch s = .ok r) :
    EstInv isCls data labels m hs withRep r.state := by
  have ex : ∀ r1, mabExactPart R F B data labels m withRep budget batch s = .ok r1 →
      EstInv isCls data labels m hs withRep r1.state := by
    intro r1 h1
    rcases mabExactPart_cases h1 with ⟨rfl, _⟩ | ⟨hrep, ea, out, est, mu, ml, hea, _, hout, hest, _, _, hr⟩
    · exact he
    · have := he.afterExact hm hb hdata hg hi hea mu hout hest
      rcases hr with ⟨rfl, _⟩ | ⟨rfl, _⟩ <;> exact this
  rcases mabStep_cases h with ⟨s', h1, rfl⟩ | ⟨s', h1, h2⟩
  · exact ex _ h1
  · obtain ⟨I', hi'⟩ := hi.exactPart hm hb hdata hg h1
    have he' := ex _ h1
    simp only [Loop.state] at hi' he'
    rcases mabSamplePart_cases h2 with ⟨_, rfl⟩ | ⟨_, _, rfl⟩ | ⟨_, _, out, est, cbd, hout, hest, hcbd, hr⟩
    · exact he'
    · exact ⟨he'.exact, he'.rows⟩
    · have := he'.afterSample hm hb hg hi' hout hest hcbd
      rcases hr with ⟨rfl, _⟩ | ⟨_, ml, mi, mu, _, _, _, _, rfl⟩
      · exact this
      · exact ⟨this.exact, this.rows⟩

theorem EstInv.visited {classes : List K} (hm : CritFits isCls m) (hb : BinningOK minmax d binType B) (hdata : data ≠ [])
    (hg : HistsGood R isCls data classes minmax d binType F B hs)
    (hi : MabInv R isCls data labels m minmax d binType F B hs withRep I s0)
    (he : EstInv isCls data labels m hs withRep s0)
    (hv : MabVisited R F B data labels m epsilon withRep budget batch s0 s) :
    EstInv isCls data labels m hs withRep s := by
  have head : ∀ s, MabHead R F B data labels m epsilon withRep budget batch s0 s →
      (∃ I', MabInv R isCls data labels m minmax d binType F B hs withRep I' s) ∧
        EstInv isCls data labels m hs withRep s := by
    intro s h
    induction h with
    | init => exact ⟨⟨I, hi⟩, he⟩
    | step h h5 hs' ih =>
      obtain ⟨⟨I', hi'⟩, he'⟩ := ih
      exact ⟨hi'.step hm hb hdata hg hs', he'.step hm hb hdata hg hi' hs'⟩
  rcases hv with h | ⟨s1, h, _, hs'⟩
  · exact (head _ h).2
  · obtain ⟨⟨I', hi'⟩, he'⟩ := head _ h
    exact he'.step hm hb hdata hg hi' hs'

/-- The final choice: a candidate of least estimate, taken when the estimate is negative. -/
theorem touched_finish {classes : List K} (hm : CritFits isCls m) (hb : BinningOK minmax d binType B)
    (hg : HistsGood R isCls data classes minmax d binType F B hs)
    (hi : MabInv R isCls data labels m minmax d binType F B hs withRep I s) (ht : AllTouched F B hs s)
    (hne : ∃ a ∈ candArms F B hs, a ∈ allArms F B) {glob : Glob G} {out : MabOut K G}
    (h : mabFinish R F B glob s = .ok out) :
    ∃ arm e, arm ∈ candArms F B hs ∧ arm ∈ allArms F B ∧ s.est arm = .fin e ∧
      (∀ a ∈ candArms F B hs, a ∈ allArms F B → ∀ e', s.est a = .fin e' → e ≤ e') ∧
      out.split = (if e < 0 then some { feat := arm.1, value := (edgesOf hs.hists arm.1).getD arm.2 0, red := .fin e }
        else none) := by
  have hest : ∀ a ∈ candArms F B hs, a ∈ allArms F B → ∃ e, s.est a = .fin e := by
    intro a ha hal
    rcases ht a hal with h | h
    · exact absurd h (hg.cand_not_notCons ha)
    · obtain ⟨e, he, _⟩ := hi.touched a h
      exact ⟨e, he⟩
  obtain ⟨arm, arms, harms, hmem, hsplit, _⟩ := mabFinish_ok h
  obtain ⟨mm, hmn, hmin, hfil⟩ := bestArms_spec harms (List.ne_nil_of_mem hmem)
  rw [hfil, List.mem_filter] at hmem
  have heq := XF.eqv_iff.1 hmem.2
  obtain ⟨a0, ha0, hal0⟩ := hne
  have hc : arm ∈ candArms F B hs := by
    rcases hg.mem_cands_or hmem.1 with h | h
    · exact h.1
    · exfalso
      have := hmin _ hal0
      obtain ⟨e0, he0⟩ := hest a0 ha0 hal0
      rw [he0, ← heq.1, (hi.notCons arm h.1).2.1] at this
      simp [XF.lt] at this
  obtain ⟨e, he⟩ := hest arm hc hmem.1
  refine ⟨arm, e, hc, hmem.1, he, ?_, ?_⟩
  · intro a ha hal e' he'
    have := hmin _ hal
    rw [← heq.1, he, he'] at this
    simpa [XF.lt] using this
  · have hv := hg.cands_valid arm hc
    rw [finishSplit_spec (hi.reach.rep hm hb) ⟨by rw [hi.len]; exact hv.1, hv.2⟩, he] at hsplit
    rw [← Except.ok.inj hsplit]
    simp [XF.lt]

end

end FF
