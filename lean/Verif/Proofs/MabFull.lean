import Verif.Proofs.MabTotal

/-!
# `solve_mab` when one batch covers the node, and its independence of uninitialised memory
-/

namespace FF

open Spec

set_option linter.unusedSectionVars false

variable {K : Type} [Field K] [LinearOrder K] [IsStrictOrderedRing K] [FloorRing K] [NpFun K] {G : Type}

section
variable {R : Rng K G} {isCls : Bool} {data : List (List K)} {labels : List K} {m : Criterion}
    {minmax : Option (List K × List K)} {d : DiscDict K} {binType : Option BinType} {F B : Nat} {hs : Hists K G}
    {withRep : Bool} {I : Nat → List Nat} {s s0 s' : MabState K G} {epsilon : K} {budget : Option Int} {batch : Nat}

/-- Every candidate was computed from the whole node, at the cost of the exact solver. -/
structure FullState (data : List (List K)) (labels : List K) (m : Criterion) (F B : Nat) (hs : Hists K G)
    (s : MabState K G) : Prop where
  est : ∀ a ∈ candArms F B hs, s.est a = .fin (armChange data labels (edgesOf hs.hists) m a)
  other : ∀ a ∈ hs.notCons, s.est a = .pinf
  total : s.total = featCountOf (candArms F B hs) * data.length

theorem full_pass (hm : CritFits isCls m) (hb : BinningOK minmax d binType B) (hdata : data ≠ [])
    (hg : HistsGood R isCls data (nodeClasses isCls labels) minmax d binType F B hs) {g0 : G}
    (hmake : makeHistograms R g0 isCls data labels minmax d binType B = .ok hs) {junk : Junk K} {g : G}
    (hinit : mabInit F B data.length junk withRep hs g = .ok s) (h5 : 5 < s.cands.length)
    (hin : ∀ a ∈ candArms F B hs, a ∈ allArms F B) (hbatch : data.length ≤ batch) {r : Loop (MabState K G)}
    (h : mabStep R F B data labels m epsilon withRep budget batch s = .ok r) :
    FullState data labels m F B hs r.state ∧ (∀ s', r = .next s' → s'.pop = some [] ∧ withRep = false) := by
  have hi := MabInv.init (m := m) (labels := labels) hg hmake hinit
  obtain ⟨h1, h2, _, h4, h5', h6, h7, h8, _⟩ := mabInit_ok hinit
  have hN : 0 < data.length := List.length_pos_of_ne_nil hdata
  cases hw : withRep with
  | false =>
    subst hw
    rcases mabStep_cases h with ⟨s', h1', rfl⟩ | ⟨s', h1', h3⟩
    · simp [mabExactPart] at h1'
    · simp only [mabExactPart, Bool.false_eq_true, if_false, Except.ok.injEq, Loop.next.injEq] at h1'
      subst h1'
      rcases mabSamplePart_cases h3 with ⟨hl, _⟩ | ⟨_, hpop, _⟩ | ⟨_, _, out, est, cbd, hout, hest, hcbd, hr⟩
      · omega
      · rw [h7] at hpop
        simp only [Bool.false_eq_true, if_false, Option.some.injEq, List.range_eq_nil] at hpop
        omega
      · obtain ⟨pop, hdraw, hspec, hvalid, _⟩ := hi.sample_call hm hb hg hout
        rw [h7] at hdraw
        simp only [Bool.false_eq_true, if_false] at hdraw
        rw [(drawSamples_full R s.g hbatch).1] at hdraw
        simp only [Except.ok.injEq, Prod.mk.injEq] at hdraw
        obtain ⟨e1, e2, e3, e4⟩ := hdraw
        subst e2
        obtain ⟨_, hreds, _⟩ := hspec.full e1.symm hdata (fun f _ => rfl) hvalid hm
        rw [hreds] at hest
        have hestv := assignMat_map hest
        have key : FullState data labels m F B hs (afterSample s batch est cbd out) := by
          refine ⟨?_, ?_, ?_⟩
          · intro a ha
            show est a = _
            rw [hestv a, if_pos (by rw [h2]; exact ha)]
          · intro a ha
            show est a = _
            rw [hestv a, if_neg (by rw [h2]; intro hc; exact hg.cand_not_notCons hc ha)]
            exact (h1 a ha).1
          · show s.total + out.acc.nq = _
            rw [h8, hspec.nq, ← e1, h2, List.length_range, Nat.zero_add]
        rcases hr with ⟨rfl, _⟩ | ⟨_, ml, mi, mu, _, _, _, _, rfl⟩
        · exact ⟨key, fun _ hc => by cases hc⟩
        · refine ⟨⟨key.est, key.other, key.total⟩, fun s' hc => ?_⟩
          cases hc
          exact ⟨e3.symm, rfl⟩
  | true =>
    subst hw
    have hea_mem : ∀ a, a ∈ exactArms F B data.length batch s ↔ a ∈ candArms F B hs := by
      intro a
      rw [mem_exactArms, h4, h5']
      constructor
      · rintro ⟨ha, _, hne⟩
        rcases hg.mem_cands_or ha with hc | hc
        · exact hc.1
        · simp [hc.1] at hne
      · intro ha
        exact ⟨hin a ha, by omega, by simpa using hg.cand_not_notCons ha⟩
    have hne : exactArms F B data.length batch s ≠ [] := by
      obtain ⟨a, ha⟩ := List.exists_mem_of_length_pos (by omega : 0 < s.cands.length)
      rw [h2] at ha
      exact List.ne_nil_of_mem ((hea_mem a).2 ha)
    have main : ∀ r1, mabExactPart R F B data labels m true budget batch s = .ok r1 →
        FullState data labels m F B hs r1.state ∧ r1.state.cands = [] := by
      intro r1 h1'
      rcases mabExactPart_cases h1' with ⟨hr, hc⟩ | ⟨hrep, ea, out, est, mu, ml, hea, _, hout, hest, _, _, hr⟩
      · exact absurd (hc rfl) hne
      · obtain ⟨hsorted, hvalid, hsub, hd, hreds, hlen, hnq, hreach, hboth⟩ := hi.exact_call hm hb hdata hg hea hout
        rw [hreds] at hest
        have hestv := assignMat_map hest
        have hst : r1.state = afterExact F B data.length s ea est mu out := by
          rcases hr with ⟨rfl, _⟩ | ⟨rfl, _⟩ <;> rfl
        rw [hst]
        have hmem : ∀ a, a ∈ ea ↔ a ∈ candArms F B hs := by rw [hea]; exact hea_mem
        refine ⟨⟨?_, ?_, ?_⟩, ?_⟩
        · intro a ha
          show est a = _
          rw [hestv a, if_pos ((hmem a).2 ha)]
        · intro a ha
          show est a = _
          rw [hestv a, if_neg (by rw [hmem]; intro hc; exact hg.cand_not_notCons hc ha)]
          exact (h1 a ha).1
        · show s.total + out.acc.nq = _
          rw [h8, hnq, Nat.zero_add]
          congr 1
          apply le_antisymm
          · exact featCountOf_le (fun a ha => ⟨a, (hmem a).1 ha, rfl⟩)
          · exact featCountOf_le (fun a ha => ⟨a, (hmem a).2 ha, rfl⟩)
        · show (allArms F B).filter _ = []
          rw [List.filter_eq_nil_iff]
          intro a ha
          rcases hg.mem_cands_or ha with hc | hc
          · simp [(hmem a).2 hc.1]
          · have : s.exact a = true := by rw [h5']; simpa using hc.1
            simp [this]
    rcases mabStep_cases h with ⟨s', h1', rfl⟩ | ⟨s', h1', h3⟩
    · exact ⟨(main _ h1').1, fun _ hc => by cases hc⟩
    · have := main _ h1'
      simp only [Loop.state] at this
      rcases mabSamplePart_cases h3 with ⟨hl, rfl⟩ | ⟨hl, _⟩ | ⟨hl, _⟩
      · exact ⟨this.1, fun _ hc => by cases hc⟩
      · rw [this.2] at hl; simp at hl
      · rw [this.2] at hl; simp at hl

theorem full_final (hm : CritFits isCls m) (hb : BinningOK minmax d binType B) (hdata : data ≠ [])
    (hg : HistsGood R isCls data (nodeClasses isCls labels) minmax d binType F B hs) {g0 : G}
    (hmake : makeHistograms R g0 isCls data labels minmax d binType B = .ok hs) {junk : Junk K} {g : G}
    (hinit : mabInit F B data.length junk withRep hs g = .ok s0) (h5 : 5 < (candArms F B hs).length)
    (hin : ∀ a ∈ candArms F B hs, a ∈ allArms F B) (hbatch : data.length ≤ batch) {n : Nat}
    (h : MabRuns R F B data labels m epsilon withRep budget batch s0 n (.ok s)) : FullState data labels m F B hs s := by
  have hc : s0.cands = candArms F B hs := (mabInit_ok hinit).2.1
  cases h with
  | stop h => rw [hc] at h; exact absurd h5 h
  | leave h hs' => exact (full_pass hm hb hdata hg hmake hinit h hin hbatch hs').1
  | again h hs' hr =>
    obtain ⟨h1, h2⟩ := full_pass hm hb hdata hg hmake hinit h hin hbatch hs'
    obtain ⟨hp2, hw⟩ := h2 _ rfl
    subst hw
    have one : ∀ {s1 : MabState K G} {r : Loop (MabState K G)}, FullState data labels m F B hs s1 → s1.pop = some [] →
        mabStep R F B data labels m epsilon false budget batch s1 = .ok r →
        FullState data labels m F B hs r.state ∧ ∀ s2, r ≠ .next s2 := by
      intro s1 r hf hp hst
      rcases mabStep_cases hst with ⟨s', h1', rfl⟩ | ⟨s', h1', h3⟩
      · simp [mabExactPart] at h1'
      · simp only [mabExactPart, Bool.false_eq_true, if_false, Except.ok.injEq, Loop.next.injEq] at h1'
        subst h1'
        rcases mabSamplePart_cases h3 with ⟨hl, rfl⟩ | ⟨_, hpop, rfl⟩ | ⟨_, hpop, _⟩
        · exact ⟨hf, by simp⟩
        · exact ⟨⟨hf.est, hf.other, hf.total⟩, by simp⟩
        · exact absurd hp hpop
    cases hr with
    | stop h => exact h1
    | leave h hs'' => exact (one h1 hp2 hs'').1
    | again h hs'' _ => exact absurd rfl ((one h1 hp2 hs'').2 _)

/-- The final choice from such a state. -/
theorem full_finish (hm : CritFits isCls m) (hb : BinningOK minmax d binType B)
    (hg : HistsGood R isCls data (nodeClasses isCls labels) minmax d binType F B hs)
    (hi : MabInv R isCls data labels m minmax d binType F B hs withRep I s) (hf : FullState data labels m F B hs s)
    (hin : ∀ a ∈ candArms F B hs, a ∈ allArms F B) (hne : candArms F B hs ≠ []) {glob : Glob G} {out : MabOut K G}
    (h : mabFinish R F B glob s = .ok out) :
    ∃ arm ∈ candArms F B hs,
      (∀ a ∈ candArms F B hs, armChange data labels (edgesOf hs.hists) m arm ≤ armChange data labels (edgesOf hs.hists) m a) ∧
      out.split = (if armChange data labels (edgesOf hs.hists) m arm < 0 then
        some { feat := arm.1, value := (edgesOf hs.hists arm.1).getD arm.2 0
               red := .fin (armChange data labels (edgesOf hs.hists) m arm) } else none) := by
  obtain ⟨arm, arms, harms, hmem, hsplit, _⟩ := mabFinish_ok h
  obtain ⟨mm, hmn, hmin, hfil⟩ := bestArms_spec harms (List.ne_nil_of_mem hmem)
  rw [hfil, List.mem_filter] at hmem
  have heq := XF.eqv_iff.1 hmem.2
  obtain ⟨a0, ha0⟩ := List.exists_mem_of_ne_nil _ hne
  have hc : arm ∈ candArms F B hs := by
    rcases hg.mem_cands_or hmem.1 with h | h
    · exact h.1
    · exfalso
      have := hmin _ (hin _ ha0)
      rw [hf.est _ ha0, ← heq.1, hf.other _ h.1] at this
      simp [XF.lt] at this
  refine ⟨arm, hc, ?_, ?_⟩
  · intro a ha
    have := hmin _ (hin _ ha)
    rw [← heq.1, hf.est _ ha, hf.est _ hc] at this
    simpa [XF.lt] using this
  · have hv := hg.cands_valid arm hc
    rw [finishSplit_spec (hi.reach.rep hm hb) ⟨by rw [hi.len]; exact hv.1, hv.2⟩, hf.est _ hc] at hsplit
    rw [← Except.ok.inj hsplit]
    simp [XF.lt]

/-! ### Uninitialised memory -/

theorem assignMat_congr {F B : Nat} {a b : Mat K} {arms : List Arm} {vals : List (XF K)}
    (h : ∀ x, x ∉ arms → a x = b x) : assignMat F B a arms vals = assignMat F B b arms vals := by
  unfold assignMat
  split
  · split
    · congr 1
      funext x
      split
      · rfl
      · next hx => exact h x hx
    · rfl
  · rfl

/-- Two states that differ only in the estimates and bounds of arms outside `ok`. -/
structure SameBut (ok : Arm → Prop) (s s' : MabState K G) : Prop where
  eq : s' = { s with est := s'.est, lcb := s'.lcb, ucb := s'.ucb }
  est : ∀ a, ok a → s.est a = s'.est a
  lcb : ∀ a, ok a → s.lcb a = s'.lcb a
  ucb : ∀ a, ok a → s.ucb a = s'.ucb a

theorem samplePart_same {e l u : Mat K} (h5 : 1 < s.cands.length) (hp : s.pop ≠ some [])
    (he : ∀ a, a ∉ s.cands → s.est a = e a) (hl : ∀ a, a ∉ s.cands → s.lcb a = l a)
    (hu : ∀ a, a ∉ s.cands → s.ucb a = u a) :
    mabSamplePart R F B data labels m epsilon budget batch s =
      mabSamplePart R F B data labels m epsilon budget batch { s with est := e, lcb := l, ucb := u } := by
  unfold mabSamplePart
  rw [if_neg (by omega), if_neg hp, if_neg (by simp only []; omega), if_neg hp]
  simp only []
  split
  · rfl
  · next out hout =>
    rw [← assignMat_congr (a := s.est) (b := e) he]
    split
    · rfl
    · next est hest =>
      split
      · rfl
      · next cbd hcbd =>
        have el : ∀ x, (if x ∈ s.cands then (est x).sub ((XF.fin 1).mul (cbd x)) else s.lcb x) =
            (if x ∈ s.cands then (est x).sub ((XF.fin 1).mul (cbd x)) else l x) := by
          intro x
          split
          · rfl
          · next hx => exact hl x hx
        have eu : ∀ x, (if x ∈ s.cands then (est x).add ((XF.fin 1).mul (cbd x)) else s.ucb x) =
            (if x ∈ s.cands then (est x).add ((XF.fin 1).mul (cbd x)) else u x) := by
          intro x
          split
          · rfl
          · next hx => exact hu x hx
        simp only [el, eu]

theorem exactPart_same {e l u : Mat K} (hea : exactArms F B data.length batch s ≠ [])
    (he : ∀ a, a ∉ exactArms F B data.length batch s → s.est a = e a)
    (hl : ∀ a, a ∉ exactArms F B data.length batch s → s.lcb a = l a)
    (hu : ∀ a, a ∉ exactArms F B data.length batch s → s.ucb a = u a) :
    mabExactPart R F B data labels m true budget batch s =
      mabExactPart R F B data labels m true budget batch { s with est := e, lcb := l, ucb := u } := by
  have hee : exactArms F B data.length batch { s with est := e, lcb := l, ucb := u } = exactArms F B data.length batch s := rfl
  unfold mabExactPart
  rw [hee, if_pos rfl, if_pos rfl]
  simp only []
  rw [if_pos (List.length_pos_of_ne_nil hea), if_pos (List.length_pos_of_ne_nil hea)]
  generalize exactArms F B data.length batch s = ea at *
  split
  · rfl
  · next out hout =>
    rw [← assignMat_congr (a := s.est) (b := e) he]
    split
    · rfl
    · next est hest =>
      have el : ∀ x, (if x ∈ ea then est x else s.lcb x) = (if x ∈ ea then est x else l x) := by
        intro x
        split
        · rfl
        · next hx => exact hl x hx
      have eu : ∀ x, (if x ∈ ea then est x else s.ucb x) = (if x ∈ ea then est x else u x) := by
        intro x
        split
        · rfl
        · next hx => exact hu x hx
      simp only [el, eu]

/-- The first pass forgets what the uninitialised arrays contained. -/
theorem step_same (hdata : data ≠ []) {classes : List K}
    (hg : HistsGood R isCls data classes minmax d binType F B hs) {junk junk' : Junk K} {g : G}
    (hinit : mabInit F B data.length junk withRep hs g = .ok s) (h5 : 5 < s.cands.length)
    (hinit' : mabInit F B data.length junk' withRep hs g = .ok s') :
    mabStep R F B data labels m epsilon withRep budget batch s =
      mabStep R F B data labels m epsilon withRep budget batch s' := by
  obtain ⟨h1, h2, h3, h4, h5', h6, h7, h8, h9, h10, h11⟩ := mabInit_ok hinit
  obtain ⟨k1, k2, k3, k4, k5', k6, k7, k8, k9, k10, k11⟩ := mabInit_ok hinit'
  have hN : 0 < data.length := List.length_pos_of_ne_nil hdata
  have out : ∀ {junk : Junk K} {s : MabState K G}, mabInit F B data.length junk withRep hs g = .ok s →
      ∀ a, a ∉ allArms F B → a ∉ hs.notCons → s.est a = .nan ∧ s.lcb a = .nan ∧ s.ucb a = .nan := by
    intro junk s h a ha hn
    rw [mem_allArms] at ha
    unfold mabInit at h
    split at h
    · next est ucb lcb h1 h2 h3 =>
      cases h
      refine ⟨?_, ?_, ?_⟩
      · show est a = _
        rw [fillMat_ok h1, if_neg hn, npEmpty, if_neg ha]
      · show lcb a = _
        rw [fillMat_ok h3, if_neg hn, npEmpty, if_neg ha]
      · show ucb a = _
        rw [fillMat_ok h2, if_neg hn, npEmpty, if_neg ha]
    · cases h
  have agree : ∀ a, (a ∈ allArms F B → a ∈ hs.notCons) → s.est a = s'.est a ∧ s.lcb a = s'.lcb a ∧ s.ucb a = s'.ucb a := by
    intro a ha
    by_cases hn : a ∈ hs.notCons
    · obtain ⟨e1, e2, e3⟩ := h1 a hn
      obtain ⟨f1, f2, f3⟩ := k1 a hn
      exact ⟨e1.trans f1.symm, e3.trans f3.symm, e2.trans f2.symm⟩
    · have hna : a ∉ allArms F B := fun h => hn (ha h)
      obtain ⟨e1, e2, e3⟩ := out hinit a hna hn
      obtain ⟨f1, f2, f3⟩ := out hinit' a hna hn
      exact ⟨e1.trans f1.symm, e2.trans f2.symm, e3.trans f3.symm⟩
  have heq : s' = { s with est := s'.est, lcb := s'.lcb, ucb := s'.ucb } := by
    cases s
    cases s'
    simp_all
  have agreeC : ∀ a, a ∉ s.cands → s.est a = s'.est a ∧ s.lcb a = s'.lcb a ∧ s.ucb a = s'.ucb a := by
    intro a ha
    apply agree
    intro hall
    rcases hg.mem_cands_or hall with hc | hc
    · rw [h2] at ha; exact absurd hc.1 ha
    · exact hc.1
  have hsp : mabSamplePart R F B data labels m epsilon budget batch s =
      mabSamplePart R F B data labels m epsilon budget batch s' := by
    rw [heq]
    apply samplePart_same (by omega)
    · rw [h7]
      split
      · simp
      · simp only [ne_eq, Option.some.injEq, List.range_eq_nil]; omega
    · exact fun a ha => (agreeC a ha).1
    · exact fun a ha => (agreeC a ha).2.1
    · exact fun a ha => (agreeC a ha).2.2
  unfold mabStep
  cases withRep with
  | false =>
    simp only [mabExactPart, Bool.false_eq_true, if_false]
    exact hsp
  | true =>
    have hee : exactArms F B data.length batch s' = exactArms F B data.length batch s := by
      rw [heq]; rfl
    by_cases hea : exactArms F B data.length batch s = []
    · have e1 : mabExactPart R F B data labels m true budget batch s = .ok (.next s) := by
        simp [mabExactPart, hea]
      have e2 : mabExactPart R F B data labels m true budget batch s' = .ok (.next s') := by
        simp [mabExactPart, hee, hea]
      rw [e1, e2]
      exact hsp
    · have agreeE : ∀ a, a ∉ exactArms F B data.length batch s →
          s.est a = s'.est a ∧ s.lcb a = s'.lcb a ∧ s.ucb a = s'.ucb a := by
        intro a ha
        apply agree
        intro hall
        obtain ⟨b, hb'⟩ := List.exists_mem_of_ne_nil _ hea
        rw [mem_exactArms, h4] at hb'
        rw [mem_exactArms, h4, h5'] at ha
        by_contra hn
        exact ha ⟨hall, hb'.2.1, by simpa using hn⟩
      have : mabExactPart R F B data labels m true budget batch s = mabExactPart R F B data labels m true budget batch s' := by
        rw [heq]
        exact exactPart_same hea (fun a ha => (agreeE a ha).1) (fun a ha => (agreeE a ha).2.1)
          (fun a ha => (agreeE a ha).2.2)
      rw [this]

end

end FF
