import Verif.Props.Regret
import Verif.Proofs.MabRound
import Verif.Proofs.MabTotal
import Verif.Spec.OneBatch

/-!
# A classification run of `solve_mab` with a threshold that separates nothing stops after one batch
-/

namespace FF

open Spec

set_option linter.unusedSectionVars false

variable {K : Type} [Field K] [LinearOrder K] [IsStrictOrderedRing K] [FloorRing K] [NpFun K] {G : Type}

theorem XF.mul_nan (x : XF K) : x.mul .nan = .nan := by cases x <;> rfl

theorem XF.add_nan (x : XF K) : x.add .nan = .nan := by cases x <;> rfl

theorem XF.nan_add (x : XF K) : (XF.nan : XF K).add x = .nan := by cases x <;> rfl

theorem XF.foldl_add_nan (l : List (XF K)) : l.foldl XF.add .nan = .nan := by
  induction l with
  | nil => rfl
  | cons x xs ih => rw [List.foldl_cons, XF.nan_add, ih]

theorem XF.sum_nan_cons (l : List (XF K)) : XF.sum (.nan :: l) = .nan := by
  unfold XF.sum
  rw [List.foldl_cons, XF.add_nan, XF.foldl_add_nan]

/-- The variance estimate of an empty side is NaN as soon as there are two classes. -/
theorem clsV_empty {m : Criterion} (hm : CritFits true m) {classes : List K} (hc : 2 ≤ classes.length) (pop : Option Nat) :
    clsV m classes [] pop = .nan := by
  match classes, hc with
  | c1 :: c2 :: cs, _ =>
    have hp : ∀ x : K, ((xnat ((([] : List K).count x)) : XF K).div (xnat ([] : List K).length)).nanToNum = .fin 0 := by
      intro x
      simp [xnat, XF.div, XF.signInf, XF.nanToNum]
    have hv : ∀ q : XF K, q = (((XF.fin (0 : K)).mul ((XF.fin 1).sub (.fin 0))).div (xnat 0)) → q = .nan := by
      rintro _ rfl
      simp [xnat, XF.div, XF.signInf, XF.mul, XF.sub, XF.neg, XF.add]
    have hv0 := hv _ rfl
    unfold CritFits at hm
    simp only [if_true] at hm
    have hvp : varProbs (probs (countsOf (c1 :: c2 :: cs) ([] : List K)) 0 : List (XF K)) 0 pop =
        (c1 :: c2 :: cs).map (fun _ => (.nan : XF K)) := by
      unfold varProbs probs countsOf
      rw [List.map_map, List.map_map]
      apply List.map_congr_left
      intro x _
      have := hp x
      simp only [Function.comp, List.length_nil] at this ⊢
      rw [this, hv0]
      cases pop <;> rfl
    rcases hm with rfl | rfl
    · unfold clsV clsImpurity getGini
      simp only [List.length_nil]
      rw [hvp]
      split
      · next p hp' =>
        split at hp'
        · cases hp'
        · cases hp'
          simp only [probs, countsOf, List.map_cons, List.dropLast_cons_cons, List.zip_cons_cons, XF.mul_nan]
          exact XF.sum_nan_cons _
      · rfl
    · unfold clsV clsImpurity getEntropy
      simp only [List.length_nil]
      rw [hvp]
      cases cs with
      | nil =>
        simp only [probs, countsOf, logProbs, List.map_cons, List.map_nil, entropyVar, XF.mul_nan]
        exact XF.sum_nan_cons _
      | cons c3 cs => rfl

/-- The variance estimate of a change is NaN at a threshold with nothing above it. -/
theorem clsVarRed_idle {m : Criterion} (hm : CritFits true m) {classes : List K} (hc : 2 ≤ classes.length) (S : List (K × K)) (t : K)
    (h : ∀ s ∈ S, s.1 ≤ t) (pop : Option Nat) : clsVarRed (clsV m classes) S t pop = .nan := by
  have h0 : labelsGt S t = [] := by
    unfold labelsGt
    rw [List.map_eq_nil_iff, List.filter_eq_nil_iff]
    intro s hs
    simpa using h s hs
  unfold clsVarRed
  simp only []
  rw [h0, clsV_empty hm hc, XF.mul_nan, XF.add_nan, XF.nan_add]

section
variable {R : Rng K G} {data : List (List K)} {labels : List K} {m : Criterion}
    {minmax : Option (List K × List K)} {d : DiscDict K} {binType : Option BinType} {F B : Nat} {hs : Hists K G}
    {withRep : Bool} {I : Nat → List Nat} {s s0 s' : MabState K G} {epsilon : K} {budget : Option Int} {batch : Nat}

theorem drawSamples_first {g g' : G} {N : Nat} {P : Option (List Nat)} {idcs : List Nat} {pop : Option Nat} {P' : Option (List Nat)}
    (hP : P = if withRep then none else some (List.range N))
    (h : drawSamples R g N batch P = .ok (idcs, pop, P', g')) : idcs = firstBatch R g N batch withRep := by
  subst hP
  unfold firstBatch
  have getD_range : ∀ i < N, (List.range N).getD i 0 = i := by
    intro i hi
    rw [List.getD_eq_getElem _ _ (by simpa using hi), List.getElem_range]
  cases withRep with
  | true =>
    simp only [if_true] at h ⊢
    unfold drawSamples at h
    simp only [] at h
    split_ifs at h ⊢ with h1
    · simp only [Except.ok.injEq, Prod.mk.injEq] at h
      exact h.1.symm
    · split at h
      · cases h
      · next s g'' hs =>
        simp only [Except.ok.injEq, Prod.mk.injEq] at h
        rw [← h.1]
        unfold rngChoiceRep at hs
        rw [List.length_range] at hs
        split_ifs at hs with h2
        simp only [Except.ok.injEq, Prod.mk.injEq] at hs
        rw [← hs.1]
        conv_rhs => rw [← List.map_id (R.choiceRep g N batch).1]
        exact List.map_congr_left (fun i hi => getD_range i (R.choiceRep_lt g _ _ h2 i hi))
  | false =>
    simp only [Bool.false_eq_true, if_false] at h ⊢
    unfold drawSamples at h
    simp only [List.length_range] at h
    split_ifs at h ⊢ with h1
    · simp only [Except.ok.injEq, Prod.mk.injEq] at h
      exact h.1.symm
    · simp only [Except.ok.injEq, Prod.mk.injEq] at h
      rw [← h.1]
      conv_rhs => rw [← List.map_id (R.choice g N batch).1]
      exact List.map_congr_left (fun i hi => getD_range i (R.choice_lt g _ _ (by omega) i hi))

/-- What is known after the only pass. -/
structure OneBatch (R : Rng K G) (g : G) (data : List (List K)) (labels : List K) (m : Criterion) (F B : Nat) (hs : Hists K G)
    (withRep : Bool) (batch : Nat) (s : MabState K G) : Prop where
  log : s.log = [firstBatch R g data.length batch withRep]
  est : ∀ a ∈ candArms F B hs, a ∈ allArms F B →
    s.est a = .fin (changeOn m data labels (firstBatch R g data.length batch withRep) a.1 ((edgesOf hs.hists a.1).getD a.2 0))

theorem matMin_nan {a : Mat K} {mu : XF K} (h : matMin F B a = .ok mu) {x : Arm} (hx : x ∈ allArms F B) (hn : a x = .nan) :
    mu = .nan := by
  rcases matMin_spec h with ⟨rfl, _⟩ | ⟨h3, _⟩
  · rfl
  · have := h3 x hx
    rw [hn] at this
    cases this

/-- The first pass looks at the first batch only, and leaves no candidate. -/
theorem one_pass (hm : CritFits true m) (hb : BinningOK minmax d binType B) (hdata : data ≠ [])
    (hg : HistsGood R true data (nodeClasses true labels) minmax d binType F B hs) {g0 : G}
    (hmake : makeHistograms R g0 true data labels minmax d binType B = .ok hs) {junk : Junk K} {g : G}
    (hinit : mabInit F B data.length junk withRep hs g = .ok s) (h5 : 5 < s.cands.length)
    (hcls : 2 ≤ (nodeClasses true labels).length) (hidle : IdleCand data hs.hists B) {r : Loop (MabState K G)}
    (h : mabStep R F B data labels m epsilon withRep budget batch s = .ok r) :
    OneBatch R g data labels m F B hs withRep batch r.state ∧ (∀ s', r = .next s' → s'.cands = []) := by
  have hi := MabInv.init (m := m) (labels := labels) hg hmake hinit
  obtain ⟨h1, h2, _, h4, h5', h6, h7, h8, h9, h10, h11⟩ := mabInit_ok hinit
  have hN : 0 < data.length := List.length_pos_of_ne_nil hdata
  by_cases hex : withRep = true ∧ data.length ≤ batch
  · obtain ⟨rfl, hle⟩ := hex
    have hfb : firstBatch R g data.length batch true = List.range data.length := by unfold firstBatch; rw [if_pos hle]
    have hea_mem : ∀ a ∈ allArms F B, (a ∈ exactArms F B data.length batch s ↔ a ∈ candArms F B hs) := by
      intro a hall
      rw [mem_exactArms, h4, h5']
      constructor
      · rintro ⟨ha, _, hne⟩
        rcases hg.mem_cands_or ha with hc | hc
        · exact hc.1
        · simp [hc.1] at hne
      · intro ha
        exact ⟨hall, by omega, by simpa using hg.cand_not_notCons ha⟩
    have hne : exactArms F B data.length batch s ≠ [] := by
      obtain ⟨f, b, v, hc, _⟩ := hidle
      obtain ⟨hmem, _⟩ := hg.cand_mem hc
      exact List.ne_nil_of_mem ((hea_mem _ (mem_allArms.2 ⟨(hg.cands_valid _ hmem).1, hc.2⟩)).2 hmem)
    have main : ∀ r1, mabExactPart R F B data labels m true budget batch s = .ok r1 →
        OneBatch R g data labels m F B hs true batch r1.state ∧ r1.state.cands = [] := by
      intro r1 h1'
      rcases mabExactPart_cases h1' with ⟨hr, hc⟩ | ⟨hrep, ea, out, est, mu, ml, hea, _, hout, hest, _, _, hr⟩
      · exact absurd (hc rfl) hne
      · have hlen' : (emptyHistograms s.hists ea).length = F := by rw [length_emptyHistograms, hi.len]
        obtain ⟨hsorted, hvalid, hsub, hd, hreds, hlen, hnq, hreach, hboth⟩ := hi.exact_call hm hb hdata hg hea hout
        have hlab : data.length ≤ labels.length := by
          obtain ⟨pop, _, hspec⟩ := sampleTargets_spec ((HistReach.empty ea hi.reach).rep hm hb) hm (featSorted_of_sorted hsorted)
            (nodup_of_sorted hsorted) (by rw [hlen']; exact hvalid) hout
          by_contra hc
          have := (hspec.lt labels.length (by rw [hd]; exact List.mem_range.2 (by omega))).2
          omega
        rw [hreds] at hest
        have hestv := assignMat_map hest
        have hst : r1.state = afterExact F B data.length s ea est mu out := by
          rcases hr with ⟨rfl, _⟩ | ⟨rfl, _⟩ <;> rfl
        rw [hst]
        have hmem : ∀ a ∈ allArms F B, (a ∈ ea ↔ a ∈ candArms F B hs) := by rw [hea]; exact hea_mem
        refine ⟨⟨?_, ?_⟩, ?_⟩
        · show s.log ++ [out.drawn] = _
          rw [h11, hd, hfb]; rfl
        · intro a ha hall
          show est a = _
          rw [hestv a, if_pos ((hmem a hall).2 ha), hfb]
          unfold changeOn armChange
          rw [nodeSamples_eq hlab]
        · show (allArms F B).filter _ = []
          rw [List.filter_eq_nil_iff]
          intro a ha
          rcases hg.mem_cands_or ha with hc | hc
          · simp [(hmem a ha).2 hc.1]
          · have : s.exact a = true := by rw [h5']; simpa using hc.1
            simp [this]
    rcases mabStep_cases h with ⟨s', h1', rfl⟩ | ⟨s', h1', h3⟩
    · exact ⟨(main _ h1').1, fun _ hc => by cases hc⟩
    · have := main _ h1'
      simp only [Loop.state] at this
      rcases mabSamplePart_cases h3 with ⟨hl, rfl⟩ | ⟨hl, _⟩ | ⟨hl, _⟩
      · exact ⟨this.1, fun _ hc => by cases hc⟩
      · rw [this.2] at hl; simp at hl
      · rw [this.2] at hl; simp at hl
  · have hx : mabExactPart R F B data labels m withRep budget batch s = .ok (.next s) := by
      unfold mabExactPart
      cases hw : withRep with
      | false => rfl
      | true =>
        have : exactArms F B data.length batch s = [] := by
          rw [List.eq_nil_iff_forall_not_mem]
          intro a ha
          rw [mem_exactArms, h4] at ha
          exact hex ⟨hw, by have := ha.2.1; simp only [Nat.zero_add] at this; exact this⟩
        simp [this]
    rcases mabStep_cases h with ⟨s', h1', rfl⟩ | ⟨s', h1', h3⟩
    · rw [hx] at h1'; cases h1'
    · rw [hx] at h1'
      cases h1'
      rcases mabSamplePart_cases h3 with ⟨hl, _⟩ | ⟨_, hpop, _⟩ | ⟨_, _, out, est, cbd, hout, hest, hcbd, hr⟩
      · omega
      · rw [h7] at hpop
        split at hpop
        · cases hpop
        · simp only [Option.some.injEq, List.range_eq_nil] at hpop
          omega
      · obtain ⟨pop, hdraw, hspec, hvalid, _⟩ := hi.sample_call hm hb hg hout
        have hfirst := drawSamples_first h7 hdraw
        rw [h9] at hfirst
        have hreds := hspec.reds
        have hcbs := hspec.cbs
        rw [hreds] at hest
        rw [hcbs] at hcbd
        have hestv := assignMat_map hest
        have hcbdv := assignMat_map hcbd
        have hval : ∀ a ∈ s.cands, (armVal data labels (edgesOf hs.hists)
              (fun f => if f ∈ s.cands.map Prod.fst then ([] : List Nat) ++ out.drawn else []) out.acc.hists m pop a).1
              = .fin (changeOn m data labels out.drawn a.1 ((edgesOf hs.hists a.1).getD a.2 0)) ∧
            ((∀ x ∈ data, x.getD a.1 0 ≤ (edgesOf hs.hists a.1).getD a.2 0) →
              (armVal data labels (edgesOf hs.hists)
              (fun f => if f ∈ s.cands.map Prod.fst then ([] : List Nat) ++ out.drawn else []) out.acc.hists m pop a).2 = .nan) := by
          intro a ha
          have hk : a.1 ∈ s.cands.map Prod.fst := List.mem_map.2 ⟨a, ha, rfl⟩
          have hva := hvalid a ha
          have hE : edgesOf hs.hists a.1 ≠ [] := by
            intro h0
            have := hva.2
            rw [h0] at this
            simp at this
          have hlt : a.1 < out.acc.hists.length := by rw [hspec.len]; exact hva.1
          have hget : out.acc.hists[a.1]? = some out.acc.hists[a.1] := List.getElem?_eq_getElem hlt
          have hrep := hspec.rep.rep a.1 _ hget hE
          have hcl := hspec.rep.classes_eq a.1 _ hget
          unfold armVal
          rw [hget]
          simp only [if_pos hk, List.nil_append]
          unfold redVal
          rw [hrep.isCls]
          simp only [if_true]
          refine ⟨rfl, fun hle => ?_⟩
          apply clsVarRed_idle hm (by rw [hcl]; exact hcls)
          intro x hx'
          obtain ⟨i, hi', rfl⟩ := List.mem_map.1 hx'
          have hil := (hspec.lt i hi').1
          refine hle _ ?_
          rw [List.getD_eq_getElem _ _ hil]
          exact List.getElem_mem hil
        have key : OneBatch R g data labels m F B hs withRep batch (afterSample s batch est cbd out) := by
          refine ⟨?_, ?_⟩
          · show s.log ++ [out.drawn] = _
            rw [h11, hfirst]; rfl
          · intro a ha _
            show est a = _
            rw [hestv a, if_pos (by rw [h2]; exact ha), (hval a (by rw [h2]; exact ha)).1, hfirst]
        rcases hr with ⟨rfl, _⟩ | ⟨_, ml, mi, mu, _, _, _, hmu, rfl⟩
        · exact ⟨key, fun _ hc => by cases hc⟩
        · refine ⟨⟨key.log, key.est⟩, fun s' hc => ?_⟩
          cases hc
          obtain ⟨f, b, v, hc, hle⟩ := hidle
          obtain ⟨hmem, hv⟩ := hg.cand_mem hc
          have hmem' : (f, b) ∈ s.cands := by rw [h2]; exact hmem
          have hmn : mu = .nan := by
            refine matMin_nan hmu (x := (f, b)) (mem_allArms.2 ⟨(hg.cands_valid _ hmem).1, hc.2⟩) ?_
            show (if (f, b) ∈ s.cands then _ else _) = _
            rw [if_pos hmem', hcbdv, if_pos hmem', (hval _ hmem').2 (by simp only [hv]; exact hle)]
            show XF.add _ ((XF.fin 1).mul .nan) = _
            rw [XF.mul_nan, XF.add_nan]
          subst hmn
          show nextCands F B epsilon _ _ _ = []
          unfold nextCands
          rw [List.filter_eq_nil_iff]
          intro a _
          generalize (afterSample s batch est cbd out).lcb a = q
          cases q <;> simp [XF.lt]

/-- The whole loop. -/
theorem one_final (hm : CritFits true m) (hb : BinningOK minmax d binType B) (hdata : data ≠ [])
    (hg : HistsGood R true data (nodeClasses true labels) minmax d binType F B hs) {g0 : G}
    (hmake : makeHistograms R g0 true data labels minmax d binType B = .ok hs) {junk : Junk K} {g : G}
    (hinit : mabInit F B data.length junk withRep hs g = .ok s0) (h5 : 5 < (candArms F B hs).length)
    (hcls : 2 ≤ (nodeClasses true labels).length) (hidle : IdleCand data hs.hists B) {n : Nat}
    (h : MabRuns R F B data labels m epsilon withRep budget batch s0 n (.ok s)) :
    OneBatch R g data labels m F B hs withRep batch s := by
  have hc : s0.cands = candArms F B hs := (mabInit_ok hinit).2.1
  cases h with
  | stop h => rw [hc] at h; exact absurd h5 h
  | leave h hs' => exact (one_pass hm hb hdata hg hmake hinit h hcls hidle hs').1
  | again h hs' hr =>
    obtain ⟨h1, h2⟩ := one_pass hm hb hdata hg hmake hinit h hcls hidle hs'
    have h3 := h2 _ rfl
    cases hr with
    | stop h => exact h1
    | leave h hs'' => rw [h3] at h; simp at h
    | again h hs'' _ => rw [h3] at h; simp at h

end

end FF
