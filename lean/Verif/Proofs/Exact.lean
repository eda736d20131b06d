import Verif.Proofs.MakeHists
import Verif.Proofs.XFOrd

/-!
# `solve_exactly`
-/

namespace FF

open Spec

set_option linter.unusedSectionVars false

variable {K : Type} [Field K] [LinearOrder K] [IsStrictOrderedRing K] [FloorRing K] [NpFun K] {G : Type}

/-- The true change of the weighted impurity of the node for an arm. -/
def armChange (data : List (List K)) (labels : List K) (E : Nat → List K) (m : Criterion) (a : Arm) : K :=
  change (critImp m) (nodeSamples data labels a.1) ((E a.1).getD a.2 0)

theorem nodeSamples_eq {data : List (List K)} {labels : List K} (h : data.length ≤ labels.length) (f : Nat) :
    (List.range data.length).map (rowSample data labels f) = nodeSamples data labels f := by
  unfold nodeSamples batchSamples rowSample
  apply List.ext_getElem
  · simp [h]
  · intro i h1 h2
    simp only [List.length_map, List.length_range] at h1
    simp [List.getD_eq_getElem?_getD, List.getElem?_eq_getElem h1, List.getElem?_eq_getElem (lt_of_lt_of_le h1 h)]

theorem drawSamples_full (R : Rng K G) (g : G) {N batch : Nat} (h : N ≤ batch) :
    drawSamples R g N batch (some (List.range N)) = .ok (List.range N, some N, some [], g) ∧
    drawSamples R g N batch none = .ok (List.range N, some N, none, g) := by
  unfold drawSamples
  simp [h]

theorem assignMat_ok {F B : Nat} {a : Mat K} {arms : List Arm} {vals : List (XF K)} {r : Mat K}
    (h : assignMat F B a arms vals = .ok r) :
    (∀ x ∈ arms, x.1 < F ∧ x.2 < B) ∧ vals.length = arms.length ∧
    ∀ x, r x = if x ∈ arms then vals.getD (arms.idxOf x) .nan else a x := by
  unfold assignMat at h
  split_ifs at h with h1 h2
  cases h
  exact ⟨by simpa using h1, h2, fun x => rfl⟩

theorem getD_map_idxOf {α : Type} (arms : List Arm) (v : Arm → α) (d : α) {x : Arm} (hx : x ∈ arms) :
    (arms.map v).getD (arms.idxOf x) d = v x := by
  have h := List.idxOf_lt_length_of_mem hx
  rw [List.getD_eq_getElem _ _ (by simpa using h), List.getElem_map, List.getElem_idxOf]

theorem assignMat_map {F B : Nat} {a : Mat K} {arms : List Arm} {v : Arm → XF K} {r : Mat K}
    (h : assignMat F B a arms (arms.map v) = .ok r) (x : Arm) : r x = if x ∈ arms then v x else a x := by
  rw [(assignMat_ok h).2.2 x]
  split
  · next hx => exact getD_map_idxOf arms v _ hx
  · rfl

theorem assignMat_total {F B : Nat} (a : Mat K) {arms : List Arm} (v : Arm → XF K) (h : ∀ x ∈ arms, x ∈ allArms F B) :
    ∃ r, assignMat F B a arms (arms.map v) = .ok r := by
  unfold assignMat
  rw [if_pos (by simpa [mem_allArms] using h), if_pos (by simp)]
  exact ⟨_, rfl⟩

theorem fillMat_ok {F B : Nat} {a : Mat K} {arms : List Arm} {v : XF K} {r : Mat K}
    (h : fillMat F B a arms v = .ok r) (x : Arm) : r x = if x ∈ arms then v else a x := by
  unfold fillMat at h
  split_ifs at h with h1
  cases h
  rfl

/-- Values of a call that sees the whole node with empty histograms. -/
theorem SampleSpec.full {isCls : Bool} {classes : List K} {data : List (List K)} {labels : List K}
    {E : Nat → List K} {I I' : Nat → List Nat} {arms : List Arm} {hists : List (Hist K)} {m : Criterion}
    {out : SampleOut K G} (h : SampleSpec isCls classes data labels E I arms m hists out (some data.length) I')
    (hd : out.drawn = List.range data.length) (hN : data ≠ []) (hI : ∀ f ∈ arms.map Prod.fst, I f = [])
    (hv : ArmsValid E hists.length arms) (hm : CritFits isCls m) :
    data.length ≤ labels.length ∧
    out.acc.reds = arms.map (fun a => XF.fin (armChange data labels E m a)) ∧
    ∃ z : Arm → XF K, (∀ a ∈ arms, z a = .fin 0 ∨ z a = .nan) ∧ out.acc.cbs = arms.map z := by
  have hlen : data.length ≤ labels.length := by
    by_contra hc
    have := (h.lt labels.length (by rw [hd]; exact List.mem_range.2 (by omega))).2
    omega
  have hN' : 0 < data.length := List.length_pos_of_ne_nil hN
  have hI' : ∀ f ∈ arms.map Prod.fst, I' f = List.range data.length := by
    intro f hf
    rw [h.I_eq, if_pos hf, hI f hf, hd, List.nil_append]
  have key : ∀ a ∈ arms, (armVal data labels E I' out.acc.hists m (some data.length) a).1
        = .fin (armChange data labels E m a) ∧
      (((armVal data labels E I' out.acc.hists m (some data.length) a).2.sqrt = .fin 0) ∨
       ((armVal data labels E I' out.acc.hists m (some data.length) a).2.sqrt = .nan)) := by
    intro a ha
    have hk : a.1 ∈ arms.map Prod.fst := List.mem_map.2 ⟨a, ha, rfl⟩
    have hva := hv a ha
    have hE : E a.1 ≠ [] := by
      intro h0
      have := hva.2
      rw [h0] at this
      simp at this
    have hlt : a.1 < out.acc.hists.length := by rw [h.len]; exact hva.1
    have hget : out.acc.hists[a.1]? = some out.acc.hists[a.1] := List.getElem?_eq_getElem hlt
    have hrep := h.rep.rep a.1 _ hget hE
    have hev := fun hc => h.exactVar hc a.1 _ hk (hI _ hk) hget
    unfold armVal
    rw [hget]
    simp only []
    rw [hI' _ hk, nodeSamples_eq hlen] at hrep hev ⊢
    have hSlen : (nodeSamples data labels a.1).length = data.length := by
      rw [← nodeSamples_eq hlen]; simp
    have hSne : nodeSamples data labels a.1 ≠ [] := by
      intro h0; rw [h0] at hSlen; simp at hSlen; omega
    unfold redVal
    rw [hrep.isCls]
    cases isCls with
    | true =>
      simp only [if_true]
      refine ⟨rfl, ?_⟩
      have hz := clsVarRed_full m out.acc.hists[a.1].classes (nodeSamples data labels a.1) hSne ((E a.1).getD a.2 0)
      rw [hSlen] at hz
      rcases hz with hz | hz
      · left; rw [hz]; simp [XF.sqrt, NpFun.sqrt_zero]
      · right; rw [hz]; rfl
    | false =>
      simp only [Bool.false_eq_true, if_false]
      have hr : RegRep out.acc.hists[a.1] (E a.1) (nodeSamples data labels a.1) := by
        unfold Rep at hrep
        simpa using hrep
      have hmm : m = .mse := by simpa [CritFits] using hm
      have h1 := regRed_full hr (hev rfl) hSne a.2 hva.2
      have h2 := regVarRed_full hr hSne a.2
      have h3 : regRed out.acc.hists[a.1] (nodeSamples data labels a.1).length (some data.length) a.2
          = change variance (nodeSamples data labels a.1) ((E a.1).getD a.2 0) := by
        rw [← h1, hSlen]
      have h4 : regVarRed out.acc.hists[a.1] (nodeSamples data labels a.1).length (some data.length) a.2 = 0 := by
        rw [← h2, hSlen]
      refine ⟨?_, ?_⟩
      · rw [h3, hmm]; rfl
      · left
        rw [h4]
        simp [XF.sqrt, NpFun.sqrt_zero]
  refine ⟨hlen, ?_, fun a => (armVal data labels E I' out.acc.hists m (some data.length) a).2.sqrt,
    fun a ha => (key a ha).2, h.cbs⟩
  rw [h.reds]
  exact List.map_congr_left (fun a ha => (key a ha).1)

/-! ### Choosing the smallest estimate -/

theorem bestArms_spec {F B : Nat} {est : Mat K} {arms : List Arm} (h : bestArms F B est = .ok arms) (hne : arms ≠ []) :
    ∃ m, m.isNan = false ∧ (∀ a ∈ allArms F B, (est a).lt m = false) ∧
      arms = (allArms F B).filter (fun a => (est a).eqv m) := by
  unfold bestArms at h
  split at h
  · cases h
  · next m hm =>
    cases h
    obtain ⟨_, ⟨rfl, hall⟩ | ⟨h1, h2, h3⟩⟩ := XF.nanmin_spec hm
    · exfalso
      apply hne
      rw [List.filter_eq_nil_iff]
      intro a ha
      rw [hall (est a) (List.mem_map.2 ⟨a, ha, rfl⟩)]
      simp [XF.eqv]
    · refine ⟨m, h1, fun a ha => h3 _ (List.mem_map.2 ⟨a, ha, rfl⟩), rfl⟩

theorem bestArms_total {F B : Nat} {est : Mat K} (hne : allArms F B ≠ []) (hn : ∃ a ∈ allArms F B, (est a).isNan = false) :
    ∃ arms, bestArms F B est = .ok arms ∧ arms ≠ [] := by
  unfold bestArms
  obtain ⟨m, hm⟩ := XF.nanmin_isSome (l := flatMat F B est) (by unfold flatMat; simpa using hne)
  rw [hm]
  refine ⟨_, rfl, ?_⟩
  obtain ⟨_, ⟨rfl, hall⟩ | ⟨h1, h2, h3⟩⟩ := XF.nanmin_spec hm
  · obtain ⟨a, ha, hna⟩ := hn
    rw [hall (est a) (List.mem_map.2 ⟨a, ha, rfl⟩)] at hna
    cases hna
  · obtain ⟨a, ha, rfl⟩ := List.mem_map.1 h2
    intro h0
    rw [List.filter_eq_nil_iff] at h0
    exact h0 a ha (XF.eqv_iff.2 ⟨rfl, h1⟩)

theorem head_filter_least {l : List Arm} (hl : l.Pairwise ArmLt) {p : Arm → Bool} {a : Arm} {as : List Arm}
    (h : l.filter p = a :: as) : a ∈ l ∧ p a = true ∧ ∀ b ∈ l, ArmLt b a → p b = false := by
  have ha : a ∈ l.filter p := by rw [h]; exact List.mem_cons_self
  rw [List.mem_filter] at ha
  refine ⟨ha.1, ha.2, fun b hb hlt => ?_⟩
  by_contra hpb
  have hb' : b ∈ l.filter p := List.mem_filter.2 ⟨hb, by simpa using hpb⟩
  have hs : (l.filter p).Pairwise ArmLt := hl.filter _
  rw [h, List.pairwise_cons] at hs
  rw [h, List.mem_cons] at hb'
  rcases hb' with rfl | hb'
  · exact hlt.ne rfl
  · exact (hlt.trans (hs.1 b hb')).ne rfl

/-! ### The solver -/

/-- The facts about a successful run of `solve_exactly`. -/
structure ExactRun (R : Rng K G) (g : G) (data : List (List K)) (labels : List K)
    (minmax : Option (List K × List K)) (d : DiscDict K) (binType : Option BinType) (numBins : Option Nat)
    (isCls : Bool) (m : Criterion) (r : Option (SplitRes K)) (nq : Nat) (g' : G) (F B : Nat) (hs : Hists K G) (arm : Arm) :
    Prop where
  nonempty : data ≠ []
  len : data.length ≤ labels.length
  bins : exactBins data binType numBins = some B
  make : makeHistograms R g isCls data labels minmax d binType B = .ok hs
  good : HistsGood R isCls data (nodeClasses isCls labels) minmax d binType F B hs
  gen : g' = hs.g
  nq_eq : nq = featCountOf (candArms F B hs) * data.length
  inside : ∀ a ∈ candArms F B hs, a.1 < F ∧ a.2 < B
  arm_mem : arm ∈ candArms F B hs
  best : ∀ a ∈ candArms F B hs, armChange data labels (edgesOf hs.hists) m arm ≤ armChange data labels (edgesOf hs.hists) m a
  first : ∀ a ∈ candArms F B hs, ArmLt a arm →
    armChange data labels (edgesOf hs.hists) m arm < armChange data labels (edgesOf hs.hists) m a
  result : r = if armChange data labels (edgesOf hs.hists) m arm < 0 then
      some { feat := arm.1, value := (edgesOf hs.hists arm.1).getD arm.2 0
             red := .fin (armChange data labels (edgesOf hs.hists) m arm) } else none

theorem Rep.edges_some {isCls : Bool} {h : Hist K} {edges : List K} {S : List (K × K)} (hr : Rep isCls h edges S) :
    h.edges = some edges := by
  unfold Rep at hr
  split_ifs at hr
  · exact hr.edges_eq
  · exact hr.edges_eq

theorem finishSplit_spec {isCls : Bool} {classes : List K} {data : List (List K)} {labels : List K} {E : Nat → List K}
    {I : Nat → List Nat} {hists : List (Hist K)} (hH : HistsRep isCls classes data labels E I hists) {est : Mat K} {arm : Arm}
    (hv : arm.1 < hists.length ∧ arm.2 < (E arm.1).length) :
    finishSplit hists est arm = .ok (if (est arm).lt (.fin 0) then
      some { feat := arm.1, value := (E arm.1).getD arm.2 0, red := est arm } else none) := by
  have hget : hists[arm.1]? = some hists[arm.1] := List.getElem?_eq_getElem hv.1
  have hE : E arm.1 ≠ [] := by
    intro h0
    have := hv.2
    rw [h0] at this
    simp at this
  have hrep := hH.rep _ _ hget hE
  unfold finishSplit
  rw [hget]
  simp only [hrep.edges_some]
  rw [List.getElem?_eq_getElem hv.2]
  simp only [List.getD_eq_getElem _ _ hv.2]
  split <;> rfl

theorem solveExactly_run {R : Rng K G} {g g' : G} {junk : Mat K} {data : List (List K)} {labels : List K}
    {minmax : Option (List K × List K)} {d : DiscDict K} {binType : Option BinType} {numBins : Option Nat}
    {isCls : Bool} {m : Criterion} {r : Option (SplitRes K)} {nq : Nat}
    (hm : CritFits isCls m) (hb : ∀ B, exactBins data binType numBins = some B → BinningOK minmax d binType B)
    (hok : solveExactly R g junk data labels minmax d binType numBins isCls m = .ok (r, nq, g')) :
    ∃ row rest B hs arm, data = row :: rest ∧
      ExactRun R g data labels minmax d binType numBins isCls m r nq g' row.length B hs arm := by
  unfold solveExactly at hok
  split at hok
  · cases hok
  · next row rest =>
    simp only [] at hok
    split at hok
    · cases hok
    · next B hB =>
      have hB' : exactBins (row :: rest) binType numBins = some B := hB
      split at hok
      · cases hok
      · next hs hmake =>
        have hg := makeHistograms_good (hb B hB') hmake
        split at hok
        · cases hok
        · next est0 hfill =>
          have hcands : (if hs.notCons.length > 0 then hs.cons else allArms row.length B) = candArms row.length B hs := rfl
          simp only [hcands] at hok
          split_ifs at hok with hne
          split at hok
          · cases hok
          · next out hsam =>
            split at hok
            · cases hok
            · next est hest =>
              split at hok
              · cases hok
              · cases hok
              · next arm arms hbest =>
                have hsorted := hg.cands_sorted
                have hvalid : ArmsValid (edgesOf hs.hists) hs.hists.length (candArms row.length B hs) := by
                  rw [hg.len]; exact hg.cands_valid
                obtain ⟨pop, hdraw, hspec⟩ := sampleTargets_spec (hg.rep labels) hm (featSorted_of_sorted hsorted)
                  (nodup_of_sorted hsorted) hvalid hsam
                rw [(drawSamples_full R hs.g (le_refl _)).1] at hdraw
                simp only [Except.ok.injEq, Prod.mk.injEq] at hdraw
                obtain ⟨hd1, hd2, _, _⟩ := hdraw
                subst hd2
                obtain ⟨hlen, hreds, _⟩ := hspec.full hd1.symm (by simp) (fun f _ => rfl) hvalid hm
                rw [hreds] at hest
                have hin := (assignMat_ok hest).1
                have hestv := assignMat_map hest
                obtain ⟨mm, hmn, hmin, harms⟩ := bestArms_spec hbest (by simp)
                obtain ⟨ha1, ha2, ha3⟩ := head_filter_least (allArms_sorted row.length B) harms.symm
                have ha2' := XF.eqv_iff.1 ha2
                -- the winner is a candidate
                have hc0 : ∃ a, a ∈ candArms row.length B hs := List.exists_mem_of_ne_nil _ hne
                have harmc : arm ∈ candArms row.length B hs := by
                  rcases hg.mem_cands_or ha1 with h1 | h1
                  · exact h1.1
                  · exfalso
                    obtain ⟨a, ha⟩ := hc0
                    have hea : est a = .fin (armChange (row :: rest) labels (edgesOf hs.hists) m a) := by
                      rw [hestv, if_pos ha]
                    have hem : est arm = .pinf := by
                      rw [hestv, if_neg h1.2, fillMat_ok hfill, if_pos h1.1]
                    have := hmin a (mem_allArms.2 (hin a ha))
                    rw [hea, ← ha2'.1, hem] at this
                    simp [XF.lt] at this
                have hearm : est arm = .fin (armChange (row :: rest) labels (edgesOf hs.hists) m arm) := by
                  rw [hestv, if_pos harmc]
                have hbst : ∀ a ∈ candArms row.length B hs,
                    armChange (row :: rest) labels (edgesOf hs.hists) m arm
                      ≤ armChange (row :: rest) labels (edgesOf hs.hists) m a := by
                  intro a ha
                  have := hmin a (mem_allArms.2 (hin a ha))
                  rw [← ha2'.1, hearm, hestv, if_pos ha] at this
                  simpa [XF.lt] using this
                have hfin := finishSplit_spec hspec.rep (est := est) (arm := arm)
                  ⟨by rw [hspec.len]; exact (hvalid _ harmc).1, (hvalid _ harmc).2⟩
                rw [hfin] at hok
                simp only [Except.ok.injEq, Prod.mk.injEq] at hok
                obtain ⟨hr, hnq, hgg⟩ := hok
                refine ⟨row, rest, B, hs, arm, rfl, by simp, hlen, hB', hmake, hg, hgg.symm, ?_, hin, harmc, hbst, ?_, ?_⟩
                · rw [← hnq, hspec.nq, ← hd1, List.length_range]
                · intro a ha hlt
                  refine lt_of_le_of_ne (hbst a ha) (fun heq => ?_)
                  have := ha3 a (mem_allArms.2 (hin a ha)) hlt
                  rw [hestv a, if_pos ha, ← heq, ← hearm, ← ha2'.1] at this
                  rw [XF.eqv_iff.2 ⟨rfl, ha2'.2⟩] at this
                  cases this
                · rw [← hr, hearm]
                  simp [XF.lt]

/-- `solve_exactly` succeeds on a rectangular node with enough labels, if there is a candidate. -/
theorem solveExactly_total {R : Rng K G} {g : G} (junk : Mat K) {row : List K} {rest : List (List K)} {labels : List K}
    {minmax : Option (List K × List K)} {d : DiscDict K} {t : BinType} {numBins : Option Nat} {B : Nat}
    {isCls : Bool} {m : Criterion} {hs : Hists K G}
    (hm : CritFits isCls m) (hent : m = .entropy → (npUnique labels).length ≤ 2) (ht : t ≠ .discrete)
    (hB : exactBins (row :: rest) (some t) numBins = some B) (hb : BinningOK minmax d (some t) B)
    (hrect : ∀ r ∈ rest, row.length ≤ r.length) (hlab : (row :: rest).length ≤ labels.length)
    (hmake : makeHistograms R g isCls (row :: rest) labels minmax d (some t) B = .ok hs)
    (hcand : ∃ f < row.length, edgesOf hs.hists f ≠ []) :
    ∃ r nq g', solveExactly R g junk (row :: rest) labels minmax d (some t) numBins isCls m = .ok (r, nq, g') := by
  have hg := makeHistograms_good hb hmake
  have hBle : ∀ f, (edgesOf hs.hists f).length ≤ B := by
    apply hg.edges_le ht
    rintro rfl
    unfold exactBins at hB
    simp at hB
    rw [← hB]; rfl
  have hsorted := hg.cands_sorted
  have hvalid : ArmsValid (edgesOf hs.hists) hs.hists.length (candArms row.length B hs) := by
    rw [hg.len]; exact hg.cands_valid
  have hin : ∀ a ∈ candArms row.length B hs, a ∈ allArms row.length B := by
    intro a ha
    have := hg.cands_valid a ha
    exact mem_allArms.2 ⟨this.1, lt_of_lt_of_le this.2 (hBle _)⟩
  obtain ⟨f, hf, hfe⟩ := hcand
  have hlenf : 0 < (edgesOf hs.hists f).length := List.length_pos_of_ne_nil hfe
  have hmem : (f, 0) ∈ candArms row.length B hs := by
    have hall : ((f, 0) : Arm) ∈ allArms row.length B := mem_allArms.2 ⟨hf, lt_of_lt_of_le hlenf (hBle f)⟩
    rcases hg.mem_cands_or hall with h1 | h1
    · exact h1.1
    · have := (hg.mem_notCons.1 h1.1).2.1
      simp only [] at this
      omega
  have hne : candArms row.length B hs ≠ [] := List.ne_nil_of_mem hmem
  obtain ⟨est0, hfill⟩ : ∃ e, fillMat row.length B (npEmpty row.length B junk) hs.notCons .pinf = .ok e := by
    unfold fillMat
    rw [if_pos]
    · exact ⟨_, rfl⟩
    · simp only [List.all_eq_true, Bool.and_eq_true, decide_eq_true_eq]
      intro a ha
      have := hg.mem_notCons.1 ha
      exact ⟨this.1, this.2.2⟩
  have hdraw := (drawSamples_full R hs.g (le_refl (row :: rest).length)).1
  obtain ⟨out, hout, hd, _, _⟩ := sampleTargets_total (hg.rep labels) (m := m)
    (by
      intro f h hf
      unfold CritRuns
      unfold CritFits at hm
      split
      · next hc =>
        rw [if_pos hc] at hm
        rcases hm with rfl | rfl
        · left; rfl
        · right
          refine ⟨rfl, ?_⟩
          rw [(hg.rep labels).classes_eq f h hf]
          unfold nodeClasses
          rw [if_pos hc]
          exact hent rfl
      · next hc =>
        rw [if_neg hc] at hm
        exact hm)
    (featSorted_of_sorted hsorted) (nodup_of_sorted hsorted) hvalid hdraw (by simp)
    (fun i hi => ⟨List.mem_range.1 hi, lt_of_lt_of_le (List.mem_range.1 hi) hlab⟩)
    (by
      intro r hr a ha
      have h1 := (hg.cands_valid a ha).1
      rw [List.mem_cons] at hr
      rcases hr with rfl | hr
      · exact h1
      · exact lt_of_lt_of_le h1 (hrect r hr))
    (by
      intro hc y hy
      unfold nodeClasses
      rw [if_pos hc]
      exact mem_npUnique.2 hy)
    (by
      intro s hs' f hf
      cases hs'
      simp)
  obtain ⟨pop, hdr, hspec⟩ := sampleTargets_spec (hg.rep labels) hm (featSorted_of_sorted hsorted)
    (nodup_of_sorted hsorted) hvalid hout
  rw [hdraw] at hdr
  simp only [Except.ok.injEq, Prod.mk.injEq] at hdr
  obtain ⟨hd1, hd2, _, _⟩ := hdr
  subst hd2
  obtain ⟨_, hreds, _⟩ := hspec.full hd (by simp) (fun f _ => rfl) hvalid hm
  obtain ⟨est, hest⟩ := assignMat_total (F := row.length) (B := B) est0
    (fun a => XF.fin (armChange (row :: rest) labels (edgesOf hs.hists) m a)) hin
  have hestv := assignMat_map hest
  obtain ⟨arms, hbest, hane⟩ := bestArms_total (F := row.length) (B := B) (est := est) (List.ne_nil_of_mem (hin _ hmem))
    ⟨_, hin _ hmem, by rw [hestv, if_pos hmem]; rfl⟩
  obtain ⟨arm, arms', rfl⟩ := List.exists_cons_of_ne_nil hane
  obtain ⟨mm, hmn, hmin, harms⟩ := bestArms_spec hbest (by simp)
  obtain ⟨ha1, ha2, _⟩ := head_filter_least (allArms_sorted row.length B) harms.symm
  have ha2' := XF.eqv_iff.1 ha2
  have harmc : arm ∈ candArms row.length B hs := by
    rcases hg.mem_cands_or ha1 with h1 | h1
    · exact h1.1
    · exfalso
      have hea : est (f, 0) = .fin (armChange (row :: rest) labels (edgesOf hs.hists) m (f, 0)) := by
        rw [hestv, if_pos hmem]
      have hem : est arm = .pinf := by
        rw [hestv, if_neg h1.2, fillMat_ok hfill, if_pos h1.1]
      have := hmin _ (hin _ hmem)
      rw [hea, ← ha2'.1, hem] at this
      simp [XF.lt] at this
  have hfin := finishSplit_spec hspec.rep (est := est) (arm := arm)
    ⟨by rw [hspec.len]; exact (hvalid _ harmc).1, (hvalid _ harmc).2⟩
  obtain ⟨r, hr⟩ : ∃ r, finishSplit out.acc.hists est arm = .ok r := ⟨_, hfin⟩
  refine ⟨r, out.acc.nq, hs.g, ?_⟩
  unfold solveExactly
  unfold exactBins at hB
  have hcands : (if hs.notCons.length > 0 then hs.cons else allArms row.length B) = candArms row.length B hs := rfl
  simp only [hB, hmake, hfill, hcands, if_neg hne, hout, hreds, hest, hbest, hr]

end FF
