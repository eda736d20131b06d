import Verif.Proofs.MseVar
import Verif.Proofs.Arms
import Verif.Spec.Crit

/-! # `sample_targets` -/

set_option linter.unusedSectionVars false

namespace FF

open Spec

variable {K : Type} [Field K] [LinearOrder K] [IsStrictOrderedRing K] [FloorRing K] [NpFun K] {G : Type}

/-- The histogram contains exactly the samples `S`. -/
def Rep (isCls : Bool) (h : Hist K) (edges : List K) (S : List (K × K)) : Prop :=
  if isCls then ClsRep h edges S else RegRep h edges S

theorem Rep.edges {isCls : Bool} {h : Hist K} {edges : List K} {S : List (K × K)} (hr : Rep isCls h edges S) :
    h.edges = some edges := by
  unfold Rep at hr
  split_ifs at hr
  · exact hr.edges_eq
  · exact hr.edges_eq

theorem Rep.numBins {isCls : Bool} {h : Hist K} {edges : List K} {S : List (K × K)} (hr : Rep isCls h edges S) :
    edges.length = h.numBins := by
  unfold Rep at hr
  split_ifs at hr
  · exact hr.good.1
  · exact hr.good.1

theorem Rep.isCls {isCls : Bool} {h : Hist K} {edges : List K} {S : List (K × K)} (hr : Rep isCls h edges S) :
    h.isCls = isCls := by
  unfold Rep at hr
  split_ifs at hr with hc
  · rw [hr.isCls, hc]
  · rw [hr.isReg]; simpa using hc

theorem Rep.add {isCls : Bool} {h h' : Hist K} {edges : List K} {S : List (K × K)} {X : List (List K)} {Y : List K}
    (hr : Rep isCls h edges S) (hadd : h.add X Y = .ok h') :
    Rep isCls h' edges (S ++ batchSamples h.featureIdx (X, Y)) ∧ h'.featureIdx = h.featureIdx ∧ h'.classes = h.classes ∧
      h'.numBins = h.numBins := by
  unfold Rep at *
  split_ifs at hr ⊢ with hc
  · exact hr.add hadd
  · obtain ⟨r, e1, e2, _⟩ := hr.add hadd
    refine ⟨r, e1, ?_, e2⟩
    obtain ⟨_, _, bins, _, rfl⟩ := add_reg_ok hr.isReg hr.edges_eq hadd
    rfl

/-- What `get_impurity_reductions` returns for edge `b` of a histogram that contains exactly `S`. -/
def redVal (h : Hist K) (S : List (K × K)) (edges : List K) (m : Criterion) (pop : Option Nat) (b : Nat) : XF K × XF K :=
  if h.isCls then (.fin (change (critImp m) S (edges.getD b 0)), clsVarRed (clsV m h.classes) S (edges.getD b 0) pop)
  else (.fin (regRed h S.length pop b), .fin (regVarRed h S.length pop b))

/-- The computation of reductions cannot fail: the criterion fits, entropy has at most two classes and at least one class is
there. -/
def CritRuns (isCls : Bool) (h : Hist K) (m : Criterion) : Prop :=
  if isCls then (m = .gini ∨ (m = .entropy ∧ h.classes.length ≤ 2)) else m = .mse

theorem critRuns_crit {h : Hist K} {m : Criterion} (hm : CritRuns true h m) (hk : 0 < h.classes.length) :
    ClsCrit (K := K) m (critImp m) h.classes.length := by
  unfold CritRuns at hm
  simp only [if_true] at hm
  rcases hm with rfl | ⟨rfl, h2⟩
  · exact clsCrit_gini _ hk
  · exact clsCrit_entropy _ h2

theorem ClsRep.classes_pos {h : Hist K} {edges : List K} {S : List (K × K)} (hr : ClsRep h edges S) (hS : S ≠ []) :
    0 < h.classes.length := by
  obtain ⟨s, hs⟩ := List.exists_mem_of_ne_nil _ hS
  exact List.length_pos_of_mem (hr.labels s hs)

/-- `get_impurity_reductions` on a histogram that contains exactly `S`. -/
theorem impurityReductions_ok {isCls : Bool} {h : Hist K} {edges : List K} {S : List (K × K)} (hr : Rep isCls h edges S)
    (hS : S ≠ []) {m : Criterion} (hm : CritRuns isCls h m) (pop : Option Nat) (hpop : ∀ s, pop = some s → S.length ≤ s)
    {bins : List Nat} (hb : bins ≠ []) (hbl : ∀ b ∈ bins, b < edges.length) (hlen : bins.length ≤ edges.length) :
    impurityReductions h bins m pop = .ok (bins.map (redVal h S edges m pop)) := by
  have hnb := hr.numBins
  have hic := hr.isCls
  unfold impurityReductions redVal
  rw [hic]
  unfold Rep at hr
  cases isCls with
  | true =>
    simp only [if_true] at hr ⊢
    exact clsReductions_ok hr hS (critRuns_crit hm (hr.classes_pos hS)) pop hb hbl (by omega)
  | false =>
    simp only [Bool.false_eq_true, if_false] at hr ⊢
    unfold CritRuns at hm
    simp only [Bool.false_eq_true, if_false] at hm
    subst hm
    exact regReductions_ok hr hS pop hpop hb hbl (by omega)

/-- If `get_impurity_reductions` returned for a fitting criterion, nothing in it could fail. -/
theorem critRuns_of_ok {isCls : Bool} {h : Hist K} {edges : List K} {S : List (K × K)} (hr : Rep isCls h edges S)
    {m : Criterion} (hf : CritFits isCls m) {pop : Option Nat} {bins : List Nat} {rs : List (XF K × XF K)}
    (hb : bins ≠ []) (hbl : ∀ b ∈ bins, b < edges.length)
    (hok : impurityReductions h bins m pop = .ok rs) : CritRuns isCls h m := by
  have hic := hr.isCls
  unfold CritRuns
  unfold CritFits at hf
  cases isCls with
  | false => simpa using hf
  | true =>
    simp only [if_true] at hf ⊢
    rcases hf with rfl | rfl
    · left; rfl
    · right
      refine ⟨rfl, ?_⟩
      by_contra hk
      unfold Rep at hr
      simp only [if_true] at hr
      unfold impurityReductions at hok
      rw [hic, if_pos rfl] at hok
      obtain ⟨b, bs, rfl⟩ := List.exists_cons_of_ne_nil hb
      have h0 : 0 < edges.length := lt_of_le_of_lt (Nat.zero_le _) (hbl b List.mem_cons_self)
      have hb' := hbl b List.mem_cons_self
      unfold clsReductions at hok
      split_ifs at hok
      rw [hr.rowL 0 h0, hr.rowR 0 h0] at hok
      simp only [] at hok
      unfold edgeLoop at hok
      rw [hr.rowL b hb', hr.rowR b hb'] at hok
      simp only [] at hok
      unfold edgeTerms at hok
      split_ifs at hok
      have herr : ∀ s p, clsImpurity (K := K) .entropy (h.left.getD b []) s p = .error .valueError := by
        intro s p
        have : 3 ≤ (h.left.getD b []).length := by
          rw [hr.shapeL.row (by rw [← hr.good.1]; exact hb')]; omega
        show getEntropy _ _ _ = _
        unfold getEntropy entropyVar
        match h.left.getD b [], this with
        | a :: c :: d :: cs, _ => rfl
      simp only [if_true, herr] at hok
      cases hok

/-- A successful computation on a regression histogram: it contains a sample, and no more than the population. -/
theorem reg_of_ok {h : Hist K} {edges : List K} {S : List (K × K)} (hr : RegRep h edges S) {m : Criterion} {pop : Option Nat}
    {bins : List Nat} {rs : List (XF K × XF K)} (hb : bins ≠ []) (hok : impurityReductions h bins m pop = .ok rs) :
    S ≠ [] ∧ ∀ s, pop = some s → S.length ≤ s := by
  unfold impurityReductions at hok
  rw [hr.isReg, if_neg (by simp)] at hok
  unfold regReductions at hok
  split_ifs at hok with h1
  split at hok
  · next l0 r0 hl0 hr0 =>
    simp only [] at hok
    split at hok
    · cases hok
    · next ts hts =>
      split at hok
      · cases hok
      · next ic vc hcur =>
        constructor
        · rintro rfl
          obtain ⟨b, bs, rfl⟩ := List.exists_cons_of_ne_nil hb
          have hlen : 0 < edges.length := by
            rw [hr.good.1, ← hr.lenL]
            exact (List.getElem?_eq_some_iff.1 hl0).1
          have el : l0.n = 0 := by
            have := (hr.left 0 hlen).n
            rw [List.getD_eq_getElem?_getD, hl0] at this
            simpa [labelsLe] using this
          have er : r0.n = 0 := by
            have := (hr.right 0 hlen).n
            rw [List.getD_eq_getElem?_getD, hr0] at this
            simpa [labelsGt] using this
          unfold edgeLoop at hts
          split at hts
          · cases hts
          · unfold edgeTerms at hts
            rw [el, er] at hts
            simp at hts
        · rintro s rfl
          unfold regImpurity at hcur
          split at hcur
          · unfold getMse at hcur
            simp only [] at hcur
            split_ifs at hcur with h2
            have := hr.curr.n
            rw [List.length_map] at this
            omega
          · cases hcur
  · cases hok

/-- The values of a successful `get_impurity_reductions`. -/
theorem impurityReductions_eq {isCls : Bool} {h : Hist K} {edges : List K} {S : List (K × K)} (hr : Rep isCls h edges S)
    {m : Criterion} (hf : CritFits isCls m) (hS : isCls = true → S ≠ []) {pop : Option Nat}
    {bins : List Nat} (hb : bins ≠ []) (hbl : ∀ b ∈ bins, b < edges.length) (hlen : bins.length ≤ edges.length)
    {rs : List (XF K × XF K)} (hok : impurityReductions h bins m pop = .ok rs) :
    rs = bins.map (redVal h S edges m pop) := by
  have hm := critRuns_of_ok hr hf hb hbl hok
  have hnb := hr.numBins
  have hic := hr.isCls
  have hr0 := hr
  unfold Rep at hr
  cases isCls with
  | true =>
    simp only [if_true] at hr
    have := clsReductions_ok hr (hS rfl) (critRuns_crit hm (hr.classes_pos (hS rfl))) pop hb hbl (by omega)
    unfold impurityReductions at hok
    rw [hic, if_pos rfl, this] at hok
    cases hok
    unfold redVal
    rw [hic]
    rfl
  | false =>
    simp only [Bool.false_eq_true, if_false] at hr
    obtain ⟨h1, h2⟩ := reg_of_ok hr hb hok
    have := impurityReductions_ok hr0 h1 hm pop h2 hb hbl hlen
    rw [this] at hok
    cases hok
    rfl

theorem critRuns_classes {isCls : Bool} {h h' : Hist K} {m : Criterion} (hm : CritRuns isCls h m) (hc : h'.classes = h.classes) :
    CritRuns isCls h' m := by
  unfold CritRuns at *
  rw [hc]; exact hm

/-! ### The loop over the features -/

/-- The reductions of the histogram of feature `f` for some bins. -/
def redsOf (hists : List (Hist K)) (m : Criterion) (pop : Option Nat) (p : Nat × List Nat) : List (XF K × XF K) :=
  match hists[p.1]? with
  | none => []
  | some h =>
    match impurityReductions h p.2 m pop with
    | .error _ => []
    | .ok rs => rs

theorem redsOf_congr {hists hists' : List (Hist K)} {m : Criterion} {pop : Option Nat} {p : Nat × List Nat}
    (h : hists[p.1]? = hists'[p.1]?) : redsOf hists m pop p = redsOf hists' m pop p := by
  unfold redsOf; rw [h]

theorem sampleLoop_spec {samples : List (List K)} {slabels : List K} {m : Criterion} {pop : Option Nat}
    {groups : List (Nat × List Nat)} {acc acc' : SampleAcc K} (hn : (groups.map Prod.fst).Nodup)
    (h : sampleLoop samples slabels m pop groups acc = .ok acc') :
    acc'.hists.length = acc.hists.length ∧
    (∀ f, f ∉ groups.map Prod.fst → acc'.hists[f]? = acc.hists[f]?) ∧
    (∀ p ∈ groups, ∃ h h' rs, acc.hists[p.1]? = some h ∧ h.add samples slabels = .ok h' ∧ acc'.hists[p.1]? = some h' ∧
      impurityReductions h' p.2 m pop = .ok rs) ∧
    acc'.reds = acc.reds ++ groups.flatMap (fun p => (redsOf acc'.hists m pop p).map Prod.fst) ∧
    acc'.cbs = acc.cbs ++ groups.flatMap (fun p => (redsOf acc'.hists m pop p).map (fun r => r.2.sqrt)) ∧
    acc'.nq = acc.nq + groups.length * samples.length := by
  induction groups generalizing acc with
  | nil => cases h; simp
  | cons p groups ih =>
    obtain ⟨f, bins⟩ := p
    rw [List.map_cons, List.nodup_cons] at hn
    unfold sampleLoop at h
    split at h
    · cases h
    · next hh hhe =>
      split at h
      · cases h
      · next hh' hadd =>
        split at h
        · cases h
        · next rs hrs =>
          obtain ⟨i1, i2, i3, i4, i5, i6⟩ := ih hn.2 h
          have hflt : f < acc.hists.length := (List.getElem?_eq_some_iff.1 hhe).1
          have hf' : acc'.hists[f]? = some hh' := by
            rw [i2 f hn.1]
            simp [hflt]
          have hr : redsOf acc'.hists m pop (f, bins) = rs := by
            unfold redsOf
            simp only [hf', hrs]
          refine ⟨by simpa using i1, ?_, ?_, ?_, ?_, ?_⟩
          · intro g hg
            simp only [List.map_cons, List.mem_cons, not_or] at hg
            rw [i2 g hg.2, List.getElem?_set_ne (Ne.symm hg.1)]
          · intro p hp
            rw [List.mem_cons] at hp
            rcases hp with rfl | hp
            · exact ⟨hh, hh', rs, hhe, hadd, hf', hrs⟩
            · obtain ⟨h1, h1', rs1, a1, a2, a3, a4⟩ := i3 p hp
              have hne : f ≠ p.1 := by
                rintro rfl
                exact hn.1 (List.mem_map.2 ⟨_, hp, rfl⟩)
              simp only [] at a1
              rw [List.getElem?_set_ne hne] at a1
              exact ⟨h1, h1', rs1, a1, a2, a3, a4⟩
          · rw [i4, List.flatMap_cons, hr, List.append_assoc]
          · rw [i5, List.flatMap_cons, hr, List.append_assoc]
          · rw [i6, List.length_cons]
            simp only []
            ring

/-- Success of the loop, feature by feature. -/
theorem sampleLoop_ok {samples : List (List K)} {slabels : List K} {m : Criterion} {pop : Option Nat}
    {groups : List (Nat × List Nat)} {acc : SampleAcc K} (hn : (groups.map Prod.fst).Nodup)
    (h : ∀ p ∈ groups, ∃ h h' rs, acc.hists[p.1]? = some h ∧ h.add samples slabels = .ok h' ∧
      impurityReductions h' p.2 m pop = .ok rs) :
    ∃ acc', sampleLoop samples slabels m pop groups acc = .ok acc' := by
  induction groups generalizing acc with
  | nil => exact ⟨acc, rfl⟩
  | cons p groups ih =>
    obtain ⟨f, bins⟩ := p
    rw [List.map_cons, List.nodup_cons] at hn
    obtain ⟨hh, hh', rs, a1, a2, a3⟩ := h _ List.mem_cons_self
    unfold sampleLoop
    simp only [] at a1 a2 a3
    simp only [a1, a2, a3]
    apply ih hn.2
    intro q hq
    obtain ⟨h1, h1', rs1, b1, b2, b3⟩ := h q (List.mem_cons_of_mem _ hq)
    refine ⟨h1, h1', rs1, ?_, b2, b3⟩
    have hne : f ≠ q.1 := by
      rintro rfl
      exact hn.1 (List.mem_map.2 ⟨_, hq, rfl⟩)
    simp only []
    rw [List.getElem?_set_ne hne]
    exact b1

theorem flatMap_groups_map {α : Type} (d : List (Nat × List Nat)) (v : Arm → α) :
    d.flatMap (fun p => p.2.map (fun b => v (p.1, b))) = (flatGroups d).map v := by
  unfold flatGroups
  rw [List.map_flatMap]
  simp [List.map_map, Function.comp_def]

/-! ### One call of `sample_targets` -/

/-- The histograms of a node: histogram `f` looks at feature `f`, has the edges `E f` (none if the histogram has no edges at
all) and contains exactly the rows `I f` of the node. -/
structure HistsRep (isCls : Bool) (classes : List K) (data : List (List K)) (labels : List K) (E : Nat → List K)
    (I : Nat → List Nat) (hists : List (Hist K)) : Prop where
  feat : ∀ (f : Nat) (h : Hist K), hists[f]? = some h → h.featureIdx = f
  classes_eq : ∀ (f : Nat) (h : Hist K), hists[f]? = some h → h.classes = classes
  rep : ∀ (f : Nat) (h : Hist K), hists[f]? = some h → E f ≠ [] → Rep isCls h (E f) ((I f).map (rowSample data labels f))

/-- The value of an arm: change and variance computed from the histogram of its feature. -/
def armVal (data : List (List K)) (labels : List K) (E : Nat → List K) (I : Nat → List Nat) (hists : List (Hist K))
    (m : Criterion) (pop : Option Nat) (a : Arm) : XF K × XF K :=
  match hists[a.1]? with
  | none => (.nan, .nan)
  | some h => redVal h ((I a.1).map (rowSample data labels a.1)) (E a.1) m pop a.2

theorem batchSamples_take {data samples : List (List K)} {labels slabels : List K} {idcs : List Nat}
    (h1 : takeE data [] idcs = .ok samples) (h2 : takeE labels 0 idcs = .ok slabels) (f : Nat) :
    batchSamples f (samples, slabels) = idcs.map (rowSample data labels f) := by
  obtain ⟨rfl, _⟩ := takeE_ok h1
  obtain ⟨rfl, _⟩ := takeE_ok h2
  unfold batchSamples
  simp only [List.map_map]
  rw [List.zip_map']
  rfl

/-- Everything one call of `sample_targets` does. -/
structure SampleSpec (isCls : Bool) (classes : List K) (data : List (List K)) (labels : List K) (E : Nat → List K)
    (I : Nat → List Nat) (arms : List Arm) (m : Criterion) (hists : List (Hist K)) (out : SampleOut K G)
    (pop : Option Nat) (I' : Nat → List Nat) : Prop where
  I_eq : ∀ f, I' f = if f ∈ arms.map Prod.fst then I f ++ out.drawn else I f
  len : out.acc.hists.length = hists.length
  same : ∀ (f : Nat), f ∉ arms.map Prod.fst → out.acc.hists[f]? = hists[f]?
  rep : HistsRep isCls classes data labels E I' out.acc.hists
  exactVar : isCls = false → ∀ (f : Nat) (h : Hist K), f ∈ arms.map Prod.fst → I f = [] → out.acc.hists[f]? = some h →
    ExactVar h (E f) ((I' f).map (rowSample data labels f))
  nq : out.acc.nq = featCountOf arms * out.drawn.length
  lt : ∀ i ∈ out.drawn, i < data.length ∧ i < labels.length
  runs : arms ≠ [] → ∀ (f : Nat) (h : Hist K), hists[f]? = some h → CritRuns isCls h m
  ne : ∀ f ∈ arms.map Prod.fst, I' f ≠ []
  single : ∀ (f : Nat) (h : Hist K) (b : Nat), f ∈ arms.map Prod.fst → out.acc.hists[f]? = some h → b < (E f).length →
    impurityReductions h [b] m pop = .ok [armVal data labels E I' out.acc.hists m pop (f, b)]
  popLe : isCls = false → ∀ s, pop = some s → ∀ f ∈ arms.map Prod.fst, (I' f).length ≤ s
  reds : out.acc.reds = arms.map (fun a => (armVal data labels E I' out.acc.hists m pop a).1)
  cbs : out.acc.cbs = arms.map (fun a => (armVal data labels E I' out.acc.hists m pop a).2.sqrt)

theorem sampleTargets_spec {R : Rng K G} {g : G} {isCls : Bool} {classes : List K} {data : List (List K)} {labels : List K}
    {E : Nat → List K} {I : Nat → List Nat} {arms : List Arm} {hists : List (Hist K)} {batch : Nat} {m : Criterion}
    {popIdcs : Option (List Nat)} {out : SampleOut K G} (hH : HistsRep isCls classes data labels E I hists)
    (hm : CritFits isCls m) (hs : FeatSorted arms) (hn : arms.Nodup) (hv : ArmsValid E hists.length arms)
    (hok : sampleTargets R g data labels arms hists batch m popIdcs = .ok out) :
    ∃ pop, drawSamples R g data.length batch popIdcs = .ok (out.drawn, pop, out.pop, out.g) ∧
      SampleSpec isCls classes data labels E I arms m hists out pop
        (fun f => if f ∈ arms.map Prod.fst then I f ++ out.drawn else I f) := by
  unfold sampleTargets at hok
  split at hok
  · cases hok
  · next idcs pop popIdcs' g' hdraw =>
    split at hok
    · cases hok
    · next samples hsam =>
      split at hok
      · cases hok
      · next slabels hslab =>
        split at hok
        · cases hok
        · next acc hloop =>
          cases hok
          refine ⟨pop, hdraw, ?_⟩
          have hg := groupArms_sorted hs
          have hkeys := hg.keys_nodup
          obtain ⟨s1, s2, s3, s4, s5, s6⟩ := sampleLoop_spec hkeys hloop
          simp only [List.nil_append, Nat.zero_add] at s4 s5 s6
          have hkey : ∀ f, f ∈ (groupArms arms).map Prod.fst ↔ f ∈ arms.map Prod.fst := by
            intro f
            rw [hg.key_iff, List.mem_map]
          have hlen : samples.length = idcs.length := by
            obtain ⟨rfl, _⟩ := takeE_ok hsam
            simp
          set I' : Nat → List Nat := fun f => if f ∈ arms.map Prod.fst then I f ++ idcs else I f with hI'
          have hrepA : HistsRep isCls classes data labels E I' acc.hists ∧
              (isCls = false → ∀ (f : Nat) (h : Hist K), f ∈ arms.map Prod.fst → I f = [] → acc.hists[f]? = some h →
                ExactVar h (E f) ((I' f).map (rowSample data labels f))) := by
            have hcase : ∀ (f : Nat) (h : Hist K), acc.hists[f]? = some h →
                h.featureIdx = f ∧ h.classes = classes ∧
                (E f ≠ [] → Rep isCls h (E f) ((I' f).map (rowSample data labels f))) ∧
                (isCls = false → f ∈ arms.map Prod.fst → I f = [] →
                  ExactVar h (E f) ((I' f).map (rowSample data labels f))) := by
              intro f h hf
              by_cases hk : f ∈ arms.map Prod.fst
              · obtain ⟨p, hp, rfl⟩ := List.mem_map.1 ((hkey f).2 hk)
                obtain ⟨h1, h1', rs, a1, a2, a3, _⟩ := s3 p hp
                rw [a3] at hf
                cases hf
                have hE : E p.1 ≠ [] := by
                  obtain ⟨a, ha, hap⟩ := List.mem_map.1 hk
                  have := (hv a ha).2
                  rw [hap] at this
                  intro h0
                  rw [h0] at this
                  simp at this
                obtain ⟨r, e1, e2, _⟩ := (hH.rep p.1 h1 a1 hE).add a2
                refine ⟨e1.trans (hH.feat _ _ a1), e2.trans (hH.classes_eq _ _ a1), fun _ => ?_, ?_⟩
                · rw [hH.feat _ _ a1, batchSamples_take hsam hslab, ← List.map_append] at r
                  simp only [hI', if_pos hk]
                  exact r
                · intro hc _ hnil
                  have hr0 := hH.rep p.1 h1 a1 hE
                  unfold Rep at hr0
                  rw [hc] at hr0
                  simp only [Bool.false_eq_true, if_false] at hr0
                  obtain ⟨_, _, _, ev⟩ := hr0.add a2
                  have := ev (by rw [hnil]; rfl)
                  rw [hH.feat _ _ a1, batchSamples_take hsam hslab] at this
                  simp only [hI', if_pos hk, hnil, List.nil_append]
                  exact this
              · rw [s2 f (fun hc => hk ((hkey f).1 hc))] at hf
                simp only [] at hf
                refine ⟨hH.feat _ _ hf, hH.classes_eq _ _ hf, fun hE => ?_, fun _ hk' => absurd hk' hk⟩
                simp only [hI', if_neg hk]
                exact hH.rep f h hf hE
            exact ⟨⟨fun f h hf => (hcase f h hf).1, fun f h hf => (hcase f h hf).2.1, fun f h hf => (hcase f h hf).2.2.1⟩,
              fun hc f h hk hnil hf => (hcase f h hf).2.2.2 hc hk hnil⟩
          obtain ⟨hrepI, hevI⟩ := hrepA
          have hgroup : ∀ p ∈ groupArms arms, p.2 ≠ [] ∧ (∀ b ∈ p.2, b < (E p.1).length) ∧ p.2.length ≤ (E p.1).length ∧
              E p.1 ≠ [] := by
            intro p hp
            have h1 : ∀ b ∈ p.2, b < (E p.1).length := fun b hb => (hv _ (hg.mem (f := p.1) (bins := p.2) hp hb)).2
            refine ⟨hg.nonempty p hp, h1, length_le_of_nodup_lt (hg.bins_nodup hn (f := p.1) hp) h1, ?_⟩
            obtain ⟨b, hb⟩ := List.exists_mem_of_ne_nil _ (hg.nonempty p hp)
            intro h0
            have := h1 b hb
            rw [h0] at this
            simp at this
          have hruns : arms ≠ [] → ∀ (f : Nat) (h : Hist K), hists[f]? = some h → CritRuns isCls h m := by
            intro hne f h hf
            have hgne : groupArms arms ≠ [] := by
              intro h0
              have := hg.flat
              rw [h0] at this
              exact hne this.symm
            obtain ⟨p, hp⟩ := List.exists_mem_of_ne_nil _ hgne
            obtain ⟨h1, h1', rs, a1, a2, a3, a4⟩ := s3 p hp
            obtain ⟨g1, g2, g3, g4⟩ := hgroup p hp
            have := critRuns_of_ok (hrepI.rep p.1 h1' a3 g4) hm g1 g2 a4
            exact critRuns_classes this ((hH.classes_eq f h hf).trans (hrepI.classes_eq _ _ a3).symm)
          have hSne : isCls = true → arms ≠ [] → idcs ≠ [] := by
            intro hc hne h0
            have hgne : groupArms arms ≠ [] := by
              intro h0
              have := hg.flat
              rw [h0] at this
              exact hne this.symm
            obtain ⟨p, hp⟩ := List.exists_mem_of_ne_nil _ hgne
            obtain ⟨h1, h1', rs, a1, a2, a3, a4⟩ := s3 p hp
            obtain ⟨g1, g2, g3, g4⟩ := hgroup p hp
            have hr0 := hH.rep p.1 h1 a1 g4
            have hsl : slabels = [] := by
              obtain ⟨rfl, _⟩ := takeE_ok hslab
              rw [h0]; rfl
            unfold Rep at hr0
            rw [hc, if_pos rfl] at hr0
            unfold Hist.add at a2
            rw [hsl, hr0.edges_eq, hr0.isCls] at a2
            simp only [if_true, classIdxE] at a2
            split at a2
            · cases a2
            · split_ifs at a2
          have hfacts : ∀ p ∈ groupArms arms, ∃ h', acc.hists[p.1]? = some h' ∧
              Rep isCls h' (E p.1) ((I' p.1).map (rowSample data labels p.1)) ∧ I' p.1 ≠ [] ∧
              (isCls = false → ∀ s, pop = some s → (I' p.1).length ≤ s) ∧
              impurityReductions h' p.2 m pop = .ok (p.2.map (redVal h' ((I' p.1).map (rowSample data labels p.1)) (E p.1) m pop)) := by
            intro p hp
            obtain ⟨h1, h1', rs, a1, a2, a3, a4⟩ := s3 p hp
            obtain ⟨g1, g2, g3, g4⟩ := hgroup p hp
            have hk : p.1 ∈ arms.map Prod.fst := (hkey p.1).1 (List.mem_map.2 ⟨p, hp, rfl⟩)
            have hrep := hrepI.rep p.1 h1' a3 g4
            have harms : arms ≠ [] := by
              rintro rfl
              simp at hk
            have hcls : isCls = true → I' p.1 ≠ [] := by
              intro hc
              simp only [hI', if_pos hk]
              simp [hSne hc harms]
            have hreg : isCls = false → I' p.1 ≠ [] ∧ ∀ s, pop = some s → (I' p.1).length ≤ s := by
              intro hc
              have hr2 := hrep
              unfold Rep at hr2
              rw [hc] at hr2
              simp only [Bool.false_eq_true, if_false] at hr2
              have := reg_of_ok hr2 g1 a4
              simpa using this
            refine ⟨h1', a3, hrep, ?_, fun hc => (hreg hc).2, ?_⟩
            · cases hc : isCls with
              | true => exact hcls hc
              | false => exact (hreg hc).1
            · have := impurityReductions_eq hrep hm (fun hc => by simpa using hcls hc) g1 g2 g3 a4
              rw [a4, this]
          have hvals : ∀ p ∈ groupArms arms, redsOf acc.hists m pop p =
                p.2.map (fun b => armVal data labels E I' acc.hists m pop (p.1, b)) := by
            intro p hp
            obtain ⟨h1', a3, _, _, _, h5⟩ := hfacts p hp
            unfold redsOf armVal
            simp only [a3, h5]
          refine ⟨fun f => rfl, s1, ?_, hrepI, hevI, ?_, ?_, hruns, ?_, ?_, ?_, ?_, ?_⟩
          · intro f hf
            exact s2 f (fun hc => hf ((hkey f).1 hc))
          · rw [s6, hg.length, hlen]
          · intro i hi
            have t1 := (takeE_ok hsam).2
            have t2 := (takeE_ok hslab).2
            exact ⟨t1 i hi, t2 i hi⟩
          · intro f hf
            obtain ⟨p, hp, rfl⟩ := List.mem_map.1 ((hkey f).2 hf)
            obtain ⟨_, _, _, h4, _⟩ := hfacts p hp
            exact h4
          · intro f h b hf hget hb
            obtain ⟨p, hp, rfl⟩ := List.mem_map.1 ((hkey f).2 hf)
            obtain ⟨h1', a3, h3, h4, h5, _⟩ := hfacts p hp
            simp only [a3, Option.some.injEq] at hget
            subst hget
            have harms : arms ≠ [] := by
              rintro rfl
              simp at hf
            obtain ⟨h1, _, _, a1, _⟩ := s3 p hp
            have hir := critRuns_classes (hruns harms p.1 h1 a1) ((hrepI.classes_eq _ _ a3).trans (hH.classes_eq _ _ a1).symm)
            have hpl : ∀ s, pop = some s → isCls = false → ((I' p.1).map (rowSample data labels p.1)).length ≤ s := by
              intro s hs' hc
              rw [List.length_map]
              exact h5 hc s hs'
            have hres : impurityReductions h1' [b] m pop =
                .ok ([b].map (redVal h1' ((I' p.1).map (rowSample data labels p.1)) (E p.1) m pop)) := by
              cases hc : isCls with
              | false =>
                subst hc
                exact impurityReductions_ok h3 (by simpa using h4) hir pop (fun s hs' => hpl s hs' rfl) (by simp) (by simpa using hb)
                  (by simpa using Nat.one_le_of_lt hb)
              | true =>
                subst hc
                have hic := h3.isCls
                have hnb := h3.numBins
                have hr2 := h3
                unfold Rep at hr2
                simp only [if_true] at hr2
                have hS2 : (I' p.1).map (rowSample data labels p.1) ≠ [] := by simpa using h4
                have := clsReductions_ok hr2 hS2 (critRuns_crit hir (hr2.classes_pos hS2)) pop (bins := [b]) (by simp)
                  (by simpa using hb) (by simp; omega)
                unfold impurityReductions redVal
                rw [hic, if_pos rfl, this]
                rfl
            rw [hres]
            unfold armVal
            simp only [a3]
            rfl
          · intro hc s hs' f hf
            obtain ⟨p, hp, rfl⟩ := List.mem_map.1 ((hkey f).2 hf)
            obtain ⟨_, _, _, _, h5, _⟩ := hfacts p hp
            exact h5 hc s hs'
          · simp only []
            rw [s4]
            have : (groupArms arms).flatMap (fun p => (redsOf acc.hists m pop p).map Prod.fst)
                = (groupArms arms).flatMap (fun p => p.2.map (fun b => (armVal data labels E I' acc.hists m pop (p.1, b)).1)) := by
              apply List.flatMap_congr
              intro p hp
              rw [hvals p hp, List.map_map]
              rfl
            rw [this, flatMap_groups_map _ (fun a => (armVal data labels E I' acc.hists m pop a).1), hg.flat]
          · simp only []
            rw [s5]
            have : (groupArms arms).flatMap (fun p => (redsOf acc.hists m pop p).map (fun r => r.2.sqrt))
                = (groupArms arms).flatMap (fun p => p.2.map (fun b => (armVal data labels E I' acc.hists m pop (p.1, b)).2.sqrt)) := by
              apply List.flatMap_congr
              intro p hp
              rw [hvals p hp, List.map_map]
              rfl
            rw [this, flatMap_groups_map _ (fun a => (armVal data labels E I' acc.hists m pop a).2.sqrt), hg.flat]

/-! ### Emptying histograms -/

theorem Rep.empty {isCls : Bool} {h : Hist K} {edges : List K} {S : List (K × K)} (hr : Rep isCls h edges S) :
    Rep isCls h.emptySamples edges [] := by
  unfold Rep at *
  split_ifs at hr ⊢ with hc
  · unfold Hist.emptySamples
    rw [hr.isCls, if_pos rfl]
    have e1 : h.left.map (fun _ => List.replicate h.classes.length 0) = List.replicate h.numBins (List.replicate h.classes.length 0) := by
      rw [List.map_const', hr.shapeL.1]
    have e2 : h.right.map (fun _ => List.replicate h.classes.length 0) = List.replicate h.numBins (List.replicate h.classes.length 0) := by
      rw [List.map_const', hr.shapeR.1]
    rw [e1, e2]
    refine ⟨rfl, hr.edges_eq, hr.good, hr.nodup, shape_replicate _ _, shape_replicate _ _, by simp, ?_, ?_⟩
    · intro b hb j hj
      simp only [cell_replicate]
      rfl
    · intro b hb j hj
      simp only [cell_replicate]
      rfl
  · unfold Hist.emptySamples
    rw [hr.isReg, if_neg (by simp)]
    apply regRep_of_zero
    · rfl
    · exact hr.edges_eq
    · exact hr.good
    · simp [List.map_const', hr.lenL]
    · simp [List.map_const', hr.lenR]
    · rfl

theorem emptyHistograms_rep {isCls : Bool} {classes : List K} {data : List (List K)} {labels : List K} {E : Nat → List K}
    {I : Nat → List Nat} {hists : List (Hist K)} (hH : HistsRep isCls classes data labels E I hists) (arms : List Arm) :
    HistsRep isCls classes data labels E (fun f => if f ∈ arms.map Prod.fst then [] else I f) (emptyHistograms hists arms) := by
  have hget : ∀ (f : Nat) (h : Hist K), (emptyHistograms hists arms)[f]? = some h →
      ∃ h0, hists[f]? = some h0 ∧ h = if f ∈ arms.map Prod.fst then h0.emptySamples else h0 := by
    intro f h hf
    unfold emptyHistograms at hf
    rw [List.getElem?_mapIdx] at hf
    cases h0 : hists[f]? with
    | none => rw [h0] at hf; simp at hf
    | some x =>
      rw [h0] at hf
      simp only [Option.map_some, Option.some.injEq] at hf
      refine ⟨x, rfl, ?_⟩
      rw [← hf]
      have : (arms.any fun a => decide (a.1 = f)) = true ↔ f ∈ arms.map Prod.fst := by simp
      simp only [this]
  have hfields : ∀ h0 : Hist K, h0.emptySamples.featureIdx = h0.featureIdx ∧ h0.emptySamples.classes = h0.classes := by
    intro h0
    unfold Hist.emptySamples
    split <;> exact ⟨rfl, rfl⟩
  refine ⟨?_, ?_, ?_⟩
  · intro f h hf
    obtain ⟨h0, e1, e2⟩ := hget f h hf
    rw [e2]
    split
    · rw [(hfields h0).1]; exact hH.feat f h0 e1
    · exact hH.feat f h0 e1
  · intro f h hf
    obtain ⟨h0, e1, e2⟩ := hget f h hf
    rw [e2]
    split
    · rw [(hfields h0).2]; exact hH.classes_eq f h0 e1
    · exact hH.classes_eq f h0 e1
  · intro f h hf hE
    obtain ⟨h0, e1, e2⟩ := hget f h hf
    rw [e2]
    by_cases hk : f ∈ arms.map Prod.fst
    · simp only [if_pos hk]
      exact (hH.rep f h0 e1 hE).empty
    · simp only [if_neg hk]
      exact hH.rep f h0 e1 hE

theorem length_emptyHistograms (hists : List (Hist K)) (arms : List Arm) :
    (emptyHistograms hists arms).length = hists.length := by
  simp [emptyHistograms]

/-! ### Success -/

theorem colE_of {X : List (List K)} {f : Nat} (h : ∀ row ∈ X, f < row.length) :
    colE X f = .ok (X.map (fun row => row.getD f 0)) := by
  unfold colE
  rw [if_pos (by simpa using h)]

theorem takeE_of {α : Type} {a : List α} {d : α} {idcs : List Nat} (h : ∀ i ∈ idcs, i < a.length) :
    takeE a d idcs = .ok (idcs.map (fun i => a.getD i d)) := by
  unfold takeE
  rw [if_pos (by simpa using h)]

/-- `add` succeeds on samples with the feature and known labels. -/
theorem Rep.add_total {isCls : Bool} {h : Hist K} {edges : List K} {S : List (K × K)} {X : List (List K)} {Y : List K}
    (hr : Rep isCls h edges S) (hX : ∀ row ∈ X, h.featureIdx < row.length) (hl : X.length = Y.length) (hY : Y ≠ [])
    (hc : isCls = true → ∀ y ∈ Y, y ∈ h.classes) : ∃ h', h.add X Y = .ok h' := by
  unfold Rep at hr
  unfold Hist.add
  rw [colE_of hX]
  cases isCls with
  | true =>
    simp only [if_true] at hr
    simp only [hr.edges_eq, hr.isCls, if_true]
    have hcl : classIdxE h.classes Y = .ok (Y.map (fun y => h.classes.idxOf y)) := by
      unfold classIdxE
      rw [if_neg hY, if_pos (by simpa using hc rfl)]
    rw [if_neg (by simp [hr.good.1, hr.shapeL.1, hr.shapeR.1]), if_neg (by simp [hl]), hcl]
    exact ⟨_, rfl⟩
  | false =>
    simp only [Bool.false_eq_true, if_false] at hr
    simp only [hr.edges_eq, hr.isReg, Bool.false_eq_true, if_false]
    rw [if_neg (by simp [hr.good.1, hr.lenL, hr.lenR]), if_neg (by simp [hl])]
    exact ⟨_, rfl⟩

/-- `sample_targets` succeeds when the draw does. -/
theorem sampleTargets_total {R : Rng K G} {g g' : G} {isCls : Bool} {classes : List K} {data : List (List K)} {labels : List K}
    {E : Nat → List K} {I : Nat → List Nat} {arms : List Arm} {hists : List (Hist K)} {batch : Nat} {m : Criterion}
    {popIdcs popIdcs' : Option (List Nat)} {idcs : List Nat} {pop : Option Nat}
    (hH : HistsRep isCls classes data labels E I hists)
    (hm : ∀ (f : Nat) (h : Hist K), hists[f]? = some h → CritRuns isCls h m)
    (hs : FeatSorted arms) (hn : arms.Nodup) (hv : ArmsValid E hists.length arms)
    (hdraw : drawSamples R g data.length batch popIdcs = .ok (idcs, pop, popIdcs', g')) (hne : idcs ≠ [])
    (hlt : ∀ i ∈ idcs, i < data.length ∧ i < labels.length)
    (hrect : ∀ row ∈ data, ∀ a ∈ arms, a.1 < row.length)
    (hlab : isCls = true → ∀ y ∈ labels, y ∈ classes)
    (hpop : ∀ s, pop = some s → ∀ f ∈ arms.map Prod.fst, (I f).length + idcs.length ≤ s) :
    ∃ out, sampleTargets R g data labels arms hists batch m popIdcs = .ok out ∧ out.drawn = idcs ∧ out.pop = popIdcs' ∧
      out.g = g' := by
  have t1 := takeE_of (a := data) (d := []) (fun i hi => (hlt i hi).1)
  have t2 := takeE_of (a := labels) (d := 0) (fun i hi => (hlt i hi).2)
  have hg := groupArms_sorted hs
  have hloop : ∃ acc', sampleLoop (idcs.map (fun i => data.getD i [])) (idcs.map (fun i => labels.getD i 0)) m pop
      (groupArms arms) { hists := hists, reds := [], cbs := [], nq := 0 } = .ok acc' := by
    apply sampleLoop_ok hg.keys_nodup
    intro p hp
    have h1 : ∀ b ∈ p.2, b < (E p.1).length := fun b hb => (hv _ (hg.mem (f := p.1) (bins := p.2) hp hb)).2
    have hp2 := hg.nonempty p hp
    obtain ⟨b, hb⟩ := List.exists_mem_of_ne_nil _ hp2
    have ha := hg.mem (f := p.1) (bins := p.2) hp hb
    have hE : E p.1 ≠ [] := by
      intro h0
      have := h1 b hb
      rw [h0] at this
      simp at this
    have hF : p.1 < hists.length := (hv _ ha).1
    have hget : hists[p.1]? = some hists[p.1] := List.getElem?_eq_getElem hF
    have hrep := hH.rep _ _ hget hE
    have hfeat := hH.feat _ _ hget
    have hk : p.1 ∈ arms.map Prod.fst := List.mem_map.2 ⟨_, ha, rfl⟩
    obtain ⟨h', hadd⟩ := hrep.add_total (X := idcs.map (fun i => data.getD i [])) (Y := idcs.map (fun i => labels.getD i 0))
      (by
        intro row hrow
        obtain ⟨i, hi, rfl⟩ := List.mem_map.1 hrow
        rw [hfeat, List.getD_eq_getElem _ _ (hlt i hi).1]
        exact hrect _ (List.getElem_mem _) _ ha)
      (by simp) (by simpa using hne)
      (by
        intro hc y hy
        obtain ⟨i, hi, rfl⟩ := List.mem_map.1 hy
        rw [hH.classes_eq _ _ hget, List.getD_eq_getElem _ _ (hlt i hi).2]
        exact hlab hc _ (List.getElem_mem _))
    obtain ⟨r, e1, e2, _⟩ := hrep.add hadd
    rw [hfeat, batchSamples_take t1 t2, ← List.map_append] at r
    have hir := impurityReductions_ok r (by simp [hne]) (critRuns_classes (hm _ _ hget) e2) pop
      (fun s hs' => by rw [List.length_map, List.length_append]; exact hpop s hs' p.1 hk) hp2 h1
      (length_le_of_nodup_lt (hg.bins_nodup hn (f := p.1) hp) h1)
    exact ⟨_, h', _, hget, hadd, hir⟩
  obtain ⟨acc', hacc⟩ := hloop
  refine ⟨{ acc := acc', pop := popIdcs', g := g', drawn := idcs }, ?_, rfl, rfl, rfl⟩
  unfold sampleTargets
  simp only [hdraw, t1, t2, hacc]

end FF
