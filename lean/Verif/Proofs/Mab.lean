import Verif.Props.Exact

/-!
# `solve_mab`: what one pass through the loop does, and the loop invariant
-/

namespace FF

open Spec

set_option linter.unusedSectionVars false

variable {K : Type} [Field K] [LinearOrder K] [IsStrictOrderedRing K] [FloorRing K] [NpFun K] {G : Type}

/-! ### Unfolding one pass -/

/-- The state after the exact computation. -/
def afterExact (F B N : Nat) (s : MabState K G) (ea : List Arm) (est : Mat K) (mu : XF K) (out : SampleOut K G) : MabState K G :=
  let lcb : Mat K := fun x => if x ∈ ea then est x else s.lcb x
  let ucb : Mat K := fun x => if x ∈ ea then est x else s.ucb x
  let exact : Arm → Bool := fun x => if x ∈ ea then true else s.exact x
  { s with
    cands := (allArms F B).filter (fun a => (lcb a).lt mu && !(exact a))
    est := est, lcb := lcb, ucb := ucb, exact := exact
    numSamples := fun x => if x ∈ ea then s.numSamples x + N else s.numSamples x
    hists := out.acc.hists
    total := s.total + out.acc.nq
    log := s.log ++ [out.drawn] }

theorem mabExactPart_cases {R : Rng K G} {F B : Nat} {data : List (List K)} {labels : List K} {m : Criterion}
    {withRep : Bool} {budget : Option Int} {batch : Nat} {s : MabState K G} {r : Loop (MabState K G)}
    (h : mabExactPart R F B data labels m withRep budget batch s = .ok r) :
    (r = .next s ∧ (withRep = true → exactArms F B data.length batch s = [])) ∨
    (withRep = true ∧ ∃ ea out est mu ml, ea = exactArms F B data.length batch s ∧ ea ≠ [] ∧
      sampleTargets R s.g data labels ea (emptyHistograms s.hists ea) data.length m none = .ok out ∧
      assignMat F B s.est ea out.acc.reds = .ok est ∧
      matMin F B (afterExact F B data.length s ea est mu out).ucb = .ok mu ∧
      matMin F B (afterExact F B data.length s ea est mu out).lcb = .ok ml ∧
      ((r = .done (afterExact F B data.length s ea est mu out) ∧
          (overBudget budget (afterExact F B data.length s ea est mu out).total = true ∨ (XF.fin 0).lt ml = true)) ∨
       (r = .next (afterExact F B data.length s ea est mu out) ∧
          overBudget budget (afterExact F B data.length s ea est mu out).total = false ∧ (XF.fin 0).lt ml = false))) := by
  unfold mabExactPart at h
  split_ifs at h with h1
  · simp only [] at h
    split_ifs at h with h2
    · right
      refine ⟨h1, ?_⟩
      split at h
      · cases h
      · next out hout =>
        split at h
        · cases h
        · next est hest =>
          split at h
          · cases h
          · next mu hmu =>
            split at h
            · cases h
            · next ml hml =>
              refine ⟨_, out, est, mu, ml, rfl, List.ne_nil_of_length_pos h2, hout, hest, hmu, hml, ?_⟩
              split_ifs at h with h3 h4
              · left
                cases h
                exact ⟨rfl, Or.inl h3⟩
              · left
                cases h
                exact ⟨rfl, Or.inr h4⟩
              · right
                cases h
                exact ⟨rfl, (Bool.not_eq_true _).mp h3, by simpa using h4⟩
    · left
      cases h
      exact ⟨rfl, fun _ => List.eq_nil_of_length_eq_zero (by omega)⟩
  · left
    cases h
    exact ⟨rfl, fun hc => absurd hc h1⟩

/-- The state after the sampling, before the candidates are updated. -/
def afterSample (s : MabState K G) (batch : Nat) (est cbd : Mat K) (out : SampleOut K G) : MabState K G :=
  { s with
    est := est, cbDelta := cbd
    lcb := fun x => if x ∈ s.cands then (est x).sub ((XF.fin 1).mul (cbd x)) else s.lcb x
    ucb := fun x => if x ∈ s.cands then (est x).add ((XF.fin 1).mul (cbd x)) else s.ucb x
    numSamples := fun x => if x ∈ s.cands then s.numSamples x + batch else s.numSamples x
    hists := out.acc.hists
    pop := out.pop
    g := out.g
    total := s.total + out.acc.nq
    log := s.log ++ [out.drawn] }

/-- The candidates of the next pass. -/
def nextCands (F B : Nat) (epsilon : K) (s : MabState K G) (minArm : Arm) (mu : XF K) : List Arm :=
  (allArms F B).filter (fun a => !(s.exact a) && (s.lcb a).lt mu && (s.lcb a).lt (.fin 0) &&
    (!((s.est a).lt ((XF.fin (1 - epsilon)).mul (s.est minArm))) || decide (a = minArm)))

theorem mabSamplePart_cases {R : Rng K G} {F B : Nat} {data : List (List K)} {labels : List K} {m : Criterion}
    {epsilon : K} {budget : Option Int} {batch : Nat} {s : MabState K G} {r : Loop (MabState K G)}
    (h : mabSamplePart R F B data labels m epsilon budget batch s = .ok r) :
    (s.cands.length ≤ 1 ∧ r = .done s) ∨
    (1 < s.cands.length ∧ s.pop = some [] ∧ r = .done { s with lcb := s.est, ucb := s.est }) ∨
    (1 < s.cands.length ∧ s.pop ≠ some [] ∧ ∃ out est cbd,
      sampleTargets R s.g data labels s.cands s.hists batch m s.pop = .ok out ∧
      assignMat F B s.est s.cands out.acc.reds = .ok est ∧ assignMat F B s.cbDelta s.cands out.acc.cbs = .ok cbd ∧
      ((r = .done (afterSample s batch est cbd out) ∧
          (overBudget budget (afterSample s batch est cbd out).total = true ∨
            ∃ ml, matMin F B (afterSample s batch est cbd out).lcb = .ok ml ∧ (XF.fin 0).lt ml = true)) ∨
       (overBudget budget (afterSample s batch est cbd out).total = false ∧ ∃ ml mi mu,
          matMin F B (afterSample s batch est cbd out).lcb = .ok ml ∧ (XF.fin 0).lt ml = false ∧
          XF.argmin (flatMat F B est) = some mi ∧ matMin F B (afterSample s batch est cbd out).ucb = .ok mu ∧
          r = .next { afterSample s batch est cbd out with
            cands := nextCands F B epsilon (afterSample s batch est cbd out) ((allArms F B).getD mi (0, 0)) mu
            rounds := s.rounds + 1 }))) := by
  unfold mabSamplePart at h
  split_ifs at h with h1 h2
  · left; cases h; exact ⟨h1, rfl⟩
  · right; left; cases h; exact ⟨by omega, h2, rfl⟩
  · right; right
    refine ⟨by omega, h2, ?_⟩
    split at h
    · cases h
    · next out hout =>
      split at h
      · cases h
      · next est hest =>
        split at h
        · cases h
        · next cbd hcbd =>
          simp only [] at h
          refine ⟨out, est, cbd, hout, hest, hcbd, ?_⟩
          split_ifs at h with h3
          · left
            cases h
            exact ⟨rfl, Or.inl h3⟩
          · split at h
            · cases h
            · next ml hml =>
              split_ifs at h with h4
              · left
                cases h
                exact ⟨rfl, Or.inr ⟨ml, hml, h4⟩⟩
              · right
                refine ⟨(Bool.not_eq_true _).mp h3, ?_⟩
                split at h
                · cases h
                · next mi hmi =>
                  split at h
                  · cases h
                  · next mu hmu =>
                    cases h
                    exact ⟨ml, mi, mu, hml, by simpa using h4, hmi, hmu, rfl⟩

/-! ### Facts about single values -/

/-- Bounds computed from an estimate: NaN, the whole line, or a symmetric interval. -/
def Interval (e : K) (l u : XF K) : Prop :=
  (l = .nan ∧ u = .nan) ∨ (l = .ninf ∧ u = .pinf) ∨ ∃ c, 0 ≤ c ∧ l = .fin (e - c) ∧ u = .fin (e + c)

theorem sqrt_cases (x : XF K) : x.sqrt = .nan ∨ x.sqrt = .pinf ∨ ∃ c, 0 ≤ c ∧ x.sqrt = .fin c := by
  cases x with
  | nan => left; rfl
  | ninf => left; rfl
  | pinf => right; left; rfl
  | fin x =>
    simp only [XF.sqrt]
    split
    · left; rfl
    · next h => right; right; exact ⟨_, NpFun.sqrt_nonneg x (not_lt.1 h), rfl⟩

theorem interval_of_sqrt (e : K) (x : XF K) :
    Interval e ((XF.fin e).sub ((XF.fin 1).mul x.sqrt)) ((XF.fin e).add ((XF.fin 1).mul x.sqrt)) := by
  rcases sqrt_cases x with h | h | ⟨c, hc, h⟩
  · left; rw [h]; exact ⟨rfl, rfl⟩
  · right; left
    rw [h]
    have : (XF.fin (1 : K)).mul .pinf = .pinf := by simp [XF.mul, XF.signInf]
    rw [this]
    exact ⟨rfl, rfl⟩
  · right; right
    refine ⟨c, hc, ?_, ?_⟩
    · rw [h]; simp [XF.mul, XF.sub, XF.neg, XF.add, sub_eq_add_neg]
    · rw [h]; simp [XF.mul, XF.add]

theorem interval_point (e : K) : Interval e (.fin e) (.fin e) := Or.inr (Or.inr ⟨0, le_refl _, by simp, by simp⟩)

/-- Some row lies on each side of a threshold. -/
def BothSides (data : List (List K)) (f : Nat) (t : K) : Prop :=
  ∃ i < data.length, ∃ j < data.length, (data.getD i []).getD f 0 ≤ t ∧ t < (data.getD j []).getD f 0

/-- The value computed for an arm is a number, and negative only if the sampled rows lie on both sides of the edge. -/
theorem SampleSpec.arm {isCls : Bool} {classes : List K} {data : List (List K)} {labels : List K}
    {E : Nat → List K} {I I' : Nat → List Nat} {arms : List Arm} {hists : List (Hist K)} {m : Criterion}
    {out : SampleOut K G} {pop : Option Nat} (h : SampleSpec isCls classes data labels E I arms m hists out pop I')
    (hI : ∀ f, ∀ i ∈ I f, i < data.length) (hv : ArmsValid E hists.length arms) {a : Arm} (ha : a ∈ arms) :
    ∃ e, (armVal data labels E I' out.acc.hists m pop a).1 = .fin e ∧
      (e < 0 → BothSides data a.1 ((E a.1).getD a.2 0)) := by
  have hk : a.1 ∈ arms.map Prod.fst := List.mem_map.2 ⟨a, ha, rfl⟩
  have hva := hv a ha
  have hE : E a.1 ≠ [] := by
    intro h0
    have := hva.2
    rw [h0] at this
    simp at this
  have hlt : a.1 < out.acc.hists.length := by rw [h.len]; exact hva.1
  have hget : out.acc.hists[a.1]? = some out.acc.hists[a.1] := List.getElem?_eq_getElem hlt
  have hrep := h.rep.rep a.1 _ hget hE
  have hne : (I' a.1).map (rowSample data labels a.1) ≠ [] := by simpa using h.ne _ hk
  have hbs : ¬ OneSided ((I' a.1).map (rowSample data labels a.1)) ((E a.1).getD a.2 0) →
      BothSides data a.1 ((E a.1).getD a.2 0) := by
    intro ho
    have hI' : ∀ i ∈ I' a.1, i < data.length := by
      intro i hi
      rw [h.I_eq, if_pos hk, List.mem_append] at hi
      rcases hi with hi | hi
      · exact hI _ i hi
      · exact (h.lt i hi).1
    unfold OneSided at ho
    simp only [not_or, not_forall] at ho
    obtain ⟨⟨s1, hs1, h1⟩, ⟨s2, hs2, h2⟩⟩ := ho
    obtain ⟨j, hj, rfl⟩ := List.mem_map.1 hs1
    obtain ⟨i, hi, rfl⟩ := List.mem_map.1 hs2
    exact ⟨i, hI' i hi, j, hI' j hj, not_lt.1 h2, not_le.1 h1⟩
  unfold armVal
  rw [hget]
  simp only []
  unfold redVal
  rw [hrep.isCls]
  cases hc : isCls with
  | true =>
    simp only [if_true]
    refine ⟨_, rfl, fun hlt => hbs (fun ho => ?_)⟩
    rw [change_oneSided _ hne ho] at hlt
    exact lt_irrefl _ hlt
  | false =>
    simp only [Bool.false_eq_true, if_false]
    refine ⟨_, rfl, fun hlt => hbs (fun ho => ?_)⟩
    have hr : RegRep out.acc.hists[a.1] (E a.1) ((I' a.1).map (rowSample data labels a.1)) := by
      unfold Rep at hrep
      rw [hc] at hrep
      simpa using hrep
    rw [regRed_oneSided hr hne pop _ hva.2 ho.cases] at hlt
    exact lt_irrefl _ hlt

/-! ### Draws -/

theorem npDelete_perm {α : Type} [DecidableEq α] (p : List α) (idcs : List Nat) (d : α) (hn : idcs.Nodup) (hlt : ∀ i ∈ idcs, i < p.length) :
    (idcs.map (fun i => p.getD i d) ++ npDelete p idcs).Perm p := by
  have h1 : p.Perm ((List.range p.length).map (fun i => p.getD i d)) := by
    apply List.Perm.of_eq
    apply List.ext_getElem
    · simp
    · intro i h1 h2
      simp [List.getElem?_eq_getElem h1]
  have h2 : (idcs ++ (List.range p.length).filter (fun i => !(idcs.contains i))).Perm (List.range p.length) := by
    rw [List.perm_ext_iff_of_nodup]
    · intro i
      simp only [List.mem_append, List.mem_filter, List.mem_range, Bool.not_eq_eq_eq_not, Bool.not_true,
        List.contains_eq_mem, decide_eq_false_iff_not]
      constructor
      · rintro (h | h)
        · exact hlt i h
        · exact h.1
      · intro h
        by_cases hi : i ∈ idcs
        · exact Or.inl hi
        · exact Or.inr ⟨h, hi⟩
    · rw [List.nodup_append']
      refine ⟨hn, List.nodup_range.filter _, ?_⟩
      intro i hi hj
      simp only [List.mem_filter, List.contains_eq_mem] at hj
      simp [hi] at hj
    · exact List.nodup_range
  have h3 : npDelete p idcs = ((List.range p.length).filter (fun i => !(idcs.contains i))).map (fun i => p.getD i d) := by
    unfold npDelete
    have : p.zipIdx = (List.range p.length).map (fun i => (p.getD i d, i)) := by
      apply List.ext_getElem
      · simp
      · intro i h1 h2
        simp only [List.length_zipIdx] at h1
        simp [List.getElem?_eq_getElem h1]
    rw [this, List.filter_map, List.map_map]
    rfl
  rw [h3, ← List.map_append]
  exact (h2.map _).trans h1.symm

theorem npDelete_length {α : Type} [DecidableEq α] (p : List α) (idcs : List Nat) (d : α) (hn : idcs.Nodup)
    (hlt : ∀ i ∈ idcs, i < p.length) : (npDelete p idcs).length = p.length - idcs.length := by
  have := (npDelete_perm p idcs d hn hlt).length_eq
  simp only [List.length_append, List.length_map] at this
  omega

/-- What a draw without replacement does. -/
theorem drawSamples_norep {R : Rng K G} {g g' : G} {N batch : Nat} {p idcs : List Nat} {pop : Option Nat}
    {p' : Option (List Nat)} (h : drawSamples R g N batch (some p) = .ok (idcs, pop, p', g')) :
    pop = some N ∧ ∃ q, p' = some q ∧ (idcs ++ q).Perm p ∧ idcs.length = min batch p.length := by
  unfold drawSamples at h
  simp only [] at h
  split_ifs at h with h1
  · simp only [Except.ok.injEq, Prod.mk.injEq] at h
    obtain ⟨rfl, rfl, rfl, rfl⟩ := h
    exact ⟨rfl, [], rfl, by simp, by omega⟩
  · simp only [Except.ok.injEq, Prod.mk.injEq] at h
    obtain ⟨rfl, rfl, rfl, rfl⟩ := h
    have hk : batch ≤ p.length := by omega
    refine ⟨rfl, _, rfl, npDelete_perm p _ 0 (R.choice_nodup g _ _ hk) (R.choice_lt g _ _ hk), ?_⟩
    rw [List.length_map, R.choice_length g _ _ hk]
    omega

/-- What a draw with replacement does. -/
theorem drawSamples_rep {R : Rng K G} {g g' : G} {N batch : Nat} {idcs : List Nat} {pop : Option Nat}
    {p' : Option (List Nat)} (h : drawSamples R g N batch none = .ok (idcs, pop, p', g')) :
    p' = none ∧ idcs.length = min batch N ∧ (∀ i ∈ idcs, i < N) ∧
      ((N ≤ batch ∧ idcs = List.range N ∧ pop = some N ∧ g' = g) ∨ (batch < N ∧ pop = none)) := by
  unfold drawSamples at h
  simp only [] at h
  split_ifs at h with h1
  · simp only [Except.ok.injEq, Prod.mk.injEq] at h
    obtain ⟨rfl, rfl, rfl, rfl⟩ := h
    exact ⟨rfl, by simp; omega, fun i hi => List.mem_range.1 hi, Or.inl ⟨h1, rfl, rfl, rfl⟩⟩
  · split at h
    · cases h
    · next s g'' hs =>
      simp only [Except.ok.injEq, Prod.mk.injEq] at h
      obtain ⟨rfl, rfl, rfl, rfl⟩ := h
      unfold rngChoiceRep at hs
      rw [List.length_range] at hs
      split_ifs at hs with h2
      simp only [Except.ok.injEq, Prod.mk.injEq] at hs
      obtain ⟨rfl, rfl⟩ := hs
      refine ⟨rfl, ?_, ?_, Or.inr ⟨by omega, rfl⟩⟩
      · rw [List.length_map, R.choiceRep_length g _ _ h2]; omega
      · intro i hi
        obtain ⟨j, hj, rfl⟩ := List.mem_map.1 hi
        have := R.choiceRep_lt g _ batch h2 j hj
        rw [List.getD_eq_getElem _ _ (by simpa using this), List.getElem_range]
        exact this

theorem drawSamples_length {R : Rng K G} {g g' : G} {N batch : Nat} {P : Option (List Nat)} {idcs : List Nat}
    {pop : Option Nat} {p' : Option (List Nat)} (h : drawSamples R g N batch P = .ok (idcs, pop, p', g')) :
    idcs.length ≤ batch := by
  cases P with
  | none => have := (drawSamples_rep h).2.1; omega
  | some p => obtain ⟨_, _, _, _, this⟩ := drawSamples_norep h; omega

/-! ### The loop invariant -/

/-- What is known about an arm that was sampled at least once. -/
def ArmFacts (data : List (List K)) (E : Nat → List K) (est lcb ucb : XF K) (a : Arm) : Prop :=
  ∃ e, est = .fin e ∧ Interval e lcb ucb ∧ (e < 0 → BothSides data a.1 ((E a.1).getD a.2 0))

/-- The loop invariant of `solve_mab`. `I f` are the rows in the histogram of feature `f`. -/
structure MabInv (R : Rng K G) (isCls : Bool) (data : List (List K)) (labels : List K) (m : Criterion)
    (minmax : Option (List K × List K)) (d : DiscDict K) (binType : Option BinType) (F B : Nat) (hs : Hists K G)
    (withRep : Bool) (I : Nat → List Nat) (s : MabState K G) : Prop where
  reach : HistReach R isCls data labels m minmax d binType B (edgesOf hs.hists) I s.hists
  len : s.hists.length = F
  sorted : s.cands.Pairwise ArmLt
  sub : ∀ a ∈ s.cands, a ∈ candArms F B hs
  fresh : ∀ a ∈ s.cands, s.exact a = false
  notCons : ∀ a ∈ hs.notCons, s.exact a = true ∧ s.est a = .pinf ∧ s.numSamples a = 0
  rows : ∀ f, ∀ i ∈ I f, i < data.length
  touched : ∀ a, 0 < s.numSamples a → ArmFacts data (edgesOf hs.hists) (s.est a) (s.lcb a) (s.ucb a) a
  rep : withRep = true → s.pop = none
  norep : withRep = false → ∃ p, s.pop = some p ∧ (s.log.flatten ++ p).Perm (List.range data.length) ∧
    ∀ f, (I f).Sublist s.log.flatten
  cost : s.total ≤ featCountOf (candArms F B hs) * s.log.flatten.length

section
variable {R : Rng K G} {isCls : Bool} {data : List (List K)} {labels : List K} {m : Criterion}
    {minmax : Option (List K × List K)} {d : DiscDict K} {binType : Option BinType} {F B : Nat} {hs : Hists K G}
    {withRep : Bool} {I : Nat → List Nat} {s s' : MabState K G} {epsilon : K} {budget : Option Int} {batch : Nat}
    {classes : List K}

theorem featCountOf_le {l l' : List Arm} (h : ∀ a ∈ l, ∃ b ∈ l', b.1 = a.1) : featCountOf l ≤ featCountOf l' := by
  unfold featCountOf
  apply List.Subperm.length_le
  apply (List.nodup_dedup _).subperm
  intro f hf
  rw [List.mem_dedup] at hf ⊢
  obtain ⟨a, ha, rfl⟩ := List.mem_map.1 hf
  obtain ⟨b, hb, hba⟩ := h a ha
  exact List.mem_map.2 ⟨b, hb, hba⟩

theorem featCountOf_le_F {l : List Arm} {F : Nat} (h : ∀ a ∈ l, a.1 < F) : featCountOf l ≤ F := by
  unfold featCountOf
  apply length_le_of_nodup_lt (List.nodup_dedup _)
  intro f hf
  rw [List.mem_dedup] at hf
  obtain ⟨a, ha, rfl⟩ := List.mem_map.1 hf
  exact h a ha

theorem mem_exactArms {N : Nat} {a : Arm} : a ∈ exactArms F B N batch s ↔
    a ∈ allArms F B ∧ N ≤ s.numSamples a + batch ∧ s.exact a = false := by
  unfold exactArms
  simp [List.mem_filter]

/-- A non-exact arm of the array is a candidate. -/
theorem HistsGood.cand_of_fresh (hg : HistsGood R isCls data classes minmax d binType F B hs) {ex : Arm → Bool}
    (hex : ∀ a ∈ hs.notCons, ex a = true) {a : Arm} (ha : a ∈ allArms F B) (hf : ex a = false) : a ∈ candArms F B hs := by
  rcases hg.mem_cands_or ha with h | h
  · exact h.1
  · rw [hex a h.1] at hf
    cases hf

theorem HistsGood.cand_not_notCons (hg : HistsGood R isCls data classes minmax d binType F B hs) {a : Arm}
    (ha : a ∈ candArms F B hs) : a ∉ hs.notCons := by
  intro hc
  have h1 := hg.mem_notCons.1 hc
  have h2 := hg.cands_valid a ha
  omega

theorem mabInit_ok {N : Nat} {junk : Junk K} {g : G} (h : mabInit F B N junk withRep hs g = .ok s) :
    (∀ a ∈ hs.notCons, s.est a = .pinf ∧ s.ucb a = .pinf ∧ s.lcb a = .ninf) ∧
    s.cands = candArms F B hs ∧ s.cbDelta = (fun _ => .fin 0) ∧ s.numSamples = (fun _ => 0) ∧
    s.exact = (fun a => decide (a ∈ hs.notCons)) ∧ s.hists = hs.hists ∧
    s.pop = (if withRep then none else some (List.range N)) ∧ s.total = 0 ∧ s.g = g ∧ s.rounds = 0 ∧ s.log = [] := by
  unfold mabInit at h
  split at h
  · next est ucb lcb h1 h2 h3 =>
    cases h
    refine ⟨fun a ha => ⟨?_, ?_, ?_⟩, rfl, rfl, rfl, rfl, rfl, rfl, rfl, rfl, rfl, rfl⟩
    · show est a = _
      rw [fillMat_ok h1, if_pos ha]
    · show ucb a = _
      rw [fillMat_ok h2, if_pos ha]
    · show lcb a = _
      rw [fillMat_ok h3, if_pos ha]
  · cases h

theorem MabInv.init (hg : HistsGood R isCls data classes minmax d binType F B hs) {g0 : G}
    (hmake : makeHistograms R g0 isCls data labels minmax d binType B = .ok hs) {junk : Junk K} {g : G}
    (h : mabInit F B data.length junk withRep hs g = .ok s) :
    MabInv R isCls data labels m minmax d binType F B hs withRep (fun _ => []) s := by
  obtain ⟨h1, h2, h3, h4, h5, h6, h7, h8, h9, h10, h11⟩ := mabInit_ok h
  refine ⟨?_, ?_, ?_, ?_, ?_, ?_, ?_, ?_, ?_, ?_, ?_⟩
  · rw [h6]; exact HistReach.fresh hmake
  · rw [h6]; exact hg.len
  · rw [h2]; exact hg.cands_sorted
  · rw [h2]; exact fun a ha => ha
  · rw [h2, h5]
    intro a ha
    simpa using hg.cand_not_notCons ha
  · intro a ha
    rw [h4, h5]
    exact ⟨by simpa using ha, (h1 a ha).1, rfl⟩
  · intro f i hi; simp at hi
  · intro a ha
    rw [h4] at ha
    simp at ha
  · intro hr; rw [h7, if_pos hr]
  · intro hr
    rw [h7, h11]
    refine ⟨List.range data.length, by simp [hr], by simp, fun f => by simp⟩
  · rw [h8]; exact Nat.zero_le _

/-- The exact computation, in terms of the true values. -/
theorem MabInv.exact_call (hm : CritFits isCls m) (hb : BinningOK minmax d binType B) (hdata : data ≠ [])
    (hg : HistsGood R isCls data classes minmax d binType F B hs)
    (hi : MabInv R isCls data labels m minmax d binType F B hs withRep I s) {ea : List Arm}
    (hea : ea = exactArms F B data.length batch s) {out : SampleOut K G}
    (hout : sampleTargets R s.g data labels ea (emptyHistograms s.hists ea) data.length m none = .ok out) :
    ea.Pairwise ArmLt ∧ ArmsValid (edgesOf hs.hists) F ea ∧ (∀ a ∈ ea, a ∈ candArms F B hs) ∧
    out.drawn = List.range data.length ∧
    out.acc.reds = ea.map (fun a => XF.fin (armChange data labels (edgesOf hs.hists) m a)) ∧
    out.acc.hists.length = F ∧ out.acc.nq = featCountOf ea * data.length ∧
    HistReach R isCls data labels m minmax d binType B (edgesOf hs.hists)
      (fun f => if f ∈ ea.map Prod.fst then List.range data.length else I f) out.acc.hists ∧
    (∀ a ∈ ea, armChange data labels (edgesOf hs.hists) m a < 0 →
      BothSides data a.1 ((edgesOf hs.hists a.1).getD a.2 0)) := by
  have hsorted : ea.Pairwise ArmLt := by
    rw [hea]; exact (allArms_sorted F B).filter _
  have hsub : ∀ a ∈ ea, a ∈ candArms F B hs := by
    intro a ha
    rw [hea, mem_exactArms] at ha
    exact hg.cand_of_fresh (ex := s.exact) (fun x hx => (hi.notCons x hx).1) ha.1 ha.2.2
  have hvalid : ArmsValid (edgesOf hs.hists) F ea := fun a ha => hg.cands_valid a (hsub a ha)
  have hlen' : (emptyHistograms s.hists ea).length = F := by rw [length_emptyHistograms, hi.len]
  have hreachE := HistReach.empty ea hi.reach
  have hrepE := hreachE.rep hm hb
  obtain ⟨pop, hdraw, hspec⟩ := sampleTargets_spec hrepE hm (featSorted_of_sorted hsorted) (nodup_of_sorted hsorted)
    (by rw [hlen']; exact hvalid) hout
  rw [(drawSamples_full R s.g (le_refl _)).2] at hdraw
  simp only [Except.ok.injEq, Prod.mk.injEq] at hdraw
  obtain ⟨hd1, rfl, _, _⟩ := hdraw
  have hfull := hspec.full hd1.symm hdata (fun f hf => by simp only [if_pos hf]) (by rw [hlen']; exact hvalid) hm
  have hr := HistReach.sample hreachE (featSorted_of_sorted hsorted) (nodup_of_sorted hsorted)
    (by rw [hlen']; exact hvalid) hout
  refine ⟨hsorted, hvalid, hsub, hd1.symm, hfull.2.1, by rw [hspec.len, hlen'], ?_, ?_, ?_⟩
  · rw [hspec.nq, ← hd1, List.length_range]
  · have e : (fun f => if f ∈ ea.map Prod.fst then (fun f => if f ∈ ea.map Prod.fst then [] else I f) f ++ out.drawn
        else (fun f => if f ∈ ea.map Prod.fst then [] else I f) f) =
        (fun f => if f ∈ ea.map Prod.fst then List.range data.length else I f) := by
      funext f
      by_cases hf : f ∈ ea.map Prod.fst
      · simp only [if_pos hf, ← hd1, List.nil_append]
      · simp only [if_neg hf]
    rw [e] at hr
    exact hr
  · intro a ha hneg
    obtain ⟨e, h1, h2⟩ := hspec.arm (by
      intro f i hi'
      by_cases hf : f ∈ ea.map Prod.fst
      · simp only [if_pos hf] at hi'; simp at hi'
      · simp only [if_neg hf] at hi'; exact hi.rows f i hi') (by rw [hlen']; exact hvalid) ha
    have h3 := hfull.2.1
    rw [hspec.reds] at h3
    have h4 := List.map_inj_left.1 h3 a ha
    rw [h1] at h4
    injection h4 with h4
    exact h2 (by rw [h4]; exact hneg)

theorem MabInv.afterExact (hm : CritFits isCls m) (hb : BinningOK minmax d binType B) (hdata : data ≠ [])
    (hg : HistsGood R isCls data classes minmax d binType F B hs) (hrep : withRep = true)
    (hi : MabInv R isCls data labels m minmax d binType F B hs withRep I s) {ea : List Arm}
    (hea : ea = exactArms F B data.length batch s) {out : SampleOut K G} {est : Mat K} (mu : XF K)
    (hout : sampleTargets R s.g data labels ea (emptyHistograms s.hists ea) data.length m none = .ok out)
    (hest : assignMat F B s.est ea out.acc.reds = .ok est) :
    MabInv R isCls data labels m minmax d binType F B hs withRep
      (fun f => if f ∈ ea.map Prod.fst then List.range data.length else I f)
      (afterExact F B data.length s ea est mu out) := by
  obtain ⟨hsorted, hvalid, hsub, hd, hreds, hlen, hnq, hreach, hboth⟩ := hi.exact_call hm hb hdata hg hea hout
  rw [hreds] at hest
  have hestv := assignMat_map hest
  refine ⟨hreach, hlen, (allArms_sorted F B).filter _, ?_, ?_, ?_, ?_, ?_, hi.rep, ?_, ?_⟩
  · intro a ha
    unfold FF.afterExact at ha
    simp only [List.mem_filter, Bool.and_eq_true, Bool.not_eq_eq_eq_not, Bool.not_true] at ha
    have hx := ha.2.2
    split_ifs at hx with hmem
    exact hg.cand_of_fresh (ex := s.exact) (fun x hx => (hi.notCons x hx).1) ha.1 hx
  · intro a ha
    unfold FF.afterExact at ha ⊢
    simp only [List.mem_filter, Bool.and_eq_true, Bool.not_eq_eq_eq_not, Bool.not_true] at ha
    exact ha.2.2
  · intro a ha
    have hn : a ∉ ea := fun hc => hg.cand_not_notCons (hsub a hc) ha
    obtain ⟨h1, h2, h3⟩ := hi.notCons a ha
    unfold FF.afterExact
    simp only [if_neg hn]
    refine ⟨h1, ?_, h3⟩
    rw [hestv, if_neg hn, h2]
  · intro f i hif
    split_ifs at hif
    · exact List.mem_range.1 hif
    · exact hi.rows f i hif
  · intro a ha
    unfold FF.afterExact at ha ⊢
    by_cases hmem : a ∈ ea
    · simp only [if_pos hmem]
      refine ⟨armChange data labels (edgesOf hs.hists) m a, ?_, ?_, hboth a hmem⟩
      · rw [hestv, if_pos hmem]
      · rw [hestv, if_pos hmem]
        exact interval_point _
    · simp only [if_neg hmem] at ha ⊢
      rw [hestv, if_neg hmem]
      exact hi.touched a ha
  · intro hr; rw [hrep] at hr; cases hr
  · unfold FF.afterExact
    simp only []
    rw [List.flatten_append, List.length_append, Nat.mul_add, hnq]
    apply Nat.add_le_add hi.cost
    simp only [List.flatten_cons, List.flatten_nil, List.append_nil, hd, List.length_range]
    exact Nat.mul_le_mul_right _ (featCountOf_le (fun a ha => ⟨a, hsub a ha, rfl⟩))

/-- One call of `sample_targets` in the sampling part. -/
theorem MabInv.sample_call (hm : CritFits isCls m) (hb : BinningOK minmax d binType B)
    (hg : HistsGood R isCls data classes minmax d binType F B hs)
    (hi : MabInv R isCls data labels m minmax d binType F B hs withRep I s) {out : SampleOut K G}
    (hout : sampleTargets R s.g data labels s.cands s.hists batch m s.pop = .ok out) :
    ∃ pop, drawSamples R s.g data.length batch s.pop = .ok (out.drawn, pop, out.pop, out.g) ∧
      SampleSpec isCls (nodeClasses isCls labels) data labels (edgesOf hs.hists) I s.cands m s.hists out pop
        (fun f => if f ∈ s.cands.map Prod.fst then I f ++ out.drawn else I f) ∧
      ArmsValid (edgesOf hs.hists) s.hists.length s.cands ∧
      HistReach R isCls data labels m minmax d binType B (edgesOf hs.hists)
        (fun f => if f ∈ s.cands.map Prod.fst then I f ++ out.drawn else I f) out.acc.hists := by
  have hvalid : ArmsValid (edgesOf hs.hists) s.hists.length s.cands := by
    rw [hi.len]; exact fun a ha => hg.cands_valid a (hi.sub a ha)
  obtain ⟨pop, hdraw, hspec⟩ := sampleTargets_spec (hi.reach.rep hm hb) hm (featSorted_of_sorted hi.sorted)
    (nodup_of_sorted hi.sorted) hvalid hout
  exact ⟨pop, hdraw, hspec, hvalid, HistReach.sample hi.reach (featSorted_of_sorted hi.sorted) (nodup_of_sorted hi.sorted)
    hvalid hout⟩

theorem MabInv.afterSample (hm : CritFits isCls m) (hb : BinningOK minmax d binType B)
    (hg : HistsGood R isCls data classes minmax d binType F B hs)
    (hi : MabInv R isCls data labels m minmax d binType F B hs withRep I s) {out : SampleOut K G} {est cbd : Mat K}
    (hout : sampleTargets R s.g data labels s.cands s.hists batch m s.pop = .ok out)
    (hest : assignMat F B s.est s.cands out.acc.reds = .ok est)
    (hcbd : assignMat F B s.cbDelta s.cands out.acc.cbs = .ok cbd) :
    MabInv R isCls data labels m minmax d binType F B hs withRep
      (fun f => if f ∈ s.cands.map Prod.fst then I f ++ out.drawn else I f) (afterSample s batch est cbd out) := by
  obtain ⟨pop, hdraw, hspec, hvalid, hreach⟩ := hi.sample_call hm hb hg hout
  have hr := hspec.reds
  have hc := hspec.cbs
  rw [hr] at hest
  rw [hc] at hcbd
  have hestv := assignMat_map hest
  have hcbdv := assignMat_map hcbd
  refine ⟨hreach, ?_, hi.sorted, hi.sub, hi.fresh, ?_, ?_, ?_, ?_, ?_, ?_⟩
  · show out.acc.hists.length = F
    rw [hspec.len, hi.len]
  · intro a ha
    have hn : a ∉ s.cands := fun hc => hg.cand_not_notCons (hi.sub a hc) ha
    obtain ⟨h1, h2, h3⟩ := hi.notCons a ha
    unfold FF.afterSample
    simp only [if_neg hn]
    refine ⟨h1, ?_, h3⟩
    rw [hestv, if_neg hn, h2]
  · intro f i hif
    split_ifs at hif
    · rw [List.mem_append] at hif
      rcases hif with hif | hif
      · exact hi.rows f i hif
      · exact (hspec.lt i hif).1
    · exact hi.rows f i hif
  · intro a ha
    unfold FF.afterSample at ha ⊢
    by_cases hmem : a ∈ s.cands
    · simp only [if_pos hmem]
      obtain ⟨e, h1, h2⟩ := hspec.arm hi.rows hvalid hmem
      refine ⟨e, ?_, ?_, h2⟩
      · rw [hestv, if_pos hmem, h1]
      · rw [hestv, if_pos hmem, h1, hcbdv, if_pos hmem]
        exact interval_of_sqrt e _
    · simp only [if_neg hmem] at ha ⊢
      rw [hestv, if_neg hmem]
      exact hi.touched a ha
  · intro hw
    rw [hi.rep hw] at hdraw
    exact (drawSamples_rep hdraw).1
  · intro hw
    obtain ⟨p, hp, hperm, hsubl⟩ := hi.norep hw
    rw [hp] at hdraw
    obtain ⟨_, q, hq, hpq, _⟩ := drawSamples_norep hdraw
    refine ⟨q, hq, ?_, ?_⟩
    · show ((s.log ++ [out.drawn]).flatten ++ q).Perm _
      rw [List.flatten_append]
      simp only [List.flatten_cons, List.flatten_nil, List.append_nil, List.append_assoc]
      exact (List.Perm.append_left _ hpq).trans hperm
    · intro f
      show List.Sublist _ (s.log ++ [out.drawn]).flatten
      rw [List.flatten_append]
      simp only [List.flatten_cons, List.flatten_nil, List.append_nil]
      split
      · exact (hsubl f).append (List.Sublist.refl _)
      · exact (hsubl f).trans (List.sublist_append_left _ _)
  · unfold FF.afterSample
    simp only []
    rw [List.flatten_append, List.length_append, Nat.mul_add, hspec.nq]
    apply Nat.add_le_add hi.cost
    simp only [List.flatten_cons, List.flatten_nil, List.append_nil]
    exact Nat.mul_le_mul_right _ (featCountOf_le (fun a ha => ⟨a, hi.sub a ha, rfl⟩))

/-- Changing the candidates to fresh arms of the array keeps the invariant. -/
theorem MabInv.setCands (hg : HistsGood R isCls data classes minmax d binType F B hs)
    (hi : MabInv R isCls data labels m minmax d binType F B hs withRep I s) (p : Arm → Bool) (r : Nat)
    (hp : ∀ a, p a = true → s.exact a = false) :
    MabInv R isCls data labels m minmax d binType F B hs withRep I { s with cands := (allArms F B).filter p, rounds := r } := by
  refine ⟨hi.reach, hi.len, (allArms_sorted F B).filter _, ?_, ?_, hi.notCons, hi.rows, hi.touched, hi.rep, hi.norep, hi.cost⟩
  · intro a ha
    simp only [List.mem_filter] at ha
    exact hg.cand_of_fresh (ex := s.exact) (fun x hx => (hi.notCons x hx).1) ha.1 (hp a ha.2)
  · intro a ha
    simp only [List.mem_filter] at ha
    exact hp a ha.2

theorem MabInv.setPoint (hi : MabInv R isCls data labels m minmax d binType F B hs withRep I s) :
    MabInv R isCls data labels m minmax d binType F B hs withRep I { s with lcb := s.est, ucb := s.est } := by
  refine ⟨hi.reach, hi.len, hi.sorted, hi.sub, hi.fresh, hi.notCons, hi.rows, ?_, hi.rep, hi.norep, hi.cost⟩
  intro a ha
  obtain ⟨e, h1, _, h3⟩ := hi.touched a ha
  refine ⟨e, h1, ?_, h3⟩
  show Interval e (s.est a) (s.est a)
  rw [h1]
  exact interval_point e

/-- The state carried by the outcome of a pass. -/
def Loop.state {S : Type} : Loop S → S
  | .done s => s
  | .next s => s

theorem MabInv.exactPart (hm : CritFits isCls m) (hb : BinningOK minmax d binType B) (hdata : data ≠ [])
    (hg : HistsGood R isCls data classes minmax d binType F B hs)
    (hi : MabInv R isCls data labels m minmax d binType F B hs withRep I s) {r : Loop (MabState K G)}
    (h : mabExactPart R F B data labels m withRep budget batch s = .ok r) :
    ∃ I', MabInv R isCls data labels m minmax d binType F B hs withRep I' r.state := by
  rcases mabExactPart_cases h with ⟨rfl, _⟩ | ⟨hrep, ea, out, est, mu, ml, hea, _, hout, hest, _, _, hr⟩
  · exact ⟨I, hi⟩
  · have := hi.afterExact hm hb hdata hg hrep hea mu hout hest
    rcases hr with ⟨rfl, _⟩ | ⟨rfl, _⟩ <;> exact ⟨_, this⟩

theorem MabInv.samplePart (hm : CritFits isCls m) (hb : BinningOK minmax d binType B)
    (hg : HistsGood R isCls data classes minmax d binType F B hs)
    (hi : MabInv R isCls data labels m minmax d binType F B hs withRep I s) {r : Loop (MabState K G)}
    (h : mabSamplePart R F B data labels m epsilon budget batch s = .ok r) :
    ∃ I', MabInv R isCls data labels m minmax d binType F B hs withRep I' r.state := by
  rcases mabSamplePart_cases h with ⟨_, rfl⟩ | ⟨_, _, rfl⟩ | ⟨_, _, out, est, cbd, hout, hest, hcbd, hr⟩
  · exact ⟨I, hi⟩
  · exact ⟨I, hi.setPoint⟩
  · have := hi.afterSample hm hb hg hout hest hcbd
    rcases hr with ⟨rfl, _⟩ | ⟨_, ml, mi, mu, _, _, _, _, rfl⟩
    · exact ⟨_, this⟩
    · refine ⟨_, this.setCands hg _ _ ?_⟩
      intro a ha
      simp only [Bool.and_eq_true, Bool.not_eq_eq_eq_not, Bool.not_true] at ha
      exact ha.1.1.1

theorem mabStep_cases {r : Loop (MabState K G)}
    (h : mabStep R F B data labels m epsilon withRep budget batch s = .ok r) :
    (∃ s', mabExactPart R F B data labels m withRep budget batch s = .ok (.done s') ∧ r = .done s') ∨
    (∃ s', mabExactPart R F B data labels m withRep budget batch s = .ok (.next s') ∧
      mabSamplePart R F B data labels m epsilon budget batch s' = .ok r) := by
  unfold mabStep at h
  split at h
  · cases h
  · next s' hs' => cases h; exact Or.inl ⟨s', hs', rfl⟩
  · next s' hs' => exact Or.inr ⟨s', hs', h⟩

theorem MabInv.step (hm : CritFits isCls m) (hb : BinningOK minmax d binType B) (hdata : data ≠ [])
    (hg : HistsGood R isCls data classes minmax d binType F B hs)
    (hi : MabInv R isCls data labels m minmax d binType F B hs withRep I s) {r : Loop (MabState K G)}
    (h : mabStep R F B data labels m epsilon withRep budget batch s = .ok r) :
    ∃ I', MabInv R isCls data labels m minmax d binType F B hs withRep I' r.state := by
  rcases mabStep_cases h with ⟨s', h1, rfl⟩ | ⟨s', h1, h2⟩
  · exact hi.exactPart hm hb hdata hg h1
  · obtain ⟨I', hi'⟩ := hi.exactPart hm hb hdata hg h1
    exact MabInv.samplePart hm hb hg hi' h2

end

end FF
