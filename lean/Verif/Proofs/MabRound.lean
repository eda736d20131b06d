import Verif.Proofs.MabFull

/-!
# One pass of the loop of `solve_mab`: the candidates that are kept
-/

namespace FF

open Spec

set_option linter.unusedSectionVars false

variable {K : Type} [Field K] [LinearOrder K] [IsStrictOrderedRing K] [FloorRing K] [NpFun K] {G : Type}

theorem XF.argminGo_spec (xs : List (XF K)) (i bi : Nat) (b : XF K) (hb : b.isNan = false) (h : ∀ y ∈ xs, y.isNan = false) :
    (XF.argminGo xs i bi b = bi ∧ ∀ y ∈ xs, y.lt b = false) ∨
    ∃ j, ∃ hj : j < xs.length, XF.argminGo xs i bi b = i + j ∧ xs[j].lt b = true ∧ ∀ y ∈ xs, y.lt xs[j] = false := by
  induction xs generalizing i bi b with
  | nil => left; exact ⟨rfl, by simp⟩
  | cons x xs ih =>
    have hx := h x List.mem_cons_self
    have hxs : ∀ y ∈ xs, y.isNan = false := fun y hy => h y (List.mem_cons_of_mem _ hy)
    simp only [XF.argminGo, hb, hx, Bool.false_eq_true, if_false]
    by_cases hlt : x.lt b = true
    · rw [if_pos hlt]
      right
      rcases ih (i + 1) i x hx hxs with ⟨h1, h2⟩ | ⟨j, hj, h1, h2, h3⟩
      · refine ⟨0, by simp, by simpa using h1, by simpa using hlt, ?_⟩
        intro y hy
        rw [List.mem_cons] at hy
        rcases hy with rfl | hy
        · exact XF.lt_irrefl _
        · exact h2 y hy
      · refine ⟨j + 1, by simpa using hj, by rw [h1]; omega, ?_, ?_⟩
        · simp only [List.getElem_cons_succ]; exact XF.lt_trans h2 hlt
        · intro y hy
          simp only [List.getElem_cons_succ]
          rw [List.mem_cons] at hy
          rcases hy with rfl | hy
          · exact XF.not_lt_of_lt h2
          · exact h3 y hy
    · rw [if_neg hlt]
      rcases ih (i + 1) bi b hb hxs with ⟨h1, h2⟩ | ⟨j, hj, h1, h2, h3⟩
      · left
        refine ⟨h1, ?_⟩
        intro y hy
        rw [List.mem_cons] at hy
        rcases hy with rfl | hy
        · simpa using hlt
        · exact h2 y hy
      · right
        refine ⟨j + 1, by simpa using hj, by rw [h1]; omega, by simpa using h2, ?_⟩
        intro y hy
        simp only [List.getElem_cons_succ]
        rw [List.mem_cons] at hy
        rcases hy with rfl | hy
        · exact XF.not_lt_trans hb (by simpa using hlt) (XF.not_lt_of_lt h2)
        · exact h3 y hy

theorem XF.argmin_spec {l : List (XF K)} {i : Nat} (h : XF.argmin l = some i) (hn : ∀ y ∈ l, y.isNan = false) :
    ∃ hi : i < l.length, ∀ y ∈ l, y.lt l[i] = false := by
  cases l with
  | nil => cases h
  | cons x xs =>
    simp only [XF.argmin, Option.some.injEq] at h
    have hx := hn x List.mem_cons_self
    rcases XF.argminGo_spec xs 1 0 x hx (fun y hy => hn y (List.mem_cons_of_mem _ hy)) with ⟨h1, h2⟩ | ⟨j, hj, h1, h2, h3⟩
    · have : i = 0 := by rw [← h, h1]
      subst this
      refine ⟨by simp, ?_⟩
      intro y hy
      rw [List.mem_cons] at hy
      rcases hy with rfl | hy
      · exact XF.lt_irrefl _
      · exact h2 y hy
    · have : i = j + 1 := by rw [← h, h1]; omega
      subst this
      refine ⟨by simpa using hj, ?_⟩
      intro y hy
      simp only [List.getElem_cons_succ]
      rw [List.mem_cons] at hy
      rcases hy with rfl | hy
      · exact XF.not_lt_of_lt h2
      · exact h3 y hy

theorem matMin_spec {F B : Nat} {a : Mat K} {mu : XF K} (h : matMin F B a = .ok mu) :
    (mu = .nan ∧ ∃ x ∈ allArms F B, a x = .nan) ∨
    ((∀ x ∈ allArms F B, (a x).isNan = false) ∧ mu.isNan = false ∧ (∃ x ∈ allArms F B, a x = mu) ∧
      ∀ x ∈ allArms F B, (a x).lt mu = false) := by
  unfold matMin at h
  split at h
  · cases h
  · next m hm =>
    cases h
    unfold flatMat at hm
    rcases XF.minArr_spec hm with ⟨h1, h2⟩ | ⟨h1, h2, h3, h4⟩
    · left
      obtain ⟨x, hx, h⟩ := List.mem_map.1 h2
      exact ⟨h1, x, hx, h⟩
    · right
      obtain ⟨x, hx, h⟩ := List.mem_map.1 h3
      refine ⟨?_, h1, ⟨x, hx, h⟩, ?_⟩
      · intro y hy
        cases hay : a y with
        | nan => exact absurd (List.mem_map.2 ⟨y, hy, hay⟩) h2
        | _ => rfl
      · intro y hy
        exact h4 _ (List.mem_map.2 ⟨y, hy, rfl⟩)

section
variable {R : Rng K G} {isCls : Bool} {data : List (List K)} {labels : List K} {m : Criterion}
    {minmax : Option (List K × List K)} {d : DiscDict K} {binType : Option BinType} {F B : Nat} {hs : Hists K G}
    {withRep : Bool} {I : Nat → List Nat} {s s0 s' : MabState K G} {epsilon : K} {budget : Option Int} {batch : Nat}

/-- The shape of the state after a pass that continues. -/
theorem next_shape (h : mabStep R F B data labels m epsilon withRep budget batch s = .ok (.next s')) :
    ∃ ml mi mu, matMin F B s'.lcb = .ok ml ∧ (XF.fin 0).lt ml = false ∧ XF.argmin (flatMat F B s'.est) = some mi ∧
      matMin F B s'.ucb = .ok mu ∧ overBudget budget s'.total = false ∧
      s'.cands = nextCands F B epsilon s' ((allArms F B).getD mi (0, 0)) mu := by
  rcases mabStep_cases h with ⟨s1, h1, h2⟩ | ⟨s1, h1, h2⟩
  · cases h2
  · rcases mabSamplePart_cases h2 with ⟨_, hr⟩ | ⟨_, _, hr⟩ | ⟨hlen, hne, out, est, cbd, hout, hest, hcbd, hr⟩
    · cases hr
    · cases hr
    · rcases hr with ⟨hr, _⟩ | ⟨hov, ml, mi, mu, e1, e2, e3, e4, hr⟩
      · cases hr
      · cases hr
        exact ⟨ml, mi, mu, e1, e2, e3, e4, hov, rfl⟩

theorem head_touched (hm : CritFits isCls m) (hb : BinningOK minmax d binType B) (hdata : data ≠ [])
    {classes : List K} (hg : HistsGood R isCls data classes minmax d binType F B hs) {g0 : G}
    (hmake : makeHistograms R g0 isCls data labels minmax d binType B = .ok hs) {junk : Junk K} {g : G}
    (hinit : mabInit F B data.length junk withRep hs g = .ok s0)
    (hh : MabHead R F B data labels m epsilon withRep budget batch s0 s) (h5 : 5 < s.cands.length) {r : Loop (MabState K G)}
    (h : mabStep R F B data labels m epsilon withRep budget batch s = .ok r) : AllTouched F B hs r.state := by
  induction hh generalizing r with
  | init => exact first_pass hm hb hdata hg hmake hinit h5 h
  | step _ h5' hs' ih =>
    have := ih h5' hs'
    intro a ha
    rcases this a ha with h1 | h1
    · exact Or.inl h1
    · exact Or.inr (lt_of_lt_of_le h1 (numSamples_step h a))

theorem step_notCons_ucb (hg : HistsGood R isCls data (nodeClasses isCls labels) minmax d binType F B hs)
    (hi : MabInv R isCls data labels m minmax d binType F B hs withRep I s)
    (hu : ∀ a ∈ hs.notCons, s.ucb a = .pinf)
    (hm : CritFits isCls m) (hb : BinningOK minmax d binType B) (hdata : data ≠ [])
    (h : mabStep R F B data labels m epsilon withRep budget batch s = .ok (.next s')) :
    ∀ a ∈ hs.notCons, s'.ucb a = .pinf := by
  rcases mabStep_cases h with ⟨s1, h1, h2⟩ | ⟨s1, h1, h2⟩
  · cases h2
  · have hu1 : ∀ a ∈ hs.notCons, s1.ucb a = .pinf := by
      rcases mabExactPart_cases h1 with ⟨hr, _⟩ | ⟨hrep, ea, out, est, mu, ml, hea, _, hout, hest, _, _, hr⟩
      · cases hr
        exact hu
      · rcases hr with ⟨hr, _⟩ | ⟨hr, _⟩
        · cases hr
        · cases hr
          intro a ha
          show (if a ∈ ea then est a else s.ucb a) = _
          rw [if_neg]
          · exact hu a ha
          · rw [hea, mem_exactArms, (hi.notCons a ha).1]
            simp
    obtain ⟨I', hi'⟩ := hi.exactPart hm hb hdata hg h1
    simp only [Loop.state] at hi'
    rcases mabSamplePart_cases h2 with ⟨_, hr⟩ | ⟨_, _, hr⟩ | ⟨hlen, hne, out, est, cbd, hout, hest, hcbd, hr⟩
    · cases hr
    · cases hr
    · rcases hr with ⟨hr, _⟩ | ⟨hov, ml, mi, mu, e1, e2, e3, e4, hr⟩
      · cases hr
      · cases hr
        intro a ha
        show (if a ∈ s1.cands then _ else s1.ucb a) = _
        rw [if_neg]
        · exact hu1 a ha
        · intro hc
          exact hg.cand_not_notCons (hi'.sub a hc) ha

/-- What is known after a pass that continues. -/
theorem MabRound.facts {g : G} {glob : Glob G} {junk : Junk K} (hm : CritFits isCls m) (hb : BinningOK minmax d binType B)
    (h : MabRound R g glob junk data labels minmax d binType B isCls m epsilon withRep budget batch hs s s') :
    ∃ row rest I, data = row :: rest ∧ HistsGood R isCls data (nodeClasses isCls labels) minmax d binType row.length B hs ∧
      MabInv R isCls data labels m minmax d binType row.length B hs withRep I s' ∧ AllTouched row.length B hs s' ∧
      (∀ a ∈ hs.notCons, s'.ucb a = .pinf) ∧
      mabStep R row.length B data labels m epsilon withRep budget batch s = .ok (.next s') := by
  obtain ⟨row, rest, s0, hdata, hid, hmake, hinit, hhead, h5, hstep⟩ := h
  subst hdata
  have hg := makeHistograms_good hb hmake
  have hi := MabInv.init (m := m) hg hmake hinit
  obtain ⟨I, hI⟩ := hi.visited hm hb (by simp) hg (Or.inl (.step hhead h5 hstep))
  refine ⟨row, rest, I, rfl, hg, hI, head_touched hm hb (by simp) hg hmake hinit hhead h5 hstep, ?_, hstep⟩
  have : ∀ s, MabHead R row.length B (row :: rest) labels m epsilon withRep budget batch s0 s →
      ∀ a ∈ hs.notCons, s.ucb a = .pinf := by
    intro s hh
    induction hh with
    | init => exact fun a ha => ((mabInit_ok hinit).1 a ha).2.1
    | step hh' h5' hs' ih =>
      obtain ⟨I', hI'⟩ := hi.visited hm hb (by simp) hg (Or.inl hh')
      exact step_notCons_ucb hg hI' ih hm hb (by simp) hs'
  exact this s' (.step hhead h5 hstep)

/-- With `epsilon = 0` the threshold on the estimates removes nothing. -/
theorem MabInv.est_min (hi : MabInv R isCls data labels m minmax d binType F B hs withRep I s) (ht : AllTouched F B hs s)
    {mi : Nat} (hmi : XF.argmin (flatMat F B s.est) = some mi) {a : Arm} (ha : a ∈ allArms F B) :
    (s.est a).lt ((XF.fin (1 - (0 : K))).mul (s.est ((allArms F B).getD mi (0, 0)))) = false := by
  have hval : ∀ x ∈ allArms F B, (s.est x = .pinf ∨ ∃ e, s.est x = .fin e) := by
    intro x hx
    rcases ht x hx with h | h
    · exact Or.inl (hi.notCons x h).2.1
    · obtain ⟨e, he, _⟩ := hi.touched x h
      exact Or.inr ⟨e, he⟩
  obtain ⟨hlt, hmin⟩ := XF.argmin_spec hmi (by
    intro y hy
    obtain ⟨x, hx, rfl⟩ := List.mem_map.1 hy
    rcases hval x hx with h | ⟨e, h⟩ <;> rw [h] <;> rfl)
  have hlt' : mi < (allArms F B).length := by simpa [flatMat] using hlt
  have hmem : (allArms F B).getD mi (0, 0) ∈ allArms F B := by
    rw [List.getD_eq_getElem _ _ hlt']; exact List.getElem_mem hlt'
  have hge : (flatMat F B s.est)[mi] = s.est ((allArms F B).getD mi (0, 0)) := by
    simp only [flatMat, List.getElem_map]
    rw [List.getD_eq_getElem _ _ hlt']
  have h1 := hmin (s.est a) (List.mem_map.2 ⟨a, ha, rfl⟩)
  rw [hge] at h1
  rcases hval _ hmem with h | ⟨e, h⟩
  · rw [h] at h1 ⊢
    simpa [XF.mul, XF.signInf] using h1
  · rw [h] at h1 ⊢
    simpa [XF.mul] using h1

end

end FF
