import Verif.Proofs.Mab
import Verif.Spec.Loop
import Mathlib.Algebra.BigOperators.Group.List.Basic
import Mathlib.Algebra.Order.BigOperators.Group.List

/-!
# `solve_mab`: the whole loop, termination
-/

namespace FF

open Spec

set_option linter.unusedSectionVars false

variable {K : Type} [Field K] [LinearOrder K] [IsStrictOrderedRing K] [FloorRing K] [NpFun K] {G : Type}

section
variable {R : Rng K G} {isCls : Bool} {data : List (List K)} {labels : List K} {m : Criterion}
    {minmax : Option (List K × List K)} {d : DiscDict K} {binType : Option BinType} {F B : Nat} {hs : Hists K G}
    {withRep : Bool} {I : Nat → List Nat} {s s0 s' : MabState K G} {epsilon : K} {budget : Option Int} {batch : Nat}
    {classes : List K}

theorem MabInv.visited (hm : CritFits isCls m) (hb : BinningOK minmax d binType B) (hdata : data ≠ [])
    (hg : HistsGood R isCls data classes minmax d binType F B hs)
    (hi : MabInv R isCls data labels m minmax d binType F B hs withRep I s0)
    (hv : MabVisited R F B data labels m epsilon withRep budget batch s0 s) :
    ∃ I', MabInv R isCls data labels m minmax d binType F B hs withRep I' s := by
  have head : ∀ s, MabHead R F B data labels m epsilon withRep budget batch s0 s →
      ∃ I', MabInv R isCls data labels m minmax d binType F B hs withRep I' s := by
    intro s h
    induction h with
    | init => exact ⟨I, hi⟩
    | step h h5 hs' ih =>
      obtain ⟨I', hi'⟩ := ih
      exact hi'.step hm hb hdata hg hs'
  rcases hv with h | ⟨s1, h, h5, hs'⟩
  · exact head s h
  · obtain ⟨I', hi'⟩ := head s1 h
    exact hi'.step hm hb hdata hg hs'

theorem MabHead.trans {s1 s2 : MabState K G} (h1 : MabHead R F B data labels m epsilon withRep budget batch s0 s1)
    (h2 : MabHead R F B data labels m epsilon withRep budget batch s1 s2) :
    MabHead R F B data labels m epsilon withRep budget batch s0 s2 := by
  induction h2 with
  | init => exact h1
  | step h h5 hs' ih => exact .step ih h5 hs'

theorem MabRuns.visited {n : Nat} (h : MabRuns R F B data labels m epsilon withRep budget batch s0 n (.ok s)) :
    MabVisited R F B data labels m epsilon withRep budget batch s0 s := by
  generalize hr : (Except.ok s : Except Err (MabState K G)) = r at h
  induction h with
  | stop h5 => cases hr; exact Or.inl .init
  | raise h5 hs' => cases hr
  | leave h5 hs' => cases hr; exact Or.inr ⟨_, .init, h5, hs'⟩
  | again h5 hs' hr' ih =>
    rcases ih hr with h | ⟨s1, h, h5', hs1⟩
    · exact Or.inl (MabHead.trans (.step .init h5 hs') h)
    · exact Or.inr ⟨s1, MabHead.trans (.step .init h5 hs') h, h5', hs1⟩

/-- The bounded loop agrees with the relation as soon as the bound is large enough. -/
theorem mabLoop_of_runs {n : Nat} {r : Except Err (MabState K G)}
    (h : MabRuns R F B data labels m epsilon withRep budget batch s n r) (fuel : Nat) (hf : n ≤ fuel) :
    mabLoop R F B data labels m epsilon withRep budget batch fuel s = r := by
  induction h generalizing fuel with
  | stop h5 =>
    cases fuel with
    | zero => simp [mabLoop, h5]
    | succ k => simp [mabLoop, h5]
  | raise h5 hs' =>
    obtain ⟨k, rfl⟩ := Nat.exists_eq_succ_of_ne_zero (by omega : fuel ≠ 0)
    simp [mabLoop, h5, hs']
  | leave h5 hs' =>
    obtain ⟨k, rfl⟩ := Nat.exists_eq_succ_of_ne_zero (by omega : fuel ≠ 0)
    simp [mabLoop, h5, hs']
  | again h5 hs' hr ih =>
    obtain ⟨k, rfl⟩ := Nat.exists_eq_succ_of_ne_zero (by omega : fuel ≠ 0)
    simp only [mabLoop, gt_iff_lt, h5, if_true, hs']
    exact ih k (by omega)

/-- A loop whose passes decrease a measure ends within that many passes. -/
theorem runs_of_measure (P : MabState K G → Prop) (μ : MabState K G → Nat)
    (hstep : ∀ s s', P s → 5 < s.cands.length →
      mabStep R F B data labels m epsilon withRep budget batch s = .ok (.next s') → P s' ∧ μ s' < μ s) :
    ∀ (k : Nat) (s : MabState K G), P s → μ s ≤ k →
      ∃ n r, n ≤ k + 1 ∧ MabRuns R F B data labels m epsilon withRep budget batch s n r := by
  intro k
  induction k with
  | zero =>
    intro s hP hk
    by_cases h5 : 5 < s.cands.length
    · cases hs' : mabStep R F B data labels m epsilon withRep budget batch s with
      | error e => exact ⟨1, _, by omega, .raise h5 hs'⟩
      | ok l =>
        cases l with
        | done s' => exact ⟨1, _, by omega, .leave h5 hs'⟩
        | next s' =>
          have := (hstep s s' hP h5 hs').2
          omega
    · exact ⟨0, _, by omega, .stop h5⟩
  | succ k ih =>
    intro s hP hk
    by_cases h5 : 5 < s.cands.length
    · cases hs' : mabStep R F B data labels m epsilon withRep budget batch s with
      | error e => exact ⟨1, _, by omega, .raise h5 hs'⟩
      | ok l =>
        cases l with
        | done s' => exact ⟨1, _, by omega, .leave h5 hs'⟩
        | next s' =>
          obtain ⟨hP', hlt⟩ := hstep s s' hP h5 hs'
          obtain ⟨n, r, hn, hr⟩ := ih s' hP' (by omega)
          exact ⟨n + 1, r, by omega, .again h5 hs' hr⟩
    · exact ⟨0, _, by omega, .stop h5⟩

/-! ### Measures -/

/-- Without replacement: the number of rows left. -/
def popLen (s : MabState K G) : Nat := (s.pop.getD []).length

/-- Fresh candidates. Needs no fact about the histograms. -/
def CandsFresh (s : MabState K G) : Prop := s.cands.Nodup ∧ ∀ a ∈ s.cands, s.exact a = false

theorem popLen_step (hb : 0 < batch) (hp : s.pop ≠ none) (h5 : 5 < s.cands.length)
    (h : mabStep R F B data labels m epsilon false budget batch s = .ok (.next s')) :
    s'.pop ≠ none ∧ popLen s' < popLen s := by
  rcases mabStep_cases h with ⟨s1, h1, h2⟩ | ⟨s1, h1, h2⟩
  · cases h2
  · have e : s1 = s := by
      unfold mabExactPart at h1
      simp at h1
      exact h1.symm
    subst e
    rcases mabSamplePart_cases h2 with ⟨_, hr⟩ | ⟨_, _, hr⟩ | ⟨_, hne, out, est, cbd, hout, hest, hcbd, hr⟩
    · cases hr
    · cases hr
    · rcases hr with ⟨hr, _⟩ | ⟨_, ml, mi, mu, _, _, _, _, hr⟩
      · cases hr
      · cases hr
        obtain ⟨p, hp'⟩ := Option.ne_none_iff_exists'.1 hp
        have hdraw : ∃ idcs pop, drawSamples R s1.g data.length batch s1.pop = .ok (idcs, pop, out.pop, out.g) := by
          unfold sampleTargets at hout
          split at hout
          · cases hout
          · next idcs pop pop' g' hd =>
            split at hout
            · cases hout
            · split at hout
              · cases hout
              · split at hout
                · cases hout
                · cases hout
                  exact ⟨idcs, pop, hd⟩
        obtain ⟨idcs, pop, hd⟩ := hdraw
        rw [hp'] at hd hne
        obtain ⟨_, q, hq, hperm, hlen⟩ := drawSamples_norep hd
        have hp0 : 0 < p.length := by
          apply List.length_pos_of_ne_nil
          rintro rfl
          exact hne rfl
        have := hperm.length_eq
        rw [List.length_append] at this
        refine ⟨by simp [afterSample, hq], ?_⟩
        simp only [popLen, afterSample, hq, hp', Option.getD_some]
        omega

/-- With replacement: samples missing before the arms are computed exactly. -/
def missing (F B N : Nat) (s : MabState K G) : Nat :=
  ((allArms F B).map (fun a => if s.exact a then 0 else N - s.numSamples a)).sum

theorem sum_nat_lt {l : List Arm} {f g : Arm → Nat} (hle : ∀ a ∈ l, f a ≤ g a) (hlt : ∃ a ∈ l, f a < g a) :
    (l.map f).sum < (l.map g).sum := by
  induction l with
  | nil => obtain ⟨a, ha, _⟩ := hlt; simp at ha
  | cons x xs ih =>
    simp only [List.map_cons, List.sum_cons]
    have h0 := hle x List.mem_cons_self
    have hle' : ∀ a ∈ xs, f a ≤ g a := fun a ha => hle a (List.mem_cons_of_mem _ ha)
    obtain ⟨a, ha, hl⟩ := hlt
    rw [List.mem_cons] at ha
    rcases ha with rfl | ha
    · have : (xs.map f).sum ≤ (xs.map g).sum := List.sum_le_sum hle'
      omega
    · have := ih hle' ⟨a, ha, hl⟩
      omega

theorem sum_nat_le {l : List Arm} {f g : Arm → Nat} (hle : ∀ a ∈ l, f a ≤ g a) : (l.map f).sum ≤ (l.map g).sum :=
  List.sum_le_sum hle

theorem exactPart_missing {r : Loop (MabState K G)}
    (hc : ∀ a ∈ s.cands, s.exact a = false)
    (h : mabExactPart R F B data labels m true budget batch s = .ok r) :
    (∀ a ∈ r.state.cands, r.state.exact a = false) ∧
    missing F B data.length r.state ≤ missing F B data.length s ∧
    ∀ a ∈ r.state.cands, a ∈ allArms F B → r.state.numSamples a + batch < data.length := by
  rcases mabExactPart_cases h with ⟨rfl, he⟩ | ⟨hrep, ea, out, est, mu, ml, hea, _, hout, hest, _, _, hr⟩
  · refine ⟨hc, le_refl _, fun a ha hall => ?_⟩
    by_contra hcon
    have : a ∈ exactArms F B data.length batch s := mem_exactArms.2 ⟨hall, not_lt.1 hcon, hc a ha⟩
    rw [he rfl] at this
    simp at this
  · have hst : r.state = afterExact F B data.length s ea est mu out := by
      rcases hr with ⟨rfl, _⟩ | ⟨rfl, _⟩ <;> rfl
    rw [hst]
    refine ⟨?_, ?_, ?_⟩
    · intro a ha
      unfold afterExact at ha ⊢
      simp only [List.mem_filter, Bool.and_eq_true, Bool.not_eq_eq_eq_not, Bool.not_true] at ha
      exact ha.2.2
    · unfold missing
      apply sum_nat_le
      intro a ha
      unfold afterExact
      by_cases hmem : a ∈ ea
      · simp only [if_pos hmem, if_true]
        exact Nat.zero_le _
      · simp only [if_neg hmem]
        exact le_refl _
    · intro a ha hall
      unfold afterExact at ha ⊢
      simp only [List.mem_filter, Bool.and_eq_true, Bool.not_eq_eq_eq_not, Bool.not_true] at ha
      by_cases hmem : a ∈ ea
      · have := ha.2.2
        simp [hmem] at this
      · have hx := ha.2.2
        simp only [if_neg hmem] at hx ⊢
        by_contra hcon
        exact hmem (hea ▸ mem_exactArms.2 ⟨hall, not_lt.1 hcon, hx⟩)

/-- After a sampling step the candidates are not computed exactly. -/
theorem next_fresh (h : mabStep R F B data labels m epsilon withRep budget batch s = .ok (.next s')) :
    ∀ a ∈ s'.cands, s'.exact a = false := by
  rcases mabStep_cases h with ⟨s1, h1, h2⟩ | ⟨s1, h1, h2⟩
  · cases h2
  · rcases mabSamplePart_cases h2 with ⟨_, hr⟩ | ⟨_, _, hr⟩ | ⟨hlen, hne, out, est, cbd, hout, hest, hcbd, hr⟩
    · cases hr
    · cases hr
    · rcases hr with ⟨hr, _⟩ | ⟨_, ml, mi, mu, _, _, _, _, hr⟩
      · cases hr
      · cases hr
        intro a ha
        unfold nextCands at ha
        simp only [List.mem_filter, Bool.and_eq_true, Bool.not_eq_eq_eq_not, Bool.not_true] at ha
        exact ha.2.1.1.1

theorem missing_step (hb : 0 < batch) (hc : ∀ a ∈ s.cands, s.exact a = false)
    (h : mabStep R F B data labels m epsilon true budget batch s = .ok (.next s')) :
    (∀ a ∈ s'.cands, s'.exact a = false) ∧ missing F B data.length s' < missing F B data.length s := by
  rcases mabStep_cases h with ⟨s1, h1, h2⟩ | ⟨s1, h1, h2⟩
  · cases h2
  · obtain ⟨e1, e2, e3⟩ := exactPart_missing hc h1
    simp only [Loop.state] at e1 e2 e3
    rcases mabSamplePart_cases h2 with ⟨_, hr⟩ | ⟨_, _, hr⟩ | ⟨hlen, hne, out, est, cbd, hout, hest, hcbd, hr⟩
    · cases hr
    · cases hr
    · rcases hr with ⟨hr, _⟩ | ⟨_, ml, mi, mu, _, _, _, _, hr⟩
      · cases hr
      · cases hr
        constructor
        · intro a ha
          unfold nextCands at ha
          simp only [List.mem_filter, Bool.and_eq_true, Bool.not_eq_eq_eq_not, Bool.not_true] at ha
          exact ha.2.1.1.1
        · refine lt_of_lt_of_le ?_ e2
          have hin := (assignMat_ok hest).1
          unfold missing
          apply sum_nat_lt
          · intro a ha
            simp only [afterSample]
            by_cases hx : s1.exact a = true
            · simp [hx]
            · simp only [hx, Bool.false_eq_true, if_false]
              by_cases hmem : a ∈ s1.cands
              · simp only [if_pos hmem]; omega
              · simp only [if_neg hmem]; exact le_refl _
          · obtain ⟨a, ha⟩ := List.exists_mem_of_length_pos (by omega : 0 < s1.cands.length)
            have hall := mem_allArms.2 (hin a ha)
            refine ⟨a, hall, ?_⟩
            have := e3 a ha hall
            simp only [afterSample, e1 a ha, if_pos ha, Bool.false_eq_true, if_false]
            omega

theorem length_allArms (F B : Nat) : (allArms F B).length = F * B := by
  unfold allArms
  simp [List.length_flatMap]

theorem missing_le (N : Nat) : missing F B N s ≤ F * B * N := by
  unfold missing
  have : ((allArms F B).map (fun a => if s.exact a then 0 else N - s.numSamples a)).sum ≤ ((allArms F B).map (fun _ => N)).sum := by
    apply sum_nat_le
    intro a _
    split <;> omega
  refine le_trans this ?_
  rw [List.map_const', List.sum_replicate, length_allArms, smul_eq_mul]

/-- The loop ends, from any state. -/
theorem mab_terminates (hb : 0 < batch) (hp : withRep = false → s.pop ≠ none) :
    ∃ n r, n ≤ F * B * data.length + popLen s + 2 ∧
      MabRuns R F B data labels m epsilon withRep budget batch s n r := by
  cases withRep with
  | false =>
    obtain ⟨n, r, hn, hr⟩ := runs_of_measure (R := R) (F := F) (B := B) (data := data) (labels := labels) (m := m)
      (epsilon := epsilon) (withRep := false) (budget := budget) (batch := batch) (fun s => s.pop ≠ none) popLen
      (fun s s' h h5 hs' => popLen_step hb h h5 hs') (popLen s) s (hp rfl) (le_refl _)
    exact ⟨n, r, by omega, hr⟩
  | true =>
    have key := runs_of_measure (R := R) (F := F) (B := B) (data := data) (labels := labels) (m := m)
      (epsilon := epsilon) (withRep := true) (budget := budget) (batch := batch)
      (fun s => ∀ a ∈ s.cands, s.exact a = false) (missing F B data.length)
      (fun s s' h h5 hs' => missing_step hb h hs') (F * B * data.length)
    by_cases h5 : 5 < s.cands.length
    · cases hs' : mabStep R F B data labels m epsilon true budget batch s with
      | error e => exact ⟨1, _, by omega, .raise h5 hs'⟩
      | ok l =>
        cases l with
        | done s' => exact ⟨1, _, by omega, .leave h5 hs'⟩
        | next s' =>
          obtain ⟨n, r, hn, hr⟩ := key s' (next_fresh hs') (missing_le _)
          exact ⟨n + 1, r, by omega, .again h5 hs' hr⟩
    · exact ⟨0, _, by omega, .stop h5⟩

end

end FF
