import Verif.Proofs.HistRep
import Verif.Spec.Merge
import Mathlib.Tactic.LinearCombination

/-! # Variance of a union, correctness of the Welford update -/

set_option linter.unusedSectionVars false

namespace FF

open Spec

variable {K : Type} [Field K] [LinearOrder K] [IsStrictOrderedRing K] [FloorRing K] {G : Type}

theorem sum_sq_sub (ys : List K) (c : K) :
    (ys.map (fun y => (y - c) ^ 2)).sum = (ys.map (fun y => y ^ 2)).sum - 2 * c * ys.sum + (ys.length : K) * c ^ 2 := by
  induction ys with
  | nil => simp
  | cons y ys ih =>
    simp only [List.map_cons, List.sum_cons, List.length_cons, ih]
    push_cast
    ring

theorem len_mul_variance (ys : List K) :
    (ys.length : K) * variance ys = (ys.map (fun y => y ^ 2)).sum - (ys.length : K) * mean ys ^ 2 := by
  have h1 : (ys.length : K) * variance ys = (ys.map (fun y => (y - mean ys) ^ 2)).sum := by
    have := sum_eq_mean (ys.map (fun y => (y - mean ys) ^ 2))
    rw [List.length_map] at this
    exact this
  rw [h1, sum_sq_sub, ← sum_eq_mean ys]
  ring

theorem len_mul_mean_append (a b : List K) :
    ((a ++ b).length : K) * mean (a ++ b) = (a.length : K) * mean a + (b.length : K) * mean b := by
  rw [sum_eq_mean, sum_eq_mean, sum_eq_mean, List.sum_append]

/-- Variance of a union. -/
theorem variance_append (a b : List K) :
    ((a ++ b).length : K) * variance (a ++ b)
      = (a.length : K) * variance a + (b.length : K) * variance b
        + (mean a - mean b) ^ 2 * ((a.length : K) * b.length) / ((a ++ b).length : K) := by
  rcases eq_or_ne (a ++ b) [] with h | h
  · rw [List.append_eq_nil_iff] at h
    simp [h.1, h.2]
  · have hpos : (0 : K) < ((a ++ b).length : K) := by exact_mod_cast List.length_pos_iff.2 h
    have hm := len_mul_mean_append a b
    rw [len_mul_variance, len_mul_variance, len_mul_variance]
    rw [List.map_append, List.sum_append]
    have hn : ((a ++ b).length : K) = (a.length : K) + b.length := by push_cast [List.length_append]; rfl
    set n := ((a ++ b).length : K)
    set p := (a.length : K)
    set q := (b.length : K)
    set m := mean (a ++ b)
    set u := mean a
    set v := mean b
    have hn0 : n ≠ 0 := hpos.ne'
    have hmm : m = (p * u + q * v) / n := by field_simp; linarith
    rw [hmm]
    field_simp
    rw [hn]
    ring

theorem variance_perm {a b : List K} (h : a.Perm b) : variance a = variance b := by
  have hm : mean a = mean b := by unfold mean; rw [h.sum_eq, h.length_eq]
  unfold variance
  rw [hm]
  have h2 : (a.map (fun y => (y - mean b) ^ 2)).Perm (b.map (fun y => (y - mean b) ^ 2)) := h.map _
  unfold mean at h2 ⊢
  rw [h2.sum_eq, h2.length_eq]

theorem update_var {p : Pile K} {ys cur : List K} (h : PileRep p ys) (hv : p.var = variance ys)
    (hnz : ys ≠ [] → variance ys ≠ 0) (hc : cur ≠ [] → variance cur ≠ 0) :
    (updateBins p cur).var = variance (ys ++ cur) ∧ (ys ++ cur ≠ [] → variance (ys ++ cur) ≠ 0) := by
  rcases eq_or_ne cur [] with rfl | hcur
  · simp only [List.append_nil]
    exact ⟨by simpa [updateBins] using hv, hnz⟩
  · rcases eq_or_ne ys [] with rfl | hys
    · rw [h.zero rfl, update_zero_var, List.nil_append]
      exact ⟨rfl, hc⟩
    · have h1 := hnz hys
      have h2 := hc hcur
      have hp : (0 : K) < (ys.length : K) := by exact_mod_cast List.length_pos_iff.2 hys
      have hq : (0 : K) < (cur.length : K) := by exact_mod_cast List.length_pos_iff.2 hcur
      have hva := variance_append ys cur
      have hn : ((ys ++ cur).length : K) = (ys.length : K) + cur.length := by push_cast [List.length_append]; rfl
      have hn0 : (0 : K) < (ys.length : K) + cur.length := by linarith
      have hlen : ¬ cur.length = 0 := by simpa using hcur
      constructor
      · unfold updateBins
        rw [if_neg hlen]
        simp only []
        unfold welford
        rw [npVar_eq, hv, if_neg h1, if_neg h2]
        simp only []
        rw [h.n, h.mean, show npMean cur = mean cur from rfl, div_eq_iff hn0.ne', ← hn, mul_comm (variance (ys ++ cur)), hva]
        ring
      · intro _ h0
        rw [h0, mul_zero] at hva
        have a1 : 0 < variance ys := lt_of_le_of_ne (variance_nonneg _) (Ne.symm h1)
        have a2 := variance_nonneg cur
        have a3 : 0 ≤ (mean ys - mean cur) ^ 2 * ((ys.length : K) * cur.length) / ((ys ++ cur).length : K) := by positivity
        have a4 : 0 < (ys.length : K) * variance ys := mul_pos hp a1
        have a5 : 0 ≤ (cur.length : K) * variance cur := by positivity
        linarith

theorem update_var_iff {p : Pile K} {ys cur : List K} (h : PileRep p ys) (hv : p.var = variance ys) :
    (updateBins p cur).var = variance (ys ++ cur) ↔ Mergeable ys cur := by
  rcases eq_or_ne cur [] with rfl | hcur
  · simp only [List.append_nil]
    exact ⟨fun _ => Or.inr (Or.inl rfl), fun _ => by simpa [updateBins] using hv⟩
  rcases eq_or_ne ys [] with rfl | hys
  · rw [h.zero rfl, update_zero_var, List.nil_append]
    exact ⟨fun _ => Or.inl rfl, fun _ => rfl⟩
  have hp : (0 : K) < (ys.length : K) := by exact_mod_cast List.length_pos_iff.2 hys
  have hq : (0 : K) < (cur.length : K) := by exact_mod_cast List.length_pos_iff.2 hcur
  have hva := variance_append ys cur
  have hn : ((ys ++ cur).length : K) = (ys.length : K) + cur.length := by push_cast [List.length_append]; rfl
  have hn0 : (0 : K) < (ys.length : K) + cur.length := by linarith
  have hlen : ¬ cur.length = 0 := by simpa using hcur
  have hvar : (updateBins p cur).var
      = if variance ys = 0 then variance cur else if variance cur = 0 then variance ys else variance (ys ++ cur) := by
    by_cases h1 : variance ys = 0
    · rw [if_pos h1]
      unfold updateBins
      rw [if_neg hlen]
      simp only []
      unfold welford
      rw [npVar_eq, hv, if_pos h1]
    · by_cases h2 : variance cur = 0
      · rw [if_neg h1, if_pos h2]
        unfold updateBins
        rw [if_neg hlen]
        simp only []
        unfold welford
        rw [npVar_eq, hv, if_neg h1, if_pos h2]
      · rw [if_neg h1, if_neg h2]
        exact (update_var h hv (fun _ => h1) (fun _ => h2)).1
  rw [hvar]
  rw [hn] at hva
  unfold Mergeable
  set n1 := (ys.length : K)
  set n2 := (cur.length : K)
  set D := (mean ys - mean cur) ^ 2
  set V := variance (ys ++ cur)
  have key : (n1 + n2) * ((n1 + n2) * V) = (n1 + n2) * (n1 * variance ys + n2 * variance cur) + D * (n1 * n2) := by
    rw [hva]; field_simp
  by_cases h1 : variance ys = 0
  · rw [if_pos h1]
    rw [h1] at key
    constructor
    · intro e
      refine Or.inr (Or.inr (Or.inr (Or.inl ⟨h1, ?_⟩)))
      rw [← e] at key
      apply mul_left_cancel₀ hp.ne'
      linear_combination -key
    · rintro (e | e | e | ⟨_, e⟩ | ⟨e2, e⟩)
      · exact absurd e hys
      · exact absurd e hcur
      · exact absurd h1 e.1
      · apply mul_left_cancel₀ hn0.ne'
        apply mul_left_cancel₀ hn0.ne'
        linear_combination -n1 * e - key
      · rw [h1, mul_zero] at e
        rw [e2] at key ⊢
        apply mul_left_cancel₀ hn0.ne'
        apply mul_left_cancel₀ hn0.ne'
        linear_combination -n2 * e - key
  · rw [if_neg h1]
    by_cases h2 : variance cur = 0
    · rw [if_pos h2]
      rw [h2] at key
      constructor
      · intro e
        refine Or.inr (Or.inr (Or.inr (Or.inr ⟨h2, ?_⟩)))
        rw [← e] at key
        apply mul_left_cancel₀ hq.ne'
        linear_combination -key
      · rintro (e | e | e | ⟨e, _⟩ | ⟨_, e⟩)
        · exact absurd e hys
        · exact absurd e hcur
        · exact absurd h2 e.2
        · exact absurd e h1
        · apply mul_left_cancel₀ hn0.ne'
          apply mul_left_cancel₀ hn0.ne'
          linear_combination -n2 * e - key
    · rw [if_neg h2]
      exact ⟨fun _ => Or.inr (Or.inr (Or.inl ⟨h1, h2⟩)), fun _ => rfl⟩

/-- Splitting labels in two groups does not increase the weighted variance. -/
theorem variance_change_nonpos (a b c : List K) (hp : c.Perm (a ++ b)) :
    (a.length : K) / (c.length : K) * variance a + (b.length : K) / (c.length : K) * variance b - variance c ≤ 0 := by
  rcases eq_or_ne c [] with h | h
  · subst h
    simp [variance, mean]
  · have hpos : (0 : K) < (c.length : K) := by exact_mod_cast List.length_pos_iff.2 h
    have hva := variance_append a b
    rw [← variance_perm hp, ← hp.length_eq] at hva
    have hr : 0 ≤ (mean a - mean b) ^ 2 * ((a.length : K) * b.length) / (c.length : K) := by positivity
    have : (a.length : K) / (c.length : K) * variance a + (b.length : K) / (c.length : K) * variance b - variance c
        = -((mean a - mean b) ^ 2 * ((a.length : K) * b.length) / (c.length : K)) / (c.length : K) := by
      field_simp
      field_simp at hva
      linarith
    rw [this]
    exact div_nonpos_of_nonpos_of_nonneg (by linarith) hpos.le

theorem labels_perm (S : List (K × K)) (t : K) : (S.map Prod.snd).Perm (labelsLe S t ++ labelsGt S t) := by
  unfold labelsLe labelsGt
  rw [← List.map_append]
  apply List.Perm.map
  have := (List.filter_append_perm (fun s : K × K => decide (s.1 ≤ t)) S).symm
  refine this.trans (List.Perm.append_left _ (List.Perm.of_eq ?_))
  apply List.filter_congr
  intro x _
  by_cases hx : x.1 ≤ t
  · simp [hx]
  · simp [hx, not_le.1 hx]

theorem length_labels (S : List (K × K)) (t : K) : (labelsLe S t).length + (labelsGt S t).length = S.length := by
  have := (labels_perm S t).length_eq
  simp at this
  omega

theorem reg_add_piles {h h' : Hist K} {edges : List K} {S : List (K × K)} {X : List (List K)} {Y : List K}
    (hr : RegRep h edges S) (hadd : h.add X Y = .ok h') (b : Nat) (hb : b < edges.length) :
    h'.leftPile.getD b Pile.zero
        = updateBins (h.leftPile.getD b Pile.zero) (labelsLe (batchSamples h.featureIdx (X, Y)) edges[b]) ∧
    h'.rightPile.getD b Pile.zero
        = updateBins (h.rightPile.getD b Pile.zero) (labelsGt (batchSamples h.featureIdx (X, Y)) edges[b]) := by
  obtain ⟨hlen, _, bins, hbins, rfl⟩ := add_reg_ok hr.isReg hr.edges_eq hadd
  have hlb : b < h.numBins := by rw [← hr.good.1]; exact hb
  constructor
  · show (List.mapIdx _ _).getD b Pile.zero = _
    rw [getD_mapIdx _ _ _ (by rw [hr.lenL]; exact hlb) Pile.zero, hbins, maskSel_le hr.good _ _ b hb]
    rfl
  · show (List.mapIdx _ _).getD b Pile.zero = _
    rw [getD_mapIdx _ _ _ (by rw [hr.lenR]; exact hlb) Pile.zero, hbins, maskSel_gt hr.good _ _ b hb]
    rfl

/-- Every non-empty batch part on this side of the edge has a non-zero variance. -/
def Spread (parts : List (List K)) : Prop := ∀ p ∈ parts, p ≠ [] → variance p ≠ 0

theorem reg_addAll_var {h h' : Hist K} {edges : List K} {S : List (K × K)} (Bs : List (List (List K) × List K))
    (hr : RegRep h edges S) (hadd : h.addAll Bs = .ok h') (b : Nat) (hb : b < edges.length) :
    ((h.leftPile.getD b Pile.zero).var = variance (labelsLe S edges[b]) →
      (labelsLe S edges[b] ≠ [] → variance (labelsLe S edges[b]) ≠ 0) →
      Spread (Bs.map (fun B => labelsLe (batchSamples h.featureIdx B) edges[b])) →
      (h'.leftPile.getD b Pile.zero).var = variance (labelsLe (S ++ samplesOf h.featureIdx Bs) edges[b])) ∧
    ((h.rightPile.getD b Pile.zero).var = variance (labelsGt S edges[b]) →
      (labelsGt S edges[b] ≠ [] → variance (labelsGt S edges[b]) ≠ 0) →
      Spread (Bs.map (fun B => labelsGt (batchSamples h.featureIdx B) edges[b])) →
      (h'.rightPile.getD b Pile.zero).var = variance (labelsGt (S ++ samplesOf h.featureIdx Bs) edges[b])) := by
  induction Bs generalizing h S with
  | nil => cases hadd; simpa [samplesOf] using ⟨fun a _ _ => a, fun a _ _ => a⟩
  | cons B Bs ih =>
    unfold Hist.addAll at hadd
    split at hadd
    · cases hadd
    · next h1 hh =>
      obtain ⟨r1, e1, _, _⟩ := hr.add hh
      obtain ⟨iL, iR⟩ := ih r1 hadd
      obtain ⟨pL, pR⟩ := reg_add_piles hr hh b hb
      have hs : S ++ samplesOf h.featureIdx (B :: Bs)
          = (S ++ batchSamples h.featureIdx B) ++ samplesOf h1.featureIdx Bs := by simp [samplesOf, e1]
      rw [hs]
      constructor
      · intro a1 a2 a3
        obtain ⟨u1, u2⟩ := update_var (cur := labelsLe (batchSamples h.featureIdx B) edges[b]) (hr.left b hb) a1 a2
          (a3 _ (by simp))
        refine iL ?_ ?_ ?_
        · rw [pL, labelsLe_append]; exact u1
        · rw [labelsLe_append]; exact u2
        · rw [e1]; exact fun p hp => a3 p (by simp only [List.map_cons, List.mem_cons]; exact Or.inr hp)
      · intro a1 a2 a3
        obtain ⟨u1, u2⟩ := update_var (cur := labelsGt (batchSamples h.featureIdx B) edges[b]) (hr.right b hb) a1 a2
          (a3 _ (by simp))
        refine iR ?_ ?_ ?_
        · rw [pR, labelsGt_append]; exact u1
        · rw [labelsGt_append]; exact u2
        · rw [e1]; exact fun p hp => a3 p (by simp only [List.map_cons, List.mem_cons]; exact Or.inr hp)

end FF
