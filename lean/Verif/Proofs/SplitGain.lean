import Verif.Props.Memorise

/-!
# How much the best split gains

If the feature determines the label, then some threshold takes away at least the share `1 / n²` of the variance of `n` labels.
-/

namespace FF

open Spec

set_option linter.unusedSectionVars false

variable {K : Type} [Field K] [LinearOrder K] [IsStrictOrderedRing K] [FloorRing K] [NpFun K]

theorem sum_map_sub_const (ys : List K) (c : K) : (ys.map (fun y => y - c)).sum = ys.sum - (ys.length : K) * c := by
  induction ys with
  | nil => simp
  | cons y ys ih =>
    simp only [List.map_cons, List.sum_cons, List.length_cons, ih]
    push_cast
    ring

/-- What lies to the left of a threshold, measured from the mean, is bounded by what the threshold gains. -/
theorem left_sum_sq {S : List (K × K)} (hS : S ≠ []) {g : K} (hg : ∀ v, -((S.length : K) * change variance S v) ≤ g) (v : K) :
    4 * ((labelsLe S v).map (fun y => y - mean (S.map Prod.snd))).sum ^ 2 ≤ (S.length : K) * g := by
  have hp := labels_perm S v
  have h1 := variance_append (labelsLe S v) (labelsGt S v)
  have h2 := len_mul_mean_append (labelsLe S v) (labelsGt S v)
  rw [← variance_perm hp, ← hp.length_eq, List.length_map] at h1
  have hm : mean (labelsLe S v ++ labelsGt S v) = mean (S.map Prod.snd) := by
    unfold mean
    rw [← hp.sum_eq, ← hp.length_eq]
  rw [hm, ← hp.length_eq, List.length_map] at h2
  have h3 : ((labelsLe S v).length : K) + ((labelsGt S v).length : K) = (S.length : K) := by
    have := hp.length_eq
    rw [List.length_append, List.length_map] at this
    exact_mod_cast this.symm
  have h4 := hg v
  unfold change at h4
  have hn : (0 : K) < (S.length : K) := by exact_mod_cast List.length_pos_iff.2 hS
  rw [sum_map_sub_const, ← sum_eq_mean (labelsLe S v)]
  have ha : (0 : K) ≤ ((labelsLe S v).length : K) := Nat.cast_nonneg _
  have hb : (0 : K) ≤ ((labelsGt S v).length : K) := Nat.cast_nonneg _
  set n := (S.length : K)
  set a := ((labelsLe S v).length : K)
  set b := ((labelsGt S v).length : K)
  set p := mean (labelsLe S v)
  set q := mean (labelsGt S v)
  set μ := mean (S.map Prod.snd)
  set V := variance (S.map Prod.snd)
  set A := variance (labelsLe S v)
  set B := variance (labelsGt S v)
  have h5 : -(n * (a / n * A + b / n * B - V)) = (p - q) ^ 2 * (a * b) / n := by
    have e : n * (a / n * A + b / n * B - V) = a * A + b * B - n * V := by
      field_simp
    rw [e, h1]
    ring
  rw [h5] at h4
  have h6 : a * p - a * μ = a * b * (p - q) / n := by
    have : μ = (a * p + b * q) / n := by
      field_simp
      linarith
    rw [this]
    field_simp
    rw [← h3]
    ring
  rw [h6]
  have h7 : 4 * (a * b) ≤ n ^ 2 := by
    rw [← h3]
    nlinarith [sq_nonneg (a - b)]
  have h8 : 0 ≤ (p - q) ^ 2 * (a * b) / n := by positivity
  calc 4 * (a * b * (p - q) / n) ^ 2 = 4 * (a * b) * ((p - q) ^ 2 * (a * b) / n) / n := by field_simp
    _ ≤ n ^ 2 * ((p - q) ^ 2 * (a * b) / n) / n := by
        apply div_le_div_of_nonneg_right _ hn.le
        exact mul_le_mul_of_nonneg_right h7 h8
    _ = n * ((p - q) ^ 2 * (a * b) / n) := by field_simp
    _ ≤ n * g := mul_le_mul_of_nonneg_left h4 hn.le

/-- The same for what lies strictly below a value. -/
theorem below_sum_sq {S : List (K × K)} (hS : S ≠ []) {g : K} (hg : ∀ v, -((S.length : K) * change variance S v) ≤ g) (x : K) :
    4 * ((S.filter (fun s => decide (s.1 < x))).map (fun s => s.2 - mean (S.map Prod.snd))).sum ^ 2 ≤ (S.length : K) * g := by
  by_cases h : ∃ s ∈ S, s.1 < x
  · obtain ⟨m, hm, hlt, hmax⟩ := exists_least (S.map (fun s => (-s.1, s.2))) (fun s => -s.1 < x) (by
      obtain ⟨s, hs, hx⟩ := h
      exact ⟨_, List.mem_map.2 ⟨s, hs, rfl⟩, by simpa using hx⟩)
    have e : S.filter (fun s => decide (s.1 < x)) = S.filter (fun s => decide (s.1 ≤ -m.1)) := by
      apply List.filter_congr
      intro s hs
      rw [decide_eq_decide]
      constructor
      · intro hx
        have := hmax (-s.1, s.2) (List.mem_map.2 ⟨s, hs, rfl⟩) (by simpa using hx)
        exact le_neg.1 this
      · intro hx
        exact lt_of_le_of_lt hx hlt
    have := left_sum_sq hS hg (-m.1)
    unfold labelsLe at this
    rw [List.map_map] at this
    rw [e]
    exact this
  · have e : S.filter (fun s => decide (s.1 < x)) = [] := by
      rw [List.filter_eq_nil_iff]
      intro s hs hx
      exact h ⟨s, hs, by simpa using hx⟩
    rw [e]
    have h0 := left_sum_sq hS hg 0
    refine le_trans ?_ h0
    simp only [List.map_nil, List.sum_nil]
    have := sq_nonneg ((labelsLe S 0).map (fun y => y - mean (S.map Prod.snd))).sum
    linarith [zero_pow (M₀ := K) two_ne_zero]

theorem sum_map_le_const {α : Type} (l : List α) (f : α → K) (c : K) (h : ∀ a ∈ l, f a ≤ c) : (l.map f).sum ≤ (l.length : K) * c := by
  induction l with
  | nil => simp
  | cons a l ih =>
    have h1 := h a (List.mem_cons_self ..)
    have h2 := ih (fun b hb => h b (List.mem_cons_of_mem _ hb))
    simp only [List.map_cons, List.sum_cons, List.length_cons]
    push_cast
    linarith

/-- If no threshold gains more than `g`, the squares around the mean add up to at most `n² · g`. -/
theorem variance_le_gain {S : List (K × K)} (hS : S ≠ []) (hd : Determines S) {g : K}
    (hg : ∀ v, -((S.length : K) * change variance S v) ≤ g) :
    (S.length : K) * variance (S.map Prod.snd) ≤ (S.length : K) ^ 2 * g := by
  have hlen : (S.length : K) * variance (S.map Prod.snd) = (S.map (fun s => (s.2 - mean (S.map Prod.snd)) ^ 2)).sum := by
    have h1 := sum_eq_mean ((S.map Prod.snd).map (fun y => (y - mean (S.map Prod.snd)) ^ 2))
    rw [List.length_map, List.length_map, List.map_map] at h1
    unfold variance
    rw [List.map_map]
    exact h1
  rw [hlen]
  have hone : ∀ s ∈ S, (s.2 - mean (S.map Prod.snd)) ^ 2 ≤ (S.length : K) * g := by
    intro s hs
    set μ := mean (S.map Prod.snd)
    have h1 : 4 * ((S.filter (fun s' => decide (s'.1 ≤ s.1))).map (fun s => s.2 - μ)).sum ^ 2 ≤ (S.length : K) * g := by
      have := left_sum_sq hS hg s.1
      unfold labelsLe at this
      rw [List.map_map] at this
      exact this
    have h2 := below_sum_sq hS hg s.1
    -- the samples with the value of `s`
    have h3 : ∀ l : List (K × K), ((l.filter (fun s' => decide (s'.1 ≤ s.1))).map (fun s => s.2 - μ)).sum =
        ((l.filter (fun s' => decide (s'.1 < s.1))).map (fun s => s.2 - μ)).sum +
        ((l.filter (fun s' => decide (s'.1 = s.1))).map (fun s => s.2 - μ)).sum := by
      intro l
      induction l with
      | nil => simp
      | cons a l ih =>
        rcases lt_trichotomy a.1 s.1 with h | h | h
        · simp only [List.filter_cons, h.le, h, h.ne, decide_true, decide_false, if_true, List.map_cons, List.sum_cons, ih]
          simp only [Bool.false_eq_true, if_false]
          ring
        · simp only [List.filter_cons, h, le_refl, lt_irrefl, decide_true, decide_false, if_true, List.map_cons, List.sum_cons, ih]
          simp only [Bool.false_eq_true, if_false]
          ring
        · simp only [List.filter_cons, not_le.2 h, not_lt.2 h.le, h.ne', decide_false, Bool.false_eq_true, if_false, ih]
    have h4 : ((S.filter (fun s' => decide (s'.1 = s.1))).map (fun s => s.2 - μ)).sum =
        ((S.filter (fun s' => decide (s'.1 = s.1))).length : K) * (s.2 - μ) := by
      have e : (S.filter (fun s' => decide (s'.1 = s.1))).map (fun s => s.2 - μ) =
          (S.filter (fun s' => decide (s'.1 = s.1))).map (fun _ => s.2 - μ) := by
        apply List.map_congr_left
        intro s' hs'
        obtain ⟨m1, m2⟩ := List.mem_filter.1 hs'
        rw [hd s' m1 s hs (by simpa using m2)]
      rw [e]
      simp
    have h5 : (1 : K) ≤ ((S.filter (fun s' => decide (s'.1 = s.1))).length : K) := by
      have : 0 < (S.filter (fun s' => decide (s'.1 = s.1))).length :=
        List.length_pos_of_mem (List.mem_filter.2 ⟨hs, by simp⟩)
      exact_mod_cast this
    have h6 := h3 S
    rw [h4] at h6
    set P := ((S.filter (fun s' => decide (s'.1 ≤ s.1))).map (fun s => s.2 - μ)).sum
    set Q := ((S.filter (fun s' => decide (s'.1 < s.1))).map (fun s => s.2 - μ)).sum
    set c := ((S.filter (fun s' => decide (s'.1 = s.1))).length : K)
    have h7 : (s.2 - μ) ^ 2 ≤ (c * (s.2 - μ)) ^ 2 := by
      rw [mul_pow]
      have : 1 ≤ c ^ 2 := one_le_pow₀ h5
      nlinarith [sq_nonneg (s.2 - μ)]
    have h8 : c * (s.2 - μ) = P - Q := by linarith
    rw [h8] at h7
    nlinarith [sq_nonneg (P + Q)]
  have := sum_map_le_const S _ _ hone
  refine le_trans this (le_of_eq ?_)
  ring

end FF
