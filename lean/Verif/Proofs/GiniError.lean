import Verif.Proofs.Sampling
import Verif.Proofs.Reductions
import Mathlib.Algebra.Order.Chebyshev
import Mathlib.Algebra.BigOperators.Group.Finset.Basic

/-!
# How far the change of the Gini impurity of a sample is from that of the population
-/

set_option linter.unusedSectionVars false

namespace FF

open Spec

variable {K : Type} [Field K] [LinearOrder K] [IsStrictOrderedRing K]

/-! ### A Lipschitz bound -/

/-- `Σ a²/Σ a` lies above its tangents. -/
theorem quad_tangent (C : Finset K) (a a' : K → K) (ha : ∀ c ∈ C, 0 ≤ a c) (ha' : ∀ c ∈ C, 0 ≤ a' c) :
    (∑ c ∈ C, a' c ^ 2) / (∑ c ∈ C, a' c) - (∑ c ∈ C, a c ^ 2) / (∑ c ∈ C, a c) ≤ 2 * ∑ c ∈ C, |a' c - a c| := by
  set b := ∑ c ∈ C, a c with hb
  set b' := ∑ c ∈ C, a' c with hb'
  have hb0 : 0 ≤ b := Finset.sum_nonneg ha
  have hb0' : 0 ≤ b' := Finset.sum_nonneg ha'
  have hR : 0 ≤ 2 * ∑ c ∈ C, |a' c - a c| := mul_nonneg (by norm_num) (Finset.sum_nonneg (fun _ _ => abs_nonneg _))
  rcases eq_or_lt_of_le hb0' with h0 | hpos'
  · rw [← h0, div_zero]
    have : 0 ≤ (∑ c ∈ C, a c ^ 2) / b := div_nonneg (Finset.sum_nonneg (fun _ _ => sq_nonneg _)) hb0
    linarith
  have hle' : ∀ c ∈ C, a' c ≤ b' := fun c hc => Finset.single_le_sum ha' hc
  -- the tangent at `a'`
  set s := (∑ c ∈ C, a' c ^ 2) / b' ^ 2 with hs
  have hs0 : 0 ≤ s := div_nonneg (Finset.sum_nonneg (fun _ _ => sq_nonneg _)) (sq_nonneg _)
  have hs1 : s ≤ 1 := by
    rw [hs, div_le_one (by positivity), pow_two, hb', Finset.sum_mul]
    exact Finset.sum_le_sum (fun c hc => by rw [pow_two]; exact mul_le_mul_of_nonneg_left (hle' c hc) (ha' c hc))
  have key : ∑ c ∈ C, (2 * (a' c / b') - s) * a c ≤ (∑ c ∈ C, a c ^ 2) / b := by
    rcases eq_or_lt_of_le hb0 with h0 | hpos
    · have hz : ∀ c ∈ C, a c = 0 := fun c hc => (Finset.sum_eq_zero_iff_of_nonneg ha).1 h0.symm c hc
      rw [Finset.sum_eq_zero (fun c hc => by rw [hz c hc, mul_zero]), ← h0, div_zero]
    · have h1 : 0 ≤ ∑ c ∈ C, (a c / b - a' c / b') ^ 2 := Finset.sum_nonneg (fun _ _ => sq_nonneg _)
      have h2 : ∑ c ∈ C, (a c / b - a' c / b') ^ 2
          = (∑ c ∈ C, a c ^ 2) / b ^ 2 - 2 * (∑ c ∈ C, a' c / b' * a c) / b + s := by
        have : ∀ c, (a c / b - a' c / b') ^ 2 = a c ^ 2 / b ^ 2 - 2 * (a' c / b' * a c) / b + a' c ^ 2 / b' ^ 2 := by
          intro c
          field_simp
          ring
        simp only [this]
        rw [Finset.sum_add_distrib, Finset.sum_sub_distrib, ← Finset.sum_div, ← Finset.sum_div, ← Finset.sum_div, ← Finset.mul_sum]
      have h3 : ∑ c ∈ C, (2 * (a' c / b') - s) * a c = 2 * (∑ c ∈ C, a' c / b' * a c) - s * b := by
        rw [hb, Finset.mul_sum, Finset.mul_sum, ← Finset.sum_sub_distrib]
        exact Finset.sum_congr rfl (fun c _ => by ring)
      rw [h2] at h1
      rw [h3]
      have h4 : 0 ≤ ((∑ c ∈ C, a c ^ 2) / b ^ 2 - 2 * (∑ c ∈ C, a' c / b' * a c) / b + s) * b := mul_nonneg h1 hb0
      have h5 : ((∑ c ∈ C, a c ^ 2) / b ^ 2 - 2 * (∑ c ∈ C, a' c / b' * a c) / b + s) * b
          = (∑ c ∈ C, a c ^ 2) / b - 2 * (∑ c ∈ C, a' c / b' * a c) + s * b := by
        have := hpos.ne'
        field_simp
      linarith
  have heq : (∑ c ∈ C, a' c ^ 2) / b' = ∑ c ∈ C, (2 * (a' c / b') - s) * a' c := by
    have h3 : ∑ c ∈ C, (2 * (a' c / b') - s) * a' c = 2 * ((∑ c ∈ C, a' c ^ 2) / b') - s * b' := by
      rw [hb', Finset.mul_sum, Finset.sum_div, Finset.mul_sum, ← Finset.sum_sub_distrib]
      exact Finset.sum_congr rfl (fun c _ => by ring)
    rw [h3, hs]
    have := hpos'.ne'
    field_simp
    ring
  calc (∑ c ∈ C, a' c ^ 2) / b' - (∑ c ∈ C, a c ^ 2) / b
      ≤ ∑ c ∈ C, (2 * (a' c / b') - s) * a' c - ∑ c ∈ C, (2 * (a' c / b') - s) * a c := by rw [heq]; linarith
    _ = ∑ c ∈ C, (2 * (a' c / b') - s) * (a' c - a c) := by
        rw [← Finset.sum_sub_distrib]
        exact Finset.sum_congr rfl (fun c _ => by ring)
    _ ≤ ∑ c ∈ C, 2 * |a' c - a c| := by
        refine Finset.sum_le_sum (fun c hc => ?_)
        refine (le_abs_self _).trans ?_
        rw [abs_mul]
        refine mul_le_mul_of_nonneg_right ?_ (abs_nonneg _)
        have h1 : 0 ≤ a' c / b' := div_nonneg (ha' c hc) hb0'
        have h2 : a' c / b' ≤ 1 := by rw [div_le_one hpos']; exact hle' c hc
        rw [abs_le]
        constructor <;> linarith
    _ = 2 * ∑ c ∈ C, |a' c - a c| := by rw [← Finset.mul_sum]

theorem quad_lipschitz (C : Finset K) (a a' : K → K) (ha : ∀ c ∈ C, 0 ≤ a c) (ha' : ∀ c ∈ C, 0 ≤ a' c) :
    |(∑ c ∈ C, a c ^ 2) / (∑ c ∈ C, a c) - (∑ c ∈ C, a' c ^ 2) / (∑ c ∈ C, a' c)| ≤ 2 * ∑ c ∈ C, |a c - a' c| := by
  rw [abs_le]
  constructor
  · have := quad_tangent C a a' ha ha'
    simp only [abs_sub_comm (a' _)] at this
    linarith
  · exact quad_tangent C a' a ha' ha

/-- The share of the samples with label `c` on the left (`true`) or right side of `t`. -/
def cellShare (X : List (K × K)) (t : K) (left : Bool) (c : K) : K :=
  (((if left then labelsLe X t else labelsGt X t).count c : Nat) : K) / (X.length : K)

theorem cellShare_nonneg (X : List (K × K)) (t : K) (left : Bool) (c : K) : 0 ≤ cellShare X t left c := by
  unfold cellShare; positivity

theorem sum_count_classes (C : Finset K) (ys : List K) (h : ∀ y ∈ ys, y ∈ C) : ∑ c ∈ C, ((ys.count c : Nat) : K) = (ys.length : K) := by
  induction ys with
  | nil => simp
  | cons y ys ih =>
    have hy := h y List.mem_cons_self
    have := ih (fun z hz => h z (List.mem_cons_of_mem _ hz))
    simp only [List.count_cons, Nat.cast_add, Finset.sum_add_distrib, this, List.length_cons, Nat.cast_one]
    congr 1
    rw [Finset.sum_eq_single y]
    · simp
    · intro c _ hc
      simp [hc.symm]
    · intro hc; exact absurd hy hc

theorem gini_classes (C : Finset K) (ys : List K) (h : ∀ y ∈ ys, y ∈ C) : gini ys = 1 - ∑ c ∈ C, freq ys c ^ 2 := by
  unfold gini
  congr 1
  have h1 : (ys.dedup.map (fun c => freq ys c ^ 2)).sum = ∑ c ∈ ys.dedup.toFinset, freq ys c ^ 2 :=
    (List.sum_toFinset _ (List.nodup_dedup ys)).symm
  rw [h1]
  refine Finset.sum_subset (fun c hc => h c (List.mem_dedup.1 (List.mem_toFinset.1 hc))) (fun c _ hc => ?_)
  have : c ∉ ys := fun hm => hc (List.mem_toFinset.2 (List.mem_dedup.2 hm))
  unfold freq
  rw [List.count_eq_zero_of_not_mem this]
  simp

/-- A side's share of the samples times its Gini index, in terms of the shares of its labels. -/
theorem side_gini (C : Finset K) (ys : List K) (n : Nat) (hn : (n : K) ≠ 0) (h : ∀ y ∈ ys, y ∈ C) :
    (ys.length : K) / (n : K) * gini ys
      = ∑ c ∈ C, ((ys.count c : Nat) : K) / (n : K)
        - (∑ c ∈ C, (((ys.count c : Nat) : K) / (n : K)) ^ 2) / ∑ c ∈ C, ((ys.count c : Nat) : K) / (n : K) := by
  rw [gini_classes C ys h, ← Finset.sum_div, sum_count_classes C ys h]
  simp only [div_pow, freq]
  rw [← Finset.sum_div, ← Finset.sum_div]
  by_cases h0 : (ys.length : K) = 0
  · rw [h0]; simp
  · field_simp

theorem labels_split_length (X : List (K × K)) (t : K) : (labelsLe X t).length + (labelsGt X t).length = X.length := by
  unfold labelsLe labelsGt
  rw [List.length_map, List.length_map, ← List.countP_eq_length_filter, ← List.countP_eq_length_filter,
    List.length_eq_countP_add_countP (fun s : K × K => decide (s.1 ≤ t))]
  congr 2
  funext s
  simp

theorem labels_split_count (X : List (K × K)) (t c : K) :
    (labelsLe X t).count c + (labelsGt X t).count c = (X.map Prod.snd).count c := by
  unfold labelsLe labelsGt
  induction X with
  | nil => simp
  | cons x X ih =>
    simp only [List.filter_cons, List.map_cons, List.count_cons]
    by_cases hx : x.1 ≤ t
    · simp only [hx, decide_true, if_true, not_lt.2 hx, decide_false, Bool.false_eq_true, if_false, List.map_cons, List.count_cons]
      omega
    · simp only [hx, decide_false, Bool.false_eq_true, if_false, not_le.1 hx, decide_true, if_true, List.map_cons, List.count_cons]
      omega

theorem change_gini_shares (C : Finset K) (X : List (K × K)) (t : K) (hX : X ≠ []) (h : ∀ z ∈ X, z.2 ∈ C) :
    change gini X t = ∑ c ∈ C, (cellShare X t true c + cellShare X t false c) ^ 2
      - (∑ c ∈ C, cellShare X t true c ^ 2) / ∑ c ∈ C, cellShare X t true c
      - (∑ c ∈ C, cellShare X t false c ^ 2) / ∑ c ∈ C, cellShare X t false c := by
  have hn : (X.length : K) ≠ 0 := by
    have := List.length_pos_of_ne_nil hX
    exact_mod_cast this.ne'
  have hL : ∀ y ∈ labelsLe X t, y ∈ C := by
    intro y hy
    obtain ⟨z, hz, rfl⟩ := List.mem_map.1 hy
    exact h z (List.mem_filter.1 hz).1
  have hR : ∀ y ∈ labelsGt X t, y ∈ C := by
    intro y hy
    obtain ⟨z, hz, rfl⟩ := List.mem_map.1 hy
    exact h z (List.mem_filter.1 hz).1
  have hA : ∀ y ∈ X.map Prod.snd, y ∈ C := by
    intro y hy
    obtain ⟨z, hz, rfl⟩ := List.mem_map.1 hy
    exact h z hz
  have hfreq : ∀ c, freq (X.map Prod.snd) c = cellShare X t true c + cellShare X t false c := by
    intro c
    unfold freq cellShare
    simp only [if_true, Bool.false_eq_true, if_false]
    rw [← labels_split_count X t c, List.length_map, Nat.cast_add, add_div]
  have hone : ∑ c ∈ C, cellShare X t true c + ∑ c ∈ C, cellShare X t false c = 1 := by
    simp only [cellShare, if_true, Bool.false_eq_true, if_false]
    rw [← Finset.sum_div, ← Finset.sum_div, sum_count_classes C _ hL, sum_count_classes C _ hR, ← add_div, ← Nat.cast_add,
      labels_split_length, div_self hn]
  unfold change
  rw [side_gini C _ _ hn hL, side_gini C _ _ hn hR, gini_classes C _ hA]
  simp only [hfreq]
  simp only [cellShare, if_true, Bool.false_eq_true, if_false] at hone ⊢
  linear_combination hone

/-- The shares of one side add up to at most 1. -/
theorem sum_shares (C : Finset K) (X : List (K × K)) (t : K) (hX : X ≠ []) (h : ∀ z ∈ X, z.2 ∈ C) :
    ∑ c ∈ C, (cellShare X t true c + cellShare X t false c) = 1 := by
  have hn : (X.length : K) ≠ 0 := by
    have := List.length_pos_of_ne_nil hX
    exact_mod_cast this.ne'
  have hA : ∀ y ∈ X.map Prod.snd, y ∈ C := by
    intro y hy
    obtain ⟨z, hz, rfl⟩ := List.mem_map.1 hy
    exact h z hz
  have := sum_count_classes C _ hA
  simp only [cellShare, if_true, Bool.false_eq_true, if_false, ← add_div, ← Nat.cast_add, labels_split_count]
  rw [← Finset.sum_div, this, List.length_map, div_self hn]

/-- Two sets of samples whose shares are close have close changes of the Gini index. -/
theorem change_gini_close (C : Finset K) (X Y : List (K × K)) (t : K) (hX : X ≠ []) (hY : Y ≠ [])
    (h : ∀ z ∈ X, z.2 ∈ C) (h' : ∀ z ∈ Y, z.2 ∈ C) :
    |change gini X t - change gini Y t|
      ≤ 4 * ∑ c ∈ C, (|cellShare X t true c - cellShare Y t true c| + |cellShare X t false c - cellShare Y t false c|) := by
  rw [change_gini_shares C X t hX h, change_gini_shares C Y t hY h']
  have hL := quad_lipschitz C (cellShare X t true) (cellShare Y t true) (fun c _ => cellShare_nonneg X t true c)
    (fun c _ => cellShare_nonneg Y t true c)
  have hR := quad_lipschitz C (cellShare X t false) (cellShare Y t false) (fun c _ => cellShare_nonneg X t false c)
    (fun c _ => cellShare_nonneg Y t false c)
  have hle : ∀ (Z : List (K × K)), Z ≠ [] → (∀ z ∈ Z, z.2 ∈ C) → ∀ c ∈ C, cellShare Z t true c + cellShare Z t false c ≤ 1 := by
    intro Z hZ hz c hc
    rw [← sum_shares C Z t hZ hz]
    exact Finset.single_le_sum (f := fun c => cellShare Z t true c + cellShare Z t false c)
      (fun c _ => add_nonneg (cellShare_nonneg ..) (cellShare_nonneg ..)) hc
  have hA : |∑ c ∈ C, (cellShare X t true c + cellShare X t false c) ^ 2 - ∑ c ∈ C, (cellShare Y t true c + cellShare Y t false c) ^ 2|
      ≤ 2 * ∑ c ∈ C, (|cellShare X t true c - cellShare Y t true c| + |cellShare X t false c - cellShare Y t false c|) := by
    rw [← Finset.sum_sub_distrib, Finset.mul_sum]
    refine (Finset.abs_sum_le_sum_abs _ _).trans (Finset.sum_le_sum (fun c hc => ?_))
    have hx := hle X hX h c hc
    have hy := hle Y hY h' c hc
    have hx0 : 0 ≤ cellShare X t true c + cellShare X t false c := add_nonneg (cellShare_nonneg ..) (cellShare_nonneg ..)
    have hy0 : 0 ≤ cellShare Y t true c + cellShare Y t false c := add_nonneg (cellShare_nonneg ..) (cellShare_nonneg ..)
    rw [sq_sub_sq, abs_mul, abs_of_nonneg (add_nonneg hx0 hy0)]
    have h1 : |cellShare X t true c + cellShare X t false c - (cellShare Y t true c + cellShare Y t false c)|
        ≤ |cellShare X t true c - cellShare Y t true c| + |cellShare X t false c - cellShare Y t false c| := by
      rw [add_sub_add_comm]
      exact abs_add_le _ _
    exact mul_le_mul (by linarith) h1 (abs_nonneg _) (by norm_num)
  rw [Finset.sum_add_distrib] at hA ⊢
  rw [abs_le] at hL hR hA ⊢
  constructor <;> linarith [hL.1, hL.2, hR.1, hR.2, hA.1, hA.2]

end FF
