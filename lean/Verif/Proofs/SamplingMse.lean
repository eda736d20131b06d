import Verif.Proofs.Sampling
import Verif.Proofs.MseVar
import Mathlib.Algebra.BigOperators.Fin
import Mathlib.Tactic.Positivity

/-!
# Estimates from random samples
-/

set_option linter.unusedSectionVars false

namespace FF

open Spec

variable {K : Type} [Field K] [LinearOrder K] [IsStrictOrderedRing K] [FloorRing K] [NpFun K]

/-! ### Populations as functions of the position -/

theorem sum_map_eq_get (ys : List K) (f : K → K) : (ys.map f).sum = ∑ u : Fin ys.length, f (ys.get u) := by
  rw [← List.sum_ofFn]
  congr 1
  conv_lhs => rw [← List.ofFn_get ys, List.map_ofFn]
  rfl

theorem length_ne_zero' {ys : List K} (hy : ys ≠ []) : (ys.length : K) ≠ 0 := by
  have := List.length_pos_of_ne_nil hy
  exact_mod_cast this.ne'

theorem centred_sum {ys : List K} (hy : ys ≠ []) : ∑ u : Fin ys.length, (ys.get u - mean ys) = 0 := by
  have h := sum_map_eq_get ys id
  simp only [List.map_id, id] at h
  rw [Finset.sum_sub_distrib, ← h, Finset.sum_const, Finset.card_univ, Fintype.card_fin, nsmul_eq_mul]
  unfold mean
  have := length_ne_zero' hy
  field_simp
  ring

theorem centred_sq {ys : List K} (hy : ys ≠ []) : ∑ u : Fin ys.length, (ys.get u - mean ys) ^ 2 = (ys.length : K) * variance ys := by
  rw [← sum_map_eq_get ys (fun y => (y - mean ys) ^ 2)]
  unfold variance
  rw [mean.eq_1 (ys.map _), List.length_map]
  have := length_ne_zero' hy
  field_simp

theorem centred_four {ys : List K} (hy : ys ≠ []) :
    ∑ u : Fin ys.length, (ys.get u - mean ys) ^ 4 = (ys.length : K) * fourthMoment ys := by
  rw [← sum_map_eq_get ys (fun y => (y - mean ys) ^ 4)]
  unfold fourthMoment
  rw [mean.eq_1 (ys.map _), List.length_map]
  have := length_ne_zero' hy
  field_simp

/-- The variance of a sample in terms of distances from any centre. -/
theorem variance_ofFn {n : Nat} (hn : (n : K) ≠ 0) (x : Fin n → K) (c : K) :
    (n : K) * variance (List.ofFn x) = ∑ i, (x i - c) ^ 2 - (∑ i, (x i - c)) ^ 2 / (n : K) := by
  have h1 := len_mul_variance (List.ofFn x)
  rw [List.length_ofFn] at h1
  rw [h1, mean, List.length_ofFn, List.map_ofFn, List.sum_ofFn, List.sum_ofFn]
  simp only [Function.comp_apply, Finset.sum_sub_distrib, Finset.sum_const, Finset.card_univ, Fintype.card_fin, nsmul_eq_mul]
  have e : ∀ i, (x i - c) ^ 2 = x i ^ 2 - 2 * c * x i + c ^ 2 := fun i => by ring
  simp only [e, Finset.sum_add_distrib, Finset.sum_sub_distrib, ← Finset.mul_sum, Finset.sum_const, Finset.card_univ,
    Fintype.card_fin, nsmul_eq_mul]
  field_simp
  ring

/-! ### The variance of a sample -/

section

variable {Ω : Type} [Fintype Ω] [Nonempty Ω] {n : Nat} {θ : K} {ys : List K} {pos : Ω → Fin n → Fin ys.length}

theorem average_variance (hf : Fair θ pos) (hy : ys ≠ []) (hn : (n : K) ≠ 0) (hN1 : (ys.length : K) - θ ≠ 0) :
    average (fun ω => (n : K) * variance (List.ofFn (fun i => ys.get (pos ω i))))
      = ((n : K) - 1) * variance ys * (ys.length : K) / ((ys.length : K) - θ) := by
  have hN := length_ne_zero' hy
  have hm := hf.moments2 hN hN1 (fun u => ys.get u - mean ys) (centred_sum hy)
  rw [centred_sq hy] at hm
  have e : (fun ω => (n : K) * variance (List.ofFn (fun i => ys.get (pos ω i))))
      = fun ω => ∑ i, (ys.get (pos ω i) - mean ys) ^ 2 - (n : K)⁻¹ * (∑ i, (ys.get (pos ω i) - mean ys)) ^ 2 := by
    funext ω
    rw [variance_ofFn hn _ (mean ys)]
    ring
  rw [e, average_sub, average_mul, hm.sum_sq, hm.sq_sum]
  field_simp
  ring

theorem average_variance_sq (hf : Fair θ pos) (hy : ys ≠ []) (hn : (n : K) ≠ 0) (hN1 : (ys.length : K) - θ ≠ 0)
    (hN2 : (ys.length : K) - θ * 2 ≠ 0) (hN3 : (ys.length : K) - θ * 3 ≠ 0) {N s m4 m22 m31 m211 m1111 : K}
    (hNe : N = (ys.length : K)) (hs : s = variance ys) (hm4 : m4 = fourthMoment ys)
    (h22 : m22 = (N * s * s - θ * m4) / (N - θ))
    (h31 : m31 = -θ * m4 / (N - θ))
    (h211 : m211 = -θ * (m31 + m22) / (N - θ * 2))
    (h1111 : m1111 = -θ * (3 * m211) / (N - θ * 3)) :
    average (fun ω => ((n : K) * variance (List.ofFn (fun i => ys.get (pos ω i)))) ^ 2)
      = ((n : K) * m4 + (n : K) * ((n : K) - 1) * m22)
        - 2 / (n : K) * ((n : K) * m4 + (n : K) * ((n : K) - 1) * (m22 + 2 * m31) + (n : K) * ((n : K) - 1) * ((n : K) - 2) * m211)
        + 1 / (n : K) ^ 2 * ((n : K) * m4 + (n : K) * ((n : K) - 1) * (3 * m22 + 4 * m31)
          + 6 * ((n : K) * ((n : K) - 1) * ((n : K) - 2)) * m211
          + (n : K) * ((n : K) - 1) * ((n : K) - 2) * ((n : K) - 3) * m1111) := by
  have hN := length_ne_zero' hy
  have e4 : (ys.length : K) * fourthMoment ys / (ys.length : K) = m4 := by rw [hm4]; field_simp
  have e2 : (ys.length : K) * variance ys / (ys.length : K) = s := by rw [hs]; field_simp
  have hm := hf.moments4 hN hN1 hN2 hN3 (fun u => ys.get u - mean ys) (centred_sum hy) (m22 := m22) (m31 := m31) (m211 := m211)
    (m1111 := m1111) (centred_sq hy).symm (centred_four hy).symm (by rw [e2, e4, h22, hNe, ← hs]) (by rw [e4, h31, hNe])
    (by rw [h211, hNe]) (by rw [h1111, hNe])
  rw [e4] at hm
  have e : (fun ω => ((n : K) * variance (List.ofFn (fun i => ys.get (pos ω i)))) ^ 2)
      = fun ω => (∑ i, (ys.get (pos ω i) - mean ys) ^ 2) ^ 2
          - 2 / (n : K) * ((∑ i, (ys.get (pos ω i) - mean ys) ^ 2) * (∑ i, (ys.get (pos ω i) - mean ys)) ^ 2)
          + 1 / (n : K) ^ 2 * (∑ i, (ys.get (pos ω i) - mean ys)) ^ 4 := by
    funext ω
    rw [variance_ofFn hn _ (mean ys)]
    field_simp
    ring
  rw [e, average_add, average_sub, average_mul, average_mul, hm.aa, hm.abb, hm.bbbb]

theorem average_dev (f : Ω → K) (m : K) (h : average f = m) :
    average (fun ω => (f ω - m) ^ 2) = average (fun ω => f ω ^ 2) - m ^ 2 := by
  have e : (fun ω => (f ω - m) ^ 2) = fun ω => f ω ^ 2 - 2 * m * f ω + m ^ 2 := by funext ω; ring
  rw [e, average_add, average_sub, average_mul, average_const, h]
  ring

end

/-! ### Without and with replacement -/

theorem sampleWithout_eq (ys : List K) (n : Nat) (h : n ≤ ys.length) (σ : Equiv.Perm (Fin ys.length)) :
    sampleWithout ys n σ = List.ofFn (fun i : Fin n => ys.get (σ (Fin.castLE h i))) := by
  unfold sampleWithout
  apply List.ext_getElem
  · simp [h]
  · intro i h1 h2
    simp

theorem average_dev_with (ys : List K) (n : Nat) (hy : ys ≠ []) (hn : 2 ≤ n) :
    average (fun s => variance (sampleWith ys n s) * (n : K) / ((n : K) - 1)) = variance ys ∧
    average (fun s => (variance (sampleWith ys n s) * (n : K) / ((n : K) - 1) - variance ys) ^ 2)
      = 2 * variance ys ^ 2 / ((n : K) - 1) + (fourthMoment ys - 3 * variance ys ^ 2) / (n : K) := by
  have hn2 : (2 : K) ≤ (n : K) := by exact_mod_cast hn
  have hn0 : (n : K) ≠ 0 := by linarith
  have hn1 : (n : K) - 1 ≠ 0 := by intro h; linarith
  have hN := length_ne_zero' hy
  haveI : Nonempty (Fin ys.length) := ⟨⟨0, List.length_pos_of_ne_nil hy⟩⟩
  have hf := fair_with (K := K) n ys.length
  have h1 := average_variance hf hy hn0 (by simpa using hN)
  have h2 := average_variance_sq hf hy hn0 (by simpa using hN) (by simpa using hN) (by simpa using hN) rfl rfl rfl rfl rfl rfl rfl
  have hm : average (fun s => variance (sampleWith ys n s) * (n : K) / ((n : K) - 1)) = variance ys := by
    have e : (fun s => variance (sampleWith ys n s) * (n : K) / ((n : K) - 1))
        = fun s => ((n : K) - 1)⁻¹ * ((n : K) * variance (sampleWith ys n s)) := by funext s; ring
    rw [e, average_mul]
    unfold sampleWith
    rw [h1]
    simp only [sub_zero]
    field_simp
  refine ⟨hm, ?_⟩
  rw [average_dev _ _ hm]
  have e : (fun s => (variance (sampleWith ys n s) * (n : K) / ((n : K) - 1)) ^ 2)
      = fun s => (((n : K) - 1) ^ 2)⁻¹ * ((n : K) * variance (sampleWith ys n s)) ^ 2 := by
    funext s
    field_simp
  rw [e, average_mul]
  unfold sampleWith
  rw [h2]
  simp only [sub_zero, zero_mul, neg_zero, mul_zero, _root_.zero_div, add_zero]
  field_simp
  ring

theorem average_dev_without (ys : List K) (n : Nat) (hn : 2 ≤ n) (h : n ≤ ys.length) :
    average (fun σ => variance (sampleWithout ys n σ) * ((n : K) * ((ys.length : K) - 1)) / (((n : K) - 1) * (ys.length : K)))
      = variance ys ∧
    (4 ≤ ys.length →
      average (fun σ => (variance (sampleWithout ys n σ) * ((n : K) * ((ys.length : K) - 1)) / (((n : K) - 1) * (ys.length : K))
        - variance ys) ^ 2) * ((ys.length : K) / ((ys.length : K) - 1)) ^ 2
      = (ys.length : K) * ((ys.length : K) - n) * ((ys.length : K) * n - ys.length - n - 1)
          / (n * (n - 1) * ((ys.length : K) - 1) * ((ys.length : K) - 2) * ((ys.length : K) - 3)) * fourthMoment ys
        - (ys.length : K) * ((ys.length : K) - n)
            * ((ys.length : K) * ys.length * n - 3 * n - 3 * ((ys.length : K) * ys.length) + 6 * ys.length - 3)
          / (n * (n - 1) * (((ys.length : K) - 1) * ((ys.length : K) - 1)) * ((ys.length : K) - 2) * ((ys.length : K) - 3))
          * variance ys ^ 2) := by
  have hy : ys ≠ [] := by rintro rfl; simp at h; omega
  have hn2 : (2 : K) ≤ (n : K) := by exact_mod_cast hn
  have hnN : (n : K) ≤ (ys.length : K) := by exact_mod_cast h
  have hn0 : (n : K) ≠ 0 := by linarith
  have hn1 : (n : K) - 1 ≠ 0 := by intro h; linarith
  have hN := length_ne_zero' hy
  have hN1 : (ys.length : K) - 1 ≠ 0 := by intro h; linarith
  have hf := fair_without (K := K) h
  have h1 := average_variance hf hy hn0 hN1
  have hm : average (fun σ => variance (sampleWithout ys n σ) * ((n : K) * ((ys.length : K) - 1))
      / (((n : K) - 1) * (ys.length : K))) = variance ys := by
    have e : (fun σ => variance (sampleWithout ys n σ) * ((n : K) * ((ys.length : K) - 1)) / (((n : K) - 1) * (ys.length : K)))
        = fun σ => (((ys.length : K) - 1) / (((n : K) - 1) * (ys.length : K)))
            * ((n : K) * variance (sampleWithout ys n σ)) := by
      funext s
      ring
    rw [e, average_mul]
    simp only [sampleWithout_eq ys n h]
    rw [h1]
    field_simp
  refine ⟨hm, fun h4 => ?_⟩
  have h4' : (4 : K) ≤ (ys.length : K) := by exact_mod_cast h4
  have hN2 : (ys.length : K) - 2 ≠ 0 := by intro h; linarith
  have hN3 : (ys.length : K) - 3 ≠ 0 := by intro h; linarith
  have h2 := average_variance_sq hf hy hn0 hN1 (by simpa using hN2) (by simpa using hN3) rfl rfl rfl rfl rfl rfl rfl
  rw [average_dev _ _ hm]
  have e : (fun σ => (variance (sampleWithout ys n σ) * ((n : K) * ((ys.length : K) - 1)) / (((n : K) - 1) * (ys.length : K))) ^ 2)
      = fun σ => (((ys.length : K) - 1) / (((n : K) - 1) * (ys.length : K))) ^ 2
          * ((n : K) * variance (sampleWithout ys n σ)) ^ 2 := by
    funext s
    ring
  rw [e, average_mul]
  simp only [sampleWithout_eq ys n h]
  rw [h2]
  simp only [one_mul]
  generalize (ys.length : K) = N at *
  generalize (n : K) = c at *
  generalize fourthMoment ys = m at *
  generalize variance ys = v at *
  field_simp
  ring

end FF
