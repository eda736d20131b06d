import Verif.Proofs.SamplingMse
import Verif.Model.Instances

/-!
# Regression estimates from random samples (C114)
-/

set_option linter.unusedSectionVars false

namespace FF

open Spec

variable {K : Type} [Field K] [LinearOrder K] [IsStrictOrderedRing K] [FloorRing K] [NpFun K]

theorem getMse_with (p : Pile K) (h : 2 ≤ p.n) :
    getMse p none = .ok (.fin (p.var * (p.n : K) / ((p.n : K) - 1)),
      .fin (2 * (p.var * (p.n : K) / ((p.n : K) - 1)) ^ 2 / ((p.n : K) - 1))) := by
  have h2 : (2 : K) ≤ (p.n : K) := by exact_mod_cast h
  have hn1 : (p.n : K) - 1 ≠ 0 := by intro h; linarith
  have hn0 : (p.n : K) ≠ 0 := by linarith
  have he : mseEst p none = .fin (p.var * (p.n : K) / ((p.n : K) - 1)) := by
    unfold mseEst
    simp only [xnat, XF.mul_fin, XF.sub_fin]
    rw [XF.div_fin _ _ hn1, XF.nanToNum_fin]
  unfold getMse mseVar
  simp only [he, xnat, XF.mul_fin, XF.sub_fin]
  rw [XF.div_fin _ _ hn1, XF.sub_fin, XF.div_fin _ _ hn0, XF.nanToNum_fin]
  congr 3
  field_simp
  ring

theorem getMse_without (p : Pile K) (N : Nat) (h : 2 ≤ p.n) (hN : p.n ≤ N) :
    (∃ v, getMse p (some N) = .ok (.fin (p.var * ((p.n : K) * ((N : K) - 1)) / (((p.n : K) - 1) * (N : K))), v)) ∧
    (4 ≤ N → ∀ e v, getMse p (some N) = .ok (.fin e, v) →
      v = .fin ((N : K) * ((N : K) - p.n) * ((N : K) * p.n - N - p.n - 1)
          / (p.n * (p.n - 1) * ((N : K) - 1) * ((N : K) - 2) * ((N : K) - 3)) * (3 * e ^ 2)
        - (N : K) * ((N : K) - p.n) * ((N : K) * N * p.n - 3 * p.n - 3 * ((N : K) * N) + 6 * N - 3)
          / (p.n * (p.n - 1) * (((N : K) - 1) * ((N : K) - 1)) * ((N : K) - 2) * ((N : K) - 3)) * e ^ 2)) := by
  have h2 : (2 : K) ≤ (p.n : K) := by exact_mod_cast h
  have hNp : (p.n : K) ≤ (N : K) := by exact_mod_cast hN
  have hn1 : (p.n : K) - 1 ≠ 0 := by intro h; linarith
  have hn0 : (p.n : K) ≠ 0 := by linarith
  have hN0 : (N : K) ≠ 0 := by linarith
  have hN1 : (N : K) - 1 ≠ 0 := by intro h; linarith
  have he : mseEst p (some N) = .fin (p.var * ((p.n : K) * ((N : K) - 1)) / (((p.n : K) - 1) * (N : K))) := by
    unfold mseEst
    simp only [xnat, XF.mul_fin, XF.sub_fin]
    rw [XF.div_fin _ _ (mul_ne_zero hn1 hN0), XF.nanToNum_fin]
  unfold getMse
  simp only [if_neg (not_lt.2 hN), he]
  refine ⟨⟨_, rfl⟩, fun h4 e v hv => ?_⟩
  simp only [Except.ok.injEq, Prod.mk.injEq, XF.fin.injEq] at hv
  obtain ⟨hv1, hv2⟩ := hv
  rw [hv1] at hv2
  have h4' : (4 : K) ≤ (N : K) := by exact_mod_cast h4
  have hN2 : (N : K) - 2 ≠ 0 := by intro h; linarith
  have hN3 : (N : K) - 3 ≠ 0 := by intro h; linarith
  rw [← hv2]
  unfold mseVar
  simp only [xnat, XF.mul_fin, XF.sub_fin, XF.add_fin]
  rw [XF.div_fin _ _ (by simp [hn0, hn1, hN1, hN2, hN3]), XF.div_fin _ _ (by simp [hn0, hn1, hN1, hN2, hN3]), XF.neg_fin,
    XF.mul_fin, XF.mul_fin, XF.add_fin, XF.nanToNum_fin]
  congr 1
  ring

/-- The pile `[number, mean, variance]` of a list of labels. -/
def pileOf (l : List K) : Pile K := ⟨l.length, mean l, variance l⟩

/-- C114, sampling with replacement. Take all sequences of `n ≥ 2` draws from the labels as equally likely. `get_mse` of the
sample gives an estimate whose average over all samples is the MSE of the labels. The average squared error of the estimate is
`2σ⁴/(n-1) + (μ₄ - 3σ⁴)/n`, and the variance that `get_mse` reports when its estimate is right is the first part, which is all of
it if the labels have kurtosis 3, the value that the code assumes. -/
theorem C114_with (ys : List K) (n : Nat) (hy : ys ≠ []) (hn : 2 ≤ n) :
    ∃ e : (Fin n → Fin ys.length) → K,
      (∀ s, ∃ v, getMse (pileOf (sampleWith ys n s)) none = .ok (.fin (e s), v)) ∧
      average e = variance ys ∧
      ∀ (p : Pile K) (v : XF K), p.n = n → getMse p none = .ok (.fin (variance ys), v) →
        v = .fin (average (fun s => (e s - variance ys) ^ 2) - (fourthMoment ys - 3 * variance ys ^ 2) / (n : K)) := by
  obtain ⟨h1, h2⟩ := average_dev_with ys n hy hn
  refine ⟨fun s => variance (sampleWith ys n s) * (n : K) / ((n : K) - 1), fun s => ?_, h1, fun p v hp hv => ?_⟩
  · have h := getMse_with (pileOf (sampleWith ys n s)) (by simpa [pileOf, sampleWith] using hn)
    simp only [pileOf] at h ⊢
    have hl : (sampleWith ys n s).length = n := by simp [sampleWith]
    rw [hl] at h ⊢
    exact ⟨_, h⟩
  · rw [getMse_with p (by omega), hp] at hv
    simp only [Except.ok.injEq, Prod.mk.injEq, XF.fin.injEq] at hv
    rw [← hv.2, hv.1, h2]
    congr 1
    ring

/-- C114, sampling without replacement from `N` labels. Take all shuffles as equally likely; the sample is the first `n`.
`get_mse` with the population size gives an estimate whose average over all samples is the MSE of the labels. The variance that it
reports when its estimate is right is `N²/(N-1)²` times the average squared error of the estimate, if the labels have kurtosis 3;
in general a non-negative multiple of `μ₄ - 3σ⁴` is to be subtracted. -/
theorem C114_without (ys : List K) (n : Nat) (hn : 2 ≤ n) (hN : n ≤ ys.length) :
    ∃ e : Equiv.Perm (Fin ys.length) → K,
      (∀ σ, ∃ v, getMse (pileOf (sampleWithout ys n σ)) (some ys.length) = .ok (.fin (e σ), v)) ∧
      average e = variance ys ∧
      (4 ≤ ys.length → ∃ c : K, 0 ≤ c ∧
        ∀ (p : Pile K) (v : XF K), p.n = n → getMse p (some ys.length) = .ok (.fin (variance ys), v) →
          v = .fin (average (fun σ => (e σ - variance ys) ^ 2) * ((ys.length : K) / ((ys.length : K) - 1)) ^ 2
            - c * (fourthMoment ys - 3 * variance ys ^ 2))) := by
  obtain ⟨h1, h2⟩ := average_dev_without ys n hn hN
  refine ⟨_, fun σ => ?_, h1, fun h4 => ⟨(ys.length : K) * ((ys.length : K) - n) * ((ys.length : K) * n - ys.length - n - 1)
          / (n * (n - 1) * ((ys.length : K) - 1) * ((ys.length : K) - 2) * ((ys.length : K) - 3)), ?_, fun p v hp hv => ?_⟩⟩
  · have hl : (sampleWithout ys n σ).length = n := by simp [sampleWithout, hN]
    have h := (getMse_without (pileOf (sampleWithout ys n σ)) ys.length (by simpa [pileOf, hl] using hn)
      (by simpa [pileOf, hl] using hN)).1
    simp only [pileOf, hl] at h ⊢
    exact h
  · have a1 : (4 : K) ≤ (ys.length : K) := by exact_mod_cast h4
    have a2 : (2 : K) ≤ (n : K) := by exact_mod_cast hn
    have a3 : (n : K) ≤ (ys.length : K) := by exact_mod_cast hN
    generalize (ys.length : K) = N at *
    generalize (n : K) = c at *
    have b1 : 0 ≤ N - c := by linarith
    have b2 : 0 ≤ N * c - N - c - 1 := by nlinarith
    have b3 : 0 ≤ c - 1 := by linarith
    have b4 : 0 ≤ N - 1 := by linarith
    have b5 : 0 ≤ N - 2 := by linarith
    have b6 : 0 ≤ N - 3 := by linarith
    have b7 : 0 ≤ N := by linarith
    have b8 : 0 ≤ c := by linarith
    positivity
  · have h := (getMse_without p ys.length (by omega) (by omega)).2 h4 _ _ hv
    rw [h, h2 h4, hp]
    congr 1
    ring

/-- C114: for labels whose kurtosis is at most 3, the variance reported with a right estimate is at least the average squared error
of the estimate, with and without replacement. -/
theorem C114_not_too_small (ys : List K) (n : Nat) (hn : 2 ≤ n) (hk : fourthMoment ys ≤ 3 * variance ys ^ 2) (p : Pile K)
    (hp : p.n = n) :
    (ys ≠ [] → ∃ e : (Fin n → Fin ys.length) → K,
      (∀ s, ∃ v, getMse (pileOf (sampleWith ys n s)) none = .ok (.fin (e s), v)) ∧
      ∀ v, getMse p none = .ok (.fin (variance ys), .fin v) → average (fun s => (e s - variance ys) ^ 2) ≤ v) ∧
    (n ≤ ys.length → 4 ≤ ys.length → ∃ e : Equiv.Perm (Fin ys.length) → K,
      (∀ σ, ∃ v, getMse (pileOf (sampleWithout ys n σ)) (some ys.length) = .ok (.fin (e σ), v)) ∧
      ∀ v, getMse p (some ys.length) = .ok (.fin (variance ys), .fin v) → average (fun σ => (e σ - variance ys) ^ 2) ≤ v) := by
  constructor
  · intro hy
    obtain ⟨e, h1, _, h3⟩ := C114_with ys n hy hn
    refine ⟨e, h1, fun v hv => ?_⟩
    have h := h3 p _ hp hv
    rw [XF.fin.injEq] at h
    have hn0 : (0 : K) < (n : K) := by exact_mod_cast (by omega : 0 < n)
    have : (fourthMoment ys - 3 * variance ys ^ 2) / (n : K) ≤ 0 := div_nonpos_of_nonpos_of_nonneg (by linarith) hn0.le
    rw [h]
    linarith
  · intro hN h4
    obtain ⟨e, h1, _, h3⟩ := C114_without ys n hn hN
    obtain ⟨c, hc, h5⟩ := h3 h4
    refine ⟨e, h1, fun v hv => ?_⟩
    have h := h5 p _ hp hv
    rw [XF.fin.injEq] at h
    have a1 : (4 : K) ≤ (ys.length : K) := by exact_mod_cast h4
    have hge : (1 : K) ≤ ((ys.length : K) / ((ys.length : K) - 1)) ^ 2 := by
      apply one_le_pow₀
      rw [one_le_div (by linarith)]
      linarith
    have hnn : 0 ≤ average (fun σ => (e σ - variance ys) ^ 2) := by
      unfold average
      apply div_nonneg
      · exact Finset.sum_nonneg (fun i _ => sq_nonneg _)
      · positivity
    have : c * (fourthMoment ys - 3 * variance ys ^ 2) ≤ 0 := mul_nonpos_of_nonneg_of_nonpos hc (by linarith)
    rw [h]
    nlinarith

/-- C114, large errors are rare: the share of the samples whose estimate is off by `t` or more is at most the average squared error
divided by `t²`. -/
theorem C114_tail {Ω : Type} [Fintype Ω] (e : Ω → K) (m t : K) (ht : 0 < t) :
    ((Finset.univ.filter (fun ω => t ≤ |e ω - m|)).card : K) / (Fintype.card Ω : K) ≤ average (fun ω => (e ω - m) ^ 2) / t ^ 2 := by
  unfold average
  rw [le_div_iff₀ (by positivity), div_mul_eq_mul_div]
  apply div_le_div_of_nonneg_right _ (by positivity)
  have h1 : ((Finset.univ.filter (fun ω => t ≤ |e ω - m|)).card : K) * t ^ 2
      = ∑ ω ∈ Finset.univ.filter (fun ω => t ≤ |e ω - m|), t ^ 2 := by simp
  rw [h1]
  refine (Finset.sum_le_sum (g := fun ω => (e ω - m) ^ 2) (fun ω hω => ?_)).trans
    (Finset.sum_le_sum_of_subset_of_nonneg (Finset.filter_subset _ _) (fun ω _ _ => sq_nonneg _))
  have := (Finset.mem_filter.1 hω).2
  rw [← sq_abs (e ω - m)]
  exact pow_le_pow_left₀ ht.le this 2

/-- Labels with kurtosis 3, and the two reported variances for a sample of 3 whose estimate is right. -/
example :
    variance ([-1, 0, 0, 0, 0, 1] : List ℚ) = 1 / 3 ∧ fourthMoment ([-1, 0, 0, 0, 0, 1] : List ℚ) = 3 * (1 / 3) ^ 2 ∧
    (getMse (⟨3, 0, 2 / 9⟩ : Pile ℚ) none).toOption = some (.fin (1 / 3), .fin (1 / 9)) ∧
    (getMse (⟨3, 0, 4 / 15⟩ : Pile ℚ) (some 6)).toOption = some (.fin (1 / 3), .fin (8 / 75)) := by
  decide +kernel

/-- The averages over all samples of two of these labels, with and without replacement. -/
example :
    average (fun s => variance (sampleWith ([0, 1, 5] : List ℚ) 2 s) * 2 / (2 - 1)) = variance ([0, 1, 5] : List ℚ) ∧
    average (fun s => variance (sampleWithout ([0, 1, 5] : List ℚ) 2 s) * (2 * (3 - 1)) / ((2 - 1) * 3))
      = variance ([0, 1, 5] : List ℚ) := by
  decide +kernel

end FF
