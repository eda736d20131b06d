import Verif.Model.Boosting
import Verif.Model.Instances
import Verif.Spec.Boosting
import Mathlib.Tactic.FieldSimp
import Mathlib.Tactic.Ring

/-!
# Property C109: boosting steps for classification
-/

namespace FF

open Spec

/-- One entry of `find_gradient` and of `find_hessian`. -/
theorem boost_entries {K : Type} [Field K] {preds targets g h : List K} (hg : findGradient .ce preds targets = .ok (some g))
    (hh : findHessian .ce preds targets = .ok (some h)) : g.length = preds.length ∧ h.length = preds.length ∧
      targets.length = preds.length ∧ ∀ (i : Nat) (t p : K), targets[i]? = some t → preds[i]? = some p →
        g[i]? = some (-(t + gradSmooth) / (p + gradSmooth)) ∧ h[i]? = some ((t + gradSmooth) / (p ^ 2 + gradSmooth)) := by
  unfold findGradient at hg
  unfold findHessian at hh
  simp only [] at hg hh
  by_cases hl : targets.length = preds.length
  · rw [if_pos hl] at hg hh
    cases hg
    cases hh
    refine ⟨by simp [hl], by simp [hl], hl, fun i t p ht hp => ?_⟩
    constructor
    · rw [List.getElem?_zipWith, ht, hp]
    · rw [List.getElem?_zipWith, ht, hp]
  · rw [if_neg hl] at hg
    cases hg

theorem gradSmooth_pos : (0 : ℝ) < gradSmooth := by unfold gradSmooth; norm_num

theorem smoothedCE_deriv {s t p : ℝ} (h : p + s ≠ 0) : HasDerivAt (smoothedCE s t) (-(t + s) / (p + s)) p := by
  unfold smoothedCE
  have h1 : HasDerivAt (fun q : ℝ => q + s) 1 p := (hasDerivAt_id p).add_const s
  have h2 := (h1.log h).const_mul (-(t + s))
  have e : -(t + s) / (p + s) = -(t + s) * (1 / (p + s)) := by rw [mul_one_div]
  rw [e]
  exact h2

theorem smoothedCE_deriv2 {s t p : ℝ} (h : 0 < p + s) : HasDerivAt (smoothedCE' s t) ((t + s) / (p + s) ^ 2) p := by
  have h1 : HasDerivAt (fun q : ℝ => q + s) 1 p := (hasDerivAt_id p).add_const s
  have h2 := ((h1.inv h.ne').const_mul (-(t + s)))
  have h3 : HasDerivAt (fun q : ℝ => -(t + s) / (q + s)) ((t + s) / (p + s) ^ 2) p := by
    have e : (t + s) / (p + s) ^ 2 = -(t + s) * (-1 / (p + s) ^ 2) := by field_simp
    rw [e]
    exact h2
  refine h3.congr_of_eventuallyEq ?_
  have hopen : ∀ᶠ q in nhds p, 0 < q + s := by
    have hc : ContinuousAt (fun q : ℝ => q + s) p := h1.continuousAt
    exact hc.eventually_const_lt h
  filter_upwards [hopen] with q hq
  exact (smoothedCE_deriv hq.ne').deriv

/-! ### C109 -/

/-- C109, gradient: for non-negative predictions each entry of the gradient is the derivative of the smoothed cross-entropy loss at the
prediction. Missing for the full property: the second derivative is wrong and the step forgets the targets, see
`C109_refuted_hessian` and `C109_targets_forgotten`. -/
theorem C109_gradient_partial (preds targets g : List ℝ) (hp : ∀ p ∈ preds, 0 ≤ p) (hg : findGradient .ce preds targets = .ok (some g)) :
    g.length = preds.length ∧ ∀ (i : Nat) (t p : ℝ), targets[i]? = some t → preds[i]? = some p →
      ∃ d, g[i]? = some d ∧ HasDerivAt (smoothedCE gradSmooth t) d p := by
  have hh : ∃ h, findHessian .ce preds targets = .ok (some h) := by
    unfold findGradient at hg
    unfold findHessian
    simp only [] at hg ⊢
    by_cases hl : targets.length = preds.length
    · rw [if_pos hl]; exact ⟨_, rfl⟩
    · rw [if_neg hl] at hg; cases hg
  obtain ⟨h, hh⟩ := hh
  obtain ⟨h1, _, _, h4⟩ := boost_entries hg hh
  refine ⟨h1, fun i t p ht hpp => ⟨_, (h4 i t p ht hpp).1, smoothedCE_deriv ?_⟩⟩
  have := hp p (List.mem_of_getElem? hpp)
  have := gradSmooth_pos
  positivity

/-- C109, hessian: for targets and predictions that are not negative the entries of the hessian are positive, and an entry is the second
derivative of the loss only if twice the prediction and the smoothing constant sum to 1. -/
theorem C109_hessian (preds targets h : List ℝ) (hp : ∀ p ∈ preds, 0 ≤ p) (ht : ∀ t ∈ targets, 0 ≤ t)
    (hh : findHessian .ce preds targets = .ok (some h)) : ∀ (i : Nat) (t p : ℝ), targets[i]? = some t → preds[i]? = some p →
      ∃ d, h[i]? = some d ∧ 0 < d ∧ (HasDerivAt (smoothedCE' gradSmooth t) d p ↔ 2 * p + gradSmooth = 1) := by
  have hg : ∃ g, findGradient .ce preds targets = .ok (some g) := by
    unfold findHessian at hh
    unfold findGradient
    simp only [] at hh ⊢
    by_cases hl : targets.length = preds.length
    · rw [if_pos hl]; exact ⟨_, rfl⟩
    · rw [if_neg hl] at hh; cases hh
  obtain ⟨g, hg⟩ := hg
  obtain ⟨_, _, _, h4⟩ := boost_entries hg hh
  intro i t p hti hpi
  have hs := gradSmooth_pos
  have hp0 := hp p (List.mem_of_getElem? hpi)
  have ht0 := ht t (List.mem_of_getElem? hti)
  have hps : 0 < p + gradSmooth := by positivity
  have hts : 0 < t + gradSmooth := by positivity
  have hpp : 0 < p ^ 2 + gradSmooth := by positivity
  refine ⟨_, (h4 i t p hti hpi).2, by positivity, ?_⟩
  have h2 := smoothedCE_deriv2 (t := t) hps
  constructor
  · intro hd
    have e := hd.unique h2
    rw [div_eq_div_iff hpp.ne' (by positivity)] at e
    have e1 := mul_left_cancel₀ hts.ne' e
    have e2 : gradSmooth * (2 * p + gradSmooth - 1) = 0 := by nlinarith
    rcases mul_eq_zero.1 e2 with e3 | e3
    · exact absurd e3 hs.ne'
    · linarith
  · intro e
    have : p ^ 2 + gradSmooth = (p + gradSmooth) ^ 2 := by nlinarith
    rw [this]
    exact h2

/-- C109 fails for the second derivative: at the prediction 1 for the target 1 the entry is not the second derivative. -/
theorem C109_refuted_hessian : ∃ h d : ℝ, findHessian .ce [1] [1] = .ok (some [h]) ∧ HasDerivAt (smoothedCE' gradSmooth 1) d 1 ∧ h ≠ d := by
  have h2 := smoothedCE_deriv2 (s := gradSmooth) (t := 1) (p := 1) (by have := gradSmooth_pos; positivity)
  refine ⟨_, _, rfl, h2, ?_⟩
  unfold gradSmooth
  norm_num

/-- C109 fails for the step: the new targets for classification do not depend on the targets at all, only on the predictions. -/
theorem C109_targets_forgotten {K : Type} [Field K] [LinearOrder K] [IsStrictOrderedRing K] (preds targets : List K) (hl : targets.length = preds.length)
    (hp : ∀ p ∈ preds, 0 ≤ p) (ht : ∀ t ∈ targets, 0 ≤ t) :
    getNextTargets .ce true targets preds = .ok (preds.map (fun p => (p ^ 2 + gradSmooth) / (p + gradSmooth))) := by
  unfold getNextTargets findGradient findHessian
  simp only [if_pos hl, if_true]
  congr 1
  apply List.ext_getElem?
  intro i
  rw [List.getElem?_zipWith, List.getElem?_zipWith, List.getElem?_zipWith, List.getElem?_map]
  by_cases hi : i < preds.length
  · rw [List.getElem?_eq_getElem hi, List.getElem?_eq_getElem (by omega : i < targets.length)]
    simp only [Option.map_some, Option.some.injEq]
    have h0 : (0 : K) < gradSmooth := by unfold gradSmooth; positivity
    have h1 := hp preds[i] (List.getElem_mem _)
    have h2 := ht (targets[i]'(by omega)) (List.getElem_mem _)
    have h3 : preds[i] + gradSmooth ≠ 0 := by positivity
    have h4 : (targets[i]'(by omega)) + gradSmooth ≠ 0 := by positivity
    have h5 : preds[i] ^ 2 + gradSmooth ≠ 0 := by positivity
    field_simp
  · rw [List.getElem?_eq_none (by omega), List.getElem?_eq_none (by omega)]
    rfl

/-- C109, other losses: for classification `get_next_targets` raises TypeError; for regression it returns the residuals whatever the loss. -/
theorem C109_other {K : Type} [Field K] (targets preds : List K) :
    getNextTargets .other true targets preds = .error .typeError ∧
    ∀ loss, targets.length = preds.length → getNextTargets loss false targets preds = .ok (List.zipWith (fun t p => t - p) targets preds) := by
  refine ⟨rfl, fun loss hl => ?_⟩
  unfold getNextTargets
  rw [if_neg (by simp), if_pos hl]

/-- C109, the forest: for regression these are the targets that the forest's boosting loop hands to the next tree, where the predictions of
every tree but the first are scaled by the learning rate. -/
theorem C109_forest {K : Type} [Field K] (lr : K) (i : Nat) (loss : Loss) (targets preds : List K) (hl : targets.length = preds.length) :
    getNextTargets loss false targets (preds.map (fun p => if i = 0 then p else p * lr)) = .ok (boostTargets lr i targets preds) := by
  unfold getNextTargets boostTargets
  rw [if_neg (by simp), if_pos (by simpa using hl), List.zipWith_map_right]

/-! ### Concrete cases -/

/-- Opposite targets for the same predictions give the same new targets. -/
example : getNextTargets .ce true ([1, 0, 1] : List ℚ) [1, 1/2, 1/4] = getNextTargets .ce true [0, 1, 0] [1, 1/2, 1/4] := by decide +kernel

example : getNextTargets .ce true ([1, 0] : List ℚ) [1, 1/2] = .ok [1, 25001/50001] := by decide +kernel

example : getNextTargets .other false ([3, 5] : List ℚ) [1, 7] = .ok [2, -2] := by decide +kernel

example : getNextTargets .ce false ([3, 5] : List ℚ) [1] = .error .valueError := by decide +kernel

example : ∃ g : List ℝ, findGradient .ce [1/2, 1] [1, 0] = .ok (some g) ∧ ∀ p ∈ ([1/2, 1] : List ℝ), 0 ≤ p :=
  ⟨_, rfl, by intro p hp; simp only [List.mem_cons, List.not_mem_nil, or_false] at hp; rcases hp with rfl | rfl <;> norm_num⟩

end FF
